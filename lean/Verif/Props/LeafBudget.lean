import Verif.Props.Additive
import Verif.Props.ExactCovers
import Verif.Props.TotalGain
import Verif.Proofs.Stump

/-!
# C140: min_leaf_weight limits the size and the depth of trees

Both sides of every split hold at least `min_leaf_weight` (src/splitter.rs 400-403, 474-477, 843-846, 925-928) and the children
share the weight of their parent, so a tree cannot have more splits or be deeper than the total weight allows.
-/

namespace Verif

open scoped Verif

set_option linter.unusedSectionVars false

/-- The number of splits of a tree. -/
def Tree.splitsOf {F D : Type} (t : Tree F D) : Nat := t.nodes.countP fun n => !n.isLeaf

section
variable {K : Type} [Field K] [LinearOrder K] [IsStrictOrderedRing K] {m32 m64 : Fmt K}
  {t : Tree (FX m32) (FX m64)}

/-- Both sides of every split hold at least `q`, and no node holds less than nothing. -/
structure Tree.Heavy (t : Tree (FX m32) (FX m64)) (q : K) : Prop where
  sides : ∀ n ∈ t.nodes, n.isLeaf = false → ∃ l r, t.nodes[n.leftChild]? = some l ∧ t.nodes[n.rightChild]? = some r ∧
    q ≤ l.hessianSum.val ∧ q ≤ r.hessianSum.val
  nonneg : ∀ n ∈ t.nodes, 0 ≤ n.hessianSum.val

/-- Is there a split at a position? -/
def Tree.isSplit (t : Tree (FX m32) (FX m64)) (i : Nat) : Bool :=
  match t.nodes[i]? with
  | some n => !n.isLeaf
  | none => false

/-- The cover at a position. -/
def Tree.coverAt (t : Tree (FX m32) (FX m64)) (i : Nat) : K :=
  match t.nodes[i]? with
  | some n => n.hessianSum.val
  | none => 0

theorem Tree.Heavy.kids (hwf : t.Wf) (hc : t.CoversAdd) {q : K} (hh : t.Heavy q) {i : Nat}
    {n : Node (FX m32) (FX m64)} (hn : t.nodes[i]? = some n) (hl : n.isLeaf = false) :
    q ≤ t.coverAt n.leftChild ∧ q ≤ t.coverAt n.rightChild ∧ t.coverAt i = (n.kidsStats.map t.coverAt).sum ∧
    0 ≤ t.coverAt n.missingNode := by
  have hm := List.mem_of_getElem? hn
  obtain ⟨l, r, h1, h2, h3, h4⟩ := hh.sides n hm hl
  obtain ⟨c1, c2⟩ := hc n hm hl l r h1 h2
  have e1 : t.coverAt n.leftChild = l.hessianSum.val := by simp [Tree.coverAt, h1]
  have e2 : t.coverAt n.rightChild = r.hessianSum.val := by simp [Tree.coverAt, h2]
  have e0 : t.coverAt i = n.hessianSum.val := by simp [Tree.coverAt, hn]
  have hmk : n.IsChild n.missingNode := ⟨hl, Or.inr (Or.inr rfl)⟩
  obtain ⟨_, hlt⟩ := hwf.child i n _ hn hmk
  have hmn := List.getElem?_eq_getElem hlt
  have e3 : t.coverAt n.missingNode = t.nodes[n.missingNode].hessianSum.val := by simp [Tree.coverAt, hmn]
  refine ⟨by rw [e1]; exact h3, by rw [e2]; exact h4, ?_, by rw [e3]; exact hh.nonneg _ (List.getElem_mem hlt)⟩
  unfold Node.kidsStats
  rw [hl, e0]
  simp only [Bool.false_eq_true, if_false]
  by_cases hb : n.hasMissingBranch = true
  · have hb' := hb
    simp only [Node.hasMissingBranch, Bool.and_eq_true, bne_iff_ne, ne_eq] at hb'
    rw [if_pos hb]
    simp only [List.map_cons, List.map_nil, List.sum_cons, List.sum_nil, add_zero, e1, e2, e3]
    rw [c2 _ hb'.1 hb'.2 hmn]; ring
  · have hb' := hb
    simp only [Node.hasMissingBranch, Bool.and_eq_true, bne_iff_ne, ne_eq, not_and_or, not_not] at hb'
    rw [if_neg hb]
    simp only [List.map_cons, List.map_nil, List.sum_cons, List.sum_nil, add_zero, e1, e2]
    exact c1 hb'

/-- The splits below a node cost its cover. -/
theorem Tree.Heavy.walk (hwf : t.Wf) (hc : t.CoversAdd) {q : K} (hq : 0 ≤ q) (hh : t.Heavy q) : ∀ fuel i,
    i < t.nodes.length → t.nodes.length ≤ i + fuel →
      (t.isSplit i = false → (walk (t.at_ Node.kidsStats) fuel i).countP t.isSplit = 0) ∧
      (t.isSplit i = true → (((walk (t.at_ Node.kidsStats) fuel i).countP t.isSplit : Nat) + 1 : K) * q ≤ t.coverAt i) := by
  intro fuel
  induction fuel with
  | zero => intro i h1 h2; omega
  | succ fuel ih =>
    intro i hi hf
    have hn := List.getElem?_eq_getElem hi
    rw [Verif.walk]
    cases hl : t.nodes[i].isLeaf with
    | true =>
      have hk : t.at_ Node.kidsStats i = [] := by simp [Tree.at_, hn, Node.kidsStats, hl]
      have hs : t.isSplit i = false := by simp [Tree.isSplit, hn, hl]
      rw [hk, hs]
      simp [hs]
    | false =>
      have hk : t.at_ Node.kidsStats i = t.nodes[i].kidsStats := by simp [Tree.at_, hn]
      have hs : t.isSplit i = true := by simp [Tree.isSplit, hn, hl]
      have hkid : ∀ j ∈ t.nodes[i].kidsStats, i < j ∧ j < t.nodes.length := by
        intro j hj
        rw [← hk, (hwf.kidsStats).mem] at hj
        exact hwf.child_lt hj
      obtain ⟨a1, a2, a3, a4⟩ := hh.kids hwf hc hn hl
      refine ⟨fun h => (by rw [hs] at h; exact absurd h (by decide)), fun _ => ?_⟩
      rw [hk, a3]
      -- every child pays for its splits, and the two sides for one more leaf each
      have pay : ∀ j ∈ t.nodes[i].kidsStats, (((Verif.walk (t.at_ Node.kidsStats) fuel j).countP t.isSplit : Nat) : K) * q +
          (if j = t.nodes[i].missingNode ∧ t.nodes[i].hasMissingBranch then 0 else q) ≤ t.coverAt j := by
        intro j hj
        obtain ⟨b1, b2⟩ := ih j (hkid j hj).2 (by have := (hkid j hj).1; omega)
        have hqc : (if j = t.nodes[i].missingNode ∧ t.nodes[i].hasMissingBranch then 0 else q) ≤ t.coverAt j := by
          split
          · rename_i he
            rw [he.1]; exact a4
          · rename_i he
            unfold Node.kidsStats at hj
            rw [hl] at hj
            simp only [Bool.false_eq_true, if_false] at hj
            split at hj
            · rename_i hb
              simp only [List.mem_cons, List.not_mem_nil, or_false] at hj
              rcases hj with rfl | rfl | rfl
              · exact a1
              · exact a2
              · exact absurd ⟨rfl, hb⟩ he
            · simp only [List.mem_cons, List.not_mem_nil, or_false] at hj
              rcases hj with rfl | rfl
              · exact a1
              · exact a2
        cases hsj : t.isSplit j with
        | false => rw [b1 hsj]; simpa using hqc
        | true =>
          have := b2 hsj
          have h2 : (if j = t.nodes[i].missingNode ∧ t.nodes[i].hasMissingBranch then 0 else q) ≤ q := by
            split
            · exact hq
            · exact le_rfl
          linarith
      have hkd : t.nodes[i].leftChild ≠ t.nodes[i].rightChild := hwf.distinct i _ hn hl
      rw [List.countP_cons, hs, List.countP_flatMap]
      simp only [if_true]
      unfold Node.kidsStats at pay ⊢
      rw [hl] at pay ⊢
      simp only [Bool.false_eq_true, if_false] at pay ⊢
      by_cases hb : t.nodes[i].hasMissingBranch = true
      · have hb' := hb
        simp only [Node.hasMissingBranch, Bool.and_eq_true, bne_iff_ne, ne_eq] at hb'
        simp only [hb, if_true] at pay ⊢
        have p1 := pay t.nodes[i].leftChild (by simp)
        have p2 := pay t.nodes[i].rightChild (by simp)
        have p3 := pay t.nodes[i].missingNode (by simp)
        rw [if_neg (by rintro ⟨h, _⟩; exact hb'.2 h.symm)] at p1
        rw [if_neg (by rintro ⟨h, _⟩; exact hb'.1 h.symm)] at p2
        rw [if_pos ⟨rfl, trivial⟩] at p3
        simp only [List.map_cons, List.map_nil, List.sum_cons, List.sum_nil, add_zero, Function.comp]
        push_cast
        linarith
      · simp only [hb, Bool.false_eq_true, if_false, and_false] at pay ⊢
        have p1 := pay t.nodes[i].leftChild (by simp)
        have p2 := pay t.nodes[i].rightChild (by simp)
        simp only [List.map_cons, List.map_nil, List.sum_cons, List.sum_nil, add_zero, Function.comp]
        push_cast
        linarith

theorem countP_range_getElem? {α : Type} (l : List α) (p : α → Bool) :
    (List.range l.length).countP (fun i => match l[i]? with | some a => p a | none => false) = l.countP p := by
  induction l with
  | nil => rfl
  | cons a l ih =>
    rw [List.length_cons, List.range_succ_eq_map, List.countP_cons, List.countP_cons, List.countP_map, ← ih]
    congr 1

/-- The splits of a tree cost the cover of the root. -/
theorem Tree.Heavy.splits (hwf : t.Wf) (hc : t.CoversAdd) {q : K} (hq : 0 ≤ q) (hh : t.Heavy q)
    (hs : 0 < t.splitsOf) : ((t.splitsOf : K) + 1) * q ≤ t.coverAt 0 := by
  have hp := walk_perm hwf hwf.kidsStats
  obtain ⟨a1, a2⟩ := hh.walk hwf hc hq t.nodes.length 0 (List.length_pos_iff.2 hwf.nonempty) (by omega)
  have e : (Verif.walk (t.at_ Node.kidsStats) t.nodes.length 0).countP t.isSplit = t.splitsOf := by
    rw [hp.countP_eq]
    refine Eq.trans ?_ (countP_range_getElem? t.nodes fun n => !n.isLeaf)
    congr 1
    funext i
    unfold Tree.isSplit
    cases t.nodes[i]? <;> rfl
  rw [e] at a1 a2
  cases h0 : t.isSplit 0 with
  | false => have := a1 h0; omega
  | true => exact a2 h0

/-- A child is lighter than its parent by `q`, and the parent of a child has twice `q`. -/
theorem Tree.Heavy.step (hwf : t.Wf) (hc : t.CoversAdd) {q : K} (hh : t.Heavy q) {i j : Nat}
    {n : Node (FX m32) (FX m64)} (hn : t.nodes[i]? = some n) (hj : n.IsChild j) :
    t.coverAt j + q ≤ t.coverAt i ∧ 2 * q ≤ t.coverAt i := by
  obtain ⟨a1, a2, a3, a4⟩ := hh.kids hwf hc hn hj.1
  unfold Node.kidsStats at a3
  rw [hj.1] at a3
  simp only [Bool.false_eq_true, if_false] at a3
  have nn : ∀ k, 0 ≤ t.coverAt k := by
    intro k
    unfold Tree.coverAt
    split
    · rename_i m hm
      exact hh.nonneg m (List.mem_of_getElem? hm)
    · exact le_rfl
  have hl := nn n.leftChild
  have hr := nn n.rightChild
  by_cases hb : n.hasMissingBranch = true
  · rw [if_pos hb] at a3
    simp only [List.map_cons, List.map_nil, List.sum_cons, List.sum_nil, add_zero] at a3
    refine ⟨?_, by linarith⟩
    rcases hj.2 with rfl | rfl | rfl <;> linarith
  · rw [if_neg hb] at a3
    simp only [List.map_cons, List.map_nil, List.sum_cons, List.sum_nil, add_zero] at a3
    simp only [Node.hasMissingBranch, Bool.and_eq_true, bne_iff_ne, ne_eq, not_and_or, not_not] at hb
    refine ⟨?_, by linarith⟩
    rcases hj.2 with rfl | rfl | rfl
    · linarith
    · linarith
    · rcases hb with e | e <;> rw [e] <;> linarith

theorem Tree.Heavy.dist (hwf : t.Wf) (hc : t.CoversAdd) {q : K} (hh : t.Heavy q) {i d : Nat} (h : t.Dist i d) :
    t.coverAt i + d * q ≤ t.coverAt 0 := by
  induction h with
  | root => simp
  | child hn hj _ ih =>
    have := (hh.step hwf hc hn hj).1
    push_cast
    linarith

/-- The steps to a node cost the cover of the root. -/
theorem Tree.Heavy.depth (hwf : t.Wf) (hc : t.CoversAdd) {q : K} (hh : t.Heavy q) {i d : Nat} (h : t.Dist i d)
    (hd : 0 < d) : ((d : K) + 1) * q ≤ t.coverAt 0 := by
  cases h with
  | root => omega
  | @child i' _ d' n hn hj hd' =>
    have h1 := (hh.step hwf hc hn hj).2
    have h2 := hh.dist hwf hc hd'
    push_cast
    linarith

/-- What a total weight of `W` allows with leaves of weight `q`: a tree with a split has at most `W / q - 1` splits,
and no node is more than `W / q - 1` steps below the root. -/
def Tree.Within (t : Tree (FX m32) (FX m64)) (q W : K) : Prop :=
  (0 < t.splitsOf → ((t.splitsOf : K) + 1) * q ≤ W) ∧ ∀ i d, t.Dist i d → 0 < d → ((d : K) + 1) * q ≤ W

theorem Tree.Heavy.within (hwf : t.Wf) (hc : t.CoversAdd) {q W : K} (hq : 0 ≤ q) (hh : t.Heavy q)
    (hW : t.coverAt 0 ≤ W) : t.Within q W :=
  ⟨fun h => (hh.splits hwf hc hq h).trans hW, fun _ _ h hd => (hh.depth hwf hc h hd).trans hW⟩

/-- If not even two leaves can be paid for, there is no split. -/
theorem Tree.Within.single {q W : K} (h : t.Within q W) (hq : 0 ≤ q) (hW : W < 2 * q) : t.splitsOf = 0 := by
  by_contra hs
  have hs : 0 < t.splitsOf := Nat.pos_of_ne_zero hs
  have h1 := h.1 hs
  have h2 : (1 : K) ≤ t.splitsOf := by exact_mod_cast hs
  have : 2 * q ≤ ((t.splitsOf : K) + 1) * q := mul_le_mul_of_nonneg_right (by linarith) hq
  linarith

/-- Sums over some of the rows. -/
theorem sum_rows_le_total {w : List K} (hw : ∀ x ∈ w, 0 ≤ x) {rows : List Nat} (hn : rows.Nodup)
    (hlt : ∀ r ∈ rows, r < w.length) {f : Nat → K} {a : K} (ha : 0 ≤ a) (hf : ∀ r ∈ rows, f r ≤ a * w.getD r 0) :
    (rows.map f).sum ≤ a * w.sum := by
  have h0 : ∀ r, 0 ≤ w.getD r 0 := by
    intro r
    rw [List.getD_eq_getElem?_getD]
    cases h : w[r]? with
    | none => exact le_rfl
    | some x => exact hw x (List.mem_of_getElem? h)
  have e1 : (rows.map f).sum = ∑ r ∈ rows.toFinset, f r := (List.sum_toFinset f hn).symm
  have e2 : w.sum = ∑ r ∈ Finset.range w.length, w.getD r 0 := by
    rw [← List.toFinset_range, List.sum_toFinset _ List.nodup_range]
    congr 1
    apply List.ext_getElem
    · simp
    · intro i h1 h2
      simp [h1]
  rw [e1, e2, Finset.mul_sum]
  refine (Finset.sum_le_sum fun r hr => hf r (by simpa using hr)).trans ?_
  refine Finset.sum_le_sum_of_subset_of_nonneg (fun r hr => ?_) fun r _ _ => mul_nonneg ha (h0 r)
  simpa using hlt r (by simpa using hr)

end

/-! ### Rounded arithmetic -/

section
variable {R : Type} {e32 l32 s32 e64 l64 s64 : ℚ → RV ℚ}
variable {env : Env R (FX (Ieee.b32 e32 l32 s32)) (FX (Ieee.b64 e64 l64 s64))}
  {b b' : Booster (FX (Ieee.b32 e32 l32 s32)) (FX (Ieee.b64 e64 l64 s64))}
  {X : Matrix (FX (Ieee.b64 e64 l64 s64))} {y : List (FX (Ieee.b64 e64 l64 s64))} {w : List ℚ} {k : ℤ}
  {ev : Option (List (EvalSet (FX (Ieee.b64 e64 l64 s64))))}

/-- **C140** (`f32` and `f64` with rounding, SquaredLoss, no GOSS).  With weights that are multiples of a power of
two, with a total of at most 2^24 units, a tree with `s > 0` splits has `(s + 1) * min_leaf_weight ≤ total weight`,
and the same holds for `d` in place of `s` when a node is `d > 0` steps below the root. -/
theorem C140_rounded (hS : env.sorter.Ok) (hr : env.rng.Ok) (hX : X.Shaped) (hy : y.length = X.rows)
    (hw : w.length = X.rows) (hk : UnitWeights k w)
    (hmax : ∀ v ∈ X.data, ¬ IsMissing b.missing v → (v ≤ᶠ Fl.maxv) = true)
    {q : ℚ} (hq : b.minLeafWeight = FX.fin q) (hpos : 0 < q) (hobj : b.objectiveType = .squaredLoss)
    (hgoss : b.sampleMethod ≠ .goss)
    (h : b.fit env X y (w.map FX.fin) ev = .ok (b', .ok ())) : ∀ t ∈ b'.trees, t.Within q w.sum := by
  intro t ht
  have hpos' : (0 <ᶠ b.minLeafWeight) = true := by
    rw [hq, FX.zero_def, FX.lt_fin]; exact decide_eq_true hpos
  have hwf := C03_well_formed env b b' X y _ ev h t ht
  have hnn : ∀ x ∈ w, 0 ≤ x := fun x hx => Mult.nonneg (Ieee.pow2_pos k) (hk.mult x hx)
  have hg : ∀ r, 0 ≤ w.getD r 0 := by
    intro r
    rw [List.getD_eq_getElem?_getD]
    cases h : w[r]? with
    | none => exact le_rfl
    | some x => exact hnn x (List.mem_of_getElem? h)
  obtain ⟨rows, r1, r2, _, _, r3⟩ := C100_covers hS hr hX hy hw hk hmax hpos' hobj hgoss h t ht
  have hca : t.CoversAdd := by
    intro n hn hl l r h1 h2
    obtain ⟨l', r', m, c1, c2, c3, c4⟩ := C100_children hS hr hX hy hw hk hmax hpos' hobj hgoss h t ht n hn hl
    rw [h1] at c1; cases c1
    rw [h2] at c2; cases c2
    constructor
    · intro hm
      rcases c4 with ⟨_, c⟩ | ⟨c, _⟩
      · exact c
      · rcases hm with e | e
        · exact absurd e c.2
        · exact absurd e c.1
    · intro m' d1 d2 hm
      rw [hm] at c3; cases c3
      rcases c4 with ⟨c, _⟩ | ⟨_, c⟩
      · rcases c with e | e
        · exact absurd e d2
        · exact absurd e d1
      · rw [c]; ring
  have hh : t.Heavy q := by
    constructor
    · intro n hn hl
      obtain ⟨l, r, c1, c2, c3, c4⟩ := C07_min_leaf_weight env b b' X y _ ev h t ht n hn hl
      refine ⟨l, r, c1, c2, ?_, ?_⟩
      · rw [r3 _ _ c1, hq, FX.lt_fin] at c3
        rw [r3 _ _ c1]
        exact not_lt.1 (of_decide_eq_false c3)
      · rw [r3 _ _ c2, hq, FX.lt_fin] at c4
        rw [r3 _ _ c2]
        exact not_lt.1 (of_decide_eq_false c4)
    · intro n hn
      obtain ⟨i, hi⟩ := List.mem_iff_getElem?.1 hn
      rw [r3 _ _ hi]
      exact List.sum_nonneg fun x hx => by
        obtain ⟨r, _, rfl⟩ := List.mem_map.1 hx
        exact hg r
  refine hh.within hwf hca hpos.le ?_
  unfold Tree.coverAt
  split
  · rename_i n hn
    rw [r3 _ _ hn]
    have := sum_rows_le_total hnn (rows := rowsAt t X b.missing rows 0) (r1.filter _)
      (fun r hr => by rw [hw]; exact r2 r (List.mem_of_mem_filter hr)) (f := fun r => w.getD r 0) zero_le_one
      (fun r _ => by rw [one_mul])
    rw [one_mul] at this
    exact this
  · exact List.sum_nonneg hnn

/-- **C140** (single leaves, `f32` and `f64` with rounding).  If the total weight is less than twice
`min_leaf_weight`, no tree has a split. -/
theorem C140_single (hS : env.sorter.Ok) (hr : env.rng.Ok) (hX : X.Shaped) (hy : y.length = X.rows)
    (hw : w.length = X.rows) (hk : UnitWeights k w)
    (hmax : ∀ v ∈ X.data, ¬ IsMissing b.missing v → (v ≤ᶠ Fl.maxv) = true)
    {q : ℚ} (hq : b.minLeafWeight = FX.fin q) (hpos : 0 < q) (hobj : b.objectiveType = .squaredLoss)
    (hgoss : b.sampleMethod ≠ .goss)
    (h : b.fit env X y (w.map FX.fin) ev = .ok (b', .ok ())) (hW : w.sum < 2 * q) :
    ∀ t ∈ b'.trees, ∀ n ∈ t.nodes, n.isLeaf = true := by
  intro t ht n hn
  have := (C140_rounded hS hr hX hy hw hk hmax hq hpos hobj hgoss h t ht).single hpos.le hW
  unfold Tree.splitsOf at this
  rw [List.countP_eq_zero] at this
  simpa using this n hn

end

/-! ### Exact arithmetic -/

section
variable {K : Type} [Field K] [LinearOrder K] [IsStrictOrderedRing K] {m32 m64 : Fmt K}
  [m32.Exact] [m64.Exact]
variable {R : Type} {env : Env R (FX m32) (FX m64)} {b b' : Booster (FX m32) (FX m64)}
  {X : Matrix (FX m64)} {y w : List K} {ev : Option (List (EvalSet (FX m64)))} {l1 l2 mds lr q : K}

/-- **C140** (exact arithmetic, both objectives, no GOSS).  A tree with `s > 0` splits has
`(s + 1) * min_leaf_weight ≤ total weight`, a quarter of the total weight for LogLoss, and the same holds for `d` in
place of `s` when a node is `d > 0` steps below the root. -/
theorem C140_exact (h : PlainFit env b X y w ev b' l1 l2 mds lr) (hq : b.minLeafWeight = FX.fin q)
    (hgoss : b.sampleMethod ≠ .goss) : ∀ t ∈ b'.trees, t.Within q (b.objectiveType.curvature * w.sum) := by
  intro t ht
  have hpos : 0 < q := by
    have := h.minLeafWeight
    rw [hq, FX.zero_def, FX.lt_fin] at this
    exact of_decide_eq_true this
  have hwf := C03_well_formed env b b' X _ _ ev h.fit t ht
  have htop : (0 : K) ≤ b.objectiveType.curvature := by
    cases b.objectiveType
    · exact div_nonneg zero_le_one (by norm_num)
    · exact zero_le_one
  obtain ⟨binned, p, k, cfg, rows, hA⟩ := h.tree_mem ht
  obtain ⟨o, gs, nodes, hV⟩ := hA.trained.view hA.treeAt.fitted.fit
  have hcov : ∀ (i : Nat) n, t.nodes[i]? = some n →
      n.hessianSum = FX.fin ((rowsAt t X b.missing rows i).map (rowVals cfg.train.hess)).sum :=
    fun i n hn => C01_cover hA.trained hA.treeAt.fitted.fit hn
  have hh : t.Heavy q := by
    constructor
    · intro n hn hl
      obtain ⟨l, r, c1, c2, c3, c4⟩ := C07_min_leaf_weight env b b' X _ _ ev h.fit t ht n hn hl
      refine ⟨l, r, c1, c2, ?_, ?_⟩
      · rw [hcov _ _ c1, hq, FX.lt_fin] at c3
        rw [hcov _ _ c1]
        exact not_lt.1 (of_decide_eq_false c3)
      · rw [hcov _ _ c2, hq, FX.lt_fin] at c4
        rw [hcov _ _ c2]
        exact not_lt.1 (of_decide_eq_false c4)
    · intro n hn
      obtain ⟨i, hi⟩ := List.mem_iff_getElem?.1 hn
      rw [hcov _ _ hi]
      exact List.sum_nonneg fun x hx => by
        obtain ⟨r, hr, rfl⟩ := List.mem_map.1 hx
        exact hA.params.hess r (List.mem_of_mem_filter hr)
  refine hh.within hwf hV.coversAdd hpos.le ?_
  have hhess : ∀ r ∈ rows, rowVals cfg.train.hess r ≤ b.objectiveType.curvature * w.getD r 0 := by
    intro r hr
    have hi : r < X.rows := hA.trained.rows_lt r hr
    have hiy : r < y.length := by rw [h.ylen]; exact hi
    have hip : r < p.length := by rw [hA.len]; exact hi
    have hiw : r < w.length := by rw [h.wlen]; exact hi
    obtain ⟨r1, r2, hsam⟩ := hA.treeAt.sample
    have e3 : cfg.train.hess = (calcGradHess b.objectiveType (y.map FX.fin : List (FX m64)) (p.map FX.fin)
        (w.map FX.fin)).2 := by
      cases hsm : b.sampleMethod with
      | none =>
        rw [hsm] at hsam
        simp only [sampleIndex, Res.ok.injEq, Prod.mk.injEq] at hsam
        exact hsam.2.2.1.symm
      | random =>
        rw [hsm] at hsam
        simp only [sampleIndex, Res.ok.injEq, Prod.mk.injEq] at hsam
        exact hsam.2.2.1.symm
      | goss => exact absurd hsm hgoss
    obtain ⟨_, g2⟩ := calcGradHess_get (F := FX m32) b.objectiveType (y.map FX.fin : List (FX m64))
      (p.map FX.fin) (w.map FX.fin) r (yi := FX.fin y[r]) (pi := FX.fin p[r]) (wi := FX.fin w[r])
      (by simp [hiy]) (by simp [hip]) (by simp [hiw])
    unfold rowVals
    rw [e3, g2]
    have := hessOf_le (m32 := m32) h.exp y[r] p[r] w[r] (h.nonneg _ (List.getElem_mem hiw))
    simpa [hiw] using this
  unfold Tree.coverAt
  split
  · rename_i n hn
    rw [hcov _ _ hn]
    exact sum_rows_le_total h.nonneg (hA.trained.nodup.filter _)
      (fun r hr => by rw [h.wlen]; exact hA.trained.rows_lt r (List.mem_of_mem_filter hr)) htop
      (fun r hr => hhess r (List.mem_of_mem_filter hr))
  · exact mul_nonneg htop (List.sum_nonneg h.nonneg)

end

/-! ### Examples -/

/-- The hypotheses of `C140_rounded` are met by the example of C100: a total weight of 7/4, leaves of at least 1/4 and
two trees with three splits and two levels, so that four times 1/4 has to be at most 7/4. -/
example : ∃ b b', ecB = some b ∧ b.minLeafWeight = FX.fin (1/4) ∧
    b.fit floatEnv mfX mfY ([1/4, 3/4, 1/2, 1/4].map FX.fin) none = .ok (b', .ok ()) ∧
    b'.trees.map Tree.splitsOf = [3, 3] ∧ ∀ t ∈ b'.trees, t.Dist 3 2 := by
  have : (match ecB with
    | some b => match b.fit floatEnv mfX mfY ([1/4, 3/4, 1/2, 1/4].map FX.fin) none with
      | .ok (b', .ok ()) => decide (b.minLeafWeight = FX.fin (1/4) ∧ b'.trees.map Tree.splitsOf = [3, 3] ∧
          ∀ t ∈ b'.trees, t.nodes.map (fun n => (n.isLeaf, n.leftChild)) =
            [(false, 1), (false, 3), (false, 5), (true, 0), (true, 0), (true, 0), (true, 0)])
      | _ => false
    | none => false) = true := by decide +kernel
  split at this
  · rename_i b hb
    split at this
    · rename_i b' h
      obtain ⟨h1, h2, h3⟩ := of_decide_eq_true this
      refine ⟨b, b', hb, h1, h, h2, fun t ht => ?_⟩
      have := h3 t ht
      have g0 := congrArg (fun l => l[0]?) this
      have g1 := congrArg (fun l => l[1]?) this
      simp only [List.getElem?_map, Option.map_eq_some_iff, List.getElem?_cons_zero, List.getElem?_cons_succ] at g0 g1
      obtain ⟨n0, a0, b0⟩ := g0
      obtain ⟨n1, a1, b1⟩ := g1
      simp only [Prod.mk.injEq] at b0 b1
      exact .child a1 ⟨b1.1, Or.inl b1.2.symm⟩ (.child a0 ⟨b0.1, Or.inl b0.2.symm⟩ .root)
    · cases this
  · cases this

/-- **C140** (the bound is reached).  Four rows of weight 1, leaves of at least 1 and trees with three splits. -/
theorem C140_sharp : ∃ b' : Booster Q Q,
    PlainFit exEnv (exDepth 2) exAnd [0, 1, 2, 4] (List.replicate 4 (1 : ℚ)) none b' 0 0 0 (1/2) ∧
    (exDepth 2).minLeafWeight = FX.fin 1 ∧ (exDepth 2).sampleMethod ≠ .goss ∧ b'.trees ≠ [] ∧
    ∀ t ∈ b'.trees, ((t.splitsOf : ℚ) + 1) * 1 = (exDepth 2).objectiveType.curvature * (List.replicate 4 (1 : ℚ)).sum := by
  have : (match (exDepth 2).fit exEnv exAnd [q 0, q 1, q 2, q 4] [q 1, q 1, q 1, q 1] none with
    | .ok (b', .ok ()) => decide (b'.trees ≠ [] ∧ ∀ t ∈ b'.trees, t.splitsOf = 3)
    | _ => false) = true := by decide +kernel
  split at this
  · rename_i b' h
    obtain ⟨h1, h2⟩ := of_decide_eq_true this
    refine ⟨b', ?_, rfl, by decide, h1, fun t ht => ?_⟩
    · exact {
        sorter := exSorter_ok
        rng := exRng_ok
        shaped := rfl
        ylen := rfl
        wlen := rfl
        max := by
          show ∀ v ∈ exAnd.data, ¬IsMissing FX.nan v → (v ≤ᶠ Fl.maxv) = true
          decide +kernel
        minLeafWeight := by
          show FX.fin 0 ≤ᶠ q 1
          decide
        l1_eq := rfl
        l2_eq := rfl
        mds_eq := rfl
        lr_eq := rfl
        l2_nonneg := le_rfl
        positive := .inr ⟨rfl, 1, by simp, one_pos⟩
        goss := fun h => nomatch h
        exp := fun h => nomatch h
        base := fun s hs => by
          have hs : s = exFresh.baseScore := hs
          rw [hs]; exact ⟨_, rfl⟩
        fit := h }
    · rw [h2 t ht]
      show ((3 : ℕ) + 1 : ℚ) * 1 = (ObjectiveType.squaredLoss).curvature * _
      simp only [ObjectiveType.curvature, List.replicate, List.sum_cons, List.sum_nil]
      norm_num
  · cases this

end Verif
