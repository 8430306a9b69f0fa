import Verif.Proofs.GridFit
import Verif.Props.Cover
import Verif.Props.MonotoneFloat

/-!
# C100: covers are exact in floating point arithmetic

With squared loss the hessian of a row is its weight.  If the weights are multiples of a power of two and their
total is small enough (all weights 1 and at most 2^24 rows, say), no sum of weights is ever rounded.
-/

namespace Verif

open scoped Verif

set_option linter.unusedSectionVars false

/-! ### The formats -/

namespace Ieee

theorem fmt_grid {p : Nat} {emin k : ℤ} {maxF : ℚ} {expF lnF sqrtF : ℚ → RV ℚ} {N : Nat} (hp : 0 < p)
    (hN : N ≤ 2 ^ p) (hk : emin ≤ k) (hmax : (N : ℚ) * pow2 k ≤ maxF) :
    (fmt p emin maxF expF lnF sqrtF).Grid (pow2 k) N := by
  intro n hn
  have h0 : (0 : ℚ) ≤ (n : ℚ) * pow2 k := mul_nonneg (Nat.cast_nonneg n) (pow2_pos k).le
  have hr : rnd p emin ((n : ℚ) * pow2 k) = (n : ℚ) * pow2 k := by
    rw [rnd_of_nonneg h0, rndPos_fixed hp (le_trans hn hN) hk]
  have hle : (n : ℚ) * pow2 k ≤ maxF :=
    le_trans (mul_le_mul_of_nonneg_right (by exact_mod_cast hn) (pow2_pos k).le) hmax
  show (if maxF < rnd p emin ((n : ℚ) * pow2 k) then RV.pinf
    else if rnd p emin ((n : ℚ) * pow2 k) < -maxF then .ninf else .fin (rnd p emin ((n : ℚ) * pow2 k))) = _
  rw [hr, if_neg (not_lt.2 hle), if_neg (by linarith)]

variable {expF lnF sqrtF : ℚ → RV ℚ}

theorem grid_max {k : ℤ} (h : k ≤ 103) : ((2 ^ 24 : Nat) : ℚ) * pow2 k ≤ (2 : ℚ) ^ 127 := by
  rw [← pow2_nat, ← pow2_add]
  have := pow2_le (show ((24 : Nat) : ℤ) + k ≤ ((127 : Nat) : ℤ) by push_cast; omega)
  rw [pow2_nat 127] at this
  exact_mod_cast this

/-- `f32` represents the multiples of a power of two up to 2^24 times the unit. -/
theorem b32_grid {k : ℤ} (h1 : -149 ≤ k) (h2 : k ≤ 103) :
    (b32 expF lnF sqrtF).Grid (pow2 k) (2 ^ 24) :=
  fmt_grid (by decide) le_rfl h1 (le_trans (grid_max h2) (by norm_num))

theorem b64_grid {k : ℤ} (h1 : -149 ≤ k) (h2 : k ≤ 103) :
    (b64 expF lnF sqrtF).Grid (pow2 k) (2 ^ 24) :=
  fmt_grid (by decide) (by decide +kernel) (by omega) (le_trans (grid_max h2) (by
    have : 2 ^ 127 ≤ (2 ^ 53 - 1) * 2 ^ 971 := by decide +kernel
    exact_mod_cast this))

theorem b64_one : (b64 expF lnF sqrtF).Repr 1 := by
  have := b64_grid (expF := expF) (lnF := lnF) (sqrtF := sqrtF) (k := 0) (by decide) (by decide) 1
    (by norm_num)
  simpa [pow2, Fmt.Repr] using this

end Ieee

theorem eq_pair {α : Type} {l : List α} {a b : α} (h : l.length = 2) (h0 : l[0]? = some a)
    (h1 : l[1]? = some b) : l = [a, b] := by
  match l, h with
  | [_, _], _ => cases h0; cases h1; rfl

theorem eq_triple {α : Type} {l : List α} {a b c : α} (h : l.length = 3) (h0 : l[0]? = some a)
    (h1 : l[1]? = some b) (h2 : l[2]? = some c) : l = [a, b, c] := by
  match l, h with
  | [_, _, _], _ => cases h0; cases h1; cases h2; rfl

section
variable {K : Type} [Field K] [LinearOrder K] [IsStrictOrderedRing K] {m32 m64 : Fmt K} [m64.Rounds]
variable {S : Sorter} {X : Matrix (FX m64)} {w : List K} {nbins : Nat} {missing : FX m64} {u : K} {N : Nat}
  {hv : Nat → K} {c : GrowCfg (FX m32) (FX m64)} {sm : SampleMethod} {rows : List Nat}
  {t : Tree (FX m32) (FX m64)}

theorem GridView.rowsAt {o : SNode (FX m32) (FX m64) → Prop} {gs : List (Ghost (FX m32) (FX m64))}
    {nodes : List (Node (FX m32) (FX m64))} (hV : GridView X missing hv c rows t o gs nodes)
    (hn : rows.Nodup) {i : Nat} {g : Ghost (FX m32) (FX m64)} (hg : gs[i]? = some g) :
    (Verif.rowsAt t X missing rows i).Perm g.rows := by
  refine (List.perm_ext_iff_of_nodup (hn.filter _) (hV.nodup i g hg)).2 fun r => ?_
  rw [List.mem_filter]
  simp only [decide_eq_true_eq]
  constructor
  · rintro ⟨h1, h2⟩
    exact (hV.reaches i g hg r h1).1 h2
  · intro h
    have := hV.sub i g hg r h
    exact ⟨this, (hV.reaches i g hg r this).2 h⟩

theorem GridView.node {o : SNode (FX m32) (FX m64) → Prop} {gs : List (Ghost (FX m32) (FX m64))}
    {nodes : List (Node (FX m32) (FX m64))} (hV : GridView X missing hv c rows t o gs nodes)
    {i : Nat} {n : Node (FX m32) (FX m64)} (hn : t.nodes[i]? = some n) :
    ∃ g, gs[i]? = some g ∧ n.hessianSum = g.sn.hessianSum := by
  have hlt := (List.getElem?_eq_some_iff.1 hn).1
  rw [hV.shape.1, ← hV.cert.len] at hlt
  have hg := List.getElem?_eq_getElem hlt
  obtain ⟨n0, h1, h2, _⟩ := hV.cert.nodeOf hg
  obtain ⟨w, hw⟩ := hV.shape.2 _ _ h1
  rw [hn] at hw; cases hw
  exact ⟨_, hg, h2.cover⟩

/-- **C100** (trees, any format).  If the weights and hessians are multiples of a unit and their totals are
representable multiples, then the cover of every node of the fitted tree is the exact sum of the hessians of the
training rows that pass it at prediction time, and every training row is led to a leaf. -/
theorem C100_tree (h : GridOn u N S X w nbins missing hv c sm rows) (hf : Tree.fit c sm rows = .ok t) :
    (∀ r ∈ rows, ∃ l ∈ t.nodes, l.isLeaf = true ∧ t.predictLeaf X r missing = .ok l) ∧
    ∀ (i : Nat) (n : Node (FX m32) (FX m64)), t.nodes[i]? = some n →
      n.hessianSum = FX.fin ((rowsAt t X missing rows i).map hv).sum := by
  obtain ⟨o, gs, nodes, hV⟩ := h.view hf
  refine ⟨fun r hr => ?_, fun i n hn => ?_⟩
  · obtain ⟨k, l, h1, h2, h3, h4⟩ := hV.toLeaf r hr
    exact ⟨l, List.mem_of_getElem? h1, h2, predictLeaf_iff.2 h4⟩
  · obtain ⟨g, hg, e⟩ := hV.node hn
    rw [e, (hV.sums i g hg).hess]
    congr 1
    exact ((hV.rowsAt h.nodup hg).map hv).sum_eq.symm

/-- **C100** (children, any format).  The cover of an internal node is the exact sum of the covers of its two or
three children. -/
theorem C100_children_tree (h : GridOn u N S X w nbins missing hv c sm rows)
    (hf : Tree.fit c sm rows = .ok t) {i : Nat} {n : Node (FX m32) (FX m64)} (hn : t.nodes[i]? = some n)
    (hl : n.isLeaf = false) :
    ∃ l r m, t.nodes[n.leftChild]? = some l ∧ t.nodes[n.rightChild]? = some r ∧
      t.nodes[n.missingNode]? = some m ∧
      ((n.missingNode = n.leftChild ∨ n.missingNode = n.rightChild) ∧
          n.hessianSum.val = l.hessianSum.val + r.hessianSum.val ∨
        (n.missingNode ≠ n.leftChild ∧ n.missingNode ≠ n.rightChild) ∧
          n.hessianSum.val = m.hessianSum.val + (l.hessianSum.val + r.hessianSum.val)) := by
  obtain ⟨o, gs, nodes, hV⟩ := h.view hf
  obtain ⟨g, info, k, kids, hI⟩ := hV.cert.internal hV.shape hn hl
  have hsum := rowSum_perm (v := hv) hI.isSplit.perm
  have hcov : n.hessianSum.val = rowSum hv g.rows := by
    obtain ⟨g', hg', e⟩ := hV.node hn
    rw [hI.ghost] at hg'; cases hg'
    rw [e, (hV.sums i g hI.ghost).hess]; rfl
  have hkid : ∀ q, q < c.splitter.arity → ∃ kid nq, kids[q]? = some kid ∧ t.nodes[k + q]? = some nq ∧
      nq.hessianSum.val = rowSum hv kid.rows := by
    intro q hq
    obtain ⟨kid, g', d1, d2, d5, d3, d4⟩ := hI.isSplit.new_lt (j := k + q) (by omega) (by omega)
    rw [Nat.add_sub_cancel_left] at d1
    have hlt := (List.getElem?_eq_some_iff.1 d2).1
    rw [hV.cert.len, ← hV.shape.1] at hlt
    have hnq := List.getElem?_eq_getElem hlt
    obtain ⟨g'', hg'', e⟩ := hV.node hnq
    rw [d2] at hg''; cases hg''
    refine ⟨kid, _, d1, hnq, ?_⟩
    rw [e, (hV.sums _ _ d2).hess, d3]; rfl
  have h1 := hI.left
  have h2 := hI.right
  have h3 := hI.missing
  have hlen := hI.isSplit.arity
  rw [hcov, ← hsum]
  cases hs : c.splitter with
  | imputer p =>
    rw [hs] at h1 h2 h3 hkid hlen
    simp only [Splitter.links] at h1 h2 h3
    simp only [Splitter.arity] at hkid hlen
    obtain ⟨k0, n0, a1, a2, a3⟩ := hkid 0 (by omega)
    obtain ⟨k1, n1, b1, b2, b3⟩ := hkid 1 (by omega)
    have hk : kids = [k0, k1] := eq_pair hlen a1 b1
    have hm : n.missingNode = k ∨ n.missingNode = k + 1 := by
      rw [h3]; cases info.missingNode <;> simp
    have hex : ∃ nm, t.nodes[n.missingNode]? = some nm := by
      rcases hm with e | e <;> rw [e]
      · exact ⟨_, a2⟩
      · exact ⟨_, b2⟩
    obtain ⟨nm, hnm⟩ := hex
    refine ⟨n0, n1, nm, by rw [h1]; exact a2, by rw [h2]; exact b2, hnm, .inl ⟨by rw [h1, h2]; exact hm, ?_⟩⟩
    rw [a3, b3, hk]
    simp [rowSum]
  | branch p =>
    rw [hs] at h1 h2 h3 hkid hlen
    simp only [Splitter.links] at h1 h2 h3
    simp only [Splitter.arity] at hkid hlen
    obtain ⟨k0, n0, a1, a2, a3⟩ := hkid 0 (by omega)
    obtain ⟨k1, n1, b1, b2, b3⟩ := hkid 1 (by omega)
    obtain ⟨k2, n2, c1, c2, c3⟩ := hkid 2 (by omega)
    have hk : kids = [k0, k1, k2] := eq_triple hlen a1 b1 c1
    refine ⟨n1, n2, n0, by rw [h1]; exact b2, by rw [h2]; exact c2, by rw [h3]; exact a2,
      .inr ⟨by omega, ?_⟩⟩
    rw [a3, b3, c3, hk]
    simp [rowSum]

end

/-! ### Boosters in `f32` and `f64` -/

section
variable {e32 l32 s32 e64 l64 s64 : ℚ → RV ℚ}

/-- The weights of a run of `fit`: multiples of a power of two within the range of `f32`, with a total of at most
2^24 units. -/
structure UnitWeights (k : ℤ) (w : List ℚ) : Prop where
  low : -149 ≤ k
  high : k ≤ 103
  mult : ∀ x ∈ w, ∃ n : Nat, x = n * Ieee.pow2 k
  total : w.sum ≤ 2 ^ 24 * Ieee.pow2 k

theorem UnitWeights.onGrid {k : ℤ} {w : List ℚ} (h : UnitWeights k w) :
    OnGrid (Ieee.pow2 k) (2 ^ 24) w.sum :=
  (Mult.sum h.mult).onGrid (Ieee.pow2_pos k) h.total ⟨2 ^ 24, le_rfl, by push_cast; rfl⟩

/-- The sum over distinct rows is at most the total. -/
theorem rowSum_le_total {K : Type} [Field K] [LinearOrder K] [IsStrictOrderedRing K] {u : K} (hu : 0 < u)
    {w : List K} (hw : ∀ x ∈ w, Mult u x) {rows : List Nat} (hn : rows.Nodup)
    (hlt : ∀ r ∈ rows, r < w.length) : rowSum (fun r => w.getD r 0) rows ≤ w.sum := by
  have hm : ∀ r, Mult u (w.getD r 0) := by
    intro r
    rw [List.getD_eq_getElem?_getD]
    cases h : w[r]? with
    | none => exact .zero
    | some x => exact hw x (List.mem_of_getElem? h)
  have hall : rowSum (fun r => w.getD r 0) (List.range w.length) = w.sum := by
    unfold rowSum
    congr 1
    apply List.ext_getElem?
    intro i
    rw [List.getElem?_map]
    by_cases hi : i < w.length
    · rw [List.getElem?_range hi, List.getElem?_eq_getElem hi]
      simp [List.getD_eq_getElem?_getD, List.getElem?_eq_getElem hi]
    · rw [List.getElem?_eq_none (by simpa using hi), List.getElem?_eq_none (by simpa using hi)]
      rfl
  have hp : rows.Perm ((List.range w.length).filter (· ∈ rows)) := by
    refine (List.perm_ext_iff_of_nodup hn (List.nodup_range.filter _)).2 fun r => ?_
    rw [List.mem_filter]
    simp only [List.mem_range, decide_eq_true_eq]
    exact ⟨fun h => ⟨hlt r h, h⟩, fun h => h.2⟩
  rw [rowSum_perm hp, ← hall]
  exact rowSum_filter_le hu hm _ _

variable {R : Type} {env : Env R (FX (Ieee.b32 e32 l32 s32)) (FX (Ieee.b64 e64 l64 s64))}
  {b b' : Booster (FX (Ieee.b32 e32 l32 s32)) (FX (Ieee.b64 e64 l64 s64))}
  {X : Matrix (FX (Ieee.b64 e64 l64 s64))} {y : List (FX (Ieee.b64 e64 l64 s64))} {w : List ℚ} {k : ℤ}
  {ev : Option (List (EvalSet (FX (Ieee.b64 e64 l64 s64))))}

theorem squared_hess {F D : Type} [Fl F] [Fl D] [FlCast F D] : ∀ (y yhat w : List D) (n : Nat),
    y.length = n → yhat.length = n → w.length = n →
    (calcGradHess (F := F) .squaredLoss y yhat w).2 = w.map down := by
  intro y yhat w n h1 h2 h3
  unfold calcGradHess zip3
  simp only [List.unzip_eq_map, List.map_map]
  induction n generalizing y yhat w with
  | zero =>
    rw [List.length_eq_zero_iff] at h1 h2 h3
    subst h1; subst h2; subst h3; rfl
  | succ n ih =>
    match y, yhat, w, h1, h2, h3 with
    | a :: y, a' :: yhat, a'' :: w, h1, h2, h3 =>
      simp only [List.zip_cons_cons, List.map_cons]
      rw [ih y yhat w (by simpa using h1) (by simpa using h2) (by simpa using h3)]
      rfl

/-- Every tree of a booster fitted with squared loss and without GOSS is fitted as in `C100_tree`, on the gradients
of the predictions of the earlier trees. -/
theorem fit_gridOn_at (hS : env.sorter.Ok) (hr : env.rng.Ok) (hX : X.Shaped) (hy : y.length = X.rows)
    (hw : w.length = X.rows) (hk : UnitWeights k w)
    (hmax : ∀ v ∈ X.data, ¬ IsMissing b.missing v → (v ≤ᶠ Fl.maxv) = true)
    (hpos : (0 <ᶠ b.minLeafWeight) = true) (hobj : b.objectiveType = .squaredLoss)
    (hgoss : b.sampleMethod ≠ .goss)
    (h : b.fit env X y (w.map FX.fin) ev = .ok (b', .ok ()))
    {t : Tree (FX (Ieee.b32 e32 l32 s32)) (FX (Ieee.b64 e64 l64 s64))} {j : Nat} (ht : b'.trees[j]? = some t) :
    ∃ yhat cfg rows, predictFold b.missing X (List.replicate X.rows b'.baseScore) (b'.trees.take j) = .ok yhat ∧
      yhat.length = X.rows ∧ cfg.train.grad = (calcGradHess .squaredLoss y yhat (w.map FX.fin)).1 ∧
      cfg.splitter = b.splitter ∧ Tree.fit cfg b.sampleMethod rows = .ok t ∧
      (b.sampleMethod = .none → rows = List.range X.rows) ∧
      GridOn (Ieee.pow2 k) (2 ^ 24) env.sorter X w b.nbins b.missing (fun r => w.getD r 0) cfg
        b.sampleMethod rows := by
  obtain ⟨base, binned, st, stop, N, hT⟩ := Booster.fit_trace h
  obtain ⟨cfg, rows, hA⟩ := hT.treeAt ht
  have hj : j < N := by rw [← hT.length]; exact (List.getElem?_eq_some_iff.1 ht).1
  have hyl : ((st j).yhat).length = X.rows := by
    rw [predictFold_length (hT.yhat j (by omega)), List.length_replicate, hy]
  obtain ⟨r1, r2, hs⟩ := hA.sample
  obtain ⟨c1, c2, hcol⟩ := hA.fitted.columns
  obtain ⟨s1, s2, s3, s4⟩ := sampleIndex_rows hS hs
  obtain ⟨d1, d2, _⟩ := sampleColumns_sorted hr hcol
  obtain ⟨l1, l2⟩ := calcGradHess_length (F := FX (Ieee.b32 e32 l32 s32)) b.objectiveType y (st j).yhat
    (w.map FX.fin) hy hyl (by simpa using hw)
  have hu := Ieee.pow2_pos k
  have hg32 := Ieee.b32_grid (expF := e32) (lnF := l32) (sqrtF := s32) hk.low hk.high
  have hm : ∀ r, Mult (Ieee.pow2 k) (w.getD r 0) := by
    intro r
    rw [List.getD_eq_getElem?_getD]
    cases h : w[r]? with
    | none => exact .zero
    | some x => exact hk.mult x (List.mem_of_getElem? h)
  have hrows : b.sampleMethod = .none → rows = List.range X.rows := by
    intro e
    rw [e] at hs
    simp only [sampleIndex, Res.ok.injEq, Prod.mk.injEq] at hs
    exact hs.1.symm
  have hhess : cfg.train.hess = (w.map (FX.fin : ℚ → FX (Ieee.b64 e64 l64 s64))).map down := by
    have := squared_hess (F := FX (Ieee.b32 e32 l32 s32)) y (st j).yhat (w.map FX.fin) X.rows hy hyl
      (by simpa using hw)
    rw [← this, ← hobj]
    cases hsm : b.sampleMethod with
    | none =>
      rw [hsm] at hs
      simp only [sampleIndex, Res.ok.injEq, Prod.mk.injEq] at hs
      exact hs.2.2.1.symm
    | random =>
      rw [hsm] at hs
      simp only [sampleIndex, Res.ok.injEq, Prod.mk.injEq] at hs
      exact hs.2.2.1.symm
    | goss => exact absurd hsm hgoss
  have hgrad : cfg.train.grad = (calcGradHess .squaredLoss y (st j).yhat (w.map FX.fin)).1 := by
    rw [← hobj]
    cases hsm : b.sampleMethod with
    | none =>
      rw [hsm] at hs
      simp only [sampleIndex, Res.ok.injEq, Prod.mk.injEq] at hs
      exact hs.2.1.symm
    | random =>
      rw [hsm] at hs
      simp only [sampleIndex, Res.ok.injEq, Prod.mk.injEq] at hs
      exact hs.2.1.symm
    | goss => exact absurd hsm hgoss
  have hbase : b'.baseScore = base := by
    have := hT.same N (le_refl _)
    rw [hT.last] at this
    unfold Booster.SameParams at this
    rw [this]
  refine ⟨(st j).yhat, cfg, rows, ?_, hyl, hgrad, hA.fitted.splitter, hA.fitted.fit, hrows, ⟨hu, hg32, Ieee.b64_grid hk.low hk.high, Ieee.b64_one, hS, hX,
    hw.ge, hk.mult, hk.onGrid, hm, ?_, hmax, ⟨binned, hT.bin_eq, hA.fitted.data_eq, hA.fitted.cuts_eq⟩, d1, d2,
    ?_, ?_, s2, s1, ?_⟩⟩
  · rw [hbase, ← hy]; exact hT.yhat j (by omega)
  · exact (rowSum_mult hm rows).onGrid hu
      (rowSum_le_total hu hk.mult s1 (fun r hr => by rw [hw]; exact s2 r hr)) hk.onGrid
  · intro r x hx
    rw [hhess, List.getElem?_map, List.getElem?_map] at hx
    show x = FX.fin (w.getD r 0)
    rw [List.getD_eq_getElem?_getD]
    cases hwr : w[r]? with
    | none => rw [hwr] at hx; cases hx
    | some q =>
      rw [hwr] at hx
      injection hx with hx
      rw [← hx]
      have hq : q ∈ w := List.mem_of_getElem? hwr
      have hle : q ≤ w.sum := List.single_le_sum (fun a ha => (Mult.nonneg hu (hk.mult a ha))) q hq
      exact hg32.down (Mult.onGrid hu (hk.mult q hq) hle hk.onGrid)
  · rw [hA.fitted.splitter]
    have : b.splitter.params.minLeafWeight = b.minLeafWeight := by
      unfold Booster.splitter; split <;> rfl
    rw [this]; exact hpos
  · intro e
    rw [s3, s4, l1, l2]
    exact ⟨hrows e, rfl⟩

/-- Every tree of a booster fitted with squared loss and without GOSS is fitted as in `C100_tree`. -/
theorem fit_gridOn (hS : env.sorter.Ok) (hr : env.rng.Ok) (hX : X.Shaped) (hy : y.length = X.rows)
    (hw : w.length = X.rows) (hk : UnitWeights k w)
    (hmax : ∀ v ∈ X.data, ¬ IsMissing b.missing v → (v ≤ᶠ Fl.maxv) = true)
    (hpos : (0 <ᶠ b.minLeafWeight) = true) (hobj : b.objectiveType = .squaredLoss)
    (hgoss : b.sampleMethod ≠ .goss)
    (h : b.fit env X y (w.map FX.fin) ev = .ok (b', .ok ()))
    {t : Tree (FX (Ieee.b32 e32 l32 s32)) (FX (Ieee.b64 e64 l64 s64))} (ht : t ∈ b'.trees) :
    ∃ cfg rows, Tree.fit cfg b.sampleMethod rows = .ok t ∧
      (b.sampleMethod = .none → rows = List.range X.rows) ∧
      GridOn (Ieee.pow2 k) (2 ^ 24) env.sorter X w b.nbins b.missing (fun r => w.getD r 0) cfg
        b.sampleMethod rows := by
  obtain ⟨j, ht⟩ := List.mem_iff_getElem?.1 ht
  obtain ⟨_, cfg, rows, _, _, _, _, h1, h2, h3⟩ := fit_gridOn_at hS hr hX hy hw hk hmax hpos hobj hgoss h ht
  exact ⟨cfg, rows, h1, h2, h3⟩

/-- **C100** (boosters, `f32` and `f64` with rounding).  With squared loss, without GOSS, with a positive
`min_leaf_weight` and weights that are multiples of a power of two with a total of at most 2^24 units: the cover
of every node of every tree is exactly the sum of the weights of the rows of the tree's sample that pass the node
at prediction time, and every row of the sample is led to a leaf.  Targets, gradients and node values may be
rounded, infinite or NaN. -/
theorem C100_covers (hS : env.sorter.Ok) (hr : env.rng.Ok) (hX : X.Shaped) (hy : y.length = X.rows)
    (hw : w.length = X.rows) (hk : UnitWeights k w)
    (hmax : ∀ v ∈ X.data, ¬ IsMissing b.missing v → (v ≤ᶠ Fl.maxv) = true)
    (hpos : (0 <ᶠ b.minLeafWeight) = true) (hobj : b.objectiveType = .squaredLoss)
    (hgoss : b.sampleMethod ≠ .goss)
    (h : b.fit env X y (w.map FX.fin) ev = .ok (b', .ok ())) :
    ∀ t ∈ b'.trees, ∃ rows : List Nat, rows.Nodup ∧ (∀ r ∈ rows, r < X.rows) ∧
      (b.sampleMethod = .none → rows = List.range X.rows) ∧
      (∀ r ∈ rows, ∃ l ∈ t.nodes, l.isLeaf = true ∧ t.predictLeaf X r b.missing = .ok l) ∧
      ∀ (i : Nat) n, t.nodes[i]? = some n →
        n.hessianSum = FX.fin ((rowsAt t X b.missing rows i).map fun r => w.getD r 0).sum := by
  intro t ht
  obtain ⟨cfg, rows, hf, h1, hG⟩ := fit_gridOn hS hr hX hy hw hk hmax hpos hobj hgoss h ht
  obtain ⟨a1, a2⟩ := C100_tree hG hf
  exact ⟨rows, hG.nodup, hG.rows_lt, h1, a1, a2⟩

/-- **C100** (children).  Under the same hypotheses the cover of an internal node is exactly the sum of the covers
of its children. -/
theorem C100_children (hS : env.sorter.Ok) (hr : env.rng.Ok) (hX : X.Shaped) (hy : y.length = X.rows)
    (hw : w.length = X.rows) (hk : UnitWeights k w)
    (hmax : ∀ v ∈ X.data, ¬ IsMissing b.missing v → (v ≤ᶠ Fl.maxv) = true)
    (hpos : (0 <ᶠ b.minLeafWeight) = true) (hobj : b.objectiveType = .squaredLoss)
    (hgoss : b.sampleMethod ≠ .goss)
    (h : b.fit env X y (w.map FX.fin) ev = .ok (b', .ok ())) :
    ∀ t ∈ b'.trees, ∀ n ∈ t.nodes, n.isLeaf = false →
      ∃ l r m, t.nodes[n.leftChild]? = some l ∧ t.nodes[n.rightChild]? = some r ∧
        t.nodes[n.missingNode]? = some m ∧
        ((n.missingNode = n.leftChild ∨ n.missingNode = n.rightChild) ∧
            n.hessianSum.val = l.hessianSum.val + r.hessianSum.val ∨
          (n.missingNode ≠ n.leftChild ∧ n.missingNode ≠ n.rightChild) ∧
            n.hessianSum.val = m.hessianSum.val + (l.hessianSum.val + r.hessianSum.val)) := by
  intro t ht n hn hl
  obtain ⟨cfg, rows, hf, h1, hG⟩ := fit_gridOn hS hr hX hy hw hk hmax hpos hobj hgoss h ht
  obtain ⟨i, hi⟩ := List.mem_iff_getElem?.1 hn
  exact C100_children_tree hG hf hi hl

/-- Unit weights. -/
theorem unitWeights_ones {n : Nat} (hn : n ≤ 2 ^ 24) : UnitWeights 0 (List.replicate n 1) where
  low := by decide
  high := by decide
  mult x hx := ⟨1, by rw [List.eq_of_mem_replicate hx]; simp [Ieee.pow2]⟩
  total := by
    simp only [List.sum_replicate, nsmul_eq_mul, mul_one, Ieee.pow2]
    have : (n : ℚ) ≤ ((2 ^ 24 : Nat) : ℚ) := by exact_mod_cast hn
    push_cast at this ⊢
    linarith

/-- **C100** (counts).  With at most 2^24 rows of weight 1 and without row sampling, the cover of every node is
the number of training rows that pass it at prediction time, exactly. -/
theorem C100_counts (hS : env.sorter.Ok) (hr : env.rng.Ok) (hX : X.Shaped) (hy : y.length = X.rows)
    (hrows : X.rows ≤ 2 ^ 24)
    (hmax : ∀ v ∈ X.data, ¬ IsMissing b.missing v → (v ≤ᶠ Fl.maxv) = true)
    (hpos : (0 <ᶠ b.minLeafWeight) = true) (hobj : b.objectiveType = .squaredLoss)
    (hnone : b.sampleMethod = .none)
    (h : b.fit env X y (List.replicate X.rows 1) ev = .ok (b', .ok ())) :
    ∀ t ∈ b'.trees, ∀ (i : Nat) n, t.nodes[i]? = some n →
      n.hessianSum = FX.fin ((rowsAt t X b.missing (List.range X.rows) i).length : ℚ) := by
  intro t ht i n hn
  have hrep : (List.replicate X.rows 1 : List (FX (Ieee.b64 e64 l64 s64))) =
      (List.replicate X.rows (1 : ℚ)).map FX.fin := by rw [List.map_replicate]; rfl
  rw [hrep] at h
  obtain ⟨rows, _, hlt, h1, _, h2⟩ := C100_covers hS hr hX hy (List.length_replicate ..)
    (unitWeights_ones hrows) hmax hpos hobj (by rw [hnone]; decide) h t ht
  rw [h2 i n hn]
  have e := h1 hnone
  subst e
  congr 1
  have : (rowsAt t X b.missing (List.range X.rows) i).map (fun r => (List.replicate X.rows (1 : ℚ)).getD r 0) =
      List.replicate (rowsAt t X b.missing (List.range X.rows) i).length 1 := by
    rw [← List.map_const']
    refine List.map_congr_left fun r hr => ?_
    have hr' : r < X.rows := by
      simpa using List.mem_of_mem_filter hr
    rw [List.getD_eq_getElem?_getD, List.getElem?_replicate, if_pos hr']; rfl
  rw [this]
  simp

end

/-! ### An example in `f32` and `f64` -/

/-- The booster of C80's example without constraints. -/
def ecB : Option (Booster F32 F64) := mfB.map fun b => { b with monotoneConstraints := none, minLeafWeight := f32 (1/4), l2 := 0 }

/-- The hypotheses of C100 are met: targets that `f64` does not represent, weights 1/4, 3/4, 1/2 and 1/4, and two
trees with three splits. -/
example : ∃ b b', ecB = some b ∧ floatEnv.sorter.Ok ∧ floatEnv.rng.Ok ∧ mfX.Shaped ∧
    mfY.length = mfX.rows ∧ UnitWeights (-2) [1/4, 3/4, 1/2, 1/4] ∧
    (∀ v ∈ mfX.data, ¬ IsMissing b.missing v → (v ≤ᶠ Fl.maxv) = true) ∧
    (0 <ᶠ b.minLeafWeight) = true ∧ b.objectiveType = .squaredLoss ∧ b.sampleMethod = .none ∧
    b.fit floatEnv mfX mfY ([1/4, 3/4, 1/2, 1/4].map FX.fin) none = .ok (b', .ok ()) ∧
    b'.trees.map (fun t => t.nodes.map fun n => n.hessianSum) =
      List.replicate 2
        [FX.fin (7/4), FX.fin 1, FX.fin (3/4), FX.fin (1/4), FX.fin (3/4), FX.fin (1/2), FX.fin (1/4)] := by
  have : (match ecB with
    | some b => match b.fit floatEnv mfX mfY ([1/4, 3/4, 1/2, 1/4].map FX.fin) none with
      | .ok (b', .ok ()) => decide (
          (∀ v ∈ mfX.data, ¬ IsMissing b.missing v → (v ≤ᶠ Fl.maxv) = true) ∧
          (0 <ᶠ b.minLeafWeight) = true ∧ b.objectiveType = .squaredLoss ∧ b.sampleMethod = .none ∧
          b'.trees.map (fun t => t.nodes.map fun n => n.hessianSum) = List.replicate 2
            [FX.fin (7/4), FX.fin 1, FX.fin (3/4), FX.fin (1/4), FX.fin (3/4), FX.fin (1/2), FX.fin (1/4)])
      | _ => false
    | none => false) = true := by decide +kernel
  split at this
  · rename_i b hb
    split at this
    · rename_i b' h
      obtain ⟨h1, h2, h3, h4, h5⟩ := of_decide_eq_true this
      refine ⟨b, b', hb, exSorter_ok, floatRng_ok, rfl, rfl, ⟨by decide, by decide, ?_, ?_⟩, h1, h2, h3, h4, h, h5⟩
      · intro x hx
        simp only [List.mem_cons, List.not_mem_nil, or_false] at hx
        rcases hx with rfl | rfl | rfl | rfl
        · exact ⟨1, by rw [Ieee.pow2_eq]; norm_num⟩
        · exact ⟨3, by rw [Ieee.pow2_eq]; norm_num⟩
        · exact ⟨2, by rw [Ieee.pow2_eq]; norm_num⟩
        · exact ⟨1, by rw [Ieee.pow2_eq]; norm_num⟩
      · rw [Ieee.pow2_eq]; norm_num
    · cases this
  · cases this

/-- The bound on the total is sharp: with weights 2^24 and 1 the cover of the root is not the sum of the weights. -/
theorem C100_sharp : ∃ b b', ecB = some b ∧ (0 <ᶠ b.minLeafWeight) = true ∧
    b.objectiveType = .squaredLoss ∧ b.sampleMethod = .none ∧
    b.fit floatEnv { data := [f64 0, f64 1], rows := 2, cols := 1 } [f64 0, f64 1]
      ([2 ^ 24, 1].map FX.fin) none = .ok (b', .ok ()) ∧
    ∃ t ∈ b'.trees, ∃ n ∈ t.nodes, n.num = 0 ∧ n.hessianSum = FX.fin (2 ^ 24) := by
  have : (match ecB with
    | some b => match b.fit floatEnv { data := [f64 0, f64 1], rows := 2, cols := 1 } [f64 0, f64 1]
        ([2 ^ 24, 1].map FX.fin) none with
      | .ok (b', .ok ()) => decide (
          (0 <ᶠ b.minLeafWeight) = true ∧ b.objectiveType = .squaredLoss ∧ b.sampleMethod = .none ∧
          ∃ t ∈ b'.trees, ∃ n ∈ t.nodes, n.num = 0 ∧ n.hessianSum = FX.fin (2 ^ 24))
      | _ => false
    | none => false) = true := by decide +kernel
  split at this
  · rename_i b hb
    split at this
    · rename_i b' h
      obtain ⟨h1, h2, h3, h4⟩ := of_decide_eq_true this
      exact ⟨b, b', hb, h1, h2, h3, h, h4⟩
    · cases this
  · cases this

end Verif
