import Verif.Props.Growth
import Verif.Props.Contrib
import Verif.Props.Predict
import Verif.Spec.SelectColumns
import Verif.Proofs.CopiesFit
import Mathlib.Algebra.BigOperators.Ring.Finset

/-!
# C114: the depth limits the interactions of features

The leaf of a row is decided by at most `max_depth` of its entries, a tree without missing branches asks for fewer
than `max_leaves` columns, and with `max_depth = 1` the model is a sum of functions of one feature each.
-/

namespace Verif

open scoped Verif

section
variable {F D R : Type} [Fl F] [Fl D] [FlCast F D]

omit [Fl F] [FlCast F D] in
/-- A route of `k` steps asks for `k` entries. -/
theorem RouteN.asks {nodes : List (Node F D)} {row : Nat → Option D} {missing : D} {k i : Nat}
    {l : Node F D} (h : RouteN nodes row missing k i l) :
    ∃ S : List Nat, S.length = k ∧ ∀ row' : Nat → Option D, (∀ f ∈ S, row' f = row f) → Route nodes row' missing i l := by
  induction h with
  | leaf h1 h2 => exact ⟨[], rfl, fun _ _ => .leaf h1 h2⟩
  | @step k i n l v h1 h2 h3 h4 _ ih =>
    obtain ⟨S, hS, ih⟩ := ih
    refine ⟨n.splitFeature :: S, by simp [hS], fun row' hr => ?_⟩
    exact .step h1 h2 ((hr _ (by simp)).trans h3) h4 (ih row' fun f hf => hr f (by simp [hf]))

omit [Fl F] [FlCast F D] in
/-- A route of `k` steps ends `k` levels below its start. -/
theorem RouteN.dist {t : Tree F D} {row : Nat → Option D} {missing : D} {k i : Nat} {l : Node F D}
    (h : RouteN t.nodes row missing k i l) : ∀ {d : Nat}, t.Dist i d →
    ∃ j, t.nodes[j]? = some l ∧ t.Dist j (d + k) := by
  induction h with
  | @leaf i n h1 h2 => exact fun hd => ⟨i, h1, hd⟩
  | @step k i n l v h1 h2 h3 h4 _ ih =>
    intro d hd
    obtain ⟨j, h5, h6⟩ := ih (hd.child h1 ⟨h2, by
      unfold Node.childFor
      split
      · exact Or.inr (Or.inr rfl)
      · split
        · exact Or.inl rfl
        · exact Or.inr (Or.inl rfl)⟩)
    exact ⟨j, h5, by rw [show d + (k + 1) = d + 1 + k by omega]; exact h6⟩

/-- **C114** (one row).  In a fitted model, for every row and every tree there are at most `max_depth` columns that
decide the leaf: every other row with the same entries in these columns reaches the same leaf.  Any arithmetic. -/
theorem C114_leaf {env : Env R F D} {b b' : Booster F D} {data : Matrix D} {y w : List D}
    {ev : Option (List (EvalSet D))} (h : b.fit env data y w ev = .ok (b', .ok ())) {t : Tree F D}
    (ht : t ∈ b'.trees) {row : Nat → Option D} {missing : D} {l : Node F D} (hr : Route t.nodes row missing 0 l) :
    ∃ S : List Nat, S.length ≤ b.maxDepth ∧
      ∀ row' : Nat → Option D, (∀ f ∈ S, row' f = row f) → Route t.nodes row' missing 0 l := by
  obtain ⟨k, hk⟩ := hr.exists_n
  obtain ⟨S, hS, hS'⟩ := hk.asks
  obtain ⟨j, h1, h2⟩ := hk.dist (t := t) .root
  obtain ⟨h3, h4⟩ := C04_depth env b b' data y w ev h t ht j l h1
  rw [Nat.zero_add] at h2
  have := (h4 k).1 h2
  exact ⟨S, by omega, hS'⟩

/-- **C114** (the columns of a tree).  A tree of a fitted model without missing branches splits on fewer than
`max_leaves` columns (on none if `max_leaves` is 0).  Any arithmetic. -/
theorem C114_columns {env : Env R F D} {b b' : Booster F D} {data : Matrix D} {y w : List D}
    {ev : Option (List (EvalSet D))} (h : b.fit env data y w ev = .ok (b', .ok ()))
    (hb : b.createMissingBranch = false) {t : Tree F D} (ht : t ∈ b'.trees) :
    ∃ S : List Nat, S.length ≤ b.maxLeaves - 1 ∧ t.UsesOnly S := by
  obtain ⟨h1, h2⟩ := C05_max_leaves env b b' data y w ev h hb t ht
  refine ⟨(t.nodes.filter fun n => !n.isLeaf).map Node.splitFeature, ?_, fun n hn hl => ?_⟩
  · rw [List.length_map]
    have h3 : (t.nodes.filter fun n => !n.isLeaf).length + t.leafCount = t.nodes.length := by
      unfold Tree.leafCount
      generalize t.nodes = l
      induction l with
      | nil => rfl
      | cons n l ih =>
        rw [List.filter_cons, List.filter_cons]
        cases n.isLeaf <;> simp <;> omega
    omega
  · exact List.mem_map.2 ⟨n, List.mem_filter.2 ⟨hn, by simp [hl]⟩, rfl⟩

/-- **C114** (stumps).  With `max_depth` at most 1 every tree of a fitted model splits on one column at most.  Any
arithmetic. -/
theorem C114_stump {env : Env R F D} {b b' : Booster F D} {data : Matrix D} {y w : List D}
    {ev : Option (List (EvalSet D))} (h : b.fit env data y w ev = .ok (b', .ok ())) (hd : b.maxDepth ≤ 1)
    {t : Tree F D} (ht : t ∈ b'.trees) : ∃ f, t.UsesOnly [f] := by
  have hwf := C03_well_formed env b b' data y w ev h t ht
  obtain ⟨n0, hn0⟩ : ∃ n, t.nodes[0]? = some n := by
    cases e : t.nodes with
    | nil => exact absurd e hwf.nonempty
    | cons n l => exact ⟨n, rfl⟩
  refine ⟨n0.splitFeature, fun n hn hl => ?_⟩
  obtain ⟨i, hi⟩ := List.getElem?_of_mem hn
  obtain ⟨h1, h2⟩ := C04_depth env b b' data y w ev h t ht i n hi
  have hc : n.IsChild n.leftChild := ⟨hl, Or.inl rfl⟩
  have hlt := (hwf.child i n _ hi hc).2
  obtain ⟨m, hm⟩ : ∃ m, t.nodes[n.leftChild]? = some m := ⟨_, List.getElem?_eq_getElem hlt⟩
  obtain ⟨h3, h4⟩ := C04_depth env b b' data y w ev h t ht _ m hm
  have hdi := (h2 n.depth).2 rfl
  have := (h4 _).1 (hdi.child hi hc)
  have h0 : n.depth = 0 := by omega
  rw [h0] at hdi
  cases hdi with
  | root =>
    rw [hn0] at hi
    cases hi
    exact List.mem_singleton.2 rfl

omit [Fl F] [FlCast F D] in
/-- A tree that asks for one column only looks at one entry. -/
theorem Route.one {t : Tree F D} {f : Nat} (hf : t.UsesOnly [f]) {row row' : Nat → Option D} (h : row' f = row f)
    {missing : D} {i : Nat} {l : Node F D} (hr : Route t.nodes row missing i l) : Route t.nodes row' missing i l := by
  induction hr with
  | leaf h1 h2 => exact .leaf h1 h2
  | step h1 h2 h3 h4 _ ih =>
    have := List.mem_singleton.1 (hf _ (List.mem_of_getElem? h1) h2)
    exact .step h1 h2 (by rw [this] at h3 ⊢; exact h.trans h3) h4 ih

end

section
variable {K : Type} [Field K] [LinearOrder K] {m32 m64 : Fmt K}

/-- The sum of the leaf values is a sum of functions of one entry each. -/
theorem leaves_additive {ts : List (Tree (FX m32) (FX m64))} (hone : ∀ t ∈ ts, ∃ f, t.UsesOnly [f])
    (missing : FX m64) : ∃ (c : K) (g : Nat → Option (FX m64) → K), ∀ (row : Nat → Option (FX m64)) (cols : Nat)
      (ls : List (Node (FX m32) (FX m64))), (∀ j, cols ≤ j → row j = none) → Leaves ts row missing ls →
      (ls.map fun l => l.weightValue.val).sum = c + ∑ j ∈ Finset.range cols, g j (row j) := by
  classical
  induction ts with
  | nil =>
    refine ⟨0, fun _ _ => 0, fun row cols ls _ h => ?_⟩
    cases h
    simp
  | cons t ts ih =>
    obtain ⟨c, g, hg⟩ := ih fun t ht => hone t (by simp [ht])
    obtain ⟨f, hf⟩ := hone t (by simp)
    by_cases hroot : ∃ n, t.nodes[0]? = some n ∧ n.isLeaf = true
    · obtain ⟨n, hn, hl⟩ := hroot
      refine ⟨n.weightValue.val + c, g, fun row cols ls hrow h => ?_⟩
      cases h with
      | cons h1 h2 =>
        rename_i l ls
        have : l = n := h1.unique (.leaf hn hl)
        rw [List.map_cons, List.sum_cons, hg row cols _ hrow h2, this, add_assoc]
    · let gt : Option (FX m64) → K := fun v =>
        if h : ∃ l, Route t.nodes (fun _ => v) missing 0 l then h.choose.weightValue.val else 0
      have hgt : ∀ {row : Nat → Option (FX m64)} {l}, Route t.nodes row missing 0 l →
          gt (row f) = l.weightValue.val := by
        intro row l hr
        have h1 : Route t.nodes (fun _ => row f) missing 0 l := hr.one (row' := fun _ => row f) hf rfl
        have h2 : ∃ l, Route t.nodes (fun _ => row f) missing 0 l := ⟨l, h1⟩
        show (if h : ∃ l, Route t.nodes (fun _ => row f) missing 0 l then h.choose.weightValue.val else 0) = _
        rw [dif_pos h2, h2.choose_spec.unique h1]
      refine ⟨c, fun j v => (if j = f then gt v else 0) + g j v, fun row cols ls hrow h => ?_⟩
      cases h with
      | cons h1 h2 =>
        rename_i l ls
        have hlt : f < cols := by
          cases h1 with
          | leaf a b => exact absurd ⟨_, a, b⟩ hroot
          | @step _ n _ v a b c d e =>
            by_contra hge
            have := List.mem_singleton.1 (hf _ (List.mem_of_getElem? a) b)
            rw [this, hrow f (by omega)] at c
            cases c
        rw [List.map_cons, List.sum_cons, hg row cols _ hrow h2, Finset.sum_add_distrib,
          Finset.sum_ite_eq' (Finset.range cols) f (fun j => gt (row j)), if_pos (Finset.mem_range.2 hlt), hgt h1]
        ring

variable [m32.Exact] [m64.Exact]

/-- **C114** (additive models).  Exact arithmetic.  A model fitted with `max_depth` at most 1 is additive: there are a
number and one function for each column, so that for all data, every prediction is the number plus the sum of the
functions at the entries of the row.  Missing entries are values like others here. -/
theorem C114_additive {R : Type} {env : Env R (FX m32) (FX m64)} {b b' : Booster (FX m32) (FX m64)}
    {data : Matrix (FX m64)} {y w : List (FX m64)} {ev : Option (List (EvalSet (FX m64)))}
    (h : b.fit env data y w ev = .ok (b', .ok ())) (hd : b.maxDepth ≤ 1)
    (hv : ∀ t ∈ b'.trees, t.FiniteValues) (hbase : b'.baseScore.IsFin) :
    ∃ (c : K) (g : Nat → Option (FX m64) → K), ∀ (X : Matrix (FX m64)), X.Shaped → ∀ out, b'.predict X = .ok out →
      out.length = X.rows ∧
      ∀ i < X.rows, out[i]? = some (FX.fin (c + ∑ j ∈ Finset.range X.cols, g j (X.entry i j))) := by
  obtain ⟨base, hbase⟩ := hbase
  obtain ⟨c, g, hg⟩ := leaves_additive (ts := b'.trees.take b'.used)
    (fun t ht => C114_stump h hd (List.mem_of_mem_take ht)) b'.missing
  refine ⟨base + c, g, fun X hX out hout => ?_⟩
  obtain ⟨h1, h2, h3⟩ := (C19_prediction_iteration b' X out).1 hout
  refine ⟨h2, fun i hi => ?_⟩
  have hi' : i < out.length := by omega
  have ho : out[i]? = some out[i] := List.getElem?_eq_getElem hi'
  have := h3 i _ ho
  rw [hbase] at this
  obtain ⟨ls, hls, e⟩ := this.fin fun t ht => hv t (List.mem_of_mem_take ht)
  rw [ho, e]
  have hs := hg (X.entry i) X.cols ls (fun j hj => Matrix.entry_none hX hj) hls
  have hf : ∀ (l : List (Node (FX m32) (FX m64))) (a : K),
      l.foldl (fun a l => a + l.weightValue.val) a = a + (l.map fun l => l.weightValue.val).sum := by
    intro l
    induction l with
    | nil => intro a; simp
    | cons x l ih => intro a; rw [List.foldl_cons, ih, List.map_cons, List.sum_cons, add_assoc]
  rw [hf, hs, add_assoc]

end

/-! ## Depth two is not additive -/

/-- Two columns with the values 0 and 1 in all combinations. -/
def exAnd : Matrix Q := { data := [q 0, q 0, q 1, q 1, q 0, q 1, q 0, q 1], rows := 4, cols := 2 }

/-- One tree of the given depth. -/
def exDepth (d : Nat) : Booster Q Q := { exFresh with iterations := 2, maxDepth := d }

/-- **C114** (the limit is sharp).  With `max_depth = 2` the model need not be additive: an additive model has
`p (0, 0) + p (1, 1) = p (0, 1) + p (1, 0)`. -/
theorem C114_interaction : ∃ b' p00 p01 p10 p11,
    (exDepth 2).fit exEnv exAnd [q 0, q 0, q 0, q 4] [q 1, q 1, q 1, q 1] none = .ok (b', .ok ()) ∧
    b'.predict exAnd = .ok [p00, p01, p10, p11] ∧ p00 + p11 ≠ p01 + p10 := by
  have : (match (exDepth 2).fit exEnv exAnd [q 0, q 0, q 0, q 4] [q 1, q 1, q 1, q 1] none with
    | .ok (b', .ok ()) => (match b'.predict exAnd with
      | .ok [p00, p01, p10, p11] => decide (p00 + p11 ≠ p01 + p10)
      | _ => false)
    | _ => false) = true := by decide +kernel
  split at this
  · next b' h =>
    split at this
    · next h2 => exact ⟨b', _, _, _, _, h, h2, by simpa using this⟩
    · cases this
  · cases this

/-! ## Examples -/

/-- C114: a fit with stumps that uses both columns, and its finite values. -/
example : (exDepth 1).maxDepth ≤ 1 ∧ (exDepth 1).createMissingBranch = false ∧ exAnd.Shaped ∧
    ∃ b' : Booster Q Q,
      (exDepth 1).fit exEnv exAnd [q 0, q 0, q 0, q 4] [q 1, q 1, q 1, q 1] none = .ok (b', .ok ()) ∧
      (∀ t ∈ b'.trees, t.FiniteValues) ∧ b'.baseScore.IsFin ∧ (∃ out, b'.predict exAnd = .ok out) ∧
      (∃ t ∈ b'.trees, ∃ n ∈ t.nodes, n.isLeaf = false ∧ n.splitFeature = 0) ∧
      ∃ t ∈ b'.trees, ∃ n ∈ t.nodes, n.isLeaf = false ∧ n.splitFeature = 1 := by
  have : (match (exDepth 1).fit exEnv exAnd [q 0, q 0, q 0, q 4] [q 1, q 1, q 1, q 1] none with
    | .ok (b', .ok ()) => (b'.trees.all fun t => t.nodes.all fun n => match n.weightValue with
          | .fin _ => true
          | _ => false) &&
        (match b'.baseScore with
          | .fin _ => true
          | _ => false) && (match b'.predict exAnd with
          | .ok _ => true
          | _ => false) &&
        (b'.trees.any fun t => t.nodes.any fun n => !n.isLeaf && decide (n.splitFeature = 0)) &&
        b'.trees.any fun t => t.nodes.any fun n => !n.isLeaf && decide (n.splitFeature = 1)
    | _ => false) = true := by decide +kernel
  refine ⟨le_refl _, rfl, by unfold Matrix.Shaped; decide, ?_⟩
  split at this
  · next b' h =>
    simp only [List.any_eq_true, List.all_eq_true, Bool.and_eq_true, Bool.not_eq_true', decide_eq_true_eq] at this
    obtain ⟨⟨⟨⟨h1, h2⟩, h3⟩, h4⟩, h5⟩ := this
    refine ⟨b', h, fun t ht n hn => ?_, ?_, ?_, h4, h5⟩
    · have := h1 t ht n hn
      split at this
      · next v hv => exact ⟨v, hv⟩
      · cases this
    · split at h2
      · next v hv => exact ⟨v, hv⟩
      · cases h2
    · split at h3
      · next o ho => exact ⟨o, ho⟩
      · cases h3
  · cases this

end Verif
