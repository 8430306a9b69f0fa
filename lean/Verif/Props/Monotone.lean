import Verif.Proofs.Monotone
import Verif.Proofs.ContribRows
import Verif.Props.Predict
import Verif.Props.StepLimit

/-!
# C10, C11: monotone constraints
-/

namespace Verif

open scoped Verif

set_option linter.unusedSectionVars false

section
variable {K : Type} [Field K] [LinearOrder K] [IsStrictOrderedRing K] {m32 m64 : Fmt K}
  [m32.Exact] [m64.Exact]
variable {S : Sorter} {X : Matrix (FX m64)} {w : List K} {nbins : Nat} {missing : FX m64}
  {gv hv : Nat → K} {c : GrowCfg (FX m32) (FX m64)} {sm : SampleMethod} {rows : List Nat}
  {t : Tree (FX m32) (FX m64)}

/-- **C11** (trees, partial).  If below every split on a constrained feature all splits are on
constrained features, the values of the leaves of two rows that differ in one constrained feature only,
where both have a value, are ordered as the constraint asks.  Full claim: without the condition on the
tree.  It is false, see `C11_counterexample`. -/
theorem C11_tree_partial (h : TrainedOn S X w nbins missing gv hv c sm rows)
    (hf : Tree.fit c sm rows = .ok t) {l1 l2 mds lr : K} (hP : PlainParams c hv rows l1 l2 mds lr)
    (hlr : 0 ≤ lr) (hs : OnlyConstrainedBelow c.splitter.params.getConstraint t.nodes) {f : Nat}
    {row row' : Nat → Option (FX m64)} {msg : FX m64}
    (hr : Comparable c.splitter.params.getConstraint msg f row row') {l l' : Node (FX m32) (FX m64)}
    (hl : Route t.nodes row msg 0 l) (hl' : Route t.nodes row' msg 0 l') :
    ∃ x x', l.weightValue = FX.fin x ∧ l'.weightValue = FX.fin x' ∧ x ≤ x' := by
  obtain ⟨o, gs, nodes, hV⟩ := h.view hf
  exact hV.monotone h hP hlr hs hr 0 l l' hl hl'

/-- **C10** (trees).  If every feature that the tree splits on is constrained, the values of the leaves
of two rows that differ in one constrained feature only, where both have a value, are ordered as the
constraint asks.  Both splitters, all treatments of missing values, any other parameters. -/
theorem C10_tree (h : TrainedOn S X w nbins missing gv hv c sm rows)
    (hf : Tree.fit c sm rows = .ok t) {l1 l2 mds lr : K} (hP : PlainParams c hv rows l1 l2 mds lr)
    (hlr : 0 ≤ lr) (hs : ∀ n ∈ t.nodes, n.isLeaf = false →
      Constrained (c.splitter.params.getConstraint n.splitFeature)) {f : Nat}
    {row row' : Nat → Option (FX m64)} {msg : FX m64}
    (hr : Comparable c.splitter.params.getConstraint msg f row row') {l l' : Node (FX m32) (FX m64)}
    (hl : Route t.nodes row msg 0 l) (hl' : Route t.nodes row' msg 0 l') :
    ∃ x x', l.weightValue = FX.fin x ∧ l'.weightValue = FX.fin x' ∧ x ≤ x' :=
  C11_tree_partial h hf hP hlr
    (fun _ _ _ n' _ _ _ _ hn' hl' => hs n' (List.mem_of_getElem? hn') hl') hr hl hl'

/-- **C11** (boosters, partial).  If in every tree all splits below splits on constrained features are on
constrained features, the predictions for any two rows of any data that differ in one constrained
feature only, where both have a value, are ordered as the constraint asks.  Full claim: without the
condition on the trees.  It is false, see `C11_counterexample`. -/
theorem C11_booster_partial {R : Type} {env : Env R (FX m32) (FX m64)} {b b' : Booster (FX m32) (FX m64)}
    {y : List K} {ev : Option (List (EvalSet (FX m64)))} {l1 l2 mds lr : K}
    (h : PlainFit env b X y w ev b' l1 l2 mds lr) (hlr : 0 ≤ lr)
    (hs : ∀ t ∈ b'.trees, OnlyConstrainedBelow (fun f => b.constraintsMap.lookup f) t.nodes)
    (data : Matrix (FX m64)) (out : List (FX m64)) (hout : b'.predict data = .ok out) (f i j : Nat)
    (hr : Comparable (fun f => b.constraintsMap.lookup f) b'.missing f (data.entry i) (data.entry j))
    (hi : i < data.rows) (hj : j < data.rows) :
    ∃ x x', out[i]? = some (FX.fin x) ∧ out[j]? = some (FX.fin x') ∧ x ≤ x' := by
  obtain ⟨base, binned, st, stop, N, hT⟩ := Booster.fit_trace h.fit
  have hbase : b'.baseScore.IsFin := by
    have := hT.same N le_rfl
    rw [hT.last] at this
    unfold Booster.SameParams at this
    rw [this]
    exact h.base base hT.base_eq
  obtain ⟨base', hbase⟩ := hbase
  rw [C19_prediction_iteration] at hout
  obtain ⟨_, hlen, hp⟩ := hout
  rw [hbase] at hp
  have hfin : ∀ t ∈ b'.trees.take b'.used, t.FiniteValues := by
    intro t ht
    obtain ⟨binned, p, k, cfg, rows, hA⟩ := h.tree_mem (List.mem_of_mem_take ht)
    exact hA.values
  have ho1 : out[i]? = some out[i] := List.getElem?_eq_getElem (by omega)
  have ho2 : out[j]? = some out[j] := List.getElem?_eq_getElem (by omega)
  obtain ⟨ls, hl, e1⟩ := (hp i _ ho1).fin hfin
  obtain ⟨ls', hl', e2⟩ := (hp j _ ho2).fin hfin
  rw [ho1, ho2, e1, e2]
  refine ⟨_, _, rfl, rfl, ?_⟩
  have key : ∀ (ts : List (Tree (FX m32) (FX m64))), (∀ t ∈ ts, t ∈ b'.trees) →
      ∀ (ls ls' : List (Node (FX m32) (FX m64))), Leaves ts (data.entry i) b'.missing ls →
      Leaves ts (data.entry j) b'.missing ls' → ∀ a a' : K, a ≤ a' →
      ls.foldl (fun a l => a + l.weightValue.val) a ≤ ls'.foldl (fun a l => a + l.weightValue.val) a' := by
    intro ts hts ls ls' hl
    unfold Leaves at hl ⊢
    induction hl generalizing ls' with
    | nil =>
      intro hl'
      cases hl'
      exact fun a a' h => h
    | @cons t l ts ls h1 _ ih =>
      intro hl' a a' ha
      cases hl' with
      | @cons _ l' _ ls' h2 h3 =>
        refine ih (fun t ht => hts t (by simp [ht])) _ h3 _ _ ?_
        obtain ⟨binned, p, k, cfg, rows, hA⟩ := h.tree_mem (hts t (by simp))
        have hcon : cfg.splitter.params.getConstraint = fun f => b.constraintsMap.lookup f := by
          rw [hA.treeAt.fitted.splitter]
          funext g
          unfold Booster.splitter
          split <;> rfl
        obtain ⟨x, x', k1, k2, k3⟩ := C11_tree_partial hA.trained hA.treeAt.fitted.fit hA.params hlr
          (by rw [hcon]; exact hs t (hts t (by simp))) (by rw [hcon]; exact hr) h1 h2
        show a + l.weightValue.val ≤ a' + l'.weightValue.val
        rw [k1, k2]
        exact add_le_add ha k3
  exact key _ (fun t ht => List.mem_of_mem_take ht) ls ls' hl hl' _ _ le_rfl

/-- **C10** (boosters).  If every feature that a tree of the booster splits on is constrained, the
predictions for any two rows of any data that differ in one constrained feature only, where both have a
value, are ordered as the constraint asks. -/
theorem C10_booster {R : Type} {env : Env R (FX m32) (FX m64)} {b b' : Booster (FX m32) (FX m64)}
    {y : List K} {ev : Option (List (EvalSet (FX m64)))} {l1 l2 mds lr : K}
    (h : PlainFit env b X y w ev b' l1 l2 mds lr) (hlr : 0 ≤ lr)
    (hs : ∀ t ∈ b'.trees, ∀ n ∈ t.nodes, n.isLeaf = false →
      Constrained (b.constraintsMap.lookup n.splitFeature))
    (data : Matrix (FX m64)) (out : List (FX m64)) (hout : b'.predict data = .ok out) (f i j : Nat)
    (hr : Comparable (fun f => b.constraintsMap.lookup f) b'.missing f (data.entry i) (data.entry j))
    (hi : i < data.rows) (hj : j < data.rows) :
    ∃ x x', out[i]? = some (FX.fin x) ∧ out[j]? = some (FX.fin x') ∧ x ≤ x' :=
  C11_booster_partial h hlr
    (fun t ht _ _ _ n' _ _ _ _ hn' hl' => hs t ht n' (List.mem_of_getElem? hn') hl') data out hout f i j
    hr hi hj

end

/-! ### A violation, and examples -/

/-- Two features, four rows. -/
def monoX : Matrix Q := { data := [q 0, q 0, q 1, q 1, q 0, q 1, q 0, q 1], rows := 4, cols := 2 }

/-- One tree, with a constraint on feature 0 only. -/
def exMixed : Booster Q Q :=
  { exFresh with learningRate := q 1, iterations := 1, monotoneConstraints := some [(0, .positive)]
                 initializeBaseScore := false, baseScore := q 0 }

/-- The same with both features constrained. -/
def exBoth : Booster Q Q := { exMixed with monotoneConstraints := some [(0, .positive), (1, .positive)] }

theorem monoPlain {b b' : Booster Q Q} {l1 l2 mds lr : ℚ} (h1 : b.l1 = FX.fin l1) (h2 : b.l2 = FX.fin l2)
    (h3 : b.maxDeltaStep = FX.fin mds) (h4 : b.learningRate = FX.fin lr) (h5 : 0 ≤ l2)
    (h6 : b.minLeafWeight = q 1) (h7 : b.sampleMethod = .none) (h8 : b.objectiveType = .squaredLoss)
    (h9 : b.initializeBaseScore = false) (h10 : b.baseScore.IsFin) (h11 : b.missing = FX.nan)
    (h : b.fit exEnv monoX [q 0, q 10, q 20, q 5] (List.replicate 4 (q 1)) none = .ok (b', .ok ())) :
    PlainFit exEnv b monoX [0, 10, 20, 5] (List.replicate 4 (1 : ℚ)) none b' l1 l2 mds lr where
  sorter := exSorter_ok
  rng := exRng_ok
  shaped := rfl
  ylen := rfl
  wlen := rfl
  max := by
    rw [h11]
    decide +kernel
  minLeafWeight := by rw [h6]; decide
  l1_eq := h1
  l2_eq := h2
  mds_eq := h3
  lr_eq := h4
  l2_nonneg := h5
  positive := .inr ⟨h7, 1, by simp, by norm_num⟩
  goss := by rw [h7]; exact fun h => nomatch h
  exp := by rw [h8]; exact fun h => nomatch h
  base := by
    rw [h9]
    rintro s rfl
    exact h10
  fit := h

/-- Rows 1 and 3 of `monoX` differ in feature 0 only. -/
theorem monoX_comparable {con : Nat → Option Constraint} (h : con 0 = some .positive) :
    Comparable con (FX.nan : Q) 0 (monoX.entry 1) (monoX.entry 3) := by
  refine ⟨fun g hg => ?_, q 0, q 1, rfl, rfl, by decide, by decide, .inl ⟨h, by decide⟩⟩
  match g, hg with
  | 1, _ => rfl
  | n + 2, _ =>
    unfold Matrix.entry
    rw [List.getElem?_eq_none, List.getElem?_eq_none]
    · show 8 ≤ (n + 2) * 4 + 3
      omega
    · show 8 ≤ (n + 2) * 4 + 1
      omega

/-- **C11** is false.  With a Positive constraint on feature 0 and none on feature 1, the prediction for
row 1 is 10 and that for row 3 is 5, although the rows differ in feature 0 only, where row 3 has the
larger value. -/
theorem C11_counterexample :
    ∃ b' out, PlainFit exEnv exMixed monoX [0, 10, 20, 5] (List.replicate 4 (1 : ℚ)) none b' 0 0 0 1 ∧
      b'.predict monoX = .ok out ∧
      Comparable (fun f => exMixed.constraintsMap.lookup f) b'.missing 0 (monoX.entry 1) (monoX.entry 3) ∧
      out[1]? = some (FX.fin 10) ∧ out[3]? = some (FX.fin 5) := by
  have : (match exMixed.fit exEnv monoX [q 0, q 10, q 20, q 5] (List.replicate 4 (q 1)) none with
    | .ok (b', .ok ()) => decide (b'.predict monoX = .ok [q 0, q 10, q 20, q 5] ∧ b'.missing = FX.nan)
    | _ => false) = true := by decide +kernel
  split at this
  · rename_i b' h
    obtain ⟨h1, h2⟩ := of_decide_eq_true this
    refine ⟨b', _, monoPlain rfl rfl rfl rfl le_rfl rfl rfl rfl rfl ⟨_, rfl⟩ rfl h, h1, ?_, rfl, rfl⟩
    rw [h2]
    exact monoX_comparable rfl
  · cases this

/-- The hypotheses of C10 are met: both features are split on, and a leaf is clipped to 35/4. -/
example : ∃ b' out, PlainFit exEnv exBoth monoX [0, 10, 20, 5] (List.replicate 4 (1 : ℚ)) none b' 0 0 0 1 ∧
      b'.predict monoX = .ok out ∧ (∀ t ∈ b'.trees, ∀ n ∈ t.nodes, n.isLeaf = false →
      Constrained (exBoth.constraintsMap.lookup n.splitFeature)) ∧
      (b'.trees.flatMap fun t => (t.nodes.filter fun n => !n.isLeaf).map fun n => n.splitFeature) = [0, 1] ∧
      Comparable (fun f => exBoth.constraintsMap.lookup f) b'.missing 0 (monoX.entry 1) (monoX.entry 3) ∧
      out = [q 0, q (35/4), q (25/2), q (25/2)] := by
  have : (match exBoth.fit exEnv monoX [q 0, q 10, q 20, q 5] (List.replicate 4 (q 1)) none with
    | .ok (b', .ok ()) => decide (b'.predict monoX = .ok [q 0, q (35/4), q (25/2), q (25/2)] ∧
        b'.missing = FX.nan ∧
        (b'.trees.flatMap fun t => (t.nodes.filter fun n => !n.isLeaf).map fun n => n.splitFeature) = [0, 1] ∧
        ∀ t ∈ b'.trees, ∀ n ∈ t.nodes, n.isLeaf = false →
          (exBoth.constraintsMap.lookup n.splitFeature = some .positive ∨
            exBoth.constraintsMap.lookup n.splitFeature = some .negative))
    | _ => false) = true := by decide +kernel
  split at this
  · rename_i b' h
    obtain ⟨h1, h2, h3, h4⟩ := of_decide_eq_true this
    refine ⟨b', _, monoPlain rfl rfl rfl rfl le_rfl rfl rfl rfl rfl ⟨_, rfl⟩ rfl h, h1, h4, h3, ?_, rfl⟩
    rw [h2]
    exact monoX_comparable rfl
  · cases this

end Verif
