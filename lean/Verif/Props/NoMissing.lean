import Verif.Proofs.NoMissingFit
import Verif.Spec.ExampleFit

/-!
# C120 Data without missing values

When no value of the training data is missing, the missing branch of every split made with
`create_missing_branch` is empty.  One would expect that the option then does not matter.  This is false:
the score of the empty branch is `-l2 * weight^2`, so with a positive `l2` fewer splits are made, and the
empty branch counts as a leaf, so `max_leaves` is reached earlier.  It is true when `l2` is 0, the leaf limit
is not reached and `force_children_to_bound_parent` is not set (in exact arithmetic).
-/

namespace Verif

open scoped Verif

set_option linter.unusedSectionVars false

section
variable {K : Type} [Field K] [LinearOrder K] [IsStrictOrderedRing K] {m32 m64 : Fmt K}
  [m32.Exact] [m64.Exact] {R : Type}

/-- No value of the matrix is missing. -/
def Matrix.Complete {D : Type} [Fl D] (Z : Matrix D) (missing : D) : Prop :=
  ∀ v ∈ Z.data, ¬ IsMissing missing v

/-- C120 for one tree.  A tree fitted with binary splits and a tree fitted with ternary splits to the same
data without missing values, `l2` being 0 and neither leaf limit being reached, predict the same on data
without missing values.  The full statement would have no condition on `l2`, the leaf limits and
`force_children_to_bound_parent`; it is false, see `C120_counterexample`. -/
theorem C120_tree_partial {bp : BranchParams (FX m32)} {S : Sorter} {X : Matrix (FX m64)} {w : List K}
    {nbins : Nat} {missing : FX m64} {gv hv : Nat → K} {c c' : GrowCfg (FX m32) (FX m64)}
    {sm : SampleMethod} {rows : List Nat} {l1 mds lr : K} {t t' : Tree (FX m32) (FX m64)}
    (hb : NoScore bp l1 mds) (hs : c.splitter = .imputer bp.toSplitParams) (hs' : c'.splitter = .branch bp)
    (ht : c'.train = c.train) (hd : c'.maxDepth = c.maxDepth)
    (hT : TrainedOn S X w nbins missing gv hv c sm rows) (hX : X.Complete missing)
    (hP : PlainParams c hv rows l1 0 mds lr) (h : Tree.fit c sm rows = .ok t)
    (h' : Tree.fit c' sm rows = .ok t') (hl : t.nodes.countP Node.isLeaf < c.maxLeaves)
    (hl' : t'.nodes.countP Node.isLeaf < c'.maxLeaves) (Z : Matrix (FX m64)) (hZ : Z.Complete missing) :
    t'.predict Z missing = t.predict Z missing := by
  unfold Tree.predict Tree.predictLeaf
  congr 1
  funext i
  have := fit_complete_twin hb hs hs' ht hd hT hX hP h h' hl hl' (Z.get i)
    (fun f => Matrix.get_ne_diverge _ _ _) (by
      intro f v hv
      rw [Matrix.get_eq] at hv
      cases e : Z.entry i f with
      | none => rw [e] at hv; cases hv
      | some u =>
        rw [e] at hv
        cases hv
        exact hZ _ (Matrix.entry_mem e))
  have := congrArg (fun r => r >>= fun w => Res.ok (up w : FX m64)) this
  simpa only [Res.bind_assoc', Res.ok_bind] using this.symm

/-- The booster `b` with a missing branch. -/
def Booster.withBranch {F D : Type} (b : Booster F D) : Booster F D := { b with createMissingBranch := true }

/-- C120.  A fit with `create_missing_branch = false` and a fit with `create_missing_branch = true`, to the
same data without missing values and with evaluation sets without missing values, such that `l2` is 0,
`force_children_to_bound_parent` is not set and no tree reaches the leaf limit: both have equally many
trees and predict the same on data without missing values.  The full statement would have no condition on
`l2`, the leaf limits and `force_children_to_bound_parent`; it is false, see `C120_counterexample` and
`C120_leaf_limit`. -/
theorem C120_partial {env : Env R (FX m32) (FX m64)} {b b1 b2 : Booster (FX m32) (FX m64)}
    {X : Matrix (FX m64)} {y w : List K} {ev : Option (List (EvalSet (FX m64)))} {l1 mds lr : K}
    (h1 : PlainFit env b X y w ev b1 l1 0 mds lr) (hc : b.createMissingBranch = false)
    (hf : b.forceChildrenToBoundParent = false) (hX : X.Complete b.missing)
    (hE : ∀ l, ev = some l → ∀ e ∈ l, e.data.Complete b.missing)
    (h2 : b.withBranch.fit env X (y.map FX.fin) (w.map FX.fin) ev = .ok (b2, .ok ()))
    (hl1 : ∀ t ∈ b1.trees, t.nodes.countP Node.isLeaf < b.maxLeaves)
    (hl2 : ∀ t ∈ b2.trees, t.nodes.countP Node.isLeaf < b.maxLeaves) :
    b2.trees.length = b1.trees.length ∧
      ∀ Z : Matrix (FX m64), Z.Complete b.missing → b2.predict Z = b1.predict Z := by
  obtain ⟨base, binned, st, stop, N, T⟩ := Booster.fit_trace h1.fit
  obtain ⟨base', binned', st', stop', N', T'⟩ := Booster.fit_trace h2
  have hbin : binned' = binned := by
    have := T'.bin_eq
    rw [show b.withBranch.nbins = b.nbins from rfl, show b.withBranch.missing = b.missing from rfl,
      T.bin_eq] at this
    cases this; rfl
  subst hbin
  have hbase : base' = base := by
    have e := T.base_eq
    have e' := T'.base_eq
    rw [show b.withBranch.initializeBaseScore = b.initializeBaseScore from rfl] at e'
    split at e
    · rename_i hi
      rw [if_pos hi] at e'
      rw [show b.withBranch.objectiveType = b.objectiveType from rfl, e] at e'
      cases e'; rfl
    · rename_i hi
      rw [if_neg hi] at e'
      rw [e, e']; rfl
  subst hbase
  have hstates : ∀ k, k ≤ N → k ≤ N' →
      (∃ ts, st' k = { st k with booster := (st k).booster.branchy ts } ∧
        List.Forall₂ (fun t t' : Tree (FX m32) (FX m64) => ∀ Z : Matrix (FX m64), Z.Complete b.missing →
          t'.predict Z b.missing = t.predict Z b.missing) (st k).booster.trees ts) ∧
      (∀ l, (st k).evals = some l → ∀ e ∈ l, e.data.Complete b.missing) ∧ ∀ j < k, stop' j = stop j := by
    intro k
    induction k with
    | zero =>
      intro _ _
      refine ⟨⟨[], ?_, ?_⟩, ?_, by omega⟩
      · rw [T'.start, T.start, fitStart, fitStart]
        cases ht : b.trees with
        | nil => simp [Booster.start, ht, Booster.branchy, Booster.withBranch]
        | cons a l => simp [Booster.start, ht, Booster.branchy, Booster.reset, Booster.withBranch]
      · rw [T.start, fitStart]
        have : b.start.trees = [] := by rw [b.start_eq]
        show List.Forall₂ _ b.start.trees []
        rw [this]
        exact .nil
      · rw [T.start, fitStart]
        intro l hl e he
        cases ev with
        | none => cases hl
        | some es =>
          simp only [Option.map_some, Option.some.injEq] at hl
          subst hl
          obtain ⟨a, ha, rfl⟩ := List.mem_map.1 he
          exact hE es rfl a ha
    | succ k ih =>
      intro hk hk'
      obtain ⟨⟨ts, e, hfa⟩, hev, hstop⟩ := ih (by omega) (by omega)
      have s1 := T.step k (by omega)
      have s2 := T'.step k (by omega)
      rw [e] at s2
      have hsame := T.same k (by omega)
      unfold Booster.SameParams at hsame
      have hmiss : (st k).booster.missing = b.missing := by rw [hsame]
      obtain ⟨p, hp⟩ := h1.yhat T k (by omega)
      have hgr := T.grad k (by omega)
      obtain ⟨x1, x1', t, t', x2, x3, x4⟩ := fitIteration_branchy (Q := fun Z => Z.Complete b.missing) hX hev s1
        s2 (by
          intro cfg rows r1 r2 r3 t t' g1 g2 g3 g4 g5 g6 g7 g8 g9 g10 g11 g12 g13 Z hZ
          have htk : b1.trees[k]? = some t := by
            have := T.trees (k + 1) hk
            rw [g12] at this
            have hlen := T.treesLen k (by omega)
            have e2 : (b1.trees.take (k + 1))[k]? = some t := by
              rw [← this, List.getElem?_append_right (by omega), hlen]; simp
            rw [List.getElem?_take] at e2
            split at e2
            · exact e2
            · cases e2
          have q1 : (st k).booster.sampleMethod = b.sampleMethod := by rw [hsame]
          have q2 : (st k).booster.subsample = b.subsample := by rw [hsame]
          have q3 : (st k).booster.topRate = b.topRate := by rw [hsame]
          have q4 : (st k).booster.otherRate = b.otherRate := by rw [hsame]
          have q5 : (st k).booster.colsampleBytree = b.colsampleBytree := by rw [hsame]
          have q6 : (st k).booster.maxLeaves = b.maxLeaves := by rw [hsame]
          have q7 : (st k).booster.maxDepth = b.maxDepth := by rw [hsame]
          have q8 : (st k).booster.growPolicy = b.growPolicy := by rw [hsame]
          rw [q1, q2, q3, q4] at g1
          rw [q1] at g10 g11
          rw [q5] at g2
          rw [q6] at g6
          rw [q7] at g7
          rw [q8] at g8
          have hA : TreeAt env b X (y.map FX.fin) (w.map FX.fin) binned' (st k).yhat k t cfg rows :=
            ⟨⟨g10, g3, g6, g7, g8, g4, g5, ⟨r2, r3, g2⟩, ⟨_, _, _, _, g1⟩⟩, g9, r1, r2, by
              rw [← hgr]; exact g1⟩
          have hPT := h1.tree_with T htk hp hA
          rw [hmiss]
          let bp : BranchParams (FX m32) :=
            { l1 := b.l1, l2 := b.l2, maxDeltaStep := b.maxDeltaStep, gamma := b.gamma
              minLeafWeight := b.minLeafWeight, learningRate := b.learningRate
              allowMissingSplits := b.allowMissingSplits, constraintsMap := b.constraintsMap
              terminateMissingFeatures := b.terminateMissingFeatures
              missingNodeTreatment := b.missingNodeTreatment
              forceChildrenToBoundParent := b.forceChildrenToBoundParent }
          have hbp : NoScore bp l1 mds := ⟨h1.l1_eq, h1.l2_eq, h1.mds_eq, h1.minLeafWeight, hf⟩
          have z1 : cfg.splitter = .imputer bp.toSplitParams := by
            rw [g3]; unfold Booster.splitter; rw [hc]; rfl
          exact C120_tree_partial (c' := { cfg with splitter := b.withBranch.splitter }) hbp z1 rfl rfl rfl
            hPT.trained hX hPT.params g10 g11
            (by rw [g6]; exact hl1 t (List.mem_of_getElem? htk))
            (by
              show _ < cfg.maxLeaves
              rw [g6]
              rw [T'.trees (k + 1) hk'] at g13
              exact hl2 t' (List.mem_of_mem_take g13)) Z hZ)
      refine ⟨⟨ts ++ [t'], x3, ?_⟩, x1', ?_⟩
      · rw [x2]
        rw [hmiss] at x4
        exact List.rel_append hfa (.cons x4 .nil)
      · intro j hj
        rcases Nat.lt_succ_iff_lt_or_eq.1 hj with hj | rfl
        · exact hstop j hj
        · exact x1
  have hN : N' = N := by
    rcases Nat.lt_trichotomy N' N with hlt | heq | hgt
    · have := T'.ended (lt_of_lt_of_le hlt T.le)
      have e := (hstates N' (by omega) (le_refl _)).2.2 (N' - 1) (by omega)
      rw [this.2] at e
      have := T.cont (N' - 1) (by omega)
      rw [this] at e; cases e
    · exact heq
    · have := T.ended (lt_of_lt_of_le hgt T'.le)
      have e := (hstates N (le_refl _) (by omega)).2.2 (N - 1) (by omega)
      rw [this.2] at e
      have := T'.cont (N - 1) (by omega)
      rw [this] at e; cases e
  subst hN
  refine ⟨by rw [T.length, T'.length], fun Z hZ => ?_⟩
  obtain ⟨⟨ts, e, hfa⟩, _⟩ := hstates N' (le_refl _) (le_refl _)
  have hsame := T.same N' (le_refl _)
  have hb1 := T.last
  have hb2 := T'.last
  rw [e] at hb2
  rw [hb1] at hb2 hfa hsame
  unfold Booster.SameParams at hsame
  have hmiss : b1.missing = b.missing := by rw [hsame]
  simp only at hb2
  rw [← hb2]
  have hlen := hfa.length_eq
  unfold Booster.predict Booster.predictionTrees
  have e1 : (b1.branchy ts).predictionIteration = b1.predictionIteration := rfl
  have e2 : (b1.branchy ts).trees = ts := rfl
  have e3 : (b1.branchy ts).missing = b1.missing := rfl
  have e4 : (b1.branchy ts).baseScore = b1.baseScore := rfl
  simp only [e1, e2, e3, e4, ← hlen, hmiss]
  split
  · simp only [Res.ok_bind]
    generalize hn : b1.predictionIteration.getD b1.trees.length = n
    have := List.forall₂_take n hfa
    generalize b1.trees.take n = l at this
    generalize ts.take n = l' at this
    generalize List.replicate Z.rows b1.baseScore = acc
    induction this generalizing acc with
    | nil => rfl
    | cons hd _ ih =>
      rw [Res.foldM'_cons, Res.foldM'_cons, hd Z hZ]
      congr 1
      funext a
      exact ih a
  · rfl

end

/-! ### Examples -/

/-- Four rows, one column, no missing value. -/
def completeX : Matrix Q := { data := [q 1, q 2, q 3, q 4], rows := 4, cols := 1 }

/-- Two rows, one column, no missing value. -/
def completeZ : Matrix Q := { data := [q (5/2), q 9], rows := 2, cols := 1 }

/-- A booster with binary splits, a given `l2` and a given leaf limit. -/
def completeBooster (l2 : ℚ) (maxLeaves : Nat) : Booster Q Q :=
  { exFresh with l2 := q l2, maxLeaves, initializeBaseScore := false, baseScore := q 0, iterations := 2 }

/-- An evaluation set without missing values. -/
def completeEval : List (EvalSet Q) := [{ data := completeZ, y := [q 1, q 2], w := [q 1, q 1] }]

theorem completePlain {l2 : ℚ} (hl : 0 ≤ l2) {n : Nat} {ev : Option (List (EvalSet Q))} {b' : Booster Q Q}
    (h : (completeBooster l2 n).fit exEnv completeX ([1, 1, 3, 4].map q) (List.replicate 4 (q 1)) ev =
      .ok (b', .ok ())) :
    PlainFit exEnv (completeBooster l2 n) completeX [1, 1, 3, 4] (List.replicate 4 (1 : ℚ)) ev b' 0 l2 0
      (1 / 2) where
  sorter := exSorter_ok
  rng := exRng_ok
  shaped := rfl
  ylen := rfl
  wlen := rfl
  max := by
    show ∀ v ∈ completeX.data, ¬ IsMissing (FX.nan : Q) v → (v ≤ᶠ Fl.maxv) = true
    decide +kernel
  minLeafWeight := by show (0 <ᶠ (q 1 : Q)) = true; decide
  l1_eq := rfl
  l2_eq := rfl
  mds_eq := rfl
  lr_eq := rfl
  l2_nonneg := hl
  positive := .inr ⟨rfl, 1, by simp, by norm_num⟩
  goss := fun h => nomatch h
  exp := fun h => nomatch h
  base := by
    rintro s rfl
    exact ⟨0, rfl⟩
  fit := h

/-- A case for `C120_partial`: two trees of three leaves each, the fit with a missing branch has five leaves
per tree. -/
example : ∃ b1 b2, PlainFit exEnv (completeBooster 0 20) completeX [1, 1, 3, 4] (List.replicate 4 (1 : ℚ))
      (some completeEval) b1 0 0 0 (1 / 2) ∧
    (completeBooster 0 20).withBranch.fit exEnv completeX ([1, 1, 3, 4].map q) (List.replicate 4 (q 1))
      (some completeEval) = .ok (b2, .ok ()) ∧
    completeX.Complete (completeBooster 0 20).missing ∧ completeZ.Complete (completeBooster 0 20).missing ∧
    b1.trees.length = 2 ∧ (∀ t ∈ b1.trees, t.nodes.countP Node.isLeaf = 3) ∧
    ∀ t ∈ b2.trees, t.nodes.countP Node.isLeaf = 5 := by
  have : (match (completeBooster 0 20).fit exEnv completeX ([1, 1, 3, 4].map q) (List.replicate 4 (q 1)) (some completeEval),
      (completeBooster 0 20).withBranch.fit exEnv completeX ([1, 1, 3, 4].map q) (List.replicate 4 (q 1))
        (some completeEval) with
    | .ok (b1, .ok ()), .ok (b2, .ok ()) => decide (b1.trees.length = 2 ∧
        (∀ t ∈ b1.trees, t.nodes.countP Node.isLeaf = 3) ∧
        ∀ t ∈ b2.trees, t.nodes.countP Node.isLeaf = 5)
    | _, _ => false) = true := by decide +kernel
  split at this
  · rename_i b1 b2 h1 h2
    refine ⟨b1, b2, completePlain (le_refl _) h1, h2, ?_, ?_, of_decide_eq_true this⟩
    · show ∀ v ∈ completeX.data, ¬ IsMissing (FX.nan : Q) v
      decide +kernel
    · show ∀ v ∈ completeZ.data, ¬ IsMissing (FX.nan : Q) v
      decide +kernel
  · cases this

/-- C120 is false when `l2` is 1: the data has no missing value and no tree reaches the leaf limit, but the
prediction for the row 5/2 depends on `create_missing_branch`. -/
theorem C120_counterexample : ∃ b1 b2, PlainFit exEnv (completeBooster 1 20) completeX [1, 1, 3, 4]
      (List.replicate 4 (1 : ℚ)) none b1 0 1 0 (1 / 2) ∧
    (completeBooster 1 20).withBranch.fit exEnv completeX ([1, 1, 3, 4].map q) (List.replicate 4 (q 1)) none =
      .ok (b2, .ok ()) ∧
    completeX.Complete (completeBooster 1 20).missing ∧ completeZ.Complete (completeBooster 1 20).missing ∧
    (∀ t ∈ b1.trees, t.nodes.countP Node.isLeaf < 20) ∧ (∀ t ∈ b2.trees, t.nodes.countP Node.isLeaf < 20) ∧
    b2.predict completeZ ≠ b1.predict completeZ := by
  have : (match (completeBooster 1 20).fit exEnv completeX ([1, 1, 3, 4].map q) (List.replicate 4 (q 1)) none,
      (completeBooster 1 20).withBranch.fit exEnv completeX ([1, 1, 3, 4].map q) (List.replicate 4 (q 1)) none with
    | .ok (b1, .ok ()), .ok (b2, .ok ()) => decide ((∀ t ∈ b1.trees, t.nodes.countP Node.isLeaf < 20) ∧
        (∀ t ∈ b2.trees, t.nodes.countP Node.isLeaf < 20) ∧ b2.predict completeZ ≠ b1.predict completeZ)
    | _, _ => false) = true := by decide +kernel
  split at this
  · rename_i b1 b2 h1 h2
    refine ⟨b1, b2, completePlain (by norm_num) h1, h2, ?_, ?_, of_decide_eq_true this⟩
    · show ∀ v ∈ completeX.data, ¬ IsMissing (FX.nan : Q) v
      decide +kernel
    · show ∀ v ∈ completeZ.data, ¬ IsMissing (FX.nan : Q) v
      decide +kernel
  · cases this

/-- C120 is false when the leaf limit is reached, also with `l2 = 0`: with `max_leaves = 3` the fit with
binary splits has trees of three leaves, two splits, the fit with a missing branch has only one split. -/
theorem C120_leaf_limit : ∃ b1 b2, PlainFit exEnv (completeBooster 0 3) completeX [1, 1, 3, 4]
      (List.replicate 4 (1 : ℚ)) none b1 0 0 0 (1 / 2) ∧
    (completeBooster 0 3).withBranch.fit exEnv completeX ([1, 1, 3, 4].map q) (List.replicate 4 (q 1)) none =
      .ok (b2, .ok ()) ∧
    completeX.Complete (completeBooster 0 3).missing ∧ completeZ.Complete (completeBooster 0 3).missing ∧
    (∀ t ∈ b1.trees, t.nodes.countP Node.isLeaf = 3) ∧ (∀ t ∈ b2.trees, t.nodes.countP Node.isLeaf = 3) ∧
    b2.predict completeZ ≠ b1.predict completeZ := by
  have : (match (completeBooster 0 3).fit exEnv completeX ([1, 1, 3, 4].map q) (List.replicate 4 (q 1)) none,
      (completeBooster 0 3).withBranch.fit exEnv completeX ([1, 1, 3, 4].map q) (List.replicate 4 (q 1)) none with
    | .ok (b1, .ok ()), .ok (b2, .ok ()) => decide ((∀ t ∈ b1.trees, t.nodes.countP Node.isLeaf = 3) ∧
        (∀ t ∈ b2.trees, t.nodes.countP Node.isLeaf = 3) ∧ b2.predict completeZ ≠ b1.predict completeZ)
    | _, _ => false) = true := by decide +kernel
  split at this
  · rename_i b1 b2 h1 h2
    refine ⟨b1, b2, completePlain (le_refl _) h1, h2, ?_, ?_, of_decide_eq_true this⟩
    · show ∀ v ∈ completeX.data, ¬ IsMissing (FX.nan : Q) v
      decide +kernel
    · show ∀ v ∈ completeZ.data, ¬ IsMissing (FX.nan : Q) v
      decide +kernel
  · cases this

end Verif
