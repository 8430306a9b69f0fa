import Verif.Props.SquaredLossGain
import Verif.Props.StepLimit
import Verif.Props.Objective
import Verif.Props.Total
import Verif.Proofs.CopiesPick
import Mathlib.Analysis.Calculus.Deriv.MeanValue
import Mathlib.Analysis.SpecialFunctions.Log.Deriv
import Mathlib.Analysis.SpecialFunctions.ExpDeriv
import Mathlib.Analysis.SpecialFunctions.Exponential

/-! C91: does boosting lower the logistic training loss? -/

namespace Verif

open scoped Verif

/-- The weighted logistic loss of the raw predictions `p`. -/
noncomputable def logisticLoss (y w p : List ℝ) : ℝ :=
  ((List.range y.length).map fun i =>
    w.getD i 0 * (Real.log (1 + Real.exp (p.getD i 0)) - y.getD i 0 * p.getD i 0)).sum

/-- How far the softplus function can be above its second order expansion. -/
theorem log_mix_le {p u : ℝ} (h0 : 0 ≤ p) (h1 : p ≤ 1) (hu : 0 ≤ u) :
    Real.log (1 + p * (Real.exp u - 1)) - p * u ≤ p * (1 - p) * (Real.exp u - 1 - u) := by
  have hpos : ∀ x : ℝ, 0 ≤ x → 0 < 1 + p * (Real.exp x - 1) := by
    intro x hx
    have := Real.one_le_exp hx
    nlinarith [mul_nonneg h0 (sub_nonneg.2 this)]
  let f : ℝ → ℝ := fun x => p * (1 - p) * (Real.exp x - 1 - x) - (Real.log (1 + p * (Real.exp x - 1)) - p * x)
  have hd : ∀ x : ℝ, 0 ≤ x → HasDerivAt f
      (p * (1 - p) * (Real.exp x - 1) - (p * Real.exp x / (1 + p * (Real.exp x - 1)) - p)) x := by
    intro x hx
    have e1 : HasDerivAt (fun x : ℝ => Real.exp x - 1 - x) (Real.exp x - 1) x :=
      ((Real.hasDerivAt_exp x).sub_const 1).sub (hasDerivAt_id x)
    have e2 : HasDerivAt (fun x : ℝ => 1 + p * (Real.exp x - 1)) (p * Real.exp x) x :=
      (((Real.hasDerivAt_exp x).sub_const 1).const_mul p).const_add 1
    have e3 : HasDerivAt (fun x : ℝ => p * x) p x := by
      simpa using (hasDerivAt_id x).const_mul p
    exact (e1.const_mul (p * (1 - p))).sub ((e2.log (hpos x hx).ne').sub e3)
  have hmono : MonotoneOn f (Set.Ici 0) := by
    refine monotoneOn_of_deriv_nonneg (convex_Ici 0) ?_ ?_ ?_
    · intro x hx
      exact (hd x hx).continuousAt.continuousWithinAt
    · intro x hx
      rw [interior_Ici] at hx
      exact (hd x (le_of_lt hx)).differentiableAt.differentiableWithinAt
    · intro x hx
      rw [interior_Ici] at hx
      have hx : 0 ≤ x := le_of_lt hx
      rw [(hd x hx).deriv]
      have hp := hpos x hx
      have he : 0 ≤ Real.exp x - 1 := sub_nonneg.2 (Real.one_le_exp hx)
      have : p * (1 - p) * (Real.exp x - 1) - (p * Real.exp x / (1 + p * (Real.exp x - 1)) - p) =
          p * (1 - p) * (Real.exp x - 1) * (p * (Real.exp x - 1)) / (1 + p * (Real.exp x - 1)) := by
        field_simp
        ring
      rw [this]
      refine div_nonneg ?_ hp.le
      exact mul_nonneg (mul_nonneg (mul_nonneg h0 (by linarith)) he) (mul_nonneg h0 he)
  have := hmono (Set.mem_Ici.2 le_rfl) (Set.mem_Ici.2 hu) hu
  simp only [f, Real.exp_zero, sub_self, mul_zero, add_zero, Real.log_one] at this
  linarith

/-- The softplus function at `x + v` against its second order expansion at `x`. -/
theorem softplus_le (x v : ℝ) :
    Real.log (1 + Real.exp (x + v)) ≤ Real.log (1 + Real.exp x) + sig x * v +
      sig x * (1 - sig x) * (Real.exp |v| - 1 - |v|) := by
  have hp := sig_pos x
  have hq := sig_lt x
  have e0 : Real.exp x = sig x * (1 + Real.exp x) := by
    unfold sig
    rw [Real.exp_neg]
    have := Real.exp_pos x
    field_simp
    ring
  have hpos : (0 : ℝ) < 1 + Real.exp x := by positivity
  have e1 : 1 + Real.exp (x + v) = (1 + Real.exp x) * (1 + sig x * (Real.exp v - 1)) := by
    rw [Real.exp_add]
    linear_combination (Real.exp v - 1) * e0
  have hne : 1 + sig x * (Real.exp v - 1) ≠ 0 := by
    intro h
    rw [h, mul_zero] at e1
    have : (0 : ℝ) < 1 + Real.exp (x + v) := by positivity
    linarith
  rw [e1, Real.log_mul hpos.ne' hne]
  rcases le_total 0 v with hv | hv
  · rw [abs_of_nonneg hv]
    have := log_mix_le hp.le hq.le hv
    linarith
  · rw [abs_of_nonpos hv]
    have := log_mix_le (p := 1 - sig x) (u := -v) (by linarith) (by linarith) (by linarith)
    have e2 : 1 + sig x * (Real.exp v - 1) = Real.exp v * (1 + (1 - sig x) * (Real.exp (-v) - 1)) := by
      rw [Real.exp_neg]
      have := Real.exp_pos v
      field_simp
      ring
    have hne2 : 1 + (1 - sig x) * (Real.exp (-v) - 1) ≠ 0 := by
      intro h
      rw [h, mul_zero] at e2
      exact hne e2
    rw [e2, Real.log_mul (Real.exp_pos v).ne' hne2, Real.log_exp]
    have e3 : (1 - sig x) * (1 - (1 - sig x)) = sig x * (1 - sig x) := by ring
    rw [e3] at this
    linarith

/-- The remainder of the exponential function grows at least quadratically. -/
theorem exp_rest_le {s a : ℝ} (h0 : 0 ≤ s) (h1 : s ≤ 1) (ha : 0 ≤ a) :
    Real.exp (s * a) - 1 - s * a ≤ s ^ 2 * (Real.exp a - 1 - a) := by
  have hs : ∀ x : ℝ, HasSum (fun n : ℕ => x ^ (n + 2) / ((n + 2).factorial : ℝ)) (Real.exp x - 1 - x) := by
    intro x
    have h : HasSum (fun n : ℕ => x ^ n / (n.factorial : ℝ)) (Real.exp x) := by
      rw [Real.exp_eq_exp_ℝ]
      exact NormedSpace.expSeries_div_hasSum_exp x
    have := (hasSum_nat_add_iff' 2).2 h
    simpa [Finset.sum_range_succ, sub_sub] using this
  refine hasSum_le (fun n => ?_) (hs (s * a)) ((hs a).mul_left (s ^ 2))
  rw [mul_pow, pow_add s n 2, ← mul_div_assoc]
  refine div_le_div_of_nonneg_right ?_ (by positivity)
  have h2 : s ^ n ≤ 1 := pow_le_one₀ h0 h1
  have h3 : 0 ≤ s ^ 2 * a ^ (n + 2) := by positivity
  nlinarith

/-- A step of length at most `a`, where the exponential function is close to its expansion. -/
theorem exp_abs_le {a v κ : ℝ} (hv : |v| ≤ a) (hexp : Real.exp a - 1 - a ≤ κ * a ^ 2) :
    Real.exp |v| - 1 - |v| ≤ κ * v ^ 2 := by
  have ha : 0 ≤ a := (abs_nonneg v).trans hv
  rcases ha.eq_or_lt with rfl | ha
  · have : v = 0 := abs_eq_zero.1 (le_antisymm hv (abs_nonneg v))
    simp [this]
  · have h1 := exp_rest_le (s := |v| / a) (div_nonneg (abs_nonneg v) ha.le) ((div_le_one ha).2 hv) ha.le
    rw [div_mul_cancel₀ _ ha.ne'] at h1
    refine h1.trans ?_
    calc (|v| / a) ^ 2 * (Real.exp a - 1 - a) ≤ (|v| / a) ^ 2 * (κ * a ^ 2) :=
          mul_le_mul_of_nonneg_left hexp (sq_nonneg _)
      _ = κ * v ^ 2 := by
          rw [div_pow, sq_abs]
          field_simp

section

variable {Rg : Type} {env : Env Rg R R} {b b' : Booster R R} {X : Matrix R} {y w : List ℝ}
  {ev : Option (List (EvalSet R))} {l1 l2 mds lr : ℝ}

/-- If every tree lowers the second order loss by `2 δ`, with the second order term taken `κ` times, and the steps
are short enough for `κ`, boosting lowers the logistic loss by `δ`. -/
theorem logistic_round_by (h : PlainFit env b X y w ev b' l1 l2 mds lr) (ho : b.objectiveType = .logLoss)
    (hs : b.sampleMethod = .none) (hm : 0 < mds) (hlr : 0 ≤ lr) {κ : ℝ}
    (hexp : Real.exp (lr * mds) - 1 - lr * mds ≤ κ / 2 * (lr * mds) ^ 2)
    {δ : Tree R R → ℝ}
    (htree : ∀ binned p k t cfg rows, PlainTree env b X y w l1 l2 mds lr binned p k t cfg rows → ∀ v : Nat → ℝ,
      (∀ r ∈ rows, ∀ l, t.predictLeaf X r b.missing = .ok l → l.weightValue = FX.fin (v r)) →
      (rows.map fun r => 2 * (rowVals cfg.train.grad r * v r) + κ * rowVals cfg.train.hess r * v r ^ 2).sum ≤ -(2 * δ t))
    {k : Nat} (hk : k < b'.trees.length) :
    ∃ p p' : List ℝ, ({ b' with predictionIteration := some k }).predict X = .ok (p.map FX.fin) ∧
      ({ b' with predictionIteration := some (k + 1) }).predict X = .ok (p'.map FX.fin) ∧
      logisticLoss y w p' + δ b'.trees[k] ≤ logisticLoss y w p := by
  obtain ⟨p, p', binned, cfg, v, h1, h2, hA, hadd, hval, hgh⟩ := booster_round h hs hk
  refine ⟨p, p', h1, h2, ?_⟩
  have hloss := htree _ _ _ _ _ _ hA v hval
  have hv : ∀ i < y.length, |v i| ≤ lr * mds := by
    intro i hi
    obtain ⟨o, gs, nodes, hV⟩ := hA.trained.view hA.treeAt.fitted.fit
    obtain ⟨j, n, n1, n2, n3, n4⟩ := hV.toLeaf i (List.mem_range.2 hi)
    have e1 := hval i (List.mem_range.2 hi) n (predictLeaf_iff.2 n4)
    obtain ⟨x, e2, e3⟩ := C09_tree hA.trained hA.treeAt.fitted.fit hA.params hm hlr n (List.mem_of_getElem? n1)
    rw [e1] at e2
    rw [FX.fin.inj e2]
    exact e3
  have key : logisticLoss y w p' ≤ logisticLoss y w p + ((List.range y.length).map fun r =>
      2 * (rowVals cfg.train.grad r * v r) + κ * rowVals cfg.train.hess r * v r ^ 2).sum / 2 := by
    unfold logisticLoss
    rw [div_eq_mul_inv, ← List.sum_map_mul_right, ← List.sum_map_add]
    refine List.sum_le_sum fun i hi => ?_
    have hi' := List.mem_range.1 hi
    obtain ⟨a1, a2⟩ := hgh i hi'
    have hw : 0 ≤ w.getD i 0 := by
      have hiw : i < w.length := by rw [h.wlen, ← h.ylen]; exact hi'
      rw [show w.getD i 0 = w[i] by simp [hiw]]
      exact h.nonneg _ (List.getElem_mem hiw)
    have e1 : logistic (FX.fin (p.getD i 0) : R) = FX.fin (sig (p.getD i 0)) := logistic_real _
    have b1 : rowVals cfg.train.grad i = (sig (p.getD i 0) - y.getD i 0) * w.getD i 0 := by
      rw [a1, ho]
      simp only [ObjectiveType.gradOf, logLossGrad, e1, FX.fin_sub, FX.fin_mul, FX.down_fin, FX.val]
    have b2 : rowVals cfg.train.hess i = sig (p.getD i 0) * (1 - sig (p.getD i 0)) * w.getD i 0 := by
      rw [a2, ho]
      simp only [ObjectiveType.hessOf, logLossHess, e1, FX.one_def, FX.fin_sub, FX.fin_mul,
        FX.down_fin, FX.val]
    rw [b1, b2, hadd i hi']
    set x := p.getD i 0
    have c1 := softplus_le x (v i)
    have c2 := exp_abs_le (hv i hi') hexp
    have c3 : 0 ≤ sig x * (1 - sig x) := mul_nonneg (sig_pos x).le (by linarith [sig_lt x])
    have c4 := mul_le_mul_of_nonneg_left c2 c3
    have c5 : Real.log (1 + Real.exp (x + v i)) - y.getD i 0 * (x + v i) ≤
        Real.log (1 + Real.exp x) - y.getD i 0 * x + ((sig x - y.getD i 0) * v i +
          sig x * (1 - sig x) * (κ / 2 * v i ^ 2)) := by linarith
    have c6 := mul_le_mul_of_nonneg_left c5 hw
    refine c6.trans (le_of_eq ?_)
    ring
  linarith

/-- If every tree lowers the second order loss, with the second order term taken `κ` times, and the steps
are short enough for `κ`, boosting does not increase the logistic loss. -/
theorem logistic_round (h : PlainFit env b X y w ev b' l1 l2 mds lr) (ho : b.objectiveType = .logLoss)
    (hs : b.sampleMethod = .none) (hm : 0 < mds) (hlr : 0 ≤ lr) {κ : ℝ}
    (hexp : Real.exp (lr * mds) - 1 - lr * mds ≤ κ / 2 * (lr * mds) ^ 2)
    (htree : ∀ binned p k t cfg rows, PlainTree env b X y w l1 l2 mds lr binned p k t cfg rows → ∀ v : Nat → ℝ,
      (∀ r ∈ rows, ∀ l, t.predictLeaf X r b.missing = .ok l → l.weightValue = FX.fin (v r)) →
      (rows.map fun r => 2 * (rowVals cfg.train.grad r * v r) + κ * rowVals cfg.train.hess r * v r ^ 2).sum ≤ 0)
    {k : Nat} (hk : k < b'.trees.length) :
    ∃ p p' : List ℝ, ({ b' with predictionIteration := some k }).predict X = .ok (p.map FX.fin) ∧
      ({ b' with predictionIteration := some (k + 1) }).predict X = .ok (p'.map FX.fin) ∧
      logisticLoss y w p' ≤ logisticLoss y w p := by
  obtain ⟨p, p', h1, h2, h3⟩ := logistic_round_by (δ := fun _ => 0) h ho hs hm hlr hexp
    (fun binned p k t cfg rows hA v hv' => by simpa using htree binned p k t cfg rows hA v hv') hk
  exact ⟨p, p', h1, h2, by simpa using h3⟩

/-- **C91** (partial).  With LogLoss, no sampling, no monotone constraints and a `max_delta_step` for which
`exp (lr * mds) ≤ 1 + lr * mds + lr * mds ^ 2`, the weighted logistic training loss of the predictions with
the first `k + 1` trees is no larger than that with the first `k` trees, provided missing values are
imputed, or there are none and children are not forced to bound their parent.  Full claim: with every
`max_delta_step`, or none; it is false, see `C91_false`. -/
theorem C91_plain_partial (h : PlainFit env b X y w ev b' l1 l2 mds lr) (ho : b.objectiveType = .logLoss)
    (hs : b.sampleMethod = .none) (hc : b.monotoneConstraints = none)
    (hl1 : 0 ≤ l1) (hmds : 0 < mds) (hlr : 0 ≤ lr)
    (hexp : Real.exp (lr * mds) ≤ 1 + lr * mds + lr * mds ^ 2)
    (hm : b.createMissingBranch = false ∨
      (b.forceChildrenToBoundParent = false ∧ ∀ v ∈ X.data, ¬ IsMissing b.missing v))
    {k : Nat} (hk : k < b'.trees.length) :
    ∃ p p' : List ℝ, ({ b' with predictionIteration := some k }).predict X = .ok (p.map FX.fin) ∧
      ({ b' with predictionIteration := some (k + 1) }).predict X = .ok (p'.map FX.fin) ∧
      logisticLoss y w p' ≤ logisticLoss y w p := by
  refine logistic_round (κ := 2 / lr) h ho hs hmds hlr ?_ (fun binned p k t cfg rows hA v hv' => ?_) hk
  · rcases hlr.eq_or_lt with rfl | hlr
    · simp
    · have : 2 / lr / 2 * (lr * mds) ^ 2 = lr * mds ^ 2 := by field_simp
      linarith
  · refine hA.loss_mul hc hl1 hmds.le hlr ?_ hm hv'
    rcases hlr.eq_or_lt with rfl | hlr
    · simp
    · rw [div_mul_cancel₀ _ hlr.ne']

/-- **C91** (partial), with constraints.  Monotone constraints, children forced to bound their parent and
missing values in a branch of their own are allowed; the missing branch may be treated as `None` or
`AverageNodeWeight`, or as `AssignToParent` without further splits, constraints and forcing.  Full claim:
as above. -/
theorem C91_gain_partial (h : PlainFit env b X y w ev b' l1 l2 mds lr) (ho : b.objectiveType = .logLoss)
    (hs : b.sampleMethod = .none) (hl1 : 0 ≤ l1) (hmds : 0 < mds) (hlr : 0 ≤ lr)
    (hexp : Real.exp (lr * mds) ≤ 1 + lr * mds + lr * mds ^ 2 / 2)
    (hgam : ((0 : R) ≤ᶠ b.gamma) = true)
    (hm : b.createMissingBranch = false ∨ b.missingNodeTreatment = .none ∨
      b.missingNodeTreatment = .averageNodeWeight ∨
      (b.missingNodeTreatment = .assignToParent ∧ b.allowMissingSplits = false ∧
        b.forceChildrenToBoundParent = false ∧ b.monotoneConstraints = none))
    {k : Nat} (hk : k < b'.trees.length) :
    ∃ p p' : List ℝ, ({ b' with predictionIteration := some k }).predict X = .ok (p.map FX.fin) ∧
      ({ b' with predictionIteration := some (k + 1) }).predict X = .ok (p'.map FX.fin) ∧
      logisticLoss y w p' ≤ logisticLoss y w p := by
  refine logistic_round (κ := 1 / lr) h ho hs hmds hlr ?_ (fun binned p k t cfg rows hA v hv' => ?_) hk
  · rcases hlr.eq_or_lt with rfl | hlr
    · simp
    · have : 1 / lr / 2 * (lr * mds) ^ 2 = lr * mds ^ 2 / 2 := by field_simp
      linarith
  · refine hA.loss_gain_mul hl1 hmds.le hlr ?_ hgam hm hv'
    rcases hlr.eq_or_lt with rfl | hlr
    · simp
    · rw [div_mul_cancel₀ _ hlr.ne']

end

/-! ### The claim is false without a limit on the steps, and examples -/

/-- Two rows that cannot be told apart. -/
noncomputable def pairX : Matrix R := { data := [FX.fin 0, FX.fin 0], rows := 2, cols := 1 }

/-- Arguments with which training on them succeeds. -/
theorem pair_safe (b : Booster R R) {mds lr : ℝ} (h1 : b.l1 = FX.fin 0) (h2 : b.l2 = FX.fin 0)
    (h3 : b.maxDeltaStep = FX.fin mds) (h4 : b.learningRate = FX.fin lr) (h6 : b.minLeafWeight = FX.fin 1)
    (h7 : b.sampleMethod = .none) (h8 : b.missing = FX.nan) (h9 : b.nbins = 256)
    (h10 : b.createMissingBranch = false) : SafeArgs realEnv b pairX [0, 1] [1, 1] 0 0 mds lr :=
  { sorter := exSorter_ok
    rng := ⟨fun _ l n => ⟨l.take n, .refl _, List.take_sublist n l⟩, fun _ l n => by simp [realEnv, realRng]⟩
    heap := fun _ => exHeap_ok
    shaped := rfl, ylen := rfl, wlen := rfl
    nonneg := by simp
    max := by
      intro v hv _
      have : v = FX.fin 0 := by simpa [pairX] using hv
      subst this
      show decide ((0 : ℝ) ≤ (2 : ℝ) ^ 1024) = true
      exact decide_eq_true (by positivity)
    readable := by rw [h8]; exact fun _ _ => .inl rfl
    bins := by rw [h9]; decide
    minLeafWeight := by rw [h6, FX.zero_def, FX.lt_fin]; simp
    l1_eq := h1, l2_eq := h2, mds_eq := h3, lr_eq := h4
    l2_nonneg := le_rfl
    positive := .inr ⟨h7, 1, by simp, one_pos⟩
    goss := by rw [h7]; exact fun h => nomatch h
    exp := fun _ x => ⟨Real.exp x, rfl, Real.exp_pos x⟩
    free := .inl h10 }

/-- A booster with the default parameters except for `l2`, `max_delta_step`, the learning rate, a single leaf
and a base score for which the probability is 0.99. -/
noncomputable def pairBooster (mds lr : ℝ) : Booster R R :=
  { objectiveType := .logLoss, iterations := 1, learningRate := FX.fin lr, maxDepth := 5
    maxLeaves := 1, l1 := FX.fin 0, l2 := FX.fin 0, gamma := FX.fin 0, maxDeltaStep := FX.fin mds
    minLeafWeight := FX.fin 1, baseScore := FX.fin (Real.log 99), nbins := 256, parallel := true
    allowMissingSplits := true, monotoneConstraints := none, subsample := FX.fin 1, topRate := FX.fin (1/10)
    otherRate := FX.fin (1/5), colsampleBytree := FX.fin 1, seed := 0, missing := FX.nan
    createMissingBranch := false, sampleMethod := .none, growPolicy := .depthWise
    evaluationMetric := none, earlyStoppingRounds := none, initializeBaseScore := false
    terminateMissingFeatures := [], evaluationHistory := none, bestIteration := none
    predictionIteration := none, missingNodeTreatment := .assignToParent, logIterations := 0
    forceChildrenToBoundParent := false, trees := [], metadata := [] }

/-- Training succeeds. -/
theorem pairBooster_fit (mds lr : ℝ) : ∃ b', PlainFit realEnv (pairBooster mds lr) pairX [0, 1] [1, 1] none b'
    0 0 mds lr ∧ b'.trees.length = 1 := by
  have hsafe : SafeArgs realEnv (pairBooster mds lr) pairX [0, 1] [1, 1] 0 0 mds lr :=
    pair_safe _ rfl rfl rfl rfl rfl rfl rfl rfl rfl
  have hbase : BaseOk (pairBooster mds lr) [0, 1] [1, 1] := ⟨Real.log 99, rfl⟩
  obtain ⟨b', hfit⟩ := (C62_fit hsafe hbase (ev := none) ⟨by simp, by simp, .inr rfl⟩).2 (by simp)
  exact ⟨b', hsafe.plain hbase hfit, C20_no_evaluation hfit⟩

/-- **C91** is false without a limit on the steps: with `max_delta_step = 0`, its default, one tree raises the
logistic training loss. -/
theorem C91_false : ∃ (b' : Booster R R) (p p' : List ℝ),
    PlainFit realEnv (pairBooster 0 1) pairX [0, 1] [1, 1] none b' 0 0 0 1 ∧
      (pairBooster 0 1).objectiveType = .logLoss ∧ (pairBooster 0 1).sampleMethod = .none ∧
      (pairBooster 0 1).monotoneConstraints = none ∧ (pairBooster 0 1).createMissingBranch = false ∧
      b'.trees.length = 1 ∧
      ({ b' with predictionIteration := some 0 }).predict pairX = .ok (p.map FX.fin) ∧
      ({ b' with predictionIteration := some 1 }).predict pairX = .ok (p'.map FX.fin) ∧
      logisticLoss [0, 1] [1, 1] p < logisticLoss [0, 1] [1, 1] p' := by
  obtain ⟨b', hP, hlen⟩ := pairBooster_fit 0 1
  have hfit := hP.fit
  obtain ⟨p, p', binned, cfg, v, h1, h2, hA, hadd, hval, hgh⟩ :=
    booster_round hP rfl (k := 0) (by omega)
  refine ⟨b', p, p', hP, rfl, rfl, rfl, rfl, hlen, h1, h2, ?_⟩
  -- the predictions of no tree
  have hp : p = [Real.log 99, Real.log 99] := by
    obtain ⟨base, binned, st, stop, N, hT⟩ := Booster.fit_trace hfit
    have hf := hT.final
    unfold Booster.SameParams at hf
    have hb : b'.baseScore = FX.fin (Real.log 99) := by
      have := hT.base_eq
      rw [if_neg (by decide)] at this
      rw [hf]
      exact this
    unfold Booster.predict Booster.predictionTrees at h1
    simp only [Option.getD_some, Nat.zero_le, if_true, List.take_zero, Res.ok_bind, Res.foldM', hb,
      Res.ok.injEq] at h1
    have e : ([Real.log 99, Real.log 99].map FX.fin : List R) = p.map FX.fin := h1
    exact ((List.map_injective_iff.2 fun a b h => FX.fin.inj h) e).symm
  -- the tree is a leaf
  have ht : b'.trees[0] ∈ b'.trees := List.getElem_mem _
  have hleaf := C05_max_leaves _ _ _ _ _ _ _ hfit rfl _ ht
  have hone : b'.trees[0].nodes.length = 1 := by
    have h1 := hleaf.1
    have h2 := hleaf.2
    have : (pairBooster 0 1).maxLeaves = 1 := rfl
    rw [this] at h1
    have hne := (C03_well_formed _ _ _ _ _ _ _ hfit _ ht).nonempty
    have := List.length_pos_iff.2 hne
    simp only [max_self] at h1
    omega
  have hwf := C03_well_formed _ _ _ _ _ _ _ hfit _ ht
  obtain ⟨n, hn⟩ : ∃ n, b'.trees[0].nodes[0]? = some n :=
    ⟨b'.trees[0].nodes[0]'(by omega), List.getElem?_eq_getElem (by omega)⟩
  have hnl : n.isLeaf = true := by
    by_contra hc
    have := hwf.child 0 n n.leftChild hn ⟨by simpa using hc, .inl rfl⟩
    have h1 := this.1
    have h2 := this.2
    omega
  have hroute : ∀ r < 2, b'.trees[0].predictLeaf pairX r (pairBooster 0 1).missing = .ok n := by
    intro r _
    exact predictLeaf_iff.2 (.leaf hn hnl)
  have hrows : rowsAt b'.trees[0] pairX (pairBooster 0 1).missing (List.range 2) 0 = [0, 1] := by
    unfold rowsAt
    refine List.filter_eq_self.2 fun r _ => ?_
    simp only [decide_eq_true_eq]
    exact .root
  have hs : sig (Real.log 99) = 99 / 100 := by
    unfold sig
    rw [Real.exp_neg, Real.exp_log (by norm_num)]
    norm_num
  have hg : rowVals cfg.train.grad 0 = 99 / 100 ∧ rowVals cfg.train.grad 1 = -1 / 100 ∧
      rowVals cfg.train.hess 0 = 99 / 10000 ∧ rowVals cfg.train.hess 1 = 99 / 10000 := by
    have e1 : logistic (FX.fin (Real.log 99) : R) = FX.fin (99 / 100) := by
      rw [← hs]; exact logistic_real _
    have a := hgh 0 (by simp)
    have b := hgh 1 (by simp)
    rw [hp] at a b
    have ho : (pairBooster 0 1).objectiveType = .logLoss := rfl
    rw [ho] at a b
    simp only [ObjectiveType.gradOf, ObjectiveType.hessOf, logLossGrad, logLossHess, List.getD_cons_zero,
      List.getD_cons_succ, e1, FX.one_def, FX.fin_sub, FX.fin_mul, FX.down_fin, FX.val] at a b
    refine ⟨a.1.trans (by norm_num), b.1.trans (by norm_num), a.2.trans (by norm_num), b.2.trans (by norm_num)⟩
  obtain ⟨x, hx, hstep⟩ := C02_value hA.trained hA.treeAt.fitted.fit hA.params.l1_eq hA.params.l2_eq
    hA.params.mds_eq hA.params.lr_eq le_rfl le_rfl
    (by
      intro f
      rw [hA.treeAt.fitted.splitter]
      rfl)
    (by
      intro q hq
      rw [hA.treeAt.fitted.splitter] at hq
      cases hq)
    hn
    (by
      rintro ⟨j, nj, hj, hjl, _⟩
      have : j = 0 := by
        have := (List.getElem?_eq_some_iff.1 hj).1
        omega
      subst this
      rw [hn] at hj
      cases hj
      rw [hnl] at hjl
      cases hjl)
    (fun _ => hnl)
    (by
      show (0 : ℝ) < ((rowsAt b'.trees[0] pairX (pairBooster 0 1).missing (List.range 2) 0).map
        (rowVals cfg.train.hess)).sum + (0 : ℝ)
      rw [hrows]
      simp only [List.map_cons, List.map_nil, List.sum_cons, List.sum_nil, hg.2.2.1, hg.2.2.2]
      norm_num)
  have hstep' : IsStep (0 : ℝ) 0 0 (((rowsAt b'.trees[0] pairX (pairBooster 0 1).missing (List.range 2) 0).map
      (rowVals cfg.train.grad)).sum) (((rowsAt b'.trees[0] pairX (pairBooster 0 1).missing (List.range 2) 0).map
      (rowVals cfg.train.hess)).sum) x := hstep
  rw [hrows] at hstep'
  simp only [List.map_cons, List.map_nil, List.sum_cons, List.sum_nil, hg.1, hg.2.1, hg.2.2.1, hg.2.2.2] at hstep'
  have hxv : x = -4900 / 99 := by
    have := hstep'.least (-4900 / 99) (.inl rfl)
    unfold regObj at this
    have h : (x + 4900 / 99) ^ 2 ≤ 0 := by nlinarith
    have := pow_eq_zero_iff (two_ne_zero) |>.1 (le_antisymm h (sq_nonneg _))
    linarith
  have hv : ∀ r < 2, v r = -4900 / 99 := by
    intro r hr
    have := hval r (List.mem_range.2 hr) n (hroute r hr)
    rw [hx, hxv] at this
    have := FX.fin.inj this
    linarith
  have hp0 : ∀ r < 2, p'.getD r 0 = Real.log 99 - 4900 / 99 := by
    intro r hr
    rw [hadd r hr, hv r hr, hp]
    interval_cases r <;> simp <;> ring
  have b1 : logisticLoss [0, 1] [1, 1] p = 2 * Real.log 100 - Real.log 99 := by
    unfold logisticLoss
    rw [hp]
    simp [List.range_succ, Real.exp_log]
    norm_num
    ring
  have b2 : logisticLoss [0, 1] [1, 1] p' =
      2 * Real.log (1 + Real.exp (Real.log 99 - 4900 / 99)) - (Real.log 99 - 4900 / 99) := by
    unfold logisticLoss
    have e0 := hp0 0 (by norm_num)
    have e1 := hp0 1 (by norm_num)
    simp only [List.length_cons, List.length_nil, List.range_succ, List.range_zero, List.nil_append,
      List.map_append, List.map_cons, List.map_nil, List.sum_append, List.sum_cons, List.sum_nil, zero_add]
    rw [e0, e1]
    simp
    ring
  have b3 : 0 ≤ Real.log (1 + Real.exp (Real.log 99 - 4900 / 99)) :=
    Real.log_nonneg (by linarith [Real.exp_pos (Real.log 99 - 4900 / 99)])
  have b4 : Real.log 100 ≤ 7 * Real.log 2 := by
    rw [show (7 : ℝ) * Real.log 2 = Real.log (2 ^ 7) by rw [Real.log_pow]; norm_num]
    exact Real.log_le_log (by norm_num) (by norm_num)
  have b5 := Real.log_le_sub_one_of_pos (show (0 : ℝ) < 2 by norm_num)
  rw [b1, b2]
  linarith

/-- The hypotheses of `C91_plain_partial` and `C91_gain_partial` are met by the same booster with
`max_delta_step = 1` and a learning rate of `1/4`. -/
example : ∃ b' : Booster R R,
    PlainFit realEnv (pairBooster 1 (1/4)) pairX [0, 1] [1, 1] none b' 0 0 1 (1/4) ∧
      (pairBooster 1 (1/4)).objectiveType = .logLoss ∧ (pairBooster 1 (1/4)).sampleMethod = .none ∧
      (pairBooster 1 (1/4)).monotoneConstraints = none ∧ (pairBooster 1 (1/4)).createMissingBranch = false ∧
      ((0 : R) ≤ᶠ (pairBooster 1 (1/4)).gamma) = true ∧ 0 < b'.trees.length ∧
      Real.exp (1/4 * 1) ≤ 1 + 1/4 * 1 + 1/4 * 1 ^ 2 / 2 := by
  obtain ⟨b', hP, hlen⟩ := pairBooster_fit 1 (1/4)
  refine ⟨b', hP, rfl, rfl, rfl, rfl, ?_, by omega, ?_⟩
  · rw [FX.zero_def]
    show ((FX.fin 0 : R) ≤ᶠ FX.fin 0) = true
    rw [FX.le_fin]
    simp
  · have := Real.abs_exp_sub_one_sub_id_le (x := 1/4) (by rw [abs_of_nonneg] <;> norm_num)
    have := (abs_le.1 this).2
    norm_num at *
    linarith

end Verif
