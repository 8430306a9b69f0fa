import Verif.Proofs.ScaleMetric
import Verif.Spec.RealFmt
import Verif.Props.Increasing
import Verif.Props.Shift

/-!
# C82, C83: multiplying the targets or the sample weights by a positive number

With exact arithmetic the trees do not depend on the unit in which the targets or the sample weights are
measured, provided that the parameters that carry a unit are converted.
-/

namespace Verif

open scoped Verif

set_option linter.unusedSectionVars false

section
variable {K : Type} [Field K] [LinearOrder K] [IsStrictOrderedRing K] {m32 m64 : Fmt K} {c : K}

theorem fin_mul_fun {m : Fmt K} [m.Exact] (hc : 0 < c) : (fun x : FX m => FX.fin c * x) = FX.smul c :=
  funext (FX.fin_mul_eq hc)

/-- Splitters correspond when their parameters do. -/
theorem splitter_scaled {F D : Type} [Fl F] [Fl D] [FlCast F D] {σ : Scale F D} {δ : DataMap D} {P : ParamMap F}
    {b : Booster F D} (h : (b.splitter.params).Scaled σ (b.scale σ δ P).splitter.params)
    (ho : b.createMissingBranch = true → b.forceChildrenToBoundParent = false ∨ σ.Ordered) :
    b.splitter.Scaled σ (b.scale σ δ P).splitter := by
  unfold Booster.splitter at h ⊢
  rw [show (b.scale σ δ P).createMissingBranch = b.createMissingBranch from rfl] at h ⊢
  by_cases hb : b.createMissingBranch = true
  · simp only [hb, if_true] at h ⊢
    exact ⟨h, rfl, rfl, rfl, ho hb⟩
  · simp only [hb, if_false, Bool.false_eq_true] at h ⊢
    exact h

theorem splitter_params_eq {F D : Type} [Fl F] [Fl D] [FlCast F D] (b : Booster F D) :
    b.splitter.params = { l1 := b.l1, l2 := b.l2, maxDeltaStep := b.maxDeltaStep, gamma := b.gamma
                          minLeafWeight := b.minLeafWeight, learningRate := b.learningRate
                          allowMissingSplits := b.allowMissingSplits, constraintsMap := b.constraintsMap } := by
  unfold Booster.splitter
  dsimp only
  split <;> rfl

/-! ## Targets -/

/-- The maps of targets, weights and metrics for multiplied targets. -/
def targetData (m64 : Fmt K) (c : K) : DataMap (FX m64) := { y := FX.smul c, w := id, m := FX.smul c }

/-- The maps of the parameters for multiplied targets. -/
def targetParams (m32 : Fmt K) (c : K) : ParamMap (FX m32) :=
  { l1 := FX.smul c, l2 := id, gamma := FX.smul (c * c), maxDeltaStep := FX.smul c, minLeafWeight := id }

theorem smulUnit_eq (b : Booster (FX m32) (FX m64)) :
    b.smulUnit c = b.scale (targetScale m32 m64 c) (targetData m64 c) (targetParams m32 c) := rfl

/-- Multiplied targets, for a factor that rounding commutes with. -/
theorem fit_smulUnit [m32.ScalesBy c] [m64.ScalesBy c] (hc : 0 < c) {R' : Type} {env : Env R' (FX m32) (FX m64)}
    (henv : env.Comparing) {b : Booster (FX m32) (FX m64)} {X : Matrix (FX m64)} {y w : List (FX m64)}
    {ev : Option (List (EvalSet (FX m64)))} (ho : b.objectiveType = .squaredLoss)
    (hm : ev = none ∨ b.metric = .rootMeanSquaredError ∧
      ∀ x : FX m64, Fl.sqrt (FX.smul (c * c) x) = FX.smul c (Fl.sqrt x)) :
    (b.smulUnit c).fit env X (y.map (FX.smul c)) w
        (ev.map fun (es : List (EvalSet (FX m64))) => es.map (EvalSet.smulUnit c)) =
      (do let (b', r) ← b.fit env X y w ev
          .ok (b'.smulUnit c, r)) := by
  have key := Booster.fit_scale (σ := targetScale m32 m64 c) (δ := targetData m64 c) (P := targetParams m32 c)
    (env := env) (b := b) (X := X) (y := y) (w := w) (ev := ev) (targetScale_laws hc)
    ⟨FX.smul_nan c, fun _ => rfl, fun _ => rfl⟩ henv.heap
    (splitter_scaled (by
      rw [splitter_params_eq, splitter_params_eq]
      exact targetScale_params hc rfl rfl rfl rfl rfl rfl rfl rfl) fun _ => .inr (targetScale_ordered hc))
    ⟨⟨fun y p w => by
        rw [ho]
        show calcGradHess (F := FX m32) .squaredLoss [FX.smul c y] [FX.smul c p] [w] = _
        simp only [calcGradHess, zip3, List.zip_cons_cons, List.zip_nil_left, List.map_cons, List.map_nil,
          List.unzip_cons, List.unzip_nil, squaredLossGrad, squaredLossHess, ← FX.smul_sub, ← FX.smul_mul hc,
          FX.smul_down]
        rfl⟩,
      hm.imp id fun ⟨h1, h2⟩ => ⟨fun y p w => by
          rw [h1]
          show Res.ok (rmseMetric (y.map (FX.smul c)) (p.map (FX.smul c)) (w.map id)) = _
          rw [List.map_id, rmse_smul hc]
          · rfl
          · intro x
            exact h2 x,
        fun x y => by
          unfold isComparisonBetter
          show (match isNaN (FX.smul c x), isNaN (FX.smul c y) with
            | true, true => false
            | false, true => false
            | true, false => true
            | false, false => if b.metric.maximize = true then FX.smul c x <ᶠ FX.smul c y
              else FX.smul c y <ᶠ FX.smul c x) = _
          rw [FX.smul_nan, FX.smul_nan, FX.smul_lt hc, FX.smul_lt hc]
          rfl⟩,
      fun _ => targetScale_goss hc henv.natural⟩
    (by show binMatrix env.sorter X (w.map id) _ _ = _; rw [List.map_id])
    (fun _ _ => by
      rw [ho]
      unfold calcInit
      refine Res.bind_image (initSums_maps (φ := FX.smul c) (ψ := id) (χ := FX.smul c) (fun s w y => ?_)
        (fun _ _ => rfl) (FX.smul_zero c) rfl y w) fun r _ => ?_
      · show _ = FX.smul c s + w * FX.smul c y
        rw [FX.smul_add, FX.smul_mul_right hc]
      · show Res.ok (FX.smul c r.1 / r.2) = Res.ok (FX.smul c (r.1 / r.2))
        rw [FX.smul_div hc])
  have e2 : (targetData m64 c).w = id := rfl
  have e3 : EvalSet.scale (targetData m64 c) = EvalSet.smulUnit c := by
    funext e
    unfold EvalSet.scale EvalSet.smulUnit
    rw [e2, List.map_id]
    rfl
  rw [e2, List.map_id, e3] at key
  refine Eq.trans key ?_
  cases b.fit env X y w ev <;> rfl

theorem predict_smulUnit [m32.ScalesBy c] [m64.ScalesBy c] (hc : 0 < c) (b : Booster (FX m32) (FX m64))
    (X : Matrix (FX m64)) :
    (b.smulUnit c).predict X = (do let out ← b.predict X; .ok (out.map (FX.smul c))) := by
  rw [smulUnit_eq, Booster.predict_scale (targetScale_laws hc)]
  cases b.predict X <;> rfl

section exact
variable [m32.Exact] [m64.Exact]

theorem inUnit_eq (hc : 0 < c) (b : Booster (FX m32) (FX m64)) : b.inUnit c = b.smulUnit c := by
  unfold Booster.inUnit Booster.smulUnit
  have e1 : Tree.timesValues (m64 := m64) (FX.fin c) (FX.fin (c * c)) = Tree.smulValues (m32 := m32) c (c * c) := by
    funext t
    unfold Tree.timesValues Tree.smulValues
    congr 2
    funext n
    rw [FX.fin_mul_eq hc, FX.fin_mul_eq (mul_pos hc hc)]
  rw [e1, fin_mul_fun hc, FX.fin_mul_eq hc, FX.fin_mul_eq hc, FX.fin_mul_eq hc, FX.fin_mul_eq (mul_pos hc hc)]

theorem evalSet_inUnit_eq (hc : 0 < c) : (EvalSet.inUnit c : EvalSet (FX m64) → _) = EvalSet.smulUnit c := by
  funext e
  unfold EvalSet.inUnit EvalSet.smulUnit
  rw [fin_mul_fun hc]

/-- **C82**.  With exact arithmetic and squared loss: multiplying the targets (also those of the evaluation sets)
and the given base score by `c > 0`, `l1` and `max_delta_step` by `c` and `gamma` by `c²` multiplies the fitted
base score and every node value by `c`, every gain by `c²` and every recorded metric by `c`, and changes nothing
else: the structure of the trees, the covers, the best iteration and any error or panic are the same.  Evaluation
sets are absent or the metric is the root mean squared error, and the square root satisfies
`sqrt (c² x) = c sqrt x`. -/
theorem C82_fit (hc : 0 < c) {R' : Type} {env : Env R' (FX m32) (FX m64)} (henv : env.Comparing)
    {b : Booster (FX m32) (FX m64)} {X : Matrix (FX m64)} {y w : List (FX m64)}
    {ev : Option (List (EvalSet (FX m64)))} (ho : b.objectiveType = .squaredLoss)
    (hm : ev = none ∨ b.metric = .rootMeanSquaredError ∧
      ∀ x : FX m64, Fl.sqrt (FX.fin (c * c) * x) = FX.fin c * Fl.sqrt x) :
    (b.inUnit c).fit env X (y.map (FX.fin c * ·)) w
        (ev.map fun (es : List (EvalSet (FX m64))) => es.map (EvalSet.inUnit c)) =
      (do let (b', r) ← b.fit env X y w ev
          .ok (b'.inUnit c, r)) := by
  rw [inUnit_eq hc, evalSet_inUnit_eq hc, fin_mul_fun hc]
  have hm' : ev = none ∨ b.metric = .rootMeanSquaredError ∧
      ∀ x : FX m64, Fl.sqrt (FX.smul (c * c) x) = FX.smul c (Fl.sqrt x) := by
    refine hm.imp id fun h => ⟨h.1, fun x => ?_⟩
    have := h.2 x
    rwa [FX.fin_mul_eq hc, FX.fin_mul_eq (mul_pos hc hc)] at this
  rw [fit_smulUnit hc henv ho hm']
  cases b.fit env X y w ev with
  | ok r => refine congrArg Res.ok ?_; show (_, r.2) = _; rw [← inUnit_eq hc]
  | panic => rfl
  | diverge => rfl

/-- **C82** (predictions).  The predictions of the second booster are `c` times those of the first, for any
data. -/
theorem C82_predict (hc : 0 < c) (b : Booster (FX m32) (FX m64)) (X : Matrix (FX m64)) :
    (b.inUnit c).predict X = (do let out ← b.predict X; .ok (out.map (FX.fin c * ·))) := by
  rw [inUnit_eq hc, predict_smulUnit hc, fin_mul_fun hc]

end exact

/-- **C82** (square root).  The square root of the reals has the property asked for in `C82_fit`. -/
theorem C82_sqrt {c : ℝ} (hc : 0 < c) (x : R) : Fl.sqrt (FX.fin (c * c) * x) = FX.fin c * Fl.sqrt x := by
  rw [FX.fin_mul_eq hc, FX.fin_mul_eq (mul_pos hc hc)]
  cases x with
  | fin a =>
    show (if c * c * a < 0 then FX.nan else FX.fin (Real.sqrt (c * c * a))) =
      FX.smul c (if a < 0 then FX.nan else FX.fin (Real.sqrt a))
    by_cases ha : a < 0
    · rw [if_pos ha, if_pos (mul_neg_of_pos_of_neg (mul_pos hc hc) ha)]; rfl
    · rw [if_neg ha, if_neg (not_lt.2 (mul_nonneg (mul_pos hc hc).le (not_lt.1 ha))),
        Real.sqrt_mul (mul_pos hc hc).le, Real.sqrt_mul_self hc.le]
      rfl
  | nan => rfl
  | ninf => rfl
  | pinf => rfl

/-! ## Sample weights -/

/-- The maps of targets, weights and metrics for multiplied weights. -/
def sampleData (m64 : Fmt K) (c : K) : DataMap (FX m64) := { y := id, w := FX.smul c, m := id }

/-- The maps of the parameters for multiplied weights. -/
def sampleParams (m32 : Fmt K) (c : K) : ParamMap (FX m32) :=
  { l1 := FX.smul c, l2 := FX.smul c, gamma := FX.smul c, maxDeltaStep := id, minLeafWeight := FX.smul c }

theorem smulWeights_eq (b : Booster (FX m32) (FX m64)) :
    b.smulWeights c = b.scale (sampleScaleMap m32 m64 c) (sampleData m64 c) (sampleParams m32 c) := by
  unfold Booster.smulWeights Booster.scale
  have e2 : (b.evaluationHistory.map fun h => { h with data := h.data.map (sampleData m64 c).m }) =
      b.evaluationHistory := by
    cases b.evaluationHistory with
    | none => rfl
    | some h =>
      show some { h with data := h.data.map id } = some h
      rw [List.map_id]
  rw [e2]
  rfl

/-- Multiplied sample weights, for a factor that rounding commutes with. -/
theorem fit_smulWeights [m32.ScalesBy c] [m64.ScalesBy c] (hc : 0 < c) {R' : Type}
    {env : Env R' (FX m32) (FX m64)} (henv : env.Comparing)
    {b : Booster (FX m32) (FX m64)} {X : Matrix (FX m64)} {y w : List (FX m64)}
    {ev : Option (List (EvalSet (FX m64)))} :
    (b.smulWeights c).fit env X y (w.map (FX.smul c))
        (ev.map fun (es : List (EvalSet (FX m64))) => es.map (EvalSet.smulWeights c)) =
      (do let (b', r) ← b.fit env X y w ev
          .ok (b'.smulWeights c, r)) := by
  have key := Booster.fit_scale (σ := sampleScaleMap m32 m64 c) (δ := sampleData m64 c) (P := sampleParams m32 c)
    (env := env) (b := b) (X := X) (y := y) (w := w) (ev := ev) (sampleScale_laws hc)
    ⟨fun _ => rfl, FX.smul_nan c, FX.smul_lt_zero hc⟩ henv.heap
    (splitter_scaled (by
      rw [splitter_params_eq, splitter_params_eq]
      exact sampleScale_params hc rfl rfl rfl rfl rfl rfl rfl rfl) fun _ => .inr (sampleScale_ordered c))
    ⟨⟨fun y p w => by
        show calcGradHess (F := FX m32) _ [y] [p] [FX.smul c w] = _
        cases b.objectiveType with
        | logLoss =>
          simp only [calcGradHess, zip3, List.zip_cons_cons, List.zip_nil_left, List.map_cons, List.map_nil,
            List.unzip_cons, List.unzip_nil, logLossGrad, logLossHess, ← FX.smul_mul_right hc, FX.smul_down]
          rfl
        | squaredLoss =>
          simp only [calcGradHess, zip3, List.zip_cons_cons, List.zip_nil_left, List.map_cons, List.map_nil,
            List.unzip_cons, List.unzip_nil, squaredLossGrad, squaredLossHess, ← FX.smul_mul_right hc,
            FX.smul_down]
          rfl⟩,
      .inr ⟨fun y p w => by
          show Metric.eval env.sorter b.metric (y.map id) (p.map id) (w.map (FX.smul c)) =
            id <$> Metric.eval env.sorter b.metric y p w
          rw [List.map_id, List.map_id, metric_weights hc henv.natural, id_map],
        fun x y => rfl⟩,
      fun _ => sampleScale_goss hc henv.natural⟩
    (binMatrix_weights (FX.smul_add c) (FX.smul_zero c) (FX.smul_div_smul hc) X w _ _)
    (fun _ _ => by
      unfold calcInit
      refine Res.bind_image (initSums_maps (φ := id) (ψ := FX.smul c) (χ := FX.smul c) (fun s w y => ?_)
        (FX.smul_add c) (FX.smul_zero c) (FX.smul_zero c) y w) fun r _ => ?_
      · show _ = FX.smul c s + FX.smul c w * y
        rw [FX.smul_add, FX.smul_mul hc]
      · cases b.objectiveType with
        | logLoss =>
          show Res.ok (Fl.ln (FX.smul c r.1 / (FX.smul c r.2 - FX.smul c r.1))) = Res.ok _
          rw [← FX.smul_sub, FX.smul_div_smul hc]
          rfl
        | squaredLoss =>
          show Res.ok (FX.smul c r.1 / FX.smul c r.2) = Res.ok _
          rw [FX.smul_div_smul hc]
          rfl)
  rw [← smulWeights_eq] at key
  have e2 : (sampleData m64 c).y = id := rfl
  have e3 : EvalSet.scale (sampleData m64 c) = EvalSet.smulWeights c := by
    funext e
    unfold EvalSet.scale EvalSet.smulWeights
    rw [e2, List.map_id]
    rfl
  rw [e2, List.map_id, e3] at key
  refine Eq.trans key ?_
  cases b.fit env X y w ev with
  | ok r => refine congrArg Res.ok ?_; show (_, r.2) = _; rw [← smulWeights_eq]
  | panic => rfl
  | diverge => rfl

theorem predict_smulWeights [m32.ScalesBy c] [m64.ScalesBy c] (hc : 0 < c) (b : Booster (FX m32) (FX m64))
    (X : Matrix (FX m64)) : (b.smulWeights c).predict X = b.predict X := by
  rw [smulWeights_eq, Booster.predict_scale (sampleScale_laws hc)]
  show List.map id <$> _ = _
  cases h : b.predict X with
  | ok l => rw [Res.map_ok, List.map_id]
  | panic => rfl
  | diverge => rfl

section exact
variable [m32.Exact] [m64.Exact]

theorem reweighted_eq (hc : 0 < c) (b : Booster (FX m32) (FX m64)) : b.reweighted c = b.smulWeights c := by
  unfold Booster.reweighted Booster.smulWeights
  have e1 : Tree.timesCover (m64 := m64) (FX.fin c) = Tree.smulCover (m32 := m32) c := by
    funext t
    unfold Tree.timesCover Tree.smulCover
    congr 2
    funext n
    rw [FX.fin_mul_eq hc, FX.fin_mul_eq hc]
  rw [e1, FX.fin_mul_eq hc, FX.fin_mul_eq hc, FX.fin_mul_eq hc, FX.fin_mul_eq hc]

theorem evalSet_reweighted_eq (hc : 0 < c) :
    (EvalSet.reweighted c : EvalSet (FX m64) → _) = EvalSet.smulWeights c := by
  funext e
  unfold EvalSet.reweighted EvalSet.smulWeights
  rw [fin_mul_fun hc]

/-- **C83**.  With exact arithmetic: multiplying all sample weights (also those of the evaluation sets) and `l1`,
`l2`, `gamma` and `min_leaf_weight` by `c > 0` multiplies the covers and gains stored in the trees by `c` and
changes nothing else: values, splits, base score, evaluation history, best iteration and any error or panic are
the same.  This holds for every objective, metric, sampling method and growing policy. -/
theorem C83_fit (hc : 0 < c) {R' : Type} {env : Env R' (FX m32) (FX m64)} (henv : env.Comparing)
    {b : Booster (FX m32) (FX m64)} {X : Matrix (FX m64)} {y w : List (FX m64)}
    {ev : Option (List (EvalSet (FX m64)))} :
    (b.reweighted c).fit env X y (w.map (FX.fin c * ·))
        (ev.map fun (es : List (EvalSet (FX m64))) => es.map (EvalSet.reweighted c)) =
      (do let (b', r) ← b.fit env X y w ev
          .ok (b'.reweighted c, r)) := by
  rw [reweighted_eq hc, evalSet_reweighted_eq hc, fin_mul_fun hc, fit_smulWeights hc henv]
  cases b.fit env X y w ev with
  | ok r => refine congrArg Res.ok ?_; show (_, r.2) = _; rw [← reweighted_eq hc]
  | panic => rfl
  | diverge => rfl

/-- **C83** (predictions).  The second booster predicts the same as the first, for any data. -/
theorem C83_predict (hc : 0 < c) (b : Booster (FX m32) (FX m64)) (X : Matrix (FX m64)) :
    (b.reweighted c).predict X = b.predict X := by
  rw [reweighted_eq hc, predict_smulWeights hc]

end exact

end

/-! ## Concrete cases -/

/-- The heap of the examples looks at the comparisons of scores only. -/
theorem exPick_byOrder {F D : Type} [Fl F] : ∀ l l' : List (SNode F D), l.length = l'.length →
    (∀ (i j : Nat) (a b a' b' : SNode F D), l[i]? = some a → l[j]? = some b → l'[i]? = some a' →
      l'[j]? = some b' → Fl.tle a'.gainValue b'.gainValue = Fl.tle a.gainValue b.gainValue) →
    exPick l = exPick l'
  | [], [], _, _ => rfl
  | [], _ :: _, h, _ => by simp at h
  | _ :: _, [], h, _ => by simp at h
  | [_], [_], _, _ => rfl
  | [_], _ :: _ :: _, h, _ => by simp at h
  | _ :: _ :: _, [_], h, _ => by simp at h
  | a :: b :: l, a' :: b' :: l', h, hc => by
    have hl : (b :: l).length = (b' :: l').length := by simpa using h
    have ih := exPick_byOrder (b :: l) (b' :: l') hl fun i j x y x' y' h1 h2 h3 h4 =>
      hc (i + 1) (j + 1) x y x' y' (by simpa using h1) (by simpa using h2) (by simpa using h3) (by simpa using h4)
    rw [exPick, exPick, ih]
    cases h4 : (b :: l)[exPick (b' :: l')]? with
    | none =>
      rw [List.getElem?_eq_none_iff] at h4
      rw [List.getElem?_eq_none_iff.2 (hl ▸ h4)]
    | some x =>
      have hlt := (List.getElem?_eq_some_iff.1 h4).1
      rw [hl] at hlt
      have h5 := List.getElem?_eq_getElem hlt
      rw [h5]
      have := hc (exPick (b' :: l') + 1) 0 x a _ a' (List.getElem?_cons_succ.trans h4) rfl
        (List.getElem?_cons_succ.trans h5) rfl
      simp only [this]

/-- The environment of the examples meets the hypotheses. -/
theorem exEnv_comparing : exEnv.Comparing where
  natural := exSorter_natural
  heap _ := fun _ l l' h hc => exPick_byOrder l l' h hc

/-- Values and gains of the nodes. -/
def valuesOf (b : Booster Q Q) : List (List (Q × Q)) :=
  b.trees.map fun t => t.nodes.map fun n => (n.weightValue, n.splitGain)

/-- A booster whose parameters all matter. -/
def exUnits : Booster Q Q :=
  { exFresh with initializeBaseScore := true, l1 := q (1/4), l2 := q 1, gamma := q (1/8), maxDeltaStep := q 2
                 minLeafWeight := q 2, iterations := 2 }

/-- The fit of the example. -/
theorem exUnits_fit : ∃ b', exUnits.fit exEnv exX exY exW none = .ok (b', .ok ()) ∧ b'.baseScore = q 2 ∧
    valuesOf b' = [[(q 0, q (399/32)), (q (-19/32), q 0), (q (19/32), q 0)],
      [(q 0, q (10545/2048)), (q (-95/256), q 0), (q (95/256), q 0)]] := by
  have : (match exUnits.fit exEnv exX exY exW none with
    | .ok (b', .ok ()) => decide (b'.baseScore = q 2 ∧
        valuesOf b' = [[(q 0, q (399/32)), (q (-19/32), q 0), (q (19/32), q 0)],
          [(q 0, q (10545/2048)), (q (-95/256), q 0), (q (95/256), q 0)]])
    | _ => false) = true := by decide +kernel
  split at this
  · rename_i b' h
    exact ⟨b', h, of_decide_eq_true this⟩
  · cases this

/-- `C82_fit` and `C82_predict` for the example and `c = 10`: the base score is 20, the root's gain is a hundred
times as large and the prediction for the first row is ten times as large. -/
example : ∃ b2, (exUnits.inUnit 10).fit exEnv exX [q 0, q 0, q 10, q 30, q 30, q 50] exW none = .ok (b2, .ok ()) ∧
    b2.baseScore = q 20 ∧ b2.trees.length = 2 ∧
    ((valuesOf b2)[0]?.bind (·[0]?)) = some (q 0, q (9975/8)) := by
  obtain ⟨b', h, h1, h2⟩ := exUnits_fit
  have key := C82_fit (c := (10 : ℚ)) (by norm_num) exEnv_comparing (b := exUnits) (X := exX) (y := exY) (w := exW)
    (ev := none) rfl (.inl rfl)
  have e : exY.map (FX.fin 10 * ·) = [q 0, q 0, q 10, q 30, q 30, q 50] := by decide +kernel
  rw [e, Option.map_none, h] at key
  refine ⟨_, key, ?_, ?_, ?_⟩
  · show FX.fin 10 * b'.baseScore = q 20
    rw [h1]; decide +kernel
  · show (b'.trees.map _).length = 2
    rw [List.length_map]
    have := congrArg List.length h2
    simpa [valuesOf] using this
  · have : valuesOf (b'.inUnit 10) = (valuesOf b').map fun l => l.map fun p => (q 10 * p.1, q 100 * p.2) := by
      have e3 : (10 : ℚ) * 10 = 100 := by norm_num
      simp only [valuesOf, Booster.inUnit, Tree.timesValues, List.map_map, Function.comp_def, e3]
      rfl
    rw [this, h2]
    decide +kernel

/-- `C83_fit` for the example and `c = 3`: the values are the same and the gains three times as large. -/
example : ∃ b2, (exUnits.reweighted 3).fit exEnv exX exY (List.replicate 6 (q 3)) none = .ok (b2, .ok ()) ∧
    b2.baseScore = q 2 ∧
    valuesOf b2 = [[(q 0, q (1197/32)), (q (-19/32), q 0), (q (19/32), q 0)],
      [(q 0, q (31635/2048)), (q (-95/256), q 0), (q (95/256), q 0)]] := by
  obtain ⟨b', h, h1, h2⟩ := exUnits_fit
  have key := C83_fit (c := (3 : ℚ)) (by norm_num) exEnv_comparing (b := exUnits) (X := exX) (y := exY) (w := exW)
    (ev := none)
  have e : exW.map (FX.fin 3 * ·) = List.replicate 6 (q 3) := by decide +kernel
  rw [e, Option.map_none, h] at key
  refine ⟨_, key, h1, ?_⟩
  have : valuesOf (b'.reweighted 3) = (valuesOf b').map fun l => l.map fun p => (p.1, q 3 * p.2) := by
    simp only [valuesOf, Booster.reweighted, Tree.timesCover, List.map_map, Function.comp_def]
    rfl
  rw [this, h2]
  decide +kernel

/-- **C83** (the parameters must be converted).  With `l2` left as it is, tripling the weights changes the values
of the nodes. -/
theorem C83_unconverted : ∃ b2, ({ exUnits.reweighted 3 with l2 := exUnits.l2 }).fit exEnv exX exY
      (List.replicate 6 (q 3)) none = .ok (b2, .ok ()) ∧
    ((valuesOf b2)[0]?.bind (·[2]?)) ≠ some (q (19/32), q 0) := by
  have : (match ({ exUnits.reweighted 3 with l2 := exUnits.l2 }).fit exEnv exX exY
      (List.replicate 6 (q 3)) none with
    | .ok (b', .ok ()) => decide (((valuesOf b')[0]?.bind (·[2]?)) ≠ some (q (19/32), q 0))
    | _ => false) = true := by decide +kernel
  split at this
  · rename_i b' h
    exact ⟨b', h, of_decide_eq_true this⟩
  · cases this

end Verif
