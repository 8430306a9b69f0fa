import Verif.Props.Objective
import Verif.Props.Predict
import Verif.Spec.ExampleFit

/-!
# C61: adding a constant to the targets

With exact arithmetic a squared-loss fit to `y + c` grows the same trees as a fit to `y`, has a base score
that is larger by `c`, and predicts `c` more.
-/

namespace Verif

open scoped Verif

set_option linter.unusedSectionVars false

theorem Res.bind_congr {α β : Type} {x : Res α} {f g : α → Res β}
    (h : ∀ a, x = .ok a → f a = g a) : x >>= f = x >>= g := by
  cases x with
  | ok a => exact h a rfl
  | panic => rfl
  | diverge => rfl

section
variable {K : Type} [Field K] [LinearOrder K] [IsStrictOrderedRing K] {m32 m64 : Fmt K}
  [m32.Exact] [m64.Exact]

theorem FX.shift_sub (c : K) (v u : FX m64) : (v + FX.fin c) - (u + FX.fin c) = v - u := by
  cases v <;> cases u <;> first
    | rfl
    | (rw [FX.fin_add]; rfl)
    | (simp only [FX.fin_add, FX.fin_sub]; congr 1; ring)

theorem FX.shift_add (c : K) (v u : FX m64) : (v + FX.fin c) + u = (v + u) + FX.fin c := by
  cases v <;> cases u <;> first
    | rfl
    | (rw [FX.fin_add]; rfl)
    | (simp only [FX.fin_add]; congr 1; ring)

theorem addPreds_shift (c : K) : ∀ (l p : List (FX m64)),
    addPreds (l.map (· + FX.fin c)) p = (addPreds l p).map (· + FX.fin c)
  | [], _ => rfl
  | _ :: _, [] => rfl
  | v :: l, u :: p => by
    simp only [List.map_cons, addPreds, addPreds_shift c l p, FX.shift_add]

theorem zip3_shift (c : K) (y p w : List (FX m64)) :
    zip3 (y.map (· + FX.fin c)) (p.map (· + FX.fin c)) w =
      (zip3 y p w).map fun t => (t.1 + FX.fin c, t.2.1 + FX.fin c, t.2.2) := by
  unfold zip3
  induction y generalizing p w with
  | nil => simp
  | cons a y ih =>
    cases p <;> cases w <;> simp_all

theorem calcGradHess_shift (c : K) (y p w : List (FX m64)) :
    calcGradHess (F := FX m32) .squaredLoss (y.map (· + FX.fin c)) (p.map (· + FX.fin c)) w =
      calcGradHess .squaredLoss y p w := by
  unfold calcGradHess
  simp only [zip3_shift, List.map_map]
  congr 2
  funext t
  simp only [Function.comp, squaredLossGrad, squaredLossHess, FX.shift_sub]

theorem rmse_shift (c : K) (y p w : List (FX m64)) :
    rmseMetric (y.map (· + FX.fin c)) (p.map (· + FX.fin c)) w = rmseMetric y p w := by
  unfold rmseMetric weightedTerms
  simp only [zip3_shift, List.map_map, Function.comp_def, FX.shift_sub]

theorem weightedSum_shift (c : K) : ∀ (y w : List K), w.length = y.length →
    weightedSum (y.map (· + c)) w = weightedSum y w + w.sum * c
  | [], [], _ => by simp [weightedSum]
  | a :: y, b :: w, h => by
    have := weightedSum_shift c y w (by simpa using h)
    unfold weightedSum at *
    simp only [List.map_cons, List.zipWith_cons_cons, List.sum_cons, this]
    ring
  | [], _ :: _, h => by simp at h
  | _ :: _, [], h => by simp at h

theorem sum_zero_of_nonneg : ∀ {w : List K}, (∀ x ∈ w, 0 ≤ x) → w.sum = 0 → ∀ x ∈ w, x = 0
  | [], _, _ => by simp
  | a :: w, h, hs => by
    have h1 : 0 ≤ a := h a (by simp)
    have h2 : ∀ x ∈ w, 0 ≤ x := fun x hx => h x (by simp [hx])
    have h3 : 0 ≤ w.sum := List.sum_nonneg h2
    rw [List.sum_cons] at hs
    have h4 : a = 0 := by linarith
    intro x hx
    rcases List.mem_cons.1 hx with rfl | hx
    · exact h4
    · exact sum_zero_of_nonneg h2 (by linarith) x hx

theorem weightedSum_zero : ∀ (y w : List K), (∀ x ∈ w, x = 0) → weightedSum y w = 0
  | [], _, _ => by simp [weightedSum]
  | _ :: _, [], _ => by simp [weightedSum]
  | a :: y, b :: w, h => by
    have := weightedSum_zero y w fun x hx => h x (by simp [hx])
    unfold weightedSum at *
    rw [List.zipWith_cons_cons, List.sum_cons, this, h b (by simp)]
    simp

theorem calcInit_shift (c : K) (y w : List K) (hl : w.length = y.length) (hw : ∀ x ∈ w, 0 ≤ x) :
    calcInit .squaredLoss ((y.map FX.fin : List (FX m64)).map (· + FX.fin c)) (w.map FX.fin) =
      (do let s ← calcInit .squaredLoss (y.map FX.fin : List (FX m64)) (w.map FX.fin)
          .ok (s + FX.fin c)) := by
  have e : (y.map FX.fin : List (FX m64)).map (· + FX.fin c) = (y.map (· + c)).map FX.fin := by
    simp [Function.comp_def, FX.fin_add]
  unfold calcInit
  rw [e, initSums_fin y w hl, initSums_fin _ w (by simpa using hl), weightedSum_shift c y w hl]
  simp only [Res.ok_bind, Res.ok.injEq]
  by_cases hs : w.sum = 0
  · have hz := weightedSum_zero y w (sum_zero_of_nonneg hw hs)
    rw [hs, hz]
    simp only [zero_mul, add_zero]
    have : (FX.fin 0 : FX m64) / FX.fin 0 = FX.nan := by
      show FX.div _ _ = _
      simp [FX.div, FX.sinf]
    rw [this]
    rfl
  · rw [FX.fin_div _ _ hs, FX.fin_div _ _ hs, FX.fin_add]
    congr 1
    field_simp

/-- The booster with `c` added to the base score. -/
def Booster.shift (c : K) (b : Booster (FX m32) (FX m64)) : Booster (FX m32) (FX m64) :=
  { b with baseScore := b.baseScore + FX.fin c }

/-- The evaluation set with `c` added to the targets. -/
def EvalSet.shift (c : K) (e : EvalSet (FX m64)) : EvalSet (FX m64) :=
  { e with y := e.y.map (· + FX.fin c) }

/-- The evaluation set with `c` added to the targets and the predictions. -/
def TrainEval.shift (c : K) (e : TrainEval (FX m64)) : TrainEval (FX m64) :=
  { e with y := e.y.map (· + FX.fin c), yhat := e.yhat.map (· + FX.fin c) }

/-- The state with `c` added to targets, predictions and base score. -/
def FitState.shift {R' : Type} (c : K) (s : FitState R' (FX m32) (FX m64)) :
    FitState R' (FX m32) (FX m64) :=
  { s with booster := s.booster.shift c, yhat := s.yhat.map (· + FX.fin c)
           evals := s.evals.map fun es => es.map (TrainEval.shift c) }

theorem earlyStopUpdate_shift (c : K) (b : Booster (FX m32) (FX m64)) (i : Nat) (m : FX m64) (mx : Bool)
    (best : Option (FX m64)) (stop : Bool) : earlyStopUpdate (b.shift c) i m mx best stop =
      ((earlyStopUpdate b i m mx best stop).1.shift c, (earlyStopUpdate b i m mx best stop).2) := by
  unfold earlyStopUpdate
  rw [show (b.shift c).earlyStoppingRounds = b.earlyStoppingRounds from rfl,
    show (b.shift c).bestIteration = b.bestIteration from rfl]
  cases b.earlyStoppingRounds with
  | none => rfl
  | some r =>
    cases best with
    | none => rfl
    | some v =>
      dsimp only
      split
      · rfl
      · cases b.bestIteration <;> rfl

theorem evalLoop_shift (c : K) {S : Sorter} {t : Tree (FX m32) (FX m64)} {i n : Nat} :
    ∀ (l : List (TrainEval (FX m64))) (k : Nat) (b : Booster (FX m32) (FX m64)) (best : Option (FX m64))
      (stop : Bool), b.metric = .rootMeanSquaredError →
      evalLoop S t i n (l.map (TrainEval.shift c)) k (b.shift c) best stop =
        (do let r ← evalLoop S t i n l k b best stop
            .ok (r.1.map (TrainEval.shift c), r.2.1, r.2.2.1.shift c, r.2.2.2)) := by
  intro l
  induction l with
  | nil => intro k b best stop _; rfl
  | cons e l ih =>
    intro k b best stop hm
    simp only [List.map_cons, evalLoop]
    show (t.predict e.data b.missing >>= _) = _
    rw [Res.bind_assoc']
    refine Res.bind_congr fun preds _ => ?_
    have hm' : (b.shift c).metric = .rootMeanSquaredError := hm
    simp only [hm, hm', Metric.eval, Res.ok_bind, TrainEval.shift, addPreds_shift, rmse_shift]
    split
    · rw [earlyStopUpdate_shift, Res.bind_assoc']
      have hs := earlyStopUpdate_same b i (rmseMetric e.y (addPreds e.yhat preds) e.w)
        Metric.rootMeanSquaredError.maximize best stop
      have := ih (k + 1) (earlyStopUpdate b i (rmseMetric e.y (addPreds e.yhat preds) e.w)
        Metric.rootMeanSquaredError.maximize best stop).1
        (earlyStopUpdate b i (rmseMetric e.y (addPreds e.yhat preds) e.w)
        Metric.rootMeanSquaredError.maximize best stop).2.1
        (earlyStopUpdate b i (rmseMetric e.y (addPreds e.yhat preds) e.w)
        Metric.rootMeanSquaredError.maximize best stop).2.2 (by
          have := hs.1
          unfold Booster.SameParams at this
          rw [this]
          exact hm)
      dsimp only
      rw [this, Res.bind_assoc']
      refine Res.bind_congr fun r _ => ?_
      rfl
    · have := ih (k + 1) b best stop hm
      dsimp only
      rw [this, Res.bind_assoc', Res.bind_assoc']
      refine Res.bind_congr fun r _ => ?_
      rfl

theorem withHistory_shift (c : K) (b : Booster (FX m32) (FX m64)) (n : Nat) :
    withHistory (b.shift c) n = (withHistory b n).shift c := by
  unfold withHistory
  rw [show (b.shift c).evaluationHistory = b.evaluationHistory from rfl]
  cases b.evaluationHistory <;> rfl

theorem appendHistory_shift (c : K) (b : Booster (FX m32) (FX m64)) (ms : List (FX m64)) :
    appendHistory (b.shift c) ms = (do let b' ← appendHistory b ms; .ok (b'.shift c)) := by
  unfold appendHistory
  rw [show (b.shift c).evaluationHistory = b.evaluationHistory from rfl]
  cases b.evaluationHistory with
  | none => rfl
  | some h =>
    dsimp only
    rw [Res.bind_assoc']
    rfl

theorem evalSets_shift (c : K) {S : Sorter} {t : Tree (FX m32) (FX m64)} {i : Nat}
    (b : Booster (FX m32) (FX m64)) (ev : Option (List (TrainEval (FX m64)))) (best : Option (FX m64))
    (hm : ev = none ∨ b.metric = .rootMeanSquaredError) :
    evalSets S t i (b.shift c) (ev.map fun es => es.map (TrainEval.shift c)) best =
      (do let r ← evalSets S t i b ev best
          .ok (r.1.shift c, r.2.1.map fun es => es.map (TrainEval.shift c), r.2.2)) := by
  cases ev with
  | none => rfl
  | some es =>
    have hm : b.metric = .rootMeanSquaredError := by simpa using hm
    simp only [Option.map_some, evalSets, List.length_map]
    rw [withHistory_shift, evalLoop_shift]
    · rw [Res.bind_assoc', Res.bind_assoc']
      refine Res.bind_congr fun r _ => ?_
      obtain ⟨es', ms, b', best', stop'⟩ := r
      dsimp only [Res.ok_bind]
      rw [appendHistory_shift, Res.bind_assoc', Res.bind_assoc']
      rfl
    · have := (withHistory_same b es.length).1
      unfold Booster.SameParams at this
      rw [this]
      exact hm

theorem fitIteration_shift (c : K) {R' : Type} {env : Env R' (FX m32) (FX m64)} {X : Matrix (FX m64)}
    {y w : List (FX m64)} {sp : Splitter (FX m32)} {bd : Matrix Nat} {cuts : JaggedMatrix (FX m64)}
    {i : Nat} (s : FitState R' (FX m32) (FX m64)) (ho : s.booster.objectiveType = .squaredLoss)
    (hm : s.evals = none ∨ s.booster.metric = .rootMeanSquaredError) :
    fitIteration env X (y.map (· + FX.fin c)) w sp bd cuts i (s.shift c) =
      (do let r ← fitIteration env X y w sp bd cuts i s
          .ok (r.1.shift c, r.2)) := by
  unfold fitIteration
  dsimp only
  rw [Res.bind_assoc']
  refine Res.bind_congr fun r _ => ?_
  obtain ⟨chosen, g, h, rng⟩ := r
  dsimp only
  rw [Res.bind_assoc']
  refine Res.bind_congr fun tree _ => ?_
  rw [Res.bind_assoc']
  refine Res.bind_congr fun preds _ => ?_
  rw [Res.bind_assoc']
  show (evalSets _ _ _ (s.booster.shift c) (s.evals.map fun es => es.map (TrainEval.shift c)) s.best >>= _) = _
  rw [evalSets_shift c _ _ _ hm, Res.bind_assoc']
  refine Res.bind_congr fun r hr => ?_
  obtain ⟨b, ev, best, stop⟩ := r
  have hs := (evalSets_same hr).1
  have ho' : b.objectiveType = .squaredLoss := by
    unfold Booster.SameParams at hs
    rw [hs]
    exact ho
  have e : addPreds (s.shift c).yhat preds = (addPreds s.yhat preds).map (· + FX.fin c) :=
    addPreds_shift c s.yhat preds
  dsimp only [Res.ok_bind]
  cases stop with
  | true =>
    simp only [if_true, Res.ok_bind, e]
    rfl
  | false =>
    have ho2 : (b.shift c).objectiveType = .squaredLoss := ho'
    simp only [Bool.false_eq_true, if_false, Res.ok_bind, e, ho', ho2, calcGradHess_shift]
    rfl

/-- Evaluation sets are only ever dropped, never added. -/
theorem fitIteration_evals_none {R' : Type} {env : Env R' (FX m32) (FX m64)} {X : Matrix (FX m64)}
    {y w : List (FX m64)} {sp : Splitter (FX m32)} {bd : Matrix Nat} {cuts : JaggedMatrix (FX m64)}
    {i : Nat} {s s' : FitState R' (FX m32) (FX m64)} {stop : Bool}
    (h : fitIteration env X y w sp bd cuts i s = .ok (s', stop)) (hs : s.evals = none) : s'.evals = none := by
  unfold fitIteration at h
  dsimp only at h
  simp only [Res.bind_eq_ok, hs, evalSets, Res.ok.injEq] at h
  obtain ⟨_, _, _, _, _, _, r, rfl, h⟩ := h
  simp only [Bool.false_eq_true, if_false, Res.ok.injEq, Prod.mk.injEq] at h
  rw [← h.1]

theorem fitLoop_shift (c : K) {R' : Type} {env : Env R' (FX m32) (FX m64)} {X : Matrix (FX m64)}
    {y w : List (FX m64)} {sp : Splitter (FX m32)} {bd : Matrix Nat} {cuts : JaggedMatrix (FX m64)} :
    ∀ (n i : Nat) (s : FitState R' (FX m32) (FX m64)), s.booster.objectiveType = .squaredLoss →
      (s.evals = none ∨ s.booster.metric = .rootMeanSquaredError) →
      fitLoop env X (y.map (· + FX.fin c)) w sp bd cuts n i (s.shift c) =
        (do let s' ← fitLoop env X y w sp bd cuts n i s
            .ok (s'.shift c)) := by
  intro n
  induction n with
  | zero => intro i s _ _; rfl
  | succ n ih =>
    intro i s ho hm
    unfold fitLoop
    rw [fitIteration_shift c s ho hm, Res.bind_assoc', Res.bind_assoc']
    refine Res.bind_congr fun r hr => ?_
    obtain ⟨s', stop⟩ := r
    obtain ⟨_, _, _, _, hstep⟩ := fitIteration_ok hr
    have hsame := hstep.same
    unfold Booster.SameParams at hsame
    dsimp only [Res.ok_bind]
    cases stop with
    | true => rfl
    | false =>
      simp only [Bool.false_eq_true, if_false]
      refine ih (i + 1) s' ?_ ?_
      · rw [hsame]; exact ho
      · rcases hm with hm | hm
        · exact .inl (fitIteration_evals_none hr hm)
        · right
          rw [hsame]
          exact hm

theorem validateNotNanVec_shift (c : K) (v : List (FX m64)) (name : String) :
    validateNotNanVec (v.map (· + FX.fin c)) name = validateNotNanVec v name := by
  unfold validateNotNanVec
  rw [List.any_map]
  have : (isNaN ∘ fun x : FX m64 => x + FX.fin c) = isNaN := by
    funext x
    cases x with
    | fin a => show isNaN (FX.fin a + FX.fin c) = _; rw [FX.fin_add]; rfl
    | nan => rfl
    | pinf => rfl
    | ninf => rfl
  rw [this]

theorem validateEvals_shift (c : K) : ∀ (es : List (EvalSet (FX m64))) (i : Nat),
    validateEvals (es.map (EvalSet.shift c)) i = validateEvals es i
  | [], _ => rfl
  | e :: es, i => by
    simp only [List.map_cons, validateEvals, EvalSet.shift, validateNotNanVec_shift]
    rw [← validateEvals_shift c es (i + 1)]

theorem validateFit_shift (c : K) (y w : List (FX m64)) (ev : Option (List (EvalSet (FX m64)))) :
    validateFit (y.map (· + FX.fin c)) w (ev.map fun (es : List (EvalSet (FX m64))) => es.map (EvalSet.shift c)) =
      validateFit y w ev := by
  unfold validateFit
  rw [validateNotNanVec_shift]
  cases ev with
  | none => rfl
  | some es => simp only [Option.map_some, validateEvals_shift]

/-- The hypotheses under which a shift of the targets is looked at: squared loss, and no evaluation data
or the root mean squared error as the metric. -/
structure ShiftCase (b : Booster (FX m32) (FX m64)) (ev : Option (List (EvalSet (FX m64)))) : Prop where
  squared : b.objectiveType = .squaredLoss
  metric : ev = none ∨ b.metric = .rootMeanSquaredError

/-- `fit_trees` after the base score is set: a helper of the proof, see `fitTrees_eq_rest`. -/
def fitRest {R' F D : Type} [Fl F] [Fl D] [FlCast F D] (env : Env R' F D) (X : Matrix D) (y w : List D)
    (sp : Splitter F) (ev : Option (List (EvalSet D))) (b : Booster F D) : Res (Booster F D) := do
  let gh := calcGradHess (F := F) b.objectiveType y (List.replicate y.length b.baseScore) w
  let binned ← binMatrix env.sorter X w b.nbins b.missing
  let s ← fitLoop env X y w sp { data := binned.binned, rows := X.rows, cols := X.cols } binned.cuts
    b.iterations 0
    { booster := b, yhat := List.replicate y.length b.baseScore, grad := gh.1, hess := gh.2
      evals := ev.map fun es => es.map fun e =>
        { toEvalSet := e, yhat := List.replicate e.y.length b.baseScore : TrainEval D }
      best := none, rng := env.rng.seed b.seed }
  .ok s.booster

theorem fitTrees_eq_rest {R' F D : Type} [Fl F] [Fl D] [FlCast F D] (env : Env R' F D) (b : Booster F D)
    (X : Matrix D) (y w : List D) (sp : Splitter F) (ev : Option (List (EvalSet D))) :
    fitTrees env b X y w sp ev =
      (let b := if b.trees.isEmpty then b else b.reset
       if b.initializeBaseScore then do
        let s ← calcInit b.objectiveType y w
        fitRest env X y w sp ev { b with baseScore := s }
       else fitRest env X y w sp ev b) := by
  unfold fitTrees
  dsimp only
  generalize (if b.trees.isEmpty then b else b.reset) = b0
  split
  · rfl
  · rfl

theorem fitRest_shift (c : K) {R' : Type} {env : Env R' (FX m32) (FX m64)}
    {b : Booster (FX m32) (FX m64)} {X : Matrix (FX m64)} {y w : List (FX m64)} {sp : Splitter (FX m32)}
    {ev : Option (List (EvalSet (FX m64)))} (hc : ShiftCase b ev) :
    fitRest env X (y.map (· + FX.fin c)) w sp (ev.map fun es => es.map (EvalSet.shift c)) (b.shift c) =
      (do let b' ← fitRest env X y w sp ev b
          .ok (b'.shift c)) := by
  unfold fitRest
  dsimp only
  rw [Res.bind_assoc']
  refine Res.bind_congr fun binned _ => ?_
  have e1 : List.replicate (y.map (· + FX.fin c)).length (b.shift c).baseScore =
      (List.replicate y.length b.baseScore).map (· + FX.fin c) := by
    simp [Booster.shift]
  have e2 : ((ev.map fun (es : List (EvalSet (FX m64))) => es.map (EvalSet.shift c)).map
        fun (es : List (EvalSet (FX m64))) => es.map fun e =>
        ({ toEvalSet := e, yhat := List.replicate e.y.length (b.shift c).baseScore } : TrainEval (FX m64))) =
      (ev.map fun (es : List (EvalSet (FX m64))) => es.map fun e =>
        ({ toEvalSet := e, yhat := List.replicate e.y.length b.baseScore } : TrainEval (FX m64))).map
          fun es => es.map (TrainEval.shift c) := by
    cases ev with
    | none => rfl
    | some es => simp [Function.comp_def, EvalSet.shift, TrainEval.shift, Booster.shift]
  have ho : (b.shift c).objectiveType = .squaredLoss := hc.squared
  rw [e1, e2, hc.squared, ho, calcGradHess_shift]
  have := fitLoop_shift (env := env) (X := X) (y := y) (w := w) (sp := sp)
    (bd := { data := binned.binned, rows := X.rows, cols := X.cols }) (cuts := binned.cuts) c b.iterations 0
    { booster := b
      yhat := List.replicate y.length b.baseScore
      grad := (calcGradHess .squaredLoss y (List.replicate y.length b.baseScore) w).1
      hess := (calcGradHess .squaredLoss y (List.replicate y.length b.baseScore) w).2
      evals := ev.map fun (es : List (EvalSet (FX m64))) => es.map fun e =>
        { toEvalSet := e, yhat := List.replicate e.y.length b.baseScore : TrainEval _ }
      best := none
      rng := env.rng.seed b.seed } hc.squared (by
        rcases hc.metric with h | h
        · left; rw [h]; rfl
        · exact .inr h)
  unfold FitState.shift at this
  show (fitLoop _ _ _ _ _ _ _ b.iterations _ _ >>= _) = _
  refine (congrArg (· >>= _) this).trans ?_
  rw [Res.bind_assoc', Res.bind_assoc']
  rfl

theorem fitTrees_shift (c : K) {R' : Type} {env : Env R' (FX m32) (FX m64)}
    {b : Booster (FX m32) (FX m64)} {X : Matrix (FX m64)} {y w : List K} {sp : Splitter (FX m32)}
    {ev : Option (List (EvalSet (FX m64)))} (hc : ShiftCase b ev) (hl : w.length = y.length)
    (hw : ∀ x ∈ w, 0 ≤ x) :
    fitTrees env (b.shift c) X ((y.map FX.fin).map (· + FX.fin c)) (w.map FX.fin) sp
        (ev.map fun es => es.map (EvalSet.shift c)) =
      (do let b' ← fitTrees env b X (y.map FX.fin) (w.map FX.fin) sp ev
          .ok (b'.shift c)) := by
  rw [fitTrees_eq_rest, fitTrees_eq_rest]
  have hb : (if (b.shift c).trees.isEmpty then b.shift c else (b.shift c).reset) =
      (if b.trees.isEmpty then b else b.reset).shift c := by
    rw [show (b.shift c).trees = b.trees from rfl]
    split <;> rfl
  have hcase : ∀ s, ShiftCase { (if b.trees.isEmpty then b else b.reset) with baseScore := s } ev := by
    intro s
    have h1 : (if b.trees.isEmpty then b else b.reset).objectiveType = b.objectiveType := by split <;> rfl
    have h2 : (if b.trees.isEmpty then b else b.reset).metric = b.metric := by split <;> rfl
    refine ⟨h1.trans hc.squared, hc.metric.imp id fun h => ?_⟩
    exact h2.trans h
  rw [hb]
  dsimp only
  generalize hb0 : (if b.trees.isEmpty then b else b.reset) = b0 at *
  rw [show (b0.shift c).initializeBaseScore = b0.initializeBaseScore from rfl]
  by_cases hi : b0.initializeBaseScore = true
  · rw [if_pos hi, if_pos hi]
    have ho : b0.objectiveType = .squaredLoss := (hcase b0.baseScore).squared
    have key := calcInit_shift (m64 := m64) c y w hl hw
    rw [← ho] at key
    show (calcInit b0.objectiveType _ _ >>= _) = _
    rw [key, Res.bind_assoc', Res.bind_assoc']
    refine Res.bind_congr fun s _ => ?_
    have := fitRest_shift c (env := env) (X := X) (y := y.map FX.fin) (w := w.map FX.fin) (sp := sp)
      (b := { b0 with baseScore := s }) (hcase s)
    exact this
  · rw [if_neg hi, if_neg hi]
    exact fitRest_shift c (hcase b0.baseScore)

theorem validate_nonneg {w : List K} {name : String}
    (h : validatePositiveNotNanVec (w.map FX.fin : List (FX m64)) name = .ok ()) : ∀ x ∈ w, 0 ≤ x := by
  intro x hx
  by_contra hn
  have : (validatePositiveNotNanVec (w.map FX.fin : List (FX m64)) name) =
      .error (.negativeValuesFound name) := by
    unfold validatePositiveNotNanVec validatePositiveVec
    dsimp only
    rw [if_pos]
    · rfl
    · rw [List.any_eq_true]
      refine ⟨FX.fin x, ?_, ?_⟩
      · rw [List.mem_filter]
        refine ⟨List.mem_map_of_mem hx, ?_⟩
        simp only [Bool.or_eq_true]
        right
        rw [FX.zero_def, FX.lt_fin]
        simpa using hn
      · rw [FX.zero_def, FX.lt_fin]
        simpa using hn
  rw [this] at h
  cases h

/-- **C61**.  With exact arithmetic, squared loss, and no evaluation data or the root mean squared error as
the metric: adding `c` to all targets (and to the targets of the evaluation sets, and to the given base
score) changes nothing in the outcome of `fit` except that the base score is larger by `c`.  The trees, the
evaluation history, the best iteration and any error or panic are the same. -/
theorem C61_fit_shift (c : K) {R' : Type} {env : Env R' (FX m32) (FX m64)}
    {b : Booster (FX m32) (FX m64)} {X : Matrix (FX m64)} {y w : List K}
    {ev : Option (List (EvalSet (FX m64)))} (ho : b.objectiveType = .squaredLoss)
    (hm : ev = none ∨ b.metric = .rootMeanSquaredError) (hl : w.length = y.length) :
    ({ b with baseScore := b.baseScore + FX.fin c }).fit env X ((y.map (· + c)).map FX.fin) (w.map FX.fin)
        (ev.map fun (es : List (EvalSet (FX m64))) => es.map (EvalSet.shift c)) =
      (do let (b', r) ← b.fit env X (y.map FX.fin) (w.map FX.fin) ev
          .ok ({ b' with baseScore := b'.baseScore + FX.fin c }, r)) := by
  have e : (y.map (· + c)).map FX.fin = (y.map FX.fin : List (FX m64)).map (· + FX.fin c) := by
    simp [Function.comp_def, FX.fin_add]
  rw [e]
  show (b.shift c).fit env X _ (w.map FX.fin) (ev.map fun (es : List (EvalSet (FX m64))) => es.map (EvalSet.shift c)) = _
  unfold Booster.fit
  rw [validateFit_shift]
  cases hv : validateFit (y.map FX.fin : List (FX m64)) (w.map FX.fin) ev with
  | error e => rfl
  | ok u =>
    have hw : ∀ x ∈ w, 0 ≤ x := by
      unfold validateFit at hv
      cases h1 : validateNotNanVec (y.map FX.fin : List (FX m64)) "y" with
      | error e => rw [h1] at hv; cases hv
      | ok _ =>
        cases h2 : validatePositiveNotNanVec (w.map FX.fin : List (FX m64)) "sample_weight" with
        | error e => rw [h1, h2] at hv; cases hv
        | ok _ => exact validate_nonneg h2
    dsimp only
    show (fitTrees env (b.shift c) X _ _ b.splitter _ >>= _) = _
    rw [fitTrees_shift c ⟨ho, hm⟩ hl hw, Res.bind_assoc', Res.bind_assoc']
    rfl

/-- **C61** (`initialize_base_score`).  The given base score is then not used, so adding `c` to the targets
alone gives the same trees and a base score that is larger by `c`. -/
theorem C61_init (c : K) {R' : Type} {env : Env R' (FX m32) (FX m64)}
    {b b' : Booster (FX m32) (FX m64)} {X : Matrix (FX m64)} {y w : List K}
    {ev : Option (List (EvalSet (FX m64)))} (ho : b.objectiveType = .squaredLoss)
    (hi : b.initializeBaseScore = true)
    (hm : ev = none ∨ b.metric = .rootMeanSquaredError) (hl : w.length = y.length)
    (h : b.fit env X (y.map FX.fin) (w.map FX.fin) ev = .ok (b', .ok ())) :
    b.fit env X ((y.map (· + c)).map FX.fin) (w.map FX.fin)
        (ev.map fun (es : List (EvalSet (FX m64))) => es.map (EvalSet.shift c)) =
      .ok ({ b' with baseScore := b'.baseScore + FX.fin c }, .ok ()) := by
  have h1 := C61_fit_shift c (env := env) (X := X) (y := y) (w := w) ho hm hl
  rw [h] at h1
  have hind : ∀ y w sp ev, fitTrees env ({ b with baseScore := b.baseScore + FX.fin c }) X y w sp ev =
      fitTrees env b X y w sp ev := by
    intro y w sp ev
    rw [fitTrees_eq_rest, fitTrees_eq_rest]
    dsimp only
    by_cases ht : b.trees.isEmpty = true
    · simp only [ht, if_true, hi]
    · simp only [ht, if_false, Booster.reset, hi, if_true, Bool.false_eq_true]
  unfold Booster.fit at h1 ⊢
  split at h1
  · simp at h1
  · rename_i hv
    rw [← hind]
    exact h1

/-- **C61** (predictions).  The predictions of the second booster are those of the first plus `c`, for any
data. -/
theorem C61_predict_shift (c : K) (b : Booster (FX m32) (FX m64)) (X : Matrix (FX m64)) :
    ({ b with baseScore := b.baseScore + FX.fin c }).predict X =
      (do let out ← b.predict X
          .ok (out.map (· + FX.fin c))) := by
  unfold Booster.predict
  rw [Res.bind_assoc']
  show (b.predictionTrees >>= _) = _
  refine Res.bind_congr fun ts hts => ?_
  clear hts
  have : List.replicate X.rows (b.baseScore + FX.fin c) =
      (List.replicate X.rows b.baseScore).map (· + FX.fin c) := by simp
  dsimp only
  rw [this]
  generalize List.replicate X.rows b.baseScore = l
  induction ts generalizing l with
  | nil => rfl
  | cons t ts ih =>
    simp only [Res.foldM'_cons, Res.bind_assoc']
    refine Res.bind_congr fun p _ => ?_
    simp only [Res.ok_bind, addPreds_shift]
    exact ih _

end

/-- Squared loss with the root mean squared error as the metric and early stopping; three iterations. -/
def exShift : Booster Q Q :=
  { exFresh with initializeBaseScore := true, evaluationMetric := some .rootMeanSquaredError
                 earlyStoppingRounds := some 1, iterations := 3 }

/-- A fit with an evaluation set and early stopping meets the hypotheses of `C61_init`.  With 10 added to the
targets the trees are the same. -/
example : ∃ b', exShift.fit exEnv exX (([0, 0, 1, 3, 3, 5] : List ℚ).map FX.fin)
      ((List.replicate 6 (1 : ℚ)).map FX.fin) (some [{ data := exX, y := exY, w := exW }]) = .ok (b', .ok ()) ∧
    b'.trees.length = 3 ∧ b'.baseScore = q 2 ∧
    ∃ b2, exShift.fit exEnv exX (([10, 10, 11, 13, 13, 15] : List ℚ).map FX.fin)
      ((List.replicate 6 (1 : ℚ)).map FX.fin)
      (some [{ data := exX, y := [q 10, q 10, q 11, q 13, q 13, q 15], w := exW }]) = .ok (b2, .ok ()) ∧
    b2.trees = b'.trees ∧ b2.baseScore = q 12 := by
  have : (match exShift.fit exEnv exX (([0, 0, 1, 3, 3, 5] : List ℚ).map FX.fin)
      ((List.replicate 6 (1 : ℚ)).map FX.fin) (some [{ data := exX, y := exY, w := exW }]) with
    | .ok (b', .ok ()) => decide (b'.trees.length = 3 ∧ b'.baseScore = q 2)
    | _ => false) = true := by decide +kernel
  split at this
  · rename_i b' h
    obtain ⟨h1, h2⟩ := of_decide_eq_true this
    have h3 := C61_init (10 : ℚ) (b := exShift) (w := List.replicate 6 1) (y := [0, 0, 1, 3, 3, 5]) rfl rfl
      (.inr rfl) rfl h
    have e1 : (([0, 0, 1, 3, 3, 5] : List ℚ).map (· + 10)).map (FX.fin : ℚ → Q) =
      ([10, 10, 11, 13, 13, 15] : List ℚ).map FX.fin := by decide +kernel
    have e2 : ([{ data := exX, y := exY, w := exW }] : List (EvalSet Q)).map (EvalSet.shift 10) =
        [{ data := exX, y := [q 10, q 10, q 11, q 13, q 13, q 15], w := exW }] := by
      have : exY.map (· + FX.fin 10) = [q 10, q 10, q 11, q 13, q 13, q 15] := by decide +kernel
      simp only [List.map_cons, List.map_nil, EvalSet.shift, this]
    rw [e1, Option.map_some, e2] at h3
    refine ⟨b', h, h1, h2, _, h3, rfl, ?_⟩
    show b'.baseScore + FX.fin 10 = q 12
    rw [h2]
    decide +kernel
  · cases this

end Verif
