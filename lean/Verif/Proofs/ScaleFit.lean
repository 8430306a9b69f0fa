import Verif.Proofs.ScaleGrow
import Verif.Proofs.Boost
import Verif.Spec.Relabel

/-!
# Scaled runs: the boosting loop
-/

namespace Verif

open scoped Verif

set_option linter.unusedSectionVars false

variable {F D : Type} [Fl F] [Fl D] [FlCast F D] {σ : Scale F D}

/-! ## Sampling -/

/-- What gradient based sampling needs. -/
structure Scale.Goss (σ : Scale F D) (S : Sorter) : Prop where
  natural : S.Natural
  abs : ∀ x y, Fl.tle (Fl.abs (σ.g x)) (Fl.abs (σ.g y)) = Fl.tle (Fl.abs x) (Fl.abs y)
  g_mul : ∀ x f, σ.g (x * f) = σ.g x * f
  h_mul : ∀ x f, σ.h (x * f) = σ.h x * f

/-- Image of the outcome of sampling. -/
def sampleScale {R : Type} (σ : Scale F D) (r : List Nat × List F × List F × R) :
    List Nat × List F × List F × R := (r.1, r.2.1.map σ.g, r.2.2.1.map σ.h, r.2.2.2)

theorem gossLoop_scale {S : Sorter} (hg : σ.Goss S) {R : Type} (G : Rng R F D) (fact : F) (sub : D) :
    ∀ (l : List Nat) (r : R) (grad hess : List F),
      gossLoop G fact sub r l (grad.map σ.g) (hess.map σ.h) =
        sampleScale σ <$> gossLoop G fact sub r l grad hess := by
  intro l
  induction l with
  | nil => intro r grad hess; rfl
  | cons i l ih =>
    intro r grad hess
    simp only [gossLoop]
    split
    · refine Res.bind_image (φ := σ.g) (idx_map _ _ _) fun gi _ =>
        Res.bind_image (φ := σ.h) (idx_map _ _ _) fun hi _ => ?_
      rw [← hg.g_mul, ← hg.h_mul, ← List.map_set, ← List.map_set]
      exact Res.bind_image (ih _ _ _) fun r _ => rfl
    · exact ih _ _ _

theorem sampleIndex_scale {S : Sorter} {R : Type} (G : Rng R F D) {sm : SampleMethod}
    (hg : sm = .goss → σ.Goss S) (sub : F) (a b : D) (r : R) (index : List Nat) (grad hess : List F) :
    sampleIndex S G sm sub a b r index (grad.map σ.g) (hess.map σ.h) =
      sampleScale σ <$> sampleIndex S G sm sub a b r index grad hess := by
  unfold sampleIndex
  cases sm with
  | none => rfl
  | random => rfl
  | goss =>
    have hg := hg rfl
    simp only
    unfold gossSample
    dsimp only
    refine Res.bind_image (φ := List.map fun p : Nat × F => (p.1, Fl.abs (σ.g (grad.getD p.1 0)))) ?_
      fun keys hk => ?_
    · refine Res.mapM'_same (fun i => ?_) _
      unfold idx
      rw [List.getElem?_map]
      cases h : grad[i]? with
      | none => rfl
      | some x =>
        show Res.ok (i, Fl.abs (σ.g x)) = Res.ok (i, Fl.abs (σ.g (grad.getD i 0)))
        rw [List.getD_eq_getElem?_getD, h]
        rfl
    · have hkey : ∀ p ∈ keys, p.2 = Fl.abs (grad.getD p.1 0) := by
        intro p hp
        rw [Res.mapM'_eq_ok] at hk
        obtain ⟨k, hk1⟩ := List.mem_iff_getElem?.1 hp
        rw [List.forall₂_iff_get] at hk
        obtain ⟨hk2, hk3⟩ := List.getElem?_eq_some_iff.1 hk1
        have := hk.2 k (by rw [hk.1]; exact hk2) hk2
        simp only [Res.bind_eq_ok, Res.pure_def, Res.ok.injEq, List.get_eq_getElem] at this
        obtain ⟨x, hx, he⟩ := this
        rw [hk3] at he
        unfold idx at hx
        rw [Res.ofOption_eq_ok] at hx
        rw [← he, List.getD_eq_getElem?_getD, hx]
        rfl
      have hs : S.sort (fun p q : Nat × F => Fl.tle q.2 p.2)
            (keys.map fun p => (p.1, Fl.abs (σ.g (grad.getD p.1 0)))) =
          (S.sort (fun p q : Nat × F => Fl.tle q.2 p.2) keys).map
            fun p => (p.1, Fl.abs (σ.g (grad.getD p.1 0))) := by
        refine hg.natural _ _ _ _ fun p hp q hq => ?_
        rw [hkey p hp, hkey q hq]
        exact hg.abs _ _
      have e : (List.map Prod.fst (S.sort (fun p q : Nat × F => Fl.tle q.2 p.2)
            (keys.map fun p => (p.1, Fl.abs (σ.g (grad.getD p.1 0)))))) =
          List.map Prod.fst (S.sort (fun p q : Nat × F => Fl.tle q.2 p.2) keys) := by
        rw [hs, List.map_map]; rfl
      rw [e]
      refine Res.bind_same fun used _ => Res.bind_image (gossLoop_scale hg G _ _ _ _ _ _) fun r _ => rfl

/-! ## The boosting loop -/

/-- The maps of the parameters. -/
structure ParamMap (F : Type) where
  /-- `l1` -/
  l1 : F → F
  /-- `l2` -/
  l2 : F → F
  /-- `gamma` -/
  gamma : F → F
  /-- `max_delta_step` -/
  maxDeltaStep : F → F
  /-- `min_leaf_weight` -/
  minLeafWeight : F → F

/-- The maps of targets, sample weights and metrics. -/
structure DataMap (D : Type) where
  /-- targets -/
  y : D → D
  /-- sample weights -/
  w : D → D
  /-- metrics -/
  m : D → D

/-- Image of a booster. -/
def Booster.scale (σ : Scale F D) (δ : DataMap D) (P : ParamMap F) (b : Booster F D) : Booster F D :=
  { b with l1 := P.l1 b.l1, l2 := P.l2 b.l2, gamma := P.gamma b.gamma
           maxDeltaStep := P.maxDeltaStep b.maxDeltaStep
           minLeafWeight := P.minLeafWeight b.minLeafWeight, baseScore := σ.wD b.baseScore, trees := b.trees.map (Tree.scale σ)
           evaluationHistory := b.evaluationHistory.map fun h => { h with data := h.data.map δ.m } }

/-- Image of an evaluation set. -/
def EvalSet.scale (δ : DataMap D) (e : EvalSet D) : EvalSet D :=
  { e with y := e.y.map δ.y, w := e.w.map δ.w }

/-- Image of an evaluation set with its predictions. -/
def TrainEval.scale (σ : Scale F D) (δ : DataMap D) (e : TrainEval D) : TrainEval D :=
  { toEvalSet := e.toEvalSet.scale δ, yhat := e.yhat.map σ.wD }

/-- Image of the state. -/
def FitState.scale {R : Type} (σ : Scale F D) (δ : DataMap D) (P : ParamMap F) (s : FitState R F D) :
    FitState R F D :=
  { booster := s.booster.scale σ δ P, yhat := s.yhat.map σ.wD, grad := s.grad.map σ.g, hess := s.hess.map σ.h
    evals := s.evals.map fun es => es.map (TrainEval.scale σ δ), best := s.best.map δ.m, rng := s.rng }

/-- The objective commutes with the maps. -/
structure ObjScaled (σ : Scale F D) (δ : DataMap D) (o : ObjectiveType) : Prop where
  gradHess : ∀ y p w, calcGradHess (F := F) o [δ.y y] [σ.wD p] [δ.w w] =
    ((calcGradHess (F := F) o [y] [p] [w]).1.map σ.g, (calcGradHess (F := F) o [y] [p] [w]).2.map σ.h)

/-- The metric commutes with the maps. -/
structure MetricScaled (σ : Scale F D) (δ : DataMap D) (S : Sorter) (mt : Metric) : Prop where
  eval : ∀ y p w, mt.eval S (y.map δ.y) (p.map σ.wD) (w.map δ.w) = δ.m <$> mt.eval S y p w
  better : ∀ x y, isComparisonBetter (δ.m x) (δ.m y) mt.maximize = isComparisonBetter x y mt.maximize

/-- What is needed of a booster and its environment. -/
structure FitCase {R : Type} (σ : Scale F D) (δ : DataMap D) (env : Env R F D) (b : Booster F D)
    (none : Prop) : Prop where
  obj : ObjScaled σ δ b.objectiveType
  metric : none ∨ MetricScaled σ δ env.sorter b.metric
  goss : b.sampleMethod = .goss → σ.Goss env.sorter

theorem FitCase.same {R : Type} {δ : DataMap D} {env : Env R F D} {b b' : Booster F D} {p p' : Prop}
    (h : FitCase σ δ env b p) (hs : b.SameParams b') (hp : p → p') : FitCase σ δ env b' p' := by
  unfold Booster.SameParams at hs
  refine ⟨?_, h.metric.imp hp fun h => ?_, ?_⟩
  · rw [hs]; exact h.obj
  · rw [hs]; exact h
  · rw [hs]; exact h.goss

variable {δ : DataMap D} {P : ParamMap F}

theorem calcGradHess_cons (o : ObjectiveType) (y p w : D) (ys ps ws : List D) :
    calcGradHess (F := F) o (y :: ys) (p :: ps) (w :: ws) =
      ((calcGradHess (F := F) o [y] [p] [w]).1 ++ (calcGradHess (F := F) o ys ps ws).1,
        (calcGradHess (F := F) o [y] [p] [w]).2 ++ (calcGradHess (F := F) o ys ps ws).2) := by
  unfold calcGradHess zip3
  cases o <;> simp

theorem calcGradHess_scale {o : ObjectiveType} (h : ObjScaled σ δ o) : ∀ y p w : List D,
    calcGradHess (F := F) o (y.map δ.y) (p.map σ.wD) (w.map δ.w) =
      ((calcGradHess (F := F) o y p w).1.map σ.g, (calcGradHess (F := F) o y p w).2.map σ.h)
  | [], _, _ => by simp [calcGradHess, zip3]
  | _ :: _, [], _ => by simp [calcGradHess, zip3]
  | _ :: _, _ :: _, [] => by simp [calcGradHess, zip3]
  | y :: ys, p :: ps, w :: ws => by
    rw [List.map_cons, List.map_cons, List.map_cons, calcGradHess_cons, calcGradHess_cons o y p w,
      calcGradHess_scale h ys ps ws, h.gradHess]
    simp only [List.map_append]

theorem addPreds_scale (hL : σ.Laws) : ∀ l p : List D,
    addPreds (l.map σ.wD) (p.map σ.wD) = (addPreds l p).map σ.wD
  | [], _ => rfl
  | _ :: _, [] => rfl
  | v :: l, u :: p => by simp only [List.map_cons, addPreds, addPreds_scale hL l p, hL.wD_add]

theorem earlyStopUpdate_scale {mx : Bool}
    (hb : ∀ x y, isComparisonBetter (δ.m x) (δ.m y) mx = isComparisonBetter x y mx)
    (b : Booster F D) (i : Nat) (m : D) (best : Option D) (stop : Bool) :
    earlyStopUpdate (b.scale σ δ P) i (δ.m m) mx (best.map δ.m) stop =
      ((earlyStopUpdate b i m mx best stop).1.scale σ δ P, (earlyStopUpdate b i m mx best stop).2.1.map δ.m,
        (earlyStopUpdate b i m mx best stop).2.2) := by
  unfold earlyStopUpdate
  rw [show (b.scale σ δ P).earlyStoppingRounds = b.earlyStoppingRounds from rfl,
    show (b.scale σ δ P).bestIteration = b.bestIteration from rfl]
  cases b.earlyStoppingRounds with
  | none => rfl
  | some r =>
    cases best with
    | none => rfl
    | some v =>
      simp only [Option.map_some, hb]
      split
      · rfl
      · cases b.bestIteration <;> rfl

/-- Image of the outcome of the loop over the evaluation sets. -/
def evalLoopScale (σ : Scale F D) (δ : DataMap D) (P : ParamMap F)
    (r : List (TrainEval D) × List D × Booster F D × Option D × Bool) :
    List (TrainEval D) × List D × Booster F D × Option D × Bool :=
  (r.1.map (TrainEval.scale σ δ), r.2.1.map δ.m, r.2.2.1.scale σ δ P, r.2.2.2.1.map δ.m, r.2.2.2.2)

theorem evalLoop_scale (hL : σ.Laws) {S : Sorter} {t : Tree F D} {i n : Nat} {mt : Metric}
    (hm : MetricScaled σ δ S mt) :
    ∀ (l : List (TrainEval D)) (k : Nat) (b : Booster F D) (best : Option D) (stop : Bool), b.metric = mt →
      evalLoop S (t.scale σ) i n (l.map (TrainEval.scale σ δ)) k (b.scale σ δ P) (best.map δ.m) stop =
        evalLoopScale σ δ P <$> evalLoop S t i n l k b best stop := by
  intro l
  induction l with
  | nil => intro k b best stop _; rfl
  | cons e l ih =>
    intro k b best stop hb
    simp only [List.map_cons, evalLoop]
    refine Res.bind_image (Tree.predict_scale hL t e.data b.missing) fun preds _ => ?_
    have hb' : (b.scale σ δ P).metric = mt := hb
    rw [hb, hb']
    refine Res.bind_image (φ := δ.m) ?_ fun m _ => ?_
    · rw [show (TrainEval.scale σ δ e).yhat = e.yhat.map σ.wD from rfl, addPreds_scale hL]
      exact hm.eval _ _ _
    · rw [show (TrainEval.scale σ δ e).yhat = e.yhat.map σ.wD from rfl, addPreds_scale hL]
      split
      · rw [earlyStopUpdate_scale hm.better]
        have hs := (earlyStopUpdate_same b i m mt.maximize best stop).1
        unfold Booster.SameParams at hs
        exact Res.bind_image (ih _ _ _ _ (by rw [hs]; exact hb)) fun r _ => rfl
      · exact Res.bind_image (ih _ _ _ _ hb) fun r _ => rfl

theorem withHistory_scale (b : Booster F D) (n : Nat) :
    withHistory (b.scale σ δ P) n = (withHistory b n).scale σ δ P := by
  unfold withHistory
  rw [show (b.scale σ δ P).evaluationHistory = b.evaluationHistory.map fun h => { h with data := h.data.map δ.m }
    from rfl]
  cases h : b.evaluationHistory with
  | none => unfold Booster.scale; simp only [h, Option.map_some]; rfl
  | some v => rfl

theorem appendHistory_scale (b : Booster F D) (ms : List D) :
    appendHistory (b.scale σ δ P) (ms.map δ.m) = Booster.scale σ δ P <$> appendHistory b ms := by
  unfold appendHistory
  rw [show (b.scale σ δ P).evaluationHistory = b.evaluationHistory.map fun h => { h with data := h.data.map δ.m }
    from rfl]
  cases h : b.evaluationHistory with
  | none => rfl
  | some v =>
    simp only [Option.map_some]
    refine Res.bind_image (φ := fun h : RowMajorMatrix D => { h with data := h.data.map δ.m }) ?_ fun h' _ => rfl
    unfold RowMajorMatrix.appendRow
    simp only [List.length_map]
    split
    · rfl
    · split
      · rw [Res.map_ok]; simp only [List.map_append]
      · rfl

/-- Image of the outcome of the evaluation. -/
def evalSetsScale (σ : Scale F D) (δ : DataMap D) (P : ParamMap F)
    (r : Booster F D × Option (List (TrainEval D)) × Option D × Bool) :
    Booster F D × Option (List (TrainEval D)) × Option D × Bool :=
  (r.1.scale σ δ P, r.2.1.map fun es => es.map (TrainEval.scale σ δ), r.2.2.1.map δ.m, r.2.2.2)

theorem evalSets_scale (hL : σ.Laws) {S : Sorter} {t : Tree F D} {i : Nat} (b : Booster F D)
    (ev : Option (List (TrainEval D))) (best : Option D) (hm : ev = none ∨ MetricScaled σ δ S b.metric) :
    evalSets S (t.scale σ) i (b.scale σ δ P) (ev.map fun es => es.map (TrainEval.scale σ δ)) (best.map δ.m) =
      evalSetsScale σ δ P <$> evalSets S t i b ev best := by
  cases ev with
  | none => rfl
  | some es =>
    have hm : MetricScaled σ δ S b.metric := by simpa using hm
    simp only [Option.map_some, evalSets, List.length_map]
    rw [withHistory_scale]
    refine Res.bind_image (evalLoop_scale hL hm _ _ _ _ _ ?_) fun r _ => ?_
    · have := (withHistory_same b es.length).1
      unfold Booster.SameParams at this
      rw [this]
      rfl
    · obtain ⟨es', ms, b', best', stop'⟩ := r
      simp only [evalLoopScale]
      exact Res.bind_image (appendHistory_scale b' ms) fun b2 _ => rfl

theorem fitIteration_scale (hL : σ.Laws) {R : Type} {env : Env R F D} (hh : ∀ i, (env.heap i).ByOrder)
    {X : Matrix D} {y w : List D} {sp sp' : Splitter F} (hsp : sp.Scaled σ sp') {bd : Matrix Nat}
    {cuts : JaggedMatrix D} {i : Nat} (s : FitState R F D)
    (hc : FitCase σ δ env s.booster (s.evals = none)) :
    fitIteration env X (y.map δ.y) (w.map δ.w) sp' bd cuts i (s.scale σ δ P) =
      (fun r => (r.1.scale σ δ P, r.2)) <$> fitIteration env X y w sp bd cuts i s := by
  unfold fitIteration
  dsimp only
  refine Res.bind_image (sampleIndex_scale env.rng hc.goss _ _ _ _ _ _ _) fun r _ => ?_
  obtain ⟨chosen, g, h, rng⟩ := r
  simp only [sampleScale]
  refine Res.bind_image (Tree.fit_scale hL ?_ _ _) fun tree _ => ?_
  · exact ⟨hsp, rfl, rfl, rfl, rfl, rfl, hh i⟩
  refine Res.bind_image (Tree.predict_scale hL _ _ _) fun preds _ => ?_
  refine Res.bind_image (evalSets_scale hL _ _ _ hc.metric) fun r hr => ?_
  obtain ⟨b, ev, best, stop⟩ := r
  have hs := (evalSets_same hr).1
  have hobj : ObjScaled σ δ b.objectiveType := (hc.same hs id).obj
  have e : addPreds (s.scale σ δ P).yhat (preds.map σ.wD) = (addPreds s.yhat preds).map σ.wD :=
    addPreds_scale hL _ _
  simp only [evalSetsScale, e]
  cases stop with
  | true =>
    simp only [if_true, Res.map_ok]
    unfold FitState.scale Booster.scale
    simp only [List.map_append, List.map_cons, List.map_nil]
  | false =>
    simp only [Bool.false_eq_true, if_false, Res.map_ok]
    rw [show (b.scale σ δ P).objectiveType = b.objectiveType from rfl, calcGradHess_scale hobj]
    unfold FitState.scale Booster.scale
    simp only [List.map_append, List.map_cons, List.map_nil]

/-- Evaluation sets are never added. -/
theorem fitIteration_evals_none' {R : Type} {env : Env R F D} {X : Matrix D}
    {y w : List D} {sp : Splitter F} {bd : Matrix Nat} {cuts : JaggedMatrix D}
    {i : Nat} {s s' : FitState R F D} {stop : Bool}
    (h : fitIteration env X y w sp bd cuts i s = .ok (s', stop)) (hs : s.evals = none) : s'.evals = none := by
  unfold fitIteration at h
  dsimp only at h
  simp only [Res.bind_eq_ok, hs, evalSets, Res.ok.injEq] at h
  obtain ⟨_, _, _, _, _, _, r, rfl, h⟩ := h
  simp only [Bool.false_eq_true, if_false, Res.ok.injEq, Prod.mk.injEq] at h
  rw [← h.1]

theorem fitLoop_scale (hL : σ.Laws) {R : Type} {env : Env R F D} (hh : ∀ i, (env.heap i).ByOrder)
    {X : Matrix D} {y w : List D} {sp sp' : Splitter F} (hsp : sp.Scaled σ sp') {bd : Matrix Nat}
    {cuts : JaggedMatrix D} :
    ∀ (n i : Nat) (s : FitState R F D), FitCase σ δ env s.booster (s.evals = none) →
      fitLoop env X (y.map δ.y) (w.map δ.w) sp' bd cuts n i (s.scale σ δ P) =
        FitState.scale σ δ P <$> fitLoop env X y w sp bd cuts n i s := by
  intro n
  induction n with
  | zero => intro i s _; rfl
  | succ n ih =>
    intro i s hc
    unfold fitLoop
    refine Res.bind_image (fitIteration_scale hL hh hsp s hc) fun r hr => ?_
    obtain ⟨s', stop⟩ := r
    obtain ⟨_, _, _, _, hstep⟩ := fitIteration_ok hr
    cases stop with
    | true => rfl
    | false =>
      simp only [Bool.false_eq_true, if_false]
      exact ih (i + 1) s' (hc.same hstep.same fun h => fitIteration_evals_none' hr h)

theorem fitTrees_scale (hL : σ.Laws) {R : Type} {env : Env R F D} (hh : ∀ i, (env.heap i).ByOrder)
    {b : Booster F D} {X : Matrix D} {y w : List D} {sp sp' : Splitter F} (hsp : sp.Scaled σ sp')
    {ev : Option (List (EvalSet D))} (hc : FitCase σ δ env b (ev = none))
    (hbin : binMatrix env.sorter X (w.map δ.w) b.nbins b.missing = binMatrix env.sorter X w b.nbins b.missing)
    (hinit : b.initializeBaseScore = true →
      calcInit b.objectiveType (y.map δ.y) (w.map δ.w) = σ.wD <$> calcInit b.objectiveType y w) :
    fitTrees env (b.scale σ δ P) X (y.map δ.y) (w.map δ.w) sp'
        (ev.map fun es => es.map (EvalSet.scale δ)) =
      Booster.scale σ δ P <$> fitTrees env b X y w sp ev := by
  have key : ∀ b0 : Booster F D, FitCase σ δ env b0 (ev = none) → b0.nbins = b.nbins → b0.missing = b.missing →
      (do
        let gh := calcGradHess (F := F) (b0.scale σ δ P).objectiveType (y.map δ.y)
          (List.replicate (y.map δ.y).length (b0.scale σ δ P).baseScore) (w.map δ.w)
        let binned ← binMatrix env.sorter X (w.map δ.w) (b0.scale σ δ P).nbins (b0.scale σ δ P).missing
        let s ← fitLoop env X (y.map δ.y) (w.map δ.w) sp'
          { data := binned.binned, rows := X.rows, cols := X.cols } binned.cuts (b0.scale σ δ P).iterations 0
          { booster := b0.scale σ δ P
            yhat := List.replicate (y.map δ.y).length (b0.scale σ δ P).baseScore, grad := gh.1, hess := gh.2
            evals := (ev.map fun (es : List (EvalSet D)) => es.map (EvalSet.scale δ)).map fun (es : List (EvalSet D)) => es.map fun e =>
              { toEvalSet := e, yhat := List.replicate e.y.length (b0.scale σ δ P).baseScore : TrainEval D }
            best := none, rng := env.rng.seed (b0.scale σ δ P).seed }
        Res.ok s.booster) =
      Booster.scale σ δ P <$> (do
        let gh := calcGradHess (F := F) b0.objectiveType y (List.replicate y.length b0.baseScore) w
        let binned ← binMatrix env.sorter X w b0.nbins b0.missing
        let s ← fitLoop env X y w sp
          { data := binned.binned, rows := X.rows, cols := X.cols } binned.cuts b0.iterations 0
          { booster := b0
            yhat := List.replicate y.length b0.baseScore, grad := gh.1, hess := gh.2
            evals := ev.map fun (es : List (EvalSet D)) => es.map fun e =>
              { toEvalSet := e, yhat := List.replicate e.y.length b0.baseScore : TrainEval D }
            best := none, rng := env.rng.seed b0.seed }
        Res.ok s.booster) := by
    intro b0 hc0 h1 h2
    dsimp only
    rw [show (b0.scale σ δ P).nbins = b.nbins from h1, show (b0.scale σ δ P).missing = b.missing from h2, h1, h2,
      hbin, show (b0.scale σ δ P).objectiveType = b0.objectiveType from rfl]
    have e1 : List.replicate (y.map δ.y).length (b0.scale σ δ P).baseScore =
        (List.replicate y.length b0.baseScore).map σ.wD := by
      simp [Booster.scale]
    have e2 : ((ev.map fun (es : List (EvalSet D)) => es.map (EvalSet.scale δ)).map fun (es : List (EvalSet D)) => es.map fun e =>
          ({ toEvalSet := e, yhat := List.replicate e.y.length (b0.scale σ δ P).baseScore } : TrainEval D)) =
        (ev.map fun (es : List (EvalSet D)) => es.map fun e =>
          ({ toEvalSet := e, yhat := List.replicate e.y.length b0.baseScore } : TrainEval D)).map
            fun es => es.map (TrainEval.scale σ δ) := by
      cases ev with
      | none => rfl
      | some es => simp [Function.comp_def, EvalSet.scale, TrainEval.scale, Booster.scale]
    rw [e1, e2, calcGradHess_scale hc0.obj]
    refine Res.bind_same fun binned _ => ?_
    refine Res.bind_image (φ := FitState.scale σ δ P) ?_ fun s _ => rfl
    refine fitLoop_scale (P := P) hL hh hsp b0.iterations 0 (FitState.mk b0 _ _ _ _ none _) ?_
    exact ⟨hc0.obj, hc0.metric.imp (fun h => by simp [h]) id, hc0.goss⟩
  unfold fitTrees
  have hb : (if (b.scale σ δ P).trees.isEmpty then b.scale σ δ P else (b.scale σ δ P).reset) =
      (if b.trees.isEmpty then b else b.reset).scale σ δ P := by
    rw [show (b.scale σ δ P).trees.isEmpty = b.trees.isEmpty by
      show (b.trees.map _).isEmpty = _; rw [List.isEmpty_map]]
    split <;> rfl
  rw [hb]
  have hr : b.SameParams (if b.trees.isEmpty then b else b.reset) := by
    split <;> rfl
  have hc0 := hc.same hr id
  have h1 : (if b.trees.isEmpty then b else b.reset).nbins = b.nbins := by split <;> rfl
  have h2 : (if b.trees.isEmpty then b else b.reset).missing = b.missing := by split <;> rfl
  have h3 : (if b.trees.isEmpty then b else b.reset).objectiveType = b.objectiveType := by split <;> rfl
  have h4 : (if b.trees.isEmpty then b else b.reset).initializeBaseScore = b.initializeBaseScore := by
    split <;> rfl
  dsimp only
  generalize (if b.trees.isEmpty then b else b.reset) = b0 at *
  rw [show (b0.scale σ δ P).initializeBaseScore = b0.initializeBaseScore from rfl,
    show (b0.scale σ δ P).objectiveType = b0.objectiveType from rfl]
  split
  · rename_i hi
    rw [h4] at hi
    simp only [Res.pure_def, Res.ok_bind]
    have hi' : calcInit b0.objectiveType (y.map δ.y) (w.map δ.w) = σ.wD <$> calcInit b0.objectiveType y w := by
      rw [h3]; exact hinit hi
    refine Res.bind_image hi' fun s _ => ?_
    exact key { b0 with baseScore := s } ⟨hc0.obj, hc0.metric, hc0.goss⟩ h1 h2
  · simp only [Res.pure_def, Res.ok_bind]
    exact key b0 hc0 h1 h2

/-- Validation looks at the same things. -/
structure DataMap.Valid (δ : DataMap D) : Prop where
  y_nan : ∀ x, isNaN (δ.y x) = isNaN x
  w_nan : ∀ x, isNaN (δ.w x) = isNaN x
  w_neg : ∀ x, (δ.w x <ᶠ 0) = (x <ᶠ 0)

theorem validateNotNanVec_map {φ : D → D} (h : ∀ x, isNaN (φ x) = isNaN x) (v : List D) (name : String) :
    validateNotNanVec (v.map φ) name = validateNotNanVec v name := by
  unfold validateNotNanVec
  rw [List.any_map]
  have : (isNaN ∘ φ) = isNaN := funext h
  rw [this]

theorem validatePositiveNotNanVec_map {φ : D → D} (h : ∀ x, isNaN (φ x) = isNaN x)
    (h' : ∀ x, (φ x <ᶠ 0) = (x <ᶠ 0)) (v : List D) (name : String) :
    validatePositiveNotNanVec (v.map φ) name = validatePositiveNotNanVec v name := by
  unfold validatePositiveNotNanVec
  dsimp only
  have e : (v.map φ).filter (fun i => isNaN i || i <ᶠ 0) = (v.filter fun i => isNaN i || i <ᶠ 0).map φ := by
    rw [List.filter_map]
    congr 2
    funext x
    simp only [Function.comp, h, h']
  have e2 : ∀ u : List D, validatePositiveVec (u.map φ) name = validatePositiveVec u name := by
    intro u
    unfold validatePositiveVec
    rw [List.any_map]
    have : ((fun x : D => x <ᶠ 0) ∘ φ) = fun x => x <ᶠ 0 := funext h'
    rw [this]
  rw [e, e2, validateNotNanVec_map h]

theorem validateFit_scale (hδ : δ.Valid) (y w : List D) (ev : Option (List (EvalSet D))) :
    validateFit (y.map δ.y) (w.map δ.w) (ev.map fun (es : List (EvalSet D)) => es.map (EvalSet.scale δ)) =
      validateFit y w ev := by
  have hev : ∀ (es : List (EvalSet D)) (i : Nat), validateEvals (es.map (EvalSet.scale δ)) i = validateEvals es i := by
    intro es
    induction es with
    | nil => intro i; rfl
    | cons e es ih =>
      intro i
      simp only [List.map_cons, validateEvals, EvalSet.scale, validateNotNanVec_map hδ.y_nan,
        validatePositiveNotNanVec_map hδ.w_nan hδ.w_neg]
      rw [← ih]
  unfold validateFit
  rw [validateNotNanVec_map hδ.y_nan, validatePositiveNotNanVec_map hδ.w_nan hδ.w_neg]
  cases ev with
  | none => rfl
  | some es => simp only [Option.map_some, hev]

/-- The whole fit. -/
theorem Booster.fit_scale (hL : σ.Laws) (hδ : δ.Valid) {R : Type} {env : Env R F D}
    (hh : ∀ i, (env.heap i).ByOrder) {b : Booster F D} {X : Matrix D} {y w : List D}
    {ev : Option (List (EvalSet D))} (hsp : b.splitter.Scaled σ (b.scale σ δ P).splitter)
    (hc : FitCase σ δ env b (ev = none))
    (hbin : binMatrix env.sorter X (w.map δ.w) b.nbins b.missing = binMatrix env.sorter X w b.nbins b.missing)
    (hinit : b.initializeBaseScore = true → validateFit y w ev = .ok () →
      calcInit b.objectiveType (y.map δ.y) (w.map δ.w) = σ.wD <$> calcInit b.objectiveType y w) :
    (b.scale σ δ P).fit env X (y.map δ.y) (w.map δ.w) (ev.map fun es => es.map (EvalSet.scale δ)) =
      (fun r => (r.1.scale σ δ P, r.2)) <$> b.fit env X y w ev := by
  unfold Booster.fit
  rw [validateFit_scale hδ]
  cases hv : validateFit y w ev with
  | error e => rfl
  | ok u =>
    exact Res.bind_image (fitTrees_scale hL hh hsp hc hbin fun h => hinit h hv) fun b' _ => rfl

/-- Predictions are mapped. -/
theorem Booster.predict_scale (hL : σ.Laws) (b : Booster F D) (X : Matrix D) :
    (b.scale σ δ P).predict X = List.map σ.wD <$> b.predict X := by
  unfold Booster.predict
  refine Res.bind_image (φ := List.map (Tree.scale σ)) ?_ fun ts hts => ?_
  · unfold Booster.predictionTrees
    rw [show (b.scale σ δ P).trees = b.trees.map (Tree.scale σ) from rfl,
      show (b.scale σ δ P).predictionIteration = b.predictionIteration from rfl, List.length_map]
    dsimp only
    split
    · rw [Res.map_ok, List.map_take]
    · rfl
  · clear hts
    have e : List.replicate X.rows (b.scale σ δ P).baseScore = (List.replicate X.rows b.baseScore).map σ.wD := by
      simp [Booster.scale]
    rw [e]
    generalize List.replicate X.rows b.baseScore = l
    induction ts generalizing l with
    | nil => rfl
    | cons t ts ih =>
      simp only [List.map_cons, Res.foldM'_cons, Res.bind_assoc', Res.ok_bind]
      refine Res.bind_image (Tree.predict_scale hL t X b.missing) fun p _ => ?_
      rw [addPreds_scale hL]
      exact ih _

end Verif
