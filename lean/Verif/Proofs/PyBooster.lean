import Verif.Spec.PyBooster
import Verif.Proofs.Trace
import Verif.Props.Python
import Verif.Props.AverageLeaf

/-!
# Lemmas about the Python class
-/

namespace Verif

open scoped Verif

variable {F D : Type} [Fl F] [Fl D] [FlCast F D] {R : Type}

set_option linter.unusedSectionVars false

/-! ### The crate's fit ignores the metadata -/

/-- Replace the metadata. -/
def Booster.withMeta (b : Booster F D) (M : List (String × String)) : Booster F D :=
  { b with metadata := M }

theorem earlyStopUpdate_meta (b : Booster F D) (M : List (String × String)) (i : Nat) (m : D) (mx : Bool)
    (best : Option D) (stop : Bool) :
    earlyStopUpdate (b.withMeta M) i m mx best stop =
      ((earlyStopUpdate b i m mx best stop).1.withMeta M, (earlyStopUpdate b i m mx best stop).2) := by
  unfold earlyStopUpdate
  change (match b.earlyStoppingRounds with
    | none => _
    | some rounds => _) = _
  cases b.earlyStoppingRounds with
  | none => rfl
  | some rounds =>
    cases best with
    | none => rfl
    | some v =>
      dsimp only
      split
      · rfl
      · change (match b.bestIteration with
          | some bi => _
          | none => _) = _
        cases b.bestIteration <;> rfl

theorem evalLoop_meta (S : Sorter) (t : Tree F D) (i n : Nat) (M : List (String × String)) :
    ∀ (l : List (TrainEval D)) (k : Nat) (b : Booster F D) (best : Option D) (stop : Bool),
    evalLoop S t i n l k (b.withMeta M) best stop =
      (evalLoop S t i n l k b best stop >>= fun r =>
        .ok (r.1, r.2.1, r.2.2.1.withMeta M, r.2.2.2)) := by
  intro l
  induction l with
  | nil => intro k b best stop; rfl
  | cons e l ih =>
    intro k b best stop
    simp only [evalLoop, Res.bind_assoc']
    change (t.predict e.data b.missing >>= _) = _
    refine Res.bind_congr fun preds _ => ?_
    change (b.metric.eval S e.y _ e.w >>= _) = _
    refine Res.bind_congr fun m _ => ?_
    by_cases hk : k + 1 = n
    · simp only [hk, if_true]
      have e0 : (b.withMeta M).metric = b.metric := rfl
      simp only [e0, earlyStopUpdate_meta, ih, Res.bind_assoc']
      refine Res.bind_congr fun r _ => rfl
    · simp only [hk, if_false]
      rw [ih, Res.bind_assoc']
      refine Res.bind_congr fun r _ => rfl

theorem withHistory_meta (b : Booster F D) (M : List (String × String)) (n : Nat) :
    withHistory (b.withMeta M) n = (withHistory b n).withMeta M := by
  unfold withHistory
  change (match b.evaluationHistory with
    | none => _
    | some _ => _) = _
  cases b.evaluationHistory <;> rfl

theorem appendHistory_meta (b : Booster F D) (M : List (String × String)) (ms : List D) :
    appendHistory (b.withMeta M) ms = (appendHistory b ms >>= fun c => .ok (c.withMeta M)) := by
  unfold appendHistory
  change (match b.evaluationHistory with
    | none => _
    | some h => _) = _
  cases b.evaluationHistory with
  | none => rfl
  | some h => dsimp only; rw [Res.bind_assoc']; exact Res.bind_congr fun _ _ => rfl

theorem evalSets_meta (S : Sorter) (t : Tree F D) (i : Nat) (b : Booster F D)
    (M : List (String × String)) (es : Option (List (TrainEval D))) (best : Option D) :
    evalSets S t i (b.withMeta M) es best =
      (evalSets S t i b es best >>= fun r => .ok (r.1.withMeta M, r.2)) := by
  cases es with
  | none => rfl
  | some es =>
    simp only [evalSets, withHistory_meta, evalLoop_meta, Res.bind_assoc']
    refine Res.bind_congr fun r _ => ?_
    simp only [Res.ok_bind]
    rw [appendHistory_meta, Res.bind_assoc']
    exact Res.bind_congr fun _ _ => rfl

/-- Replace the metadata of the booster in a state. -/
def FitState.withMeta (s : FitState R F D) (M : List (String × String)) : FitState R F D :=
  { s with booster := s.booster.withMeta M }

theorem fitIteration_meta (env : Env R F D) (data : Matrix D) (y w : List D) (sp : Splitter F)
    (bdata : Matrix Nat) (cuts : JaggedMatrix D) (i : Nat) (s : FitState R F D)
    (M : List (String × String)) :
    fitIteration env data y w sp bdata cuts i (s.withMeta M) =
      (fitIteration env data y w sp bdata cuts i s >>= fun r => .ok (r.1.withMeta M, r.2)) := by
  simp only [fitIteration, Res.bind_assoc']
  change (sampleIndex env.sorter env.rng s.booster.sampleMethod _ _ _ _ _ _ _ >>= _) = _
  refine Res.bind_congr fun a _ => ?_
  refine Res.bind_congr fun t _ => ?_
  change (t.predict data s.booster.missing >>= _) = _
  refine Res.bind_congr fun p _ => ?_
  change (evalSets env.sorter t i (s.booster.withMeta M) s.evals s.best >>= _) = _
  rw [evalSets_meta, Res.bind_assoc']
  refine Res.bind_congr fun r _ => ?_
  obtain ⟨b, evals, best, stop⟩ := r
  cases stop <;> rfl

theorem fitLoop_meta (env : Env R F D) (data : Matrix D) (y w : List D) (sp : Splitter F)
    (bdata : Matrix Nat) (cuts : JaggedMatrix D) (M : List (String × String)) :
    ∀ (n i : Nat) (s : FitState R F D),
    fitLoop env data y w sp bdata cuts n i (s.withMeta M) =
      (fitLoop env data y w sp bdata cuts n i s >>= fun r => .ok (r.withMeta M)) := by
  intro n
  induction n with
  | zero => intro i s; rfl
  | succ n ih =>
    intro i s
    simp only [fitLoop, fitIteration_meta, Res.bind_assoc']
    refine Res.bind_congr fun r _ => ?_
    obtain ⟨s', stop⟩ := r
    cases stop
    · simpa using ih (i + 1) s'
    · rfl

theorem fitTrees_meta (env : Env R F D) (b : Booster F D) (data : Matrix D) (y w : List D)
    (sp : Splitter F) (ev : Option (List (EvalSet D))) (M : List (String × String)) :
    fitTrees env (b.withMeta M) data y w sp ev =
      (fitTrees env b data y w sp ev >>= fun c => .ok (c.withMeta M)) := by
  simp only [fitTrees]
  have e1 : (if (b.withMeta M).trees.isEmpty then b.withMeta M else (b.withMeta M).reset) =
      (if b.trees.isEmpty then b else b.reset).withMeta M := by
    change (if b.trees.isEmpty then _ else _) = _
    split <;> rfl
  rw [e1]
  generalize (if b.trees.isEmpty then b else b.reset) = c
  have tail : ∀ d : Booster F D, (do
      let binned ← binMatrix env.sorter data w (d.withMeta M).nbins (d.withMeta M).missing
      let s ← fitLoop env data y w sp { data := binned.binned, rows := data.rows, cols := data.cols }
        binned.cuts (d.withMeta M).iterations 0 (fitStart env (d.withMeta M) y w ev)
      Res.ok s.booster) = ((do
      let binned ← binMatrix env.sorter data w d.nbins d.missing
      let s ← fitLoop env data y w sp { data := binned.binned, rows := data.rows, cols := data.cols }
        binned.cuts d.iterations 0 (fitStart env d y w ev)
      Res.ok s.booster) >>= fun c => Res.ok (c.withMeta M)) := by
    intro d
    rw [Res.bind_assoc']
    change (binMatrix env.sorter data w d.nbins d.missing >>= _) = _
    refine Res.bind_congr fun bin _ => ?_
    have := fitLoop_meta env data y w sp { data := bin.binned, rows := data.rows, cols := data.cols }
      bin.cuts M d.iterations 0 (fitStart env d y w ev)
    change (fitLoop env data y w sp _ _ d.iterations 0 ((fitStart env d y w ev).withMeta M) >>= _) = _
    rw [this, Res.bind_assoc', Res.bind_assoc']
    exact Res.bind_congr fun _ _ => rfl
  by_cases hc : c.initializeBaseScore = true
  · have hc' : (c.withMeta M).initializeBaseScore = true := hc
    rw [if_pos hc, if_pos hc', Res.bind_assoc']
    change (calcInit c.objectiveType y w >>= _) = _
    refine Res.bind_congr fun s _ => ?_
    exact tail { c with baseScore := s }
  · have hc' : ¬ (c.withMeta M).initializeBaseScore = true := hc
    rw [if_neg hc, if_neg hc']
    exact tail c

/-- The metadata is carried through the crate's `fit` and has no influence on it. -/
theorem Booster.fit_meta (env : Env R F D) (b : Booster F D) (data : Matrix D) (y w : List D)
    (ev : Option (List (EvalSet D))) (M : List (String × String)) :
    (b.withMeta M).fit env data y w ev =
      (b.fit env data y w ev >>= fun r => .ok (r.1.withMeta M, r.2)) := by
  unfold Booster.fit
  split
  · rfl
  · have : (b.withMeta M).splitter = b.splitter := rfl
    rw [this, fitTrees_meta, Res.bind_assoc', Res.bind_assoc']
    exact Res.bind_congr fun _ _ => rfl

/-! ### `fit` of the class -/

/-- The crate's booster right before its `fit` is called. -/
def PyBooster.ready (J : PyJson) (o : PyBooster F D) (X : Frame D) (m : ConstraintMap) (t : List Nat) :
    Booster F D :=
  { (o.describe J X).booster with monotoneConstraints := some m, terminateMissingFeatures := t }

theorem describe_params (J : PyJson) (o : PyBooster F D) (X : Frame D) :
    (o.describe J X).params = o.params := by
  unfold PyBooster.describe; dsimp only; split <;> rfl

theorem describe_nFeatures (J : PyJson) (o : PyBooster F D) (X : Frame D) :
    (o.describe J X).nFeatures = some X.data.cols := by
  unfold PyBooster.describe; dsimp only; split <;> rfl

theorem describe_names (J : PyJson) (o : PyBooster F D) (X : Frame D) :
    (o.describe J X).featureNames = if X.features ≠ [] then some X.features else o.featureNames := by
  unfold PyBooster.describe; dsimp only; split <;> rfl

theorem describe_booster (J : PyJson) (o : PyBooster F D) (X : Frame D) :
    (o.describe J X).booster = o.booster.withMeta (o.describe J X).booster.metadata := by
  unfold PyBooster.describe; dsimp only; split <;> rfl

/-- How a call of `fit` can end. -/
inductive FitCases (J : PyJson) (env : Env R F D) (o : PyBooster F D) (X : Frame D) (y : List D)
    (w : Option (List D)) (evals : Option (List (PyEval D))) : PyBooster F D → Except PyErr Unit → Prop
  | constraints {e} : pyFitConstraints X.columns (o.params.monotoneConstraints.getD []) = .error e →
      FitCases J env o X y w evals (o.describe J X) (.error e)
  | terminate {e m} : pyFitConstraints X.columns (o.params.monotoneConstraints.getD []) = .ok m →
      pyFitTerminate X.columns (o.params.terminateMissingFeatures.getD []) = .error e →
      FitCases J env o X y w evals { o.describe J X with
        booster := { (o.describe J X).booster with monotoneConstraints := some m } } (.error e)
  | evals {e m t} : pyFitConstraints X.columns (o.params.monotoneConstraints.getD []) = .ok m →
      pyFitTerminate X.columns (o.params.terminateMissingFeatures.getD []) = .ok t →
      pyMap (fun e : PyEval D => (o.describe J X).validateFeatures e.frame.features) (evals.getD []) =
        .error e →
      FitCases J env o X y w evals { o.describe J X with booster := o.ready J X m t } (.error e)
  | invalid {b e m t us} : pyFitConstraints X.columns (o.params.monotoneConstraints.getD []) = .ok m →
      pyFitTerminate X.columns (o.params.terminateMissingFeatures.getD []) = .ok t →
      pyMap (fun e : PyEval D => (o.describe J X).validateFeatures e.frame.features) (evals.getD []) =
        .ok us →
      (o.ready J X m t).fit env X.data y (w.getD (List.replicate y.length 1))
          (evals.map fun es => es.map PyEval.toSet) = .ok (b, .error e) →
      FitCases J env o X y w evals { o.describe J X with booster := b } (.error .valueError)
  | done {b m t us} : pyFitConstraints X.columns (o.params.monotoneConstraints.getD []) = .ok m →
      pyFitTerminate X.columns (o.params.terminateMissingFeatures.getD []) = .ok t →
      pyMap (fun e : PyEval D => (o.describe J X).validateFeatures e.frame.features) (evals.getD []) =
        .ok us →
      (o.ready J X m t).fit env X.data y (w.getD (List.replicate y.length 1))
          (evals.map fun es => es.map PyEval.toSet) = .ok (b, .ok ()) →
      FitCases J env o X y w evals { o.describe J X with
        booster := b, params := { o.params with baseScore := b.baseScore } } (.ok ())

theorem pyFit_iff {J : PyJson} {env : Env R F D} {o o' : PyBooster F D} {X : Frame D} {y : List D}
    {w : Option (List D)} {evals : Option (List (PyEval D))} {r : Except PyErr Unit} :
    o.fit J env X y w evals = .ok (o', r) ↔ FitCases J env o X y w evals o' r := by
  have hp := describe_params J o X
  constructor
  · intro h
    simp only [PyBooster.fit, hp] at h
    split at h
    · next e hc =>
      simp only [Res.ok.injEq, Prod.mk.injEq] at h
      obtain ⟨rfl, rfl⟩ := h
      exact .constraints hc
    · next m hc =>
      split at h
      · next e ht =>
        simp only [Res.ok.injEq, Prod.mk.injEq] at h
        obtain ⟨rfl, rfl⟩ := h
        have := FitCases.terminate (J := J) (env := env) (y := y) (w := w) (evals := evals) hc ht
        dsimp only at this
        rw [hp] at this
        exact this
      · next t ht =>
        split at h
        · next e hv =>
          simp only [Res.ok.injEq, Prod.mk.injEq] at h
          obtain ⟨rfl, rfl⟩ := h
          have := FitCases.evals (J := J) (env := env) (y := y) (w := w) hc ht hv
          dsimp only at this
          rw [hp] at this
          exact this
        · next us hv =>
          rw [Res.bind_eq_ok] at h
          obtain ⟨⟨b, c⟩, hf, h⟩ := h
          cases c with
          | error e =>
            simp only [Res.ok.injEq, Prod.mk.injEq] at h
            obtain ⟨rfl, rfl⟩ := h
            have := FitCases.invalid (J := J) (env := env) (y := y) (w := w) hc ht hv hf
            dsimp only at this
            rw [hp] at this
            exact this
          | ok u =>
            simp only [Res.ok.injEq, Prod.mk.injEq] at h
            obtain ⟨rfl, rfl⟩ := h
            exact FitCases.done (J := J) (env := env) (y := y) (w := w) hc ht hv hf
  · intro h
    cases h with
    | constraints hc => simp only [PyBooster.fit, hp, hc]
    | terminate hc ht => simp only [PyBooster.fit, hp, hc, ht]
    | evals hc ht hv =>
      have hv' := hv
      simp only [PyBooster.validateFeatures] at hv'
      simp only [PyBooster.fit, hp, hc, ht, PyBooster.validateFeatures, hv']
      rfl
    | invalid hc ht hv hf =>
      have hv' := hv
      simp only [PyBooster.validateFeatures] at hv'
      simp only [PyBooster.ready] at hf
      simp only [PyBooster.fit, hp, hc, ht, PyBooster.validateFeatures, hv', hf]
      rfl
    | done hc ht hv hf =>
      have hv' := hv
      simp only [PyBooster.validateFeatures] at hv'
      simp only [PyBooster.ready] at hf
      simp only [PyBooster.fit, hp, hc, ht, PyBooster.validateFeatures, hv', hf]
      rfl

/-! ### What holds of every instance made from given parameters -/

/-- The argument of the crate's constructor. -/
def crateArgs (p : PyParams D) (objective : ObjectiveType) (sample : SampleMethod) (policy : GrowPolicy)
    (metric : Option Metric) (treatment : MissingNodeTreatment) : Booster F D :=
  { objectiveType := objective, iterations := p.iterations, learningRate := down p.learningRate
    maxDepth := p.maxDepth, maxLeaves := p.maxLeaves, l1 := down p.l1, l2 := down p.l2
    gamma := down p.gamma, maxDeltaStep := down p.maxDeltaStep
    minLeafWeight := down p.minLeafWeight, baseScore := p.baseScore, nbins := p.nbins
    parallel := p.parallel, allowMissingSplits := p.allowMissingSplits
    monotoneConstraints := some [], subsample := down p.subsample, topRate := p.topRate
    otherRate := p.otherRate, colsampleBytree := p.colsampleBytree, seed := p.seed
    missing := p.missing, createMissingBranch := p.createMissingBranch, sampleMethod := sample
    growPolicy := policy, evaluationMetric := metric
    earlyStoppingRounds := p.earlyStoppingRounds, initializeBaseScore := p.initializeBaseScore
    terminateMissingFeatures := [], evaluationHistory := none, bestIteration := none
    predictionIteration := none, missingNodeTreatment := treatment
    logIterations := p.logIterations, forceChildrenToBoundParent := p.forceChildrenToBoundParent
    trees := [], metadata := [] }

theorem pyParse_eq_ok {α : Type} {f : String → Option α} {s : String} {a : α} :
    pyParse f s = .ok a ↔ f s = some a := by
  unfold pyParse; split <;> simp_all

theorem except_bind_ok {ε α β : Type} {x : Except ε α} {f : α → Except ε β} {b : β} :
    (x >>= f) = .ok b ↔ ∃ a, x = .ok a ∧ f a = .ok b := by
  cases x <;> simp [bind, Except.bind]

theorem crateNew_eq_ok {p : PyParams D} {b : Booster F D} :
    crateNew p = .ok b ↔ ∃ objective sample policy metric treatment,
      ObjectiveType.ofName p.objectiveType = some objective ∧
      SampleMethod.ofName p.sampleMethod' = some sample ∧
      GrowPolicy.ofName p.growPolicy = some policy ∧
      parseMetric p.evaluationMetric = .ok metric ∧
      MissingNodeTreatment.ofName p.missingNodeTreatment = some treatment ∧
      p.nbins < 2 ^ 16 ∧ b = crateArgs p objective sample policy metric treatment ∧
      b.validateParameters = .ok () := by
  have key : ∀ (o : ObjectiveType) (sm : SampleMethod) (gp : GrowPolicy) (em : Option Metric)
      (mt : MissingNodeTreatment),
      ((if p.nbins < 2 ^ 16 then
        match Booster.new (crateArgs (F := F) p o sm gp em mt) with
        | .ok b => (.ok b : Except PyErr (Booster F D))
        | .error _ => .error .valueError
      else .error .valueError) = .ok b) ↔ p.nbins < 2 ^ 16 ∧ b = crateArgs p o sm gp em mt ∧
        b.validateParameters = .ok () := by
    intro o sm gp em mt
    split
    · next hn =>
      have e : Booster.new (crateArgs (F := F) p o sm gp em mt) =
          ((crateArgs (F := F) p o sm gp em mt).validateParameters >>= fun _ =>
            .ok (crateArgs (F := F) p o sm gp em mt)) := rfl
      rw [e]
      cases hv : (crateArgs (F := F) p o sm gp em mt).validateParameters with
      | error x =>
        simp only [bind, Except.bind, hn, true_and]
        constructor
        · rintro ⟨⟩
        · rintro ⟨rfl, h⟩; rw [hv] at h; cases h
      | ok u =>
        simp only [bind, Except.bind, hn, true_and, Except.ok.injEq]
        constructor
        · rintro rfl; exact ⟨rfl, hv⟩
        · rintro ⟨rfl, _⟩; rfl
    · next hn => exact ⟨(fun h => nomatch h), fun h => absurd h.1 hn⟩
  unfold crateNew
  constructor
  · intro h
    rw [except_bind_ok] at h
    obtain ⟨o, ho, h⟩ := h
    rw [except_bind_ok] at h
    obtain ⟨sm, hs, h⟩ := h
    rw [except_bind_ok] at h
    obtain ⟨gp, hg, h⟩ := h
    rw [except_bind_ok] at h
    obtain ⟨em, he, h⟩ := h
    rw [except_bind_ok] at h
    obtain ⟨mt, ht, h⟩ := h
    exact ⟨o, sm, gp, em, mt, pyParse_eq_ok.1 ho, pyParse_eq_ok.1 hs, pyParse_eq_ok.1 hg, he,
      pyParse_eq_ok.1 ht, (key o sm gp em mt).1 h⟩
  · rintro ⟨o, sm, gp, em, mt, ho, hs, hg, he, ht, h⟩
    rw [except_bind_ok]
    refine ⟨o, pyParse_eq_ok.2 ho, ?_⟩
    rw [except_bind_ok]
    refine ⟨sm, pyParse_eq_ok.2 hs, ?_⟩
    rw [except_bind_ok]
    refine ⟨gp, pyParse_eq_ok.2 hg, ?_⟩
    rw [except_bind_ok]
    refine ⟨em, he, ?_⟩
    rw [except_bind_ok]
    exact ⟨mt, pyParse_eq_ok.2 ht, (key o sm gp em mt).2 h⟩

/-- The attributes set by `__init__`. -/
def PyParams.initial (p : PyParams D) : PyParams D :=
  { p with monotoneConstraints := some (p.monotoneConstraints.getD [])
           terminateMissingFeatures := some (p.terminateMissingFeatures.getD []) }

theorem pyInit_eq_ok {J : PyJson} {nf : Option Nat} {fn : Option (List String)} {p : PyParams D}
    {o : PyBooster F D} : pyInit J nf fn p = .ok o ↔ ∃ b, crateNew p = .ok b ∧
      o = { booster := b.insertMetadata "feature_importance_method"
              (J.dumps (.str p.featureImportanceMethod))
            params := p.initial, nFeatures := nf, featureNames := fn } := by
  unfold pyInit
  rw [except_bind_ok]
  constructor
  · rintro ⟨b, hb, h⟩
    exact ⟨b, hb, by cases h; rfl⟩
  · rintro ⟨b, hb, rfl⟩
    exact ⟨b, hb, rfl⟩

/-- The invariant of instances made from `p`. -/
structure PyInv (J : PyJson) (p : PyParams D) (b0 : Booster F D) (o : PyBooster F D) : Prop where
  new : crateNew p = .ok b0
  params : o.params = { p.initial with baseScore := o.booster.baseScore }
  booster : o.booster = { b0 with
    monotoneConstraints := o.booster.monotoneConstraints
    terminateMissingFeatures := o.booster.terminateMissingFeatures
    baseScore := o.booster.baseScore, evaluationHistory := o.booster.evaluationHistory
    bestIteration := o.booster.bestIteration, predictionIteration := o.booster.predictionIteration
    trees := o.booster.trees, metadata := o.booster.metadata }
  base : p.initializeBaseScore = false → o.booster.baseScore = p.baseScore
  nFeatures : o.booster.getMetadata "n_features_" = o.nFeatures.map fun n => J.dumps (.nat n)
  names : o.booster.getMetadata "feature_names_in_" = o.featureNames.map fun l => J.dumps (.names l)
  method : o.booster.getMetadata "feature_importance_method" =
    some (J.dumps (.str p.featureImportanceMethod))

theorem getMetadata_insert (b : Booster F D) (k k' v : String) :
    (b.insertMetadata k v).getMetadata k' = if k' = k then some v else b.getMetadata k' :=
  lookup_mapInsert' _ _ _ _

theorem crateNew_init {p : PyParams D} {b : Booster F D} (h : crateNew p = .ok b) :
    b.initializeBaseScore = p.initializeBaseScore ∧ b.baseScore = p.baseScore ∧ b.trees = [] ∧
      b.evaluationHistory = none ∧ b.bestIteration = none ∧ b.predictionIteration = none ∧
      b.metadata = [] ∧ b.nbins < 65536 := by
  obtain ⟨o, sm, gp, em, mt, -, -, -, -, -, hn, rfl, -⟩ := crateNew_eq_ok.1 h
  exact ⟨rfl, rfl, rfl, rfl, rfl, rfl, rfl, hn⟩

theorem pyInv_new {J : PyJson} {p : PyParams D} {o : PyBooster F D} (h : pyNew J p = .ok o) :
    ∃ b0, PyInv J p b0 o := by
  obtain ⟨b, hb, rfl⟩ := pyInit_eq_ok.1 h
  have hi := crateNew_init hb
  refine ⟨b, hb, ?_, rfl, fun _ => hi.2.1, ?_, ?_, ?_⟩
  · change p.initial = { p.initial with baseScore := b.baseScore }
    rw [hi.2.1]; rfl
  · rw [getMetadata_insert, if_neg (by decide)]
    simp [Booster.getMetadata, hi.2.2.2.2.2.2.1]
  · rw [getMetadata_insert, if_neg (by decide)]
    simp [Booster.getMetadata, hi.2.2.2.2.2.2.1]
  · rw [getMetadata_insert, if_pos rfl]

/-- A change of the parts of the crate's booster that the invariant leaves open. -/
theorem PyInv.change {J : PyJson} {p : PyParams D} {b0 : Booster F D} {o : PyBooster F D}
    (h : PyInv J p b0 o) (b : Booster F D)
    (hb : b = { o.booster with
      monotoneConstraints := b.monotoneConstraints
      terminateMissingFeatures := b.terminateMissingFeatures
      evaluationHistory := b.evaluationHistory
      bestIteration := b.bestIteration, predictionIteration := b.predictionIteration
      trees := b.trees }) : PyInv J p b0 { o with booster := b } := by
  have hm : b.metadata = o.booster.metadata := by rw [hb]
  have hs : b.baseScore = o.booster.baseScore := by rw [hb]
  refine ⟨h.new, ?_, ?_, ?_, ?_, ?_, ?_⟩
  · dsimp only; rw [hs]; exact h.params
  · dsimp only
    rw [hb, h.booster]
  · intro hi; dsimp only; rw [hs]; exact h.base hi
  · simp only [Booster.getMetadata, hm]; exact h.nFeatures
  · simp only [Booster.getMetadata, hm]; exact h.names
  · simp only [Booster.getMetadata, hm]; exact h.method

theorem PyInv.describe {J : PyJson} {p : PyParams D} {b0 : Booster F D} {o : PyBooster F D}
    (h : PyInv J p b0 o) (X : Frame D) : PyInv J p b0 (o.describe J X) := by
  refine ⟨h.new, ?_, ?_, ?_, ?_, ?_, ?_⟩
  · rw [describe_params, h.params, describe_booster]; rfl
  · rw [describe_booster, h.booster]; rfl
  · intro hi; rw [describe_booster]; exact h.base hi
  · rw [describe_nFeatures]
    unfold PyBooster.describe PyBooster.setMeta
    dsimp only
    split
    · rw [getMetadata_insert, if_neg (by decide), getMetadata_insert, if_pos rfl]; rfl
    · rw [getMetadata_insert, if_pos rfl]; rfl
  · rw [describe_names]
    unfold PyBooster.describe PyBooster.setMeta
    dsimp only
    split
    · rw [getMetadata_insert, if_pos rfl]; rfl
    · rw [getMetadata_insert, if_neg (by decide)]; exact h.names
  · unfold PyBooster.describe PyBooster.setMeta
    dsimp only
    split
    · rw [getMetadata_insert, if_neg (by decide), getMetadata_insert, if_neg (by decide)]; exact h.method
    · rw [getMetadata_insert, if_neg (by decide)]; exact h.method

/-- What the crate's `fit` leaves alone. -/
theorem Booster.fit_keeps {env : Env R F D} {b b' : Booster F D} {data : Matrix D} {y w : List D}
    {ev : Option (List (EvalSet D))} {r : Except ForustError Unit}
    (h : b.fit env data y w ev = .ok (b', r)) :
    (∀ e, r = .error e → b' = b) ∧
    (b.initializeBaseScore = false → b'.baseScore = b.baseScore) ∧
    b' = { b with baseScore := b'.baseScore, trees := b'.trees, evaluationHistory := b'.evaluationHistory
                  bestIteration := b'.bestIteration, predictionIteration := b'.predictionIteration } := by
  cases r with
  | error e =>
    unfold Booster.fit at h
    split at h
    · simp only [Res.ok.injEq, Prod.mk.injEq] at h
      obtain ⟨rfl, -⟩ := h
      exact ⟨fun _ _ => rfl, fun _ => rfl, rfl⟩
    · simp only [Res.bind_eq_ok, Res.ok.injEq, Prod.mk.injEq] at h
      obtain ⟨_, _, _, h⟩ := h
      cases h
  | ok u =>
    obtain ⟨base, binned, st, stop, N, hT⟩ := Booster.fit_trace h
    have hf := hT.final
    have hb := hT.base_eq
    unfold Booster.SameParams at hf
    refine ⟨(fun e he => nomatch he), ?_, ?_⟩
    · intro hi
      rw [hi] at hb
      rw [hf]; exact hb
    · rw [hf]

theorem pyInv_fit {J : PyJson} {p : PyParams D} {b0 : Booster F D} {o o' : PyBooster F D}
    {env : Env R F D} {X : Frame D} {y : List D} {w : Option (List D)}
    {evals : Option (List (PyEval D))} {r : Except PyErr Unit}
    (h : PyInv J p b0 o) (hf : o.fit J env X y w evals = .ok (o', r)) : PyInv J p b0 o' := by
  have hd := h.describe X
  cases pyFit_iff.1 hf with
  | constraints _ => exact hd
  | terminate _ _ => exact hd.change _ rfl
  | evals _ _ _ => exact hd.change _ rfl
  | @invalid b e m t us _ _ _ hc =>
    have := (Booster.fit_keeps hc).1 e rfl
    subst this
    exact hd.change _ rfl
  | @done b m t us _ _ _ hc =>
    obtain ⟨-, k1, k2⟩ := Booster.fit_keeps hc
    have hm : b.metadata = (o.describe J X).booster.metadata := by rw [k2]; rfl
    have hi0 : (o.ready J X m t).initializeBaseScore = p.initializeBaseScore := by
      change (o.describe J X).booster.initializeBaseScore = _
      rw [hd.booster]; exact (crateNew_init hd.new).1
    refine ⟨hd.new, ?_, ?_, ?_, ?_, ?_, ?_⟩
    · dsimp only; rw [h.params]
    · dsimp only
      rw [k2]
      unfold PyBooster.ready
      dsimp only
      rw [hd.booster]
    · intro hi
      dsimp only
      rw [k1 (by rw [hi0, hi])]
      exact hd.base hi
    · simp only [Booster.getMetadata, hm]; exact hd.nFeatures
    · simp only [Booster.getMetadata, hm]; exact hd.names
    · simp only [Booster.getMetadata, hm]; exact hd.method

theorem Made.inv {J : PyJson} {p : PyParams D} {o : PyBooster F D} (h : Made J p o) :
    ∃ b0, PyInv J p b0 o := by
  induction h with
  | new h => exact pyInv_new h
  | fit env X y w evals r _ hf ih =>
    obtain ⟨b0, hi⟩ := ih
    exact ⟨b0, pyInv_fit hi hf⟩
  | setPredictionIteration n _ ih =>
    obtain ⟨b0, hi⟩ := ih
    exact ⟨b0, hi.change _ rfl⟩
  | @insertMetadata o key value hk _ ih =>
    obtain ⟨b0, hi⟩ := ih
    simp only [reservedKeys, List.mem_cons, List.not_mem_nil, or_false, not_or] at hk
    refine ⟨b0, hi.new, hi.params, ?_, hi.base, ?_, ?_, ?_⟩
    · unfold PyBooster.insertMetadata Booster.insertMetadata
      dsimp only
      have := hi.booster
      generalize mapInsert o.booster.metadata key value = M
      rw [this]
    · exact (getMetadata_insert _ _ _ _).trans
        ((if_neg (fun e => hk.2.1 e.symm)).trans hi.nFeatures)
    · exact (getMetadata_insert _ _ _ _).trans
        ((if_neg (fun e => hk.1 e.symm)).trans hi.names)
    · exact (getMetadata_insert _ _ _ _).trans
        ((if_neg (fun e => hk.2.2 e.symm)).trans hi.method)

end Verif
