import Verif.Proofs.PyBooster
import Verif.Props.Json
import Verif.Spec.ExamplePy

/-!
# C65: saving and loading, pickling (Python class)
-/

namespace Verif

open scoped Verif

variable {F D : Type} [Fl F] [Fl D] [FlCast F D] {R : Type}

set_option linter.unusedSectionVars false

/-- **C65** (pickle).  Unpickling the pickled state gives the same instance back: the booster with all trees
and settings, and all attributes. -/
theorem C65_pickle (o : PyBooster F D) (hs : o.booster.Storable) : pySetState o.getState = .ok o := by
  simp only [pySetState, PyBooster.getState, C26_round_trip _ hs]

/-! ### Names -/

theorem ObjectiveType.name_of {s : String} {x : ObjectiveType} (h : ObjectiveType.ofName s = some x) :
    x.name = s := by
  unfold ObjectiveType.ofName at h
  split at h <;> first | (cases h; rfl) | cases h

theorem GrowPolicy.name_of {s : String} {x : GrowPolicy} (h : GrowPolicy.ofName s = some x) :
    x.name = s := by
  unfold GrowPolicy.ofName at h
  split at h <;> first | (cases h; rfl) | cases h

theorem Metric.name_of {s : String} {x : Metric} (h : Metric.ofName s = some x) : x.name = s := by
  unfold Metric.ofName at h
  split at h <;> first | (cases h; rfl) | cases h

theorem SampleMethod.name_of {s : String} {x : SampleMethod} (h : SampleMethod.ofName s = some x) :
    x.name = s := by
  unfold SampleMethod.ofName at h
  split at h <;> first | (cases h; rfl) | cases h

theorem MissingNodeTreatment.name_of {s : String} {x : MissingNodeTreatment}
    (h : MissingNodeTreatment.ofName s = some x) : x.name = s := by
  unfold MissingNodeTreatment.ofName at h
  split at h <;> first | (cases h; rfl) | cases h

theorem parseMetric_name {s : Option String} {x : Option Metric} (h : parseMetric s = .ok x) :
    x.map Metric.name = s := by
  cases s with
  | none => cases h; rfl
  | some s =>
    simp only [parseMetric, pyParse] at h
    split at h
    · next a ha => cases h; exact congrArg some (Metric.name_of ha)
    · cases h

theorem ObjectiveType.ofName_name (x : ObjectiveType) : ObjectiveType.ofName x.name = some x := by
  cases x <;> rfl

theorem GrowPolicy.ofName_name (x : GrowPolicy) : GrowPolicy.ofName x.name = some x := by cases x <;> rfl

theorem MissingNodeTreatment.ofName_name (x : MissingNodeTreatment) :
    MissingNodeTreatment.ofName x.name = some x := by cases x <;> rfl

theorem parseMetric_of_name (x : Option Metric) : parseMetric (x.map Metric.name) = .ok x := by
  cases x with
  | none => rfl
  | some m => cases m <;> rfl

/-! ### Loading -/

/-- The constructor accepts the parameters of a booster whose parameters are valid. -/
theorem crateNew_params (hr : ∀ x : F, down (up x : D) = x) {b : Booster F D}
    (hv : b.validateParameters = .ok ()) (hn : b.nbins < 2 ^ 16) :
    ∃ c, crateNew (F := F) (crateParams b) = .ok c := by
  have hs : ∃ s, SampleMethod.ofName (crateParams b).sampleMethod' = some s := by
    unfold PyParams.sampleMethod'
    split
    · exact ⟨.random, rfl⟩
    · simp only [crateParams]
      cases b.sampleMethod
      · exact ⟨.none, rfl⟩
      · exact ⟨.random, by decide⟩
      · exact ⟨.goss, by decide⟩
  obtain ⟨s, hs⟩ := hs
  refine ⟨_, crateNew_eq_ok.2 ⟨b.objectiveType, s, b.growPolicy, b.evaluationMetric,
    b.missingNodeTreatment, ObjectiveType.ofName_name _, hs, GrowPolicy.ofName_name _,
    parseMetric_of_name _, MissingNodeTreatment.ofName_name _, hn, rfl, ?_⟩⟩
  rw [← hv]
  simp only [Booster.validateParameters, crateArgs, crateParams, hr]

/-- What `load_booster` gives for a booster with valid parameters. -/
theorem pyLoad_eq {J : PyJson} (hJ : J.Ok) (hr : ∀ x : F, down (up x : D) = x) {b : Booster F D}
    (hb : b.Storable) (hv : b.validateParameters = .ok ())
    (n : Option Nat) (names : Option (List String)) (method : String)
    (m1 : b.getMetadata "n_features_" = n.map fun n => J.dumps (.nat n))
    (m2 : b.getMetadata "feature_names_in_" = names.map fun l => J.dumps (.names l))
    (m3 : b.getMetadata "feature_importance_method" = some (J.dumps (.str method))) :
    pyLoad J b.jsonDump = .ok
      { booster := b, nFeatures := n, featureNames := names
        params := { crateParams b with
          monotoneConstraints := some (pyLoadConstraints names b.monotoneConstraints)
          featureImportanceMethod := method } } := by
  obtain ⟨c, hc⟩ := crateNew_params hr hv hb.nbins
  obtain ⟨o, ho, eo⟩ : ∃ o : PyBooster F D, pyNew J (crateParams b) = .ok o ∧
      o = { booster := c.insertMetadata "feature_importance_method" (J.dumps (.str "Gain"))
            params := (crateParams b).initial, nFeatures := none, featureNames := none } :=
    ⟨_, pyInit_eq_ok.2 ⟨c, hc, rfl⟩, rfl⟩
  unfold pyLoad
  rw [except_bind_ok]
  refine ⟨b, by rw [crateLoad, C26_round_trip b hb], ?_⟩
  rw [except_bind_ok]
  refine ⟨o, ho, ?_⟩
  subst eo
  have hp : (crateParams b).initial = crateParams b := rfl
  cases n <;> cases names <;>
    simp only [Option.map_none, Option.map_some] at m1 m2 <;>
    simp only [PyBooster.getMeta, m1, m2, m3, Option.bind_some, Option.bind_none, hJ _, hp,
      pyLoadConstraints] <;> rfl

/-- The parameters of the instance loaded from the file of `o`. -/
def PyBooster.reloaded (F' : Type) [Fl F'] [FlCast F' D] (o : PyBooster F D) : PyParams D :=
  { o.params with
    learningRate := viaF32 F' o.params.learningRate, l1 := viaF32 F' o.params.l1
    l2 := viaF32 F' o.params.l2, gamma := viaF32 F' o.params.gamma
    maxDeltaStep := viaF32 F' o.params.maxDeltaStep
    minLeafWeight := viaF32 F' o.params.minLeafWeight, subsample := viaF32 F' o.params.subsample
    sampleMethod := if o.params.sampleMethod' = "None" then none else some o.params.sampleMethod'
    monotoneConstraints := some (pyLoadConstraints o.featureNames o.booster.monotoneConstraints)
    terminateMissingFeatures := some (o.booster.terminateMissingFeatures.map PyKey.int) }

/-- **C65** (load).  Let `o` be made by `GradientBooster(**p)` and any calls of `fit`,
`set_prediction_iteration` and `insert_metadata`.  Loading the file that it is saved to gives an instance with
the same booster (so with the same predictions, contributions, importances, history), the same number and
names of features, and the same parameters, except that seven of them went through `f32`, that the sample
method is the one used, and that the constraints and terminated features are those stored by the last
`fit`. -/
theorem C65_load {J : PyJson} (hJ : J.Ok) (hr : ∀ x : F, down (up x : D) = x) {p : PyParams D}
    {o : PyBooster F D} (ho : Made J p o) (hs : o.booster.Storable) :
    pyLoad J o.save = .ok { o with params := o.reloaded F } := by
  obtain ⟨b0, hI⟩ := ho.inv
  obtain ⟨obj, sm, gp, em, mt, h1, h2, h3, h4, h5, hn, rfl, hv⟩ := crateNew_eq_ok.1 hI.new
  have hb := hI.booster
  have hv' : o.booster.validateParameters = .ok () := by
    rw [← hv, hb]; rfl
  unfold PyBooster.save
  rw [pyLoad_eq hJ hr hs hv' o.nFeatures o.featureNames p.featureImportanceMethod hI.nFeatures hI.names
    hI.method]
  congr 2
  have hsm : sm.param = if p.sampleMethod' = "None" then none else some p.sampleMethod' := by
    rw [← SampleMethod.name_of h2]
    cases sm <;> rfl
  have hp' : o.params.sampleMethod' = p.sampleMethod' := by rw [hI.params]; rfl
  unfold PyBooster.reloaded
  rw [hp', ← hsm, hI.params]
  unfold crateParams
  rw [hb]
  simp only [crateArgs, ObjectiveType.name_of h1, GrowPolicy.name_of h3, parseMetric_name h4,
    MissingNodeTreatment.name_of h5, viaF32, PyParams.initial]

/-! ### Refitting a loaded instance -/

theorem describe_withParams (J : PyJson) (o : PyBooster F D) (X : Frame D) (q : PyParams D) :
    ({ o with params := q } : PyBooster F D).describe J X = { o.describe J X with params := q } := by
  unfold PyBooster.describe PyBooster.setMeta
  dsimp only
  split <;> rfl

/-- Apart from the constraints and terminated features the attributes have no influence on `fit`. -/
theorem pyFit_params {J : PyJson} {env : Env R F D} {o o' : PyBooster F D} {X : Frame D} {y : List D}
    {w : Option (List D)} {evals : Option (List (PyEval D))} {r : Except PyErr Unit} (q : PyParams D)
    (h1 : q.monotoneConstraints.getD [] = o.params.monotoneConstraints.getD [])
    (h2 : q.terminateMissingFeatures.getD [] = o.params.terminateMissingFeatures.getD [])
    (h : o.fit J env X y w evals = .ok (o', r)) :
    ∃ q', ({ o with params := q } : PyBooster F D).fit J env X y w evals =
      .ok ({ o' with params := q' }, r) := by
  have hd := describe_withParams J o X q
  have hr : ∀ m t, ({ o with params := q } : PyBooster F D).ready J X m t = o.ready J X m t := by
    intro m t; unfold PyBooster.ready; rw [hd]
  have hv : ∀ fs, (({ o with params := q } : PyBooster F D).describe J X).validateFeatures fs =
      (o.describe J X).validateFeatures fs := by
    intro fs; rw [hd]; rfl
  cases pyFit_iff.1 h with
  | constraints hc =>
    refine ⟨q, ?_⟩
    rw [← hd]
    exact pyFit_iff.2 (.constraints (by dsimp only; rw [h1]; exact hc))
  | terminate hc ht =>
    refine ⟨q, ?_⟩
    have := FitCases.terminate (J := J) (env := env) (y := y) (w := w) (evals := evals)
      (o := { o with params := q }) (by dsimp only; rw [h1]; exact hc) (by dsimp only; rw [h2]; exact ht)
    rw [hd] at this
    exact pyFit_iff.2 this
  | evals hc ht he =>
    refine ⟨q, ?_⟩
    have := FitCases.evals (J := J) (env := env) (y := y) (w := w) (evals := evals)
      (o := { o with params := q }) (by dsimp only; rw [h1]; exact hc) (by dsimp only; rw [h2]; exact ht)
      (by simp only [hv]; exact he)
    rw [hr, hd] at this
    exact pyFit_iff.2 this
  | @invalid b e m t us hc ht he hf =>
    refine ⟨q, ?_⟩
    have := FitCases.invalid (J := J) (env := env) (y := y) (w := w) (evals := evals)
      (o := { o with params := q }) (by dsimp only; rw [h1]; exact hc) (by dsimp only; rw [h2]; exact ht)
      (by simp only [hv]; exact he) (by rw [hr]; exact hf)
    rw [hd] at this
    exact pyFit_iff.2 this
  | @done b m t us hc ht he hf =>
    refine ⟨{ q with baseScore := b.baseScore }, ?_⟩
    have := FitCases.done (J := J) (env := env) (y := y) (w := w) (evals := evals)
      (o := { o with params := q }) (by dsimp only; rw [h1]; exact hc) (by dsimp only; rw [h2]; exact ht)
      (by simp only [hv]; exact he) (by rw [hr]; exact hf)
    rw [hd] at this
    exact pyFit_iff.2 this

theorem pyFitConstraints_nil (c : Option (List String)) : pyFitConstraints c [] = .ok [] := by
  cases c <;> rfl

theorem pyFitTerminate_nil (c : Option (List String)) : pyFitTerminate c [] = .ok [] := by
  cases c <;> rfl

/-- Without constraints and terminated features in the parameters there are none in the booster. -/
theorem Made.plain {J : PyJson} {p : PyParams D} {o : PyBooster F D} (h : Made J p o)
    (h1 : p.monotoneConstraints.getD [] = []) (h2 : p.terminateMissingFeatures.getD [] = []) :
    o.booster.monotoneConstraints = some [] ∧ o.booster.terminateMissingFeatures = [] := by
  induction h with
  | new h =>
    obtain ⟨b, hb, rfl⟩ := pyInit_eq_ok.1 h
    obtain ⟨_, _, _, _, _, -, -, -, -, -, -, rfl, -⟩ := crateNew_eq_ok.1 hb
    exact ⟨rfl, rfl⟩
  | setPredictionIteration n _ ih => exact ih
  | insertMetadata key value _ _ ih => exact ih
  | @fit R o o' env X y w evals r hm hf ih =>
    obtain ⟨b0, hI⟩ := hm.inv
    have p1 : o.params.monotoneConstraints.getD [] = [] := by rw [hI.params]; exact h1
    have p2 : o.params.terminateMissingFeatures.getD [] = [] := by rw [hI.params]; exact h2
    have hd : (o.describe J X).booster.monotoneConstraints = some [] ∧
        (o.describe J X).booster.terminateMissingFeatures = [] := by rw [describe_booster]; exact ih
    have hm' : ∀ m, pyFitConstraints X.columns (o.params.monotoneConstraints.getD []) = .ok m → m = [] := by
      intro m h; rw [p1, pyFitConstraints_nil] at h; cases h; rfl
    have ht' : ∀ t, pyFitTerminate X.columns (o.params.terminateMissingFeatures.getD []) = .ok t →
        t = [] := by
      intro m h; rw [p2, pyFitTerminate_nil] at h; cases h; rfl
    cases pyFit_iff.1 hf with
    | constraints hc => exact hd
    | terminate hc ht =>
      obtain rfl := hm' _ hc
      exact ⟨rfl, hd.2⟩
    | evals hc ht he =>
      obtain rfl := hm' _ hc
      obtain rfl := ht' _ ht
      exact ⟨rfl, rfl⟩
    | @invalid b e m t us hc ht he hf =>
      obtain rfl := hm' _ hc
      obtain rfl := ht' _ ht
      have := (Booster.fit_keeps hf).1 e rfl
      subst this
      exact ⟨rfl, rfl⟩
    | @done b m t us hc ht he hf =>
      obtain rfl := hm' _ hc
      obtain rfl := ht' _ ht
      obtain ⟨-, -, k⟩ := Booster.fit_keeps hf
      dsimp only
      rw [k]
      exact ⟨rfl, rfl⟩

/-- **C65** (refit).  Without monotone constraints and terminated features, fitting the loaded instance gives
what fitting the saved one gives: the same booster, the same exception if any. -/
theorem C65_refit {J : PyJson} (hJ : J.Ok) (hr : ∀ x : F, down (up x : D) = x) {p : PyParams D}
    {o : PyBooster F D} (ho : Made J p o) (hs : o.booster.Storable)
    (h1 : p.monotoneConstraints.getD [] = []) (h2 : p.terminateMissingFeatures.getD [] = [])
    {env : Env R F D} {X : Frame D} {y : List D} {w : Option (List D)}
    {evals : Option (List (PyEval D))} {o' : PyBooster F D} {r : Except PyErr Unit}
    (h : o.fit J env X y w evals = .ok (o', r)) :
    ∃ l l', pyLoad J o.save = .ok l ∧ l.fit J env X y w evals = .ok (l', r) ∧
      l'.booster = o'.booster ∧ l'.nFeatures = o'.nFeatures ∧ l'.featureNames = o'.featureNames := by
  obtain ⟨b0, hI⟩ := ho.inv
  have p1 : o.params.monotoneConstraints.getD [] = [] := by rw [hI.params]; exact h1
  have p2 : o.params.terminateMissingFeatures.getD [] = [] := by rw [hI.params]; exact h2
  obtain ⟨b1, b2⟩ := ho.plain h1 h2
  have e1 : (o.reloaded F).monotoneConstraints.getD [] = [] := by
    simp only [PyBooster.reloaded, b1, Option.getD_some]
    cases o.featureNames with
    | none => rfl
    | some l =>
      cases l with
      | nil => rfl
      | cons a l => rfl
  have e2 : (o.reloaded F).terminateMissingFeatures.getD [] = [] := by
    simp only [PyBooster.reloaded, b2]; rfl
  obtain ⟨q', hq⟩ := pyFit_params (o.reloaded F) (by rw [e1, p1]) (by rw [e2, p2]) h
  exact ⟨_, _, C65_load hJ hr ho hs, hq, rfl, rfl, rfl⟩

/-! ### Examples -/

theorem Q_round (x : Q) : (down (up x : Q) : Q) = x := by
  cases x <;> rfl

/-- A check for `Storable`. -/
def storableB (b : Booster Q Q) : Bool :=
  decide (isFinite b.learningRate = true ∧ isFinite b.l1 = true ∧ isFinite b.l2 = true ∧
    isFinite b.gamma = true ∧ isFinite b.maxDeltaStep = true ∧ isFinite b.minLeafWeight = true ∧
    isFinite b.baseScore = true ∧ isFinite b.subsample = true ∧ isFinite b.topRate = true ∧
    isFinite b.otherRate = true ∧ isFinite b.colsampleBytree = true ∧ b.missing = FX.nan ∧
    (∀ t ∈ b.trees, ∀ n ∈ t.nodes, isFinite n.weightValue = true ∧ isFinite n.hessianSum = true ∧
      isFinite n.splitValue = true ∧ isFinite n.splitGain = true) ∧
    (∀ h ∈ b.evaluationHistory, ∀ x ∈ h.data, isFinite x = true) ∧
    (∀ m ∈ b.monotoneConstraints, (m.map Prod.fst).Nodup) ∧
    (b.metadata.map Prod.fst).Nodup ∧ b.terminateMissingFeatures.Nodup ∧ b.nbins < 65536)

theorem storableB_ok {b : Booster Q Q} (h : storableB b = true) : b.Storable := by
  obtain ⟨h1, h2, h3, h4, h5, h6, h7, h8, h9, h10, h11, h12, h13, h14, h15, h16, h17, h18⟩ :=
    of_decide_eq_true h
  exact ⟨h1, h2, h3, h4, h5, h6, h7, h8, h9, h10, h11, .inr h12,
    fun t ht n hn => by obtain ⟨a, b, c, d⟩ := h13 t ht n hn; exact ⟨a, b, c, d⟩,
    h14, h15, h16, h17, h18⟩

/-- An instance that meets the hypotheses of C65: fitted on a data frame, with two trees and a history. -/
theorem exFitted_storable : ∃ o : PyBooster Q Q, Made exJson exParams o ∧ o.booster.Storable ∧
    o.booster.trees.length = 2 ∧ o.featureNames = some ["a", "b"] ∧ o.nFeatures = some 2 := by
  have h : (match exFitted exFrame exY (some [exPyEval]) with
    | some o => decide (storableB o.booster = true ∧ o.booster.trees.length = 2 ∧
        o.featureNames = some ["a", "b"] ∧ o.nFeatures = some 2)
    | none => false) = true := by decide +kernel
  split at h
  · rename_i o ho
    obtain ⟨h1, h2⟩ := of_decide_eq_true h
    exact ⟨o, (exFitted_made ho).1, storableB_ok h1, h2⟩
  · cases h

example : ∃ o : PyBooster Q Q, o.booster.trees.length = 2 ∧
    pyLoad exJson o.save = .ok { o with params := o.reloaded Q } ∧ pySetState o.getState = .ok o := by
  obtain ⟨o, h1, h2, h3, -⟩ := exFitted_storable
  exact ⟨o, h3, C65_load exJson_ok Q_round h1 h2, C65_pickle o h2⟩

example : (exParams.monotoneConstraints.getD []) = [] ∧ (exParams.terminateMissingFeatures.getD []) = [] :=
  ⟨rfl, rfl⟩

end Verif
