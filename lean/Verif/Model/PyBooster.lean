import Verif.Model.Python
import Verif.Model.Serde

/-!
# The Python class `GradientBooster` (`py-forust/forust/__init__.py`, `py-forust/src/lib.rs`)

Python floats are `D` (f64); parameters that the crate stores as `f32` are rounded by the conversion of
PyO3 (`down`) and widened when they are read back (`up`).  Frames are a matrix with optional column names
(`none`: a numpy array).  A value that PyO3 cannot convert raises (modelled as `valueError`).
-/

namespace Verif

open scoped Verif

/-- Values stored in the metadata by the wrapper (`meta_data_attributes`, `__init__.py` 284-288). -/
inductive PyVal where
  | names (l : List String)
  | nat (n : Nat)
  | str (s : String)
  deriving DecidableEq, Repr

/-- `json.dumps` and `json.loads`, used by `ObjectSerializer` (`serialize.py` 47-52). -/
structure PyJson where
  /-- `json.dumps` -/
  dumps : PyVal → String
  /-- `json.loads` -/
  loads : String → Option PyVal

/-- Loading what was dumped gives it back. -/
def PyJson.Ok (J : PyJson) : Prop := ∀ v, J.loads (J.dumps v) = some v

/-- The keyword arguments of `__init__` (`__init__.py` 290-325), and the attributes of the same names. -/
structure PyParams (D : Type) where
  /-- `objective_type` -/
  objectiveType : String
  /-- `iterations` -/
  iterations : Nat
  /-- `learning_rate` -/
  learningRate : D
  /-- `max_depth` -/
  maxDepth : Nat
  /-- `max_leaves` -/
  maxLeaves : Nat
  /-- `l1` -/
  l1 : D
  /-- `l2` -/
  l2 : D
  /-- `gamma` -/
  gamma : D
  /-- `max_delta_step` -/
  maxDeltaStep : D
  /-- `min_leaf_weight` -/
  minLeafWeight : D
  /-- `base_score` -/
  baseScore : D
  /-- `nbins` -/
  nbins : Nat
  /-- `parallel` -/
  parallel : Bool
  /-- `allow_missing_splits` -/
  allowMissingSplits : Bool
  /-- `monotone_constraints` -/
  monotoneConstraints : Option (PyDict PyKey Int)
  /-- `subsample` -/
  subsample : D
  /-- `top_rate` -/
  topRate : D
  /-- `other_rate` -/
  otherRate : D
  /-- `colsample_bytree` -/
  colsampleBytree : D
  /-- `seed` -/
  seed : Nat
  /-- `missing` -/
  missing : D
  /-- `create_missing_branch` -/
  createMissingBranch : Bool
  /-- `sample_method` -/
  sampleMethod : Option String
  /-- `grow_policy` -/
  growPolicy : String
  /-- `evaluation_metric` -/
  evaluationMetric : Option String
  /-- `early_stopping_rounds` -/
  earlyStoppingRounds : Option Nat
  /-- `initialize_base_score` -/
  initializeBaseScore : Bool
  /-- `terminate_missing_features` -/
  terminateMissingFeatures : Option (List PyKey)
  /-- `missing_node_treatment` -/
  missingNodeTreatment : String
  /-- `log_iterations` -/
  logIterations : Nat
  /-- `feature_importance_method` -/
  featureImportanceMethod : String
  /-- `force_children_to_bound_parent` -/
  forceChildrenToBoundParent : Bool
  deriving DecidableEq, Repr

/-- An instance of the Python class: the crate's booster, the attributes named like the keyword arguments,
`n_features_` and `feature_names_in_`. -/
structure PyBooster (F D : Type) where
  /-- `booster` -/
  booster : Booster F D
  /-- the attributes -/
  params : PyParams D
  /-- `n_features_` -/
  nFeatures : Option Nat
  /-- `feature_names_in_` -/
  featureNames : Option (List String)
  deriving DecidableEq, Repr

/-- A frame: column names, unless it is a numpy array, and the values. -/
structure Frame (D : Type) where
  /-- `X.columns` -/
  columns : Option (List String)
  /-- the values, column major (`X_.ravel(order="F")`) -/
  data : Matrix D

/-- The names given by `_convert_input_frame` (`__init__.py` 248-265). -/
def Frame.features {D : Type} (X : Frame D) : List String := X.columns.getD []

section
variable {F D : Type} [Fl F] [Fl D] [FlCast F D]

omit [Fl F] [Fl D] [FlCast F D] in
/-- `serde_plain::from_str`, an unknown name is a `ValueError` (py-forust/src/lib.rs 38-43). -/
def pyParse {α : Type} (ofName : String → Option α) (s : String) : Except PyErr α :=
  match ofName s with
  | some a => .ok a
  | none => .error .valueError

omit [Fl F] [Fl D] [FlCast F D] in
/-- `SAMPLE_METHODS.get(sample_method, "Random")` (`__init__.py` 41-46, 444-448). -/
def sampleMethodOf : Option String → String
  | none => "None"
  | some s => if s = "goss" ∨ s = "Goss" then "Goss" else "Random"

/-- The sample method handed to the crate (`__init__.py` 444-453). -/
def PyParams.sampleMethod' (p : PyParams D) : String :=
  if (p.subsample <ᶠ 1) = true ∧ sampleMethodOf p.sampleMethod = "None" then "Random"
  else sampleMethodOf p.sampleMethod

omit [Fl F] [Fl D] [FlCast F D] in
/-- The optional metric (py-forust/src/lib.rs 128-131). -/
def parseMetric : Option String → Except PyErr (Option Metric)
  | some s => (pyParse Metric.ofName s).map some
  | none => .ok none

/-- The constructor of the extension class (py-forust/src/lib.rs 87-169) as called by `__init__`
(`__init__.py` 465-497), without constraints and without terminated features. -/
def crateNew (p : PyParams D) : Except PyErr (Booster F D) := do
  let objective ← pyParse ObjectiveType.ofName p.objectiveType
  let sample ← pyParse SampleMethod.ofName p.sampleMethod'
  let policy ← pyParse GrowPolicy.ofName p.growPolicy
  let metric ← parseMetric p.evaluationMetric
  let treatment ← pyParse MissingNodeTreatment.ofName p.missingNodeTreatment
  if p.nbins < 2 ^ 16 then
    match Booster.new
      { objectiveType := objective, iterations := p.iterations, learningRate := down p.learningRate
        maxDepth := p.maxDepth, maxLeaves := p.maxLeaves, l1 := down p.l1, l2 := down p.l2
        gamma := down p.gamma, maxDeltaStep := down p.maxDeltaStep
        minLeafWeight := down p.minLeafWeight, baseScore := p.baseScore, nbins := p.nbins
        parallel := p.parallel, allowMissingSplits := p.allowMissingSplits
        monotoneConstraints := some [], subsample := down p.subsample, topRate := p.topRate
        otherRate := p.otherRate, colsampleBytree := p.colsampleBytree, seed := p.seed
        missing := p.missing, createMissingBranch := p.createMissingBranch, sampleMethod := sample
        growPolicy := policy, evaluationMetric := metric
        earlyStoppingRounds := p.earlyStoppingRounds, initializeBaseScore := p.initializeBaseScore
        terminateMissingFeatures := [], evaluationHistory := none, bestIteration := none
        predictionIteration := none, missingNodeTreatment := treatment
        logIterations := p.logIterations, forceChildrenToBoundParent := p.forceChildrenToBoundParent
        trees := [], metadata := [] } with
    | .ok b => .ok b
    | .error _ => .error .valueError
  else .error .valueError

omit [Fl F] [Fl D] [FlCast F D] in
/-- `_set_metadata_attributes` (`__init__.py` 1033-1035). -/
def PyBooster.setMeta (J : PyJson) (o : PyBooster F D) (key : String) (v : PyVal) : PyBooster F D :=
  { o with booster := o.booster.insertMetadata key (J.dumps v) }

/-- `__init__` (`__init__.py` 444-545) on an instance whose other attributes are given. -/
def pyInit (J : PyJson) (nFeatures : Option Nat) (featureNames : Option (List String)) (p : PyParams D) :
    Except PyErr (PyBooster F D) := do
  let b ← crateNew p
  .ok (PyBooster.setMeta J
    { booster := b
      params := { p with monotoneConstraints := some (p.monotoneConstraints.getD [])
                         terminateMissingFeatures := some (p.terminateMissingFeatures.getD []) }
      nFeatures := nFeatures, featureNames := featureNames }
    "feature_importance_method" (.str p.featureImportanceMethod))

/-- `GradientBooster(**p)`. -/
def pyNew (J : PyJson) (p : PyParams D) : Except PyErr (PyBooster F D) := pyInit J none none p

omit [Fl F] [Fl D] [FlCast F D] in
/-- `get_params` (`__init__.py` 1128-1138). -/
def PyBooster.getParams (o : PyBooster F D) : PyParams D := o.params

/-- `set_params` (`__init__.py` 1140-1149): `update` overwrites the attributes given. -/
def PyBooster.setParams (J : PyJson) (o : PyBooster F D) (update : PyParams D → PyParams D) :
    Except PyErr (PyBooster F D) :=
  pyInit J o.nFeatures o.featureNames (update o.getParams)

omit [Fl F] [Fl D] [FlCast F D] in
/-- `_validate_features` (`__init__.py` 643-648). -/
def PyBooster.validateFeatures (o : PyBooster F D) (features : List String) : Except PyErr Unit :=
  match o.featureNames with
  | some names => if features ≠ [] ∧ features ≠ names then .error .valueError else .ok ()
  | none => .ok ()

/-- One entry of `evaluation_data`: a frame, the targets and optional weights. -/
structure PyEval (D : Type) where
  /-- features -/
  frame : Frame D
  /-- targets -/
  y : List D
  /-- weights -/
  w : Option (List D)

/-- The evaluation set handed to the crate (`__init__.py` 599-623); without weights they are ones, as many
as there are rows. -/
def PyEval.toSet (e : PyEval D) : EvalSet D :=
  { data := e.frame.data, y := e.y, w := e.w.getD (List.replicate e.frame.data.rows 1) }

/-- Up to the monotone constraints (`__init__.py` 578-584): the attributes that describe the frame. -/
def PyBooster.describe (J : PyJson) (o : PyBooster F D) (X : Frame D) : PyBooster F D :=
  let o := { o with nFeatures := some X.data.cols }
  let o := o.setMeta J "n_features_" (.nat X.data.cols)
  if X.features ≠ [] then
    ({ o with featureNames := some X.features } : PyBooster F D).setMeta J "feature_names_in_" (.names X.features)
  else o

/-- `fit` (`__init__.py` 547-641, with py-forust/src/lib.rs 210-243): the instance after the call, and the
exception, if any. -/
def PyBooster.fit {R : Type} (J : PyJson) (env : Env R F D) (o : PyBooster F D) (X : Frame D) (y : List D)
    (w : Option (List D)) (evals : Option (List (PyEval D))) :
    Res (PyBooster F D × Except PyErr Unit) :=
  let o := o.describe J X
  match pyFitConstraints X.columns (o.params.monotoneConstraints.getD []) with
  | .error e => .ok (o, .error e)
  | .ok m =>
    let o := { o with booster := { o.booster with monotoneConstraints := some m } }
    match pyFitTerminate X.columns (o.params.terminateMissingFeatures.getD []) with
    | .error e => .ok (o, .error e)
    | .ok t =>
      let o := { o with booster := { o.booster with terminateMissingFeatures := t } }
      match pyMap (fun e : PyEval D => o.validateFeatures e.frame.features) (evals.getD []) with
      | .error e => .ok (o, .error e)
      | .ok _ => do
        let r ← o.booster.fit env X.data y (w.getD (List.replicate y.length 1))
          (evals.map fun es => es.map PyEval.toSet)
        match r with
        | (b, .ok ()) => .ok ({ o with booster := b, params := { o.params with baseScore := b.baseScore } }, .ok ())
        | (b, .error _) => .ok ({ o with booster := b }, .error .valueError)

omit [Fl F] in
/-- `predict` (`__init__.py` 650-671), sequential. -/
def PyBooster.predict (o : PyBooster F D) (X : Frame D) : Res (Except PyErr (List D)) :=
  match o.validateFeatures X.features with
  | .error e => .ok (.error e)
  | .ok () => do
    let p ← o.booster.predict X.data
    .ok (.ok p)

omit [Fl F] [Fl D] [FlCast F D] in
/-- `np.reshape(l, (rows, cols))`, as a list of rows; the sizes must agree. -/
def reshapeC {α : Type} (l : List α) (rows cols : Nat) : Except PyErr (List (List α)) :=
  if l.length = rows * cols then
    .ok ((List.range rows).map fun r => (l.drop (r * cols)).take cols)
  else .error .valueError

omit [Fl F] [Fl D] [FlCast F D] in
/-- `np.reshape(l, (rows, cols), order="F")`, as a list of rows; the sizes must agree. -/
def reshapeF {α : Type} (l : List α) (rows cols : Nat) : Except PyErr (List (List α)) :=
  if l.length = rows * cols then
    .ok ((List.range rows).map fun r => (List.range cols).filterMap fun c => l[c * rows + r]?)
  else .error .valueError

omit [Fl F] [FlCast F D] in
/-- `predict_leaf_indices` (`__init__.py` 728-749). -/
def PyBooster.predictLeafIndices (o : PyBooster F D) (X : Frame D) : Res (Except PyErr (List (List Nat))) :=
  match o.validateFeatures X.features with
  | .error e => .ok (.error e)
  | .ok () => do
    let l ← o.booster.predictLeafIndices X.data
    let n := match o.booster.predictionIteration with
      | none => o.booster.trees.length
      | some n => n
    .ok (reshapeF l X.data.rows n)

omit [Fl F] [Fl D] [FlCast F D] in
/-- `set_prediction_iteration` (`__init__.py` 751-760, py-forust/src/lib.rs 184-187): the number of trees to
use. -/
def PyBooster.setPredictionIteration (o : PyBooster F D) (n : Nat) : PyBooster F D :=
  { o with booster := { o.booster with predictionIteration := some n } }

omit [Fl F] [Fl D] [FlCast F D] in
/-- `insert_metadata` (`__init__.py` 1012-1019). -/
def PyBooster.insertMetadata (o : PyBooster F D) (key value : String) : PyBooster F D :=
  { o with booster := o.booster.insertMetadata key value }

omit [Fl F] [Fl D] [FlCast F D] in
/-- `CONTRIBUTION_METHODS.get(method, method)` (`__init__.py` 22-39, 719). -/
def contributionName (s : String) : String :=
  if s = "weight" then "Weight"
  else if s = "average" then "Average"
  else if s = "branch-difference" ∨ s = "branchdifference" then "BranchDifference"
  else if s = "midpoint-difference" ∨ s = "midpointdifference" then "MidpointDifference"
  else if s = "mode-difference" ∨ s = "modedifference" then "ModeDifference"
  else if s = "probability-change" ∨ s = "probabilitychange" then "ProbabilityChange"
  else s

omit [Fl F] [Fl D] [FlCast F D] in
/-- The names of the variants of `ContributionsMethod` (src/gradientbooster.rs 31-48). -/
def ContributionsMethod.ofName : String → Option ContributionsMethod
  | "Weight" => some .weight
  | "Average" => some .average
  | "BranchDifference" => some .branchDifference
  | "MidpointDifference" => some .midpointDifference
  | "ModeDifference" => some .modeDifference
  | "ProbabilityChange" => some .probabilityChange
  | "Shapley" => some .shapley
  | _ => none

/-- `predict_contributions` (`__init__.py` 685-726). -/
def PyBooster.predictContributions (o : PyBooster F D) (X : Frame D) (method : String) :
    Res (Except PyErr (List (List D))) :=
  match o.validateFeatures X.features with
  | .error e => .ok (.error e)
  | .ok () =>
    match ContributionsMethod.ofName (contributionName method) with
    | none => .ok (.error .valueError)
    | some m => do
      let l ← o.booster.predictContributions X.data m
      .ok (reshapeC l X.data.rows (X.data.cols + 1))

omit [Fl F] [Fl D] [FlCast F D] in
/-- `get_evaluation_history` (`__init__.py` 1041-1066, py-forust/src/lib.rs 456-465). -/
def PyBooster.evaluationHistory (o : PyBooster F D) : Except PyErr (Option (List (List D))) :=
  match o.booster.evaluationHistory with
  | none => .ok none
  | some h => (reshapeC h.data h.rows h.cols).map some

omit [Fl F] [Fl D] [FlCast F D] in
/-- `{i: f for i, f in enumerate(self.feature_names_in_)}[i]` (`__init__.py` 916-918). -/
def nameOf (names : List String) (i : Nat) : Except PyErr String :=
  match names[i]? with
  | some s => .ok s
  | none => .error .keyError

omit [Fl F] [Fl D] [FlCast F D] in
/-- The names of the variants of `ImportanceMethod` (src/gradientbooster.rs 51-62). -/
def ImportanceMethod.ofName : String → Option ImportanceMethod
  | "Weight" => some .weight
  | "Gain" => some .gain
  | "TotalGain" => some .totalGain
  | "Cover" => some .cover
  | "TotalCover" => some .totalCover
  | _ => none

omit [FlCast F D] in
/-- `calculate_feature_importance` (`__init__.py` 881-920): keys are names if there are names, else
numbers. -/
def PyBooster.featureImportance (S : Sorter) (o : PyBooster F D) (method : String) (normalize : Bool) :
    Res (Except PyErr (PyDict PyKey F)) :=
  match ImportanceMethod.ofName method with
  | none => .ok (.error .valueError)
  | some m => do
    let imp ← o.booster.featureImportance S m normalize
    match o.featureNames with
    | none => .ok (.ok (imp.map fun p => (PyKey.int p.1, p.2)))
    | some names => .ok ((pyMap (fun (p : Nat × F) => do
        let s ← nameOf names p.1
        .ok (PyKey.str s, p.2)) imp).map pyDict)

omit [FlCast F D] in
/-- `feature_importances_` (`__init__.py` 673-683); an instance that was never fitted has no `n_features_`
(an `AttributeError`, modelled as `valueError`). -/
def PyBooster.featureImportances (S : Sorter) (o : PyBooster F D) : Res (Except PyErr (List F)) := do
  let r ← o.featureImportance S o.params.featureImportanceMethod true
  match r with
  | .error e => .ok (.error e)
  | .ok vals =>
    match o.featureNames, o.nFeatures with
    | some names, _ => .ok (.ok (names.map fun f => (vals.lookup (PyKey.str f)).getD 0))
    | none, some n => .ok (.ok ((List.range n).map fun i => (vals.lookup (PyKey.int i)).getD 0))
    | none, none => .ok (.error .valueError)

omit [Fl F] [Fl D] [FlCast F D] in
/-- The sample method of `get_params` (py-forust/src/lib.rs 363-366). -/
def SampleMethod.param : SampleMethod → Option String
  | .none => Option.none
  | .random => some "Random"
  | .goss => some "Goss"

/-- `get_params` of the extension class (py-forust/src/lib.rs 359-453), with the default of the keyword
argument that it does not contain (`feature_importance_method`). -/
def crateParams (b : Booster F D) : PyParams D :=
  { objectiveType := b.objectiveType.name, iterations := b.iterations, learningRate := up b.learningRate
    maxDepth := b.maxDepth, maxLeaves := b.maxLeaves, l1 := up b.l1, l2 := up b.l2, gamma := up b.gamma
    maxDeltaStep := up b.maxDeltaStep, minLeafWeight := up b.minLeafWeight, baseScore := b.baseScore
    nbins := b.nbins, parallel := b.parallel, allowMissingSplits := b.allowMissingSplits
    monotoneConstraints := some (constraintParams b.monotoneConstraints), subsample := up b.subsample
    topRate := b.topRate, otherRate := b.otherRate, colsampleBytree := b.colsampleBytree, seed := b.seed
    missing := b.missing, createMissingBranch := b.createMissingBranch
    sampleMethod := b.sampleMethod.param
    growPolicy := b.growPolicy.name, evaluationMetric := b.evaluationMetric.map Metric.name
    earlyStoppingRounds := b.earlyStoppingRounds, initializeBaseScore := b.initializeBaseScore
    terminateMissingFeatures := some (b.terminateMissingFeatures.map PyKey.int)
    missingNodeTreatment := b.missingNodeTreatment.name, logIterations := b.logIterations
    featureImportanceMethod := "Gain", forceChildrenToBoundParent := b.forceChildrenToBoundParent }

omit [Fl F] [Fl D] [FlCast F D] in
/-- `_get_metadata_attributes` (`__init__.py` 1037-1039); `none`: no such key (a `KeyError`).
Simplification: text that does not parse raises in Python; here it counts as no such key. -/
def PyBooster.getMeta (J : PyJson) (o : PyBooster F D) (key : String) : Option PyVal :=
  (o.booster.getMetadata key).bind J.loads

omit [FlCast F D] in
/-- `load_booster` of the extension class (py-forust/src/lib.rs 342-357). -/
def crateLoad (j : Json F D) : Except PyErr (Booster F D) :=
  match Booster.fromJson j with
  | .ok b => .ok b
  | .error _ => .error .valueError

/-- `load_booster` (`__init__.py` 950-982) given the parsed file. -/
def pyLoad (J : PyJson) (j : Json F D) : Except PyErr (PyBooster F D) := do
  let b ← crateLoad j
  let o : PyBooster F D ← pyNew J (crateParams b)
  let o := { o with booster := b }
  let o := match o.getMeta J "feature_names_in_" with
    | some (.names l) => { o with
        featureNames := some l
        params := { o.params with
          monotoneConstraints := some (pyLoadConstraints (some l) b.monotoneConstraints) } }
    | _ => o
  let o := match o.getMeta J "n_features_" with
    | some (.nat n) => { o with nFeatures := some n }
    | _ => o
  .ok (match o.getMeta J "feature_importance_method" with
    | some (.str s) => { o with params := { o.params with featureImportanceMethod := s } }
    | _ => o)

omit [FlCast F D] in
/-- `save_booster` (`__init__.py` 984-990) up to the text. -/
def PyBooster.save (o : PyBooster F D) : Json F D := o.booster.jsonDump

/-- The pickled state (`__init__.py` 1104-1110): the attributes and the dumped booster. -/
structure PyState (F D : Type) where
  /-- `__booster_json_file__` -/
  json : Json F D
  /-- the attributes -/
  params : PyParams D
  /-- `n_features_` -/
  nFeatures : Option Nat
  /-- `feature_names_in_` -/
  featureNames : Option (List String)

omit [FlCast F D] in
/-- `__getstate__` (`__init__.py` 1104-1110). -/
def PyBooster.getState (o : PyBooster F D) : PyState F D :=
  { json := o.booster.jsonDump, params := o.params, nFeatures := o.nFeatures, featureNames := o.featureNames }

omit [FlCast F D] in
/-- `__setstate__` (`__init__.py` 1112-1124); no attribute is missing from the state. -/
def pySetState (s : PyState F D) : Except PyErr (PyBooster F D) :=
  match Booster.fromJson s.json with
  | .ok b => .ok { booster := b, params := s.params, nFeatures := s.nFeatures, featureNames := s.featureNames }
  | .error _ => .error .valueError

/-- A row of `trees_to_dataframe` (`__init__.py` 1218-1237); `Split`, `Yes`, `No` and `Missing` are `None`
for a leaf. -/
structure NodeRow (F D : Type) where
  /-- `Tree` -/
  tree : Nat
  /-- `Node` -/
  node : Nat
  /-- `ID` -/
  id : String
  /-- `Feature` -/
  feature : String
  /-- `Split` -/
  split : Option D
  /-- `Yes` -/
  yes : Option String
  /-- `No` -/
  no : Option String
  /-- `Missing` -/
  missing : Option String
  /-- `Gain` -/
  gain : F
  /-- `Cover` -/
  cover : F
  deriving DecidableEq, Repr

omit [Fl F] [Fl D] [FlCast F D] in
/-- The feature shown for a node (`get_node_lists`, `__init__.py` 1176-1197, and `str(n.split_feature)`,
1230): the name if there are names, else the number, which has to be below `n_features_`. -/
def PyBooster.featureText (o : PyBooster F D) (n : Node F D) : Except PyErr String :=
  if n.isLeaf then .ok "Leaf"
  else match o.featureNames, o.nFeatures with
    | some names, _ => nameOf names n.splitFeature
    | none, some k => if n.splitFeature < k then .ok (toString n.splitFeature) else .error .keyError
    | none, none => .error .valueError

omit [Fl F] [Fl D] [FlCast F D] in
/-- `node_to_row` (`__init__.py` 1218-1237). -/
def PyBooster.nodeRow (o : PyBooster F D) (tree : Nat) (n : Node F D) : Except PyErr (NodeRow F D) := do
  let f ← o.featureText n
  let ident := fun (i : Nat) => toString tree ++ "-" ++ toString i
  .ok { tree := tree, node := n.num, id := ident n.num, feature := f
        split := if n.isLeaf then none else some n.splitValue
        yes := if n.isLeaf then none else some (ident n.leftChild)
        no := if n.isLeaf then none else some (ident n.rightChild)
        missing := if n.isLeaf then none else some (ident n.missingNode)
        gain := if n.isLeaf then n.weightValue else n.splitGain, cover := n.hessianSum }

omit [Fl F] [Fl D] [FlCast F D] in
/-- `trees_to_dataframe` (`__init__.py` 1200-1245). -/
def PyBooster.treesToDataframe (o : PyBooster F D) : Except PyErr (List (NodeRow F D)) := do
  let ls ← pyMap (fun (p : Tree F D × Nat) => pyMap (o.nodeRow p.2) p.1.nodes) o.booster.trees.zipIdx
  .ok ls.flatten

end

end Verif
