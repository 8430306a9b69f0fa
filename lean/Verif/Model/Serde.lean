import Verif.Model.Booster
import Std.Data.String.ToNat

/-!
# JSON (`#[derive(Serialize, Deserialize)]`, serde_json)

Value level: a JSON document is a tree.  Numbers carry the Rust value; it is assumed that serde_json
prints finite floats so that they read back as the same float.  A non-finite float is written as
`null` and `null` is not accepted for a float field.  An object may list its members in any order; a
repeated known member is an error, an unknown member is ignored (serde's derive).  Simplification: that
serde also accepts a struct written as an array of its fields is not modelled.
-/

namespace Verif

open scoped Verif

/-- JSON documents. -/
inductive Json (F D : Type) where
  | null
  | bool (b : Bool)
  | nat (n : Nat)
  | f32 (x : F)
  | f64 (x : D)
  | str (s : String)
  | arr (l : List (Json F D))
  | obj (l : List (String × Json F D))

section
variable {F D : Type} [Fl F] [Fl D]

/-- `is_finite`. -/
def isFinite {G : Type} [Fl G] (x : G) : Bool := !isNaN x && x <ᶠ inf && ninf <ᶠ x

namespace Json

omit [Fl D] in
/-- `serialize_f32` of serde_json. -/
def ofF32 (x : F) : Json F D := if isFinite x then f32 x else null

omit [Fl F] in
/-- `serialize_f64` of serde_json. -/
def ofF64 (x : D) : Json F D := if isFinite x then f64 x else null

omit [Fl F] [Fl D] in
/-- `serialize_none` / `serialize_some`. -/
def ofOption {α : Type} (f : α → Json F D) : Option α → Json F D
  | none => null
  | some a => f a

omit [Fl F] [Fl D] in
/-- Read an `f32`. -/
def toF32 : Json F D → Option F
  | f32 x => some x
  | _ => none

omit [Fl F] [Fl D] in
/-- Read an `f64`. -/
def toF64 : Json F D → Option D
  | f64 x => some x
  | _ => none

omit [Fl F] [Fl D] in
/-- Read an unsigned integer. -/
def toNat : Json F D → Option Nat
  | nat n => some n
  | _ => none

omit [Fl F] [Fl D] in
/-- Read a `u16`. -/
def toU16 : Json F D → Option Nat
  | nat n => if n < 65536 then some n else none
  | _ => none

omit [Fl F] [Fl D] in
/-- Read a Boolean. -/
def toBool : Json F D → Option Bool
  | bool b => some b
  | _ => none

omit [Fl F] [Fl D] in
/-- Read a string. -/
def toStr : Json F D → Option String
  | str s => some s
  | _ => none

omit [Fl F] [Fl D] in
/-- Read an `Option`. -/
def toOption {α : Type} (f : Json F D → Option α) : Json F D → Option (Option α)
  | null => some none
  | j => (f j).map some

omit [Fl F] [Fl D] in
/-- Read a `Vec`. -/
def toList {α : Type} (f : Json F D → Option α) : Json F D → Option (List α)
  | arr l => l.mapM f
  | _ => none

omit [Fl F] [Fl D] in
/-- Members of an object whose known members occur at most once. -/
def members (known : List String) : Json F D → Option (List (String × Json F D))
  | obj l => if ((l.map Prod.fst).filter (· ∈ known)).Nodup then some l else none
  | _ => none

omit [Fl F] [Fl D] in
/-- A member without default. -/
def field {α : Type} (l : List (String × Json F D)) (name : String) (f : Json F D → Option α) :
    Option α :=
  match l.lookup name with
  | some j => f j
  | none => none

omit [Fl F] [Fl D] in
/-- A member with a default. -/
def fieldD {α : Type} (l : List (String × Json F D)) (name : String) (dflt : α)
    (f : Json F D → Option α) : Option α :=
  match l.lookup name with
  | some j => f j
  | none => some dflt

end Json

open Json

/-- `ObjectiveType` as a unit variant (src/objective.rs 6-10). -/
def ObjectiveType.name : ObjectiveType → String
  | .logLoss => "LogLoss"
  | .squaredLoss => "SquaredLoss"

/-- Reading it back. -/
def ObjectiveType.ofName : String → Option ObjectiveType
  | "LogLoss" => some .logLoss
  | "SquaredLoss" => some .squaredLoss
  | _ => none

/-- `Metric` as a unit variant (src/metric.rs 34-40). -/
def Metric.name : Metric → String
  | .auc => "AUC"
  | .logLoss => "LogLoss"
  | .rootMeanSquaredLogError => "RootMeanSquaredLogError"
  | .rootMeanSquaredError => "RootMeanSquaredError"

/-- Reading it back. -/
def Metric.ofName : String → Option Metric
  | "AUC" => some .auc
  | "LogLoss" => some .logLoss
  | "RootMeanSquaredLogError" => some .rootMeanSquaredLogError
  | "RootMeanSquaredError" => some .rootMeanSquaredError
  | _ => none

/-- `SampleMethod` as a unit variant (src/sampler.rs 5-10). -/
def SampleMethod.name : SampleMethod → String
  | .none => "None"
  | .random => "Random"
  | .goss => "Goss"

/-- Reading it back. -/
def SampleMethod.ofName : String → Option SampleMethod
  | "None" => some .none
  | "Random" => some .random
  | "Goss" => some .goss
  | _ => Option.none

/-- `GrowPolicy` as a unit variant (src/gradientbooster.rs 31-35). -/
def GrowPolicy.name : GrowPolicy → String
  | .depthWise => "DepthWise"
  | .lossGuide => "LossGuide"

/-- Reading it back. -/
def GrowPolicy.ofName : String → Option GrowPolicy
  | "DepthWise" => some .depthWise
  | "LossGuide" => some .lossGuide
  | _ => none

/-- `MissingNodeTreatment` as a unit variant (src/gradientbooster.rs 70-80). -/
def MissingNodeTreatment.name : MissingNodeTreatment → String
  | .none => "None"
  | .assignToParent => "AssignToParent"
  | .averageLeafWeight => "AverageLeafWeight"
  | .averageNodeWeight => "AverageNodeWeight"

/-- Reading it back. -/
def MissingNodeTreatment.ofName : String → Option MissingNodeTreatment
  | "None" => some .none
  | "AssignToParent" => some .assignToParent
  | "AverageLeafWeight" => some .averageLeafWeight
  | "AverageNodeWeight" => some .averageNodeWeight
  | _ => Option.none

/-- `Constraint` as a unit variant (src/constraints.rs 4-9). -/
def Constraint.name : Constraint → String
  | .positive => "Positive"
  | .negative => "Negative"
  | .unconstrained => "Unconstrained"

/-- Reading it back. -/
def Constraint.ofName : String → Option Constraint
  | "Positive" => some .positive
  | "Negative" => some .negative
  | "Unconstrained" => some .unconstrained
  | _ => none

omit [Fl F] [Fl D] in
/-- Read a unit variant. -/
def toVariant {α : Type} (ofName : String → Option α) (j : Json F D) : Option α :=
  j.toStr.bind ofName

omit [Fl F] [Fl D] in
/-- `HashMap<usize, Constraint>`: integer keys are written as strings; the iteration order is
arbitrary. -/
def encConstraints (m : ConstraintMap) : Json F D :=
  .obj (m.map fun p => (Nat.repr p.1, .str p.2.name))

omit [Fl F] [Fl D] in
/-- Reading it back; later duplicates replace earlier ones. -/
def decConstraints : Json F D → Option ConstraintMap
  | .obj l => do
    let kv ← l.mapM fun p => do
      let k ← p.1.toNat?
      let v ← toVariant Constraint.ofName p.2
      some (k, v)
    some (kv.foldl (fun m p => mapInsert m p.1 p.2) [])
  | _ => none

omit [Fl F] [Fl D] in
/-- `HashMap<String, String>`. -/
def encMetadata (m : List (String × String)) : Json F D := .obj (m.map fun p => (p.1, .str p.2))

omit [Fl F] [Fl D] in
/-- Reading it back. -/
def decMetadata : Json F D → Option (List (String × String))
  | .obj l => do
    let kv ← l.mapM fun p => do
      let v ← p.2.toStr
      some (p.1, v)
    some (kv.foldl (fun m p => mapInsert m p.1 p.2) [])
  | _ => none

/-- Insert into a set. -/
def setInsert (s : List Nat) (n : Nat) : List Nat := if n ∈ s then s else s ++ [n]

omit [Fl F] [Fl D] in
/-- `HashSet<usize>`. -/
def encSet (s : List Nat) : Json F D := .arr (s.map .nat)

omit [Fl F] [Fl D] in
/-- Reading it back. -/
def decSet (j : Json F D) : Option (List Nat) :=
  (j.toList Json.toNat).map fun l => l.foldl setInsert []

/-- `Node` (src/node.rs 32-45). -/
def encNode (n : Node F D) : Json F D :=
  .obj [("num", .nat n.num), ("weight_value", ofF32 n.weightValue),
    ("hessian_sum", ofF32 n.hessianSum), ("depth", .nat n.depth),
    ("split_value", ofF64 n.splitValue), ("split_feature", .nat n.splitFeature),
    ("split_gain", ofF32 n.splitGain), ("missing_node", .nat n.missingNode),
    ("left_child", .nat n.leftChild), ("right_child", .nat n.rightChild),
    ("is_leaf", .bool n.isLeaf)]

omit [Fl F] [Fl D] in
/-- Reading it back. -/
def decNode (j : Json F D) : Option (Node F D) := do
  let l ← j.members ["num", "weight_value", "hessian_sum", "depth", "split_value",
    "split_feature", "split_gain", "missing_node", "left_child", "right_child", "is_leaf"]
  let num ← field l "num" toNat
  let weightValue ← field l "weight_value" toF32
  let hessianSum ← field l "hessian_sum" toF32
  let depth ← field l "depth" toNat
  let splitValue ← field l "split_value" toF64
  let splitFeature ← field l "split_feature" toNat
  let splitGain ← field l "split_gain" toF32
  let missingNode ← field l "missing_node" toNat
  let leftChild ← field l "left_child" toNat
  let rightChild ← field l "right_child" toNat
  let isLeaf ← field l "is_leaf" toBool
  some { num, weightValue, hessianSum, depth, splitValue, splitFeature, splitGain, missingNode
         leftChild, rightChild, isLeaf }

/-- `Tree` (src/tree.rs 16-19). -/
def encTree (t : Tree F D) : Json F D := .obj [("nodes", .arr (t.nodes.map encNode))]

omit [Fl F] [Fl D] in
/-- Reading it back. -/
def decTree (j : Json F D) : Option (Tree F D) := do
  let l ← j.members ["nodes"]
  let nodes ← field l "nodes" (toList decNode)
  some { nodes }

omit [Fl F] in
/-- `RowMajorMatrix<f64>` (src/data.rs 170-177). -/
def encMatrix (m : RowMajorMatrix D) : Json F D :=
  .obj [("data", .arr (m.data.map ofF64)), ("rows", .nat m.rows), ("cols", .nat m.cols),
    ("stride1", .nat m.stride1), ("stride2", .nat m.stride2)]

omit [Fl F] [Fl D] in
/-- Reading it back. -/
def decMatrix (j : Json F D) : Option (RowMajorMatrix D) := do
  let l ← j.members ["data", "rows", "cols", "stride1", "stride2"]
  let data ← field l "data" (toList toF64)
  let rows ← field l "rows" toNat
  let cols ← field l "cols" toNat
  let stride1 ← field l "stride1" toNat
  let stride2 ← field l "stride2" toNat
  some { data, rows, cols, stride1, stride2 }

/-- The members written for a booster (src/gradientbooster.rs 83-192). -/
def boosterMembers (b : Booster F D) : List (String × Json F D) :=
  [("objective_type", .str b.objectiveType.name),
   ("iterations", .nat b.iterations),
   ("learning_rate", ofF32 b.learningRate),
   ("max_depth", .nat b.maxDepth),
   ("max_leaves", .nat b.maxLeaves),
   ("l1", ofF32 b.l1),
   ("l2", ofF32 b.l2),
   ("gamma", ofF32 b.gamma),
   ("max_delta_step", ofF32 b.maxDeltaStep),
   ("min_leaf_weight", ofF32 b.minLeafWeight),
   ("base_score", ofF64 b.baseScore),
   ("nbins", .nat b.nbins),
   ("parallel", .bool b.parallel),
   ("allow_missing_splits", .bool b.allowMissingSplits),
   ("monotone_constraints", Json.ofOption encConstraints b.monotoneConstraints),
   ("subsample", ofF32 b.subsample),
   ("top_rate", ofF64 b.topRate),
   ("other_rate", ofF64 b.otherRate),
   ("colsample_bytree", ofF64 b.colsampleBytree),
   ("seed", .nat b.seed),
   ("missing", ofF64 b.missing),
   ("create_missing_branch", .bool b.createMissingBranch),
   ("sample_method", .str b.sampleMethod.name),
   ("grow_policy", .str b.growPolicy.name),
   ("evaluation_metric", Json.ofOption (fun m => .str (Metric.name m)) b.evaluationMetric),
   ("early_stopping_rounds", Json.ofOption .nat b.earlyStoppingRounds),
   ("initialize_base_score", .bool b.initializeBaseScore),
   ("terminate_missing_features", encSet b.terminateMissingFeatures),
   ("evaluation_history", Json.ofOption encMatrix b.evaluationHistory),
   ("best_iteration", Json.ofOption .nat b.bestIteration),
   ("prediction_iteration", Json.ofOption .nat b.predictionIteration),
   ("missing_node_treatment", .str b.missingNodeTreatment.name),
   ("log_iterations", .nat b.logIterations),
   ("force_children_to_bound_parent", .bool b.forceChildrenToBoundParent),
   ("trees", .arr (b.trees.map encTree)),
   ("metadata", encMetadata b.metadata)]

/-- The member names of the struct. -/
def boosterNames : List String :=
  ["objective_type", "iterations", "learning_rate", "max_depth", "max_leaves", "l1", "l2", "gamma",
   "max_delta_step", "min_leaf_weight", "base_score", "nbins", "parallel", "allow_missing_splits",
   "monotone_constraints", "subsample", "top_rate", "other_rate", "colsample_bytree", "seed",
   "missing", "create_missing_branch", "sample_method", "grow_policy", "evaluation_metric",
   "early_stopping_rounds", "initialize_base_score", "terminate_missing_features",
   "evaluation_history", "best_iteration", "prediction_iteration", "missing_node_treatment",
   "log_iterations", "force_children_to_bound_parent", "trees", "metadata"]

/-- `json_dump` (src/gradientbooster.rs 1031-1036). -/
def Booster.jsonDump (b : Booster F D) : Json F D := .obj (boosterMembers b)

omit [Fl F] in
/-- `parse_missing` (src/gradientbooster.rs 250-255). -/
def parseMissing (j : Json F D) : Option D := (toOption toF64 j).map fun o => o.getD Fl.nan

/-- Deserialisation of the struct (src/gradientbooster.rs 83-192) with the defaults of lines
194-248; an absent `Option` member without default (`monotone_constraints`) is `None`. -/
def decBooster (j : Json F D) : Option (Booster F D) := do
  let l ← j.members boosterNames
  let objectiveType ← field l "objective_type" (toVariant ObjectiveType.ofName)
  let iterations ← field l "iterations" toNat
  let learningRate ← field l "learning_rate" toF32
  let maxDepth ← field l "max_depth" toNat
  let maxLeaves ← field l "max_leaves" toNat
  let l1 ← fieldD l "l1" 0 toF32
  let l2 ← field l "l2" toF32
  let gamma ← field l "gamma" toF32
  let maxDeltaStep ← fieldD l "max_delta_step" 0 toF32
  let minLeafWeight ← field l "min_leaf_weight" toF32
  let baseScore ← field l "base_score" toF64
  let nbins ← field l "nbins" toU16
  let parallel ← field l "parallel" toBool
  let allowMissingSplits ← field l "allow_missing_splits" toBool
  let monotoneConstraints ← fieldD l "monotone_constraints" none (toOption decConstraints)
  let subsample ← field l "subsample" toF32
  let topRate ← fieldD l "top_rate" (Fl.ofNat 1 / Fl.ofNat 10) toF64
  let otherRate ← fieldD l "other_rate" (Fl.ofNat 2 / Fl.ofNat 10) toF64
  let colsampleBytree ← fieldD l "colsample_bytree" 1 toF64
  let seed ← field l "seed" toNat
  let missing ← field l "missing" parseMissing
  let createMissingBranch ← field l "create_missing_branch" toBool
  let sampleMethod ← fieldD l "sample_method" .none (toVariant SampleMethod.ofName)
  let growPolicy ← fieldD l "grow_policy" .depthWise (toVariant GrowPolicy.ofName)
  let evaluationMetric ← fieldD l "evaluation_metric" none (toOption (toVariant Metric.ofName))
  let earlyStoppingRounds ← fieldD l "early_stopping_rounds" none (toOption toNat)
  let initializeBaseScore ← fieldD l "initialize_base_score" false toBool
  let terminateMissingFeatures ← fieldD l "terminate_missing_features" [] decSet
  let evaluationHistory ← fieldD l "evaluation_history" none (toOption decMatrix)
  let bestIteration ← fieldD l "best_iteration" none (toOption toNat)
  let predictionIteration ← fieldD l "prediction_iteration" none (toOption toNat)
  let missingNodeTreatment ← fieldD l "missing_node_treatment" .assignToParent
    (toVariant MissingNodeTreatment.ofName)
  let logIterations ← fieldD l "log_iterations" 0 toNat
  let forceChildrenToBoundParent ← fieldD l "force_children_to_bound_parent" false toBool
  let trees ← field l "trees" (toList decTree)
  let metadata ← field l "metadata" decMetadata
  some { objectiveType, iterations, learningRate, maxDepth, maxLeaves, l1, l2, gamma, maxDeltaStep
         minLeafWeight, baseScore, nbins, parallel, allowMissingSplits, monotoneConstraints
         subsample, topRate, otherRate, colsampleBytree, seed, missing, createMissingBranch
         sampleMethod, growPolicy, evaluationMetric, earlyStoppingRounds, initializeBaseScore
         terminateMissingFeatures, evaluationHistory, bestIteration, predictionIteration
         missingNodeTreatment, logIterations, forceChildrenToBoundParent, trees, metadata }

/-- `from_json` (src/gradientbooster.rs 1041-1047). -/
def Booster.fromJson (j : Json F D) : Except ForustError (Booster F D) :=
  match decBooster j with
  | some b => .ok b
  | none => .error .unableToRead

end

end Verif
