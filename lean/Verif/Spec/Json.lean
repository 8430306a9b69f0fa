import Verif.Model.Serde

/-!
# Specification for the JSON properties
-/

namespace Verif

open scoped Verif

variable {F D : Type} [Fl F] [Fl D]

/-- Every float of a node is finite. -/
def Node.Finite (n : Node F D) : Prop :=
  isFinite n.weightValue = true ∧ isFinite n.hessianSum = true ∧ isFinite n.splitValue = true ∧
    isFinite n.splitGain = true

/-- Everything in the booster can be represented in JSON: floats are finite (`missing` may be NaN),
maps have one entry per key, sets no repeated element, `nbins` is a `u16`. -/
structure Booster.Storable (b : Booster F D) : Prop where
  learningRate : isFinite b.learningRate = true
  l1 : isFinite b.l1 = true
  l2 : isFinite b.l2 = true
  gamma : isFinite b.gamma = true
  maxDeltaStep : isFinite b.maxDeltaStep = true
  minLeafWeight : isFinite b.minLeafWeight = true
  baseScore : isFinite b.baseScore = true
  subsample : isFinite b.subsample = true
  topRate : isFinite b.topRate = true
  otherRate : isFinite b.otherRate = true
  colsampleBytree : isFinite b.colsampleBytree = true
  missing : isFinite b.missing = true ∨ b.missing = Fl.nan
  trees : ∀ t ∈ b.trees, ∀ n ∈ t.nodes, n.Finite
  history : ∀ h, b.evaluationHistory = some h → ∀ x ∈ h.data, isFinite x = true
  constraints : ∀ m, b.monotoneConstraints = some m → (m.map Prod.fst).Nodup
  metadata : (b.metadata.map Prod.fst).Nodup
  terminate : b.terminateMissingFeatures.Nodup
  nbins : b.nbins < 65536

/-- Members that the documentation of the struct allows to be absent. -/
def defaulted : List String :=
  ["l1", "max_delta_step", "monotone_constraints", "top_rate", "other_rate", "colsample_bytree",
   "sample_method", "grow_policy", "evaluation_metric", "early_stopping_rounds",
   "initialize_base_score", "terminate_missing_features", "evaluation_history", "best_iteration",
   "prediction_iteration", "missing_node_treatment", "log_iterations",
   "force_children_to_bound_parent"]

/-- The booster with the members named in `r` replaced by their defaults. -/
def Booster.withDefaults (b : Booster F D) (r : List String) : Booster F D :=
  { b with
    l1 := if "l1" ∈ r then 0 else b.l1
    maxDeltaStep := if "max_delta_step" ∈ r then 0 else b.maxDeltaStep
    monotoneConstraints := if "monotone_constraints" ∈ r then none else b.monotoneConstraints
    topRate := if "top_rate" ∈ r then Fl.ofNat 1 / Fl.ofNat 10 else b.topRate
    otherRate := if "other_rate" ∈ r then Fl.ofNat 2 / Fl.ofNat 10 else b.otherRate
    colsampleBytree := if "colsample_bytree" ∈ r then 1 else b.colsampleBytree
    sampleMethod := if "sample_method" ∈ r then .none else b.sampleMethod
    growPolicy := if "grow_policy" ∈ r then .depthWise else b.growPolicy
    evaluationMetric := if "evaluation_metric" ∈ r then none else b.evaluationMetric
    earlyStoppingRounds := if "early_stopping_rounds" ∈ r then none else b.earlyStoppingRounds
    initializeBaseScore := if "initialize_base_score" ∈ r then false else b.initializeBaseScore
    terminateMissingFeatures :=
      if "terminate_missing_features" ∈ r then [] else b.terminateMissingFeatures
    evaluationHistory := if "evaluation_history" ∈ r then none else b.evaluationHistory
    bestIteration := if "best_iteration" ∈ r then none else b.bestIteration
    predictionIteration := if "prediction_iteration" ∈ r then none else b.predictionIteration
    missingNodeTreatment :=
      if "missing_node_treatment" ∈ r then .assignToParent else b.missingNodeTreatment
    logIterations := if "log_iterations" ∈ r then 0 else b.logIterations
    forceChildrenToBoundParent :=
      if "force_children_to_bound_parent" ∈ r then false else b.forceChildrenToBoundParent }

/-- The members of a JSON object. -/
def Json.fields : Json F D → List (String × Json F D)
  | .obj l => l
  | _ => []

end Verif
