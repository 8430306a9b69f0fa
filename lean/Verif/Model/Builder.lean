import Verif.Model.Booster

/-!
# Defaults and setters of the booster (`src/gradientbooster.rs`)
-/

namespace Verif

open scoped Verif

section
variable {F D : Type}

/-- `GradientBooster::default()` (src/gradientbooster.rs 258-295); a decimal literal is the quotient of two
whole numbers.  `none`: the `unwrap` panics. -/
def Booster.default (F D : Type) [Fl F] [Fl D] : Option (Booster F D) :=
  match Booster.new (F := F) (D := D)
    { objectiveType := .logLoss, iterations := 10, learningRate := Fl.ofNat 3 / Fl.ofNat 10, maxDepth := 5
      maxLeaves := 2 ^ 64 - 1, l1 := 0, l2 := 1, gamma := 0, maxDeltaStep := 0, minLeafWeight := 1
      baseScore := Fl.ofNat 1 / Fl.ofNat 2, nbins := 256, parallel := true, allowMissingSplits := true
      monotoneConstraints := none, subsample := 1, topRate := Fl.ofNat 1 / Fl.ofNat 10
      otherRate := Fl.ofNat 2 / Fl.ofNat 10, colsampleBytree := 1, seed := 0, missing := nan
      createMissingBranch := false, sampleMethod := .none, growPolicy := .depthWise
      evaluationMetric := none, earlyStoppingRounds := none, initializeBaseScore := true
      terminateMissingFeatures := [], evaluationHistory := none, bestIteration := none
      predictionIteration := none, missingNodeTreatment := .assignToParent, logIterations := 0
      forceChildrenToBoundParent := false, trees := [], metadata := [] } with
  | .ok b => some b
  | .error _ => none

/-- `set_objective_type` (src/gradientbooster.rs 1063-1066). -/
def Booster.setObjectiveType (b : Booster F D) (x : ObjectiveType) : Booster F D := { b with objectiveType := x }

/-- `set_iterations` (src/gradientbooster.rs 1070-1073). -/
def Booster.setIterations (b : Booster F D) (x : Nat) : Booster F D := { b with iterations := x }

/-- `set_learning_rate` (src/gradientbooster.rs 1077-1080). -/
def Booster.setLearningRate (b : Booster F D) (x : F) : Booster F D := { b with learningRate := x }

/-- `set_max_depth` (src/gradientbooster.rs 1084-1087). -/
def Booster.setMaxDepth (b : Booster F D) (x : Nat) : Booster F D := { b with maxDepth := x }

/-- `set_max_leaves` (src/gradientbooster.rs 1091-1094). -/
def Booster.setMaxLeaves (b : Booster F D) (x : Nat) : Booster F D := { b with maxLeaves := x }

/-- `set_l1` (src/gradientbooster.rs 1108-1111). -/
def Booster.setL1 (b : Booster F D) (x : F) : Booster F D := { b with l1 := x }

/-- `set_l2` (src/gradientbooster.rs 1115-1118). -/
def Booster.setL2 (b : Booster F D) (x : F) : Booster F D := { b with l2 := x }

/-- `set_gamma` (src/gradientbooster.rs 1122-1125). -/
def Booster.setGamma (b : Booster F D) (x : F) : Booster F D := { b with gamma := x }

/-- `set_max_delta_step` (src/gradientbooster.rs 1129-1132). -/
def Booster.setMaxDeltaStep (b : Booster F D) (x : F) : Booster F D := { b with maxDeltaStep := x }

/-- `set_min_leaf_weight` (src/gradientbooster.rs 1137-1140). -/
def Booster.setMinLeafWeight (b : Booster F D) (x : F) : Booster F D := { b with minLeafWeight := x }

/-- `set_base_score` (src/gradientbooster.rs 1144-1147). -/
def Booster.setBaseScore (b : Booster F D) (x : D) : Booster F D := { b with baseScore := x }

/-- `set_nbins` (src/gradientbooster.rs 1101-1104). -/
def Booster.setNbins (b : Booster F D) (x : Nat) : Booster F D := { b with nbins := x }

/-- `set_parallel` (src/gradientbooster.rs 1158-1161). -/
def Booster.setParallel (b : Booster F D) (x : Bool) : Booster F D := { b with parallel := x }

/-- `set_allow_missing_splits` (src/gradientbooster.rs 1165-1168). -/
def Booster.setAllowMissingSplits (b : Booster F D) (x : Bool) : Booster F D := { b with allowMissingSplits := x }

/-- `set_monotone_constraints` (src/gradientbooster.rs 1172-1175). -/
def Booster.setMonotoneConstraints (b : Booster F D) (x : Option ConstraintMap) : Booster F D := { b with monotoneConstraints := x }

/-- `set_subsample` (src/gradientbooster.rs 1179-1182). -/
def Booster.setSubsample (b : Booster F D) (x : F) : Booster F D := { b with subsample := x }

/-- `set_colsample_bytree` (src/gradientbooster.rs 1186-1189). -/
def Booster.setColsampleBytree (b : Booster F D) (x : D) : Booster F D := { b with colsampleBytree := x }

/-- `set_seed` (src/gradientbooster.rs 1193-1196). -/
def Booster.setSeed (b : Booster F D) (x : Nat) : Booster F D := { b with seed := x }

/-- `set_missing` (src/gradientbooster.rs 1200-1203). -/
def Booster.setMissing (b : Booster F D) (x : D) : Booster F D := { b with missing := x }

/-- `set_create_missing_branch` (src/gradientbooster.rs 1208-1211). -/
def Booster.setCreateMissingBranch (b : Booster F D) (x : Bool) : Booster F D := { b with createMissingBranch := x }

/-- `set_sample_method` (src/gradientbooster.rs 1215-1218). -/
def Booster.setSampleMethod (b : Booster F D) (x : SampleMethod) : Booster F D := { b with sampleMethod := x }

/-- `set_evaluation_metric` (src/gradientbooster.rs 1222-1225). -/
def Booster.setEvaluationMetric (b : Booster F D) (x : Option Metric) : Booster F D := { b with evaluationMetric := x }

/-- `set_early_stopping_rounds` (src/gradientbooster.rs 1229-1232). -/
def Booster.setEarlyStoppingRounds (b : Booster F D) (x : Option Nat) : Booster F D := { b with earlyStoppingRounds := x }

/-- `set_initialize_base_score` (src/gradientbooster.rs 1151-1154). -/
def Booster.setInitializeBaseScore (b : Booster F D) (x : Bool) : Booster F D := { b with initializeBaseScore := x }

/-- `set_terminate_missing_features` (src/gradientbooster.rs 1246-1252). -/
def Booster.setTerminateMissingFeatures (b : Booster F D) (x : List Nat) : Booster F D := { b with terminateMissingFeatures := x }

/-- A call of a setter with its argument. -/
inductive Setter (F D : Type) where
  | objectiveType (x : ObjectiveType)
  | iterations (x : Nat)
  | learningRate (x : F)
  | maxDepth (x : Nat)
  | maxLeaves (x : Nat)
  | l1 (x : F)
  | l2 (x : F)
  | gamma (x : F)
  | maxDeltaStep (x : F)
  | minLeafWeight (x : F)
  | baseScore (x : D)
  | nbins (x : Nat)
  | parallel (x : Bool)
  | allowMissingSplits (x : Bool)
  | monotoneConstraints (x : Option ConstraintMap)
  | subsample (x : F)
  | colsampleBytree (x : D)
  | seed (x : Nat)
  | missing (x : D)
  | createMissingBranch (x : Bool)
  | sampleMethod (x : SampleMethod)
  | evaluationMetric (x : Option Metric)
  | earlyStoppingRounds (x : Option Nat)
  | initializeBaseScore (x : Bool)
  | terminateMissingFeatures (x : List Nat)
  | predictionIteration (x : Option Nat)

/-- The call. -/
def Booster.call (b : Booster F D) : Setter F D → Booster F D
  | .objectiveType x => b.setObjectiveType x
  | .iterations x => b.setIterations x
  | .learningRate x => b.setLearningRate x
  | .maxDepth x => b.setMaxDepth x
  | .maxLeaves x => b.setMaxLeaves x
  | .l1 x => b.setL1 x
  | .l2 x => b.setL2 x
  | .gamma x => b.setGamma x
  | .maxDeltaStep x => b.setMaxDeltaStep x
  | .minLeafWeight x => b.setMinLeafWeight x
  | .baseScore x => b.setBaseScore x
  | .nbins x => b.setNbins x
  | .parallel x => b.setParallel x
  | .allowMissingSplits x => b.setAllowMissingSplits x
  | .monotoneConstraints x => b.setMonotoneConstraints x
  | .subsample x => b.setSubsample x
  | .colsampleBytree x => b.setColsampleBytree x
  | .seed x => b.setSeed x
  | .missing x => b.setMissing x
  | .createMissingBranch x => b.setCreateMissingBranch x
  | .sampleMethod x => b.setSampleMethod x
  | .evaluationMetric x => b.setEvaluationMetric x
  | .earlyStoppingRounds x => b.setEarlyStoppingRounds x
  | .initializeBaseScore x => b.setInitializeBaseScore x
  | .terminateMissingFeatures x => b.setTerminateMissingFeatures x
  | .predictionIteration x => b.setPredictionIteration x

/-- A chain of calls `b.set_x(..).set_y(..)`. -/
def Booster.calls (b : Booster F D) (l : List (Setter F D)) : Booster F D := l.foldl Booster.call b

end

end Verif
