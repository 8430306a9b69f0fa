import Verif.Model.Builder

/-!
# What setters are to do

The fields of the booster under their names, and which setter gives which field which value.
-/

namespace Verif

/-- The fields. -/
inductive Param where
  | objectiveType
  | iterations
  | learningRate
  | maxDepth
  | maxLeaves
  | l1
  | l2
  | gamma
  | maxDeltaStep
  | minLeafWeight
  | baseScore
  | nbins
  | parallel
  | allowMissingSplits
  | monotoneConstraints
  | subsample
  | topRate
  | otherRate
  | colsampleBytree
  | seed
  | missing
  | createMissingBranch
  | sampleMethod
  | growPolicy
  | evaluationMetric
  | earlyStoppingRounds
  | initializeBaseScore
  | terminateMissingFeatures
  | evaluationHistory
  | bestIteration
  | predictionIteration
  | missingNodeTreatment
  | logIterations
  | forceChildrenToBoundParent
  | trees
  | metadata
  deriving DecidableEq, Repr

/-- The value of a field. -/
inductive ParamValue (F D : Type) where
  | objective (x : ObjectiveType)
  | nat (x : Nat)
  | f32 (x : F)
  | f64 (x : D)
  | bool (x : Bool)
  | constraints (x : Option ConstraintMap)
  | sample (x : SampleMethod)
  | growth (x : GrowPolicy)
  | metric (x : Option Metric)
  | optNat (x : Option Nat)
  | features (x : List Nat)
  | history (x : Option (RowMajorMatrix D))
  | treatment (x : MissingNodeTreatment)
  | trees (x : List (Tree F D))
  | metadata (x : List (String × String))
  deriving DecidableEq

variable {F D : Type}

/-- The value of the field of a booster. -/
def Booster.param (b : Booster F D) : Param → ParamValue F D
  | .objectiveType => .objective b.objectiveType
  | .iterations => .nat b.iterations
  | .learningRate => .f32 b.learningRate
  | .maxDepth => .nat b.maxDepth
  | .maxLeaves => .nat b.maxLeaves
  | .l1 => .f32 b.l1
  | .l2 => .f32 b.l2
  | .gamma => .f32 b.gamma
  | .maxDeltaStep => .f32 b.maxDeltaStep
  | .minLeafWeight => .f32 b.minLeafWeight
  | .baseScore => .f64 b.baseScore
  | .nbins => .nat b.nbins
  | .parallel => .bool b.parallel
  | .allowMissingSplits => .bool b.allowMissingSplits
  | .monotoneConstraints => .constraints b.monotoneConstraints
  | .subsample => .f32 b.subsample
  | .topRate => .f64 b.topRate
  | .otherRate => .f64 b.otherRate
  | .colsampleBytree => .f64 b.colsampleBytree
  | .seed => .nat b.seed
  | .missing => .f64 b.missing
  | .createMissingBranch => .bool b.createMissingBranch
  | .sampleMethod => .sample b.sampleMethod
  | .growPolicy => .growth b.growPolicy
  | .evaluationMetric => .metric b.evaluationMetric
  | .earlyStoppingRounds => .optNat b.earlyStoppingRounds
  | .initializeBaseScore => .bool b.initializeBaseScore
  | .terminateMissingFeatures => .features b.terminateMissingFeatures
  | .evaluationHistory => .history b.evaluationHistory
  | .bestIteration => .optNat b.bestIteration
  | .predictionIteration => .optNat b.predictionIteration
  | .missingNodeTreatment => .treatment b.missingNodeTreatment
  | .logIterations => .nat b.logIterations
  | .forceChildrenToBoundParent => .bool b.forceChildrenToBoundParent
  | .trees => .trees b.trees
  | .metadata => .metadata b.metadata

/-- The field that a setter is named after. -/
def Setter.param : Setter F D → Param
  | .objectiveType _ => .objectiveType
  | .iterations _ => .iterations
  | .learningRate _ => .learningRate
  | .maxDepth _ => .maxDepth
  | .maxLeaves _ => .maxLeaves
  | .l1 _ => .l1
  | .l2 _ => .l2
  | .gamma _ => .gamma
  | .maxDeltaStep _ => .maxDeltaStep
  | .minLeafWeight _ => .minLeafWeight
  | .baseScore _ => .baseScore
  | .nbins _ => .nbins
  | .parallel _ => .parallel
  | .allowMissingSplits _ => .allowMissingSplits
  | .monotoneConstraints _ => .monotoneConstraints
  | .subsample _ => .subsample
  | .colsampleBytree _ => .colsampleBytree
  | .seed _ => .seed
  | .missing _ => .missing
  | .createMissingBranch _ => .createMissingBranch
  | .sampleMethod _ => .sampleMethod
  | .evaluationMetric _ => .evaluationMetric
  | .earlyStoppingRounds _ => .earlyStoppingRounds
  | .initializeBaseScore _ => .initializeBaseScore
  | .terminateMissingFeatures _ => .terminateMissingFeatures
  | .predictionIteration _ => .predictionIteration

/-- The value that a setter gives to the field: its argument.  `set_prediction_iteration` takes the number of
the last tree to use and the field is the number of trees. -/
def Setter.value : Setter F D → ParamValue F D
  | .objectiveType x => .objective x
  | .iterations x => .nat x
  | .learningRate x => .f32 x
  | .maxDepth x => .nat x
  | .maxLeaves x => .nat x
  | .l1 x => .f32 x
  | .l2 x => .f32 x
  | .gamma x => .f32 x
  | .maxDeltaStep x => .f32 x
  | .minLeafWeight x => .f32 x
  | .baseScore x => .f64 x
  | .nbins x => .nat x
  | .parallel x => .bool x
  | .allowMissingSplits x => .bool x
  | .monotoneConstraints x => .constraints x
  | .subsample x => .f32 x
  | .colsampleBytree x => .f64 x
  | .seed x => .nat x
  | .missing x => .f64 x
  | .createMissingBranch x => .bool x
  | .sampleMethod x => .sample x
  | .evaluationMetric x => .metric x
  | .earlyStoppingRounds x => .optNat x
  | .initializeBaseScore x => .bool x
  | .terminateMissingFeatures x => .features x
  | .predictionIteration x => .optNat (x.map (· + 1))

/-- The setters that give all fields with a setter, except for the number of trees to use, the values they
have in `args`. -/
def settersOf (args : Booster F D) : List (Setter F D) :=
  [.objectiveType args.objectiveType, .iterations args.iterations, .learningRate args.learningRate,
    .maxDepth args.maxDepth, .maxLeaves args.maxLeaves, .l1 args.l1,
    .l2 args.l2, .gamma args.gamma, .maxDeltaStep args.maxDeltaStep,
    .minLeafWeight args.minLeafWeight, .baseScore args.baseScore, .nbins args.nbins,
    .parallel args.parallel, .allowMissingSplits args.allowMissingSplits, .monotoneConstraints args.monotoneConstraints,
    .subsample args.subsample, .colsampleBytree args.colsampleBytree, .seed args.seed,
    .missing args.missing, .createMissingBranch args.createMissingBranch, .sampleMethod args.sampleMethod,
    .evaluationMetric args.evaluationMetric, .earlyStoppingRounds args.earlyStoppingRounds, .initializeBaseScore args.initializeBaseScore,
    .terminateMissingFeatures args.terminateMissingFeatures]

/-- The fields without a setter. -/
def Param.unset : List Param :=
  [.topRate, .otherRate, .growPolicy, .evaluationHistory, .bestIteration, .missingNodeTreatment, .logIterations, .forceChildrenToBoundParent, .trees, .metadata]

end Verif
