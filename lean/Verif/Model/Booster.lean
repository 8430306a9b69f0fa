import Verif.Model.Shapley
import Verif.Model.Objective
import Verif.Model.Sampler

/-!
# The booster (`src/gradientbooster.rs`)
-/

namespace Verif

open scoped Verif

/-- `ContributionsMethod` (src/gradientbooster.rs 37-53). -/
inductive ContributionsMethod where
  | weight
  | average
  | branchDifference
  | midpointDifference
  | modeDifference
  | probabilityChange
  | shapley
  deriving DecidableEq, Repr

/-- `ImportanceMethod` (src/gradientbooster.rs 55-68). -/
inductive ImportanceMethod where
  | weight
  | gain
  | cover
  | totalGain
  | totalCover
  deriving DecidableEq, Repr

/-- `GradientBooster` (src/gradientbooster.rs 83-192). -/
structure Booster (F D : Type) where
  /-- `objective_type` -/
  objectiveType : ObjectiveType
  /-- `iterations` -/
  iterations : Nat
  /-- `learning_rate` -/
  learningRate : F
  /-- `max_depth` -/
  maxDepth : Nat
  /-- `max_leaves` -/
  maxLeaves : Nat
  /-- `l1` -/
  l1 : F
  /-- `l2` -/
  l2 : F
  /-- `gamma` -/
  gamma : F
  /-- `max_delta_step` -/
  maxDeltaStep : F
  /-- `min_leaf_weight` -/
  minLeafWeight : F
  /-- `base_score` -/
  baseScore : D
  /-- `nbins` -/
  nbins : Nat
  /-- `parallel` -/
  parallel : Bool
  /-- `allow_missing_splits` -/
  allowMissingSplits : Bool
  /-- `monotone_constraints` -/
  monotoneConstraints : Option ConstraintMap
  /-- `subsample` -/
  subsample : F
  /-- `top_rate` -/
  topRate : D
  /-- `other_rate` -/
  otherRate : D
  /-- `colsample_bytree` -/
  colsampleBytree : D
  /-- `seed` -/
  seed : Nat
  /-- `missing` -/
  missing : D
  /-- `create_missing_branch` -/
  createMissingBranch : Bool
  /-- `sample_method` -/
  sampleMethod : SampleMethod
  /-- `grow_policy` -/
  growPolicy : GrowPolicy
  /-- `evaluation_metric` -/
  evaluationMetric : Option Metric
  /-- `early_stopping_rounds` -/
  earlyStoppingRounds : Option Nat
  /-- `initialize_base_score` -/
  initializeBaseScore : Bool
  /-- `terminate_missing_features` -/
  terminateMissingFeatures : List Nat
  /-- `evaluation_history` -/
  evaluationHistory : Option (RowMajorMatrix D)
  /-- `best_iteration` -/
  bestIteration : Option Nat
  /-- `prediction_iteration` -/
  predictionIteration : Option Nat
  /-- `missing_node_treatment` -/
  missingNodeTreatment : MissingNodeTreatment
  /-- `log_iterations` -/
  logIterations : Nat
  /-- `force_children_to_bound_parent` -/
  forceChildrenToBoundParent : Bool
  /-- `trees` -/
  trees : List (Tree F D)
  /-- `metadata` -/
  metadata : List (String × String)
  deriving DecidableEq, Repr

/-- Behaviours outside of the repository: sorting, the heap (per iteration), randomness. -/
structure Env (R F D : Type) where
  /-- sorting -/
  sorter : Sorter
  /-- heap behaviour in each iteration -/
  heap : Nat → HeapPick F D
  /-- random generator -/
  rng : Rng R F D

/-- `EvaluationData` (src/gradientbooster.rs 27). -/
structure EvalSet (D : Type) where
  /-- features -/
  data : Matrix D
  /-- targets -/
  y : List D
  /-- weights -/
  w : List D

section
variable {F D : Type} [Fl F] [Fl D] [FlCast F D]

omit [FlCast F D] in
/-- `validate_parameters` (src/gradientbooster.rs 416-428); the macro names the field. -/
def Booster.validateParameters (b : Booster F D) : Except ForustError Unit := do
  validatePositiveFloatParameter b.learningRate "learning_rate"
  validatePositiveFloatParameter b.l1 "l1"
  validatePositiveFloatParameter b.l2 "l2"
  validatePositiveFloatParameter b.gamma "gamma"
  validatePositiveFloatParameter b.maxDeltaStep "max_delta_step"
  validatePositiveFloatParameter b.minLeafWeight "min_leaf_weight"
  validatePositiveFloatParameter b.subsample "subsample"
  validatePositiveFloatParameter b.topRate "top_rate"
  validatePositiveFloatParameter b.otherRate "other_rate"
  validatePositiveFloatParameter b.colsampleBytree "colsample_bytree"

omit [FlCast F D] in
/-- `new` (src/gradientbooster.rs 341-414).  The 31 arguments are passed as the record `args`, of which
the last six fields (history, best and prediction iteration, trees, metadata) are ignored. -/
def Booster.new (args : Booster F D) : Except ForustError (Booster F D) := do
  let b := { args with
    evaluationHistory := none, bestIteration := none, predictionIteration := none
    trees := [], metadata := [] }
  b.validateParameters
  .ok b

omit [Fl F] [Fl D] [FlCast F D] in
/-- `reset` (src/gradientbooster.rs 522-527). -/
def Booster.reset (b : Booster F D) : Booster F D :=
  { b with trees := [], evaluationHistory := none, bestIteration := none
           predictionIteration := none }

omit [Fl F] [Fl D] [FlCast F D] in
/-- `get_metric_fn` (src/gradientbooster.rs 511-520). -/
def Booster.metric (b : Booster F D) : Metric :=
  match b.evaluationMetric with
  | none => b.objectiveType.defaultMetric
  | some m => m

omit [Fl F] [Fl D] [FlCast F D] in
/-- `update_best_iteration` (src/gradientbooster.rs 706-709). -/
def Booster.updateBestIteration (b : Booster F D) (i : Nat) : Booster F D :=
  { b with bestIteration := some i, predictionIteration := some (i + 1) }

omit [Fl F] [FlCast F D] in
/-- `yhat.iter_mut().zip(preds)` with `*i += j` (src/gradientbooster.rs 713, 736-741). -/
def addPreds : List D → List D → List D
  | y :: ys, p :: ps => (y + p) :: addPreds ys ps
  | ys, _ => ys

omit [Fl F] [Fl D] [FlCast F D] in
/-- The constraints used in a fit (src/gradientbooster.rs 456-460). -/
def Booster.constraintsMap (b : Booster F D) : ConstraintMap := b.monotoneConstraints.getD []

omit [Fl F] [Fl D] [FlCast F D] in
/-- The splitter built by `fit` (src/gradientbooster.rs 461-488). -/
def Booster.splitter (b : Booster F D) : Splitter F :=
  let p : SplitParams F :=
    { l1 := b.l1, l2 := b.l2, maxDeltaStep := b.maxDeltaStep, gamma := b.gamma
      minLeafWeight := b.minLeafWeight, learningRate := b.learningRate
      allowMissingSplits := b.allowMissingSplits, constraintsMap := b.constraintsMap }
  if b.createMissingBranch then
    .branch { p with terminateMissingFeatures := b.terminateMissingFeatures
                     missingNodeTreatment := b.missingNodeTreatment
                     forceChildrenToBoundParent := b.forceChildrenToBoundParent }
  else .imputer p

/-- Evaluation set with its running predictions (`TrainingEvaluationData`). -/
structure TrainEval (D : Type) extends EvalSet D where
  /-- running predictions -/
  yhat : List D

/-- Early-stopping bookkeeping for the metric `m` of the last evaluation set
(src/gradientbooster.rs 641-670): the booster, `best_metric` and `stop_early`. -/
def earlyStopUpdate (b : Booster F D) (i : Nat) (m : D) (maximize : Bool) (best : Option D)
    (stop : Bool) : Booster F D × Option D × Bool :=
  match b.earlyStoppingRounds with
  | none => (b, best, stop)
  | some rounds =>
    match best with
    | none => (b.updateBestIteration i, some m, stop)
    | some v =>
      if isComparisonBetter v m maximize then (b.updateBestIteration i, some m, stop)
      else
        match b.bestIteration with
        | some bi => (b, some v, stop || decide (rounds ≤ i - bi))
        | none => (b, some v, stop)

/-- The loop over the evaluation sets (src/gradientbooster.rs 632-673). -/
def evalLoop (S : Sorter) (t : Tree F D) (i n : Nat) :
    List (TrainEval D) → Nat → Booster F D → Option D → Bool →
    Res (List (TrainEval D) × List D × Booster F D × Option D × Bool)
  | [], _, b, best, stop => .ok ([], [], b, best, stop)
  | e :: l, k, b, best, stop => do
    let preds ← t.predict e.data b.missing
    let e := { e with yhat := addPreds e.yhat preds }
    let m ← b.metric.eval S e.y e.yhat e.w
    let (b, best, stop) :=
      if k + 1 = n then earlyStopUpdate b i m b.metric.maximize best stop else (b, best, stop)
    let (es, ms, b, best, stop) ← evalLoop S t i n l (k + 1) b best stop
    .ok (e :: es, m :: ms, b, best, stop)

/-- The history is created on the first evaluation (src/gradientbooster.rs 626-629). -/
def withHistory (b : Booster F D) (n : Nat) : Booster F D :=
  match b.evaluationHistory with
  | none => { b with evaluationHistory := some (RowMajorMatrix.new [] 0 n) }
  | some _ => b

/-- A row of metrics is appended to the history (src/gradientbooster.rs 681-683). -/
def appendHistory (b : Booster F D) (ms : List D) : Res (Booster F D) :=
  match b.evaluationHistory with
  | none => pure b
  | some h => do
    let h ← h.appendRow ms
    pure { b with evaluationHistory := some h }

/-- The evaluation block of an iteration (src/gradientbooster.rs 625-684): metrics of all evaluation
sets, early stopping, history.  Logging is left out. -/
def evalSets (S : Sorter) (t : Tree F D) (i : Nat) (b : Booster F D) :
    Option (List (TrainEval D)) → Option D →
    Res (Booster F D × Option (List (TrainEval D)) × Option D × Bool)
  | none, best => .ok (b, none, best, false)
  | some es, best => do
    let (es', ms, b, best, stop) ← evalLoop S t i es.length es 0 (withHistory b es.length) best false
    let b ← appendHistory b ms
    .ok (b, some es', best, stop)

/-- State of the boosting loop. -/
structure FitState (R F D : Type) where
  /-- the booster being fitted -/
  booster : Booster F D
  /-- running predictions of the training data -/
  yhat : List D
  /-- gradients -/
  grad : List F
  /-- hessians -/
  hess : List F
  /-- evaluation sets -/
  evals : Option (List (TrainEval D))
  /-- best metric so far -/
  best : Option D
  /-- random generator -/
  rng : R

/-- One iteration of the boosting loop (src/gradientbooster.rs 575-696); the Boolean is `stop_early`.
Logging is not modelled. -/
def fitIteration {R : Type} (env : Env R F D) (data : Matrix D) (y w : List D)
    (splitter : Splitter F) (bdata : Matrix Nat) (cuts : JaggedMatrix D) (i : Nat)
    (s : FitState R F D) : Res (FitState R F D × Bool) := do
  let b := s.booster
  let (chosen, grad, hess, rng) ← sampleIndex env.sorter env.rng b.sampleMethod b.subsample
    b.topRate b.otherRate s.rng data.index s.grad s.hess
  let (colIndex, rng) := sampleColumns env.rng b.colsampleBytree rng data.cols
  let cfg : GrowCfg F D :=
    { splitter, train := { data := bdata, cuts, grad, hess, colIndex }, maxLeaves := b.maxLeaves
      maxDepth := b.maxDepth, policy := b.growPolicy, heap := env.heap i }
  let tree ← Tree.fit cfg b.sampleMethod chosen
  let preds ← tree.predict data b.missing
  let yhat := addPreds s.yhat preds
  let (b, evals, best, stop) ← evalSets env.sorter tree i b s.evals s.best
  let b := { b with trees := b.trees ++ [tree] }
  if stop then .ok ({ booster := b, yhat, grad, hess, evals, best, rng }, true)
  else
    let gh := calcGradHess b.objectiveType y yhat w
    .ok ({ booster := b, yhat, grad := gh.1, hess := gh.2, evals, best, rng }, false)

/-- The boosting loop (src/gradientbooster.rs 575-696) from iteration `i` for `n` more iterations. -/
def fitLoop {R : Type} (env : Env R F D) (data : Matrix D) (y w : List D)
    (splitter : Splitter F) (bdata : Matrix Nat) (cuts : JaggedMatrix D) :
    Nat → Nat → FitState R F D → Res (FitState R F D)
  | 0, _, s => .ok s
  | n + 1, i, s => do
    let (s, stop) ← fitIteration env data y w splitter bdata cuts i s
    if stop then .ok s else fitLoop env data y w splitter bdata cuts n (i + 1) s

/-- `fit_trees` (src/gradientbooster.rs 529-704). -/
def fitTrees {R : Type} (env : Env R F D) (b : Booster F D) (data : Matrix D) (y w : List D)
    (splitter : Splitter F) (evalData : Option (List (EvalSet D))) : Res (Booster F D) := do
  let b := if b.trees.isEmpty then b else b.reset
  let b ← if b.initializeBaseScore then do
      let s ← calcInit b.objectiveType y w
      pure { b with baseScore := s }
    else pure b
  let yhat := List.replicate y.length b.baseScore
  let gh := calcGradHess (F := F) b.objectiveType y yhat w
  let binned ← binMatrix env.sorter data w b.nbins b.missing
  let bdata : Matrix Nat := { data := binned.binned, rows := data.rows, cols := data.cols }
  let evals := evalData.map fun es => es.map fun e =>
    { toEvalSet := e, yhat := List.replicate e.y.length b.baseScore : TrainEval D }
  let s ← fitLoop env data y w splitter bdata binned.cuts b.iterations 0
    { booster := b, yhat, grad := gh.1, hess := gh.2, evals, best := none
      rng := env.rng.seed b.seed }
  .ok s.booster

omit [Fl F] [FlCast F D] in
/-- Validation of the evaluation sets (src/gradientbooster.rs 446-454). -/
def validateEvals : List (EvalSet D) → Nat → Except ForustError Unit
  | [], _ => .ok ()
  | e :: l, i => do
    validateNotNanVec e.y s!"eval set {i} y"
    validatePositiveNotNanVec e.w s!"eval set {i} sample_weight"
    validateEvals l (i + 1)

omit [Fl F] [FlCast F D] in
/-- Input validation of `fit` (src/gradientbooster.rs 443-454). -/
def validateFit (y w : List D) (evalData : Option (List (EvalSet D))) :
    Except ForustError Unit := do
  validateNotNanVec y "y"
  validatePositiveNotNanVec w "sample_weight"
  match evalData with
  | none => .ok ()
  | some es => validateEvals es 0

/-- `fit` (src/gradientbooster.rs 436-491): the booster after the call and the returned result. -/
def Booster.fit {R : Type} (env : Env R F D) (b : Booster F D) (data : Matrix D) (y w : List D)
    (evalData : Option (List (EvalSet D))) : Res (Booster F D × Except ForustError Unit) :=
  match validateFit y w evalData with
  | .error e => .ok (b, .error e)
  | .ok () => do
    let b' ← fitTrees env b data y w b.splitter evalData
    .ok (b', .ok ())

/-- `fit_unweighted` (src/gradientbooster.rs 720-728). -/
def Booster.fitUnweighted {R : Type} (env : Env R F D) (b : Booster F D) (data : Matrix D)
    (y : List D) (evalData : Option (List (EvalSet D))) :
    Res (Booster F D × Except ForustError Unit) :=
  b.fit env data y (List.replicate data.rows 1) evalData

omit [Fl F] [Fl D] [FlCast F D] in
/-- `get_prediction_trees` (src/gradientbooster.rs 836-839); slicing past the end panics. -/
def Booster.predictionTrees (b : Booster F D) : Res (List (Tree F D)) :=
  let n := b.predictionIteration.getD b.trees.length
  if n ≤ b.trees.length then .ok (b.trees.take n) else .panic

omit [Fl F] in
/-- `predict` (src/gradientbooster.rs 733-744). -/
def Booster.predict (b : Booster F D) (data : Matrix D) : Res (List D) := do
  let ts ← b.predictionTrees
  Res.foldM' (fun (acc : List D) (t : Tree F D) => do
    let p ← t.predict data b.missing
    .ok (addPreds acc p)) (List.replicate data.rows b.baseScore) ts

omit [Fl F] [FlCast F D] in
/-- `predict_leaf_indices` (src/gradientbooster.rs 747-752). -/
def Booster.predictLeafIndices (b : Booster F D) (data : Matrix D) : Res (List Nat) := do
  let ts ← b.predictionTrees
  let ls ← Res.mapM' (fun t => t.predictLeafIndices data b.missing) ts
  .ok ls.flatten

omit [Fl F] [FlCast F D] in
/-- One row of the initial contributions: zeros, and the bias in the last place
(src/gradientbooster.rs 783-791).  The flat buffer is represented row by row. -/
def initContribs (cols : Nat) (bias : D) : List D := List.replicate cols 0 ++ [0 + bias]

/-- The function applied per row and tree (src/gradientbooster.rs 793-804); `unreachable!()`
panics. -/
def rowPredFn (m : ContributionsMethod) (t : Tree F D) (row c : List D) (missing : D) :
    Res (List D) :=
  match m with
  | .weight => t.contribWeight row c missing
  | .branchDifference => t.contribBranch row c missing
  | .midpointDifference => t.contribMidpoint row c missing
  | .modeDifference => t.contribMode row c missing
  | .shapley => t.contribShapley row c missing
  | .average => .panic
  | .probabilityChange => .panic

/-- `predict_contributions_tree_alone` for one row (src/gradientbooster.rs 813-818). -/
def contribsRowAlone (b : Booster F D) (ts : List (Tree F D)) (m : ContributionsMethod)
    (data : Matrix D) (row : Nat) : Res (List D) := do
  let r ← data.getRow row
  Res.foldM' (fun c t => rowPredFn m t r c b.missing) (initContribs data.cols b.baseScore) ts

omit [Fl F] [FlCast F D] in
/-- `predict_contributions_average` for one row (src/gradientbooster.rs 875-883). -/
def contribsRowAverage (b : Booster F D) (ts : List (Tree F D)) (ws : List (List D))
    (data : Matrix D) (row : Nat) : Res (List D) := do
  let r ← data.getRow row
  Res.foldM' (fun c (tw : Tree F D × List D) => tw.1.contribAverage r c tw.2 b.missing)
    (initContribs data.cols b.baseScore) (ts.zip ws)

/-- `predict_contributions_probability_change` for one row (src/gradientbooster.rs 919-931). -/
def contribsRowProb (b : Booster F D) (ts : List (Tree F D)) (data : Matrix D) (row : Nat) :
    Res (List D) := do
  let r ← data.getRow row
  let (c, _) ← Res.foldM' (fun (s : List D × D) (t : Tree F D) =>
    t.contribProb r s.1 b.missing s.2) (initContribs data.cols (odds b.baseScore), b.baseScore) ts
  .ok c

/-- `predict_contributions` (src/gradientbooster.rs 755-951): the rows of the result, sequential
version; see `Verif.Model.Parallel` for the parallel one. -/
def Booster.contribRows (b : Booster F D) (data : Matrix D) (m : ContributionsMethod) :
    Res (List (List D)) := do
  match m with
  | .average => do
    let ts ← b.predictionTrees
    let ws ← Res.mapM' Tree.distributeLeafWeights ts
    Res.mapM' (contribsRowAverage b ts ws data) data.index
  | .probabilityChange =>
    match b.objectiveType with
    | .logLoss => do
      let ts ← b.predictionTrees
      Res.mapM' (contribsRowProb b ts data) data.index
    | .squaredLoss => .panic
  | m => do
    let ts ← b.predictionTrees
    Res.mapM' (contribsRowAlone b ts m data) data.index

/-- `predict_contributions` (src/gradientbooster.rs 755-772): the flat result.  (In the code
`get_prediction_trees` is evaluated once per row; with no rows a `prediction_iteration` that is too
large does not panic there, while the model panics.) -/
def Booster.predictContributions (b : Booster F D) (data : Matrix D) (m : ContributionsMethod) :
    Res (List D) := do
  let rows ← b.contribRows data m
  .ok rows.flatten

/-- `value_partial_dependence` (src/gradientbooster.rs 958-971), sequential version. -/
def Booster.valuePartialDependence (b : Booster F D) (feature : Nat) (value : D) : Res D := do
  let ts ← b.predictionTrees
  let ps ← Res.mapM' (fun t => t.valuePartialDependence feature value b.missing) ts
  .ok (ps.foldl (· + ·) 0 + b.baseScore)

omit [Fl D] [FlCast F D] in
/-- The node statistic of a method, and whether it is averaged (src/gradientbooster.rs 982-988,
src/tree.rs 532-542). -/
def ImportanceMethod.stat : ImportanceMethod → (Node F D → F) × Bool
  | .weight => (fun _ => 1, false)
  | .gain => (fun n => n.splitGain, true)
  | .totalGain => (fun n => n.splitGain, false)
  | .cover => (fun n => n.hessianSum, true)
  | .totalCover => (fun n => n.hessianSum, false)

omit [Fl D] [FlCast F D] in
/-- `calculate_feature_importance` (src/gradientbooster.rs 977-1017).  `sort_by` with
`partial_cmp().unwrap()` panics on NaN. -/
def Booster.featureImportance (S : Sorter) (b : Booster F D) (m : ImportanceMethod)
    (normalize : Bool) : Res (List (Nat × F)) := do
  let (stat, average) := m.stat (F := F) (D := D)
  let stats ← Res.foldM' (fun st t => t.importance stat st) ([] : Stats F) b.trees
  let imp := stats.map fun p => (p.1, if average then p.2.1 / Fl.ofNat p.2.2 else p.2.1)
  if normalize then do
    let values ← sortPartialCmp S id (imp.map Prod.snd)
    let total := values.foldl (· + ·) 0
    .ok (imp.map fun p => (p.1, p.2 / total))
  else .ok imp

omit [Fl F] [Fl D] [FlCast F D] in
/-- `set_prediction_iteration` (src/gradientbooster.rs 1236-1239). -/
def Booster.setPredictionIteration (b : Booster F D) (i : Option Nat) : Booster F D :=
  { b with predictionIteration := i.map (· + 1) }

/-- Insert or replace in an association list (`HashMap::insert`). -/
def mapInsert {K V : Type} [DecidableEq K] : List (K × V) → K → V → List (K × V)
  | [], k, v => [(k, v)]
  | p :: m, k, v => if p.1 = k then (k, v) :: m else p :: mapInsert m k v

omit [Fl F] [Fl D] [FlCast F D] in
/-- `insert_metadata` (src/gradientbooster.rs 1257-1259). -/
def Booster.insertMetadata (b : Booster F D) (key value : String) : Booster F D :=
  { b with metadata := mapInsert b.metadata key value }

omit [Fl F] [Fl D] [FlCast F D] in
/-- `get_metadata` (src/gradientbooster.rs 1263-1265). -/
def Booster.getMetadata (b : Booster F D) (key : String) : Option String := b.metadata.lookup key

end

end Verif
