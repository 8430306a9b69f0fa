import Verif.Model.Booster
import Verif.Model.Text

/-!
# The messages of `fit`

`fit` again, now with the messages that it hands to the logger (`info!`, src/gradientbooster.rs 661, 675-679, 694,
698-701).  The functions repeat those of `Verif/Model/Booster.lean` line by line and collect the messages in order.
The version with `parallel = true` writes the same messages at the same places and is not repeated.
-/

namespace Verif

open scoped Verif

variable {F D : Type}

/-- A message with its arguments. -/
inductive LogMsg (D : Type) where
  /-- src/gradientbooster.rs 661 -/
  | stopping (i : Nat) (m : D)
  /-- src/gradientbooster.rs 675-679 -/
  | evaluation (i : Nat) (ms : List D)
  /-- src/gradientbooster.rs 694 -/
  | completed (i n : Nat)
  /-- src/gradientbooster.rs 698-701 -/
  | finished (n : Nat)
  deriving DecidableEq, Repr

/-- The text of a message; `sh` is `format!("{}", ·)` and `sh4` is `format!("{:.4}", ·)`. -/
def LogMsg.text (sh sh4 : D → String) : LogMsg D → String
  | .stopping i m => s!"Stopping early at iteration {i} with metric value {sh m}"
  | .evaluation i ms => s!"Iteration {i} evaluation data values: {fmtVecOutput sh4 ms}"
  | .completed i n => s!"Completed iteration {i} of {n}"
  | .finished n => s!"Finished training booster with {n} iterations."

/-- `verbose` (src/gradientbooster.rs 576-580). -/
def verboseAt (every i : Nat) : Bool := if every = 0 then false else decide (i % every = 0)

section
variable [Fl F] [Fl D] [FlCast F D]

/-- `earlyStopUpdate` with its message (src/gradientbooster.rs 641-670). -/
def earlyStopLogged (b : Booster F D) (i : Nat) (m : D) (maximize : Bool) (best : Option D)
    (stop : Bool) : (Booster F D × Option D × Bool) × List (LogMsg D) :=
  match b.earlyStoppingRounds with
  | none => ((b, best, stop), [])
  | some rounds =>
    match best with
    | none => ((b.updateBestIteration i, some m, stop), [])
    | some v =>
      if isComparisonBetter v m maximize then ((b.updateBestIteration i, some m, stop), [])
      else
        match b.bestIteration with
        | some bi =>
          if rounds ≤ i - bi then
            ((b, some v, true), if 0 < b.logIterations then [.stopping i m] else [])
          else ((b, some v, stop), [])
        | none => ((b, some v, stop), [])

/-- `evalLoop` with its messages (src/gradientbooster.rs 632-673). -/
def evalLoopLogged (S : Sorter) (t : Tree F D) (i n : Nat) :
    List (TrainEval D) → Nat → Booster F D → Option D → Bool →
    Res ((List (TrainEval D) × List D × Booster F D × Option D × Bool) × List (LogMsg D))
  | [], _, b, best, stop => .ok (([], [], b, best, stop), [])
  | e :: l, k, b, best, stop => do
    let preds ← t.predict e.data b.missing
    let e := { e with yhat := addPreds e.yhat preds }
    let m ← b.metric.eval S e.y e.yhat e.w
    let ((b, best, stop), log) :=
      if k + 1 = n then earlyStopLogged b i m b.metric.maximize best stop else ((b, best, stop), [])
    let ((es, ms, b, best, stop), log') ← evalLoopLogged S t i n l (k + 1) b best stop
    .ok ((e :: es, m :: ms, b, best, stop), log ++ log')

/-- `evalSets` with its messages (src/gradientbooster.rs 625-684). -/
def evalSetsLogged (S : Sorter) (t : Tree F D) (i : Nat) (verbose : Bool) (b : Booster F D) :
    Option (List (TrainEval D)) → Option D →
    Res ((Booster F D × Option (List (TrainEval D)) × Option D × Bool) × List (LogMsg D))
  | none, best => .ok ((b, none, best, false), [])
  | some es, best => do
    let ((es', ms, b, best, stop), log) ←
      evalLoopLogged S t i es.length es 0 (withHistory b es.length) best false
    let log := log ++ if verbose then [.evaluation i ms] else []
    let b ← appendHistory b ms
    .ok ((b, some es', best, stop), log)

/-- `fitIteration` with its messages (src/gradientbooster.rs 575-696). -/
def fitIterationLogged {R : Type} (env : Env R F D) (data : Matrix D) (y w : List D)
    (splitter : Splitter F) (bdata : Matrix Nat) (cuts : JaggedMatrix D) (i : Nat)
    (s : FitState R F D) : Res ((FitState R F D × Bool) × List (LogMsg D)) := do
  let b := s.booster
  let verbose := verboseAt b.logIterations i
  let (chosen, grad, hess, rng) ← sampleIndex env.sorter env.rng b.sampleMethod b.subsample
    b.topRate b.otherRate s.rng data.index s.grad s.hess
  let (colIndex, rng) := sampleColumns env.rng b.colsampleBytree rng data.cols
  let cfg : GrowCfg F D :=
    { splitter, train := { data := bdata, cuts, grad, hess, colIndex }, maxLeaves := b.maxLeaves
      maxDepth := b.maxDepth, policy := b.growPolicy, heap := env.heap i }
  let tree ← Tree.fit cfg b.sampleMethod chosen
  let preds ← tree.predict data b.missing
  let yhat := addPreds s.yhat preds
  let ((b, evals, best, stop), log) ← evalSetsLogged env.sorter tree i verbose b s.evals s.best
  let b := { b with trees := b.trees ++ [tree] }
  if stop then .ok (({ booster := b, yhat, grad, hess, evals, best, rng }, true), log)
  else
    let gh := calcGradHess b.objectiveType y yhat w
    .ok (({ booster := b, yhat, grad := gh.1, hess := gh.2, evals, best, rng }, false),
      log ++ if verbose then [.completed i b.iterations] else [])

/-- `fitLoop` with its messages (src/gradientbooster.rs 575-696). -/
def fitLoopLogged {R : Type} (env : Env R F D) (data : Matrix D) (y w : List D)
    (splitter : Splitter F) (bdata : Matrix Nat) (cuts : JaggedMatrix D) :
    Nat → Nat → FitState R F D → Res (FitState R F D × List (LogMsg D))
  | 0, _, s => .ok (s, [])
  | n + 1, i, s => do
    let ((s, stop), log) ← fitIterationLogged env data y w splitter bdata cuts i s
    if stop then .ok (s, log)
    else do
      let (s, log') ← fitLoopLogged env data y w splitter bdata cuts n (i + 1) s
      .ok (s, log ++ log')

/-- `fit_trees` with its messages (src/gradientbooster.rs 529-704). -/
def fitTreesLogged {R : Type} (env : Env R F D) (b : Booster F D) (data : Matrix D) (y w : List D)
    (splitter : Splitter F) (evalData : Option (List (EvalSet D))) : Res (Booster F D × List (LogMsg D)) := do
  let b := if b.trees.isEmpty then b else b.reset
  let b ← if b.initializeBaseScore then do
      let s ← calcInit b.objectiveType y w
      pure { b with baseScore := s }
    else pure b
  let yhat := List.replicate y.length b.baseScore
  let gh := calcGradHess (F := F) b.objectiveType y yhat w
  let binned ← binMatrix env.sorter data w b.nbins b.missing
  let bdata : Matrix Nat := { data := binned.binned, rows := data.rows, cols := data.cols }
  let evals := evalData.map fun es => es.map fun e =>
    { toEvalSet := e, yhat := List.replicate e.y.length b.baseScore : TrainEval D }
  let (s, log) ← fitLoopLogged env data y w splitter bdata binned.cuts b.iterations 0
    { booster := b, yhat, grad := gh.1, hess := gh.2, evals, best := none
      rng := env.rng.seed b.seed }
  .ok (s.booster, log ++ if 0 < s.booster.logIterations then [.finished s.booster.trees.length] else [])

/-- `fit` (src/gradientbooster.rs 436-491) with its messages. -/
def Booster.fitLogged {R : Type} (env : Env R F D) (b : Booster F D) (data : Matrix D) (y w : List D)
    (evalData : Option (List (EvalSet D))) : Res ((Booster F D × Except ForustError Unit) × List (LogMsg D)) :=
  match validateFit y w evalData with
  | .error e => .ok ((b, .error e), [])
  | .ok () => do
    let (b', log) ← fitTreesLogged env b data y w b.splitter evalData
    .ok ((b', .ok ()), log)

end

end Verif
