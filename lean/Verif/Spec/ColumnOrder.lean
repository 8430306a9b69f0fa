import Verif.Model.Booster

/-!
# Fits in which the order of the columns never decides

The search for the best split goes through the columns in order and keeps the first of equal gains.  The functions of
this file run a fit of the model and check at every node that is searched that the gain of the split found is not
offered by another column as well.
-/

namespace Verif

open scoped Verif

variable {F D : Type} [Fl F] [Fl D] [FlCast F D]

/-- No column other than that of the best split offers as much. -/
def clearNode (s : Splitter F) (node : SNode F D) (cols : List Nat) : Bool :=
  match bestSplit s node cols with
  | .ok (some x) => cols.zipIdx.all fun p => p.1 == x.splitFeature ||
      match bestFeatureSplit s node p.1 p.2 with
      | .ok (some z) => !(x.splitGain ≤ᶠ z.splitGain)
      | _ => true
  | _ => true

/-- The next node to be searched, if there is one, has a clear best split. -/
def clearNext (c : GrowCfg F D) (s : GrowState F D) : Bool :=
  match popNode c.heap c.policy s.step s.queue with
  | .ok (node, _) => decide (c.maxDepth < node.depth + 1) || clearNode c.splitter node c.train.colIndex
  | _ => true

/-- All nodes searched from the state `s` on have clear best splits. -/
def clearGrowth (c : GrowCfg F D) : Nat → GrowState F D → Bool
  | 0, _ => true
  | n + 1, s => growDone c s || (clearNext c s &&
      match growStep c s with
      | .ok s' => clearGrowth c n s'
      | _ => true)

/-- All nodes searched for a tree have clear best splits. -/
def clearTree (c : GrowCfg F D) (sm : SampleMethod) (index : List Nat) : Bool :=
  match growInit c sm index with
  | .ok s => clearGrowth c (growFuel c) s
  | _ => true

/-- The tree of iteration `i` is clear. -/
def clearIteration {R : Type} (env : Env R F D) (data : Matrix D) (splitter : Splitter F) (bdata : Matrix Nat)
    (cuts : JaggedMatrix D) (i : Nat) (s : FitState R F D) : Bool :=
  let b := s.booster
  match sampleIndex env.sorter env.rng b.sampleMethod b.subsample b.topRate b.otherRate s.rng data.index s.grad
    s.hess with
  | .ok (chosen, grad, hess, rng) =>
    clearTree { splitter, train := { data := bdata, cuts, grad, hess
                                     colIndex := (sampleColumns env.rng b.colsampleBytree rng data.cols).1 }
                maxLeaves := b.maxLeaves, maxDepth := b.maxDepth, policy := b.growPolicy, heap := env.heap i }
      b.sampleMethod chosen
  | _ => true

/-- The trees of the next `n` iterations are clear. -/
def clearLoop {R : Type} (env : Env R F D) (data : Matrix D) (y w : List D) (splitter : Splitter F)
    (bdata : Matrix Nat) (cuts : JaggedMatrix D) : Nat → Nat → FitState R F D → Bool
  | 0, _, _ => true
  | n + 1, i, s => clearIteration env data splitter bdata cuts i s &&
      match fitIteration env data y w splitter bdata cuts i s with
      | .ok (s', stop) => stop || clearLoop env data y w splitter bdata cuts n (i + 1) s'
      | _ => true

/-- The trees of a fit from the base score on are clear. -/
def clearFrom {R : Type} (env : Env R F D) (X : Matrix D) (y w : List D) (sp : Splitter F)
    (ev : Option (List (EvalSet D))) (b : Booster F D) : Bool :=
  let gh := calcGradHess (F := F) b.objectiveType y (List.replicate y.length b.baseScore) w
  match binMatrix env.sorter X w b.nbins b.missing with
  | .ok binned =>
    clearLoop env X y w sp { data := binned.binned, rows := X.rows, cols := X.cols } binned.cuts b.iterations 0
      { booster := b, yhat := List.replicate y.length b.baseScore, grad := gh.1, hess := gh.2
        evals := ev.map fun es => es.map fun e =>
          { toEvalSet := e, yhat := List.replicate e.y.length b.baseScore : TrainEval D }
        best := none, rng := env.rng.seed b.seed }
  | _ => true

/-- All trees of a fit are clear: at no node do two columns offer the best gain. -/
def Booster.fitsClearly {R : Type} (env : Env R F D) (b : Booster F D) (X : Matrix D) (y w : List D)
    (ev : Option (List (EvalSet D))) : Bool :=
  let b0 := if b.trees.isEmpty then b else b.reset
  if b0.initializeBaseScore then
    match calcInit b0.objectiveType y w with
    | .ok s => clearFrom env X y w b.splitter ev { b0 with baseScore := s }
    | _ => true
  else clearFrom env X y w b.splitter ev b0

end Verif
