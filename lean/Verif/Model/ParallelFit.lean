import Verif.Model.Parallel

/-!
# Training with `parallel = true`

The functions of `Tree::fit` and `fit` with the parallel versions of the two things they compute with rayon: the
histograms (src/histogram.rs 149-161) and the predictions of a tree (src/tree.rs 427-440).  Everything else is
the text of the sequential functions.  A run of the thread pool is a division of the columns for every histogram
and a schedule of the rows for every prediction.
-/

namespace Verif

open scoped Verif

section
variable {F D : Type} [Fl F] [Fl D] [FlCast F D]

/-- What the thread pool does during one call of `fit`.  `divide i rows cols` is the division of the columns in
the histogram of `rows` in iteration `i`; `sched i k` is the order of the rows of the training data (`k = 0`) or
of evaluation set `k - 1` in the predictions of iteration `i`. -/
structure PoolRun where
  /-- division of the columns -/
  divide : Nat → List Nat → List Nat → SplitTree Nat
  /-- order of the rows -/
  sched : Nat → Nat → List Nat

/-- Divisions within one tree. -/
abbrev Division := List Nat → List Nat → SplitTree Nat

/-- `HistogramMatrix::new` on the rows `index[i..j]`, in parallel (src/histogram.rs 120-203). -/
def TrainData.histPar (P : Division) (t : TrainData F D) (index : List Nat) (i j : Nat) :
    Res (JaggedMatrix (Bin F D)) := do
  let rows ← slice index i j
  histogramMatrixPar (P rows t.colIndex) t.data t.cuts t.grad t.hess rows t.colIndex true

/-- `MissingImputerSplitter::handle_split_info` with `parallel = true` (src/splitter.rs 948-1046). -/
def imputerHandlePar (P : Division) (t : TrainData F D) (info : SplitInfo F D) (nNodes : Nat) (node : SNode F D)
    (index : List Nat) : Res (SNode F D × List Nat × List (SNode F D)) := do
  let leftChild := nNodes
  let rightChild := leftChild + 1
  let missingRight ← info.missingNode.goesRight
  let rows ← slice index node.startIdx node.stopIdx
  let feature ← t.data.getCol info.splitFeature
  let (rows, split) ← pivotOnSplit rows feature info.splitBin missingRight
  let index := writeBack index node.startIdx node.stopIdx rows
  let total := node.stopIdx - node.startIdx
  let nRight := total - split
  let nLeft := total - nRight
  let splitIdx := split + node.startIdx
  let (lh, rh) ←
    if nLeft < nRight then do
      let lh ← t.histPar P index node.startIdx splitIdx
      pure (lh, histFromParentChild node.histograms lh)
    else do
      let rh ← t.histPar P index splitIdx node.stopIdx
      pure (histFromParentChild node.histograms rh, rh)
  let missingChild := if missingRight then rightChild else leftChild
  let node' := node.updateChildren missingChild leftChild rightChild info
  let l := SNode.fromNodeInfo leftChild lh (node.depth + 1) node.startIdx splitIdx info.leftNode
  let r := SNode.fromNodeInfo rightChild rh (node.depth + 1) splitIdx node.stopIdx info.rightNode
  .ok (node', index, [l, r])

/-- The three child histograms with `parallel = true` (src/splitter.rs 570-683). -/
def branchHistsPar (P : Division) (t : TrainData F D) (node : SNode F D) (index : List Nat)
    (nMissing nLeft nRight missingSplit split : Nat) :
    Res (JaggedMatrix (Bin F D) × JaggedMatrix (Bin F D) × JaggedMatrix (Bin F D)) :=
  let mx := maxOf3 nMissing nLeft nRight
  if nMissing = 0 then
    if mx = 1 then do
      let rh ← t.histPar P index split node.stopIdx
      .ok (JaggedMatrix.empty, histFromParentChild node.histograms rh, rh)
    else do
      let lh ← t.histPar P index missingSplit split
      .ok (JaggedMatrix.empty, lh, histFromParentChild node.histograms lh)
  else if mx = 0 then do
    let lh ← t.histPar P index missingSplit split
    let rh ← t.histPar P index split node.stopIdx
    .ok (histFromParentTwoChildren node.histograms lh rh, lh, rh)
  else if mx = 1 then do
    let mh ← t.histPar P index node.startIdx missingSplit
    let rh ← t.histPar P index split node.stopIdx
    .ok (mh, histFromParentTwoChildren node.histograms mh rh, rh)
  else do
    let mh ← t.histPar P index node.startIdx missingSplit
    let lh ← t.histPar P index missingSplit split
    .ok (mh, lh, histFromParentTwoChildren node.histograms mh lh)

/-- `MissingBranchSplitter::handle_split_info` with `parallel = true` (src/splitter.rs 497-714). -/
def branchHandlePar (P : Division) (p : BranchParams F) (t : TrainData F D) (info : SplitInfo F D) (nNodes : Nat)
    (node : SNode F D) (index : List Nat) :
    Res (SNode F D × List Nat × List (SNode F D)) := do
  let missingChild := nNodes
  let leftChild := missingChild + 1
  let rightChild := missingChild + 2
  let node' := node.updateChildren missingChild leftChild rightChild info
  let (isLeaf, minfo) ← p.missingChild info
  let minfo := if p.missingNodeTreatment = .assignToParent then
      { minfo with weight := node.weightValue } else minfo
  let rows ← slice index node.startIdx node.stopIdx
  let feature ← t.data.getCol info.splitFeature
  let (rows, mSplit, split) ← pivotOnSplitExcludeMissing rows feature info.splitBin
  let index := writeBack index node.startIdx node.stopIdx rows
  let total := node.stopIdx - node.startIdx
  Res.assert (decide (mSplit ≤ split ∧ split ≤ total))
  let nRight := total - split
  let nLeft := total - nRight - mSplit
  let nMissing := total - (nRight + nLeft)
  let splitIdx := split + node.startIdx
  let missingSplitIdx := mSplit + node.startIdx
  let (mh, lh, rh) ← branchHistsPar P t node index nMissing nLeft nRight missingSplitIdx splitIdx
  let isLeaf := isLeaf || decide (nMissing = 0)
  let m := { SNode.fromNodeInfo missingChild mh (node.depth + 1) node.startIdx missingSplitIdx minfo
    with isMissingLeaf := isLeaf }
  let l := SNode.fromNodeInfo leftChild lh (node.depth + 1) missingSplitIdx splitIdx info.leftNode
  let r := SNode.fromNodeInfo rightChild rh (node.depth + 1) splitIdx node.stopIdx info.rightNode
  .ok (node', index, [m, l, r])

/-- `split_node` with `parallel = true` (src/splitter.rs 222-240). -/
def splitNodePar (P : Division) (s : Splitter F) (t : TrainData F D) (nNodes : Nat) (node : SNode F D)
    (index : List Nat) : Res (SNode F D × List Nat × List (SNode F D)) := do
  let best ← bestSplit s node t.colIndex
  match best with
  | none => .ok (node, index, [])
  | some info =>
    match s with
    | .imputer _ => imputerHandlePar P t info nNodes node index
    | .branch p => branchHandlePar P p t info nNodes node index

/-- The body of the loop of `Tree::fit` with `parallel = true` (src/tree.rs 108-150). -/
def growStepPar (P : Division) (c : GrowCfg F D) (s : GrowState F D) : Res (GrowState F D) := do
  let (node, queue) ← popNode c.heap c.policy s.step s.queue
  let s := { s with queue, step := s.step + 1 }
  if c.maxDepth < node.depth + 1 then .ok s
  else do
    let nLeaves := s.nLeaves - 1
    let (node', index, new) ← splitNodePar P c.splitter c.train s.nNodes node s.index
    if new.length = 0 then .ok { s with index, nLeaves := nLeaves + 1 }
    else do
      let n ← idx s.nodes node.num
      let nodes := s.nodes.set node.num (n.makeParentNode node')
      let (nodes, queue) := addNodes c.splitter.params.learningRate nodes s.queue new
      .ok { nodes, index, queue, nLeaves := nLeaves + new.length, nNodes := s.nNodes + new.length
            step := s.step }

/-- The loop of `Tree::fit` with `parallel = true` (src/tree.rs 103-150). -/
def growLoopPar (P : Division) (c : GrowCfg F D) : Nat → GrowState F D → Res (GrowState F D)
  | 0, s => if growDone c s then .ok s else .diverge
  | n + 1, s => if growDone c s then .ok s else growStepPar P c s >>= growLoopPar P c n

/-- Initial state with `parallel = true` (src/tree.rs 50-102). -/
def growInitPar (P : Division) (c : GrowCfg F D) (sm : SampleMethod) (index : List Nat) : Res (GrowState F D) := do
  let p := c.splitter.params
  let t := c.train
  let (g, h, sort) ← rootSums (D := D) sm t.grad t.hess index
  let rootGain := gain p.l2 g h
  let rootWeight := weight p.l1 p.l2 p.maxDeltaStep g h
  let hists ← histogramMatrixPar (P index t.colIndex) t.data t.cuts t.grad t.hess index t.colIndex sort
  let root := SNode.new 0 hists rootWeight rootGain g h 0 0 index.length ninf inf
  .ok { nodes := [root.asNode p.learningRate], index, queue := pushNode [] root, nLeaves := 1
        nNodes := 1, step := 0 }

/-- `Tree::fit` with `parallel = true` (src/tree.rs 33-155). -/
def Tree.fitPar (P : Division) (c : GrowCfg F D) (sm : SampleMethod) (index : List Nat) : Res (Tree F D) := do
  let s ← growInitPar P c sm index
  let s ← growLoopPar P c (growFuel c) s
  let nodes ← cleanUpSplits c.splitter s.nodes
  .ok { nodes }

/-- The loop over the evaluation sets with `parallel = true` (src/gradientbooster.rs 632-673); `σ k` orders
the rows of set `k`. -/
def evalLoopPar (σ : Nat → List Nat) (S : Sorter) (t : Tree F D) (i n : Nat) :
    List (TrainEval D) → Nat → Booster F D → Option D → Bool →
    Res (List (TrainEval D) × List D × Booster F D × Option D × Bool)
  | [], _, b, best, stop => .ok ([], [], b, best, stop)
  | e :: l, k, b, best, stop => do
    let preds ← t.predictPar (σ k) e.data b.missing
    let e := { e with yhat := addPreds e.yhat preds }
    let m ← b.metric.eval S e.y e.yhat e.w
    let (b, best, stop) :=
      if k + 1 = n then earlyStopUpdate b i m b.metric.maximize best stop else (b, best, stop)
    let (es, ms, b, best, stop) ← evalLoopPar σ S t i n l (k + 1) b best stop
    .ok (e :: es, m :: ms, b, best, stop)

/-- The evaluation block with `parallel = true` (src/gradientbooster.rs 625-684). -/
def evalSetsPar (σ : Nat → List Nat) (S : Sorter) (t : Tree F D) (i : Nat) (b : Booster F D) :
    Option (List (TrainEval D)) → Option D →
    Res (Booster F D × Option (List (TrainEval D)) × Option D × Bool)
  | none, best => .ok (b, none, best, false)
  | some es, best => do
    let (es', ms, b, best, stop) ← evalLoopPar σ S t i es.length es 0 (withHistory b es.length) best false
    let b ← appendHistory b ms
    .ok (b, some es', best, stop)

/-- One iteration with `parallel = true` (src/gradientbooster.rs 575-696). -/
def fitIterationPar {R : Type} (P : PoolRun) (env : Env R F D) (data : Matrix D) (y w : List D)
    (splitter : Splitter F) (bdata : Matrix Nat) (cuts : JaggedMatrix D) (i : Nat)
    (s : FitState R F D) : Res (FitState R F D × Bool) := do
  let b := s.booster
  let (chosen, grad, hess, rng) ← sampleIndex env.sorter env.rng b.sampleMethod b.subsample
    b.topRate b.otherRate s.rng data.index s.grad s.hess
  let (colIndex, rng) := sampleColumns env.rng b.colsampleBytree rng data.cols
  let cfg : GrowCfg F D :=
    { splitter, train := { data := bdata, cuts, grad, hess, colIndex }, maxLeaves := b.maxLeaves
      maxDepth := b.maxDepth, policy := b.growPolicy, heap := env.heap i }
  let tree ← Tree.fitPar (P.divide i) cfg b.sampleMethod chosen
  let preds ← tree.predictPar (P.sched i 0) data b.missing
  let yhat := addPreds s.yhat preds
  let (b, evals, best, stop) ← evalSetsPar (fun k => P.sched i (k + 1)) env.sorter tree i b s.evals s.best
  let b := { b with trees := b.trees ++ [tree] }
  if stop then .ok ({ booster := b, yhat, grad, hess, evals, best, rng }, true)
  else
    let gh := calcGradHess b.objectiveType y yhat w
    .ok ({ booster := b, yhat, grad := gh.1, hess := gh.2, evals, best, rng }, false)

/-- The boosting loop with `parallel = true` (src/gradientbooster.rs 575-696). -/
def fitLoopPar {R : Type} (P : PoolRun) (env : Env R F D) (data : Matrix D) (y w : List D)
    (splitter : Splitter F) (bdata : Matrix Nat) (cuts : JaggedMatrix D) :
    Nat → Nat → FitState R F D → Res (FitState R F D)
  | 0, _, s => .ok s
  | n + 1, i, s => do
    let (s, stop) ← fitIterationPar P env data y w splitter bdata cuts i s
    if stop then .ok s else fitLoopPar P env data y w splitter bdata cuts n (i + 1) s

/-- `fit_trees` with `parallel = true` (src/gradientbooster.rs 529-704). -/
def fitTreesPar {R : Type} (P : PoolRun) (env : Env R F D) (b : Booster F D) (data : Matrix D) (y w : List D)
    (splitter : Splitter F) (evalData : Option (List (EvalSet D))) : Res (Booster F D) := do
  let b := if b.trees.isEmpty then b else b.reset
  let b ← if b.initializeBaseScore then do
      let s ← calcInit b.objectiveType y w
      pure { b with baseScore := s }
    else pure b
  let yhat := List.replicate y.length b.baseScore
  let gh := calcGradHess (F := F) b.objectiveType y yhat w
  let binned ← binMatrix env.sorter data w b.nbins b.missing
  let bdata : Matrix Nat := { data := binned.binned, rows := data.rows, cols := data.cols }
  let evals := evalData.map fun es => es.map fun e =>
    { toEvalSet := e, yhat := List.replicate e.y.length b.baseScore : TrainEval D }
  let s ← fitLoopPar P env data y w splitter bdata binned.cuts b.iterations 0
    { booster := b, yhat, grad := gh.1, hess := gh.2, evals, best := none
      rng := env.rng.seed b.seed }
  .ok s.booster

/-- `fit` (src/gradientbooster.rs 436-491) as the program runs it: the field `parallel` selects the version. -/
def Booster.fitRun {R : Type} (P : PoolRun) (env : Env R F D) (b : Booster F D) (data : Matrix D) (y w : List D)
    (evalData : Option (List (EvalSet D))) : Res (Booster F D × Except ForustError Unit) :=
  match validateFit y w evalData with
  | .error e => .ok (b, .error e)
  | .ok () => do
    let b' ← if b.parallel then fitTreesPar P env b data y w b.splitter evalData
      else fitTrees env b data y w b.splitter evalData
    .ok (b', .ok ())

end

end Verif
