import Verif.Model.Booster

/-!
# Subtractions of indices and counts (`usize`)

In the other files a `usize` subtraction of the code is a subtraction of natural numbers, which stops
at 0 (or the model panics where the operands are out of order).  In Rust a subtraction below 0 panics
in a build with overflow checks and wraps around in one without.  Here the functions of the code that
subtract are written a second time, with the subtraction as a parameter: `UsizeSub` fixes it only
where the result is not negative.  Sites: src/utils.rs 443 and 518 (`high -= 1`), src/splitter.rs
546-549 and 983-985 (numbers of records), src/tree.rs 131 (`n_leaves -= 1`), src/gradientbooster.rs
658 (`i - best_iteration`), src/shapley.rs 75, 90, 95, 116, 119 (`unique_depth - i`) and 190
(`unique_depth -= 1`).  The remaining ones (`len() - 1` of src/utils.rs 424 and 478, src/histogram.rs
95, and of the contributions) panic in the model on an empty list.
-/

namespace Verif

open scoped Verif

/-- A subtraction of `usize`: the difference where it is not negative, anything elsewhere. -/
structure UsizeSub where
  /-- the operation -/
  sub : Nat → Nat → Res Nat
  /-- the difference -/
  exact : ∀ a b, b ≤ a → sub a b = .ok (a - b)

/-- A build with overflow checks. -/
def UsizeSub.checked : UsizeSub where
  sub a b := if b ≤ a then .ok (a - b) else .panic
  exact a b h := by simp [h]

/-- A build without overflow checks, on a machine of 64 bits. -/
def UsizeSub.wrapping : UsizeSub where
  sub a b := .ok (if b ≤ a then a - b else a + 2 ^ 64 - b)
  exact a b h := by simp [h]

section pivots

/-- Second inner loop of `pivot_on_split` (src/utils.rs 437-446). -/
def pivotHighU (u : UsizeSub) (index feature : List Nat) (split : Nat) (mr : Bool) (low : Nat) :
    Nat → Nat → Res Nat
  | 0, high => if low < high then .diverge else .ok high
  | n + 1, high =>
    if low < high then do
      let i ← idx index high
      let h ← idx feature i
      if missingGoesLeft split h mr then .ok high
      else do
        let high ← u.sub high 1
        pivotHighU u index feature split mr low n high
    else .ok high

/-- Outer loop of `pivot_on_split` (src/utils.rs 426-450). -/
def pivotLoopU (u : UsizeSub) (feature : List Nat) (split : Nat) (mr : Bool) (maxIdx : Nat) :
    Nat → List Nat → Nat → Nat → Res (List Nat × Nat)
  | 0, index, low, high => if low < high then .diverge else .ok (index, low)
  | n + 1, index, low, high =>
    if low < high then do
      let low ← pivotLow index feature split mr maxIdx (maxIdx + 1) low
      let high ← pivotHighU u index feature split mr low (maxIdx + 1) high
      let index ← if low < high then swapIdx index high low else pure index
      pivotLoopU u feature split mr maxIdx n index low high
    else .ok (index, low)

/-- `pivot_on_split` (src/utils.rs 416-452). -/
def pivotOnSplitU (u : UsizeSub) (index feature : List Nat) (split : Nat) (missingRight : Bool) :
    Res (List Nat × Nat) :=
  if index.length = 0 then .panic
  else pivotLoopU u feature split missingRight (index.length - 1) (index.length + 1) index 0
    (index.length - 1)

/-- Second inner loop of `pivot_on_split_exclude_missing` (src/utils.rs 501-521). -/
def pivotXHighU (u : UsizeSub) (feature : List Nat) (split : Nat) :
    Nat → List Nat → Nat → Nat → Nat → Res (List Nat × Nat × Nat × Nat)
  | 0, index, missing, low, high =>
    if low < high then .diverge else .ok (index, missing, low, high)
  | n + 1, index, missing, low, high =>
    if low < high then do
      let i ← idx index high
      let h ← idx feature i
      let (index, missing, low) ←
        if h = 0 then do
          let ix ← swapIdx index missing high
          let missing := missing + 1
          pure (ix, missing, if low < missing then missing else low)
        else pure (index, missing, low)
      if h < split then .ok (index, missing, low, high)
      else do
        let high ← u.sub high 1
        pivotXHighU u feature split n index missing low high
    else .ok (index, missing, low, high)

/-- Outer loop of `pivot_on_split_exclude_missing` (src/utils.rs 486-525). -/
def pivotXLoopU (u : UsizeSub) (feature : List Nat) (split maxIdx : Nat) :
    Nat → List Nat → Nat → Nat → Nat → Res (List Nat × Nat × Nat)
  | 0, index, missing, low, high =>
    if low < high then .diverge else .ok (index, missing, low)
  | n + 1, index, missing, low, high =>
    if low < high then do
      let (index, missing, low) ← pivotXLow feature split maxIdx (maxIdx + 1) index missing low
      let (index, missing, low, high) ←
        pivotXHighU u feature split (maxIdx + 1) index missing low high
      let index ← if low < high then swapIdx index high low else pure index
      pivotXLoopU u feature split maxIdx n index missing low high
    else .ok (index, missing, low)

/-- `pivot_on_split_exclude_missing` (src/utils.rs 471-527). -/
def pivotOnSplitExcludeMissingU (u : UsizeSub) (index feature : List Nat) (split : Nat) :
    Res (List Nat × Nat × Nat) :=
  if index.length = 0 then .panic
  else pivotXLoopU u feature split (index.length - 1) (2 * index.length + 1) index 0 0
    (index.length - 1)

end pivots

section trees
variable {F D : Type} [Fl F] [Fl D] [FlCast F D]

/-- `MissingImputerSplitter::handle_split_info` (src/splitter.rs 948-1046). -/
def imputerHandleU (u : UsizeSub) (t : TrainData F D) (info : SplitInfo F D) (nNodes : Nat)
    (node : SNode F D) (index : List Nat) : Res (SNode F D × List Nat × List (SNode F D)) := do
  let leftChild := nNodes
  let rightChild := leftChild + 1
  let missingRight ← info.missingNode.goesRight
  let rows ← slice index node.startIdx node.stopIdx
  let feature ← t.data.getCol info.splitFeature
  let (rows, split) ← pivotOnSplitU u rows feature info.splitBin missingRight
  let index := writeBack index node.startIdx node.stopIdx rows
  let total ← u.sub node.stopIdx node.startIdx
  let nRight ← u.sub total split
  let nLeft ← u.sub total nRight
  let splitIdx := split + node.startIdx
  let (lh, rh) ←
    if nLeft < nRight then do
      let lh ← t.hist index node.startIdx splitIdx
      pure (lh, histFromParentChild node.histograms lh)
    else do
      let rh ← t.hist index splitIdx node.stopIdx
      pure (histFromParentChild node.histograms rh, rh)
  let missingChild := if missingRight then rightChild else leftChild
  let node' := node.updateChildren missingChild leftChild rightChild info
  let l := SNode.fromNodeInfo leftChild lh (node.depth + 1) node.startIdx splitIdx info.leftNode
  let r := SNode.fromNodeInfo rightChild rh (node.depth + 1) splitIdx node.stopIdx info.rightNode
  .ok (node', index, [l, r])

/-- `MissingBranchSplitter::handle_split_info` (src/splitter.rs 497-714). -/
def branchHandleU (u : UsizeSub) (p : BranchParams F) (t : TrainData F D) (info : SplitInfo F D)
    (nNodes : Nat) (node : SNode F D) (index : List Nat) :
    Res (SNode F D × List Nat × List (SNode F D)) := do
  let missingChild := nNodes
  let leftChild := missingChild + 1
  let rightChild := missingChild + 2
  let node' := node.updateChildren missingChild leftChild rightChild info
  let (isLeaf, minfo) ← p.missingChild info
  let minfo := if p.missingNodeTreatment = .assignToParent then
      { minfo with weight := node.weightValue } else minfo
  let rows ← slice index node.startIdx node.stopIdx
  let feature ← t.data.getCol info.splitFeature
  let (rows, mSplit, split) ← pivotOnSplitExcludeMissingU u rows feature info.splitBin
  let index := writeBack index node.startIdx node.stopIdx rows
  let total ← u.sub node.stopIdx node.startIdx
  let nRight ← u.sub total split
  let nLeftMissing ← u.sub total nRight
  let nLeft ← u.sub nLeftMissing mSplit
  let nMissing ← u.sub total (nRight + nLeft)
  let splitIdx := split + node.startIdx
  let missingSplitIdx := mSplit + node.startIdx
  let (mh, lh, rh) ← branchHists t node index nMissing nLeft nRight missingSplitIdx splitIdx
  let isLeaf := isLeaf || decide (nMissing = 0)
  let m := { SNode.fromNodeInfo missingChild mh (node.depth + 1) node.startIdx missingSplitIdx minfo
    with isMissingLeaf := isLeaf }
  let l := SNode.fromNodeInfo leftChild lh (node.depth + 1) missingSplitIdx splitIdx info.leftNode
  let r := SNode.fromNodeInfo rightChild rh (node.depth + 1) splitIdx node.stopIdx info.rightNode
  .ok (node', index, [m, l, r])

/-- `split_node` (src/splitter.rs 222-240). -/
def splitNodeU (u : UsizeSub) (s : Splitter F) (t : TrainData F D) (nNodes : Nat) (node : SNode F D)
    (index : List Nat) : Res (SNode F D × List Nat × List (SNode F D)) := do
  let best ← bestSplit s node t.colIndex
  match best with
  | none => .ok (node, index, [])
  | some info =>
    match s with
    | .imputer _ => imputerHandleU u t info nNodes node index
    | .branch p => branchHandleU u p t info nNodes node index

/-- The loop body of `Tree::fit` (src/tree.rs 108-150). -/
def growStepU (u : UsizeSub) (c : GrowCfg F D) (s : GrowState F D) : Res (GrowState F D) := do
  let (node, queue) ← popNode c.heap c.policy s.step s.queue
  let s := { s with queue, step := s.step + 1 }
  if c.maxDepth < node.depth + 1 then .ok s
  else do
    let nLeaves ← u.sub s.nLeaves 1
    let (node', index, new) ← splitNodeU u c.splitter c.train s.nNodes node s.index
    if new.length = 0 then .ok { s with index, nLeaves := nLeaves + 1 }
    else do
      let n ← idx s.nodes node.num
      let nodes := s.nodes.set node.num (n.makeParentNode node')
      let (nodes, queue) := addNodes c.splitter.params.learningRate nodes s.queue new
      .ok { nodes, index, queue, nLeaves := nLeaves + new.length, nNodes := s.nNodes + new.length
            step := s.step }

/-- The loop of `Tree::fit` (src/tree.rs 103-150). -/
def growLoopU (u : UsizeSub) (c : GrowCfg F D) : Nat → GrowState F D → Res (GrowState F D)
  | 0, s => if growDone c s then .ok s else .diverge
  | n + 1, s => if growDone c s then .ok s else growStepU u c s >>= growLoopU u c n

/-- `Tree::fit` (src/tree.rs 33-155). -/
def Tree.fitU (u : UsizeSub) (c : GrowCfg F D) (sm : SampleMethod) (index : List Nat) :
    Res (Tree F D) := do
  let s ← growInit c sm index
  let s ← growLoopU u c (growFuel c) s
  let nodes ← cleanUpSplits c.splitter s.nodes
  .ok { nodes }

end trees

section booster
variable {F D : Type} [Fl F] [Fl D] [FlCast F D]

omit [Fl F] [FlCast F D] in
/-- Early-stopping bookkeeping (src/gradientbooster.rs 641-670). -/
def earlyStopUpdateU (u : UsizeSub) (b : Booster F D) (i : Nat) (m : D) (maximize : Bool)
    (best : Option D) (stop : Bool) : Res (Booster F D × Option D × Bool) :=
  match b.earlyStoppingRounds with
  | none => .ok (b, best, stop)
  | some rounds =>
    match best with
    | none => .ok (b.updateBestIteration i, some m, stop)
    | some v =>
      if isComparisonBetter v m maximize then .ok (b.updateBestIteration i, some m, stop)
      else
        match b.bestIteration with
        | some bi => do
          let d ← u.sub i bi
          .ok (b, some v, stop || decide (rounds ≤ d))
        | none => .ok (b, some v, stop)

/-- The loop over the evaluation sets (src/gradientbooster.rs 632-673). -/
def evalLoopU (u : UsizeSub) (S : Sorter) (t : Tree F D) (i n : Nat) :
    List (TrainEval D) → Nat → Booster F D → Option D → Bool →
    Res (List (TrainEval D) × List D × Booster F D × Option D × Bool)
  | [], _, b, best, stop => .ok ([], [], b, best, stop)
  | e :: l, k, b, best, stop => do
    let preds ← t.predict e.data b.missing
    let e := { e with yhat := addPreds e.yhat preds }
    let m ← b.metric.eval S e.y e.yhat e.w
    let (b, best, stop) ←
      if k + 1 = n then earlyStopUpdateU u b i m b.metric.maximize best stop
      else .ok (b, best, stop)
    let (es, ms, b, best, stop) ← evalLoopU u S t i n l (k + 1) b best stop
    .ok (e :: es, m :: ms, b, best, stop)

/-- The evaluation block of an iteration (src/gradientbooster.rs 625-684). -/
def evalSetsU (u : UsizeSub) (S : Sorter) (t : Tree F D) (i : Nat) (b : Booster F D) :
    Option (List (TrainEval D)) → Option D →
    Res (Booster F D × Option (List (TrainEval D)) × Option D × Bool)
  | none, best => .ok (b, none, best, false)
  | some es, best => do
    let (es', ms, b, best, stop) ←
      evalLoopU u S t i es.length es 0 (withHistory b es.length) best false
    let b ← appendHistory b ms
    .ok (b, some es', best, stop)

/-- One iteration of the boosting loop (src/gradientbooster.rs 575-696). -/
def fitIterationU {R : Type} (u : UsizeSub) (env : Env R F D) (data : Matrix D) (y w : List D)
    (splitter : Splitter F) (bdata : Matrix Nat) (cuts : JaggedMatrix D) (i : Nat)
    (s : FitState R F D) : Res (FitState R F D × Bool) := do
  let b := s.booster
  let (chosen, grad, hess, rng) ← sampleIndex env.sorter env.rng b.sampleMethod b.subsample
    b.topRate b.otherRate s.rng data.index s.grad s.hess
  let (colIndex, rng) := sampleColumns env.rng b.colsampleBytree rng data.cols
  let cfg : GrowCfg F D :=
    { splitter, train := { data := bdata, cuts, grad, hess, colIndex }, maxLeaves := b.maxLeaves
      maxDepth := b.maxDepth, policy := b.growPolicy, heap := env.heap i }
  let tree ← Tree.fitU u cfg b.sampleMethod chosen
  let preds ← tree.predict data b.missing
  let yhat := addPreds s.yhat preds
  let (b, evals, best, stop) ← evalSetsU u env.sorter tree i b s.evals s.best
  let b := { b with trees := b.trees ++ [tree] }
  if stop then .ok ({ booster := b, yhat, grad, hess, evals, best, rng }, true)
  else
    let gh := calcGradHess b.objectiveType y yhat w
    .ok ({ booster := b, yhat, grad := gh.1, hess := gh.2, evals, best, rng }, false)

/-- The boosting loop (src/gradientbooster.rs 575-696). -/
def fitLoopU {R : Type} (u : UsizeSub) (env : Env R F D) (data : Matrix D) (y w : List D)
    (splitter : Splitter F) (bdata : Matrix Nat) (cuts : JaggedMatrix D) :
    Nat → Nat → FitState R F D → Res (FitState R F D)
  | 0, _, s => .ok s
  | n + 1, i, s => do
    let (s, stop) ← fitIterationU u env data y w splitter bdata cuts i s
    if stop then .ok s else fitLoopU u env data y w splitter bdata cuts n (i + 1) s

/-- `fit_trees` (src/gradientbooster.rs 529-704). -/
def fitTreesU {R : Type} (u : UsizeSub) (env : Env R F D) (b : Booster F D) (data : Matrix D)
    (y w : List D) (splitter : Splitter F) (evalData : Option (List (EvalSet D))) :
    Res (Booster F D) := do
  let b := if b.trees.isEmpty then b else b.reset
  let b ← if b.initializeBaseScore then do
      let s ← calcInit b.objectiveType y w
      pure { b with baseScore := s }
    else pure b
  let yhat := List.replicate y.length b.baseScore
  let gh := calcGradHess (F := F) b.objectiveType y yhat w
  let binned ← binMatrix env.sorter data w b.nbins b.missing
  let bdata : Matrix Nat := { data := binned.binned, rows := data.rows, cols := data.cols }
  let evals := evalData.map fun es => es.map fun e =>
    { toEvalSet := e, yhat := List.replicate e.y.length b.baseScore : TrainEval D }
  let s ← fitLoopU u env data y w splitter bdata binned.cuts b.iterations 0
    { booster := b, yhat, grad := gh.1, hess := gh.2, evals, best := none
      rng := env.rng.seed b.seed }
  .ok s.booster

/-- `fit` (src/gradientbooster.rs 436-491). -/
def Booster.fitU {R : Type} (u : UsizeSub) (env : Env R F D) (b : Booster F D) (data : Matrix D)
    (y w : List D) (evalData : Option (List (EvalSet D))) :
    Res (Booster F D × Except ForustError Unit) :=
  match validateFit y w evalData with
  | .error e => .ok (b, .error e)
  | .ok () => do
    let b' ← fitTreesU u env b data y w b.splitter evalData
    .ok (b', .ok ())

end booster

section shapley
variable {F D : Type} [Fl F]

/-- Loop of `extend_path` (src/shapley.rs 70-77). -/
def extendLoopU (u : UsizeSub) (depth : Nat) (zero one : F) : Nat → List (PathElement F) →
    Res (List (PathElement F))
  | 0, p => .ok p
  | i + 1, p => do
    let (e, p) ← getEl p i
    let add := (one * e.pweight * Fl.ofNat (i + 1)) / Fl.ofNat (depth + 1)
    let p ← modEl p (i + 1) fun e => { e with pweight := e.pweight + add }
    let (e, p) ← getEl p i
    let d ← u.sub depth i
    let w := (zero * e.pweight * Fl.ofNat d) / Fl.ofNat (depth + 1)
    let p ← modEl p i fun e => { e with pweight := w }
    extendLoopU u depth zero one i p

/-- `extend_path` (src/shapley.rs 59-78). -/
def extendPathU (u : UsizeSub) (p : List (PathElement F)) (depth : Nat) (zero one : F)
    (feature : Nat) : Res (List (PathElement F)) := do
  let p ← modEl p depth fun _ =>
    { feature, zero, one, pweight := if depth = 0 then 1 else 0 }
  extendLoopU u depth zero one depth p

/-- First loop of `unwind_path` (src/shapley.rs 84-97). -/
def unwindLoopU (u : UsizeSub) (depth : Nat) (zero one : F) : Nat → F → List (PathElement F) →
    Res (List (PathElement F))
  | 0, _, p => .ok p
  | i + 1, next, p => do
    let (e, p) ← getEl p i
    if !(one =ᶠ 0) then do
      let w := (next * Fl.ofNat (depth + 1)) / (Fl.ofNat (i + 1) * one)
      let p ← modEl p i fun e => { e with pweight := w }
      let d ← u.sub depth i
      let next := e.pweight - (w * zero * Fl.ofNat d) / Fl.ofNat (depth + 1)
      unwindLoopU u depth zero one i next p
    else do
      let d ← u.sub depth i
      let w := (e.pweight * Fl.ofNat (depth + 1)) / (zero * Fl.ofNat d)
      let p ← modEl p i fun e => { e with pweight := w }
      unwindLoopU u depth zero one i next p

/-- `unwind_path` (src/shapley.rs 80-103). -/
def unwindPathU (u : UsizeSub) (p : List (PathElement F)) (depth pathIndex : Nat) :
    Res (List (PathElement F)) := do
  let (e, p) ← getEl p pathIndex
  let (l, p) ← getEl p depth
  let p ← unwindLoopU u depth e.zero e.one depth l.pweight p
  shiftLoop (depth - pathIndex) pathIndex p

/-- Loop of `unwound_path_sum` (src/shapley.rs 110-123). -/
def unwoundLoopU (u : UsizeSub) (depth : Nat) (zero one : F) :
    Nat → F → F → List (PathElement F) → Res F
  | 0, _, total, _ => .ok total
  | i + 1, next, total, p =>
    if !(one =ᶠ 0) then do
      let tmp := (next * Fl.ofNat (depth + 1)) / (Fl.ofNat (i + 1) * one)
      let total := total + tmp
      let (e, p) ← getEl p i
      let d ← u.sub depth i
      let next := e.pweight - tmp * zero * (Fl.ofNat d / Fl.ofNat (depth + 1))
      unwoundLoopU u depth zero one i next total p
    else if !(zero =ᶠ 0) then do
      let (e, p) ← getEl p i
      let d ← u.sub depth i
      let total := total + (e.pweight / zero) / (Fl.ofNat d / Fl.ofNat (depth + 1))
      unwoundLoopU u depth zero one i next total p
    else do
      let (e, p) ← getEl p i
      if !(e.pweight =ᶠ 0) then .panic
      else unwoundLoopU u depth zero one i next total p

/-- `unwound_path_sum` (src/shapley.rs 105-125). -/
def unwoundPathSumU (u : UsizeSub) (p : List (PathElement F)) (depth pathIndex : Nat) : Res F := do
  let (e, p) ← getEl p pathIndex
  let (l, p) ← getEl p depth
  unwoundLoopU u depth e.zero e.one depth l.pweight 0 p

variable [Fl D] [FlCast F D]

/-- Loop over the path elements at a leaf (src/shapley.rs 166-171). -/
def leafContribsU (u : UsizeSub) (p : List (PathElement F)) (depth : Nat) (value : F) :
    Nat → Nat → List D → Res (List D)
  | 0, _, c => .ok c
  | n + 1, i, c => do
    let w ← unwoundPathSumU u p depth i
    let (el, _) ← getEl p i
    let c ← addAt c el.feature (up (w * (el.one - el.zero) * value))
    leafContribsU u p depth value n (i + 1) c

/-- `tree_shap` (src/shapley.rs 145-211). -/
def treeShapU (u : UsizeSub) (nodes : List (Node F D)) (row : List D) (missing : D) :
    Nat → Nat → Nat → List (PathElement F) → F → F → Nat → List D → Res (List D)
  | 0, _, _, _, _, _, _, _ => .diverge
  | fuel + 1, nodeIndex, depth, path, pz, po, pf, contribs => do
    let node ← idx nodes nodeIndex
    let path ← extendPathU u path depth pz po pf
    if node.isLeaf then leafContribsU u path depth node.weightValue depth 1 contribs
    else do
      let v ← idx row node.splitFeature
      let next ← node.getChildIdx v missing
      let children := hotColdChildren next node
      let k ← findOnPath path depth node.splitFeature (depth + 1) 0
      let (iz, io, path, depth) ←
        if k ≠ depth + 1 then do
          let (e, path) ← getEl path k
          let path ← unwindPathU u path depth k
          let depth ← u.sub depth 1
          pure (e.zero, e.one, path, depth)
        else pure (1, 1, path, depth)
      Res.foldM' (fun (contribs : List D) (ci : Nat × Nat) => do
        let c ← idx nodes ci.1
        let z := (c.hessianSum / node.hessianSum) * iz
        let o := if ci.2 = 0 then io else 0
        treeShapU u nodes row missing fuel ci.1 (depth + 1) path z o node.splitFeature contribs)
        contribs children.zipIdx

/-- `predict_contributions_row_shapley` (src/shapley.rs 213-232). -/
def Tree.contribShapleyU (u : UsizeSub) (t : Tree F D) (row contribs : List D) (missing : D) :
    Res (List D) := do
  let avg ← averageLeafWeights t.nodes t.nodes.length 0
  let contribs ← addBias contribs avg
  treeShapU u t.nodes row missing t.nodes.length 0 0 [] 1 1 (row.length + 100) contribs

/-- `predict_contributions` with method Shapley (src/gradientbooster.rs 755-772, 775-834). -/
def Booster.shapleyRowsU (u : UsizeSub) (b : Booster F D) (data : Matrix D) :
    Res (List (List D)) := do
  let ts ← b.predictionTrees
  Res.mapM' (fun row => do
    let r ← data.getRow row
    Res.foldM' (fun c t => t.contribShapleyU u r c b.missing)
      (initContribs data.cols b.baseScore) ts) data.index

end shapley

end Verif
