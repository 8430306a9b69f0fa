import Verif.Model.Splitter

/-!
# Trees: growing and traversal (`src/tree.rs`, `src/grower.rs`)
-/

namespace Verif

open scoped Verif

/-- `GrowPolicy` (src/gradientbooster.rs 31-35). -/
inductive GrowPolicy where
  | depthWise
  | lossGuide
  deriving DecidableEq, Repr

/-- `SampleMethod` (src/sampler.rs 6-10). -/
inductive SampleMethod where
  | none
  | random
  | goss
  deriving DecidableEq, Repr

/-- `Tree` (src/tree.rs 17-19). -/
structure Tree (F D : Type) where
  /-- nodes -/
  nodes : List (Node F D)
  deriving DecidableEq, Repr

/-- Behaviour of the heap: the position popped among the open nodes (in insertion order) at a given
step.  `BinaryHeap::pop` returns a greatest element; which of several equal ones is unspecified. -/
structure HeapPick (F D : Type) where
  /-- position popped -/
  pick : Nat → List (SNode F D) → Nat

/-- What is known about `BinaryHeap::pop` (src/grower.rs 16-18) with the order of src/node.rs 47-51:
it returns an element that no other element exceeds in `total_cmp` of the score. -/
structure HeapPick.Ok {F D : Type} [Fl F] (h : HeapPick F D) : Prop where
  lt : ∀ n l, l ≠ [] → h.pick n l < l.length
  max : ∀ n l (i : Nat) (hi : i < l.length) (hp : h.pick n l < l.length),
    Fl.tle l[i].gainValue (l[h.pick n l]).gainValue = true

section grow
variable {F D : Type} [Fl F] [Fl D] [FlCast F D]

/-- State of the loop of `Tree::fit`. -/
structure GrowState (F D : Type) where
  /-- nodes of the tree -/
  nodes : List (Node F D)
  /-- row index -/
  index : List Nat
  /-- open nodes: for `DepthWise` the front of the deque first, for `LossGuide` the newest first -/
  queue : List (SNode F D)
  /-- `n_leaves` -/
  nLeaves : Nat
  /-- `n_nodes` -/
  nNodes : Nat
  /-- number of nodes popped so far (only used to address the heap behaviour) -/
  step : Nat

omit [Fl F] [Fl D] [FlCast F D] in
/-- `add_node` (src/grower.rs 12-14 and 26-28). -/
def pushNode (q : List (SNode F D)) (n : SNode F D) : List (SNode F D) := n :: q

omit [Fl F] [Fl D] [FlCast F D] in
/-- `get_next_node` (src/grower.rs 16-18 and 30-32): `pop_back` of the deque, or a greatest element of
the heap. -/
def popNode (hp : HeapPick F D) (policy : GrowPolicy) (step : Nat) (q : List (SNode F D)) :
    Res (SNode F D × List (SNode F D)) :=
  match policy with
  | .depthWise => do
    let n ← Res.ofOption q.getLast?
    .ok (n, q.dropLast)
  | .lossGuide => do
    let i := hp.pick step q
    let n ← idx q i
    .ok (n, q.eraseIdx i)

omit [Fl D] [FlCast F D] in
/-- New nodes pushed on the tree and, unless they are missing leaves, on the open list
(src/tree.rs 143-148). -/
def addNodes (lr : F) (nodes : List (Node F D)) (queue : List (SNode F D)) :
    List (SNode F D) → List (Node F D) × List (SNode F D)
  | [] => (nodes, queue)
  | n :: l =>
    addNodes lr (nodes ++ [n.asNode lr]) (if n.isMissingLeaf then queue else pushNode queue n) l

/-- Parameters of `Tree::fit` that stay fixed during the loop. -/
structure GrowCfg (F D : Type) where
  /-- splitter -/
  splitter : Splitter F
  /-- training data -/
  train : TrainData F D
  /-- leaf limit -/
  maxLeaves : Nat
  /-- depth limit -/
  maxDepth : Nat
  /-- grow policy -/
  policy : GrowPolicy
  /-- heap behaviour -/
  heap : HeapPick F D

omit [Fl F] [Fl D] [FlCast F D] in
/-- The loop condition and the first `break` of `Tree::fit` (src/tree.rs 103-107). -/
def growDone (c : GrowCfg F D) (s : GrowState F D) : Bool :=
  s.queue.isEmpty || decide (c.maxLeaves < s.nLeaves + c.splitter.newLeavesAdded)

/-- The rest of the loop body (src/tree.rs 108-150). -/
def growStep (c : GrowCfg F D) (s : GrowState F D) : Res (GrowState F D) := do
  let (node, queue) ← popNode c.heap c.policy s.step s.queue
  let s := { s with queue, step := s.step + 1 }
  if c.maxDepth < node.depth + 1 then .ok s
  else do
    let nLeaves := s.nLeaves - 1
    let (node', index, new) ← splitNode c.splitter c.train s.nNodes node s.index
    if new.length = 0 then .ok { s with index, nLeaves := nLeaves + 1 }
    else do
      let n ← idx s.nodes node.num
      let nodes := s.nodes.set node.num (n.makeParentNode node')
      let (nodes, queue) := addNodes c.splitter.params.learningRate nodes s.queue new
      .ok { nodes, index, queue, nLeaves := nLeaves + new.length, nNodes := s.nNodes + new.length
            step := s.step }

/-- The loop of `Tree::fit` (src/tree.rs 103-150). -/
def growLoop (c : GrowCfg F D) : Nat → GrowState F D → Res (GrowState F D)
  | 0, s => if growDone c s then .ok s else .diverge
  | n + 1, s => if growDone c s then .ok s else growStep c s >>= growLoop c n

/-- Root gradient and hessian sums, and whether to sort (src/tree.rs 50-65). -/
def rootSums (sm : SampleMethod) (grad hess : List F) (index : List Nat) : Res (F × F × Bool) :=
  match sm with
  | .none => .ok (fastF64Sum (D := D) grad, fastF64Sum (D := D) hess, false)
  | _ => do
    let gs ← Res.mapM' (idx grad) index
    let hs ← Res.mapM' (idx hess) index
    let g := (gs.map (up : F → D)).foldl (· + ·) 0
    let h := (hs.map (up : F → D)).foldl (· + ·) 0
    .ok (down g, down h, true)

/-- Initial state of the loop of `Tree::fit` (src/tree.rs 50-102). -/
def growInit (c : GrowCfg F D) (sm : SampleMethod) (index : List Nat) : Res (GrowState F D) := do
  let p := c.splitter.params
  let t := c.train
  let (g, h, sort) ← rootSums (D := D) sm t.grad t.hess index
  let rootGain := gain p.l2 g h
  let rootWeight := weight p.l1 p.l2 p.maxDeltaStep g h
  let hists ← histogramMatrix t.data t.cuts t.grad t.hess index t.colIndex sort
  let root := SNode.new 0 hists rootWeight rootGain g h 0 0 index.length ninf inf
  .ok { nodes := [root.asNode p.learningRate], index, queue := pushNode [] root, nLeaves := 1
        nNodes := 1, step := 0 }

/-- `MissingBranchSplitter::update_average_missing_nodes` (src/splitter.rs 266-314).  Returns the
updated nodes and the average.  `fuel` bounds the recursion depth. -/
def updateAverage : Nat → List (Node F D) → Nat → Res (List (Node F D) × D)
  | 0, _, _ => .diverge
  | fuel + 1, nodes, i => do
    let node ← idx nodes i
    if node.isLeaf then .ok (nodes, up node.weightValue)
    else do
      let right := node.rightChild
      let left := node.leftChild
      let current := node.num
      let missing := node.missingNode
      let rn ← idx nodes right
      let rightHess : D := up rn.hessianSum
      let (nodes, rightAvg) ← updateAverage fuel nodes right
      let ln ← idx nodes left
      let leftHess : D := up ln.hessianSum
      let (nodes, leftAvg) ← updateAverage fuel nodes left
      let mn ← idx nodes missing
      let (nodes, missHess, missAvg, missLeaf) ←
        if mn.isLeaf then pure (nodes, (0 : D), (0 : D), true)
        else do
          let (nodes', a) ← updateAverage fuel nodes missing
          pure (nodes', (up mn.hessianSum : D), a, false)
      let update := (rightAvg * rightHess + leftAvg * leftHess + missAvg * missHess)
        / (leftHess + rightHess + missHess)
      let nodes := nodes.modify current fun n => { n with weightValue := down update }
      let nodes := if missLeaf then
          nodes.modify missing fun n => { n with weightValue := down update } else nodes
      .ok (nodes, update)

/-- `clean_up_splits` (src/splitter.rs 62, 318-322).  The fuel `nodes.length` is enough for
well-formed trees. -/
def cleanUpSplits (s : Splitter F) (nodes : List (Node F D)) : Res (List (Node F D)) :=
  match s with
  | .imputer _ => .ok nodes
  | .branch p =>
    if p.missingNodeTreatment = .averageLeafWeight then do
      let (nodes, _) ← updateAverage nodes.length nodes 0
      .ok nodes
    else .ok nodes

omit [Fl F] [Fl D] [FlCast F D] in
/-- Number of loop iterations that always suffices (`Props.C49`). -/
def growFuel (c : GrowCfg F D) : Nat := 3 * c.maxLeaves + 1

/-- `Tree::fit` (src/tree.rs 33-155).  The `parallel` flag only selects how histograms are computed,
see `Verif.Model.Parallel`. -/
def Tree.fit (c : GrowCfg F D) (sm : SampleMethod) (index : List Nat) : Res (Tree F D) := do
  let s ← growInit c sm index
  let s ← growLoop c (growFuel c) s
  let nodes ← cleanUpSplits c.splitter s.nodes
  .ok { nodes }

end grow

section predict
variable {F D : Type} [Fl D]

/-- `predict_leaf` / `predict_row_from_row_slice` (src/tree.rs 396-418): walk from node `i`; the row
is given by its accessor.  A walk that visits more nodes than the tree has never ends. -/
def leafFrom (nodes : List (Node F D)) (get : Nat → Res D) (missing : D) :
    Nat → Nat → Res (Node F D)
  | 0, _ => .diverge
  | fuel + 1, i => do
    let node ← idx nodes i
    if node.isLeaf then .ok node
    else do
      let v ← get node.splitFeature
      let c ← node.getChildIdx v missing
      leafFrom nodes get missing fuel c

/-- `predict_leaf` (src/tree.rs 396-406). -/
def Tree.predictLeaf (t : Tree F D) (data : Matrix D) (row : Nat) (missing : D) :
    Res (Node F D) :=
  leafFrom t.nodes (data.get row) missing t.nodes.length 0

/-- `predict_row_from_row_slice` (src/tree.rs 408-418). -/
def Tree.predictRow [FlCast F D] (t : Tree F D) (row : List D) (missing : D) : Res D := do
  let n ← leafFrom t.nodes (idx row) missing t.nodes.length 0
  .ok (up n.weightValue)

/-- `predict` (src/tree.rs 420-440), sequential version; see `Verif.Model.Parallel` for the parallel
one. -/
def Tree.predict [FlCast F D] (t : Tree F D) (data : Matrix D) (missing : D) : Res (List D) :=
  Res.mapM' (fun i => do
    let n ← t.predictLeaf data i missing
    .ok (up n.weightValue)) data.index

/-- `predict_leaf_indices` (src/tree.rs 442-447). -/
def Tree.predictLeafIndices (t : Tree F D) (data : Matrix D) (missing : D) : Res (List Nat) :=
  Res.mapM' (fun i => do
    let n ← t.predictLeaf data i missing
    .ok n.num) data.index

end predict

end Verif
