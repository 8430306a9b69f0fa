import Verif.Model.Tree

/-!
# Contributions, average weights, importance and text dump of a tree (`src/tree.rs`)
-/

namespace Verif

open scoped Verif

section
variable {F D : Type} [Fl F] [Fl D] [FlCast F D]

omit [Fl F] [FlCast F D] in
/-- `contribs[i] += v`; panics when out of range. -/
def addAt (c : List D) (i : Nat) (v : D) : Res (List D) := do
  let x ← idx c i
  .ok (c.set i (x + v))

omit [Fl F] [FlCast F D] in
/-- `contribs[contribs.len() - 1] += v`. -/
def addBias (c : List D) (v : D) : Res (List D) := addAt c (c.length - 1) v

omit [Fl F] [FlCast F D] in
/-- The walk shared by the `predict_contributions_row_*` functions (src/tree.rs 157-373): from node
`i`, at every internal node compute the change for the chosen child (`none`: the step is skipped,
`continue`) and add it to the entry of the split feature.  Returns the contributions and the leaf. -/
def contribWalk (nodes : List (Node F D)) (row : List D) (missing : D)
    (delta : Nat → Node F D → Nat → Res (Option D)) :
    Nat → Nat → List D → Res (List D × Node F D)
  | 0, _, _ => .diverge
  | fuel + 1, i, contribs => do
    let node ← idx nodes i
    if node.isLeaf then .ok (contribs, node)
    else do
      let v ← idx row node.splitFeature
      let child ← node.getChildIdx v missing
      let d ← delta i node child
      let contribs ← match d with
        | none => pure contribs
        | some d => addAt contribs node.splitFeature d
      contribWalk nodes row missing delta fuel child contribs

/-- The change of method Weight (src/tree.rs 326-328). -/
def deltaWeight (nodes : List (Node F D)) (_ : Nat) (node : Node F D) (child : Nat) :
    Res (Option D) := do
  let c ← idx nodes child
  .ok (some ((up c.weightValue : D) - up node.weightValue))

/-- `predict_contributions_row_weight` (src/tree.rs 310-332). -/
def Tree.contribWeight (t : Tree F D) (row contribs : List D) (missing : D) : Res (List D) := do
  let root ← idx t.nodes 0
  let contribs ← addBias contribs (up root.weightValue)
  let (c, _) ← contribWalk t.nodes row missing (deltaWeight t.nodes) t.nodes.length 0 contribs
  .ok c

omit [Fl F] [FlCast F D] in
/-- The change of method Average (src/tree.rs 367-369). -/
def deltaAverage (weights : List D) (i : Nat) (_ : Node F D) (child : Nat) : Res (Option D) := do
  let nw ← idx weights i
  let cw ← idx weights child
  .ok (some (cw - nw))

omit [Fl F] [FlCast F D] in
/-- `predict_contributions_row_average` (src/tree.rs 350-373). -/
def Tree.contribAverage (t : Tree F D) (row contribs weights : List D) (missing : D) :
    Res (List D) := do
  let w0 ← idx weights 0
  let contribs ← addBias contribs w0
  let (c, _) ← contribWalk t.nodes row missing (deltaAverage weights) t.nodes.length 0 contribs
  .ok c

/-- The change of method ProbabilityChange (src/tree.rs 170-178). -/
def deltaProb (nodes : List (Node F D)) (logodds : D) (_ : Nat) (node : Node F D) (child : Nat) :
    Res (Option D) := do
  let c ← idx nodes child
  .ok (some (odds ((up c.weightValue : D) + logodds) - odds ((up node.weightValue : D) + logodds)))

/-- `predict_contributions_row_probability_change` (src/tree.rs 157-183): the contributions and the
new log odds. -/
def Tree.contribProb (t : Tree F D) (row contribs : List D) (missing logodds : D) :
    Res (List D × D) := do
  let root ← idx t.nodes 0
  let contribs ← addBias contribs (odds (logodds + up root.weightValue) - odds logodds)
  let (c, leaf) ← contribWalk t.nodes row missing (deltaProb t.nodes logodds) t.nodes.length 0 contribs
  .ok (c, logodds + up leaf.weightValue)

omit [Fl F] [Fl D] [FlCast F D] in
/-- `node.has_missing_branch() && child_idx == node.missing_node` (src/tree.rs 212, 256, 290). -/
def Node.stepsToMissing (node : Node F D) (child : Nat) : Bool :=
  node.hasMissingBranch && child == node.missingNode

omit [Fl F] [Fl D] [FlCast F D] in
/-- The other non-missing child (src/tree.rs 216-220, 260-264). -/
def otherChild (nodes : List (Node F D)) (node : Node F D) (child : Nat) : Res (Node F D) :=
  if child = node.leftChild then idx nodes node.rightChild else idx nodes node.leftChild

/-- The change of method BranchDifference (src/tree.rs 256-266). -/
def deltaBranch (nodes : List (Node F D)) (_ : Nat) (node : Node F D) (child : Nat) :
    Res (Option D) :=
  if node.stepsToMissing child then .ok none
  else do
    let o ← otherChild nodes node child
    let c ← idx nodes child
    .ok (some (up (c.weightValue - o.weightValue)))

/-- The change of method MidpointDifference (src/tree.rs 209-225). -/
def deltaMidpoint (nodes : List (Node F D)) (_ : Nat) (node : Node F D) (child : Nat) :
    Res (Option D) := do
  let c ← idx nodes child
  if node.stepsToMissing child then .ok none
  else do
    let o ← otherChild nodes node child
    let mid := (c.weightValue * c.hessianSum + o.weightValue * o.hessianSum)
      / (c.hessianSum + o.hessianSum)
    .ok (some (up (c.weightValue - mid)))

/-- The change of method ModeDifference (src/tree.rs 290-305). -/
def deltaMode (nodes : List (Node F D)) (_ : Nat) (node : Node F D) (child : Nat) :
    Res (Option D) :=
  if node.stepsToMissing child then .ok none
  else do
    let l ← idx nodes node.leftChild
    let r ← idx nodes node.rightChild
    let c ← idx nodes child
    let d := if l.hessianSum =ᶠ r.hessianSum then 0
      else if r.hessianSum <ᶠ l.hessianSum then c.weightValue - l.weightValue
      else c.weightValue - r.weightValue
    .ok (some (up d))

/-- `predict_contributions_row_branch_difference` (src/tree.rs 231-269). -/
def Tree.contribBranch (t : Tree F D) (row contribs : List D) (missing : D) : Res (List D) := do
  let (c, _) ← contribWalk t.nodes row missing (deltaBranch t.nodes) t.nodes.length 0 contribs
  .ok c

/-- `predict_contributions_row_midpoint_difference` (src/tree.rs 186-228). -/
def Tree.contribMidpoint (t : Tree F D) (row contribs : List D) (missing : D) : Res (List D) := do
  let (c, _) ← contribWalk t.nodes row missing (deltaMidpoint t.nodes) t.nodes.length 0 contribs
  .ok c

/-- `predict_contributions_row_mode_difference` (src/tree.rs 273-308). -/
def Tree.contribMode (t : Tree F D) (row contribs : List D) (missing : D) : Res (List D) := do
  let (c, _) ← contribWalk t.nodes row missing (deltaMode t.nodes) t.nodes.length 0 contribs
  .ok c

/-- `distribute_node_leaf_weights` (src/tree.rs 452-472): the updated weights and the average of the
node. -/
def distributeNode (nodes : List (Node F D)) : Nat → Nat → List D → Res (List D × D)
  | 0, _, _ => .diverge
  | fuel + 1, i, weights => do
    let node ← idx nodes i
    if node.isLeaf then .ok (weights.set i (up node.weightValue), up node.weightValue)
    else do
      let l ← idx nodes node.leftChild
      let r ← idx nodes node.rightChild
      let (weights, lw) ← distributeNode nodes fuel node.leftChild weights
      let (weights, rw) ← distributeNode nodes fuel node.rightChild weights
      let w := (up l.hessianSum : D) * lw + (up r.hessianSum : D) * rw
      let (weights, w) ←
        if node.hasMissingBranch then do
          let m ← idx nodes node.missingNode
          let (weights, mw) ← distributeNode nodes fuel node.missingNode weights
          pure (weights, w + (up m.hessianSum : D) * mw)
        else pure (weights, w)
      let w := w / (up node.hessianSum : D)
      .ok (weights.set i w, w)

/-- `distribute_leaf_weights` (src/tree.rs 473-477). -/
def Tree.distributeLeafWeights (t : Tree F D) : Res (List D) := do
  let (w, _) ← distributeNode t.nodes t.nodes.length 0 (List.replicate t.nodes.length 0)
  .ok w

/-- `get_average_leaf_weights` (src/tree.rs 479-498). -/
def averageLeafWeights (nodes : List (Node F D)) : Nat → Nat → Res D
  | 0, _ => .diverge
  | fuel + 1, i => do
    let node ← idx nodes i
    if node.isLeaf then .ok (up node.weightValue)
    else do
      let l ← idx nodes node.leftChild
      let r ← idx nodes node.rightChild
      let lw ← averageLeafWeights nodes fuel node.leftChild
      let rw ← averageLeafWeights nodes fuel node.rightChild
      let w := (up l.hessianSum : D) * lw + (up r.hessianSum : D) * rw
      let w ←
        if node.hasMissingBranch then do
          let m ← idx nodes node.missingNode
          let mw ← averageLeafWeights nodes fuel node.missingNode
          pure (w + (up m.hessianSum : D) * mw)
        else pure w
      .ok (w / (up node.hessianSum : D))

/-- `get_node_cover` and `tree_partial_dependence` (src/partial_dependence.rs 11-72). -/
def partialDependence (nodes : List (Node F D)) (feature : Nat) (value missing : D) :
    Nat → Nat → F → Res D
  | 0, _, _ => .diverge
  | fuel + 1, i, proportion => do
    let n ← idx nodes i
    if n.isLeaf then .ok (up (proportion * n.weightValue))
    else if n.splitFeature = feature then do
      let child ← n.getChildIdx value missing
      partialDependence nodes feature value missing fuel child proportion
    else do
      let l ← idx nodes n.leftChild
      let r ← idx nodes n.rightChild
      let mc ← if n.hasMissingBranch then do
          let m ← idx nodes n.missingNode
          pure m.hessianSum
        else pure 0
      let total := l.hessianSum + r.hessianSum + mc
      let mpd ← if n.hasMissingBranch then
          partialDependence nodes feature value missing fuel n.missingNode (proportion * (mc / total))
        else pure (0 : D)
      let lpd ← partialDependence nodes feature value missing fuel n.leftChild
        (proportion * (l.hessianSum / total))
      let rpd ← partialDependence nodes feature value missing fuel n.rightChild
        (proportion * (r.hessianSum / total))
      .ok (lpd + rpd + mpd)

/-- `Tree::value_partial_dependence` (src/tree.rs 449-451). -/
def Tree.valuePartialDependence (t : Tree F D) (feature : Nat) (value missing : D) : Res D :=
  partialDependence t.nodes feature value missing t.nodes.length 0 1

/-- The statistics map `HashMap<usize, (f32, usize)>` as an association list. -/
abbrev Stats (F : Type) := List (Nat × F × Nat)

omit [Fl D] [FlCast F D] in
/-- `entry(..).and_modify(..).or_insert(..)` (src/tree.rs 511-517). -/
def statsAdd (stats : Stats F) (feature : Nat) (v : F) : Stats F :=
  match stats with
  | [] => [(feature, v, 1)]
  | (k, x, c) :: l => if k = feature then (k, x + v, c + 1) :: l else (k, x, c) :: statsAdd l feature v

omit [Fl D] [FlCast F D] in
/-- `calc_feature_node_stats` (src/tree.rs 500-523). -/
def nodeStats (stat : Node F D → F) (nodes : List (Node F D)) :
    Nat → Node F D → Stats F → Res (Stats F)
  | 0, _, _ => .diverge
  | fuel + 1, node, stats =>
    if node.isLeaf then .ok stats
    else do
      let stats := statsAdd stats node.splitFeature (stat node)
      let l ← idx nodes node.leftChild
      let stats ← nodeStats stat nodes fuel l stats
      let r ← idx nodes node.rightChild
      let stats ← nodeStats stat nodes fuel r stats
      if node.hasMissingBranch then do
        let m ← idx nodes node.missingNode
        nodeStats stat nodes fuel m stats
      else .ok stats

omit [Fl D] [FlCast F D] in
/-- `get_node_stats` and `calculate_importance_*` (src/tree.rs 525-542). -/
def Tree.importance (t : Tree F D) (stat : Node F D → F) (stats : Stats F) : Res (Stats F) := do
  let root ← idx t.nodes 0
  nodeStats stat t.nodes t.nodes.length root stats

omit [Fl F] [Fl D] [FlCast F D] in
/-- The loop of `Display for Tree` (src/tree.rs 550-562); the list is the stack with its top first. -/
def displayLoop (nodes : List (Node F D)) : Nat → List Nat → List (Node F D) →
    Res (List (Node F D))
  | _, [], out => .ok out
  | 0, _ :: _, _ => .diverge
  | fuel + 1, i :: stack, out => do
    let node ← idx nodes i
    if node.isLeaf then displayLoop nodes fuel stack (out ++ [node])
    else
      let stack := node.leftChild :: node.rightChild :: stack
      let stack := if node.hasMissingBranch then node.missingNode :: stack else stack
      displayLoop nodes fuel stack (out ++ [node])

omit [Fl F] [Fl D] [FlCast F D] in
/-- The nodes printed by `Display for Tree`, in order. -/
def Tree.displayNodes (t : Tree F D) : Res (List (Node F D)) :=
  displayLoop t.nodes t.nodes.length [0] []

omit [Fl F] [Fl D] [FlCast F D] in
/-- `Display for Node` (src/node.rs 218-242); `sf` and `sd` format numbers. -/
def Node.display (sf : F → String) (sd : D → String) (n : Node F D) : String :=
  if n.isLeaf then s!"{n.num}:leaf={sf n.weightValue},cover={sf n.hessianSum}"
  else s!"{n.num}:[{n.splitFeature} < {sd n.splitValue}] yes={n.leftChild},no={n.rightChild},missing={n.missingNode},gain={sf n.splitGain},cover={sf n.hessianSum}"

omit [Fl F] [Fl D] [FlCast F D] in
/-- `Display for Tree` (src/tree.rs 545-565). -/
def Tree.display (sf : F → String) (sd : D → String) (t : Tree F D) : Res String := do
  let ns ← t.displayNodes
  .ok (String.join (ns.map fun n =>
    String.join (List.replicate n.depth "      ") ++ n.display sf sd ++ "\n"))

end

end Verif
