import Verif.Model.Binning

/-!
# Nodes (`src/node.rs`) and split records (`src/splitter.rs` 14-40)
-/

namespace Verif

open scoped Verif

/-- `NodeInfo` (src/splitter.rs 25-32). -/
structure NodeInfo (F : Type) where
  /-- gradient sum -/
  grad : F
  /-- score of the node -/
  gain : F
  /-- hessian sum -/
  cover : F
  /-- unscaled value -/
  weight : F
  /-- lower monotone bound -/
  lower : F
  /-- upper monotone bound -/
  upper : F
  deriving DecidableEq, Repr

/-- `MissingInfo` (src/splitter.rs 34-40). -/
inductive MissingInfo (F : Type) where
  | left
  | right
  | leaf (i : NodeInfo F)
  | branch (i : NodeInfo F)
  deriving DecidableEq, Repr

/-- `SplitInfo` (src/splitter.rs 14-23). -/
structure SplitInfo (F D : Type) where
  /-- selection score -/
  splitGain : F
  /-- feature -/
  splitFeature : Nat
  /-- raw threshold -/
  splitValue : D
  /-- binned threshold -/
  splitBin : Nat
  /-- left child -/
  leftNode : NodeInfo F
  /-- right child -/
  rightNode : NodeInfo F
  /-- treatment of missing rows -/
  missingNode : MissingInfo F
  deriving DecidableEq, Repr

/-- `SplittableNode` (src/node.rs 9-30). -/
structure SNode (F D : Type) where
  /-- position in the tree -/
  num : Nat
  /-- histograms of the node's rows -/
  histograms : JaggedMatrix (Bin F D)
  /-- unscaled value -/
  weightValue : F
  /-- score of the node itself -/
  gainValue : F
  /-- gradient sum -/
  gradientSum : F
  /-- hessian sum -/
  hessianSum : F
  /-- depth, root 0 -/
  depth : Nat
  /-- raw threshold -/
  splitValue : D
  /-- feature -/
  splitFeature : Nat
  /-- gain of the split -/
  splitGain : F
  /-- child for missing values -/
  missingNode : Nat
  /-- child for values below the threshold -/
  leftChild : Nat
  /-- child for the other values -/
  rightChild : Nat
  /-- first position of the node's rows in the index -/
  startIdx : Nat
  /-- end of the node's rows in the index -/
  stopIdx : Nat
  /-- lower monotone bound -/
  lowerBound : F
  /-- upper monotone bound -/
  upperBound : F
  /-- leaf flag -/
  isLeaf : Bool
  /-- missing child that must not be split -/
  isMissingLeaf : Bool
  deriving DecidableEq, Repr

/-- `Node` (src/node.rs 32-45). -/
structure Node (F D : Type) where
  /-- position in the tree -/
  num : Nat
  /-- scaled value -/
  weightValue : F
  /-- cover -/
  hessianSum : F
  /-- depth, root 0 -/
  depth : Nat
  /-- raw threshold -/
  splitValue : D
  /-- feature -/
  splitFeature : Nat
  /-- gain of the split -/
  splitGain : F
  /-- child for missing values -/
  missingNode : Nat
  /-- child for values below the threshold -/
  leftChild : Nat
  /-- child for the other values -/
  rightChild : Nat
  /-- leaf flag -/
  isLeaf : Bool
  deriving DecidableEq, Repr

section
variable {F D : Type}

/-- `Node::make_parent_node` (src/node.rs 70-78). -/
def Node.makeParentNode (n : Node F D) (s : SNode F D) : Node F D :=
  { n with
    isLeaf := false, missingNode := s.missingNode, splitValue := s.splitValue
    splitFeature := s.splitFeature, splitGain := s.splitGain, leftChild := s.leftChild
    rightChild := s.rightChild }

/-- `Node::get_child_idx` (src/node.rs 80-88). -/
def Node.getChildIdx [Fl D] (n : Node F D) (v missing : D) : Res Nat := do
  let b ← isMissing v missing
  .ok (if b then n.missingNode else if v <ᶠ n.splitValue then n.leftChild else n.rightChild)

/-- `Node::has_missing_branch` (src/node.rs 90-92). -/
def Node.hasMissingBranch (n : Node F D) : Bool :=
  n.missingNode != n.rightChild && n.missingNode != n.leftChild

variable [Fl F] [Fl D]

/-- `SplittableNode::new` (src/node.rs 130-164). -/
def SNode.new (num : Nat) (histograms : JaggedMatrix (Bin F D))
    (weightValue gainValue gradientSum hessianSum : F) (depth startIdx stopIdx : Nat)
    (lowerBound upperBound : F) : SNode F D :=
  { num, histograms, weightValue, gainValue, gradientSum, hessianSum, depth, splitValue := 0
    splitFeature := 0, splitGain := 0, missingNode := 0, leftChild := 0, rightChild := 0
    startIdx, stopIdx, lowerBound, upperBound, isLeaf := true, isMissingLeaf := false }

/-- `SplittableNode::from_node_info` (src/node.rs 96-125). -/
def SNode.fromNodeInfo (num : Nat) (histograms : JaggedMatrix (Bin F D))
    (depth startIdx stopIdx : Nat) (i : NodeInfo F) : SNode F D :=
  { num, histograms, weightValue := i.weight, gainValue := i.gain, gradientSum := i.grad
    hessianSum := i.cover, depth, splitValue := 0, splitFeature := 0, splitGain := 0
    missingNode := 0, leftChild := 0, rightChild := 0, startIdx, stopIdx
    lowerBound := i.lower, upperBound := i.upper, isLeaf := true, isMissingLeaf := false }

omit [Fl D] in
/-- `SplittableNode::get_split_gain` (src/node.rs 187-199). -/
def SNode.getSplitGain (s : SNode F D) (l r : NodeInfo F) (m : MissingInfo F) (gamma : F) : F :=
  let mg := match m with
    | .branch i => i.gain
    | .leaf i => i.gain
    | _ => 0
  l.gain + r.gain + mg - s.gainValue - gamma

omit [Fl D] in
/-- `SplittableNode::update_children` (src/node.rs 166-185). -/
def SNode.updateChildren (s : SNode F D) (missingChild leftChild rightChild : Nat)
    (i : SplitInfo F D) : SNode F D :=
  { s with
    leftChild, rightChild, splitFeature := i.splitFeature
    splitGain := s.getSplitGain i.leftNode i.rightNode i.missingNode 0
    splitValue := i.splitValue, missingNode := missingChild, isLeaf := false }

omit [Fl D] in
/-- `SplittableNode::as_node` (src/node.rs 201-215). -/
def SNode.asNode (s : SNode F D) (learningRate : F) : Node F D :=
  { num := s.num, weightValue := s.weightValue * learningRate, hessianSum := s.hessianSum
    depth := s.depth, missingNode := s.missingNode, splitValue := s.splitValue
    splitFeature := s.splitFeature, splitGain := s.splitGain, leftChild := s.leftChild
    rightChild := s.rightChild, isLeaf := s.isLeaf }

end

end Verif
