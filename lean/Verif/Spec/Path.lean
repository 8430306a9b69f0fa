import Verif.Spec.Route

/-!
# The path of a row through a tree, step by step
-/

namespace Verif

variable {F D : Type} [Fl F] [Fl D] [FlCast F D]

/-- One step of a path: the node, the child that was taken, the left and right child, whether the step
went left, and whether it went into a separate missing branch. -/
structure Step (F D : Type) where
  node : Node F D
  child : Node F D
  left : Node F D
  right : Node F D
  wentLeft : Bool
  toMissing : Bool

/-- The steps of a row from node `i` to its leaf. -/
inductive Path (nodes : List (Node F D)) (row : Nat → Option D) (missing : D) :
    Nat → List (Step F D) → Prop
  | leaf {i : Nat} {n : Node F D} : nodes[i]? = some n → n.isLeaf = true → Path nodes row missing i []
  | step {i : Nat} {n c l r : Node F D} {v : D} {steps : List (Step F D)} : nodes[i]? = some n →
      n.isLeaf = false → row n.splitFeature = some v → Readable missing v →
      nodes[n.childFor missing v]? = some c → nodes[n.leftChild]? = some l →
      nodes[n.rightChild]? = some r → Path nodes row missing (n.childFor missing v) steps →
      Path nodes row missing i
        ({ node := n, child := c, left := l, right := r
           wentLeft := n.childFor missing v = n.leftChild
           toMissing := n.childFor missing v = n.missingNode ∧ n.missingNode ≠ n.leftChild ∧
             n.missingNode ≠ n.rightChild } :: steps)

open scoped Verif in
/-- The documented change of a step that does not go into a missing branch: the chosen value minus the
value of the other child; minus the cover-weighted mean of both children; minus the value of the child
with the larger cover (0 when the covers are equal). -/
def Step.change (s : Step F D) : ContributionsMethod → D
  | .branchDifference => up (s.child.weightValue - (if s.wentLeft then s.right else s.left).weightValue)
  | .midpointDifference =>
    let o := if s.wentLeft then s.right else s.left
    up (s.child.weightValue - (s.child.weightValue * s.child.hessianSum
      + o.weightValue * o.hessianSum) / (s.child.hessianSum + o.hessianSum))
  | .modeDifference =>
    up (if s.left.hessianSum =ᶠ s.right.hessianSum then 0
      else if s.right.hessianSum <ᶠ s.left.hessianSum then s.child.weightValue - s.left.weightValue
      else s.child.weightValue - s.right.weightValue)
  | _ => 0

/-- Add the change of the step if it tests feature `f` and does not go into a missing branch. -/
def Step.addTo (m : ContributionsMethod) (f : Nat) (acc : D) (s : Step F D) : D :=
  if s.node.splitFeature = f ∧ s.toMissing = false then acc + s.change m else acc

end Verif
