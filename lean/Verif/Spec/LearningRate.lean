import Verif.Model.Booster

/-!
# Trees that differ only in their values
-/

namespace Verif

variable {F D : Type}

/-- The same settings with another learning rate. -/
def Booster.withRate (b : Booster F D) (lr : F) : Booster F D := { b with learningRate := lr }

/-- Two nodes that agree in everything but their values, which are related. -/
structure Node.SameButValue (P : F → F → Prop) (n n' : Node F D) : Prop where
  num : n'.num = n.num
  hessianSum : n'.hessianSum = n.hessianSum
  depth : n'.depth = n.depth
  splitValue : n'.splitValue = n.splitValue
  splitFeature : n'.splitFeature = n.splitFeature
  splitGain : n'.splitGain = n.splitGain
  missingNode : n'.missingNode = n.missingNode
  leftChild : n'.leftChild = n.leftChild
  rightChild : n'.rightChild = n.rightChild
  isLeaf : n'.isLeaf = n.isLeaf
  value : P n.weightValue n'.weightValue

/-- Two trees whose nodes, one by one, agree in everything but their values, which are related. -/
def Tree.SameButValues (P : F → F → Prop) (t t' : Tree F D) : Prop :=
  List.Forall₂ (Node.SameButValue P) t.nodes t'.nodes

/-- Two values that come from one number by the two learning rates. -/
def Rated [Fl F] (lr lr' : F) (v v' : F) : Prop := ∃ w, v = w * lr ∧ v' = w * lr'

end Verif
