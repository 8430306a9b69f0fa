import Verif.Spec.TreeWf

/-!
# The cover-weighted average of the leaves below a node
-/

namespace Verif

variable {F D : Type} [Fl D] [FlCast F D]

/-- `AvgLeaf nodes i a`: `a` is the value of the leaf `i`, or the average of the averages of the
children of `i`, weighted by their cover and divided by the cover of `i`. -/
inductive AvgLeaf (nodes : List (Node F D)) : Nat → D → Prop
  | leaf {i : Nat} {n : Node F D} : nodes[i]? = some n → n.isLeaf = true →
      AvgLeaf nodes i (up n.weightValue)
  | two {i : Nat} {n l r : Node F D} {a b : D} : nodes[i]? = some n → n.isLeaf = false →
      (n.missingNode = n.rightChild ∨ n.missingNode = n.leftChild) →
      nodes[n.leftChild]? = some l → nodes[n.rightChild]? = some r →
      AvgLeaf nodes n.leftChild a → AvgLeaf nodes n.rightChild b →
      AvgLeaf nodes i ((up l.hessianSum * a + up r.hessianSum * b) / up n.hessianSum)
  | three {i : Nat} {n l r m : Node F D} {a b c : D} : nodes[i]? = some n → n.isLeaf = false →
      n.missingNode ≠ n.rightChild → n.missingNode ≠ n.leftChild →
      nodes[n.leftChild]? = some l → nodes[n.rightChild]? = some r →
      nodes[n.missingNode]? = some m →
      AvgLeaf nodes n.leftChild a → AvgLeaf nodes n.rightChild b → AvgLeaf nodes n.missingNode c →
      AvgLeaf nodes i
        ((up l.hessianSum * a + up r.hessianSum * b + up m.hessianSum * c) / up n.hessianSum)

end Verif
