import Mathlib.Algebra.BigOperators.Ring.Finset
import Mathlib.Algebra.Order.Field.Basic
import Mathlib.Data.Finset.Powerset
import Mathlib.Data.Nat.Factorial.Basic
import Verif.Spec.TreeWf

/-!
# Shapley values and the game played by a tree
-/

namespace Verif

open scoped BigOperators Nat

/-- The Shapley value of player `f` in the game `v` among the players `N`: the average of what `f` adds to
the value of the players before it, over all orders of the players. -/
def shapleyValue {K : Type} [Field K] (N : Finset Nat) (v : Finset Nat → K) (f : Nat) : K :=
  ∑ S ∈ (N.erase f).powerset,
    ((S.card ! : ℕ) : K) * ((N.card - S.card - 1)! : ℕ) / (N.card ! : ℕ) * (v (insert f S) - v S)

section
variable {K : Type} [Field K] [LinearOrder K] {m32 m64 : Fmt K}

/-- `CondExp nodes row missing S i e`: `e` is the expectation of the value below node `i` when the features
in `S` are known.  A node that tests a known feature has the expectation of the child chosen for the row;
otherwise the expectations of the children are averaged, weighted by their cover relative to that of the
node. -/
inductive CondExp (nodes : List (Node (FX m32) (FX m64))) (row : Nat → Option (FX m64))
    (missing : FX m64) (S : Finset Nat) : Nat → K → Prop
  | leaf {i : Nat} {n : Node (FX m32) (FX m64)} {w : K} : nodes[i]? = some n → n.isLeaf = true →
      n.weightValue = .fin w → CondExp nodes row missing S i w
  | known {i : Nat} {n : Node (FX m32) (FX m64)} {v : FX m64} {e : K} : nodes[i]? = some n →
      n.isLeaf = false → n.splitFeature ∈ S → row n.splitFeature = some v → Readable missing v →
      CondExp nodes row missing S (n.childFor missing v) e → CondExp nodes row missing S i e
  | two {i : Nat} {n l r : Node (FX m32) (FX m64)} {h hl hr a b : K} : nodes[i]? = some n →
      n.isLeaf = false → n.splitFeature ∉ S →
      (n.missingNode = n.rightChild ∨ n.missingNode = n.leftChild) →
      nodes[n.leftChild]? = some l → nodes[n.rightChild]? = some r →
      n.hessianSum = .fin h → l.hessianSum = .fin hl → r.hessianSum = .fin hr →
      CondExp nodes row missing S n.leftChild a → CondExp nodes row missing S n.rightChild b →
      CondExp nodes row missing S i (hl / h * a + hr / h * b)
  | three {i : Nat} {n l r m : Node (FX m32) (FX m64)} {h hl hr hm a b c : K} : nodes[i]? = some n →
      n.isLeaf = false → n.splitFeature ∉ S →
      n.missingNode ≠ n.rightChild → n.missingNode ≠ n.leftChild →
      nodes[n.leftChild]? = some l → nodes[n.rightChild]? = some r → nodes[n.missingNode]? = some m →
      n.hessianSum = .fin h → l.hessianSum = .fin hl → r.hessianSum = .fin hr → m.hessianSum = .fin hm →
      CondExp nodes row missing S n.leftChild a → CondExp nodes row missing S n.rightChild b →
      CondExp nodes row missing S n.missingNode c →
      CondExp nodes row missing S i (hl / h * a + hr / h * b + hm / h * c)

end

end Verif
