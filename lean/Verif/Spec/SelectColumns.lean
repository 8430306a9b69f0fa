import Verif.Spec.Route

/-!
# Data and models with some columns left out

`keep` lists the columns that stay, in their new order.
-/

namespace Verif

/-- The matrix with the columns `keep` only. -/
def Matrix.select {T : Type} (X : Matrix T) (keep : List Nat) : Matrix T :=
  { data := keep.flatMap fun c => (X.data.drop (c * X.rows)).take X.rows, rows := X.rows, cols := keep.length }

/-- An evaluation set with the columns `keep` only. -/
def EvalSet.select {D : Type} (e : EvalSet D) (keep : List Nat) : EvalSet D := { e with data := e.data.select keep }

/-- A node that speaks about the new column numbers; the feature of a leaf has no meaning and stays. -/
def Node.renumber {F D : Type} (keep : List Nat) (n : Node F D) : Node F D :=
  { n with splitFeature := if n.isLeaf then n.splitFeature else keep.idxOf n.splitFeature }

/-- A tree that speaks about the new column numbers. -/
def Tree.renumber {F D : Type} (keep : List Nat) (t : Tree F D) : Tree F D :=
  { nodes := t.nodes.map (Node.renumber keep) }

/-- A booster that speaks about the new column numbers.  Parameters of columns that are left out are dropped. -/
def Booster.renumber {F D : Type} (keep : List Nat) (b : Booster F D) : Booster F D :=
  { b with
    trees := b.trees.map (Tree.renumber keep)
    monotoneConstraints := b.monotoneConstraints.map fun m =>
      (m.filter fun p => keep.contains p.1).map fun p => (keep.idxOf p.1, p.2)
    terminateMissingFeatures := (b.terminateMissingFeatures.filter fun f => keep.contains f).map fun f => keep.idxOf f }

/-- Every split of the tree is on one of the columns `keep`. -/
def Tree.UsesOnly {F D : Type} (keep : List Nat) (t : Tree F D) : Prop :=
  ∀ n ∈ t.nodes, n.isLeaf = false → n.splitFeature ∈ keep

/-- Every split of the booster is on one of the columns `keep`. -/
def Booster.UsesOnly {F D : Type} (keep : List Nat) (b : Booster F D) : Prop := ∀ t ∈ b.trees, t.UsesOnly keep

end Verif
