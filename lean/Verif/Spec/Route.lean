import Verif.Model.Booster

/-!
# What a tree predicts for a row

Stated as relations, without the fuel and the fault handling of the model.
-/

namespace Verif

open scoped Verif

section
variable {F D : Type} [Fl D]

/-- The value counts as missing: it is the sentinel, or both are NaN. -/
def IsMissing (missing v : D) : Prop :=
  if isNaN missing = true then isNaN v = true else (v =ᶠ missing) = true

instance (missing v : D) : Decidable (IsMissing missing v) := by
  unfold IsMissing; infer_instance

/-- A value may be examined unless it is a NaN that is not the sentinel. -/
def Readable (missing v : D) : Prop := isNaN missing = true ∨ isNaN v = false

instance (missing v : D) : Decidable (Readable missing v) := by
  unfold Readable; infer_instance

/-- The child that the documentation promises for a value: the missing child for missing values, the
left child below the threshold, the right child otherwise. -/
def Node.childFor (n : Node F D) (missing v : D) : Nat :=
  if IsMissing missing v then n.missingNode
  else if (v <ᶠ n.splitValue) = true then n.leftChild else n.rightChild

/-- `Route nodes row missing i l`: starting at node `i`, the row is led to the leaf `l`. -/
inductive Route (nodes : List (Node F D)) (row : Nat → Option D) (missing : D) :
    Nat → Node F D → Prop
  | leaf {i : Nat} {n : Node F D} : nodes[i]? = some n → n.isLeaf = true → Route nodes row missing i n
  | step {i : Nat} {n l : Node F D} {v : D} : nodes[i]? = some n → n.isLeaf = false →
      row n.splitFeature = some v → Readable missing v →
      Route nodes row missing (n.childFor missing v) l → Route nodes row missing i l

/-- `Reaches nodes row missing i`: on its way down from the root the row passes node `i`. -/
inductive Reaches (nodes : List (Node F D)) (row : Nat → Option D) (missing : D) : Nat → Prop
  | root : Reaches nodes row missing 0
  | step {i : Nat} {n : Node F D} {v : D} : Reaches nodes row missing i → nodes[i]? = some n →
      n.isLeaf = false → row n.splitFeature = some v → Readable missing v →
      Reaches nodes row missing (n.childFor missing v)

/-- The entry of row `i` and column `j` of a column-major buffer. -/
def Matrix.entry {T : Type} (m : Matrix T) (i j : Nat) : Option T := m.data[j * m.rows + i]?

/-- The matrix has the promised number of entries. -/
def Matrix.Shaped {T : Type} (m : Matrix T) : Prop := m.data.length = m.rows * m.cols

/-- The trees lead the row to these leaves. -/
def Leaves (ts : List (Tree F D)) (row : Nat → Option D) (missing : D) (ls : List (Node F D)) : Prop :=
  List.Forall₂ (fun (t : Tree F D) l => Route t.nodes row missing 0 l) ts ls

/-- The value of a row: the base score, to which the values of the leaves are added in order. -/
def PredictsRow [FlCast F D] (base : D) (ts : List (Tree F D)) (row : Nat → Option D) (missing v : D) :
    Prop :=
  ∃ ls, Leaves ts row missing ls ∧
    v = ls.foldl (fun acc (l : Node F D) => acc + up l.weightValue) base

end

end Verif
