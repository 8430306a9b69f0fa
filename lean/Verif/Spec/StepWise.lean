import Verif.Spec.Recode
import Verif.Spec.Relabel

/-!
# Values that no training value separates
-/

namespace Verif

open scoped Verif

variable {F D : Type} [Fl D]

/-- Two values of column `j` that are both missing, or that are both numbers and lie on the same side of every
number in column `j` of the training data. -/
def Matrix.Together (X : Matrix D) (missing : D) (j : Nat) (v v' : D) : Prop :=
  (Marks missing v ∧ Marks missing v') ∨
    (Present missing v ∧ Present missing v' ∧
      ∀ r < X.rows, ∀ u, X.entry r j = some u → Present missing u → (v' <ᶠ u) = (v <ᶠ u))

/-- Two matrices of the same shape, any two entries at the same place satisfy `P` of their column. -/
structure Matrix.Alike (P : Nat → D → D → Prop) (Z Z' : Matrix D) : Prop where
  rows : Z'.rows = Z.rows
  cols : Z'.cols = Z.cols
  shaped : Z.Shaped
  shaped' : Z'.Shaped
  entry : ∀ i < Z.rows, ∀ j < Z.cols, ∀ v v', Z.entry i j = some v → Z'.entry i j = some v' → P j v v'

/-- `v'` is `v`, or `v` is a number and `v'` the greatest number of column `j` of the training data that is not above
`v`. -/
def Matrix.FloorOf (X : Matrix D) (missing : D) (j : Nat) (v v' : D) : Prop :=
  (v' = v ∧ (Marks missing v ∨ Present missing v)) ∨
    (Present missing v ∧ Present missing v' ∧ (∃ r < X.rows, X.entry r j = some v') ∧ (v' ≤ᶠ v) = true ∧
      ∀ r < X.rows, ∀ u, X.entry r j = some u → Present missing u → (u ≤ᶠ v) = true → (u ≤ᶠ v') = true)

/-- `v'` is `v`, or `v` is a number below every number of column `j` of the training data and `v'` is the least of
these. -/
def Matrix.RaisedTo (X : Matrix D) (missing : D) (j : Nat) (v v' : D) : Prop :=
  (v' = v ∧ (Marks missing v ∨ Present missing v)) ∨
    (Present missing v ∧ Present missing v' ∧ (∃ r < X.rows, X.entry r j = some v') ∧
      ∀ r < X.rows, ∀ u, X.entry r j = some u → Present missing u → (v <ᶠ u) = true ∧ (v' ≤ᶠ u) = true)

end Verif
