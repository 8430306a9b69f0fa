import Verif.Spec.Route
import Mathlib.Algebra.BigOperators.Group.List.Basic

/-!
# Copies of rows

What it means that a data set arises from another by splitting rows into copies, which share the weight
of the row, and by putting them in another order.
-/

namespace Verif

/-- Row `r'` of the second data set is a copy of row `σ r'` of the first: it has the same features and,
unless its weight is zero, the same target, and the weights of the copies of a row add up to the weight of
the row.  Every row has a copy. -/
structure Copies {K D : Type} [AddCommMonoid K] (σ : Nat → Nat) (X X' : Matrix D) (y y' w w' : List K) :
    Prop where
  cols : X'.cols = X.cols
  lt : ∀ r' < X'.rows, σ r' < X.rows
  onto : ∀ r < X.rows, ∃ r' < X'.rows, σ r' = r
  entry : ∀ r' < X'.rows, ∀ j < X.cols, X'.entry r' j = X.entry (σ r') j
  target : ∀ r' < X'.rows, w'[r']? = some 0 ∨ y'[r']? = y[σ r']?
  weight : ∀ r < X.rows, w[r]? =
    some (((List.range X'.rows).filter fun r' => σ r' = r).map fun r' => w'[r']?.getD 0).sum

/-- The matrix with the listed rows, in that order. -/
def Matrix.pickRows {D : Type} (X : Matrix D) (rows : List Nat) : Matrix D :=
  { data := (List.range X.cols).flatMap fun j => rows.filterMap fun r => X.entry r j
    rows := rows.length, cols := X.cols }

/-- The listed elements, in that order. -/
def pick {α : Type} (l : List α) (rows : List Nat) : List α := rows.filterMap fun r => l[r]?

/-- The list in which row `r` occurs `ks[r]` times. -/
def repeatRows (ks : List Nat) : List Nat :=
  (List.range ks.length).flatMap fun r => List.replicate (ks[r]?.getD 0) r

end Verif
