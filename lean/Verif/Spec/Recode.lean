import Verif.Spec.Route
import Verif.Model.Booster

/-!
# Two codes for missing values
-/

namespace Verif

open scoped Verif

variable {F D : Type} [Fl D]

/-- The value says that the feature is missing, when `missing` is the code for missing values. -/
def Marks (missing v : D) : Prop :=
  (isNaN missing = true ∧ isNaN v = true) ∨
    (isNaN missing = false ∧ isNaN v = false ∧ (v =ᶠ missing) = true)

/-- The value is a number other than the code for missing values. -/
def Plain (missing v : D) : Prop := isNaN v = false ∧ (v =ᶠ missing) = false

/-- Two values: both say missing, each in its code, or they are the same number, which says missing in neither code. -/
def Recoded (m m' v v' : D) : Prop := (Marks m v ∧ Marks m' v') ∨ (v' = v ∧ Plain m v ∧ Plain m' v)

/-- Two matrices of the same shape with the same missing places, coded by `m` and by `m'`, and the same numbers. -/
structure Matrix.Recoded (m m' : D) (X X' : Matrix D) : Prop where
  rows : X'.rows = X.rows
  cols : X'.cols = X.cols
  data : List.Forall₂ (Verif.Recoded m m') X.data X'.data

/-- Evaluation sets with recoded data. -/
structure EvalSet.Recoded (m m' : D) (e e' : EvalSet D) : Prop where
  data : e.data.Recoded m m' e'.data
  y : e'.y = e.y
  w : e'.w = e.w

/-- Optional lists of evaluation sets. -/
def EvalsRecoded (m m' : D) : Option (List (EvalSet D)) → Option (List (EvalSet D)) → Prop
  | none, none => True
  | some l, some l' => List.Forall₂ (EvalSet.Recoded m m') l l'
  | _, _ => False

/-- The booster with another code for missing values. -/
def Booster.withMissing (b : Booster F D) (m' : D) : Booster F D := { b with missing := m' }

end Verif
