import Verif.Spec.Route

/-!
# Data with one more column
-/

namespace Verif

/-- The matrix with one more column at its right end. -/
def Matrix.addCol {T : Type} (X : Matrix T) (col : List T) : Matrix T :=
  { data := X.data ++ col, rows := X.rows, cols := X.cols + 1 }

/-- The second matrix has the columns of the first, and possibly more. -/
structure Matrix.Widens {T : Type} (X X' : Matrix T) : Prop where
  rows : X'.rows = X.rows
  start : X.data <+: X'.data

/-- The same evaluation set, on data that may have more columns. -/
structure EvalSet.Widens {D : Type} (e e' : EvalSet D) : Prop where
  data : e.data.Widens e'.data
  y : e'.y = e.y
  w : e'.w = e.w

/-- The evaluation sets of the second fit are those of the first, on data that may have more columns. -/
def EvalsWiden {D : Type} : Option (List (EvalSet D)) → Option (List (EvalSet D)) → Prop
  | none, none => True
  | some l, some l' => List.Forall₂ EvalSet.Widens l l'
  | _, _ => False

theorem Matrix.addCol_widens {T : Type} (X : Matrix T) (col : List T) : X.Widens (X.addCol col) :=
  ⟨rfl, List.prefix_append _ _⟩

end Verif
