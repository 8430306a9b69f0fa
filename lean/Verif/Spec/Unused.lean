import Verif.Spec.Route
import Verif.Model.Booster

/-!
# Features that no split uses
-/

namespace Verif

/-- Some split of the tree asks for the feature. -/
def Tree.SplitsOn {F D : Type} (t : Tree F D) (f : Nat) : Prop :=
  ∃ n ∈ t.nodes, n.isLeaf = false ∧ n.splitFeature = f

/-- Some split of some tree of the booster asks for the feature. -/
def Booster.SplitsOn {F D : Type} (b : Booster F D) (f : Nat) : Prop := ∃ t ∈ b.trees, t.SplitsOn f

/-- Two matrices that agree in all columns the booster asks for.  They may have different numbers of columns and
differ in all other columns. -/
structure AgreeFor {F D : Type} (b : Booster F D) (X X' : Matrix D) : Prop where
  shaped : X.Shaped
  shaped' : X'.Shaped
  rows : X'.rows = X.rows
  cols : ∀ f, b.SplitsOn f → f < X.cols ∧ f < X'.cols
  entry : ∀ f, b.SplitsOn f → ∀ i < X.rows, X'.entry i f = X.entry i f

end Verif
