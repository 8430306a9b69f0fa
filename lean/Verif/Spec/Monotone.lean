import Verif.Spec.TreeWf

/-!
# Monotone predictions
-/

namespace Verif

open scoped Verif

variable {F D : Type}

/-- The constraint asks for a direction. -/
def Constrained (ct : Option Constraint) : Prop := ct = some .positive ∨ ct = some .negative

/-- Node `j` lies below node `i`. -/
inductive Below (nodes : List (Node F D)) : Nat → Nat → Prop
  | child {i j : Nat} {n : Node F D} : nodes[i]? = some n → n.IsChild j → Below nodes i j
  | step {i j k : Nat} {n : Node F D} : Below nodes i j → nodes[j]? = some n → n.IsChild k →
      Below nodes i k

/-- Below a split on a constrained feature there are only splits on constrained features. -/
def OnlyConstrainedBelow (con : Nat → Option Constraint) (nodes : List (Node F D)) : Prop :=
  ∀ (i j : Nat) (n n' : Node F D), nodes[i]? = some n → n.isLeaf = false →
    Constrained (con n.splitFeature) → Below nodes i j → nodes[j]? = some n' → n'.isLeaf = false →
    Constrained (con n'.splitFeature)

/-- The two values, both present, are ordered so that the constraint wants the prediction of the second
row not to be smaller. -/
def Towards [Fl D] (ct : Option Constraint) (v v' : D) : Prop :=
  (ct = some .positive ∧ (v ≤ᶠ v') = true) ∨ (ct = some .negative ∧ (v' ≤ᶠ v) = true)

/-- The rows differ in feature `f` only, where neither value is missing and the constraint on `f` wants
the second row's prediction not to be smaller. -/
structure Comparable [Fl D] (con : Nat → Option Constraint) (missing : D) (f : Nat)
    (row row' : Nat → Option D) : Prop where
  same : ∀ g, g ≠ f → row g = row' g
  present : ∃ v v', row f = some v ∧ row' f = some v' ∧ ¬ IsMissing missing v ∧ ¬ IsMissing missing v' ∧
    Towards (con f) v v'

end Verif
