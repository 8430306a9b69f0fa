import Verif.Model.PyDependence
import Verif.Spec.Relabel

/-!
# Specification of `partial_dependence` of the Python class
-/

namespace Verif

open scoped Verif

variable {F D : Type} [Fl F] [Fl D]

/-- What is assumed of `np.quantile` with `np.linspace`: for values that are there and finite and levels in
order between 0 and 1 it gives as many numbers as asked for, in order, between values. -/
def Numpy.Ok (N : Numpy D) : Prop :=
  ∀ (values : List D) (n : Nat) (lo hi : D), values ≠ [] → (∀ v ∈ values, isFinite v = true) →
    (0 ≤ᶠ lo) = true → (lo ≤ᶠ hi) = true → (hi ≤ᶠ 1) = true →
    ∃ grid, N.quantiles values n lo hi = .ok grid ∧ grid.length = n ∧
      grid.Pairwise (fun a b => (a ≤ᶠ b) = true) ∧
      ∀ g ∈ grid, ∃ a ∈ values, ∃ b ∈ values, (a ≤ᶠ g) = true ∧ (g ≤ᶠ b) = true

/-- `s` is the name in position `j` and in no other. -/
def OnlyAt (names : List String) (s : String) (j : Nat) : Prop :=
  names[j]? = some s ∧ ∀ i, names[i]? = some s → i = j

/-- The feature with number `idx` is meant, and column `col` of the frame has its values: the number itself,
or the name, by its place in the frame and among the names that the model was fitted with (those of the
frame if it was fitted without). -/
inductive Means (o : PyBooster F D) (X : Frame D) : PyKey → Nat → Nat → Prop
  | number {i : Nat} : i < X.data.cols → Means o X (.int i) i i
  | name {s : String} {cols : List String} {idx col : Nat} : X.columns = some cols → OnlyAt cols s col →
      OnlyAt (o.featureNames.getD cols) s idx → Means o X (.str s) idx col

end Verif
