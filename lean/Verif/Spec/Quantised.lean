import Verif.Spec.StepWise

/-!
# Values rounded down to cut points
-/

namespace Verif

open scoped Verif

variable {D : Type} [Fl D]

/-- `v'` is `v` if `v` is missing, otherwise `v'` is the greatest of the `cuts` that is not above `v`. -/
def RoundedTo (missing : D) (cuts : List D) (v v' : D) : Prop :=
  (IsMissing missing v ∧ v' = v) ∨
    (¬ IsMissing missing v ∧ v' ∈ cuts ∧ (v' ≤ᶠ v) = true ∧ ∀ c ∈ cuts, (c ≤ᶠ v) = true → (c ≤ᶠ v') = true)

instance [DecidableEq D] (missing : D) (cuts : List D) (v v' : D) : Decidable (RoundedTo missing cuts v v') := by
  unfold RoundedTo; infer_instance

/-- `X'` is `X` with every value rounded down to the cut points of its column. -/
def Matrix.RoundedTo (missing : D) (cuts : JaggedMatrix D) (X X' : Matrix D) : Prop :=
  X.Alike (fun j v v' => ∃ cs, cuts.getCol j = .ok cs ∧ Verif.RoundedTo missing cs v v') X'

end Verif
