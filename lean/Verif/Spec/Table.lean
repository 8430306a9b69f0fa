import Verif.Model.PyBooster
import Verif.Spec.Route

/-!
# Reading the table of `trees_to_dataframe`
-/

namespace Verif

open scoped Verif

variable {F D : Type} [Fl D]

/-- `TableRoute rows value missing id r`: a reader of the table who starts at the row with the given ID, looks
up the value of the feature by its text, and goes on to the row named under `Missing` if the value is missing,
`Yes` if it is below `Split` and `No` otherwise, ends at the row `r` without a split. -/
inductive TableRoute (rows : List (NodeRow F D)) (value : String → Option D) (missing : D) :
    String → NodeRow F D → Prop
  | leaf {r : NodeRow F D} : r ∈ rows → r.split = none → TableRoute rows value missing r.id r
  | step {r l : NodeRow F D} {s v : D} {next : String} : r ∈ rows → r.split = some s →
      value r.feature = some v → Readable missing v →
      (if IsMissing missing v then r.missing else if (v <ᶠ s) = true then r.yes else r.no) = some next →
      TableRoute rows value missing next l → TableRoute rows value missing r.id l

end Verif
