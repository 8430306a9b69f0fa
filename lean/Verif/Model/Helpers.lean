import Verif.Model.PyArrays
import Verif.Model.Text
import Verif.Model.Utils
import Mathlib.Algebra.Order.Floor.Ring

/-!
# Functions used by tests (`py-forust/src/lib.rs`, `src/utils.rs`)

Simplification: the field `double` of an array here says whether it has the type the function asks for.
-/

namespace Verif

open scoped Verif

section
variable {D : Type} [Fl D]

/-- `PyReadonlyArray1<T>` as the type of an argument: an array of another type is refused. -/
def PyVec.typed {T : Type} (a : PyVec T) : Except PyErr (List T) :=
  if a.double then a.asSlice else .error .valueError

/-- `percentiles` of the module (py-forust/src/lib.rs 475-487). -/
def pyPercentiles (S : Sorter) (v sampleWeight pcts : PyVec D) : Except PyErr (Res (List D)) := do
  let v ← v.typed
  let w ← sampleWeight.typed
  let p ← pcts.typed
  .ok (percentiles S v w p)

/-- `print_matrix` of the module (py-forust/src/lib.rs 468-473): what is printed; `sh` formats a number. -/
def printMatrix {T : Type} (sh : T → String) (x : PyVec T) (rows cols : Nat) : Except PyErr (Res String) := do
  let l ← x.typed
  .ok (do
    let s ← ({ data := l, rows := rows, cols := cols } : Matrix T).display sh
    .ok (s ++ "\n"))

end

section
variable {K : Type} [Field K] [LinearOrder K] [IsStrictOrderedRing K] [FloorRing K]

/-- `f64::round`: to the nearest whole number, halves away from zero. -/
def roundAway (x : K) : K := if 0 ≤ x then ((⌊x + 1 / 2⌋ : ℤ) : K) else -((⌊-x + 1 / 2⌋ : ℤ) : K)

/-- `precision_round` (src/utils.rs 550-553), in exact arithmetic. -/
def precisionRound (n : K) (precision : ℤ) : K :=
  let p := (10 : K) ^ precision
  roundAway (n * p) / p

end

end Verif
