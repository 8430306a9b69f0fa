import Verif.Num
import Mathlib.Data.Rat.Defs
import Mathlib.Algebra.Order.Ring.Rat
import Mathlib.Algebra.Field.Rat

/-!
# An executable exact format, for examples and counterexamples
-/

namespace Verif

/-- An exact format over the rationals.  The elementary functions are placeholders: `expF` is some
positive increasing function, the others are the identity. -/
def ratFmt : Fmt ℚ :=
  { rnd := RV.fin, maxF := 10 ^ 100, toNatF := fun q => q.floor.toNat, expF := fun q => RV.fin (if 0 ≤ q then 1 + q else 1 / (1 - q))
    lnF := RV.fin, sqrtF := RV.fin }

instance : ratFmt.Exact := ⟨fun _ => rfl⟩

/-- Numbers of the example format. -/
abbrev Q := FX ratFmt

/-- A finite number of the example format. -/
def q (x : ℚ) : Q := FX.fin x

end Verif
