import Verif.Num
import Mathlib.Analysis.SpecialFunctions.Log.Basic
import Mathlib.Analysis.SpecialFunctions.Sqrt

/-!
# Exact arithmetic over the reals, with the real elementary functions
-/

namespace Verif

/-- Real arithmetic.  `maxF` and `toNatF` are parameters without influence on the theorems that use
this format. -/
noncomputable def realFmt : Fmt ℝ :=
  { rnd := RV.fin, maxF := 2 ^ 1024, toNatF := fun x => ⌊x⌋₊, expF := fun x => RV.fin (Real.exp x)
    lnF := fun x => RV.fin (Real.log x), sqrtF := fun x => RV.fin (Real.sqrt x) }

instance : realFmt.Exact := ⟨fun _ => rfl⟩

/-- Numbers of the real format. -/
abbrev R := FX realFmt

end Verif
