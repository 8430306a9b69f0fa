import Verif.Spec.ExampleFit
import Verif.Spec.Ieee
import Verif.Model.Builder

/-!
# Examples in floating point arithmetic

`f32` and `f64` numbers, with arbitrary elementary functions, and an environment for training.
-/

namespace Verif

/-- `f32`, elementary functions aside. -/
def f32Fmt : Fmt ℚ := Ieee.b32 ratFmt.expF ratFmt.lnF ratFmt.sqrtF

/-- `f64`, elementary functions aside. -/
def f64Fmt : Fmt ℚ := Ieee.b64 ratFmt.expF ratFmt.lnF ratFmt.sqrtF

/-- Numbers of format `f32`. -/
abbrev F32 := FX f32Fmt

/-- Numbers of format `f64`. -/
abbrev F64 := FX f64Fmt

/-- The `f64` number nearest to `x`. -/
def f64 (x : ℚ) : F64 := FX.rd x

/-- The `f32` number nearest to `x`. -/
def f32 (x : ℚ) : F32 := FX.rd x

/-- A generator that counts. -/
def floatRng : Rng Nat F32 F64 :=
  { seed := id
    genF := fun r => (f32 ((r % 7 : Nat) / 8), r + 1)
    genD := fun r => (f64 ((r % 5 : Nat) / 8), r + 1)
    choose := fun r l n => (l.take n, r + 1) }

/-- The environment. -/
def floatEnv : Env Nat F32 F64 :=
  { sorter := exSorter, heap := fun _ => { pick := fun _ l => exPick l }, rng := floatRng }

end Verif
