import Verif.Num
import Mathlib.Algebra.Order.Field.Basic

/-!
# Numbers that a format adds without rounding

The multiples `0, u, 2u, …, N·u` of a unit, when the format represents all of them.  In `f32` this holds
of every power of two `u` that is not tiny or huge with `N = 2^24`, in `f64` with `N = 2^53`.
-/

namespace Verif

section
variable {K : Type} [Field K] [LinearOrder K] [IsStrictOrderedRing K]

/-- The format represents all multiples of `u` up to `N · u`. -/
def Fmt.Grid (m : Fmt K) (u : K) (N : Nat) : Prop :=
  ∀ n : Nat, n ≤ N → m.rnd ((n : K) * u) = .fin ((n : K) * u)

/-- A multiple of `u`. -/
def Mult (u x : K) : Prop := ∃ n : Nat, x = (n : K) * u

/-- A multiple of `u` that is at most `N · u`. -/
def OnGrid (u : K) (N : Nat) (x : K) : Prop := ∃ n : Nat, n ≤ N ∧ x = (n : K) * u

end

end Verif
