import Verif.Num
import Mathlib.Data.Rat.Floor

/-!
# Binary floating point formats

The formats of IEEE 754 (`f32`, `f64`) as instances of `Fmt ℚ`: results are rounded to the nearest number
with `p` significant bits, ties to the even one, with gradual underflow and with overflow to infinity.  The
elementary functions are parameters.  (Negative zero is not modelled.)
-/

namespace Verif

namespace Ieee

/-- `2 ^ e`. -/
def pow2 : ℤ → ℚ
  | .ofNat n => ((2 ^ n : Nat) : ℚ)
  | .negSucc n => 1 / ((2 ^ (n + 1) : Nat) : ℚ)

/-- Exponent of the leading bit of a positive number. -/
def lg (q : ℚ) : ℤ :=
  let l : ℤ := (Nat.log2 q.num.natAbs : ℤ) - Nat.log2 q.den
  if pow2 l ≤ q then l else l - 1

/-- Nearest integer, ties to even. -/
def roundEven (x : ℚ) : ℤ :=
  let f := Rat.floor x
  if x - f < 1 / 2 then f
  else if 1 / 2 < x - f then f + 1
  else if f % 2 = 0 then f else f + 1

/-- Exponent of the last bit of the result of rounding `q`; `emin` is the least one. -/
def expo (p : Nat) (emin : ℤ) (q : ℚ) : ℤ := max (lg q - ((p : ℤ) - 1)) emin

/-- Rounding of numbers that are not negative. -/
def rndPos (p : Nat) (emin : ℤ) (q : ℚ) : ℚ :=
  roundEven (q / pow2 (expo p emin q)) * pow2 (expo p emin q)

/-- Rounding to `p` bits, without regard to overflow. -/
def rnd (p : Nat) (emin : ℤ) (q : ℚ) : ℚ :=
  if q < 0 then -(rndPos p emin (-q)) else rndPos p emin q

/-- The format with `p` bits, least exponent `emin` and largest number `maxF`. -/
def fmt (p : Nat) (emin : ℤ) (maxF : ℚ) (expF lnF sqrtF : ℚ → RV ℚ) : Fmt ℚ where
  rnd q :=
    if maxF < rnd p emin q then .pinf
    else if rnd p emin q < -maxF then .ninf
    else .fin (rnd p emin q)
  maxF := maxF
  toNatF q := min (Rat.floor q).toNat (2 ^ 64 - 1)
  expF := expF
  lnF := lnF
  sqrtF := sqrtF

/-- `f32`. -/
def b32 (expF lnF sqrtF : ℚ → RV ℚ) : Fmt ℚ :=
  fmt 24 (-149) (((2 ^ 24 - 1) * 2 ^ 104 : Nat) : ℚ) expF lnF sqrtF

/-- `f64`. -/
def b64 (expF lnF sqrtF : ℚ → RV ℚ) : Fmt ℚ :=
  fmt 53 (-1074) (((2 ^ 53 - 1) * 2 ^ 971 : Nat) : ℚ) expF lnF sqrtF

end Ieee

end Verif
