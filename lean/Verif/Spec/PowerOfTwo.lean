import Verif.Spec.Units
import Verif.Spec.Ieee

/-!
# Specification: factors that rounding commutes with

Multiplication by a power of two only moves the exponent of a floating point number.  `Fmt.ScalesBy m c` says that
rounding in format `m` commutes with multiplication by `c`.  It holds for every factor when nothing is rounded, and
for the powers of two when results are rounded to `p` bits and the exponent is not bounded (`Ieee.wide`).
-/

namespace Verif

open scoped Verif

/-- Multiplication of a rounded result. -/
def RV.smul {K : Type} [Mul K] (c : K) : RV K → RV K
  | .ninf => .ninf
  | .fin q => .fin (c * q)
  | .pinf => .pinf

/-- Rounding commutes with multiplication by `c`. -/
class Fmt.ScalesBy {K : Type} [Mul K] (m : Fmt K) (c : K) : Prop where
  rnd_mul : ∀ q, m.rnd (c * q) = (m.rnd q).smul c

/-- Exact multiplication of a number; infinities and NaN are left alone. -/
def FX.smul {K : Type} [Mul K] {m : Fmt K} (c : K) : FX m → FX m
  | .fin q => .fin (c * q)
  | .nan => .nan
  | .ninf => .ninf
  | .pinf => .pinf

section
variable {K : Type} [Field K] [LinearOrder K] {m32 m64 : Fmt K}

/-- The tree with all values multiplied exactly by `c` and all gains by `d`. -/
def Tree.smulValues (c d : K) (t : Tree (FX m32) (FX m64)) : Tree (FX m32) (FX m64) :=
  { nodes := t.nodes.map fun n => { n with weightValue := n.weightValue.smul c, splitGain := n.splitGain.smul d } }

/-- As `Booster.inUnit`, with exact multiplications. -/
def Booster.smulUnit (c : K) (b : Booster (FX m32) (FX m64)) : Booster (FX m32) (FX m64) :=
  { b with l1 := b.l1.smul c, maxDeltaStep := b.maxDeltaStep.smul c, gamma := b.gamma.smul (c * c)
           baseScore := b.baseScore.smul c, trees := b.trees.map (Tree.smulValues c (c * c))
           evaluationHistory := b.evaluationHistory.map fun h => { h with data := h.data.map (FX.smul c) } }

/-- An evaluation set with the targets multiplied exactly by `c`. -/
def EvalSet.smulUnit (c : K) (e : EvalSet (FX m64)) : EvalSet (FX m64) := { e with y := e.y.map (FX.smul c) }

/-- The tree with all covers and gains multiplied exactly by `c`. -/
def Tree.smulCover (c : K) (t : Tree (FX m32) (FX m64)) : Tree (FX m32) (FX m64) :=
  { nodes := t.nodes.map fun n => { n with hessianSum := n.hessianSum.smul c, splitGain := n.splitGain.smul c } }

/-- As `Booster.reweighted`, with exact multiplications. -/
def Booster.smulWeights (c : K) (b : Booster (FX m32) (FX m64)) : Booster (FX m32) (FX m64) :=
  { b with l1 := b.l1.smul c, l2 := b.l2.smul c, gamma := b.gamma.smul c, minLeafWeight := b.minLeafWeight.smul c
           trees := b.trees.map (Tree.smulCover c) }

/-- An evaluation set with the weights multiplied exactly by `c`. -/
def EvalSet.smulWeights (c : K) (e : EvalSet (FX m64)) : EvalSet (FX m64) := { e with w := e.w.map (FX.smul c) }

end

namespace Ieee

/-- Rounding of numbers that are not negative to `p` bits, the exponent not being bounded. -/
def widePos (p : Nat) (q : ℚ) : ℚ :=
  roundEven (q / pow2 (lg q - ((p : ℤ) - 1))) * pow2 (lg q - ((p : ℤ) - 1))

/-- Rounding to `p` bits, ties to even, the exponent not being bounded. -/
def wideRnd (p : Nat) (q : ℚ) : ℚ := if q < 0 then -(widePos p (-q)) else widePos p q

/-- The format with `p` bits and any exponent. -/
def wide (p : Nat) (maxF : ℚ) (expF lnF sqrtF : ℚ → RV ℚ) : Fmt ℚ where
  rnd q := .fin (wideRnd p q)
  maxF := maxF
  toNatF q := min (Rat.floor q).toNat (2 ^ 64 - 1)
  expF := expF
  lnF := lnF
  sqrtF := sqrtF

end Ieee

end Verif
