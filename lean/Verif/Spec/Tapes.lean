import Verif.Model.Sampler
import Verif.Spec.TreeWf
import Mathlib.Algebra.Order.Field.Basic
import Mathlib.Algebra.BigOperators.Group.List.Basic

/-!
# Averages over all outcomes of the random generator

`gen_range(0.0..1.0)` draws one of `M` equally likely numbers `0, 1/M, …, (M-1)/M` (`M = 2^23` for
`f32` and `M = 2^52` for `f64`).  An expected value over independent draws is then the plain average
over all sequences of such numbers.
-/

namespace Verif

variable {K : Type} [Field K]

/-- All sequences of `n` numbers from `0, 1/M, …, (M-1)/M`. -/
def tapes (M : Nat) : Nat → List (List K)
  | 0 => [[]]
  | n + 1 => (List.range M).flatMap fun u : Nat => (tapes M n).map fun t => ((u : K) / (M : K)) :: t

/-- The average of `f` over a list. -/
def meanOf {α : Type} (f : α → K) (l : List α) : K := (l.map f).sum / (l.length : K)

/-- A generator which hands out the numbers of a given sequence, one after the other. -/
def tapeRng {m32 m64 : Fmt K} : Rng (List K) (FX m32) (FX m64) where
  seed _ := []
  genF t := (FX.fin (t.headD 0), t.tail)
  genD t := (FX.fin (t.headD 0), t.tail)
  choose t l n := (l.take n, t)

/-- The sum of the entries of `v` over those of the rows which satisfy `Q`. -/
def sumOver {m : Fmt K} (v : List (FX m)) (Q : Nat → Bool) (rows : List Nat) : K :=
  ((rows.filter Q).map fun i => ((v[i]?).map FX.val).getD 0).sum

/-- How many of the `M` numbers are below `p`. -/
def below [LinearOrder K] (M : Nat) (p : K) : Nat :=
  ((List.range M).filter fun u : Nat => (u : K) / (M : K) < p).length

/-- Conversion to a natural number cuts off the fraction. -/
def Fmt.Truncates [LinearOrder K] (m : Fmt K) : Prop :=
  ∀ q : K, 0 ≤ q → (m.toNatF q : K) ≤ q ∧ q < (m.toNatF q : K) + 1

end Verif
