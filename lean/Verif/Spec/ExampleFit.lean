import Verif.Spec.ExampleModel
import Mathlib.Data.List.Sort

/-!
# Executable environment and data for examples of fitting
-/

namespace Verif

open scoped Verif

/-- Insertion sort as the standard library's sort. -/
def exSorter : Sorter := { sort := fun le l => l.insertionSort fun a b => le a b = true }

/-- Position of a node of greatest score. -/
def exPick {F D : Type} [Fl F] : List (SNode F D) → Nat
  | [] => 0
  | [_] => 0
  | a :: b :: l =>
    let j := exPick (b :: l)
    match (b :: l)[j]? with
    | some m => if Fl.tle m.gainValue a.gainValue then 0 else j + 1
    | none => 0

/-- A generator that counts. -/
def exRng : Rng Nat Q Q :=
  { seed := id
    genF := fun r => (q ((r % 7 : Nat) / 7), r + 1)
    genD := fun r => (q ((r % 5 : Nat) / 5), r + 1)
    choose := fun r l n => (l.take n, r + 1) }

/-- The environment. -/
def exEnv : Env Nat Q Q := { sorter := exSorter, heap := fun _ => { pick := fun _ l => exPick l }, rng := exRng }

/-- A fresh booster for the squared loss. -/
def exFresh : Booster Q Q :=
  { exBooster with objectiveType := .squaredLoss, trees := [], metadata := [], maxLeaves := 4
                   monotoneConstraints := none, createMissingBranch := false, learningRate := q (1/2)
                   minLeafWeight := q 1, l2 := q 0, nbins := 8 }

/-- Six rows, two columns. -/
def exX : Matrix Q :=
  { data := [q 1, q 2, q 3, q 4, q 5, q 6, q 3, FX.nan, q 1, q 1, FX.nan, q 2], rows := 6, cols := 2 }

/-- Targets. -/
def exY : List Q := [q 0, q 0, q 1, q 3, q 3, q 5]

/-- Unit weights. -/
def exW : List Q := List.replicate 6 (q 1)

end Verif
