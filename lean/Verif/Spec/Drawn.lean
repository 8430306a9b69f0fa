import Verif.Proofs.Sampling

/-!
# Specification: the rows that random sampling draws

Read off the generator alone: every iteration takes one number per row, a row is drawn when its number is below the
sampling rate, and then the columns of the tree are chosen.
-/

namespace Verif

open scoped Verif

variable {R F D : Type} [Fl F] [Fl D]

/-- The generator after `n` numbers. -/
def afterDraws {T : Type} (gen : R → T × R) : R → Nat → R
  | r, 0 => r
  | r, n + 1 => afterDraws gen (gen r).2 n

/-- The rows drawn by a generator in state `r`: number `i` of the generator is below the rate. -/
def DrawnFrom (g : Rng R F D) (rate : F) (r : R) (rows i : Nat) : Prop :=
  i < rows ∧ ∃ x, (draws g.genF r rows)[i]? = some x ∧ (x <ᶠ rate) = true

/-- The generator after the columns of a tree are chosen; with a rate of one nothing is drawn. -/
def afterColumns (g : Rng R F D) (rate : D) (r : R) (cols : Nat) : R :=
  if (rate =ᶠ 1) = true then r else (g.choose r (List.range cols) (Fl.toNat (Fl.ofNat cols * rate))).2

/-- The generator at the start of iteration `k`. -/
def stateAt (g : Rng R F D) (colRate : D) (rows cols : Nat) (r : R) : Nat → R
  | 0 => r
  | k + 1 => stateAt g colRate rows cols (afterColumns g colRate (afterDraws g.genF r rows) cols) k

/-- Row `i` is drawn in one of the first `n` iterations. -/
def EverDrawn (g : Rng R F D) (rate : F) (colRate : D) (rows cols : Nat) (r : R) (n i : Nat) : Prop :=
  ∃ k < n, DrawnFrom g rate (stateAt g colRate rows cols r k) rows i

end Verif
