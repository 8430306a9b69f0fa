import Verif.Proofs.Usize
import Verif.Props.TotalAny
import Verif.Props.Boosting

/-!
# C128: no subtraction of indices or counts goes below zero

In Rust `a - b` on `usize` with `a < b` panics in a build with overflow checks and wraps around to a
number near `2^64` in one without.  The theorems say that this never happens: whatever the subtraction
does below zero (`UsizeSub`), training and Shapley contributions give the same.
-/

namespace Verif

open scoped Verif

section
variable {F D : Type} [Fl F] [Fl D] [FlCast F D] {R : Type}

/-- **C128** (training, any arithmetic).  A training that returns in the model returns the same whatever
the subtractions of `usize` do below zero. -/
theorem C128_fit (u : UsizeSub) {env : Env R F D} {b : Booster F D} {X : Matrix D} {y w : List D}
    {ev : Option (List (EvalSet D))} {r : Booster F D × Except ForustError Unit}
    (h : b.fit env X y w ev = .ok r) : b.fitU u env X y w ev = .ok r :=
  Booster.fitU_ext u env b X y w ev r h

/-- **C128** (training, no hypothesis on the result).  On the arguments of C77 every build, with overflow
checks or without, returns, and what it returns does not depend on the build. -/
theorem C128_total [Fl.OrdLaws D] [Fl.ZeroLaws F D] {env : Env R F D} {b : Booster F D} {X : Matrix D}
    {y w : List D} (h : AnyArgs env b X y w) {ev : Option (List (EvalSet D))} (hev : EvalArgs X b ev) :
    ∃ r, b.fit env X y w ev = .ok r ∧ ∀ u : UsizeSub, b.fitU u env X y w ev = .ok r := by
  obtain ⟨h1, h2⟩ := C77_fit h hev
  by_cases hv : BadInput y w ev
  · obtain ⟨e, he⟩ := h2 hv
    exact ⟨_, he, fun u => C128_fit u he⟩
  · obtain ⟨b', hb⟩ := h1 hv
    exact ⟨_, hb, fun u => C128_fit u hb⟩

/-- **C128** (contributions, any arithmetic).  Shapley contributions, of any booster and on any data, are
the same whatever the subtractions of `usize` do below zero. -/
theorem C128_shapley (u : UsizeSub) (b : Booster F D) (data : Matrix D) :
    b.shapleyRowsU u data = b.contribRows data .shapley :=
  Booster.shapleyRowsU_eq u b data

end

/-- **C128** (why it needs an argument).  The partition of a ternary split called with a split bin of 0
counts more missing rows than rows before the boundary, so `total - n_right - n_missing` would go
below zero.  Split bins of 0 do not occur in a training. -/
theorem C128_bin_zero : ∃ index m split,
    pivotOnSplitExcludeMissing [0, 1] [0, 1] 0 = .ok (index, m, split) ∧ split < m := by
  exact ⟨[0, 1], 1, 0, by decide +kernel, by decide⟩

/-! ### Examples -/

/-- A training with evaluation sets that stops early, in a build that wraps around. -/
example : ∃ b' : Booster Q Q, exStop.fitU .wrapping exEnv exX exY exW (some exSets) = .ok (b', .ok ()) ∧
    exStop.fit exEnv exX exY exW (some exSets) = .ok (b', .ok ()) ∧ b'.trees ≠ [] ∧
    b'.bestIteration ≠ some (b'.trees.length - 1) := by
  have : (match exStop.fit exEnv exX exY exW (some exSets) with
      | .ok (b', .ok ()) => !b'.trees.isEmpty &&
        decide (b'.bestIteration ≠ some (b'.trees.length - 1))
      | _ => false) = true := by decide +kernel
  split at this
  · rename_i b' h
    simp only [Bool.and_eq_true, decide_eq_true_eq, Bool.not_eq_true', List.isEmpty_eq_false_iff] at this
    exact ⟨b', C128_fit _ h, h, this.1, this.2⟩
  · cases this

/-- The arguments of `C128_total` are met by the default booster in floating point. -/
example : ∃ b : Booster F32 F64, Booster.default F32 F64 = some b ∧
    ∃ r, ∀ u : UsizeSub, b.fitU u floatEnv
      { data := [f64 (1 / 10), FX.nan, FX.pinf, f64 5], rows := 4, cols := 1 }
      [f64 0, f64 1, f64 1, f64 0] (List.replicate 4 1) none = .ok r := by
  have key : (match Booster.default F32 F64 with
      | some b => decide (b.evaluationHistory.isNone = true ∧ b.missing = FX.nan ∧ b.nbins = 256 ∧
          b.minLeafWeight = 1 ∧ b.topRate = f64 (1 / 10) ∧ b.forceChildrenToBoundParent = false)
      | none => false) = true := by decide +kernel
  split at key
  · rename_i b hb
    obtain ⟨h1, h2, h3, h4, h5, h6⟩ := of_decide_eq_true key
    obtain ⟨r, _, hr⟩ := C128_total (floatArgs h2 h3 h4 h5 h6 rfl rfl rfl rfl)
      (X := { data := [f64 (1 / 10), FX.nan, FX.pinf, f64 5], rows := 4, cols := 1 })
      (y := [f64 0, f64 1, f64 1, f64 0]) (w := List.replicate 4 1)
      (ev := none) ⟨by simp, by simp, .inr (Option.isNone_iff_eq_none.1 h1)⟩
    exact ⟨b, hb, r, hr⟩
  · cases key

/-- Contributions of a booster of two trees. -/
example : ∃ b' : Booster Q Q, exFresh.fit exEnv exX exY exW none = .ok (b', .ok ()) ∧
    ∃ rows, b'.shapleyRowsU .wrapping exX = .ok rows ∧ b'.shapleyRowsU .checked exX = .ok rows ∧
      rows.length = 6 := by
  have : (match exFresh.fit exEnv exX exY exW none with
      | .ok (b', .ok ()) => (match b'.contribRows exX .shapley with
        | .ok rows => decide (rows.length = 6)
        | _ => false)
      | _ => false) = true := by decide +kernel
  split at this
  · rename_i b' h
    refine ⟨b', h, ?_⟩
    rw [C128_shapley, C128_shapley]
    split at this
    · rename_i rows hr
      exact ⟨rows, hr, hr, of_decide_eq_true this⟩
    · cases this
  · cases this

end Verif
