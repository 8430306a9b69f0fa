import Verif.Proofs.GradHist

/-!
# `f64` sums of `f32` numbers, converted to `f32`
-/

namespace Verif

open scoped Verif

namespace Ieee

variable {p : Nat} {emin : ℤ}

/-- Rounding keeps multiples of a power of two that is not below the smallest positive number. -/
theorem rnd_multiple {e : ℤ} (hp : 0 < p) (he : emin ≤ e) {n : ℤ} :
    ∃ n' : ℤ, rnd p emin (n * pow2 e) = n' * pow2 e := by
  have pos : ∀ m : Nat, ∃ m' : ℤ, rndPos p emin ((m : ℚ) * pow2 e) = m' * pow2 e := by
    intro m
    obtain ⟨a, ha⟩ : ∃ a : ℤ, a = expo p emin ((m : ℚ) * pow2 e) := ⟨_, rfl⟩
    show ∃ m' : ℤ, (roundEven ((m : ℚ) * pow2 e / pow2 (expo p emin ((m : ℚ) * pow2 e))) : ℚ) *
      pow2 (expo p emin ((m : ℚ) * pow2 e)) = m' * pow2 e
    rw [← ha]
    rcases le_total a e with h | h
    · obtain ⟨d, hd⟩ := Int.eq_ofNat_of_zero_le (sub_nonneg.2 h)
      have hq : pow2 e = ((2 ^ d : Nat) : ℚ) * pow2 a := by
        rw [← pow2_nat, ← pow2_add]; congr 1; omega
      have : (m : ℚ) * pow2 e / pow2 a = ((m * 2 ^ d : Nat) : ℤ) := by
        rw [hq]
        push_cast
        have := (pow2_pos a).ne'
        field_simp
      rw [this, roundEven_int]
      refine ⟨m, ?_⟩
      rw [hq]; push_cast; ring
    · obtain ⟨d, hd⟩ := Int.eq_ofNat_of_zero_le (sub_nonneg.2 h)
      have hq : pow2 a = ((2 ^ d : Nat) : ℚ) * pow2 e := by
        rw [← pow2_nat, ← pow2_add]; congr 1; omega
      exact ⟨roundEven ((m : ℚ) * pow2 e / pow2 a) * (2 ^ d : Nat), by
        rw [hq]; push_cast; ring⟩
  rcases le_total 0 n with h | h
  · obtain ⟨m, rfl⟩ := Int.eq_ofNat_of_zero_le h
    obtain ⟨m', hm'⟩ := pos m
    refine ⟨m', ?_⟩
    rw [← hm']
    exact rnd_of_nonneg (mul_nonneg (by positivity) (pow2_pos e).le)
  · obtain ⟨m, hm⟩ := Int.eq_ofNat_of_zero_le (neg_nonneg.2 h)
    obtain ⟨m', hm'⟩ := pos m
    refine ⟨-m', ?_⟩
    have : n = -(m : ℤ) := by omega
    rw [this, Int.cast_neg, neg_mul, rnd_neg, Int.cast_natCast,
      rnd_of_nonneg (mul_nonneg (by positivity) (pow2_pos e).le), hm']
    push_cast; ring

/-- A multiple of the smallest positive number is rounded with a small relative error. -/
theorem rnd_multiple_error (hp : 0 < p) {n : ℤ} :
    |rnd p emin (n * pow2 emin) - n * pow2 emin| ≤ pow2 (-p) * |(n : ℚ) * pow2 emin| := by
  rcases le_or_gt (pow2 (emin + p - 1)) |(n : ℚ) * pow2 emin| with h | h
  · exact rnd_relative h
  · have h1 : |(n : ℚ) * pow2 emin| = (n.natAbs : ℚ) * pow2 emin := by
      rw [abs_mul, abs_of_pos (pow2_pos _)]
      congr 1
      rw [← Int.cast_abs, Int.abs_eq_natAbs, Int.cast_natCast]
    have hR : Rep p emin (n * pow2 emin) := by
      refine ⟨n.natAbs, emin, ?_, le_rfl, h1⟩
      rw [h1, show emin + (p : ℤ) - 1 = ((p - 1 : Nat) : ℤ) + emin by omega, pow2_add, pow2_nat,
        mul_lt_mul_iff_left₀ (pow2_pos _)] at h
      have h2 : n.natAbs < 2 ^ (p - 1) := by exact_mod_cast h
      have h3 : 2 ^ (p - 1) ≤ 2 ^ p := Nat.pow_le_pow_right (by norm_num) (by omega)
      omega
    rw [hR.fixed hp, sub_self, abs_zero]
    exact mul_nonneg (pow2_pos _).le (abs_nonneg _)

variable {e32 l32 s32 e64 l64 s64 : ℚ → RV ℚ}

/-- `f64` sums of `f32` numbers are multiples of 2^-149, so they are converted to `f32` with a relative error of at
most 2^-24. -/
theorem b32_narrows : (b32 e32 l32 s32).Narrows (b64 e64 l64 s64) (pow2 (-24))
    (fun x => ∃ n : ℤ, x = n * pow2 (-149)) where
  nonneg := (pow2_pos _).le
  of_repr h := (rep_of_repr h).multiple
  add := by
    rintro a b z ⟨n, rfl⟩ ⟨n', rfl⟩ h
    obtain ⟨rfl, _⟩ := fmt_rnd_fin.1 h
    rw [← add_mul, ← Int.cast_add]
    exact rnd_multiple (by norm_num) (by norm_num)
  down := by
    rintro a z ⟨n, rfl⟩ h
    obtain ⟨rfl, _⟩ := fmt_rnd_fin.1 h
    exact rnd_multiple_error (p := 24) (by norm_num)

/-- The unit of the error bounds. -/
theorem errFmt (N : Nat) : ErrFmt (b32 e32 l32 s32) (b64 e64 l64 s64) (pow2 (-24)) (pow2 (-53))
    ((1 + pow2 (-24)) * (1 + pow2 (-53)) ^ N - 1) (fun x => ∃ n : ℤ, x = n * pow2 (-149)) N where
  r32 := inferInstance
  r64 := inferInstance
  a32 := by
    refine Fmt.Accurate.weaken (u := pow2 (-24)) inferInstance ?_
    have h1 := one_le_pow_u (pow2_pos (-53)).le N
    have h2 : 0 ≤ 1 + pow2 (-24) := by have := pow2_pos (-24); linarith
    nlinarith [mul_le_mul_of_nonneg_left h1 h2]
  a64 := inferInstance
  embeds := inferInstance
  narrows := b32_narrows
  unit := by linarith

end Ieee

end Verif
