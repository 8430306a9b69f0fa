import Verif.Spec.PowerOfTwo
import Verif.Proofs.Ieee

/-!
# Rounding to `p` bits commutes with multiplication by powers of two
-/

namespace Verif

namespace Ieee

theorem lg_unique {q : ℚ} {k : ℤ} (h1 : pow2 k ≤ q) (h2 : q < pow2 (k + 1)) : lg q = k := by
  have hq : 0 < q := lt_of_lt_of_le (pow2_pos k) h1
  obtain ⟨h3, h4⟩ := lg_spec hq
  have a1 : lg q < k + 1 := pow2_lt.1 (lt_of_le_of_lt h3 h2)
  have a2 : k < lg q + 1 := pow2_lt.1 (lt_of_le_of_lt h1 h4)
  omega

theorem lg_mul {q : ℚ} (h : 0 < q) (k : ℤ) : lg (pow2 k * q) = k + lg q := by
  obtain ⟨h3, h4⟩ := lg_spec h
  refine lg_unique ?_ ?_
  · rw [pow2_add]; exact mul_le_mul_of_nonneg_left h3 (pow2_pos k).le
  · rw [add_assoc, pow2_add]; exact mul_lt_mul_of_pos_left h4 (pow2_pos k)

theorem widePos_mul (p : Nat) {q : ℚ} (h : 0 < q) (k : ℤ) : widePos p (pow2 k * q) = pow2 k * widePos p q := by
  unfold widePos
  rw [lg_mul h, add_sub_assoc, pow2_add, mul_div_mul_left _ _ (pow2_pos k).ne']
  ring

theorem widePos_zero (p : Nat) : widePos p 0 = 0 := by
  unfold widePos
  rw [zero_div]
  have : roundEven 0 = 0 := by have := roundEven_int 0; simpa using this
  rw [this, Int.cast_zero, zero_mul]

theorem wideRnd_mul (p : Nat) (q : ℚ) (k : ℤ) : wideRnd p (pow2 k * q) = pow2 k * wideRnd p q := by
  have hk := pow2_pos k
  unfold wideRnd
  rcases lt_trichotomy q 0 with h | h | h
  · rw [if_pos h, if_pos (mul_neg_of_pos_of_neg hk h), ← mul_neg, widePos_mul p (neg_pos.2 h), mul_neg]
  · subst h
    rw [mul_zero, if_neg (lt_irrefl 0), widePos_zero, mul_zero]
  · rw [if_neg (not_lt.2 h.le), if_neg (not_lt.2 (mul_pos hk h).le), widePos_mul p h]

/-- The powers of two are factors that rounding to `p` bits commutes with. -/
theorem wide_scalesBy (p : Nat) (maxF : ℚ) (e l s : ℚ → RV ℚ) (k : ℤ) : (wide p maxF e l s).ScalesBy (pow2 k) :=
  ⟨fun q => congrArg RV.fin (wideRnd_mul p q k)⟩

/-- In the normal range the bounded exponent makes no difference. -/
theorem rnd_eq_wide {p : Nat} {emin : ℤ} {q : ℚ} (h : pow2 (emin + ((p : ℤ) - 1)) ≤ |q|) :
    rnd p emin q = wideRnd p q := by
  have key : ∀ a : ℚ, pow2 (emin + ((p : ℤ) - 1)) ≤ a → rndPos p emin a = widePos p a := by
    intro a ha
    have h0 : 0 < a := lt_of_lt_of_le (pow2_pos _) ha
    have : emin ≤ lg a - ((p : ℤ) - 1) := by
      have h2 := (lg_spec h0).2
      have := pow2_lt.1 (lt_of_le_of_lt ha h2)
      omega
    unfold rndPos widePos expo
    rw [max_eq_left this]
  unfold rnd wideRnd
  split
  · rename_i hn
    rw [key]
    rwa [abs_of_neg hn] at h
  · rename_i hn
    rw [key]
    rwa [abs_of_nonneg (not_lt.1 hn)] at h

theorem fmt_eq_wide {p : Nat} (hp : 0 < p) {emin : ℤ} {M : ℚ} (hM : rnd p emin M = M) {q : ℚ}
    (h : q = 0 ∨ pow2 (emin + ((p : ℤ) - 1)) ≤ |q|) (hq : |q| ≤ M) (e l s : ℚ → RV ℚ) {N : ℚ} :
    (fmt p emin M e l s).rnd q = (wide p N e l s).rnd q := by
  have e1 : rnd p emin q = wideRnd p q := by
    rcases h with h | h
    · subst h
      unfold rnd wideRnd rndPos
      rw [if_neg (lt_irrefl 0), if_neg (lt_irrefl 0), widePos_zero, zero_div]
      have : roundEven 0 = 0 := by have := roundEven_int 0; simpa using this
      rw [this, Int.cast_zero, zero_mul]
    · exact rnd_eq_wide h
  have e2 : |rnd p emin q| ≤ M := by
    rw [rnd_abs, ← hM]
    exact rnd_mono hp hq
  rw [abs_le] at e2
  show (if M < rnd p emin q then RV.pinf else if rnd p emin q < -M then .ninf else .fin (rnd p emin q)) =
    .fin (wideRnd p q)
  rw [if_neg (not_lt.2 e2.2), if_neg (not_lt.2 e2.1), e1]

/-- The first `n` bits of the integral square root of `a`, after the bits in `r`. -/
def bitSqrt (a : Nat) : Nat → Nat → Nat
  | 0, r => r
  | n + 1, r => bitSqrt a n (if (r + 2 ^ n) * (r + 2 ^ n) ≤ a then r + 2 ^ n else r)

/-- A square root cut off after `p + 1` bits. -/
def digitSqrt (p : Nat) (q : ℚ) : RV ℚ :=
  .fin ((bitSqrt (Rat.floor (q / (pow2 (lg q / 2 - p) * pow2 (lg q / 2 - p)))).toNat (p + 1) 0 : ℚ) * pow2 (lg q / 2 - p))

theorem digitSqrt_mul (p : Nat) {q : ℚ} (h : 0 < q) (k : ℤ) :
    digitSqrt p (pow2 k * pow2 k * q) = (digitSqrt p q).smul (pow2 k) := by
  have e : lg (pow2 k * pow2 k * q) / 2 - p = k + (lg q / 2 - p) := by
    rw [← pow2_add, lg_mul h]
    omega
  unfold digitSqrt RV.smul
  rw [e, pow2_add]
  have e2 : pow2 k * pow2 k * q / (pow2 k * pow2 (lg q / 2 - ↑p) * (pow2 k * pow2 (lg q / 2 - ↑p))) =
      q / (pow2 (lg q / 2 - ↑p) * pow2 (lg q / 2 - ↑p)) := by
    have h1 := (pow2_pos k).ne'
    have h2 := (pow2_pos (lg q / 2 - ↑p)).ne'
    field_simp
  rw [e2]
  dsimp only
  congr 1
  ring

end Ieee

end Verif
