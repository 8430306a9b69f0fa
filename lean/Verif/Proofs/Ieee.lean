import Verif.Spec.Ieee
import Mathlib.Algebra.Order.Floor.Ring
import Mathlib.Data.Rat.Floor
import Mathlib.Tactic.Linarith
import Mathlib.Tactic.Ring
import Mathlib.Tactic.FieldSimp
import Mathlib.Tactic.Positivity

/-!
# Rounding to binary numbers: monotone, idempotent, small relative error
-/

namespace Verif

namespace Ieee

theorem pow2_eq (e : ℤ) : pow2 e = (2 : ℚ) ^ e := by
  cases e with
  | ofNat n => simp [pow2]
  | negSucc n => simp [pow2, zpow_negSucc]

theorem pow2_pos (e : ℤ) : 0 < pow2 e := by rw [pow2_eq]; exact zpow_pos (by norm_num) e

theorem pow2_add (a b : ℤ) : pow2 (a + b) = pow2 a * pow2 b := by
  simp only [pow2_eq]; exact zpow_add₀ (by norm_num) a b

theorem pow2_le {a b : ℤ} (h : a ≤ b) : pow2 a ≤ pow2 b := by
  simp only [pow2_eq]; exact zpow_le_zpow_right₀ (by norm_num) h

theorem pow2_lt {a b : ℤ} : pow2 a < pow2 b ↔ a < b := by
  simp only [pow2_eq]; exact zpow_lt_zpow_iff_right₀ (by norm_num)

theorem pow2_nat (n : Nat) : pow2 (n : ℤ) = ((2 ^ n : Nat) : ℚ) := by simp [pow2]

/-- The exponent of the leading bit. -/
theorem lg_spec {q : ℚ} (h : 0 < q) : pow2 (lg q) ≤ q ∧ q < pow2 (lg q + 1) := by
  have hn : 0 < q.num := Rat.num_pos.2 h
  have hn' : q.num.natAbs ≠ 0 := by omega
  have hd : q.den ≠ 0 := q.den_nz
  have a1 := Nat.log2_self_le hn'
  have a2 := Nat.lt_log2_self (n := q.num.natAbs)
  have b1 := Nat.log2_self_le hd
  have b2 := Nat.lt_log2_self (n := q.den)
  have hq : q = (q.num.natAbs : ℚ) / (q.den : ℚ) := by
    conv_lhs => rw [← Rat.num_div_den q]
    have : ((q.num.natAbs : ℤ) : ℚ) = (q.num : ℚ) := by rw [Int.natAbs_of_nonneg hn.le]
    rw [← this, Int.cast_natCast]
  have hdp : (0 : ℚ) < q.den := by exact_mod_cast q.den_pos
  have c1 : pow2 (Nat.log2 q.num.natAbs) ≤ (q.num.natAbs : ℚ) := by
    rw [pow2_nat]; exact_mod_cast a1
  have c2 : (q.num.natAbs : ℚ) < pow2 (Nat.log2 q.num.natAbs + 1 : ℤ) := by
    have := pow2_nat (Nat.log2 q.num.natAbs + 1)
    push_cast at this
    rw [this]; exact_mod_cast a2
  have c3 : pow2 (Nat.log2 q.den) ≤ (q.den : ℚ) := by
    rw [pow2_nat]; exact_mod_cast b1
  have c4 : (q.den : ℚ) < pow2 (Nat.log2 q.den + 1 : ℤ) := by
    have := pow2_nat (Nat.log2 q.den + 1)
    push_cast at this
    rw [this]; exact_mod_cast b2
  have up : q < pow2 ((Nat.log2 q.num.natAbs : ℤ) - Nat.log2 q.den + 1) := by
    refine lt_of_eq_of_lt hq ?_
    rw [div_lt_iff₀ hdp]
    calc _ < pow2 (Nat.log2 q.num.natAbs + 1 : ℤ) := c2
      _ = pow2 ((Nat.log2 q.num.natAbs : ℤ) - Nat.log2 q.den + 1) * pow2 (Nat.log2 q.den) := by
        rw [← pow2_add]; congr 1; ring
      _ ≤ _ := mul_le_mul_of_nonneg_left c3 (pow2_pos _).le
  have low : pow2 ((Nat.log2 q.num.natAbs : ℤ) - Nat.log2 q.den - 1) ≤ q := by
    refine le_of_le_of_eq ?_ hq.symm
    rw [le_div_iff₀ hdp]
    calc _ ≤ pow2 ((Nat.log2 q.num.natAbs : ℤ) - Nat.log2 q.den - 1) * pow2 (Nat.log2 q.den + 1 : ℤ) :=
        mul_le_mul_of_nonneg_left c4.le (pow2_pos _).le
      _ = pow2 (Nat.log2 q.num.natAbs) := by rw [← pow2_add]; congr 1; ring
      _ ≤ _ := c1
  unfold lg
  simp only
  split
  · rename_i hc
    exact ⟨hc, up⟩
  · rename_i hc
    refine ⟨low, ?_⟩
    rw [not_le] at hc
    rw [show ((Nat.log2 q.num.natAbs : ℤ) - Nat.log2 q.den - 1 + 1) =
      (Nat.log2 q.num.natAbs : ℤ) - Nat.log2 q.den by ring]
    exact hc

theorem lg_le {q : ℚ} (h : 0 < q) {k : ℤ} (hk : q < pow2 (k + 1)) : lg q ≤ k := by
  have := pow2_lt.1 (lt_of_le_of_lt (lg_spec h).1 hk)
  omega

theorem lg_mono {a b : ℚ} (h : 0 < a) (hab : a ≤ b) : lg a ≤ lg b :=
  lg_le h (lt_of_le_of_lt hab (lg_spec (lt_of_lt_of_le h hab)).2)

/-! ### Rounding to an integer -/

theorem floor_spec (x : ℚ) : ((Rat.floor x : ℤ) : ℚ) ≤ x ∧ x < (Rat.floor x : ℤ) + 1 := by
  have : Rat.floor x = ⌊x⌋ := rfl
  rw [this]
  exact ⟨Int.floor_le x, Int.lt_floor_add_one x⟩

theorem roundEven_bounds (x : ℚ) : Rat.floor x ≤ roundEven x ∧ roundEven x ≤ Rat.floor x + 1 := by
  unfold roundEven
  simp only
  split
  · omega
  · split
    · omega
    · split <;> omega

theorem roundEven_near (x : ℚ) : |(roundEven x : ℚ) - x| ≤ 1 / 2 := by
  obtain ⟨h1, h2⟩ := floor_spec x
  unfold roundEven
  simp only
  rw [abs_le]
  split
  · rename_i h; constructor <;> linarith
  · rename_i h
    rw [not_lt] at h
    split
    · rename_i h'; push_cast; constructor <;> linarith
    · rename_i h'
      rw [not_lt] at h'
      split <;> push_cast <;> constructor <;> linarith

theorem roundEven_int (n : ℤ) : roundEven (n : ℚ) = n := by
  have : Rat.floor (n : ℚ) = n := Rat.floor_intCast n
  unfold roundEven
  simp only [this, sub_self]
  rw [if_pos (by norm_num)]

theorem roundEven_mono {x y : ℚ} (h : x ≤ y) : roundEven x ≤ roundEven y := by
  have hf : Rat.floor x ≤ Rat.floor y := Int.floor_mono h
  rcases Int.lt_or_eq_of_le hf with hlt | heq
  · have h1 := (roundEven_bounds x).2
    have h2 := (roundEven_bounds y).1
    omega
  · unfold roundEven
    simp only [heq]
    by_cases a1 : x - Rat.floor y < 1 / 2
    · rw [if_pos a1]
      have := (roundEven_bounds y).1
      unfold roundEven at this
      simpa only using this
    · rw [not_lt] at a1
      rw [if_neg (show ¬ x - Rat.floor y < 1 / 2 by linarith),
        if_neg (show ¬ y - Rat.floor y < 1 / 2 by linarith)]
      by_cases a2 : 1 / 2 < x - Rat.floor y
      · rw [if_pos a2, if_pos (by linarith)]
      · rw [if_neg a2]
        by_cases b2 : 1 / 2 < y - Rat.floor y
        · rw [if_pos b2]; split <;> omega
        · rw [if_neg b2]

/-! ### Rounding to a binary number -/

variable {p : Nat} {emin : ℤ}

theorem expo_mono {a b : ℚ} (h : 0 < a) (hab : a ≤ b) : expo p emin a ≤ expo p emin b := by
  unfold expo
  have := lg_mono h hab
  omega

theorem rndPos_nonneg {q : ℚ} (h : 0 ≤ q) : 0 ≤ rndPos p emin q := by
  unfold rndPos
  refine mul_nonneg ?_ (pow2_pos _).le
  have : (0 : ℤ) ≤ roundEven (q / pow2 (expo p emin q)) := by
    have h0 := roundEven_mono (x := ((0 : ℤ) : ℚ)) (y := q / pow2 (expo p emin q))
      (by push_cast; exact div_nonneg h (pow2_pos _).le)
    rwa [roundEven_int] at h0
  exact_mod_cast this

/-- The scaled number is below `2 ^ p`. -/
theorem scaled_lt {q : ℚ} (h : 0 < q) : q / pow2 (expo p emin q) < pow2 p := by
  rw [div_lt_iff₀ (pow2_pos _), ← pow2_add]
  refine lt_of_lt_of_le (lg_spec h).2 (pow2_le ?_)
  unfold expo
  omega

theorem rndPos_le {q : ℚ} (h : 0 < q) : rndPos p emin q ≤ pow2 (p + expo p emin q) := by
  unfold rndPos
  rw [pow2_add]
  refine mul_le_mul_of_nonneg_right ?_ (pow2_pos _).le
  have h1 := roundEven_mono (scaled_lt (p := p) (emin := emin) h).le
  rw [pow2_nat] at h1 ⊢
  have h2 : (((2 ^ p : Nat) : ℤ) : ℚ) = ((2 ^ p : Nat) : ℚ) := by norm_cast
  rw [← h2, roundEven_int] at h1
  rw [← h2]
  exact_mod_cast h1

theorem rndPos_zero : rndPos p emin 0 = 0 := by
  unfold rndPos
  have := roundEven_int 0
  push_cast at this
  rw [zero_div, this]; simp

/-- Multiples of a power of two with few bits are not changed. -/
theorem rndPos_fixed {m : Nat} {k : ℤ} (hp : 0 < p) (hm : m ≤ 2 ^ p) (hk : emin ≤ k) :
    rndPos p emin (m * pow2 k) = m * pow2 k := by
  rcases Nat.eq_zero_or_pos m with rfl | hm0
  · simp [rndPos_zero]
  have hq : (0 : ℚ) < m * pow2 k := mul_pos (by exact_mod_cast hm0) (pow2_pos _)
  -- a representation with an exponent that is not below that of the result
  obtain ⟨m', k', e, h1⟩ : ∃ (m' : Nat) (k' : ℤ), (m : ℚ) * pow2 k = m' * pow2 k' ∧
      expo p emin (m * pow2 k) ≤ k' := by
    rcases Nat.lt_or_eq_of_le hm with hlt | heq
    · refine ⟨m, k, rfl, ?_⟩
      unfold expo
      refine max_le ?_ hk
      have : lg (m * pow2 k) ≤ k + p - 1 := by
        refine lg_le hq ?_
        rw [show k + p - 1 + 1 = (p : ℤ) + k by ring, pow2_add, pow2_nat]
        exact mul_lt_mul_of_pos_right (by exact_mod_cast hlt) (pow2_pos _)
      omega
    · refine ⟨1, k + p, by rw [pow2_add, pow2_nat, heq]; push_cast; ring, ?_⟩
      unfold expo
      refine max_le ?_ (by omega)
      have : lg (m * pow2 k) ≤ k + p := by
        refine lg_le hq ?_
        rw [heq, ← pow2_nat, ← pow2_add, pow2_lt]; omega
      omega
  obtain ⟨d, hd⟩ := Int.eq_ofNat_of_zero_le (sub_nonneg.2 h1)
  unfold rndPos
  generalize hE : expo p emin (m * pow2 k) = E at h1 hd ⊢
  have hx : (m : ℚ) * pow2 k / pow2 E = ((m' * 2 ^ d : Nat) : ℤ) := by
    rw [div_eq_iff (pow2_pos _).ne', e]
    rw [show k' = (d : ℤ) + E by omega, pow2_add, pow2_nat]
    push_cast; ring
  rw [hx, roundEven_int, ← hx, div_mul_cancel₀ _ (pow2_pos _).ne']

/-- Rounded numbers are such multiples. -/
theorem rndPos_form {q : ℚ} (h : 0 ≤ q) : ∃ (m : Nat) (k : ℤ), m ≤ 2 ^ p ∧ emin ≤ k ∧
    rndPos p emin q = m * pow2 k := by
  rcases h.eq_or_lt with rfl | h
  · exact ⟨0, emin, by simp, le_rfl, by simp [rndPos_zero]⟩
  have h0 : (0 : ℤ) ≤ roundEven (q / pow2 (expo p emin q)) := by
    have h0 := roundEven_mono (x := ((0 : ℤ) : ℚ)) (y := q / pow2 (expo p emin q))
      (by push_cast; exact div_nonneg h.le (pow2_pos _).le)
    rwa [roundEven_int] at h0
  obtain ⟨m, hm⟩ := Int.eq_ofNat_of_zero_le h0
  refine ⟨m, expo p emin q, ?_, le_max_right _ _, ?_⟩
  · have := rndPos_le (p := p) (emin := emin) h
    unfold rndPos at this
    rw [pow2_add, mul_le_mul_iff_left₀ (pow2_pos _), hm, pow2_nat] at this
    exact_mod_cast this
  · unfold rndPos
    rw [hm]; norm_cast

theorem rndPos_mono {a b : ℚ} (hp : 0 < p) (ha : 0 ≤ a) (hab : a ≤ b) : rndPos p emin a ≤ rndPos p emin b := by
  rcases ha.eq_or_lt with rfl | ha
  · rw [rndPos_zero]; exact rndPos_nonneg hab
  have hb := lt_of_lt_of_le ha hab
  rcases Int.lt_or_eq_of_le (expo_mono (p := p) (emin := emin) ha hab) with hlt | heq
  · refine (rndPos_le ha).trans ?_
    -- the exponent of `b` is not the least one
    have hlg : expo p emin b = lg b - (p - 1) := by
      unfold expo at hlt ⊢
      omega
    have h1 : pow2 (p + expo p emin a) ≤ pow2 (lg b) := pow2_le (by omega)
    refine h1.trans ?_
    unfold rndPos
    have h3 : pow2 (lg b) = ((2 ^ (p - 1) : Nat) : ℤ) * pow2 (expo p emin b) := by
      have := pow2_nat (p - 1)
      rw [show (((2 ^ (p - 1) : Nat) : ℤ) : ℚ) = ((2 ^ (p - 1) : Nat) : ℚ) by norm_cast, ← this,
        ← pow2_add]
      congr 1
      omega
    rw [h3]
    refine mul_le_mul_of_nonneg_right ?_ (pow2_pos _).le
    have h4 : ((2 ^ (p - 1) : Nat) : ℤ) ≤ roundEven (b / pow2 (expo p emin b)) := by
      rw [← roundEven_int ((2 ^ (p - 1) : Nat) : ℤ)]
      refine roundEven_mono ?_
      rw [le_div_iff₀ (pow2_pos _), ← h3]
      exact (lg_spec hb).1
    exact_mod_cast h4
  · unfold rndPos
    rw [heq]
    refine mul_le_mul_of_nonneg_right ?_ (pow2_pos _).le
    have := roundEven_mono (div_le_div_of_nonneg_right hab (pow2_pos (expo p emin b)).le)
    exact_mod_cast this

/-- A number is representable if it is a multiple of an allowed power of two with at most `p` bits. -/
def Rep (p : Nat) (emin : ℤ) (q : ℚ) : Prop :=
  ∃ (m : Nat) (k : ℤ), m ≤ 2 ^ p ∧ emin ≤ k ∧ |q| = m * pow2 k

theorem rnd_of_nonneg {q : ℚ} (h : 0 ≤ q) : rnd p emin q = rndPos p emin q := by
  rw [rnd, if_neg (not_lt.2 h)]

theorem rnd_neg (q : ℚ) : rnd p emin (-q) = -rnd p emin q := by
  rcases lt_trichotomy q 0 with h | rfl | h
  · rw [rnd_of_nonneg (by linarith), rnd, if_pos h, neg_neg]
  · rw [neg_zero, rnd_of_nonneg le_rfl, rndPos_zero, neg_zero]
  · rw [rnd_of_nonneg h.le, rnd, if_pos (by linarith), neg_neg]

theorem rnd_nonneg {q : ℚ} (h : 0 ≤ q) : 0 ≤ rnd p emin q := by
  rw [rnd_of_nonneg h]; exact rndPos_nonneg h

theorem rnd_mono (hp : 0 < p) {a b : ℚ} (h : a ≤ b) : rnd p emin a ≤ rnd p emin b := by
  rcases le_or_gt 0 a with ha | ha
  · rw [rnd_of_nonneg ha, rnd_of_nonneg (ha.trans h)]
    exact rndPos_mono hp ha h
  · have e1 : rnd p emin a = -rnd p emin (-a) := by rw [rnd_neg, neg_neg]
    rcases le_or_gt 0 b with hb | hb
    · have h1 := rnd_nonneg (p := p) (emin := emin) (q := -a) (by linarith)
      have h2 := rnd_nonneg (p := p) (emin := emin) hb
      rw [e1]; linarith
    · have e2 : rnd p emin b = -rnd p emin (-b) := by rw [rnd_neg, neg_neg]
      rw [e1, e2, rnd_of_nonneg (by linarith), rnd_of_nonneg (by linarith)]
      have := rndPos_mono (p := p) (emin := emin) hp (a := -b) (b := -a) (by linarith) (by linarith)
      linarith

theorem rnd_abs (q : ℚ) : |rnd p emin q| = rnd p emin |q| := by
  rcases le_or_gt 0 q with h | h
  · rw [abs_of_nonneg h, abs_of_nonneg (rnd_nonneg h)]
  · rw [abs_of_neg h, rnd_neg, abs_of_nonpos]
    have := rnd_nonneg (p := p) (emin := emin) (q := -q) (by linarith)
    rw [rnd_neg] at this
    linarith

theorem rnd_rep (q : ℚ) : Rep p emin (rnd p emin q) := by
  obtain ⟨m, k, h1, h2, h3⟩ := rndPos_form (p := p) (emin := emin) (abs_nonneg q)
  exact ⟨m, k, h1, h2, by rw [rnd_abs, rnd_of_nonneg (abs_nonneg q), h3]⟩

theorem Rep.fixed (hp : 0 < p) {q : ℚ} (h : Rep p emin q) : rnd p emin q = q := by
  obtain ⟨m, k, h1, h2, h3⟩ := h
  have := rndPos_fixed hp h1 h2
  rw [← h3, ← rnd_of_nonneg (abs_nonneg q)] at this
  rcases le_or_gt 0 q with h | h
  · rwa [abs_of_nonneg h] at this
  · rw [abs_of_neg h, rnd_neg] at this
    linarith

theorem rnd_idem (hp : 0 < p) (q : ℚ) : rnd p emin (rnd p emin q) = rnd p emin q :=
  (rnd_rep q).fixed hp

theorem Rep.double {q : ℚ} (h : Rep p emin q) : Rep p emin (2 * q) := by
  obtain ⟨m, k, h1, h2, h3⟩ := h
  refine ⟨m, k + 1, h1, by omega, ?_⟩
  rw [abs_mul, h3, pow2_add]
  have : pow2 1 = 2 := rfl
  rw [this, abs_of_pos (by norm_num)]; ring

theorem rnd_double (hp : 0 < p) {q : ℚ} (h : rnd p emin q = q) : rnd p emin (2 * q) = 2 * q := by
  have : Rep p emin q := by rw [← h]; exact rnd_rep q
  exact this.double.fixed hp

/-- The rounding error: half a unit in the last place. -/
theorem rnd_error (q : ℚ) : |rnd p emin q - q| ≤ pow2 (expo p emin |q|) / 2 := by
  have key : ∀ x : ℚ, 0 ≤ x → |rndPos p emin x - x| ≤ pow2 (expo p emin x) / 2 := by
    intro x _
    have h := roundEven_near (x / pow2 (expo p emin x))
    have hp := pow2_pos (expo p emin x)
    have e : rndPos p emin x - x =
        ((roundEven (x / pow2 (expo p emin x)) : ℚ) - x / pow2 (expo p emin x)) * pow2 (expo p emin x) := by
      rw [sub_mul, div_mul_cancel₀ _ hp.ne']; rfl
    rw [e, abs_mul, abs_of_pos hp]
    nlinarith
  rcases le_or_gt 0 q with h | h
  · rw [rnd_of_nonneg h, abs_of_nonneg h]; exact key q h
  · rw [abs_of_neg h, ← abs_neg, neg_sub', sub_neg_eq_add]
    have := key (-q) (by linarith)
    rw [← rnd_of_nonneg (by linarith), rnd_neg, sub_neg_eq_add] at this
    exact this

/-- The relative error of a number that is not too small. -/
theorem rnd_relative {q : ℚ} (h : pow2 (emin + p - 1) ≤ |q|) : |rnd p emin q - q| ≤ pow2 (-p) * |q| := by
  have h0 : 0 < |q| := lt_of_lt_of_le (pow2_pos _) h
  have hl : emin + p - 1 ≤ lg |q| := by
    have := pow2_lt.1 (lt_of_le_of_lt h (lg_spec h0).2)
    omega
  have he : expo p emin |q| = lg |q| - (p - 1) := by unfold expo; omega
  refine (rnd_error q).trans ?_
  rw [he]
  have h1 := (lg_spec h0).1
  have e : pow2 (lg |q| - (p - 1)) / 2 = pow2 (-p) * pow2 (lg |q|) := by
    rw [← pow2_add, show lg |q| - ((p : ℤ) - 1) = (-p + lg |q|) + 1 by ring, pow2_add]
    have : pow2 1 = 2 := rfl
    rw [this]; ring
  rw [e]
  exact mul_le_mul_of_nonneg_left h1 (pow2_pos _).le

/-- The error of any number: relative, or half the least positive number. -/
theorem rnd_near (q : ℚ) : |rnd p emin q - q| ≤ pow2 (-p) * |q| + pow2 (emin - 1) := by
  rcases le_or_gt (pow2 (emin + p - 1)) |q| with h | h
  · have := rnd_relative h
    have := (pow2_pos (emin - 1)).le
    linarith
  · rcases (abs_nonneg q).eq_or_lt with h0 | h0
    · have : q = 0 := abs_eq_zero.1 h0.symm
      subst this
      rw [rnd_of_nonneg le_rfl, rndPos_zero]
      simp [(pow2_pos (emin - 1)).le]
    · have hl : lg |q| ≤ emin + p - 2 := lg_le h0 (by rwa [show emin + (p : ℤ) - 2 + 1 = emin + p - 1 by ring])
      have he : expo p emin |q| = emin := by unfold expo; omega
      have := rnd_error (p := p) (emin := emin) q
      rw [he] at this
      have e : pow2 emin / 2 = pow2 (emin - 1) := by
        conv_lhs => rw [show emin = (emin - 1) + 1 by ring, pow2_add]
        have : pow2 1 = 2 := rfl
        rw [this]; ring
      rw [e] at this
      have := mul_nonneg (pow2_pos (-(p : ℤ))).le (abs_nonneg q)
      linarith

end Ieee
end Verif
