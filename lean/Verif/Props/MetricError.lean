import Verif.Proofs.MetricError
import Verif.Props.RoundError

/-!
# C143: the accuracy of the root mean squared error
-/

namespace Verif

open scoped Verif

/-! ### The specification -/

section
variable {K : Type} [Field K] [LinearOrder K] [IsStrictOrderedRing K]

/-- One row of an evaluation set. -/
structure EvalRow (K : Type) where
  /-- the target -/
  y : K
  /-- the prediction -/
  p : K
  /-- the weight -/
  w : K
  deriving Repr

/-- The weighted mean of the squared errors, without rounding. -/
def meanSquare (l : List (EvalRow K)) : K := (l.map fun t => t.w * (t.y - t.p) ^ 2).sum / (l.map fun t => t.w).sum

/-- Rows for which the metric is computed without loss of digits: the numbers are representable, the weights are
not negative and not all zero, and no square, no weighted square and no mean is tiny but not zero. -/
structure EvalRowsOk (m : Fmt K) (tiny : K) (l : List (EvalRow K)) : Prop where
  y : ∀ t ∈ l, m.Repr t.y
  p : ∀ t ∈ l, m.Repr t.p
  w : ∀ t ∈ l, m.Repr t.w ∧ 0 ≤ t.w
  square : ∀ t ∈ l, (t.y - t.p) ^ 2 = 0 ∨ 2 * tiny ≤ (t.y - t.p) ^ 2
  term : ∀ t ∈ l, t.w * (t.y - t.p) ^ 2 = 0 ∨ 2 * tiny ≤ t.w * (t.y - t.p) ^ 2
  sum : 0 < (l.map fun t => t.w).sum
  mean : meanSquare l = 0 ∨ 2 * tiny ≤ meanSquare l

variable {m : Fmt K} {u tiny c : K}

/-- The targets, predictions and weights as the metric gets them. -/
def targets (m : Fmt K) (l : List (EvalRow K)) : List (FX m) := l.map fun t => FX.fin t.y

/-- See `targets`. -/
def scores (m : Fmt K) (l : List (EvalRow K)) : List (FX m) := l.map fun t => FX.fin t.p

/-- See `targets`. -/
def scoreWeights (m : Fmt K) (l : List (EvalRow K)) : List (FX m) := l.map fun t => FX.fin t.w

theorem zip3_evalRows (l : List (EvalRow K)) : zip3 (targets m l) (scores m l) (scoreWeights m l) =
    l.map fun t => (FX.fin t.y, FX.fin t.p, FX.fin t.w) := by
  unfold zip3 targets scores scoreWeights
  induction l with
  | nil => rfl
  | cons t l ih => simp [ih]

/-- One term. -/
theorem term_ratio [hm : m.Accurate u] [hr : m.Rounds] (hrel : m.Relative u tiny) (hu : u < 1)
    (hc : c * (1 - u) = 1) (hc1 : 1 ≤ c) (hc4 : c ^ 4 ≤ 2) {t : EvalRow K} (hy : m.Repr t.y) (hp : m.Repr t.p)
    (hw : m.Repr t.w ∧ 0 ≤ t.w) (hs : (t.y - t.p) ^ 2 = 0 ∨ 2 * tiny ≤ (t.y - t.p) ^ 2)
    (ht : t.w * (t.y - t.p) ^ 2 = 0 ∨ 2 * tiny ≤ t.w * (t.y - t.p) ^ 2) {v : K}
    (h : (FX.fin t.y - FX.fin t.p) * (FX.fin t.y - FX.fin t.p) * FX.fin t.w = (FX.fin v : FX m)) :
    m.Repr v ∧ Ratio c 4 v (t.w * (t.y - t.p) ^ 2) := by
  have hpow : ∀ {k}, k ≤ 4 → c ^ k ≤ 2 := fun hk => (pow_le_pow_right₀ hc1 hk).trans hc4
  obtain ⟨s, w, e1, e2, h1⟩ := FX.mul_fin_cases h
  cases e2
  obtain ⟨d, d', e3, e4, h2⟩ := FX.mul_fin_cases e1
  rw [e3] at e4
  cases e4
  have hd := (NearX.sub (u := u) (x := (FX.fin t.y : FX m)) (y := FX.fin t.p)
    (fun a e => by cases e; exact hy) (fun a e => by cases e; exact hp) rfl rfl).near d e3
  have herr : |d - (t.y - t.p)| ≤ u * |t.y - t.p| := by
    have := hd.2.err
    rwa [pow_one, add_sub_cancel_left] at this
  have hr1 : Ratio c 1 |d| |t.y - t.p| := by
    refine Ratio.of_error hm.nonneg hu hc (abs_nonneg _) ?_
    exact (abs_abs_sub_abs_le _ _).trans herr
  have hsq : Ratio c 2 (d * d) ((t.y - t.p) ^ 2) := by
    have := hr1.mul hr1 hc1
    rwa [abs_mul_abs_self, abs_mul_abs_self, ← pow_two (t.y - t.p)] at this
  have hs3 : Ratio c 3 s ((t.y - t.p) ^ 2) :=
    (Ratio.rnd hrel hm.nonneg hu hc hsq.left (hsq.clear (hpow (by omega)) hs) h2).trans hsq hc1
  have hsw : Ratio c 3 (s * t.w) (t.w * (t.y - t.p) ^ 2) := by
    have := hs3.mul (Ratio.refl (c := c) hw.2) hc1
    rwa [mul_comm ((t.y - t.p) ^ 2) t.w] at this
  exact ⟨hr.idem h1, (Ratio.rnd hrel hm.nonneg hu hc hsw.left (hsw.clear (hpow (by omega)) ht) h1).trans hsw hc1⟩

theorem FX.div_fin_cases {a : FX m} {b z : K} (hb : b ≠ 0) (h : a / FX.fin b = .fin z) :
    ∃ x, a = .fin x ∧ m.rnd (x / b) = .fin z := by
  cases a with
  | fin x =>
    refine ⟨x, rfl, ?_⟩
    change (if b = 0 then FX.sinf x else FX.ofRV (m.rnd (x / b))) = _ at h
    rw [if_neg hb] at h
    cases hr : m.rnd (x / b) with
    | ninf => rw [hr] at h; cases h
    | pinf => rw [hr] at h; cases h
    | fin w => rw [hr] at h; cases h; rfl
  | nan => cases h
  | ninf =>
    change (if 0 ≤ b then FX.ninf else FX.pinf) = _ at h
    split at h <;> cases h
  | pinf =>
    change (if 0 ≤ b then FX.pinf else FX.ninf) = _ at h
    split at h <;> cases h

/-- The mean of the squares, as it is computed under the root. -/
theorem mean_ratio [hm : m.Accurate u] [hr : m.Rounds] (hrel : m.Relative u tiny) (hu : u < 1)
    (hc : c * (1 - u) = 1) (hc1 : 1 ≤ c) {l : List (EvalRow K)} (hl : EvalRowsOk m tiny l)
    (hcn : c ^ (2 * l.length + 4) ≤ 2) {W : K} (hW : (scoreWeights m l).foldl (· + ·) 0 = .fin W) {z : K}
    (h : weightedTerms (fun y p w => (y - p) * (y - p) * w) (targets m l) (scores m l) (scoreWeights m l) = .fin z) :
    Ratio c (2 * l.length + 5) z (meanSquare l) := by
  have hz0 : m.Repr 0 := hr.zero
  have hwr := Ratio.foldl (m := m) (u := u) (c := c) hu hc hc1 (val := fun t : EvalRow K => FX.fin t.w)
    (s := fun t => t.w) l 0 0 0 hz0 (Ratio.refl le_rfl) (fun t ht v e => by
      cases e
      exact ⟨(hl.w t ht).1, Ratio.refl (hl.w t ht).2⟩) W hW
  rw [Nat.zero_add, zero_add] at hwr
  have hWpos := hwr.2.pos hc1 hl.sum
  have hW' : (l.map fun t => (FX.fin t.w : FX m)).foldl (· + ·) 0 = .fin W := hW
  unfold weightedTerms at h
  simp only [zip3_evalRows, List.map_map, Function.comp_def, hW'] at h
  obtain ⟨x, hx, hrnd⟩ := FX.div_fin_cases hWpos.ne' h
  have hxr := Ratio.foldl (m := m) (u := u) (c := c) hu hc hc1
    (val := fun t : EvalRow K => (FX.fin t.y - FX.fin t.p) * (FX.fin t.y - FX.fin t.p) * FX.fin t.w)
    (s := fun t => t.w * (t.y - t.p) ^ 2) l 4 0 0 hz0 ((Ratio.refl le_rfl).mono hc1 (by omega)) (fun t ht v e =>
      term_ratio hrel hu hc hc1 ((pow_le_pow_right₀ hc1 (by omega)).trans hcn) (hl.y t ht) (hl.p t ht) (hl.w t ht)
        (hl.square t ht) (hl.term t ht) e) x hx
  rw [zero_add] at hxr
  have hq := hxr.2.div hwr.2 hc1 hl.sum
  have hq : Ratio c (2 * l.length + 4) (x / W) (meanSquare l) := hq.mono hc1 (by omega)
  have := (Ratio.rnd hrel hm.nonneg hu hc hq.left (hq.clear hcn hl.mean) hrnd).trans hq hc1
  exact this.mono hc1 (by omega)

/-- A bounded factor bounds the relative error. -/
theorem Ratio.error {k : Nat} {z x : K} (h : Ratio c k z x) (hc1 : 1 ≤ c) : |z - x| ≤ (c ^ k - 1) * x := by
  have hk : 1 ≤ c ^ k := one_le_pow₀ hc1
  rw [abs_le]
  refine ⟨?_, by have := h.upper; linarith⟩
  by_cases hz : z ≤ x
  · have h1 := h.lower
    have : z * (c ^ k - 1) ≤ x * (c ^ k - 1) := mul_le_mul_of_nonneg_right hz (by linarith)
    linarith
  · have : 0 ≤ (c ^ k - 1) * x := mul_nonneg (by linarith) h.right
    linarith

/-- The square root is rounded: its square differs from the argument by at most the factor `c ^ 2`. -/
def Fmt.RootOk (m : Fmt K) (c : K) : Prop := ∀ {q z : K}, 0 ≤ q → m.sqrtF q = .fin z → 0 ≤ z ∧ Ratio c 2 (z * z) q

/-- The square of the metric against the mean of the squares. -/
theorem rmse_ratio [hm : m.Accurate u] [hr : m.Rounds] (hrel : m.Relative u tiny) (hu : u < 1)
    (hc : c * (1 - u) = 1) (hc1 : 1 ≤ c) (hroot : m.RootOk c) {l : List (EvalRow K)} (hl : EvalRowsOk m tiny l)
    (hcn : c ^ (2 * l.length + 4) ≤ 2) {W : K} (hW : (scoreWeights m l).foldl (· + ·) 0 = .fin W) {z : K}
    (h : rmseMetric (targets m l) (scores m l) (scoreWeights m l) = .fin z) :
    0 ≤ z ∧ Ratio c (2 * l.length + 7) (z ^ 2) (meanSquare l) := by
  unfold rmseMetric at h
  cases hq : weightedTerms (fun y p w => (y - p) * (y - p) * w) (targets m l) (scores m l) (scoreWeights m l) with
  | nan => rw [hq] at h; cases h
  | ninf => rw [hq] at h; cases h
  | pinf => rw [hq] at h; cases h
  | fin q =>
    rw [hq] at h
    have hr1 := mean_ratio hrel hu hc hc1 hl hcn hW hq
    change (if q < 0 then FX.nan else FX.ofRV (m.sqrtF q)) = _ at h
    rw [if_neg (not_lt.2 hr1.left)] at h
    have hs : m.sqrtF q = .fin z := by
      cases hs : m.sqrtF q with
      | ninf => rw [hs] at h; cases h
      | pinf => rw [hs] at h; cases h
      | fin w => rw [hs] at h; cases h; rfl
    obtain ⟨h0, h1⟩ := hroot hr1.left hs
    refine ⟨h0, ?_⟩
    have := h1.trans hr1 hc1
    rwa [show 2 + (2 * l.length + 5) = 2 * l.length + 7 by omega, ← pow_two] at this

/-- **C143.** The square of the computed root mean squared error differs from the weighted mean of the squared
errors by at most the factor `c ^ (2 n + 7)`, for `n` rows and `c = 1 / (1 - u)`. -/
theorem C143_rmse [hm : m.Accurate u] [hr : m.Rounds] (hrel : m.Relative u tiny) (hu : u < 1)
    (hc : c * (1 - u) = 1) (hc1 : 1 ≤ c) (hroot : m.RootOk c) {l : List (EvalRow K)} (hl : EvalRowsOk m tiny l)
    (hcn : c ^ (2 * l.length + 4) ≤ 2) {W : K} (hW : (scoreWeights m l).foldl (· + ·) 0 = .fin W) {z : K}
    (h : rmseMetric (targets m l) (scores m l) (scoreWeights m l) = .fin z) :
    0 ≤ z ∧ |z ^ 2 - meanSquare l| ≤ (c ^ (2 * l.length + 7) - 1) * meanSquare l := by
  have := rmse_ratio hrel hu hc hc1 hroot hl hcn hW h
  exact ⟨this.1, this.2.error hc1⟩

/-- **C143**, perfect predictions: the computed metric is zero if and only if every prediction of a row with a
weight equals its target. -/
theorem C143_perfect [hm : m.Accurate u] [hr : m.Rounds] (hrel : m.Relative u tiny) (hu : u < 1)
    (hc : c * (1 - u) = 1) (hc1 : 1 ≤ c) (hroot : m.RootOk c) {l : List (EvalRow K)} (hl : EvalRowsOk m tiny l)
    (hcn : c ^ (2 * l.length + 4) ≤ 2) {W : K} (hW : (scoreWeights m l).foldl (· + ·) 0 = .fin W) {z : K}
    (h : rmseMetric (targets m l) (scores m l) (scoreWeights m l) = .fin z) :
    z = 0 ↔ ∀ t ∈ l, t.w = 0 ∨ t.y = t.p := by
  obtain ⟨h0, h1⟩ := rmse_ratio hrel hu hc hc1 hroot hl hcn hW h
  have hmean : meanSquare l = 0 ↔ ∀ t ∈ l, t.w = 0 ∨ t.y = t.p := by
    unfold meanSquare
    rw [div_eq_zero_iff, or_iff_left hl.sum.ne']
    have hnn : ∀ x ∈ l.map (fun t => t.w * (t.y - t.p) ^ 2), 0 ≤ x := by
      intro x hx
      obtain ⟨t, ht, rfl⟩ := List.mem_map.1 hx
      exact mul_nonneg (hl.w t ht).2 (sq_nonneg _)
    constructor
    · intro e t ht
      have h1 := List.single_le_sum hnn _ (List.mem_map.2 ⟨t, ht, rfl⟩)
      rw [e] at h1
      have h2 := hnn _ (List.mem_map.2 ⟨t, ht, rfl⟩)
      rcases mul_eq_zero.1 (le_antisymm h1 h2) with h | h
      · exact .inl h
      · exact .inr (sub_eq_zero.1 (pow_eq_zero_iff (by norm_num) |>.1 h))
    · intro e
      refine List.sum_eq_zero fun x hx => ?_
      obtain ⟨t, ht, rfl⟩ := List.mem_map.1 hx
      rcases e t ht with h | h <;> simp [h]
  rw [← hmean]
  constructor
  · intro e
    have := h1.lower
    rw [e, zero_pow (by norm_num), zero_mul] at this
    exact le_antisymm this h1.right
  · intro e
    have := h1.upper
    rw [e, zero_mul] at this
    exact pow_eq_zero_iff (by norm_num) |>.1 (le_antisymm this h1.left)

end

/-! ### `f64` -/

section f64

open Ieee

variable {expF lnF sqrtF : ℚ → RV ℚ}

theorem b64_relative : (b64 expF lnF sqrtF).Relative (pow2 (-53)) (pow2 (-1022)) := by
  intro q z h e
  obtain ⟨rfl, _⟩ := fmt_rnd_fin.1 e
  exact rnd_relative (p := 53) (emin := -1074) h

/-- A square root with a relative error of at most half a unit in the last place. -/
def RootRounded (sqrtF : ℚ → RV ℚ) : Prop := ∀ {q z : ℚ}, 0 ≤ q → sqrtF q = .fin z →
  0 ≤ z ∧ (1 - pow2 (-53)) ^ 2 * q ≤ z ^ 2 ∧ z ^ 2 ≤ (1 + pow2 (-53)) ^ 2 * q

theorem b64_rootOk (h : RootRounded sqrtF) : (b64 expF lnF sqrtF).RootOk (2 ^ 53 / (2 ^ 53 - 1)) := by
  intro q z hq e
  obtain ⟨h0, h1, h2⟩ := h hq e
  have e : pow2 (-53) = 1 / 2 ^ 53 := by rw [pow2_eq]; norm_num
  rw [e] at h1 h2
  refine ⟨h0, mul_self_nonneg z, hq, ?_, ?_⟩
  · rw [← pow_two]
    refine h2.trans ?_
    rw [mul_comm]
    exact mul_le_mul_of_nonneg_left (by norm_num) hq
  · have : q = ((1 - 1 / 2 ^ 53) ^ 2 * q) * (2 ^ 53 / (2 ^ 53 - 1)) ^ 2 := by
      have : ((1 : ℚ) - 1 / 2 ^ 53) ^ 2 * (2 ^ 53 / (2 ^ 53 - 1)) ^ 2 = 1 := by norm_num
      calc q = 1 * q := (one_mul q).symm
        _ = _ := by rw [← this]; ring
    rw [this, ← pow_two]
    exact mul_le_mul_of_nonneg_right h1 (by norm_num)

theorem pow_c_le (n : Nat) (hn : n ≤ 2 ^ 50) :
    ((2 : ℚ) ^ 53 / (2 ^ 53 - 1)) ^ n - 1 ≤ n / 2 ^ 51 ∧ ((2 : ℚ) ^ 53 / (2 ^ 53 - 1)) ^ n ≤ 2 := by
  have hn' : (n : ℚ) ≤ 2 ^ 50 := by exact_mod_cast hn
  have hn0 : (0 : ℚ) ≤ n := Nat.cast_nonneg n
  have e : (2 : ℚ) ^ 53 / (2 ^ 53 - 1) = 1 + 1 / (2 ^ 53 - 1) := by norm_num
  have hu : (1 : ℚ) / (2 ^ 53 - 1) ≤ 1 / 2 ^ 52 := by norm_num
  have hle : 2 * ((n : ℚ) * (1 / (2 ^ 53 - 1))) ≤ n / 2 ^ 51 := by
    have := mul_le_mul_of_nonneg_left hu hn0
    have e2 : 2 * ((n : ℚ) * (1 / 2 ^ 52)) = n / 2 ^ 51 := by ring
    linarith
  have h1 : (n : ℚ) / 2 ^ 51 ≤ 1 := by
    rw [div_le_one (by norm_num)]
    exact hn'.trans (by norm_num)
  have := pow_u_le (u := (1 : ℚ) / (2 ^ 53 - 1)) (by norm_num) n (hle.trans h1)
  rw [e]
  exact ⟨this.trans hle, by linarith⟩

/-- **C143** in `f64`: for `n` rows (`2 n + 7 ≤ 2 ^ 50`) the square of the metric has a relative error of at most
`(2 n + 7) / 2 ^ 51`, and the metric is zero exactly for perfect predictions. -/
theorem C143_f64 (hs : RootRounded sqrtF) {l : List (EvalRow ℚ)}
    (hl : EvalRowsOk (b64 expF lnF sqrtF) (pow2 (-1022)) l) (hn : 2 * l.length + 7 ≤ 2 ^ 50) {W : ℚ}
    (hW : (scoreWeights (b64 expF lnF sqrtF) l).foldl (· + ·) 0 = .fin W) {z : ℚ}
    (h : rmseMetric (targets (b64 expF lnF sqrtF) l) (scores (b64 expF lnF sqrtF) l)
      (scoreWeights (b64 expF lnF sqrtF) l) = .fin z) :
    0 ≤ z ∧ |z ^ 2 - meanSquare l| ≤ (2 * l.length + 7) / 2 ^ 51 * meanSquare l ∧
      (z = 0 ↔ ∀ t ∈ l, t.w = 0 ∨ t.y = t.p) := by
  have e : pow2 (-53) = 1 / 2 ^ 53 := by rw [pow2_eq]; norm_num
  have hc : (2 : ℚ) ^ 53 / (2 ^ 53 - 1) * (1 - pow2 (-53)) = 1 := by rw [e]; norm_num
  have hc1 : (1 : ℚ) ≤ 2 ^ 53 / (2 ^ 53 - 1) := by norm_num
  have hu : pow2 (-53) < 1 := by rw [e]; norm_num
  have hcn := (pow_c_le (2 * l.length + 4) (by omega)).2
  obtain ⟨h0, h1⟩ := C143_rmse b64_relative hu hc hc1 (b64_rootOk hs) hl hcn hW h
  refine ⟨h0, h1.trans ?_, C143_perfect b64_relative hu hc hc1 (b64_rootOk hs) hl hcn hW h⟩
  have hm : 0 ≤ meanSquare l := by
    unfold meanSquare
    refine div_nonneg (List.sum_nonneg fun x hx => ?_) hl.sum.le
    obtain ⟨t, ht, rfl⟩ := List.mem_map.1 hx
    exact mul_nonneg (hl.w t ht).2 (sq_nonneg _)
  have := (pow_c_le (2 * l.length + 7) hn).1
  push_cast at this
  exact mul_le_mul_of_nonneg_right this hm

/-! ### The hypotheses are met -/

/-- A square root with 60 binary digits. -/
def digitRoot (q : ℚ) : RV ℚ := .fin (Nat.sqrt (q.num.toNat * q.den * 4 ^ 60) / (q.den * 2 ^ 60))

theorem digitRoot_rounded : RootRounded digitRoot := by
  intro q z hq e
  cases e
  have hden : (0 : ℚ) < q.den := by exact_mod_cast q.den_pos
  have hnum : ((q.num.toNat : ℕ) : ℚ) = q * q.den := by
    have h1 : ((q.num.toNat : ℕ) : ℤ) = q.num := Int.toNat_of_nonneg (Rat.num_nonneg.2 hq)
    have h2 : ((q.num.toNat : ℕ) : ℚ) = (q.num : ℚ) := by exact_mod_cast congrArg (Int.cast : ℤ → ℚ) h1
    rw [h2]
    exact (Rat.mul_den_eq_num q).symm
  have hA : ((q.num.toNat * q.den * 4 ^ 60 : ℕ) : ℚ) = q * (q.den * 2 ^ 60) ^ 2 := by
    push_cast
    rw [hnum]
    ring
  obtain ⟨A, eA⟩ : ∃ A, A = q.num.toNat * q.den * 4 ^ 60 := ⟨_, rfl⟩
  obtain ⟨B, eB⟩ : ∃ B : ℚ, B = q.den * 2 ^ 60 := ⟨_, rfl⟩
  rw [← eA, ← eB] at hA
  have hB : 0 < B := by rw [eB]; positivity
  have h1 : ((Nat.sqrt A : ℕ) : ℚ) ^ 2 ≤ A := by exact_mod_cast Nat.sqrt_le' A
  have h2 : (A : ℚ) < ((Nat.sqrt A : ℕ) + 1) ^ 2 := by exact_mod_cast Nat.lt_succ_sqrt' A
  rw [← eA, ← eB]
  have e53 : pow2 (-53) = 1 / 2 ^ 53 := by rw [pow2_eq]; norm_num
  refine ⟨div_nonneg (Nat.cast_nonneg _) hB.le, ?_, ?_⟩
  · rw [div_pow, le_div_iff₀ (by positivity), mul_assoc, ← hA, e53]
    rcases hq.eq_or_lt with h0 | h0
    · rw [hA, ← h0, zero_mul, mul_zero]
      positivity
    · have hn1 : 1 ≤ q.num.toNat := by
        have := Rat.num_pos.2 h0
        omega
      have hs : 2 ^ 60 ≤ Nat.sqrt A := by
        rw [Nat.le_sqrt', eA, ← pow_mul]
        have := Nat.mul_le_mul hn1 (Nat.succ_le_of_lt q.den_pos)
        calc 2 ^ (60 * 2) = 1 * 4 ^ 60 := by norm_num
          _ ≤ q.num.toNat * q.den * 4 ^ 60 := Nat.mul_le_mul_right _ (by simpa using this)
      have hs : (2 : ℚ) ^ 60 ≤ (Nat.sqrt A : ℕ) := by exact_mod_cast hs
      obtain ⟨s, es⟩ : ∃ s : ℚ, s = (Nat.sqrt A : ℕ) := ⟨_, rfl⟩
      rw [← es] at hs h2 ⊢
      have h3 : (1 - 1 / 2 ^ 53) * (s + 1) ≤ s := by linarith
      calc (1 - 1 / 2 ^ 53) ^ 2 * (A : ℚ) ≤ (1 - 1 / 2 ^ 53) ^ 2 * (s + 1) ^ 2 :=
            mul_le_mul_of_nonneg_left h2.le (by norm_num)
        _ = ((1 - 1 / 2 ^ 53) * (s + 1)) ^ 2 := by ring
        _ ≤ s ^ 2 := pow_le_pow_left₀ (mul_nonneg (by norm_num) (by linarith)) h3 2
  · rw [div_pow, div_le_iff₀ (by positivity), mul_assoc, ← hA]
    refine h1.trans ?_
    rw [e53]
    exact le_mul_of_one_le_left (Nat.cast_nonneg _) (by norm_num)

/-- The `f64` number nearest to a rational number. -/
def near64 (x : ℚ) : ℚ := Ieee.rnd 53 (-1074) x

/-- Three rows whose numbers have rounding errors, with a weight which is not one. -/
def scored3 : List (EvalRow ℚ) := [⟨near64 (1/10), near64 (3/10), 1⟩, ⟨near64 (2/3), 1, near64 (7/10)⟩, ⟨5, near64 (49/10), 2⟩]

example : ∃ l : List (EvalRow ℚ), l.length = 3 ∧ RootRounded digitRoot ∧
    EvalRowsOk (b64 digitRoot digitRoot digitRoot) (pow2 (-1022)) l ∧ 2 * l.length + 7 ≤ 2 ^ 50 ∧
    ∃ W z, (scoreWeights (b64 digitRoot digitRoot digitRoot) l).foldl (· + ·) 0 = .fin W ∧
      rmseMetric (targets (b64 digitRoot digitRoot digitRoot) l) (scores (b64 digitRoot digitRoot digitRoot) l)
        (scoreWeights (b64 digitRoot digitRoot digitRoot) l) = .fin z ∧ z ^ 2 ≠ meanSquare l ∧ z ≠ 0 := by
  refine ⟨scored3, rfl, digitRoot_rounded, ⟨?_, ?_, ?_, ?_, ?_, ?_, ?_⟩, by decide, ?_⟩
  · unfold Fmt.Repr; decide +kernel
  · unfold Fmt.Repr; decide +kernel
  · unfold Fmt.Repr; decide +kernel
  · decide +kernel
  · decide +kernel
  · decide +kernel
  · decide +kernel
  · refine ⟨((scoreWeights (b64 digitRoot digitRoot digitRoot) scored3).foldl (· + ·) 0).val,
      (rmseMetric (targets (b64 digitRoot digitRoot digitRoot) scored3) (scores (b64 digitRoot digitRoot digitRoot) scored3)
        (scoreWeights (b64 digitRoot digitRoot digitRoot) scored3)).val, ?_⟩
    decide +kernel

/-- The sum of the weights must not overflow: with two weights of `2 ^ 1023` the mean squared error is 1/4 and
the metric is zero. -/
theorem C143_overflow : ∃ l : List (EvalRow ℚ), EvalRowsOk (b64 digitRoot digitRoot digitRoot) (pow2 (-1022)) l ∧
    meanSquare l = 1 / 4 ∧
    rmseMetric (targets (b64 digitRoot digitRoot digitRoot) l) (scores (b64 digitRoot digitRoot digitRoot) l)
      (scoreWeights (b64 digitRoot digitRoot digitRoot) l) = .fin 0 := by
  refine ⟨[⟨1/2, 0, pow2 1023⟩, ⟨1/2, 0, pow2 1023⟩], ⟨?_, ?_, ?_, ?_, ?_, ?_, ?_⟩, ?_, ?_⟩
  · unfold Fmt.Repr; decide +kernel
  · unfold Fmt.Repr; decide +kernel
  · unfold Fmt.Repr; decide +kernel
  all_goals decide +kernel

end f64

end Verif
