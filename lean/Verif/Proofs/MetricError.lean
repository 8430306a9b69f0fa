import Verif.Proofs.RoundError
import Verif.Model.Objective

/-!
# Relative errors of non-negative numbers

Two numbers which are not negative are compared by their quotient.  Rounding changes a number by at most the factor
`c = 1 / (1 - u)` up or down, unless the result is so small that digits are lost.
-/

namespace Verif

open scoped Verif

section
variable {K : Type} [Field K] [LinearOrder K] [IsStrictOrderedRing K]

/-- `z` and `x` are not negative and differ by at most the factor `c ^ k`. -/
structure Ratio (c : K) (k : Nat) (z x : K) : Prop where
  left : 0 ≤ z
  right : 0 ≤ x
  upper : z ≤ x * c ^ k
  lower : x ≤ z * c ^ k

/-- The relative error of rounding a number of size `tiny` at least is at most `u`. -/
def Fmt.Relative (m : Fmt K) (u tiny : K) : Prop :=
  ∀ {q z : K}, tiny ≤ |q| → m.rnd q = .fin z → |z - q| ≤ u * |q|

variable {c u tiny : K} {k l : Nat} {a b x y z : K} {m : Fmt K}

theorem Ratio.refl (h : 0 ≤ x) : Ratio c 0 x x := ⟨h, h, by simp, by simp⟩

theorem Ratio.trans (h1 : Ratio c k z x) (h2 : Ratio c l x y) (hc : 1 ≤ c) : Ratio c (k + l) z y := by
  have hk : 0 ≤ c ^ k := pow_nonneg (by linarith) _
  have hl : 0 ≤ c ^ l := pow_nonneg (by linarith) _
  refine ⟨h1.left, h2.right, ?_, ?_⟩
  · calc z ≤ x * c ^ k := h1.upper
      _ ≤ (y * c ^ l) * c ^ k := mul_le_mul_of_nonneg_right h2.upper hk
      _ = y * c ^ (k + l) := by rw [pow_add]; ring
  · calc y ≤ x * c ^ l := h2.lower
      _ ≤ (z * c ^ k) * c ^ l := mul_le_mul_of_nonneg_right h1.lower hl
      _ = z * c ^ (k + l) := by rw [pow_add]; ring

theorem Ratio.mono (h : Ratio c k z x) (hc : 1 ≤ c) (hkl : k ≤ l) : Ratio c l z x := by
  have := pow_le_pow_right₀ hc hkl
  exact ⟨h.left, h.right, h.upper.trans (mul_le_mul_of_nonneg_left this h.right),
    h.lower.trans (mul_le_mul_of_nonneg_left this h.left)⟩

theorem Ratio.mul (h1 : Ratio c k a x) (h2 : Ratio c l b y) (hc : 1 ≤ c) : Ratio c (k + l) (a * b) (x * y) := by
  have hk : 0 ≤ c ^ k := pow_nonneg (by linarith) _
  have hl : 0 ≤ c ^ l := pow_nonneg (by linarith) _
  refine ⟨mul_nonneg h1.left h2.left, mul_nonneg h1.right h2.right, ?_, ?_⟩
  · calc a * b ≤ (x * c ^ k) * (y * c ^ l) := mul_le_mul h1.upper h2.upper h2.left (mul_nonneg h1.right hk)
      _ = x * y * c ^ (k + l) := by rw [pow_add]; ring
  · calc x * y ≤ (a * c ^ k) * (b * c ^ l) := mul_le_mul h1.lower h2.lower h2.right (mul_nonneg h1.left hk)
      _ = a * b * c ^ (k + l) := by rw [pow_add]; ring

theorem Ratio.add (h1 : Ratio c k a x) (h2 : Ratio c k b y) : Ratio c k (a + b) (x + y) :=
  ⟨add_nonneg h1.left h2.left, add_nonneg h1.right h2.right, by rw [add_mul]; exact add_le_add h1.upper h2.upper,
    by rw [add_mul]; exact add_le_add h1.lower h2.lower⟩

theorem Ratio.pos (h : Ratio c k b y) (hc : 1 ≤ c) (hy : 0 < y) : 0 < b := by
  rcases h.left.eq_or_lt with e | e
  · have := h.lower
    rw [← e, zero_mul] at this
    linarith
  · exact e

theorem Ratio.div (h1 : Ratio c k a x) (h2 : Ratio c l b y) (hc : 1 ≤ c) (hy : 0 < y) :
    Ratio c (k + l) (a / b) (x / y) := by
  have hb := h2.pos hc hy
  have hk : 0 ≤ c ^ k := pow_nonneg (by linarith) _
  have hl : 0 < c ^ l := pow_pos (by linarith) _
  refine ⟨div_nonneg h1.left hb.le, div_nonneg h1.right hy.le, ?_, ?_⟩
  · rw [div_le_iff₀ hb]
    have : 1 ≤ b * c ^ l / y := by rw [le_div_iff₀ hy, one_mul]; exact h2.lower
    calc a ≤ x * c ^ k := h1.upper
      _ ≤ x * c ^ k * (b * c ^ l / y) := le_mul_of_one_le_right (mul_nonneg h1.right hk) this
      _ = x / y * c ^ (k + l) * b := by rw [pow_add]; field_simp
  · rw [div_le_iff₀ hy]
    have : 1 ≤ y * c ^ l / b := by rw [le_div_iff₀ hb, one_mul]; exact h2.upper
    calc x ≤ a * c ^ k := h1.lower
      _ ≤ a * c ^ k * (y * c ^ l / b) := le_mul_of_one_le_right (mul_nonneg h1.left hk) this
      _ = a / b * c ^ (k + l) * y := by rw [pow_add]; field_simp

/-- A relative error of at most `u`. -/
theorem Ratio.of_error (hu0 : 0 ≤ u) (hu : u < 1) (hc : c * (1 - u) = 1) (hx : 0 ≤ x) (h : |z - x| ≤ u * x) :
    Ratio c 1 z x := by
  have h1 := (abs_le.1 h).1
  have h2 := (abs_le.1 h).2
  have hc0 : 0 < c := by
    by_contra hn
    have : c * (1 - u) ≤ 0 := mul_nonpos_of_nonpos_of_nonneg (not_lt.1 hn) (by linarith)
    linarith
  have hle : (1 - u) * x ≤ z := by linarith
  have hz : 0 ≤ z := (mul_nonneg (by linarith) hx).trans hle
  refine ⟨hz, hx, ?_, ?_⟩
  · rw [pow_one]
    have : 1 + u ≤ c := by
      have : (1 + u) * (1 - u) ≤ c * (1 - u) := by rw [hc]; nlinarith
      exact le_of_mul_le_mul_right this (by linarith)
    nlinarith
  · rw [pow_one]
    calc x = x * (c * (1 - u)) := by rw [hc, mul_one]
      _ = ((1 - u) * x) * c := by ring
      _ ≤ z * c := mul_le_mul_of_nonneg_right hle hc0.le

/-- Rounding a number which is zero or not tiny. -/
theorem Ratio.rnd [hr : m.Rounds] (hm : m.Relative u tiny) (hu0 : 0 ≤ u) (hu : u < 1) (hc : c * (1 - u) = 1)
    (hx : 0 ≤ x) (ht : x = 0 ∨ tiny ≤ x) (h : m.rnd x = .fin z) : Ratio c 1 z x := by
  refine Ratio.of_error hu0 hu hc hx ?_
  rcases ht with rfl | ht
  · rw [hr.zero] at h
    cases h
    simp
  · have := hm (by rwa [abs_of_nonneg hx]) h
    rwa [abs_of_nonneg hx] at this

/-- Approximations which are not much smaller keep clear of the tiny numbers. -/
theorem Ratio.clear (h : Ratio c k z x) (hck : c ^ k ≤ 2) (ht : x = 0 ∨ 2 * tiny ≤ x) : z = 0 ∨ tiny ≤ z := by
  rcases ht with rfl | ht
  · have := h.upper
    rw [zero_mul] at this
    exact .inl (le_antisymm this h.left)
  · right
    have : z * c ^ k ≤ z * 2 := mul_le_mul_of_nonneg_left hck h.left
    have := h.lower
    linarith

theorem FX.mul_fin_rnd {m : Fmt K} {x y z : K} (h : (FX.fin x * FX.fin y : FX m) = .fin z) : m.rnd (x * y) = .fin z := by
  change FX.ofRV (m.rnd (x * y)) = _ at h
  cases hr : m.rnd (x * y) with
  | ninf => rw [hr] at h; cases h
  | pinf => rw [hr] at h; cases h
  | fin w => rw [hr] at h; cases h; rfl

theorem FX.mul_fin_cases {m : Fmt K} {a b : FX m} {z : K} (h : a * b = .fin z) : ∃ x y, a = .fin x ∧ b = .fin y ∧
    m.rnd (x * y) = .fin z := by
  have hs : ∀ q : K, (FX.sinf q : FX m) ≠ .fin z := by
    intro q e
    unfold FX.sinf at e
    split at e
    · cases e
    · split at e <;> cases e
  cases a <;> cases b <;> first | exact absurd h (hs _) | (cases h; done) | skip
  exact ⟨_, _, rfl, rfl, FX.mul_fin_rnd h⟩

/-- Sums of approximations, added one after the other. -/
theorem Ratio.foldl {α : Type} [hm : m.Accurate u] [hr : m.Rounds] (hu : u < 1) (hc : c * (1 - u) = 1) (hc1 : 1 ≤ c)
    {val : α → FX m} {s : α → K} : ∀ (l : List α) (k : Nat) (x0 s0 : K), m.Repr x0 → Ratio c k x0 s0 →
    (∀ y ∈ l, ∀ v, val y = .fin v → m.Repr v ∧ Ratio c k v (s y)) → ∀ z,
    (l.map val).foldl (· + ·) (FX.fin x0) = .fin z → m.Repr z ∧ Ratio c (k + l.length) z (s0 + (l.map s).sum)
  | [], k, x0, s0, h0, h1, _, z, e => by
    cases e
    simpa using ⟨h0, h1⟩
  | y :: l, k, x0, s0, h0, h1, hl, z, e => by
    rw [List.map_cons, List.foldl_cons] at e
    have hfin : ∃ x1, (FX.fin x0 + val y : FX m) = .fin x1 := by
      by_contra hn
      have key : ∀ (vs : List (FX m)) (a : FX m), (¬ ∃ x, a = .fin x) → vs.foldl (· + ·) a ≠ .fin z := by
        intro vs
        induction vs with
        | nil => intro a ha e; exact ha ⟨z, e⟩
        | cons v vs ih =>
          intro a ha
          refine ih (a + v) ?_
          rintro ⟨x, e⟩
          obtain ⟨p, _, e1, _⟩ := FX.add_eq_fin e
          exact ha ⟨p, e1⟩
      exact key _ _ hn e
    obtain ⟨x1, hx1⟩ := hfin
    rw [hx1] at e
    obtain ⟨p, v, ep, ev, hrnd⟩ := FX.add_eq_fin hx1
    cases ep
    obtain ⟨r1, r2⟩ := hl y (by simp) v ev
    have hs := h1.add r2
    have hstep : Ratio c 1 x1 (x0 + v) := by
      refine Ratio.of_error hm.nonneg hu hc hs.left ?_
      have := hm.add h0 r1 hrnd
      rwa [abs_of_nonneg hs.left] at this
    have := Ratio.foldl hu hc hc1 l (k + 1) x1 (s0 + s y) (hr.idem hrnd) (by
      have := hstep.trans hs hc1
      rwa [Nat.add_comm] at this) (fun y' hy' v' e' => by
        obtain ⟨q1, q2⟩ := hl y' (by simp [hy']) v' e'
        exact ⟨q1, q2.mono hc1 (by omega)⟩) z e
    have hk : k + (y :: l).length = k + 1 + l.length := by
      rw [List.length_cons]
      omega
    rw [hk, List.map_cons, List.sum_cons, ← add_assoc]
    exact this

end

end Verif
