import Verif.Proofs.Ieee
import Verif.Proofs.TotalAny

/-!
# Laws of rounding

What proofs about floating point arithmetic use: rounding is monotone, odd, fixes its values, and doubling a
representable number is exact.  Exact formats and the formats of IEEE 754 obey the laws.
-/

set_option linter.unusedSectionVars false

namespace Verif

open scoped Verif

section
variable {K : Type} [Field K] [LinearOrder K]

/-- The order of rounded results. -/
def RV.Le : RV K → RV K → Prop
  | .ninf, _ => True
  | _, .pinf => True
  | .fin a, .fin b => a ≤ b
  | _, _ => False

/-- Negation of rounded results. -/
def RV.neg : RV K → RV K
  | .ninf => .pinf
  | .fin a => .fin (-a)
  | .pinf => .ninf

/-- Laws of rounding to nearest. -/
class Fmt.Rounds (m : Fmt K) : Prop where
  zero : m.rnd 0 = .fin 0
  mono : ∀ {a b}, a ≤ b → (m.rnd a).Le (m.rnd b)
  neg : ∀ a, m.rnd (-a) = (m.rnd a).neg
  idem : ∀ {a b}, m.rnd a = .fin b → m.rnd b = .fin b
  double : ∀ {a b}, m.rnd a = .fin a → m.rnd (2 * a) = .fin b → b = 2 * a
  two : m.rnd 2 = .fin 2
  four : m.rnd 4 = .fin 4

instance {m : Fmt K} [hm : m.Exact] : m.Rounds where
  zero := hm.rnd_eq 0
  mono h := by rw [hm.rnd_eq, hm.rnd_eq]; exact h
  neg a := by rw [hm.rnd_eq, hm.rnd_eq]; rfl
  idem _ := hm.rnd_eq _
  double _ h := by rw [hm.rnd_eq] at h; cases h; rfl
  two := hm.rnd_eq _
  four := hm.rnd_eq _

/-- Representable numbers. -/
def Fmt.Repr (m : Fmt K) (a : K) : Prop := m.rnd a = .fin a

/-- Rounding of a number between two representable ones. -/
theorem Fmt.Rounds.between {m : Fmt K} [hm : m.Rounds] {a b x : K} (ha : m.Repr a) (hb : m.Repr b)
    (h1 : a ≤ x) (h2 : x ≤ b) : ∃ y, m.rnd x = .fin y ∧ a ≤ y ∧ y ≤ b := by
  have l := hm.mono h1
  have u := hm.mono h2
  unfold Fmt.Repr at ha hb
  rw [ha] at l
  rw [hb] at u
  cases hx : m.rnd x with
  | ninf => rw [hx] at l; exact l.elim
  | pinf => rw [hx] at u; exact u.elim
  | fin y => rw [hx] at l u; exact ⟨y, rfl, l, u⟩

/-- Monotonicity for finite results. -/
theorem Fmt.Rounds.le {m : Fmt K} [hm : m.Rounds] {a b x y : K} (h : a ≤ b) (h1 : m.rnd a = .fin x)
    (h2 : m.rnd b = .fin y) : x ≤ y := by
  have := hm.mono h
  rw [h1, h2] at this
  exact this

instance {m32 m64 : Fmt K} [h32 : m32.Rounds] : Fl.ZeroLaws (FX m32) (FX m64) where
  add := by
    show FX.rd ((0 : K) + 0) = FX.fin 0
    rw [add_zero, FX.rd, h32.zero]; rfl
  down := by
    show FX.rd (0 : K) = FX.fin 0
    rw [FX.rd, h32.zero]; rfl

variable [IsStrictOrderedRing K]

/-- **The midpoint of representable numbers, computed with rounding, lies between them.** -/
theorem Fmt.Rounds.mid {m : Fmt K} [hm : m.Rounds] {a b s : K} (ha : m.Repr a) (hb : m.Repr b) (h : a ≤ b)
    (hs : m.rnd (a + b) = .fin s) : ∃ y, m.rnd (s / 2) = .fin y ∧ a ≤ y ∧ y ≤ b := by
  have two : (0 : K) < 2 := two_pos
  have l := hm.mono (show 2 * a ≤ a + b by linarith)
  have u := hm.mono (show a + b ≤ 2 * b by linarith)
  rw [hs] at l u
  have hlo : a ≤ s / 2 ∨ m.rnd (2 * a) = .ninf := by
    cases hx : m.rnd (2 * a) with
    | ninf => exact .inr rfl
    | pinf => rw [hx] at l; exact l.elim
    | fin y =>
      rw [hx] at l
      have := hm.double ha hx
      have l : y ≤ s := l
      left
      rw [le_div_iff₀ two]; linarith
  have hhi : s / 2 ≤ b ∨ m.rnd (2 * b) = .pinf := by
    cases hx : m.rnd (2 * b) with
    | pinf => exact .inr rfl
    | ninf => rw [hx] at u; exact u.elim
    | fin y =>
      rw [hx] at u
      have := hm.double hb hx
      have u : s ≤ y := u
      left
      rw [div_le_iff₀ two]; linarith
  have hsr : m.Repr s := hm.idem hs
  have e0 : ∀ x : K, 0 ≤ x → m.rnd (2 * x) = .ninf → False := by
    intro x hx e
    have := hm.mono (show (0 : K) ≤ 2 * x by linarith)
    rw [e, hm.zero] at this
    exact this
  have e1 : ∀ x : K, x ≤ 0 → m.rnd (2 * x) = .pinf → False := by
    intro x hx e
    have := hm.mono (show 2 * x ≤ (0 : K) by linarith)
    rw [e, hm.zero] at this
    exact this
  have hlo' : a ≤ s / 2 := by
    rcases hlo with h1 | h1
    · exact h1
    · by_contra hc
      have hc : s / 2 < a := not_le.1 hc
      rw [div_lt_iff₀ two] at hc
      have := hm.mono (show s ≤ 2 * a by linarith)
      rw [hsr, h1] at this
      exact this
  have hhi' : s / 2 ≤ b := by
    rcases hhi with h1 | h1
    · exact h1
    · by_contra hc
      have hc : b < s / 2 := not_le.1 hc
      rw [lt_div_iff₀ two] at hc
      have := hm.mono (show 2 * b ≤ s by linarith)
      rw [hsr, h1] at this
      exact this
  exact hm.between ha hb hlo' hhi'

end

namespace Ieee

variable {p : Nat} {emin : ℤ} {maxF : ℚ} {expF lnF sqrtF : ℚ → RV ℚ}

theorem fmt_rnd_fin {a b : ℚ} : (fmt p emin maxF expF lnF sqrtF).rnd a = .fin b ↔
    b = rnd p emin a ∧ -maxF ≤ b ∧ b ≤ maxF := by
  show (if maxF < rnd p emin a then RV.pinf else if rnd p emin a < -maxF then .ninf
    else .fin (rnd p emin a)) = _ ↔ _
  split
  · rename_i h
    constructor
    · intro h; cases h
    · rintro ⟨rfl, _, h2⟩; exact absurd h (not_lt.2 h2)
  · rename_i h
    split
    · rename_i h'
      constructor
      · intro h; cases h
      · rintro ⟨rfl, h2, _⟩; exact absurd h' (not_lt.2 h2)
    · rename_i h'
      constructor
      · intro e; cases e; exact ⟨rfl, not_lt.1 h', not_lt.1 h⟩
      · rintro ⟨rfl, _, _⟩; rfl

/-- The formats of IEEE 754 obey the laws. -/
theorem fmt_rounds (hp : 0 < p) (hp2 : 2 ≤ p) (hmax : 4 ≤ maxF) (he : emin ≤ 0) : (fmt p emin maxF expF lnF sqrtF).Rounds where
  zero := by
    have h0 : rnd p emin 0 = 0 := by rw [rnd_of_nonneg le_rfl, rndPos_zero]
    exact fmt_rnd_fin.2 ⟨h0.symm, by linarith, by linarith⟩
  mono {a b} h := by
    have hm := rnd_mono (emin := emin) hp h
    show RV.Le (if maxF < rnd p emin a then RV.pinf else if rnd p emin a < -maxF then .ninf
      else .fin (rnd p emin a)) (if maxF < rnd p emin b then RV.pinf else if rnd p emin b < -maxF then .ninf
      else .fin (rnd p emin b))
    split
    · rw [if_pos (by linarith)]; trivial
    · split
      · trivial
      · rename_i h1 h2
        split
        · trivial
        · rw [if_neg (by linarith)]; exact hm
  neg a := by
    show (if maxF < rnd p emin (-a) then RV.pinf else if rnd p emin (-a) < -maxF then .ninf
      else .fin (rnd p emin (-a))) = RV.neg (if maxF < rnd p emin a then RV.pinf
      else if rnd p emin a < -maxF then .ninf else .fin (rnd p emin a))
    rw [rnd_neg]
    by_cases h1 : maxF < rnd p emin a
    · rw [if_pos h1, if_neg (by linarith), if_pos (by linarith)]; rfl
    · rw [if_neg h1]
      by_cases h2 : rnd p emin a < -maxF
      · rw [if_pos h2, if_pos (by linarith)]; rfl
      · rw [if_neg h2, if_neg (by linarith), if_neg (by linarith)]; rfl
  idem h := by
    obtain ⟨rfl, h2, h3⟩ := fmt_rnd_fin.1 h
    exact fmt_rnd_fin.2 ⟨(rnd_idem hp _).symm, h2, h3⟩
  double {a b} h1 h2 := by
    obtain ⟨e1, _⟩ := fmt_rnd_fin.1 h1
    obtain ⟨e2, _⟩ := fmt_rnd_fin.1 h2
    rw [e2, rnd_double hp e1.symm]
  two := by
    have h1 : 2 ≤ 2 ^ p := by
      calc 2 = 2 ^ 1 := rfl
        _ ≤ 2 ^ p := Nat.pow_le_pow_right (by norm_num) hp
    have h2 := rndPos_fixed (m := 2) (k := 0) hp h1 he
    have h3 : rnd p emin 2 = 2 := by
      rw [rnd_of_nonneg (by norm_num)]
      simpa [pow2] using h2
    exact fmt_rnd_fin.2 ⟨h3.symm, by linarith, by linarith⟩
  four := by
    have h1 : 4 ≤ 2 ^ p := by
      calc 4 = 2 ^ 2 := rfl
        _ ≤ 2 ^ p := Nat.pow_le_pow_right (by norm_num) hp2
    have h2 := rndPos_fixed (m := 4) (k := 0) hp h1 he
    have h3 : rnd p emin 4 = 4 := by
      rw [rnd_of_nonneg (by norm_num)]
      simpa [pow2] using h2
    exact fmt_rnd_fin.2 ⟨h3.symm, by linarith, by linarith⟩

instance : (b32 expF lnF sqrtF).Rounds :=
  fmt_rounds (by norm_num) (by norm_num) (by norm_num) (by norm_num)

instance : (b64 expF lnF sqrtF).Rounds := fmt_rounds (by norm_num) (by norm_num) (by
    exact_mod_cast (show 4 ≤ (2 ^ 53 - 1) * 2 ^ 971 by decide +kernel)) (by norm_num)

end Ieee

end Verif
