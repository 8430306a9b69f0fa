import Verif.Num

/-!
# Laws of the comparisons

They hold in IEEE-754 arithmetic and in `FX m` for every format, rounded or not.
-/

namespace Verif

open scoped Verif

/-- Laws of `<` and `<=` with NaN. -/
class Fl.OrdLaws (F : Type) [Fl F] : Prop where
  lt_irrefl : ∀ a : F, (a <ᶠ a) = false
  lt_trans : ∀ a b c : F, (a <ᶠ b) = true → (b <ᶠ c) = true → (a <ᶠ c) = true
  cotrans : ∀ a b c : F, isNaN c = false → (a <ᶠ b) = true → (a <ᶠ c) = true ∨ (c <ᶠ b) = true
  lt_num : ∀ a b : F, (a <ᶠ b) = true → isNaN a = false ∧ isNaN b = false
  le_iff : ∀ a b : F, isNaN a = false → isNaN b = false → ((a ≤ᶠ b) = true ↔ (b <ᶠ a) = false)
  le_num : ∀ a b : F, (a ≤ᶠ b) = true → isNaN a = false ∧ isNaN b = false
  zero_num : isNaN (0 : F) = false
  maxv_num : isNaN (Fl.maxv : F) = false
  feq_num : ∀ a b : F, (a =ᶠ b) = true → isNaN a = false ∧ isNaN b = false
  feq_iff : ∀ a b : F, isNaN a = false → isNaN b = false →
    ((a =ᶠ b) = true ↔ (a <ᶠ b) = false ∧ (b <ᶠ a) = false)

instance {K : Type} [Field K] [LinearOrder K] (m : Fmt K) : Fl.OrdLaws (FX m) where
  lt_irrefl a := by cases a <;> simp [Fl.lt, FX.lt]
  lt_trans a b c h h' := by
    cases a <;> cases b <;> cases c <;> simp_all [Fl.lt, FX.lt]
    exact lt_trans h h'
  cotrans a b c hc h := by
    cases a <;> cases b <;> cases c <;> simp_all [Fl.lt, FX.lt]
    exact lt_or_ge _ _ |>.imp_right fun h' => lt_of_le_of_lt h' h
  lt_num a b h := by cases a <;> cases b <;> simp_all [Fl.lt, FX.lt]
  le_iff a b ha hb := by cases a <;> cases b <;> simp_all [Fl.lt, FX.lt, Fl.le, FX.le]
  le_num a b h := by cases a <;> cases b <;> simp_all [Fl.le, FX.le]
  zero_num := rfl
  maxv_num := rfl
  feq_num a b h := by cases a <;> cases b <;> simp_all [Fl.feq, FX.feq]
  feq_iff a b ha hb := by
    cases a <;> cases b <;> simp_all [Fl.lt, FX.lt, Fl.feq, FX.feq]
    exact le_antisymm_iff.trans And.comm

/-- Laws of `total_cmp`. -/
class Fl.TotLaws (F : Type) [Fl F] : Prop where
  total : ∀ a b : F, Fl.tle a b = true ∨ Fl.tle b a = true
  trans : ∀ a b c : F, Fl.tle a b = true → Fl.tle b c = true → Fl.tle a c = true

instance {K : Type} [Field K] [LinearOrder K] (m : Fmt K) : Fl.TotLaws (FX m) where
  total a b := by
    cases a <;> cases b <;> simp [Fl.tle, FX.tle, FX.le]
    exact le_total _ _
  trans a b c h h' := by
    cases a <;> cases b <;> cases c <;> simp_all [Fl.tle, FX.tle, FX.le]
    exact le_trans h h'

section
variable {F : Type} [Fl F] [Fl.OrdLaws F]

theorem Fl.lt_of_lt_of_not {a b c : F} (hc : isNaN c = false) (h : (a <ᶠ b) = true)
    (h' : (c <ᶠ b) = false) : (a <ᶠ c) = true := by
  rcases Fl.OrdLaws.cotrans a b c hc h with h | h
  · exact h
  · rw [h] at h'; cases h'

theorem Fl.lt_of_not_of_lt {a b c : F} (ha : isNaN a = false) (h' : (b <ᶠ a) = false)
    (h : (b <ᶠ c) = true) : (a <ᶠ c) = true := by
  rcases Fl.OrdLaws.cotrans b c a ha h with h | h
  · rw [h] at h'; cases h'
  · exact h

theorem Fl.lt_asymm {a b : F} (h : (a <ᶠ b) = true) : (b <ᶠ a) = false := by
  cases hb : (b <ᶠ a)
  · rfl
  · have := Fl.OrdLaws.lt_trans a b a h hb
    rw [Fl.OrdLaws.lt_irrefl] at this; cases this

theorem Fl.not_lt_of_le {a b : F} (h : (a ≤ᶠ b) = true) : (b <ᶠ a) = false := by
  obtain ⟨ha, hb⟩ := Fl.OrdLaws.le_num _ _ h
  exact (Fl.OrdLaws.le_iff _ _ ha hb).1 h

theorem Fl.le_of_not_lt {a b : F} (ha : isNaN a = false) (hb : isNaN b = false)
    (h : (b <ᶠ a) = false) : (a ≤ᶠ b) = true := (Fl.OrdLaws.le_iff _ _ ha hb).2 h

theorem Fl.le_refl {a : F} (h : isNaN a = false) : (a ≤ᶠ a) = true :=
  Fl.le_of_not_lt h h (Fl.OrdLaws.lt_irrefl a)

theorem Fl.le_of_lt {a b : F} (h : (a <ᶠ b) = true) : (a ≤ᶠ b) = true := by
  obtain ⟨ha, hb⟩ := Fl.OrdLaws.lt_num _ _ h
  exact Fl.le_of_not_lt ha hb (Fl.lt_asymm h)

theorem Fl.lt_of_not_le {a b : F} (ha : isNaN a = false) (hb : isNaN b = false)
    (h : (a ≤ᶠ b) = false) : (b <ᶠ a) = true := by
  cases hx : (b <ᶠ a)
  · rw [Fl.le_of_not_lt ha hb hx] at h; cases h
  · rfl

theorem Fl.not_le_of_lt {a b : F} (h : (b <ᶠ a) = true) : (a ≤ᶠ b) = false := by
  cases hx : (a ≤ᶠ b)
  · rfl
  · rw [Fl.not_lt_of_le hx] at h; cases h

theorem Fl.lt_of_lt_of_le {a b c : F} (h : (a <ᶠ b) = true) (h' : (b ≤ᶠ c) = true) :
    (a <ᶠ c) = true :=
  Fl.lt_of_lt_of_not (Fl.OrdLaws.le_num _ _ h').2 h (Fl.not_lt_of_le h')

theorem Fl.lt_of_le_of_lt {a b c : F} (h : (a ≤ᶠ b) = true) (h' : (b <ᶠ c) = true) :
    (a <ᶠ c) = true :=
  Fl.lt_of_not_of_lt (Fl.OrdLaws.le_num _ _ h).1 (Fl.not_lt_of_le h) h'

theorem Fl.le_trans {a b c : F} (h : (a ≤ᶠ b) = true) (h' : (b ≤ᶠ c) = true) : (a ≤ᶠ c) = true := by
  obtain ⟨ha, _⟩ := Fl.OrdLaws.le_num _ _ h
  obtain ⟨_, hc⟩ := Fl.OrdLaws.le_num _ _ h'
  apply Fl.le_of_not_lt ha hc
  cases hx : (c <ᶠ a)
  · rfl
  · have := Fl.lt_of_lt_of_le hx h
    rw [Fl.not_lt_of_le h'] at this; cases this

theorem Fl.le_total {a b : F} (ha : isNaN a = false) (hb : isNaN b = false) :
    (a ≤ᶠ b) = true ∨ (b ≤ᶠ a) = true := by
  cases hx : (a <ᶠ b)
  · exact .inr (Fl.le_of_not_lt hb ha hx)
  · exact .inl (Fl.le_of_lt hx)

theorem Fl.feq_iff_le {a b : F} : (a =ᶠ b) = true ↔ (a ≤ᶠ b) = true ∧ (b ≤ᶠ a) = true := by
  constructor
  · intro h
    obtain ⟨ha, hb⟩ := Fl.OrdLaws.feq_num _ _ h
    obtain ⟨h1, h2⟩ := (Fl.OrdLaws.feq_iff _ _ ha hb).1 h
    exact ⟨Fl.le_of_not_lt ha hb h2, Fl.le_of_not_lt hb ha h1⟩
  · rintro ⟨h1, h2⟩
    obtain ⟨ha, hb⟩ := Fl.OrdLaws.le_num _ _ h1
    exact (Fl.OrdLaws.feq_iff _ _ ha hb).2 ⟨Fl.not_lt_of_le h2, Fl.not_lt_of_le h1⟩

theorem Fl.lt_of_le_of_ne {a b : F} (h : (a ≤ᶠ b) = true) (h' : (a =ᶠ b) = false) :
    (a <ᶠ b) = true := by
  obtain ⟨ha, hb⟩ := Fl.OrdLaws.le_num _ _ h
  cases hx : (a <ᶠ b)
  · rw [Fl.feq_iff_le.2 ⟨h, Fl.le_of_not_lt hb ha hx⟩] at h'; cases h'
  · rfl

end

end Verif
