import Verif.Model.Utils
import Verif.Spec.Step
import Mathlib.Tactic.Linarith
import Mathlib.Tactic.Ring
import Mathlib.Tactic.FieldSimp
import Mathlib.Tactic.LinearCombination
import Mathlib.Tactic.Positivity

/-!
# The weight of a node is the regularised step
-/

namespace Verif

open scoped Verif

set_option linter.unusedSectionVars false

section
variable {K : Type} [Field K] [LinearOrder K] [IsStrictOrderedRing K]

/-- A number with `|σ| ≤ 1` and `σ x = |x|`. -/
def IsSub (σ x : K) : Prop := σ ≤ 1 ∧ -1 ≤ σ ∧ σ * x = |x|

theorem exists_isSub (x : K) : ∃ σ, IsSub σ x := by
  rcases le_total 0 x with h | h
  · exact ⟨1, le_refl _, by linarith, by rw [abs_of_nonneg h]; ring⟩
  · exact ⟨-1, by linarith, le_refl _, by rw [abs_of_nonpos h]; ring⟩

theorem IsSub.le {σ x : K} (h : IsSub σ x) (w : K) : σ * w ≤ |w| := by
  obtain ⟨h1, h2, _⟩ := h
  rcases le_total 0 w with hw | hw
  · rw [abs_of_nonneg hw]; nlinarith
  · rw [abs_of_nonpos hw]; nlinarith

/-- The subgradient inequality. -/
theorem regObj_ge {l1 l2 g h x σ : K} (ha : 0 ≤ h + l2) (hl : 0 ≤ l1) (hσ : IsSub σ x) (w : K) :
    regObj l1 l2 g h x + (g + (h + l2) * x + l1 * σ) * (w - x) ≤ regObj l1 l2 g h w := by
  have h1 := mul_le_mul_of_nonneg_left (hσ.le w) hl
  have h2 := hσ.2.2
  have h3 : 0 ≤ (h + l2) * (w - x) ^ 2 := mul_nonneg ha (sq_nonneg _)
  unfold regObj
  rw [← h2]
  nlinarith

/-- Values between a value and the best one are at least as good as the value. -/
theorem regObj_between {l1 l2 g h x p w : K} (ha : 0 ≤ h + l2) (hl : 0 ≤ l1)
    (hx : regObj l1 l2 g h x ≤ regObj l1 l2 g h p) (hw : regObj l1 l2 g h x ≤ regObj l1 l2 g h w)
    (hb : (w ≤ p ∧ p ≤ x) ∨ (x ≤ p ∧ p ≤ w)) : regObj l1 l2 g h p ≤ regObj l1 l2 g h w := by
  by_cases hpx : p = x
  · rw [hpx]; exact hw
  · obtain ⟨σ, hσ⟩ := exists_isSub p
    have h1 := regObj_ge (g := g) ha hl hσ x
    have h2 := regObj_ge (g := g) ha hl hσ w
    obtain ⟨d, hd⟩ : ∃ d, d = g + (h + l2) * p + l1 * σ := ⟨_, rfl⟩
    rw [← hd] at h1 h2
    rcases hb with ⟨b1, b2⟩ | ⟨b1, b2⟩
    · have hlt : 0 < x - p := by
        have := lt_of_le_of_ne b2 hpx
        linarith
      have : d ≤ 0 := by
        by_contra hc
        have := mul_pos (not_le.1 hc) hlt
        linarith
      have := mul_nonneg_of_nonpos_of_nonpos this (by linarith : w - p ≤ 0)
      linarith
    · have hlt : x - p < 0 := by
        have := lt_of_le_of_ne b1 (Ne.symm hpx)
        linarith
      have : 0 ≤ d := by
        by_contra hc
        have := mul_pos_of_neg_of_neg (not_le.1 hc) hlt
        linarith
      have := mul_nonneg this (by linarith : 0 ≤ w - p)
      linarith

/-- The best value is unique. -/
theorem IsStep.unique {l1 l2 mds g h x x' : K} (ha : 0 < h + l2) (hl : 0 ≤ l1)
    (hx : IsStep l1 l2 mds g h x) (hx' : IsStep l1 l2 mds g h x') : x = x' := by
  by_contra hne
  have hm : StepAllowed mds ((x + x') / 2) := by
    rcases hx.allowed with h0 | h1
    · exact .inl h0
    · rcases hx'.allowed with h0 | h1'
      · exact .inl h0
      · refine .inr ?_
        rw [abs_le] at h1 h1' ⊢
        constructor <;> linarith [h1.1, h1.2, h1'.1, h1'.2]
  have e1 := hx.least _ hm
  have e2 := hx'.least _ hm
  have hab : |(x + x') / 2| ≤ (|x| + |x'|) / 2 := by
    rw [abs_div, abs_two]
    have := abs_add_le x x'
    linarith
  have hsq : 0 < (h + l2) * (x - x') ^ 2 := mul_pos ha (by
    have : x - x' ≠ 0 := sub_ne_zero.2 hne
    positivity)
  have := mul_le_mul_of_nonneg_left hab hl
  unfold regObj at e1 e2
  nlinarith

/-- Soft thresholding of the gradient, as the code computes it. -/
def softG (l1 g : K) : K :=
  if l1 = 0 then g else if l1 < g then g - l1 else if g < -l1 then g + l1 else 0

theorem softG_sub {l1 l2 g h : K} (ha : 0 < h + l2) (hl : 0 ≤ l1) :
    ∃ σ, IsSub σ (-(softG l1 g / (h + l2))) ∧
      g + (h + l2) * (-(softG l1 g / (h + l2))) + l1 * σ = 0 := by
  have hne := ha.ne'
  have hcancel : ∀ s : K, (h + l2) * (-(s / (h + l2))) = -s := by
    intro s; field_simp
  unfold softG
  split
  · rename_i h0
    obtain ⟨σ, hσ⟩ := exists_isSub (-(g / (h + l2)))
    exact ⟨σ, hσ, by rw [hcancel, h0]; ring⟩
  · rename_i h0
    have hl' : 0 < l1 := lt_of_le_of_ne hl (Ne.symm h0)
    split
    · rename_i h1
      refine ⟨-1, ⟨by linarith, le_refl _, ?_⟩, by rw [hcancel]; ring⟩
      have : 0 < (g - l1) / (h + l2) := div_pos (by linarith) ha
      rw [abs_of_neg (by linarith)]; ring
    · split
      · rename_i h1 h2
        refine ⟨1, ⟨le_refl _, by linarith, ?_⟩, by rw [hcancel]; ring⟩
        have : (g + l1) / (h + l2) < 0 := div_neg_of_neg_of_pos (by linarith) ha
        rw [abs_of_pos (by linarith)]; ring
      · rename_i h1 h2
        refine ⟨-(g / l1), ⟨?_, ?_, by simp⟩, by rw [hcancel]; field_simp; ring⟩
        · rw [neg_le, le_div_iff₀ hl']; linarith
        · rw [neg_le_neg_iff, div_le_one hl']; linarith

/-- The step, as the code computes it. -/
def stepK (l1 l2 mds g h : K) : K :=
  let w := -(softG l1 g / (h + l2))
  if mds ≠ 0 ∧ mds < |w| then (if w < 0 then -|mds| else |mds|) else w

theorem stepK_isStep {l1 l2 mds g h : K} (ha : 0 < h + l2) (hl : 0 ≤ l1) (hm : 0 ≤ mds) :
    IsStep l1 l2 mds g h (stepK l1 l2 mds g h) := by
  obtain ⟨σ, hσ, h0⟩ := softG_sub (g := g) ha hl
  unfold stepK
  simp only
  obtain ⟨w0, hw0⟩ : ∃ w0, w0 = -(softG l1 g / (h + l2)) := ⟨_, rfl⟩
  rw [← hw0] at h0 hσ ⊢
  split
  · rename_i hc
    obtain ⟨hne, hlt⟩ := hc
    rw [abs_of_nonneg hm]
    have hmp : 0 < mds := lt_of_le_of_ne hm (Ne.symm hne)
    split
    · rename_i hneg
      rw [abs_of_neg hneg] at hlt
      -- below: the limit is `-mds`
      have hσ' : σ = -1 := by
        have := hσ.2.2
        rw [abs_of_neg hneg] at this
        have h2 : (σ + 1) * w0 = 0 := by linear_combination this
        rcases mul_eq_zero.1 h2 with h3 | h3
        · linarith
        · exact absurd h3 hneg.ne
      have hs : IsSub (-1) (-mds) := ⟨by linarith, le_refl _, by
        rw [abs_of_neg (by linarith)]; ring⟩
      refine ⟨.inr (by rw [abs_of_neg (by linarith)]; linarith), fun w hw => ?_⟩
      have hwl : -mds ≤ w := by
        rcases hw with hw | hw
        · exact absurd hw hne
        · exact (abs_le.1 hw).1
      have := regObj_ge (g := g) ha.le hl hs w
      have hd : 0 ≤ g + (h + l2) * -mds + l1 * -1 := by
        rw [hσ'] at h0
        have := mul_pos ha (show 0 < -mds - w0 by linarith)
        nlinarith
      have := mul_nonneg hd (show 0 ≤ w - -mds by linarith)
      linarith
    · rename_i hneg
      have hpos : 0 < w0 := by
        rcases lt_trichotomy w0 0 with h1 | h1 | h1
        · exact absurd h1 hneg
        · rw [h1, abs_zero] at hlt; linarith
        · exact h1
      rw [abs_of_pos hpos] at hlt
      have hσ' : σ = 1 := by
        have := hσ.2.2
        rw [abs_of_pos hpos] at this
        have h2 : (σ - 1) * w0 = 0 := by linear_combination this
        rcases mul_eq_zero.1 h2 with h3 | h3
        · linarith
        · exact absurd h3 hpos.ne'
      have hs : IsSub 1 mds := ⟨le_refl _, by linarith, by rw [abs_of_pos hmp]; ring⟩
      refine ⟨.inr (by rw [abs_of_pos hmp]), fun w hw => ?_⟩
      have hwl : w ≤ mds := by
        rcases hw with hw | hw
        · exact absurd hw hne
        · exact (abs_le.1 hw).2
      have := regObj_ge (g := g) ha.le hl hs w
      have hd : g + (h + l2) * mds + l1 * 1 ≤ 0 := by
        rw [hσ'] at h0
        have := mul_pos ha (show 0 < w0 - mds by linarith)
        nlinarith
      have := mul_nonneg_of_nonpos_of_nonpos hd (show w - mds ≤ 0 by linarith)
      linarith
  · rename_i hc
    refine ⟨?_, fun w _ => ?_⟩
    · by_cases h1 : mds = 0
      · exact .inl h1
      · exact .inr (not_lt.1 fun h2 => hc ⟨h1, h2⟩)
    · have := regObj_ge (g := g) ha.le hl hσ w
      rw [h0] at this
      linarith

variable {m : Fmt K} [m.Exact]

theorem l1Regularization_fin (l1 g : K) :
    l1Regularization (FX.fin g : FX m) (FX.fin l1) = FX.fin (softG l1 g) := by
  unfold l1Regularization softG
  simp only [FX.zero_def, FX.feq_fin, FX.lt_fin, FX.neg_fin, decide_eq_true_eq, FX.fin_sub, FX.fin_add]
  split
  · rfl
  · split
    · rfl
    · split <;> rfl

/-- The code's weight is `stepK`. -/
theorem weight_fin {l1 l2 mds g h : K} (hne : h + l2 ≠ 0) :
    weight (FX.fin l1 : FX m) (FX.fin l2) (FX.fin mds) (FX.fin g) (FX.fin h) =
      FX.fin (stepK l1 l2 mds g h) := by
  unfold weight stepK
  simp only [l1Regularization_fin, FX.fin_add, FX.fin_div _ _ hne, FX.neg_fin, FX.abs_fin, FX.zero_def,
    FX.feq_fin, FX.lt_fin]
  generalize -(softG l1 g / (h + l2)) = w
  by_cases h1 : mds = 0
  · simp [h1]
  · by_cases h2 : mds < |w|
    · simp only [h1, h2, decide_true, decide_false, Bool.not_false, Bool.and_self, if_true, ne_eq,
        not_false_eq_true, and_self, Fl.copysign, FX.isNeg]
      by_cases h3 : w < 0
      · simp [h3, FX.neg, FX.abs]
      · simp [h3, FX.abs]
    · simp [h2]

end

end Verif
