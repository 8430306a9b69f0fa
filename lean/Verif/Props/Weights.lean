import Verif.Proofs.Step
import Verif.Spec.RatFmt

/-!
# C53: node weights minimise the regularised objective
-/

namespace Verif

open scoped Verif

set_option linter.unusedSectionVars false

section
variable {K : Type} [Field K] [LinearOrder K] [IsStrictOrderedRing K] {m : Fmt K} [m.Exact]

/-- The value respects the monotone bounds. -/
def InBounds (lower upper : FX m) (w : K) : Prop :=
  (lower ≤ᶠ FX.fin w) = true ∧ (FX.fin w ≤ᶠ upper) = true

/-- **C53** (no constraint): the weight is the minimiser of the penalised second order approximation
among the values that `max_delta_step` allows, and the only one. -/
theorem C53_weight {l1 l2 mds g h : K} (ha : 0 < h + l2) (hl : 0 ≤ l1) (hm : 0 ≤ mds) :
    ∃ x, weight (FX.fin l1 : FX m) (FX.fin l2) (FX.fin mds) (FX.fin g) (FX.fin h) = FX.fin x ∧
      IsStep l1 l2 mds g h x ∧ ∀ y, IsStep l1 l2 mds g h y → y = x :=
  ⟨_, weight_fin ha.ne', stepK_isStep ha hl hm, fun _ hy => hy.unique ha hl (stepK_isStep ha hl hm)⟩

theorem StepAllowed.between {mds x p w : K} (hx : StepAllowed mds x) (hw : StepAllowed mds w)
    (hb : (w ≤ p ∧ p ≤ x) ∨ (x ≤ p ∧ p ≤ w)) : StepAllowed mds p := by
  rcases hx with h | hx
  · exact .inl h
  · rcases hw with h | hw
    · exact .inl h
    · refine .inr ?_
      rw [abs_le] at hx hw ⊢
      rcases hb with ⟨b1, b2⟩ | ⟨b1, b2⟩
      · exact ⟨le_trans hw.1 b1, le_trans b2 hx.2⟩
      · exact ⟨le_trans hx.1 b1, le_trans b2 hw.2⟩

/-- **C53** (constrained feature): with a constraint the weight is the minimiser among the values
allowed by `max_delta_step` and by the bounds, provided there is one. -/
theorem C53_constrained {l1 l2 mds g h : K} (ha : 0 < h + l2) (hl : 0 ≤ l1) (hm : 0 ≤ mds)
    {lower upper : FX m} (hf : ∃ w, StepAllowed mds w ∧ InBounds lower upper w)
    {ct : Constraint} (hct : ct = .positive ∨ ct = .negative) :
    ∃ x, constrainedWeight (FX.fin l1 : FX m) (FX.fin l2) (FX.fin mds) (FX.fin g) (FX.fin h) lower
        upper (some ct) = FX.fin x ∧ StepAllowed mds x ∧ InBounds lower upper x ∧
      ∀ w, StepAllowed mds w → InBounds lower upper w → regObj l1 l2 g h x ≤ regObj l1 l2 g h w := by
  have hs := stepK_isStep (g := g) ha hl hm
  have hno : noConstraint (some ct) = false := by rcases hct with rfl | rfl <;> rfl
  unfold constrainedWeight
  simp only [hno, weight_fin ha.ne', Bool.false_eq_true, if_false]
  obtain ⟨s, hse⟩ : ∃ s, s = stepK l1 l2 mds g h := ⟨_, rfl⟩
  rw [← hse] at hs ⊢
  obtain ⟨w0, hw0, hb1, hb2⟩ := hf
  by_cases hu : (upper <ᶠ (FX.fin s : FX m)) = true
  · rw [if_pos hu]
    cases upper with
    | nan => cases hu
    | pinf => cases hu
    | ninf => cases hb2
    | fin u =>
      simp only [FX.lt_fin, decide_eq_true_eq] at hu
      simp only [FX.le_fin, decide_eq_true_eq] at hb2
      have hau : StepAllowed mds u := hs.allowed.between hw0 (.inl ⟨hb2, hu.le⟩)
      refine ⟨u, rfl, hau, ⟨?_, by simp⟩, fun w hw hwb => ?_⟩
      · cases lower with
        | nan => cases hb1
        | pinf => cases hb1
        | ninf => rfl
        | fin l =>
          simp only [FX.le_fin, decide_eq_true_eq] at hb1 ⊢
          exact le_trans hb1 hb2
      · have := hwb.2
        simp only [FX.le_fin, decide_eq_true_eq] at this
        exact regObj_between ha.le hl (hs.least _ hau) (hs.least _ hw) (.inl ⟨this, hu.le⟩)
  · rw [if_neg hu]
    have hsu : ((FX.fin s : FX m) ≤ᶠ upper) = true := by
      cases upper with
      | nan => cases hb2
      | pinf => rfl
      | ninf => cases hb2
      | fin u =>
        simp only [FX.lt_fin, decide_eq_true_eq, not_lt, FX.le_fin] at hu ⊢
        exact hu
    by_cases hlo : ((FX.fin s : FX m) <ᶠ lower) = true
    · rw [if_pos hlo]
      cases lower with
      | nan => cases hlo
      | ninf => cases hlo
      | pinf => cases hb1
      | fin l =>
        simp only [FX.lt_fin, decide_eq_true_eq] at hlo
        simp only [FX.le_fin, decide_eq_true_eq] at hb1
        have hau : StepAllowed mds l := hs.allowed.between hw0 (.inr ⟨hlo.le, hb1⟩)
        refine ⟨l, rfl, hau, ⟨by simp, ?_⟩, fun w hw hwb => ?_⟩
        · cases upper with
          | nan => cases hb2
          | pinf => rfl
          | ninf => cases hb2
          | fin u =>
            simp only [FX.le_fin, decide_eq_true_eq] at hb2 ⊢
            exact le_trans hb1 hb2
        · have := hwb.1
          simp only [FX.le_fin, decide_eq_true_eq] at this
          exact regObj_between ha.le hl (hs.least _ hau) (hs.least _ hw) (.inr ⟨hlo.le, this⟩)
    · rw [if_neg hlo]
      refine ⟨s, rfl, hs.allowed, ⟨?_, hsu⟩, fun w hw _ => hs.least w hw⟩
      cases lower with
      | nan => cases hb1
      | pinf => cases hb1
      | ninf => rfl
      | fin l =>
        simp only [FX.lt_fin, decide_eq_true_eq, not_lt, FX.le_fin] at hlo ⊢
        exact hlo

/-- **C53** (gain): the gain of a node at a weight is minus twice the objective without the `l1`
penalty. -/
theorem C53_gain (l2 g h w : K) :
    gainGivenWeight (FX.fin l2 : FX m) (FX.fin g) (FX.fin h) (FX.fin w) =
      FX.fin (-(2 * regObj 0 l2 g h w)) := by
  unfold gainGivenWeight regObj
  simp only [FX.ofNat_eq, FX.fin_mul, FX.fin_add, FX.neg_fin]
  congr 1
  push_cast
  ring

end

/-- The hypotheses of C53 are met: soft thresholding, the limit and a bound, with values. -/
example : weight (q 1) (q 2) (q 0) (q 7) (q 1) = q (-2) ∧ weight (q 1) (q 2) (q 1) (q 7) (q 1) = q (-1) ∧
    weight (q 3) (q 2) (q 0) (q 2) (q 1) = q 0 ∧
    constrainedWeight (q 1) (q 2) (q 0) (q 7) (q 1) (q (-1)) (q 4) (some .positive) = q (-1) ∧
    constrainedWeight (q 1) (q 2) (q 0) (q 7) (q 1) (q (-1)) (q 4) none = q (-2) ∧
    gainGivenWeight (q 2) (q 7) (q 1) (q (-2)) = q 16 := by decide +kernel

example : ∃ w : ℚ, StepAllowed 0 w ∧ InBounds (q (-1)) (q 4) w := ⟨0, .inl rfl, by
  constructor <;> decide +kernel⟩

end Verif
