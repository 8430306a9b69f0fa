import Verif.Proofs.ScaleFit
import Verif.Spec.PowerOfTwo
import Mathlib.Tactic.Ring
import Mathlib.Tactic.FieldSimp
import Mathlib.Tactic.Linarith
import Mathlib.Tactic.Positivity

/-!
# Scaled runs: multiplication by a positive number that rounding commutes with
-/

namespace Verif

open scoped Verif

set_option linter.unusedSectionVars false

/-- When nothing is rounded, every factor will do. -/
instance Fmt.Exact.scalesBy {K : Type} [Mul K] (m : Fmt K) [hm : m.Exact] (c : K) : m.ScalesBy c :=
  ⟨fun q => by rw [hm.rnd_eq, hm.rnd_eq]; rfl⟩

/-- Products of factors. -/
instance Fmt.ScalesBy.mul {K : Type} [Semigroup K] (m : Fmt K) (c d : K) [hc : m.ScalesBy c] [hd : m.ScalesBy d] :
    m.ScalesBy (c * d) :=
  ⟨fun q => by
    rw [mul_assoc, hc.rnd_mul, hd.rnd_mul]
    cases m.rnd q with
    | fin a => show RV.fin (c * (d * a)) = RV.fin (c * d * a); rw [mul_assoc]
    | ninf => rfl
    | pinf => rfl⟩

namespace FX

variable {K : Type} [Field K] [LinearOrder K] [IsStrictOrderedRing K] {m : Fmt K}

variable {c d : K}

theorem smul_sinf (c : K) (a : K) : smul c (sinf a : FX m) = sinf a := by
  unfold sinf
  split
  · rfl
  · split <;> rfl

theorem sinf_mul (hc : 0 < c) (a : K) : (sinf (c * a) : FX m) = sinf a := by
  unfold sinf
  have h1 : 0 < c * a ↔ 0 < a := mul_pos_iff_of_pos_left hc
  have h2 : c * a < 0 ↔ a < 0 := by
    constructor
    · intro h; by_contra hn; push Not at hn; exact absurd h (not_lt.2 (mul_nonneg hc.le hn))
    · intro h; exact mul_neg_of_pos_of_neg hc h
  simp only [h1, h2]

theorem smul_neg (c : K) (x : FX m) : smul c (-x) = -smul c x := by
  cases x with
  | fin a => show fin (c * -a) = fin (-(c * a)); rw [mul_neg]
  | nan => rfl
  | ninf => rfl
  | pinf => rfl

theorem smul_abs (hc : 0 < c) (x : FX m) : smul c (Fl.abs x) = Fl.abs (smul c x) := by
  cases x with
  | fin a => show fin (c * |a|) = fin |c * a|; rw [abs_mul, abs_of_pos hc]
  | nan => rfl
  | ninf => rfl
  | pinf => rfl

theorem smul_lt (hc : 0 < c) (x y : FX m) : (smul c x <ᶠ smul c y) = (x <ᶠ y) := by
  cases x <;> cases y <;> first
    | rfl
    | (show decide _ = decide _; simp only [mul_lt_mul_iff_right₀ hc])

theorem smul_le (hc : 0 < c) (x y : FX m) : (smul c x ≤ᶠ smul c y) = (x ≤ᶠ y) := by
  cases x <;> cases y <;> first
    | rfl
    | (show decide _ = decide _; simp only [mul_le_mul_iff_right₀ hc])

theorem smul_tle (hc : 0 < c) (x y : FX m) : Fl.tle (smul c x) (smul c y) = Fl.tle x y := by
  cases x <;> cases y <;> first
    | rfl
    | (show decide _ = decide _; simp only [mul_le_mul_iff_right₀ hc])

theorem smul_feq_zero (hc : 0 < c) (x : FX m) : (smul c x =ᶠ 0) = (x =ᶠ 0) := by
  cases x with
  | fin a =>
    show decide (c * a = 0) = decide (a = 0)
    simp [hc.ne']
  | nan => rfl
  | ninf => rfl
  | pinf => rfl

theorem smul_zero (c : K) : smul c (0 : FX m) = 0 := by
  show fin (c * 0) = fin 0
  rw [mul_zero]

theorem smul_nan (c : K) (x : FX m) : isNaN (smul c x) = isNaN x := by cases x <;> rfl

theorem smul_lt_zero (hc : 0 < c) (x : FX m) : (smul c x <ᶠ 0) = (x <ᶠ 0) := by
  have := smul_lt hc x 0
  rwa [smul_zero] at this

theorem smul_le_zero (hc : 0 < c) (x : FX m) : (smul c x ≤ᶠ 0) = (x ≤ᶠ 0) := by
  have := smul_le hc x 0
  rwa [smul_zero] at this

theorem smul_copysign (hc : 0 < c) (hd : 0 < d) (x y : FX m) :
    smul c (Fl.copysign x y) = Fl.copysign (smul c x) (smul d y) := by
  have h : isNeg (smul d y) = isNeg y := by
    cases y with
    | fin a =>
      show decide (d * a < 0) = decide (a < 0)
      have := smul_lt_zero hd (fin a : FX m)
      exact this
    | nan => rfl
    | ninf => rfl
    | pinf => rfl
  show smul c (if isNeg y then -(Fl.abs x) else Fl.abs x) =
    if isNeg (smul d y) then -(Fl.abs (smul c x)) else Fl.abs (smul c x)
  rw [h]
  split
  · rw [smul_neg, smul_abs hc]
  · exact smul_abs hc x

section exact
variable [m.Exact]

theorem fin_mul_eq (hc : 0 < c) (x : FX m) : FX.fin c * x = smul c x := by
  cases x with
  | fin a => rw [FX.fin_mul]; rfl
  | nan => rfl
  | ninf =>
    show (sinf (-c) : FX m) = ninf
    unfold sinf
    rw [if_neg (by simpa using hc.le), if_pos (by simpa using hc)]
  | pinf =>
    show (sinf c : FX m) = pinf
    unfold sinf
    rw [if_pos hc]

end exact

theorem smul_rd (c q : K) [hs : m.ScalesBy c] : smul c (rd q : FX m) = rd (c * q) := by
  unfold rd
  rw [hs.rnd_mul]
  cases m.rnd q <;> rfl

section scales
variable [m.ScalesBy c] [m.ScalesBy d]

theorem smul_add (c : K) [m.ScalesBy c] (x y : FX m) : smul c (x + y) = smul c x + smul c y := by
  cases x <;> cases y <;> first
    | rfl
    | (rename_i a b
       show smul c (rd (a + b)) = rd (c * a + c * b)
       rw [smul_rd, mul_add])

theorem smul_sub (c : K) [m.ScalesBy c] (x y : FX m) : smul c (x - y) = smul c x - smul c y := by
  show smul c (x + -y) = smul c x + -smul c y
  rw [smul_add, smul_neg]

theorem smul_mul (hc : 0 < c) (x y : FX m) : smul c (x * y) = smul c x * y := by
  cases x <;> cases y <;> first
    | rfl
    | (rename_i a b
       show smul c (rd (a * b)) = rd (c * a * b)
       rw [smul_rd, mul_assoc])
    | exact smul_sinf c _
    | (rename_i a; show smul c (sinf a : FX m) = sinf (c * a); rw [smul_sinf, sinf_mul hc])
    | (rename_i a; show smul c (sinf (-a) : FX m) = sinf (-(c * a)); rw [smul_sinf, ← mul_neg, sinf_mul hc])

theorem mul_comm' (x y : FX m) : x * y = y * x := by
  cases x <;> cases y <;> first
    | rfl
    | (rename_i a b
       show rd (a * b) = rd (b * a)
       rw [mul_comm])

theorem smul_mul_right (hc : 0 < c) (x y : FX m) : smul c (x * y) = x * smul c y := by
  rw [mul_comm', smul_mul hc, mul_comm']

theorem smul_smul (c d : K) (x : FX m) : smul c (smul d x) = smul (c * d) x := by
  cases x with
  | fin a => show fin (c * (d * a)) = fin (c * d * a); rw [mul_assoc]
  | nan => rfl
  | ninf => rfl
  | pinf => rfl

theorem smul_mul_smul (hc : 0 < c) (hd : 0 < d) (x y : FX m) : smul c x * smul d y = smul (c * d) (x * y) := by
  rw [← smul_mul hc, ← smul_mul_right hd, smul_smul]

theorem smul_div (hc : 0 < c) (x y : FX m) : smul c (x / y) = smul c x / y := by
  cases x <;> cases y <;> first
    | rfl
    | (rename_i a b
       by_cases hb : b = 0
       · subst hb
         show smul c (FX.div (FX.fin a) (FX.fin 0)) = FX.div (FX.fin (c * a)) (FX.fin 0)
         simp only [FX.div, if_true]
         rw [smul_sinf, sinf_mul hc]
       · show smul c (FX.div (FX.fin a) (FX.fin b)) = FX.div (FX.fin (c * a)) (FX.fin b)
         simp only [FX.div, hb, if_false]
         rw [smul_rd, mul_div_assoc])
    | (show FX.fin (c * 0) = FX.fin 0; rw [mul_zero])
    | (rename_i b
       show smul c (if 0 ≤ b then _ else _) = if 0 ≤ b then _ else _
       split <;> rfl)

theorem smul_div_smul (hc : 0 < c) (x y : FX m) : smul c x / smul c y = x / y := by
  have hb2 : ∀ b : K, 0 ≤ c * b ↔ 0 ≤ b := fun b => mul_nonneg_iff_of_pos_left hc
  cases x <;> cases y <;> first
    | rfl
    | (rename_i a b
       show FX.fin (c * a) / FX.fin (c * b) = FX.fin a / FX.fin b
       by_cases hb : b = 0
       · subst hb
         rw [mul_zero]
         show FX.div (FX.fin (c * a)) (FX.fin 0) = FX.div (FX.fin a) (FX.fin 0)
         simp only [FX.div, if_true]
         rw [sinf_mul hc]
       · show FX.div (FX.fin (c * a)) (FX.fin (c * b)) = FX.div (FX.fin a) (FX.fin b)
         simp only [FX.div, hb, mul_ne_zero hc.ne' hb, if_false]
         rw [mul_div_mul_left _ _ hc.ne'])
    | (rename_i b
       show (if 0 ≤ c * b then _ else _) = if 0 ≤ b then _ else _
       simp only [hb2])

end scales

theorem smul_up {m32 m64 : Fmt K} (c : K) (x : FX m32) : (up (smul c x) : FX m64) = smul c (up x) := by
  cases x <;> rfl

theorem smul_down {m32 m64 : Fmt K} (c : K) [m32.ScalesBy c] (x : FX m64) :
    (down (smul c x) : FX m32) = smul c (down x) := by
  cases x with
  | fin a => exact (smul_rd c a).symm
  | nan => rfl
  | ninf => rfl
  | pinf => rfl

end FX

section
variable {K : Type} [Field K] [LinearOrder K] [IsStrictOrderedRing K] {m32 m64 : Fmt K} {c : K}
  [m32.ScalesBy c] [m64.ScalesBy c]

/-! ## The targets are multiplied -/

/-- The maps when the targets are multiplied by `c`. -/
def targetScale (m32 m64 : Fmt K) (c : K) : Scale (FX m32) (FX m64) :=
  { g := FX.smul c, h := id, w := FX.smul c, n := FX.smul (c * c), b := FX.smul c
    gD := FX.smul c, hD := id, wD := FX.smul c }

theorem targetScale_laws (hc : 0 < c) : (targetScale m32 m64 c).Laws where
  g_add := FX.smul_add c
  g_sub := FX.smul_sub c
  g_zero := FX.smul_zero c
  g_eq := FX.smul_feq_zero hc
  h_add _ _ := rfl
  h_sub _ _ := rfl
  h_zero := rfl
  h_eq _ := rfl
  n_add := FX.smul_add _
  n_sub := FX.smul_sub _
  n_zero := FX.smul_zero _
  n_lt := FX.smul_lt (mul_pos hc hc)
  n_le := FX.smul_le_zero (mul_pos hc hc)
  n_tle := FX.smul_tle (mul_pos hc hc)
  n_nan := FX.smul_nan _
  n_ninf := rfl
  b_ninf := rfl
  b_inf := rfl
  w_mid x y := by
    show FX.smul c _ = _
    rw [FX.smul_div hc, FX.smul_add]; rfl
  w_avg x a y b := by
    show FX.smul c _ = _
    rw [FX.smul_div hc, FX.smul_add, FX.smul_mul hc, FX.smul_mul hc]; rfl
  up_g := FX.smul_up c
  down_g := FX.smul_down c
  gD_add := FX.smul_add c
  gD_zero := FX.smul_zero c
  up_h _ := rfl
  down_h _ := rfl
  hD_add _ _ := rfl
  hD_zero := rfl
  up_w := FX.smul_up c
  down_w := FX.smul_down c
  wD_add := FX.smul_add c
  wD_zero := FX.smul_zero c
  wD_avg x a y b z d := by
    show FX.smul c _ = _
    rw [FX.smul_div hc, FX.smul_add, FX.smul_add, FX.smul_mul hc, FX.smul_mul hc, FX.smul_mul hc]; rfl

theorem targetScale_ordered (hc : 0 < c) : (targetScale m32 m64 c).Ordered :=
  ⟨rfl, FX.smul_lt hc, FX.smul_le hc⟩

theorem l1Regularization_smul (hc : 0 < c) (x l1 : FX m32) :
    l1Regularization (FX.smul c x) (FX.smul c l1) = FX.smul c (l1Regularization x l1) := by
  unfold l1Regularization
  rw [FX.smul_feq_zero hc, FX.smul_lt hc, ← FX.smul_neg, FX.smul_lt hc, ← FX.smul_sub, ← FX.smul_add]
  split
  · rfl
  · split
    · rfl
    · split
      · rfl
      · exact (FX.smul_zero c).symm

theorem clamp_smul (hc : 0 < c) (mds w : FX m32) :
    (if !(FX.smul c mds =ᶠ 0) && FX.smul c mds <ᶠ Fl.abs (FX.smul c w) then
        Fl.copysign (FX.smul c mds) (FX.smul c w) else FX.smul c w) =
      FX.smul c (if !(mds =ᶠ 0) && mds <ᶠ Fl.abs w then Fl.copysign mds w else w) := by
  rw [FX.smul_feq_zero hc, ← FX.smul_abs hc, FX.smul_lt hc]
  split
  · rw [FX.smul_copysign hc hc]
  · rfl

/-- The parameters of the run with multiplied targets. -/
theorem targetScale_params (hc : 0 < c) {p p' : SplitParams (FX m32)} (h1 : p'.l1 = FX.smul c p.l1)
    (h2 : p'.l2 = p.l2) (h3 : p'.maxDeltaStep = FX.smul c p.maxDeltaStep)
    (h4 : p'.gamma = FX.smul (c * c) p.gamma) (h5 : p'.minLeafWeight = p.minLeafWeight)
    (h6 : p'.learningRate = p.learningRate) (h7 : p'.allowMissingSplits = p.allowMissingSplits)
    (h8 : p'.constraintsMap = p.constraintsMap) : p.Scaled (targetScale m32 m64 c) p' where
  weight x y := by
    show weight _ _ _ (FX.smul c x) y = FX.smul c _
    unfold weight
    rw [h1, h2, h3, l1Regularization_smul hc]
    dsimp only
    rw [← FX.smul_div hc, ← FX.smul_neg, clamp_smul hc]
  gainW x y z := by
    show gainGivenWeight _ (FX.smul c x) y (FX.smul c z) = FX.smul (c * c) _
    unfold gainGivenWeight
    rw [h2, FX.smul_neg, FX.smul_add, FX.smul_mul_smul hc hc z z, ← FX.smul_mul_right (mul_pos hc hc),
      ← FX.smul_mul_right hc (Fl.ofNat 2) x, FX.smul_mul_smul hc hc]
  gain x y := by
    show gain _ (FX.smul c x) y = FX.smul (c * c) _
    unfold gain
    rw [h2, FX.smul_div (mul_pos hc hc), FX.smul_mul_smul hc hc]
  gamma := h4
  minLeafWeight x := by rw [h5]; rfl
  learningRate := h6
  scaled x := FX.smul_mul hc _ _
  allow := h7
  constraints := h8
  ordered := .inr (targetScale_ordered hc)

theorem targetScale_goss (hc : 0 < c) {S : Sorter} (hS : S.Natural) : (targetScale m32 m64 c).Goss S where
  natural := hS
  abs x y := by
    show Fl.tle (Fl.abs (FX.smul c x)) (Fl.abs (FX.smul c y)) = _
    rw [← FX.smul_abs hc, ← FX.smul_abs hc, FX.smul_tle hc]
  g_mul := FX.smul_mul hc
  h_mul _ _ := rfl

/-! ## The sample weights are multiplied -/

/-- The maps when the sample weights are multiplied by `c`. -/
def sampleScaleMap (m32 m64 : Fmt K) (c : K) : Scale (FX m32) (FX m64) :=
  { g := FX.smul c, h := FX.smul c, w := id, n := FX.smul c, b := id
    gD := FX.smul c, hD := FX.smul c, wD := id }

theorem sampleScale_laws (hc : 0 < c) : (sampleScaleMap m32 m64 c).Laws where
  g_add := FX.smul_add c
  g_sub := FX.smul_sub c
  g_zero := FX.smul_zero c
  g_eq := FX.smul_feq_zero hc
  h_add := FX.smul_add c
  h_sub := FX.smul_sub c
  h_zero := FX.smul_zero c
  h_eq := FX.smul_feq_zero hc
  n_add := FX.smul_add _
  n_sub := FX.smul_sub _
  n_zero := FX.smul_zero _
  n_lt := FX.smul_lt hc
  n_le := FX.smul_le_zero hc
  n_tle := FX.smul_tle hc
  n_nan := FX.smul_nan _
  n_ninf := rfl
  b_ninf := rfl
  b_inf := rfl
  w_mid x y := rfl
  w_avg x a y b := by
    show _ = (x * FX.smul c a + y * FX.smul c b) / (FX.smul c a + FX.smul c b)
    rw [← FX.smul_mul_right hc, ← FX.smul_mul_right hc, ← FX.smul_add, ← FX.smul_add, FX.smul_div_smul hc]; rfl
  up_g := FX.smul_up c
  down_g := FX.smul_down c
  gD_add := FX.smul_add c
  gD_zero := FX.smul_zero c
  up_h := FX.smul_up c
  down_h := FX.smul_down c
  hD_add := FX.smul_add c
  hD_zero := FX.smul_zero c
  up_w _ := rfl
  down_w _ := rfl
  wD_add _ _ := rfl
  wD_zero := rfl
  wD_avg x a y b z d := by
    show _ = (x * FX.smul c a + y * FX.smul c b + z * FX.smul c d) / (FX.smul c b + FX.smul c a + FX.smul c d)
    rw [← FX.smul_mul_right hc, ← FX.smul_mul_right hc, ← FX.smul_mul_right hc, ← FX.smul_add, ← FX.smul_add,
      ← FX.smul_add, ← FX.smul_add, FX.smul_div_smul hc]; rfl

theorem sampleScale_ordered (c : K) : (sampleScaleMap m32 m64 c).Ordered :=
  ⟨rfl, fun _ _ => rfl, fun _ _ => rfl⟩

/-- The parameters of the run with multiplied sample weights. -/
theorem sampleScale_params (hc : 0 < c) {p p' : SplitParams (FX m32)} (h1 : p'.l1 = FX.smul c p.l1)
    (h2 : p'.l2 = FX.smul c p.l2) (h3 : p'.maxDeltaStep = p.maxDeltaStep)
    (h4 : p'.gamma = FX.smul c p.gamma) (h5 : p'.minLeafWeight = FX.smul c p.minLeafWeight)
    (h6 : p'.learningRate = p.learningRate) (h7 : p'.allowMissingSplits = p.allowMissingSplits)
    (h8 : p'.constraintsMap = p.constraintsMap) : p.Scaled (sampleScaleMap m32 m64 c) p' where
  weight x y := by
    show weight _ _ _ (FX.smul c x) (FX.smul c y) = weight _ _ _ x y
    unfold weight
    rw [h1, h2, h3, l1Regularization_smul hc, ← FX.smul_add, FX.smul_div_smul hc]
  gainW x y z := by
    show gainGivenWeight _ (FX.smul c x) (FX.smul c y) z = FX.smul c _
    unfold gainGivenWeight
    rw [h2, FX.smul_neg, FX.smul_add, FX.smul_mul hc, FX.smul_mul_right hc (Fl.ofNat 2), FX.smul_mul hc, FX.smul_add]
  gain x y := by
    show gain _ (FX.smul c x) (FX.smul c y) = FX.smul c _
    unfold gain
    rw [h2, ← FX.smul_add, FX.smul_mul_smul hc hc, ← FX.smul_smul, FX.smul_div_smul hc, FX.smul_div hc]
  gamma := h4
  minLeafWeight x := by rw [h5]; exact FX.smul_lt hc _ _
  learningRate := h6
  scaled x := rfl
  allow := h7
  constraints := h8
  ordered := .inr (sampleScale_ordered c)

theorem sampleScale_goss (hc : 0 < c) {S : Sorter} (hS : S.Natural) : (sampleScaleMap m32 m64 c).Goss S where
  natural := hS
  abs x y := by
    show Fl.tle (Fl.abs (FX.smul c x)) (Fl.abs (FX.smul c y)) = _
    rw [← FX.smul_abs hc, ← FX.smul_abs hc, FX.smul_tle hc]
  g_mul := FX.smul_mul hc
  h_mul := FX.smul_mul hc

end

end Verif
