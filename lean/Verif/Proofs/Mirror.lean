import Verif.Proofs.ScaleFit
import Verif.Proofs.Rounds
import Mathlib.Tactic.Ring
import Mathlib.Tactic.Linarith

/-!
# Scaled runs: mirrored targets in floating point arithmetic
-/

namespace Verif

open scoped Verif

set_option linter.unusedSectionVars false

namespace FX

variable {K : Type} [Field K] [LinearOrder K] [IsStrictOrderedRing K] {m : Fmt K}

theorem neg_neg' (x : FX m) : - -x = x := by
  cases x with
  | fin a => show FX.fin (- -a) = FX.fin a; rw [neg_neg]
  | nan => rfl
  | ninf => rfl
  | pinf => rfl

theorem sinf_neg (a : K) : (sinf (-a) : FX m) = -sinf a := by
  unfold sinf
  rcases lt_trichotomy a 0 with h | h | h
  · rw [if_pos (by linarith), if_neg (not_lt.2 h.le), if_pos h]; rfl
  · subst h; simp only [neg_zero, lt_irrefl, if_false]; rfl
  · rw [if_neg (by simpa using h.le), if_pos (by linarith), if_pos h]; rfl

theorem neg_zero' : -(0 : FX m) = 0 := by
  show FX.fin (-0) = FX.fin 0
  rw [neg_zero]

theorem neg_abs (x : FX m) : Fl.abs (-x) = Fl.abs x := by
  cases x with
  | fin a => show FX.fin |-a| = FX.fin |a|; rw [abs_neg]
  | nan => rfl
  | ninf => rfl
  | pinf => rfl

theorem neg_nan (x : FX m) : isNaN (-x) = isNaN x := by cases x <;> rfl

theorem neg_lt (x y : FX m) : (-x <ᶠ -y) = (y <ᶠ x) := by
  cases x <;> cases y <;> first
    | rfl
    | (show decide _ = decide _; simp only [neg_lt_neg_iff])

theorem neg_lt' (x y : FX m) : (-x <ᶠ y) = (-y <ᶠ x) := by
  rw [← neg_lt, neg_neg']

theorem lt_neg' (x y : FX m) : (x <ᶠ -y) = (y <ᶠ -x) := by
  rw [← neg_lt, neg_neg']

theorem neg_feq_zero (x : FX m) : (-x =ᶠ 0) = (x =ᶠ 0) := by
  cases x with
  | fin a =>
    show decide (-a = 0) = decide (a = 0)
    simp
  | nan => rfl
  | ninf => rfl
  | pinf => rfl

section
variable [hm : m.Rounds]

theorem rd_neg (a : K) : (FX.rd (-a) : FX m) = -FX.rd a := by
  unfold FX.rd
  rw [hm.neg]
  cases m.rnd a <;> rfl

theorem neg_add' (x y : FX m) : -(x + y) = -x + -y := by
  cases x <;> cases y <;> first
    | rfl
    | (rename_i a b
       show -FX.rd (a + b) = FX.rd (-a + -b)
       rw [← neg_add, rd_neg])

theorem neg_sub' (x y : FX m) : -(x - y) = -x - -y := neg_add' x (-y)

theorem neg_mul' (x y : FX m) : -(x * y) = -x * y := by
  cases x <;> cases y <;> first
    | rfl
    | (rename_i a b
       show -FX.rd (a * b) = FX.rd (-a * b)
       rw [neg_mul, rd_neg])
    | (rename_i a; show -(sinf a : FX m) = sinf (-a); rw [sinf_neg])
    | (rename_i a; show -(sinf (-a) : FX m) = sinf (- -a); rw [← sinf_neg])
    | (rename_i a; show -(sinf (-a) : FX m) = sinf a; rw [← sinf_neg, neg_neg])

theorem mul_comm_rd (x y : FX m) : x * y = y * x := by
  cases x <;> cases y <;> first
    | rfl
    | (rename_i a b
       show FX.rd (a * b) = FX.rd (b * a)
       rw [mul_comm])

theorem neg_mul_neg' (x y : FX m) : -x * -y = x * y := by
  rw [← neg_mul', mul_comm_rd, ← neg_mul', neg_neg', mul_comm_rd]

theorem mul_neg' (x y : FX m) : -(x * y) = x * -y := by
  rw [mul_comm_rd, neg_mul', mul_comm_rd]

theorem neg_div' (x y : FX m) : -(x / y) = -x / y := by
  cases x <;> cases y <;> first
    | rfl
    | (rename_i a b
       show -FX.div (FX.fin a) (FX.fin b) = FX.div (FX.fin (-a)) (FX.fin b)
       simp only [FX.div]
       split
       · rw [sinf_neg]
       · rw [neg_div, rd_neg])
    | (show FX.fin (-0) = FX.fin 0; rw [neg_zero])
    | (rename_i b
       show -(if 0 ≤ b then _ else _ : FX m) = if 0 ≤ b then _ else _
       split <;> rfl)

end

theorem neg_up {m32 m64 : Fmt K} (x : FX m32) : (up (-x) : FX m64) = -up x := by
  cases x <;> rfl

theorem neg_down {m32 m64 : Fmt K} [m32.Rounds] (x : FX m64) : (down (-x) : FX m32) = -down x := by
  cases x with
  | fin a => exact rd_neg a
  | nan => rfl
  | ninf => rfl
  | pinf => rfl

end FX

section
variable {K : Type} [Field K] [LinearOrder K] [IsStrictOrderedRing K] {m32 m64 : Fmt K} [m32.Rounds] [m64.Rounds]

/-- The maps when the targets are mirrored. -/
def mirrorScale (m32 m64 : Fmt K) : Scale (FX m32) (FX m64) :=
  { g := fun x => -x, h := id, w := fun x => -x, n := id, b := id
    gD := fun x => -x, hD := id, wD := fun x => -x }

theorem mirrorScale_laws : (mirrorScale m32 m64).Laws where
  g_add := FX.neg_add'
  g_sub := FX.neg_sub'
  g_zero := FX.neg_zero'
  g_eq := FX.neg_feq_zero
  h_add _ _ := rfl
  h_sub _ _ := rfl
  h_zero := rfl
  h_eq _ := rfl
  n_add _ _ := rfl
  n_sub _ _ := rfl
  n_zero := rfl
  n_lt _ _ := rfl
  n_le _ := rfl
  n_tle _ _ := rfl
  n_nan _ := rfl
  n_ninf := rfl
  b_ninf := rfl
  b_inf := rfl
  w_mid x y := by
    show -((x + y) / _) = _
    rw [FX.neg_div', FX.neg_add']; rfl
  w_avg x a y b := by
    show -(_ / _) = _
    rw [FX.neg_div', FX.neg_add', FX.neg_mul', FX.neg_mul']; rfl
  up_g := FX.neg_up
  down_g := FX.neg_down
  gD_add := FX.neg_add'
  gD_zero := FX.neg_zero'
  up_h _ := rfl
  down_h _ := rfl
  hD_add _ _ := rfl
  hD_zero := rfl
  up_w := FX.neg_up
  down_w := FX.neg_down
  wD_add := FX.neg_add'
  wD_zero := FX.neg_zero'
  wD_avg x a y b z d := by
    show -(_ / _) = _
    rw [FX.neg_div', FX.neg_add', FX.neg_add', FX.neg_mul', FX.neg_mul', FX.neg_mul']; rfl

theorem l1Regularization_neg {l1 : FX m32} (h : (l1 <ᶠ 0) = false) (x : FX m32) :
    l1Regularization (-x) l1 = -l1Regularization x l1 := by
  unfold l1Regularization
  by_cases hz : (l1 =ᶠ 0) = true
  · rw [if_pos hz, if_pos hz]
  · rw [if_neg hz, if_neg hz, FX.neg_lt, FX.lt_neg']
    have hex : (l1 <ᶠ x) = true → (x <ᶠ -l1) = true → False := by
      intro h1 h2
      cases l1 <;> cases x <;> first
        | exact Bool.noConfusion h
        | exact Bool.noConfusion h1
        | exact Bool.noConfusion h2
        | (rename_i a b
           have h : ¬ a < 0 := of_decide_eq_false h
           have h1 : a < b := of_decide_eq_true h1
           have h2 : b < -a := of_decide_eq_true h2
           exact h (by linarith))
    have e1 : -x - l1 = -(x + l1) := by rw [FX.neg_add']; rfl
    have e2 : -x + l1 = -(x - l1) := by
      rw [FX.neg_sub']
      show _ = -x + - -l1
      rw [FX.neg_neg']
    rw [e1, e2]
    split
    · rename_i h2
      rw [if_neg fun h1 => hex h1 h2]
    · split
      · rfl
      · exact FX.neg_zero'.symm

theorem clamp_neg {mds : FX m32} (h : (mds <ᶠ 0) = false) (w : FX m32) :
    (if !(mds =ᶠ 0) && mds <ᶠ Fl.abs (-w) then Fl.copysign mds (-w) else -w) =
      -(if !(mds =ᶠ 0) && mds <ᶠ Fl.abs w then Fl.copysign mds w else w) := by
  rw [FX.neg_abs]
  split
  · rename_i hc
    rw [Bool.and_eq_true] at hc
    obtain ⟨_, hc⟩ := hc
    have hn : FX.isNeg (-w) = !FX.isNeg w := by
      cases w with
      | fin a =>
        show decide (-a < 0) = !decide (a < 0)
        rcases lt_trichotomy a 0 with ha | ha | ha
        · simp [ha, ha.le]
        · subst ha
          exfalso
          have : (mds <ᶠ (0 : FX m32)) = true := by
            rw [show Fl.abs (FX.fin (0 : K) : FX m32) = FX.fin |0| from rfl, abs_zero] at hc
            exact hc
          rw [h] at this
          cases this
        · simp [ha, ha.le]
      | nan => cases mds <;> cases hc
      | ninf => rfl
      | pinf => rfl
    show (if FX.isNeg (-w) then -(Fl.abs mds) else Fl.abs mds) = -(if FX.isNeg w then -(Fl.abs mds) else Fl.abs mds)
    rw [hn]
    cases FX.isNeg w
    · rfl
    · exact (FX.neg_neg' _).symm
  · rfl

/-- The parameters of the run with mirrored targets. -/
theorem mirrorScale_params {p : SplitParams (FX m32)} (h1 : (p.l1 <ᶠ 0) = false)
    (h2 : (p.maxDeltaStep <ᶠ 0) = false) (h3 : ∀ f, noConstraint (p.getConstraint f) = true) :
    p.Scaled (mirrorScale m32 m64) p where
  weight x y := by
    show weight _ _ _ (-x) y = -weight _ _ _ x y
    unfold weight
    rw [l1Regularization_neg h1]
    dsimp only
    rw [← FX.neg_div', clamp_neg h2]
  gainW x y z := by
    show gainGivenWeight _ (-x) y (-z) = gainGivenWeight _ x y z
    unfold gainGivenWeight
    rw [FX.neg_mul_neg', ← FX.mul_neg' (Fl.ofNat 2) x, FX.neg_mul_neg']
  gain x y := by
    show gain _ (-x) y = gain _ x y
    unfold gain
    rw [FX.neg_mul_neg']
  gamma := rfl
  minLeafWeight x := rfl
  learningRate := rfl
  scaled x := FX.neg_mul' _ _
  allow := rfl
  constraints := rfl
  ordered := .inl h3

theorem mirrorScale_goss {S : Sorter} (hS : S.Natural) : (mirrorScale m32 m64).Goss S where
  natural := hS
  abs x y := by
    show Fl.tle (Fl.abs (-x)) (Fl.abs (-y)) = _
    rw [FX.neg_abs, FX.neg_abs]
  g_mul := FX.neg_mul'
  h_mul _ _ := rfl

end

end Verif
