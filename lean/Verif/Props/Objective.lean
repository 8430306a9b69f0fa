import Verif.Props.StepLimit
import Verif.Spec.RealFmt
import Mathlib.Analysis.SpecialFunctions.Log.Deriv
import Mathlib.Analysis.SpecialFunctions.ExpDeriv

/-!
# C42 and C43: the objectives
-/

namespace Verif

open scoped Verif

set_option linter.unusedSectionVars false

/-! ### C43: derivatives -/

theorem logistic_real (x : ℝ) : logistic (FX.fin x : R) = FX.fin (1 / (1 + Real.exp (-x))) := by
  have h : (1 + Real.exp (-x)) ≠ 0 := by positivity
  unfold logistic
  rw [FX.neg_fin]
  show (1 / (1 + FX.ofRV (RV.fin (Real.exp (-x)))) : R) = _
  simp only [FX.ofRV, FX.one_def, FX.fin_add, FX.fin_div _ _ h]

theorem ln_real {x : ℝ} (h : 0 < x) : Fl.ln (FX.fin x : R) = FX.fin (Real.log x) := by
  show (if x < 0 then FX.nan else if x = 0 then FX.ninf else FX.ofRV (RV.fin (Real.log x)) : R) = _
  rw [if_neg (by linarith), if_neg (by linarith)]
  rfl

/-- The logistic function. -/
noncomputable def sig (x : ℝ) : ℝ := 1 / (1 + Real.exp (-x))

theorem sig_pos (x : ℝ) : 0 < sig x := by unfold sig; positivity

theorem sig_lt (x : ℝ) : sig x < 1 := by
  unfold sig
  rw [div_lt_one (by positivity)]
  linarith [Real.exp_pos (-x)]

theorem one_sub_sig (x : ℝ) : 1 - sig x = Real.exp (-x) / (1 + Real.exp (-x)) := by
  unfold sig
  have h : (1 + Real.exp (-x)) ≠ 0 := by positivity
  field_simp
  ring

theorem log_sig (x : ℝ) : Real.log (sig x) = -Real.log (1 + Real.exp (-x)) := by
  unfold sig
  rw [one_div, Real.log_inv]

theorem log_one_sub_sig (x : ℝ) : Real.log (1 - sig x) = -x - Real.log (1 + Real.exp (-x)) := by
  rw [one_sub_sig, Real.log_div (Real.exp_pos _).ne' (by positivity), Real.log_exp]

/-- The loss of one row, as a function of its raw prediction. -/
noncomputable def lossAt (o : ObjectiveType) (y w c : ℝ) : ℝ :=
  match o with
  | .logLoss => -(y * Real.log (sig c) + (1 - y) * Real.log (1 - sig c)) * w
  | .squaredLoss => (y - c) * (y - c) * w

theorem calcLoss_real (o : ObjectiveType) (y p w : List ℝ) (i : Nat) {yi pi wi : ℝ}
    (h1 : y[i]? = some yi) (h2 : p[i]? = some pi) (h3 : w[i]? = some wi) :
    (calcLoss (F := R) o (y.map FX.fin : List R) (p.map FX.fin) (w.map FX.fin))[i]? =
      some (FX.fin (lossAt o yi wi pi)) := by
  have hz : (zip3 (y.map FX.fin : List R) (p.map FX.fin) (w.map FX.fin))[i]? =
      some (FX.fin yi, FX.fin pi, FX.fin wi) := by
    simp [zip3, List.zip, List.getElem?_zipWith, h1, h2, h3]
  unfold calcLoss
  rw [List.getElem?_map, hz]
  cases o with
  | logLoss =>
    have e1 : logistic (FX.fin pi : R) = FX.fin (sig pi) := logistic_real pi
    have e2 : (0 : ℝ) < 1 - sig pi := by linarith [sig_lt pi]
    simp only [Option.map_some, logLossTerm, e1, ln_real (sig_pos pi), FX.one_def, FX.fin_sub,
      ln_real e2, FX.fin_mul, FX.fin_add, FX.neg_fin, FX.down_fin, lossAt]
  | squaredLoss =>
    simp only [Option.map_some, squaredLossTerm, FX.fin_sub, FX.fin_mul, FX.down_fin, lossAt]

theorem hasDerivAt_softplus (c : ℝ) :
    HasDerivAt (fun c => Real.log (1 + Real.exp (-c))) (-(1 - sig c)) c := by
  have h1 : HasDerivAt (fun c : ℝ => 1 + Real.exp (-c)) (-Real.exp (-c)) c := by
    have := ((hasDerivAt_neg c).exp).const_add 1
    simpa using this
  have h2 := h1.log (by positivity)
  rw [one_sub_sig]
  convert h2 using 1
  ring

theorem hasDerivAt_sig (c : ℝ) : HasDerivAt sig (sig c * (1 - sig c)) c := by
  have h1 : HasDerivAt (fun c : ℝ => 1 + Real.exp (-c)) (-Real.exp (-c)) c := by
    have := ((hasDerivAt_neg c).exp).const_add 1
    simpa using this
  have h2 := h1.fun_inv (by positivity)
  have e : sig = fun c => (1 + Real.exp (-c))⁻¹ := by
    funext c; unfold sig; rw [one_div]
  have h : (1 + Real.exp (-c)) ≠ 0 := by positivity
  have e2 : sig c * (1 - sig c) = -(-Real.exp (-c)) / (1 + Real.exp (-c)) ^ 2 := by
    rw [one_sub_sig, sig]
    field_simp
  rw [e2, e]
  exact h2

theorem lossAt_logLoss (y w c : ℝ) :
    lossAt .logLoss y w c = (Real.log (1 + Real.exp (-c)) + (1 - y) * c) * w := by
  simp only [lossAt, log_sig, log_one_sub_sig]
  ring

theorem hasDerivAt_logLoss (y w c : ℝ) : HasDerivAt (lossAt .logLoss y w) ((sig c - y) * w) c := by
  have e : lossAt .logLoss y w = fun c => (Real.log (1 + Real.exp (-c)) + (1 - y) * c) * w := by
    funext c; exact lossAt_logLoss y w c
  rw [e]
  have h := ((hasDerivAt_softplus c).fun_add ((hasDerivAt_id c).const_mul (1 - y))).mul_const w
  exact h.congr_deriv (by ring)

theorem hasDerivAt_squared (y w c : ℝ) :
    HasDerivAt (fun c => lossAt .squaredLoss y w c / 2) ((c - y) * w) c := by
  have h1 : HasDerivAt (fun c : ℝ => y - c) (-1) c := by
    simpa using (hasDerivAt_id c).const_sub y
  have h := ((h1.fun_mul h1).mul_const w).div_const 2
  simp only [lossAt]
  exact h.congr_deriv (by ring)

/-- How often the loss whose derivatives the code uses goes into the loss it reports. -/
def lossScale : ObjectiveType → ℝ
  | .logLoss => 1
  | .squaredLoss => 2

/-- **C43.**  Let `L` be the loss of row `i` as a function of its raw prediction, as computed by
`calc_loss` (half of it for SquaredLoss).  The gradient and the hessian that `calc_grad_hess` computes
for row `i` are the first and the second derivative of `L` at the prediction, and the hessian is not
negative when the weight is not. -/
theorem C43_derivatives (o : ObjectiveType) (y p w : List ℝ) (i : Nat) {yi pi wi : ℝ}
    (h1 : y[i]? = some yi) (h2 : p[i]? = some pi) (h3 : w[i]? = some wi) :
    ∃ (L : ℝ → ℝ) (g h : ℝ),
      (∀ c, (calcLoss (F := R) o (y.map FX.fin : List R) ((p.set i c).map FX.fin) (w.map FX.fin))[i]? =
        some (FX.fin (lossScale o * L c))) ∧
      (calcGradHess (F := R) o (y.map FX.fin : List R) (p.map FX.fin) (w.map FX.fin)).1[i]? =
        some (FX.fin g) ∧
      (calcGradHess (F := R) o (y.map FX.fin : List R) (p.map FX.fin) (w.map FX.fin)).2[i]? =
        some (FX.fin h) ∧
      HasDerivAt L g pi ∧ HasDerivAt (deriv L) h pi ∧ (0 ≤ wi → 0 ≤ h) := by
  have hset : ∀ c : ℝ, (p.set i c)[i]? = some c := by
    intro c
    rw [List.getElem?_set_self (List.getElem?_eq_some_iff.1 h2).1]
  obtain ⟨g1, g2⟩ := calcGradHess_get (F := R) o (y.map FX.fin : List R) (p.map FX.fin) (w.map FX.fin) i
    (by rw [List.getElem?_map, h1]; rfl) (by rw [List.getElem?_map, h2]; rfl)
    (by rw [List.getElem?_map, h3]; rfl)
  cases o with
  | logLoss =>
    refine ⟨lossAt .logLoss yi wi, (sig pi - yi) * wi, sig pi * (1 - sig pi) * wi, fun c => ?_, ?_, ?_,
      hasDerivAt_logLoss _ _ _, ?_, fun h => ?_⟩
    · rw [calcLoss_real _ _ _ _ i h1 (hset c) h3, lossScale, one_mul]
    · rw [g1]
      have e1 : logistic (FX.fin pi : R) = FX.fin (sig pi) := logistic_real pi
      simp only [ObjectiveType.gradOf, logLossGrad, e1, FX.fin_sub, FX.fin_mul, FX.down_fin]
    · rw [g2]
      have e1 : logistic (FX.fin pi : R) = FX.fin (sig pi) := logistic_real pi
      simp only [ObjectiveType.hessOf, logLossHess, e1, FX.one_def, FX.fin_sub, FX.fin_mul, FX.down_fin]
    · have e : deriv (lossAt .logLoss yi wi) = fun c => (sig c - yi) * wi := by
        funext c; exact (hasDerivAt_logLoss yi wi c).deriv
      rw [e]
      exact ((hasDerivAt_sig pi).sub_const yi).mul_const wi
    · have := sig_pos pi
      have : 0 < 1 - sig pi := by linarith [sig_lt pi]
      positivity
  | squaredLoss =>
    refine ⟨fun c => lossAt .squaredLoss yi wi c / 2, (pi - yi) * wi, wi, fun c => ?_, ?_, ?_,
      hasDerivAt_squared _ _ _, ?_, id⟩
    · rw [calcLoss_real _ _ _ _ i h1 (hset c) h3, lossScale]
      congr 2; ring
    · rw [g1]
      simp only [ObjectiveType.gradOf, squaredLossGrad, FX.fin_sub, FX.fin_mul, FX.down_fin]
    · rw [g2]
      simp only [ObjectiveType.hessOf, squaredLossHess, FX.down_fin]
    · have e : deriv (fun c => lossAt .squaredLoss yi wi c / 2) = fun c => (c - yi) * wi := by
        funext c; exact (hasDerivAt_squared yi wi c).deriv
      rw [e]
      have := ((hasDerivAt_id pi).sub_const yi).mul_const wi
      simpa using this

/-- A row with label 1, raw prediction 0 and weight 1: the gradient is -1/2 and the hessian 1/4. -/
example : ∃ (L : ℝ → ℝ), HasDerivAt L (-1 / 2) 0 ∧ HasDerivAt (deriv L) (1 / 4) 0 ∧
    ∀ c, (calcLoss (F := R) (D := R) .logLoss [FX.fin 0, FX.fin 1] [FX.fin 5, FX.fin c] [FX.fin 3, FX.fin 1])[1]? =
      some (FX.fin (L c)) := by
  obtain ⟨L, g, h, e1, e2, e3, e4, e5, _⟩ := C43_derivatives .logLoss [0, 1] [5, 0] [3, 1] 1 rfl rfl rfl
  have hz : logistic (FX.fin 0 : R) = FX.fin (1 / 2) := by
    rw [logistic_real]
    norm_num
  have hg : g = -1 / 2 := by
    have : some (FX.fin ((1 / 2 - 1) * 1) : R) = some (FX.fin g) := by
      rw [← e2]
      simp only [calcGradHess, zip3, logLossGrad, List.map_cons, List.map_nil, List.zip_cons_cons,
        List.unzip_cons, List.zip_nil_right, List.unzip_nil, List.getElem?_cons_succ,
        List.getElem?_cons_zero, hz, FX.fin_sub, FX.fin_mul, FX.down_fin]
    have := FX.fin.inj (Option.some.inj this)
    linarith
  have hh : h = 1 / 4 := by
    have : some (FX.fin (1 / 2 * (1 - 1 / 2) * 1) : R) = some (FX.fin h) := by
      rw [← e3]
      simp only [calcGradHess, zip3, logLossHess, List.map_cons, List.map_nil, List.zip_cons_cons,
        List.unzip_cons, List.zip_nil_right, List.unzip_nil, List.getElem?_cons_succ,
        List.getElem?_cons_zero, hz, FX.one_def, FX.fin_sub, FX.fin_mul, FX.down_fin]
    have := FX.fin.inj (Option.some.inj this)
    linarith
  subst hg hh
  refine ⟨L, e4, e5, fun c => ?_⟩
  rw [← one_mul (L c)]
  exact e1 c

/-! ### C42: the base score -/

section
variable {K : Type} [Field K] [LinearOrder K] [IsStrictOrderedRing K] {m32 m64 : Fmt K}
  [m32.Exact] [m64.Exact]

/-- `Σ wᵢ yᵢ`. -/
def weightedSum (y w : List K) : K := (List.zipWith (fun a b => b * a) y w).sum

theorem initSums_fin (y w : List K) (h : w.length = y.length) :
    initSums (y.map FX.fin : List (FX m64)) (w.map FX.fin) =
      .ok (FX.fin (weightedSum y w), FX.fin w.sum) := by
  suffices H : ∀ (pre : List K) (y w : List K) (s t : K), w.length = y.length →
      Res.foldM' (fun (s : FX m64 × FX m64) (p : FX m64 × Nat) => do
        let wi ← idx ((pre ++ w).map FX.fin) p.2
        .ok (s.1 + wi * p.1, s.2 + wi)) (FX.fin s, FX.fin t) ((y.map FX.fin).zipIdx pre.length) =
        .ok (FX.fin (s + weightedSum y w), FX.fin (t + w.sum)) by
    have := H [] y w 0 0 h
    simpa [initSums, FX.zero_def] using this
  intro pre y
  induction y generalizing pre with
  | nil =>
    intro w s t hw
    have : w = [] := List.length_eq_zero_iff.1 hw
    subst this
    simp [weightedSum]
  | cons a y ih =>
    intro w s t hw
    cases w with
    | nil => simp at hw
    | cons b w =>
      have hi : idx ((pre ++ b :: w).map (FX.fin : K → FX m64)) pre.length = .ok (FX.fin b) := by
        rw [idx_eq_ok]
        simp
      have := ih (pre ++ [b]) w (s + b * a) (t + b) (by simpa using hw)
      simp only [List.append_assoc, List.singleton_append, List.length_append, List.length_singleton] at this
      simp only [List.map_cons, List.zipIdx_cons, Res.foldM'_cons, hi, Res.ok_bind, FX.fin_mul, FX.fin_add]
      rw [this]
      simp [weightedSum, add_assoc]

/-- **C42** (SquaredLoss).  The base score of a fit with `initialize_base_score` is the weighted mean of
the targets; the gradients at it, from which the first tree is grown, add up to 0; and no constant
prediction has a smaller weighted squared error. -/
theorem C42_mean {R' : Type} {env : Env R' (FX m32) (FX m64)} {b b' : Booster (FX m32) (FX m64)}
    {X : Matrix (FX m64)} {y w : List K} {ev : Option (List (EvalSet (FX m64)))}
    (h : b.fit env X (y.map FX.fin) (w.map FX.fin) ev = .ok (b', .ok ()))
    (hi : b.initializeBaseScore = true) (ho : b.objectiveType = .squaredLoss)
    (hl : w.length = y.length) (hs : 0 < w.sum) :
    ∃ (base : K) (g : List K), b'.baseScore = FX.fin base ∧
      base = (List.zipWith (· * ·) w y).sum / w.sum ∧
      (calcGradHess (F := FX m32) b.objectiveType (y.map FX.fin : List (FX m64))
        (List.replicate y.length b'.baseScore) (w.map FX.fin)).1 = g.map FX.fin ∧ g.sum = 0 ∧
      ∀ c, (List.zipWith (fun w y => w * (y - base) ^ 2) w y).sum ≤
        (List.zipWith (fun w y => w * (y - c) ^ 2) w y).sum := by
  obtain ⟨base, binned, st, stop, N, hT⟩ := Booster.fit_trace h
  have hb := hT.base_eq
  rw [if_pos hi, ho] at hb
  unfold calcInit at hb
  rw [initSums_fin y w hl, Res.ok_bind] at hb
  simp only [FX.fin_div _ _ hs.ne', Res.ok.injEq] at hb
  have hf := hT.final
  unfold Booster.SameParams at hf
  have hz : (List.zipWith (· * ·) w y).sum = weightedSum y w := by
    unfold weightedSum
    rw [List.zipWith_comm]
  have hgen : ∀ c : K, ∃ g : List K, (calcGradHess (F := FX m32) .squaredLoss (y.map FX.fin : List (FX m64))
        (List.replicate y.length (FX.fin c)) (w.map FX.fin)).1 = g.map FX.fin ∧
        g.sum = c * w.sum - weightedSum y w := by
    intro c
    clear hT h hs hb hf hz
    induction y generalizing w with
    | nil =>
      have : w = [] := List.length_eq_zero_iff.1 hl
      subst this
      exact ⟨[], rfl, by simp [weightedSum]⟩
    | cons a y ih =>
      cases w with
      | nil => simp at hl
      | cons x w =>
        obtain ⟨g, e1, e2⟩ := ih (w := w) (by simpa using hl)
        refine ⟨(c - a) * x :: g, ?_, ?_⟩
        · have : (calcGradHess (F := FX m32) .squaredLoss ((a :: y).map FX.fin : List (FX m64))
              (List.replicate (a :: y).length (FX.fin c)) ((x :: w).map FX.fin)).1 =
              FX.fin ((c - a) * x) :: (calcGradHess (F := FX m32) .squaredLoss (y.map FX.fin : List (FX m64))
              (List.replicate y.length (FX.fin c)) (w.map FX.fin)).1 := by
            simp only [calcGradHess, zip3, squaredLossGrad, List.map_cons, List.length_cons,
              List.replicate_succ, List.zip_cons_cons, List.unzip_cons, FX.fin_sub, FX.fin_mul, FX.down_fin]
          rw [this, e1]; rfl
        · rw [List.sum_cons, e2]
          simp only [weightedSum, List.zipWith_cons_cons, List.sum_cons]
          ring
  obtain ⟨g, e1, e2⟩ := hgen (weightedSum y w / w.sum)
  have hbase : b'.baseScore = FX.fin (weightedSum y w / w.sum) := by rw [hf]; exact hb.symm
  refine ⟨weightedSum y w / w.sum, g, hbase, by rw [hz], by rw [ho, hbase]; exact e1, ?_, fun c => ?_⟩
  · rw [e2, div_mul_cancel₀ _ hs.ne', sub_self]
  · have hexp : ∀ c : K, (List.zipWith (fun w y => w * (y - c) ^ 2) w y).sum =
        (List.zipWith (fun w y => w * y ^ 2) w y).sum - 2 * c * weightedSum y w + c ^ 2 * w.sum := by
      intro c
      clear hT h hs hb hf hz hbase hgen e1 e2
      induction y generalizing w with
      | nil =>
        have : w = [] := List.length_eq_zero_iff.1 hl
        subst this
        simp [weightedSum]
      | cons a y ih =>
        cases w with
        | nil => simp at hl
        | cons x w =>
          have := ih (w := w) (by simpa using hl)
          simp only [weightedSum, List.zipWith_cons_cons, List.sum_cons] at this ⊢
          rw [this]
          ring
    rw [hexp, hexp]
    have hsq : 0 ≤ w.sum * (c - weightedSum y w / w.sum) ^ 2 := by positivity
    have hne := hs.ne'
    have e : weightedSum y w = (weightedSum y w / w.sum) * w.sum := by rw [div_mul_cancel₀ _ hne]
    generalize weightedSum y w / w.sum = q at *
    rw [e]
    nlinarith [hsq]

end

/-- **C42** (LogLoss).  With labels and weights for which the weighted sum of the labels lies strictly
between 0 and the total weight, the base score of a fit with `initialize_base_score` is the log odds of
the weighted mean; the gradients at it, from which the first tree is grown, add up to 0; and no constant
raw prediction has a smaller total loss. -/
theorem C42_log_odds {R' : Type} {env : Env R' R R} {b b' : Booster R R}
    {X : Matrix R} {y w : List ℝ} {ev : Option (List (EvalSet R))}
    (h : b.fit env X (y.map FX.fin) (w.map FX.fin) ev = .ok (b', .ok ()))
    (hi : b.initializeBaseScore = true) (ho : b.objectiveType = .logLoss)
    (hl : w.length = y.length) {S : ℝ} (hS : S = (List.zipWith (· * ·) w y).sum)
    (h0 : 0 < S) (h1 : S < w.sum) :
    ∃ (base : ℝ) (g : List ℝ), b'.baseScore = FX.fin base ∧
      base = Real.log ((S / w.sum) / (1 - S / w.sum)) ∧
      (calcGradHess (F := R) b.objectiveType (y.map FX.fin : List R)
        (List.replicate y.length b'.baseScore) (w.map FX.fin)).1 = g.map FX.fin ∧ g.sum = 0 ∧
      ∀ c, ∃ L L' : List ℝ,
        calcLoss (F := R) b.objectiveType (y.map FX.fin : List R) (List.replicate y.length b'.baseScore)
          (w.map FX.fin) = L.map FX.fin ∧
        calcLoss (F := R) b.objectiveType (y.map FX.fin : List R) (List.replicate y.length (FX.fin c))
          (w.map FX.fin) = L'.map FX.fin ∧ L.sum ≤ L'.sum := by
  obtain ⟨base, binned, st, stop, N, hT⟩ := Booster.fit_trace h
  have hb := hT.base_eq
  rw [if_pos hi, ho] at hb
  have hSw : S = weightedSum y w := by
    rw [hS]
    unfold weightedSum
    rw [List.zipWith_comm]
  unfold calcInit at hb
  rw [initSums_fin y w hl, Res.ok_bind, ← hSw] at hb
  have hpos : 0 < S / (w.sum - S) := div_pos h0 (by linarith)
  simp only [FX.fin_sub, FX.fin_div _ _ (sub_pos.2 h1).ne', ln_real hpos, Res.ok.injEq] at hb
  have hf := hT.final
  unfold Booster.SameParams at hf
  have hbase : b'.baseScore = FX.fin (Real.log (S / (w.sum - S))) := by rw [hf]; exact hb.symm
  have hW : 0 < w.sum := by linarith
  have hodds : (S / w.sum) / (1 - S / w.sum) = S / (w.sum - S) := by
    have h2 : w.sum - S ≠ 0 := by linarith
    have h3 : 1 - S / w.sum ≠ 0 := by
      rw [Ne, sub_eq_zero, eq_comm, div_eq_one_iff_eq hW.ne']
      linarith
    field_simp
  have hsig : sig (Real.log (S / (w.sum - S))) = S / w.sum := by
    unfold sig
    rw [Real.exp_neg, Real.exp_log hpos, inv_div]
    have h2 : 1 + (w.sum - S) / S = w.sum / S := by field_simp; ring
    rw [h2, one_div_div]
  have hgrad : ∀ c : ℝ, ∃ g : List ℝ, (calcGradHess (F := R) .logLoss (y.map FX.fin : List R)
        (List.replicate y.length (FX.fin c)) (w.map FX.fin)).1 = g.map FX.fin ∧
        g.sum = sig c * w.sum - weightedSum y w := by
    intro c
    have e1 : logistic (FX.fin c : R) = FX.fin (sig c) := logistic_real c
    clear hT h hb hf hS h0 h1 hSw hpos hbase hW hodds hsig
    induction y generalizing w with
    | nil =>
      have : w = [] := List.length_eq_zero_iff.1 hl
      subst this
      exact ⟨[], rfl, by simp [weightedSum]⟩
    | cons a y ih =>
      cases w with
      | nil => simp at hl
      | cons x w =>
        obtain ⟨g, e2, e3⟩ := ih (w := w) (by simpa using hl)
        refine ⟨(sig c - a) * x :: g, ?_, ?_⟩
        · have : (calcGradHess (F := R) .logLoss ((a :: y).map FX.fin : List R)
              (List.replicate (a :: y).length (FX.fin c)) ((x :: w).map FX.fin)).1 =
              FX.fin ((sig c - a) * x) :: (calcGradHess (F := R) .logLoss (y.map FX.fin : List R)
              (List.replicate y.length (FX.fin c)) (w.map FX.fin)).1 := by
            simp only [calcGradHess, zip3, logLossGrad, List.map_cons, List.length_cons, e1,
              List.replicate_succ, List.zip_cons_cons, List.unzip_cons, FX.fin_sub, FX.fin_mul, FX.down_fin]
          rw [this, e2]; rfl
        · rw [List.sum_cons, e3]
          simp only [weightedSum, List.zipWith_cons_cons, List.sum_cons]
          ring
  have hloss : ∀ c : ℝ, ∃ L : List ℝ, calcLoss (F := R) .logLoss (y.map FX.fin : List R)
        (List.replicate y.length (FX.fin c)) (w.map FX.fin) = L.map FX.fin ∧
        L.sum = -(weightedSum y w * Real.log (sig c) + (w.sum - weightedSum y w) * Real.log (1 - sig c)) := by
    intro c
    have e1 : logistic (FX.fin c : R) = FX.fin (sig c) := logistic_real c
    have e2 : (0 : ℝ) < 1 - sig c := by linarith [sig_lt c]
    clear hT h hb hf hS h0 h1 hSw hpos hbase hW hodds hsig hgrad
    induction y generalizing w with
    | nil =>
      have : w = [] := List.length_eq_zero_iff.1 hl
      subst this
      exact ⟨[], rfl, by simp [weightedSum]⟩
    | cons a y ih =>
      cases w with
      | nil => simp at hl
      | cons x w =>
        obtain ⟨g, e3, e4⟩ := ih (w := w) (by simpa using hl)
        refine ⟨lossAt .logLoss a x c :: g, ?_, ?_⟩
        · have : calcLoss (F := R) .logLoss ((a :: y).map FX.fin : List R)
              (List.replicate (a :: y).length (FX.fin c)) ((x :: w).map FX.fin) =
              FX.fin (lossAt .logLoss a x c) :: calcLoss (F := R) .logLoss (y.map FX.fin : List R)
              (List.replicate y.length (FX.fin c)) (w.map FX.fin) := by
            simp only [calcLoss, zip3, logLossTerm, List.map_cons, List.length_cons, e1,
              List.replicate_succ, List.zip_cons_cons, ln_real (sig_pos c), FX.one_def, FX.fin_sub,
              ln_real e2, FX.fin_mul, FX.fin_add, FX.neg_fin, FX.down_fin, lossAt]
          rw [this, e3]; rfl
        · rw [List.sum_cons, e4]
          simp only [weightedSum, List.zipWith_cons_cons, List.sum_cons, lossAt]
          ring
  obtain ⟨g, e1, e2⟩ := hgrad (Real.log (S / (w.sum - S)))
  refine ⟨Real.log (S / (w.sum - S)), g, hbase, by rw [hodds], by rw [ho, hbase]; exact e1, ?_,
    fun c => ?_⟩
  · rw [e2, hsig, div_mul_cancel₀ _ hW.ne', hSw, sub_self]
  · obtain ⟨L, f1, f2⟩ := hloss (Real.log (S / (w.sum - S)))
    obtain ⟨L', f3, f4⟩ := hloss c
    refine ⟨L, L', by rw [ho, hbase]; exact f1, by rw [ho]; exact f3, ?_⟩
    rw [f2, f4, hsig, ← hSw]
    -- Gibbs' inequality
    have hp : 0 < S / w.sum := div_pos h0 hW
    have hp' : 0 < 1 - S / w.sum := by
      rw [sub_pos, div_lt_one hW]; exact h1
    have g1 : Real.log (sig c) - Real.log (S / w.sum) ≤ sig c / (S / w.sum) - 1 := by
      rw [← Real.log_div (sig_pos c).ne' hp.ne']
      exact Real.log_le_sub_one_of_pos (div_pos (sig_pos c) hp)
    have g2 : Real.log (1 - sig c) - Real.log (1 - S / w.sum) ≤ (1 - sig c) / (1 - S / w.sum) - 1 := by
      have : 0 < 1 - sig c := by linarith [sig_lt c]
      rw [← Real.log_div this.ne' hp'.ne']
      exact Real.log_le_sub_one_of_pos (div_pos this hp')
    have g3 := mul_le_mul_of_nonneg_left g1 h0.le
    have g4 := mul_le_mul_of_nonneg_left g2 (sub_pos.2 h1).le
    have g5 : S * (sig c / (S / w.sum) - 1) + (w.sum - S) * ((1 - sig c) / (1 - S / w.sum) - 1) = 0 := by
      have h3 : w.sum - S ≠ 0 := by linarith
      have h4 : 1 - S / w.sum = (w.sum - S) / w.sum := by field_simp
      rw [h4]
      field_simp
      ring
    nlinarith [g3, g4, g5]

/-- The hypotheses of `C42_mean` are met: targets 0, 0, 1, 3, 3, 5 with unit weights give 2. -/
example : ∃ b', { exFresh with initializeBaseScore := true }.fit exEnv exX exY exW none =
    .ok (b', .ok ()) ∧ b'.baseScore = q 2 ∧ b'.trees ≠ [] := by
  have : (match { exFresh with initializeBaseScore := true }.fit exEnv exX exY exW none with
    | .ok (b', .ok ()) => decide (b'.baseScore = q 2 ∧ b'.trees ≠ [])
    | _ => false) = true := by decide +kernel
  split at this
  · rename_i b' h
    exact ⟨b', h, of_decide_eq_true this⟩
  · cases this

/-- The hypotheses of `C42_log_odds` are met: labels 0 and 1 with weights 1 and 3 give the log odds of
3/4 (here for data without features and no trees). -/
example {R' : Type} (env : Env R' R R) (b : Booster R R) (hi : b.initializeBaseScore = true)
    (ho : b.objectiveType = .logLoss) (ht : b.trees = []) (hn : b.iterations = 0) :
    ∃ b', b.fit env { data := [], rows := 2, cols := 0 } ([0, 1].map FX.fin) ([1, 3].map FX.fin) none =
      .ok (b', .ok ()) ∧ b'.baseScore = FX.fin (Real.log 3) := by
  have hfit : ∃ b', b.fit env { data := [], rows := 2, cols := 0 } ([0, 1].map FX.fin)
      ([1, 3].map FX.fin) none = .ok (b', .ok ()) := by
    have hv : validateFit ([0, 1].map FX.fin : List R) ([1, 3].map FX.fin) none = .ok () := by
      rw [validateFit_ok]
      simp [BadInput, BadY, BadW, FX.zero_def]
    unfold Booster.fit
    rw [hv]
    have hc : ∀ o, ∃ s, calcInit o ([0, 1].map FX.fin : List R) ([1, 3].map FX.fin) = .ok s := by
      intro o
      unfold calcInit
      rw [initSums_fin [0, 1] [1, 3] rfl]
      cases o <;> exact ⟨_, rfl⟩
    obtain ⟨s, hs⟩ := hc b.objectiveType
    refine ⟨{ b with baseScore := s }, ?_⟩
    simp only [fitTrees, ht, List.isEmpty_nil, if_true, hi, hs, Res.ok_bind, Res.pure_def]
    rw [hn]
    rfl
  obtain ⟨b', h⟩ := hfit
  refine ⟨b', h, ?_⟩
  obtain ⟨base, g, h1, h2, _⟩ := C42_log_odds (y := [0, 1]) (w := [1, 3]) h hi ho rfl rfl
    (by norm_num) (by norm_num)
  rw [h1, h2]
  norm_num

end Verif
