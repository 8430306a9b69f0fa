import Verif.Props.Mirror
import Verif.Props.Objective
import Verif.Props.Total

/-!
# C85: swapped labels

With logistic loss it does not matter which class is called 1: swapping the labels negates the model, and the
predicted probabilities are complementary.
-/

namespace Verif

open scoped Verif

set_option linter.unusedSectionVars false

namespace R

theorem logistic_neg (x : R) : logistic (-x) = 1 - logistic x := by
  cases x with
  | fin a =>
    show logistic (FX.fin (-a) : R) = _
    rw [logistic_real, logistic_real]
    show _ = (FX.fin 1 : R) - FX.fin _
    rw [FX.fin_sub, neg_neg]
    congr 1
    have h1 : (1 + Real.exp a) ≠ 0 := by positivity
    have h2 : (1 + Real.exp (-a)) ≠ 0 := by positivity
    have h3 : Real.exp a * Real.exp (-a) = 1 := by rw [← Real.exp_add]; simp
    rw [eq_sub_iff_add_eq, div_add_div _ _ h1 h2, div_eq_one_iff_eq (mul_ne_zero h1 h2)]
    nlinarith
  | nan => rfl
  | ninf =>
    show (FX.fin 1 / (FX.fin 1 + FX.fin 0) : R) = FX.fin 1 - FX.fin 0
    rw [FX.fin_add, FX.fin_sub, FX.fin_div _ _ (by norm_num)]
    norm_num
  | pinf =>
    show (FX.fin 0 : R) = FX.fin 1 - (FX.fin 1 / (FX.fin 1 + FX.fin 0))
    rw [FX.fin_add, FX.fin_div _ _ (by norm_num), FX.fin_sub]
    norm_num

theorem one_sub_one_sub (x : R) : 1 - (1 - x) = x := by
  cases x with
  | fin a =>
    show (FX.fin 1 : R) - (FX.fin 1 - FX.fin a) = _
    rw [FX.fin_sub, FX.fin_sub]
    congr 1; ring
  | nan => rfl
  | ninf => rfl
  | pinf => rfl

theorem sub_swap (x y : R) : (1 - x) - (1 - y) = -(x - y) := by
  cases x <;> cases y <;> first
    | rfl
    | (rename_i a b
       show (FX.fin 1 - FX.fin a) - (FX.fin 1 - FX.fin b) = -(FX.fin a - FX.fin b : R)
       rw [FX.fin_sub, FX.fin_sub, FX.fin_sub, FX.fin_sub, FX.neg_fin]
       congr 1; ring)

theorem isNaN_swap (x : R) : isNaN (1 - x) = isNaN x := by
  cases x with
  | fin a =>
    show isNaN ((FX.fin 1 : R) - FX.fin a) = _
    rw [FX.fin_sub]; rfl
  | nan => rfl
  | ninf => rfl
  | pinf => rfl

theorem add_comm' (x y : R) : x + y = y + x := by
  cases x <;> cases y <;> first
    | rfl
    | (rw [FX.fin_add, FX.fin_add, add_comm])

theorem div_zero' (a : ℝ) : (FX.fin a / FX.fin 0 : R) = FX.sinf a := by
  show FX.div (FX.fin a) (FX.fin 0) = _
  simp only [FX.div, if_true]

theorem ln_zero : Fl.ln (FX.fin 0 : R) = FX.ninf := by
  show (if (0 : ℝ) < 0 then FX.nan else if (0 : ℝ) = 0 then FX.ninf else _ : R) = _
  rw [if_neg (lt_irrefl _), if_pos rfl]

theorem ln_inv {a b : ℝ} (ha : 0 ≤ a) (hb : 0 ≤ b) :
    Fl.ln (FX.fin b / FX.fin a : R) = -Fl.ln (FX.fin a / FX.fin b : R) := by
  have hs : ∀ c : ℝ, 0 < c → (FX.sinf c : R) = FX.pinf := fun c hc => by unfold FX.sinf; rw [if_pos hc]
  rcases eq_or_lt_of_le ha with h1 | h1 <;> rcases eq_or_lt_of_le hb with h2 | h2
  · subst h1; subst h2
    have : (FX.sinf 0 : R) = FX.nan := by unfold FX.sinf; rw [if_neg (lt_irrefl _), if_neg (lt_irrefl _)]
    rw [div_zero', this]
    rfl
  · subst h1
    rw [div_zero', FX.fin_div _ _ h2.ne', zero_div, ln_zero, hs b h2]
    rfl
  · subst h2
    rw [div_zero', FX.fin_div _ _ h1.ne', zero_div, ln_zero, hs a h1]
    rfl
  · rw [FX.fin_div _ _ h1.ne', FX.fin_div _ _ h2.ne', ln_real (div_pos h2 h1), ln_real (div_pos h1 h2),
      FX.neg_fin, ← Real.log_inv, inv_div]

end R

/-- The maps of targets, weights and metrics for swapped labels. -/
noncomputable def swapData : DataMap R := { y := fun x => 1 - x, w := id, m := id }

theorem logLoss_swap (y p w : List R) :
    logLossMetric (y.map fun x => 1 - x) (p.map fun x => -x) w = logLossMetric y p w := by
  unfold logLossMetric
  have := weightedTerms_maps (f := fun x : R => 1 - x) (g := fun x => -x) (h := id) (φ := id) (ψ := id)
    (term := logLossTerm) (fun y p w => by
      show logLossTerm (1 - y) (-p) w = logLossTerm y p w
      unfold logLossTerm
      dsimp only
      rw [R.logistic_neg, R.one_sub_one_sub, R.one_sub_one_sub, R.add_comm']) (fun _ _ => rfl) rfl (fun _ _ => rfl)
      rfl (fun _ _ => rfl) y p w
  rwa [List.map_id] at this

theorem weightedSum_swap : ∀ y w : List ℝ, w.length = y.length →
    weightedSum (y.map (1 - ·)) w = w.sum - weightedSum y w
  | [], [], _ => by simp [weightedSum]
  | [], _ :: _, h => by simp at h
  | _ :: _, [], h => by simp at h
  | a :: y, b :: w, h => by
    have ih := weightedSum_swap y w (by simpa using h)
    simp only [weightedSum, List.map_cons, List.zipWith_cons_cons, List.sum_cons] at ih ⊢
    rw [ih]; ring

theorem weightedSum_bounds : ∀ y w : List ℝ, w.length = y.length → (∀ a ∈ y, 0 ≤ a ∧ a ≤ 1) → (∀ b ∈ w, 0 ≤ b) →
    0 ≤ weightedSum y w ∧ weightedSum y w ≤ w.sum
  | [], [], _, _, _ => by simp [weightedSum]
  | [], _ :: _, h, _, _ => by simp at h
  | _ :: _, [], h, _, _ => by simp at h
  | a :: y, b :: w, h, hy, hw => by
    have ih := weightedSum_bounds y w (by simpa using h) (fun x hx => hy x (List.mem_cons_of_mem _ hx))
      fun x hx => hw x (List.mem_cons_of_mem _ hx)
    have h1 := hy a List.mem_cons_self
    have h2 := hw b List.mem_cons_self
    simp only [weightedSum, List.zipWith_cons_cons, List.sum_cons] at ih ⊢
    constructor <;> nlinarith

theorem calcInit_swap {y w : List ℝ} (h : w.length = y.length) (hy : ∀ a ∈ y, 0 ≤ a ∧ a ≤ 1) (hw : ∀ b ∈ w, 0 ≤ b) :
    calcInit .logLoss ((y.map (1 - ·)).map (FX.fin : ℝ → R)) (w.map FX.fin) =
      (fun x => -x) <$> calcInit .logLoss (y.map (FX.fin : ℝ → R)) (w.map FX.fin) := by
  unfold calcInit
  obtain ⟨h1, h2⟩ := weightedSum_bounds y w h hy hw
  rw [initSums_fin _ _ (by simpa using h), initSums_fin _ _ h, weightedSum_swap y w h]
  show Res.ok (Fl.ln ((FX.fin _ : R) / (FX.fin _ - FX.fin _))) = Res.ok (-(Fl.ln ((FX.fin _ : R) / (FX.fin _ - FX.fin _))))
  rw [FX.fin_sub, FX.fin_sub, sub_sub_cancel, R.ln_inv h1 (by linarith)]

/-- **C85**.  With real arithmetic and logistic loss: swapping the labels 0 and 1 (also those of the evaluation
sets; a target `y` becomes `1 - y`) and negating the given base score negates the fitted base score and every node
value and changes nothing else: splits, gains, covers, evaluation history, best iteration and any error or panic
are the same.  There are no monotone constraints, children are not forced to bound the parent, `l1` and
`max_delta_step` are not negative, evaluation sets are absent or the metric is the log loss, and if the base
score is initialised there is a weight for every target, the targets lie between 0 and 1 and the weights are not
negative. -/
theorem C85_fit {R' : Type} {env : Env R' R R} (henv : env.Comparing)
    {b : Booster R R} {X : Matrix R} {y w : List ℝ} {ev : Option (List (EvalSet R))}
    (ho : b.objectiveType = .logLoss) (hl1 : (b.l1 <ᶠ 0) = false) (hmds : (b.maxDeltaStep <ᶠ 0) = false)
    (hmono : ∀ f c, (f, c) ∈ b.monotoneConstraints.getD [] → c = .unconstrained)
    (hforce : b.createMissingBranch = true → b.forceChildrenToBoundParent = false)
    (hm : ev = none ∨ b.metric = .logLoss)
    (hinit : b.initializeBaseScore = true →
      w.length = y.length ∧ (∀ a ∈ y, 0 ≤ a ∧ a ≤ 1) ∧ (∀ b ∈ w, 0 ≤ b)) :
    b.mirrored.fit env X ((y.map (1 - ·)).map FX.fin) (w.map FX.fin)
        (ev.map fun (es : List (EvalSet R)) => es.map EvalSet.swapped) =
      (do let (b', r) ← b.fit env X (y.map FX.fin) (w.map FX.fin) ev
          .ok (b'.mirrored, r)) := by
  have ey : (y.map (FX.fin : ℝ → R)).map swapData.y = (y.map (1 - ·)).map FX.fin := by
    rw [List.map_map, List.map_map]
    refine List.map_congr_left fun a _ => ?_
    show (FX.fin 1 : R) - FX.fin a = FX.fin (1 - a)
    rw [FX.fin_sub]
  have key := Booster.fit_scale (σ := mirrorScale realFmt realFmt) (δ := swapData) (P := sameParams R)
    (env := env) (b := b) (X := X) (y := y.map FX.fin) (w := w.map FX.fin) (ev := ev) mirrorScale_laws
    ⟨R.isNaN_swap, fun _ => rfl, fun _ => rfl⟩ henv.heap
    (splitter_scaled (by
      have e : (b.scale (mirrorScale realFmt realFmt) swapData (sameParams R)).splitter.params =
          b.splitter.params := by
        rw [splitter_params_eq, splitter_params_eq]; rfl
      rw [e]
      rw [splitter_params_eq]
      refine mirrorScale_params hl1 hmds fun f => ?_
      show noConstraint (List.lookup f (b.monotoneConstraints.getD [])) = true
      cases h : List.lookup f (b.monotoneConstraints.getD []) with
      | none => rfl
      | some c =>
        obtain ⟨l1, l2, h1, _⟩ := List.lookup_eq_some_iff.1 h
        rw [hmono f c (by rw [h1]; simp)]
        rfl) fun h => .inl (hforce h))
    ⟨⟨fun y p w => by
        rw [ho]
        show calcGradHess (F := R) .logLoss [1 - y] [-p] [w] = _
        have e1 : (1 - logistic p) * (1 - (1 - logistic p)) = logistic p * (1 - logistic p) := by
          rw [R.one_sub_one_sub, FX.mul_comm_rd]
        simp only [calcGradHess, zip3, List.zip_cons_cons, List.zip_nil_left, List.map_cons, List.map_nil,
          List.unzip_cons, List.unzip_nil, logLossGrad, logLossHess, R.logistic_neg, R.sub_swap, e1, ← FX.neg_mul',
          FX.neg_down]
        rfl⟩,
      hm.imp id fun h1 => ⟨fun y p w => by
          rw [h1]
          show Res.ok (logLossMetric (y.map fun x => 1 - x) (p.map fun x => -x) (w.map id)) = _
          rw [List.map_id, logLoss_swap]
          rfl,
        fun x y => rfl⟩,
      fun _ => mirrorScale_goss henv.natural⟩
    (by show binMatrix env.sorter X (List.map id _) _ _ = _; rw [List.map_id])
    (fun h _ => by
      obtain ⟨h1, h2, h3⟩ := hinit h
      rw [ho, ey]
      show calcInit .logLoss _ (List.map id _) = _
      rw [List.map_id]
      exact calcInit_swap h1 h2 h3)
  have em : ∀ b : Booster R R, b.scale (mirrorScale realFmt realFmt) swapData (sameParams R) = b.mirrored :=
    fun b => (mirrored_eq b).symm
  have e2 : swapData.w = id := rfl
  have e3 : EvalSet.scale swapData = EvalSet.swapped := by
    funext e
    unfold EvalSet.scale EvalSet.swapped
    rw [e2, List.map_id]
    rfl
  rw [ey, e2, List.map_id, e3, em] at key
  refine Eq.trans key ?_
  cases b.fit env X (y.map FX.fin) (w.map FX.fin) ev with
  | ok r =>
    refine congrArg Res.ok ?_
    show (_, r.2) = _
    rw [em]
  | panic => rfl
  | diverge => rfl

/-- **C85** (probabilities).  For any data, the probabilities predicted by the second booster (logistic function of
the predictions) are 1 minus those predicted by the first. -/
theorem C85_probability (b : Booster R R) (X : Matrix R) :
    (do let out ← b.mirrored.predict X; .ok (out.map logistic)) =
      (do let out ← b.predict X; .ok (out.map fun x => 1 - logistic x)) := by
  rw [C84_predict]
  cases b.predict X with
  | ok l =>
    show Res.ok ((l.map _).map _) = Res.ok _
    rw [List.map_map]
    exact congrArg Res.ok (List.map_congr_left fun x _ => R.logistic_neg x)
  | panic => rfl
  | diverge => rfl

/-- The environment of the example with real numbers meets the hypotheses. -/
theorem realEnv_comparing : realEnv.Comparing where
  natural := exSorter_natural
  heap _ := fun _ l l' h hc => exPick_byOrder l l' h hc

/-- The hypotheses of `C85_fit` are met for default parameters and four rows, one of them missing: both fits
succeed and the second model is the mirrored first. -/
example (b : Booster R R) (h1 : b.l1 = FX.fin 0) (h2 : b.l2 = FX.fin 1) (h3 : b.maxDeltaStep = FX.fin 0)
    (h4 : b.learningRate = FX.fin (3/10)) (h6 : b.minLeafWeight = FX.fin 1) (h7 : b.sampleMethod = .none)
    (h8 : b.missing = FX.nan) (h9 : b.nbins = 256) (h10 : b.forceChildrenToBoundParent = false)
    (h11 : b.objectiveType = .logLoss) (h12 : b.initializeBaseScore = true) (h13 : b.monotoneConstraints = none)
    (h14 : b.Fresh) :
    ∃ b', b.fit realEnv { data := [FX.fin 1, FX.nan, FX.fin 2, FX.fin 5], rows := 4, cols := 1 }
        (([0, 1, 1, 0] : List ℝ).map FX.fin) (([1, 1, 1, 1] : List ℝ).map FX.fin) none = .ok (b', .ok ()) ∧
      b.mirrored.fit realEnv { data := [FX.fin 1, FX.nan, FX.fin 2, FX.fin 5], rows := 4, cols := 1 }
        (([1, 0, 0, 1] : List ℝ).map FX.fin) (([1, 1, 1, 1] : List ℝ).map FX.fin) none =
        .ok (b'.mirrored, .ok ()) := by
  obtain ⟨hs, e1, e2⟩ := exReal_safe b h1 h2 h3 h4 h6 h7 h8 h9 h10
  obtain ⟨b', hb, _⟩ := C62_logLoss hs h12 h11 e1 e2 h14
  have key := C85_fit realEnv_comparing (b := b)
    (X := { data := [FX.fin 1, FX.nan, FX.fin 2, FX.fin 5], rows := 4, cols := 1 }) (y := [0, 1, 1, 0])
    (w := [1, 1, 1, 1]) (ev := none) h11 (by rw [h1, FX.zero_def, FX.lt_fin]; simp)
    (by rw [h3, FX.zero_def, FX.lt_fin]; simp) (by rw [h13]; intro f c hc; cases hc) (fun _ => h10) (.inl rfl)
    (fun _ => ⟨rfl, by simp, by simp⟩)
  rw [hb] at key
  refine ⟨b', hb, ?_⟩
  have e : ([0, 1, 1, 0] : List ℝ).map (1 - ·) = [1, 0, 0, 1] := by norm_num
  rw [e] at key
  exact key

end Verif
