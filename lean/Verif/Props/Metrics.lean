import Verif.Props.LogLossDescent
import Verif.Props.Boosting

/-!
# C92 and C93: the metrics are the means they are named after, and the one of the training set never gets worse
-/

namespace Verif

open scoped Verif

/-- The weighted mean of `f` over the rows. -/
noncomputable def meanOver (w : List ℝ) (f : Nat → ℝ) : ℝ :=
  ((List.range w.length).map fun i => w.getD i 0 * f i).sum / w.sum

/-- A sum over three lists as a sum over row numbers. -/
theorem foldl_zip3 {term : R → R → R → R} {f : Nat → ℝ} {y p w : List ℝ} (hp : p.length = y.length)
    (hw : w.length = y.length)
    (h : ∀ i < y.length, term (FX.fin (y.getD i 0)) (FX.fin (p.getD i 0)) (FX.fin (w.getD i 0)) = FX.fin (f i)) :
    ((zip3 (y.map FX.fin : List R) (p.map FX.fin) (w.map FX.fin)).map fun t => term t.1 t.2.1 t.2.2).foldl (· + ·) 0 =
      FX.fin ((List.range y.length).map f).sum := by
  have e : (zip3 (y.map FX.fin : List R) (p.map FX.fin) (w.map FX.fin)).map (fun t => term t.1 t.2.1 t.2.2) =
      ((List.range y.length).map f).map FX.fin := by
    apply List.ext_getElem
    · simp [zip3, hp, hw]
    · intro i h1 h2
      have hi : i < y.length := by simpa using h2
      have := h i hi
      have hi1 : i < p.length := by omega
      have hi2 : i < w.length := by omega
      simpa [zip3, hi, hi1, hi2] using this
  rw [e, foldl_add_eq_sum, sum_fin, FX.zero_def, FX.fin_add, zero_add]

theorem weightedTerms_real {term : R → R → R → R} {f : Nat → ℝ} {y p w : List ℝ} (hp : p.length = y.length)
    (hw : w.length = y.length) (hs : w.sum ≠ 0)
    (h : ∀ i < y.length, term (FX.fin (y.getD i 0)) (FX.fin (p.getD i 0)) (FX.fin (w.getD i 0)) =
      FX.fin (w.getD i 0 * f i)) :
    weightedTerms term (y.map FX.fin : List R) (p.map FX.fin) (w.map FX.fin) = FX.fin (meanOver w f) := by
  unfold weightedTerms
  dsimp only
  rw [foldl_zip3 hp hw h, foldl_zip3 (term := fun _ _ w => w) (f := fun i => w.getD i 0) hp hw (fun _ _ => rfl)]
  have e : ((List.range y.length).map fun i => w.getD i 0).sum = w.sum := by
    congr 1
    apply List.ext_getElem
    · simp [hw]
    · intro i h1 h2
      simp [h2]
  rw [e, FX.fin_div _ _ hs]
  unfold meanOver
  rw [hw]

theorem sqrt_real {x : ℝ} (h : 0 ≤ x) : Fl.sqrt (FX.fin x : R) = FX.fin (Real.sqrt x) := by
  show (if x < 0 then FX.nan else FX.fin (Real.sqrt x) : R) = _
  rw [if_neg (not_lt.2 h)]

theorem ln1p_real {x : ℝ} (h : -1 < x) : Fl.ln1p (FX.fin x : R) = FX.fin (Real.log (1 + x)) := by
  show (if x + 1 < 0 then FX.nan else if x + 1 = 0 then FX.ninf else FX.ofRV (RV.fin (Real.log (x + 1))) : R) = _
  rw [if_neg (by linarith), if_neg (by linarith), add_comm]
  rfl

theorem meanOver_nonneg {w : List ℝ} {f : Nat → ℝ} (hw : ∀ x ∈ w, 0 ≤ x) (hf : ∀ i, 0 ≤ f i) :
    0 ≤ meanOver w f := by
  refine div_nonneg (List.sum_nonneg fun x hx => ?_) (List.sum_nonneg hw)
  obtain ⟨i, hi, rfl⟩ := List.mem_map.1 hx
  have hi := List.mem_range.1 hi
  refine mul_nonneg ?_ (hf i)
  rw [show w.getD i 0 = w[i] by simp [hi]]
  exact hw _ (List.getElem_mem hi)

/-- **C92** (LogLoss).  The metric is the weighted mean of the negative log likelihoods of the targets under the
predicted probabilities. -/
theorem C92_logLoss (y p w : List ℝ) (hp : p.length = y.length) (hw : w.length = y.length) (hs : w.sum ≠ 0) :
    logLossMetric (y.map FX.fin : List R) (p.map FX.fin) (w.map FX.fin) = FX.fin (meanOver w fun i =>
      -(y.getD i 0 * Real.log (1 / (1 + Real.exp (-p.getD i 0))) +
        (1 - y.getD i 0) * Real.log (1 - 1 / (1 + Real.exp (-p.getD i 0))))) := by
  refine weightedTerms_real hp hw hs fun i _ => ?_
  have e1 : logistic (FX.fin (p.getD i 0) : R) = FX.fin (sig (p.getD i 0)) := logistic_real _
  have e2 : (0 : ℝ) < 1 - sig (p.getD i 0) := by linarith [sig_lt (p.getD i 0)]
  simp only [logLossTerm, e1, ln_real (sig_pos (p.getD i 0)), FX.one_def, FX.fin_sub, ln_real e2, FX.fin_mul,
    FX.fin_add, FX.neg_fin]
  congr 1
  unfold sig
  ring

/-- **C92** (root mean squared error). -/
theorem C92_rmse (y p w : List ℝ) (hp : p.length = y.length) (hw : w.length = y.length) (hn : ∀ x ∈ w, 0 ≤ x)
    (hs : w.sum ≠ 0) :
    rmseMetric (y.map FX.fin : List R) (p.map FX.fin) (w.map FX.fin) =
      FX.fin (Real.sqrt (meanOver w fun i => (y.getD i 0 - p.getD i 0) ^ 2)) := by
  unfold rmseMetric
  rw [weightedTerms_real (f := fun i => (y.getD i 0 - p.getD i 0) ^ 2) hp hw hs, sqrt_real]
  · exact meanOver_nonneg hn fun i => sq_nonneg _
  · intro i _
    simp only [FX.fin_sub, FX.fin_mul]
    congr 1
    ring

/-- **C92** (root mean squared log error), when targets and predictions are above -1. -/
theorem C92_rmsle (y p w : List ℝ) (hp : p.length = y.length) (hw : w.length = y.length) (hn : ∀ x ∈ w, 0 ≤ x)
    (hs : w.sum ≠ 0) (hy : ∀ x ∈ y, -1 < x) (hpp : ∀ x ∈ p, -1 < x) :
    rmsleMetric (y.map FX.fin : List R) (p.map FX.fin) (w.map FX.fin) =
      FX.fin (Real.sqrt (meanOver w fun i => (Real.log (1 + y.getD i 0) - Real.log (1 + p.getD i 0)) ^ 2)) := by
  unfold rmsleMetric
  rw [weightedTerms_real (f := fun i => (Real.log (1 + y.getD i 0) - Real.log (1 + p.getD i 0)) ^ 2) hp hw hs,
    sqrt_real]
  · exact meanOver_nonneg hn fun i => sq_nonneg _
  · intro i hi
    have h1 : -1 < y.getD i 0 := by
      rw [show y.getD i 0 = y[i] by simp [hi]]
      exact hy _ (List.getElem_mem hi)
    have hi' : i < p.length := by omega
    have h2 : -1 < p.getD i 0 := by
      rw [show p.getD i 0 = p[i] by simp [hi']]
      exact hpp _ (List.getElem_mem hi')
    simp only [ln1p_real h1, ln1p_real h2, FX.fin_sub, FX.fin_mul]
    congr 1
    ring

/-- **C92** (no weight).  With weights that are all zero the three metrics are NaN. -/
theorem C92_no_weight (y p w : List ℝ) (hp : p.length = y.length) (hw : w.length = y.length)
    (hn : ∀ x ∈ w, x = 0) (hy : ∀ x ∈ y, -1 < x) (hpp : ∀ x ∈ p, -1 < x) :
    logLossMetric (y.map FX.fin : List R) (p.map FX.fin) (w.map FX.fin) = FX.nan ∧
      rmseMetric (y.map FX.fin : List R) (p.map FX.fin) (w.map FX.fin) = FX.nan ∧
      rmsleMetric (y.map FX.fin : List R) (p.map FX.fin) (w.map FX.fin) = FX.nan := by
  have hw0 : ∀ i, w.getD i 0 = 0 := by
    intro i
    by_cases hi : i < w.length
    · rw [show w.getD i 0 = w[i] by simp [hi]]
      exact hn _ (List.getElem_mem hi)
    · simp [not_lt.1 hi]
  have key : ∀ (term : R → R → R → R), (∀ i < y.length, term (FX.fin (y.getD i 0)) (FX.fin (p.getD i 0))
      (FX.fin 0) = FX.fin 0) →
      weightedTerms term (y.map FX.fin : List R) (p.map FX.fin) (w.map FX.fin) = FX.nan := by
    intro term h
    unfold weightedTerms
    dsimp only
    rw [foldl_zip3 (f := fun _ => 0) hp hw (fun i hi => by rw [hw0]; exact h i hi),
      foldl_zip3 (term := fun _ _ w => w) (f := fun _ => 0) hp hw (fun i _ => by rw [hw0])]
    simp only [List.map_const', List.sum_replicate, smul_zero]
    show FX.div (FX.fin 0) (FX.fin 0) = _
    simp [FX.div, FX.sinf]
  have hg : ∀ l : List ℝ, (∀ x ∈ l, -1 < x) → ∀ i, -1 < l.getD i 0 := by
    intro l hl i
    by_cases hi : i < l.length
    · rw [show l.getD i 0 = l[i] by simp [hi]]
      exact hl _ (List.getElem_mem hi)
    · simp [not_lt.1 hi]
  refine ⟨key _ fun i _ => ?_, ?_, ?_⟩
  · have e1 : logistic (FX.fin (p.getD i 0) : R) = FX.fin (sig (p.getD i 0)) := logistic_real _
    have e2 : (0 : ℝ) < 1 - sig (p.getD i 0) := by linarith [sig_lt (p.getD i 0)]
    simp only [logLossTerm, e1, ln_real (sig_pos (p.getD i 0)), FX.one_def, FX.fin_sub, ln_real e2, FX.fin_mul,
      FX.fin_add, FX.neg_fin, mul_zero]
  · unfold rmseMetric
    rw [key _ fun i _ => by simp only [FX.fin_sub, FX.fin_mul, mul_zero]]
    rfl
  · unfold rmsleMetric
    rw [key _ fun i _ => by simp only [ln1p_real (hg y hy i), ln1p_real (hg p hpp i), FX.fin_sub, FX.fin_mul, mul_zero]]
    rfl

/-! ### C20 without early stopping -/

theorem evalLoop_no_rounds {F D : Type} [Fl F] [Fl D] [FlCast F D] {S : Sorter} {t : Tree F D} {i n : Nat} :
    ∀ (es : List (TrainEval D)) (k : Nat) (b : Booster F D) (best : Option D) (stop : Bool)
      (r : List (TrainEval D) × List D × Booster F D × Option D × Bool), b.earlyStoppingRounds = none →
      evalLoop S t i n es k b best stop = .ok r → r.2.2 = (b, best, stop)
  | [], k, b, best, stop, r, hb, h => by
    simp only [evalLoop, Res.ok.injEq] at h
    rw [← h]
  | e :: es, k, b, best, stop, r, hb, h => by
    have hu : ∀ m, (if k + 1 = n then earlyStopUpdate b i m b.metric.maximize best stop else (b, best, stop)) =
        (b, best, stop) := by
      intro m
      unfold earlyStopUpdate
      rw [hb]
      simp
    simp only [evalLoop, hu, Res.bind_eq_ok, Res.ok.injEq] at h
    obtain ⟨_, _, _, _, r', h1, rfl⟩ := h
    exact evalLoop_no_rounds es (k + 1) b best stop r' hb h1

/-- **C20** (no early stopping).  Without `early_stopping_rounds` all `iterations` trees are grown, whatever the
evaluation sets, and the best iteration and the number of trees used by predictions stay as they were, unset for a
fresh or refitted booster. -/
theorem C20_no_rounds {Rg F D : Type} [Fl F] [Fl D] [FlCast F D] {env : Env Rg F D} {b b' : Booster F D}
    {data : Matrix D} {y w : List D} {ev : Option (List (EvalSet D))}
    (h : b.fit env data y w ev = .ok (b', .ok ())) (hr : b.earlyStoppingRounds = none) :
    b'.trees.length = b.iterations ∧
      ((b.trees ≠ [] ∨ (b.bestIteration = none ∧ b.predictionIteration = none)) →
        b'.bestIteration = none ∧ b'.predictionIteration = none) := by
  obtain ⟨base, binned, st, stop, N, hT⟩ := Booster.fit_trace h
  have hround : ∀ k ≤ N, (st k).booster.earlyStoppingRounds = none := by
    intro k hk
    have := hT.same k hk
    unfold Booster.SameParams at this
    rw [this]
    exact hr
  have hstep : ∀ k < N, stop k = false ∧ (st (k + 1)).booster.bestIteration = (st k).booster.bestIteration ∧
      (st (k + 1)).booster.predictionIteration = (st k).booster.predictionIteration := by
    intro k hk
    obtain ⟨tree, b4, _, f2, f3⟩ := fitIteration_eval (hT.step k hk)
    cases hev : (st k).evals with
    | none =>
      rw [hev] at f2
      simp only [evalSets, Res.ok.injEq, Prod.mk.injEq] at f2
      obtain ⟨rfl, _, _, e⟩ := f2
      exact ⟨e.symm, by rw [f3], by rw [f3]⟩
    | some es =>
      rw [hev] at f2
      simp only [evalSets, Res.bind_eq_ok, Res.ok.injEq, Prod.mk.injEq] at f2
      obtain ⟨⟨es', ms, b1, best, sp⟩, g1, b2, g2, rfl, _, _, g3⟩ := f2
      have hb : (withHistory (st k).booster es.length).earlyStoppingRounds = none := by
        unfold withHistory
        split
        · exact hround k hk.le
        · exact hround k hk.le
      have := evalLoop_no_rounds _ _ _ _ _ _ hb g1
      simp only [Prod.mk.injEq] at this
      obtain ⟨rfl, rfl, rfl⟩ := this
      have e2 : ∀ b : Booster F D, (withHistory b es.length).bestIteration = b.bestIteration ∧
          (withHistory b es.length).predictionIteration = b.predictionIteration := by
        intro b
        unfold withHistory
        split <;> exact ⟨rfl, rfl⟩
      have e3 : b2.bestIteration = (withHistory (st k).booster es.length).bestIteration ∧
          b2.predictionIteration = (withHistory (st k).booster es.length).predictionIteration := by
        unfold appendHistory at g2
        split at g2
        · cases g2; exact ⟨rfl, rfl⟩
        · simp only [Res.bind_eq_ok] at g2
          obtain ⟨_, _, g2⟩ := g2
          cases g2; exact ⟨rfl, rfl⟩
      refine ⟨g3.symm, ?_, ?_⟩
      · rw [f3]; exact e3.1.trans (e2 _).1
      · rw [f3]; exact e3.2.trans (e2 _).2
  refine ⟨?_, fun hb => ?_⟩
  · rw [hT.length]
    by_contra hc
    obtain ⟨hN, hs⟩ := hT.ended (by have := hT.le; omega)
    rw [(hstep (N - 1) (by omega)).1] at hs
    cases hs
  · have h0 : (st 0).booster.bestIteration = none ∧ (st 0).booster.predictionIteration = none := by
      rw [hT.start]
      show b.start.bestIteration = none ∧ b.start.predictionIteration = none
      unfold Booster.start
      split
      · rename_i hc
        rcases hb with hb | hb
        · exact absurd (List.isEmpty_iff.1 hc) hb
        · exact hb
      · exact ⟨rfl, rfl⟩
    have : ∀ k ≤ N, (st k).booster.bestIteration = none ∧ (st k).booster.predictionIteration = none := by
      intro k
      induction k with
      | zero => exact fun _ => h0
      | succ k ih =>
        intro hk
        obtain ⟨a1, a2⟩ := ih (by omega)
        obtain ⟨_, b1, b2⟩ := hstep k (by omega)
        exact ⟨b1.trans a1, b2.trans a2⟩
    rw [← hT.last]
    exact this N le_rfl

/-! ### C93 -/

section

variable {Rg : Type} {env : Env Rg R R} {b b' : Booster R R} {X : Matrix R} {y w : List ℝ}
  {es : List (EvalSet R)} {l1 l2 mds lr : ℝ}

/-- The training data as the evaluation set `j`. -/
structure TrainingSet (X : Matrix R) (y w : List ℝ) (es : List (EvalSet R)) (j : Nat) : Prop where
  /-- the sets are of the right size -/
  sizes : ∀ e ∈ es, e.y.length = e.data.rows
  /-- set `j` is the training data -/
  set : ∃ e, es[j]? = some e ∧ e.data = X ∧ e.y = y.map FX.fin ∧ e.w = w.map FX.fin
  /-- some row has weight -/
  weight : ∃ x ∈ w, 0 < x

/-- The entries `a` and `a'` that the history has for iterations `k` and `k + 1` and set `j` are numbers, and the
second is not larger. -/
def NotWorse (b' : Booster R R) (j k : Nat) : Prop :=
  ∃ (H : RowMajorMatrix R) (a a' : ℝ), b'.evaluationHistory = some H ∧ H.get k j = .ok (FX.fin a) ∧
    H.get (k + 1) j = .ok (FX.fin a') ∧ a' ≤ a

theorem history_notWorse (h : PlainFit env b X y w (some es) b' l1 l2 mds lr)
    (hb : b.trees ≠ [] ∨ b.evaluationHistory = none) {j : Nat} (hT : TrainingSet X y w es j) {loss : List ℝ → ℝ}
    {value : ℝ → ℝ} (hmono : ∀ a a', a' ≤ a → value a' ≤ value a)
    (hmetric : ∀ p : List ℝ, p.length = y.length →
      b.metric.eval env.sorter (y.map FX.fin) (p.map FX.fin) (w.map FX.fin) = .ok (FX.fin (value (loss p)) : R))
    (hround : ∀ k < b'.trees.length, ∃ p p' : List ℝ,
      ({ b' with predictionIteration := some k }).predict X = .ok (p.map FX.fin) ∧
      ({ b' with predictionIteration := some (k + 1) }).predict X = .ok (p'.map FX.fin) ∧ loss p' ≤ loss p)
    {k : Nat} (hk : k + 1 < b'.trees.length) : NotWorse b' j k := by
  obtain ⟨e, he, e1, e2, e3⟩ := hT.set
  have hne : b'.trees ≠ [] := by
    intro hc
    rw [hc] at hk
    simp at hk
  obtain ⟨H, h1, h2, h3, h4⟩ := C21_history h.fit (by rintro rfl; simp at he) hT.sizes hb hne
  obtain ⟨q, m, c1, c2, c3⟩ := h4 k j e (by omega) he
  obtain ⟨q', m', d1, d2, d3⟩ := h4 (k + 1) j e hk he
  obtain ⟨p, p', f1, f2, f3⟩ := hround (k + 1) hk
  rw [e1] at c1 d1
  rw [f1] at c1
  rw [f2] at d1
  cases c1
  cases d1
  have hl : ∀ (b : Booster R R) (p : List ℝ), b.predict X = .ok (p.map FX.fin) → p.length = y.length := by
    intro b p hp
    unfold Booster.predict at hp
    simp only [Res.bind_eq_ok] at hp
    obtain ⟨ts, _, hp⟩ := hp
    have := predictFold_length hp
    rw [List.length_map, List.length_replicate] at this
    rw [this, h.ylen]
  rw [e2, e3, hmetric p (hl _ p f1)] at c2
  rw [e2, e3, hmetric p' (hl _ p' f2)] at d2
  cases c2
  cases d2
  exact ⟨H, _, _, h1, c3, d3, hmono _ _ f3⟩

theorem TrainingSet.sum_pos (h : PlainFit env b X y w (some es) b' l1 l2 mds lr) {j : Nat}
    (hT : TrainingSet X y w es j) : 0 < w.sum := by
  obtain ⟨x, hx, h0⟩ := hT.weight
  exact lt_of_lt_of_le h0 (List.single_le_sum h.nonneg x hx)

theorem rmse_eval (h : PlainFit env b X y w (some es) b' l1 l2 mds lr) {j : Nat} (hT : TrainingSet X y w es j)
    (hm : b.metric = .rootMeanSquaredError) (p : List ℝ) (hp : p.length = y.length) :
    b.metric.eval env.sorter (y.map FX.fin) (p.map FX.fin) (w.map FX.fin) =
      .ok (FX.fin (Real.sqrt (sqLoss y w p / w.sum)) : R) := by
  have hw : w.length = y.length := by rw [h.wlen, h.ylen]
  rw [hm]
  show Res.ok (rmseMetric _ _ _) = _
  rw [C92_rmse y p w hp hw h.nonneg (hT.sum_pos h).ne']
  unfold meanOver sqLoss
  rw [hw]

theorem logLoss_eval (h : PlainFit env b X y w (some es) b' l1 l2 mds lr) {j : Nat} (hT : TrainingSet X y w es j)
    (hm : b.metric = .logLoss) (p : List ℝ) (hp : p.length = y.length) :
    b.metric.eval env.sorter (y.map FX.fin) (p.map FX.fin) (w.map FX.fin) =
      .ok (FX.fin (logisticLoss y w p / w.sum) : R) := by
  have hw : w.length = y.length := by rw [h.wlen, h.ylen]
  rw [hm]
  show Res.ok (logLossMetric _ _ _) = _
  rw [C92_logLoss y p w hp hw (hT.sum_pos h).ne']
  unfold meanOver logisticLoss
  rw [hw]
  refine congrArg (fun x => Res.ok (FX.fin (x / w.sum))) (congrArg List.sum (List.map_congr_left fun i _ => ?_))
  have e := lossAt_logLoss (y.getD i 0) (w.getD i 0) (p.getD i 0)
  have e2 : Real.log (1 + Real.exp (p.getD i 0)) = p.getD i 0 + Real.log (1 + Real.exp (-p.getD i 0)) := by
    have : 1 + Real.exp (p.getD i 0) = Real.exp (p.getD i 0) * (1 + Real.exp (-p.getD i 0)) := by
      rw [mul_add, ← Real.exp_add, add_neg_cancel, Real.exp_zero]
      ring
    rw [this, Real.log_mul (Real.exp_pos _).ne' (by positivity), Real.log_exp]
  rw [e2]
  unfold lossAt sig at e
  linarith

/-- **C93** (squared loss).  Under the conditions of `C52_loss_partial`, or those of `C52_gain_partial`, the root
mean squared error that the history reports for the training set never gets larger. -/
theorem C93_squaredLoss (h : PlainFit env b X y w (some es) b' l1 l2 mds lr) (ho : b.objectiveType = .squaredLoss)
    (hmet : b.metric = .rootMeanSquaredError) (hs : b.sampleMethod = .none)
    (hb : b.trees ≠ [] ∨ b.evaluationHistory = none) {j : Nat} (hT : TrainingSet X y w es j)
    (hl1 : 0 ≤ l1) (hmds : 0 ≤ mds) (hlr : 0 ≤ lr)
    (hc : (lr ≤ 2 ∧ b.monotoneConstraints = none ∧ (b.createMissingBranch = false ∨
        (b.forceChildrenToBoundParent = false ∧ ∀ v ∈ X.data, ¬ IsMissing b.missing v))) ∨
      (lr ≤ 1 ∧ ((0 : R) ≤ᶠ b.gamma) = true ∧ (b.createMissingBranch = false ∨ b.missingNodeTreatment = .none ∨
        b.missingNodeTreatment = .averageNodeWeight ∨
        (b.missingNodeTreatment = .assignToParent ∧ b.allowMissingSplits = false ∧
          b.forceChildrenToBoundParent = false ∧ b.monotoneConstraints = none))))
    {k : Nat} (hk : k + 1 < b'.trees.length) : NotWorse b' j k := by
  refine history_notWorse h hb hT (loss := sqLoss y w) (value := fun a => Real.sqrt (a / w.sum)) ?_
    (rmse_eval h hT hmet) ?_ hk
  · intro a a' ha
    exact Real.sqrt_le_sqrt (div_le_div_of_nonneg_right ha (hT.sum_pos h).le)
  · intro k hk
    rcases hc with ⟨h2, hc, hm⟩ | ⟨h1, hg, hm⟩
    · exact C52_loss_partial h ho hs hc hl1 hmds hlr h2 hm hk
    · exact C52_gain_partial h ho hs hl1 hmds hlr h1 hg hm hk

/-- **C93** (logistic loss).  Under the conditions of `C91_plain_partial`, or those of `C91_gain_partial`, the log
loss that the history reports for the training set never gets larger. -/
theorem C93_logLoss (h : PlainFit env b X y w (some es) b' l1 l2 mds lr) (ho : b.objectiveType = .logLoss)
    (hmet : b.metric = .logLoss) (hs : b.sampleMethod = .none)
    (hb : b.trees ≠ [] ∨ b.evaluationHistory = none) {j : Nat} (hT : TrainingSet X y w es j)
    (hl1 : 0 ≤ l1) (hmds : 0 < mds) (hlr : 0 ≤ lr)
    (hc : (Real.exp (lr * mds) ≤ 1 + lr * mds + lr * mds ^ 2 ∧ b.monotoneConstraints = none ∧
        (b.createMissingBranch = false ∨
          (b.forceChildrenToBoundParent = false ∧ ∀ v ∈ X.data, ¬ IsMissing b.missing v))) ∨
      (Real.exp (lr * mds) ≤ 1 + lr * mds + lr * mds ^ 2 / 2 ∧ ((0 : R) ≤ᶠ b.gamma) = true ∧
        (b.createMissingBranch = false ∨ b.missingNodeTreatment = .none ∨
          b.missingNodeTreatment = .averageNodeWeight ∨
          (b.missingNodeTreatment = .assignToParent ∧ b.allowMissingSplits = false ∧
            b.forceChildrenToBoundParent = false ∧ b.monotoneConstraints = none))))
    {k : Nat} (hk : k + 1 < b'.trees.length) : NotWorse b' j k := by
  refine history_notWorse h hb hT (loss := logisticLoss y w) (value := fun a => a / w.sum) ?_
    (logLoss_eval h hT hmet) ?_ hk
  · intro a a' ha
    exact div_le_div_of_nonneg_right ha (hT.sum_pos h).le
  · intro k hk
    rcases hc with ⟨h2, hc, hm⟩ | ⟨h1, hg, hm⟩
    · exact C91_plain_partial h ho hs hc hl1 hmds hlr h2 hm hk
    · exact C91_gain_partial h ho hs hl1 hmds hlr h1 hg hm hk

end

/-- Two rows of weight 1 and 3: the mean of the squared errors 1 and 4 is 13/4. -/
example : meanOver [1, 3] (fun i => ([1, 2] : List ℝ).getD i 0 ^ 2) = 13 / 4 ∧ ([1, 3] : List ℝ).sum ≠ 0 := by
  unfold meanOver
  norm_num [List.range_succ]

/-- The booster of the example for C91, with two trees. -/
noncomputable def pairTwice (o : ObjectiveType) (m : Metric) : Booster R R :=
  { pairBooster 1 (1/4) with iterations := 2, objectiveType := o, evaluationMetric := some m }

/-- Its evaluation set. -/
noncomputable def pairEval : List (EvalSet R) := [⟨pairX, [FX.fin 0, FX.fin 1], [FX.fin 1, FX.fin 1]⟩]

/-- Training on it grows two trees. -/
theorem pairTwice_fit (o : ObjectiveType) (m : Metric) :
    ∃ b' : Booster R R, PlainFit realEnv (pairTwice o m) pairX [0, 1] [1, 1] (some pairEval) b' 0 0 1 (1/4) ∧
    TrainingSet pairX [0, 1] [1, 1] pairEval 0 ∧ b'.trees.length = 2 := by
  have hsafe : SafeArgs realEnv (pairTwice o m) pairX [0, 1] [1, 1] 0 0 1 (1/4) :=
    pair_safe _ rfl rfl rfl rfl rfl rfl rfl rfl rfl
  have hbase : BaseOk (pairTwice o m) [0, 1] [1, 1] := ⟨Real.log 99, rfl⟩
  have hmem : ∀ e ∈ pairEval, e = ⟨pairX, [FX.fin 0, FX.fin 1], [FX.fin 1, FX.fin 1]⟩ := by
    intro e he
    simpa [pairEval] using he
  obtain ⟨b', hfit⟩ := (C62_fit hsafe hbase (ev := some pairEval) ⟨by simp [pairEval], by
      intro es hes e he
      cases hes
      rw [hmem e he]
      exact ⟨rfl, le_rfl, fun _ _ => .inl rfl, by simp, by simp⟩, .inr rfl⟩).2 (by
      intro es hes e he
      cases hes
      rw [hmem e he]
      rintro (⟨v, hv, h⟩ | ⟨v, hv, h⟩)
      · simp only [List.mem_cons, List.not_mem_nil, or_false] at hv
        rcases hv with rfl | rfl <;> cases h
      · simp only [List.mem_cons, List.not_mem_nil, or_false, or_self] at hv
        subst hv
        rcases h with h | h
        · cases h
        · rw [FX.zero_def, FX.lt_fin] at h
          norm_num at h)
  refine ⟨b', hsafe.plain hbase hfit, ⟨?_, ⟨_, rfl, rfl, rfl, rfl⟩, 1, by simp, one_pos⟩,
    (C20_no_rounds hfit rfl).1⟩
  intro e he
  rw [hmem e he]
  rfl

/-- The hypotheses of `C93_logLoss` and `C93_squaredLoss` are met by boosters that grow two trees. -/
example : (∃ b' : Booster R R, NotWorse b' 0 0 ∧ PlainFit realEnv (pairTwice .logLoss .logLoss) pairX [0, 1] [1, 1]
      (some pairEval) b' 0 0 1 (1/4)) ∧
    ∃ b' : Booster R R, NotWorse b' 0 0 ∧ PlainFit realEnv (pairTwice .squaredLoss .rootMeanSquaredError) pairX
      [0, 1] [1, 1] (some pairEval) b' 0 0 1 (1/4) := by
  constructor
  · obtain ⟨b', h1, h2, h3⟩ := pairTwice_fit .logLoss .logLoss
    refine ⟨b', C93_logLoss h1 rfl rfl rfl (.inr rfl) h2 le_rfl one_pos (by norm_num)
      (.inl ⟨?_, rfl, .inl rfl⟩) (by omega), h1⟩
    have := Real.abs_exp_sub_one_sub_id_le (x := 1/4) (by rw [abs_of_nonneg] <;> norm_num)
    have := (abs_le.1 this).2
    norm_num at *
    linarith
  · obtain ⟨b', h1, h2, h3⟩ := pairTwice_fit .squaredLoss .rootMeanSquaredError
    exact ⟨b', C93_squaredLoss h1 rfl rfl rfl (.inr rfl) h2 le_rfl zero_le_one (by norm_num)
      (.inl ⟨by norm_num, rfl, .inl rfl⟩) (by omega), h1⟩

end Verif
