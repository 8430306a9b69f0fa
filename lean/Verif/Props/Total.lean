import Verif.Proofs.TotalFit
import Verif.Props.Explained
import Verif.Props.Policies
import Verif.Props.Objective
import Verif.Props.BoundParent

/-!
# C62: training and prediction do not panic

Every panic of the code is a value `Res.panic` of the model: an index past the end, a slice with bad
ends, `unwrap` of `None`, `copy_from_slice` of unequal lengths, a failed `assert`, an underflow of an
unsigned subtraction, and a recursion or loop without end is `Res.diverge`.  The theorems give conditions
on the arguments under which none of this happens.
-/

namespace Verif

open scoped Verif

set_option linter.unusedSectionVars false

section anyArith
variable {R F D : Type} [Fl F] [Fl D] [FlCast F D]

/-- The number of trees used for predictions is the one at the start or one that early stopping set,
which counts trees already grown. -/
theorem FitTrace.predictionIteration {env : Env R F D} {b b' : Booster F D} {data : Matrix D} {y w : List D}
    {ev : Option (List (EvalSet D))} {base : D} {binned : BinnedData D} {st : Nat → FitState R F D}
    {stop : Nat → Bool} {N : Nat} (h : FitTrace env b data y w ev b' base binned st stop N) :
    ∀ k, k ≤ N → (st k).booster.predictionIteration = b.start.predictionIteration ∨
      ∃ n ≤ k, (st k).booster.predictionIteration = some n := by
  intro k
  induction k with
  | zero => intro _; left; rw [h.start]; rfl
  | succ k ih =>
    intro hk
    obtain ⟨tree, b1, _, e2, e3⟩ := fitIteration_eval (h.step k (by omega))
    have key : b1.predictionIteration = (st k).booster.predictionIteration ∨
        b1.predictionIteration = some (k + 1) := by
      cases hev : (st k).evals with
      | none =>
        rw [hev] at e2
        simp only [evalSets, Res.ok.injEq, Prod.mk.injEq] at e2
        rw [← e2.1]; exact .inl rfl
      | some es =>
        rw [hev] at e2
        simp only [evalSets] at e2
        rw [Res.bind_eq_ok] at e2
        obtain ⟨⟨es', ms, b2, best2, stop2⟩, e4, e5⟩ := e2
        simp only [Res.bind_eq_ok, Res.ok.injEq, Prod.mk.injEq] at e5
        obtain ⟨b3, e6, rfl, _⟩ := e5
        have e7 : b3.predictionIteration = b2.predictionIteration := by
          unfold appendHistory at e6
          split at e6
          · cases e6; rfl
          · simp only [Res.bind_eq_ok] at e6
            obtain ⟨H, _, e6⟩ := e6
            cases e6; rfl
        have e8 : (withHistory (st k).booster es.length).predictionIteration =
            (st k).booster.predictionIteration := by
          unfold withHistory; split <;> rfl
        obtain ⟨_, _, e9⟩ := evalLoop_ok _ _ _ _ _ _ _ _ _ _ (by simp) e4
        rw [e7, ← e8]
        split at e9
        · cases e9; exact .inl rfl
        · unfold earlyStopUpdate at e9
          split at e9
          · cases e9; exact .inl rfl
          · split at e9
            · cases e9; exact .inr rfl
            · split at e9
              · cases e9; exact .inr rfl
              · split at e9
                · cases e9; exact .inl rfl
                · cases e9; exact .inl rfl
    rw [e3]
    rcases key with key | key
    · rcases ih (by omega) with ih | ⟨n, hn, ih⟩
      · exact .inl (key.trans ih)
      · exact .inr ⟨n, by omega, key.trans ih⟩
    · exact .inr ⟨k + 1, le_refl _, key⟩

/-- The trees used for predictions exist. -/
theorem fit_predictionTrees {env : Env R F D} {b b' : Booster F D} {data : Matrix D} {y w : List D}
    {ev : Option (List (EvalSet D))} (h : b.fit env data y w ev = .ok (b', .ok ()))
    (hb : b.trees ≠ [] ∨ b.predictionIteration = none) :
    ∃ ts, b'.predictionTrees = .ok ts ∧ ∀ t ∈ ts, t ∈ b'.trees := by
  obtain ⟨base, binned, st, stop, N, hT⟩ := Booster.fit_trace h
  have hstart : b.start.predictionIteration = none := by
    unfold Booster.start
    split
    · rename_i hc
      rcases hb with hb | hb
      · exact absurd (List.isEmpty_iff.1 hc) hb
      · exact hb
    · rfl
  have hle : b'.predictionIteration.getD b'.trees.length ≤ b'.trees.length := by
    have := hT.predictionIteration N (le_refl _)
    rw [hT.last, hstart] at this
    rcases this with h1 | ⟨n, hn, h1⟩
    · rw [h1]; exact le_refl _
    · rw [h1, hT.length]; exact hn
  exact ⟨_, by rw [Booster.predictionTrees, if_pos hle], fun t ht => List.mem_of_mem_take ht⟩

/-- **C62** (prediction, any arithmetic).  A booster that has been fitted predicts, without panic and
with one value for each row, on every matrix that has the columns of the training data and no NaN that
is not the missing value. -/
theorem C62_predict {env : Env R F D} (hr : env.rng.Ok) {b b' : Booster F D} {X : Matrix D} {y w : List D}
    {ev : Option (List (EvalSet D))} (h : b.fit env X y w ev = .ok (b', .ok ()))
    (hb : b.trees ≠ [] ∨ b.predictionIteration = none) (data : Matrix D) (hd : data.Shaped)
    (hcols : X.cols ≤ data.cols) (hread : ∀ v ∈ data.data, Readable b.missing v) :
    ∃ out, b'.predict data = .ok out ∧ out.length = data.rows := by
  obtain ⟨ts, hts, hsub⟩ := fit_predictionTrees h hb
  have hmiss : b'.missing = b.missing := by
    obtain ⟨base, binned, st, stop, N, hT⟩ := Booster.fit_trace h
    have hsame := hT.same N (le_refl _)
    unfold Booster.SameParams at hsame
    rw [hT.last] at hsame
    rw [hsame]
  have hwf := C03_well_formed env b b' X y w ev h
  have hf : ∀ t ∈ ts, t.FeaturesBelow data.cols := fun t ht n hn hl =>
    lt_of_lt_of_le (fit_featuresBelow hr h t (hsub t ht) n hn hl) hcols
  obtain ⟨h1, h2⟩ := C48_predict b' data ts hts (fun t ht => hwf t (hsub t ht)) hd hf
  rcases h2 with h2 | ⟨out, h2⟩
  · obtain ⟨h3, i, hi, t, ht, hM⟩ := h1.1 h2
    rw [hmiss] at h3 hM
    exact (readable_noNaN hread h3 hM).elim
  · exact ⟨out, h2, ((C19_prediction_iteration b' data out).1 h2).2.1⟩

end anyArith

section exact
variable {R K : Type} [Field K] [LinearOrder K] [IsStrictOrderedRing K] {m32 m64 : Fmt K}
  [m32.Exact] [m64.Exact]
variable {env : Env R (FX m32) (FX m64)} {b : Booster (FX m32) (FX m64)} {X : Matrix (FX m64)}
  {y w : List K} {l1 l2 mds lr : K}

/-- Finite targets and non-negative finite weights pass validation. -/
theorem valid_fin {ev : Option (List (EvalSet (FX m64)))} (hw : ∀ x ∈ w, 0 ≤ x)
    (hev : ∀ es, ev = some es → ∀ e ∈ es, ¬ (BadY e.y ∨ BadW e.w)) :
    ¬ BadInput (y.map FX.fin : List (FX m64)) (w.map FX.fin) ev := by
  rintro (⟨v, hv, hn⟩ | ⟨v, hv, hn⟩ | ⟨es, rfl, e, he, hn⟩)
  · obtain ⟨x, _, rfl⟩ := List.mem_map.1 hv
    cases hn
  · obtain ⟨x, hx, rfl⟩ := List.mem_map.1 hv
    rcases hn with hn | hn
    · cases hn
    · rw [FX.zero_def, FX.lt_fin] at hn
      exact absurd (of_decide_eq_true hn) (not_lt.2 (hw x hx))
  · exact hev es rfl e he hn

/-- **C62** (training, exact arithmetic).  With arguments that satisfy `SafeArgs` - a matrix of the
right shape, finite targets, finite non-negative weights, between 1 and 65533 bins, a positive
`min_leaf_weight`, a finite non-negative `l2` - a finite base score and evaluation sets that the model
can be evaluated on, `fit` neither panics nor runs for ever.  It reports an error only for a NaN or
negative weight in an evaluation set. -/
theorem C62_fit (h : SafeArgs env b X y w l1 l2 mds lr) (hbase : BaseOk b y w)
    {ev : Option (List (EvalSet (FX m64)))} (hev : EvalArgs X b ev) :
    (∃ b' r, b.fit env X (y.map FX.fin) (w.map FX.fin) ev = .ok (b', r)) ∧
    ((∀ es, ev = some es → ∀ e ∈ es, ¬ (BadY e.y ∨ BadW e.w)) →
      ∃ b', b.fit env X (y.map FX.fin) (w.map FX.fin) ev = .ok (b', .ok ())) := by
  obtain ⟨b', hb'⟩ := h.trees hbase hev
  refine ⟨?_, fun hv => ⟨b', ?_⟩⟩
  · unfold Booster.fit
    split
    · exact ⟨_, _, rfl⟩
    · exact ⟨b', .ok (), by rw [hb', Res.ok_bind]⟩
  · rw [Booster.fit, (validateFit_ok _ _ _).2 (valid_fin h.nonneg hv)]
    simp only [hb', Res.ok_bind]

/-- The base score of the squared loss is the mean, if the weights do not vanish. -/
theorem baseOk_squared (hi : b.initializeBaseScore = true) (ho : b.objectiveType = .squaredLoss)
    (hl : w.length = y.length) (hs : w.sum ≠ 0) : BaseOk b y w := by
  refine ⟨weightedSum y w / w.sum, ?_⟩
  rw [if_pos hi, ho, calcInit, initSums_fin y w hl, Res.ok_bind]
  simp only [FX.fin_div _ _ hs]

/-- **C62** (squared loss, exact arithmetic).  Training, prediction and explanation of a freshly
constructed booster without evaluation data, with `initialize_base_score`: no panic, predictions for
every new matrix with the columns of the training data, and contributions that add up to them. -/
theorem C62_squaredLoss (h : SafeArgs env b X y w l1 l2 mds lr) (hi : b.initializeBaseScore = true)
    (ho : b.objectiveType = .squaredLoss) (hw : ∃ x ∈ w, 0 < x) (hb : b.Fresh) :
    ∃ b', b.fit env X (y.map FX.fin) (w.map FX.fin) none = .ok (b', .ok ()) ∧
      ∀ data : Matrix (FX m64), data.Shaped → X.cols ≤ data.cols →
        (∀ v ∈ data.data, Readable b.missing v) →
        ∃ out, b'.predict data = .ok out ∧ out.length = data.rows ∧
          ∀ m : ContributionsMethod, m = .weight ∨ m = .average ∨ m = .shapley →
            ∃ rows : List (List K), b'.predictContributions data m = .ok (rows.flatten.map FX.fin) ∧
              (∀ r ∈ rows, r.length = data.cols + 1) ∧ out = rows.map fun r => FX.fin r.sum := by
  obtain ⟨f1, f2, _, f4⟩ := hb
  have hs : w.sum ≠ 0 := by
    obtain ⟨x, hx, hx0⟩ := hw
    exact (lt_of_lt_of_le hx0 (List.single_le_sum h.nonneg x hx)).ne'
  have hl : w.length = y.length := by rw [h.wlen, h.ylen]
  obtain ⟨b', hfit⟩ := (C62_fit h (baseOk_squared hi ho hl hs)
    (ev := none) ⟨by simp, by simp, .inr f2⟩).2 (by simp)
  refine ⟨b', hfit, fun data hd hc hr => ?_⟩
  obtain ⟨out, h1, h2⟩ := C62_predict h.rng hfit (.inr f4) data hd hc hr
  refine ⟨out, h1, h2, fun m hm => ?_⟩
  have hP : PlainFit env b X y w none b' l1 l2 mds lr :=
    { sorter := h.sorter, rng := h.rng, shaped := h.shaped, ylen := h.ylen, wlen := h.wlen, max := h.max
      minLeafWeight := h.minLeafWeight, l1_eq := h.l1_eq, l2_eq := h.l2_eq, mds_eq := h.mds_eq
      lr_eq := h.lr_eq, l2_nonneg := h.l2_nonneg, positive := h.positive, goss := fun e => (h.goss e).1
      exp := h.exp
      base := by
        intro s hb
        rw [if_pos hi, ho, calcInit, initSums_fin y w hl, Res.ok_bind] at hb
        simp only [FX.fin_div _ _ hs, Res.ok.injEq] at hb
        rw [← hb]; exact ⟨_, rfl⟩
      fit := hfit }
  exact C15_fitted hP data hd hc hr out h1 m hm

end exact

/-- **C62** (log loss, real arithmetic).  The same for the log loss, when both classes have weight. -/
theorem C62_logLoss {R' : Type} {env : Env R' R R} {b : Booster R R} {X : Matrix R} {y w : List ℝ}
    {l1 l2 mds lr : ℝ} (h : SafeArgs env b X y w l1 l2 mds lr) (hi : b.initializeBaseScore = true)
    (ho : b.objectiveType = .logLoss) (h0 : 0 < (List.zipWith (· * ·) w y).sum)
    (h1 : (List.zipWith (· * ·) w y).sum < w.sum) (hb : b.Fresh) :
    ∃ b', b.fit env X (y.map FX.fin) (w.map FX.fin) none = .ok (b', .ok ()) ∧
      ∀ data : Matrix R, data.Shaped → X.cols ≤ data.cols → (∀ v ∈ data.data, Readable b.missing v) →
        ∃ out, b'.predict data = .ok out ∧ out.length = data.rows ∧
          ∀ m : ContributionsMethod, m = .weight ∨ m = .average ∨ m = .shapley →
            ∃ rows : List (List ℝ), b'.predictContributions data m = .ok (rows.flatten.map FX.fin) ∧
              (∀ r ∈ rows, r.length = data.cols + 1) ∧ out = rows.map fun r => FX.fin r.sum := by
  obtain ⟨f1, f2, _, f4⟩ := hb
  have hl : w.length = y.length := by rw [h.wlen, h.ylen]
  have hS : (List.zipWith (· * ·) w y).sum = weightedSum y w := by
    unfold weightedSum
    rw [List.zipWith_comm]
  rw [hS] at h0 h1
  have hpos : 0 < weightedSum y w / (w.sum - weightedSum y w) := div_pos h0 (by linarith)
  have hc : calcInit .logLoss (y.map FX.fin : List R) (w.map FX.fin) =
      .ok (FX.fin (Real.log (weightedSum y w / (w.sum - weightedSum y w)))) := by
    rw [calcInit, initSums_fin y w hl, Res.ok_bind]
    simp only [FX.fin_sub, FX.fin_div _ _ (sub_pos.2 h1).ne', ln_real hpos]
  obtain ⟨b', hfit⟩ := (C62_fit h ⟨_, by rw [if_pos hi, ho]; exact hc⟩
    (ev := none) ⟨by simp, by simp, .inr f2⟩).2 (by simp)
  refine ⟨b', hfit, fun data hd hcc hr => ?_⟩
  obtain ⟨out, g1, g2⟩ := C62_predict h.rng hfit (.inr f4) data hd hcc hr
  refine ⟨out, g1, g2, fun m hm => ?_⟩
  have hP : PlainFit env b X y w none b' l1 l2 mds lr :=
    { sorter := h.sorter, rng := h.rng, shaped := h.shaped, ylen := h.ylen, wlen := h.wlen, max := h.max
      minLeafWeight := h.minLeafWeight, l1_eq := h.l1_eq, l2_eq := h.l2_eq, mds_eq := h.mds_eq
      lr_eq := h.lr_eq, l2_nonneg := h.l2_nonneg, positive := h.positive, goss := fun e => (h.goss e).1
      exp := h.exp
      base := by
        intro s hb
        rw [if_pos hi, ho, hc, Res.ok.injEq] at hb
        rw [← hb]; exact ⟨_, rfl⟩
      fit := hfit }
  exact C15_fitted hP data hd hcc hr out g1 m hm

/-! ### The hypotheses are met -/

/-- The example data and boosters with the stated parameters are safe. -/
theorem exSafe {b : Booster Q Q} {l1 l2 mds lr : ℚ} (h1 : b.l1 = FX.fin l1) (h2 : b.l2 = FX.fin l2)
    (h3 : b.maxDeltaStep = FX.fin mds) (h4 : b.learningRate = FX.fin lr) (h5 : 0 ≤ l2)
    (h6 : b.minLeafWeight = q 1) (h7 : b.sampleMethod = .none) (h8 : b.objectiveType = .squaredLoss)
    (h9 : b.missing = FX.nan) (h10 : 1 ≤ b.nbins ∧ b.nbins ≤ 65533)
    (h11 : b.createMissingBranch = false ∨ b.forceChildrenToBoundParent = false ∨
      (0 < l2 ∧ Uniform (fun f => b.constraintsMap.lookup f) (List.range exX.cols))) :
    SafeArgs exEnv b exX [0, 0, 1, 3, 3, 5] (List.replicate 6 (1 : ℚ)) l1 l2 mds lr where
  sorter := exSorter_ok
  rng := exRng_ok
  heap _ := exHeap_ok
  shaped := rfl
  ylen := rfl
  wlen := rfl
  nonneg := by simp
  max := by
    rw [h9]
    decide +kernel
  readable := by rw [h9]; exact fun _ _ => .inl rfl
  bins := h10
  minLeafWeight := by rw [h6]; decide
  l1_eq := h1
  l2_eq := h2
  mds_eq := h3
  lr_eq := h4
  l2_nonneg := h5
  positive := .inr ⟨h7, 1, by simp, by norm_num⟩
  goss := by rw [h7]; exact fun h => nomatch h
  exp := by rw [h8]; exact fun h => nomatch h
  free := h11

/-- Ternary splits, a monotone constraint, a limit on the step, the first evaluation set of two with a
missing value. -/
example : SafeArgs exEnv exLimited exX [0, 0, 1, 3, 3, 5] (List.replicate 6 (1 : ℚ)) 0 0 (1/2) (1/2) ∧
    BaseOk exLimited [0, 0, 1, 3, 3, 5] (List.replicate 6 (1 : ℚ)) ∧
    EvalArgs exX exLimited (some [{ data := exNew, y := [q 1, q 2], w := [q 1, q 1] },
      { data := exX, y := exY, w := exW }]) := by
  refine ⟨exSafe rfl rfl rfl rfl le_rfl rfl rfl rfl rfl (by decide) (.inr (.inl rfl)),
    ⟨(exLimited.baseScore).val, ?_⟩, ⟨by simp, ?_, .inr rfl⟩⟩
  · rfl
  · rintro es ⟨⟩ e he
    rcases List.mem_cons.1 he with rfl | he
    · exact ⟨rfl, le_rfl, fun _ _ => .inl rfl, by simp, by simp⟩
    · rw [List.mem_singleton] at he
      subst he
      exact ⟨rfl, le_rfl, fun _ _ => .inl rfl, by decide, by decide⟩

/-- Ternary splits with children forced to bound the parent, both features constrained. -/
def exForcedAll : Booster Q Q :=
  { exFresh with createMissingBranch := true, forceChildrenToBoundParent := true, l2 := q 1
                 monotoneConstraints := some [(0, .positive), (1, .negative)], initializeBaseScore := true }

example : SafeArgs exEnv exForcedAll exX [0, 0, 1, 3, 3, 5] (List.replicate 6 (1 : ℚ)) 0 1 0 (1/2) ∧
    exForcedAll.initializeBaseScore = true ∧ exForcedAll.objectiveType = .squaredLoss ∧ exForcedAll.Fresh := by
  refine ⟨exSafe rfl rfl rfl rfl zero_le_one rfl rfl rfl rfl (by decide)
    (.inr (.inr ⟨zero_lt_one, .inl ?_⟩)), rfl, rfl, rfl, rfl, rfl, rfl⟩
  intro f hf
  have : f < 2 := List.mem_range.1 hf
  interval_cases f
  · exact .inl rfl
  · exact .inr rfl

/-- A generator for real numbers. -/
noncomputable def realRng : Rng Nat R R :=
  { seed := id, genF := fun r => (0, r + 1), genD := fun r => (0, r + 1)
    choose := fun r l n => (l.take n, r + 1) }

/-- The environment of the example with real numbers. -/
noncomputable def realEnv : Env Nat R R :=
  { sorter := exSorter, heap := fun _ => { pick := fun _ l => exPick l }, rng := realRng }

/-- The log loss with default parameters, four rows, one of them missing. -/
theorem exReal_safe (b : Booster R R) (h1 : b.l1 = FX.fin 0) (h2 : b.l2 = FX.fin 1) (h3 : b.maxDeltaStep = FX.fin 0)
    (h4 : b.learningRate = FX.fin (3/10)) (h6 : b.minLeafWeight = FX.fin 1) (h7 : b.sampleMethod = .none)
    (h8 : b.missing = FX.nan) (h9 : b.nbins = 256) (h10 : b.forceChildrenToBoundParent = false) :
    SafeArgs realEnv b { data := [FX.fin 1, FX.nan, FX.fin 2, FX.fin 5], rows := 4, cols := 1 }
      [0, 1, 1, 0] [1, 1, 1, 1] 0 1 0 (3/10) ∧
    (0 : ℝ) < (List.zipWith (· * ·) [1, 1, 1, 1] [0, 1, 1, 0]).sum ∧
    (List.zipWith (· * ·) [1, 1, 1, 1] [0, 1, 1, 0]).sum < ([1, 1, 1, 1] : List ℝ).sum := by
  refine ⟨?_, by norm_num, by norm_num⟩
  exact
    { sorter := exSorter_ok
      rng := ⟨fun _ l n => ⟨l.take n, .refl _, List.take_sublist n l⟩, fun _ l n => by simp [realEnv, realRng]⟩
      heap := fun _ => exHeap_ok
      shaped := rfl, ylen := rfl, wlen := rfl
      nonneg := by simp
      max := by
        intro v hv hm
        have key : ∀ x : ℝ, x ≤ 8 → ((FX.fin x : R) ≤ᶠ Fl.maxv) = true := by
          intro x hx
          show decide (x ≤ (2 : ℝ) ^ 1024) = true
          refine decide_eq_true (hx.trans ?_)
          calc (8 : ℝ) = 2 ^ 3 := by norm_num
            _ ≤ 2 ^ 1024 := pow_le_pow_right₀ (by norm_num) (by norm_num)
        simp only [List.mem_cons, List.not_mem_nil, or_false] at hv
        rcases hv with rfl | rfl | rfl | rfl
        · exact key 1 (by norm_num)
        · rw [h8] at hm
          exact absurd (show IsMissing _ _ by simp [IsMissing]) hm
        · exact key 2 (by norm_num)
        · exact key 5 (by norm_num)
      readable := by rw [h8]; exact fun _ _ => .inl rfl
      bins := by rw [h9]; decide
      minLeafWeight := by rw [h6, FX.zero_def, FX.lt_fin]; simp
      l1_eq := h1, l2_eq := h2, mds_eq := h3, lr_eq := h4
      l2_nonneg := zero_le_one
      positive := .inl zero_lt_one
      goss := by rw [h7]; exact fun h => nomatch h
      exp := fun _ x => ⟨Real.exp x, rfl, Real.exp_pos x⟩
      free := .inr (.inl h10) }

end Verif
