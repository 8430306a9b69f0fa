import Verif.Proofs.TotalAny
import Verif.Proofs.Rounds
import Verif.Props.Total
import Verif.Spec.ExampleFloat

/-!
# C77: training does not panic in floating point arithmetic

C62 uses that the sums of a node are the sums over its rows, which rounding destroys: a split may be chosen
although one side of it has no rows, and a node may be given no rows.  The theorem here uses nothing about
sums.
-/

namespace Verif

open scoped Verif

set_option linter.unusedSectionVars false

section any
variable {R F D : Type} [Fl F] [Fl D] [FlCast F D]

/-- Arguments of a call of `fit` that cannot panic.  The targets, weights and parameters may be any
numbers, infinities or NaN except where stated. -/
structure AnyArgs (env : Env R F D) (b : Booster F D) (X : Matrix D) (y w : List D) : Prop where
  sorter : env.sorter.Ok
  rng : env.rng.Ok
  heap : ∀ i, (env.heap i).Ok
  shaped : X.Shaped
  ylen : y.length = X.rows
  wlen : w.length = X.rows
  readable : ∀ v ∈ X.data, Readable b.missing v
  bins : 1 ≤ b.nbins ∧ b.nbins ≤ 65533
  minLeafWeight : (0 <ᶠ b.minLeafWeight) = true
  goss : b.sampleMethod = .goss → Fl.toNat (b.topRate * Fl.ofNat X.rows) ≤ X.rows
  free : b.createMissingBranch = false ∨ b.forceChildrenToBoundParent = false

variable {env : Env R F D} {b : Booster F D} {X : Matrix D} {y w : List D}

theorem dedupF_ne_nil {l : List D} (h : l ≠ []) : dedupF l ≠ [] := by
  cases l with
  | nil => exact absurd rfl h
  | cons a l => simp [dedupF]

theorem initSums_total (h : y.length ≤ w.length) : ∃ s, initSums y w = .ok s := by
  unfold initSums
  have key : ∀ (l : List (D × Nat)) (s : D × D), (∀ p ∈ l, p.2 < w.length) →
      ∃ s', Res.foldM' (fun (s : D × D) (p : D × Nat) => do
        let wi ← idx w p.2
        .ok (s.1 + wi * p.1, s.2 + wi)) s l = .ok s' := by
    intro l
    induction l with
    | nil => intro s _; exact ⟨s, rfl⟩
    | cons p l ih =>
      intro s hl
      rw [Res.foldM'_cons, idx_of_lt (hl p (by simp)), Res.ok_bind, Res.ok_bind]
      exact ih _ fun q hq => hl q (by simp [hq])
  refine key _ _ fun p hp => ?_
  have := List.mem_zipIdx hp
  omega

theorem calcInit_total (o : ObjectiveType) (h : y.length ≤ w.length) : ∃ s, calcInit o y w = .ok s := by
  obtain ⟨s, hs⟩ := initSums_total h
  unfold calcInit
  rw [hs, Res.ok_bind]
  cases o <;> exact ⟨_, rfl⟩

variable [Fl.OrdLaws D] [Fl.ZeroLaws F D]

/-- The data of an iteration are fit for growing a tree. -/
theorem AnyArgs.ready (h : AnyArgs env b X y w) {binned : BinnedData D}
    (hb : binMatrix env.sorter X w b.nbins b.missing = .ok binned) {grad hess : List F} {cols : List Nat}
    (hg : grad.length = X.rows) (hh : hess.length = X.rows) (hs : cols.Pairwise (· < ·))
    (hc : ∀ c ∈ cols, c < X.cols) {cfg : GrowCfg F D} (hsp : cfg.splitter = b.splitter)
    (ht : cfg.train = trainOf X binned grad hess cols) (hp : cfg.heap.Ok) : Ready cfg X.rows := by
  have hw : X.rows ≤ w.length := h.wlen.ge
  obtain ⟨cutss, hB⟩ := binMatrix_binned h.shaped hw hb
  refine ⟨?_, by rw [ht]; exact hg, by rw [ht]; exact hh, ?_, ?_, ?_, hp.lt⟩
  · rw [ht]; exact trainOf_laid h.shaped hw hb hs hc
  · intro col hcol
    have hcol : col < X.cols := by rw [ht] at hcol; exact hc col hcol
    have hsh : cfg.train.data.Shaped := by
      rw [ht]
      show binned.binned.length = _
      rw [hB.size]; exact h.shaped
    have hgc := Matrix.getCol_eq hsh (j := col) (by rw [ht]; exact hcol)
    have hlt : col < cutss.length := by rw [hB.len]; exact hcol
    have hcu := hB.made col _ (List.getElem?_eq_getElem hlt)
    have hle : (X.column col).length ≤ w.length := by
      have := getCol_length (Matrix.getCol_eq h.shaped hcol)
      omega
    refine ⟨_, cutss[col], hgc, ?_, ?_, ?_, ?_⟩
    · rw [ht]
      show binned.cuts.getCol col = _
      rw [hB.jagged.getCol, List.getElem?_eq_getElem hlt]; rfl
    · obtain ⟨_, _, c, _, _, e⟩ := colCuts_form hle hcu
      rw [e]
      exact dedupF_ne_nil (by simp)
    · have := colCuts_length h.sorter hle hcu
      have := h.bins.2
      omega
    · rw [getCol_length hgc, ht]; rfl
  · rw [hsp]
    have : b.splitter.params.minLeafWeight = b.minLeafWeight := by
      unfold Booster.splitter; split <;> rfl
    rw [this]; exact h.minLeafWeight
  · refine evaluateSplit_total fun q hq => ?_
    rw [hsp] at hq
    unfold Booster.splitter at hq
    rcases h.free with h | h
    · rw [h] at hq; simp at hq
    · split at hq
      · cases hq; exact h
      · cases hq

/-- One iteration succeeds. -/
theorem AnyArgs.iteration (h : AnyArgs env b X y w) {binned : BinnedData D}
    (hb : binMatrix env.sorter X w b.nbins b.missing = .ok binned)
    {s : FitState R F D} (hsame : b.SameParams s.booster)
    (hpl : s.yhat.length = X.rows) (hg : s.grad.length = X.rows) (hh : s.hess.length = X.rows)
    (hev : EvalsOk X.cols s.booster s.evals) (i : Nat) :
    ∃ s' stop, fitIteration env X y w b.splitter
      { data := binned.binned, rows := X.rows, cols := X.cols } binned.cuts i s = .ok (s', stop) ∧
      b.SameParams s'.booster ∧ s'.yhat.length = X.rows ∧
      (stop = false → s'.grad.length = X.rows ∧ s'.hess.length = X.rows) ∧
      EvalsOk X.cols s'.booster s'.evals := by
  have hs0 := hsame
  unfold Booster.SameParams at hsame
  have e1 : s.booster.sampleMethod = b.sampleMethod := by rw [hsame]
  have e2 : s.booster.subsample = b.subsample := by rw [hsame]
  have e3 : s.booster.topRate = b.topRate := by rw [hsame]
  have e4 : s.booster.otherRate = b.otherRate := by rw [hsame]
  have e6 : s.booster.missing = b.missing := by rw [hsame]
  obtain ⟨rows, grad, hess, r1, hs⟩ := sampleIndex_total (g := env.rng) (m := b.sampleMethod)
    (ss := b.subsample) (a := b.topRate) (b := b.otherRate) (r := s.rng) h.sorter hg hh h.goss
  obtain ⟨s1, s2, s3, s4⟩ := sampleIndex_rows h.sorter hs
  generalize hsc : sampleColumns env.rng s.booster.colsampleBytree r1 X.cols = sc
  obtain ⟨cols, r2⟩ := sc
  obtain ⟨k1, k2, _⟩ := sampleColumns_sorted h.rng hsc
  generalize hcfg : ({ splitter := b.splitter
                       train := { data := { data := binned.binned, rows := X.rows, cols := X.cols }
                                  cuts := binned.cuts, grad, hess, colIndex := cols }
                       maxLeaves := s.booster.maxLeaves, maxDepth := s.booster.maxDepth
                       policy := s.booster.growPolicy, heap := env.heap i } : GrowCfg F D) = cfg
  have hR : Ready cfg X.rows := h.ready hb (by rw [s3, hg]) (by rw [s4, hh]) k1 k2
    (by rw [← hcfg]) (by rw [← hcfg]; rfl) (by rw [← hcfg]; exact h.heap i)
  obtain ⟨t, ht⟩ := hR.fit (sm := b.sampleMethod) s2 fun e => by
    rw [e] at hs
    simp only [sampleIndex, Res.ok.injEq, Prod.mk.injEq] at hs
    rw [← hs.1]; simp
  have hfb : t.FeaturesBelow X.cols := fun n hn hl => by
    have := Tree.fit_features ht n hn hl
    rw [← hcfg] at this
    exact k2 _ this
  obtain ⟨ps, hps⟩ := predict_readable (missing := b.missing) (Tree.fit_wf ht) h.shaped hfb h.readable
  obtain ⟨b', ev', best', stop, he, hev'⟩ := evalSets_total (i := i) (best := s.best) h.sorter
    (Tree.fit_wf ht) hfb hev
  have hok : ∃ s' , fitIteration env X y w b.splitter
      { data := binned.binned, rows := X.rows, cols := X.cols } binned.cuts i s = .ok (s', stop) ∧
      s'.yhat = addPreds s.yhat ps ∧ s'.evals = ev' ∧ s'.booster = { b' with trees := b'.trees ++ [t] } := by
    have hidx : X.index = List.range X.rows := rfl
    simp only [fitIteration, e1, e2, e3, e4, e6, hidx, hs, Res.ok_bind, hsc, hcfg, ht, hps, he]
    cases stop
    · exact ⟨_, rfl, rfl, rfl, rfl⟩
    · exact ⟨_, rfl, rfl, rfl, rfl⟩
  obtain ⟨s', hok, hy, hsv, hsb⟩ := hok
  obtain ⟨cfg', chosen, tree, preds, hI⟩ := fitIteration_ok hok
  have hyl : s'.yhat.length = X.rows := by rw [hy, length_addPreds, hpl]
  refine ⟨s', stop, hok, hs0.trans hI.same, hyl, ?_, ?_⟩
  · intro e
    have hgh := hI.grad_eq e
    obtain ⟨g1, g2⟩ := calcGradHess_length (F := F) s.booster.objectiveType y s'.yhat w (n := X.rows)
      h.ylen hyl h.wlen
    rw [← hgh] at g1 g2
    exact ⟨g1, g2⟩
  · rw [hsv, hsb]
    cases ev' with
    | none => trivial
    | some es => exact hev'

theorem AnyArgs.loop (h : AnyArgs env b X y w) {binned : BinnedData D}
    (hb : binMatrix env.sorter X w b.nbins b.missing = .ok binned) :
    ∀ (n i : Nat) (s : FitState R F D), b.SameParams s.booster → s.yhat.length = X.rows →
    s.grad.length = X.rows → s.hess.length = X.rows → EvalsOk X.cols s.booster s.evals →
    ∃ s', fitLoop env X y w b.splitter
      { data := binned.binned, rows := X.rows, cols := X.cols } binned.cuts n i s = .ok s' := by
  intro n
  induction n with
  | zero => intro i s _ _ _ _ _; exact ⟨s, rfl⟩
  | succ n ih =>
    intro i s hs hp hg hh hev
    obtain ⟨s', stop, h1, h2, h3, h4, h5⟩ := h.iteration hb hs hp hg hh hev i
    rw [fitLoop, h1, Res.ok_bind]
    cases stop with
    | true => exact ⟨s', rfl⟩
    | false => exact ih (i + 1) s' h2 h3 (h4 rfl).1 (h4 rfl).2 h5

theorem AnyArgs.trees (h : AnyArgs env b X y w) {ev : Option (List (EvalSet D))} (hev : EvalArgs X b ev) :
    ∃ b', fitTrees env b X y w b.splitter ev = .ok b' := by
  obtain ⟨binned, hb⟩ := binMatrix_total h.sorter (w := w) h.shaped h.wlen.ge h.readable
    (by have := h.bins.1; omega) h.bins.2
  have key : ∀ b1 : Booster F D, b1 = { b with
        trees := b1.trees, evaluationHistory := none, bestIteration := b1.bestIteration
        predictionIteration := b1.predictionIteration, baseScore := b1.baseScore } →
      ∃ b', (do
        let yhat := List.replicate y.length b1.baseScore
        let gh := calcGradHess (F := F) b1.objectiveType y yhat w
        let binned ← binMatrix env.sorter X w b1.nbins b1.missing
        let bdata : Matrix Nat := { data := binned.binned, rows := X.rows, cols := X.cols }
        let evals := ev.map fun es => es.map fun e =>
          { toEvalSet := e, yhat := List.replicate e.y.length b1.baseScore : TrainEval D }
        let s ← fitLoop env X y w b.splitter bdata binned.cuts b1.iterations 0
          { booster := b1, yhat, grad := gh.1, hess := gh.2, evals, best := none
            rng := env.rng.seed b1.seed }
        .ok s.booster) = Res.ok b' := by
    intro b1 h1
    have e2 : b1.nbins = b.nbins := by rw [h1]
    have e3 : b1.missing = b.missing := by rw [h1]
    have e4 : b1.splitter = b.splitter := by rw [h1]; rfl
    have e5 : b1.evaluationHistory = none := by rw [h1]
    have hS : AnyArgs env b1 X y w := by
      rw [h1]
      exact ⟨h.sorter, h.rng, h.heap, h.shaped, h.ylen, h.wlen, h.readable, h.bins, h.minLeafWeight,
        h.goss, h.free⟩
    have hb1 : binMatrix env.sorter X w b1.nbins b1.missing = .ok binned := by
      rw [e2, e3]; exact hb
    have hyl : (List.replicate y.length b1.baseScore).length = X.rows := by
      rw [List.length_replicate, h.ylen]
    obtain ⟨g1, g2⟩ := calcGradHess_length (F := F) b1.objectiveType y _ w h.ylen hyl h.wlen
    obtain ⟨s', hs'⟩ := hS.loop hb1 b1.iterations 0
      { booster := b1, yhat := List.replicate y.length b1.baseScore
        grad := (calcGradHess (F := F) b1.objectiveType y (List.replicate y.length b1.baseScore) w).1
        hess := (calcGradHess (F := F) b1.objectiveType y (List.replicate y.length b1.baseScore) w).2
        evals := ev.map fun es => es.map fun e =>
          { toEvalSet := e, yhat := List.replicate e.y.length b1.baseScore : TrainEval D }
        best := none, rng := env.rng.seed b1.seed } rfl hyl g1 g2 (by
        cases hv : ev with
        | none => trivial
        | some es =>
          refine ⟨?_, ?_, ?_⟩
          · intro e
            have : es = [] := by simpa using e
            exact hev.nonempty (by rw [hv, this])
          · intro e he
            simp only at he
            obtain ⟨e0, h0, rfl⟩ := List.mem_map.1 he
            exact ⟨by rw [e3]; exact hev.ok es hv e0 h0, by simp⟩
          · intro H hH
            rw [e5] at hH; cases hH)
    rw [e4] at hs'
    simp only [hb1, Res.ok_bind]
    simp only [hs', Res.ok_bind]
    exact ⟨_, rfl⟩
  unfold fitTrees
  have hstart : (if b.trees.isEmpty = true then b else b.reset) = { b with
        trees := (if b.trees.isEmpty = true then b else b.reset).trees, evaluationHistory := none
        bestIteration := (if b.trees.isEmpty = true then b else b.reset).bestIteration
        predictionIteration := (if b.trees.isEmpty = true then b else b.reset).predictionIteration } := by
    split
    · rename_i he
      rcases hev.fresh with hne | hh
      · exact absurd (List.isEmpty_iff.1 he) hne
      · rw [← hh]
    · rfl
  generalize (if b.trees.isEmpty = true then b else b.reset) = b0 at hstart
  have f1 : b0.initializeBaseScore = b.initializeBaseScore := by rw [hstart]
  have f2 : b0.objectiveType = b.objectiveType := by rw [hstart]
  by_cases hi : b.initializeBaseScore = true
  · obtain ⟨sc, hsc⟩ := calcInit_total (y := y) (w := w) b.objectiveType (by rw [h.ylen, h.wlen])
    have h1 := key { b0 with baseScore := sc } (by rw [hstart])
    simp only [f1, f2, hi, if_true, hsc, Res.ok_bind, Res.pure_def] at h1 ⊢
    exact h1
  · have h1 := key b0 (by rw [hstart])
    simp only [f1, f2, hi, Res.ok_bind, Res.pure_def] at h1 ⊢
    exact h1

/-- **C77** (training, any arithmetic in which `0 + 0 = 0`).  `fit` neither panics nor runs for ever: with
targets and weights that pass validation it returns a fitted booster, and else it reports the error. -/
theorem C77_fit (h : AnyArgs env b X y w) {ev : Option (List (EvalSet D))} (hev : EvalArgs X b ev) :
    (¬ BadInput y w ev → ∃ b', b.fit env X y w ev = .ok (b', .ok ())) ∧
    (BadInput y w ev → ∃ e, b.fit env X y w ev = .ok (b, .error e)) := by
  obtain ⟨b', hb'⟩ := h.trees hev
  refine ⟨fun hv => ⟨b', ?_⟩, fun hv => ?_⟩
  · rw [Booster.fit, (validateFit_ok _ _ _).2 hv]
    simp only [hb', Res.ok_bind]
  · unfold Booster.fit
    split
    · exact ⟨_, rfl⟩
    · rename_i e
      exact absurd hv ((validateFit_ok _ _ _).1 e)

/-- **C77** (prediction).  The booster obtained predicts on every matrix with the columns of the training
data and no NaN that is not the missing value. -/
theorem C77_predict (h : AnyArgs env b X y w) {ev : Option (List (EvalSet D))} (hev : EvalArgs X b ev)
    (hv : ¬ BadInput y w ev) (hb : b.Fresh) :
    ∃ b', b.fit env X y w ev = .ok (b', .ok ()) ∧
      ∀ data : Matrix D, data.Shaped → X.cols ≤ data.cols → (∀ v ∈ data.data, Readable b.missing v) →
        ∃ out, b'.predict data = .ok out ∧ out.length = data.rows := by
  obtain ⟨b', hfit⟩ := (C77_fit h hev).1 hv
  exact ⟨b', hfit, fun data hd hc hr => C62_predict h.rng hfit (.inr hb.2.2.2) data hd hc hr⟩

end any

/-! ### The hypotheses are met -/

instance : f32Fmt.Rounds := inferInstanceAs (Ieee.b32 _ _ _).Rounds

instance : f64Fmt.Rounds := inferInstanceAs (Ieee.b64 _ _ _).Rounds

theorem floatRng_ok : floatRng.Ok where
  subperm _ l n := ⟨l.take n, .refl _, List.take_sublist n l⟩
  length _ l n := by simp [floatRng, List.length_take]

/-- Arguments for a booster with the default parameters in `f32` and `f64`, GOSS or not. -/
theorem floatArgs {b : Booster F32 F64} (h1 : b.missing = FX.nan) (h2 : b.nbins = 256)
    (h3 : b.minLeafWeight = 1) (h4 : b.topRate = f64 (1 / 10))
    (h5 : b.forceChildrenToBoundParent = false) {X : Matrix F64} {y w : List F64}
    (hX : X.Shaped) (hy : y.length = X.rows) (hw : w.length = X.rows) (hr : X.rows = 4) :
    AnyArgs floatEnv b X y w where
  sorter := exSorter_ok
  rng := floatRng_ok
  heap _ := exHeap_ok
  shaped := hX
  ylen := hy
  wlen := hw
  readable := by rw [h1]; exact fun _ _ => .inl rfl
  bins := by rw [h2]; decide
  minLeafWeight := by rw [h3]; decide +kernel
  goss _ := by rw [h4, hr]; decide +kernel
  free := .inr h5

/-- The default booster in floating point, with weights that make the sums inexact, an infinite value, a
missing one, and an evaluation set. -/
example : ∃ b : Booster F32 F64, Booster.default F32 F64 = some b ∧ b.Fresh ∧
    AnyArgs floatEnv b { data := [f64 (1 / 10), FX.nan, FX.pinf, f64 5], rows := 4, cols := 1 }
      [f64 0, f64 1, f64 1, f64 0] [f64 (1 / 10), f64 (10 ^ 30), f64 (1 / 3), f64 7] ∧
    ¬ BadInput [f64 0, f64 1, f64 1, f64 0] [f64 (1 / 10), f64 (10 ^ 30), f64 (1 / 3), f64 7] none ∧
    EvalArgs { data := [f64 (1 / 10), FX.nan, FX.pinf, f64 5], rows := 4, cols := 1 } b none := by
  obtain ⟨b, h0, h1, h2, h3, h4, h5, h6⟩ : ∃ b : Booster F32 F64, Booster.default F32 F64 = some b ∧
      b.Fresh ∧ b.missing = FX.nan ∧ b.nbins = 256 ∧ b.minLeafWeight = 1 ∧ b.topRate = f64 (1 / 10) ∧
      b.forceChildrenToBoundParent = false := by
    have key : (match Booster.default F32 F64 with
        | some b => decide (b.trees.isEmpty = true ∧ b.evaluationHistory.isNone = true ∧ b.bestIteration = none ∧
            b.predictionIteration = none ∧ b.missing = FX.nan ∧ b.nbins = 256 ∧ b.minLeafWeight = 1 ∧
            b.topRate = f64 (1 / 10) ∧ b.forceChildrenToBoundParent = false)
        | none => false) = true := by decide +kernel
    split at key
    · rename_i b hb
      obtain ⟨h1, h2, h3, h4, h5⟩ := of_decide_eq_true key
      exact ⟨b, hb, ⟨List.isEmpty_iff.1 h1, Option.isNone_iff_eq_none.1 h2, h3, h4⟩, h5⟩
    · cases key
  refine ⟨b, h0, h1, floatArgs h2 h3 h4 h5 h6 rfl rfl rfl rfl, ?_, ⟨by simp, by simp, .inr h1.2.1⟩⟩
  rw [← validateFit_ok]
  decide +kernel

end Verif
