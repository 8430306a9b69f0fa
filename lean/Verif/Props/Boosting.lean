import Verif.Proofs.Evals
import Verif.Props.Predict
import Verif.Spec.ExampleFit
import Verif.Spec.Sorting

/-!
# C20–C23: the boosting loop

All theorems hold for any arithmetic; C20 needs the laws of the comparisons.
-/

namespace Verif

open scoped Verif

variable {F D : Type} [Fl F] [Fl D] [FlCast F D] {R : Type}

set_option linter.unusedSectionVars false

theorem predict_prefix {b : Booster F D} {data : Matrix D} {n k : Nat} {base : D} {out : List D}
    (hn : n = data.rows) (hb : b.baseScore = base) (hk : k ≤ b.trees.length)
    (h : predictFold b.missing data (List.replicate n base) (b.trees.take k) = .ok out) :
    ({ b with predictionIteration := some k }).predict data = .ok out := by
  subst hn hb
  rw [C19_prefix b data k hk, Booster.predict, Booster.predictionTrees]
  simp only [Option.getD_none, List.length_take, le_refl, if_true, Res.ok_bind]
  rw [List.take_of_length_le (by simp)]
  exact h

theorem addPreds_length : ∀ (a p : List D), (addPreds a p).length = a.length
  | [], _ => by simp [addPreds]
  | _ :: _, [] => by simp [addPreds]
  | _ :: a, _ :: p => by simp [addPreds, addPreds_length a p]

theorem predictFold_length {missing : D} {data : Matrix D} {ts : List (Tree F D)} :
    ∀ {start out : List D}, predictFold missing data start ts = .ok out →
      out.length = start.length := by
  induction ts with
  | nil => intro start out h; simp only [predictFold, Res.foldM', Res.ok.injEq] at h; rw [h]
  | cons t ts ih =>
    intro start out h
    rw [predictFold, Res.foldM'_cons, Res.bind_eq_ok] at h
    obtain ⟨a, h1, h2⟩ := h
    rw [Res.bind_eq_ok] at h1
    obtain ⟨p, _, h1⟩ := h1
    cases h1
    rw [ih h2, addPreds_length]

theorem FitTrace.final {env : Env R F D} {b b' : Booster F D} {data : Matrix D} {y w : List D}
    {ev : Option (List (EvalSet D))} {base : D} {binned : BinnedData D} {st : Nat → FitState R F D}
    {stop : Nat → Bool} {N : Nat} (h : FitTrace env b data y w ev b' base binned st stop N) :
    ({ b with baseScore := base } : Booster F D).SameParams b' := by
  rw [← h.last]; exact h.same N (le_refl _)

theorem flatten_get {α : Type} {n : Nat} : ∀ (rows : List (List α)) (k : Nat) (r : List α),
    rows[k]? = some r → (∀ r ∈ rows, r.length = n) → ∀ j < n, rows.flatten[n * k + j]? = r[j]? := by
  intro rows
  induction rows with
  | nil => intro k r hk; simp at hk
  | cons r rows ih =>
    intro k r' hk hl j hj
    have hr := hl r (by simp)
    cases k with
    | zero =>
      simp only [List.getElem?_cons_zero, Option.some.injEq] at hk
      subst hk
      rw [List.flatten_cons, Nat.mul_zero, Nat.zero_add, List.getElem?_append_left (by omega)]
    | succ k =>
      have e := ih k r' (by simpa using hk) (fun r h => hl r (List.mem_cons_of_mem _ h)) j hj
      rw [List.flatten_cons, List.getElem?_append_right (by rw [hr, Nat.mul_add]; omega), hr,
        show n * (k + 1) + j - n = n * k + j by rw [Nat.mul_add]; omega, e]

/-- Gradient of the objective for one row. -/
def ObjectiveType.gradOf (o : ObjectiveType) (y p w : D) : D :=
  match o with
  | .logLoss => logLossGrad y p w
  | .squaredLoss => squaredLossGrad y p w

/-- Hessian of the objective for one row. -/
def ObjectiveType.hessOf (o : ObjectiveType) (y p w : D) : D :=
  match o with
  | .logLoss => logLossHess y p w
  | .squaredLoss => squaredLossHess y p w

theorem calcGradHess_get (o : ObjectiveType) (y yhat w : List D) (i : Nat) {yi pi wi : D}
    (h1 : y[i]? = some yi) (h2 : yhat[i]? = some pi) (h3 : w[i]? = some wi) :
    (calcGradHess (F := F) o y yhat w).1[i]? = some (down (o.gradOf yi pi wi)) ∧
    (calcGradHess (F := F) o y yhat w).2[i]? = some (down (o.hessOf yi pi wi)) := by
  have hz : (zip3 y yhat w)[i]? = some (yi, pi, wi) := by
    simp [zip3, List.zip, List.getElem?_zipWith, h1, h2, h3]
  unfold calcGradHess
  rw [List.unzip_fst, List.unzip_snd, List.map_map, List.map_map, List.getElem?_map,
    List.getElem?_map, hz]
  cases o <;> exact ⟨rfl, rfl⟩

/-- **C22.**  Tree `k` of a fitted booster was grown from the gradients and hessians of the objective
at the predictions `p` that `predict` returns for the training data with the first `k` trees: before
sampling, row `i` has the gradient and the hessian of its target, its prediction and its weight. -/
theorem C22_gradients {env : Env R F D} {b b' : Booster F D} {data : Matrix D} {y w : List D}
    {ev : Option (List (EvalSet D))} (h : b.fit env data y w ev = .ok (b', .ok ()))
    (hy : y.length = data.rows) {k : Nat} {t : Tree F D} (ht : b'.trees[k]? = some t) :
    ∃ (p : List D) (g hs : List F) (cfg : GrowCfg F D) (rows : List Nat),
      ({ b' with predictionIteration := some k }).predict data = .ok p ∧
      p.length = data.rows ∧
      (∀ (i : Nat) (yi pi wi : D), y[i]? = some yi → p[i]? = some pi → w[i]? = some wi →
        g[i]? = some (down (b.objectiveType.gradOf yi pi wi)) ∧
        hs[i]? = some (down (b.objectiveType.hessOf yi pi wi))) ∧
      (∃ r1 r2, sampleIndex env.sorter env.rng b.sampleMethod b.subsample b.topRate b.otherRate r1
        data.index g hs = .ok (rows, cfg.train.grad, cfg.train.hess, r2)) ∧
      Tree.fit cfg b.sampleMethod rows = .ok t := by
  obtain ⟨base, binned, st, stop, N, hT⟩ := Booster.fit_trace h
  have hk : k < N := by rw [← hT.length]; exact (List.getElem?_eq_some_iff.1 ht).1
  obtain ⟨cfg, rows, hA⟩ := hT.treeAt ht
  have hf := hT.final
  unfold Booster.SameParams at hf
  refine ⟨(st k).yhat, _, _, cfg, rows, ?_, ?_, ?_, hA.sample, hA.fitted.fit⟩
  · refine predict_prefix hy (base := base) (by rw [hf]) (by rw [hT.length]; omega) ?_
    have := hT.yhat k (by omega)
    rw [show b'.missing = b.missing by rw [hf]]
    exact this
  · have := hT.yhat k (by omega)
    rw [predictFold_length this, List.length_replicate, hy]
  · intro i yi pi wi h1 h2 h3
    exact calcGradHess_get _ _ _ _ i h1 h2 h3

/-- **C21.**  After a fit with evaluation sets the history has one row per tree and one column per
set; the entry of row `k` and set `e` is the metric of the set, applied to the predictions of the model
with the first `k + 1` trees.  (A booster that has no trees but a history, which only a hand-edited
file gives, is excluded.) -/
theorem C21_history [Fl.OrdLaws D] {env : Env R F D} {b b' : Booster F D} {data : Matrix D}
    {y w : List D} {es : List (EvalSet D)}
    (h : b.fit env data y w (some es) = .ok (b', .ok ())) (hes : es ≠ [])
    (hsz : ∀ e ∈ es, e.y.length = e.data.rows)
    (hb : b.trees ≠ [] ∨ b.evaluationHistory = none) (hi : b'.trees ≠ []) :
    ∃ H, b'.evaluationHistory = some H ∧ H.rows = b'.trees.length ∧ H.cols = es.length ∧
      ∀ (k j : Nat) (e : EvalSet D), k < b'.trees.length → es[j]? = some e →
        ∃ p m, ({ b' with predictionIteration := some (k + 1) }).predict e.data = .ok p ∧
          b.metric.eval env.sorter e.y p e.w = .ok m ∧ H.get k j = .ok m := by
  obtain ⟨base, binned, st, stop, N, hT⟩ := Booster.fit_trace h
  obtain ⟨rows, hI, _⟩ := hT.evalInv hes N (le_refl _)
  have hstart : b.start.evaluationHistory = none := by
    unfold Booster.start
    split
    · rename_i hc
      rcases hb with hb | hb
      · exact absurd (List.isEmpty_iff.1 hc) hb
      · exact hb
    · rfl
  have hN : 0 < N := by
    rw [← hT.length]; exact List.length_pos_iff.2 hi
  have hH := hI.hist hstart hN
  rw [hT.last] at hH
  refine ⟨_, hH, hT.length.symm, rfl, ?_⟩
  intro k j e hk hj
  rw [hT.length] at hk
  have hf := hT.final
  unfold Booster.SameParams at hf
  have hk' : k < rows.length := by rw [hI.len]; exact hk
  have hrow := hI.row k _ (List.getElem?_eq_getElem hk')
  have hjl := (List.getElem?_eq_some_iff.1 hj).1
  have hjr : j < rows[k].length := by rw [← hrow.length_eq]; exact hjl
  obtain ⟨p, hp, hm⟩ := hrow.get hjl hjr
  have he : es.get ⟨j, hjl⟩ = e := by simpa using (List.getElem?_eq_some_iff.1 hj).2
  rw [he] at hp hm
  refine ⟨p, rows[k][j], ?_, hm, ?_⟩
  · refine predict_prefix (hsz e (List.mem_of_getElem? hj)) (base := base) (by rw [hf])
      (by rw [hT.length]; omega) ?_
    rw [show b'.missing = b.missing by rw [hf]]
    exact hp
  · unfold RowMajorMatrix.get
    rw [idx_eq_ok]
    simp only [Nat.mul_one]
    have hall : ∀ r ∈ rows, r.length = es.length := by
      intro r hr
      obtain ⟨i, hi, rfl⟩ := List.getElem_of_mem hr
      exact (hI.row i _ (List.getElem?_eq_getElem hi)).length_eq.symm
    rw [flatten_get rows k _ (List.getElem?_eq_getElem hk') hall _ hjl, List.getElem?_eq_getElem hjr]

/-- **C21** (no evaluation sets): the history stays as it was, empty for a fresh or refitted
booster. -/
theorem C21_none {env : Env R F D} {b b' : Booster F D} {data : Matrix D} {y w : List D}
    (h : b.fit env data y w none = .ok (b', .ok ()))
    (hb : b.trees ≠ [] ∨ b.evaluationHistory = none) : b'.evaluationHistory = none := by
  obtain ⟨base, binned, st, stop, N, hT⟩ := Booster.fit_trace h
  have key : ∀ k, k ≤ N → (st k).evals = none ∧
      (st k).booster.evaluationHistory = b.start.evaluationHistory := by
    intro k
    induction k with
    | zero => intro _; rw [hT.start]; exact ⟨rfl, rfl⟩
    | succ k ih =>
      intro hk
      obtain ⟨e1, e2⟩ := ih (by omega)
      obtain ⟨tree, b4, f1, f2, f3⟩ := fitIteration_eval (hT.step k (by omega))
      rw [e1] at f2
      simp only [evalSets, Res.ok.injEq, Prod.mk.injEq] at f2
      obtain ⟨rfl, f4, _⟩ := f2
      exact ⟨f4.symm, by rw [f3]; exact e2⟩
  rw [← hT.last, (key N (le_refl _)).2]
  unfold Booster.start
  split
  · rename_i hc
    rcases hb with hb | hb
    · exact absurd (List.isEmpty_iff.1 hc) hb
    · exact hb
  · rfl

/-- **C20.**  Fit with early stopping and at least one iteration.  Let `ms` be the metrics recorded for
the last evaluation set.  The best iteration is the first position of `ms` that no other beats (NaN is
beaten by every number), predictions use the trees up to and including it, and training stopped on
time: no iteration before the last one was `rounds` or more past the best of its time without being
the best itself, and if fewer than `iterations` trees were grown then the last iteration was. -/
theorem C20_early_stopping [Fl.OrdLaws D] {env : Env R F D} {b b' : Booster F D} {data : Matrix D}
    {y w : List D} {es : List (EvalSet D)} {rounds : Nat}
    (h : b.fit env data y w (some es) = .ok (b', .ok ())) (hes : es ≠ [])
    (hr : b.earlyStoppingRounds = some rounds)
    (hb : b.trees ≠ [] ∨ b.evaluationHistory = none) (hi : b'.trees ≠ []) :
    ∃ H ms best, b'.evaluationHistory = some H ∧ ms.length = b'.trees.length ∧
      (∀ k m, ms[k]? = some m → H.get k (es.length - 1) = .ok m) ∧
      b'.bestIteration = some best ∧ b'.predictionIteration = some (best + 1) ∧
      FirstBestAt b.metric.maximize ms best ∧
      (∀ k, k + 1 < b'.trees.length → ∀ c, FirstBestAt b.metric.maximize (ms.take (k + 1)) c →
        c = k ∨ k - c < rounds) ∧
      (b'.trees.length < b.iterations →
        best ≠ b'.trees.length - 1 ∧ rounds ≤ b'.trees.length - 1 - best) := by
  obtain ⟨base, binned, st, stop, N, hT⟩ := Booster.fit_trace h
  obtain ⟨rows, hI, hS⟩ := hT.evalInv hes N (le_refl _)
  obtain ⟨ms, c1, c2, c3⟩ := hS rounds hr
  have hstart : b.start.evaluationHistory = none := by
    unfold Booster.start
    split
    · rename_i hc
      rcases hb with hb | hb
      · exact absurd (List.isEmpty_iff.1 hc) hb
      · exact hb
    · rfl
  have hN : 0 < N := by
    rw [← hT.length]; exact List.length_pos_iff.2 hi
  have hH := hI.hist hstart hN
  rw [hT.last] at hH
  obtain ⟨bi, x, d1, d2, d3, d4, d5⟩ := c2.best hN
  rw [hT.last] at d1 d2
  refine ⟨_, ms, bi, hH, by rw [c2.len, hT.length], ?_, d1, d2, d5, ?_, ?_⟩
  · intro k m hm
    have hk : k < ms.length := (List.getElem?_eq_some_iff.1 hm).1
    have hk' : k < rows.length := by rw [c1.length_eq]; exact hk
    have hl := c1.get hk' hk
    have hmk : ms.get ⟨k, hk⟩ = m := by simpa using (List.getElem?_eq_some_iff.1 hm).2
    rw [hmk] at hl
    have hall : ∀ r ∈ rows, r.length = es.length := by
      intro r hr
      obtain ⟨i, hi, rfl⟩ := List.getElem_of_mem hr
      exact (hI.row i _ (List.getElem?_eq_getElem hi)).length_eq.symm
    have hpos : 0 < es.length := List.length_pos_iff.2 hes
    unfold RowMajorMatrix.get
    rw [idx_eq_ok]
    simp only [Nat.mul_one]
    rw [flatten_get rows k _ (List.getElem?_eq_getElem hk') hall _ (by omega)]
    simp only [List.get_eq_getElem] at hl
    rw [List.getLast?_eq_getElem?, hall _ (List.getElem_mem hk')] at hl
    exact hl
  · intro k hk c hc
    rw [hT.length] at hk
    obtain ⟨bi', e1, e2⟩ := c3 k (by omega)
    obtain rfl := e1.unique hc
    rw [hT.cont k hk] at e2
    by_contra hcon
    have : (false : Bool) = true := e2.2 ⟨by omega, by omega⟩
    cases this
  · intro hlt
    rw [hT.length] at hlt ⊢
    obtain ⟨_, e0⟩ := hT.ended hlt
    obtain ⟨bi', e1, e2⟩ := c3 (N - 1) (by omega)
    rw [List.take_of_length_le (by rw [c2.len]; omega)] at e1
    obtain rfl := e1.unique d5
    exact e2.1 e0

/-- **C20** (every iteration runs without early stopping): without evaluation sets all `iterations`
trees are grown. -/
theorem C20_no_evaluation {env : Env R F D} {b b' : Booster F D} {data : Matrix D} {y w : List D}
    (h : b.fit env data y w none = .ok (b', .ok ())) : b'.trees.length = b.iterations := by
  obtain ⟨base, binned, st, stop, N, hT⟩ := Booster.fit_trace h
  rw [hT.length]
  by_contra hc
  obtain ⟨hN, hs⟩ := hT.ended (by have := hT.le; omega)
  have key : ∀ k, k ≤ N → (st k).evals = none := by
    intro k
    induction k with
    | zero => intro _; rw [hT.start]; rfl
    | succ k ih =>
      intro hk
      have e1 := ih (by omega)
      obtain ⟨tree, b4, f1, f2, f3⟩ := fitIteration_eval (hT.step k (by omega))
      rw [e1] at f2
      simp only [evalSets, Res.ok.injEq, Prod.mk.injEq] at f2
      exact f2.2.1.symm
  obtain ⟨tree, b4, f1, f2, f3⟩ := fitIteration_eval (hT.step (N - 1) (by omega))
  rw [key (N - 1) (by omega)] at f2
  simp only [evalSets, Res.ok.injEq, Prod.mk.injEq] at f2
  rw [hs] at f2
  exact Bool.noConfusion f2.2.2.2

/-- What a constructor gives: no trees, no history, no best iteration, no prediction iteration. -/
def Booster.Fresh (b : Booster F D) : Prop :=
  b.trees = [] ∧ b.evaluationHistory = none ∧ b.bestIteration = none ∧ b.predictionIteration = none

/-- **C23.**  Fitting a booster that has trees gives what fitting a freshly constructed booster with
the same parameters gives, whatever the data, with the same outcome. -/
theorem C23_refit {env : Env R F D} {b : Booster F D} {data : Matrix D} {y w : List D}
    {ev : Option (List (EvalSet D))} (hb : b.trees ≠ []) {c : Booster F D} (hc : c.Fresh)
    (hsame : b.SameParams c) (hv : validateFit y w ev = .ok ()) :
    b.fit env data y w ev = c.fit env data y w ev := by
  obtain ⟨h1, h2, h3, h4⟩ := hc
  have hcb : c = b.reset := by
    unfold Booster.SameParams at hsame
    rw [hsame, h1, h2, h3, h4]; rfl
  have hs : c.splitter = b.splitter := by rw [hcb]; rfl
  unfold Booster.fit
  rw [hv, hs]
  simp only
  have : fitTrees env b data y w b.splitter ev = fitTrees env c data y w b.splitter ev := by
    rw [hcb]
    unfold fitTrees
    have e1 : b.trees.isEmpty = false := by
      cases hbt : b.trees with
      | nil => exact absurd hbt hb
      | cons _ _ => rfl
    have e2 : b.reset.trees.isEmpty = true := rfl
    rw [e1, e2]
    rfl
  rw [this]

/-- **C23** (fitting twice): if a fresh booster was fitted, then fitting the result again, on the same
or on other data, gives what fitting the fresh booster on these data gives. -/
theorem C23_again {env env' : Env R F D} {b b' : Booster F D} {data data' : Matrix D}
    {y w y' w' : List D} {ev ev' : Option (List (EvalSet D))} (hb : b.Fresh)
    (h : b.fit env data y w ev = .ok (b', .ok ())) (hv : validateFit y' w' ev' = .ok ()) :
    b'.fit env' data' y' w' ev' = b.fit env' data' y' w' ev' := by
  obtain ⟨h1, h2, h3, h4⟩ := hb
  obtain ⟨base, binned, st, stop, N, hT⟩ := Booster.fit_trace h
  have hf := hT.final
  unfold Booster.SameParams at hf
  have hsp : b'.splitter = b.splitter := by rw [hf]; rfl
  have hreset : b.start = b := by
    unfold Booster.start; rw [h1]; rfl
  have hb'start : b'.start = { b with baseScore := base } := by
    by_cases ht : b'.trees = []
    · have hN : N = 0 := by rw [← hT.length, ht]; rfl
      subst hN
      have e := hT.last
      rw [hT.start, hreset] at e
      rw [← e]
      change ({ b with baseScore := base } : Booster F D).start = _
      unfold Booster.start
      rw [show ({ b with baseScore := base } : Booster F D).trees = [] from h1]
      rfl
    · unfold Booster.start
      have : b'.trees.isEmpty = false := by
        cases hbt : b'.trees with
        | nil => exact absurd hbt ht
        | cons _ _ => rfl
      rw [this]
      simp only [Bool.false_eq_true, if_false]
      unfold Booster.reset
      rw [hf]
      cases b
      simp only at h1 h2 h3 h4
      subst h1 h2 h3 h4
      rfl
  unfold Booster.fit
  rw [hv, hsp]
  simp only
  have : fitTrees env' b' data' y' w' b.splitter ev' = fitTrees env' b data' y' w' b.splitter ev' := by
    unfold fitTrees
    change (do
      let b ← if b'.start.initializeBaseScore then do
          let s ← calcInit b'.start.objectiveType y' w'
          pure { b'.start with baseScore := s }
        else pure b'.start
      _) = (do
      let b ← if b.start.initializeBaseScore then do
          let s ← calcInit b.start.objectiveType y' w'
          pure { b.start with baseScore := s }
        else pure b.start
      _)
    rw [hb'start, hreset]
    simp only
    split
    · rfl
    · rename_i hi
      have := hT.base_eq
      rw [if_neg hi] at this
      rw [this]
  rw [this]

/-! ## Examples -/

/-- Two evaluation sets: the training data and another target for them. -/
def exSets : List (EvalSet Q) :=
  [{ data := exX, y := exY, w := exW },
   { data := exX, y := [q 0, q 0, q 1, q 1, q 2, q 1], w := exW }]

/-- Up to five iterations, stopping one iteration after the best. -/
def exStop : Booster Q Q :=
  { exFresh with iterations := 5, earlyStoppingRounds := some 1, evaluationHistory := none
                 bestIteration := none, predictionIteration := none, initializeBaseScore := true }

/-- The fit stops before the fifth iteration and the best iteration is not the last. -/
example : ∃ b' : Booster Q Q, exStop.fit exEnv exX exY exW (some exSets) = .ok (b', .ok ()) ∧
    exSets ≠ [] ∧ exStop.earlyStoppingRounds = some 1 ∧ exStop.Fresh ∧ b'.trees ≠ [] ∧
    b'.trees.length < 5 ∧ b'.bestIteration ≠ some (b'.trees.length - 1) ∧
    exY.length = exX.rows ∧ (∀ e ∈ exSets, e.y.length = e.data.rows) ∧
    validateFit exY exW (some exSets) = .ok () := by
  have : (match exStop.fit exEnv exX exY exW (some exSets) with
      | .ok (b', .ok ()) => decide (b'.trees.length < 5) && !b'.trees.isEmpty &&
        decide (b'.bestIteration ≠ some (b'.trees.length - 1))
      | _ => false) = true := by decide +kernel
  split at this
  · rename_i b' h
    simp only [Bool.and_eq_true, decide_eq_true_eq, Bool.not_eq_true', List.isEmpty_eq_false_iff] at this
    refine ⟨b', h, by decide +kernel, rfl, ⟨rfl, rfl, rfl, rfl⟩, this.1.2, this.1.1, this.2, rfl, ?_, ?_⟩
    · intro e he
      simp only [exSets, List.mem_cons, List.not_mem_nil, or_false] at he
      rcases he with rfl | rfl <;> rfl
    · have : (match validateFit exY exW (some exSets) with | .ok () => true | _ => false) = true := by
        decide +kernel
      split at this
      · assumption
      · cases this
  · cases this

end Verif
