import Verif.Proofs.Fit

/-!
# The boosting loop
-/

namespace Verif

open scoped Verif

variable {F D : Type} [Fl F] [Fl D] [FlCast F D] {R : Type}

set_option linter.unusedSectionVars false

/-- Two boosters that differ at most in what fitting writes. -/
def Booster.SameParams (b b' : Booster F D) : Prop :=
  b' = { b with trees := b'.trees, evaluationHistory := b'.evaluationHistory
                bestIteration := b'.bestIteration, predictionIteration := b'.predictionIteration }

theorem Booster.SameParams.refl (b : Booster F D) : b.SameParams b := rfl

theorem Booster.SameParams.trans {a b c : Booster F D} (h : a.SameParams b) (h' : b.SameParams c) :
    a.SameParams c := by
  unfold Booster.SameParams at *
  rw [h', h]

theorem earlyStopUpdate_same (b : Booster F D) (i : Nat) (m : D) (mx : Bool) (best : Option D)
    (stop : Bool) : b.SameParams (earlyStopUpdate b i m mx best stop).1 ∧
      (earlyStopUpdate b i m mx best stop).1.trees = b.trees ∧
      (earlyStopUpdate b i m mx best stop).1.evaluationHistory = b.evaluationHistory := by
  unfold earlyStopUpdate
  split
  · exact ⟨rfl, rfl, rfl⟩
  · split
    · exact ⟨rfl, rfl, rfl⟩
    · split
      · exact ⟨rfl, rfl, rfl⟩
      · split <;> exact ⟨rfl, rfl, rfl⟩

theorem evalLoop_same {S : Sorter} {t : Tree F D} {i n : Nat} : ∀ (l : List (TrainEval D)) (k : Nat)
    (b : Booster F D) (best : Option D) (stop : Bool) es ms b' best' stop',
    evalLoop S t i n l k b best stop = .ok (es, ms, b', best', stop') →
    b.SameParams b' ∧ b'.trees = b.trees ∧ b'.evaluationHistory = b.evaluationHistory := by
  intro l
  induction l with
  | nil =>
    intro k b best stop es ms b' best' stop' h
    simp only [evalLoop, Res.ok.injEq, Prod.mk.injEq] at h
    obtain ⟨_, _, rfl, _, _⟩ := h
    exact ⟨rfl, rfl, rfl⟩
  | cons e l ih =>
    intro k b best stop es ms b' best' stop' h
    simp only [evalLoop, Res.bind_eq_ok] at h
    obtain ⟨preds, _, m, _, h⟩ := h
    split at h
    all_goals
      simp only [Prod.exists, Res.ok.injEq, Prod.mk.injEq] at h
      obtain ⟨es1, ms1, b2, best2, stop2, h1, rfl, rfl, rfl, rfl, rfl⟩ := h
      obtain ⟨a1, a2, a3⟩ := ih _ _ _ _ _ _ _ _ _ h1
    · have hb := earlyStopUpdate_same b i m b.metric.maximize best stop
      exact ⟨hb.1.trans a1, a2.trans hb.2.1, a3.trans hb.2.2⟩
    · exact ⟨a1, a2, a3⟩

theorem withHistory_same (b : Booster F D) (n : Nat) :
    b.SameParams (withHistory b n) ∧ (withHistory b n).trees = b.trees := by
  unfold withHistory
  split <;> exact ⟨rfl, rfl⟩

theorem appendHistory_same {b b' : Booster F D} {ms : List D} (h : appendHistory b ms = .ok b') :
    b.SameParams b' ∧ b'.trees = b.trees := by
  unfold appendHistory at h
  split at h
  · cases h; exact ⟨rfl, rfl⟩
  · simp only [Res.bind_eq_ok, Res.pure_def, Res.ok.injEq] at h
    obtain ⟨_, _, rfl⟩ := h
    exact ⟨rfl, rfl⟩

theorem evalSets_same {S : Sorter} {t : Tree F D} {i : Nat} {b b' : Booster F D}
    {ev ev' : Option (List (TrainEval D))} {best best' : Option D} {stop : Bool}
    (h : evalSets S t i b ev best = .ok (b', ev', best', stop)) :
    b.SameParams b' ∧ b'.trees = b.trees := by
  cases ev with
  | none =>
    simp only [evalSets, Res.ok.injEq, Prod.mk.injEq] at h
    obtain ⟨rfl, _⟩ := h
    exact ⟨rfl, rfl⟩
  | some es =>
    simp only [evalSets] at h
    rw [Res.bind_eq_ok] at h
    obtain ⟨⟨es', ms, b2, best2, stop2⟩, he, h⟩ := h
    simp only [Res.bind_eq_ok, Res.ok.injEq, Prod.mk.injEq] at h
    obtain ⟨b3, h3, rfl, _⟩ := h
    obtain ⟨a1, a2, _⟩ := evalLoop_same _ _ _ _ _ _ _ _ _ _ he
    obtain ⟨c1, c2⟩ := withHistory_same b es.length
    obtain ⟨d1, d2⟩ := appendHistory_same h3
    exact ⟨(c1.trans a1).trans d1, d2.trans (a2.trans c2)⟩

/-- What a successful iteration does (apart from the evaluation sets). -/
structure IterStep (env : Env R F D) (data : Matrix D) (y w : List D) (splitter : Splitter F)
    (bdata : Matrix Nat) (cuts : JaggedMatrix D) (i : Nat) (s s' : FitState R F D) (stop : Bool)
    (cfg : GrowCfg F D) (chosen : List Nat) (tree : Tree F D) (preds : List D) : Prop where
  sample : ∃ r1 r2, sampleIndex env.sorter env.rng s.booster.sampleMethod s.booster.subsample
      s.booster.topRate s.booster.otherRate s.rng data.index s.grad s.hess
      = .ok (chosen, cfg.train.grad, cfg.train.hess, r1) ∧
    sampleColumns env.rng s.booster.colsampleBytree r1 data.cols = (cfg.train.colIndex, r2) ∧
    s'.rng = r2
  cfg_eq : cfg = { splitter, train := { data := bdata, cuts, grad := cfg.train.grad
                                        hess := cfg.train.hess, colIndex := cfg.train.colIndex }
                   maxLeaves := s.booster.maxLeaves, maxDepth := s.booster.maxDepth
                   policy := s.booster.growPolicy, heap := env.heap i }
  tree_eq : Tree.fit cfg s.booster.sampleMethod chosen = .ok tree
  preds_eq : tree.predict data s.booster.missing = .ok preds
  yhat_eq : s'.yhat = addPreds s.yhat preds
  trees_eq : s'.booster.trees = s.booster.trees ++ [tree]
  same : s.booster.SameParams s'.booster
  grad_eq : stop = false →
    (s'.grad, s'.hess) = calcGradHess s.booster.objectiveType y s'.yhat w

theorem fitIteration_ok {env : Env R F D} {data : Matrix D} {y w : List D} {splitter : Splitter F}
    {bdata : Matrix Nat} {cuts : JaggedMatrix D} {i : Nat} {s s' : FitState R F D} {stop : Bool}
    (h : fitIteration env data y w splitter bdata cuts i s = .ok (s', stop)) :
    ∃ cfg chosen tree preds,
      IterStep env data y w splitter bdata cuts i s s' stop cfg chosen tree preds := by
  simp only [fitIteration] at h
  rw [Res.bind_eq_ok] at h
  obtain ⟨⟨chosen, grad, hess, r1⟩, h1, h⟩ := h
  simp only at h
  generalize hsc : sampleColumns env.rng s.booster.colsampleBytree r1 data.cols = sc at h
  obtain ⟨colIndex, r2⟩ := sc
  simp only at h
  rw [Res.bind_eq_ok] at h
  obtain ⟨tree, h2, h⟩ := h
  rw [Res.bind_eq_ok] at h
  obtain ⟨preds, h3, h⟩ := h
  have fin : ∀ (b' : Booster F D) (evals : Option (List (TrainEval D))) (best : Option D) (st : Bool),
      s.booster.SameParams b' → b'.trees = s.booster.trees →
      (let b := { b' with trees := b'.trees ++ [tree] }
       if st then Res.ok ({ booster := b, yhat := addPreds s.yhat preds, grad, hess, evals, best
                            rng := r2 : FitState R F D }, true)
       else
        let gh := calcGradHess b.objectiveType y (addPreds s.yhat preds) w
        .ok ({ booster := b, yhat := addPreds s.yhat preds, grad := gh.1, hess := gh.2, evals, best
               rng := r2 }, false)) = .ok (s', stop) →
      ∃ cfg chosen tree preds,
        IterStep env data y w splitter bdata cuts i s s' stop cfg chosen tree preds := by
    intro b' evals best st hsame htrees h
    have hs2 : s.booster.SameParams { b' with trees := b'.trees ++ [tree] } := by
      unfold Booster.SameParams at *
      rw [hsame]
    have hobj : b'.objectiveType = s.booster.objectiveType := by
      unfold Booster.SameParams at hsame; rw [hsame]
    refine ⟨_, chosen, tree, preds, ⟨⟨r1, r2, h1, hsc, ?_⟩, rfl, h2, h3, ?_, ?_, ?_, ?_⟩⟩
    all_goals
      simp only at h
      split at h
      · rename_i hst
        simp only [Res.ok.injEq, Prod.mk.injEq] at h
        obtain ⟨rfl, rfl⟩ := h
        first
        | rfl
        | exact hs2
        | exact congrArg (· ++ [tree]) htrees
        | exact fun h => absurd h (by simp)
      · rename_i hst
        simp only [Res.ok.injEq, Prod.mk.injEq] at h
        obtain ⟨rfl, rfl⟩ := h
        first
        | rfl
        | exact hs2
        | exact congrArg (· ++ [tree]) htrees
        | exact fun _ => by simp only [hobj]
  rw [Res.bind_eq_ok] at h
  obtain ⟨⟨b4, evals4, best4, stop4⟩, h4, h⟩ := h
  obtain ⟨c1, c2⟩ := evalSets_same h4
  exact fin b4 evals4 best4 stop4 c1 c2 h

/-- Induction principle for the boosting loop: `P i stop s` after `i` iterations. -/
theorem fitLoop_induct {env : Env R F D} {data : Matrix D} {y w : List D} {splitter : Splitter F}
    {bdata : Matrix Nat} {cuts : JaggedMatrix D} {P : Nat → Bool → FitState R F D → Prop}
    (step : ∀ i s s' stop, P i false s →
      fitIteration env data y w splitter bdata cuts i s = .ok (s', stop) → P (i + 1) stop s') :
    ∀ n i s s', P i false s → fitLoop env data y w splitter bdata cuts n i s = .ok s' →
      ∃ j stop, i ≤ j ∧ j ≤ i + n ∧ P j stop s' ∧ (stop = false → j = i + n) := by
  intro n
  induction n with
  | zero =>
    intro i s s' hP h
    simp only [fitLoop, Res.ok.injEq] at h
    subst h
    exact ⟨i, false, le_refl _, by omega, hP, fun _ => rfl⟩
  | succ n ih =>
    intro i s s' hP h
    simp only [fitLoop, Res.bind_eq_ok, Prod.exists] at h
    obtain ⟨s1, stop, h1, h⟩ := h
    have hP1 := step i s s1 stop hP h1
    cases stop with
    | true =>
      simp only [if_true, Res.ok.injEq] at h
      subst h
      exact ⟨i + 1, true, by omega, by omega, hP1, fun h => by cases h⟩
    | false =>
      simp only [Bool.false_eq_true, if_false] at h
      obtain ⟨j, st, a1, a2, a3, a4⟩ := ih (i + 1) s1 s' hP1 h
      exact ⟨j, st, by omega, by omega, a3, fun h => by have := a4 h; omega⟩

/-- The tree was fitted by the booster `b` on the binned data `bdata` with cuts `cuts`: the growing
parameters come from `b`, the columns were sampled from `0..cols`, the rows were sampled. -/
structure FittedBy (env : Env R F D) (b : Booster F D) (data : Matrix D) (bdata : Matrix Nat)
    (cuts : JaggedMatrix D) (t : Tree F D) (cfg : GrowCfg F D) (rows : List Nat) : Prop where
  fit : Tree.fit cfg b.sampleMethod rows = .ok t
  splitter : cfg.splitter = b.splitter
  maxLeaves : cfg.maxLeaves = b.maxLeaves
  maxDepth : cfg.maxDepth = b.maxDepth
  policy : cfg.policy = b.growPolicy
  data_eq : cfg.train.data = bdata
  cuts_eq : cfg.train.cuts = cuts
  columns : ∃ r1 r2, sampleColumns env.rng b.colsampleBytree r1 data.cols = (cfg.train.colIndex, r2)
  sample : ∃ grad hess r1 r2, sampleIndex env.sorter env.rng b.sampleMethod b.subsample b.topRate
    b.otherRate r1 data.index grad hess = .ok (rows, cfg.train.grad, cfg.train.hess, r2)

/-- Every tree of a fitted booster comes from `Tree::fit` with the booster's parameters. -/
theorem Booster.fit_trees {env : Env R F D} {b b' : Booster F D} {data : Matrix D} {y w : List D}
    {ev : Option (List (EvalSet D))} (h : b.fit env data y w ev = .ok (b', .ok ())) :
    ∃ binned, binMatrix env.sorter data w b.nbins b.missing = .ok binned ∧
      ∀ t ∈ b'.trees, ∃ cfg rows, FittedBy env b data
        { data := binned.binned, rows := data.rows, cols := data.cols } binned.cuts t cfg rows := by
  unfold Booster.fit at h
  split at h
  · cases h
  · simp only [Res.bind_eq_ok, Res.ok.injEq, Prod.mk.injEq, and_true] at h
    obtain ⟨b1, h, rfl⟩ := h
    obtain ⟨base, binned, s, hb, hbin, hl, rfl⟩ := fitTrees_eq_ok.1 h
    refine ⟨binned, hbin, ?_⟩
    have hstart : ({ b with baseScore := base } : Booster F D).SameParams
        { b.start with baseScore := base } := by
      unfold Booster.SameParams
      rw [b.start_eq]
    obtain ⟨j, stop, _, _, hP, _⟩ := fitLoop_induct
      (P := fun _ _ (s : FitState R F D) =>
        ({ b with baseScore := base } : Booster F D).SameParams s.booster ∧
        ∀ t ∈ s.booster.trees, ∃ cfg rows, FittedBy env b data
          { data := binned.binned, rows := data.rows, cols := data.cols } binned.cuts t cfg rows)
      (by
        intro i s s' stop hP h
        obtain ⟨cfg, chosen, tree, preds, hI⟩ := fitIteration_ok h
        refine ⟨hP.1.trans hI.same, ?_⟩
        intro t ht
        rw [hI.trees_eq, List.mem_append] at ht
        rcases ht with ht | ht
        · exact hP.2 t ht
        · rw [List.mem_singleton] at ht
          subst ht
          have hsame := hP.1
          unfold Booster.SameParams at hsame
          have hc := hI.cfg_eq
          obtain ⟨r1, r2, h1, h2, h3⟩ := hI.sample
          have hfit := hI.tree_eq
          have e1 : s.booster.sampleMethod = b.sampleMethod := by rw [hsame]
          have e2 : s.booster.subsample = b.subsample := by rw [hsame]
          have e3 : s.booster.topRate = b.topRate := by rw [hsame]
          have e4 : s.booster.otherRate = b.otherRate := by rw [hsame]
          have e5 : s.booster.colsampleBytree = b.colsampleBytree := by rw [hsame]
          have e6 : s.booster.maxLeaves = b.maxLeaves := by rw [hsame]
          have e7 : s.booster.maxDepth = b.maxDepth := by rw [hsame]
          have e8 : s.booster.growPolicy = b.growPolicy := by rw [hsame]
          rw [e1] at hfit
          rw [e1, e2, e3, e4] at h1
          rw [e5] at h2
          rw [e6, e7, e8] at hc
          refine ⟨cfg, chosen, ⟨hfit, ?_, ?_, ?_, ?_, ?_, ?_, ⟨r1, r2, h2⟩, ⟨_, _, _, _, h1⟩⟩⟩ <;>
            rw [hc])
      b.iterations 0 _ s ⟨hstart, by
        intro t ht
        have : ({ b.start with baseScore := base } : Booster F D).trees = [] := by rw [b.start_eq]
        rw [fitStart, this] at ht; cases ht⟩ hl
    exact hP.2

end Verif
