import Verif.Props.Boosting
import Verif.Props.Metrics
import Verif.Props.Predict
import Verif.Spec.ExampleFit

/-!
# C102: the number of iterations, the evaluation data and early stopping only cut the sequence of trees
-/

namespace Verif

open scoped Verif

set_option linter.unusedSectionVars false

variable {F D : Type} [Fl F] [Fl D] [FlCast F D] {R : Type}

/-- Two boosters that differ at most in the number of iterations, in what concerns evaluation, printing and threads,
and in what fitting writes. -/
def Booster.SameTraining (b c : Booster F D) : Prop :=
  c = { b with iterations := c.iterations, evaluationMetric := c.evaluationMetric
               earlyStoppingRounds := c.earlyStoppingRounds, logIterations := c.logIterations
               parallel := c.parallel, evaluationHistory := c.evaluationHistory
               bestIteration := c.bestIteration, predictionIteration := c.predictionIteration
               trees := c.trees, metadata := c.metadata }

/-- `SameTraining`, but for the base score as well. -/
def Booster.SameGrowing (b c : Booster F D) : Prop :=
  ({ b with initializeBaseScore := c.initializeBaseScore, baseScore := c.baseScore } : Booster F D).SameTraining c

theorem Booster.SameTraining.growing {b c : Booster F D} (h : b.SameTraining c) : b.SameGrowing c := by
  unfold Booster.SameGrowing
  unfold Booster.SameTraining at *
  rw [h]

theorem Booster.SameParams.growing {b c : Booster F D} (h : b.SameParams c) : b.SameGrowing c := by
  unfold Booster.SameParams at h
  unfold Booster.SameGrowing Booster.SameTraining
  rw [h]

theorem Booster.SameGrowing.trans {a b c : Booster F D} (h : a.SameGrowing b) (h' : b.SameGrowing c) :
    a.SameGrowing c := by
  unfold Booster.SameGrowing Booster.SameTraining at *
  rw [h', h]

theorem Booster.SameGrowing.symm {a b : Booster F D} (h : a.SameGrowing b) : b.SameGrowing a := by
  unfold Booster.SameGrowing Booster.SameTraining at *
  rw [h]

variable {env : Env R F D} {b c b' c' : Booster F D} {X : Matrix D} {y w : List D}
  {ev ev' : Option (List (EvalSet D))}

theorem IterStep.agree {splitter : Splitter F} {bdata : Matrix Nat} {cuts : JaggedMatrix D} {i : Nat}
    {s s' t t' : FitState R F D} {st1 st2 : Bool} {cfg1 cfg2 : GrowCfg F D} {ch1 ch2 : List Nat}
    {t1 t2 : Tree F D} {p1 p2 : List D}
    (h1 : IterStep env X y w splitter bdata cuts i s s' st1 cfg1 ch1 t1 p1)
    (h2 : IterStep env X y w splitter bdata cuts i t t' st2 cfg2 ch2 t2 p2)
    (hb : s.booster.SameGrowing t.booster) (hy : s.yhat = t.yhat) (hg : s.grad = t.grad) (hh : s.hess = t.hess)
    (hr : s.rng = t.rng) : t1 = t2 ∧ s'.yhat = t'.yhat ∧ s'.rng = t'.rng := by
  obtain ⟨r1, r2, a1, a2, a3⟩ := h1.sample
  obtain ⟨r3, r4, b1, b2, b3⟩ := h2.sample
  unfold Booster.SameGrowing Booster.SameTraining at hb
  have e1 : t.booster.sampleMethod = s.booster.sampleMethod := by rw [hb]
  have e2 : t.booster.subsample = s.booster.subsample := by rw [hb]
  have e3 : t.booster.topRate = s.booster.topRate := by rw [hb]
  have e4 : t.booster.otherRate = s.booster.otherRate := by rw [hb]
  have e5 : t.booster.colsampleBytree = s.booster.colsampleBytree := by rw [hb]
  have e6 : t.booster.maxLeaves = s.booster.maxLeaves := by rw [hb]
  have e7 : t.booster.maxDepth = s.booster.maxDepth := by rw [hb]
  have e8 : t.booster.growPolicy = s.booster.growPolicy := by rw [hb]
  have e9 : t.booster.missing = s.booster.missing := by rw [hb]
  rw [e1, e2, e3, e4, ← hr, ← hg, ← hh, a1] at b1
  simp only [Res.ok.injEq, Prod.mk.injEq] at b1
  obtain ⟨c1, c2, c3, c4⟩ := b1
  subst c1; subst c4
  rw [e5, a2] at b2
  simp only [Prod.mk.injEq] at b2
  obtain ⟨d1, d2⟩ := b2
  have hcfg : cfg1 = cfg2 := by
    rw [h1.cfg_eq, h2.cfg_eq, c2, c3, d1, e6, e7, e8]
  subst hcfg
  have ht := h2.tree_eq
  rw [e1, h1.tree_eq] at ht
  injection ht with ht
  subst ht
  have hp := h2.preds_eq
  rw [e9, h1.preds_eq] at hp
  injection hp with hp
  subst hp
  exact ⟨rfl, by rw [h1.yhat_eq, h2.yhat_eq, hy], by rw [a3, b3, d2]⟩

/-- Two runs agree as long as both go on. -/
theorem FitTrace.agree {base base' : D} {binned binned' : BinnedData D} {st st' : Nat → FitState R F D}
    {stop stop' : Nat → Bool} {N N' : Nat} (h : FitTrace env b X y w ev b' base binned st stop N)
    (h' : FitTrace env c X y w ev' c' base' binned' st' stop' N') (hb : b.SameGrowing c) (hbase : base = base') :
    ∀ k, k ≤ N → k ≤ N' → (st k).yhat = (st' k).yhat ∧ (st k).rng = (st' k).rng ∧
      ∀ j < k, b'.trees[j]? = c'.trees[j]? := by
  have hbin : binned = binned' := by
    have h1 := h.bin_eq
    have h2 := h'.bin_eq
    unfold Booster.SameGrowing Booster.SameTraining at hb
    have e1 : c.nbins = b.nbins := by rw [hb]
    have e2 : c.missing = b.missing := by rw [hb]
    rw [e1, e2, h1] at h2
    injection h2
  have hobj : c.objectiveType = b.objectiveType := by unfold Booster.SameGrowing Booster.SameTraining at hb; rw [hb]
  have hseed : c.seed = b.seed := by unfold Booster.SameGrowing Booster.SameTraining at hb; rw [hb]
  have hsp : c.splitter = b.splitter := by
    unfold Booster.SameGrowing Booster.SameTraining at hb
    rw [hb]; rfl
  subst hbin; subst hbase
  intro k
  induction k with
  | zero =>
    intro _ _
    rw [h.start, h'.start]
    refine ⟨rfl, ?_, by omega⟩
    show env.rng.seed b.start.seed = env.rng.seed c.start.seed
    have e1 : b.start.seed = b.seed := by rw [b.start_eq]
    have e2 : c.start.seed = c.seed := by rw [c.start_eq]
    rw [e1, e2, hseed]
  | succ k ih =>
    intro hk hk'
    obtain ⟨i1, i2, i3⟩ := ih (by omega) (by omega)
    obtain ⟨_, _, t1, _, hI⟩ := fitIteration_ok (h.step k (by omega))
    have hs' := h'.step k (by omega)
    rw [hsp] at hs'
    obtain ⟨_, _, t2, _, hI'⟩ := fitIteration_ok hs'
    have g1 := h.grad k (by omega)
    have g2 := h'.grad k (by omega)
    rw [hobj, ← i1, ← g1] at g2
    simp only [Prod.mk.injEq] at g2
    have hsame : (st k).booster.SameGrowing (st' k).booster := by
      have s1 := (h.same k (by omega)).growing
      have s2 := (h'.same k (by omega)).growing
      have s3 : ({ b with baseScore := base } : Booster F D).SameGrowing { c with baseScore := base } := by
        unfold Booster.SameGrowing Booster.SameTraining at *
        rw [hb]
      exact s1.symm.trans (s3.trans s2)
    obtain ⟨a1, a2, a3⟩ := hI.agree hI' hsame i1 g2.1.symm g2.2.symm i2
    refine ⟨a2, a3, fun j hj => ?_⟩
    rcases Nat.lt_succ_iff_lt_or_eq.1 hj with hj | rfl
    · exact i3 j hj
    · have x1 := h.trees (j + 1) hk
      have x2 := h'.trees (j + 1) hk'
      rw [hI.trees_eq, h.trees j (by omega)] at x1
      rw [hI'.trees_eq, h'.trees j (by omega)] at x2
      have l1 : j < b'.trees.length := by rw [h.length]; omega
      have l2 : j < c'.trees.length := by rw [h'.length]; omega
      have y1 := congrArg (·[j]?) x1
      have y2 := congrArg (·[j]?) x2
      simp [List.getElem?_append, List.length_take, Nat.min_eq_left l1.le,
        Nat.min_eq_left l2.le, List.getElem?_take] at y1 y2
      rw [← y1, ← y2, a1]

theorem FitTrace.baseScore {base : D} {binned : BinnedData D} {st : Nat → FitState R F D}
    {stop : Nat → Bool} {N : Nat} (h : FitTrace env b X y w ev b' base binned st stop N) :
    b'.baseScore = base := by
  have := h.same N (le_refl _)
  rw [h.last] at this
  unfold Booster.SameParams at this
  rw [this]

theorem prefix_of_getElem? {α : Type} {l l' : List α}
    (h : ∀ j < l.length, l[j]? = l'[j]?) : l <+: l' := by
  rw [List.prefix_iff_eq_take]
  apply List.ext_getElem?
  intro j
  rw [List.getElem?_take]
  split
  · rename_i hj; exact h j hj
  · rename_i hj; exact List.getElem?_eq_none (by omega)

/-- **C102** (any arithmetic).  Two successful fits on the same data, of boosters that differ only in the number of
iterations, the metric, early stopping, the evaluation data, logging and threads: one sequence of trees is a prefix
of the other, and the base scores are equal. -/
theorem C102_prefix (hb : b.SameTraining c) (h : b.fit env X y w ev = .ok (b', .ok ()))
    (h' : c.fit env X y w ev' = .ok (c', .ok ())) :
    b'.baseScore = c'.baseScore ∧
      (b'.trees.length ≤ c'.trees.length → b'.trees <+: c'.trees) ∧
      (c'.trees.length ≤ b'.trees.length → c'.trees <+: b'.trees) := by
  obtain ⟨base, binned, st, stop, N, hT⟩ := Booster.fit_trace h
  obtain ⟨base', binned', st', stop', N', hT'⟩ := Booster.fit_trace h'
  have hbase : base = base' := by
    have h1 := hT.base_eq
    have h2 := hT'.base_eq
    unfold Booster.SameTraining at hb
    have e1 : c.initializeBaseScore = b.initializeBaseScore := by rw [hb]
    have e2 : c.objectiveType = b.objectiveType := by rw [hb]
    have e3 : c.baseScore = b.baseScore := by rw [hb]
    rw [e1, e2, e3] at h2
    split at h1
    · rename_i hc
      rw [if_pos hc, h1] at h2
      injection h2
    · rename_i hc
      rw [if_neg hc] at h2
      rw [h1, h2]
  refine ⟨by rw [hT.baseScore, hT'.baseScore, hbase], fun hl => ?_, fun hl => ?_⟩
  · rw [hT.length, hT'.length] at hl
    refine prefix_of_getElem? fun j hj => ?_
    rw [hT.length] at hj
    exact (hT.agree hT' hb.growing hbase N (le_refl _) hl).2.2 j hj
  · rw [hT.length, hT'.length] at hl
    refine prefix_of_getElem? fun j hj => ?_
    rw [hT'.length] at hj
    exact ((hT.agree hT' hb.growing hbase N' hl (le_refl _)).2.2 j hj).symm

/-- **C102** (evaluation data).  The trees of a fit with evaluation data are a prefix of the trees of the fit
without; without early stopping they are the same trees. -/
theorem C102_evaluation (h : b.fit env X y w ev = .ok (b', .ok ()))
    (h' : b.fit env X y w none = .ok (c', .ok ())) :
    b'.trees <+: c'.trees ∧ (b.earlyStoppingRounds = none → b'.trees = c'.trees) := by
  have hb : b.SameTraining b := rfl
  have hle : b'.trees.length ≤ c'.trees.length := by
    rw [C20_no_evaluation h']
    obtain ⟨base, binned, st, stop, N, hT⟩ := Booster.fit_trace h
    rw [hT.length]; exact hT.le
  have hp := (C102_prefix hb h h').2.1 hle
  refine ⟨hp, fun hr => ?_⟩
  exact hp.eq_of_length (by rw [C20_no_evaluation h', (C20_no_rounds h hr).1])

/-- **C102** (base score).  Computing the base score or being given the same value makes no difference to the
trees. -/
theorem C102_base {s : D} (h : b.fit env X y w ev = .ok (b', .ok ())) (hi : b.initializeBaseScore = true)
    (hs : calcInit b.objectiveType y w = .ok s)
    (h' : ({ b with initializeBaseScore := false, baseScore := s } : Booster F D).fit env X y w none =
      .ok (c', .ok ())) :
    b'.baseScore = c'.baseScore ∧ b'.trees <+: c'.trees ∧
      (ev = none ∨ b.earlyStoppingRounds = none → b'.trees = c'.trees) := by
  obtain ⟨base, binned, st, stop, N, hT⟩ := Booster.fit_trace h
  obtain ⟨base', binned', st', stop', N', hT'⟩ := Booster.fit_trace h'
  have h1 := hT.base_eq
  rw [if_pos hi, hs] at h1
  injection h1 with h1
  have h2 : base' = s := by simpa using hT'.base_eq
  have hbase : base = base' := by rw [← h1, h2]
  have hg : b.SameGrowing { b with initializeBaseScore := false, baseScore := s } := rfl
  have hl := C20_no_evaluation h'
  dsimp only at hl
  have hN : N ≤ N' := by
    rw [← hT'.length, hl]; exact hT.le
  have hp : b'.trees <+: c'.trees := by
    refine prefix_of_getElem? fun j hj => ?_
    rw [hT.length] at hj
    exact (hT.agree hT' hg hbase N (le_refl _) hN).2.2 j hj
  refine ⟨by rw [hT.baseScore, hT'.baseScore, hbase], hp, fun hc => hp.eq_of_length ?_⟩
  rw [hl]
  rcases hc with rfl | hc
  · exact C20_no_evaluation h
  · exact (C20_no_rounds h hc).1

/-! ### Fewer iterations -/

/-- The same state with another number of iterations asked for. -/
def FitState.withIters (s : FitState R F D) (n : Nat) : FitState R F D :=
  { s with booster := { s.booster with iterations := n } }

theorem earlyStopUpdate_iters (b : Booster F D) (i : Nat) (m : D) (mx : Bool) (best : Option D) (stop : Bool)
    (n : Nat) : earlyStopUpdate { b with iterations := n } i m mx best stop =
      ({ (earlyStopUpdate b i m mx best stop).1 with iterations := n },
        (earlyStopUpdate b i m mx best stop).2) := by
  cases b
  unfold earlyStopUpdate Booster.updateBestIteration
  dsimp only
  repeat' first | rfl | split

theorem withHistory_iters (b : Booster F D) (k n : Nat) :
    withHistory { b with iterations := n } k = { withHistory b k with iterations := n } := by
  cases b
  unfold withHistory
  dsimp only
  split <;> rfl

theorem appendHistory_iters {b b2 : Booster F D} {ms : List D} (h : appendHistory b ms = .ok b2) (n : Nat) :
    appendHistory { b with iterations := n } ms = .ok { b2 with iterations := n } := by
  cases b
  unfold appendHistory at h ⊢
  dsimp only at h ⊢
  split at h
  · cases h; rfl
  · simp only [Res.bind_eq_ok] at h ⊢
    obtain ⟨H', a, h⟩ := h
    cases h
    exact ⟨H', a, rfl⟩

theorem evalLoop_iters {S : Sorter} {t : Tree F D} {i n q : Nat} (es : List (TrainEval D)) :
    ∀ {k : Nat} {b : Booster F D} {best : Option D} {stop : Bool} {es' : List (TrainEval D)} {ms : List D}
      {b1 : Booster F D} {best1 : Option D} {stop1 : Bool},
      evalLoop S t i n es k b best stop = .ok (es', ms, b1, best1, stop1) →
      evalLoop S t i n es k { b with iterations := q } best stop =
        .ok (es', ms, { b1 with iterations := q }, best1, stop1) := by
  induction es with
  | nil =>
    intro k b best stop es' ms b1 best1 stop1 h
    simp only [evalLoop, Res.ok.injEq, Prod.mk.injEq] at h ⊢
    obtain ⟨rfl, rfl, rfl, rfl, rfl⟩ := h
    simp
  | cons e l ih =>
    intro k b best stop es' ms b1 best1 stop1 h
    have hm : ({ b with iterations := q } : Booster F D).metric = b.metric := rfl
    simp only [evalLoop, Res.bind_eq_ok] at h ⊢
    obtain ⟨p, hp, m, hm1, x, hx, hr⟩ := h
    refine ⟨p, hp, m, hm1, (x.1, x.2.1, { x.2.2.1 with iterations := q }, x.2.2.2), ?_, ?_⟩
    · by_cases hk : k + 1 = n
      · simp only [if_pos hk, hm, earlyStopUpdate_iters] at hx ⊢
        exact ih hx
      · simp only [if_neg hk] at hx ⊢
        exact ih hx
    · simp only [Res.ok.injEq, Prod.mk.injEq] at hr ⊢
      obtain ⟨rfl, rfl, rfl, rfl, rfl⟩ := hr
      simp

theorem evalSets_iters {S : Sorter} {t : Tree F D} {i q : Nat} {b b1 : Booster F D}
    {ev ev1 : Option (List (TrainEval D))} {best best1 : Option D} {stop1 : Bool}
    (h : evalSets S t i b ev best = .ok (b1, ev1, best1, stop1)) :
    evalSets S t i { b with iterations := q } ev best =
      .ok ({ b1 with iterations := q }, ev1, best1, stop1) := by
  cases ev with
  | none =>
    simp only [evalSets, Res.ok.injEq, Prod.mk.injEq] at h ⊢
    obtain ⟨rfl, rfl, rfl, rfl⟩ := h
    simp
  | some es =>
    simp only [evalSets, Res.bind_eq_ok] at h ⊢
    obtain ⟨x, hx, b2, hb2, hr⟩ := h
    refine ⟨(x.1, x.2.1, { x.2.2.1 with iterations := q }, x.2.2.2), ?_, { b2 with iterations := q }, ?_, ?_⟩
    · rw [withHistory_iters]; exact evalLoop_iters es hx
    · exact appendHistory_iters hb2 q
    · simp only [Res.ok.injEq, Prod.mk.injEq] at hr ⊢
      obtain ⟨rfl, rfl, rfl, rfl⟩ := hr
      simp

theorem fitIteration_iters {splitter : Splitter F} {bdata : Matrix Nat} {cuts : JaggedMatrix D} {i q : Nat}
    {s s' : FitState R F D} {stop : Bool}
    (h : fitIteration env X y w splitter bdata cuts i s = .ok (s', stop)) :
    fitIteration env X y w splitter bdata cuts i (s.withIters q) = .ok (s'.withIters q, stop) := by
  unfold fitIteration at h ⊢
  simp only [FitState.withIters, Res.bind_eq_ok] at h ⊢
  obtain ⟨x, hx, t, ht, p, hp, z, hz, hr⟩ := h
  refine ⟨x, hx, t, ht, p, hp, ({ z.1 with iterations := q }, z.2), evalSets_iters hz, ?_⟩
  dsimp only at hr ⊢
  split at hr
  · rename_i hs
    rw [if_pos hs]
    simp only [Res.ok.injEq, Prod.mk.injEq] at hr ⊢
    obtain ⟨rfl, rfl⟩ := hr
    simp
  · rename_i hs
    rw [if_neg hs]
    simp only [Res.ok.injEq, Prod.mk.injEq] at hr ⊢
    obtain ⟨rfl, rfl⟩ := hr
    simp

theorem fitLoop_iters {splitter : Splitter F} {bdata : Matrix Nat} {cuts : JaggedMatrix D} {q : Nat} (n : Nat) :
    ∀ {i : Nat} {s r : FitState R F D}, fitLoop env X y w splitter bdata cuts n i s = .ok r →
      ∃ T, r.booster.trees = s.booster.trees ++ T ∧ T.length ≤ n ∧ ∀ m ≤ n,
        ∃ r', fitLoop env X y w splitter bdata cuts m i (s.withIters q) = .ok r' ∧
          r'.booster.trees = s.booster.trees ++ T.take m := by
  induction n with
  | zero =>
    intro i s r h
    simp only [fitLoop, Res.ok.injEq] at h
    subst h
    refine ⟨[], by simp, by simp, fun m hm => ⟨s.withIters q, ?_, by simp [FitState.withIters]⟩⟩
    obtain rfl : m = 0 := by omega
    rfl
  | succ n ih =>
    intro i s r h
    simp only [fitLoop, Res.bind_eq_ok] at h
    obtain ⟨⟨s1, stop⟩, h1, h2⟩ := h
    obtain ⟨_, _, t, _, hI⟩ := fitIteration_ok h1
    have h1' := fitIteration_iters (q := q) h1
    dsimp only at h2
    cases stop with
    | true =>
      simp only [if_true, Res.ok.injEq] at h2
      subst h2
      refine ⟨[t], hI.trees_eq, by simp, fun m hm => ?_⟩
      cases m with
      | zero => exact ⟨s.withIters q, rfl, by simp [FitState.withIters]⟩
      | succ m =>
        refine ⟨s1.withIters q, ?_, ?_⟩
        · simp only [fitLoop, h1', Res.ok_bind]
          simp
        · simpa [FitState.withIters] using hI.trees_eq
    | false =>
      simp only [Bool.false_eq_true, if_false] at h2
      obtain ⟨T, a1, a2, a3⟩ := ih h2
      refine ⟨t :: T, by rw [a1, hI.trees_eq]; simp, by simpa using a2, fun m hm => ?_⟩
      cases m with
      | zero => exact ⟨s.withIters q, rfl, by simp [FitState.withIters]⟩
      | succ m =>
        obtain ⟨r', b1, b2⟩ := a3 m (by omega)
        refine ⟨r', ?_, by rw [b2, hI.trees_eq]; simp⟩
        simp only [fitLoop, h1', Res.ok_bind]
        simpa using b1

/-- **C102** (fewer iterations).  If a fit succeeds, so does the fit that asks for `n` iterations at most as many,
and its trees are the first `n` trees. -/
theorem C102_fewer (h : b.fit env X y w ev = .ok (b', .ok ())) (n : Nat) (hn : n ≤ b.iterations) :
    ∃ c', ({ b with iterations := n } : Booster F D).fit env X y w ev = .ok (c', .ok ()) ∧
      c'.trees = b'.trees.take n ∧ c'.baseScore = b'.baseScore := by
  have key : ∃ c', ({ b with iterations := n } : Booster F D).fit env X y w ev = .ok (c', .ok ()) ∧
      c'.trees = b'.trees.take n := by
    unfold Booster.fit at h ⊢
    split at h
    · cases h
    · rename_i hv
      simp only [Res.bind_eq_ok, Res.ok.injEq, Prod.mk.injEq, and_true] at h
      obtain ⟨b1, h, rfl⟩ := h
      obtain ⟨base, binned, s, hb, hbin, hl, rfl⟩ := fitTrees_eq_ok.1 h
      obtain ⟨T, a1, _, a3⟩ := fitLoop_iters (q := n) _ hl
      obtain ⟨r', b1, b2⟩ := a3 n hn
      have hs : (fitStart env { b.start with baseScore := base } y w ev).booster.trees = [] := by
        show b.start.trees = []
        rw [b.start_eq]
      have hst : ({ b with iterations := n } : Booster F D).start = { b.start with iterations := n } := by
        unfold Booster.start
        dsimp only
        split <;> rfl
      have hft : fitTrees env { b with iterations := n } X y w b.splitter ev = .ok r'.booster :=
        fitTrees_eq_ok.2 ⟨base, binned, r', hb, hbin, by rw [hst]; exact b1, rfl⟩
      refine ⟨r'.booster, ?_, by rw [b2, a1, hs]; simp⟩
      have hsp : ({ b with iterations := n } : Booster F D).splitter = b.splitter := rfl
      rw [hsp, hft]
      rfl
  obtain ⟨c', h1, h2⟩ := key
  refine ⟨c', h1, h2, ?_⟩
  have hb : b.SameTraining { b with iterations := n } := rfl
  exact (C102_prefix hb h h1).1.symm

/-- **C102** (predictions).  Predicting with the first `n` trees is predicting with a model fitted with `n`
iterations. -/
theorem C102_predict (h : b.fit env X y w none = .ok (b', .ok ())) (n : Nat) (hn : n ≤ b.iterations) :
    ∃ c', ({ b with iterations := n } : Booster F D).fit env X y w none = .ok (c', .ok ()) ∧
      ∀ Z : Matrix D, ({ b' with predictionIteration := some n } : Booster F D).predict Z =
        ({ c' with predictionIteration := none } : Booster F D).predict Z := by
  obtain ⟨c', h1, h2, h3⟩ := C102_fewer h n hn
  refine ⟨c', h1, fun Z => ?_⟩
  rw [C19_prefix b' Z n (by rw [C20_no_evaluation h]; exact hn)]
  have hm : c'.missing = b'.missing := by
    obtain ⟨_, _, st, _, N, hT⟩ := Booster.fit_trace h
    obtain ⟨_, _, st', _, N', hT'⟩ := Booster.fit_trace h1
    have e1 := hT.same N (le_refl _)
    have e2 := hT'.same N' (le_refl _)
    rw [hT.last] at e1
    rw [hT'.last] at e2
    unfold Booster.SameParams at e1 e2
    rw [e1, e2]
  simp only [Booster.predict, Booster.predictionTrees, h2, h3, hm]

/-- The hypotheses of `C102_prefix` and `C102_evaluation`: the fit with evaluation data stops early, the fit without
does not, and both succeed. -/
example : ∃ b' c' : Booster Q Q, exStop.fit exEnv exX exY exW (some exSets) = .ok (b', .ok ()) ∧
    exStop.fit exEnv exX exY exW none = .ok (c', .ok ()) ∧ exStop.SameTraining exStop ∧
    0 < b'.trees.length ∧ b'.trees.length < c'.trees.length ∧ c'.trees.length = 5 := by
  have : (match exStop.fit exEnv exX exY exW (some exSets), exStop.fit exEnv exX exY exW none with
      | .ok (b', .ok ()), .ok (c', .ok ()) => decide (0 < b'.trees.length) &&
        decide (b'.trees.length < c'.trees.length) && decide (c'.trees.length = 5)
      | _, _ => false) = true := by decide +kernel
  split at this
  · rename_i b' c' h h'
    simp only [Bool.and_eq_true, decide_eq_true_eq] at this
    exact ⟨b', c', h, h', rfl, this.1.1, this.1.2, this.2⟩
  · cases this

/-- The hypotheses of `C102_fewer` and `C102_predict`, with three iterations instead of five. -/
example : ∃ b' c' : Booster Q Q, exStop.fit exEnv exX exY exW none = .ok (b', .ok ()) ∧
    ({ exStop with iterations := 3 } : Booster Q Q).fit exEnv exX exY exW none = .ok (c', .ok ()) ∧
    3 ≤ exStop.iterations ∧ b'.trees.length = 5 ∧ c'.trees.length = 3 := by
  have : (match exStop.fit exEnv exX exY exW none,
        ({ exStop with iterations := 3 } : Booster Q Q).fit exEnv exX exY exW none with
      | .ok (b', .ok ()), .ok (c', .ok ()) => decide (b'.trees.length = 5) && decide (c'.trees.length = 3)
      | _, _ => false) = true := by decide +kernel
  split at this
  · rename_i b' c' h h'
    simp only [Bool.and_eq_true, decide_eq_true_eq] at this
    exact ⟨b', c', h, h', by decide, this.1, this.2⟩
  · cases this

/-- The hypotheses of `C102_base`: the computed base score is 2, other than the one that was set. -/
example : ∃ b' c' : Booster Q Q, exStop.fit exEnv exX exY exW (some exSets) = .ok (b', .ok ()) ∧
    exStop.initializeBaseScore = true ∧ calcInit exStop.objectiveType exY exW = .ok (q 2) ∧
    exStop.baseScore ≠ q 2 ∧
    ({ exStop with initializeBaseScore := false, baseScore := q 2 } : Booster Q Q).fit exEnv exX exY exW none =
      .ok (c', .ok ()) := by
  have : (match exStop.fit exEnv exX exY exW (some exSets), calcInit exStop.objectiveType exY exW,
        ({ exStop with initializeBaseScore := false, baseScore := q 2 } : Booster Q Q).fit exEnv exX exY exW none with
      | .ok (_, .ok ()), .ok s, .ok (_, .ok ()) => decide (s = q 2)
      | _, _, _ => false) = true := by decide +kernel
  split at this
  · rename_i b' s c' h hs h'
    simp only [decide_eq_true_eq] at this
    exact ⟨b', c', h, rfl, by rw [hs, this], by decide +kernel, h'⟩
  · cases this

end Verif
