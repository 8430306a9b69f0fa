import Verif.Props.PyStore
import Verif.Props.Boosting

/-!
# C66 and C69: fitting again, clones, and `set_params` (Python class)
-/

namespace Verif

open scoped Verif

variable {F D : Type} [Fl F] [Fl D] [FlCast F D] {R : Type}

set_option linter.unusedSectionVars false

/-! ### What `fit` of the crate depends on -/

theorem Booster.fit_ok_iff {env : Env R F D} {b b' : Booster F D} {data : Matrix D} {y w : List D}
    {ev : Option (List (EvalSet D))} : b.fit env data y w ev = .ok (b', .ok ()) ↔
      validateFit y w ev = .ok () ∧ fitTrees env b data y w b.splitter ev = .ok b' := by
  unfold Booster.fit
  cases validateFit y w ev with
  | error e => simp
  | ok u => simp [Res.bind_eq_ok]

/-- A successful `fit` depends on the booster with which the loop starts and, if it is not computed, the base
score. -/
theorem Booster.fit_start {env : Env R F D} {b c b' : Booster F D} {data : Matrix D} {y w : List D}
    {ev : Option (List (EvalSet D))}
    (hs : ∀ x, ({ b.start with baseScore := x } : Booster F D) = { c.start with baseScore := x })
    (hb : b.initializeBaseScore = false → b.baseScore = c.baseScore)
    (h : b.fit env data y w ev = .ok (b', .ok ())) : c.fit env data y w ev = .ok (b', .ok ()) := by
  rw [Booster.fit_ok_iff] at h ⊢
  refine ⟨h.1, ?_⟩
  have eb := b.start_eq
  have ec := c.start_eq
  have hsx := hs b.baseScore
  have hi : b.initializeBaseScore = c.initializeBaseScore := by
    have := congrArg Booster.initializeBaseScore hsx
    dsimp only at this
    rw [eb, ec] at this; exact this
  have ho : b.objectiveType = c.objectiveType := by
    have := congrArg Booster.objectiveType hsx
    dsimp only at this
    rw [eb, ec] at this; exact this
  have hn : b.nbins = c.nbins := by
    have := congrArg Booster.nbins hsx
    dsimp only at this
    rw [eb, ec] at this; exact this
  have hm : b.missing = c.missing := by
    have := congrArg Booster.missing hsx
    dsimp only at this
    rw [eb, ec] at this; exact this
  have hit : b.iterations = c.iterations := by
    have := congrArg Booster.iterations hsx
    dsimp only at this
    rw [eb, ec] at this; exact this
  have hsp : b.splitter = c.splitter := by
    have := congrArg Booster.splitter hsx
    rw [eb, ec] at this; exact this
  obtain ⟨base, binned, s, h1, h2, h3, h4⟩ := fitTrees_eq_ok.1 h.2
  refine fitTrees_eq_ok.2 ⟨base, binned, s, ?_, ?_, ?_, h4⟩
  · rw [← hi, ← ho]
    cases hib : b.initializeBaseScore with
    | true => rw [hib] at h1; exact h1
    | false =>
      rw [hib] at h1
      simp only [Bool.false_eq_true, if_false] at h1 ⊢
      rw [← hb hib]; exact h1
  · rw [← hn, ← hm]; exact h2
  · rw [← hs, ← hit, ← hsp]; exact h3

/-- Two instances that fit alike. -/
structure AlikePy (o n : PyBooster F D) : Prop where
  start : ∀ (x : D) (M : List (String × String)) (m : Option ConstraintMap) (t : List Nat),
    ({ o.booster.start with baseScore := x, metadata := M, monotoneConstraints := m
                            terminateMissingFeatures := t } : Booster F D) =
      { n.booster.start with baseScore := x, metadata := M, monotoneConstraints := m
                             terminateMissingFeatures := t }
  base : o.booster.initializeBaseScore = false → o.booster.baseScore = n.booster.baseScore
  mono : o.params.monotoneConstraints.getD [] = n.params.monotoneConstraints.getD []
  term : o.params.terminateMissingFeatures.getD [] = n.params.terminateMissingFeatures.getD []

theorem ready_start (J : PyJson) (o : PyBooster F D) (X : Frame D) (m : ConstraintMap) (t : List Nat) (x : D)
    (M : List (String × String)) :
    ({ ((o.ready J X m t).withMeta M).start with baseScore := x } : Booster F D) =
      { o.booster.start with baseScore := x, metadata := M, monotoneConstraints := some m
                             terminateMissingFeatures := t } := by
  unfold PyBooster.ready Booster.withMeta
  dsimp only
  rw [describe_booster]
  unfold Booster.start Booster.withMeta
  dsimp only
  split <;> rfl

theorem AlikePy.fit {J : PyJson} {env : Env R F D} {o n o' : PyBooster F D} {X : Frame D} {y : List D}
    {w : Option (List D)} {evals : Option (List (PyEval D))} (ha : AlikePy o n)
    (hv : ∀ e ∈ evals.getD [], (o.describe J X).validateFeatures e.frame.features = .ok () →
      (n.describe J X).validateFeatures e.frame.features = .ok ())
    (h : o.fit J env X y w evals = .ok (o', .ok ())) :
    ∃ n', n.fit J env X y w evals = .ok (n', .ok ()) ∧
      n'.booster = { o'.booster with metadata := n'.booster.metadata } ∧
      n'.nFeatures = o'.nFeatures ∧ (X.features ≠ [] → n'.featureNames = o'.featureNames) ∧
      n'.featureNames = (n.describe J X).featureNames ∧ o'.featureNames = (o.describe J X).featureNames ∧
      n'.params = { n.params with baseScore := o'.params.baseScore } ∧
      o'.params = { o.params with baseScore := o'.params.baseScore } ∧
      n'.booster.metadata = (n.describe J X).booster.metadata := by
  cases pyFit_iff.1 h with
  | @done b m t us hc ht he hf =>
    have hf' : ((n.ready J X m t).withMeta (o.describe J X).booster.metadata).fit env X.data y
        (w.getD (List.replicate y.length 1)) (evals.map fun es => es.map PyEval.toSet) =
        .ok (b, .ok ()) := by
      refine Booster.fit_start ?_ ?_ hf
      · intro x
        have e := ready_start J o X m t x (o.describe J X).booster.metadata
        rw [ready_start, ← ha.start, ← e]; rfl
      · intro hi
        have e1 : (o.ready J X m t).initializeBaseScore = o.booster.initializeBaseScore := by
          unfold PyBooster.ready; dsimp only; rw [describe_booster]; rfl
        have e2 : (o.ready J X m t).baseScore = o.booster.baseScore := by
          unfold PyBooster.ready; dsimp only; rw [describe_booster]; rfl
        have e3 : ((n.ready J X m t).withMeta (o.describe J X).booster.metadata).baseScore =
            n.booster.baseScore := by
          unfold PyBooster.ready Booster.withMeta; dsimp only; rw [describe_booster]; rfl
        rw [e2, e3]
        exact ha.base (by rw [← e1]; exact hi)
    have hn : (n.ready J X m t).fit env X.data y (w.getD (List.replicate y.length 1))
        (evals.map fun es => es.map PyEval.toSet) =
        .ok (b.withMeta (n.describe J X).booster.metadata, .ok ()) := by
      have := Booster.fit_meta env ((n.ready J X m t).withMeta (o.describe J X).booster.metadata) X.data y
        (w.getD (List.replicate y.length 1)) (evals.map fun es => es.map PyEval.toSet)
        (n.describe J X).booster.metadata
      rw [hf'] at this
      exact this
    have hus : ∃ us', pyMap (fun e : PyEval D => (n.describe J X).validateFeatures e.frame.features)
        (evals.getD []) = .ok us' := by
      clear h hf hf' hn
      generalize evals.getD [] = l at he hv ⊢
      induction l generalizing us with
      | nil => exact ⟨[], rfl⟩
      | cons e l ih =>
        rw [pyMap, except_bind_ok] at he
        obtain ⟨u, hu, he⟩ := he
        rw [except_bind_ok] at he
        obtain ⟨us', hu', _⟩ := he
        obtain ⟨vs, hvs⟩ := ih hu' (fun e he => hv e (List.mem_cons_of_mem _ he))
        refine ⟨() :: vs, ?_⟩
        rw [pyMap, hv e (List.mem_cons_self ..) hu, hvs]; rfl
    obtain ⟨us', hus'⟩ := hus
    refine ⟨_, pyFit_iff.2 (.done (by rw [← ha.mono]; exact hc) (by rw [← ha.term]; exact ht) hus' hn),
      rfl, ?_, ?_, rfl, rfl, rfl, rfl, rfl⟩
    · dsimp only; rw [describe_nFeatures, describe_nFeatures]
    · intro hX
      dsimp only
      rw [describe_names, describe_names, if_pos hX, if_pos hX]

/-! ### Instances made from the same parameters -/

/-- A booster without trees has neither a history nor a best iteration. -/
theorem Made.empty {J : PyJson} {p : PyParams D} {o : PyBooster F D} (h : Made J p o) :
    o.booster.trees ≠ [] ∨ o.booster.evaluationHistory = none ∧ o.booster.bestIteration = none := by
  induction h with
  | new h =>
    obtain ⟨b, hb, rfl⟩ := pyInit_eq_ok.1 h
    have := crateNew_init hb
    exact .inr ⟨this.2.2.2.1, this.2.2.2.2.1⟩
  | setPredictionIteration n _ ih => exact ih
  | insertMetadata key value _ _ ih => exact ih
  | @fit R o o' env X y w evals r hm hf ih =>
    have hd : (o.describe J X).booster.trees ≠ [] ∨ (o.describe J X).booster.evaluationHistory = none ∧
        (o.describe J X).booster.bestIteration = none := by rw [describe_booster]; exact ih
    cases pyFit_iff.1 hf with
    | constraints hc => exact hd
    | terminate hc ht => exact hd
    | evals hc ht he => exact hd
    | @invalid b e m t us hc ht he hg =>
      have := (Booster.fit_keeps hg).1 e rfl
      subst this
      exact hd
    | @done b m t us hc ht he hg =>
      dsimp only
      by_cases hb : b.trees = []
      · right
        obtain ⟨base, binned, st, stop, N, hT⟩ := Booster.fit_trace hg
        have hN : N = 0 := by rw [← hT.length, hb]; rfl
        subst hN
        have e := hT.last
        rw [hT.start] at e
        rw [← e]
        change (o.ready J X m t).start.evaluationHistory = none ∧
          (o.ready J X m t).start.bestIteration = none
        unfold Booster.start
        split
        · next hc =>
          rcases hd with hd | hd
          · exact absurd (List.isEmpty_iff.1 hc) hd
          · exact hd
        · exact ⟨rfl, rfl⟩
      · exact .inl hb

theorem Made.alike {J : PyJson} {p q : PyParams D} {o n : PyBooster F D} (ho : Made J p o)
    (hn : pyNew J q = .ok n) (hq : q.initial = { p.initial with baseScore := q.baseScore })
    (hb : p.initializeBaseScore = false → q.baseScore = p.baseScore)
    (hi : o.booster.trees ≠ [] ∨ o.booster.predictionIteration = none) : AlikePy o n := by
  obtain ⟨b0, hI⟩ := ho.inv
  obtain ⟨c, hc, rfl⟩ := pyInit_eq_ok.1 hn
  have hcb : c = { b0 with baseScore := q.baseScore } := by
    obtain ⟨o1, sm1, gp1, em1, mt1, a1, a2, a3, a4, a5, -, rfl, -⟩ := crateNew_eq_ok.1 hc
    obtain ⟨o2, sm2, gp2, em2, mt2, c1, c2, c3, c4, c5, -, rfl, -⟩ := crateNew_eq_ok.1 hI.new
    have g : ∀ {α : Type} (f : PyParams D → α), f q.initial = f { p.initial with baseScore := q.baseScore } :=
      fun f => congrArg f hq
    have s1 : q.objectiveType = p.objectiveType := g PyParams.objectiveType
    have s2 : q.sampleMethod' = p.sampleMethod' := g PyParams.sampleMethod'
    have s3 : q.growPolicy = p.growPolicy := g PyParams.growPolicy
    have s4 : q.evaluationMetric = p.evaluationMetric := g PyParams.evaluationMetric
    have s5 : q.missingNodeTreatment = p.missingNodeTreatment := g PyParams.missingNodeTreatment
    rw [s1, c1] at a1
    rw [s2, c2] at a2
    rw [s3, c3] at a3
    rw [s4, c4] at a4
    rw [s5, c5] at a5
    cases a1; cases a2; cases a3; cases a4; cases a5
    exact g fun q => crateArgs q o1 sm1 gp1 em1 mt1
  obtain ⟨i1, i2, i3, i4, i5, i6, i7, -⟩ := crateNew_init hI.new
  refine ⟨?_, ?_, ?_, ?_⟩
  · intro x M m t
    have hcs : (c.insertMetadata "feature_importance_method"
        (J.dumps (.str q.featureImportanceMethod))).start = c.insertMetadata "feature_importance_method"
        (J.dumps (.str q.featureImportanceMethod)) := by
      unfold Booster.start
      have : (c.insertMetadata "feature_importance_method"
        (J.dumps (.str q.featureImportanceMethod))).trees = [] := by rw [hcb]; exact i3
      rw [this]; rfl
    have hos : o.booster.start = { b0 with
        monotoneConstraints := o.booster.monotoneConstraints
        terminateMissingFeatures := o.booster.terminateMissingFeatures
        baseScore := o.booster.baseScore, metadata := o.booster.metadata } := by
      unfold Booster.start
      split
      · next he =>
        have he := List.isEmpty_iff.1 he
        have h1 : o.booster.predictionIteration = none := by
          rcases hi with hi | hi
          · exact absurd he hi
          · exact hi
        have h2 : o.booster.evaluationHistory = none ∧ o.booster.bestIteration = none := by
          rcases ho.empty with h | h
          · exact absurd he h
          · exact h
        have := hI.booster
        rw [he.trans i3.symm, h1.trans i6.symm, h2.1.trans i4.symm, h2.2.trans i5.symm] at this
        exact this
      · have : o.booster.reset = ({ b0 with
            monotoneConstraints := o.booster.monotoneConstraints
            terminateMissingFeatures := o.booster.terminateMissingFeatures
            baseScore := o.booster.baseScore, evaluationHistory := o.booster.evaluationHistory
            bestIteration := o.booster.bestIteration
            predictionIteration := o.booster.predictionIteration
            trees := o.booster.trees, metadata := o.booster.metadata } : Booster F D).reset :=
          congrArg _ hI.booster
        rw [this]
        unfold Booster.reset
        simp only [i3, i4, i5, i6]
    dsimp only
    rw [hcs, hos, hcb]
    rfl
  · intro h
    have e : o.booster.initializeBaseScore = p.initializeBaseScore := by rw [hI.booster]; exact i1
    have h' : p.initializeBaseScore = false := by rw [← e]; exact h
    change _ = c.baseScore
    rw [hI.base h', hcb]
    exact (hb h').symm
  · rw [hI.params]
    exact (congrArg (fun q : PyParams D => q.monotoneConstraints.getD []) hq).symm
  · rw [hI.params]
    exact (congrArg (fun q : PyParams D => q.terminateMissingFeatures.getD []) hq).symm

theorem initial_initial (p : PyParams D) : p.initial.initial = p.initial := rfl

/-- The attributes of a made instance give a constructor call that succeeds. -/
theorem Made.again {J : PyJson} {p q : PyParams D} {o : PyBooster F D} (ho : Made J p o)
    (hq : q = p ∨ q = o.getParams) : (∃ n : PyBooster F D, pyNew J q = .ok n) ∧
      q.initial = { p.initial with baseScore := q.baseScore } ∧
      (p.initializeBaseScore = false → q.baseScore = p.baseScore) := by
  obtain ⟨b0, hI⟩ := ho.inv
  rcases hq with rfl | rfl
  · exact ⟨⟨_, pyInit_eq_ok.2 ⟨b0, hI.new, rfl⟩⟩, rfl, fun _ => rfl⟩
  · unfold PyBooster.getParams
    refine ⟨?_, ?_, ?_⟩
    · obtain ⟨a1, a2, a3, a4, a5, h1, h2, h3, h4, h5, h6, rfl, h7⟩ := crateNew_eq_ok.1 hI.new
      refine ⟨_, pyInit_eq_ok.2 ⟨_, crateNew_eq_ok.2 ⟨a1, a2, a3, a4, a5, ?_, ?_, ?_, ?_, ?_, ?_, rfl, ?_⟩,
        rfl⟩⟩ <;> rw [hI.params]
      · exact h1
      · exact h2
      · exact h3
      · exact h4
      · exact h5
      · exact h6
      · exact h7
    · rw [hI.params]; rfl
    · intro h; rw [hI.params]; exact hI.base h

/-- **C69.**  Let `o` be made by `GradientBooster(**p)` and any calls of `fit`, `set_prediction_iteration` and
`insert_metadata`; if it has no trees, then no prediction iteration has been set.  If a call of `fit` of `o`
succeeds, then the same call succeeds on a new instance `GradientBooster(**p)` and on a clone
`GradientBooster(**o.get_params())`, and gives the same booster (apart from the metadata), number of features
and parameters, and for a data frame the same names. -/
theorem C69_refit {J : PyJson} {p q : PyParams D} {o : PyBooster F D} (ho : Made J p o)
    (hq : q = p ∨ q = o.getParams)
    (hi : o.booster.trees ≠ [] ∨ o.booster.predictionIteration = none)
    {env : Env R F D} {X : Frame D} {y : List D} {w : Option (List D)}
    {evals : Option (List (PyEval D))} {o' : PyBooster F D}
    (h : o.fit J env X y w evals = .ok (o', .ok ())) :
    ∃ n n', pyNew J q = .ok n ∧ n.fit J env X y w evals = .ok (n', .ok ()) ∧
      n'.booster = { o'.booster with metadata := n'.booster.metadata } ∧
      n'.nFeatures = o'.nFeatures ∧ n'.params = o'.params ∧
      (X.features ≠ [] → n'.featureNames = o'.featureNames) := by
  obtain ⟨⟨n, hn⟩, hq1, hq2⟩ := ho.again hq
  have ha := ho.alike hn hq1 hq2 hi
  obtain ⟨b0, hI⟩ := ho.inv
  obtain ⟨c, hc, e⟩ := pyInit_eq_ok.1 hn
  obtain ⟨n', f1, f2, f3, f4, -, -, f7, f8, -⟩ := ha.fit (by
    intro ev _ hv
    unfold PyBooster.validateFeatures at hv ⊢
    rw [describe_names] at hv ⊢
    by_cases hX : X.features ≠ []
    · rw [if_pos hX] at hv ⊢; exact hv
    · rw [if_neg hX, e]) h
  refine ⟨n, n', hn, f1, f2, f3, ?_, f4⟩
  rw [f7, f8, e, hI.params, hq1]

/-- **C69** (converse).  If the same call succeeds on the new instance or the clone, then it succeeds on `o`,
unless `o` was fitted on a data frame before and is now fitted on an array. -/
theorem C69_converse {J : PyJson} {p q : PyParams D} {o n n' : PyBooster F D} (ho : Made J p o)
    (hq : q = p ∨ q = o.getParams) (hn : pyNew J q = .ok n)
    (hi : o.booster.trees ≠ [] ∨ o.booster.predictionIteration = none)
    {env : Env R F D} {X : Frame D} {y : List D} {w : Option (List D)}
    {evals : Option (List (PyEval D))} (hX : X.features ≠ [] ∨ o.featureNames = none)
    (h : n.fit J env X y w evals = .ok (n', .ok ())) :
    ∃ o', o.fit J env X y w evals = .ok (o', .ok ()) ∧
      n'.booster = { o'.booster with metadata := n'.booster.metadata } ∧
      n'.nFeatures = o'.nFeatures ∧ n'.params = o'.params ∧ n'.featureNames = o'.featureNames := by
  obtain ⟨-, hq1, hq2⟩ := ho.again hq
  have ha := ho.alike hn hq1 hq2 hi
  obtain ⟨b0, hI⟩ := ho.inv
  obtain ⟨c, hc, e⟩ := pyInit_eq_ok.1 hn
  have hnames : (o.describe J X).featureNames = (n.describe J X).featureNames := by
    rw [describe_names, describe_names]
    rcases hX with hX | hX
    · rw [if_pos hX, if_pos hX]
    · rw [hX, e]
  have ha' : AlikePy n o := ⟨fun x M m t => (ha.start x M m t).symm, fun hb => by
      refine (ha.base ?_).symm
      have h0 := ha.start (c.baseScore) [] none []
      have h1 := congrArg Booster.initializeBaseScore h0
      dsimp only at h1
      rw [o.booster.start_eq, n.booster.start_eq] at h1
      exact h1.trans hb, ha.mono.symm, ha.term.symm⟩
  obtain ⟨o', f1, f2, f3, -, f5, f6, f7, f8, -⟩ := ha'.fit (by
    intro ev _ hv
    unfold PyBooster.validateFeatures at hv ⊢
    rw [hnames]; exact hv) h
  refine ⟨o', f1, ?_, f3.symm, ?_, by rw [f6, f5, hnames]⟩
  · rw [f2]
  · rw [f7, f8, e, hI.params, hq1]

/-! ### `set_params` -/

/-- **C66** (partial).  `set_params` "has the same effect as reinstating the booster" (`__init__.py` 1141): it
succeeds if and only if the constructor does with the changed parameters, and gives the new instance, except
that `n_features_` and `feature_names_in_` of the old one remain; a following `fit` on a data frame gives
exactly what it gives on the new instance.  Missing: on an array the old names remain (`C66_stale`). -/
theorem C66_set_params_partial {J : PyJson} (o : PyBooster F D) (update : PyParams D → PyParams D) :
    (∀ o', o.setParams J update = .ok o' ↔ ∃ n, pyNew J (update o.getParams) = .ok n ∧
      o' = { n with nFeatures := o.nFeatures, featureNames := o.featureNames }) ∧
    ∀ o' n, o.setParams J update = .ok o' → pyNew J (update o.getParams) = .ok n →
      ∀ (env : Env R F D) (X : Frame D) (y : List D) (w : Option (List D))
        (evals : Option (List (PyEval D))), (X.features ≠ [] ∨ o.featureNames = none) →
        o'.fit J env X y w evals = n.fit J env X y w evals := by
  have key : ∀ o', o.setParams J update = .ok o' ↔ ∃ n, pyNew J (update o.getParams) = .ok n ∧
      o' = { n with nFeatures := o.nFeatures, featureNames := o.featureNames } := by
    intro o'
    unfold PyBooster.setParams pyNew
    rw [pyInit_eq_ok]
    constructor
    · rintro ⟨b, hb, rfl⟩
      exact ⟨_, pyInit_eq_ok.2 ⟨b, hb, rfl⟩, rfl⟩
    · rintro ⟨n, hn, rfl⟩
      obtain ⟨b, hb, rfl⟩ := pyInit_eq_ok.1 hn
      exact ⟨b, hb, rfl⟩
  refine ⟨key, ?_⟩
  intro o' n ho hn env X y w evals hX
  obtain ⟨n1, hn1, rfl⟩ := (key o').1 ho
  rw [hn] at hn1
  cases hn1
  have hnone : n.featureNames = none := by
    obtain ⟨b, hb, rfl⟩ := pyInit_eq_ok.1 hn; rfl
  have hd : ({ n with nFeatures := o.nFeatures, featureNames := o.featureNames } : PyBooster F D).describe J X
      = n.describe J X := by
    unfold PyBooster.describe PyBooster.setMeta
    dsimp only
    split
    · rfl
    · next h =>
      rcases hX with hX | hX
      · exact absurd hX h
      · rw [hX, hnone]
  unfold PyBooster.fit
  simp only [hd]

/-- **C66** is false in general: after `fit` on a data frame with columns "a" and "b", `set_params()` and `fit`
on an array, `predict` on a data frame with columns "c" and "d" raises, while the new instance with the same
parameters, fitted on the same array, predicts. -/
theorem C66_stale : ∃ (o o1 o2 n n1 : PyBooster Q Q) (X : Frame Q), Made exJson exParams o ∧
    o.setParams exJson id = .ok o1 ∧ o1.fit exJson exEnv exArray exY none none = .ok (o2, .ok ()) ∧
    pyNew exJson o.getParams = .ok n ∧ n.fit exJson exEnv exArray exY none none = .ok (n1, .ok ()) ∧
    o2.predict X = .ok (.error .valueError) ∧
    n1.predict X = .ok (.ok [q (1/2), q (1/2), q (5/4), q (11/4), q (11/4), q (17/4)]) := by
  have h : ((exFitted exFrame exY none).bind fun o => (exceptValue (o.setParams exJson id)).bind fun o1 =>
      (pyFitted o1 exArray exY none).bind fun o2 => (exceptValue (pyNew exJson o.getParams)).bind fun n =>
      (pyFitted n exArray exY none).bind fun n1 => some (decide (
        o2.predict { exFrame with columns := some ["c", "d"] } = .ok (.error .valueError) ∧
        n1.predict { exFrame with columns := some ["c", "d"] } =
          .ok (.ok [q (1/2), q (1/2), q (5/4), q (11/4), q (11/4), q (17/4)])))) = some true := by
    decide +kernel
  simp only [Option.bind_eq_some_iff, Option.some.injEq, decide_eq_true_eq] at h
  obtain ⟨o, h1, o1, h2, o2, h3, n, h4, n1, h5, h6⟩ := h
  exact ⟨o, o1, o2, n, n1, _, (exFitted_made h1).1, exceptValue_eq h2, pyFitted_eq h3, exceptValue_eq h4,
    pyFitted_eq h5, h6⟩

/-! ### Examples -/

/-- Fitted on an array, then fitted again on a data frame with evaluation data: hypotheses of C69. -/
example : ∃ o o' : PyBooster Q Q, Made exJson exParams o ∧ o.booster.trees ≠ [] ∧
    o.booster.baseScore ≠ exParams.baseScore ∧
    o.fit exJson exEnv exFrame (exY.map fun x => x * q 2) none (some [exPyEval]) = .ok (o', .ok ()) ∧
    o'.booster.trees ≠ o.booster.trees := by
  have h : ((exFitted exArray exY none).bind fun o =>
      (pyFitted o exFrame (exY.map fun x => x * q 2) (some [exPyEval])).bind fun o' => some (decide (
        o.booster.trees ≠ [] ∧ o.booster.baseScore ≠ exParams.baseScore ∧
        o'.booster.trees ≠ o.booster.trees))) = some true := by
    decide +kernel
  simp only [Option.bind_eq_some_iff, Option.some.injEq, decide_eq_true_eq] at h
  obtain ⟨o, h1, o', h2, h3, h4, h5⟩ := h
  exact ⟨o, o', (exFitted_made h1).1, h3, h4, pyFitted_eq h2, h5⟩

/-- The hypothesis on the prediction iteration is needed: set before the first `fit`, it stays. -/
example : ∃ o o' n' : PyBooster Q Q, pyNew exJson exParams = .ok o ∧
    (o.setPredictionIteration 1).fit exJson exEnv exArray exY none none = .ok (o', .ok ()) ∧
    o.fit exJson exEnv exArray exY none none = .ok (n', .ok ()) ∧
    o'.booster.trees.length = 2 ∧ o'.booster.predictionIteration = some 1 ∧
    n'.booster.predictionIteration = none := by
  have h : ((exceptValue (pyNew exJson exParams)).bind fun o =>
      (pyFitted (o.setPredictionIteration 1) exArray exY none).bind fun o' =>
      (pyFitted o exArray exY none).bind fun n' => some (decide (
        o'.booster.trees.length = 2 ∧ o'.booster.predictionIteration = some 1 ∧
        n'.booster.predictionIteration = none))) = some true := by
    decide +kernel
  simp only [Option.bind_eq_some_iff, Option.some.injEq, decide_eq_true_eq] at h
  obtain ⟨o, h1, o', h2, n', h3, h4⟩ := h
  exact ⟨o, o', n', exceptValue_eq h1, pyFitted_eq h2, pyFitted_eq h3, h4⟩

end Verif
