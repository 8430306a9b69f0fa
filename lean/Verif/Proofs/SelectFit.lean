import Verif.Proofs.SelectCol
import Verif.Proofs.ExtraRun

/-!
# Some of the columns: predictions and the boosting loop
-/

namespace Verif

open scoped Verif

set_option linter.unusedSectionVars false

variable {F D : Type} [Fl F] [Fl D] [FlCast F D] {keep : List Nat}

/-! ## Predictions -/

theorem leafFrom_sel {nodes : List (Node F D)} {get get' : Nat → Res D} {missing : D}
    (hn : ∀ n ∈ nodes, n.isLeaf = false → n.splitFeature ∈ keep)
    (hg : ∀ j ∈ keep, get' (keep.idxOf j) = get j) : ∀ (fuel i : Nat),
    leafFrom (nodes.map (Node.renumber keep)) get' missing fuel i =
      (leafFrom nodes get missing fuel i >>= fun n => .ok (n.renumber keep))
  | 0, _ => rfl
  | fuel + 1, i => by
    rw [leafFrom, leafFrom, idx, idx, List.getElem?_map]
    cases h : nodes[i]? with
    | none => rfl
    | some n =>
      rw [Option.map_some, Res.ofOption_some, Res.ofOption_some, Res.ok_bind, Res.ok_bind]
      rw [show (n.renumber keep).isLeaf = n.isLeaf from rfl]
      by_cases hl : n.isLeaf = true
      · rw [if_pos hl, if_pos hl]; rfl
      · rw [if_neg hl, if_neg hl]
        have hl : n.isLeaf = false := by simpa using hl
        have hf := hn n (List.mem_of_getElem? h) hl
        have e : (n.renumber keep).splitFeature = keep.idxOf n.splitFeature := by simp [Node.renumber, hl]
        rw [e, hg _ hf]
        cases get n.splitFeature with
        | panic => rfl
        | diverge => rfl
        | ok v =>
          rw [Res.ok_bind, Res.ok_bind]
          rw [show (n.renumber keep).getChildIdx v missing = n.getChildIdx v missing from rfl]
          cases n.getChildIdx v missing with
          | panic => rfl
          | diverge => rfl
          | ok c => exact leafFrom_sel hn hg fuel c

theorem mapM'_congr_mem {α β : Type} {f g : α → Res β} : ∀ {l : List α}, (∀ a ∈ l, f a = g a) →
    Res.mapM' f l = Res.mapM' g l
  | [], _ => rfl
  | a :: l, h => by
    rw [Res.mapM'_cons, Res.mapM'_cons, h a (by simp), mapM'_congr_mem fun a ha => h a (by simp [ha])]

theorem predictLeaf_sel {X : Matrix D} (hX : X.Shaped) (hk : ∀ c ∈ keep, c < X.cols) {t : Tree F D}
    (ht : t.UsesOnly keep) (missing : D) {i : Nat} (hi : i < X.rows) :
    (t.renumber keep).predictLeaf (X.select keep) i missing =
      (t.predictLeaf X i missing >>= fun n => .ok (n.renumber keep)) := by
  unfold Tree.predictLeaf
  rw [show (t.renumber keep).nodes.length = t.nodes.length by simp [Tree.renumber]]
  exact leafFrom_sel ht (fun j hj => Matrix.select_get hX hk hi (idxOf_getElem? hj)) _ _

theorem treePredict_sel {X : Matrix D} (hX : X.Shaped) (hk : ∀ c ∈ keep, c < X.cols) {t : Tree F D}
    (ht : t.UsesOnly keep) (missing : D) :
    (t.renumber keep).predict (X.select keep) missing = t.predict X missing := by
  unfold Tree.predict
  rw [show (X.select keep).index = X.index from rfl]
  refine mapM'_congr_mem fun i hi => ?_
  rw [predictLeaf_sel hX hk ht missing (by simpa [Matrix.index] using hi)]
  cases t.predictLeaf X i missing <;> rfl

theorem treeLeaves_sel {X : Matrix D} (hX : X.Shaped) (hk : ∀ c ∈ keep, c < X.cols) {t : Tree F D}
    (ht : t.UsesOnly keep) (missing : D) :
    (t.renumber keep).predictLeafIndices (X.select keep) missing = t.predictLeafIndices X missing := by
  unfold Tree.predictLeafIndices
  rw [show (X.select keep).index = X.index from rfl]
  refine mapM'_congr_mem fun i hi => ?_
  rw [predictLeaf_sel hX hk ht missing (by simpa [Matrix.index] using hi)]
  cases t.predictLeaf X i missing <;> rfl

theorem predictionTrees_sel (b : Booster F D) :
    (b.renumber keep).predictionTrees = (b.predictionTrees >>= fun ts => .ok (ts.map (Tree.renumber keep))) := by
  have e : (b.renumber keep).trees = b.trees.map (Tree.renumber keep) := rfl
  unfold Booster.predictionTrees
  rw [e, show (b.renumber keep).predictionIteration = b.predictionIteration from rfl, List.length_map]
  dsimp only
  split
  · rw [← List.map_take]; rfl
  · rfl

theorem predictionTrees_sub {b : Booster F D} {ts : List (Tree F D)} (h : b.predictionTrees = .ok ts) :
    ∀ t ∈ ts, t ∈ b.trees := by
  unfold Booster.predictionTrees at h
  dsimp only at h
  split at h
  · cases h
    exact fun t ht => List.mem_of_mem_take ht
  · cases h

theorem boosterPredict_sel {X : Matrix D} (hX : X.Shaped) (hk : ∀ c ∈ keep, c < X.cols) {b : Booster F D}
    (hb : b.UsesOnly keep) : (b.renumber keep).predict (X.select keep) = b.predict X := by
  unfold Booster.predict
  rw [predictionTrees_sel]
  cases h : b.predictionTrees with
  | panic => rfl
  | diverge => rfl
  | ok ts =>
    rw [Res.ok_bind, Res.ok_bind, Res.ok_bind]
    rw [show (X.select keep).rows = X.rows from rfl, show (b.renumber keep).baseScore = b.baseScore from rfl,
      show (b.renumber keep).missing = b.missing from rfl]
    have hts := predictionTrees_sub h
    clear h
    generalize List.replicate X.rows b.baseScore = acc
    induction ts generalizing acc with
    | nil => rfl
    | cons t ts ih =>
      rw [List.map_cons, Res.foldM'_cons, Res.foldM'_cons, treePredict_sel hX hk (hb t (hts t (by simp)))]
      cases t.predict X b.missing with
      | panic => rfl
      | diverge => rfl
      | ok p => exact ih (fun t ht => hts t (by simp [ht])) _

theorem boosterLeaves_sel {X : Matrix D} (hX : X.Shaped) (hk : ∀ c ∈ keep, c < X.cols) {b : Booster F D}
    (hb : b.UsesOnly keep) : (b.renumber keep).predictLeafIndices (X.select keep) = b.predictLeafIndices X := by
  unfold Booster.predictLeafIndices
  rw [predictionTrees_sel]
  cases h : b.predictionTrees with
  | panic => rfl
  | diverge => rfl
  | ok ts =>
    rw [Res.ok_bind, Res.ok_bind, Res.ok_bind]
    rw [show (b.renumber keep).missing = b.missing from rfl]
    have hts := predictionTrees_sub h
    clear h
    suffices e : Res.mapM' (fun t => t.predictLeafIndices (X.select keep) b.missing) (ts.map (Tree.renumber keep)) =
        Res.mapM' (fun t => t.predictLeafIndices X b.missing) ts by rw [e]
    induction ts with
    | nil => rfl
    | cons t ts ih =>
      rw [List.map_cons, Res.mapM'_cons, Res.mapM'_cons, treeLeaves_sel hX hk (hb t (hts t (by simp))),
        ih fun t ht => hts t (by simp [ht])]

/-! ## Evaluation sets -/

/-- Two evaluation sets with their predictions. -/
def EvSel (keep : List Nat) (e e' : TrainEval D) : Prop :=
  e' = { e with data := e.data.select keep } ∧ e.data.Shaped ∧ ∀ c ∈ keep, c < e.data.cols

/-- Optional evaluation sets. -/
def EvsSel (keep : List Nat) : Option (List (TrainEval D)) → Option (List (TrainEval D)) → Prop
  | none, none => True
  | some l, some l' => List.Forall₂ (EvSel keep) l l'
  | _, _ => False

theorem earlyStopUpdate_sel (b : Booster F D) (i : Nat) (m : D) (mx : Bool) (best : Option D) (stop : Bool) :
    earlyStopUpdate (b.renumber keep) i m mx best stop =
      ((earlyStopUpdate b i m mx best stop).1.renumber keep, (earlyStopUpdate b i m mx best stop).2) := by
  unfold earlyStopUpdate
  rw [show (b.renumber keep).earlyStoppingRounds = b.earlyStoppingRounds from rfl,
    show (b.renumber keep).bestIteration = b.bestIteration from rfl]
  generalize b.earlyStoppingRounds = er
  generalize b.bestIteration = bi
  cases er with
  | none => rfl
  | some r =>
    cases best with
    | none => rfl
    | some v =>
      dsimp only
      split
      · rfl
      · cases bi <;> rfl

theorem evalLoop_sel {S : Sorter} {t : Tree F D} (ht : t.UsesOnly keep) {i n : Nat} {l l' : List (TrainEval D)}
    (hl : List.Forall₂ (EvSel keep) l l') : ∀ (k : Nat) (b : Booster F D) (best : Option D) (stop : Bool),
      Res.Imp (fun r r' => List.Forall₂ (EvSel keep) r.1 r'.1 ∧
          r'.2 = (r.2.1, r.2.2.1.renumber keep, r.2.2.2))
        (evalLoop S t i n l k b best stop) (evalLoop S (t.renumber keep) i n l' k (b.renumber keep) best stop) := by
  induction hl with
  | nil => intro k b best stop; exact .ok ⟨.nil, rfl⟩
  | cons he _ ih =>
    rename_i e e' l l' _
    intro k b best stop
    obtain ⟨rfl, h2, h3⟩ := he
    simp only [evalLoop]
    rw [show (b.renumber keep).missing = b.missing from rfl, treePredict_sel h2 h3 ht]
    refine (Res.Imp.same _).bind fun p p' _ _ e0 => ?_
    subst e0
    rw [show (b.renumber keep).metric = b.metric from rfl]
    refine (Res.Imp.same _).bind fun m m' _ _ e0 => ?_
    subst e0
    rw [earlyStopUpdate_sel]
    have key : ∀ u : Booster F D × Option D × Bool,
        Res.Imp (fun r r' => List.Forall₂ (EvSel keep) r.1 r'.1 ∧ r'.2 = (r.2.1, r.2.2.1.renumber keep, r.2.2.2))
          (evalLoop S t i n l (k + 1) u.1 u.2.1 u.2.2 >>= fun x =>
            .ok ({ e with yhat := addPreds e.yhat p } :: x.1, m :: x.2.1, x.2.2.1, x.2.2.2.1, x.2.2.2.2))
          (evalLoop S (t.renumber keep) i n l' (k + 1) (u.1.renumber keep) u.2.1 u.2.2 >>= fun x =>
            .ok ({ e with yhat := addPreds e.yhat p, data := e.data.select keep } :: x.1, m :: x.2.1, x.2.2.1,
              x.2.2.2.1, x.2.2.2.2)) := by
      intro u
      refine (ih (k + 1) u.1 u.2.1 u.2.2).bind fun r r' _ _ hr => ?_
      obtain ⟨es, ms, b1, be, st⟩ := r
      obtain ⟨es', ms', b1', be', st'⟩ := r'
      obtain ⟨g1, g2⟩ := hr
      dsimp only at g1 g2 ⊢
      cases g2
      exact .ok ⟨.cons ⟨rfl, h2, h3⟩ g1, rfl⟩
    by_cases hkn : k + 1 = n
    · simp only [hkn, if_true]
      have := key (earlyStopUpdate b i m b.metric.maximize best stop)
      rw [hkn] at this
      exact this
    · simp only [hkn, if_false]
      exact key (b, best, stop)

theorem evalSets_sel {S : Sorter} {t : Tree F D} (ht : t.UsesOnly keep) {i : Nat} {l l' : Option (List (TrainEval D))}
    (hl : EvsSel keep l l') (b : Booster F D) (best : Option D) :
    Res.Imp (fun r r' => r'.1 = r.1.renumber keep ∧ EvsSel keep r.2.1 r'.2.1 ∧ r'.2.2 = r.2.2)
      (evalSets S t i b l best) (evalSets S (t.renumber keep) i (b.renumber keep) l' best) := by
  cases l <;> cases l' <;> first
    | exact hl.elim
    | exact .ok ⟨rfl, trivial, rfl⟩
    | skip
  rename_i l l'
  have hl : List.Forall₂ (EvSel keep) l l' := hl
  simp only [evalSets]
  rw [← hl.length_eq]
  have hh : withHistory (b.renumber keep) l.length = (withHistory b l.length).renumber keep := by
    unfold withHistory
    rw [show (b.renumber keep).evaluationHistory = b.evaluationHistory from rfl]
    generalize b.evaluationHistory = eh
    cases eh <;> rfl
  rw [hh]
  refine (evalLoop_sel ht hl 0 _ best false).bind fun r r' _ _ hr => ?_
  obtain ⟨es, ms, b1, be, st⟩ := r
  obtain ⟨es', ms', b1', be', st'⟩ := r'
  obtain ⟨g1, g2⟩ := hr
  dsimp only at g1 g2 ⊢
  cases g2
  have ha : Res.Imp (fun x x' => x' = Booster.renumber keep x) (appendHistory b1 ms)
      (appendHistory (b1.renumber keep) ms) := by
    unfold appendHistory
    rw [show (b1.renumber keep).evaluationHistory = b1.evaluationHistory from rfl]
    generalize b1.evaluationHistory = eh
    cases eh with
    | none => exact .ok rfl
    | some h =>
      refine (Res.Imp.same _).bind fun x x' _ _ e => ?_
      subst e
      exact .ok rfl
  refine ha.bind fun b2 b2' _ _ e => ?_
  subst e
  exact .ok ⟨rfl, g1, rfl⟩

/-! ## The splitter -/

theorem lookup_renumber {keep : List Nat} {f : Nat} (hf : f ∈ keep) : ∀ m : ConstraintMap,
    ((m.filter fun p => keep.contains p.1).map fun p => (keep.idxOf p.1, p.2)).lookup (keep.idxOf f) = m.lookup f
  | [] => rfl
  | (g, v) :: m => by
    have ih := lookup_renumber hf m
    by_cases hfg : f = g
    · subst hfg
      rw [List.filter_cons, if_pos (by simpa using hf), List.map_cons]
      simp [List.lookup_cons]
    · rw [List.lookup_cons, show (f == g) = false by simpa using hfg]
      by_cases hg : g ∈ keep
      · have : keep.idxOf f ≠ keep.idxOf g := by
          intro e
          have h1 := idxOf_getElem? hf
          rw [e, idxOf_getElem? hg] at h1
          exact hfg (Option.some.inj h1).symm
        rw [List.filter_cons, if_pos (by simpa using hg), List.map_cons, List.lookup_cons,
          show (keep.idxOf f == keep.idxOf g) = false by simpa using this]
        exact ih
      · rw [List.filter_cons, if_neg (by simpa using hg)]
        exact ih

theorem contains_renumber {keep : List Nat} {f : Nat} (hf : f ∈ keep) (l : List Nat) :
    ((l.filter fun f => keep.contains f).map fun f => keep.idxOf f).contains (keep.idxOf f) = l.contains f := by
  rw [Bool.eq_iff_iff]
  simp only [List.contains_iff_mem, List.mem_map, List.mem_filter]
  constructor
  · rintro ⟨g, ⟨h1, h2⟩, e⟩
    have h3 := idxOf_getElem? h2
    rw [e, idxOf_getElem? hf] at h3
    rw [Option.some.inj h3]; exact h1
  · exact fun h => ⟨f, ⟨h, hf⟩, rfl⟩

theorem splitterSel_renumber (b : Booster F D) : SplitterSel keep b.splitter (b.renumber keep).splitter := by
  have hm : (b.renumber keep).constraintsMap =
      (b.constraintsMap.filter fun p => keep.contains p.1).map fun p => (keep.idxOf p.1, p.2) := by
    unfold Booster.constraintsMap
    dsimp only [Booster.renumber]
    cases b.monotoneConstraints <;> rfl
  refine ⟨⟨(b.renumber keep).constraintsMap, (b.renumber keep).terminateMissingFeatures, ?_⟩, fun f hf => ?_,
    fun f hf => ?_⟩
  · unfold Booster.splitter
    rw [show (b.renumber keep).createMissingBranch = b.createMissingBranch from rfl]
    dsimp only
    split <;> rfl
  · have h1 : (b.renumber keep).splitter.params.constraintsMap = (b.renumber keep).constraintsMap := by
      unfold Booster.splitter
      dsimp only
      split <;> rfl
    have h2 : b.splitter.params.constraintsMap = b.constraintsMap := by
      unfold Booster.splitter
      dsimp only
      split <;> rfl
    unfold SplitParams.getConstraint
    rw [h1, h2, hm]
    exact lookup_renumber hf _
  · unfold Booster.splitter
    rw [show (b.renumber keep).createMissingBranch = b.createMissingBranch from rfl]
    dsimp only
    split
    · exact contains_renumber hf _
    · rfl

/-! ## The boosting loop -/

/-- Two states of the boosting loop. -/
structure FitSel {R : Type} (keep : List Nat) (s s' : FitState R F D) : Prop where
  booster : s'.booster = s.booster.renumber keep
  yhat : s'.yhat = s.yhat
  grad : s'.grad = s.grad
  hess : s'.hess = s.hess
  evals : EvsSel keep s.evals s'.evals
  best : s'.best = s.best
  rng : s'.rng = s.rng

variable {E : JaggedMatrix (Bin F D) → JaggedMatrix (Bin F D) → Prop}

/-- One iteration, given how its tree compares. -/
theorem fitIteration_selOf {R : Type} {env : Env R F D} {X : Matrix D}
    (hX : X.Shaped) (hk : ∀ c ∈ keep, c < X.cols) {y w : List D} {sp sp' : Splitter F}
    {bdata bdata' : Matrix Nat} {cuts cuts' : JaggedMatrix D}
    {i : Nat} {s s' : FitState R F D} (hcs : (s.booster.colsampleBytree =ᶠ 1) = true) (h : FitSel keep s s')
    {r : FitState R F D × Bool} (hr : fitIteration env X y w sp bdata cuts i s = .ok r)
    (hT : ∀ chosen g hs' rng tree,
      sampleIndex env.sorter env.rng s.booster.sampleMethod s.booster.subsample s.booster.topRate
        s.booster.otherRate s.rng X.index s.grad s.hess = .ok (chosen, g, hs', rng) →
      Tree.fit { splitter := sp, train := { data := bdata, cuts := cuts, grad := g, hess := hs'
                                            colIndex := List.range X.cols }
                 maxLeaves := s.booster.maxLeaves, maxDepth := s.booster.maxDepth
                 policy := s.booster.growPolicy, heap := env.heap i } s.booster.sampleMethod chosen = .ok tree →
      tree ∈ r.1.booster.trees → tree.UsesOnly keep ∧
      Tree.fit { splitter := sp', train := { data := bdata', cuts := cuts', grad := g, hess := hs'
                                             colIndex := List.range keep.length }
                 maxLeaves := s.booster.maxLeaves, maxDepth := s.booster.maxDepth
                 policy := s.booster.growPolicy, heap := env.heap i } s.booster.sampleMethod chosen =
        .ok (tree.renumber keep)) :
    ∃ r', fitIteration env (X.select keep) y w sp' bdata' cuts' i s' = .ok r' ∧ FitSel keep r.1 r'.1 ∧ r'.2 = r.2 ∧
      (r.1.booster.colsampleBytree =ᶠ 1) = true := by
  obtain ⟨hb, hy, hg, hh, hev, hbest, hrn⟩ := h
  have hcs' : (s'.booster.colsampleBytree =ᶠ 1) = true := by rw [hb]; exact hcs
  unfold fitIteration at hr ⊢
  dsimp only at hr ⊢
  rw [hb, hy, hg, hh, hrn, hbest, show (X.select keep).index = X.index from rfl,
    show (X.select keep).cols = keep.length from rfl]
  rw [show (s.booster.renumber keep).sampleMethod = s.booster.sampleMethod from rfl,
    show (s.booster.renumber keep).subsample = s.booster.subsample from rfl,
    show (s.booster.renumber keep).topRate = s.booster.topRate from rfl,
    show (s.booster.renumber keep).otherRate = s.booster.otherRate from rfl,
    show (s.booster.renumber keep).colsampleBytree = s.booster.colsampleBytree from rfl]
  obtain ⟨⟨chosen, g, hs', rng⟩, h1, hr⟩ := Res.bind_eq_ok.1 hr
  dsimp only at hr
  unfold sampleColumns at hr ⊢
  rw [if_pos hcs] at hr
  dsimp only at hr
  obtain ⟨tree, h2, hr⟩ := Res.bind_eq_ok.1 hr
  obtain ⟨preds, h3, hr⟩ := Res.bind_eq_ok.1 hr
  obtain ⟨⟨b1, ev1, be1, st⟩, h4, hr⟩ := Res.bind_eq_ok.1 hr
  dsimp only at hr
  have hmem : tree ∈ r.1.booster.trees := by
    cases st with
    | true => cases hr; simp
    | false => cases hr; simp
  obtain ⟨ht, ht'⟩ := hT chosen g hs' rng tree h1 h2 hmem
  obtain ⟨⟨b1', ev1', be1', st'⟩, h4', g1, g2, g3⟩ := evalSets_sel (S := env.sorter) (i := i) ht hev s.booster s.best _ h4
  dsimp only at g1 g2 g3
  cases g3
  subst g1
  have hsame := (evalSets_same h4).1
  have hcs1 : (b1.colsampleBytree =ᶠ 1) = true := by
    unfold Booster.SameParams at hsame
    rw [hsame]
    exact hcs
  rw [h1, Res.ok_bind]
  dsimp only
  rw [if_pos hcs]
  dsimp only
  rw [show (s.booster.renumber keep).maxLeaves = s.booster.maxLeaves from rfl,
    show (s.booster.renumber keep).maxDepth = s.booster.maxDepth from rfl,
    show (s.booster.renumber keep).growPolicy = s.booster.growPolicy from rfl,
    show (s.booster.renumber keep).missing = s.booster.missing from rfl]
  rw [ht', Res.ok_bind, treePredict_sel hX hk ht, h3, Res.ok_bind, h4', Res.ok_bind]
  dsimp only
  have htr : ({ b1.renumber keep with trees := (b1.renumber keep).trees ++ [tree.renumber keep] } : Booster F D) =
      ({ b1 with trees := b1.trees ++ [tree] } : Booster F D).renumber keep := by
    unfold Booster.renumber
    simp
  cases st with
  | true =>
    cases hr
    exact ⟨_, rfl, ⟨htr, rfl, rfl, rfl, g2, rfl, rfl⟩, rfl, hcs1⟩
  | false =>
    cases hr
    exact ⟨_, rfl, ⟨htr, rfl, rfl, rfl, g2, rfl, rfl⟩, rfl, hcs1⟩

theorem fitIteration_sel {R : Type} {env : Env R F D} (hp : ∀ i, (env.heap i).ByScore) {X : Matrix D}
    (hX : X.Shaped) (hk : ∀ c ∈ keep, c < X.cols) {y w : List D} {sp sp' : Splitter F} (hs : SplitterSel keep sp sp')
    {bdata bdata' : Matrix Nat} {cuts cuts' : JaggedMatrix D}
    (hT : ∀ grad hess, TrainSel keep (fun _ => True) sp sp' E
      { data := bdata, cuts, grad, hess, colIndex := List.range X.cols }
      { data := bdata', cuts := cuts', grad, hess, colIndex := List.range keep.length })
    {i : Nat} {s s' : FitState R F D} (hcs : (s.booster.colsampleBytree =ᶠ 1) = true) (h : FitSel keep s s')
    {r : FitState R F D × Bool} (hr : fitIteration env X y w sp bdata cuts i s = .ok r)
    (hu : r.1.booster.UsesOnly keep) :
    ∃ r', fitIteration env (X.select keep) y w sp' bdata' cuts' i s' = .ok r' ∧ FitSel keep r.1 r'.1 ∧ r'.2 = r.2 ∧
      (r.1.booster.colsampleBytree =ᶠ 1) = true :=
  fitIteration_selOf hX hk hcs h hr fun chosen g hs' rng tree _ h2 hmem =>
    ⟨hu tree hmem, treeFit_sel (E := E) (keep := keep) (by exact ⟨hT g hs', hs, rfl, rfl, rfl, rfl, hp i⟩) _ _ h2
      (hu tree hmem)⟩

theorem fitLoop_trees_prefix {R : Type} {env : Env R F D} {X : Matrix D} {y w : List D} {sp : Splitter F}
    {bdata : Matrix Nat} {cuts : JaggedMatrix D} : ∀ (n i : Nat) {s r : FitState R F D},
    fitLoop env X y w sp bdata cuts n i s = .ok r → s.booster.trees <+: r.booster.trees
  | 0, _, s, r, h => by cases h; exact List.prefix_rfl
  | n + 1, i, s, r, h => by
    simp only [fitLoop] at h
    obtain ⟨⟨s1, st⟩, h1, h⟩ := Res.bind_eq_ok.1 h
    dsimp only at h
    obtain ⟨_, _, tree, _, hi⟩ := fitIteration_ok h1
    have h0 : s.booster.trees <+: s1.booster.trees := by rw [hi.trees_eq]; exact List.prefix_append _ _
    split at h
    · cases h; exact h0
    · exact h0.trans (fitLoop_trees_prefix n (i + 1) h)

theorem fitLoop_sel {R : Type} {env : Env R F D} (hp : ∀ i, (env.heap i).ByScore) {X : Matrix D}
    (hX : X.Shaped) (hk : ∀ c ∈ keep, c < X.cols) {y w : List D} {sp sp' : Splitter F} (hs : SplitterSel keep sp sp')
    {bdata bdata' : Matrix Nat} {cuts cuts' : JaggedMatrix D}
    (hT : ∀ grad hess, TrainSel keep (fun _ => True) sp sp' E
      { data := bdata, cuts, grad, hess, colIndex := List.range X.cols }
      { data := bdata', cuts := cuts', grad, hess, colIndex := List.range keep.length }) :
    ∀ (n i : Nat) {s s' r : FitState R F D}, (s.booster.colsampleBytree =ᶠ 1) = true → FitSel keep s s' →
    fitLoop env X y w sp bdata cuts n i s = .ok r → r.booster.UsesOnly keep →
    ∃ r', fitLoop env (X.select keep) y w sp' bdata' cuts' n i s' = .ok r' ∧ FitSel keep r r'
  | 0, _, _, s', _, _, h, hr, _ => by cases hr; exact ⟨s', rfl, h⟩
  | n + 1, i, s, s', r, hcs, h, hr, hu => by
    simp only [fitLoop] at hr ⊢
    obtain ⟨⟨s1, st⟩, h1, hr⟩ := Res.bind_eq_ok.1 hr
    dsimp only at hr
    have hu1 : s1.booster.UsesOnly keep := by
      split at hr
      · cases hr; exact hu
      · exact fun t ht => hu t ((fitLoop_trees_prefix n (i + 1) hr).subset ht)
    obtain ⟨⟨s1', st'⟩, h1', g1, g2, g3⟩ := fitIteration_sel hp hX hk hs hT hcs h h1 hu1
    dsimp only at g1 g2 g3
    subst g2
    rw [h1', Res.ok_bind]
    dsimp only
    split at hr
    · rename_i hst
      cases hr
      rw [if_pos hst]
      exact ⟨_, rfl, g1⟩
    · rename_i hst
      rw [if_neg hst]
      exact fitLoop_sel hp hX hk hs hT n (i + 1) g3 g1 hr hu

theorem fitRest_sel [Fl.OrdLaws F] {R : Type} {env : Env R F D} (hp : ∀ i, (env.heap i).ByScore) {X : Matrix D}
    (hX : X.Shaped) (hinc : keep.Pairwise (· < ·)) (hk : ∀ c ∈ keep, c < X.cols) {y w : List D} {sp sp' : Splitter F}
    (hs : SplitterSel keep sp sp') {ev : Option (List (EvalSet D))}
    (hev : ∀ es, ev = some es → ∀ e ∈ es, e.data.Shaped ∧ ∀ c ∈ keep, c < e.data.cols)
    {b : Booster F D} (hcs : (b.colsampleBytree =ᶠ 1) = true) {r : Booster F D}
    (h : fitRest env X y w sp ev b = .ok r) (hu : r.UsesOnly keep) :
    fitRest env (X.select keep) y w sp' (ev.map fun es => es.map fun e => e.select keep) (b.renumber keep) =
      .ok (r.renumber keep) := by
  unfold fitRest at h ⊢
  obtain ⟨bd, h1, h⟩ := Res.bind_eq_ok.1 h
  obtain ⟨s, h2, h⟩ := Res.bind_eq_ok.1 h
  cases h
  obtain ⟨cl, hJ, hcl, hB⟩ := binMatrix_shape hX h1
  obtain ⟨bd', h1', hbd, hJ'⟩ := binMatrix_select hX h1 hJ keep hk
  refine Res.bind_eq_ok.2 ⟨bd', h1', ?_⟩
  have hT := trainSel_select hs hJ hcl hB hinc hk hJ'
  obtain ⟨s', h2', hss⟩ := fitLoop_sel hp hX hk hs hT b.iterations 0 (s' :=
    { booster := b.renumber keep, yhat := List.replicate y.length b.baseScore
      grad := (calcGradHess (F := F) b.objectiveType y (List.replicate y.length b.baseScore) w).1
      hess := (calcGradHess (F := F) b.objectiveType y (List.replicate y.length b.baseScore) w).2
      evals := (ev.map fun es => es.map fun e => e.select keep).map fun es => es.map fun e =>
        { toEvalSet := e, yhat := List.replicate e.y.length b.baseScore : TrainEval D }
      best := none, rng := env.rng.seed b.seed }) hcs (by
      refine ⟨rfl, rfl, rfl, rfl, ?_, rfl, rfl⟩
      cases ev with
      | none => trivial
      | some es =>
        show List.Forall₂ _ (es.map _) ((es.map _).map _)
        rw [List.map_map, List.forall₂_map_left_iff, List.forall₂_map_right_iff, List.forall₂_same]
        exact fun e he => ⟨rfl, hev es rfl e he⟩) h2 hu
  refine Res.bind_eq_ok.2 ⟨s', ?_, ?_⟩
  · rw [← hbd] at h2'
    exact h2'
  · rw [hss.booster]

theorem validateEvals_sel : ∀ (l : List (EvalSet D)) (i : Nat),
    validateEvals (l.map fun e => e.select keep) i = validateEvals l i
  | [], _ => rfl
  | e :: l, i => by
    rw [List.map_cons, validateEvals, validateEvals]
    simp only [validateEvals_sel l]
    rfl

/-- The fit on some of the columns. -/
theorem fit_sel [Fl.OrdLaws F] {R : Type} {env : Env R F D} (hp : ∀ i, (env.heap i).ByScore) {X : Matrix D}
    (hX : X.Shaped) (hinc : keep.Pairwise (· < ·)) (hk : ∀ c ∈ keep, c < X.cols) {y w : List D}
    {ev : Option (List (EvalSet D))}
    (hev : ∀ es, ev = some es → ∀ e ∈ es, e.data.Shaped ∧ ∀ c ∈ keep, c < e.data.cols)
    {b : Booster F D} (hcs : (b.colsampleBytree =ᶠ 1) = true) {r : Booster F D} {res : Except ForustError Unit}
    (h : b.fit env X y w ev = .ok (r, res)) (hu : r.UsesOnly keep) :
    (b.renumber keep).fit env (X.select keep) y w (ev.map fun es => es.map fun e => e.select keep) =
      .ok (r.renumber keep, res) := by
  have hv : validateFit y w (ev.map fun es => es.map fun e => e.select keep) = validateFit y w ev := by
    unfold validateFit
    cases ev with
    | none => rfl
    | some es => simp only [Option.map_some, validateEvals_sel es]
  unfold Booster.fit at h ⊢
  rw [hv]
  split at h
  · cases h; rfl
  · obtain ⟨b', h1, h⟩ := Res.bind_eq_ok.1 h
    cases h
    refine Res.bind_eq_ok.2 ⟨r.renumber keep, ?_, rfl⟩
    rw [fitTrees_eq_rest] at h1 ⊢
    have h0 : (if (b.renumber keep).trees.isEmpty then b.renumber keep else (b.renumber keep).reset) =
        (if b.trees.isEmpty then b else b.reset).renumber keep := by
      rw [show (b.renumber keep).trees.isEmpty = b.trees.isEmpty by simp [Booster.renumber]]
      split <;> rfl
    have hc0 : ((if b.trees.isEmpty then b else b.reset).colsampleBytree =ᶠ 1) = true := by
      split <;> exact hcs
    have hs := splitterSel_renumber (keep := keep) b
    rw [h0]
    generalize (if b.trees.isEmpty then b else b.reset) = b0 at hc0 h1
    dsimp only at h1 ⊢
    rw [show (b0.renumber keep).initializeBaseScore = b0.initializeBaseScore from rfl]
    split at h1
    · rename_i hi
      rw [if_pos hi]
      obtain ⟨s, h2, h1⟩ := Res.bind_eq_ok.1 h1
      refine Res.bind_eq_ok.2 ⟨s, h2, ?_⟩
      exact fitRest_sel (b := { b0 with baseScore := s }) hp hX hinc hk hs hev hc0 h1 hu
    · rename_i hi
      rw [if_neg hi]
      exact fitRest_sel hp hX hinc hk hs hev hc0 h1 hu

end Verif
