import Verif.Proofs.LearningRate
import Verif.Proofs.SelectFit
import Verif.Props.Scaling
import Verif.Props.Predict

/-!
# C116: the learning rate only scales the first tree

The learning rate is used in one place: a node of a tree gets its weight times the learning rate as value.  The search
for splits works with the weights.  So two fits that differ only in the learning rate have first trees with the same
nodes, splits, gains and covers, and the values are the same weights times the two learning rates.  The later trees are
fitted to other residuals.
-/

namespace Verif

open scoped Verif

set_option linter.unusedSectionVars false

section
variable {F D : Type} [Fl F] [Fl D] [FlCast F D] {R : Type}

/-- The base score of a fit. -/
def firstBase (b : Booster F D) (y w : List D) : Res D :=
  if b.initializeBaseScore then calcInit b.objectiveType y w else .ok b.baseScore

/-- The base score and the first tree of a fit. -/
def firstTree (env : Env R F D) (b : Booster F D) (X : Matrix D) (y w : List D) (sp : Splitter F) :
    Res (D × Tree F D) := do
  let b := if b.trees.isEmpty then b else b.reset
  let base ← firstBase b y w
  let gh := calcGradHess (F := F) b.objectiveType y (List.replicate y.length base) w
  let binned ← binMatrix env.sorter X w b.nbins b.missing
  let (chosen, grad, hess, rng) ← sampleIndex env.sorter env.rng b.sampleMethod b.subsample
    b.topRate b.otherRate (env.rng.seed b.seed) X.index gh.1 gh.2
  let (colIndex, _) := sampleColumns env.rng b.colsampleBytree rng X.cols
  let t ← Tree.fit
    { splitter := sp
      train := { data := { data := binned.binned, rows := X.rows, cols := X.cols }, cuts := binned.cuts, grad, hess, colIndex }
      maxLeaves := b.maxLeaves, maxDepth := b.maxDepth, policy := b.growPolicy, heap := env.heap 0 } b.sampleMethod chosen
  .ok (base, t)

theorem fitTrees_first {env : Env R F D} {b r : Booster F D} {X : Matrix D} {y w : List D} {sp : Splitter F}
    {ev : Option (List (EvalSet D))} (h : fitTrees env b X y w sp ev = .ok r) (hi : 0 < b.iterations) :
    ∃ t, firstTree env b X y w sp = .ok (r.baseScore, t) ∧ r.trees[0]? = some t ∧
      (b.iterations = 1 → r.trees = [t] ∧ (ev = none → r.predictionIteration =
        if b.trees.isEmpty then b.predictionIteration else none) ∧ r.missing = b.missing) := by
  rw [fitTrees_eq_rest] at h
  unfold firstTree
  dsimp only at h ⊢
  have hb0 : (if b.trees.isEmpty then b else b.reset).trees = [] ∧
      (if b.trees.isEmpty then b else b.reset).iterations = b.iterations ∧
      (if b.trees.isEmpty then b else b.reset).missing = b.missing ∧
      (if b.trees.isEmpty then b else b.reset).predictionIteration =
        if b.trees.isEmpty then b.predictionIteration else none := by
    split
    · rename_i h0
      exact ⟨by simpa using h0, rfl, rfl, rfl⟩
    · exact ⟨rfl, rfl, rfl, rfl⟩
  generalize (if b.trees.isEmpty then b else b.reset) = b0 at h hb0 ⊢
  obtain ⟨hb1, hb2, hb4, hb3⟩ := hb0
  obtain ⟨base, h2, h⟩ : ∃ base, firstBase b0 y w = .ok base ∧
      fitRest env X y w sp ev { b0 with baseScore := base } = .ok r := by
    unfold firstBase
    split at h
    · rename_i hini
      obtain ⟨s, hs, h⟩ := Res.bind_eq_ok.1 h
      rw [if_pos hini]
      exact ⟨s, hs, h⟩
    · rename_i hini
      rw [if_neg hini]
      exact ⟨_, rfl, h⟩
  rw [h2]
  unfold fitRest at h
  dsimp only at h
  simp only [Res.ok_bind]
  obtain ⟨binned, h4, h⟩ := Res.bind_eq_ok.1 h
  rw [h4]
  simp only [Res.ok_bind]
  obtain ⟨s, h5, h⟩ := Res.bind_eq_ok.1 h
  cases h
  obtain ⟨k, hk⟩ : ∃ k, b0.iterations = k + 1 := ⟨b0.iterations - 1, by omega⟩
  rw [hk] at h5
  simp only [fitLoop] at h5
  obtain ⟨⟨s1, st⟩, h6, h7⟩ := Res.bind_eq_ok.1 h5
  dsimp only at h7
  have hev : ev = none → s1.booster.predictionIteration = b0.predictionIteration := by
    rintro rfl
    simp only [fitIteration, Option.map_none, evalSets] at h6
    obtain ⟨⟨_, _, _, _⟩, _, h6⟩ := Res.bind_eq_ok.1 h6
    obtain ⟨_, _, h6⟩ := Res.bind_eq_ok.1 h6
    obtain ⟨_, _, h6⟩ := Res.bind_eq_ok.1 h6
    simp only [Res.ok_bind, Bool.false_eq_true, if_false] at h6
    cases h6
    rfl
  obtain ⟨cfg, chosen, t, preds, hs⟩ := fitIteration_ok h6
  obtain ⟨r1, r2, e1, e2, _⟩ := hs.sample
  have hst : s1.booster.trees <+: s.booster.trees := by
    split at h7
    · cases h7; exact List.prefix_rfl
    · exact fitLoop_trees_prefix _ _ h7
  have ht : s1.booster.trees = [t] := by rw [hs.trees_eq]; dsimp only; rw [hb1]; rfl
  have hone : b.iterations = 1 → s = s1 := by
    intro h1
    have : k = 0 := by omega
    subst this
    split at h7
    · cases h7; rfl
    · cases h7; rfl
  have hsame : ({ b0 with baseScore := base } : Booster F D).SameParams s.booster := by
    have := fitLoop_induct (P := fun _ _ (x : FitState R F D) =>
        ({ b0 with baseScore := base } : Booster F D).SameParams x.booster)
      (env := env) (data := X) (y := y) (w := w) (splitter := sp)
      (bdata := { data := binned.binned, rows := X.rows, cols := X.cols }) (cuts := binned.cuts)
      (fun i a a' stop ha hfit => by
        obtain ⟨_, _, _, _, hh⟩ := fitIteration_ok hfit
        exact ha.trans hh.same) (k + 1) 0 _ s (by unfold Booster.SameParams; dsimp only; rw [hk]) h5
    obtain ⟨_, _, _, _, h9, _⟩ := this
    exact h9
  have hbase : s.booster.baseScore = base := by
    unfold Booster.SameParams at hsame; rw [hsame]
  have hmiss : s.booster.missing = b0.missing := by
    unfold Booster.SameParams at hsame; rw [hsame]
  refine ⟨t, ?_, ?_, fun h1 => ⟨by rw [hone h1, ht], fun he => by rw [hone h1, hev he, hb3], by rw [hmiss, hb4]⟩⟩
  · dsimp only at e1 e2
    rw [e1]
    simp only [Res.ok_bind]
    rw [e2]
    dsimp only
    have e3 := hs.tree_eq
    rw [hs.cfg_eq] at e3
    dsimp only at e3
    rw [e3, hbase]
    rfl
  · rw [ht] at hst
    obtain ⟨u, hu⟩ := hst
    rw [← hu]
    rfl

theorem splitter_withRate (b : Booster F D) (lr : F) : (b.withRate lr).splitter = b.splitter.withRate lr := by
  unfold Booster.splitter
  rw [show (b.withRate lr).createMissingBranch = b.createMissingBranch from rfl]
  cases b.createMissingBranch <;> rfl

theorem firstTree_rate {env : Env R F D} {b : Booster F D} {X : Matrix D} {y w : List D} {lr : F}
    {P : F → F → Prop} (hP : ∀ w, P (w * b.learningRate) (w * lr))
    (hA : b.createMissingBranch = true → b.missingNodeTreatment = .averageLeafWeight →
      ∃ Q : D → D → Prop, Averages P Q) :
    Res.Rel (fun r r' => r'.1 = r.1 ∧ r.2.SameButValues P r'.2) (firstTree env b X y w b.splitter)
      (firstTree env (b.withRate lr) X y w (b.withRate lr).splitter) := by
  have hr : b.splitter.params.learningRate = b.learningRate := by rw [splitter_params_eq]
  have hA' : (∃ p, b.splitter = .branch p ∧ p.missingNodeTreatment = .averageLeafWeight) →
      ∃ Q : D → D → Prop, Averages P Q := by
    rintro ⟨p, hp, hm⟩
    unfold Booster.splitter at hp
    dsimp only at hp
    split at hp
    · rename_i hc
      injection hp with hp
      rw [← hp] at hm
      exact hA hc hm
    · cases hp
  rw [splitter_withRate]
  generalize b.splitter = sp at hr hA'
  unfold firstTree
  rw [show (b.withRate lr).trees.isEmpty = b.trees.isEmpty from rfl]
  have e : (if b.trees.isEmpty then b.withRate lr else (b.withRate lr).reset) =
      (if b.trees.isEmpty then b else b.reset).withRate lr := by
    cases b.trees.isEmpty <;> rfl
  rw [e]
  generalize (if b.trees.isEmpty then b else b.reset) = b0
  dsimp only [Booster.withRate]
  refine Res.Rel.bind (R := Eq) (x := firstBase b0 y w) (y := firstBase (b0.withRate lr) y w) (Res.Rel.of_eq rfl)
    fun base _ _ _ e => ?_
  subst e
  refine (Res.Rel.of_eq rfl).bind fun binned _ _ _ e => ?_
  subst e
  refine (Res.Rel.of_eq rfl).bind fun r _ _ _ e => ?_
  subst e
  obtain ⟨chosen, grad, hess, rng⟩ := r
  dsimp only
  refine (treeFit_rate (lr := lr) (c := {
    splitter := sp
    train := { data := { data := binned.binned, rows := X.rows, cols := X.cols }, cuts := binned.cuts, grad, hess
               colIndex := (sampleColumns env.rng b0.colsampleBytree rng X.cols).1 }
    maxLeaves := b0.maxLeaves, maxDepth := b0.maxDepth, policy := b0.growPolicy, heap := env.heap 0 })
    (by rw [hr]; exact hP) hA' b0.sampleMethod chosen).bind fun t t' _ _ ht => ⟨rfl, ht⟩

/-- A successful fit is a successful run of `fit_trees`. -/
theorem fitTrees_of_fit {env : Env R F D} {b r : Booster F D} {X : Matrix D} {y w : List D}
    {ev : Option (List (EvalSet D))} (h : b.fit env X y w ev = .ok (r, .ok ())) :
    fitTrees env b X y w b.splitter ev = .ok r := by
  unfold Booster.fit at h
  split at h
  · cases h
  · obtain ⟨b', h1, h2⟩ := Res.bind_eq_ok.1 h
    cases h2
    exact h1

theorem first_related {env : Env R F D} {b r r' : Booster F D} {X : Matrix D} {y w : List D} {lr : F}
    {ev ev' : Option (List (EvalSet D))} {P : F → F → Prop} (hP : ∀ w, P (w * b.learningRate) (w * lr))
    (hA : b.createMissingBranch = true → b.missingNodeTreatment = .averageLeafWeight →
      ∃ Q : D → D → Prop, Averages P Q) (hi : 0 < b.iterations)
    (h : b.fit env X y w ev = .ok (r, .ok ())) (h' : (b.withRate lr).fit env X y w ev' = .ok (r', .ok ())) :
    r'.baseScore = r.baseScore ∧ ∃ t t', r.trees[0]? = some t ∧ r'.trees[0]? = some t' ∧ t.SameButValues P t' ∧
      (b.iterations = 1 → r.trees = [t] ∧ r'.trees = [t']) := by
  obtain ⟨t, e1, e2, e3⟩ := fitTrees_first (fitTrees_of_fit h) hi
  obtain ⟨t', e1', e2', e3'⟩ := fitTrees_first (fitTrees_of_fit h') hi
  have := firstTree_rate (env := env) (X := X) (y := y) (w := w) hP hA
  rw [e1, e1'] at this
  exact ⟨this.1, t, t', e2, e2', this.2, fun h1 => ⟨(e3 h1).1, (e3' h1).1⟩⟩

/-- **C116** (same splits).  Two fits of the same data whose settings differ only in the learning rate have the same
base score, and first trees that agree in everything but the values of their nodes: splits, children, gains, covers and
depths.  Any arithmetic, any sampling, either way of handling missing values; the evaluation sets may differ. -/
theorem C116_structure {env : Env R F D} {b r r' : Booster F D} {X : Matrix D} {y w : List D} {lr : F}
    {ev ev' : Option (List (EvalSet D))} (hi : 0 < b.iterations)
    (h : b.fit env X y w ev = .ok (r, .ok ())) (h' : (b.withRate lr).fit env X y w ev' = .ok (r', .ok ())) :
    r'.baseScore = r.baseScore ∧ ∃ t t', r.trees[0]? = some t ∧ r'.trees[0]? = some t' ∧
      t.SameButValues (fun _ _ => True) t' := by
  obtain ⟨h1, t, t', h2, h3, h4, _⟩ := first_related (P := fun _ _ => True) (fun _ => trivial)
    (fun _ _ => ⟨fun _ _ => True, ⟨fun _ => trivial, fun _ => trivial, trivial, fun _ _ _ _ _ _ => trivial⟩⟩) hi h h'
  exact ⟨h1, t, t', h2, h3, h4⟩

/-- **C116** (same weights).  Unless missing branches get the average of the leaves, the value of each node is the same
weight times the one and the other learning rate.  Any arithmetic. -/
theorem C116_weights {env : Env R F D} {b r r' : Booster F D} {X : Matrix D} {y w : List D} {lr : F}
    {ev ev' : Option (List (EvalSet D))} (hi : 0 < b.iterations)
    (hm : ¬ (b.createMissingBranch = true ∧ b.missingNodeTreatment = .averageLeafWeight))
    (h : b.fit env X y w ev = .ok (r, .ok ())) (h' : (b.withRate lr).fit env X y w ev' = .ok (r', .ok ())) :
    ∃ t t', r.trees[0]? = some t ∧ r'.trees[0]? = some t' ∧ t.SameButValues (Rated b.learningRate lr) t' := by
  obtain ⟨_, t, t', h2, h3, h4, _⟩ := first_related (P := Rated b.learningRate lr) (fun w => ⟨w, rfl, rfl⟩)
    (fun h1 h2 => absurd ⟨h1, h2⟩ hm) hi h h'
  exact ⟨t, t', h2, h3, h4⟩

end

section
variable {K : Type} [Field K] [LinearOrder K] [IsStrictOrderedRing K] {m32 m64 : Fmt K} [m32.Exact] [m64.Exact]
  {c : K} {R : Type}

theorem averages_times (hc : 0 < c) :
    Averages (F := FX m32) (D := FX m64) (fun a b => b = FX.fin c * a) (fun a b => b = FX.fin c * a) := by
  refine ⟨?_, ?_, ?_, ?_⟩
  · rintro a b rfl
    rw [FX.fin_mul_eq hc, FX.fin_mul_eq hc, FX.smul_up]
  · rintro a b rfl
    rw [FX.fin_mul_eq hc, FX.fin_mul_eq hc, FX.smul_down]
  · rw [FX.fin_mul_eq hc, FX.smul_zero]
  · rintro a a' b b' d d' x y z rfl rfl rfl
    simp only [FX.fin_mul_eq hc, FX.smul_div hc, FX.smul_add, FX.smul_mul hc]

theorem times_rate (hc : 0 < c) (w lr : FX m32) : w * (FX.fin c * lr) = FX.fin c * (w * lr) := by
  rw [FX.fin_mul_eq hc, FX.fin_mul_eq hc, FX.smul_mul_right hc]

/-- **C116** (scaled).  With exact arithmetic, a learning rate that is `c > 0` times as large makes all values of the
first tree `c` times as large, in every case. -/
theorem C116_scaled {env : Env R (FX m32) (FX m64)} {b r r' : Booster (FX m32) (FX m64)} {X : Matrix (FX m64)}
    {y w : List (FX m64)} {ev ev' : Option (List (EvalSet (FX m64)))} (hc : 0 < c) (hi : 0 < b.iterations)
    (h : b.fit env X y w ev = .ok (r, .ok ()))
    (h' : (b.withRate (FX.fin c * b.learningRate)).fit env X y w ev' = .ok (r', .ok ())) :
    ∃ t t', r.trees[0]? = some t ∧ r'.trees[0]? = some t' ∧ t.SameButValues (fun v v' => v' = FX.fin c * v) t' := by
  obtain ⟨_, t, t', h2, h3, h4, _⟩ := first_related (P := fun v v' => v' = FX.fin c * v)
    (fun w => times_rate hc w _) (fun _ _ => ⟨_, averages_times hc⟩) hi h h'
  exact ⟨t, t', h2, h3, h4⟩

theorem leafFrom_rate {F D : Type} [Fl F] [Fl D] [FlCast F D] {P : F → F → Prop} {ns ns' : List (Node F D)}
    (h : List.Forall₂ (Node.SameButValue P) ns ns') {get : Nat → Res D} {missing : D} : ∀ (fuel i : Nat),
    Res.Rel (Node.SameButValue P) (leafFrom ns get missing fuel i) (leafFrom ns' get missing fuel i)
  | 0, _ => trivial
  | fuel + 1, i => by
    unfold leafFrom
    refine (idx_sim h i).bind fun n n' _ _ hn => ?_
    rw [hn.isLeaf, hn.splitFeature]
    split
    · exact hn
    · refine (Res.Rel.of_eq rfl).bind fun v _ _ _ e => ?_
      subst e
      have : n'.getChildIdx v missing = n.getChildIdx v missing := by
        unfold Node.getChildIdx
        rw [hn.missingNode, hn.leftChild, hn.rightChild, hn.splitValue]
      rw [this]
      refine (Res.Rel.of_eq rfl).bind fun j _ _ _ e => ?_
      subst e
      exact leafFrom_rate h fuel j

/-- **C116** (a model of one tree).  With exact arithmetic and one iteration, a learning rate that is `c > 0` times as
large makes the difference of each prediction to the base score `c` times as large. -/
theorem C116_single {env : Env R (FX m32) (FX m64)} {b r r' : Booster (FX m32) (FX m64)} {X Z : Matrix (FX m64)}
    {y w : List (FX m64)} {out : List (FX m64)} (hc : 0 < c) (hi : b.iterations = 1) (hb : b.predictionIteration = none)
    (h : b.fit env X y w none = .ok (r, .ok ()))
    (h' : (b.withRate (FX.fin c * b.learningRate)).fit env X y w none = .ok (r', .ok ()))
    (ho : r.predict Z = .ok out) :
    r'.predictLeafIndices Z = r.predictLeafIndices Z ∧ ∃ vs : List (FX m64), out = vs.map (r.baseScore + ·) ∧
      r'.predict Z = .ok (vs.map (r.baseScore + FX.fin c * ·)) := by
  obtain ⟨hbase, t, t', _, _, h4, h5⟩ := first_related (P := fun v v' => v' = FX.fin c * v)
    (fun w => times_rate hc w _) (fun _ _ => ⟨_, averages_times hc⟩) (by omega) h h'
  obtain ⟨e1, e2⟩ := h5 hi
  obtain ⟨_, _, _, e3⟩ := fitTrees_first (fitTrees_of_fit h) (by omega)
  obtain ⟨_, _, _, e3'⟩ := fitTrees_first (fitTrees_of_fit h') (by
    show 0 < b.iterations
    omega)
  have p1 : r.predictionIteration = none := by rw [(e3 hi).2.1 rfl, hb]; split <;> rfl
  have p2 : r'.predictionIteration = none := by
    rw [(e3' hi).2.1 rfl]
    show (if b.trees.isEmpty then b.predictionIteration else none) = none
    rw [hb]
    split <;> rfl
  have hmiss : r'.missing = r.missing := by rw [(e3' hi).2.2, (e3 hi).2.2]; rfl
  have q1 : r.predictionTrees = .ok [t] := by
    unfold Booster.predictionTrees
    rw [p1, e1]
    rfl
  have q2 : r'.predictionTrees = .ok [t'] := by
    unfold Booster.predictionTrees
    rw [p2, e2]
    rfl
  have leaf : ∀ i, Res.Rel (Node.SameButValue (fun v v' => v' = FX.fin c * v)) (t.predictLeaf Z i r.missing)
      (t'.predictLeaf Z i r.missing) := by
    intro i
    unfold Tree.predictLeaf
    rw [← h4.length_eq]
    exact leafFrom_rate h4 _ _
  have hpred : ∀ l : List Nat, Res.Rel (List.Forall₂ fun v v' => v' = FX.fin c * v)
      (Res.mapM' (fun i => do let n ← t.predictLeaf Z i r.missing; .ok (up n.weightValue : FX m64)) l)
      (Res.mapM' (fun i => do let n ← t'.predictLeaf Z i r.missing; .ok (up n.weightValue : FX m64)) l) := by
    intro l
    induction l with
    | nil => exact List.Forall₂.nil
    | cons i l ih =>
      rw [Res.mapM'_cons, Res.mapM'_cons]
      refine Res.Rel.bind (R := fun v v' => v' = FX.fin c * v) ((leaf i).bind fun n n' _ _ hn => ?_)
        fun v v' _ _ hv => ih.bind fun vs vs' _ _ hvs => List.Forall₂.cons hv hvs
      exact (averages_times hc).up hn.value
  constructor
  · unfold Booster.predictLeafIndices
    rw [q1, q2]
    simp only [Res.ok_bind]
    have : t'.predictLeafIndices Z r'.missing = t.predictLeafIndices Z r.missing := by
      unfold Tree.predictLeafIndices
      rw [hmiss]
      refine Res.mapM'_congr fun i _ => ?_
      exact (Res.Rel.eq ((leaf i).bind fun n n' _ _ hn => Res.Rel.of_eq (by rw [hn.num]))).symm
    rw [Res.mapM'_cons, Res.mapM'_cons, this]
    rfl
  · unfold Booster.predict at ho ⊢
    rw [q1] at ho
    rw [q2]
    simp only [Res.ok_bind, Res.foldM'_cons] at ho ⊢
    obtain ⟨a, ha, ho⟩ := Res.bind_eq_ok.1 ho
    obtain ⟨p, hp, ha⟩ := Res.bind_eq_ok.1 ha
    cases ha
    cases ho
    have hq := hpred Z.index
    unfold Tree.predict at hp ⊢
    rw [hp] at hq
    rw [hmiss, hbase]
    cases hp' : Res.mapM' (fun i => do let n ← t'.predictLeaf Z i r.missing; .ok (up n.weightValue : FX m64)) Z.index with
    | panic => rw [hp'] at hq; exact hq.elim
    | diverge => rw [hp'] at hq; exact hq.elim
    | ok p' =>
      rw [hp'] at hq
      have hlen : p.length = Z.rows := by
        have := (Res.mapM'_eq_ok.1 hp).length_eq.symm
        simpa [Matrix.index] using this
      have add : ∀ (x : FX m64) (l : List (FX m64)), addPreds (List.replicate l.length x) l = l.map (x + ·) := by
        intro x l
        induction l with
        | nil => rfl
        | cons a l ih => rw [List.length_cons, List.replicate_succ, addPreds, ih]; rfl
      refine ⟨p, by rw [← hlen, add], ?_⟩
      simp only [Res.ok_bind]
      have e : p' = p.map (FX.fin c * ·) := by
        have key : ∀ {l l' : List (FX m64)}, List.Forall₂ (fun v v' => v' = FX.fin c * v) l l' →
            l' = l.map (FX.fin c * ·) := by
          intro l l' h
          induction h with
          | nil => rfl
          | cons h1 _ ih => rw [List.map_cons, ← h1, ← ih]
        exact key hq
      rw [e]
      have hl2 : Z.rows = (p.map (FX.fin c * ·)).length := by rw [List.length_map, hlen]
      rw [hl2, add, List.map_map]
      rfl

end

/-! ## Examples -/

/-- Missing branches that get the average of the leaves, one tree. -/
def exRate (lr : Q) (n : Nat) : Booster Q Q :=
  { exFresh with createMissingBranch := true, missingNodeTreatment := .averageLeafWeight, iterations := n
                 learningRate := lr }

/-- C116: two fits with different learning rates; the trees have splits, and the second trees have other values. -/
example : (0 : ℚ) < 3 / 5 ∧ (exRate (q (1/2)) 1).iterations = 1 ∧ (exRate (q (1/2)) 1).predictionIteration = none ∧
    ∃ r r' out, (exRate (q (1/2)) 1).fit exEnv exX exY exW none = .ok (r, .ok ()) ∧
      ((exRate (q (1/2)) 1).withRate (FX.fin (3/5) * q (1/2))).fit exEnv exX exY exW none = .ok (r', .ok ()) ∧
      r.predict exX = .ok out ∧ ∃ t ∈ r.trees, 3 < t.nodes.length := by
  refine ⟨by norm_num, rfl, rfl, ?_⟩
  have : (match (exRate (q (1/2)) 1).fit exEnv exX exY exW none,
      ((exRate (q (1/2)) 1).withRate (FX.fin (3/5) * q (1/2))).fit exEnv exX exY exW none with
    | .ok (r, .ok ()), .ok (_, .ok ()) => (match r.predict exX with
      | .ok _ => r.trees.any fun t => decide (3 < t.nodes.length)
      | _ => false)
    | _, _ => false) = true := by decide +kernel
  split at this
  · next r r' h1 h2 =>
    split at this
    · next out h3 =>
      simp only [List.any_eq_true, decide_eq_true_eq] at this
      exact ⟨r, r', out, h1, h2, h3, this⟩
    · cases this
  · cases this

/-- **C116** (only the first tree).  The second tree is fitted to other residuals: halving the learning rate does not
halve its values. -/
theorem C116_second : ∃ (r r' : Booster Q Q) (t t' : Tree Q Q),
    (exRate (q 1) 2).fit exEnv exX exY exW none = .ok (r, .ok ()) ∧
    ((exRate (q 1) 2).withRate (FX.fin (1/2) * q 1)).fit exEnv exX exY exW none = .ok (r', .ok ()) ∧
    r.trees[1]? = some t ∧ r'.trees[1]? = some t' ∧ ¬ t.SameButValues (fun v v' => v' = FX.fin (1/2) * v) t' := by
  have : (match (exRate (q 1) 2).fit exEnv exX exY exW none,
      ((exRate (q 1) 2).withRate (FX.fin (1/2) * q 1)).fit exEnv exX exY exW none with
    | .ok (r, .ok ()), .ok (r', .ok ()) => (match r.trees[1]?, r'.trees[1]? with
      | some t, some t' => decide (t'.nodes.map (·.weightValue) ≠ t.nodes.map fun n => FX.fin (1/2) * n.weightValue)
      | _, _ => false)
    | _, _ => false) = true := by decide +kernel
  split at this
  · next r r' h1 h2 =>
    split at this
    · next t t' h3 h4 =>
      refine ⟨r, r', t, t', h1, h2, h3, h4, fun h => ?_⟩
      simp only [ne_eq, decide_not, Bool.not_eq_true', decide_eq_false_iff_not] at this
      apply this
      unfold Tree.SameButValues at h
      generalize t.nodes = l at h
      generalize t'.nodes = l' at h
      clear this h3 h4
      induction h with
      | nil => rfl
      | cons h1 _ ih => rw [List.map_cons, List.map_cons, h1.value, ih]
    · cases this
  · cases this

end Verif
