import Verif.Proofs.Total
import Verif.Proofs.Monotone

/-!
# Fitting a booster does not panic

Lifts `TrainedOn.fit_total` to `Booster.fit`.
-/

set_option linter.unusedSectionVars false

namespace Verif

open scoped Verif

section
variable {F D : Type} [Fl F] [Fl D] [FlCast F D]

/-- Without `force_children_to_bound_parent` the evaluation of a split has no `assert!`. -/
theorem evaluateSplit_total {s : Splitter F}
    (hs : ∀ p, s = .branch p → p.forceChildrenToBoundParent = false) (a : SplitArgs F) :
    ∃ r, s.evaluateSplit a = .ok r := by
  cases s with
  | imputer p => exact ⟨_, rfl⟩
  | branch p =>
    have := hs p rfl
    simp only [Splitter.evaluateSplit, branchEvaluateSplit, branchChildWeights, this]
    split
    · exact ⟨_, rfl⟩
    · simp only [Bool.false_eq_true, if_false, Res.ok_bind]
      split <;> exact ⟨_, rfl⟩

theorem evalCandidate_total {s : Splitter F} {sn : SNode F D} {feature : Nat}
    {constraint : Option Constraint} {missing bin : Bin F D} {i : Nat} {cg ch : F}
    (h : ∃ r, s.evaluateSplit
      { lg := cg, lh := ch
        rg := sn.gradientSum - cg - missing.grad, rh := sn.hessianSum - ch - missing.hess
        mg := missing.grad, mh := missing.hess
        lower := sn.lowerBound, upper := sn.upperBound, parentWeight := sn.weightValue
        constraint } = .ok r) :
    ∃ r, evalCandidate s sn feature constraint missing bin i cg ch = .ok r := by
  obtain ⟨r, h⟩ := h
  unfold evalCandidate
  rw [h, Res.ok_bind]
  cases r with
  | none => exact ⟨_, rfl⟩
  | some x =>
    obtain ⟨l, r, m⟩ := x
    simp only
    split <;> exact ⟨_, rfl⟩

theorem gossLoop_total {R : Type} {g : Rng R F D} {fact : F} {ss : D} : ∀ (l : List Nat) (r : R)
    (grad hess : List F), (∀ i ∈ l, i < grad.length ∧ i < hess.length) →
    ∃ x, gossLoop g fact ss r l grad hess = .ok x := by
  intro l
  induction l with
  | nil => intro r grad hess _; exact ⟨_, rfl⟩
  | cons i l ih =>
    intro r grad hess h
    simp only [gossLoop]
    split
    · obtain ⟨h1, h2⟩ := h i (by simp)
      simp only [idx_of_lt h1, idx_of_lt h2, Res.ok_bind]
      obtain ⟨⟨a, b, c, d⟩, hx⟩ := ih (g.genD r).2 (grad.set i (grad[i] * fact)) (hess.set i (hess[i] * fact))
        (fun j hj => by simpa using h j (by simp [hj]))
      rw [hx]
      exact ⟨_, rfl⟩
    · exact ih _ _ _ fun j hj => h j (by simp [hj])

/-- Sampling the rows succeeds when GOSS keeps at most all rows. -/
theorem sampleIndex_total {R : Type} {S : Sorter} (hS : S.Ok) {g : Rng R F D} {m : SampleMethod}
    {ss : F} {a b : D} {r : R} {n : Nat} {grad hess : List F} (h1 : grad.length = n)
    (h2 : hess.length = n) (hg : m = .goss → Fl.toNat (a * Fl.ofNat n) ≤ n) :
    ∃ rows grad' hess' r', sampleIndex S g m ss a b r (List.range n) grad hess =
      .ok (rows, grad', hess', r') := by
  cases m with
  | none => exact ⟨_, _, _, _, rfl⟩
  | random => exact ⟨_, _, _, _, rfl⟩
  | goss =>
    have hg := hg rfl
    obtain ⟨keys, hk⟩ := Res.mapM'_exists (l := List.range n) (f := fun i => do
        let x ← idx grad i
        pure (i, Fl.abs x)) (fun i hi => by
      have : i < grad.length := by rw [h1]; exact List.mem_range.1 hi
      rw [idx_of_lt this]; exact ⟨_, rfl⟩)
    have hkl : keys.map Prod.fst = List.range n := by
      have := Res.mapM'_eq_ok.1 hk
      have h3 : List.Forall₂ (fun i (k : Nat × F) => k.1 = i) (List.range n) keys := by
        refine this.imp fun i k hik => ?_
        rw [Res.bind_eq_ok] at hik
        obtain ⟨x, _, hx⟩ := hik
        simp only [Res.pure_def, Res.ok.injEq] at hx
        rw [← hx]
      generalize List.range n = l at h3
      clear this hk
      induction h3 with
      | nil => rfl
      | cons h _ ih => simp [h, ih]
    have hperm : ((S.sort (fun p q : Nat × F => Fl.tle q.2 p.2) keys).map Prod.fst).Perm (List.range n) := by
      rw [← hkl]; exact (hS.perm _ _).map _
    have hlen : ((S.sort (fun p q : Nat × F => Fl.tle q.2 p.2) keys).map Prod.fst).length = n := by
      rw [hperm.length_eq]; simp
    have hu := (slice_eq_ok (l := (S.sort (fun p q : Nat × F => Fl.tle q.2 p.2) keys).map Prod.fst)
      (i := 0) (j := Fl.toNat (a * Fl.ofNat n))).2 ⟨Nat.zero_le _, by rw [hlen]; exact hg, rfl⟩
    obtain ⟨⟨u, g', h', r'⟩, hx⟩ := gossLoop_total (g := g) (fact := down ((1 - a) / b))
      (ss := (Fl.ofNat (Fl.toNat (b * Fl.ofNat n)) / (Fl.ofNat n - Fl.ofNat (Fl.toNat (a * Fl.ofNat n))) : D))
      (((S.sort (fun p q : Nat × F => Fl.tle q.2 p.2) keys).map Prod.fst).drop (Fl.toNat (a * Fl.ofNat n)))
      r grad hess (fun i hi => by
        have := List.mem_range.1 (hperm.mem_iff.1 (List.mem_of_mem_drop hi))
        rw [h1, h2]; exact ⟨this, this⟩)
    simp only [sampleIndex, gossSample, List.length_range, hk, Res.ok_bind, hu, hx]
    exact ⟨_, _, _, _, rfl⟩

end

section
variable {K : Type} [Field K] [LinearOrder K] [IsStrictOrderedRing K] {m32 m64 : Fmt K}
  [m32.Exact] [m64.Exact]
variable {S : Sorter} {X : Matrix (FX m64)} {w : List K} {nbins : Nat} {missing : FX m64}
  {gv hv : Nat → K} {c : GrowCfg (FX m32) (FX m64)} {sm : SampleMethod} {rows : List Nat}

theorem TrainedOn.safe (h : TrainedOn S X w nbins missing gv hv c sm rows)
    (hs : ∀ a, ∃ r, c.splitter.evaluateSplit a = .ok r) {root : SNode (FX m32) (FX m64)}
    (hN : NodeSums c.train gv hv root rows) : SafeSplits c root rows := by
  rintro o gs nodes hC ⟨g0, b1, b2, b3⟩ i g hi hml
  have hlt0 : ∀ r ∈ g0.rows, r < c.train.data.rows := by
    rw [b3, h.rows_eq]; exact h.rows_lt
  have hN0 : NodeSums c.train gv hv g0.sn g0.rows := by rw [b2, b3]; exact hN
  have hNg := hC.sums h.trainOk h.pos b1 hN0 hlt0 i g hi
  obtain ⟨hs', hJ, hF⟩ := hNg.hist hml
  refine bestSplit_total fun j feature hj => ?_
  have hjl : j < hs'.length := by
    rw [← hF.length_eq]; exact (List.getElem?_eq_some_iff.1 hj).1
  obtain ⟨hjc, hje⟩ := List.getElem?_eq_some_iff.1 hj
  obtain ⟨f, cu, _, _, a3, a4⟩ := (List.forall₂_iff_get.1 hF).2 j hjc hjl
  simp only [List.get_eq_getElem] at a4
  have hne : hs'[j] ≠ [] := by
    rw [a4]
    intro e
    have := length_colHist (m32 := m32) (f := f) (gv := gv) (hv := hv) (rows := g.rows) a3
    rw [e] at this
    exact a3 (List.length_eq_zero_iff.1 this.symm)
  obtain ⟨missing, bins, hmb⟩ := List.exists_cons_of_ne_nil hne
  refine bestFeatureSplit_total (missing := missing) (bins := bins) ?_ fun i bin _ =>
    evalCandidate_total (hs _)
  rw [hJ.getCol, List.getElem?_eq_getElem hjl, hmb]
  rfl

/-- All columns of the list carry a monotone constraint, or none does. -/
def Uniform (cmap : Nat → Option Constraint) (cols : List Nat) : Prop :=
  (∀ f ∈ cols, Constrained (cmap f)) ∨ ∀ f ∈ cols, ¬ Constrained (cmap f)

theorem between_inB {lo hi : FX m32} {x : K} (h : InB lo hi x) : between lo hi (FX.fin x) = true := by
  unfold between
  obtain ⟨rfl | ⟨y, rfl, hy⟩, rfl | ⟨z, rfl, hz⟩⟩ := h
  · rfl
  · rw [if_neg (by intro h; cases h), FX.le_fin, decide_eq_true hz]; rfl
  · rw [if_neg (by intro h; cases h), FX.le_fin, decide_eq_true hy]; rfl
  · rw [if_neg (by rw [FX.lt_fin, decide_eq_true_eq]; exact not_lt.2 (hy.trans hz)), FX.le_fin, FX.le_fin,
      decide_eq_true hy, decide_eq_true hz]; rfl

theorem branchChildWeights_total {p : BranchParams (FX m32)} {a : SplitArgs (FX m32)} {x y : K}
    (h1 : (boundToParent a.parentWeight (p.cw a a.lg a.lh) (p.cw a a.rg a.rh)).1 = FX.fin x)
    (h2 : (boundToParent a.parentWeight (p.cw a a.lg a.lh) (p.cw a a.rg a.rh)).2 = FX.fin y)
    (hx : InB a.lower a.upper x) (hy : InB a.lower a.upper y) : ∃ q, branchChildWeights p a = .ok q := by
  unfold branchChildWeights
  simp only
  split
  · rw [h1, h2, between_inB hx, between_inB hy]
    exact ⟨_, rfl⟩
  · exact ⟨_, rfl⟩

/-- With `force_children_to_bound_parent`, the assertions hold when the constraints are uniform. -/
theorem TrainedOn.safe_forced (h : TrainedOn S X w nbins missing gv hv c sm rows) {l1 l2 mds lr : K}
    (hP : PlainParams c hv rows l1 l2 mds lr) (hl2 : 0 < l2)
    (hu : Uniform c.splitter.params.getConstraint c.train.colIndex) {n0 : Nat}
    {hists : JaggedMatrix (Bin (FX m32) (FX m64))} {root : SNode (FX m32) (FX m64)}
    (hroot : root = rootNode c.splitter.params n0 (FX.fin (rowSum gv rows)) (FX.fin (rowSum hv rows)) hists)
    (hN : NodeSums c.train gv hv root rows) : SafeSplits c root rows := by
  rintro o gs nodes hC ⟨g0, b1, b2, b3⟩ i g hi hml
  have hlt0 : ∀ r ∈ g0.rows, r < c.train.data.rows := by
    rw [b3, h.rows_eq]; exact h.rows_lt
  have hN0 : NodeSums c.train gv hv g0.sn g0.rows := by rw [b2, b3]; exact hN
  have hsub := hC.rows_mem b1
  have hV : GrowView gv hv c rows o gs nodes :=
    ⟨hC, ⟨g0, b1, b3, n0, hists, by rw [b2, hroot]⟩, hC.sums h.trainOk h.pos b1 hN0 hlt0,
      fun i g hg r hr => hlt0 r (hsub i g hg r hr), by rw [← b3]; exact hsub⟩
  have hfin := hV.stateIn h hP (B := fun _ => True) (fun _ _ _ _ _ _ _ => trivial) fun _ _ _ => trivial
  have hst : ∀ (i : Nat) (g : Ghost (FX m32) (FX m64)), gs[i]? = some g →
      ValIn (InB g.sn.lowerBound g.sn.upperBound) g.sn.weightValue ∧
      ((∀ f ∈ c.train.colIndex, Constrained (c.splitter.params.getConstraint f)) ∨
        (g.sn.lowerBound = FX.ninf ∧ g.sn.upperBound = FX.pinf)) := by
    refine hV.cert.induct (.refl _) ?_ ?_
    · intro g hg
      obtain ⟨x, hx, _⟩ := (hfin 0 g hg).weight
      rw [b1] at hg; cases hg
      have e1 : g0.sn.lowerBound = FX.ninf := by rw [b2, hroot]; rfl
      have e2 : g0.sn.upperBound = FX.pinf := by rw [b2, hroot]; rfl
      exact ⟨⟨x, hx, .inl e1, .inl e2⟩, .inr ⟨e1, e2⟩⟩
    · rintro i n g info k kids hn hl hI ⟨hw, ho⟩
      have hmem : info.splitFeature ∈ c.train.colIndex := bestSplit_feature hI.isSplit.best
      have hc : Constrained (c.splitter.params.getConstraint info.splitFeature) ∨
          (g.sn.lowerBound = FX.ninf ∧ g.sn.upperBound = FX.pinf) := by
        rcases ho with ho | ho
        · exact .inl (ho _ hmem)
        · exact .inr ho
      obtain ⟨hk, hm⟩ := hV.kidBounds h hP hI hw hc
      obtain ⟨gl, gr, x1, x2, _⟩ := hI.sides
      have hK := hk gl gr x1 x2
      refine ⟨fun g' hg' => ?_, fun g' hg' => ?_, fun hb gm hgm => ?_⟩
      · rw [x1] at hg'; cases hg'
        refine ⟨hK.left, ?_⟩
        rcases hu with hu | hu
        · exact .inl hu
        · rcases ho with ho | ⟨h1, h2⟩
          · exact .inl ho
          · obtain ⟨⟨f1, f2⟩, _⟩ := hK.free (hu _ hmem)
            exact .inr ⟨by rw [f1, h1], by rw [f2, h2]⟩
      · rw [x2] at hg'; cases hg'
        refine ⟨hK.right, ?_⟩
        rcases hu with hu | hu
        · exact .inl hu
        · rcases ho with ho | ⟨h1, h2⟩
          · exact .inl ho
          · obtain ⟨_, f1, f2⟩ := hK.free (hu _ hmem)
            exact .inr ⟨by rw [f1, h1], by rw [f2, h2]⟩
      · obtain ⟨e1, e2, e3⟩ := hm hb gm hgm
        refine ⟨e3, ?_⟩
        rcases ho with ho | ⟨h1, h2⟩
        · exact .inl ho
        · exact .inr ⟨by rw [e1, h1], by rw [e2, h2]⟩
  obtain ⟨hw, ho⟩ := hst i g hi
  have hNg := hV.sums i g hi
  obtain ⟨hs', hJ, hF⟩ := hNg.hist hml
  refine bestSplit_total fun j feature hj => ?_
  have hjl : j < hs'.length := by
    rw [← hF.length_eq]; exact (List.getElem?_eq_some_iff.1 hj).1
  obtain ⟨hjc, hje⟩ := List.getElem?_eq_some_iff.1 hj
  obtain ⟨f, cu, _, _, a3, a4⟩ := (List.forall₂_iff_get.1 hF).2 j hjc hjl
  simp only [List.get_eq_getElem] at a4
  have hne : hs'[j] ≠ [] := by
    rw [a4]
    intro e
    have := length_colHist (m32 := m32) (f := f) (gv := gv) (hv := hv) (rows := g.rows) a3
    rw [e] at this
    exact a3 (List.length_eq_zero_iff.1 this.symm)
  obtain ⟨missing, bins, hmb⟩ := List.exists_cons_of_ne_nil hne
  have hget : g.sn.histograms.getCol j = .ok (missing :: bins) := by
    rw [hJ.getCol, List.getElem?_eq_getElem hjl, hmb]
    rfl
  refine bestFeatureSplit_total hget fun i' bin hbin => evalCandidate_total ?_
  obtain ⟨f, cu, _, _, _, _, _, hargs⟩ := candidate_args hNg hml (hV.lt i g hi) hj hget hbin
  rw [← hargs]
  cases hsp : c.splitter with
  | imputer p => exact ⟨_, rfl⟩
  | branch p =>
    have hpp : p.toSplitParams = c.splitter.params := by rw [hsp]; rfl
    have hcw : ∀ (x : K) (rs : List Nat), (∀ r ∈ rs, r ∈ rows) →
        ValIn (InB g.sn.lowerBound g.sn.upperBound)
        (p.cw (candArgs g.sn f (i' + 1) gv hv g.rows ((Splitter.branch p).params.getConstraint feature))
          (FX.fin x) (FX.fin (rowSum hv rs))) := by
      intro x rs hrs
      have h0 : 0 < rowSum hv rs + l2 := by
        have := hP.sum_nonneg hrs
        linarith
      have hc : Constrained (c.splitter.params.getConstraint feature) ∨
          (g.sn.lowerBound = FX.ninf ∧ g.sn.upperBound = FX.pinf) := by
        rcases ho with ho | ho
        · exact .inl (ho _ (List.mem_of_getElem? hj))
        · exact .inr ho
      simp only [SplitParams.cw, hpp, hP.l1_eq, hP.l2_eq, hP.mds_eq, candArgs, ← hsp]
      rcases hc with hc | ⟨h1, h2⟩
      · obtain ⟨z, _, hz⟩ := hw
        exact constrainedWeight_clip h0 hz hc
      · rw [h1, h2]
        obtain ⟨z, hz, _⟩ := constrainedWeight_in (B := fun _ => True) (l1 := l1) (l2 := l2) (mds := mds)
          (g := x) h0 trivial (lower := FX.ninf (m := m32)) (upper := FX.pinf) (.inl rfl) (.inl rfl)
          (c.splitter.params.getConstraint feature)
        exact ⟨z, hz, .inl rfl, .inl rfl⟩
    have hrow : ∀ sides, ∀ r ∈ rowsOn f (i' + 1) sides g.rows, r ∈ rows := fun sides r hr =>
      hV.sub i g hi r (mem_of_mem_rowsOn hr)
    have hl := hcw (rowSum gv (rowsOn f (i' + 1) [.left] g.rows)) _ (hrow [.left])
    have hr := hcw (rowSum gv (rowsOn f (i' + 1) [.right] g.rows)) _ (hrow [.right])
    obtain ⟨⟨x, hx, hxb⟩, ⟨y, hy, hyb⟩⟩ := boundToParent_in hw hl hr
    have key : ∃ q, branchChildWeights p (candArgs g.sn f (i' + 1) gv hv g.rows
        ((Splitter.branch p).params.getConstraint feature)) = .ok q :=
      branchChildWeights_total hx hy hxb hyb
    obtain ⟨q, hq⟩ := key
    simp only [Splitter.evaluateSplit, branchEvaluateSplit, hq, Res.ok_bind]
    split
    · exact ⟨_, rfl⟩
    · split <;> exact ⟨_, rfl⟩

variable {R : Type}

theorem readable_noNaN {F : Type} {D : Type} [Fl F] [Fl D] [FlCast F D] {nodes : List (Node F D)}
    {data : Matrix D} {missing : D} (h : ∀ v ∈ data.data, Readable missing v)
    (hm : isNaN missing = false) {i j : Nat} (hM : MeetsNaN nodes (data.entry i) missing j) : False := by
  induction hM with
  | here _ _ hv hn =>
    rcases h _ (List.mem_of_getElem? hv) with h | h
    · rw [hm] at h; cases h
    · rw [hn] at h; cases h
  | step _ _ _ _ _ ih => exact ih

/-- A well-formed tree predicts on readable data. -/
theorem predict_readable {F : Type} {D : Type} [Fl F] [Fl D] [FlCast F D] {t : Tree F D} (ht : t.Wf)
    {data : Matrix D} (hd : data.Shaped) (hf : t.FeaturesBelow data.cols) {missing : D}
    (h : ∀ v ∈ data.data, Readable missing v) : ∃ ps, t.predict data missing = .ok ps := by
  rcases Tree.predict_total ht hd hf missing with ⟨ps, h1, _⟩ | ⟨_, h2, i, _, h3⟩
  · exact ⟨ps, h1⟩
  · exact (readable_noNaN h h2 h3).elim

/-- An evaluation set the model can be evaluated on: it has the columns of the training data, readable
values, at least one row, and weights and predictions for all rows. -/
structure EvalOk {D : Type} [Fl D] (cols : Nat) (missing : D) (e : EvalSet D) : Prop where
  shaped : e.data.Shaped
  cols_le : cols ≤ e.data.cols
  readable : ∀ v ∈ e.data.data, Readable missing v
  nonempty : e.y ≠ []
  weights : e.y.length ≤ e.w.length

theorem metric_total {D : Type} [Fl D] {S : Sorter} (hS : S.Ok) (m : Metric) {y yhat w : List D}
    (hne : y ≠ []) (h1 : y.length ≤ yhat.length) (h2 : y.length ≤ w.length) :
    ∃ v, m.eval S y yhat w = .ok v := by
  cases m with
  | auc =>
    obtain ⟨rows, hr⟩ := Res.mapM'_exists (l := y.zipIdx) (f := fun (p : D × Nat) => do
        let s ← idx yhat p.2
        let w ← idx w p.2
        pure (s, p.1, w)) (fun p hp => by
      have := List.mem_zipIdx hp
      rw [idx_of_lt (l := yhat) (by omega), idx_of_lt (l := w) (by omega)]
      exact ⟨_, rfl⟩)
    have hl : rows.length = y.length := by
      rw [← (Res.mapM'_eq_ok.1 hr).length_eq, List.length_zipIdx]
    have hp := (hS.perm (fun a b : D × D × D => Fl.tle b.1 a.1) rows).length_eq
    simp only [Metric.eval, rocAucScore, hr, Res.ok_bind]
    cases hs : S.sort (fun a b : D × D × D => Fl.tle b.1 a.1) rows with
    | nil =>
      rw [hs, hl] at hp
      exact absurd (List.length_eq_zero_iff.1 hp.symm) hne
    | cons a l =>
      simp only
      split <;> exact ⟨_, rfl⟩
  | logLoss => exact ⟨_, rfl⟩
  | rootMeanSquaredLogError => exact ⟨_, rfl⟩
  | rootMeanSquaredError => exact ⟨_, rfl⟩

theorem evalLoop_total {F D : Type} [Fl F] [Fl D] [FlCast F D] {S : Sorter} (hS : S.Ok) {t : Tree F D}
    (ht : t.Wf) {cols : Nat} (hf : t.FeaturesBelow cols) {i n : Nat} {missing : D} :
    ∀ (l : List (TrainEval D)) (k : Nat)
    (b : Booster F D) (best : Option D) (stop : Bool), b.missing = missing →
    (∀ e ∈ l, EvalOk cols missing e.toEvalSet ∧ e.y.length ≤ e.yhat.length) →
    ∃ x, evalLoop S t i n l k b best stop = .ok x := by
  intro l
  induction l with
  | nil => intro k b best stop _ _; exact ⟨_, rfl⟩
  | cons e l ih =>
    intro k b best stop hm h
    obtain ⟨he, hy⟩ := h e (by simp)
    obtain ⟨ps, hp⟩ := predict_readable ht he.shaped
      (fun n hn hl => lt_of_lt_of_le (hf n hn hl) he.cols_le) he.readable
    obtain ⟨v, hv⟩ := metric_total (yhat := addPreds e.yhat ps) hS b.metric he.nonempty
      (by rw [length_addPreds]; exact hy) he.weights
    rw [evalLoop, hm, hp, Res.ok_bind]
    simp only [hv, Res.ok_bind]
    have key : ∀ (b' : Booster F D) best' stop', b'.missing = missing →
        ∃ x, (do
          let (es, ms, b, best, stop) ← evalLoop S t i n l (k + 1) b' best' stop'
          .ok ({ e with yhat := addPreds e.yhat ps } :: es, v :: ms, b, best, stop)) = Res.ok x := by
      intro b' best' stop' hb'
      obtain ⟨⟨es, ms, b2, best2, stop2⟩, hx⟩ := ih (k + 1) b' best' stop' hb'
        fun e he => h e (by simp [he])
      rw [hx]
      exact ⟨_, rfl⟩
    split
    · refine key _ _ _ ?_
      have := (earlyStopUpdate_same b i v b.metric.maximize best stop).1
      unfold Booster.SameParams at this
      rw [this]
      exact hm
    · exact key _ _ _ hm

/-- The evaluation sets during a fit. -/
def EvalsOk {F D : Type} [Fl D] (cols : Nat) (b : Booster F D) : Option (List (TrainEval D)) → Prop
  | none => True
  | some es => es ≠ [] ∧ (∀ e ∈ es, EvalOk cols b.missing e.toEvalSet ∧ e.y.length ≤ e.yhat.length) ∧
      ∀ H, b.evaluationHistory = some H → H.cols = es.length

theorem evalSets_total {F D : Type} [Fl F] [Fl D] [FlCast F D] {S : Sorter} (hS : S.Ok) {t : Tree F D}
    (ht : t.Wf) {cols : Nat} (hf : t.FeaturesBelow cols) {i : Nat} {b : Booster F D}
    {ev : Option (List (TrainEval D))} {best : Option D} (he : EvalsOk cols b ev) :
    ∃ b' ev' best' stop, evalSets S t i b ev best = .ok (b', ev', best', stop) ∧ EvalsOk cols b' ev' := by
  cases ev with
  | none => exact ⟨_, _, _, _, rfl, trivial⟩
  | some es =>
    obtain ⟨hne, h1, h2⟩ := he
    have hm : (withHistory b es.length).missing = b.missing := by
      unfold withHistory; split <;> rfl
    obtain ⟨⟨es', ms, b1, best1, stop1⟩, hl⟩ := evalLoop_total (i := i) (n := es.length) hS ht hf es 0
      (withHistory b es.length) best false hm h1
    obtain ⟨s1, _, s3⟩ := evalLoop_same _ _ _ _ _ _ _ _ _ _ hl
    obtain ⟨a1, a2, _⟩ := evalLoop_ok _ _ _ _ _ _ _ _ _ _ (by simp) hl
    obtain ⟨H, hH, hc⟩ : ∃ H, (withHistory b es.length).evaluationHistory = some H ∧
        H.cols = es.length := by
      unfold withHistory
      split
      · exact ⟨_, rfl, rfl⟩
      · rename_i v hv; exact ⟨v, hv, h2 v hv⟩
    have hlen : ms.length = es.length := by rw [← a2.length_eq, a1.length_eq]
    have h0 : 0 < es.length := List.length_pos_iff.2 hne
    have happ : H.appendRow ms = .ok { H with
        rows := H.rows + ms.length / H.cols, data := H.data ++ ms } := by
      unfold RowMajorMatrix.appendRow
      rw [if_neg (by omega), if_pos (by rw [hlen, hc, Nat.mod_self])]
    simp only [evalSets, hl, Res.ok_bind]
    unfold appendHistory
    rw [s3, hH]
    simp only [happ, Res.ok_bind, Res.pure_def]
    refine ⟨_, _, _, _, rfl, ?_, ?_, ?_⟩
    · intro e
      rw [e] at a1
      have := a1.length_eq
      simp only [List.length_nil] at this
      omega
    · have hmiss : b1.missing = b.missing := by
        unfold Booster.SameParams at s1
        rw [s1]; exact hm
      intro e he
      obtain ⟨j, hj⟩ := List.mem_iff_getElem?.1 he
      obtain ⟨hjl, hje⟩ := List.getElem?_eq_some_iff.1 hj
      have hjl' : j < es.length := by rw [a1.length_eq]; exact hjl
      obtain ⟨q1, ps, _, q3⟩ := (List.forall₂_iff_get.1 a1).2 j hjl' hjl
      simp only [List.get_eq_getElem, hje] at q1 q3
      obtain ⟨r1, r2⟩ := h1 es[j] (List.getElem_mem hjl')
      refine ⟨by rw [hmiss, q1]; exact r1, ?_⟩
      rw [q3, length_addPreds, q1]
      exact r2
    · rintro H' ⟨⟩
      rw [← a1.length_eq]; exact hc

/-- Arguments of a call of `fit` on finite data with finite parameters that cannot panic. -/
structure SafeArgs (env : Env R (FX m32) (FX m64)) (b : Booster (FX m32) (FX m64)) (X : Matrix (FX m64))
    (y w : List K) (l1 l2 mds lr : K) : Prop where
  sorter : env.sorter.Ok
  rng : env.rng.Ok
  heap : ∀ i, (env.heap i).Ok
  shaped : X.Shaped
  ylen : y.length = X.rows
  wlen : w.length = X.rows
  nonneg : ∀ x ∈ w, 0 ≤ x
  max : ∀ v ∈ X.data, ¬ IsMissing b.missing v → (v ≤ᶠ Fl.maxv) = true
  readable : ∀ v ∈ X.data, Readable b.missing v
  bins : 1 ≤ b.nbins ∧ b.nbins ≤ 65533
  minLeafWeight : (0 <ᶠ b.minLeafWeight) = true
  l1_eq : b.l1 = FX.fin l1
  l2_eq : b.l2 = FX.fin l2
  mds_eq : b.maxDeltaStep = FX.fin mds
  lr_eq : b.learningRate = FX.fin lr
  l2_nonneg : 0 ≤ l2
  positive : 0 < l2 ∨ (b.sampleMethod = .none ∧ ∃ x ∈ w, 0 < x)
  goss : b.sampleMethod = .goss → GossOk b.topRate b.otherRate ∧
    Fl.toNat (b.topRate * Fl.ofNat X.rows) ≤ X.rows
  exp : b.objectiveType = .logLoss → ExpPos m64
  free : b.createMissingBranch = false ∨ b.forceChildrenToBoundParent = false ∨
    (0 < l2 ∧ Uniform (fun f => b.constraintsMap.lookup f) (List.range X.cols))

variable {env : Env R (FX m32) (FX m64)} {b : Booster (FX m32) (FX m64)} {y : List K}
  {l1 l2 mds lr : K}

/-- One iteration succeeds. -/
theorem SafeArgs.iteration (h : SafeArgs env b X y w l1 l2 mds lr) {binned : BinnedData (FX m64)}
    (hb : binMatrix env.sorter X (w.map FX.fin) b.nbins b.missing = .ok binned)
    {s : FitState R (FX m32) (FX m64)} (hsame : b.SameParams s.booster) {p : List K}
    (hp : s.yhat = p.map FX.fin) (hpl : p.length = X.rows)
    (hgh : (s.grad, s.hess) = calcGradHess b.objectiveType (y.map FX.fin) s.yhat (w.map FX.fin))
    (hev : EvalsOk X.cols s.booster s.evals) (i : Nat) :
    ∃ s' stop, fitIteration env X (y.map FX.fin) (w.map FX.fin) b.splitter
      { data := binned.binned, rows := X.rows, cols := X.cols } binned.cuts i s = .ok (s', stop) ∧
      b.SameParams s'.booster ∧ (∃ p' : List K, s'.yhat = p'.map FX.fin ∧ p'.length = X.rows) ∧
      (stop = false → (s'.grad, s'.hess) =
        calcGradHess b.objectiveType (y.map FX.fin) s'.yhat (w.map FX.fin)) ∧
      EvalsOk X.cols s'.booster s'.evals := by
  have hs0 := hsame
  unfold Booster.SameParams at hsame
  have e1 : s.booster.sampleMethod = b.sampleMethod := by rw [hsame]
  have e2 : s.booster.subsample = b.subsample := by rw [hsame]
  have e3 : s.booster.topRate = b.topRate := by rw [hsame]
  have e4 : s.booster.otherRate = b.otherRate := by rw [hsame]
  have e6 : s.booster.missing = b.missing := by rw [hsame]
  have hg : s.grad = (calcGradHess b.objectiveType (y.map FX.fin : List (FX m64)) (p.map FX.fin) (w.map FX.fin)).1 := by
    rw [← hp, ← hgh]
  have hh : s.hess = (calcGradHess b.objectiveType (y.map FX.fin : List (FX m64)) (p.map FX.fin) (w.map FX.fin)).2 := by
    rw [← hp, ← hgh]
  obtain ⟨g1, g2⟩ := calcGradHess_length (F := FX m32) b.objectiveType (y.map FX.fin : List (FX m64))
    (p.map FX.fin) (w.map FX.fin) (n := X.rows) (by simpa using h.ylen) (by simpa using hpl)
    (by simpa using h.wlen)
  rw [← hg] at g1
  rw [← hh] at g2
  obtain ⟨c1, c2⟩ := calcGradHess_fin (m32 := m32) h.exp y p w h.nonneg
  rw [← hg] at c1
  rw [← hh] at c2
  obtain ⟨rows, grad, hess, r1, hs⟩ := sampleIndex_total (g := env.rng) (m := b.sampleMethod)
    (ss := b.subsample) (a := b.topRate) (b := b.otherRate) (r := s.rng) h.sorter g1 g2
    fun e => (h.goss e).2
  obtain ⟨s1, s2, s3, s4⟩ := sampleIndex_rows h.sorter hs
  obtain ⟨d1, d2⟩ := sampleIndex_fin (fun e => (h.goss e).1) hs c1 c2
  generalize hsc : sampleColumns env.rng s.booster.colsampleBytree r1 X.cols = sc
  obtain ⟨cols, r2⟩ := sc
  obtain ⟨k1, k2, _⟩ := sampleColumns_sorted h.rng hsc
  generalize hcfg : ({ splitter := b.splitter
                       train := { data := { data := binned.binned, rows := X.rows, cols := X.cols }
                                  cuts := binned.cuts, grad, hess, colIndex := cols }
                       maxLeaves := s.booster.maxLeaves, maxDepth := s.booster.maxDepth
                       policy := s.booster.growPolicy, heap := env.heap i } :
                       GrowCfg (FX m32) (FX m64)) = cfg
  have hsp : cfg.splitter = b.splitter := by rw [← hcfg]
  have hcg : cfg.train.grad = grad := by rw [← hcfg]
  have hch : cfg.train.hess = hess := by rw [← hcfg]
  have hcc : cfg.train.colIndex = cols := by rw [← hcfg]
  have hT : TrainedOn env.sorter X w b.nbins b.missing (rowVals grad) (rowVals hess) cfg
      b.sampleMethod rows := by
    refine ⟨h.sorter, h.shaped, h.wlen.ge, h.nonneg, h.max, ⟨binned, hb, ?_, ?_⟩, ?_, ?_, ?_, ?_, ?_,
      s2, s1, ?_⟩
    · rw [← hcfg]
    · rw [← hcfg]
    · rw [hcc]; exact k1
    · rw [hcc]; exact k2
    · rw [hcg]; exact d1.finRows
    · rw [hch]; exact d2.fin.finRows
    · rw [hsp]
      have : b.splitter.params.minLeafWeight = b.minLeafWeight := by
        unfold Booster.splitter; split <;> rfl
      rw [this]; exact h.minLeafWeight
    · intro e
      rw [hcg, hch, s3, s4, g1, g2]
      refine ⟨?_, rfl⟩
      rw [e] at hs
      simp only [sampleIndex, Res.ok.injEq, Prod.mk.injEq] at hs
      exact hs.1.symm
  have hE : Enough X cfg := ⟨by rw [hcg, s3, g1], by rw [hch, s4, g2]⟩
  have hnn : ∀ r ∈ rows, 0 ≤ rowVals hess r := fun r _ => d2.rowVals r
  have hP : PlainParams cfg (rowVals hess) rows l1 l2 mds lr := by
    refine ⟨?_, ?_, ?_, ?_, h.l2_nonneg, hnn, ?_⟩
    · rw [hsp, ← h.l1_eq]; unfold Booster.splitter; split <;> rfl
    · rw [hsp, ← h.l2_eq]; unfold Booster.splitter; split <;> rfl
    · rw [hsp, ← h.mds_eq]; unfold Booster.splitter; split <;> rfl
    · rw [hsp, ← h.lr_eq]; unfold Booster.splitter; split <;> rfl
    · have hsum : 0 ≤ (rows.map (rowVals hess)).sum := List.sum_nonneg (by
        intro x hx
        obtain ⟨r, hr, rfl⟩ := List.mem_map.1 hx
        exact hnn r hr)
      rcases h.positive with hl | ⟨hn, x, hx, hx0⟩
      · linarith
      · rw [hn] at hs
        simp only [sampleIndex, Res.ok.injEq, Prod.mk.injEq] at hs
        obtain ⟨e1, e2, e3, _⟩ := hs
        obtain ⟨j, hj⟩ := List.mem_iff_getElem?.1 hx
        have hjl : j < X.rows := by rw [← h.wlen]; exact (List.getElem?_eq_some_iff.1 hj).1
        obtain ⟨yj, hyj⟩ : ∃ v, y[j]? = some v := ⟨_, List.getElem?_eq_getElem (by rw [h.ylen]; exact hjl)⟩
        obtain ⟨pj, hpj⟩ : ∃ v, p[j]? = some v := ⟨_, List.getElem?_eq_getElem (by rw [hpl]; exact hjl)⟩
        obtain ⟨_, g2⟩ := calcGradHess_get (F := FX m32) b.objectiveType (y.map FX.fin : List (FX m64))
          (p.map FX.fin) (w.map FX.fin) j (yi := FX.fin yj) (pi := FX.fin pj) (wi := FX.fin x)
          (by simp [hyj]) (by simp [hpj]) (by simp [hj])
        obtain ⟨g, hh', _, e5, _, e6⟩ := gradHess_fin h.exp yj pj x hx0.le
        rw [← hh, e3, e5, FX.down_fin] at g2
        have hrv : rowVals hess j = hh' := by unfold rowVals; rw [g2]; rfl
        have hmem : j ∈ rows := by rw [← e1]; simpa using hjl
        have hle : rowVals hess j ≤ (rows.map (rowVals hess)).sum :=
          List.single_le_sum (by
            intro x hx
            obtain ⟨r, hr, rfl⟩ := List.mem_map.1 hx
            exact hnn r hr) _ (List.mem_map_of_mem hmem)
        have := e6 hx0
        have := h.l2_nonneg
        rw [hrv] at hle
        linarith
  have hsafe : ∀ hists, NodeSums cfg.train (rowVals grad) (rowVals hess)
      (rootNode cfg.splitter.params rows.length
        (FX.fin (rowSum (rowVals grad) rows)) (FX.fin (rowSum (rowVals hess) rows)) hists) rows →
      SafeSplits cfg (rootNode cfg.splitter.params rows.length
        (FX.fin (rowSum (rowVals grad) rows)) (FX.fin (rowSum (rowVals hess) rows)) hists) rows := by
    intro hists hN
    have simple : b.createMissingBranch = false ∨ b.forceChildrenToBoundParent = false →
        SafeSplits cfg (rootNode cfg.splitter.params rows.length
        (FX.fin (rowSum (rowVals grad) rows)) (FX.fin (rowSum (rowVals hess) rows)) hists) rows := by
      intro hf
      refine hT.safe (evaluateSplit_total ?_) hN
      intro q hq
      rw [hsp] at hq
      unfold Booster.splitter at hq
      rcases hf with h | h
      · rw [h] at hq; simp at hq
      · split at hq
        · cases hq; exact h
        · cases hq
    rcases h.free with hf | hf | ⟨hl2, hu⟩
    · exact simple (.inl hf)
    · exact simple (.inr hf)
    · refine hT.safe_forced hP hl2 ?_ rfl hN
      have hcm : cfg.splitter.params.getConstraint = fun f => b.constraintsMap.lookup f := by
        funext f
        rw [hsp]
        unfold Booster.splitter SplitParams.getConstraint
        split <;> rfl
      rw [hcm, hcc]
      rcases hu with hu | hu
      · exact .inl fun f hf => hu f (List.mem_range.2 (k2 f hf))
      · exact .inr fun f hf => hu f (List.mem_range.2 (k2 f hf))
  have hheap : cfg.heap = env.heap i := by rw [← hcfg]
  obtain ⟨t, ht⟩ := hT.fit_total hE (by rw [hheap]; exact (h.heap i).lt)
    hsafe
  have hV := fit_finiteValues hT ht hP
  have hfb : t.FeaturesBelow X.cols := fun n hn hl => by
    have := Tree.fit_features ht n hn hl
    rw [hcc] at this
    exact k2 _ this
  obtain ⟨ps, hps⟩ := predict_readable (missing := b.missing) (Tree.fit_wf ht) h.shaped hfb h.readable
  obtain ⟨b', ev', best', stop, he, hev'⟩ := evalSets_total (i := i) (best := s.best) h.sorter
    (Tree.fit_wf ht) hfb hev
  have hok : ∃ s' , fitIteration env X (y.map FX.fin) (w.map FX.fin) b.splitter
      { data := binned.binned, rows := X.rows, cols := X.cols } binned.cuts i s = .ok (s', stop) ∧
      s'.yhat = addPreds s.yhat ps ∧ s'.evals = ev' ∧ s'.booster = { b' with trees := b'.trees ++ [t] } := by
    have hidx : X.index = List.range X.rows := rfl
    simp only [fitIteration, e1, e2, e3, e4, e6, hidx, hs, Res.ok_bind, hsc, hcfg, ht, hps, he]
    cases stop
    · exact ⟨_, rfl, rfl, rfl, rfl⟩
    · exact ⟨_, rfl, rfl, rfl, rfl⟩
  obtain ⟨s', hok, hy, hsv, hsb⟩ := hok
  obtain ⟨cfg', chosen, tree, preds, hI⟩ := fitIteration_ok hok
  refine ⟨s', stop, hok, hs0.trans hI.same, ?_, ?_, ?_⟩
  · have hfin : AllFin s'.yhat := by
      rw [hy]
      refine addPreds_fin ?_ (predict_fin hV hps)
      rw [hp]
      intro x hx
      obtain ⟨q, _, rfl⟩ := List.mem_map.1 hx
      exact ⟨q, rfl⟩
    obtain ⟨p', hp'⟩ := hfin.eq_map
    refine ⟨p', hp', ?_⟩
    have : (p'.map FX.fin : List (FX m64)).length = X.rows := by
      rw [← hp', hy, length_addPreds, hp, List.length_map, hpl]
    simpa using this
  · intro e
    rw [hI.grad_eq e]
    congr 1
    rw [hsame]
  · rw [hsv, hsb]
    cases ev' with
    | none => trivial
    | some es => exact hev'

theorem SafeArgs.loop (h : SafeArgs env b X y w l1 l2 mds lr) {binned : BinnedData (FX m64)}
    (hb : binMatrix env.sorter X (w.map FX.fin) b.nbins b.missing = .ok binned) :
    ∀ (n i : Nat) (s : FitState R (FX m32) (FX m64)), b.SameParams s.booster →
    (∃ p : List K, s.yhat = p.map FX.fin ∧ p.length = X.rows) →
    (s.grad, s.hess) = calcGradHess b.objectiveType (y.map FX.fin) s.yhat (w.map FX.fin) →
    EvalsOk X.cols s.booster s.evals →
    ∃ s', fitLoop env X (y.map FX.fin) (w.map FX.fin) b.splitter
      { data := binned.binned, rows := X.rows, cols := X.cols } binned.cuts n i s = .ok s' := by
  intro n
  induction n with
  | zero => intro i s _ _ _ _; exact ⟨s, rfl⟩
  | succ n ih =>
    rintro i s hs ⟨p, hp, hpl⟩ hgh hev
    obtain ⟨s', stop, h1, h2, h3, h4, h5⟩ := h.iteration hb hs hp hpl hgh hev i
    rw [fitLoop, h1, Res.ok_bind]
    cases stop with
    | true => exact ⟨s', rfl⟩
    | false => exact ih (i + 1) s' h2 h3 (h4 rfl) h5

/-- The evaluation data of a call of `fit`. -/
structure EvalArgs {F D : Type} [Fl D] (X : Matrix D) (b : Booster F D)
    (ev : Option (List (EvalSet D))) : Prop where
  nonempty : ev ≠ some []
  ok : ∀ es, ev = some es → ∀ e ∈ es, EvalOk X.cols b.missing e
  fresh : b.trees ≠ [] ∨ b.evaluationHistory = none

/-- The base score used by a fit can be computed and is finite. -/
def BaseOk (b : Booster (FX m32) (FX m64)) (y w : List K) : Prop :=
  ∃ s : K, if b.initializeBaseScore then
    calcInit b.objectiveType (y.map FX.fin : List (FX m64)) (w.map FX.fin) = .ok (FX.fin s)
    else b.baseScore = FX.fin s

theorem SafeArgs.trees (h : SafeArgs env b X y w l1 l2 mds lr) (hbase : BaseOk b y w)
    {ev : Option (List (EvalSet (FX m64)))} (hev : EvalArgs X b ev) :
    ∃ b', fitTrees env b X (y.map FX.fin) (w.map FX.fin) b.splitter ev = .ok b' := by
  obtain ⟨sc, hsc⟩ := hbase
  obtain ⟨binned, hb⟩ := binMatrix_total h.sorter (w := w.map FX.fin) h.shaped
    (by rw [List.length_map, h.wlen]) h.readable (by have := h.bins.1; omega) h.bins.2
  have key : ∀ b1 : Booster (FX m32) (FX m64), b1 = { b with
        trees := b1.trees, evaluationHistory := none, bestIteration := b1.bestIteration
        predictionIteration := b1.predictionIteration, baseScore := FX.fin sc } →
      ∃ b', (do
        let yhat := List.replicate (y.map FX.fin : List (FX m64)).length b1.baseScore
        let gh := calcGradHess (F := FX m32) b1.objectiveType (y.map FX.fin) yhat (w.map FX.fin)
        let binned ← binMatrix env.sorter X (w.map FX.fin) b1.nbins b1.missing
        let bdata : Matrix Nat := { data := binned.binned, rows := X.rows, cols := X.cols }
        let evals := ev.map fun es => es.map fun e =>
          { toEvalSet := e, yhat := List.replicate e.y.length b1.baseScore : TrainEval (FX m64) }
        let s ← fitLoop env X (y.map FX.fin) (w.map FX.fin) b.splitter bdata binned.cuts b1.iterations 0
          { booster := b1, yhat, grad := gh.1, hess := gh.2, evals, best := none
            rng := env.rng.seed b1.seed }
        .ok s.booster) = Res.ok b' := by
    intro b1 h1
    have e1 : b1.baseScore = FX.fin sc := by rw [h1]
    have e2 : b1.nbins = b.nbins := by rw [h1]
    have e3 : b1.missing = b.missing := by rw [h1]
    have e4 : b1.splitter = b.splitter := by rw [h1]; rfl
    have e5 : b1.evaluationHistory = none := by rw [h1]
    have e6 : b1.objectiveType = b.objectiveType := by rw [h1]
    have e7 : b1.iterations = b.iterations := by rw [h1]
    have hS : SafeArgs env b1 X y w l1 l2 mds lr := by
      rw [h1]
      exact ⟨h.sorter, h.rng, h.heap, h.shaped, h.ylen, h.wlen, h.nonneg, h.max, h.readable, h.bins,
        h.minLeafWeight, h.l1_eq, h.l2_eq, h.mds_eq, h.lr_eq, h.l2_nonneg, h.positive, h.goss, h.exp,
        h.free⟩
    have hb1 : binMatrix env.sorter X (w.map FX.fin) b1.nbins b1.missing = .ok binned := by
      rw [e2, e3]; exact hb
    obtain ⟨s', hs'⟩ := hS.loop hb1 b1.iterations 0
      { booster := b1, yhat := List.replicate (y.map FX.fin : List (FX m64)).length b1.baseScore
        grad := (calcGradHess (F := FX m32) b1.objectiveType (y.map FX.fin)
          (List.replicate (y.map FX.fin : List (FX m64)).length b1.baseScore) (w.map FX.fin)).1
        hess := (calcGradHess (F := FX m32) b1.objectiveType (y.map FX.fin)
          (List.replicate (y.map FX.fin : List (FX m64)).length b1.baseScore) (w.map FX.fin)).2
        evals := ev.map fun es => es.map fun e =>
          { toEvalSet := e, yhat := List.replicate e.y.length b1.baseScore : TrainEval (FX m64) }
        best := none, rng := env.rng.seed b1.seed } rfl
      ⟨List.replicate X.rows sc, by rw [e1, List.map_replicate, List.length_map, h.ylen], by simp⟩ rfl (by
        cases hv : ev with
        | none => trivial
        | some es =>
          refine ⟨?_, ?_, ?_⟩
          · intro e
            have : es = [] := by simpa using e
            exact hev.nonempty (by rw [hv, this])
          · intro e he
            simp only at he
            obtain ⟨e0, h0, rfl⟩ := List.mem_map.1 he
            exact ⟨by rw [e3]; exact hev.ok es hv e0 h0, by simp⟩
          · intro H hH
            rw [e5] at hH; cases hH)
    rw [e4] at hs'
    simp only [hb1, Res.ok_bind]
    simp only [hs', Res.ok_bind]
    exact ⟨_, rfl⟩
  unfold fitTrees
  have hstart : (if b.trees.isEmpty = true then b else b.reset) = { b with
        trees := (if b.trees.isEmpty = true then b else b.reset).trees, evaluationHistory := none
        bestIteration := (if b.trees.isEmpty = true then b else b.reset).bestIteration
        predictionIteration := (if b.trees.isEmpty = true then b else b.reset).predictionIteration } := by
    split
    · rename_i he
      rcases hev.fresh with hne | hh
      · exact absurd (List.isEmpty_iff.1 he) hne
      · rw [← hh]
    · rfl
  generalize (if b.trees.isEmpty = true then b else b.reset) = b0 at hstart
  have f1 : b0.initializeBaseScore = b.initializeBaseScore := by rw [hstart]
  have f2 : b0.objectiveType = b.objectiveType := by rw [hstart]
  split at hsc
  · rename_i hi
    have h1 := key { b0 with baseScore := FX.fin sc } (by rw [hstart])
    simp only [f1, f2, hi, if_true, hsc, Res.ok_bind, Res.pure_def] at h1 ⊢
    exact h1
  · rename_i hi
    have h1 := key b0 (by rw [hstart, ← hsc])
    simp only [f1, f2, hi, Res.ok_bind, Res.pure_def] at h1 ⊢
    exact h1

end

end Verif
