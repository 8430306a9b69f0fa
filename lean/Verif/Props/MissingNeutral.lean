import Verif.Props.AverageLeaf
import Verif.Props.ProbabilityPath
import Verif.Proofs.ContribLength

/-!
# C149: what a missing value contributes
-/

set_option linter.unusedSectionVars false

namespace Verif

open scoped Verif

section any
variable {R F D : Type} [Fl F] [Fl D] [FlCast F D]

/-- The settings promise that a row without a value for feature `f` keeps the value of the node that asks for it. -/
def Booster.MissingKeepsParent (b : Booster F D) (f : Nat) : Prop :=
  b.createMissingBranch = true ∧ (b.missingNodeTreatment = .assignToParent ∨
    (b.missingNodeTreatment = .averageLeafWeight ∧ (b.allowMissingSplits = false ∨ f ∈ b.terminateMissingFeatures)))

/-- The missing child of a node that tests `f` has the value of the node. -/
def Tree.KeepsParent (t : Tree F D) (f : Nat) : Prop :=
  ∀ n ∈ t.nodes, n.isLeaf = false → n.splitFeature = f →
    ∃ m, t.nodes[n.missingNode]? = some m ∧ m.weightValue = n.weightValue

theorem fit_keepsParent {env : Env R F D} {b b' : Booster F D} {data : Matrix D} {y w : List D}
    {ev : Option (List (EvalSet D))} (h : b.fit env data y w ev = .ok (b', .ok ())) {f : Nat}
    (hk : b.MissingKeepsParent f) {t : Tree F D} (ht : t ∈ b'.trees) : t.KeepsParent f := by
  intro n hn hl hf
  obtain ⟨hb, hk | ⟨hk, hno⟩⟩ := hk
  · obtain ⟨-, -, m, h1, h2⟩ := C34_parent_value env b b' data y w ev h hb hk t ht n hn hl
    exact ⟨m, h1, h2⟩
  · obtain ⟨-, -, m, h1, h2⟩ := C35_parent_value env b b' data y w ev h hb hk t ht n hn hl
    obtain ⟨-, -, m', h3, h4⟩ := C37_missing_leaf env b b' data y w ev h hb t ht n hn hl
    rw [h1] at h3; cases h3
    exact ⟨m, h1, h2 (h4 (hno.imp id fun h => hf ▸ h))⟩

/-- The entry of `f` stays 0 when the steps to the missing child of nodes that test `f` are skipped or add 0. -/
theorem contribWalk_missing {nodes : List (Node F D)} {row : List D} {missing : D} {f : Nat} {v : D}
    (hv : idx row f = .ok v) (hmiss : IsMissing missing v)
    {delta : Nat → Node F D → Nat → Res (Option D)}
    (hd : ∀ (i : Nat) (n : Node F D), nodes[i]? = some n → n.isLeaf = false → n.splitFeature = f →
      ∀ d, delta i n n.missingNode = .ok d → (d = some 0 ∧ (0 : D) + 0 = 0) ∨ d = none) :
    ∀ (fuel i : Nat) (cs cs' : List D) (l : Node F D), cs[f]? = some 0 →
      contribWalk nodes row missing delta fuel i cs = .ok (cs', l) → cs'[f]? = some 0 := by
  intro fuel
  induction fuel with
  | zero => intro i cs cs' l _ h; cases h
  | succ fuel ih =>
    intro i cs cs' l hcs h
    rw [contribWalk, Res.bind_eq_ok] at h
    obtain ⟨n, hn, h⟩ := h
    rw [idx_eq_ok] at hn
    split at h
    · cases h; exact hcs
    · rename_i hl
      simp only [Res.bind_eq_ok] at h
      obtain ⟨x, hx, c, hc, d, hdd, h⟩ := h
      cases d with
      | none => exact ih c cs cs' l hcs h
      | some d =>
        simp only [addAt, Res.bind_eq_ok, idx_eq_ok, Res.ok.injEq] at h
        obtain ⟨_, ⟨a, ha, rfl⟩, h⟩ := h
        refine ih c _ cs' l ?_ h
        rw [List.getElem?_set]
        by_cases hf : n.splitFeature = f
        · rw [hf] at hx ha
          rw [hv] at hx; cases hx
          rw [getChildIdx_eq] at hc
          split at hc
          · injection hc with hc
            have : c = n.missingNode := by
              rw [← hc]; unfold Node.childFor; rw [if_pos hmiss]
            subst this
            rcases hd i n hn (by simpa using hl) hf _ hdd with ⟨h0, h00⟩ | h0
            · injection h0 with h0
              subst h0
              rw [hcs] at ha; cases ha
              have hlt := (List.getElem?_eq_some_iff.1 hcs).1
              rw [if_pos hf, if_pos (by rw [hf]; exact hlt), h00]
            · cases h0
          · cases hc
        · rw [if_neg hf]; exact hcs

/-- Nothing is credited to `f` when no tree credits anything to it. -/
theorem contribs_missing {b : Booster F D} {m : ContributionsMethod} (ha : m ≠ .average) (hp : m ≠ .probabilityChange)
    {X : Matrix D} (hX : X.Shaped) {out : List D} (hout : b.predictContributions X m = .ok out)
    {i f : Nat} {v : D} (hi : i < X.rows) (hf : f < X.cols) (hv : X.entry i f = some v)
    (hstep : ∀ t ∈ b.trees, ∀ r cs cs' : List D, idx r f = .ok v → f + 1 < cs.length → cs[f]? = some 0 →
      rowPredFn m t r cs b.missing = .ok cs' → cs'.length = cs.length ∧ cs'[f]? = some 0) :
    out[i * (X.cols + 1) + f]? = some 0 := by
  simp only [Booster.predictContributions, Res.bind_eq_ok, Res.ok.injEq] at hout
  obtain ⟨rows, hrows, rfl⟩ := hout
  obtain ⟨hlen, hlens⟩ := contribRows_lengths hrows
  rw [contribRows_alone b X ha hp, Res.bind_eq_ok] at hrows
  obtain ⟨ts, hts, hrows⟩ := hrows
  obtain ⟨hu, rfl⟩ := predictionTrees_eq_ok.1 hts
  rw [Res.mapM'_eq_ok] at hrows
  rw [flatten_getElem? hlens (by omega)]
  have hilt : i < rows.length := by omega
  rw [List.getElem?_eq_getElem hilt, Option.bind_some]
  have h2 := (List.forall₂_iff_get.1 hrows).2 i (by simpa [Matrix.index] using hi) hilt
  simp only [List.get_eq_getElem, contribsRowAlone, Res.bind_eq_ok, Matrix.index, List.getElem_range] at h2
  obtain ⟨r, hr, h2⟩ := h2
  obtain ⟨r', hr', hl', hrow'⟩ := getRow_entry hX hi
  rw [hr] at hr'; cases hr'
  have hrf : idx r f = .ok v := by rw [hrow' f, hv]; rfl
  have hfold : ∀ (ts' : List (Tree F D)), (∀ t ∈ ts', t ∈ b.trees) → ∀ cs cs' : List D, f + 1 < cs.length →
      cs[f]? = some 0 → Res.foldM' (fun c t => rowPredFn m t r c b.missing) cs ts' = .ok cs' → cs'[f]? = some 0 := by
    intro ts'
    induction ts' with
    | nil => intro _ cs cs' _ h h'; cases h'; exact h
    | cons t ts' ih =>
      intro hmem cs cs' hcl h0 h'
      rw [Res.foldM'_cons, Res.bind_eq_ok] at h'
      obtain ⟨c1, h4, h5⟩ := h'
      obtain ⟨g1, g2⟩ := hstep t (hmem t (by simp)) r cs c1 hrf hcl h0 h4
      exact ih (fun t ht => hmem t (by simp [ht])) c1 cs' (by omega) g2 h5
  refine hfold _ (fun t ht => List.mem_of_mem_take ht) _ _ (by simp [initContribs]; omega) ?_ h2
  rw [initContribs, List.getElem?_append_left (by simpa using hf), List.getElem?_replicate, if_pos hf]

/-- C149, differences.  Any arithmetic.  With `create_missing_branch` the methods BranchDifference, MidpointDifference and
ModeDifference give exactly 0 to a feature that is missing in the row, however missing values are treated. -/
theorem C149_difference (env : Env R F D) (b b' : Booster F D) (data : Matrix D) (y w : List D)
    (ev : Option (List (EvalSet D))) (h : b.fit env data y w ev = .ok (b', .ok ()))
    (hb : b.createMissingBranch = true) (m : ContributionsMethod)
    (hm : m = .branchDifference ∨ m = .midpointDifference ∨ m = .modeDifference)
    (X : Matrix D) (hX : X.Shaped) (out : List D) (hout : b'.predictContributions X m = .ok out)
    (i f : Nat) (v : D) (hi : i < X.rows) (hf : f < X.cols) (hv : X.entry i f = some v)
    (hmiss : IsMissing b'.missing v) : out[i * (X.cols + 1) + f]? = some 0 := by
  have hskip : ∀ t ∈ b'.trees, ∀ n ∈ t.nodes, n.isLeaf = false → n.stepsToMissing n.missingNode = true := by
    intro t ht n hn hl
    obtain ⟨h1, h2, -⟩ := C37_missing_leaf env b b' data y w ev h hb t ht n hn hl
    simp [Node.stepsToMissing, Node.hasMissingBranch, h1, h2]
  have key : ∀ (delta : List (Node F D) → Nat → Node F D → Nat → Res (Option D)),
      (∀ nodes i n c d, n.stepsToMissing c = true → delta nodes i n c = .ok d → d = none) →
      ∀ t ∈ b'.trees, ∀ r cs cs' : List D, ∀ l, idx r f = .ok v → cs[f]? = some 0 →
      contribWalk t.nodes r b'.missing (delta t.nodes) t.nodes.length 0 cs = .ok (cs', l) →
      cs'.length = cs.length ∧ cs'[f]? = some 0 := by
    intro delta hdelta t ht r cs cs' l hrf h0 hw
    exact ⟨contribWalk_length _ _ _ _ _ hw, contribWalk_missing hrf hmiss (fun i n hn hl _ d hd =>
      .inr (hdelta _ _ _ _ d (hskip t ht n (List.mem_of_getElem? hn) hl) hd)) _ _ _ _ _ h0 hw⟩
  refine contribs_missing (by rcases hm with rfl | rfl | rfl <;> simp) (by rcases hm with rfl | rfl | rfl <;> simp) hX hout
    hi hf hv fun t ht r cs cs' hrf _ h0 hcw => ?_
  rcases hm with rfl | rfl | rfl
  · simp only [rowPredFn, Tree.contribBranch, Res.bind_eq_ok, Res.ok.injEq, Prod.exists] at hcw
    obtain ⟨c, l, hw, rfl⟩ := hcw
    refine key deltaBranch (fun nodes i n c d hs hd => ?_) t ht r cs c l hrf h0 hw
    rw [deltaBranch, if_pos hs] at hd
    cases hd; rfl
  · simp only [rowPredFn, Tree.contribMidpoint, Res.bind_eq_ok, Res.ok.injEq, Prod.exists] at hcw
    obtain ⟨c, l, hw, rfl⟩ := hcw
    refine key deltaMidpoint (fun nodes i n c d hs hd => ?_) t ht r cs c l hrf h0 hw
    rw [deltaMidpoint, Res.bind_eq_ok] at hd
    obtain ⟨_, -, hd⟩ := hd
    rw [if_pos hs] at hd
    cases hd; rfl
  · simp only [rowPredFn, Tree.contribMode, Res.bind_eq_ok, Res.ok.injEq, Prod.exists] at hcw
    obtain ⟨c, l, hw, rfl⟩ := hcw
    refine key deltaMode (fun nodes i n c d hs hd => ?_) t ht r cs c l hrf h0 hw
    rw [deltaMode, if_pos hs] at hd
    cases hd; rfl

/-- C149, Weight.  Any arithmetic in which `0 + 0 = 0` and the node values minus themselves are 0, as IEEE arithmetic is
for finite values.  With missing branches that keep the value of the parent, by AssignToParent, or by AverageLeafWeight
when the missing branches of the feature are not split, a feature that is missing in the row contributes exactly 0. -/
theorem C149_weight (env : Env R F D) (b b' : Booster F D) (data : Matrix D) (y w : List D)
    (ev : Option (List (EvalSet D))) (h : b.fit env data y w ev = .ok (b', .ok ()))
    (h00 : (0 : D) + 0 = 0)
    (hsub : ∀ t ∈ b'.trees, ∀ n ∈ t.nodes, (up n.weightValue : D) - up n.weightValue = 0)
    (X : Matrix D) (hX : X.Shaped) (out : List D) (hout : b'.predictContributions X .weight = .ok out)
    (i f : Nat) (hk : b.MissingKeepsParent f) (v : D) (hi : i < X.rows) (hf : f < X.cols) (hv : X.entry i f = some v)
    (hmiss : IsMissing b'.missing v) : out[i * (X.cols + 1) + f]? = some 0 := by
  refine contribs_missing (by simp) (by simp) hX hout hi hf hv fun t ht r cs cs' hrf hlt h0 hcw => ?_
  simp only [rowPredFn, Tree.contribWeight, Res.bind_eq_ok, addBias, addAt, idx_eq_ok, Res.ok.injEq,
    Prod.exists] at hcw
  obtain ⟨root, _, cs1, ⟨x, hx, rfl⟩, cs2, l, hw, rfl⟩ := hcw
  refine ⟨by rw [contribWalk_length _ _ _ _ _ hw]; simp, contribWalk_missing hrf hmiss ?_ _ _ _ _ _ ?_ hw⟩
  · intro i n hn hl hnf d hd
    left
    obtain ⟨m, hm1, hm2⟩ := fit_keepsParent h hk ht n (List.mem_of_getElem? hn) hl hnf
    simp only [deltaWeight, idx_eq_ok.2 hm1, Res.ok_bind, Res.ok.injEq] at hd
    exact ⟨by rw [← hd, hm2, hsub t ht n (List.mem_of_getElem? hn)], h00⟩
  · rw [List.getElem?_set, if_neg (by omega)]; exact h0

end any

section exact
variable {K : Type} [Field K] [LinearOrder K] [IsStrictOrderedRing K] {m32 m64 : Fmt K}
  [m32.Exact] [m64.Exact] {R : Type}

/-- C149, Average.  Exact arithmetic.  With AverageLeafWeight and missing branches of the feature that are not split, a
feature that is missing in the row contributes exactly 0 by the method Average as well. -/
theorem C149_average {env : Env R (FX m32) (FX m64)} {b b' : Booster (FX m32) (FX m64)} {data : Matrix (FX m64)}
    {y w : List K} {ev : Option (List (EvalSet (FX m64)))} {l1 l2 mds lr : K}
    (h : PlainFit env b data y w ev b' l1 l2 mds lr) (hb : b.createMissingBranch = true)
    (hm : b.missingNodeTreatment = .averageLeafWeight) {f : Nat}
    (hno : b.allowMissingSplits = false ∨ f ∈ b.terminateMissingFeatures)
    (X : Matrix (FX m64)) (hX : X.Shaped) (out : List (FX m64)) (hout : b'.predictContributions X .average = .ok out)
    (i : Nat) (v : FX m64) (hi : i < X.rows) (hf : f < X.cols) (hv : X.entry i f = some v)
    (hmiss : IsMissing b'.missing v) : out[i * (X.cols + 1) + f]? = some 0 := by
  rw [← C35_contributions h hb hm X] at hout
  refine C149_weight env b b' data _ _ ev h.fit ?_ (fun t ht n hn => ?_) X hX out hout i f ⟨hb, .inr ⟨hm, hno⟩⟩ v hi hf hv hmiss
  · simp only [FX.zero_def, FX.fin_add, add_zero]
  · obtain ⟨binned, p, k, cfg, rows, hP⟩ := h.tree_mem ht
    obtain ⟨x, hx⟩ := hP.values n hn
    simp only [hx, FX.up_fin, FX.fin_sub, sub_self, FX.zero_def]

end exact

section real

/-- C149, ProbabilityChange.  Real arithmetic.  In trees whose missing branches keep the value of the parent, as
`fit_keepsParent` finds them after a fit, a feature that is missing in the row does not change the probability. -/
theorem C149_probability (b : Booster R R) (ho : b.objectiveType = .logLoss) (data : Matrix R) (hd : data.Shaped)
    (hwf : ∀ t ∈ b.trees, t.Wf) (hv : ∀ t ∈ b.trees, t.FiniteValues) (hb : b.baseScore.IsFin) (out : List R)
    (h : b.predict data = .ok out) {f : Nat} (hk : ∀ t ∈ b.trees, t.KeepsParent f)
    (i : Nat) (v : R) (hi : i < data.rows) (hf : f < data.cols) (he : data.entry i f = some v)
    (hmiss : IsMissing b.missing v) :
    ∃ cs : List R, b.predictContributions data .probabilityChange = .ok cs ∧
      cs[i * (data.cols + 1) + f]? = some (.fin 0) := by
  obtain ⟨rows, e, hl, H⟩ := C147_bound b ho data hd hwf hv hb out h
  refine ⟨_, e, ?_⟩
  have hlens : ∀ r ∈ rows, r.length = data.cols + 1 := by
    intro r hr
    obtain ⟨j, hj⟩ := List.mem_iff_getElem?.1 hr
    exact (H j r hj).1
  rw [flatten_getElem? hlens (by omega)]
  have hr := List.getElem?_eq_getElem (show i < rows.length by omega)
  rw [hr, Option.bind_some]
  obtain ⟨-, vs, hvs, hH⟩ := H i _ hr
  obtain ⟨d, hd1, -, hd2, hd3⟩ := hH f hf
  have hzero : ∀ v ∈ vs, ∀ x ∈ v.changes f, x = 0 := by
    have hts : ∀ t ∈ b.trees.take b.used, t.KeepsParent f := fun t ht => hk t (List.mem_of_mem_take ht)
    clear hd1 hd2 hd3 hH
    generalize b.trees.take b.used = ts at hvs hts
    generalize b.baseScore = lo at hvs
    induction hvs with
    | nil => simp
    | @cons lo t ts root leaf steps vs h1 h2 h3 h4 ih =>
      intro u hu
      rcases List.mem_cons.1 hu with rfl | hu
      · have ht := hts t (by simp)
        clear h1 h3 ih hu
        clear hts
        intro x hx
        simp only [Visit.changes, List.mem_map, List.mem_filter, decide_eq_true_eq] at hx
        obtain ⟨s, ⟨hs, hsf⟩, rfl⟩ := hx
        generalize 0 = j at h2
        induction h2 with
        | leaf => simp at hs
        | @step j n c l r v' steps g1 g2 g3 g4 g5 g6 g7 g8 ih =>
          rcases List.mem_cons.1 hs with rfl | hs
          · have hsf : n.splitFeature = f := hsf
            rw [hsf, he] at g3; cases g3
            obtain ⟨m, k1, k2⟩ := ht n (List.mem_of_getElem? g1) g2 hsf
            have : n.childFor b.missing v = n.missingNode := by unfold Node.childFor; rw [if_pos hmiss]
            rw [this, k1] at g5; cases g5
            show _ - n.weightValue.val = 0
            rw [← k2]; exact sub_self _
          · exact ih hs
      · exact ih (fun t ht => hts t (List.mem_cons_of_mem _ ht)) u hu
  have : d = 0 := le_antisymm (hd3 fun v hv x hx => (hzero v hv x hx).le) (hd2 fun v hv x hx => (hzero v hv x hx).ge)
  rw [hd1, this]

end real

/-! ### The hypotheses are met, and the settings matter -/

/-- Four rows; the first column is missing in the third. -/
def exGap : Matrix Q :=
  { data := [q 1, q 2, FX.nan, q 4, q 1, q 2, q 1, q 2], rows := 4, cols := 2 }

/-- Ternary splits, missing branches that are not split, the treatment `m` of missing values. -/
def exGapBooster (m : MissingNodeTreatment) : Booster Q Q :=
  { exAvg with allowMissingSplits := false, missingNodeTreatment := m, l2 := q 1, maxDepth := 2 }

theorem exGap_plain {m : MissingNodeTreatment} {b' : Booster Q Q}
    (h : (exGapBooster m).fit exEnv exGap [q 0, q 1, q 4, q 6] [q 1, q 1, q 1, q 1] none = .ok (b', .ok ())) :
    PlainFit exEnv (exGapBooster m) exGap [0, 1, 4, 6] [(1 : ℚ), 1, 1, 1] none b' 0 1 0 (1/2) where
  sorter := exSorter_ok
  rng := exRng_ok
  shaped := rfl
  ylen := rfl
  wlen := rfl
  max := by
    show ∀ v ∈ exGap.data, ¬IsMissing FX.nan v → (v ≤ᶠ Fl.maxv) = true
    decide +kernel
  minLeafWeight := by
    show FX.fin 0 ≤ᶠ q 1
    decide
  l1_eq := rfl
  l2_eq := rfl
  mds_eq := rfl
  lr_eq := rfl
  l2_nonneg := zero_le_one
  positive := .inl one_pos
  goss := fun h => nomatch h
  exp := fun h => nomatch h
  base := fun s hs => by
    have hs : s = exFresh.baseScore := hs
    rw [hs]; exact ⟨_, rfl⟩
  fit := h

/-- The value of column 0 is missing in row 2.  With AverageLeafWeight it contributes 0 by Weight and by Average. -/
example : ∃ b' : Booster Q Q, PlainFit exEnv (exGapBooster .averageLeafWeight) exGap [0, 1, 4, 6] [(1 : ℚ), 1, 1, 1] none
      b' 0 1 0 (1/2) ∧ (exGapBooster .averageLeafWeight).MissingKeepsParent 0 ∧ exGap.Shaped ∧
      exGap.entry 2 0 = some FX.nan ∧ IsMissing b'.missing (FX.nan : Q) ∧
      b'.predictContributions exGap .weight = .ok [q (-49/48), q 0, q (125/96), q (-7/12), q 0, q (125/96),
        q 0, q 0, q (125/96), q (77/48), q 0, q (125/96)] ∧
      b'.predictContributions exGap .average = .ok [q (-49/48), q 0, q (125/96), q (-7/12), q 0, q (125/96),
        q 0, q 0, q (125/96), q (77/48), q 0, q (125/96)] := by
  have : (match (exGapBooster .averageLeafWeight).fit exEnv exGap [q 0, q 1, q 4, q 6] [q 1, q 1, q 1, q 1] none with
    | .ok (b', .ok ()) => decide (IsMissing b'.missing (FX.nan : Q) ∧
      b'.predictContributions exGap .weight = .ok [q (-49/48), q 0, q (125/96), q (-7/12), q 0, q (125/96),
        q 0, q 0, q (125/96), q (77/48), q 0, q (125/96)] ∧
      b'.predictContributions exGap .average = .ok [q (-49/48), q 0, q (125/96), q (-7/12), q 0, q (125/96),
        q 0, q 0, q (125/96), q (77/48), q 0, q (125/96)])
    | _ => false) = true := by decide +kernel
  split at this
  · rename_i b' h
    exact ⟨b', exGap_plain h, ⟨rfl, .inr ⟨rfl, .inl rfl⟩⟩, rfl, rfl, of_decide_eq_true this⟩
  · cases this

/-- With AssignToParent it contributes 0 by Weight, but 1849/3200 by Average. -/
example : ∃ b' : Booster Q Q, PlainFit exEnv (exGapBooster .assignToParent) exGap [0, 1, 4, 6] [(1 : ℚ), 1, 1, 1] none
      b' 0 1 0 (1/2) ∧ (exGapBooster .assignToParent).MissingKeepsParent 0 ∧
      b'.predictContributions exGap .weight = .ok [q (-1433/800), q 0, q (829/400), q (-1083/800), q 0, q (829/400),
        q 0, q 0, q (829/400), q (667/800), q 0, q (829/400)] ∧
      ∃ out, b'.predictContributions exGap .average = .ok out ∧ out[6]? = some (q (1849/3200)) := by
  have : (match (exGapBooster .assignToParent).fit exEnv exGap [q 0, q 1, q 4, q 6] [q 1, q 1, q 1, q 1] none with
    | .ok (b', .ok ()) => match b'.predictContributions exGap .average with
      | .ok out => decide (b'.predictContributions exGap .weight = .ok [q (-1433/800), q 0, q (829/400), q (-1083/800),
          q 0, q (829/400), q 0, q 0, q (829/400), q (667/800), q 0, q (829/400)] ∧ out[6]? = some (q (1849/3200)))
      | _ => false
    | _ => false) = true := by decide +kernel
  split at this
  · rename_i b' h
    split at this
    · rename_i out ho
      obtain ⟨h1, h2⟩ := of_decide_eq_true this
      exact ⟨b', exGap_plain h, ⟨rfl, .inl rfl⟩, h1, out, ho, h2⟩
    · cases this
  · cases this

/-- With the treatment None it contributes 0 by ModeDifference, but -7/160 by Weight. -/
example : ∃ b' : Booster Q Q, PlainFit exEnv (exGapBooster .none) exGap [0, 1, 4, 6] [(1 : ℚ), 1, 1, 1] none
      b' 0 1 0 (1/2) ∧ (exGapBooster .none).createMissingBranch = true ∧
      b'.predictContributions exGap .modeDifference = .ok [q 0, q 0, q (1/2), q 0, q 0, q (1/2), q 0, q 0, q (1/2),
        q (77/32), q 0, q (1/2)] ∧
      ∃ out, b'.predictContributions exGap .weight = .ok out ∧ out[6]? = some (q (-7/160)) := by
  have : (match (exGapBooster .none).fit exEnv exGap [q 0, q 1, q 4, q 6] [q 1, q 1, q 1, q 1] none with
    | .ok (b', .ok ()) => match b'.predictContributions exGap .weight with
      | .ok out => decide (b'.predictContributions exGap .modeDifference = .ok [q 0, q 0, q (1/2), q 0, q 0, q (1/2), q 0,
          q 0, q (1/2), q (77/32), q 0, q (1/2)] ∧ out[6]? = some (q (-7/160)))
      | _ => false
    | _ => false) = true := by decide +kernel
  split at this
  · rename_i b' h
    split at this
    · rename_i out ho
      obtain ⟨h1, h2⟩ := of_decide_eq_true this
      exact ⟨b', exGap_plain h, rfl, h1, out, ho, h2⟩
    · cases this
  · cases this

/-- A stump in real arithmetic whose missing branch has the value of the root. -/
noncomputable def realGap : Tree R R :=
  { nodes := [{ realNode 0 (1/2) false 2 3 with missingNode := 1 }, realNode 1 (1/2) true 0 0, realNode 2 (-1) true 0 0,
      realNode 3 2 true 0 0] }

theorem realNan_missing : IsMissing (FX.nan : R) (FX.nan : R) := by
  unfold IsMissing
  rw [if_pos (show isNaN (FX.nan : R) = true from rfl)]
  rfl

/-- A LogLoss model in real arithmetic and a row whose only value is missing. -/
example : ∃ (b : Booster R R) (data : Matrix R) (out : List R), b.objectiveType = .logLoss ∧ data.Shaped ∧
    b.trees = [realGap] ∧ (∀ t ∈ b.trees, t.Wf) ∧ (∀ t ∈ b.trees, t.FiniteValues) ∧
    b.baseScore.IsFin ∧ b.predict data = .ok out ∧ (∀ t ∈ b.trees, t.KeepsParent 0) ∧ 0 < data.rows ∧ 0 < data.cols ∧
    data.entry 0 0 = some FX.nan ∧ IsMissing b.missing (FX.nan : R) := by
  refine ⟨{ pairBooster 1 1 with trees := [realGap], missing := FX.nan }, { data := [FX.nan], rows := 1, cols := 1 },
    [.fin (Real.log 99) + up (realNode 1 (1/2) true 0 0).weightValue], rfl, rfl, rfl, ?_, ?_, ⟨_, rfl⟩, ?_, ?_, one_pos,
    one_pos, rfl, realNan_missing⟩
  · intro t ht
    rw [List.mem_singleton.1 ht]
    exact Tree.wf_of_check _ rfl
  · intro t ht
    rw [List.mem_singleton.1 ht]
    intro n hn
    simp only [realGap, List.mem_cons, List.not_mem_nil, or_false] at hn
    rcases hn with rfl | rfl | rfl | rfl <;> exact ⟨_, rfl⟩
  · rw [C19_prediction_iteration]
    refine ⟨le_rfl, rfl, fun i v hv => ?_⟩
    cases i with
    | succ i => simp at hv
    | zero =>
      cases hv
      refine ⟨[realNode 1 (1/2) true 0 0], .cons ?_ .nil, rfl⟩
      refine .step (n := { realNode 0 (1/2) false 2 3 with missingNode := 1 }) (v := FX.nan) rfl rfl rfl (.inl rfl) ?_
      rw [show Node.childFor { realNode 0 (1/2) false 2 3 with missingNode := 1 } FX.nan FX.nan = 1 from
        if_pos realNan_missing]
      exact .leaf rfl rfl
  · intro t ht
    rw [List.mem_singleton.1 ht]
    intro n hn hl _
    simp only [realGap, List.mem_cons, List.not_mem_nil, or_false] at hn
    rcases hn with rfl | rfl | rfl | rfl
    · exact ⟨_, rfl, rfl⟩
    all_goals cases hl

end Verif
