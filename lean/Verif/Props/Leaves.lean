import Verif.Props.SquaredLossGain
import Verif.Props.Binning

/-!
# C94 A leaf stays a leaf only when no split of it helps
-/

namespace Verif

open scoped Verif

set_option linter.unusedSectionVars false

section
variable {K : Type} [Field K] [LinearOrder K] [IsStrictOrderedRing K] {m32 m64 : Fmt K}
  [m32.Exact] [m64.Exact]

/-- Score of rows with the given sums at the value that a node of these rows gets. -/
def stepScore (l1 l2 mds G H : K) : K := score l2 G H (stepK l1 l2 mds G H)

theorem cullGain_plain {F : Type} [Fl F] {ct : Option Constraint} (h : noConstraint ct = true) (g l r : F) :
    cullGain g l r ct = g := by
  unfold cullGain
  match ct, h with
  | none, _ => rfl
  | some .unconstrained, _ => rfl

/-- What a binary candidate with enough weight on both sides evaluates to. -/
theorem imputer_plain {p : SplitParams (FX m32)} {a : SplitArgs (FX m32)} {l1 l2 mds μ : K}
    {lg lh rg rh mg mh : K} (hct : noConstraint a.constraint = true) (e1 : p.l1 = FX.fin l1)
    (e2 : p.l2 = FX.fin l2) (e3 : p.maxDeltaStep = FX.fin mds) (e4 : p.minLeafWeight = FX.fin μ)
    (elg : a.lg = FX.fin lg) (elh : a.lh = FX.fin lh) (erg : a.rg = FX.fin rg) (erh : a.rh = FX.fin rh)
    (emg : a.mg = FX.fin mg) (emh : a.mh = FX.fin mh) (hl2 : 0 ≤ l2) (hμ : 0 < μ) (hl : μ ≤ lh)
    (hr : μ ≤ rh) (hm : 0 ≤ mh) :
    ∃ l r m gl gr, imputerEvaluateSplit p a = some (l, r, m) ∧ (m = .left ∨ m = .right) ∧
      l.gain = FX.fin gl ∧ r.gain = FX.fin gr ∧
      stepScore l1 l2 mds (lg + mg) (lh + mh) + stepScore l1 l2 mds rg rh ≤ gl + gr ∧
      stepScore l1 l2 mds lg lh + stepScore l1 l2 mds (rg + mg) (rh + mh) ≤ gl + gr := by
  have hw : ∀ G H : K, μ ≤ H → p.cw a (FX.fin G) (FX.fin H) = FX.fin (stepK l1 l2 mds G H) := by
    intro G H hH
    simp only [SplitParams.cw, constrainedWeight, hct, if_true]
    rw [e1, e2, e3, weight_fin (by linarith : (0 : K) < H + l2).ne']
  have hs : ∀ G H : K, gainGivenWeight p.l2 (FX.fin G) (FX.fin H) (FX.fin (stepK l1 l2 mds G H)) =
      FX.fin (stepScore l1 l2 mds G H) := by
    intro G H
    rw [e2, gainGivenWeight_fin]; rfl
  have hl0 : lh ≠ 0 := (lt_of_lt_of_le hμ hl).ne'
  have hr0 : rh ≠ 0 := (lt_of_lt_of_le hμ hr).ne'
  unfold imputerEvaluateSplit
  rw [elg, elh, erg, erh, emg, emh, e4]
  simp only [FX.zero_def, FX.feq_fin, FX.lt_fin, hl0, hr0, decide_false, Bool.and_false, Bool.or_self,
    Bool.false_and, Bool.false_eq_true, if_false, not_lt.2 hl, not_lt.2 hr, FX.fin_add,
    hw lg lh hl, hw rg rh hr, hw (lg + mg) (lh + mh) (by linarith), hw (rg + mg) (rh + mh) (by linarith), hs,
    cullGain_plain hct, FX.fin_sub]
  by_cases h0 : (!decide (mg = 0) || !decide (mh = 0)) = true
  · rw [if_pos h0]
    split_ifs with h1 h2 h3
    · exfalso; simp only [FX.lt_fin, Bool.or_eq_true, decide_eq_true_eq] at h2; rcases h2 with h2 | h2 <;> linarith
    · rw [decide_eq_true_eq] at h1
      exact ⟨_, _, _, _, _, rfl, .inl rfl, rfl, rfl, by linarith, by linarith⟩
    · exfalso; simp only [FX.lt_fin, Bool.or_eq_true, decide_eq_true_eq] at h3; rcases h3 with h3 | h3 <;> linarith
    · rw [decide_eq_true_eq] at h1
      exact ⟨_, _, _, _, _, rfl, .inr rfl, rfl, rfl, by linarith, by linarith⟩
  · rw [if_neg h0]
    have h0' : mg = 0 ∧ mh = 0 := by
      simpa only [Bool.or_eq_true, Bool.not_eq_true', decide_eq_false_iff_not, not_or, not_not] using h0
    obtain ⟨rfl, rfl⟩ := h0'
    rw [if_neg (by simp [FX.lt_fin, hl, hr])]
    simp only [add_zero]
    exact ⟨_, _, _, _, _, rfl, .inr rfl, rfl, rfl, le_refl _, le_refl _⟩

/-- A child of a split without constraints has the score of its sums. -/
theorem imputer_kid {p : SplitParams (FX m32)} {a : SplitArgs (FX m32)} {l r : NodeInfo (FX m32)}
    {m : MissingInfo (FX m32)} (hct : noConstraint a.constraint = true)
    (h : imputerEvaluateSplit p a = some (l, r, m)) :
    l.gain = gainGivenWeight p.l2 l.grad l.cover l.weight ∧
      r.gain = gainGivenWeight p.l2 r.grad r.cover r.weight := by
  unfold imputerEvaluateSplit at h
  simp only [cullGain_plain hct] at h
  split at h
  · cases h
  · split at h
    · cases h
    · split at h
      · split at h
        all_goals
          split at h
          · cases h
          · simp only [Option.some.injEq, Prod.mk.injEq] at h
            obtain ⟨rfl, rfl, rfl⟩ := h
            exact ⟨rfl, rfl⟩
      · split at h
        · cases h
        · simp only [Option.some.injEq, Prod.mk.injEq] at h
          obtain ⟨rfl, rfl, rfl⟩ := h
          exact ⟨rfl, rfl⟩

/-- Every cut of a column in use but the last is examined. -/
theorem candidate_exists {t : TrainData (FX m32) (FX m64)} {gv hv : Nat → K} {sn : SNode (FX m32) (FX m64)}
    {rows : List Nat} (hN : NodeSums t gv hv sn rows) (hml : sn.isMissingLeaf = false) {feature : Nat}
    (hmem : feature ∈ t.colIndex) {cu : List (FX m64)} (hcu : t.cuts.getCol feature = .ok cu) {k : Nat}
    (hk : k + 1 < cu.length) :
    ∃ j missing bins bin, t.colIndex[j]? = some feature ∧ sn.histograms.getCol j = .ok (missing :: bins) ∧
      bins[k]? = some bin ∧ cu[k]? = some bin.cut := by
  obtain ⟨hs, hj, hf⟩ := hN.hist hml
  obtain ⟨j, hj', hje⟩ := List.getElem_of_mem hmem
  have hjl : j < hs.length := by rw [← hf.length_eq]; exact hj'
  have := (List.forall₂_iff_get.1 hf).2 j hj' hjl
  simp only [List.get_eq_getElem, hje] at this
  obtain ⟨f, c, e1, e2, e3, e4⟩ := this
  rw [hcu] at e2; cases e2
  have hlen := length_colHist (m32 := m32) (f := f) (gv := gv) (hv := hv) (rows := rows) e3
  obtain ⟨missing, bins, hmb⟩ : ∃ missing bins, colHist (m32 := m32) f cu gv hv rows = missing :: bins := by
    match hh : colHist (m32 := m32) f cu gv hv rows with
    | [] => rw [hh] at hlen; simp at hlen; omega
    | a :: b => exact ⟨a, b, rfl⟩
  rw [hmb, List.length_cons] at hlen
  have hkl : k < bins.length := by omega
  refine ⟨j, missing, bins, bins[k], by rw [List.getElem?_eq_getElem hj', hje], ?_,
    List.getElem?_eq_getElem hkl, ?_⟩
  · rw [hj.getCol, List.getElem?_eq_getElem hjl, e4, hmb]; rfl
  · have hb : (missing :: bins)[k + 1]? = (cutCol cu)[k + 1]?.map fun x =>
        ({ grad := FX.fin (binSum f gv rows (k + 1)), hess := FX.fin (binSum f hv rows (k + 1)), cut := x } :
          Bin (FX m32) (FX m64)) := by
      rw [← hmb, colHist, getElem?_mkHist]
    rw [List.getElem?_cons_succ, List.getElem?_eq_getElem hkl, cutCol, List.getElem?_cons_succ,
      List.getElem?_take, if_pos (by omega), List.getElem?_eq_getElem (by omega : k < cu.length),
      Option.map_some, Option.some.injEq] at hb
    rw [hb, List.getElem?_eq_getElem (by omega : k < cu.length)]

/-! ### C94 -/

open Classical in
/-- Where the value `x` lies relative to the threshold `v`. -/
noncomputable def rawSide (missing v x : FX m64) : BinSide :=
  if IsMissing missing x then .missing else if (x <ᶠ v) = true then .left else .right

/-- The rows of `rs` whose value of the feature is missing, below `v`, or at least `v`. -/
noncomputable def sideRows (X : Matrix (FX m64)) (missing : FX m64) (feature : Nat) (v : FX m64)
    (s : BinSide) (rs : List Nat) : List Nat :=
  rs.filter fun r => (X.entry r feature).any fun x => decide (rawSide missing v x = s)

variable {S : Sorter} {X : Matrix (FX m64)} {w : List K} {nbins : Nat} {missing : FX m64}
  {gv hv : Nat → K} {c : GrowCfg (FX m32) (FX m64)} {sm : SampleMethod} {rows : List Nat}
  {t : Tree (FX m32) (FX m64)}

/-- `v` is a cut of the column at which nodes can be split: any but the last, which is the largest
number. -/
def IsCut (c : GrowCfg (FX m32) (FX m64)) (feature : Nat) (v : FX m64) : Prop :=
  feature ∈ c.train.colIndex ∧
    ∃ cu k, c.train.cuts.getCol feature = .ok cu ∧ k + 1 < cu.length ∧ cu[k]? = some v

theorem rowsOn_raw (h : TrainedOn S X w nbins missing gv hv c sm rows) {feature : Nat}
    (hmem : feature ∈ c.train.colIndex) {f : List Nat} (hcol : c.train.data.getCol feature = .ok f)
    {cu : List (FX m64)} (hcu : c.train.cuts.getCol feature = .ok cu) {k : Nat} {v : FX m64}
    (hk : k + 1 < cu.length) (hv' : cu[k]? = some v) {rs : List Nat} (hrs : ∀ r ∈ rs, r < X.rows)
    (s : BinSide) : rowsOn f (k + 1) [s] rs = sideRows X missing feature v s rs := by
  unfold rowsOn sideRows
  refine List.filter_congr fun r hr => ?_
  obtain ⟨x, hx, _, hm1, hm2⟩ := h.rawOk feature hmem f cu hcol hcu r (by rw [h.rows_eq]; exact hrs r hr)
  rw [hx, Option.any_some]
  have : binSide (k + 1) (f.getD r 0) = rawSide missing v x := by
    unfold binSide rawSide
    by_cases hm : IsMissing missing x
    · rw [if_pos hm, if_pos (hm1 hm)]
    · obtain ⟨n1, n2⟩ := hm2 hm (by omega)
      rw [if_neg hm, if_neg n1]
      have := n2 k v hv'
      by_cases hlt : f.getD r 0 < k + 1
      · rw [if_pos hlt, if_pos (this.1 hlt)]
      · rw [if_neg hlt, if_neg (fun e => hlt (this.2 e))]
  rw [this]
  simp [eq_comm]

theorem stepScore_obj {l1 l2 mds G H x : K} (ha : 0 < H + l2) (hl : 0 ≤ l1) (hm : 0 ≤ mds)
    (hx : IsStep l1 l2 mds G H x) : stepScore l1 l2 mds G H = -2 * regObj 0 l2 G H x := by
  rw [hx.unique ha hl (stepK_isStep ha hl hm)]
  unfold stepScore score regObj
  ring

theorem imputer_open {o : SNode (FX m32) (FX m64) → Prop} {gs : List (Ghost (FX m32) (FX m64))}
    {nodes : List (Node (FX m32) (FX m64))} (hV : FitView X missing gv hv c rows t o gs nodes)
    {p : SplitParams (FX m32)} (himp : c.splitter = .imputer p) {i : Nat} {g : Ghost (FX m32) (FX m64)}
    (hg : gs[i]? = some g) : g.sn.isMissingLeaf = false := by
  rcases Nat.eq_zero_or_pos i with rfl | hi
  · obtain ⟨g0, h0, h1, n, hists, h2⟩ := hV.root
    rw [hg] at h0; cases h0
    rw [h2]; rfl
  · obtain ⟨j, n, gj, info, k, kids, hj, hn, hl, hI, hh⟩ := hV.main hg hi (hV.no_onlyMissing himp i)
    obtain ⟨gl, gr, x1, x2, _, _, x5, x6, _⟩ := hI.sides
    rcases hh with ⟨rfl, _⟩ | ⟨rfl, _⟩
    · rw [hg] at x1; cases x1; exact x5
    · rw [hg] at x2; cases x2; exact x6

/-- The score that the search compares with. -/
theorem fitView_gain {o : SNode (FX m32) (FX m64) → Prop} {gs : List (Ghost (FX m32) (FX m64))}
    {nodes : List (Node (FX m32) (FX m64))} (hV : FitView X missing gv hv c rows t o gs nodes)
    (h : TrainedOn S X w nbins missing gv hv c sm rows) {p : SplitParams (FX m32)}
    (himp : c.splitter = .imputer p) {l1 l2 mds lr : K} (hP : PlainParams c hv rows l1 l2 mds lr)
    (hno : ∀ f, noConstraint (c.splitter.params.getConstraint f) = true) {i : Nat}
    {g : Ghost (FX m32) (FX m64)} (hg : gs[i]? = some g) (hroot : i ≠ 0 ∨ l1 = 0 ∧ mds = 0)
    (hpos : 0 < rowSum hv g.rows + l2) :
    g.sn.gainValue = FX.fin (stepScore l1 l2 mds (rowSum gv g.rows) (rowSum hv g.rows)) := by
  have hm := hV.no_onlyMissing himp i
  rcases Nat.eq_zero_or_pos i with rfl | hi
  · obtain ⟨rfl, rfl⟩ := hroot.resolve_left (fun e => e rfl)
    obtain ⟨g0, h0, h1, n, hists, h2⟩ := hV.root
    rw [hg] at h0; cases h0
    rw [h1] at hpos ⊢
    rw [h2]
    simp only [rootNode, SNode.new, gain]
    rw [hP.l2_eq, FX.fin_mul, FX.fin_add, FX.fin_div _ _ hpos.ne']
    congr 1
    unfold stepScore score stepK softG
    simp only [if_true, ne_eq, not_true, false_and, if_false]
    field_simp
    ring
  · obtain ⟨j, n, gj, info, k, kids, hj, hn, hl, hI, hh⟩ := hV.main hg hi hm
    obtain ⟨_, j', i', ⟨f, m, bs, bin, h1, h2, h3, h4⟩, _⟩ := bestSplit_best hI.isSplit.best
    obtain ⟨l, r, mi, gg, he, hgg, _, e⟩ := evalCandidate_some.1 h4
    rw [himp] at he
    simp only [Splitter.evaluateSplit, Res.ok.injEq] at he
    rw [himp] at hno
    obtain ⟨k1, k2⟩ := imputer_kid (hno _) he
    have hw := hV.weight h (fun p' hp' => by rw [himp] at hp'; cases hp') (by rw [himp]; exact hno) hg hm
    have hN := hV.sums i g hg
    have hl2 : p.l2 = FX.fin l2 := by have := hP.l2_eq; rw [himp] at this; exact this
    rw [hP.l1_eq, hP.l2_eq, hP.mds_eq, weight_fin hpos.ne'] at hw
    rcases hh with ⟨_, hh⟩ | ⟨_, hh⟩
    · have a1 := hh.gain
      have a2 := hh.grad
      have a3 := hh.cover
      have a4 := hh.weight
      rw [e] at a1 a2 a3 a4
      simp only at a1 a2 a3 a4
      rw [a1, k1, ← a2, ← a3, ← a4, hN.grad, hN.hess, hw, hl2, gainGivenWeight_fin]
      rfl
    · have a1 := hh.gain
      have a2 := hh.grad
      have a3 := hh.cover
      have a4 := hh.weight
      rw [e] at a1 a2 a3 a4
      simp only at a1 a2 a3 a4
      rw [a1, k2, ← a2, ← a3, ← a4, hN.grad, hN.hess, hw, hl2, gainGivenWeight_fin]
      rfl

/-- C94.  Without a missing branch and without constraints: a leaf of a tree that has fewer leaves than
allowed, at a depth less than allowed, cannot be split with more than `gamma` to gain.  For every threshold
`v` that occurs among the cuts of a column in use, with enough weight on both sides, sending the missing rows
left or right: the objective of the two sides is not smaller than that of the leaf by more than half of
`gamma`.  (For the root this needs that neither `l1` nor `max_delta_step` is used, see `C94_false`.) -/
theorem C94_leaf_partial (h : TrainedOn S X w nbins missing gv hv c sm rows)
    (hf : Tree.fit c sm rows = .ok t) {l1 l2 mds lr : K} (hP : PlainParams c hv rows l1 l2 mds lr)
    (hl1 : 0 ≤ l1) (hmds : 0 ≤ mds) {p : SplitParams (FX m32)} (himp : c.splitter = .imputer p)
    (hno : ∀ f, noConstraint (c.splitter.params.getConstraint f) = true) {γ μ : K}
    (hγ : c.splitter.params.gamma = FX.fin γ) (hμ : c.splitter.params.minLeafWeight = FX.fin μ)
    (hmax : t.leafCount < c.maxLeaves) {i : Nat} {n : Node (FX m32) (FX m64)} (hn : t.nodes[i]? = some n)
    (hleaf : n.isLeaf = true) (hdepth : n.depth < c.maxDepth) (hroot : i ≠ 0 ∨ l1 = 0 ∧ mds = 0)
    {feature : Nat} {v : FX m64} (hcut : IsCut c feature v) (here L R M : List Nat)
    (hhere : here = rowsAt t X missing rows i) (hL : L = sideRows X missing feature v .left here)
    (hR : R = sideRows X missing feature v .right here) (hM : M = sideRows X missing feature v .missing here)
    (hLμ : μ ≤ (L.map hv).sum) (hRμ : μ ≤ (R.map hv).sum) :
    ∀ A B, (A = L ++ M ∧ B = R) ∨ (A = L ∧ B = R ++ M) → ∀ x xa xb,
      IsStep l1 l2 mds (here.map gv).sum (here.map hv).sum x →
      IsStep l1 l2 mds (A.map gv).sum (A.map hv).sum xa →
      IsStep l1 l2 mds (B.map gv).sum (B.map hv).sum xb →
      regObj 0 l2 (here.map gv).sum (here.map hv).sum x - γ / 2 ≤
        regObj 0 l2 (A.map gv).sum (A.map hv).sum xa + regObj 0 l2 (B.map gv).sum (B.map hv).sum xb := by
  obtain ⟨o, gs, nodes, hV, ho⟩ := h.view_open hf
  obtain ⟨g, n0, hg, hn0, hno', hleaf', _, _, _⟩ := hV.node hn
  obtain ⟨hmem, cu, k, hcu, hk, hvk⟩ := hcut
  -- the leaf was examined
  have hd : n0.depth = n.depth := by
    obtain ⟨w', hw'⟩ := hV.shape.2 _ _ hn0
    rw [hn] at hw'; cases hw'; rfl
  have hinfo : g.info = none := by
    obtain ⟨n1, q1, _, q3⟩ := hV.cert.nodeOf hg
    rw [hn0] at q1; cases q1
    exact q3.1 (by rw [hleaf', hleaf])
  have hmpos : (0 : K) < μ := by
    have := h.pos
    rw [hμ] at this
    exact of_decide_eq_true this
  have hhr := hV.rowsAt h.nodup hg
  rw [← hhere] at hhr
  have hlt : ∀ r ∈ g.rows, r < c.train.data.rows := hV.lt i g hg
  have hml := imputer_open hV himp hg
  have hN := hV.sums i g hg
  have hnone : bestSplit c.splitter g.sn c.train.colIndex = .ok none := by
    rcases (hV.cert.leaf i g hg hinfo).2 with e | e | e | e
    · have := ho _ e
      rw [List.countP_eq_length_filter] at this
      exact absurd hmax (not_lt.2 this)
    · rw [hml] at e; cases e
    · rw [hno'.depth] at hd; omega
    · exact e
  obtain ⟨j, mb, bins, bin, c1, c2, c3, c4⟩ := candidate_exists hN hml hmem hcu hk
  obtain ⟨f, cu', d1, d2, d3, d4, d5, d6⟩ := candidate_args hN hml hlt c1 c2 c3
  rw [hcu] at d2; cases d2
  rw [hvk] at c4
  have hraw : ∀ s, (sideRows X missing feature v s here).Perm (rowsOn f (k + 1) [s] g.rows) := by
    intro s
    rw [rowsOn_raw h hmem d1 hcu hk hvk (fun r hr => by have := hlt r hr; rwa [h.rows_eq] at this) s]
    exact hhr.filter _
  have sm' : ∀ (q : Nat → K) s, rowSum q (rowsOn f (k + 1) [s] g.rows) =
      ((sideRows X missing feature v s here).map q).sum := fun q s => ((hraw s).map q).sum_eq.symm
  have hpl : c.splitter.params = p := by rw [himp]; rfl
  rw [hpl] at hno hγ hμ
  have hP' := hP
  rcases hP' with ⟨p1, p2, p3, _, hl2, hh, _⟩
  rw [hpl] at p1 p2 p3
  have hmn : 0 ≤ (M.map hv).sum := by
    refine List.sum_nonneg fun z hz => ?_
    obtain ⟨r, hr, rfl⟩ := List.mem_map.1 hz
    rw [hM] at hr
    exact hh r (hV.sub i g hg r (hhr.mem_iff.1 (List.mem_filter.1 hr).1))
  obtain ⟨l, r, m, gl, gr, hev, hmm, hgl, hgr, hge1, hge2⟩ := imputer_plain (p := p)
    (a := candArgs g.sn f (k + 1) gv hv g.rows (p.getConstraint feature)) (hno feature) p1 p2 p3 hμ rfl rfl rfl rfl
    rfl rfl hl2 hmpos (by rw [sm', ← hL]; exact hLμ) (by rw [sm', ← hR]; exact hRμ)
    (by rw [sm', ← hM]; exact hmn)
  have htot : ∀ q : Nat → K, (here.map q).sum = (L.map q).sum + (M.map q).sum + (R.map q).sum := by
    intro q
    rw [(hhr.map q).sum_eq]
    have := rowSum_three q f (k + 1) g.rows
    rw [sm', sm', sm', ← hL, ← hR, ← hM] at this
    exact this
  have hpos : 0 < rowSum hv g.rows + l2 := by
    have := htot hv
    rw [(hhr.map hv).sum_eq] at this
    have e : rowSum hv g.rows = (g.rows.map hv).sum := rfl
    rw [e, this]; linarith
  have hgain := fitView_gain hV h himp hP (by rw [hpl]; exact hno) hg hroot hpos
  have hsc : Scored c.splitter g.sn c.train.colIndex j k feature v l r m
      (splitScore c.splitter g.sn feature l r m) := by
    refine ⟨c1, ⟨mb, bins, bin, c2, c3, (Option.some.inj c4).symm, ?_⟩, rfl⟩
    have := d6 (p.getConstraint feature)
    rw [himp]
    simp only [Splitter.evaluateSplit, Res.ok.injEq]
    rw [← hev, this]
    rfl
  have hle := C50_none _ _ _ hnone _ _ _ _ _ _ _ _ hsc
  have hnv : ¬ Violates (c.splitter.params.getConstraint feature) l r := by
    have := hno feature
    rw [hpl]
    rintro (⟨e, _⟩ | ⟨e, _⟩) <;> rw [e] at this <;> cases this
  have hval : splitScore c.splitter g.sn feature l r m =
      FX.fin (gl + gr - stepScore l1 l2 mds (rowSum gv g.rows) (rowSum hv g.rows) - γ) := by
    unfold splitScore
    rw [if_neg hnv, hgl, hgr, hgain, hpl, hγ]
    have hz : FX.fin gl + FX.fin gr + (0 : FX m32) -
        FX.fin (stepScore l1 l2 mds (rowSum gv g.rows) (rowSum hv g.rows)) - FX.fin γ =
        FX.fin (gl + gr - stepScore l1 l2 mds (rowSum gv g.rows) (rowSum hv g.rows) - γ) := by
      simp only [FX.zero_def, FX.fin_add, FX.fin_sub, add_zero]
    rcases hmm with rfl | rfl <;> exact hz
  rw [hval] at hle
  simp only [FX.zero_def, FX.lt_fin, decide_eq_false_iff_not, not_lt] at hle
  simp only [sm', ← hL, ← hR, ← hM] at hge1 hge2
  have hgq : ∀ q : Nat → K, rowSum q g.rows = (here.map q).sum := fun q => ((hhr.map q).sum_eq).symm
  rw [hgq] at hpos
  rw [hgq, hgq] at hle
  intro A B hAB x xa xb hx ha hb
  rw [stepScore_obj hpos hl1 hmds hx] at hle
  rcases hAB with ⟨rfl, rfl⟩ | ⟨rfl, rfl⟩
  · simp only [List.map_append, List.sum_append] at ha ⊢
    rw [stepScore_obj (by linarith) hl1 hmds ha, stepScore_obj (by linarith) hl1 hmds hb] at hge1
    linarith
  · simp only [List.map_append, List.sum_append] at hb ⊢
    rw [stepScore_obj (by linarith) hl1 hmds ha, stepScore_obj (by linarith) hl1 hmds hb] at hge2
    linarith

/-! #### Boosters -/

theorem eq_of_feq {a b : FX m64} (h : (a =ᶠ b) = true) : a = b := by
  cases a <;> cases b <;> simp_all [Fl.feq, FX.feq]

theorem feq_self {a : FX m64} (h : isNaN a = false) : (a =ᶠ a) = true := by
  cases a <;> simp_all [Fl.feq, FX.feq, isNaN]

/-- A column without missing values whose distinct values all fit in the bins. -/
structure Resolved (X : Matrix (FX m64)) (missing : FX m64) (nbins feature : Nat) : Prop where
  lt : feature < X.cols
  present : ∀ i < X.rows, ∀ x, X.entry i feature = some x → ¬ IsMissing missing x ∧ (x <ᶠ Fl.maxv) = true
  few : ∀ l : List (FX m64), l.Pairwise (fun a b => (a <ᶠ b) = true) →
    (∀ x ∈ l, ∃ i < X.rows, X.entry i feature = some x) → l.length ≤ nbins + 1

/-- All values of such a column are cuts at which nodes can be split. -/
theorem Resolved.cuts {feature : Nat} (hr : Resolved X missing nbins feature)
    (h : TrainedOn S X w nbins missing gv hv c sm rows) :
    ∃ cu, c.train.cuts.getCol feature = .ok cu ∧ (cu.Pairwise fun a b => (a <ᶠ b) = true) ∧
      ∀ r < X.rows, ∃ x j, X.entry r feature = some x ∧ ¬ IsMissing missing x ∧ isNaN x = false ∧
        j + 1 < cu.length ∧ cu[j]? = some x := by
  obtain ⟨bd, hbd, hd, hcuts⟩ := h.binned
  have hwl : X.rows ≤ (w.map (FX.fin : K → FX m64)).length := by rw [List.length_map]; exact h.weights
  obtain ⟨cutss, hb⟩ := binMatrix_binned h.shaped hwl hbd
  have hjl : feature < cutss.length := hb.len ▸ hr.lt
  have hcj := List.getElem?_eq_getElem hjl
  have hcov := few_cover h.sorter h.shaped hwl h.max hb hr.lt
    (fun l hl hl' => hr.few l hl fun x hx => (hl' x hx).2) hcj
  have hcl := Matrix.column_length h.shaped hr.lt
  have hspec := colCuts_spec h.sorter (by rw [hcl]; exact hwl) (hb.made feature _ hcj)
    (fun v hv => h.max v (Matrix.mem_column hv))
  obtain ⟨init, last, e, hl, _⟩ := hspec.last
  refine ⟨cutss[feature], by rw [hcuts, hb.jagged.getCol, hcj]; rfl, hspec.increasing, fun r hrl => ?_⟩
  have hlen : r < (X.column feature).length := by rw [hcl]; exact hrl
  have hx : X.entry r feature = some (X.column feature)[r] := by
    rw [← Matrix.column_getElem? X hrl, List.getElem?_eq_getElem hlen]
  obtain ⟨q1, q2⟩ := hr.present r hrl _ hx
  obtain ⟨cv, hcv, hfe⟩ := hcov _ (List.getElem_mem hlen) q1
  rw [eq_of_feq hfe] at hcv
  obtain ⟨j, hj⟩ := List.mem_iff_getElem?.1 hcv
  refine ⟨_, j, hx, q1, (Fl.OrdLaws.lt_num _ _ q2).1, ?_, hj⟩
  rw [e] at hj ⊢
  rw [List.length_append, List.length_singleton]
  by_contra hge
  have hjl := (List.getElem?_eq_some_iff.1 hj).1
  rw [List.length_append, List.length_singleton] at hjl
  rw [show j = init.length by omega, List.getElem?_concat_length] at hj
  rw [← Option.some.inj hj, eq_of_feq hl, Fl.OrdLaws.lt_irrefl] at q2
  cases q2

/-- Derivatives of the loss of row `r` at the predictions `p`, in single precision. -/
def rowGrad (o : ObjectiveType) (m32 m64 : Fmt K) (y w p : List K) (r : Nat) : K :=
  (FlCast.down (o.gradOf (FX.fin (y.getD r 0) : FX m64) (FX.fin (p.getD r 0)) (FX.fin (w.getD r 0))) :
    FX m32).val

@[inherit_doc rowGrad]
def rowHess (o : ObjectiveType) (m32 m64 : Fmt K) (y w p : List K) (r : Nat) : K :=
  (FlCast.down (o.hessOf (FX.fin (y.getD r 0) : FX m64) (FX.fin (p.getD r 0)) (FX.fin (w.getD r 0))) :
    FX m32).val

/-- C94, restricted as `C94_leaf_partial`, for the trees of a booster without sampling, in terms of the loss
at the predictions `p` of the earlier trees.  A leaf which is not as deep as allowed, in a tree with fewer
leaves than allowed, cannot be improved by more than half of `gamma` by a split at a value `v` of a column
without missing values, if both sides are heavy enough. -/
theorem C94_booster_partial {R : Type} {env : Env R (FX m32) (FX m64)} {b b' : Booster (FX m32) (FX m64)}
    {y : List K} {ev : Option (List (EvalSet (FX m64)))} {l1 l2 mds lr γ μ : K}
    (h : PlainFit env b X y w ev b' l1 l2 mds lr) (hs : b.sampleMethod = .none)
    (hb : b.createMissingBranch = false) (hc : b.monotoneConstraints = none)
    (hcol : (b.colsampleBytree =ᶠ 1) = true) (hl1 : 0 ≤ l1) (hmds : 0 ≤ mds) (hγ : b.gamma = FX.fin γ)
    (hμ : b.minLeafWeight = FX.fin μ) {k : Nat} (hk : k < b'.trees.length) :
    ∃ p : List K, ({ b' with predictionIteration := some k }).predict X = .ok (p.map FX.fin) ∧
      ∀ g hh, g = rowGrad b.objectiveType m32 m64 y w p → hh = rowHess b.objectiveType m32 m64 y w p →
      b'.trees[k].leafCount < b.maxLeaves → ∀ i n, b'.trees[k].nodes[i]? = some n → n.isLeaf = true →
      n.depth < b.maxDepth → (i ≠ 0 ∨ l1 = 0 ∧ mds = 0) →
      ∀ feature, Resolved X b.missing b.nbins feature → ∀ r0 < X.rows, ∀ v, X.entry r0 feature = some v →
      ∀ here L R, here = rowsAt b'.trees[k] X b.missing (List.range y.length) i →
        L = sideRows X b.missing feature v .left here → R = sideRows X b.missing feature v .right here →
        μ ≤ (L.map hh).sum → μ ≤ (R.map hh).sum →
        ∀ x xl xr, IsStep l1 l2 mds (here.map g).sum (here.map hh).sum x →
          IsStep l1 l2 mds (L.map g).sum (L.map hh).sum xl →
          IsStep l1 l2 mds (R.map g).sum (R.map hh).sum xr →
          regObj 0 l2 (here.map g).sum (here.map hh).sum x - γ / 2 ≤
            regObj 0 l2 (L.map g).sum (L.map hh).sum xl + regObj 0 l2 (R.map g).sum (R.map hh).sum xr := by
  obtain ⟨p, p', binned, cfg, v, h1, h2, hA, hadd, hval, hgh⟩ := booster_round h hs hk
  refine ⟨p, h1, ?_⟩
  rintro g hh rfl rfl hleaves i n hn hleaf hdepth hroot feature hres r0 hr0 u hu here L R hhere hL hR hLμ hRμ x xl xr
    hx hxl hxr
  have hF := hA.treeAt.fitted
  have hsp : b.splitter = .imputer b.splitter.params := by
    unfold Booster.splitter
    simp [hb, Splitter.params]
  have hsub : ∀ r ∈ here, r < y.length := fun r hr => by
    rw [hhere] at hr; exact List.mem_range.1 (List.mem_filter.1 hr).1
  have eg : ∀ A : List Nat, (∀ r ∈ A, r ∈ here) →
      (A.map (rowGrad b.objectiveType m32 m64 y w p)) = A.map (rowVals cfg.train.grad) ∧
      (A.map (rowHess b.objectiveType m32 m64 y w p)) = A.map (rowVals cfg.train.hess) := by
    intro A hA'
    exact ⟨List.map_congr_left fun r hr => ((hgh r (hsub r (hA' r hr))).1).symm,
      List.map_congr_left fun r hr => ((hgh r (hsub r (hA' r hr))).2).symm⟩
  obtain ⟨e1, e2⟩ := eg here fun _ hr => hr
  obtain ⟨e3, e4⟩ := eg L fun r hr => by rw [hL] at hr; exact (List.mem_filter.1 hr).1
  obtain ⟨e5, e6⟩ := eg R fun r hr => by rw [hR] at hr; exact (List.mem_filter.1 hr).1
  rw [e1, e2] at hx
  rw [e3, e4] at hxl
  rw [e5, e6] at hxr
  rw [e4] at hLμ
  rw [e6] at hRμ
  rw [e1, e2, e3, e4, e5, e6]
  obtain ⟨cu, hcu, hinc, hcov⟩ := hres.cuts hA.trained
  obtain ⟨x', j, hx', hm', _, hj, hjx⟩ := hcov r0 hr0
  rw [hu] at hx'; cases hx'
  have hmem : feature ∈ cfg.train.colIndex := by
    obtain ⟨r1, r2, hc'⟩ := hF.columns
    unfold sampleColumns at hc'
    rw [if_pos hcol] at hc'
    rw [← (Prod.mk.inj hc').1]
    exact List.mem_range.2 hres.lt
  have hM : sideRows X b.missing feature u .missing here = [] := by
    unfold sideRows
    refine List.filter_eq_nil_iff.2 fun r hr => ?_
    obtain ⟨x', _, hx', hm', _⟩ := hcov r (by rw [← h.ylen]; exact hsub r hr)
    rw [hx', Option.any_some, decide_eq_true_eq]
    unfold rawSide
    rw [if_neg hm']
    split <;> simp
  refine C94_leaf_partial hA.trained hF.fit hA.params hl1 hmds (hF.splitter.trans hsp) ?_
    (by rw [hF.splitter, splitter_params]; exact hγ) (by rw [hF.splitter, splitter_params]; exact hμ)
    (by rw [hF.maxLeaves]; exact hleaves) hn hleaf (by rw [hF.maxDepth]; exact hdepth) hroot
    ⟨hmem, cu, j, hcu, hj, hjx⟩ here L R [] hhere hL hR hM.symm hLμ hRμ L R (.inr ⟨rfl, by simp⟩) x xl xr hx hxl hxr
  intro f
  rw [hF.splitter, splitter_params]
  simp [SplitParams.getConstraint, Booster.constraintsMap, hc, noConstraint]

end

/-- One column with two values. -/
def stuckX : Matrix Q := { data := [q 0, q 0, q 0, q 1, q 1, q 1], rows := 6, cols := 1 }

/-- Targets: far above 0 and slightly above 0. -/
def stuckY : List ℚ := [4, 4, 4, 1 / 2, 1 / 2, 1 / 2]

/-- Steps are limited to 1. -/
def stuckBooster (mds : ℚ) : Booster Q Q :=
  { exFresh with maxDeltaStep := q mds, learningRate := q 1, iterations := 1
                 initializeBaseScore := false, baseScore := q 0, createMissingBranch := false }

theorem stuckX_resolved {nbins : Nat} (h : 1 ≤ nbins) : Resolved stuckX FX.nan nbins 0 := by
  have hv : ∀ i < 6, ∀ x, stuckX.entry i 0 = some x → x = q 0 ∨ x = q 1 := by
    intro i hi x hx
    have : i = 0 ∨ i = 1 ∨ i = 2 ∨ i = 3 ∨ i = 4 ∨ i = 5 := by omega
    rcases this with rfl | rfl | rfl | rfl | rfl | rfl <;> cases hx <;> simp
  refine ⟨by decide, fun i hi x hx => ?_, fun l hl hl' => ?_⟩
  · rcases hv i hi x hx with rfl | rfl <;> decide +kernel
  · have hnd : l.Nodup := hl.imp fun {a b} hab e => by
      rw [e, Fl.OrdLaws.lt_irrefl] at hab; cases hab
    have hsub : l ⊆ [q 0, q 1] := by
      intro x hx
      obtain ⟨i, hi, e⟩ := hl' x hx
      rcases hv i hi x e with rfl | rfl <;> simp
    have := (List.subperm_of_subset hnd hsub).length_le
    simp at this
    omega

/-- **C94** is false at the root when steps are limited (and likewise when `l1` is used): the score of the root
is computed without the limit, so splits are compared to a gain that the root's value does not attain.  The
tree is a single leaf with value 1 and objective -21/2, although splitting it at 1 would give values 1 and 1/2
and the objective -87/8. -/
theorem C94_false : ∃ b' n, PlainFit exEnv (stuckBooster 1) stuckX stuckY (List.replicate 6 (1 : ℚ)) none b' 0 0 1 1 ∧
    b'.trees.length = 1 ∧ (∀ t ∈ b'.trees, t.nodes = [n]) ∧ n.isLeaf = true ∧
    1 < (stuckBooster 1).maxLeaves ∧ n.depth < (stuckBooster 1).maxDepth ∧ (stuckBooster 1).gamma = q 0 ∧
    (stuckBooster 1).minLeafWeight = q 1 ∧ Resolved stuckX FX.nan (stuckBooster 1).nbins 0 ∧
    ∀ p g h, p = List.replicate 6 0 → g = rowGrad .squaredLoss ratFmt ratFmt stuckY (List.replicate 6 1) p →
      h = rowHess .squaredLoss ratFmt ratFmt stuckY (List.replicate 6 1) p →
      ({ b' with predictionIteration := some 0 }).predict stuckX = .ok (p.map FX.fin) ∧
      ∀ here L R : List Nat, here = List.range 6 →
        L = here.filter (fun r => (stuckX.entry r 0).any fun x => x <ᶠ q 1) →
        R = here.filter (fun r => (stuckX.entry r 0).any fun x => !(x <ᶠ q 1)) →
        1 ≤ (L.map h).sum ∧ 1 ≤ (R.map h).sum ∧
        ∃ x xl xr, IsStep 0 0 1 (here.map g).sum (here.map h).sum x ∧
          IsStep 0 0 1 (L.map g).sum (L.map h).sum xl ∧ IsStep 0 0 1 (R.map g).sum (R.map h).sum xr ∧
          regObj 0 0 (L.map g).sum (L.map h).sum xl + regObj 0 0 (R.map g).sum (R.map h).sum xr <
            regObj 0 0 (here.map g).sum (here.map h).sum x := by
  have : (match (stuckBooster 1).fit exEnv stuckX (stuckY.map q) (List.replicate 6 (q 1)) none with
    | .ok (b', .ok ()) => match b'.trees with
      | [t] => match t.nodes with
        | [n] => decide (n.isLeaf = true ∧ n.depth = 0 ∧
          ({ b' with predictionIteration := some 0 }).predict stuckX =
          .ok ((List.replicate 6 (0 : ℚ)).map FX.fin))
        | _ => false
      | _ => false
    | _ => false) = true := by decide +kernel
  split at this
  · rename_i b' hfit
    split at this
    · rename_i t ht
      split at this
      · rename_i n hn
        obtain ⟨h1, h2, h3⟩ := of_decide_eq_true this
        refine ⟨b', n, boundPlain rfl rfl rfl rfl le_rfl rfl rfl rfl rfl ⟨_, rfl⟩ rfl rfl rfl rfl
          (by decide +kernel) hfit, by rw [ht]; rfl, ?_, h1, by decide, by rw [h2]; decide, rfl, rfl,
          stuckX_resolved (by decide), ?_⟩
        · intro t' ht'
          rw [ht, List.mem_singleton] at ht'
          rw [ht', hn]
        · rintro p g h rfl rfl rfl
          refine ⟨h3, ?_⟩
          rintro here L R rfl rfl rfl
          have e1 : ((List.range 6).map (rowGrad .squaredLoss ratFmt ratFmt stuckY (List.replicate 6 1)
            (List.replicate 6 0))).sum = -27 / 2 := by decide +kernel
          have e2 : ((List.range 6).map (rowHess .squaredLoss ratFmt ratFmt stuckY (List.replicate 6 1)
            (List.replicate 6 0))).sum = 6 := by decide +kernel
          have e3 : (((List.range 6).filter (fun r => (stuckX.entry r 0).any fun x => x <ᶠ q 1)).map
            (rowGrad .squaredLoss ratFmt ratFmt stuckY (List.replicate 6 1) (List.replicate 6 0))).sum = -12 := by
            decide +kernel
          have e4 : (((List.range 6).filter (fun r => (stuckX.entry r 0).any fun x => x <ᶠ q 1)).map
            (rowHess .squaredLoss ratFmt ratFmt stuckY (List.replicate 6 1) (List.replicate 6 0))).sum = 3 := by
            decide +kernel
          have e5 : (((List.range 6).filter (fun r => (stuckX.entry r 0).any fun x => !(x <ᶠ q 1))).map
            (rowGrad .squaredLoss ratFmt ratFmt stuckY (List.replicate 6 1) (List.replicate 6 0))).sum = -3 / 2 := by
            decide +kernel
          have e6 : (((List.range 6).filter (fun r => (stuckX.entry r 0).any fun x => !(x <ᶠ q 1))).map
            (rowHess .squaredLoss ratFmt ratFmt stuckY (List.replicate 6 1) (List.replicate 6 0))).sum = 3 := by
            decide +kernel
          rw [e1, e2, e3, e4, e5, e6]
          refine ⟨by norm_num, by norm_num, _, _, _,
            stepK_isStep (by norm_num) le_rfl (by norm_num), stepK_isStep (by norm_num) le_rfl (by norm_num),
            stepK_isStep (by norm_num) le_rfl (by norm_num), ?_⟩
          decide +kernel
      · cases this
    · cases this
  · cases this

/-- No limit on the steps, but a split has to gain 30. -/
def lazyBooster : Booster Q Q := { stuckBooster 0 with gamma := q 30 }

/-- The hypotheses of `C94_booster_partial` are met: the gain of 147/8 is not worth a split, and the root
stays a leaf. -/
example : ∃ b', PlainFit exEnv lazyBooster stuckX stuckY (List.replicate 6 (1 : ℚ)) none b' 0 0 0 1 ∧
    lazyBooster.sampleMethod = .none ∧ lazyBooster.createMissingBranch = false ∧
    lazyBooster.monotoneConstraints = none ∧ (lazyBooster.colsampleBytree =ᶠ 1) = true ∧
    lazyBooster.gamma = FX.fin 30 ∧ lazyBooster.minLeafWeight = FX.fin 1 ∧
    (∃ t n, b'.trees = [t] ∧ t.leafCount < lazyBooster.maxLeaves ∧ t.nodes[0]? = some n ∧ n.isLeaf = true ∧
      n.depth < lazyBooster.maxDepth) ∧
    Resolved stuckX lazyBooster.missing lazyBooster.nbins 0 ∧ stuckX.entry 3 0 = some (q 1) ∧
    ∃ L R : List Nat, L = sideRows stuckX lazyBooster.missing 0 (q 1) .left (List.range 6) ∧
      R = sideRows stuckX lazyBooster.missing 0 (q 1) .right (List.range 6) ∧ L = [0, 1, 2] ∧ R = [3, 4, 5] := by
  have : (match lazyBooster.fit exEnv stuckX (stuckY.map q) (List.replicate 6 (q 1)) none with
    | .ok (b', .ok ()) => match b'.trees with
      | [t] => match t.nodes with
        | [n] => decide (n.isLeaf = true ∧ n.depth = 0)
        | _ => false
      | _ => false
    | _ => false) = true := by decide +kernel
  split at this
  · rename_i b' hfit
    split at this
    · rename_i t ht
      split at this
      · rename_i n hn
        obtain ⟨h1, h2⟩ := of_decide_eq_true this
        refine ⟨b', boundPlain rfl rfl rfl rfl le_rfl rfl rfl rfl rfl ⟨_, rfl⟩ rfl rfl rfl rfl
          (by decide +kernel) hfit, rfl, rfl, rfl, by decide +kernel, rfl, rfl,
          ⟨t, n, ht, ?_, by rw [hn]; rfl, h1, by rw [h2]; decide⟩, stuckX_resolved (by decide), rfl, _, _, rfl, rfl, ?_⟩
        · unfold Tree.leafCount
          rw [hn]
          exact lt_of_le_of_lt (List.length_filter_le _ _) (show 1 < lazyBooster.maxLeaves by decide)
        · have hm : ∀ x : Q, x = q 0 ∨ x = q 1 → ¬ IsMissing lazyBooster.missing x := by
            rintro x (rfl | rfl) <;> decide +kernel
          have h0 : (q 0 <ᶠ q 1) = true := by decide +kernel
          have h1 : (q 1 <ᶠ q 1) = false := by decide +kernel
          constructor <;>
            simp [sideRows, rawSide, List.range, List.range.loop, List.filter, stuckX, Matrix.entry, hm, h0, h1]
      · cases this
    · cases this
  · cases this

end Verif
