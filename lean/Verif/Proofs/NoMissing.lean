import Verif.Proofs.Finite
import Verif.Proofs.Twin
import Verif.Proofs.Prune
import Verif.Proofs.CopiesPick
import Verif.Proofs.Diverge

/-!
# Binary and ternary splits of data without missing values
-/

namespace Verif

open scoped Verif

set_option linter.unusedSectionVars false

section
variable {F D : Type} [Fl F] [Fl D] [FlCast F D] [Fl.OrdLaws F]

/-- Two nodes whose candidates correspond choose corresponding splits. -/
theorem bestSplit_match {s s' : Splitter F} {sn sn' : SNode F D} {cols : List Nat}
    {R : SplitInfo F D → SplitInfo F D → Prop} (hR : ∀ a b, R a b → b.splitGain = a.splitGain)
    (h1 : ∀ j i c, IsCandidate s sn cols j i c → ∃ c', IsCandidate s' sn' cols j i c' ∧ R c c')
    (h2 : ∀ j i c', IsCandidate s' sn' cols j i c' → ∃ c, IsCandidate s sn cols j i c ∧ R c c')
    {r r' : Option (SplitInfo F D)} (h : bestSplit s sn cols = .ok r) (h' : bestSplit s' sn' cols = .ok r') :
    (r = none ∧ r' = none) ∨ ∃ b b', r = some b ∧ r' = some b' ∧ R b b' := by
  cases r with
  | none =>
    cases r' with
    | none => exact .inl ⟨rfl, rfl⟩
    | some b' =>
      obtain ⟨hp, j, i, hc, _⟩ := bestSplit_best h'
      obtain ⟨c, c1, c2⟩ := h2 j i b' hc
      have := bestSplit_best h j i c c1
      rw [← hR _ _ c2, hp] at this; cases this
  | some b =>
    obtain ⟨hp, j, i, hc, hm⟩ := bestSplit_best h
    obtain ⟨c', c1, c2⟩ := h1 j i b hc
    cases r' with
    | none =>
      have := bestSplit_best h' j i c' c1
      rw [hR _ _ c2, hp] at this; cases this
    | some b' =>
      obtain ⟨hp', j', i', hc', hm'⟩ := bestSplit_best h'
      obtain ⟨d, d1, d2⟩ := h2 j' i' b' hc'
      refine .inr ⟨b, b', rfl, rfl, ?_⟩
      have hpos : (j', i') = (j, i) := by
        by_contra hne
        have e1 := (hm j' i' d d1)
        have e2 := (hm' j i c' c1)
        rcases (show PosLt (j', i') (j, i) ∨ PosLt (j, i) (j', i') by
          simp only [PosLt]
          simp only [Prod.mk.injEq] at hne
          omega) with hlt | hlt
        · have x := e1.2 hlt
          rw [← hR _ _ d2, ← hR _ _ c2, e2.1] at x; cases x
        · have x := e2.2 hlt
          rw [hR _ _ d2, hR _ _ c2, e1.1] at x; cases x
      cases hpos
      rw [IsCandidate.unique c1 hc']
      exact c2

/-- Rows without missing values never take the missing branch. -/
theorem leafFrom_twin_complete {M M' : List (Node F D)} {P : Nat → Nat → Prop}
    (hP : ∀ i i', P i i' → ∃ n n', M[i]? = some n ∧ M'[i']? = some n' ∧ n'.isLeaf = n.isLeaf ∧
      (n.isLeaf = true → n'.weightValue = n.weightValue) ∧
      (n.isLeaf = false → n'.splitFeature = n.splitFeature ∧ n'.splitValue = n.splitValue ∧
        P n.leftChild n'.leftChild ∧ P n.rightChild n'.rightChild))
    (get : Nat → Res D) (missing : D) (hget : ∀ f v, get f = .ok v → ¬ IsMissing missing v) :
    ∀ fuel fuel' i i', P i i' →
      leafFrom M get missing fuel i ≠ .diverge → leafFrom M' get missing fuel' i' ≠ .diverge →
      (leafFrom M get missing fuel i >>= fun n => Res.ok n.weightValue) =
        leafFrom M' get missing fuel' i' >>= fun n => .ok n.weightValue := by
  intro fuel
  induction fuel with
  | zero => intro fuel' i i' _ h; exact absurd rfl h
  | succ fuel ih =>
    intro fuel' i i' hp h h'
    cases fuel' with
    | zero => exact absurd rfl h'
    | succ fuel' =>
      obtain ⟨n, n', hn, hn', hl, hlw, hx⟩ := hP i i' hp
      have e : idx M i = .ok n := idx_eq_ok.2 hn
      have e' : idx M' i' = .ok n' := idx_eq_ok.2 hn'
      rw [leafFrom, e, Res.ok_bind] at h ⊢
      rw [leafFrom, e', Res.ok_bind] at h' ⊢
      cases hleaf : n.isLeaf with
      | true =>
        rw [if_pos (hl.trans hleaf), if_pos rfl, Res.ok_bind, Res.ok_bind, hlw hleaf]
      | false =>
        have hleaf' : n'.isLeaf = false := hl.trans hleaf
        obtain ⟨x1, x2, x3, x4⟩ := hx hleaf
        rw [if_neg (by simp [hleaf])] at h
        rw [if_neg (by simp [hleaf'])] at h'
        rw [if_neg (by simp), if_neg (by simp [hleaf'])]
        rw [x1] at h' ⊢
        cases hg : get n.splitFeature with
        | diverge => rw [hg] at h; exact absurd rfl h
        | panic => rfl
        | ok v =>
          rw [hg, Res.ok_bind] at h h'
          rw [Res.ok_bind, Res.ok_bind]
          unfold Node.getChildIdx at h h' ⊢
          rw [isMissing_eq] at h h' ⊢
          by_cases hr : Readable missing v
          · simp only [if_pos hr, decide_eq_false (hget _ _ hg), Res.ok_bind, Bool.false_eq_true, if_false]
              at h h' ⊢
            rw [x2] at h' ⊢
            refine ih _ _ _ ?_ h h'
            split
            · exact x3
            · exact x4
          · rw [if_neg hr]; rfl

end

section
variable {K : Type} [Field K] [LinearOrder K] [IsStrictOrderedRing K] {m32 m64 : Fmt K}
  [m32.Exact] [m64.Exact]

/-- The score of an empty missing branch is 0 when `l2` is 0. -/
theorem gainGivenWeight_empty {w : FX m32} (hw : ∃ x, w = FX.fin x) :
    gainGivenWeight (FX.fin 0) (FX.fin 0) (FX.fin 0) w = 0 := by
  obtain ⟨x, rfl⟩ := hw
  unfold gainGivenWeight
  rw [FX.ofNat_eq, FX.zero_def]
  simp only [FX.fin_mul, FX.fin_add, FX.neg_fin]
  congr 1
  simp

/-- Without missing rows the two splitters evaluate a candidate alike. -/
theorem evaluate_complete {bp : BranchParams (FX m32)} {l1 mds : K} (hl1 : bp.l1 = FX.fin l1)
    (hl2 : bp.l2 = FX.fin 0) (hmds : bp.maxDeltaStep = FX.fin mds)
    (hpos : (0 <ᶠ bp.minLeafWeight) = true) (hforce : bp.forceChildrenToBoundParent = false)
    {a : SplitArgs (FX m32)} {lg lh rg rh : K} (a1 : a.lg = FX.fin lg) (a2 : a.lh = FX.fin lh)
    (a3 : a.rg = FX.fin rg) (a4 : a.rh = FX.fin rh) (a5 : a.mg = FX.fin 0) (a6 : a.mh = FX.fin 0)
    (hpw : ValIn (fun _ => True) a.parentWeight) (hlo : LowIn (fun _ => True) a.lower)
    (hhi : HighIn (fun _ => True) a.upper) :
    (imputerEvaluateSplit bp.toSplitParams a = none ∧ branchEvaluateSplit bp a = .ok none) ∨
    ∃ l r mi, imputerEvaluateSplit bp.toSplitParams a = some (l, r, .right) ∧
      branchEvaluateSplit bp a = .ok (some (l, r, .leaf mi)) ∧ mi.gain = 0 := by
  have em : (!(a.mg =ᶠ 0) || !(a.mh =ᶠ 0)) = false := by
    rw [a5, a6, FX.zero_def, FX.feq_fin]; simp
  cases hc : (a.rh <ᶠ bp.minLeafWeight || a.lh <ᶠ bp.minLeafWeight) with
  | true =>
    left
    constructor
    · unfold imputerEvaluateSplit
      simp only [em, Bool.false_eq_true, if_false, hc, if_true]
      split
      · rfl
      · split <;> rfl
    · unfold branchEvaluateSplit branchChildWeights
      simp only [hforce, Bool.false_eq_true, if_false, Res.ok_bind, hc, if_true]
      split <;> rfl
  | false =>
    right
    simp only [Bool.or_eq_false_iff] at hc
    have p1 : 0 < rh := pos_of_cover hpos (by rw [← a4]; exact hc.1)
    have p2 : 0 < lh := pos_of_cover hpos (by rw [← a2]; exact hc.2)
    have z1 : (a.lh =ᶠ 0) = false := by
      rw [a2, FX.zero_def, FX.feq_fin]; simpa using p2.ne'
    have z2 : (a.rh =ᶠ 0) = false := by
      rw [a4, FX.zero_def, FX.feq_fin]; simpa using p1.ne'
    have hcw : ∀ x y, 0 < y → ValIn (fun _ => True) (bp.cw a (FX.fin x) (FX.fin y)) := by
      intro x y hy
      unfold SplitParams.cw
      rw [hl1, hl2, hmds]
      exact constrainedWeight_in (by linarith) trivial hlo hhi _
    have hB : Between fun _ : K => True := fun _ _ _ _ _ _ _ => trivial
    have hmw := branchMissingWeight_in hB hcw a1 a2 a3 a4 a5 a6 p2 p1 le_rfl hpw
      (by rw [a1, a2]; exact hcw lg lh p2) (by rw [a3, a4]; exact hcw rg rh p1)
      (lw := bp.cw a a.lg a.lh) (rw := bp.cw a a.rg a.rh)
    refine ⟨mkInfo a.lg (gainGivenWeight bp.l2 a.lg a.lh (bp.cw a a.lg a.lh)) a.lh (bp.cw a a.lg a.lh),
      mkInfo a.rg (gainGivenWeight bp.l2 a.rg a.rh (bp.cw a a.rg a.rh)) a.rh (bp.cw a a.rg a.rh),
      { grad := a.mg
        gain := gainGivenWeight bp.l2 a.mg a.mh
          (branchMissingWeight bp a (bp.cw a a.lg a.lh) (bp.cw a a.rg a.rh))
        cover := a.mh, weight := branchMissingWeight bp a (bp.cw a a.lg a.lh) (bp.cw a a.rg a.rh)
        lower := a.lower, upper := a.upper }, ?_, ?_, ?_⟩
    · unfold imputerEvaluateSplit
      simp only [Bool.false_eq_true, if_false, hc.1, hc.2, z1, z2, Bool.and_false,
        Bool.or_false, em, Bool.false_and]
    · unfold branchEvaluateSplit branchChildWeights
      simp only [hforce, Bool.false_eq_true, if_false, Res.ok_bind, hc.1, hc.2, z1, z2, Bool.and_false,
        Bool.or_false, em, Bool.false_and]
    · simp only
      rw [a5, a6, hl2]
      obtain ⟨x, hx, _⟩ := hmw
      rw [hx]
      exact gainGivenWeight_empty ⟨x, rfl⟩

/-! ### Nodes -/

variable {t : TrainData (FX m32) (FX m64)} {gv hv : Nat → K}

/-- The columns of a histogram matrix depend on the set of rows only. -/
theorem HistOf.getCol_eq {rows rows' : List Nat} {m m' : JaggedMatrix (Bin (FX m32) (FX m64))}
    (h : HistOf t gv hv rows m) (h' : HistOf t gv hv rows' m') (hp : rows.Perm rows') (j : Nat) :
    m'.getCol j = m.getCol j := by
  obtain ⟨hs, j1, f⟩ := h.perm hp
  obtain ⟨hs', j1', f'⟩ := h'
  have : hs = hs' := by
    clear j1 j1'
    generalize t.colIndex = ci at f f'
    induction f generalizing hs' with
    | nil => cases f'; rfl
    | cons a _ ih =>
      cases f' with
      | cons b bs =>
        obtain ⟨f1, c1, x1, x2, _, rfl⟩ := a
        obtain ⟨f2, c2, y1, y2, _, rfl⟩ := b
        rw [x1] at y1; cases y1
        rw [x2] at y2; cases y2
        rw [ih _ bs]
  rw [j1.getCol, j1'.getCol, this]

/-- Two nodes with the same content, of which neither is a missing leaf; the histograms are not compared. -/
structure SameNode (sn sn' : SNode (FX m32) (FX m64)) : Prop where
  weight : sn'.weightValue = sn.weightValue
  gain : sn'.gainValue = sn.gainValue
  grad : sn'.gradientSum = sn.gradientSum
  hess : sn'.hessianSum = sn.hessianSum
  depth : sn'.depth = sn.depth
  lower : sn'.lowerBound = sn.lowerBound
  upper : sn'.upperBound = sn.upperBound
  main : sn.isMissingLeaf = false
  main' : sn'.isMissingLeaf = false

/-- A split with two branches, and the same split with an additional empty branch for missing values. -/
def SameSplit (a b : SplitInfo (FX m32) (FX m64)) : Prop :=
  a.missingNode = .right ∧ ∃ mi, b = { a with missingNode := .leaf mi }

/-- No row has a missing value in a column that can be split. -/
def CompleteRows (t : TrainData (FX m32) (FX m64)) (rows : List Nat) : Prop :=
  ∀ col ∈ t.colIndex, ∀ f c, t.data.getCol col = .ok f → t.cuts.getCol col = .ok c → 2 ≤ c.length →
    ∀ r ∈ rows, f.getD r 0 ≠ 0

theorem rowsOn_missing_complete {f : List Nat} {split : Nat} {rows : List Nat}
    (h : ∀ r ∈ rows, f.getD r 0 ≠ 0) : rowsOn f split [.missing] rows = [] := by
  unfold rowsOn
  rw [List.filter_eq_nil_iff]
  intro r hr
  have := h r hr
  unfold binSide
  rw [if_neg this]
  split <;> simp

/-- Parameters for which an empty missing branch has no score. -/
structure NoScore (bp : BranchParams (FX m32)) (l1 mds : K) : Prop where
  l1_eq : bp.l1 = FX.fin l1
  l2_eq : bp.l2 = FX.fin 0
  mds_eq : bp.maxDeltaStep = FX.fin mds
  pos : (0 <ᶠ bp.minLeafWeight) = true
  free : bp.forceChildrenToBoundParent = false

theorem evalCandidate_complete {bp : BranchParams (FX m32)} {l1 mds : K} (hb : NoScore bp l1 mds)
    {sn sn' : SNode (FX m32) (FX m64)} {rows rows' : List Nat} (hN : NodeSums t gv hv sn rows)
    (hs : SameNode sn sn') (hlt : ∀ r ∈ rows, r < t.data.rows)
    (hcomp : CompleteRows t rows) (hst : StateIn (fun _ => True) sn) {j i feature : Nat}
    {missing bin : Bin (FX m32) (FX m64)} {bins : List (Bin (FX m32) (FX m64))}
    (h1 : t.colIndex[j]? = some feature) (h2 : sn.histograms.getCol j = .ok (missing :: bins))
    (h3 : bins[i]? = some bin) (ct : Option Constraint) :
    (evalCandidate (.imputer bp.toSplitParams) sn feature ct missing bin i (gradSum (bins.take i))
        (hessSum (bins.take i)) = .ok none ∧
      evalCandidate (.branch bp) sn' feature ct missing bin i (gradSum (bins.take i))
        (hessSum (bins.take i)) = .ok none) ∨
    ∃ a b, evalCandidate (.imputer bp.toSplitParams) sn feature ct missing bin i (gradSum (bins.take i))
        (hessSum (bins.take i)) = .ok (some a) ∧
      evalCandidate (.branch bp) sn' feature ct missing bin i (gradSum (bins.take i))
        (hessSum (bins.take i)) = .ok (some b) ∧ SameSplit a b := by
  obtain ⟨f, c, e1, e2, e3, e4, e5, e6⟩ := candidate_args hN hs.main hlt h1 h2 h3
  have hnil := rowsOn_missing_complete (split := i + 1)
    (hcomp feature (List.mem_of_getElem? h1) f c e1 e2 (by omega))
  have key := evaluate_complete hb.l1_eq hb.l2_eq hb.mds_eq hb.pos hb.free
    (a := candArgs sn f (i + 1) gv hv rows ct) rfl rfl rfl rfl (by simp [candArgs, hnil, rowSum])
    (by simp [candArgs, hnil, rowSum]) hst.weight hst.low hst.high
  rw [e6 ct] at key
  unfold evalCandidate
  simp only [hs.weight, hs.grad, hs.hess, hs.lower, hs.upper, Splitter.evaluateSplit]
  rcases key with ⟨k1, k2⟩ | ⟨l, r, mi, k1, k2, k3⟩
  · left
    rw [k1, k2]
    exact ⟨rfl, rfl⟩
  · rw [k1, k2]
    simp only [Res.ok_bind]
    have hg : sn'.getSplitGain l r (.leaf mi) (Splitter.branch bp).params.gamma =
        sn.getSplitGain l r .right (Splitter.imputer bp.toSplitParams).params.gamma := by
      unfold SNode.getSplitGain
      simp only [k3, hs.gain]
      rfl
    rw [hg]
    generalize cullGain (sn.getSplitGain l r .right (Splitter.imputer bp.toSplitParams).params.gamma)
      l.weight r.weight ct = x
    cases hx : (x ≤ᶠ 0) with
    | true => left; simp
    | false =>
      right
      simp only [Bool.false_eq_true, if_false]
      exact ⟨_, _, rfl, rfl, rfl, mi, rfl⟩

/-- Without missing rows the two splitters choose the same split. -/
theorem bestSplit_complete {bp : BranchParams (FX m32)} {l1 mds : K} (hb : NoScore bp l1 mds)
    {sn sn' : SNode (FX m32) (FX m64)} {rows rows' : List Nat} (hN : NodeSums t gv hv sn rows)
    (hN' : NodeSums t gv hv sn' rows') (hp : rows.Perm rows') (hs : SameNode sn sn')
    (hlt : ∀ r ∈ rows, r < t.data.rows) (hcomp : CompleteRows t rows)
    (hst : StateIn (fun _ => True) sn) {r r' : Option (SplitInfo (FX m32) (FX m64))}
    (h : bestSplit (.imputer bp.toSplitParams) sn t.colIndex = .ok r)
    (h' : bestSplit (.branch bp) sn' t.colIndex = .ok r') :
    (r = none ∧ r' = none) ∨ ∃ b b', r = some b ∧ r' = some b' ∧ SameSplit b b' := by
  have hcol := (hN.hist hs.main).getCol_eq (hN'.hist hs.main') hp
  refine bestSplit_match (R := SameSplit) ?_ ?_ ?_ h h'
  · rintro a b ⟨_, mi, rfl⟩; rfl
  · rintro j i c ⟨feature, missing, bins, bin, a1, a2, a3, a4⟩
    rcases evalCandidate_complete (rows' := rows') hb hN hs hlt hcomp hst a1 a2 a3
      (bp.toSplitParams.getConstraint feature) with ⟨k1, _⟩ | ⟨a, b, k1, k2, k3⟩
    · rw [show (Splitter.imputer bp.toSplitParams).params = bp.toSplitParams from rfl, k1] at a4; cases a4
    · rw [show (Splitter.imputer bp.toSplitParams).params = bp.toSplitParams from rfl, k1] at a4; cases a4
      exact ⟨b, ⟨feature, missing, bins, bin, a1, (hcol j).trans a2, a3, k2⟩, k3⟩
  · rintro j i c ⟨feature, missing, bins, bin, a1, a2, a3, a4⟩
    rw [hcol j] at a2
    rcases evalCandidate_complete (rows' := rows') hb hN hs hlt hcomp hst a1 a2 a3
      (bp.toSplitParams.getConstraint feature) with ⟨_, k1⟩ | ⟨a, b, k1, k2, k3⟩
    · rw [show (Splitter.branch bp).params = bp.toSplitParams from rfl, k1] at a4; cases a4
    · rw [show (Splitter.branch bp).params = bp.toSplitParams from rfl, k2] at a4; cases a4
      exact ⟨a, ⟨feature, missing, bins, bin, a1, a2, a3, k1⟩, k3⟩

/-! ### Trees -/

variable {S : Sorter} {X : Matrix (FX m64)} {w : List K} {nbins : Nat} {missing : FX m64}
  {c c' : GrowCfg (FX m32) (FX m64)} {sm : SampleMethod} {rows : List Nat}

theorem TrainedOn.completeRows (h : TrainedOn S X w nbins missing gv hv c sm rows)
    (hX : ∀ v ∈ X.data, ¬ IsMissing missing v) {rs : List Nat} (hr : ∀ r ∈ rs, r < c.train.data.rows) :
    CompleteRows c.train rs := by
  intro col hcol f cu hf hc hlen r hrs
  obtain ⟨v, v1, _, _, v4⟩ := h.rawOk col hcol f cu hf hc r (hr r hrs)
  exact (v4 (hX v (Matrix.entry_mem v1)) hlen).1

/-- A binary tree and a ternary tree for data without missing values lead complete rows to the same values. -/
theorem fit_complete_twin {bp : BranchParams (FX m32)} {l1 mds lr : K} (hb : NoScore bp l1 mds)
    (hs : c.splitter = .imputer bp.toSplitParams) (hs' : c'.splitter = .branch bp)
    (ht : c'.train = c.train) (hd : c'.maxDepth = c.maxDepth)
    (hT : TrainedOn S X w nbins missing gv hv c sm rows) (hX : ∀ v ∈ X.data, ¬ IsMissing missing v)
    (hP : PlainParams c hv rows l1 0 mds lr) {t t' : Tree (FX m32) (FX m64)}
    (h : Tree.fit c sm rows = .ok t) (h' : Tree.fit c' sm rows = .ok t')
    (hl : t.nodes.countP Node.isLeaf < c.maxLeaves) (hl' : t'.nodes.countP Node.isLeaf < c'.maxLeaves)
    (get : Nat → Res (FX m64)) (hg : ∀ f, get f ≠ .diverge)
    (hget : ∀ f v, get f = .ok v → ¬ IsMissing missing v) :
    (leafFrom t.nodes get missing t.nodes.length 0 >>= fun n => Res.ok n.weightValue) =
      leafFrom t'.nodes get missing t'.nodes.length 0 >>= fun n => .ok n.weightValue := by
  have hpar : c'.splitter.params = c.splitter.params := by rw [hs, hs']; rfl
  have hT' : TrainedOn S X w nbins missing gv hv c' sm rows :=
    { sorter := hT.sorter, shaped := hT.shaped, weights := hT.weights, nonneg := hT.nonneg
      max := hT.max, binned := by rw [ht]; exact hT.binned, sorted := by rw [ht]; exact hT.sorted
      cols := by rw [ht]; exact hT.cols, grad := by rw [ht]; exact hT.grad
      hess := by rw [ht]; exact hT.hess, pos := by rw [hpar]; exact hT.pos
      rows_lt := hT.rows_lt, nodup := hT.nodup, full := by rw [ht]; exact hT.full }
  have hw := Tree.fit_wf h
  have hw' := Tree.fit_wf h'
  obtain ⟨o, gs, N, hV, ho⟩ := hT.view_open h
  obtain ⟨o', gs', N', hV', ho'⟩ := hT'.view_open h'
  have hlr : c'.splitter.params.learningRate = c.splitter.params.learningRate := by rw [hpar]
  have hst := hV.stateIn hT hP (B := fun _ => True) (fun _ _ _ _ _ _ _ => trivial) fun _ _ _ => trivial
  obtain ⟨g0, a1, a2, n0, hi0, a3⟩ := hV.root
  obtain ⟨g0', b1, b2, n0', hi0', b3⟩ := hV'.root
  have hwN' : Tree.Wf (⟨N'⟩ : Tree (FX m32) (FX m64)) :=
    hV'.cert.wf (.refl _) (List.getElem?_eq_some_iff.1 b1).1
  -- values of leaves outside the missing branches
  have hval : ∀ (i' : Nat) (n n' : Node (FX m32) (FX m64)), N'[i']? = some n → t'.nodes[i']? = some n' →
      n.isLeaf = true → (∀ q, ¬ IsMissingChild N' q i') → n'.weightValue = n.weightValue := by
    intro i' n n' hn hn' hleaf hq
    rcases cleanUpSplits_value hV'.clean hwN' hV'.cert.ternary with e | ⟨_, e⟩
    · rw [e, hn] at hn'; cases hn'; rfl
    · rcases e i' n n' hn hn' with ⟨_, _, e⟩ | ⟨e | ⟨q, e⟩, _⟩
      · exact e
      · rw [hleaf] at e; cases e
      · exact absurd e (hq q)
  have hclean : t.nodes = N := by
    have := hV.clean
    rw [hs] at this
    simp only [cleanUpSplits, Res.ok.injEq] at this
    exact this.symm
  refine leafFrom_twin_complete (P := fun i i' => ∃ g g', gs[i]? = some g ∧ gs'[i']? = some g' ∧
      SameNode g.sn g'.sn ∧ g.rows.Perm g'.rows ∧ ∀ q, ¬ IsMissingChild N' q i') ?_ get missing hget
    _ _ _ _ ⟨g0, g0', a1, b1, ?_, ?_, ?_⟩ ?_ ?_
  · rintro i i' ⟨g, g', hgi, hgi', hsame, hperm, hq⟩
    obtain ⟨n, hn, hnn, hnl⟩ := hV.cert.nodeOf hgi
    obtain ⟨n1', hn1', hnn', hnl'⟩ := hV'.cert.nodeOf hgi'
    obtain ⟨w', hn'⟩ := hV'.shape.2 i' n1' hn1'
    have hN := hV.sums i g hgi
    have hN' := hV'.sums i' g' hgi'
    rw [ht] at hN'
    have hltr := hV.lt i g hgi
    have hcomp := hT.completeRows hX hltr
    have hbest := fun r r' => @bestSplit_complete _ _ _ _ _ _ _ _ c.train gv hv bp l1 mds hb g.sn g'.sn
      g.rows g'.rows hN hN' hperm hsame hltr hcomp (hst i g hgi) r r'
    have hiso : n1'.isLeaf = n.isLeaf := by
      cases hgn : g.info with
      | none =>
        cases hgn' : g'.info with
        | none => rw [hnl'.2 hgn', hnl.2 hgn]
        | some p =>
          exfalso
          obtain ⟨info', k'⟩ := p
          obtain ⟨kids', hS'⟩ := hV'.cert.split i' g' info' k' hgi' hgn'
          rcases (hV.cert.leaf i g hgi hgn).2 with x | x | x | x
          · have := ho _ x; omega
          · rw [hsame.main] at x; cases x
          · have := hS'.depth
            rw [hsame.depth, hd] at this; omega
          · have y := hS'.best
            rw [hs', ht] at y
            rw [hs] at x
            rcases hbest _ _ x y with ⟨_, z⟩ | ⟨_, _, z, _⟩ <;> cases z
      | some p =>
        obtain ⟨info, k⟩ := p
        obtain ⟨kids, hS⟩ := hV.cert.split i g info k hgi hgn
        have e1 : n.isLeaf = false := by
          cases e : n.isLeaf with
          | false => rfl
          | true => rw [hnl.1 e] at hgn; cases hgn
        rw [e1]
        cases e : n1'.isLeaf with
        | false => rfl
        | true =>
          exfalso
          rcases (hV'.cert.leaf i' g' hgi' (hnl'.1 e)).2 with x | x | x | x
          · have := ho' _ x; omega
          · rw [hsame.main'] at x; cases x
          · have := hS.depth
            rw [hsame.depth, hd] at x; omega
          · have y := hS.best
            rw [hs', ht] at x
            rw [hs] at y
            rcases hbest _ _ y x with ⟨z, _⟩ | ⟨_, _, _, z, _⟩ <;> cases z
    rw [hclean]
    refine ⟨n, { n1' with weightValue := w' }, hn, hn', hiso, ?_, ?_⟩
    · intro hleaf
      have := hval i' n1' _ hn1' hn' (hiso.trans hleaf) hq
      rw [this, hnn'.weight, hnn.weight, hsame.weight, hlr]
    · intro hleaf
      obtain ⟨g1, info, k, kids, hI⟩ := hV.cert.internal (.refl _) hn hleaf
      obtain ⟨g1', info', k', kids', hI'⟩ := hV'.cert.internal (.refl _) hn1' (hiso.trans hleaf)
      have := hI.ghost; rw [hgi] at this; cases this
      have := hI'.ghost; rw [hgi'] at this; cases this
      have hsplit : SameSplit info info' := by
        have x := hI.isSplit.best
        have y := hI'.isSplit.best
        rw [hs] at x
        rw [hs', ht] at y
        rcases hbest _ _ x y with ⟨z, _⟩ | ⟨u, v, z1, z2, z3⟩
        · cases z
        · cases z1; cases z2; exact z3
      obtain ⟨hright, mi, rfl⟩ := hsplit
      obtain ⟨f, cu, b, mr, hF⟩ := splitFacts hT.trainOk hT.pos hI.isSplit hN hltr
      obtain ⟨f', cu', b', mr', hF'⟩ := splitFacts hT'.trainOk hT'.pos hI'.isSplit (hV'.sums i' g' hgi')
        (hV'.lt i' g' hgi')
      have hff : f' = f := by
        have := hF'.col
        rw [ht] at this
        have e := hF.col
        simp only at this
        rw [e] at this; cases this; rfl
      have hbb : b' = b := by
        have x := hF.bin
        have y := hF'.bin
        simp only at y
        omega
      subst hff hbb
      have hmr : mr = true := by
        have := hF.goes _ hs
        rw [hright] at this
        cases this; rfl
      subst hmr
      have hk := hF.kids
      have hk' := hF'.kids
      rw [hs] at hk
      rw [hs'] at hk'
      simp only [kidSides, leftSides, rightSides, if_true] at hk hk'
      have hnil : ∀ r ∈ g.rows, f'.getD r 0 ≠ 0 :=
        hcomp _ hF.mem _ _ hF.col hF.cuts (by have := hF.lt; omega)
      have hrr : rowsOn f' (b' + 1) [.missing, .right] g.rows = rowsOn f' (b' + 1) [.right] g.rows := by
        unfold rowsOn
        apply List.filter_congr
        intro r hr
        unfold binSide
        rw [if_neg (hnil r hr)]
        split <;> rfl
      have hfl := kidsOf_fresh hI.isSplit.kids_eq
      have hfl' := kidsOf_fresh hI'.isSplit.kids_eq
      obtain ⟨gl, gr, x1, x2, x3, x4, x5, x6, _⟩ := hI.sides
      obtain ⟨gl', gr', y1, y2, y3, y4, y5, y6, _⟩ := hI'.sides
      have el := hI.left
      have er := hI.right
      have el' := hI'.left
      have er' := hI'.right
      have em' := hI'.missing
      rw [hs] at el er
      rw [hs'] at el' er' em'
      simp only [Splitter.links] at el er el' er' em'
      have hK := hI.isSplit.kid
      have hK' := hI'.isSplit.kid
      obtain ⟨kl, _, p1, hk1, rfl⟩ := List.forall₂_cons_right_iff.1 hk
      obtain ⟨kr, _, p2, hk2, rfl⟩ := List.forall₂_cons_right_iff.1 hk1
      obtain rfl := List.forall₂_nil_right_iff.1 hk2
      obtain ⟨km', _, q0, hk1', rfl⟩ := List.forall₂_cons_right_iff.1 hk'
      obtain ⟨kl', _, q1, hk2', rfl⟩ := List.forall₂_cons_right_iff.1 hk1'
      obtain ⟨kr', _, q2, hk3', rfl⟩ := List.forall₂_cons_right_iff.1 hk2'
      obtain rfl := List.forall₂_nil_right_iff.1 hk3'
      have child : ∀ (j j' : Nat) (kd kd' : Kid (FX m32) (FX m64)) (s : List BinSide)
          (u u' : Ghost (FX m32) (FX m64)) (nf : NodeInfo (FX m32)),
          [kl, kr][j]? = some kd → [km', kl', kr'][j']? = some kd' → 0 < j' → j' < 3 →
          kd.rows.Perm (rowsOn f' (b' + 1) s g.rows) → kd'.rows.Perm (rowsOn f' (b' + 1) s g'.rows) →
          gs[k + j]? = some u → gs'[k' + j']? = some u' → u.sn.Holds nf → u'.sn.Holds nf →
          u.sn.isMissingLeaf = false → u'.sn.isMissingLeaf = false →
          n1'.IsChild (k' + j') →
          ∃ g g', gs[k + j]? = some g ∧ gs'[k' + j']? = some g' ∧ SameNode g.sn g'.sn ∧
            g.rows.Perm g'.rows ∧ ∀ q, ¬ IsMissingChild N' q (k' + j') := by
        intro j j' kd kd' s u u' nf hj hj' h0 h3 r1 r2 hu hu' hh hh' hm hm' hch
        obtain ⟨v, v1, v2, v3, _⟩ := hK j kd hj
        rw [hu] at v1; cases v1
        obtain ⟨v', v1', v2', v3', _⟩ := hK' j' kd' hj'
        rw [hu'] at v1'; cases v1'
        refine ⟨u, u', hu, hu', ⟨?_, ?_, ?_, ?_, ?_, ?_, ?_, hm, hm'⟩, ?_, ?_⟩
        · rw [hh'.weight, hh.weight]
        · rw [hh'.gain, hh.gain]
        · rw [hh'.grad, hh.grad]
        · rw [hh'.cover, hh.cover]
        · rw [v2', v2]
          simp only
          rw [(hfl' kd' (List.mem_of_getElem? hj')).2, (hfl kd (List.mem_of_getElem? hj)).2, hsame.depth]
        · rw [hh'.lower, hh.lower]
        · rw [hh'.upper, hh.upper]
        · rw [v3, v3']
          exact r1.trans ((hperm.filter _).trans r2.symm)
        · rintro q ⟨np, z1, z2, z3⟩
          have := hwN'.parent_unique q i' np n1' (k' + j') z1 hn1' ⟨z2, .inr (.inr z3.symm)⟩ hch
          subst this
          rw [hn1'] at z1; cases z1
          omega
      have hnl1 : n1'.isLeaf = false := hiso.trans hleaf
      refine ⟨hI'.feature.trans hI.feature.symm, hI'.value.trans hI.value.symm, ?_, ?_⟩
      · show ∃ g g', gs[n.leftChild]? = some g ∧ gs'[n1'.leftChild]? = some g' ∧ _ ∧ _ ∧
          ∀ q, ¬ IsMissingChild N' q n1'.leftChild
        have hch : n1'.IsChild n1'.leftChild := ⟨hnl1, .inl rfl⟩
        rw [el] at x1 ⊢
        rw [el'] at y1 hch ⊢
        exact child 0 1 kl kl' [.left] gl gl' _ rfl rfl (by omega) (by omega) p1.1 q1.1 x1 y1 x3 y3 x5 y5 hch
      · show ∃ g g', gs[n.rightChild]? = some g ∧ gs'[n1'.rightChild]? = some g' ∧ _ ∧ _ ∧
          ∀ q, ¬ IsMissingChild N' q n1'.rightChild
        have hch : n1'.IsChild n1'.rightChild := ⟨hnl1, .inr (.inl rfl)⟩
        rw [er] at x2 ⊢
        rw [er'] at y2 hch ⊢
        exact child 1 2 kr kr' [.right] gr gr' _ rfl rfl (by omega) (by omega) (hrr ▸ p2.1) q2.1 x2 y2 x4 y4 x6 y6 hch
  · rw [a3, b3, hpar]
    exact ⟨rfl, rfl, rfl, rfl, rfl, rfl, rfl, rfl, rfl⟩
  · rw [a2, b2]
  · rintro q ⟨np, h1, h2, h3⟩
    have := (hwN'.child q np 0 h1 ⟨h2, .inr (.inr h3.symm)⟩).1
    omega
  · exact leafFrom_ne_diverge hw hg missing _ _ (List.length_pos_iff.2 hw.nonempty) (by omega)
  · exact leafFrom_ne_diverge hw' hg missing _ _ (List.length_pos_iff.2 hw'.nonempty) (by omega)

end

end Verif
