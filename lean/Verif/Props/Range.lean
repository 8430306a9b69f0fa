import Verif.Props.SquaredLoss
import Verif.Props.Objective
import Verif.Props.TotalAny

/-!
# C78, C79: every leaf has training rows, and one tree predicts between the targets

Both hold in exact arithmetic and fail in `f32` and `f64`, where the same small data set with one heavy row
refutes them.
-/

namespace Verif

open scoped Verif

set_option linter.unusedSectionVars false

section
variable {K : Type} [Field K] [LinearOrder K] [IsStrictOrderedRing K] {m32 m64 : Fmt K}
  [m32.Exact] [m64.Exact]

variable {S : Sorter} {X : Matrix (FX m64)} {w : List K} {nbins : Nat} {missing : FX m64}
  {gv hv : Nat → K} {c : GrowCfg (FX m32) (FX m64)} {sm : SampleMethod} {rows : List Nat}
  {t : Tree (FX m32) (FX m64)}

/-- A node other than the root that is not reserved for missing values has a cover above 0. -/
theorem cover_pos (h : TrainedOn S X w nbins missing gv hv c sm rows) (hf : Tree.fit c sm rows = .ok t)
    {i : Nat} (hi : i < t.nodes.length) (h0 : 0 < i) (hm : ¬ OnlyMissing t.nodes i) :
    0 < ((rowsAt t X missing rows i).map hv).sum := by
  obtain ⟨o, gs, nodes, hV⟩ := h.view hf
  obtain ⟨g, n0, hg, _⟩ := hV.node (List.getElem?_eq_getElem hi)
  obtain ⟨j, nj, gj, info, k, kids, _, hj, hjl, hI, hside⟩ := hV.main hg h0 hm
  rw [hV.rowSum h.nodup hg]
  have hs := (hV.sums i g hg).hess
  obtain ⟨b1, b2⟩ := bestSplit_cover hI.isSplit.best
  have key : (g.sn.hessianSum <ᶠ c.splitter.params.minLeafWeight) = false := by
    rcases hside with ⟨_, hh⟩ | ⟨_, hh⟩
    · rw [hh.cover]; exact b1
    · rw [hh.cover]; exact b2
  have hp := h.pos
  rw [hs] at key
  cases hc : c.splitter.params.minLeafWeight with
  | nan => rw [hc] at hp; cases hp
  | ninf => rw [hc] at hp; cases hp
  | pinf => rw [hc] at key; cases key
  | fin a =>
    rw [hc] at hp key
    simp only [FX.zero_def, FX.lt_fin, decide_eq_true_eq, decide_eq_false_iff_not, not_lt] at hp key
    exact hp.trans_le key

/-- **C78** (partial: exact arithmetic).  Every node of a fitted tree other than the root that is not
reserved for missing values is passed by a training row when the training data are predicted.  Full claim:
also for the arithmetic of the program; it is false, see `C78_counterexample`. -/
theorem C78_reached_partial {R : Type} {env : Env R (FX m32) (FX m64)} {b b' : Booster (FX m32) (FX m64)}
    {y : List K} {ev : Option (List (EvalSet (FX m64)))} {l1 l2 mds lr : K}
    (h : PlainFit env b X y w ev b' l1 l2 mds lr) (ht : t ∈ b'.trees) {i : Nat}
    (hi : i < t.nodes.length) (h0 : 0 < i) (hm : ¬ OnlyMissing t.nodes i) :
    ∃ r < X.rows, Reaches t.nodes (X.entry r) b.missing i := by
  obtain ⟨binned, p, k, cfg, rows, hA⟩ := h.tree_mem ht
  have hpos := cover_pos hA.trained hA.treeAt.fitted.fit hi h0 hm
  cases he : rowsAt t X b.missing rows i with
  | nil => rw [he] at hpos; simp at hpos
  | cons r rs =>
    have hr : r ∈ rowsAt t X b.missing rows i := by rw [he]; simp
    unfold rowsAt at hr
    rw [List.mem_filter] at hr
    exact ⟨r, hA.trained.rows_lt r hr.1, by simpa using hr.2⟩

/-- A regularised step does not go further than the single steps of its rows. -/
theorem IsStep.between {l1 l2 mds G H x lo hi : K} (h : IsStep l1 l2 mds G H x) (hH : 0 ≤ H)
    (hp : 0 < H + l2) (h2 : 0 ≤ l2) (h1 : 0 ≤ l1) (hm : 0 ≤ mds) (hlo : lo ≤ 0) (hhi : 0 ≤ hi)
    (a : lo * H ≤ -G) (b : -G ≤ hi * H) : lo ≤ x ∧ x ≤ hi := by
  rcases hH.eq_or_lt with h0 | h0
  · have hG : G = 0 := by rw [← h0] at a b; linarith
    have hz := h.least 0 (.inr (by simpa using hm))
    unfold regObj at hz
    rw [hG, ← h0] at hz
    rw [← h0, zero_add] at hp
    have a1 : 0 ≤ l1 * |x| := mul_nonneg h1 (abs_nonneg x)
    have a2 : l2 * x ^ 2 ≤ 0 := by simp at hz; linarith
    have a3 : x = 0 := by
      by_contra hx
      have : 0 < x ^ 2 := by positivity
      nlinarith
    exact ⟨a3 ▸ hlo, a3 ▸ hhi⟩
  · have hd := h.descent hH h2 h1
    constructor
    · by_contra hc
      rw [not_le] at hc
      have hx : x < 0 := hc.trans_le hlo
      have : H * x < H * lo := mul_lt_mul_of_pos_left hc h0
      have : 0 < x * (G + H * x) := mul_pos_of_neg_of_neg hx (by linarith)
      linarith [show x * (G + H * x) = G * x + H * x ^ 2 by ring]
    · by_contra hc
      rw [not_le] at hc
      have hx : 0 < x := hhi.trans_lt hc
      have : H * hi < H * x := mul_lt_mul_of_pos_left hc h0
      have : 0 < x * (G + H * x) := mul_pos hx (by linarith)
      linarith [show x * (G + H * x) = G * x + H * x ^ 2 by ring]

/-- The values of a tree without constraints lie between bounds for the single steps of the rows. -/
theorem tree_range (h : TrainedOn S X w nbins missing gv hv c sm rows)
    (hf : Tree.fit c sm rows = .ok t) {l1 l2 mds lr : K} (hP : PlainParams c hv rows l1 l2 mds lr)
    (hl1 : 0 ≤ l1) (hmds : 0 ≤ mds)
    (hno : ∀ f, noConstraint (c.splitter.params.getConstraint f) = true)
    {p : SplitParams (FX m32)} (hp : c.splitter = .imputer p) {lo hi : K} (hlo : lo ≤ 0) (hhi : 0 ≤ hi)
    (hr : ∀ r ∈ rows, lo * hv r ≤ -gv r ∧ -gv r ≤ hi * hv r) {i : Nat} {n : Node (FX m32) (FX m64)}
    (hn : t.nodes[i]? = some n) : ∃ x, n.weightValue = FX.fin (x * lr) ∧ lo ≤ x ∧ x ≤ hi := by
  obtain ⟨o, gs, nodes, hV⟩ := h.view hf
  have hi' := (List.getElem?_eq_some_iff.1 hn).1
  have hom := hV.no_onlyMissing hp i
  have hsub : ∀ r ∈ rowsAt t X missing rows i, r ∈ rows := fun r hr => (List.mem_filter.1 hr).1
  have hnn : 0 ≤ ((rowsAt t X missing rows i).map hv).sum := List.sum_nonneg (by
    intro x hx
    obtain ⟨r, hr, rfl⟩ := List.mem_map.1 hx
    exact hP.hess r (hsub r hr))
  have hpos : 0 < ((rowsAt t X missing rows i).map hv).sum + l2 := by
    rcases Nat.eq_zero_or_pos i with rfl | h0
    · have : rowsAt t X missing rows 0 = rows := by
        unfold rowsAt
        refine List.filter_eq_self.2 fun r _ => ?_
        simp only [decide_eq_true_eq]
        exact .root
      rw [this]
      exact hP.root
    · have := cover_pos h hf hi' h0 hom
      have := hP.l2_nonneg
      linarith
  obtain ⟨x, hx, hstep⟩ := C02_value h hf hP.l1_eq hP.l2_eq hP.mds_eq hP.lr_eq hl1 hmds hno
    (fun q hq => by rw [hp] at hq; cases hq) hn hom
    (fun ⟨q, hq, _⟩ => by rw [hp] at hq; cases hq) hpos
  refine ⟨x, hx, ?_⟩
  have hs : ∀ rs : List Nat, (∀ r ∈ rs, r ∈ rows) → lo * (rs.map hv).sum ≤ -(rs.map gv).sum ∧
      -(rs.map gv).sum ≤ hi * (rs.map hv).sum := by
    intro rs
    induction rs with
    | nil => intro _; simp
    | cons r rs ih =>
      intro hrs
      obtain ⟨a1, a2⟩ := ih fun q hq => hrs q (by simp [hq])
      obtain ⟨b1, b2⟩ := hr r (hrs r (by simp))
      simp only [List.map_cons, List.sum_cons, mul_add]
      constructor <;> linarith
  obtain ⟨a1, a2⟩ := hs _ hsub
  exact hstep.between hnn hpos hP.l2_nonneg hl1 hmds hlo hhi a1 a2

/-- **C79** (partial: exact arithmetic).  With SquaredLoss, a learning rate between 0 and 1, no sampling, no
monotone constraints and imputed missing values, the prediction with the first tree, for any row at all, lies
between any bounds for the base score and the targets.  Full claim: also for the arithmetic of the program; it
is false, see `C79_counterexample`. -/
theorem C79_range_partial {R : Type} {env : Env R (FX m32) (FX m64)} {b b' : Booster (FX m32) (FX m64)}
    {y : List K} {ev : Option (List (EvalSet (FX m64)))} {l1 l2 mds lr : K}
    (h : PlainFit env b X y w ev b' l1 l2 mds lr) (ho : b.objectiveType = .squaredLoss)
    (hs : b.sampleMethod = .none) (hc : b.monotoneConstraints = none) (hmb : b.createMissingBranch = false)
    (hl1 : 0 ≤ l1) (hmds : 0 ≤ mds) (hlr : 0 ≤ lr) (hlr1 : lr ≤ 1) {base lo hi : K}
    (hb : b'.baseScore = FX.fin base) (hlo : lo ≤ base) (hhi : base ≤ hi)
    (hy : ∀ z ∈ y, lo ≤ z ∧ z ≤ hi) (Z : Matrix (FX m64)) {out : List (FX m64)}
    (hout : ({ b' with predictionIteration := some 1 }).predict Z = .ok out) :
    out.length = Z.rows ∧ ∀ v ∈ out, ∃ x, v = FX.fin x ∧ lo ≤ x ∧ x ≤ hi := by
  obtain ⟨base', binned, st, stop, N, hT⟩ := Booster.fit_trace h.fit
  have hfin := hT.final
  unfold Booster.SameParams at hfin
  have hmis : b'.missing = b.missing := by rw [hfin]
  have hbase : base' = FX.fin base := by rw [← hb, hfin]
  subst hbase
  -- the first tree
  simp only [Booster.predict, Res.bind_eq_ok] at hout
  obtain ⟨ts, hts, hout⟩ := hout
  obtain ⟨hu, hts⟩ := predictionTrees_eq_ok.1 hts
  simp only [Booster.used] at hu hts
  obtain ⟨t, ht⟩ : ∃ t, b'.trees[0]? = some t := ⟨b'.trees[0], List.getElem?_eq_getElem (by omega)⟩
  have hts : ts = [t] := by
    rw [hts]
    cases hb' : b'.trees with
    | nil => rw [hb'] at ht; simp at ht
    | cons a l => rw [hb'] at ht; simpa using ht
  subst hts
  simp only [Res.foldM', Res.bind_eq_ok, Res.ok.injEq] at hout
  obtain ⟨_, ⟨qs, h3, rfl⟩, rfl⟩ := hout
  have h00 := hT.yhat 0 (Nat.zero_le N)
  simp only [List.take_zero, predictFold, Res.foldM', Res.ok.injEq] at h00
  have hp : (st 0).yhat = (List.replicate y.length base).map FX.fin := by
    rw [← h00]; simp
  obtain ⟨cfg, rows, hA⟩ := h.tree_of hT ht hp
  obtain ⟨r1, r2, hsam⟩ := hA.treeAt.sample
  rw [hs] at hsam
  simp only [sampleIndex, Res.ok.injEq, Prod.mk.injEq] at hsam
  obtain ⟨e1, e2, e3, _⟩ := hsam
  have hrows : rows = List.range y.length := by rw [← e1, h.ylen]; rfl
  have hgh : ∀ i < y.length, rowVals cfg.train.grad i = (base - y.getD i 0) * w.getD i 0 ∧
      rowVals cfg.train.hess i = w.getD i 0 := by
    intro i hi
    have hiw : i < w.length := by rw [h.wlen, ← h.ylen]; exact hi
    obtain ⟨g1, g2⟩ := calcGradHess_get (F := FX m32) b.objectiveType (y.map FX.fin : List (FX m64))
      ((List.replicate y.length base).map FX.fin) (w.map FX.fin) i (yi := FX.fin y[i]) (pi := FX.fin base)
      (wi := FX.fin w[i]) (by simp [hi]) (by simp [hi]) (by simp [hiw])
    rw [e2, ho] at g1
    rw [e3, ho] at g2
    unfold rowVals
    rw [g1, g2]
    simp [ObjectiveType.gradOf, ObjectiveType.hessOf, squaredLossGrad, squaredLossHess, hi, hiw, FX.val]
  have hsp := hA.treeAt.fitted.splitter
  have hno : ∀ f, noConstraint (cfg.splitter.params.getConstraint f) = true := by
    intro f
    rw [hsp]
    have : ∀ s : Splitter (FX m32), s.params.constraintsMap = [] →
        noConstraint (s.params.getConstraint f) = true := by
      intro s hs'
      simp [SplitParams.getConstraint, hs', noConstraint]
    apply this
    unfold Booster.splitter
    split <;> simp [Splitter.params, Booster.constraintsMap, hc]
  unfold Booster.splitter at hsp
  rw [if_neg (by simp [hmb])] at hsp
  have hw := h.nonneg
  have hrange : ∀ r ∈ rows, (lo - base) * rowVals cfg.train.hess r ≤ -rowVals cfg.train.grad r ∧
      -rowVals cfg.train.grad r ≤ (hi - base) * rowVals cfg.train.hess r := by
    intro r hr
    rw [hrows, List.mem_range] at hr
    obtain ⟨a1, a2⟩ := hgh r hr
    rw [a1, a2]
    have hiw : r < w.length := by rw [h.wlen, ← h.ylen]; exact hr
    have hwr : 0 ≤ w.getD r 0 := by
      simp only [List.getD_eq_getElem?_getD, List.getElem?_eq_getElem hiw, Option.getD_some]
      exact hw _ (List.getElem_mem hiw)
    obtain ⟨y1, y2⟩ : lo ≤ y.getD r 0 ∧ y.getD r 0 ≤ hi := by
      simp only [List.getD_eq_getElem?_getD, List.getElem?_eq_getElem hr, Option.getD_some]
      exact hy _ (List.getElem_mem hr)
    constructor <;> nlinarith
  obtain ⟨qlen, hq⟩ := Tree.predict_eq_ok.1 h3
  refine ⟨by rw [addPreds_length]; simp, fun v hv => ?_⟩
  obtain ⟨i, hiv⟩ := List.mem_iff_getElem?.1 hv
  rw [getElem?_addPreds] at hiv
  have hib : i < Z.rows := by
    by_contra hcon
    rw [List.getElem?_eq_none (by simpa using hcon)] at hiv
    simp at hiv
  have hqi := List.getElem?_eq_getElem (qlen ▸ hib : i < qs.length)
  obtain ⟨l, hl1', hl2⟩ := hq i _ hqi
  obtain ⟨k, hk⟩ := List.mem_iff_getElem?.1 (Route.mem hl1').1
  obtain ⟨x, hx, hx1, hx2⟩ := tree_range hA.trained hA.treeAt.fitted.fit hA.params hl1 hmds hno hsp
    (by linarith : lo - base ≤ 0) (by linarith : 0 ≤ hi - base) hrange hk
  have : v = FX.fin (base + x * lr) := by
    rw [hqi, hl2, hx] at hiv
    simp [hib, hb] at hiv
    exact hiv.symm
  refine ⟨_, this, ?_, ?_⟩
  · rcases le_total 0 x with h0 | h0
    · have := mul_nonneg h0 hlr
      linarith
    · nlinarith
  · rcases le_total 0 x with h0 | h0
    · nlinarith
    · have := mul_nonneg (neg_nonneg.2 h0) hlr
      linarith

/-- **C79** (partial: exact arithmetic).  With an initialised base score the bounds need only hold for the
targets. -/
theorem C79_initialised_partial {R : Type} {env : Env R (FX m32) (FX m64)} {b b' : Booster (FX m32) (FX m64)}
    {y : List K} {ev : Option (List (EvalSet (FX m64)))} {l1 l2 mds lr : K}
    (h : PlainFit env b X y w ev b' l1 l2 mds lr) (ho : b.objectiveType = .squaredLoss)
    (hs : b.sampleMethod = .none) (hc : b.monotoneConstraints = none) (hmb : b.createMissingBranch = false)
    (hl1 : 0 ≤ l1) (hmds : 0 ≤ mds) (hlr : 0 ≤ lr) (hlr1 : lr ≤ 1) (hinit : b.initializeBaseScore = true)
    (hw : ∃ x ∈ w, 0 < x) {lo hi : K} (hy : ∀ z ∈ y, lo ≤ z ∧ z ≤ hi) (Z : Matrix (FX m64))
    {out : List (FX m64)} (hout : ({ b' with predictionIteration := some 1 }).predict Z = .ok out) :
    out.length = Z.rows ∧ ∀ v ∈ out, ∃ x, v = FX.fin x ∧ lo ≤ x ∧ x ≤ hi := by
  have hnn := h.nonneg
  have hsum : 0 < w.sum := by
    obtain ⟨x, hx, hpos⟩ := hw
    exact hpos.trans_le (List.single_le_sum hnn x hx)
  have hlen : w.length = y.length := by rw [h.wlen, h.ylen]
  obtain ⟨base, g, hb, hbe, _⟩ := C42_mean h.fit hinit ho hlen hsum
  have key : ∀ (w y : List K), w.length = y.length → (∀ x ∈ w, 0 ≤ x) → (∀ z ∈ y, lo ≤ z ∧ z ≤ hi) →
      lo * w.sum ≤ (List.zipWith (· * ·) w y).sum ∧ (List.zipWith (· * ·) w y).sum ≤ hi * w.sum := by
    intro w
    induction w with
    | nil => intro y _ _ _; simp
    | cons a w ih =>
      intro y hl h1 h2
      cases y with
      | nil => simp at hl
      | cons z y =>
        obtain ⟨i1, i2⟩ := ih y (by simpa using hl) (fun x hx => h1 x (by simp [hx]))
          (fun x hx => h2 x (by simp [hx]))
        have ha := h1 a (by simp)
        obtain ⟨z1, z2⟩ := h2 z (by simp)
        simp only [List.zipWith_cons_cons, List.sum_cons, mul_add]
        constructor <;> nlinarith
  obtain ⟨k1, k2⟩ := key w y hlen hnn hy
  exact C79_range_partial h ho hs hc hmb hl1 hmds hlr hlr1 hb (by rw [hbe, le_div_iff₀ hsum]; exact k1)
    (by rw [hbe, div_le_iff₀ hsum]; exact k2) hy Z hout

end

/-! ### Floating point -/

/-- Two columns: a group and a value. -/
def wX : Matrix F64 :=
  { data := ([0, 0, 0, 1, 1, 1, 1] ++ [0, 1, 2, 0, 1, 2, 3]).map f64, rows := 7, cols := 2 }

/-- The targets. -/
def wY : List F64 := [1, 5 / 4, 5 / 4, 100, 100, 100, 100].map f64

/-- The weights; the first row is heavy. -/
def wW : List F64 := [2 ^ 24, 1, 1, 1, 1, 1, 1].map f64

/-- A default booster, except for: squared loss, one tree of depth 2, base score 0, learning rate 1 and no
regularisation. -/
def wB : Option (Booster F32 F64) :=
  (Booster.default F32 F64).map fun b =>
    { b with objectiveType := .squaredLoss, iterations := 1, baseScore := 0, initializeBaseScore := false,
             maxDepth := 2, learningRate := 1, minLeafWeight := 1, l2 := 0 }

/-- The node reached by a row. -/
def leafNum (t : Tree F32 F64) (missing : F64) (r : Nat) : Option Nat :=
  match t.predictLeaf wX r missing with
  | .ok l => some l.num
  | _ => none

/-- **C78** is false in floating point.  Training succeeds; the left child of the root holds the rows 0, 1 and
2, whose second column is below 3; yet it is split there at 3, and its right child, a leaf with cover 2 and
value -1, is reached by no training row. -/
theorem C78_counterexample : ∃ b b' t n l, wB = some b ∧
    b.fit floatEnv wX wY wW none = .ok (b', .ok ()) ∧ b'.trees = [t] ∧
    (0 <ᶠ b.minLeafWeight) = true ∧
    t.nodes[1]? = some n ∧ n.isLeaf = false ∧ n.splitFeature = 1 ∧ n.splitValue = f64 3 ∧ n.rightChild = 4 ∧
    n.missingNode = 4 ∧
    t.nodes[4]? = some l ∧ l.isLeaf = true ∧ l.hessianSum = f32 2 ∧ l.weightValue = f32 (-1) ∧
    ∀ r < wX.rows, ∃ k, t.predictLeaf wX r b'.missing = .ok k ∧ k.num ≠ l.num := by
  have : (match wB with
    | some b =>
      match b.fit floatEnv wX wY wW none with
      | .ok (b', .ok ()) =>
        match b'.trees with
        | [t] =>
          match t.nodes[1]?, t.nodes[4]? with
          | some n, some l => decide ((0 <ᶠ b.minLeafWeight) = true ∧
              n.isLeaf = false ∧ n.splitFeature = 1 ∧ n.splitValue = f64 3 ∧ n.rightChild = 4 ∧
              n.missingNode = 4 ∧ l.isLeaf = true ∧ l.hessianSum = f32 2 ∧ l.weightValue = f32 (-1) ∧
              ∀ r ∈ List.range 7, (leafNum t b'.missing r).isSome = true ∧ leafNum t b'.missing r ≠ some l.num)
          | _, _ => false
        | _ => false
      | _ => false
    | none => false) = true := by decide +kernel
  split at this
  · rename_i b hb
    split at this
    · rename_i b' hf
      split at this
      · rename_i t ht
        split at this
        · rename_i n l hn hl
          obtain ⟨h1, h2, h3, h4, h5, h6, h7, h8, h9, h10⟩ := of_decide_eq_true this
          refine ⟨b, b', t, n, l, hb, hf, ht, h1, hn, h2, h3, h4, h5, h6, hl, h7, h8, h9, fun r hr => ?_⟩
          obtain ⟨hk, hne⟩ := h10 r (List.mem_range.2 hr)
          unfold leafNum at hk hne
          split at hk
          · rename_i m hm
            rw [hm] at hne
            exact ⟨m, hm, by simpa using hne⟩
          · cases hk
        · cases this
      · cases this
    · cases this
  · cases this

/-- **C79** is false in floating point: with base score 0 and targets between 1 and 100, two training rows
with target 100 are predicted 200, and a new row is predicted -1. -/
theorem C79_counterexample : ∃ b b' out, wB = some b ∧
    b.objectiveType = .squaredLoss ∧ b.sampleMethod = .none ∧ b.monotoneConstraints = none ∧
    b.createMissingBranch = false ∧ b.learningRate = f32 1 ∧ b.l1 = f32 0 ∧ b.l2 = f32 0 ∧
    b.maxDeltaStep = f32 0 ∧
    b.fit floatEnv wX wY wW none = .ok (b', .ok ()) ∧ b'.baseScore = f64 0 ∧
    (∀ z ∈ wY, (f64 1 ≤ᶠ z) = true ∧ (z ≤ᶠ f64 100) = true) ∧
    ({ b' with predictionIteration := some 1 }).predict wX = .ok out ∧
    out[3]? = some (f64 200) ∧ out[4]? = some (f64 200) ∧
    ({ b' with predictionIteration := some 1 }).predict { data := [f64 0, f64 3], rows := 1, cols := 2 } =
      .ok [f64 (-1)] := by
  have : (match wB with
    | some b =>
      match b.fit floatEnv wX wY wW none with
      | .ok (b', .ok ()) =>
        match ({ b' with predictionIteration := some 1 }).predict wX with
        | .ok out => decide (b.objectiveType = .squaredLoss ∧ b.sampleMethod = .none ∧
            b.monotoneConstraints = none ∧ b.createMissingBranch = false ∧ b.learningRate = f32 1 ∧
            b.l1 = f32 0 ∧ b.l2 = f32 0 ∧ b.maxDeltaStep = f32 0 ∧ b'.baseScore = f64 0 ∧
            (∀ z ∈ wY, (f64 1 ≤ᶠ z) = true ∧ (z ≤ᶠ f64 100) = true) ∧
            out[3]? = some (f64 200) ∧ out[4]? = some (f64 200) ∧
            ({ b' with predictionIteration := some 1 }).predict
              { data := [f64 0, f64 3], rows := 1, cols := 2 } = .ok [f64 (-1)])
        | _ => false
      | _ => false
    | none => false) = true := by decide +kernel
  split at this
  · rename_i b hb
    split at this
    · rename_i b' hf
      split at this
      · rename_i out ho
        obtain ⟨h1, h2, h3, h4, h5, h6, h7, h8, h9, h10, h11, h12, h13⟩ := of_decide_eq_true this
        exact ⟨b, b', out, hb, h1, h2, h3, h4, h5, h6, h7, h8, hf, h9, h10, ho, h11, h12, h13⟩
      · cases this
    · cases this
  · cases this

/-! ### Examples -/

/-- The booster of `exSlow` with learning rate 1/2. -/
def exGentle : Booster Q Q := { exSlow with learningRate := q (1 / 2) }

/-- The hypotheses of `C78_reached_partial` and `C79_range_partial` are met: there is a tree with a split, the
targets lie between -1 and 4, and so does the base score. -/
example : ∃ b' t, PlainFit exEnv exGentle boundZ [1, 4, 4, 4, 1, -1]
      (List.replicate 6 (1 : ℚ)) none b' (1 / 4) 1 0 (1 / 2) ∧ t ∈ b'.trees ∧ 1 < t.nodes.length ∧
      b'.baseScore = FX.fin 0 ∧ exGentle.createMissingBranch = false ∧
      exGentle.objectiveType = .squaredLoss ∧ exGentle.sampleMethod = .none ∧
      exGentle.monotoneConstraints = none ∧
      ({ b' with predictionIteration := some 1 }).predict boundZ =
        .ok (([3 / 16, 47 / 32, 47 / 32, 47 / 32, 0, 0] : List ℚ).map FX.fin) := by
  have : (match exGentle.fit exEnv boundZ ([1, 4, 4, 4, 1, -1].map q) (List.replicate 6 (q 1)) none with
    | .ok (b', .ok ()) =>
      match b'.trees with
      | t :: _ => decide (1 < t.nodes.length ∧ b'.baseScore = FX.fin 0 ∧
        ({ b' with predictionIteration := some 1 }).predict boundZ =
        .ok (([3 / 16, 47 / 32, 47 / 32, 47 / 32, 0, 0] : List ℚ).map FX.fin))
      | _ => false
    | _ => false) = true := by decide +kernel
  split at this
  · rename_i b' h
    split at this
    · rename_i t ts ht
      obtain ⟨h0, h1, h2⟩ := of_decide_eq_true this
      exact ⟨b', t, boundPlain rfl rfl rfl rfl (by norm_num) rfl rfl rfl rfl ⟨_, rfl⟩ rfl rfl rfl rfl
        (by decide +kernel) h, by simp [ht], h0, h1, rfl, rfl, rfl, rfl, h2⟩
    · cases this
  · cases this

end Verif
