import Verif.Proofs.CleanUp
import Verif.Props.Weights

/-!
# Weights and bounds of the nodes of a fitted tree
-/

namespace Verif

open scoped Verif

set_option linter.unusedSectionVars false

section
variable {F D : Type} [Fl F] [Fl D] [FlCast F D]

/-- The bounds of the children of the chosen split, and its score. -/
theorem bestSplit_bounds {s : Splitter F} {node : SNode F D} {cols : List Nat} {info : SplitInfo F D}
    (h : bestSplit s node cols = .ok (some info)) :
    let b := childBounds (s.params.getConstraint info.splitFeature) node.lowerBound node.upperBound
      ((info.leftNode.weight + info.rightNode.weight) / Fl.ofNat 2)
    info.leftNode.lower = b.1.1 ∧ info.leftNode.upper = b.1.2 ∧
    info.rightNode.lower = b.2.1 ∧ info.rightNode.upper = b.2.2 ∧
    ∃ g, (cullGain g info.leftNode.weight info.rightNode.weight
      (s.params.getConstraint info.splitFeature) ≤ᶠ 0) = false := by
  obtain ⟨j, i, ⟨f, m, bs, bin, h1, h2, h3, h4⟩⟩ := bestSplit_mem h
  obtain ⟨l, r, mi, g, he, rfl, hp, rfl⟩ := evalCandidate_some.1 h4
  exact ⟨rfl, rfl, rfl, rfl, _, hp⟩

/-- Induction along the splits of a tree. -/
theorem Cert.induct {c : GrowCfg F D} {o : SNode F D → Prop} {gs : List (Ghost F D)}
    {nodes nodes' : List (Node F D)} (h : Cert c o gs nodes) (hs : SameShape nodes nodes')
    {P : Nat → Ghost F D → Prop} (root : ∀ g, gs[0]? = some g → P 0 g)
    (step : ∀ (i : Nat) (n : Node F D) (g : Ghost F D) (info : SplitInfo F D) (k : Nat)
      (kids : List (Kid F D)), nodes'[i]? = some n → n.isLeaf = false →
      Internal c gs nodes i n g info k kids → P i g →
      (∀ gl, gs[n.leftChild]? = some gl → P n.leftChild gl) ∧
      (∀ gr, gs[n.rightChild]? = some gr → P n.rightChild gr) ∧
      ((∃ p, c.splitter = .branch p) → ∀ gm, gs[n.missingNode]? = some gm → P n.missingNode gm)) :
    ∀ (i : Nat) (g : Ghost F D), gs[i]? = some g → P i g := by
  intro i
  induction i using Nat.strong_induction_on with
  | _ i ih =>
    intro g hg
    rcases Nat.eq_zero_or_pos i with rfl | hi
    · exact root g hg
    · obtain ⟨gj, info, k, b1, b2, b3, b4⟩ := h.parent i g hg hi
      obtain ⟨n0, hn0, hno, hleaf⟩ := h.nodeOf b1
      obtain ⟨w, hw⟩ := hs.2 _ _ hn0
      have hl : n0.isLeaf = false := by
        cases h : n0.isLeaf with
        | false => rfl
        | true => rw [hleaf.1 h] at b2; cases b2
      obtain ⟨g', info', k', kids, hI⟩ := h.internal hs hw hl
      have hgg := hI.ghost
      rw [b1] at hgg; cases hgg
      have hii := hI.info_eq
      rw [b2] at hii; cases hii
      have hlt : g.parent < i := by have := hI.isSplit.later; omega
      obtain ⟨s1, s2, s3⟩ := step _ _ gj info k kids hw hl hI (ih _ hlt gj b1)
      have e1 := hI.left
      have e2 := hI.right
      have e3 := hI.missing
      obtain ⟨j1, j2, j3, e⟩ : ∃ j1 j2 j3, (c.splitter.links info k).2.1 = j1 ∧
        (c.splitter.links info k).2.2 = j2 ∧ (c.splitter.links info k).1 = j3 := ⟨_, _, _, rfl, rfl, rfl⟩
      cases hsp : c.splitter with
      | imputer p =>
        rw [hsp] at e1 e2 b4
        simp only [Splitter.links, Splitter.arity] at e1 e2 b4
        by_cases hik : i = k
        · subst hik; rw [e1] at s1; exact s1 g hg
        · have : i = k + 1 := by omega
          subst this; rw [e2] at s2; exact s2 g hg
      | branch p =>
        rw [hsp] at e1 e2 e3 b4
        simp only [Splitter.links, Splitter.arity] at e1 e2 e3 b4
        by_cases hik : i = k
        · subst hik; rw [e3] at s3; exact s3 ⟨p, hsp⟩ g hg
        · by_cases hik' : i = k + 1
          · subst hik'; rw [e1] at s1; exact s1 g hg
          · have : i = k + 2 := by omega
            subst this; rw [e2] at s2; exact s2 g hg

end

section
variable {K : Type} [Field K] [LinearOrder K] [IsStrictOrderedRing K] {m32 m64 : Fmt K}
  [m32.Exact] [m64.Exact]

/-- A set closed under taking values in between. -/
def Between (B : K → Prop) : Prop := ∀ x y p, B x → B y → x ≤ p → p ≤ y → B p

theorem Between.of {B : K → Prop} (h : Between B) {x y p : K} (hx : B x) (hy : B y)
    (hp : (x ≤ p ∧ p ≤ y) ∨ (y ≤ p ∧ p ≤ x)) : B p :=
  hp.elim (fun hp => h x y p hx hy hp.1 hp.2) (fun hp => h y x p hy hx hp.1 hp.2)

/-- A weighted average lies between its arguments. -/
theorem avg_between {x y u v : K} (hu : 0 ≤ u) (hv : 0 ≤ v) (h : 0 < u + v) :
    (x ≤ (x * u + y * v) / (u + v) ∧ (x * u + y * v) / (u + v) ≤ y) ∨
      (y ≤ (x * u + y * v) / (u + v) ∧ (x * u + y * v) / (u + v) ≤ x) := by
  rcases le_total x y with hxy | hxy
  · left
    rw [le_div_iff₀ h, div_le_iff₀ h]
    constructor <;> nlinarith
  · right
    rw [le_div_iff₀ h, div_le_iff₀ h]
    constructor <;> nlinarith

theorem Between.avg {B : K → Prop} (h : Between B) {x y u v : K} (hx : B x) (hy : B y) (hu : 0 ≤ u)
    (hv : 0 ≤ v) (huv : 0 < u + v) : B ((x * u + y * v) / (u + v)) :=
  h.of hx hy (avg_between hu hv huv)

theorem Between.avg3 {B : K → Prop} (h : Between B) {x y z u v w : K} (hx : B x) (hy : B y) (hz : B z)
    (hu : 0 ≤ u) (hv : 0 ≤ v) (hw : 0 ≤ w) (huv : 0 < u + v) :
    B ((x * u + y * v + z * w) / (u + v + w)) := by
  have h1 := h.avg hx hy hu hv huv
  have h2 := h.avg h1 hz huv.le hw (by linarith)
  rwa [div_mul_cancel₀ _ huv.ne'] at h2

/-- A lower bound that is absent or in the set. -/
def LowIn (B : K → Prop) (l : FX m32) : Prop := l = FX.ninf ∨ ∃ y, l = FX.fin y ∧ B y

/-- An upper bound that is absent or in the set. -/
def HighIn (B : K → Prop) (l : FX m32) : Prop := l = FX.pinf ∨ ∃ y, l = FX.fin y ∧ B y

/-- A finite number of the set. -/
def ValIn (B : K → Prop) (l : FX m32) : Prop := ∃ y, l = FX.fin y ∧ B y

/-- The weight and the bounds of the node are in the set. -/
structure StateIn (B : K → Prop) (sn : SNode (FX m32) (FX m64)) : Prop where
  weight : ValIn B sn.weightValue
  low : LowIn B sn.lowerBound
  high : HighIn B sn.upperBound

/-- Clipping to bounds in the set stays in the set. -/
theorem constrainedWeight_in {B : K → Prop} {l1 l2 mds g h : K} (ha : 0 < h + l2)
    (hB : B (stepK l1 l2 mds g h)) {lower upper : FX m32} (hl : LowIn B lower) (hu : HighIn B upper)
    (ct : Option Constraint) :
    ValIn B (constrainedWeight (FX.fin l1) (FX.fin l2) (FX.fin mds) (FX.fin g) (FX.fin h) lower upper ct) := by
  unfold constrainedWeight
  simp only [weight_fin ha.ne']
  split
  · exact ⟨_, rfl, hB⟩
  · split
    · rename_i h1
      rcases hu with rfl | hu
      · cases h1
      · exact hu
    · split
      · rename_i h1
        rcases hl with rfl | hl
        · cases h1
        · exact hl
      · exact ⟨_, rfl, hB⟩

theorem boundToParent_in {B : K → Prop} {p l r : FX m32} (hp : ValIn B p) (hl : ValIn B l)
    (hr : ValIn B r) : ValIn B (boundToParent p l r).1 ∧ ValIn B (boundToParent p l r).2 := by
  unfold boundToParent
  split
  · exact ⟨hl, hr⟩
  · split <;> split
    · exact ⟨hp, hr⟩
    · exact ⟨hl, hp⟩
    · exact ⟨hl, hp⟩
    · exact ⟨hp, hr⟩

theorem mid_in {B : K → Prop} (hB : Between B) {l r : FX m32} (hl : ValIn B l) (hr : ValIn B r) :
    ValIn B ((l + r) / Fl.ofNat 2) := by
  obtain ⟨x, rfl, hx⟩ := hl
  obtain ⟨y, rfl, hy⟩ := hr
  refine ⟨(x + y) / 2, ?_, ?_⟩
  · rw [FX.fin_add, FX.ofNat_eq, FX.fin_div _ _ (by norm_num)]
    norm_num
  · have := hB.avg hx hy (u := 1) (v := 1) (by norm_num) (by norm_num) (by norm_num)
    rw [show (1 : K) + 1 = 2 by norm_num] at this
    simpa using this

theorem childBounds_in {B : K → Prop} {ct : Option Constraint} {lower upper mid : FX m32}
    (hl : LowIn B lower) (hu : HighIn B upper) (hm : ValIn B mid) :
    (LowIn B (childBounds ct lower upper mid).1.1 ∧ HighIn B (childBounds ct lower upper mid).1.2) ∧
    (LowIn B (childBounds ct lower upper mid).2.1 ∧ HighIn B (childBounds ct lower upper mid).2.2) := by
  match ct with
  | none => exact ⟨⟨hl, hu⟩, ⟨hl, hu⟩⟩
  | some .unconstrained => exact ⟨⟨hl, hu⟩, ⟨hl, hu⟩⟩
  | some .negative => exact ⟨⟨.inr hm, hu⟩, ⟨hl, .inr hm⟩⟩
  | some .positive => exact ⟨⟨hl, .inr hm⟩, ⟨.inr hm, hu⟩⟩

/-- The weight of the missing branch is a weight of the set. -/
theorem branchMissingWeight_in {B : K → Prop} (hB : Between B) {p : BranchParams (FX m32)}
    {a : SplitArgs (FX m32)} {lg lh rg rh mg mh : K}
    (hcw : ∀ x y, 0 < y → ValIn B (p.cw a (FX.fin x) (FX.fin y)))
    (a1 : a.lg = FX.fin lg) (a2 : a.lh = FX.fin lh) (a3 : a.rg = FX.fin rg) (a4 : a.rh = FX.fin rh)
    (a5 : a.mg = FX.fin mg) (a6 : a.mh = FX.fin mh) (hlh : 0 < lh) (hrh : 0 < rh) (hmh : 0 ≤ mh)
    (hpw : ValIn B a.parentWeight) {lw rw : FX m32}
    (hl : ValIn B lw) (hr : ValIn B rw) : ValIn B (branchMissingWeight p a lw rw) := by
  have havg : ValIn B ((rw * a.rh + lw * a.lh) / (a.rh + a.lh)) := by
    obtain ⟨x, rfl, hx⟩ := hl
    obtain ⟨y, rfl, hy⟩ := hr
    rw [a2, a4]
    refine ⟨(y * rh + x * lh) / (rh + lh), ?_, hB.avg hy hx hrh.le hlh.le (by linarith)⟩
    simp only [FX.fin_mul, FX.fin_add, FX.fin_div _ _ (by linarith : rh + lh ≠ 0)]
  unfold branchMissingWeight
  split
  · rw [a1, a2, a3, a4, a5, a6]
    simp only [FX.fin_add]
    exact hcw _ _ (by linarith)
  · exact havg
  · exact havg
  · split
    · exact hpw
    · rename_i h0
      rw [a5, a6] at h0 ⊢
      simp only [FX.zero_def, FX.feq_fin, Bool.or_eq_true, decide_eq_true_eq, not_or] at h0
      exact hcw _ _ (lt_of_le_of_ne hmh (Ne.symm h0.1))

variable {S : Sorter} {X : Matrix (FX m64)} {w : List K} {nbins : Nat} {missing : FX m64}
  {gv hv : Nat → K} {c : GrowCfg (FX m32) (FX m64)} {sm : SampleMethod} {rows : List Nat}
  {t : Tree (FX m32) (FX m64)} {o : SNode (FX m32) (FX m64) → Prop}
  {gs : List (Ghost (FX m32) (FX m64))} {nodes : List (Node (FX m32) (FX m64))}

/-- Finite parameters, `l2` and the hessians not negative, and a root whose weight is finite. -/
structure PlainParams (c : GrowCfg (FX m32) (FX m64)) (hv : Nat → K) (rows : List Nat)
    (l1 l2 mds lr : K) : Prop where
  l1_eq : c.splitter.params.l1 = FX.fin l1
  l2_eq : c.splitter.params.l2 = FX.fin l2
  mds_eq : c.splitter.params.maxDeltaStep = FX.fin mds
  lr_eq : c.splitter.params.learningRate = FX.fin lr
  l2_nonneg : 0 ≤ l2
  hess : ∀ r ∈ rows, 0 ≤ hv r
  root : 0 < (rows.map hv).sum + l2

theorem PlainParams.sum_nonneg {l1 l2 mds lr : K} (h : PlainParams c hv rows l1 l2 mds lr)
    {rs : List Nat} (hr : ∀ r ∈ rs, r ∈ rows) : 0 ≤ rowSum hv rs := by
  unfold rowSum
  exact List.sum_nonneg (by
    intro x hx
    obtain ⟨r, h1, rfl⟩ := List.mem_map.1 hx
    exact h.hess r (hr r h1))

theorem mem_of_mem_rowsOn {f : List Nat} {split : Nat} {sides : List BinSide} {rows : List Nat} {r : Nat}
    (h : r ∈ rowsOn f split sides rows) : r ∈ rows := by
  unfold rowsOn at h
  exact List.mem_of_mem_filter h

/-- What `evaluate_split` says about the weights of the children of a split. -/
structure EvalFacts (c : GrowCfg (FX m32) (FX m64)) (g : Ghost (FX m32) (FX m64))
    (info : SplitInfo (FX m32) (FX m64)) (a : SplitArgs (FX m32)) (lg lh rg rh mg mh : K)
    (clg clh crg crh : K) : Prop where
  lower : a.lower = g.sn.lowerBound
  upper : a.upper = g.sn.upperBound
  parent : a.parentWeight = g.sn.weightValue
  constraint : a.constraint = c.splitter.params.getConstraint info.splitFeature
  lg_eq : a.lg = FX.fin lg
  lh_eq : a.lh = FX.fin lh
  rg_eq : a.rg = FX.fin rg
  rh_eq : a.rh = FX.fin rh
  mg_eq : a.mg = FX.fin mg
  mh_eq : a.mh = FX.fin mh
  mh_nonneg : 0 ≤ mh
  lpos : 0 < clh
  rpos : 0 < crh
  lcover : info.leftNode.cover = FX.fin clh
  rcover : info.rightNode.cover = FX.fin crh
  lgrad : info.leftNode.grad = FX.fin clg
  rgrad : info.rightNode.grad = FX.fin crg
  imputer : ∀ p, c.splitter = .imputer p →
    info.leftNode.weight = p.cw a (FX.fin clg) (FX.fin clh) ∧
    info.rightNode.weight = p.cw a (FX.fin crg) (FX.fin crh)
  branch : ∀ p, c.splitter = .branch p → clg = lg ∧ clh = lh ∧ crg = rg ∧ crh = rh ∧
    branchChildWeights p a = .ok (info.leftNode.weight, info.rightNode.weight) ∧
    ∃ mi, (info.missingNode = .branch mi ∨ info.missingNode = .leaf mi) ∧
      mi.weight = branchMissingWeight p a info.leftNode.weight info.rightNode.weight ∧
      mi.lower = a.lower ∧ mi.upper = a.upper ∧ mi.cover = FX.fin mh ∧ mi.grad = FX.fin mg

/-- The part of `FitView` that also holds while the tree is being grown. -/
structure GrowView (gv hv : Nat → K) (c : GrowCfg (FX m32) (FX m64)) (rows : List Nat)
    (o : SNode (FX m32) (FX m64) → Prop) (gs : List (Ghost (FX m32) (FX m64)))
    (nodes : List (Node (FX m32) (FX m64))) : Prop where
  cert : Cert c o gs nodes
  root : ∃ g0, gs[0]? = some g0 ∧ g0.rows = rows ∧ (∃ n hists, g0.sn = rootNode c.splitter.params n
    (FX.fin (rowSum gv rows)) (FX.fin (rowSum hv rows)) hists)
  sums : ∀ (i : Nat) (g : Ghost (FX m32) (FX m64)), gs[i]? = some g → NodeSums c.train gv hv g.sn g.rows
  lt : ∀ (i : Nat) (g : Ghost (FX m32) (FX m64)), gs[i]? = some g → ∀ r ∈ g.rows, r < c.train.data.rows
  sub : ∀ (i : Nat) (g : Ghost (FX m32) (FX m64)), gs[i]? = some g → ∀ r ∈ g.rows, r ∈ rows

theorem FitView.growView (hV : FitView X missing gv hv c rows t o gs nodes) :
    GrowView gv hv c rows o gs nodes := ⟨hV.cert, hV.root, hV.sums, hV.lt, hV.sub⟩

theorem GrowView.evalFacts (hV : GrowView gv hv c rows o gs nodes)
    (hT : TrainedOn S X w nbins missing gv hv c sm rows) (hh : ∀ r ∈ rows, 0 ≤ hv r)
    {i : Nat} {n : Node (FX m32) (FX m64)} {g : Ghost (FX m32) (FX m64)}
    {info : SplitInfo (FX m32) (FX m64)} {k : Nat} {kids : List (Kid (FX m32) (FX m64))}
    (hI : Internal c gs nodes i n g info k kids) :
    ∃ a lg lh rg rh mg mh clg clh crg crh, EvalFacts c g info a lg lh rg rh mg mh clg clh crg crh := by
  obtain ⟨f, cu, b, mr, hF⟩ := splitFacts hT.trainOk hT.pos hI.isSplit (hV.sums i g hI.ghost)
    (hV.lt i g hI.ghost)
  obtain ⟨gl, gr, x1, x2, x3, x4, _⟩ := hI.sides
  have hm : 0 ≤ rowSum hv (rowsOn f (b + 1) [.missing] g.rows) := by
    unfold rowSum
    refine List.sum_nonneg ?_
    intro x hx
    obtain ⟨r, h1, rfl⟩ := List.mem_map.1 hx
    exact hh r (hV.sub i g hI.ghost r (mem_of_mem_rowsOn h1))
  have c1 := (hV.sums _ _ x1).hess
  rw [x3.cover] at c1
  have c2 := (hV.sums _ _ x2).hess
  rw [x4.cover] at c2
  have c3 := (hV.sums _ _ x1).grad
  rw [x3.grad] at c3
  have c4 := (hV.sums _ _ x2).grad
  rw [x4.grad] at c4
  obtain ⟨l, r, he, e1, e2, e3, e4, e5, e6⟩ := hF.eval
  have hcov : (l.cover <ᶠ c.splitter.params.minLeafWeight) = false ∧
      (r.cover <ᶠ c.splitter.params.minLeafWeight) = false := by
    cases hs : c.splitter with
    | imputer p =>
      rw [hs] at he
      simp only [Splitter.evaluateSplit, Res.ok.injEq] at he
      obtain ⟨d1, d2, _⟩ := imputerEvaluateSplit_some he
      exact ⟨d1, d2⟩
    | branch p =>
      rw [hs] at he
      simp only [Splitter.evaluateSplit] at he
      obtain ⟨lw, rw', a1, d1, d2, rfl, rfl, _⟩ := branchEvaluateSplit_some he
      exact ⟨d1, d2⟩
  rw [e2, e5, c1, c2] at hcov
  refine ⟨candArgs g.sn f (b + 1) gv hv g.rows (c.splitter.params.getConstraint info.splitFeature),
    _, _, _, _, _, _, rowSum gv gl.rows, rowSum hv gl.rows, rowSum gv gr.rows,
    rowSum hv gr.rows, rfl, rfl, rfl, rfl, rfl, rfl, rfl, rfl, rfl, rfl, hm,
    pos_of_cover hT.pos hcov.1, pos_of_cover hT.pos hcov.2, c1, c2, c3, c4, fun p hp => ?_, fun p hp => ?_⟩
  · rw [hp] at he
    simp only [Splitter.evaluateSplit, Res.ok.injEq] at he
    obtain ⟨a1, a2, _⟩ := imputer_sums rfl rfl rfl rfl he
    rw [← c1, ← c2, ← c3, ← c4, ← e1, ← e2, ← e3, ← e4, ← e5, ← e6]
    rw [hp]
    exact ⟨a1, a2⟩
  · rw [hp] at he
    simp only [Splitter.evaluateSplit] at he
    obtain ⟨lw, rw', a1, d1, d2, rfl, rfl, hmi⟩ := branchEvaluateSplit_some he
    rw [← e1] at c3
    rw [← e2] at c1
    rw [← e4] at c4
    rw [← e5] at c2
    simp only [mkInfo, candArgs, FX.fin.injEq] at c1 c2 c3 c4
    rw [← e3, ← e6, hp]
    refine ⟨c3.symm, c1.symm, c4.symm, c2.symm, a1, ?_⟩
    rw [hmi]
    split
    · exact ⟨_, .inl rfl, rfl, rfl, rfl, rfl, rfl⟩
    · exact ⟨_, .inr rfl, rfl, rfl, rfl, rfl, rfl⟩

/-- The weights of the two main children are in the set. -/
theorem EvalFacts.main_in {B : K → Prop} {g : Ghost (FX m32) (FX m64)}
    {info : SplitInfo (FX m32) (FX m64)} {a : SplitArgs (FX m32)} {lg lh rg rh mg mh clg clh crg crh : K}
    (hE : EvalFacts c g info a lg lh rg rh mg mh clg clh crg crh)
    (cw : ∀ x y, 0 < y → ValIn B (c.splitter.params.cw a (FX.fin x) (FX.fin y)))
    (hg : ValIn B g.sn.weightValue) :
    ValIn B info.leftNode.weight ∧ ValIn B info.rightNode.weight := by
  have hl := hE.lpos
  have hr := hE.rpos
  cases hsp : c.splitter with
  | imputer p =>
    obtain ⟨d1, d2⟩ := hE.imputer p hsp
    rw [hsp] at cw
    rw [d1, d2]
    exact ⟨cw _ _ hl, cw _ _ hr⟩
  | branch p =>
    obtain ⟨rfl, rfl, rfl, rfl, d5, _⟩ := hE.branch p hsp
    rw [hsp] at cw
    have cl := cw clg clh hl
    have cr := cw crg crh hr
    unfold branchChildWeights at d5
    rw [hE.lg_eq, hE.lh_eq, hE.rg_eq, hE.rh_eq] at d5
    simp only at d5
    split at d5
    · simp only [Res.bind_eq_ok, Res.ok.injEq, Prod.mk.injEq] at d5
      obtain ⟨_, _, _, _, d6, d7⟩ := d5
      rw [← d6, ← d7]
      exact boundToParent_in (by rw [hE.parent]; exact hg) cl cr
    · simp only [Res.ok.injEq, Prod.mk.injEq] at d5
      obtain ⟨d6, d7⟩ := d5
      rw [← d6, ← d7]
      exact ⟨cl, cr⟩

theorem missingChild_eq {F D : Type} {p : BranchParams F} {info : SplitInfo F D} {isLeaf : Bool}
    {minfo mi : NodeInfo F} (h : p.missingChild info = .ok (isLeaf, minfo))
    (hm : info.missingNode = .branch mi ∨ info.missingNode = .leaf mi) : minfo = mi := by
  unfold BranchParams.missingChild at h
  rcases hm with hm | hm <;> rw [hm] at h
  · simp only [Res.ok.injEq, Prod.mk.injEq] at h; exact h.2.symm
  · simp only [Res.ok.injEq, Prod.mk.injEq] at h; exact h.2.symm

/-- Weights and bounds of all nodes are in a set that contains all regularised steps and is closed
under taking values in between. -/
theorem GrowView.stateIn (hV : GrowView gv hv c rows o gs nodes)
    (hT : TrainedOn S X w nbins missing gv hv c sm rows) {l1 l2 mds lr : K}
    (hP : PlainParams c hv rows l1 l2 mds lr) {B : K → Prop} (hB : Between B)
    (hs : ∀ g h, 0 < h + l2 → B (stepK l1 l2 mds g h)) :
    ∀ (i : Nat) (g : Ghost (FX m32) (FX m64)), gs[i]? = some g → StateIn B g.sn := by
  refine hV.cert.induct (.refl _) (P := fun _ g => StateIn B g.sn) ?_ ?_
  · intro g hg
    obtain ⟨g0, h0, h1, n, hists, h2⟩ := hV.root
    rw [hg] at h0; cases h0
    rw [h2]
    refine ⟨?_, .inl rfl, .inl rfl⟩
    show ValIn B (Verif.weight _ _ _ _ _)
    have hr : 0 < rowSum hv rows + l2 := hP.root
    rw [hP.l1_eq, hP.l2_eq, hP.mds_eq, weight_fin hr.ne']
    exact ⟨_, rfl, hs _ _ hP.root⟩
  · intro i n g info k kids hn hl hI hg
    obtain ⟨a, lg, lh, rg, rh, mg, mh, clg, clh, crg, crh, hE⟩ := hV.evalFacts hT hP.hess hI
    obtain ⟨gl, gr, x1, x2, x3, x4, _⟩ := hI.sides
    have hcw : ∀ x y, 0 < y → ValIn B (c.splitter.params.cw a (FX.fin x) (FX.fin y)) := by
      intro x y hy
      have := hP.l2_nonneg
      simp only [SplitParams.cw, hP.l1_eq, hP.l2_eq, hP.mds_eq, hE.lower, hE.upper]
      exact constrainedWeight_in (by linarith) (hs _ _ (by linarith)) hg.low hg.high _
    obtain ⟨wl, wr⟩ := hE.main_in hcw hg.weight
    obtain ⟨b1, b2, b3, b4, _⟩ := bestSplit_bounds hI.isSplit.best
    obtain ⟨⟨c1, c2⟩, c3, c4⟩ := childBounds_in (ct := c.splitter.params.getConstraint info.splitFeature)
      hg.low hg.high (mid_in hB wl wr)
    refine ⟨fun g' hg' => ?_, fun g' hg' => ?_, ?_⟩
    · rw [x1] at hg'; cases hg'
      exact ⟨by rw [x3.weight]; exact wl, by rw [x3.lower, b1]; exact c1, by rw [x3.upper, b2]; exact c2⟩
    · rw [x2] at hg'; cases hg'
      exact ⟨by rw [x4.weight]; exact wr, by rw [x4.lower, b3]; exact c3, by rw [x4.upper, b4]; exact c4⟩
    · rintro ⟨p, hp⟩ gm hgm
      obtain ⟨gm', isLeaf, minfo, feature, rows', j, k', y1, y2, y3, y4, _, y5, y6, _⟩ :=
        hI.missingSide hp
      rw [hgm] at y4; cases y4
      obtain ⟨rfl, rfl, rfl, rfl, _, mi, z1, z2, z3, z4, _⟩ := hE.branch p hp
      have := missingChild_eq y1 z1; subst this
      have hpp : p.toSplitParams = c.splitter.params := by rw [hp]; rfl
      have hmw := branchMissingWeight_in hB (p := p) (a := a) (by rw [hpp]; exact hcw) hE.lg_eq hE.lh_eq
        hE.rg_eq hE.rh_eq hE.mg_eq hE.mh_eq hE.lpos hE.rpos hE.mh_nonneg
        (by rw [hE.parent]; exact hg.weight) wl wr
      split at y6
      · exact ⟨by rw [y6.weight]; exact hg.weight, by rw [y6.lower]; simp only [z3, hE.lower]; exact hg.low,
          by rw [y6.upper]; simp only [z4, hE.upper]; exact hg.high⟩
      · exact ⟨by rw [y6.weight, z2]; exact hmw, by rw [y6.lower, z3, hE.lower]; exact hg.low,
          by rw [y6.upper, z4, hE.upper]; exact hg.high⟩

theorem FitView.stateIn (hV : FitView X missing gv hv c rows t o gs nodes)
    (hT : TrainedOn S X w nbins missing gv hv c sm rows) {l1 l2 mds lr : K}
    (hP : PlainParams c hv rows l1 l2 mds lr) {B : K → Prop} (hB : Between B)
    (hs : ∀ g h, 0 < h + l2 → B (stepK l1 l2 mds g h)) :
    ∀ (i : Nat) (g : Ghost (FX m32) (FX m64)), gs[i]? = some g → StateIn B g.sn :=
  hV.growView.stateIn hT hP hB hs

theorem FitView.evalFacts (hV : FitView X missing gv hv c rows t o gs nodes)
    (hT : TrainedOn S X w nbins missing gv hv c sm rows) (hh : ∀ r ∈ rows, 0 ≤ hv r)
    {i : Nat} {n : Node (FX m32) (FX m64)} {g : Ghost (FX m32) (FX m64)}
    {info : SplitInfo (FX m32) (FX m64)} {k : Nat} {kids : List (Kid (FX m32) (FX m64))}
    (hI : Internal c gs nodes i n g info k kids) :
    ∃ a lg lh rg rh mg mh clg clh crg crh, EvalFacts c g info a lg lh rg rh mg mh clg clh crg crh :=
  hV.growView.evalFacts hT hh hI

/-- Averages of the leaves below a node are in the set of the node. -/
theorem Avg.valIn {N : List (Node (FX m32) (FX m64))} {C : Nat → K → Prop} (hC : ∀ i, Between (C i))
    (cov : ∀ (i : Nat) (n : Node (FX m32) (FX m64)), N[i]? = some n → ∃ h, n.hessianSum = FX.fin h ∧ 0 ≤ h)
    (pos : ∀ (i : Nat) (n l r : Node (FX m32) (FX m64)), N[i]? = some n → n.isLeaf = false →
      N[n.leftChild]? = some l → N[n.rightChild]? = some r →
      ∃ h h', l.hessianSum = FX.fin h ∧ 0 < h ∧ r.hessianSum = FX.fin h' ∧ 0 < h')
    (leaf : ∀ (i : Nat) (n : Node (FX m32) (FX m64)), N[i]? = some n → n.isLeaf = true →
      ValIn (C i) n.weightValue)
    (mono : ∀ (i : Nat) (n : Node (FX m32) (FX m64)) (j : Nat), N[i]? = some n → n.IsChild j →
      ∀ x, C j x → C i x) {i : Nat} {a : FX m64} (h : Avg N i a) : ValIn (C i) a := by
  induction h with
  | leaf h1 h2 =>
    obtain ⟨x, hx, hx'⟩ := leaf _ _ h1 h2
    exact ⟨x, by rw [hx, FX.up_fin], hx'⟩
  | @missingLeaf i n l r m a b h1 h2 h3 h4 h5 h6 h7 h8 ih1 ih2 =>
    obtain ⟨x, rfl, hx⟩ := ih1
    obtain ⟨y, rfl, hy⟩ := ih2
    obtain ⟨hl, hr, e1, p1, e2, p2⟩ := pos _ _ _ _ h1 h2 h4 h3
    refine ⟨(x * hr + y * hl) / (hr + hl), ?_, (hC i).avg (mono _ _ _ h1 ⟨h2, .inr (.inl rfl)⟩ x hx)
      (mono _ _ _ h1 ⟨h2, .inl rfl⟩ y hy) p2.le p1.le (by linarith)⟩
    rw [e1, e2]
    have hne : hl + hr + 0 ≠ 0 := by simp; linarith
    simp only [FX.up_fin, FX.zero_def, FX.fin_mul, FX.fin_add, FX.fin_div _ _ hne]
    congr 1
    rw [mul_zero, add_zero, add_zero, add_comm hl hr]
  | @missingBranch i n l r m a b c' h1 h2 h3 h4 h5 h6 h7 h8 h9 ih1 ih2 ih3 =>
    obtain ⟨x, rfl, hx⟩ := ih1
    obtain ⟨y, rfl, hy⟩ := ih2
    obtain ⟨z, rfl, hz⟩ := ih3
    obtain ⟨hl, hr, e1, p1, e2, p2⟩ := pos _ _ _ _ h1 h2 h4 h3
    obtain ⟨hm, e3, p3⟩ := cov _ _ h5
    refine ⟨(x * hr + y * hl + z * hm) / (hr + hl + hm), ?_,
      (hC i).avg3 (mono _ _ _ h1 ⟨h2, .inr (.inl rfl)⟩ x hx)
      (mono _ _ _ h1 ⟨h2, .inl rfl⟩ y hy) (mono _ _ _ h1 ⟨h2, .inr (.inr rfl)⟩ z hz) p2.le p1.le p3
      (by linarith)⟩
    rw [e1, e2, e3]
    have hne : hl + hr + hm ≠ 0 := by linarith
    simp only [FX.up_fin, FX.fin_mul, FX.fin_add, FX.fin_div _ _ hne]
    rw [add_comm hl hr]

/-- Covers of the nodes before the clean-up. -/
theorem FitView.covers (hV : FitView X missing gv hv c rows t o gs nodes)
    (hT : TrainedOn S X w nbins missing gv hv c sm rows) (hh : ∀ r ∈ rows, 0 ≤ hv r) :
    (∀ (i : Nat) (n : Node (FX m32) (FX m64)), nodes[i]? = some n → ∃ h, n.hessianSum = FX.fin h ∧ 0 ≤ h) ∧
    ∀ (i : Nat) (n l r : Node (FX m32) (FX m64)), nodes[i]? = some n → n.isLeaf = false →
      nodes[n.leftChild]? = some l → nodes[n.rightChild]? = some r →
      ∃ h h', l.hessianSum = FX.fin h ∧ 0 < h ∧ r.hessianSum = FX.fin h' ∧ 0 < h' := by
  refine ⟨fun i n hn => ?_, fun i n l r hn hl hnl hnr => ?_⟩
  · have hlt := (List.getElem?_eq_some_iff.1 hn).1
    rw [← hV.cert.len] at hlt
    have hg := List.getElem?_eq_getElem hlt
    obtain ⟨n0, h1, h2, _⟩ := hV.cert.nodeOf hg
    rw [hn] at h1; cases h1
    refine ⟨_, by rw [h2.cover, (hV.sums _ _ hg).hess], ?_⟩
    unfold Verif.rowSum
    refine List.sum_nonneg ?_
    intro x hx
    obtain ⟨r, h1, rfl⟩ := List.mem_map.1 hx
    exact hh r (hV.sub i _ hg r h1)
  · obtain ⟨w', hw'⟩ := hV.shape.2 _ _ hn
    obtain ⟨g, info, k, kids, hI⟩ := hV.cert.internal hV.shape hw' hl
    obtain ⟨a, lg, lh, rg, rh, mg, mh, clg, clh, crg, crh, hE⟩ := hV.evalFacts hT hh hI
    obtain ⟨gl, gr, x1, x2, x3, x4, _⟩ := hI.sides
    obtain ⟨nl, y1, y2, _⟩ := hV.cert.nodeOf x1
    obtain ⟨nr, z1, z2, _⟩ := hV.cert.nodeOf x2
    have y1' : nodes[n.leftChild]? = some nl := y1
    have z1' : nodes[n.rightChild]? = some nr := z1
    rw [hnl] at y1'; cases y1'
    rw [hnr] at z1'; cases z1'
    exact ⟨clh, crh, by rw [y2.cover, x3.cover, hE.lcover], hE.lpos,
      by rw [z2.cover, x4.cover, hE.rcover], hE.rpos⟩

/-- Node values of the fitted tree lie in the sets of their nodes, if the scaled weights do. -/
theorem FitView.valueIn (hV : FitView X missing gv hv c rows t o gs nodes)
    (hT : TrainedOn S X w nbins missing gv hv c sm rows) (hh : ∀ r ∈ rows, 0 ≤ hv r)
    {C : Nat → K → Prop} (hC : ∀ i, Between (C i))
    (wt : ∀ (i : Nat) (g : Ghost (FX m32) (FX m64)), gs[i]? = some g →
      ValIn (C i) (g.sn.weightValue * c.splitter.params.learningRate))
    (mono : ∀ (i : Nat) (n : Node (FX m32) (FX m64)) (j : Nat), t.nodes[i]? = some n → n.IsChild j →
      ∀ x, C j x → C i x)
    (same : ∀ (i : Nat) (n : Node (FX m32) (FX m64)), t.nodes[i]? = some n → n.isLeaf = false →
      (∃ p, c.splitter = .branch p) → ∀ x, C i x → C n.missingNode x)
    {i : Nat} {n : Node (FX m32) (FX m64)} (hn : t.nodes[i]? = some n) : ValIn (C i) n.weightValue := by
  have hwf : Tree.Wf (⟨nodes⟩ : Tree (FX m32) (FX m64)) := by
    obtain ⟨g0, h0, _⟩ := hV.root
    exact hV.cert.wf (SameShape.refl _) (List.getElem?_eq_some_iff.1 h0).1
  obtain ⟨g, n0, hg, hn0, hno, hleaf, hnum, _, hgn⟩ : ∃ g n0, gs[i]? = some g ∧ nodes[i]? = some n0 ∧
      NodeOf c.splitter.params.learningRate g.sn n0 ∧
      n0.isLeaf = n.isLeaf ∧ n0.num = n.num ∧ n0.hessianSum = n.hessianSum ∧ g.sn.num = i := by
    have hlt := (List.getElem?_eq_some_iff.1 hn).1
    rw [hV.shape.1, ← hV.cert.len] at hlt
    have hg := List.getElem?_eq_getElem hlt
    obtain ⟨n0, h1, h2, _⟩ := hV.cert.nodeOf hg
    obtain ⟨w, hw⟩ := hV.shape.2 _ _ h1
    rw [hn] at hw; cases hw
    exact ⟨_, n0, hg, h1, h2, rfl, rfl, rfl, (hV.cert.num _ _ hg).1⟩
  have hbefore : ∀ (j : Nat) (m : Node (FX m32) (FX m64)), nodes[j]? = some m →
      ValIn (C j) m.weightValue := by
    intro j m hm
    have hlt := (List.getElem?_eq_some_iff.1 hm).1
    rw [← hV.cert.len] at hlt
    have hg := List.getElem?_eq_getElem hlt
    obtain ⟨n0, h1, h2, _⟩ := hV.cert.nodeOf hg
    rw [hm] at h1; cases h1
    rw [h2.weight]
    exact wt _ _ hg
  rcases cleanUpSplits_value hV.clean hwf (hV.cert.ternary) with h | ⟨⟨p, hp, htr⟩, h⟩
  · rw [h] at hn
    exact hbefore i n hn
  · obtain ⟨cov, pos⟩ := hV.covers hT hh
    have hmono : ∀ (i : Nat) (n : Node (FX m32) (FX m64)) (j : Nat), nodes[i]? = some n → n.IsChild j →
        ∀ x, C j x → C i x := by
      intro i n j hi hc
      obtain ⟨w', hw'⟩ := hV.shape.2 _ _ hi
      exact mono i _ j hw' hc
    have havg : ∀ {i : Nat} {a : FX m64}, Avg nodes i a → ValIn (C i) a := fun ha =>
      ha.valIn hC cov pos (fun i n hi _ => hbefore i n hi) hmono
    have hdown : ∀ {j : Nat} {a : FX m64}, ValIn (C j) a → ValIn (C j) (down a : FX m32) := by
      rintro j a ⟨x, rfl, hx⟩
      exact ⟨x, by rw [FX.down_fin], hx⟩
    rcases h i n0 n hn0 hn with ⟨_, _, h⟩ | ⟨_, n1, hn1, h⟩
    · rw [h]; exact hbefore i n0 hn0
    · rcases h with ⟨_, a, ha, h⟩ | ⟨_, q, a, ⟨nq, hq, hql, hqm⟩, ha, h⟩
      · rw [h]; exact hdown (havg ha)
      · rw [h]
        obtain ⟨w', hw'⟩ := hV.shape.2 _ _ hq
        obtain ⟨x, hx, hx'⟩ := havg ha
        subst hqm
        exact hdown ⟨x, hx, same q _ hw' hql ⟨p, hp⟩ x hx'⟩

end

end Verif
