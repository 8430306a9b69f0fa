import Verif.Props.SquaredLoss
import Verif.Proofs.MonotoneAny

/-!
# C52 with missing branches and monotone constraints

The gain of a split is the decrease of the second order loss that the weights given to the children bring
about, whatever these weights are.  Hence a tree whose weights are those of the gains does not increase the
loss for learning rates up to 1.
-/

namespace Verif

open scoped Verif

set_option linter.unusedSectionVars false

section
variable {F D : Type} [Fl F] [Fl D] [FlCast F D]

theorem evaluateSplit_missingGain {s : Splitter F} {a : SplitArgs F} {l r : NodeInfo F} {m : MissingInfo F}
    (h : s.evaluateSplit a = .ok (some (l, r, m))) :
    (∀ p, s = .imputer p → m = .left ∨ m = .right) ∧
    (∀ p, s = .branch p → ∃ mi, (m = .branch mi ∨ m = .leaf mi) ∧
      (p.allowMissingSplits = false → m = .leaf mi) ∧
      mi.gain = gainGivenWeight p.l2 mi.grad mi.cover mi.weight) := by
  constructor
  · rintro p rfl
    simp only [Splitter.evaluateSplit, Res.ok.injEq] at h
    exact (imputerEvaluateSplit_some h).2.2
  · rintro p rfl
    obtain ⟨lw, rw, h1, _, _, rfl, rfl, rfl⟩ := branchEvaluateSplit_some h
    refine ⟨{ grad := a.mg, gain := gainGivenWeight p.l2 a.mg a.mh (branchMissingWeight p a lw rw)
              cover := a.mh, weight := branchMissingWeight p a lw rw, lower := a.lower, upper := a.upper },
      ?_, ?_, rfl⟩
    · split
      · exact .inl rfl
      · exact .inr rfl
    · intro e
      rw [e, Bool.and_false]
      rfl

variable {c : GrowCfg F D} {o : SNode F D → Prop} {gs : List (Ghost F D)} {nodes : List (Node F D)}

/-- The scores of the children of a split exceed that of the node. -/
theorem Internal.gains [Fl.OrdLaws F] (hz : ((ninf : F) ≤ᶠ 0) = true) {i : Nat} {n : Node F D} {g : Ghost F D}
    {info : SplitInfo F D} {k : Nat} {kids : List (Kid F D)} (hI : Internal c gs nodes i n g info k kids)
    {gl gr : Ghost F D} (hl : gs[n.leftChild]? = some gl) (hr : gs[n.rightChild]? = some gr) :
    ∃ x, ((0 : F) <ᶠ (gl.sn.gainValue + gr.sn.gainValue + x - g.sn.gainValue - c.splitter.params.gamma)) = true ∧
      KidGain c.splitter.params gl.sn.gradientSum gl.sn.hessianSum gl.sn.weightValue gl.sn.gainValue ∧
      KidGain c.splitter.params gr.sn.gradientSum gr.sn.hessianSum gr.sn.weightValue gr.sn.gainValue ∧
      (∀ p, c.splitter = .imputer p → x = 0) ∧
      (∀ p, c.splitter = .branch p → ∃ gm mi, gs[n.missingNode]? = some gm ∧
        (info.missingNode = .branch mi ∨ info.missingNode = .leaf mi) ∧
        (p.allowMissingSplits = false → gm.sn.isMissingLeaf = true) ∧
        x = gm.sn.gainValue ∧
        gm.sn.gainValue = gainGivenWeight p.l2 gm.sn.gradientSum gm.sn.hessianSum mi.weight ∧
        gm.sn.weightValue = if p.missingNodeTreatment = .assignToParent then g.sn.weightValue
          else mi.weight) := by
  obtain ⟨gl', gr', x1, x2, x3, x4, _⟩ := hI.sides
  rw [hl] at x1; cases x1
  rw [hr] at x2; cases x2
  obtain ⟨hpos, j, i', ⟨f, m, bs, bin, h1, h2, h3, h4⟩, _⟩ := bestSplit_best hI.isSplit.best
  obtain ⟨l, r, mi, gg, he, hgg, _, e⟩ := evalCandidate_some.1 h4
  have hE := evaluateSplit_gains he
  obtain ⟨hM1, hM2⟩ := evaluateSplit_missingGain he
  have em : info.missingNode = mi := by rw [e]
  rw [x3.grad, x3.cover, x3.weight, x4.grad, x4.cover, x4.weight, x3.gain, x4.gain]
  have hpos' : ((0 : F) <ᶠ g.sn.getSplitGain l r mi c.splitter.params.gamma) = true := by
    rw [e] at hpos
    simp only at hpos
    split at hpos
    · rw [Fl.OrdLaws.lt_irrefl] at hpos; cases hpos
    · have hnot : ((0 : F) <ᶠ ninf) = false := Fl.not_lt_of_le hz
      rw [hgg] at hpos
      unfold cullGain at hpos
      split at hpos
      · exact hpos
      · exact hpos
      · split at hpos
        · rw [hnot] at hpos; cases hpos
        · exact hpos
      · split at hpos
        · rw [hnot] at hpos; cases hpos
        · exact hpos
  have hl' : info.leftNode.gain = l.gain ∧ info.leftNode.grad = l.grad ∧ info.leftNode.cover = l.cover ∧
      info.leftNode.weight = l.weight := by rw [e]; exact ⟨rfl, rfl, rfl, rfl⟩
  have hr' : info.rightNode.gain = r.gain ∧ info.rightNode.grad = r.grad ∧ info.rightNode.cover = r.cover ∧
      info.rightNode.weight = r.weight := by rw [e]; exact ⟨rfl, rfl, rfl, rfl⟩
  rw [hl'.1, hl'.2.1, hl'.2.2.1, hl'.2.2.2, hr'.1, hr'.2.1, hr'.2.2.1, hr'.2.2.2]
  refine ⟨_, hpos', hE.1.1, hE.2.1, ?_, ?_⟩
  · intro p hp
    rcases hM1 p hp with e' | e' <;> rw [e']
  · intro p hp
    obtain ⟨mi', z1, z2, z3⟩ := hM2 p hp
    obtain ⟨gm, isLeaf, minfo, feature, rows', j, k', y1, y2, y3, y4, _, y5, y6, y7, _⟩ :=
      hI.missingSide hp
    rw [← em] at z1 z2
    have := missingChild_eq y1 z1; subst this
    refine ⟨gm, minfo, y4, z1, ?_, ?_, ?_, ?_⟩
    · intro hal
      rw [y7]
      have : isLeaf = true := by
        unfold BranchParams.missingChild at y1
        rw [z2 hal] at y1
        simp only [Res.ok.injEq, Prod.mk.injEq] at y1
        exact y1.1.symm
      rw [this]; rfl
    · rw [y6.gain]
      rw [em] at z1
      rcases z1 with e' | e' <;> rw [e'] <;> simp only <;> split <;> rfl
    · rw [y6.gain, y6.grad, y6.cover]
      split <;> exact z3
    · rw [y6.weight]
      split <;> rfl

end

section
variable {K : Type} [Field K] [LinearOrder K] [IsStrictOrderedRing K] {m32 m64 : Fmt K}
  [m32.Exact] [m64.Exact]
variable {S : Sorter} {X : Matrix (FX m64)} {w : List K} {nbins : Nat} {missing : FX m64}
  {gv hv : Nat → K} {c : GrowCfg (FX m32) (FX m64)} {sm : SampleMethod} {rows : List Nat}
  {t : Tree (FX m32) (FX m64)}

/-- Decrease of the second order loss of rows with sums `G` and `H` by the weight `W`, less the penalty. -/
def score (l2 G H W : K) : K := -(2 * G * W + (H + l2) * (W * W))

theorem gainGivenWeight_fin (l2 G H W : K) :
    gainGivenWeight (FX.fin l2 : FX m32) (FX.fin G) (FX.fin H) (FX.fin W) = FX.fin (score l2 G H W) := by
  unfold gainGivenWeight score
  simp

/-- Where missing values get a branch of their own, the weights are those that the gains were computed
with. -/
def Splitter.TrueGains (s : Splitter (FX m32)) : Prop :=
  ∀ p, s = .branch p → p.missingNodeTreatment = .none ∨ p.missingNodeTreatment = .averageNodeWeight ∨
    (p.missingNodeTreatment = .assignToParent ∧ p.allowMissingSplits = false ∧
      p.forceChildrenToBoundParent = false ∧ ∀ f, noConstraint (s.params.getConstraint f) = true)

/-- Sums over the rows of a node are sums over its children. -/
theorem Internal.rowSum_kids {gs : List (Ghost (FX m32) (FX m64))} {nodes : List (Node (FX m32) (FX m64))}
    {i : Nat} {n : Node (FX m32) (FX m64)} {g : Ghost (FX m32) (FX m64)}
    {info : SplitInfo (FX m32) (FX m64)} {k : Nat} {kids : List (Kid (FX m32) (FX m64))}
    (hI : Internal c gs nodes i n g info k kids) (q : Nat → K) {gl gr : Ghost (FX m32) (FX m64)}
    (hl : gs[n.leftChild]? = some gl) (hr : gs[n.rightChild]? = some gr) :
    (∀ p, c.splitter = .imputer p → rowSum q g.rows = rowSum q gl.rows + rowSum q gr.rows) ∧
    (∀ p, c.splitter = .branch p → ∀ gm, gs[n.missingNode]? = some gm →
      rowSum q g.rows = rowSum q gl.rows + rowSum q gr.rows + rowSum q gm.rows) := by
  have hperm := (hI.isSplit.perm.map q).sum_eq
  have har := hI.isSplit.arity
  have e1 := hI.left
  have e2 := hI.right
  have e3 := hI.missing
  have hk := hI.isSplit.kid
  constructor
  · intro p hp
    rw [hp] at har e1 e2 e3
    obtain ⟨a, b, rfl⟩ := List.length_eq_two.1 har
    · obtain ⟨ga, u1, _, u3, _⟩ := hk 0 a rfl
      obtain ⟨gb, v1, _, v3, _⟩ := hk 1 b rfl
      simp only [Splitter.links] at e1 e2
      rw [e1] at hl
      rw [e2] at hr
      rw [Nat.add_zero, hl] at u1; cases u1
      rw [hr] at v1; cases v1
      unfold rowSum
      rw [← hperm, u3, v3]
      simp
  · intro p hp gm hm
    rw [hp] at har e1 e2 e3
    obtain ⟨d, a, b, rfl⟩ := List.length_eq_three.1 har
    · obtain ⟨gd, w1, _, w3, _⟩ := hk 0 d rfl
      obtain ⟨ga, u1, _, u3, _⟩ := hk 1 a rfl
      obtain ⟨gb, v1, _, v3, _⟩ := hk 2 b rfl
      simp only [Splitter.links] at e1 e2 e3
      rw [e1] at hl
      rw [e2] at hr
      rw [e3] at hm
      rw [Nat.add_zero, hm] at w1; cases w1
      rw [hl] at u1; cases u1
      rw [hr] at v1; cases v1
      unfold rowSum
      rw [← hperm, u3, v3, w3]
      simp only [List.flatMap_cons, List.flatMap_nil, List.append_nil, List.map_append, List.sum_append]
      ring

/-- A positive sum of scores is a sum of numbers. -/
theorem pos_scores {a b x y z : FX m32} (h : ((0 : FX m32) <ᶠ (a + b + x - y - z)) = true)
    (hz : ((0 : FX m32) ≤ᶠ z) = true)
    (ha : a = .ninf ∨ ∃ v, a = FX.fin v) (hb : b = .ninf ∨ ∃ v, b = FX.fin v)
    (hx : ∃ v, x = FX.fin v) (hy : ∃ v, y = FX.fin v) :
    ∃ va vb vx vy, a = FX.fin va ∧ b = FX.fin vb ∧ x = FX.fin vx ∧ y = FX.fin vy ∧ vy ≤ va + vb + vx := by
  obtain ⟨vx, rfl⟩ := hx
  obtain ⟨vy, rfl⟩ := hy
  rcases ha with rfl | ⟨va, rfl⟩
  · rcases hb with rfl | ⟨vb, rfl⟩ <;> cases z <;> cases h
  · rcases hb with rfl | ⟨vb, rfl⟩
    · cases z <;> cases h
    · refine ⟨va, vb, vx, vy, rfl, rfl, rfl, rfl, ?_⟩
      cases z with
      | fin vz =>
        have hz' : (0 : K) ≤ vz := of_decide_eq_true hz
        simp only [FX.fin_add, FX.fin_sub] at h
        have : (0 : K) < va + vb + vx - vy - vz := of_decide_eq_true h
        linarith
      | nan => cases hz
      | ninf => cases hz
      | pinf =>
        simp only [FX.fin_add, FX.fin_sub] at h
        cases h

/-- Without averages over leaves nothing is changed after growing. -/
theorem Splitter.TrueGains.clean (hG : c.splitter.TrueGains) {ns ns' : List (Node (FX m32) (FX m64))}
    (h : cleanUpSplits c.splitter ns = .ok ns') : ns' = ns := by
  unfold cleanUpSplits at h
  split at h
  · injection h with h; exact h.symm
  · rename_i p hp
    split at h
    · rename_i htr
      rcases hG p hp with e | e | ⟨e, _⟩ <;> rw [htr] at e <;> cases e
    · injection h with h; exact h.symm

theorem gain_nonneg {G H l2 : K} (h : 0 < H + l2) :
    ∃ γ, 0 ≤ γ ∧ gain (FX.fin l2 : FX m32) (FX.fin G) (FX.fin H) = FX.fin γ := by
  refine ⟨G * G / (H + l2), div_nonneg (mul_self_nonneg G) h.le, ?_⟩
  unfold gain
  rw [FX.fin_mul, FX.fin_add, FX.fin_div _ _ h.ne']

/-- The weights of all nodes are numbers. -/
theorem view_weights {o : SNode (FX m32) (FX m64) → Prop} {gs : List (Ghost (FX m32) (FX m64))}
    {nodes : List (Node (FX m32) (FX m64))} (hV : FitView X missing gv hv c rows t o gs nodes)
    (hG : c.splitter.TrueGains) (hfin : t.FiniteValues) :
    ∀ (i : Nat) (g : Ghost (FX m32) (FX m64)), gs[i]? = some g → ∃ W, g.sn.weightValue = FX.fin W := by
  have hns : t.nodes = nodes := hG.clean hV.clean
  intro i g hg
  obtain ⟨n, hn, hno, _⟩ := hV.cert.nodeOf hg
  rw [← hns] at hn
  obtain ⟨z, hz⟩ := hfin n (List.mem_of_getElem? hn)
  rw [hno.weight] at hz
  obtain ⟨x, _, hx, _⟩ := FX.mul_eq_fin hz
  exact ⟨x, hx⟩

/-- The scores of the children of a split. -/
theorem view_split_scores (h : TrainedOn S X w nbins missing gv hv c sm rows)
    {o : SNode (FX m32) (FX m64) → Prop} {gs : List (Ghost (FX m32) (FX m64))}
    {nodes : List (Node (FX m32) (FX m64))} (hV : FitView X missing gv hv c rows t o gs nodes)
    {l1 l2 mds lr : K} (hP : PlainParams c hv rows l1 l2 mds lr)
    (hgam : ((0 : FX m32) ≤ᶠ c.splitter.params.gamma) = true) (hG : c.splitter.TrueGains)
    (hfin : t.FiniteValues) :
    ∀ (i : Nat) (n : Node (FX m32) (FX m64)) (g : Ghost (FX m32) (FX m64))
    (info : SplitInfo (FX m32) (FX m64)) (k : Nat) (kids : List (Kid (FX m32) (FX m64))),
    t.nodes[i]? = some n → n.isLeaf = false → Internal c gs nodes i n g info k kids →
    (∃ γ, g.sn.gainValue = FX.fin γ) → ∃ gl gr WL WR γ, gs[n.leftChild]? = some gl ∧
      gs[n.rightChild]? = some gr ∧ gl.sn.weightValue = FX.fin WL ∧ gr.sn.weightValue = FX.fin WR ∧
      g.sn.gainValue = FX.fin γ ∧
      gl.sn.gainValue = FX.fin (score l2 (rowSum gv gl.rows) (rowSum hv gl.rows) WL) ∧
      gr.sn.gainValue = FX.fin (score l2 (rowSum gv gr.rows) (rowSum hv gr.rows) WR) ∧
      ((∃ p, c.splitter = .imputer p) → γ ≤ score l2 (rowSum gv gl.rows) (rowSum hv gl.rows) WL +
        score l2 (rowSum gv gr.rows) (rowSum hv gr.rows) WR) ∧
      ((∃ p, c.splitter = .branch p) → ∃ gm WM, gs[n.missingNode]? = some gm ∧
        gm.sn.weightValue = FX.fin WM ∧
        gm.sn.gainValue = FX.fin (score l2 (rowSum gv gm.rows) (rowSum hv gm.rows) WM) ∧
        γ ≤ score l2 (rowSum gv gl.rows) (rowSum hv gl.rows) WL +
          score l2 (rowSum gv gr.rows) (rowSum hv gr.rows) WR +
          score l2 (rowSum gv gm.rows) (rowSum hv gm.rows) WM) := by
  have hns : t.nodes = nodes := hG.clean hV.clean
  have hWt := view_weights hV hG hfin
  intro i n g info k kids hn hl hI hγ
  obtain ⟨gl, gr, x1, x2, x3, x4, _⟩ := hI.sides
  obtain ⟨WL, hWL⟩ := hWt _ _ x1
  obtain ⟨WR, hWR⟩ := hWt _ _ x2
  have sl := hV.sums _ _ x1
  have sr := hV.sums _ _ x2
  obtain ⟨x, hpos, kl, kr, himp, hbr⟩ := hI.gains rfl x1 x2
  rw [sl.grad, sl.hess, hWL] at kl
  rw [sr.grad, sr.hess, hWR] at kr
  unfold KidGain at kl kr
  rw [hP.l2_eq, gainGivenWeight_fin] at kl kr
  have kl' : gl.sn.gainValue = .ninf ∨ ∃ v, gl.sn.gainValue = FX.fin v := by
    rcases kl with e | e
    · exact .inr ⟨_, e⟩
    · exact .inl e
  have kr' : gr.sn.gainValue = .ninf ∨ ∃ v, gr.sn.gainValue = FX.fin v := by
    rcases kr with e | e
    · exact .inr ⟨_, e⟩
    · exact .inl e
  have hx : (∀ p, c.splitter = .imputer p → x = FX.fin 0) ∧ (∀ p, c.splitter = .branch p →
      ∃ gm WM, gs[n.missingNode]? = some gm ∧ gm.sn.weightValue = FX.fin WM ∧ x = gm.sn.gainValue ∧
        gm.sn.gainValue = FX.fin (score l2 (rowSum gv gm.rows) (rowSum hv gm.rows) WM)) := by
    refine ⟨fun p hp => himp p hp, fun p hp => ?_⟩
    obtain ⟨gm, mi, y1, y2, y3, y4, y5, y6⟩ := hbr p hp
    obtain ⟨WM, hWM⟩ := hWt _ _ y1
    have smm := hV.sums _ _ y1
    have hl2 : p.l2 = FX.fin l2 := by have := hP.l2_eq; rw [hp] at this; exact this
    refine ⟨gm, WM, y1, hWM, y4, ?_⟩
    rw [smm.grad, smm.hess, hl2] at y5
    rcases hG p hp with e | e | ⟨e, hal, hforce, hno⟩
    · rw [if_neg (by rw [e]; decide), hWM] at y6
      rw [y5, ← y6, gainGivenWeight_fin]
    · rw [if_neg (by rw [e]; decide), hWM] at y6
      rw [y5, ← y6, gainGivenWeight_fin]
    · rw [if_pos e, hWM] at y6
      -- the node is not reserved for missing values, so that its weight belongs to its sums
      have hom : ¬ OnlyMissing t.nodes i := by
        rintro ⟨j, nj, hj, hjl, rfl, hj1, hj2⟩
        obtain ⟨gj, infoj, kj, kidsj, hIj⟩ := hV.cert.internal hV.shape hj hjl
        obtain ⟨gl', gr', u1, u2, _⟩ := hIj.sides
        obtain ⟨_, _, _, _, _, hbj⟩ := hIj.gains rfl u1 u2
        obtain ⟨gm', _, w1, _, w3, _⟩ := hbj p hp
        rw [hI.ghost] at w1; cases w1
        have := hI.isSplit.notMissing
        rw [w3 hal] at this
        cases this
      have hw := hV.weight h (fun p' hp' => by rw [hp] at hp'; cases hp'; exact hforce) hno hI.ghost hom
      obtain ⟨a, lg, lh, rg, rh, mg, mh, clg, clh, crg, crh, hE⟩ := hV.evalFacts h hP.hess hI
      obtain ⟨c1, c2, c3, c4, _, mi', d1, d2, _, _, d5, d6⟩ := hE.branch p hp
      have emi : mi = mi' := by
        rcases y2 with u | u <;> rcases d1 with u' | u' <;> rw [u] at u' <;> injection u'
      subst emi
      have q1 : rowSum gv gl.rows = lg := by
        have := sl.grad
        rw [x3.grad, hE.lgrad, c1] at this
        exact (FX.fin.inj this).symm
      have q2 : rowSum hv gl.rows = lh := by
        have := sl.hess
        rw [x3.cover, hE.lcover, c2] at this
        exact (FX.fin.inj this).symm
      have q3 : rowSum gv gr.rows = rg := by
        have := sr.grad
        rw [x4.grad, hE.rgrad, c3] at this
        exact (FX.fin.inj this).symm
      have q4 : rowSum hv gr.rows = rh := by
        have := sr.hess
        rw [x4.cover, hE.rcover, c4] at this
        exact (FX.fin.inj this).symm
      obtain ⟨gm', isLeaf, minfo, feature, rows', j, k', z1, z2, z3, z4, _, z5, z6, _⟩ := hI.missingSide hp
      rw [y1] at z4; cases z4
      have := missingChild_eq z1 d1; subst this
      rw [if_pos e] at z6
      have q5 : rowSum gv gm.rows = mg := by
        have := smm.grad
        rw [z6.grad] at this
        exact (FX.fin.inj (d6.symm.trans this)).symm
      have q6 : rowSum hv gm.rows = mh := by
        have := smm.hess
        rw [z6.cover] at this
        exact (FX.fin.inj (d5.symm.trans this)).symm
      have eG := (hI.rowSum_kids gv x1 x2).2 p hp gm y1
      have eH := (hI.rowSum_kids hv x1 x2).2 p hp gm y1
      have hmw : minfo.weight = FX.fin WM := by
        rw [d2, y6, hw]
        unfold branchMissingWeight
        rw [e]
        simp only [SplitParams.cw, constrainedWeight]
        rw [hE.constraint, hE.mg_eq, hE.lg_eq, hE.rg_eq, hE.mh_eq, hE.lh_eq, hE.rh_eq, if_pos (hno _)]
        simp only [FX.fin_add]
        rw [eG, eH, q1, q2, q3, q4, q5, q6, hp]
        congr 2 <;> ring
      rw [y5, hmw, gainGivenWeight_fin]
  have hxf : ∃ v, x = FX.fin v := by
    cases hs : c.splitter with
    | imputer p => exact ⟨0, hx.1 p hs⟩
    | branch p =>
      obtain ⟨gm, WM, _, _, e1, e2⟩ := hx.2 p hs
      exact ⟨_, e1.trans e2⟩
  obtain ⟨va, vb, vx, vy, ea, eb, ex, ey, hle⟩ := pos_scores hpos hgam kl' kr' hxf hγ
  have kl2 : gl.sn.gainValue = FX.fin (score l2 (rowSum gv gl.rows) (rowSum hv gl.rows) WL) := by
    rcases kl with e | e
    · exact e
    · rw [ea] at e; cases e
  have kr2 : gr.sn.gainValue = FX.fin (score l2 (rowSum gv gr.rows) (rowSum hv gr.rows) WR) := by
    rcases kr with e | e
    · exact e
    · rw [eb] at e; cases e
  have fa := FX.fin.inj (ea.symm.trans kl2)
  have fb := FX.fin.inj (eb.symm.trans kr2)
  refine ⟨gl, gr, WL, WR, vy, x1, x2, hWL, hWR, ey, kl2, kr2, ?_, ?_⟩
  · rintro ⟨p, hp⟩
    have fx := FX.fin.inj (ex.symm.trans (hx.1 p hp))
    rw [← fa, ← fb]
    linarith
  · rintro ⟨p, hp⟩
    obtain ⟨gm, WM, w1, w2, w3, w4⟩ := hx.2 p hp
    have fx := FX.fin.inj (ex.symm.trans (w3.trans w4))
    refine ⟨gm, WM, w1, w2, w4, ?_⟩
    rw [← fa, ← fb, ← fx]
    exact hle

/-- The score of the root. -/
theorem view_root_score {o : SNode (FX m32) (FX m64) → Prop} {gs : List (Ghost (FX m32) (FX m64))}
    {nodes : List (Node (FX m32) (FX m64))} (hV : FitView X missing gv hv c rows t o gs nodes)
    {l1 l2 mds lr : K} (hP : PlainParams c hv rows l1 l2 mds lr) {g0 : Ghost (FX m32) (FX m64)}
    (hg : gs[0]? = some g0) : g0.sn.gainValue =
      FX.fin (rowSum gv rows * rowSum gv rows / (rowSum hv rows + l2)) := by
  obtain ⟨g0', hg0, hr0, nn, hists, hsn0⟩ := hV.root
  rw [hg] at hg0; cases hg0
  rw [hsn0]
  show gain c.splitter.params.l2 (FX.fin (rowSum gv rows)) (FX.fin (rowSum hv rows)) = _
  rw [hP.l2_eq]
  unfold gain
  rw [FX.fin_mul, FX.fin_add, FX.fin_div _ _ (show rowSum hv rows + l2 ≠ 0 from hP.root.ne')]

/-- The scores of all nodes. -/
theorem view_scores (h : TrainedOn S X w nbins missing gv hv c sm rows)
    {o : SNode (FX m32) (FX m64) → Prop} {gs : List (Ghost (FX m32) (FX m64))}
    {nodes : List (Node (FX m32) (FX m64))} (hV : FitView X missing gv hv c rows t o gs nodes)
    {l1 l2 mds lr : K} (hP : PlainParams c hv rows l1 l2 mds lr)
    (hgam : ((0 : FX m32) ≤ᶠ c.splitter.params.gamma) = true) (hG : c.splitter.TrueGains)
    (hfin : t.FiniteValues) :
    ∀ (i : Nat) (g : Ghost (FX m32) (FX m64)), gs[i]? = some g →
    ∃ W γ, g.sn.weightValue = FX.fin W ∧ g.sn.gainValue = FX.fin γ ∧
      (0 < i → γ = score l2 (rowSum gv g.rows) (rowSum hv g.rows) W) := by
  have hWt := view_weights hV hG hfin
  have hkid := view_split_scores h hV hP hgam hG hfin
  obtain ⟨g0, hg0, _⟩ := hV.root
  refine hV.cert.induct hV.shape ?_ ?_
  · intro g hg
    rw [hg0] at hg; cases hg
    have e := view_root_score hV hP hg0
    obtain ⟨W, hW⟩ := hWt _ _ hg0
    exact ⟨W, _, hW, e, fun h => absurd h (lt_irrefl 0)⟩
  · rintro i n g info k kids hn hl hI ⟨_, γ, _, hγ, _⟩
    obtain ⟨gl, gr, WL, WR, _, x1, x2, x3, x4, _, x5, x6, _, x7⟩ := hkid i n g info k kids hn hl hI ⟨γ, hγ⟩
    refine ⟨fun g' hg' => ?_, fun g' hg' => ?_, fun hp g' hg' => ?_⟩
    · rw [x1] at hg'; cases hg'
      exact ⟨WL, _, x3, x5, fun _ => rfl⟩
    · rw [x2] at hg'; cases hg'
      exact ⟨WR, _, x4, x6, fun _ => rfl⟩
    · obtain ⟨gm, WM, y1, y2, y3, _⟩ := x7 hp
      rw [y1] at hg'; cases hg'
      exact ⟨WM, _, y2, y3, fun _ => rfl⟩

/-- With the second order term taken `κ` times: every tree whose weights are those of its gains lowers the second order loss, for learning rates up
to `1 / κ`. -/
theorem tree_loss_gain_mul (h : TrainedOn S X w nbins missing gv hv c sm rows)
    (hf : Tree.fit c sm rows = .ok t) {l1 l2 mds lr κ : K} (hP : PlainParams c hv rows l1 l2 mds lr)
    (hl1 : 0 ≤ l1) (hmds : 0 ≤ mds) (hlr : 0 ≤ lr) (hlr1 : κ * lr ≤ 1)
    (hgam : ((0 : FX m32) ≤ᶠ c.splitter.params.gamma) = true) (hG : c.splitter.TrueGains)
    (hfin : t.FiniteValues) {v : Nat → K}
    (hv' : ∀ r ∈ rows, ∀ l, t.predictLeaf X r missing = .ok l → l.weightValue = FX.fin (v r)) :
    (rows.map fun r => 2 * (gv r * v r) + κ * hv r * v r ^ 2).sum ≤ 0 := by
  obtain ⟨o, gs, nodes, hV⟩ := h.view hf
  have hns : t.nodes = nodes := hG.clean hV.clean
  have hwf := Tree.fit_wf hf
  set q : Nat → K := fun r => 2 * (gv r * v r) + κ * hv r * v r ^ 2 with hq
  have hHn : ∀ (i : Nat) (g : Ghost (FX m32) (FX m64)), gs[i]? = some g → 0 ≤ rowSum hv g.rows := by
    intro i g hg
    refine List.sum_nonneg fun x hx => ?_
    obtain ⟨r, hr, rfl⟩ := List.mem_map.1 hx
    exact hP.hess r (hV.sub i g hg r hr)
  have hkid := view_split_scores h hV hP hgam hG hfin
  -- scores of all nodes
  obtain ⟨g0, hg0, hr0, nn, hists, hsn0⟩ := hV.root
  have hroot : ∃ γ, 0 ≤ γ ∧ g0.sn.gainValue = FX.fin γ :=
    ⟨_, div_nonneg (mul_self_nonneg _) hP.root.le, view_root_score hV hP hg0⟩
  have hscore := view_scores h hV hP hgam hG hfin
  -- the rows of a leaf
  have hleaf : ∀ (i : Nat) (g : Ghost (FX m32) (FX m64)) (W : K), gs[i]? = some g → g.info = none →
      g.sn.weightValue = FX.fin W →
      rowSum q g.rows = 2 * (rowSum gv g.rows * (W * lr)) + κ * rowSum hv g.rows * (W * lr) ^ 2 := by
    intro i g W hg hi hW
    obtain ⟨n, hn, hno, hnl⟩ := hV.cert.nodeOf hg
    rw [← hns] at hn
    have hl := hnl.2 hi
    have hval : ∀ r ∈ g.rows, v r = W * lr := by
      intro r hr
      have hr' := hV.sub i g hg r hr
      have := hv' r hr' n ((hV.leaf_iff hr' hn hl).2 ((hV.reaches i g hg r hr').2 hr))
      rw [hno.weight, hW, hP.lr_eq, FX.fin_mul] at this
      exact (FX.fin.inj this).symm
    unfold rowSum
    rw [List.map_congr_left (g := fun r => 2 * (gv r * (W * lr)) + κ * hv r * (W * lr) ^ 2)
      (fun r hr => by simp only [hq]; rw [hval r hr])]
    generalize g.rows = rs
    induction rs with
    | nil => simp
    | cons a rs ih =>
      simp only [List.map_cons, List.sum_cons, ih]
      ring
  -- the loss of a subtree
  have hsub : ∀ (d i : Nat) (g : Ghost (FX m32) (FX m64)) (γ : K), gs.length - i ≤ d → gs[i]? = some g →
      (0 < i ∨ g.info ≠ none) → g.sn.gainValue = FX.fin γ → rowSum q g.rows ≤ -(lr * γ) := by
    intro d
    induction d with
    | zero =>
      intro i g γ hd hg
      have := (List.getElem?_eq_some_iff.1 hg).1
      omega
    | succ d ih =>
      intro i g γ hd hg hi hγ
      obtain ⟨W, γ', hW, hγ', hs⟩ := hscore i g hg
      rw [hγ] at hγ'; cases hγ'
      cases hinfo : g.info with
      | none =>
        have hi0 : 0 < i := by
          rcases hi with hi | hi
          · exact hi
          · exact absurd hinfo hi
        rw [hleaf i g W hg hinfo hW, hs hi0]
        unfold score
        have h1 : 0 ≤ rowSum hv g.rows * W ^ 2 := mul_nonneg (hHn i g hg) (sq_nonneg W)
        have h2 : 0 ≤ l2 * W ^ 2 := mul_nonneg hP.l2_nonneg (sq_nonneg W)
        have h3 : 0 ≤ lr * (1 - κ * lr) * (rowSum hv g.rows * W ^ 2) :=
          mul_nonneg (mul_nonneg hlr (by linarith)) h1
        have h4 : 0 ≤ lr * (l2 * W ^ 2) := mul_nonneg hlr h2
        nlinarith
      | some pr =>
        obtain ⟨n, hn, hno, hnl⟩ := hV.cert.nodeOf hg
        rw [← hns] at hn
        have hl : n.isLeaf = false := by
          cases hc : n.isLeaf with
          | false => rfl
          | true => rw [hnl.1 hc] at hinfo; cases hinfo
        obtain ⟨g', info, k, kids, hI⟩ := hV.cert.internal hV.shape hn hl
        have hgg := hI.ghost
        rw [hg] at hgg; cases hgg
        obtain ⟨gl, gr, WL, WR, γ', x1, x2, x3, x4, x8, x5, x6, x9, x7⟩ :=
          hkid i n g info k kids hn hl hI ⟨γ, hγ⟩
        rw [hγ] at x8; cases x8
        have il := (hwf.child i n n.leftChild hn ⟨hl, .inl rfl⟩).1
        have ir := (hwf.child i n n.rightChild hn ⟨hl, .inr (.inl rfl)⟩).1
        have im := (hwf.child i n n.missingNode hn ⟨hl, .inr (.inr rfl)⟩).1
        have il' := (List.getElem?_eq_some_iff.1 x1).1
        have ir' := (List.getElem?_eq_some_iff.1 x2).1
        have a1 := ih _ gl _ (by omega) x1 (.inl (by omega)) x5
        have a2 := ih _ gr _ (by omega) x2 (.inl (by omega)) x6
        obtain ⟨s1, s2⟩ := hI.rowSum_kids q x1 x2
        cases hs : c.splitter with
        | imputer p =>
          rw [s1 p hs]
          have := mul_le_mul_of_nonneg_left (x9 ⟨p, hs⟩) hlr
          linarith
        | branch p =>
          obtain ⟨gm, WM, y1, y2, y3, y4⟩ := x7 ⟨p, hs⟩
          have im' := (List.getElem?_eq_some_iff.1 y1).1
          have a3 := ih _ gm _ (by omega) y1 (.inl (by omega)) y3
          rw [s2 p hs gm y1]
          have := mul_le_mul_of_nonneg_left y4 hlr
          linarith
  have hgoal : rowSum q rows ≤ 0 := by
    rw [← hr0]
    cases hinfo : g0.info with
    | some pr =>
      obtain ⟨γ, hγ0, hγ⟩ := hroot
      have := hsub _ 0 g0 γ le_rfl hg0 (.inr (by rw [hinfo]; exact fun h => nomatch h)) hγ
      have := mul_nonneg hlr hγ0
      linarith
    | none =>
      have hw : g0.sn.weightValue = weight (FX.fin l1) (FX.fin l2) (FX.fin mds) (FX.fin (rowSum gv rows))
          (FX.fin (rowSum hv rows)) := by
        rw [hsn0, ← hP.l1_eq, ← hP.l2_eq, ← hP.mds_eq]; rfl
      obtain ⟨x, hx, hstep, _⟩ := C53_weight (m := m32) (g := rowSum gv rows) hP.root hl1 hmds
      have hw' := hw.trans hx
      rw [hleaf 0 g0 x hg0 hinfo hw', hr0]
      have := hHn 0 g0 hg0
      rw [hr0] at this
      exact hstep.loss_mul this hP.l2_nonneg hl1 hlr (by linarith)
  exact hgoal

/-- A tree of such a booster lowers the second order loss. -/
theorem PlainTree.loss_gain_mul {R : Type} {env : Env R (FX m32) (FX m64)} {b : Booster (FX m32) (FX m64)}
    {y p : List K} {l1 l2 mds lr κ : K} {binned : BinnedData (FX m64)} {k : Nat}
    (hA : PlainTree env b X y w l1 l2 mds lr binned p k t c rows)
    (hl1 : 0 ≤ l1) (hmds : 0 ≤ mds) (hlr : 0 ≤ lr) (hlr1 : κ * lr ≤ 1)
    (hgam : ((0 : FX m32) ≤ᶠ b.gamma) = true)
    (hm : b.createMissingBranch = false ∨ b.missingNodeTreatment = .none ∨
      b.missingNodeTreatment = .averageNodeWeight ∨
      (b.missingNodeTreatment = .assignToParent ∧ b.allowMissingSplits = false ∧
        b.forceChildrenToBoundParent = false ∧ b.monotoneConstraints = none))
    {v : Nat → K} (hv' : ∀ r ∈ rows, ∀ l, t.predictLeaf X r b.missing = .ok l → l.weightValue = FX.fin (v r)) :
    (rows.map fun r => 2 * (rowVals c.train.grad r * v r) + κ * rowVals c.train.hess r * v r ^ 2).sum ≤ 0 := by
  refine tree_loss_gain_mul hA.trained hA.treeAt.fitted.fit hA.params hl1 hmds hlr hlr1 ?_ ?_ hA.values hv'
  · rw [hA.treeAt.fitted.splitter, splitter_params]
    exact hgam
  · intro q hq
    rw [hA.treeAt.fitted.splitter] at hq
    have hp := splitter_params b
    rw [hA.treeAt.fitted.splitter]
    unfold Booster.splitter at hq
    split at hq
    · rename_i hc
      cases hq
      rcases hm with e | e | e | ⟨e1, e2, e3, e4⟩
      · rw [e] at hc; cases hc
      · exact .inl e
      · exact .inr (.inl e)
      · refine .inr (.inr ⟨e1, e2, e3, fun f => ?_⟩)
        rw [hp]
        simp [SplitParams.getConstraint, Booster.constraintsMap, e4, noConstraint]
    · cases hq

/-- **C52** (partial), for learning rates up to 1.  Monotone constraints, children forced to bound their
parent and missing values in a branch of their own are allowed; the missing branch may be treated as `None` or
`AverageNodeWeight`, or as `AssignToParent` without further splits, constraints and forcing.  Full claim:
every treatment and learning rates up to 2; it is false, see `C52_counterexample`. -/
theorem C52_gain_partial {R : Type} {env : Env R (FX m32) (FX m64)} {b b' : Booster (FX m32) (FX m64)}
    {y : List K} {ev : Option (List (EvalSet (FX m64)))} {l1 l2 mds lr : K}
    (h : PlainFit env b X y w ev b' l1 l2 mds lr) (ho : b.objectiveType = .squaredLoss)
    (hs : b.sampleMethod = .none) (hl1 : 0 ≤ l1) (hmds : 0 ≤ mds) (hlr : 0 ≤ lr) (hlr1 : lr ≤ 1)
    (hgam : ((0 : FX m32) ≤ᶠ b.gamma) = true)
    (hm : b.createMissingBranch = false ∨ b.missingNodeTreatment = .none ∨
      b.missingNodeTreatment = .averageNodeWeight ∨
      (b.missingNodeTreatment = .assignToParent ∧ b.allowMissingSplits = false ∧
        b.forceChildrenToBoundParent = false ∧ b.monotoneConstraints = none))
    {k : Nat} (hk : k < b'.trees.length) :
    ∃ p p' : List K, ({ b' with predictionIteration := some k }).predict X = .ok (p.map FX.fin) ∧
      ({ b' with predictionIteration := some (k + 1) }).predict X = .ok (p'.map FX.fin) ∧
      sqLoss y w p' ≤ sqLoss y w p := by
  refine booster_loss h ho hs (fun binned p k t cfg rows hA v hv' => ?_) hk
  have := hA.loss_gain_mul (κ := 1) hl1 hmds hlr (by linarith) hgam hm hv'
  simpa only [one_mul] using this

end

/-- Nine rows and three features with missing values. -/
def lossX : Matrix Q where
  data := [
    q 1, FX.nan, q 0, q 1, q 1, q 0, q 1, q 0, FX.nan,
    FX.nan, q 1, q 2, q 0, FX.nan, q 1, q 1, FX.nan, FX.nan,
    FX.nan, q 2, q 0, q 2, q 1, q 2, q 0, q 1, q 2]
  rows := 9
  cols := 3

def lossY : List ℚ := [5, 0, 3, -1, -5, -6, -2, 3, 6]

theorem lossPlain {b b' : Booster Q Q} (h1 : b.l1 = q 0) (h2 : b.l2 = q 0) (h3 : b.maxDeltaStep = q 0)
    (h4 : b.learningRate = q 1) (h6 : b.minLeafWeight = q 1) (h7 : b.sampleMethod = .none)
    (h8 : b.objectiveType = .squaredLoss) (h9 : b.initializeBaseScore = false) (h10 : b.baseScore.IsFin)
    (h11 : b.missing = FX.nan)
    (h : b.fit exEnv lossX (lossY.map q) (List.replicate 9 (q 1)) none = .ok (b', .ok ())) :
    PlainFit exEnv b lossX lossY (List.replicate 9 (1 : ℚ)) none b' 0 0 0 1 where
  sorter := exSorter_ok
  rng := exRng_ok
  shaped := by unfold Matrix.Shaped; decide +kernel
  ylen := rfl
  wlen := rfl
  max := by rw [h11]; decide +kernel
  minLeafWeight := by rw [h6]; decide
  l1_eq := h1
  l2_eq := h2
  mds_eq := h3
  lr_eq := h4
  l2_nonneg := le_rfl
  positive := .inr ⟨h7, 1, by simp, one_pos⟩
  goss := by rw [h7]; intro h; cases h
  exp := by rw [h8]; intro h; cases h
  base := by
    intro s hs
    rw [h9] at hs
    simp only [Bool.false_eq_true, if_false] at hs
    rw [hs]; exact h10
  fit := h

/-- The missing branch gets the average of the leaves. -/
def exLeafAverage : Booster Q Q :=
  { exMixed with createMissingBranch := true, maxDepth := 3, maxLeaves := 20, monotoneConstraints := none
                 allowMissingSplits := true, missingNodeTreatment := .averageLeafWeight }

/-- **C52** is false with `AverageLeafWeight` also for a learning rate of 1: values are overwritten after the
splits were chosen.  The squared error rises from 145 to 3734/25. -/
theorem C52_average_counterexample : ∃ b', PlainFit exEnv exLeafAverage lossX lossY
      (List.replicate 9 (1 : ℚ)) none b' 0 0 0 1 ∧ exLeafAverage.objectiveType = .squaredLoss ∧
      exLeafAverage.sampleMethod = .none ∧ exLeafAverage.monotoneConstraints = none ∧
    ∃ p p' : List ℚ, ({ b' with predictionIteration := some 0 }).predict lossX = .ok (p.map FX.fin) ∧
      ({ b' with predictionIteration := some 1 }).predict lossX = .ok (p'.map FX.fin) ∧
      sqLoss lossY (List.replicate 9 (1 : ℚ)) p < sqLoss lossY (List.replicate 9 (1 : ℚ)) p' := by
  have : (match exLeafAverage.fit exEnv lossX (lossY.map q) (List.replicate 9 (q 1)) none with
    | .ok (b', .ok ()) =>
      decide (({ b' with predictionIteration := some 0 }).predict lossX =
          .ok ((List.replicate 9 (0 : ℚ)).map FX.fin) ∧
        ({ b' with predictionIteration := some 1 }).predict lossX =
          .ok (([-9 / 5, -3, 3, -1, -9 / 5, -6, -2, -9 / 5, -9 / 5] : List ℚ).map FX.fin))
    | _ => false) = true := by decide +kernel
  split at this
  · rename_i b' h
    obtain ⟨h1, h2⟩ := of_decide_eq_true this
    exact ⟨b', lossPlain rfl rfl rfl rfl rfl rfl rfl rfl ⟨_, rfl⟩ rfl h, rfl, rfl, rfl, _, _, h1, h2,
      by decide +kernel⟩
  · cases this

/-- A monotone constraint, missing values in a branch of their own. -/
def exLoss : Booster Q Q :=
  { exMixed with createMissingBranch := true, maxDepth := 3, maxLeaves := 20
                 monotoneConstraints := some [(0, .positive)], allowMissingSplits := true
                 missingNodeTreatment := .none }

/-- The hypotheses of `C52_gain_partial` are met, and the loss falls. -/
example : ∃ b', PlainFit exEnv exLoss lossX lossY (List.replicate 9 (1 : ℚ)) none b' 0 0 0 1 ∧
      ((0 : Q) ≤ᶠ exLoss.gamma) = true ∧ exLoss.missingNodeTreatment = .none ∧ b'.trees.length = 1 ∧
    ∃ p p' : List ℚ, ({ b' with predictionIteration := some 0 }).predict lossX = .ok (p.map FX.fin) ∧
      ({ b' with predictionIteration := some 1 }).predict lossX = .ok (p'.map FX.fin) ∧
      sqLoss lossY (List.replicate 9 (1 : ℚ)) p' < sqLoss lossY (List.replicate 9 (1 : ℚ)) p := by
  have : (match exLoss.fit exEnv lossX (lossY.map q) (List.replicate 9 (q 1)) none with
    | .ok (b', .ok ()) =>
      decide (b'.trees.length = 1 ∧ ({ b' with predictionIteration := some 0 }).predict lossX =
          .ok ((List.replicate 9 (0 : ℚ)).map FX.fin) ∧
        ({ b' with predictionIteration := some 1 }).predict lossX =
          .ok (([9 / 4, -9 / 4, 3, -1, 9 / 4, -6, -2, 9 / 4, 9 / 4] : List ℚ).map FX.fin))
    | _ => false) = true := by decide +kernel
  split at this
  · rename_i b' h
    obtain ⟨h0, h1, h2⟩ := of_decide_eq_true this
    exact ⟨b', lossPlain rfl rfl rfl rfl rfl rfl rfl rfl ⟨_, rfl⟩ rfl h, by decide +kernel, rfl, h0, _, _, h1, h2,
      by decide +kernel⟩
  · cases this

end Verif
