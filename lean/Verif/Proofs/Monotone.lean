import Verif.Proofs.Finite
import Verif.Spec.Monotone

/-!
# Node values respect the bounds set by monotone constraints
-/

namespace Verif

open scoped Verif

set_option linter.unusedSectionVars false

section
variable {K : Type} [Field K] [LinearOrder K] [IsStrictOrderedRing K] {m32 m64 : Fmt K}
  [m32.Exact] [m64.Exact]
variable {S : Sorter} {X : Matrix (FX m64)} {w : List K} {nbins : Nat} {missing : FX m64}
  {gv hv : Nat → K} {c : GrowCfg (FX m32) (FX m64)} {sm : SampleMethod} {rows : List Nat}
  {t : Tree (FX m32) (FX m64)} {o : SNode (FX m32) (FX m64) → Prop}
  {gs : List (Ghost (FX m32) (FX m64))} {nodes : List (Node (FX m32) (FX m64))}

/-- The value lies within the bounds. -/
def InB (lo hi : FX m32) (x : K) : Prop :=
  (lo = FX.ninf ∨ ∃ y, lo = FX.fin y ∧ y ≤ x) ∧ (hi = FX.pinf ∨ ∃ y, hi = FX.fin y ∧ x ≤ y)

theorem InB.between (lo hi : FX m32) : Between (InB lo hi) := by
  intro x y p hx hy h1 h2
  refine ⟨?_, ?_⟩
  · rcases hx.1 with h | ⟨z, h, hz⟩
    · exact .inl h
    · exact .inr ⟨z, h, hz.trans h1⟩
  · rcases hy.2 with h | ⟨z, h, hz⟩
    · exact .inl h
    · exact .inr ⟨z, h, h2.trans hz⟩

/-- Clipping yields a value within the bounds, if there is one. -/
theorem constrainedWeight_clip {l1 l2 mds g h : K} (ha : 0 < h + l2) {lower upper : FX m32} {z : K}
    (hz : InB lower upper z) {ct : Option Constraint} (hc : Constrained ct) :
    ValIn (InB lower upper)
      (constrainedWeight (FX.fin l1) (FX.fin l2) (FX.fin mds) (FX.fin g) (FX.fin h) lower upper ct) := by
  have hn : noConstraint ct = false := by rcases hc with rfl | rfl <;> rfl
  unfold constrainedWeight
  simp only [weight_fin ha.ne', hn, Bool.false_eq_true, if_false]
  have lz : lower = FX.ninf ∨ ∃ y, lower = FX.fin y ∧ y ≤ z := hz.1
  have uz : upper = FX.pinf ∨ ∃ y, upper = FX.fin y ∧ z ≤ y := hz.2
  split
  · rename_i h1
    rcases uz with rfl | ⟨u, rfl, hu⟩
    · cases h1
    · refine ⟨u, rfl, ?_, .inr ⟨u, rfl, le_rfl⟩⟩
      rcases lz with h | ⟨y, h, hy⟩
      · exact .inl h
      · exact .inr ⟨y, h, hy.trans hu⟩
  · rename_i h1
    split
    · rename_i h2
      rcases lz with rfl | ⟨y, rfl, hy⟩
      · cases h2
      · refine ⟨y, rfl, .inr ⟨y, rfl, le_rfl⟩, ?_⟩
        rcases uz with h | ⟨u, h, hu⟩
        · exact .inl h
        · exact .inr ⟨u, h, hy.trans hu⟩
    · rename_i h2
      refine ⟨_, rfl, ?_, ?_⟩
      · rcases lz with h | ⟨y, rfl, hy⟩
        · exact .inl h
        · simp only [FX.lt_fin, decide_eq_true_eq, not_lt] at h2
          exact .inr ⟨y, rfl, h2⟩
      · rcases uz with h | ⟨y, rfl, hy⟩
        · exact .inl h
        · simp only [FX.lt_fin, decide_eq_true_eq, not_lt] at h1
          exact .inr ⟨y, rfl, h1⟩

/-- A split that is not culled orders the weights of its children as the constraint asks. -/
theorem cullGain_order {g : FX m32} {x y : K} {ct : Option Constraint}
    (h : (cullGain g (FX.fin x) (FX.fin y) ct ≤ᶠ 0) = false) :
    (ct = some .positive → x < y) ∧ (ct = some .negative → y < x) := by
  refine ⟨?_, ?_⟩
  · rintro rfl
    by_contra hxy
    rw [not_lt] at hxy
    simp [cullGain, FX.le_fin, hxy] at h
    cases h
  · rintro rfl
    by_contra hxy
    rw [not_lt] at hxy
    simp [cullGain, FX.le_fin, hxy] at h
    cases h

/-- The middle of the weights of the children. -/
theorem mid_eq (x y : K) : ((FX.fin x + FX.fin y) / Fl.ofNat 2 : FX m32) = FX.fin ((x + y) / 2) := by
  rw [FX.fin_add, FX.ofNat_eq, FX.fin_div _ _ (by norm_num)]
  norm_num

/-- The bounds and weights of the children of a split. -/
structure KidBounds (ct : Option Constraint) (g gl gr : SNode (FX m32) (FX m64)) : Prop where
  left : ValIn (InB gl.lowerBound gl.upperBound) gl.weightValue
  right : ValIn (InB gr.lowerBound gr.upperBound) gr.weightValue
  subl : ∀ x : K, InB gl.lowerBound gl.upperBound x → InB g.lowerBound g.upperBound x
  subr : ∀ x : K, InB gr.lowerBound gr.upperBound x → InB g.lowerBound g.upperBound x
  pos : ct = some .positive → ∀ x y : K, InB gl.lowerBound gl.upperBound x →
    InB gr.lowerBound gr.upperBound y → x ≤ y
  neg : ct = some .negative → ∀ x y : K, InB gl.lowerBound gl.upperBound x →
    InB gr.lowerBound gr.upperBound y → y ≤ x
  free : ¬ Constrained ct → (gl.lowerBound = g.lowerBound ∧ gl.upperBound = g.upperBound) ∧
    gr.lowerBound = g.lowerBound ∧ gr.upperBound = g.upperBound

/-- Splitting a node whose weight is within its bounds; a split on an unconstrained feature needs
absent bounds. -/
theorem GrowView.kidBounds (hV : GrowView gv hv c rows o gs nodes)
    (hT : TrainedOn S X w nbins missing gv hv c sm rows) {l1 l2 mds lr : K}
    (hP : PlainParams c hv rows l1 l2 mds lr) {i : Nat} {n : Node (FX m32) (FX m64)}
    {g : Ghost (FX m32) (FX m64)} {info : SplitInfo (FX m32) (FX m64)} {k : Nat}
    {kids : List (Kid (FX m32) (FX m64))} (hI : Internal c gs nodes i n g info k kids)
    (hw : ValIn (InB g.sn.lowerBound g.sn.upperBound) g.sn.weightValue)
    (hc : Constrained (c.splitter.params.getConstraint info.splitFeature) ∨
      (g.sn.lowerBound = FX.ninf ∧ g.sn.upperBound = FX.pinf)) :
    (∀ gl gr, gs[n.leftChild]? = some gl → gs[n.rightChild]? = some gr →
      KidBounds (c.splitter.params.getConstraint info.splitFeature) g.sn gl.sn gr.sn) ∧
    ((∃ p, c.splitter = .branch p) → ∀ gm, gs[n.missingNode]? = some gm →
      gm.sn.lowerBound = g.sn.lowerBound ∧ gm.sn.upperBound = g.sn.upperBound ∧
      ValIn (InB gm.sn.lowerBound gm.sn.upperBound) gm.sn.weightValue) := by
  obtain ⟨a, lg, lh, rg, rh, mg, mh, clg, clh, crg, crh, hE⟩ := hV.evalFacts hT hP.hess hI
  obtain ⟨gl, gr, x1, x2, x3, x4, _⟩ := hI.sides
  have hfin := hV.stateIn hT hP (B := fun _ => True) (fun _ _ _ _ _ _ _ => trivial) fun _ _ _ => trivial
  have hcw : ∀ x y, 0 < y → ValIn (InB g.sn.lowerBound g.sn.upperBound)
      (c.splitter.params.cw a (FX.fin x) (FX.fin y)) := by
    intro x y hy
    have := hP.l2_nonneg
    simp only [SplitParams.cw, hP.l1_eq, hP.l2_eq, hP.mds_eq, hE.lower, hE.upper, hE.constraint]
    rcases hc with hc | ⟨h1, h2⟩
    · obtain ⟨z, _, hz⟩ := hw
      exact constrainedWeight_clip (by linarith) hz hc
    · rw [h1, h2]
      obtain ⟨z, hz, _⟩ := constrainedWeight_in (B := fun _ => True) (l1 := l1) (l2 := l2) (mds := mds)
        (g := x) (h := y) (by linarith) trivial (.inl rfl : LowIn (fun _ => True) (FX.ninf : FX m32))
        (.inl rfl : HighIn (fun _ => True) (FX.pinf : FX m32))
        (c.splitter.params.getConstraint info.splitFeature)
      exact ⟨z, hz, .inl rfl, .inl rfl⟩
  obtain ⟨wl, wr⟩ := hE.main_in hcw hw
  obtain ⟨b1, b2, b3, b4, sc, hcull⟩ := bestSplit_bounds hI.isSplit.best
  refine ⟨fun gl' gr' hgl hgr => ?_, ?_⟩
  · rw [x1] at hgl; cases hgl
    rw [x2] at hgr; cases hgr
    obtain ⟨x, hx, hx'⟩ := wl
    obtain ⟨y, hy, hy'⟩ := wr
    rw [hx, hy] at hcull b1 b2 b3 b4
    rw [mid_eq] at b1 b2 b3 b4
    obtain ⟨ho1, ho2⟩ := cullGain_order hcull
    have ewl : gl.sn.weightValue = FX.fin x := by rw [x3.weight, hx]
    have ewr : gr.sn.weightValue = FX.fin y := by rw [x4.weight, hy]
    rw [← x3.lower] at b1
    rw [← x3.upper] at b2
    rw [← x4.lower] at b3
    rw [← x4.upper] at b4
    have split : ∀ (lo hi : FX m32) (x y z : K), InB lo hi x → InB lo hi y → x < y →
        (InB lo (FX.fin ((x + y) / 2)) z → InB lo hi z) ∧
        (InB (FX.fin ((x + y) / 2)) hi z → InB lo hi z) ∧ InB lo (FX.fin ((x + y) / 2)) x ∧
        InB (FX.fin ((x + y) / 2)) hi y := by
      intro lo hi x y z hx hy hxy
      have m1 : x ≤ (x + y) / 2 := by linarith
      have m2 : (x + y) / 2 ≤ y := by linarith
      refine ⟨fun hz => ⟨hz.1, ?_⟩, fun hz => ⟨?_, hz.2⟩, ⟨hx.1, .inr ⟨_, rfl, m1⟩⟩,
        ⟨.inr ⟨_, rfl, m2⟩, hy.2⟩⟩
      · rcases hz.2 with h | ⟨u, h, hu⟩
        · cases h
        · cases h
          rcases hy.2 with h | ⟨u', h, hu'⟩
          · exact .inl h
          · exact .inr ⟨u', h, by linarith⟩
      · rcases hz.1 with h | ⟨u, h, hu⟩
        · cases h
        · cases h
          rcases hx.1 with h | ⟨u', h, hu'⟩
          · exact .inl h
          · exact .inr ⟨u', h, by linarith⟩
    have sep : ∀ (lo hi : FX m32) (m x y : K), InB lo (FX.fin m) x → InB (FX.fin m) hi y → x ≤ y := by
      intro lo hi m x y hx hy
      rcases hx.2 with h | ⟨u, h, hu⟩
      · cases h
      · cases h
        rcases hy.1 with h | ⟨u, h, hu'⟩
        · cases h
        · cases h; exact hu.trans hu'
    generalize hct : c.splitter.params.getConstraint info.splitFeature = ct at b1 b2 b3 b4 ho1 ho2 hc ⊢
    match ct with
    | none =>
      simp only [childBounds] at b1 b2 b3 b4
      exact ⟨by rw [b1, b2, ewl]; exact ⟨x, rfl, hx'⟩, by rw [b3, b4, ewr]; exact ⟨y, rfl, hy'⟩,
        by rw [b1, b2]; exact fun _ h => h, by rw [b3, b4]; exact fun _ h => h, (fun h => nomatch h),
        (fun h => nomatch h), fun _ => ⟨⟨b1, b2⟩, b3, b4⟩⟩
    | some .unconstrained =>
      simp only [childBounds] at b1 b2 b3 b4
      exact ⟨by rw [b1, b2, ewl]; exact ⟨x, rfl, hx'⟩, by rw [b3, b4, ewr]; exact ⟨y, rfl, hy'⟩,
        by rw [b1, b2]; exact fun _ h => h, by rw [b3, b4]; exact fun _ h => h, (fun h => nomatch h),
        (fun h => nomatch h), fun _ => ⟨⟨b1, b2⟩, b3, b4⟩⟩
    | some .positive =>
      simp only [childBounds] at b1 b2 b3 b4
      have hxy := ho1 rfl
      exact ⟨by rw [b1, b2, ewl]; exact ⟨x, rfl, (split _ _ _ _ x hx' hy' hxy).2.2.1⟩,
        by rw [b3, b4, ewr]; exact ⟨y, rfl, (split _ _ _ _ x hx' hy' hxy).2.2.2⟩,
        by rw [b1, b2]; exact fun z => (split _ _ _ _ z hx' hy' hxy).1,
        by rw [b3, b4]; exact fun z => (split _ _ _ _ z hx' hy' hxy).2.1,
        by rw [b1, b2, b3, b4]; exact fun _ x y => sep _ _ _ x y, (fun h => nomatch h),
        fun h => absurd (.inl rfl) h⟩
    | some .negative =>
      simp only [childBounds] at b1 b2 b3 b4
      have hxy := ho2 rfl
      rw [add_comm x y] at b1 b4
      exact ⟨by rw [b1, b2, ewl]; exact ⟨x, rfl, (split _ _ _ _ x hy' hx' hxy).2.2.2⟩,
        by rw [b3, b4, ewr]; exact ⟨y, rfl, (split _ _ _ _ x hy' hx' hxy).2.2.1⟩,
        by rw [b1, b2]; exact fun z => (split _ _ _ _ z hy' hx' hxy).2.1,
        by rw [b3, b4]; exact fun z => (split _ _ _ _ z hy' hx' hxy).1,
        (fun h => nomatch h), by rw [b1, b2, b3, b4]; exact fun _ x y hx hy => sep _ _ _ y x hy hx,
        fun h => absurd (.inr rfl) h⟩
  · rintro ⟨p, hp⟩ gm hgm
    obtain ⟨gm', isLeaf, minfo, feature, rows', j, k', y1, y2, y3, y4, _, y5, y6, _⟩ :=
      hI.missingSide hp
    rw [hgm] at y4; cases y4
    obtain ⟨rfl, rfl, rfl, rfl, _, mi, z1, z2, z3, z4, _⟩ := hE.branch p hp
    have := missingChild_eq y1 z1; subst this
    have hpp : p.toSplitParams = c.splitter.params := by rw [hp]; rfl
    have hmw := branchMissingWeight_in (InB.between _ _) (p := p) (a := a) (by rw [hpp]; exact hcw)
      hE.lg_eq hE.lh_eq hE.rg_eq hE.rh_eq hE.mg_eq hE.mh_eq hE.lpos hE.rpos hE.mh_nonneg
      (by rw [hE.parent]; exact hw) wl wr
    have e1 : gm.sn.lowerBound = g.sn.lowerBound := by
      rw [y6.lower]
      split
      · simp only [z3, hE.lower]
      · rw [z3, hE.lower]
    have e2 : gm.sn.upperBound = g.sn.upperBound := by
      rw [y6.upper]
      split
      · simp only [z4, hE.upper]
      · rw [z4, hE.upper]
    refine ⟨e1, e2, ?_⟩
    rw [e1, e2]
    split at y6
    · rw [y6.weight]; exact hw
    · rw [y6.weight, z2]; exact hmw

/-- In trees with only constrained splits below constrained splits, all weights are within the bounds of
their nodes. -/
theorem FitView.inBounds (hV : FitView X missing gv hv c rows t o gs nodes)
    (hT : TrainedOn S X w nbins missing gv hv c sm rows) {l1 l2 mds lr : K}
    (hP : PlainParams c hv rows l1 l2 mds lr)
    (hs : OnlyConstrainedBelow c.splitter.params.getConstraint t.nodes) :
    ∀ (i : Nat) (g : Ghost (FX m32) (FX m64)), gs[i]? = some g →
      ValIn (InB g.sn.lowerBound g.sn.upperBound) g.sn.weightValue ∧
      ((g.sn.lowerBound = FX.ninf ∧ g.sn.upperBound = FX.pinf) ∨
        ∃ (a : Nat) (na : Node (FX m32) (FX m64)), t.nodes[a]? = some na ∧ na.isLeaf = false ∧
          Constrained (c.splitter.params.getConstraint na.splitFeature) ∧ Below t.nodes a i) := by
  have hfin := hV.stateIn hT hP (B := fun _ => True) (fun _ _ _ _ _ _ _ => trivial) fun _ _ _ => trivial
  refine hV.cert.induct hV.shape ?_ ?_
  · intro g hg
    obtain ⟨g0, h0, h1, n, hists, h2⟩ := hV.root
    obtain ⟨x, hx, _⟩ := (hfin 0 g hg).weight
    rw [hg] at h0; cases h0
    have e1 : g.sn.lowerBound = FX.ninf := by rw [h2]; rfl
    have e2 : g.sn.upperBound = FX.pinf := by rw [h2]; rfl
    exact ⟨⟨x, hx, .inl e1, .inl e2⟩, .inl ⟨e1, e2⟩⟩
  · rintro i n g info k kids hn hl hI ⟨hw, ho⟩
    have hsf : n.splitFeature = info.splitFeature := hI.feature
    have hc : Constrained (c.splitter.params.getConstraint info.splitFeature) ∨
        (g.sn.lowerBound = FX.ninf ∧ g.sn.upperBound = FX.pinf) := by
      rcases ho with ho | ⟨a, na, h1, h2, h3, h4⟩
      · exact .inr ho
      · left
        rw [← hsf]
        exact hs a i na n h1 h2 h3 h4 hn hl
    obtain ⟨hk, hm⟩ := hV.growView.kidBounds hT hP hI hw hc
    have down : ∀ j, n.IsChild j → ((∃ (a : Nat) (na : Node (FX m32) (FX m64)), t.nodes[a]? = some na ∧
        na.isLeaf = false ∧ Constrained (c.splitter.params.getConstraint na.splitFeature) ∧
        Below t.nodes a i) ∨ Constrained (c.splitter.params.getConstraint info.splitFeature)) →
        ∃ (a : Nat) (na : Node (FX m32) (FX m64)), t.nodes[a]? = some na ∧
        na.isLeaf = false ∧ Constrained (c.splitter.params.getConstraint na.splitFeature) ∧
        Below t.nodes a j := by
      rintro j hj (⟨a, na, h1, h2, h3, h4⟩ | h)
      · exact ⟨a, na, h1, h2, h3, .step h4 hn hj⟩
      · exact ⟨i, n, hn, hl, by rw [hsf]; exact h, .child hn hj⟩
    obtain ⟨gl, gr, x1, x2, _⟩ := hI.sides
    have hK := hk gl gr x1 x2
    refine ⟨fun g' hg' => ?_, fun g' hg' => ?_, fun hb gm hgm => ?_⟩
    · rw [x1] at hg'; cases hg'
      refine ⟨hK.left, ?_⟩
      by_cases hcon : Constrained (c.splitter.params.getConstraint info.splitFeature)
      · exact .inr (down _ ⟨hl, .inl rfl⟩ (.inr hcon))
      · rcases ho with ⟨h1, h2⟩ | ho
        · obtain ⟨⟨f1, f2⟩, _⟩ := hK.free hcon
          exact .inl ⟨by rw [f1, h1], by rw [f2, h2]⟩
        · exact .inr (down _ ⟨hl, .inl rfl⟩ (.inl ho))
    · rw [x2] at hg'; cases hg'
      refine ⟨hK.right, ?_⟩
      by_cases hcon : Constrained (c.splitter.params.getConstraint info.splitFeature)
      · exact .inr (down _ ⟨hl, .inr (.inl rfl)⟩ (.inr hcon))
      · rcases ho with ⟨h1, h2⟩ | ho
        · obtain ⟨_, f1, f2⟩ := hK.free hcon
          exact .inl ⟨by rw [f1, h1], by rw [f2, h2]⟩
        · exact .inr (down _ ⟨hl, .inr (.inl rfl)⟩ (.inl ho))
    · obtain ⟨e1, e2, e3⟩ := hm hb gm hgm
      refine ⟨e3, ?_⟩
      rcases ho with ⟨h1, h2⟩ | ho
      · exact .inl ⟨by rw [e1, h1], by rw [e2, h2]⟩
      · exact .inr (down _ ⟨hl, .inr (.inr rfl)⟩ (.inl ho))

/-- What the bounds of node `i` allow as its value. -/
def Allowed (gs : List (Ghost (FX m32) (FX m64))) (lr : K) (i : Nat) (x : K) : Prop :=
  ∃ (g : Ghost (FX m32) (FX m64)) (y : K), gs[i]? = some g ∧ InB g.sn.lowerBound g.sn.upperBound y ∧
    x = y * lr

/-- Values of the tree are allowed; what is allowed below a node is allowed for the node; what is
allowed for the two sides of a constrained split is ordered. -/
theorem FitView.allowed (hV : FitView X missing gv hv c rows t o gs nodes)
    (hT : TrainedOn S X w nbins missing gv hv c sm rows) {l1 l2 mds lr : K}
    (hP : PlainParams c hv rows l1 l2 mds lr) (hlr : 0 ≤ lr)
    (hs : OnlyConstrainedBelow c.splitter.params.getConstraint t.nodes) :
    (∀ (i : Nat) (n : Node (FX m32) (FX m64)), t.nodes[i]? = some n →
      ValIn (Allowed gs lr i) n.weightValue) ∧
    (∀ (i : Nat) (n : Node (FX m32) (FX m64)) (j : Nat), t.nodes[i]? = some n → n.IsChild j →
      ∀ x, Allowed gs lr j x → Allowed gs lr i x) ∧
    (∀ (i : Nat) (n : Node (FX m32) (FX m64)), t.nodes[i]? = some n → n.isLeaf = false →
      ∀ x y, Allowed gs lr n.leftChild x → Allowed gs lr n.rightChild y →
      (c.splitter.params.getConstraint n.splitFeature = some .positive → x ≤ y) ∧
      (c.splitter.params.getConstraint n.splitFeature = some .negative → y ≤ x)) := by
  have hb := hV.inBounds hT hP hs
  have hkid : ∀ (i : Nat) (n : Node (FX m32) (FX m64)), t.nodes[i]? = some n → n.isLeaf = false →
      ∃ g gl gr, gs[i]? = some g ∧ gs[n.leftChild]? = some gl ∧ gs[n.rightChild]? = some gr ∧
        KidBounds (c.splitter.params.getConstraint n.splitFeature) g.sn gl.sn gr.sn ∧
        ((∃ p, c.splitter = .branch p) → ∃ gm, gs[n.missingNode]? = some gm ∧
          gm.sn.lowerBound = g.sn.lowerBound ∧ gm.sn.upperBound = g.sn.upperBound) ∧
        ((∃ p, c.splitter = .imputer p) → n.missingNode = n.leftChild ∨ n.missingNode = n.rightChild) := by
    intro i n hn hl
    obtain ⟨g, info, k, kids, hI⟩ := hV.cert.internal hV.shape hn hl
    obtain ⟨hw, ho⟩ := hb i g hI.ghost
    have hsf : n.splitFeature = info.splitFeature := hI.feature
    have hc : Constrained (c.splitter.params.getConstraint info.splitFeature) ∨
        (g.sn.lowerBound = FX.ninf ∧ g.sn.upperBound = FX.pinf) := by
      rcases ho with ho | ⟨a, na, h1, h2, h3, h4⟩
      · exact .inr ho
      · left
        rw [← hsf]
        exact hs a i na n h1 h2 h3 h4 hn hl
    obtain ⟨hk, hm⟩ := hV.growView.kidBounds hT hP hI hw hc
    obtain ⟨gl, gr, x1, x2, _⟩ := hI.sides
    refine ⟨g, gl, gr, hI.ghost, x1, x2, by rw [hsf]; exact hk gl gr x1 x2, ?_, ?_⟩
    · rintro ⟨p, hp⟩
      obtain ⟨gm, _, _, _, _, _, _, _, _, _, y4, _⟩ := hI.missingSide hp
      obtain ⟨e1, e2, _⟩ := hm ⟨p, hp⟩ gm y4
      exact ⟨gm, y4, e1, e2⟩
    · rintro ⟨p, hp⟩
      have e1 := hI.left
      have e2 := hI.right
      have e3 := hI.missing
      rw [hp] at e1 e2 e3
      simp only [Splitter.links] at e1 e2 e3
      rw [e1, e2, e3]
      split
      · exact .inl rfl
      · exact .inr rfl
  have hmono : ∀ (i : Nat) (n : Node (FX m32) (FX m64)) (j : Nat), t.nodes[i]? = some n → n.IsChild j →
      ∀ x, Allowed gs lr j x → Allowed gs lr i x := by
    rintro i n j hn ⟨hl, hj⟩ x ⟨g', y, hg', hy, rfl⟩
    obtain ⟨g, gl, gr, h1, h2, h3, hK, hm, hi⟩ := hkid i n hn hl
    refine ⟨g, y, h1, ?_, rfl⟩
    have hL : j = n.leftChild → InB g.sn.lowerBound g.sn.upperBound y := by
      rintro rfl
      rw [h2] at hg'; cases hg'
      exact hK.subl y hy
    have hR : j = n.rightChild → InB g.sn.lowerBound g.sn.upperBound y := by
      rintro rfl
      rw [h3] at hg'; cases hg'
      exact hK.subr y hy
    rcases hj with hj | hj | hj
    · exact hL hj
    · exact hR hj
    · cases hsp : c.splitter with
      | imputer p =>
        rcases hi ⟨p, hsp⟩ with h | h
        · exact hL (hj.trans h)
        · exact hR (hj.trans h)
      | branch p =>
        obtain ⟨gm, d1, d2, d3⟩ := hm ⟨p, hsp⟩
        subst hj
        rw [d1] at hg'; cases hg'
        rw [← d2, ← d3]
        exact hy
  refine ⟨fun i n hn => ?_, hmono, ?_⟩
  · refine hV.valueIn hT hP.hess (C := Allowed gs lr) ?_ ?_ hmono ?_ hn
    · rintro i x y p ⟨g, x', h1, h2, rfl⟩ ⟨g', y', h3, h4, rfl⟩ hx hy
      rw [h1] at h3; cases h3
      rcases hlr.eq_or_lt with rfl | hlr
      · rw [mul_zero] at hx hy
        exact ⟨g, x', h1, h2, by rw [mul_zero]; exact le_antisymm hy hx⟩
      · refine ⟨g, p / lr, h1, InB.between _ _ x' y' _ h2 h4 ?_ ?_, by field_simp⟩
        · rw [le_div_iff₀ hlr]; exact hx
        · rw [div_le_iff₀ hlr]; exact hy
    · intro i g hg
      obtain ⟨y, h1, h2⟩ := (hb i g hg).1
      exact ⟨y * lr, by rw [h1, hP.lr_eq, FX.fin_mul], g, y, hg, h2, rfl⟩
    · rintro i n hn hl ⟨p, hp⟩ x ⟨g', y, hg', hy, rfl⟩
      obtain ⟨g, gl, gr, h1, h2, h3, hK, hm, hi⟩ := hkid i n hn hl
      rw [h1] at hg'; cases hg'
      obtain ⟨gm, d1, d2, d3⟩ := hm ⟨p, hp⟩
      exact ⟨gm, y, d1, by rw [d2, d3]; exact hy, rfl⟩
  · rintro i n hn hl x y ⟨gl', x', h1, h2, rfl⟩ ⟨gr', y', h3, h4, rfl⟩
    obtain ⟨g, gl, gr, e1, e2, e3, hK, hm, hi⟩ := hkid i n hn hl
    rw [e2] at h1; cases h1
    rw [e3] at h3; cases h3
    exact ⟨fun h => mul_le_mul_of_nonneg_right (hK.pos h _ _ h2 h4) hlr,
      fun h => mul_le_mul_of_nonneg_right (hK.neg h _ _ h2 h4) hlr⟩

/-- The value of the leaf of a row is allowed for every node on its way. -/
theorem Route.allowed {C : Nat → K → Prop} {nodes : List (Node (FX m32) (FX m64))}
    (hv : ∀ (i : Nat) (n : Node (FX m32) (FX m64)), nodes[i]? = some n → ValIn (C i) n.weightValue)
    (hm : ∀ (i : Nat) (n : Node (FX m32) (FX m64)) (j : Nat), nodes[i]? = some n → n.IsChild j →
      ∀ x, C j x → C i x) {row : Nat → Option (FX m64)} {missing : FX m64} {i : Nat}
    {l : Node (FX m32) (FX m64)} (h : Route nodes row missing i l) : ValIn (C i) l.weightValue := by
  induction h with
  | leaf h1 h2 => exact hv _ _ h1
  | step h1 h2 h3 h4 _ ih =>
    obtain ⟨x, hx, hx'⟩ := ih
    refine ⟨x, hx, hm _ _ _ h1 ⟨h2, ?_⟩ x hx'⟩
    unfold Node.childFor
    split
    · exact .inr (.inr rfl)
    · split
      · exact .inl rfl
      · exact .inr (.inl rfl)

theorem FX.lt_of_le_of_lt {a b d : FX m64} (h1 : (a ≤ᶠ b) = true) (h2 : (b <ᶠ d) = true) :
    (a <ᶠ d) = true := by
  cases a <;> cases b <;> cases d <;> first | (cases h1; done) | (cases h2; done) | rfl | skip
  simp only [FX.le_fin, FX.lt_fin, decide_eq_true_eq] at *
  exact _root_.lt_of_le_of_lt h1 h2

/-- Leaf values of comparable rows are ordered. -/
theorem FitView.monotone (hV : FitView X missing gv hv c rows t o gs nodes)
    (hT : TrainedOn S X w nbins missing gv hv c sm rows) {l1 l2 mds lr : K}
    (hP : PlainParams c hv rows l1 l2 mds lr) (hlr : 0 ≤ lr)
    (hs : OnlyConstrainedBelow c.splitter.params.getConstraint t.nodes) {f : Nat}
    {row row' : Nat → Option (FX m64)} {msg : FX m64}
    (hr : Comparable c.splitter.params.getConstraint msg f row row') :
    ∀ (i : Nat) (l l' : Node (FX m32) (FX m64)), Route t.nodes row msg i l →
      Route t.nodes row' msg i l' → ∃ x x', l.weightValue = FX.fin x ∧ l'.weightValue = FX.fin x' ∧
        x ≤ x' := by
  obtain ⟨hv, hm, ho⟩ := hV.allowed hT hP hlr hs
  intro i l l' h
  induction h with
  | leaf h1 h2 =>
    intro h'
    cases h' with
    | leaf g1 g2 =>
      rw [h1] at g1; cases g1
      obtain ⟨x, hx, _⟩ := hv _ _ h1
      exact ⟨x, x, hx, hx, le_rfl⟩
    | step g1 g2 => rw [h1] at g1; cases g1; rw [h2] at g2; cases g2
  | @step i n l v h1 h2 h3 h4 h5 ih =>
    intro h'
    cases h' with
    | leaf g1 g2 => rw [h1] at g1; cases g1; rw [h2] at g2; cases g2
    | @step _ _ _ v' g1 g2 g3 g4 g5 =>
      rw [h1] at g1; cases g1
      by_cases hf : n.splitFeature = f
      · obtain ⟨u, u', e1, e2, e3, e4, e5⟩ := hr.present
        subst hf
        rw [h3] at e1; cases e1
        rw [g3] at e2; cases e2
        have c1 : n.childFor msg v = if (v <ᶠ n.splitValue) = true then n.leftChild else n.rightChild := by
          unfold Node.childFor; rw [if_neg e3]
        have c2 : n.childFor msg v' = if (v' <ᶠ n.splitValue) = true then n.leftChild else n.rightChild := by
          unfold Node.childFor; rw [if_neg e4]
        have a1 := h5.allowed hv hm
        have a2 := g5.allowed hv hm
        by_cases p1 : (v <ᶠ n.splitValue) = true <;> by_cases p2 : (v' <ᶠ n.splitValue) = true
        · refine ih ?_
          rw [c1, if_pos p1]
          rw [c2, if_pos p2] at g5
          exact g5
        · rw [c1, if_pos p1] at a1
          rw [c2, if_neg p2] at a2
          obtain ⟨x, hx, hx'⟩ := a1
          obtain ⟨y, hy, hy'⟩ := a2
          refine ⟨x, y, hx, hy, ?_⟩
          rcases e5 with ⟨k1, k2⟩ | ⟨k1, k2⟩
          · exact (ho i n h1 h2 x y hx' hy').1 k1
          · exact absurd (FX.lt_of_le_of_lt k2 p1) p2
        · rw [c1, if_neg p1] at a1
          rw [c2, if_pos p2] at a2
          obtain ⟨x, hx, hx'⟩ := a1
          obtain ⟨y, hy, hy'⟩ := a2
          refine ⟨x, y, hx, hy, ?_⟩
          rcases e5 with ⟨k1, k2⟩ | ⟨k1, k2⟩
          · exact absurd (FX.lt_of_le_of_lt k2 p2) p1
          · exact (ho i n h1 h2 y x hy' hx').2 k1
        · refine ih ?_
          rw [c1, if_neg p1]
          rw [c2, if_neg p2] at g5
          exact g5
      · rw [hr.same _ hf, g3] at h3
        cases h3
        exact ih g5

end
end Verif
