import Verif.Proofs.CleanUp

/-!
# Two trees grown from the same data in different orders
-/

namespace Verif

open scoped Verif

set_option linter.unusedSectionVars false

section
variable {F D : Type} [Fl F] [Fl D] [FlCast F D]

/-! ### The number of a node does not matter -/

theorem bestFeatureLoop_num (s : Splitter F) (sn : SNode F D) (m f : Nat) (ct : Option Constraint)
    (mb : Bin F D) (l : List (Bin F D)) : ∀ i cg ch best,
    bestFeatureLoop s { sn with num := m } f ct mb l i cg ch best =
      bestFeatureLoop s sn f ct mb l i cg ch best := by
  induction l with
  | nil => intro i cg ch best; rfl
  | cons b l ih =>
    intro i cg ch best
    rw [bestFeatureLoop, bestFeatureLoop]
    have : evalCandidate s { sn with num := m } f ct mb b i cg ch =
      evalCandidate s sn f ct mb b i cg ch := rfl
    rw [this]
    congr 1
    funext r
    exact ih _ _ _ _

theorem bestFeatureSplit_num (s : Splitter F) (sn : SNode F D) (m f i : Nat) :
    bestFeatureSplit s { sn with num := m } f i = bestFeatureSplit s sn f i := by
  unfold bestFeatureSplit
  simp only [bestFeatureLoop_num]

theorem bestSplit_num (s : Splitter F) (sn : SNode F D) (m : Nat) (cols : List Nat) :
    bestSplit s { sn with num := m } cols = bestSplit s sn cols := by
  unfold bestSplit
  generalize 0 = i, (0 : F) = g, (none : Option (SplitInfo F D)) = best
  induction cols generalizing i g best with
  | nil => rfl
  | cons f l ih => simp only [bestSplitLoop, bestFeatureSplit_num, ih]

theorem kidsOf_num (s : Splitter F) (t : TrainData F D) (sn : SNode F D) (m : Nat) (rows : List Nat)
    (info : SplitInfo F D) : kidsOf s t { sn with num := m } rows info = kidsOf s t sn rows info := by
  cases s <;> rfl

/-! ### Twins -/

/-- Same splitter, data and depth limit. -/
structure SameCfg (c c' : GrowCfg F D) : Prop where
  splitter : c'.splitter = c.splitter
  train : c'.train = c.train
  maxDepth : c'.maxDepth = c.maxDepth

/-- The nodes `i` and `i'` of two trees were created with the same content. -/
def Alike (gs gs' : List (Ghost F D)) (i i' : Nat) : Prop :=
  ∃ g g', gs[i]? = some g ∧ gs'[i']? = some g' ∧ g'.sn = { g.sn with num := i' } ∧ g'.rows = g.rows

/-- The nodes `i` and `i'` of two trees are reached from the roots by the same path. -/
inductive Twin (a : Nat) (gs gs' : List (Ghost F D)) : Nat → Nat → Prop
  | root : Twin a gs gs' 0 0
  | child {i i' k k' j : Nat} {g g' : Ghost F D} {info : SplitInfo F D} (h : Twin a gs gs' i i')
      (hg : gs[i]? = some g) (hg' : gs'[i']? = some g') (hi : g.info = some (info, k))
      (hi' : g'.info = some (info, k')) (hj : j < a) : Twin a gs gs' (k + j) (k' + j)

/-- A certificate of a tree that no limit on leaves cut short. -/
abbrev FullCert (c : GrowCfg F D) (gs : List (Ghost F D)) (N : List (Node F D)) : Prop :=
  Cert c (fun _ => False) gs N

section
variable {c c' : GrowCfg F D} {gs gs' : List (Ghost F D)} {N N' : List (Node F D)}

theorem Alike.cases (hc : SameCfg c c') (h : FullCert c gs N) (h' : FullCert c' gs' N') {i i' : Nat}
    (ha : Alike gs gs' i i') : ∃ g g', gs[i]? = some g ∧ gs'[i']? = some g' ∧
      g'.sn = { g.sn with num := i' } ∧ g'.rows = g.rows ∧
      ((g.info = none ∧ g'.info = none ∧
        N[i]? = some (g.sn.asNode c.splitter.params.learningRate) ∧
        N'[i']? = some { g.sn.asNode c.splitter.params.learningRate with num := i' }) ∨
       ∃ info k k' kids, g.info = some (info, k) ∧ g'.info = some (info, k') ∧
        IsSplit c gs N i g info k kids ∧ IsSplit c' gs' N' i' g' info k' kids) := by
  obtain ⟨g, g', hg, hg', hsn, hrows⟩ := ha
  refine ⟨g, g', hg, hg', hsn, hrows, ?_⟩
  have hb : bestSplit c'.splitter g'.sn c'.train.colIndex =
      bestSplit c.splitter g.sn c.train.colIndex := by
    rw [hsn, bestSplit_num, hc.splitter, hc.train]
  have hcl : Closed c' g'.sn ↔ Closed c g.sn := by
    unfold Closed
    rw [hb, hc.maxDepth, hsn]
  have open_ : ∀ {info k kids}, IsSplit c gs N i g info k kids → ¬ Closed c g.sn := by
    rintro info k kids hS (h | h | h)
    · rw [hS.notMissing] at h; cases h
    · have := hS.depth; omega
    · rw [hS.best] at h; cases h
  have open_' : ∀ {info k kids}, IsSplit c' gs' N' i' g' info k kids → ¬ Closed c' g'.sn := by
    rintro info k kids hS (h | h | h)
    · rw [hS.notMissing] at h; cases h
    · have := hS.depth; omega
    · rw [hS.best] at h; cases h
  cases hi : g.info with
  | none =>
    have hl := h.leaf i g hg hi
    have hcl1 : Closed c g.sn := hl.2.elim (fun h => h.elim) id
    cases hi' : g'.info with
    | none =>
      left
      refine ⟨rfl, rfl, hl.1, ?_⟩
      rw [(h'.leaf i' g' hg' hi').1, hsn, hc.splitter]
      rfl
    | some p =>
      obtain ⟨info, k⟩ := p
      obtain ⟨kids, hS⟩ := h'.split i' g' info k hg' hi'
      exact absurd (hcl.2 hcl1) (open_' hS)
  | some p =>
    obtain ⟨info, k⟩ := p
    obtain ⟨kids, hS⟩ := h.split i g info k hg hi
    cases hi' : g'.info with
    | none =>
      have hcl1 : Closed c' g'.sn := (h'.leaf i' g' hg' hi').2.elim (fun h => h.elim) id
      exact absurd (hcl.1 hcl1) (open_ hS)
    | some p' =>
      obtain ⟨info', k'⟩ := p'
      obtain ⟨kids', hS'⟩ := h'.split i' g' info' k' hg' hi'
      have e1 : info' = info := by
        have := hS'.best
        rw [hb, hS.best] at this
        cases this; rfl
      subst e1
      have e2 : kids' = kids := by
        have := hS'.kids_eq
        rw [hsn, hrows, kidsOf_num, hc.splitter, hc.train, hS.kids_eq] at this
        cases this; rfl
      subst e2
      exact .inr ⟨info', k, k', kids', rfl, rfl, hS, hS'⟩

theorem Twin.alike (hc : SameCfg c c') (h : FullCert c gs N) (h' : FullCert c' gs' N')
    (h0 : Alike gs gs' 0 0) {i i' : Nat} (ht : Twin c.splitter.arity gs gs' i i') : Alike gs gs' i i' := by
  induction ht with
  | root => exact h0
  | @child i i' k k' j g g' info ht hg hg' hi hi' hj ih =>
    obtain ⟨g1, g1', a1, a2, hsn, hrows, hx⟩ := ih.cases hc h h'
    rw [hg] at a1; cases a1
    rw [hg'] at a2; cases a2
    rcases hx with ⟨b1, _⟩ | ⟨info1, k1, k1', kids, b1, b2, hS, hS'⟩
    · rw [hi] at b1; cases b1
    · rw [hi] at b1; cases b1
      rw [hi'] at b2; cases b2
      have hlt : j < kids.length := by rw [hS.arity]; exact hj
      obtain ⟨x, x1, x2, x3, _⟩ := hS.kid j _ (List.getElem?_eq_getElem hlt)
      obtain ⟨y, y1, y2, y3, _⟩ := hS'.kid j _ (List.getElem?_eq_getElem hlt)
      exact ⟨x, y, x1, y1, by rw [y2, x2], by rw [y3, x3]⟩

/-- Twins hold the same kind of node. -/
theorem Twin.cases (hc : SameCfg c c') (h : FullCert c gs N) (h' : FullCert c' gs' N')
    (h0 : Alike gs gs' 0 0) {i i' : Nat} (ht : Twin c.splitter.arity gs gs' i i') :
    ∃ n n', N[i]? = some n ∧ N'[i']? = some n' ∧ n'.weightValue = n.weightValue ∧
      n'.hessianSum = n.hessianSum ∧ n'.isLeaf = n.isLeaf ∧
      (n.isLeaf = false → n'.splitFeature = n.splitFeature ∧ n'.splitValue = n.splitValue ∧
        Twin c.splitter.arity gs gs' n.leftChild n'.leftChild ∧
        Twin c.splitter.arity gs gs' n.rightChild n'.rightChild ∧
        Twin c.splitter.arity gs gs' n.missingNode n'.missingNode) := by
  obtain ⟨g, g', hg, hg', hsn, hrows, hx⟩ := (ht.alike hc h h' h0).cases hc h h'
  rcases hx with ⟨b1, b2, b3, b4⟩ | ⟨info, k, k', kids, b1, b2, hS, hS'⟩
  · refine ⟨_, _, b3, b4, rfl, rfl, rfl, fun hl => ?_⟩
    simp only [SNode.asNode, (h.num i g hg).2] at hl
    cases hl
  · refine ⟨_, _, hS.node, hS'.node, ?_, ?_, rfl, fun _ => ⟨rfl, rfl, ?_⟩⟩
    · rw [hsn, hc.splitter]; rfl
    · rw [hsn]; rfl
    · have hT : ∀ j, j < c.splitter.arity → Twin c.splitter.arity gs gs' (k + j) (k' + j) :=
        fun j hj => ht.child hg hg' b1 b2 hj
      simp only [Node.makeParentNode, Splitter.parentNode, SNode.updateChildren, Splitter.links,
        hc.splitter]
      cases hs : c.splitter with
      | imputer p =>
        rw [hs] at hT
        have h0 := hT 0 (by simp [Splitter.arity])
        have h1 := hT 1 (by simp [Splitter.arity])
        refine ⟨h0, h1, ?_⟩
        simp only
        split
        · exact h0
        · exact h1
      | branch p =>
        rw [hs] at hT
        exact ⟨hT 1 (by simp [Splitter.arity]), hT 2 (by simp [Splitter.arity]),
          hT 0 (by simp [Splitter.arity])⟩

/-- Averages of twins agree. -/
theorem Avg.twin (hc : SameCfg c c') (h : FullCert c gs N) (h' : FullCert c' gs' N')
    (h0 : Alike gs gs' 0 0) {i : Nat} {a : D} (ha : Avg N i a) : ∀ {i' : Nat},
    Twin c.splitter.arity gs gs' i i' → Avg N' i' a := by
  induction ha with
  | leaf h1 h2 =>
    intro i' ht
    obtain ⟨n, n', hn, hn', hw, _, hl, _⟩ := ht.cases hc h h' h0
    rw [h1] at hn; cases hn
    rw [← hw]
    exact .leaf hn' (hl.trans h2)
  | missingLeaf h1 h2 h3 h4 h5 h6 _ _ ih1 ih2 =>
    intro i' ht
    obtain ⟨n, n', hn, hn', hw, _, hl, hx⟩ := ht.cases hc h h' h0
    rw [h1] at hn; cases hn
    obtain ⟨_, _, tl, tr, tm⟩ := hx h2
    obtain ⟨x, x', hx1, hx2, _, hxh, _⟩ := tl.cases hc h h' h0
    obtain ⟨y, y', hy1, hy2, _, hyh, _⟩ := tr.cases hc h h' h0
    obtain ⟨z, z', hz1, hz2, _, _, hzl, _⟩ := tm.cases hc h h' h0
    rw [h4] at hx1; cases hx1
    rw [h3] at hy1; cases hy1
    rw [h5] at hz1; cases hz1
    rw [← hxh, ← hyh]
    exact .missingLeaf hn' (hl.trans h2) hy2 hx2 hz2 (hzl.trans h6) (ih1 tr) (ih2 tl)
  | missingBranch h1 h2 h3 h4 h5 h6 _ _ _ ih1 ih2 ih3 =>
    intro i' ht
    obtain ⟨n, n', hn, hn', hw, _, hl, hx⟩ := ht.cases hc h h' h0
    rw [h1] at hn; cases hn
    obtain ⟨_, _, tl, tr, tm⟩ := hx h2
    obtain ⟨x, x', hx1, hx2, _, hxh, _⟩ := tl.cases hc h h' h0
    obtain ⟨y, y', hy1, hy2, _, hyh, _⟩ := tr.cases hc h h' h0
    obtain ⟨z, z', hz1, hz2, _, hzh, hzl, _⟩ := tm.cases hc h h' h0
    rw [h4] at hx1; cases hx1
    rw [h3] at hy1; cases hy1
    rw [h5] at hz1; cases hz1
    rw [← hxh, ← hyh, ← hzh]
    exact .missingBranch hn' (hl.trans h2) hy2 hx2 hz2 (hzl.trans h6) (ih1 tr) (ih2 tl) (ih3 tm)

/-- The missing children of a tree grown by the missing-branch splitter. -/
theorem IsMissingChild.twin (hc : SameCfg c c') (h : FullCert c gs N) (h' : FullCert c' gs' N')
    (hw : Tree.Wf (⟨N⟩ : Tree F D)) {i i' p : Nat} (ht : Twin c.splitter.arity gs gs' i i')
    (hm : IsMissingChild N p i) (hb : Ternary N) :
    ∃ p', Twin c.splitter.arity gs gs' p p' ∧ IsMissingChild N' p' i' := by
  cases ht with
  | root =>
    obtain ⟨np, h1, h2, h3⟩ := hm
    have := (hw.child p np 0 h1 ⟨h2, .inr (.inr h3.symm)⟩).1
    omega
  | @child q q' k k' j g g' info ht hg hg' hi hi' hj =>
    obtain ⟨np, h1, h2, h3⟩ := hm
    obtain ⟨kids, hS⟩ := h.split q g info k hg hi
    obtain ⟨kids', hS'⟩ := h'.split q' g' info k' hg' hi'
    have hqc : ((g.sn.asNode c.splitter.params.learningRate).makeParentNode
        (c.splitter.parentNode g.sn info k)).IsChild (k + j) := isChild_of_new (by omega) (by omega)
    have : q = p := hw.parent_unique q p _ np _ hS.node h1 hqc ⟨h2, .inr (.inr h3.symm)⟩
    subst this
    rw [hS.node] at h1; cases h1
    refine ⟨q', ht, _, hS'.node, rfl, ?_⟩
    simp only [Node.makeParentNode, Splitter.parentNode, SNode.updateChildren, Splitter.links] at h3 ⊢
    rw [hc.splitter]
    cases hs : c.splitter with
    | imputer p =>
      have := hb q _ hS.node rfl
      simp only [Node.hasMissingBranch, Node.makeParentNode, Splitter.parentNode, SNode.updateChildren,
        Splitter.links, hs] at this
      split at this <;> simp at this
    | branch p =>
      rw [hs] at h3
      simp only at h3
      simp only
      omega


theorem IsMissingChild.twin_inv (hc : SameCfg c c') (h : FullCert c gs N) (h' : FullCert c' gs' N')
    (hw : Tree.Wf (⟨N'⟩ : Tree F D)) {i i' p : Nat} (ht : Twin c.splitter.arity gs gs' i i')
    (hm : IsMissingChild N' p i') (hb : Ternary N') :
    ∃ p', Twin c.splitter.arity gs gs' p' p ∧ IsMissingChild N p' i := by
  cases ht with
  | root =>
    obtain ⟨np, h1, h2, h3⟩ := hm
    have := (hw.child p np 0 h1 ⟨h2, .inr (.inr h3.symm)⟩).1
    omega
  | @child q q' k k' j g g' info ht hg hg' hi hi' hj =>
    obtain ⟨np, h1, h2, h3⟩ := hm
    obtain ⟨kids, hS⟩ := h.split q g info k hg hi
    obtain ⟨kids', hS'⟩ := h'.split q' g' info k' hg' hi'
    have hqc : ((g'.sn.asNode c'.splitter.params.learningRate).makeParentNode
        (c'.splitter.parentNode g'.sn info k')).IsChild (k' + j) :=
      isChild_of_new (by omega) (by rw [hc.splitter]; omega)
    have : q' = p := hw.parent_unique q' p _ np _ hS'.node h1 hqc ⟨h2, .inr (.inr h3.symm)⟩
    subst this
    rw [hS'.node] at h1; cases h1
    refine ⟨q, ht, _, hS.node, rfl, ?_⟩
    simp only [Node.makeParentNode, Splitter.parentNode, SNode.updateChildren, Splitter.links] at h3 ⊢
    rw [hc.splitter] at h3
    cases hs : c.splitter with
    | imputer p =>
      have := hb q' _ hS'.node rfl
      simp only [Node.hasMissingBranch, Node.makeParentNode, Splitter.parentNode, SNode.updateChildren,
        Splitter.links, hc.splitter, hs] at this
      split at this <;> simp at this
    | branch p =>
      rw [hs] at h3
      simp only at h3
      simp only
      omega

/-- After the clean-up twins which are leaves hold the same value. -/
theorem Twin.final (hc : SameCfg c c') (h : FullCert c gs N) (h' : FullCert c' gs' N')
    (h0 : Alike gs gs' 0 0) {M M' : List (Node F D)} (hM : cleanUpSplits c.splitter N = .ok M)
    (hM' : cleanUpSplits c'.splitter N' = .ok M') (hw : Tree.Wf (⟨N⟩ : Tree F D))
    (hw' : Tree.Wf (⟨N'⟩ : Tree F D)) {i i' : Nat} (ht : Twin c.splitter.arity gs gs' i i') :
    ∃ n n', M[i]? = some n ∧ M'[i']? = some n' ∧ n'.isLeaf = n.isLeaf ∧
      (n.isLeaf = true → n'.weightValue = n.weightValue) ∧
      (n.isLeaf = false → n'.splitFeature = n.splitFeature ∧ n'.splitValue = n.splitValue ∧
        Twin c.splitter.arity gs gs' n.leftChild n'.leftChild ∧
        Twin c.splitter.arity gs gs' n.rightChild n'.rightChild ∧
        Twin c.splitter.arity gs gs' n.missingNode n'.missingNode) := by
  obtain ⟨n, n', hn, hn', hwv, _, hl, hx⟩ := ht.cases hc h h' h0
  obtain ⟨w, hm⟩ := (cleanUpSplits_shape hM).2 i n hn
  obtain ⟨w', hm'⟩ := (cleanUpSplits_shape hM').2 i' n' hn'
  refine ⟨_, _, hm, hm', hl, fun hleaf => ?_, hx⟩
  have v1 := cleanUpSplits_value hM hw h.ternary
  have v2 := cleanUpSplits_value hM' hw' h'.ternary
  by_cases hb : ∃ p, c.splitter = .branch p ∧ p.missingNodeTreatment = .averageLeafWeight
  · obtain ⟨p, hp, hpt⟩ := hb
    have hp' : c'.splitter = .branch p := hc.splitter.trans hp
    have t1 := h.ternary ⟨p, hp⟩
    have t2 := h'.ternary ⟨p, hp'⟩
    have k1 := cleanUpSplits_avg hp hpt hM hw t1 i _ _ hn hm
    have k2 := cleanUpSplits_avg hp' hpt hM' hw' t2 i' _ _ hn' hm'
    have hleaf' : n'.isLeaf = true := hl.trans hleaf
    rcases k1 with ⟨_, a2, a3⟩ | ⟨a1, a2⟩
    · rcases k2 with ⟨_, b2, b3⟩ | ⟨b1, b2⟩
      · rw [a3, b3, hwv]
      · obtain hlf | ⟨q, hq⟩ := b1
        · rw [hleaf'] at hlf; cases hlf
        · obtain ⟨q', _, hq'⟩ := hq.twin_inv hc h h' hw' ht t2
          exact absurd hq' (a2 q')
    · obtain hlf | ⟨q, hq⟩ := a1
      · have : n.isLeaf = true := hleaf
        rw [this] at hlf; cases hlf
      · obtain ⟨q', tq, hq'⟩ := hq.twin hc h h' hw ht t1
        rcases k2 with ⟨_, b2, _⟩ | ⟨_, b2⟩
        · exact absurd hq' (b2 q')
        · obtain ⟨n1, c1, c2⟩ := a2
          rw [hn] at c1; cases c1
          rcases c2 with ⟨c2, _⟩ | ⟨_, q1, a, c3, c4, c5⟩
          · have : n.isLeaf = true := hleaf
            rw [this] at c2; cases c2
          · have hqq : q = q1 := by
              obtain ⟨x, x1, x2, x3⟩ := hq
              obtain ⟨y, y1, y2, y3⟩ := c3
              exact hw.parent_unique q q1 x y i x1 y1 ⟨x2, .inr (.inr x3.symm)⟩
                ⟨y2, .inr (.inr y3.symm)⟩
            subst hqq
            have : Written N' i' (down a : F) :=
              ⟨n', hn', .inr ⟨hleaf', q', a, hq', c4.twin hc h h' h0 tq, rfl⟩⟩
            rw [c5]
            exact b2.unique hw' this
  · have e1 : M = N := by
      rcases v1 with e | ⟨hb', _⟩
      · exact e
      · exact absurd hb' hb
    have e2 : M' = N' := by
      rcases v2 with e | ⟨hb', _⟩
      · exact e
      · rw [hc.splitter] at hb'; exact absurd hb' hb
    subst e1 e2
    rw [hn] at hm; rw [hn'] at hm'
    injection hm with hm; injection hm' with hm'
    have e3 : n.weightValue = w := by rw [hm]
    have e4 : n'.weightValue = w' := by rw [hm']
    show w' = w
    rw [← e3, ← e4, hwv]

end

/-- Two node lists walked in step. -/
theorem leafFrom_twin {M M' : List (Node F D)} {P : Nat → Nat → Prop}
    (hP : ∀ i i', P i i' → ∃ n n', M[i]? = some n ∧ M'[i']? = some n' ∧ n'.isLeaf = n.isLeaf ∧
      (n.isLeaf = true → n'.weightValue = n.weightValue) ∧
      (n.isLeaf = false → n'.splitFeature = n.splitFeature ∧ n'.splitValue = n.splitValue ∧
        P n.leftChild n'.leftChild ∧ P n.rightChild n'.rightChild ∧ P n.missingNode n'.missingNode))
    (get : Nat → Res D) (missing : D) : ∀ fuel fuel' i i', P i i' →
      leafFrom M get missing fuel i ≠ .diverge → leafFrom M' get missing fuel' i' ≠ .diverge →
      (leafFrom M get missing fuel i >>= fun n => Res.ok n.weightValue) =
        leafFrom M' get missing fuel' i' >>= fun n => .ok n.weightValue := by
  intro fuel
  induction fuel with
  | zero => intro fuel' i i' _ h; exact absurd rfl h
  | succ fuel ih =>
    intro fuel' i i' hp h h'
    cases fuel' with
    | zero => exact absurd rfl h'
    | succ fuel' =>
      obtain ⟨n, n', hn, hn', hl, hlw, hx⟩ := hP i i' hp
      have e : idx M i = .ok n := idx_eq_ok.2 hn
      have e' : idx M' i' = .ok n' := idx_eq_ok.2 hn'
      rw [leafFrom, e, Res.ok_bind] at h ⊢
      rw [leafFrom, e', Res.ok_bind] at h' ⊢
      cases hleaf : n.isLeaf with
      | true =>
        rw [if_pos (hl.trans hleaf), if_pos rfl, Res.ok_bind, Res.ok_bind, hlw hleaf]
      | false =>
        have hleaf' : n'.isLeaf = false := hl.trans hleaf
        obtain ⟨x1, x2, x3, x4, x5⟩ := hx hleaf
        rw [if_neg (by simp [hleaf])] at h
        rw [if_neg (by simp [hleaf'])] at h'
        rw [if_neg (by simp), if_neg (by simp [hleaf'])]
        rw [x1] at h' ⊢
        cases hg : get n.splitFeature with
        | diverge => rw [hg] at h; exact absurd rfl h
        | panic => rfl
        | ok v =>
          rw [hg, Res.ok_bind] at h h'
          rw [Res.ok_bind, Res.ok_bind]
          unfold Node.getChildIdx at h h' ⊢
          cases hm : isMissing v missing with
          | diverge => rw [hm] at h; exact absurd rfl h
          | panic => rfl
          | ok b =>
            simp only [hm, Res.ok_bind] at h h' ⊢
            rw [x2] at h' ⊢
            refine ih _ _ _ ?_ h h'
            split
            · exact x5
            · split
              · exact x3
              · exact x4

end

end Verif
