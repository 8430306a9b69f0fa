import Verif.Proofs.GrowTree

/-!
# A node of the certificate and its children
-/

namespace Verif

open scoped Verif

variable {F D : Type} [Fl F] [Fl D] [FlCast F D]

set_option linter.unusedSectionVars false

/-- The node was created from this record. -/
structure SNode.Holds (sn : SNode F D) (i : NodeInfo F) : Prop where
  weight : sn.weightValue = i.weight
  gain : sn.gainValue = i.gain
  grad : sn.gradientSum = i.grad
  cover : sn.hessianSum = i.cover
  lower : sn.lowerBound = i.lower
  upper : sn.upperBound = i.upper

/-- Children of a binary split. -/
theorem imputerKids_view {t : TrainData F D} {sn : SNode F D} {rows : List Nat} {info : SplitInfo F D}
    {kids : List (Kid F D)} (h : imputerKids t sn rows info = .ok kids) :
    ∃ mr feature rows' k l r, info.missingNode.goesRight = .ok mr ∧
      t.data.getCol info.splitFeature = .ok feature ∧
      pivotOnSplit rows feature info.splitBin mr = .ok (rows', k) ∧
      imputerKidHists t sn.histograms (rows'.take k) (rows'.drop k) =
        .ok (l.sn.histograms, r.sn.histograms) ∧
      kids = [l, r] ∧ l.rows = rows'.take k ∧ r.rows = rows'.drop k ∧
      l.sn.Holds info.leftNode ∧ r.sn.Holds info.rightNode ∧
      l.sn.isMissingLeaf = false ∧ r.sn.isMissingLeaf = false := by
  simp only [imputerKids, Res.bind_eq_ok, Prod.exists, Res.ok.injEq] at h
  obtain ⟨mr, h1, feature, h2, rows', k, h3, lh, rh, h4, rfl⟩ := h
  exact ⟨mr, feature, rows', k, _, _, h1, h2, h3, h4, rfl, rfl, rfl, ⟨rfl, rfl, rfl, rfl, rfl, rfl⟩,
    ⟨rfl, rfl, rfl, rfl, rfl, rfl⟩, rfl, rfl⟩

/-- Children of a ternary split. -/
theorem branchKids_view {p : BranchParams F} {t : TrainData F D} {sn : SNode F D} {rows : List Nat}
    {info : SplitInfo F D} {kids : List (Kid F D)} (h : branchKids p t sn rows info = .ok kids) :
    ∃ isLeaf minfo feature rows' j k m l r, p.missingChild info = .ok (isLeaf, minfo) ∧
      t.data.getCol info.splitFeature = .ok feature ∧
      pivotOnSplitExcludeMissing rows feature info.splitBin = .ok (rows', j, k) ∧
      j ≤ k ∧ k ≤ rows.length ∧
      branchKidHists t sn.histograms (rows'.take j) ((rows'.drop j).take (k - j)) (rows'.drop k) =
        .ok (m.sn.histograms, l.sn.histograms, r.sn.histograms) ∧
      kids = [m, l, r] ∧ m.rows = rows'.take j ∧ l.rows = (rows'.drop j).take (k - j) ∧
      r.rows = rows'.drop k ∧
      m.sn.Holds (if p.missingNodeTreatment = .assignToParent then
        { minfo with weight := sn.weightValue } else minfo) ∧
      l.sn.Holds info.leftNode ∧ r.sn.Holds info.rightNode ∧
      m.sn.isMissingLeaf = (isLeaf || decide (m.rows.length = 0)) ∧
      l.sn.isMissingLeaf = false ∧ r.sn.isMissingLeaf = false := by
  simp only [branchKids, Res.bind_eq_ok, Prod.exists, Res.ok.injEq, Res.assert_eq_ok,
    decide_eq_true_eq] at h
  obtain ⟨isLeaf, minfo, h1, feature, h2, rows', j, k, h3, _, ⟨h5, h6⟩, mh, lh, rh, h4, rfl⟩ := h
  exact ⟨isLeaf, minfo, feature, rows', j, k, _, _, _, h1, h2, h3, h5, h6, h4, rfl, rfl, rfl, rfl,
    ⟨rfl, rfl, rfl, rfl, rfl, rfl⟩, ⟨rfl, rfl, rfl, rfl, rfl, rfl⟩, ⟨rfl, rfl, rfl, rfl, rfl, rfl⟩,
    rfl, rfl, rfl⟩

/-- What a node has in common with its record. -/
structure NodeOf (lr : F) (sn : SNode F D) (n : Node F D) : Prop where
  num : n.num = sn.num
  weight : n.weightValue = sn.weightValue * lr
  cover : n.hessianSum = sn.hessianSum
  depth : n.depth = sn.depth

variable {c : GrowCfg F D} {o : SNode F D → Prop} {gs : List (Ghost F D)}
  {nodes : List (Node F D)}

theorem Cert.nodeOf (h : Cert c o gs nodes) {i : Nat} {g : Ghost F D} (hg : gs[i]? = some g) :
    ∃ n, nodes[i]? = some n ∧ NodeOf c.splitter.params.learningRate g.sn n ∧
      (n.isLeaf = true ↔ g.info = none) := by
  cases hi : g.info with
  | none =>
    refine ⟨_, (h.leaf i g hg hi).1, ⟨rfl, rfl, rfl, rfl⟩, ?_⟩
    simp [SNode.asNode, (h.num i g hg).2]
  | some p =>
    obtain ⟨info, k⟩ := p
    obtain ⟨kids, hS⟩ := h.split i g info k hg hi
    exact ⟨_, hS.node, ⟨rfl, rfl, rfl, rfl⟩, by simp [Node.makeParentNode]⟩

/-- An internal node of the certificate. -/
structure Internal (c : GrowCfg F D) (gs : List (Ghost F D)) (nodes : List (Node F D)) (i : Nat)
    (n : Node F D) (g : Ghost F D) (info : SplitInfo F D) (k : Nat) (kids : List (Kid F D)) : Prop where
  ghost : gs[i]? = some g
  info_eq : g.info = some (info, k)
  isSplit : IsSplit c gs nodes i g info k kids
  feature : n.splitFeature = info.splitFeature
  value : n.splitValue = info.splitValue
  gain : n.splitGain = g.sn.getSplitGain info.leftNode info.rightNode info.missingNode 0
  left : n.leftChild = (c.splitter.links info k).2.1
  right : n.rightChild = (c.splitter.links info k).2.2
  missing : n.missingNode = (c.splitter.links info k).1

theorem Cert.internal (h : Cert c o gs nodes) {nodes' : List (Node F D)} (hs : SameShape nodes nodes')
    {i : Nat} {n : Node F D} (hn : nodes'[i]? = some n) (hl : n.isLeaf = false) :
    ∃ g info k kids, Internal c gs nodes i n g info k kids := by
  obtain ⟨n0, w, hn0, rfl⟩ := hs.inv hn
  obtain ⟨g, hg, hnode⟩ := h.node hn0
  rcases hnode with ⟨_, rfl, _⟩ | ⟨info, k, kids, hi, hS, rfl⟩
  · simp only [SNode.asNode, (h.num i g hg).2] at hl
    cases hl
  · exact ⟨g, info, k, kids, hg, hi, hS, rfl, rfl, rfl, rfl, rfl, rfl⟩

/-- The left and right children of an internal node. -/
theorem Internal.sides {i : Nat} {n : Node F D} {g : Ghost F D} {info : SplitInfo F D} {k : Nat}
    {kids : List (Kid F D)} (h : Internal c gs nodes i n g info k kids) :
    ∃ gl gr, gs[n.leftChild]? = some gl ∧ gs[n.rightChild]? = some gr ∧
      gl.sn.Holds info.leftNode ∧ gr.sn.Holds info.rightNode ∧
      gl.sn.isMissingLeaf = false ∧ gr.sn.isMissingLeaf = false ∧ gl.parent = i ∧ gr.parent = i := by
  have hk := h.isSplit.kids_eq
  have e1 := h.left
  have e2 := h.right
  cases hs : c.splitter with
  | imputer p =>
    rw [hs] at hk e1 e2
    obtain ⟨_, _, _, _, l, r, _, _, _, _, rfl, _, _, hl, hr, ml, mr⟩ := imputerKids_view hk
    obtain ⟨gl, a1, a2, a3, a4⟩ := h.isSplit.kid 0 l rfl
    obtain ⟨gr, b1, b2, b3, b4⟩ := h.isSplit.kid 1 r rfl
    simp only [Splitter.links] at e1 e2
    refine ⟨gl, gr, by rw [e1]; exact a1, by rw [e2]; exact b1, ?_, ?_, ?_, ?_, a4, b4⟩
    · rw [a2]; exact ⟨hl.1, hl.2, hl.3, hl.4, hl.5, hl.6⟩
    · rw [b2]; exact ⟨hr.1, hr.2, hr.3, hr.4, hr.5, hr.6⟩
    · rw [a2]; exact ml
    · rw [b2]; exact mr
  | branch p =>
    rw [hs] at hk e1 e2
    obtain ⟨_, _, _, _, _, _, m, l, r, _, _, _, _, _, _, rfl, _, _, _, _, hl, hr, _, ml, mr⟩ :=
      branchKids_view hk
    obtain ⟨gl, a1, a2, a3, a4⟩ := h.isSplit.kid 1 l rfl
    obtain ⟨gr, b1, b2, b3, b4⟩ := h.isSplit.kid 2 r rfl
    simp only [Splitter.links] at e1 e2
    refine ⟨gl, gr, by rw [e1]; exact a1, by rw [e2]; exact b1, ?_, ?_, ?_, ?_, a4, b4⟩
    · rw [a2]; exact ⟨hl.1, hl.2, hl.3, hl.4, hl.5, hl.6⟩
    · rw [b2]; exact ⟨hr.1, hr.2, hr.3, hr.4, hr.5, hr.6⟩
    · rw [a2]; exact ml
    · rw [b2]; exact mr

/-- The missing child of a ternary split. -/
theorem Internal.missingSide {i : Nat} {n : Node F D} {g : Ghost F D} {info : SplitInfo F D} {k : Nat}
    {kids : List (Kid F D)} {p : BranchParams F} (hp : c.splitter = .branch p)
    (h : Internal c gs nodes i n g info k kids) :
    ∃ gm isLeaf minfo feature rows' j k, p.missingChild info = .ok (isLeaf, minfo) ∧
      c.train.data.getCol info.splitFeature = .ok feature ∧
      pivotOnSplitExcludeMissing g.rows feature info.splitBin = .ok (rows', j, k) ∧
      gs[n.missingNode]? = some gm ∧ gm.parent = i ∧ gm.rows = rows'.take j ∧
      gm.sn.Holds (if p.missingNodeTreatment = .assignToParent then
        { minfo with weight := g.sn.weightValue } else minfo) ∧
      gm.sn.isMissingLeaf = (isLeaf || decide (gm.rows.length = 0)) ∧
      n.missingNode ≠ n.leftChild ∧ n.missingNode ≠ n.rightChild := by
  have hk := h.isSplit.kids_eq
  have e1 := h.missing
  have e2 := h.left
  have e3 := h.right
  rw [hp] at hk e1 e2 e3
  obtain ⟨il, mi, fe, rows', j, k', m, l, r, h1, h2, h3, _, _, _, rfl, hmr, _, _, hm, _, _, hml, _⟩ :=
    branchKids_view hk
  obtain ⟨gm, a1, a2, a3, a4⟩ := h.isSplit.kid 0 m rfl
  simp only [Splitter.links] at e1 e2 e3
  refine ⟨gm, il, mi, fe, rows', j, k', h1, h2, h3, by rw [e1]; exact a1, a4, by rw [a3]; exact hmr,
    ?_, ?_, by omega, by omega⟩
  · rw [a2]; exact ⟨hm.1, hm.2, hm.3, hm.4, hm.5, hm.6⟩
  · rw [a2, a3]; exact hml

/-- Rows of a node are rows of the tree. -/
theorem Cert.rows_mem (h : Cert c o gs nodes) {g0 : Ghost F D} (h0 : gs[0]? = some g0) :
    ∀ (i : Nat) (g : Ghost F D), gs[i]? = some g → ∀ r ∈ g.rows, r ∈ g0.rows := by
  intro i
  induction i using Nat.strong_induction_on with
  | _ i ih =>
    intro g hg r hr
    by_cases hi : i = 0
    · subst hi
      rw [h0] at hg; cases hg; exact hr
    · obtain ⟨gi, info, k, b1, b2, b3, b4⟩ := h.parent i g hg (by omega)
      obtain ⟨kids, hS⟩ := h.split _ gi info k b1 b2
      obtain ⟨kid, g', d1, d2, _, d3, d4⟩ := hS.new_lt b3 b4
      rw [hg] at d2; cases d2
      refine ih _ (by have := hS.later; omega) gi b1 r ?_
      refine hS.perm.mem_iff.1 (List.mem_flatMap.2 ⟨kid, List.mem_of_getElem? d1, ?_⟩)
      rw [← d3]; exact hr

/-- Evaluated splits: what `evaluate_split` guarantees about both sides. -/
theorem imputerEvaluateSplit_some {p : SplitParams F} {a : SplitArgs F} {l r : NodeInfo F}
    {m : MissingInfo F} (h : imputerEvaluateSplit p a = some (l, r, m)) :
    (l.cover <ᶠ p.minLeafWeight) = false ∧ (r.cover <ᶠ p.minLeafWeight) = false ∧
      (m = .left ∨ m = .right) := by
  unfold imputerEvaluateSplit at h
  split at h
  · cases h
  · simp only at h
    split at h
    · cases h
    · split at h
      · split at h
        all_goals
          split at h
          · cases h
          · rename_i hc
            simp only [Bool.or_eq_true, not_or, Bool.not_eq_true] at hc
            simp only [Option.some.injEq, Prod.mk.injEq] at h
            obtain ⟨rfl, rfl, rfl⟩ := h
            exact ⟨hc.2, hc.1, by simp⟩
      · split at h
        · cases h
        · rename_i hc
          simp only [Bool.or_eq_true, not_or, Bool.not_eq_true] at hc
          simp only [Option.some.injEq, Prod.mk.injEq] at h
          obtain ⟨rfl, rfl, rfl⟩ := h
          exact ⟨hc.2, hc.1, by simp⟩

theorem branchEvaluateSplit_some {p : BranchParams F} {a : SplitArgs F} {l r : NodeInfo F}
    {m : MissingInfo F} (h : branchEvaluateSplit p a = .ok (some (l, r, m))) :
    ∃ lw rw, branchChildWeights p a = .ok (lw, rw) ∧
    (a.lh <ᶠ p.minLeafWeight) = false ∧ (a.rh <ᶠ p.minLeafWeight) = false ∧
    l = mkInfo a.lg (gainGivenWeight p.l2 a.lg a.lh lw) a.lh lw ∧
    r = mkInfo a.rg (gainGivenWeight p.l2 a.rg a.rh rw) a.rh rw ∧
    m = (if ((!(a.mg =ᶠ 0) || !(a.mh =ᶠ 0)) && p.allowMissingSplits) = true
      then MissingInfo.branch else MissingInfo.leaf)
      { grad := a.mg, gain := gainGivenWeight p.l2 a.mg a.mh (branchMissingWeight p a lw rw)
        cover := a.mh, weight := branchMissingWeight p a lw rw, lower := a.lower, upper := a.upper } := by
  unfold branchEvaluateSplit at h
  split at h
  · cases h
  · simp only [Res.bind_eq_ok, Prod.exists] at h
    obtain ⟨lw, rw, h1, h⟩ := h
    split at h
    · cases h
    · rename_i hc
      simp only [Bool.or_eq_true, not_or, Bool.not_eq_true] at hc
      simp only [Res.ok.injEq, Option.some.injEq, Prod.mk.injEq] at h
      obtain ⟨rfl, rfl, rfl⟩ := h
      refine ⟨lw, rw, h1, hc.2, hc.1, rfl, rfl, ?_⟩
      split <;> rfl

end Verif
