import Verif.Proofs.GrowView
import Verif.Proofs.Boost
import Verif.Props.Missing
import Verif.Spec.ExampleFit

/-!
# C03, C04, C05, C06, C07, C37 The shape of fitted trees

All theorems hold for any arithmetic: no law of the numbers is used.
-/

namespace Verif

open scoped Verif

variable {R F D : Type} [Fl F] [Fl D] [FlCast F D]

set_option linter.unusedSectionVars false

/-- `Dist t i d`: node `i` is reached from the root in `d` steps. -/
inductive Tree.Dist (t : Tree F D) : Nat → Nat → Prop
  | root : t.Dist 0 0
  | child {i j d : Nat} {n : Node F D} : t.nodes[i]? = some n → n.IsChild j → t.Dist i d →
      t.Dist j (d + 1)

/-- Number of leaves. -/
def Tree.leafCount (t : Tree F D) : Nat := (t.nodes.filter fun n => n.isLeaf).length

/-! ### C03 -/

/-- C03.  Every tree of a fitted booster is well formed. -/
theorem C03_well_formed (env : Env R F D) (b b' : Booster F D) (data : Matrix D) (y w : List D)
    (ev : Option (List (EvalSet D))) (h : b.fit env data y w ev = .ok (b', .ok ())) :
    ∀ t ∈ b'.trees, t.Wf := by
  intro t ht
  obtain ⟨_, _, hts⟩ := Booster.fit_trees h
  obtain ⟨cfg, rows, hF⟩ := hts t ht
  exact Tree.fit_wf hF.fit

theorem sampleColumns_lt {g : Rng R F D} (hg : g.Ok) {rate : D} {r r' : R} {cols : Nat}
    {cs : List Nat} (h : sampleColumns g rate r cols = (cs, r')) : ∀ f ∈ cs, f < cols := by
  intro f hf
  unfold sampleColumns at h
  split at h
  · cases h; simpa using hf
  · simp only [Prod.mk.injEq] at h
    obtain ⟨rfl, _⟩ := h
    have : f ∈ (g.choose r (List.range cols) (Fl.toNat (Fl.ofNat cols * rate))).1 := by
      simpa using hf
    simpa using (hg.subperm _ _ _).subset this

theorem fit_featuresBelow {env : Env R F D} (hr : env.rng.Ok) {b b' : Booster F D} {data : Matrix D}
    {y w : List D} {ev : Option (List (EvalSet D))} (h : b.fit env data y w ev = .ok (b', .ok ())) :
    ∀ t ∈ b'.trees, t.FeaturesBelow data.cols := by
  intro t ht n hn hl
  obtain ⟨_, _, hts⟩ := Booster.fit_trees h
  obtain ⟨cfg, rows, hF⟩ := hts t ht
  obtain ⟨r1, r2, hc⟩ := hF.columns
  exact sampleColumns_lt hr hc _ (Tree.fit_features hF.fit n hn hl)

theorem Route.mem {nodes : List (Node F D)} {row : Nat → Option D} {missing : D} {i : Nat}
    {l : Node F D} (h : Route nodes row missing i l) : l ∈ nodes ∧ l.isLeaf = true := by
  induction h with
  | leaf h1 h2 => exact ⟨List.mem_of_getElem? h1, h2⟩
  | step _ _ _ _ _ ih => exact ih

/-- C03.  For every row that has at least the columns of the training data, prediction with a fitted
tree stops at a leaf of the tree, the one the row is routed to; the only exception is the documented
panic, when `missing` is not NaN and the route tests a feature that holds NaN. -/
theorem C03_predict_stops (env : Env R F D) (hr : env.rng.Ok) (b b' : Booster F D) (data : Matrix D)
    (y w : List D) (ev : Option (List (EvalSet D))) (h : b.fit env data y w ev = .ok (b', .ok ()))
    (t : Tree F D) (ht : t ∈ b'.trees) (X : Matrix D) (hX : X.Shaped) (hc : data.cols ≤ X.cols)
    (i : Nat) (hi : i < X.rows) (missing : D) :
    (∃ l, t.predictLeaf X i missing = .ok l ∧ l ∈ t.nodes ∧ l.isLeaf = true ∧
        Route t.nodes (X.entry i) missing 0 l) ∨
      (t.predictLeaf X i missing = .panic ∧ isNaN missing = false ∧
        MeetsNaN t.nodes (X.entry i) missing 0) := by
  have hwf := C03_well_formed env b b' data y w ev h t ht
  have hf := fit_featuresBelow hr h t ht
  rcases leafFrom_total hwf (get := X.get i) (row := X.entry i) (missing := missing)
      (fun f => X.get_eq i f)
      (fun n hn hl => entry_shaped hX hi (lt_of_lt_of_le (hf n hn hl) hc)) t.nodes.length 0
      (List.length_pos_iff.2 hwf.nonempty) (by omega) with ⟨l, h1, _⟩ | ⟨h1, h2, h3⟩
  · left
    have hroute : Route t.nodes (X.entry i) missing 0 l := predictLeaf_iff.1 h1
    exact ⟨l, h1, hroute.mem.1, hroute.mem.2, hroute⟩
  · exact .inr ⟨h1, h2, h3⟩

/-! ### C04 -/

theorem Cert.depth {c : GrowCfg F D} {o : SNode F D → Prop} {gs : List (Ghost F D)}
    {nodes nodes' : List (Node F D)} (h : Cert c o gs nodes) (hs : SameShape nodes nodes')
    {g0 : Ghost F D} (h0 : gs[0]? = some g0) (hd0 : g0.sn.depth = 0) :
    ∀ (i : Nat) (n : Node F D), nodes'[i]? = some n →
      Tree.Dist (⟨nodes'⟩ : Tree F D) i n.depth ∧ n.depth ≤ c.maxDepth := by
  intro i
  induction i using Nat.strong_induction_on with
  | _ i ih =>
    intro n hn
    obtain ⟨n0, w, hn0, rfl⟩ := hs.inv hn
    obtain ⟨g, hg, _⟩ := h.node hn0
    obtain ⟨n1, hn1, hno, _⟩ := h.nodeOf hg
    rw [hn0] at hn1; cases hn1
    show Tree.Dist _ i n0.depth ∧ n0.depth ≤ _
    rw [hno.depth]
    by_cases hi : i = 0
    · subst hi
      rw [h0] at hg; cases hg
      rw [hd0]
      exact ⟨.root, Nat.zero_le _⟩
    · obtain ⟨gi, info, k, b1, b2, b3, b4⟩ := h.parent i g hg (by omega)
      obtain ⟨kids, hS⟩ := h.split _ gi info k b1 b2
      obtain ⟨kid, g', d1, d2, d3, _, _⟩ := hS.new_lt b3 b4
      rw [hg] at d2; cases d2
      have hk := (kidsOf_fresh hS.kids_eq kid (List.mem_of_getElem? d1)).2
      obtain ⟨w', hw'⟩ := hs.2 _ _ hS.node
      have hp := ih _ (by have := hS.later; omega) _ hw'
      have e : g.sn.depth = gi.sn.depth + 1 := by rw [d3]; exact hk
      rw [e]
      refine ⟨.child hw' ?_ hp.1, hS.depth⟩
      exact isChild_of_new (s := c.splitter) (sn := gi.sn) (info := info)
        (lr := c.splitter.params.learningRate) b3 b4

theorem Tree.Dist.unique {t : Tree F D} (ht : t.Wf) {i d d' : Nat} (h : t.Dist i d)
    (h' : t.Dist i d') : d = d' := by
  induction h generalizing d' with
  | root =>
    cases h' with
    | root => rfl
    | child h1 h2 h3 => have := (ht.child _ _ _ h1 h2).1; omega
  | child h1 h2 h3 ih =>
    cases h' with
    | root => have := (ht.child _ _ _ h1 h2).1; omega
    | child g1 g2 g3 =>
      have := ht.parent_unique _ _ _ _ _ h1 g1 h2 g2
      subst this
      rw [ih g3]

/-- C04.  In a fitted tree the stored depth of a node is its distance from the root (and its only
one), and it is at most `max_depth`. -/
theorem C04_depth (env : Env R F D) (b b' : Booster F D) (data : Matrix D) (y w : List D)
    (ev : Option (List (EvalSet D))) (h : b.fit env data y w ev = .ok (b', .ok ())) (t : Tree F D)
    (ht : t ∈ b'.trees) (i : Nat) (n : Node F D) (hn : t.nodes[i]? = some n) :
    n.depth ≤ b.maxDepth ∧ ∀ d, t.Dist i d ↔ d = n.depth := by
  have hwf := C03_well_formed env b b' data y w ev h t ht
  obtain ⟨_, _, hts⟩ := Booster.fit_trees h
  obtain ⟨cfg, rows, hF⟩ := hts t ht
  obtain ⟨g, hs, sort, hists, nodes, gs, nl, _, _, hc, hcert, ⟨g0, h0, h00, _⟩, _⟩ :=
    Tree.fit_cert hF.fit
  have := hcert.depth (cleanUpSplits_shape hc) h0 (by rw [h00]; rfl) i n hn
  rw [hF.maxDepth] at this
  exact ⟨this.2, fun d => ⟨fun hd => hd.unique hwf this.1, fun hd => hd ▸ this.1⟩⟩

/-! ### C05 and C06 -/

theorem Tree.leafCount_eq (t : Tree F D) : t.leafCount = t.nodes.countP Node.isLeaf := by
  rw [Tree.leafCount, List.countP_eq_length_filter]

theorem fit_leafCount {env : Env R F D} {b b' : Booster F D} {data : Matrix D} {y w : List D}
    {ev : Option (List (EvalSet D))} (h : b.fit env data y w ev = .ok (b', .ok ())) {t : Tree F D}
    (ht : t ∈ b'.trees) : 1 ≤ t.leafCount ∧
      (b.splitter.arity - 1) * (t.nodes.length - 1) = b.splitter.arity * (t.leafCount - 1) ∧
      t.leafCount ≤ max 1 (b.maxLeaves + b.splitter.arity - 2) ∧ 1 ≤ t.nodes.length := by
  obtain ⟨_, _, hts⟩ := Booster.fit_trees h
  obtain ⟨cfg, rows, hF⟩ := hts t ht
  obtain ⟨g, hs, sort, hists, nodes, gs, nl, _, _, hc, hcert, _, e, h1, h2, h3⟩ :=
    Tree.fit_cert hF.fit
  have hsh := cleanUpSplits_shape hc
  rw [Tree.leafCount_eq, hsh.countP, e, hsh.1, ← hF.splitter, ← hF.maxLeaves]
  refine ⟨h1, h2, h3, ?_⟩
  have := List.countP_le_length (p := Node.isLeaf) (l := nodes)
  omega

theorem splitter_arity (b : Booster F D) :
    b.splitter.arity = if b.createMissingBranch then 3 else 2 := by
  unfold Booster.splitter
  simp only
  split <;> rfl

/-- C05.  Without a missing branch a fitted tree has at most `max(1, max_leaves)` leaves, and
`2 * leaves - 1` nodes. -/
theorem C05_max_leaves (env : Env R F D) (b b' : Booster F D) (data : Matrix D) (y w : List D)
    (ev : Option (List (EvalSet D))) (h : b.fit env data y w ev = .ok (b', .ok ()))
    (hb : b.createMissingBranch = false) (t : Tree F D) (ht : t ∈ b'.trees) :
    t.leafCount ≤ max 1 b.maxLeaves ∧ t.nodes.length = 2 * t.leafCount - 1 := by
  obtain ⟨h1, h2, h3, h4⟩ := fit_leafCount h ht
  rw [splitter_arity, hb] at h2 h3
  simp only [Bool.false_eq_true, if_false] at h2 h3
  omega

/-- C06, the bound that the code does keep: one leaf more than allowed. -/
theorem C06_max_leaves_partial (env : Env R F D) (b b' : Booster F D) (data : Matrix D) (y w : List D)
    (ev : Option (List (EvalSet D))) (h : b.fit env data y w ev = .ok (b', .ok ()))
    (hb : b.createMissingBranch = true) (t : Tree F D) (ht : t ∈ b'.trees) :
    t.leafCount ≤ max 1 (b.maxLeaves + 1) ∧ 2 * (t.nodes.length - 1) = 3 * (t.leafCount - 1) := by
  obtain ⟨h1, h2, h3, h4⟩ := fit_leafCount h ht
  rw [splitter_arity, hb] at h2 h3
  simp only [if_true] at h2 h3
  omega

/-- The booster of the counterexample. -/
def exTwoLeaves : Booster Q Q :=
  { exFresh with createMissingBranch := true, maxLeaves := 2, iterations := 1 }

/-- C06 is false of the code: with `max_leaves = 2` a fitted tree has three leaves. -/
theorem C06_counterexample : ∃ b', exTwoLeaves.fit exEnv exX exY exW none = .ok (b', .ok ()) ∧
    exTwoLeaves.createMissingBranch = true ∧
    ∃ t ∈ b'.trees, max 1 exTwoLeaves.maxLeaves < t.leafCount := by
  have : (match exTwoLeaves.fit exEnv exX exY exW none with
    | .ok (b', .ok ()) => b'.trees.any fun t => decide (max 1 exTwoLeaves.maxLeaves < t.leafCount)
    | _ => false) = true := by decide +kernel
  split at this
  · rename_i b' h
    obtain ⟨t, ht, h2⟩ := List.any_eq_true.1 this
    exact ⟨b', h, rfl, t, ht, of_decide_eq_true h2⟩
  · cases this

/-! ### C07 -/

theorem Splitter.evaluateSplit_cover {s : Splitter F} {a : SplitArgs F} {l r : NodeInfo F}
    {m : MissingInfo F} (h : s.evaluateSplit a = .ok (some (l, r, m))) :
    (l.cover <ᶠ s.params.minLeafWeight) = false ∧ (r.cover <ᶠ s.params.minLeafWeight) = false := by
  cases s with
  | imputer p =>
    simp only [Splitter.evaluateSplit, Res.ok.injEq] at h
    obtain ⟨h1, h2, _⟩ := imputerEvaluateSplit_some h
    exact ⟨h1, h2⟩
  | branch p =>
    obtain ⟨lw, rw, _, h1, h2, rfl, rfl, _⟩ := branchEvaluateSplit_some h
    exact ⟨h1, h2⟩

theorem bestSplit_cover {s : Splitter F} {node : SNode F D} {cols : List Nat} {info : SplitInfo F D}
    (h : bestSplit s node cols = .ok (some info)) :
    (info.leftNode.cover <ᶠ s.params.minLeafWeight) = false ∧
      (info.rightNode.cover <ᶠ s.params.minLeafWeight) = false := by
  obtain ⟨j, i, ⟨f, m, bs, bin, h1, h2, h3, h4⟩⟩ := bestSplit_mem h
  obtain ⟨l, r, mi, g, he, _, _, rfl⟩ := evalCandidate_some.1 h4
  have := Splitter.evaluateSplit_cover he
  exact this

theorem splitter_params (b : Booster F D) : b.splitter.params =
    { l1 := b.l1, l2 := b.l2, maxDeltaStep := b.maxDeltaStep, gamma := b.gamma
      minLeafWeight := b.minLeafWeight, learningRate := b.learningRate
      allowMissingSplits := b.allowMissingSplits, constraintsMap := b.constraintsMap } := by
  unfold Booster.splitter
  simp only
  split <;> rfl

/-- C07.  In a fitted tree the stored covers of the left and the right child of every split are not
below `min_leaf_weight`. -/
theorem C07_min_leaf_weight (env : Env R F D) (b b' : Booster F D) (data : Matrix D) (y w : List D)
    (ev : Option (List (EvalSet D))) (h : b.fit env data y w ev = .ok (b', .ok ())) (t : Tree F D)
    (ht : t ∈ b'.trees) (n : Node F D) (hn : n ∈ t.nodes) (hl : n.isLeaf = false) :
    ∃ l r, t.nodes[n.leftChild]? = some l ∧ t.nodes[n.rightChild]? = some r ∧
      (l.hessianSum <ᶠ b.minLeafWeight) = false ∧ (r.hessianSum <ᶠ b.minLeafWeight) = false := by
  obtain ⟨_, _, hts⟩ := Booster.fit_trees h
  obtain ⟨cfg, rows, hF⟩ := hts t ht
  obtain ⟨g, hs, sort, hists, nodes, gs, nl, _, _, hc, hcert, _⟩ := Tree.fit_cert hF.fit
  have hsh := cleanUpSplits_shape hc
  obtain ⟨i, hi⟩ := List.mem_iff_getElem?.1 hn
  obtain ⟨g, info, k, kids, hI⟩ := hcert.internal hsh hi hl
  obtain ⟨gl, gr, a1, a2, a3, a4, _⟩ := hI.sides
  obtain ⟨nl', b1, b2, _⟩ := hcert.nodeOf a1
  obtain ⟨nr', c1, c2, _⟩ := hcert.nodeOf a2
  obtain ⟨w1, hw1⟩ := hsh.2 _ _ b1
  obtain ⟨w2, hw2⟩ := hsh.2 _ _ c1
  refine ⟨_, _, hw1, hw2, ?_, ?_⟩
  · have := (bestSplit_cover hI.isSplit.best).1
    rw [hF.splitter, splitter_params] at this
    show (nl'.hessianSum <ᶠ _) = false
    rw [b2.cover, a3.cover]; exact this
  · have := (bestSplit_cover hI.isSplit.best).2
    rw [hF.splitter, splitter_params] at this
    show (nr'.hessianSum <ᶠ _) = false
    rw [c2.cover, a4.cover]; exact this

/-! ### C37 -/

/-- The splitter used with a missing branch. -/
def Booster.branchParams (b : Booster F D) : BranchParams F :=
  { l1 := b.l1, l2 := b.l2, maxDeltaStep := b.maxDeltaStep, gamma := b.gamma
    minLeafWeight := b.minLeafWeight, learningRate := b.learningRate
    allowMissingSplits := b.allowMissingSplits, constraintsMap := b.constraintsMap
    terminateMissingFeatures := b.terminateMissingFeatures
    missingNodeTreatment := b.missingNodeTreatment
    forceChildrenToBoundParent := b.forceChildrenToBoundParent }

theorem splitter_branch {b : Booster F D} (hb : b.createMissingBranch = true) :
    b.splitter = .branch b.branchParams := by
  unfold Booster.splitter
  simp only [hb, if_true]
  rfl

/-- What is known about the dedicated missing child of a split of a fitted tree. -/
theorem fit_missingSide {c : GrowCfg F D} {sm : SampleMethod} {index : List Nat} {t : Tree F D}
    (h : Tree.fit c sm index = .ok t) {p : BranchParams F} (hp : c.splitter = .branch p)
    {n : Node F D} (hn : n ∈ t.nodes) (hl : n.isLeaf = false) :
    n.missingNode ≠ n.leftChild ∧ n.missingNode ≠ n.rightChild ∧
      ∃ m, t.nodes[n.missingNode]? = some m ∧
      ((p.allowMissingSplits = false ∨ n.splitFeature ∈ p.terminateMissingFeatures ∨
        (∃ feature, c.train.data.getCol n.splitFeature = .ok feature ∧
          ∀ r ∈ index, feature[r]? ≠ some 0)) → m.isLeaf = true) := by
  obtain ⟨g, hs, sort, hists, nodes, gs, nl, _, _, hc, hcert, ⟨g0, h0, _, h0r⟩, _⟩ := Tree.fit_cert h
  have hsh := cleanUpSplits_shape hc
  obtain ⟨i, hi⟩ := List.mem_iff_getElem?.1 hn
  obtain ⟨g, info, k, kids, hI⟩ := hcert.internal hsh hi hl
  obtain ⟨gm, isLeaf, minfo, feature, rows', j, k', e1, e2, e3, e4, _, e5, _, e6, e7, e8⟩ :=
    hI.missingSide hp
  obtain ⟨nm, d1, _, d3⟩ := hcert.nodeOf e4
  obtain ⟨w, hw⟩ := hsh.2 _ _ d1
  refine ⟨e7, e8, _, hw, fun hcond => ?_⟩
  have hml : gm.sn.isMissingLeaf = true := by
    rw [e6, Bool.or_eq_true]
    rcases hcond with hcond | hcond | ⟨feature', hf1, hf2⟩
    · left
      obtain ⟨j, i, ⟨f, m, bs, bin, h1, h2, h3, h4⟩⟩ := bestSplit_mem hI.isSplit.best
      obtain ⟨l, r, mi, g, he, _, _, hinfo⟩ := evalCandidate_some.1 h4
      rw [hp] at he
      obtain ⟨lw, rw, _, _, _, _, _, hm⟩ := branchEvaluateSplit_some he
      rw [hcond] at hm
      simp only [Bool.and_false, Bool.false_eq_true, if_false] at hm
      have : info.missingNode = mi := by rw [hinfo]
      rw [BranchParams.missingChild, this, hm] at e1
      cases e1; rfl
    · left
      rw [hI.feature] at hcond
      unfold BranchParams.missingChild at e1
      split at e1
      · simp only [Res.ok.injEq, Prod.mk.injEq] at e1
        rw [← e1.1]; simpa using hcond
      · cases e1; rfl
      · cases e1
    · right
      rw [hI.feature, e2] at hf1
      cases hf1
      have hz : j = 0 := pivotOnSplitExcludeMissing_none (fun r hr => hf2 r (by
        have := hcert.rows_mem h0 i g hI.ghost r hr
        rwa [h0r] at this)) e3
      simp [e5, hz]
  have hnone : gm.info = none := by
    cases hgi : gm.info with
    | none => rfl
    | some pr =>
      obtain ⟨info', k2⟩ := pr
      obtain ⟨kids', hS'⟩ := hcert.split _ gm info' k2 e4 hgi
      have := hS'.notMissing
      rw [hml] at this; cases this
  exact d3.2 hnone

/-- C37.  If `allow_missing_splits` is false or the split feature is listed in
`terminate_missing_features`, the dedicated missing child of the split is a leaf. -/
theorem C37_missing_leaf (env : Env R F D) (b b' : Booster F D) (data : Matrix D) (y w : List D)
    (ev : Option (List (EvalSet D))) (h : b.fit env data y w ev = .ok (b', .ok ()))
    (hb : b.createMissingBranch = true) (t : Tree F D) (ht : t ∈ b'.trees) (n : Node F D)
    (hn : n ∈ t.nodes) (hl : n.isLeaf = false) :
    n.missingNode ≠ n.leftChild ∧ n.missingNode ≠ n.rightChild ∧
      ∃ m, t.nodes[n.missingNode]? = some m ∧
        (b.allowMissingSplits = false ∨ n.splitFeature ∈ b.terminateMissingFeatures →
          m.isLeaf = true) := by
  obtain ⟨_, _, hts⟩ := Booster.fit_trees h
  obtain ⟨cfg, rows, hF⟩ := hts t ht
  obtain ⟨h1, h2, m, h3, h4⟩ := fit_missingSide hF.fit (hF.splitter.trans (splitter_branch hb)) hn hl
  exact ⟨h1, h2, m, h3, fun hc => h4 (hc.elim Or.inl fun h => Or.inr (Or.inl h))⟩

/-! ### Examples -/

/-- A fit with binary splits: some tree has four leaves. -/
example : ∃ b', exFresh.fit exEnv exX exY exW none = .ok (b', .ok ()) ∧
    ∃ t ∈ b'.trees, t.leafCount = 4 := by
  have : (match exFresh.fit exEnv exX exY exW none with
    | .ok (b', .ok ()) => b'.trees.any fun t => decide (t.leafCount = 4)
    | _ => false) = true := by decide +kernel
  split at this
  · rename_i b' h
    obtain ⟨t, ht, h2⟩ := List.any_eq_true.1 this
    exact ⟨b', h, t, ht, of_decide_eq_true h2⟩
  · cases this

/-- A fit with ternary splits whose missing children are leaves for both reasons of C37. -/
example : ∃ b', { exTwoLeaves with allowMissingSplits := false, maxLeaves := 5 }.fit exEnv exX exY exW
    none = .ok (b', .ok ()) ∧ ∃ t ∈ b'.trees, ∃ n ∈ t.nodes, n.isLeaf = false ∧
      n.splitFeature ∉ exTwoLeaves.terminateMissingFeatures := by
  have : (match { exTwoLeaves with allowMissingSplits := false, maxLeaves := 5 }.fit exEnv exX exY exW
      none with
    | .ok (b', .ok ()) => b'.trees.any fun t => t.nodes.any fun n =>
        !n.isLeaf && decide (n.splitFeature ∉ exTwoLeaves.terminateMissingFeatures)
    | _ => false) = true := by decide +kernel
  split at this
  · rename_i b' h
    obtain ⟨t, ht, h2⟩ := List.any_eq_true.1 this
    obtain ⟨n, hn, h3⟩ := List.any_eq_true.1 h2
    rw [Bool.and_eq_true, Bool.not_eq_true', decide_eq_true_eq] at h3
    exact ⟨b', h, t, ht, n, hn, h3⟩
  · cases this

/-- The generator of the examples meets `Rng.Ok`. -/
example : exRng.Ok where
  subperm _ l n := (List.take_sublist n l).subperm
  length _ _ _ := List.length_take

end Verif
