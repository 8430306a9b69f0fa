import Verif.Proofs.Cover
import Verif.Proofs.Route

/-!
# A fitted tree and the rows it was fitted on
-/

namespace Verif

open scoped Verif

set_option linter.unusedSectionVars false

section
variable {K : Type} [Field K] [LinearOrder K] [IsStrictOrderedRing K] {m32 m64 : Fmt K}
  [m32.Exact] [m64.Exact]

/-- A tree is fitted on the rows `rows` of `X`: the data were binned by `bin_matrix` with finite
weights that are not negative, the gradients and hessians are the finite numbers `gv` and `hv`. -/
structure TrainedOn (S : Sorter) (X : Matrix (FX m64)) (w : List K) (nbins : Nat) (missing : FX m64)
    (gv hv : Nat → K) (c : GrowCfg (FX m32) (FX m64)) (sm : SampleMethod) (rows : List Nat) : Prop where
  sorter : S.Ok
  shaped : X.Shaped
  weights : X.rows ≤ w.length
  nonneg : ∀ x ∈ w, 0 ≤ x
  max : ∀ v ∈ X.data, ¬ IsMissing missing v → (v ≤ᶠ Fl.maxv) = true
  binned : ∃ bd, binMatrix S X (w.map FX.fin) nbins missing = .ok bd ∧
    c.train.data = { data := bd.binned, rows := X.rows, cols := X.cols } ∧ c.train.cuts = bd.cuts
  sorted : c.train.colIndex.Pairwise (· < ·)
  cols : ∀ j ∈ c.train.colIndex, j < X.cols
  grad : FinRows c.train.grad gv
  hess : FinRows c.train.hess hv
  pos : (0 <ᶠ c.splitter.params.minLeafWeight) = true
  rows_lt : ∀ r ∈ rows, r < X.rows
  nodup : rows.Nodup
  full : sm = .none → rows = List.range c.train.grad.length ∧
    c.train.hess.length = c.train.grad.length

variable {S : Sorter} {X : Matrix (FX m64)} {w : List K} {nbins : Nat} {missing : FX m64}
  {gv hv : Nat → K} {c : GrowCfg (FX m32) (FX m64)} {sm : SampleMethod} {rows : List Nat}

theorem TrainedOn.eq (h : TrainedOn S X w nbins missing gv hv c sm rows) :
    ∃ bd, binMatrix S X (w.map FX.fin) nbins missing = .ok bd ∧
      c.train = trainOf X bd c.train.grad c.train.hess c.train.colIndex := by
  obtain ⟨bd, h1, h2, h3⟩ := h.binned
  refine ⟨bd, h1, ?_⟩
  unfold trainOf
  rw [← h2, ← h3]

theorem TrainedOn.trainOk (h : TrainedOn S X w nbins missing gv hv c sm rows) :
    TrainOk c.train gv hv := by
  obtain ⟨bd, h1, h2⟩ := h.eq
  rw [h2]
  exact trainOf_ok h.sorter h.shaped h.weights h.max h1 h.sorted h.cols h.grad h.hess

theorem TrainedOn.rawOk (h : TrainedOn S X w nbins missing gv hv c sm rows) :
    RawOk c.train X missing := by
  obtain ⟨bd, h1, h2⟩ := h.eq
  rw [h2]
  exact trainOf_raw h.sorter h.shaped h.weights h.nonneg h.max h1 h.cols

theorem TrainedOn.rows_eq (h : TrainedOn S X w nbins missing gv hv c sm rows) :
    c.train.data.rows = X.rows := by
  obtain ⟨bd, h1, h2, h3⟩ := h.binned
  rw [h2]

/-- What is known about a fitted tree. -/
structure FitView (X : Matrix (FX m64)) (missing : FX m64) (gv hv : Nat → K)
    (c : GrowCfg (FX m32) (FX m64)) (rows : List Nat) (t : Tree (FX m32) (FX m64))
    (o : SNode (FX m32) (FX m64) → Prop) (gs : List (Ghost (FX m32) (FX m64)))
    (nodes : List (Node (FX m32) (FX m64))) : Prop where
  cert : Cert c o gs nodes
  clean : cleanUpSplits c.splitter nodes = .ok t.nodes
  shape : SameShape nodes t.nodes
  root : ∃ g0, gs[0]? = some g0 ∧ g0.rows = rows ∧ (∃ n hists, g0.sn = rootNode c.splitter.params n
    (FX.fin (rowSum gv rows)) (FX.fin (rowSum hv rows)) hists)
  sums : ∀ (i : Nat) (g : Ghost (FX m32) (FX m64)), gs[i]? = some g → NodeSums c.train gv hv g.sn g.rows
  lt : ∀ (i : Nat) (g : Ghost (FX m32) (FX m64)), gs[i]? = some g → ∀ r ∈ g.rows, r < c.train.data.rows
  sub : ∀ (i : Nat) (g : Ghost (FX m32) (FX m64)), gs[i]? = some g → ∀ r ∈ g.rows, r ∈ rows
  nodup : ∀ (i : Nat) (g : Ghost (FX m32) (FX m64)), gs[i]? = some g → g.rows.Nodup
  reaches : ∀ (i : Nat) (g : Ghost (FX m32) (FX m64)), gs[i]? = some g → ∀ r ∈ rows,
    (Reaches t.nodes (X.entry r) missing i ↔ r ∈ g.rows)
  toLeaf : ∀ r ∈ rows, ∃ k l, t.nodes[k]? = some l ∧ l.isLeaf = true ∧
    Reaches t.nodes (X.entry r) missing k ∧ Route t.nodes (X.entry r) missing 0 l

theorem Cert.rows_nodup {o : SNode (FX m32) (FX m64) → Prop} {gs : List (Ghost (FX m32) (FX m64))}
    {nodes : List (Node (FX m32) (FX m64))} (h : Cert c o gs nodes) {g0 : Ghost (FX m32) (FX m64)}
    (h0 : gs[0]? = some g0) (hn : g0.rows.Nodup) :
    ∀ (i : Nat) (g : Ghost (FX m32) (FX m64)), gs[i]? = some g → g.rows.Nodup := by
  intro i
  induction i using Nat.strong_induction_on with
  | _ i ih =>
    intro g hg
    by_cases hi : i = 0
    · subst hi
      rw [h0] at hg; cases hg; exact hn
    · obtain ⟨gi, info, k, b1, b2, b3, b4⟩ := h.parent i g hg (by omega)
      obtain ⟨kids, hS⟩ := h.split _ gi info k b1 b2
      obtain ⟨kid, g', d1, d2, d5, d3, d4⟩ := hS.new_lt b3 b4
      rw [hg] at d2; cases d2
      have hlt : g.parent < i := by have := hS.later; omega
      have h1 := hS.perm.nodup_iff.2 (ih _ hlt gi b1)
      rw [d3]
      exact (List.nodup_flatMap.1 h1).1 kid (List.mem_of_getElem? d1)

/-- A leaf that was not examined is left only when the leaf limit is reached. -/
theorem TrainedOn.view_open (h : TrainedOn S X w nbins missing gv hv c sm rows)
    {t : Tree (FX m32) (FX m64)} (hf : Tree.fit c sm rows = .ok t) :
    ∃ o gs nodes, FitView X missing gv hv c rows t o gs nodes ∧
      ∀ sn, o sn → c.maxLeaves ≤ t.nodes.countP Node.isLeaf := by
  obtain ⟨g, hs, sort, hists, nodes, gs, nl, h1, h2, h3, hC, ⟨g0, hg0, hsn, hrows⟩, hnl, _⟩ :=
    Tree.fit_cert hf
  have hT := h.trainOk
  have hsh := cleanUpSplits_shape h3
  have hN : NodeSums c.train gv hv g0.sn g0.rows := by
    rw [hsn, hrows]
    exact root_sums hT h.full h1 h2 _ _
  have hlt : ∀ r ∈ g0.rows, r < c.train.data.rows := by
    rw [hrows, h.rows_eq]; exact h.rows_lt
  have hsub := hC.rows_mem hg0
  refine ⟨_, gs, nodes, ⟨hC, h3, hsh, ⟨g0, hg0, hrows, ?_⟩, hC.sums hT h.pos hg0 hN hlt, ?_, ?_,
    hC.rows_nodup hg0 (by rw [hrows]; exact h.nodup), ?_, ?_⟩, fun _ ho => by
      rw [hsh.countP, hnl]; omega⟩
  · have e1 := hN.grad
    have e2 := hN.hess
    rw [hsn, hrows] at e1 e2
    refine ⟨rows.length, hists, ?_⟩
    rw [hsn]
    simp only [rootNode, SNode.new] at e1 e2 ⊢
    rw [e1, e2]
  · exact fun i g hg r hr => hlt r (hsub i g hg r hr)
  · rw [← hrows]; exact hsub
  · rw [← hrows]
    exact hC.reaches hsh hT h.pos h.rawOk hg0 hN hlt
  · intro r hr
    have hr' : r ∈ g0.rows := by rw [hrows]; exact hr
    have hp : 0 < t.nodes.length := by
      rw [hsh.1, ← hC.len]
      exact (List.getElem?_eq_some_iff.1 hg0).1
    exact hC.toLeaf hsh hT h.pos h.rawOk hg0 hN hlt hr' t.nodes.length 0 (by omega) hp .root

theorem TrainedOn.view (h : TrainedOn S X w nbins missing gv hv c sm rows)
    {t : Tree (FX m32) (FX m64)} (hf : Tree.fit c sm rows = .ok t) :
    ∃ o gs nodes, FitView X missing gv hv c rows t o gs nodes := by
  obtain ⟨o, gs, nodes, hV, _⟩ := h.view_open hf
  exact ⟨o, gs, nodes, hV⟩

/-- The weights of the two main children of a split. -/
theorem SplitFacts.weights {g : Ghost (FX m32) (FX m64)} {info : SplitInfo (FX m32) (FX m64)}
    {kids : List (Kid (FX m32) (FX m64))} {f : List Nat} {cu : List (FX m64)} {b : Nat} {mr : Bool}
    (hF : SplitFacts c gv hv g info kids f cu b mr)
    (hforce : ∀ p, c.splitter = .branch p → p.forceChildrenToBoundParent = false) :
    info.leftNode.weight = c.splitter.params.cw (candArgs g.sn f (b + 1) gv hv g.rows
        (c.splitter.params.getConstraint info.splitFeature)) info.leftNode.grad info.leftNode.cover ∧
    info.rightNode.weight = c.splitter.params.cw (candArgs g.sn f (b + 1) gv hv g.rows
        (c.splitter.params.getConstraint info.splitFeature)) info.rightNode.grad
          info.rightNode.cover := by
  obtain ⟨l, r, he, e1, e2, e3, e4, e5, e6⟩ := hF.eval
  cases hs : c.splitter with
  | imputer p =>
    rw [hs] at he
    simp only [Splitter.evaluateSplit, Res.ok.injEq] at he
    obtain ⟨a1, a2, _⟩ := imputer_sums rfl rfl rfl rfl he
    rw [← e1, ← e2, ← e3, ← e4, ← e5, ← e6]
    exact ⟨a1, a2⟩
  | branch p =>
    rw [hs] at he
    simp only [Splitter.evaluateSplit] at he
    obtain ⟨lw, rw', a1, _, _, rfl, rfl, _⟩ := branchEvaluateSplit_some he
    rw [← e1, ← e2, ← e3, ← e4, ← e5, ← e6]
    simp only [branchChildWeights, hforce p hs, Bool.false_eq_true, if_false, Res.ok.injEq,
      Prod.mk.injEq] at a1
    obtain ⟨rfl, rfl⟩ := a1
    exact ⟨rfl, rfl⟩

/-- Some internal node sends only missing values to node `j`. -/
def OnlyMissing {F D : Type} (nodes : List (Node F D)) (j : Nat) : Prop :=
  ∃ (i : Nat) (n : Node F D), nodes[i]? = some n ∧ n.isLeaf = false ∧ n.missingNode = j ∧
    n.leftChild ≠ j ∧ n.rightChild ≠ j

/-- A node other than the root that is not reserved for missing values is the left or right child of
its parent. -/
theorem FitView.main {o : SNode (FX m32) (FX m64) → Prop} {gs : List (Ghost (FX m32) (FX m64))}
    {nodes : List (Node (FX m32) (FX m64))} {t : Tree (FX m32) (FX m64)}
    (hV : FitView X missing gv hv c rows t o gs nodes) {i : Nat} {g : Ghost (FX m32) (FX m64)}
    (hg : gs[i]? = some g) (hi : 0 < i) (hm : ¬ OnlyMissing t.nodes i) :
    ∃ j n gj info k kids, j < i ∧ t.nodes[j]? = some n ∧ n.isLeaf = false ∧
      Internal c gs nodes j n gj info k kids ∧
      ((n.leftChild = i ∧ g.sn.Holds info.leftNode) ∨ (n.rightChild = i ∧ g.sn.Holds info.rightNode)) := by
  obtain ⟨gj, info, k, b1, b2, b3, b4⟩ := hV.cert.parent i g hg hi
  obtain ⟨n0, hn0, hno, hleaf⟩ := hV.cert.nodeOf b1
  obtain ⟨w, hw⟩ := hV.shape.2 _ _ hn0
  have hl : n0.isLeaf = false := by
    cases h : n0.isLeaf with
    | false => rfl
    | true => rw [hleaf.1 h] at b2; cases b2
  obtain ⟨g', info', k', kids, hI⟩ := hV.cert.internal hV.shape hw hl
  have hgg := hI.ghost
  rw [b1] at hgg; cases hgg
  have hii := hI.info_eq
  rw [b2] at hii; cases hii
  obtain ⟨gl, gr, a1, a2, a3, a4, _⟩ := hI.sides
  refine ⟨_, _, gj, info, k, kids, by have := hI.isSplit.later; omega, hw, hl, hI, ?_⟩
  have e1 := hI.left
  have e2 := hI.right
  have e3 := hI.missing
  have key : (n0.leftChild = i) ∨ (n0.rightChild = i) := by
    cases hs : c.splitter with
    | imputer p =>
      rw [hs] at e1 e2 b4
      simp only [Splitter.links, Splitter.arity] at e1 e2 b4
      omega
    | branch p =>
      rw [hs] at e1 e2 e3 b4
      simp only [Splitter.links, Splitter.arity] at e1 e2 e3 b4
      by_contra hno
      rw [not_or] at hno
      refine hm ⟨_, _, hw, hl, ?_, hno.1, hno.2⟩
      have e3' : n0.missingNode = k := e3
      show n0.missingNode = i
      omega
  rcases key with h | h
  · left
    refine ⟨h, ?_⟩
    have a1' : gs[n0.leftChild]? = some gl := a1
    rw [h, hg] at a1'; cases a1'; exact a3
  · right
    refine ⟨h, ?_⟩
    have a2' : gs[n0.rightChild]? = some gr := a2
    rw [h, hg] at a2'; cases a2'; exact a4

/-- Facts about every split. -/
theorem FitView.splitFacts {o : SNode (FX m32) (FX m64) → Prop} {gs : List (Ghost (FX m32) (FX m64))}
    {nodes : List (Node (FX m32) (FX m64))} {t : Tree (FX m32) (FX m64)}
    (hV : FitView X missing gv hv c rows t o gs nodes) (hT : TrainedOn S X w nbins missing gv hv c sm rows)
    {i : Nat} {n : Node (FX m32) (FX m64)} {g : Ghost (FX m32) (FX m64)}
    {info : SplitInfo (FX m32) (FX m64)} {k : Nat} {kids : List (Kid (FX m32) (FX m64))}
    (hI : Internal c gs nodes i n g info k kids) :
    ∃ f cu b mr, SplitFacts c gv hv g info kids f cu b mr :=
  Verif.splitFacts hT.trainOk hT.pos hI.isSplit (hV.sums i g hI.ghost) (hV.lt i g hI.ghost)

/-- Without constraints, weights belong to the sums of the node. -/
theorem FitView.weight {o : SNode (FX m32) (FX m64) → Prop} {gs : List (Ghost (FX m32) (FX m64))}
    {nodes : List (Node (FX m32) (FX m64))} {t : Tree (FX m32) (FX m64)}
    (hV : FitView X missing gv hv c rows t o gs nodes) (hT : TrainedOn S X w nbins missing gv hv c sm rows)
    (hforce : ∀ p, c.splitter = .branch p → p.forceChildrenToBoundParent = false)
    (hno : ∀ f, noConstraint (c.splitter.params.getConstraint f) = true)
    {i : Nat} {g : Ghost (FX m32) (FX m64)} (hg : gs[i]? = some g) (hm : ¬ OnlyMissing t.nodes i) :
    g.sn.weightValue = Verif.weight c.splitter.params.l1 c.splitter.params.l2
      c.splitter.params.maxDeltaStep (FX.fin (rowSum gv g.rows)) (FX.fin (rowSum hv g.rows)) := by
  have hN := hV.sums i g hg
  rcases Nat.eq_zero_or_pos i with rfl | hi
  · obtain ⟨g0, h0, h1, n, hists, h2⟩ := hV.root
    rw [hg] at h0; cases h0
    rw [h2, h1]; rfl
  · obtain ⟨j, n, gj, info, k, kids, hj, hn, hl, hI, h⟩ := hV.main hg hi hm
    obtain ⟨f, cu, b, mr, hF⟩ := hV.splitFacts hT hI
    obtain ⟨a1, a2⟩ := hF.weights hforce
    have e : ∀ x y, c.splitter.params.cw (candArgs gj.sn f (b + 1) gv hv gj.rows
        (c.splitter.params.getConstraint info.splitFeature)) x y = Verif.weight c.splitter.params.l1
          c.splitter.params.l2 c.splitter.params.maxDeltaStep x y := by
      intro x y
      simp only [SplitParams.cw, constrainedWeight, candArgs, hno, if_true]
    rw [← hN.grad, ← hN.hess]
    rcases h with ⟨_, h⟩ | ⟨_, h⟩
    · rw [h.weight, h.grad, h.cover, a1, e]
    · rw [h.weight, h.grad, h.cover, a2, e]

end

section
variable {F D : Type} [Fl F] [Fl D] [FlCast F D]

/-- The clean-up only touches internal nodes and missing children. -/
theorem updateAverage_frame : ∀ (fuel : Nat) (nodes nodes' : List (Node F D)) (i : Nat) (a : D),
    updateAverage fuel nodes i = .ok (nodes', a) →
    (∀ (j : Nat) (n : Node F D), nodes[j]? = some n → n.num = j) → ∀ (j : Nat) (n : Node F D),
    nodes[j]? = some n → n.isLeaf = true →
    (∀ (p : Nat) (np : Node F D), nodes[p]? = some np → np.isLeaf = false → np.missingNode ≠ j) →
    nodes'[j]? = some n := by
  intro fuel
  induction fuel with
  | zero => intro nodes nodes' i a h; simp [updateAverage] at h
  | succ fuel ih =>
    intro nodes nodes' i a h hnum j n hj hl hmiss
    rw [updateAverage, Res.bind_eq_ok] at h
    obtain ⟨node, hn, h⟩ := h
    split at h
    · injection h with h
      injection h with h _
      rw [← h]; exact hj
    · rename_i hint
      simp only [Bool.not_eq_true] at hint
      rw [idx_eq_ok] at hn
      have hcur := hnum i node hn
      have hij : node.num ≠ j := by
        rintro rfl
        rw [hcur, hn] at hj; cases hj
        rw [hint] at hl; cases hl
      have hmj : node.missingNode ≠ j := hmiss i node hn hint
      simp only [Res.bind_eq_ok, Prod.exists] at h
      obtain ⟨rn, h1, n1, ra, h2, ln, h3, n2, la, h4, mn, h5, h⟩ := h
      have trans : ∀ {a b : List (Node F D)}, SameShape a b →
          (∀ (j : Nat) (n : Node F D), a[j]? = some n → n.num = j) →
          (∀ (p : Nat) (np : Node F D), a[p]? = some np → np.isLeaf = false → np.missingNode ≠ j) →
          (∀ (j : Nat) (n : Node F D), b[j]? = some n → n.num = j) ∧
          (∀ (p : Nat) (np : Node F D), b[p]? = some np → np.isLeaf = false → np.missingNode ≠ j) := by
        intro a b hs ha1 ha2
        refine ⟨fun p n hp => ?_, fun p n hp => ?_⟩
        · obtain ⟨n', w, e1, rfl⟩ := hs.inv hp
          exact ha1 p n' e1
        · obtain ⟨n', w, e1, rfl⟩ := hs.inv hp
          exact ha2 p n' e1
      have s1 := updateAverage_shape _ _ _ _ _ h2
      obtain ⟨t1, t1'⟩ := trans s1 hnum hmiss
      have j1 := ih _ _ _ _ h2 hnum j n hj hl hmiss
      have s2 := updateAverage_shape _ _ _ _ _ h4
      obtain ⟨t2, t2'⟩ := trans s2 t1 t1'
      have j2 := ih _ _ _ _ h4 t1 j n j1 hl t1'
      split at h
      · simp only [Res.pure_def, Res.ok_bind, Res.ok.injEq, Prod.mk.injEq, if_true] at h
        obtain ⟨rfl, _⟩ := h
        rw [List.getElem?_modify, List.getElem?_modify, j2]
        simp [hij, hmj]
      · simp only [Res.pure_def, Res.ok_bind, Res.ok.injEq, Prod.mk.injEq, Bool.false_eq_true,
          if_false, Res.bind_eq_ok, Prod.exists] at h
        obtain ⟨n3, a3, h6, rfl, _⟩ := h
        rw [List.getElem?_modify, ih _ _ _ _ h6 t2 j n j2 hl t2']
        simp [hij]

end

end Verif
