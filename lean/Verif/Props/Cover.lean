import Verif.Proofs.Fitted
import Verif.Props.Weights
import Verif.Props.Boosting
import Verif.Props.Growth
import Verif.Props.Validation
import Verif.Props.Sampling

/-!
# C01, C02, C37: which rows a node was fitted on

`Reaches` (Spec/Route) says that a row passes a node at prediction time, on raw values.
-/

namespace Verif

open scoped Verif

set_option linter.unusedSectionVars false

section
variable {K : Type} [Field K] [LinearOrder K] [IsStrictOrderedRing K] {m32 m64 : Fmt K}
  [m32.Exact] [m64.Exact]
variable {S : Sorter} {X : Matrix (FX m64)} {w : List K} {nbins : Nat} {missing : FX m64}
  {gv hv : Nat → K} {c : GrowCfg (FX m32) (FX m64)} {sm : SampleMethod} {rows : List Nat}
  {t : Tree (FX m32) (FX m64)}

open Classical in
/-- The rows of `rows` that pass node `i` of the tree when it predicts them from their raw values. -/
noncomputable def rowsAt (t : Tree (FX m32) (FX m64)) (X : Matrix (FX m64)) (missing : FX m64)
    (rows : List Nat) (i : Nat) : List Nat :=
  rows.filter fun r => decide (Reaches t.nodes (X.entry r) missing i)

theorem FitView.rowsAt {o : SNode (FX m32) (FX m64) → Prop} {gs : List (Ghost (FX m32) (FX m64))}
    {nodes : List (Node (FX m32) (FX m64))} (hV : FitView X missing gv hv c rows t o gs nodes)
    (hn : rows.Nodup) {i : Nat} {g : Ghost (FX m32) (FX m64)} (hg : gs[i]? = some g) :
    (Verif.rowsAt t X missing rows i).Perm g.rows := by
  refine (List.perm_ext_iff_of_nodup (hn.filter _) (hV.nodup i g hg)).2 fun r => ?_
  rw [List.mem_filter]
  simp only [decide_eq_true_eq]
  constructor
  · rintro ⟨h1, h2⟩
    exact (hV.reaches i g hg r h1).1 h2
  · intro h
    have := hV.sub i g hg r h
    exact ⟨this, (hV.reaches i g hg r this).2 h⟩

theorem FitView.rowSum {o : SNode (FX m32) (FX m64) → Prop} {gs : List (Ghost (FX m32) (FX m64))}
    {nodes : List (Node (FX m32) (FX m64))} (hV : FitView X missing gv hv c rows t o gs nodes)
    (hn : rows.Nodup) {i : Nat} {g : Ghost (FX m32) (FX m64)} (hg : gs[i]? = some g) (v : Nat → K) :
    ((Verif.rowsAt t X missing rows i).map v).sum = Verif.rowSum v g.rows :=
  ((hV.rowsAt hn hg).map v).sum_eq

theorem FitView.node {o : SNode (FX m32) (FX m64) → Prop} {gs : List (Ghost (FX m32) (FX m64))}
    {nodes : List (Node (FX m32) (FX m64))} (hV : FitView X missing gv hv c rows t o gs nodes)
    {i : Nat} {n : Node (FX m32) (FX m64)} (hn : t.nodes[i]? = some n) :
    ∃ g n0, gs[i]? = some g ∧ nodes[i]? = some n0 ∧ NodeOf c.splitter.params.learningRate g.sn n0 ∧
      n0.isLeaf = n.isLeaf ∧ n0.num = n.num ∧ n0.hessianSum = n.hessianSum ∧ g.sn.num = i := by
  have hlt := (List.getElem?_eq_some_iff.1 hn).1
  rw [hV.shape.1, ← hV.cert.len] at hlt
  have hg := List.getElem?_eq_getElem hlt
  obtain ⟨n0, h1, h2, _⟩ := hV.cert.nodeOf hg
  obtain ⟨w, hw⟩ := hV.shape.2 _ _ h1
  rw [hn] at hw; cases hw
  exact ⟨_, n0, hg, h1, h2, rfl, rfl, rfl, (hV.cert.num _ _ hg).1⟩

/-! ### C01 -/

/-- **C01** (covers).  In a tree fitted on `rows`, the cover of every node, internal or leaf, is the
sum of the hessians of exactly the training rows that pass it at prediction time. -/
theorem C01_cover (h : TrainedOn S X w nbins missing gv hv c sm rows) (hf : Tree.fit c sm rows = .ok t)
    {i : Nat} {n : Node (FX m32) (FX m64)} (hn : t.nodes[i]? = some n) :
    n.hessianSum = FX.fin ((rowsAt t X missing rows i).map hv).sum := by
  obtain ⟨o, gs, nodes, hV⟩ := h.view hf
  obtain ⟨g, n0, hg, _, hno, _, _, hc, _⟩ := hV.node hn
  rw [← hc, hno.cover, (hV.sums i g hg).hess, hV.rowSum h.nodup hg]

theorem Reaches.route_zero {nodes : List (Node (FX m32) (FX m64))} {row : Nat → Option (FX m64)} {i : Nat}
    {l : Node (FX m32) (FX m64)} (hr : Reaches nodes row missing i) (h : Route nodes row missing i l) :
    Route nodes row missing 0 l := by
  induction hr with
  | root => exact h
  | step _ h1 h2 h3 h4 ih => exact ih (.step h1 h2 h3 h4 h)

/-- A leaf is passed by the rows that are predicted to it. -/
theorem FitView.leaf_iff {o : SNode (FX m32) (FX m64) → Prop} {gs : List (Ghost (FX m32) (FX m64))}
    {nodes : List (Node (FX m32) (FX m64))} (hV : FitView X missing gv hv c rows t o gs nodes)
    {r : Nat} (hr : r ∈ rows) {i : Nat} {n : Node (FX m32) (FX m64)} (hn : t.nodes[i]? = some n)
    (hl : n.isLeaf = true) :
    t.predictLeaf X r missing = .ok n ↔ Reaches t.nodes (X.entry r) missing i := by
  rw [predictLeaf_iff]
  constructor
  · intro h
    obtain ⟨k, l, h1, h2, h3, h4⟩ := hV.toLeaf r hr
    have := h.unique h4; subst this
    obtain ⟨g, n0, _, _, a1, _, a2, _, a3⟩ := hV.node hn
    obtain ⟨g', n0', _, _, b1, _, b2, _, b3⟩ := hV.node h1
    have e : i = k := by rw [← a3, ← b3, ← a1.num, ← b1.num, a2, b2]
    rwa [e]
  · intro h
    exact h.route_zero (.leaf hn hl)

open Classical in
/-- The rows of `rows` that the prediction routine leads to the leaf `l`. -/
noncomputable def rowsOfLeaf (t : Tree (FX m32) (FX m64)) (X : Matrix (FX m64)) (missing : FX m64)
    (rows : List Nat) (l : Node (FX m32) (FX m64)) : List Nat :=
  rows.filter fun r => decide (t.predictLeaf X r missing = .ok l)

/-- **C01** (leaves).  Every row that took part in the fit is led to a leaf of the tree by the
prediction routine, and the cover of a leaf is the sum of the hessians of exactly the training rows
that the prediction routine leads to it. -/
theorem C01_leaf (h : TrainedOn S X w nbins missing gv hv c sm rows) (hf : Tree.fit c sm rows = .ok t) :
    (∀ r ∈ rows, ∃ l ∈ t.nodes, l.isLeaf = true ∧ t.predictLeaf X r missing = .ok l) ∧
    ∀ l ∈ t.nodes, l.isLeaf = true →
      l.hessianSum = FX.fin ((rowsOfLeaf t X missing rows l).map hv).sum := by
  obtain ⟨o, gs, nodes, hV⟩ := h.view hf
  refine ⟨fun r hr => ?_, fun l hl hleaf => ?_⟩
  · obtain ⟨k, l, h1, h2, h3, h4⟩ := hV.toLeaf r hr
    exact ⟨l, List.mem_of_getElem? h1, h2, predictLeaf_iff.2 h4⟩
  · obtain ⟨i, hi⟩ := List.mem_iff_getElem?.1 hl
    rw [C01_cover h hf hi]
    congr 3
    unfold rowsAt rowsOfLeaf
    refine List.filter_congr fun r hr => ?_
    rw [decide_eq_decide]
    exact (hV.leaf_iff hr hi hleaf).symm

/-! ### C02 -/

/-- **C02.**  Without monotone constraints, and with the children not forced to bound their parent,
the value of a node that is not reserved for missing values is the learning rate times the
regularised step of the gradient and hessian sums of exactly the training rows that pass the node at
prediction time.  With `AverageLeafWeight` this is claimed of leaves only: internal nodes are
overwritten there. -/
theorem C02_value (h : TrainedOn S X w nbins missing gv hv c sm rows) (hf : Tree.fit c sm rows = .ok t)
    {l1 l2 mds lr : K} (e1 : c.splitter.params.l1 = FX.fin l1) (e2 : c.splitter.params.l2 = FX.fin l2)
    (e3 : c.splitter.params.maxDeltaStep = FX.fin mds)
    (e4 : c.splitter.params.learningRate = FX.fin lr) (hl : 0 ≤ l1) (hm : 0 ≤ mds)
    (hno : ∀ f, noConstraint (c.splitter.params.getConstraint f) = true)
    (hforce : ∀ p, c.splitter = .branch p → p.forceChildrenToBoundParent = false)
    {i : Nat} {n : Node (FX m32) (FX m64)} (hn : t.nodes[i]? = some n)
    (hmiss : ¬ OnlyMissing t.nodes i)
    (havg : (∃ p, c.splitter = .branch p ∧ p.missingNodeTreatment = .averageLeafWeight) →
      n.isLeaf = true)
    (hpos : 0 < ((rowsAt t X missing rows i).map hv).sum + l2) :
    ∃ x, n.weightValue = FX.fin (x * lr) ∧
      IsStep l1 l2 mds ((rowsAt t X missing rows i).map gv).sum
        ((rowsAt t X missing rows i).map hv).sum x := by
  obtain ⟨o, gs, nodes, hV⟩ := h.view hf
  obtain ⟨g, n0, hg, hn0, hno', hleaf, hnum, _, hgn⟩ := hV.node hn
  have hw := hV.weight h hforce hno hg hmiss
  rw [hV.rowSum h.nodup hg] at hpos ⊢
  rw [hV.rowSum h.nodup hg]
  obtain ⟨x, hx, hstep, _⟩ := C53_weight (m := m32) (g := rowSum gv g.rows) hpos hl hm
  rw [e1, e2, e3, hx] at hw
  refine ⟨x, ?_, hstep⟩
  have hv0 : n0.weightValue = FX.fin (x * lr) := by
    rw [hno'.weight, hw, e4, FX.fin_mul]
  have same : t.nodes[i]? = some n0 → n.weightValue = FX.fin (x * lr) := by
    intro e
    rw [hn] at e; cases e; exact hv0
  have hclean := hV.clean
  unfold cleanUpSplits at hclean
  split at hclean
  · injection hclean with hclean
    exact same (by rw [← hclean]; exact hn0)
  · rename_i p hp
    split at hclean
    · rename_i htr
      simp only [Res.bind_eq_ok, Prod.exists, Res.ok.injEq] at hclean
      obtain ⟨ns, a, h1, h2⟩ := hclean
      refine same ?_
      rw [← h2]
      refine updateAverage_frame _ _ _ _ _ h1 (fun j m hj => ?_) i n0 hn0 ?_ (fun q nq hq hql hqm => ?_)
      · obtain ⟨gj, hgj, hnode⟩ := hV.cert.node hj
        obtain ⟨m', b1, b2, _⟩ := hV.cert.nodeOf hgj
        rw [hj] at b1; cases b1
        rw [b2.num, (hV.cert.num _ _ hgj).1]
      · rw [hleaf]; exact havg ⟨p, hp, htr⟩
      · obtain ⟨w', hw'⟩ := hV.shape.2 _ _ hq
        obtain ⟨_, _, _, _, hI⟩ := hV.cert.internal hV.shape hw' hql
        have c1 := hI.left
        have c2 := hI.right
        have c3 := hI.missing
        rw [hp] at c1 c2 c3
        simp only [Splitter.links] at c1 c2 c3
        refine hmiss ⟨q, _, hw', hql, hqm, ?_, ?_⟩
        · show nq.leftChild ≠ i
          omega
        · show nq.rightChild ≠ i
          omega
    · injection hclean with hclean
      exact same (by rw [← hclean]; exact hn0)

/-! ### C37 -/

/-- **C37** (third condition, exact arithmetic).  If none of the training rows that pass a node is
missing in the split feature, the dedicated missing child is a leaf. -/
theorem C37_no_missing_rows (h : TrainedOn S X w nbins missing gv hv c sm rows)
    (hf : Tree.fit c sm rows = .ok t) {p : BranchParams (FX m32)} (hp : c.splitter = .branch p)
    {i : Nat} {n : Node (FX m32) (FX m64)} (hn : t.nodes[i]? = some n) (hl : n.isLeaf = false)
    (hno : ∀ r ∈ rows, Reaches t.nodes (X.entry r) missing i → ∀ v, X.entry r n.splitFeature = some v →
      ¬ IsMissing missing v) :
    ∃ m, t.nodes[n.missingNode]? = some m ∧ m.isLeaf = true := by
  obtain ⟨o, gs, nodes, hV⟩ := h.view hf
  obtain ⟨g, info, k, kids, hI⟩ := hV.cert.internal hV.shape hn hl
  obtain ⟨gm, isLeaf, minfo, feature, rows', j, k', e1, e2, e3, e4, _, e5, _, e6, e7, e8⟩ :=
    hI.missingSide hp
  obtain ⟨nm, d1, _, d3⟩ := hV.cert.nodeOf e4
  obtain ⟨w', hw⟩ := hV.shape.2 _ _ d1
  refine ⟨_, hw, ?_⟩
  have hrows : gm.rows = [] := by
    rw [List.eq_nil_iff_forall_not_mem]
    intro r hr
    obtain ⟨f, cu, b, mr, hF⟩ := hV.splitFacts h hI
    have hgr : r ∈ g.rows := by
      obtain ⟨kid, g', x1, x2, x3, x4, x5⟩ := hI.isSplit.new_lt (j := n.missingNode)
        (by have := hI.missing; rw [hp] at this; simp only [Splitter.links] at this; omega)
        (by have := hI.missing; rw [hp] at this ⊢; simp only [Splitter.links] at this
            simp only [Splitter.arity]; omega)
      rw [e4] at x2; cases x2
      rw [x4] at hr
      exact hI.isSplit.perm.subset (List.mem_flatMap.2 ⟨kid, List.mem_of_getElem? x1, hr⟩)
    have hrr := hV.sub _ _ hI.ghost r hgr
    obtain ⟨v, y1, y2, y3⟩ := hF.route h.rawOk hI hgr (hV.lt _ _ hI.ghost r hgr)
    have hnm := hno r hrr ((hV.reaches i g hI.ghost r hrr).2 hgr) v y1
    have hmr := (hV.reaches _ _ e4 r hrr).2 hr
    obtain ⟨kid, g', x1, x2, x3, x4, x5⟩ := hI.isSplit.new_lt (j := n.missingNode)
      (by have := hI.missing; rw [hp] at this; simp only [Splitter.links] at this; omega)
      (by have := hI.missing; rw [hp] at this ⊢; simp only [Splitter.links] at this
          simp only [Splitter.arity]; omega)
    rw [e4] at x2; cases x2
    rw [x4] at hr
    have := (y3 _ kid x1).2 hr
    have hk : n.childFor missing v = n.missingNode := by
      have h3 := hI.missing
      rw [hp] at h3; simp only [Splitter.links] at h3
      omega
    unfold Node.childFor at hk
    rw [if_neg hnm] at hk
    split at hk
    · exact e7 hk.symm
    · exact e8 hk.symm
  have hml : gm.sn.isMissingLeaf = true := by
    rw [e6, hrows]; simp
  refine d3.2 ?_
  cases hgi : gm.info with
  | none => rfl
  | some pr =>
    obtain ⟨info', k2⟩ := pr
    obtain ⟨kids', hS'⟩ := hV.cert.split _ gm info' k2 e4 hgi
    have := hS'.notMissing
    rw [hml] at this; cases this

/-! ### Whole boosters -/

variable {R : Type} {env : Env R (FX m32) (FX m64)} {b b' : Booster (FX m32) (FX m64)}
  {y : List (FX m64)} {ev : Option (List (EvalSet (FX m64)))}

theorem calcGradHess_length {F D : Type} [Fl F] [Fl D] [FlCast F D] (o : ObjectiveType)
    (y yhat w : List D) {n : Nat} (h1 : y.length = n) (h2 : yhat.length = n) (h3 : w.length = n) :
    (calcGradHess (F := F) o y yhat w).1.length = n ∧
      (calcGradHess (F := F) o y yhat w).2.length = n := by
  unfold calcGradHess zip3
  simp [List.unzip_eq_map, h1, h2, h3]

/-- A tree of a run of `fit` was fitted as in C01, C02 and C37. -/
theorem FitTrace.trainedOn {base : FX m64} {binned : BinnedData (FX m64)}
    {st : Nat → FitState R (FX m32) (FX m64)} {stop : Nat → Bool} {N : Nat}
    (hT : FitTrace env b X y (w.map FX.fin) ev b' base binned st stop N)
    (hS : env.sorter.Ok) (hr : env.rng.Ok) (hX : X.Shaped)
    (hy : y.length = X.rows) (hw : w.length = X.rows)
    (hmax : ∀ v ∈ X.data, ¬ IsMissing b.missing v → (v ≤ᶠ Fl.maxv) = true)
    (hpos : (0 <ᶠ b.minLeafWeight) = true) {k : Nat} {t : Tree (FX m32) (FX m64)}
    (ht : b'.trees[k]? = some t) {cfg : GrowCfg (FX m32) (FX m64)} {rows : List Nat}
    (hA : TreeAt env b X y (w.map FX.fin) binned (st k).yhat k t cfg rows) :
    (st k).yhat.length = X.rows ∧
      ∀ gv hv, FinRows cfg.train.grad gv → FinRows cfg.train.hess hv →
        TrainedOn env.sorter X w b.nbins b.missing gv hv cfg b.sampleMethod rows := by
  have hk : k < N := by rw [← hT.length]; exact (List.getElem?_eq_some_iff.1 ht).1
  have hyl : ((st k).yhat).length = X.rows := by
    rw [predictFold_length (hT.yhat k (by omega)), List.length_replicate, hy]
  refine ⟨hyl, fun gv hv hg hh => ?_⟩
  obtain ⟨r1, r2, hs⟩ := hA.sample
  obtain ⟨c1, c2, hcol⟩ := hA.fitted.columns
  obtain ⟨s1, s2, s3, s4⟩ := sampleIndex_rows hS hs
  obtain ⟨d1, d2, _⟩ := sampleColumns_sorted hr hcol
  obtain ⟨l1, l2⟩ := calcGradHess_length (F := FX m32) b.objectiveType y (st k).yhat (w.map FX.fin)
    hy hyl (by simpa using hw)
  have hval := (validateFit_ok _ _ _).1 hT.valid
  refine ⟨hS, hX, hw.ge, ?_, hmax, ⟨binned, hT.bin_eq, hA.fitted.data_eq, hA.fitted.cuts_eq⟩, d1, d2,
    hg, hh, ?_, s2, s1, ?_⟩
  · intro x hx
    by_contra hlt
    refine hval (.inr (.inl ⟨FX.fin x, List.mem_map_of_mem hx, ?_⟩))
    right
    simp only [FX.zero_def, FX.lt_fin, decide_eq_true_eq]
    exact not_le.1 hlt
  · rw [hA.fitted.splitter]
    have : b.splitter.params.minLeafWeight = b.minLeafWeight := by
      unfold Booster.splitter; split <;> rfl
    rw [this]; exact hpos
  · intro e
    rw [s3, s4, l1, l2]
    refine ⟨?_, rfl⟩
    rw [e] at hs
    simp only [sampleIndex, Res.ok.injEq, Prod.mk.injEq] at hs
    exact hs.1.symm

/-- Every tree of a fitted booster was fitted as in C01, C02 and C37, on the gradients and hessians of
the predictions of the earlier trees; these are assumed to be finite numbers `gv`, `hv`. -/
theorem fit_trainedOn (hS : env.sorter.Ok) (hr : env.rng.Ok) (hX : X.Shaped)
    (hy : y.length = X.rows) (hw : w.length = X.rows)
    (hmax : ∀ v ∈ X.data, ¬ IsMissing b.missing v → (v ≤ᶠ Fl.maxv) = true)
    (hpos : (0 <ᶠ b.minLeafWeight) = true)
    (h : b.fit env X y (w.map FX.fin) ev = .ok (b', .ok ())) {k : Nat} {t : Tree (FX m32) (FX m64)}
    (ht : b'.trees[k]? = some t) :
    ∃ (yhat : List (FX m64)) (binned : BinnedData (FX m64)) (cfg : GrowCfg (FX m32) (FX m64))
      (rows : List Nat), TreeAt env b X y (w.map FX.fin) binned yhat k t cfg rows ∧
      yhat.length = X.rows ∧
      ∀ gv hv, FinRows cfg.train.grad gv → FinRows cfg.train.hess hv →
        TrainedOn env.sorter X w b.nbins b.missing gv hv cfg b.sampleMethod rows := by
  obtain ⟨base, binned, st, stop, N, hT⟩ := Booster.fit_trace h
  obtain ⟨cfg, rows, hA⟩ := hT.treeAt ht
  obtain ⟨h1, h2⟩ := hT.trainedOn hS hr hX hy hw hmax hpos ht hA
  exact ⟨_, binned, cfg, rows, hA, h1, h2⟩

/-- **C01** (boosters).  Every tree of a fitted booster is a tree fitted on a sample `rows` of the
training rows, with gradients and hessians of the predictions of the earlier trees; if these are
finite, the prediction routine of the final model leads every sampled row to a leaf of the tree, the
cover of a leaf is the sum of the hessians of the sampled rows led to it, and the cover of every node
the sum over the sampled rows that pass it. -/
theorem C01_booster (hS : env.sorter.Ok) (hr : env.rng.Ok) (hX : X.Shaped)
    (hy : y.length = X.rows) (hw : w.length = X.rows)
    (hmax : ∀ v ∈ X.data, ¬ IsMissing b.missing v → (v ≤ᶠ Fl.maxv) = true)
    (hpos : (0 <ᶠ b.minLeafWeight) = true)
    (h : b.fit env X y (w.map FX.fin) ev = .ok (b', .ok ())) {k : Nat} {t : Tree (FX m32) (FX m64)}
    (ht : b'.trees[k]? = some t) :
    ∃ (yhat : List (FX m64)) (binned : BinnedData (FX m64)) (cfg : GrowCfg (FX m32) (FX m64))
      (rows : List Nat), TreeAt env b X y (w.map FX.fin) binned yhat k t cfg rows ∧
      ∀ gv hv, FinRows cfg.train.grad gv → FinRows cfg.train.hess hv →
        (∀ r ∈ rows, ∃ l ∈ t.nodes, l.isLeaf = true ∧ t.predictLeaf X r b.missing = .ok l) ∧
        (∀ l ∈ t.nodes, l.isLeaf = true →
          l.hessianSum = FX.fin ((rowsOfLeaf t X b.missing rows l).map hv).sum) ∧
        ∀ (i : Nat) (n : Node (FX m32) (FX m64)), t.nodes[i]? = some n →
          n.hessianSum = FX.fin ((rowsAt t X b.missing rows i).map hv).sum := by
  obtain ⟨yhat, binned, cfg, rows, hA, _, hT⟩ := fit_trainedOn hS hr hX hy hw hmax hpos h ht
  refine ⟨yhat, binned, cfg, rows, hA, fun gv hv hg hh => ?_⟩
  have := hT gv hv hg hh
  obtain ⟨a1, a2⟩ := C01_leaf this hA.fitted.fit
  exact ⟨a1, a2, fun i n hn => C01_cover this hA.fitted.fit hn⟩

end

/-! ### Examples -/

/-- Gradients that follow the second column, which has missing values. -/
def exGrad4 : List Q := [q 4, q 3, q (-4), q (-6), q (-2), q 5]

/-- A configuration: the example data, binned, with ternary splits. -/
def exCfg (bd : BinnedData Q) : GrowCfg Q Q :=
  { splitter := { exTwoLeaves with terminateMissingFeatures := [] }.splitter
    train := trainOf exX bd exGrad4 exW [0, 1], maxLeaves := 5, maxDepth := 3, policy := .lossGuide
    heap := { pick := fun _ l => exPick l } }

/-- Gradients and hessians as numbers. -/
def exGv (r : Nat) : ℚ := [4, 3, -4, -6, -2, 5].getD r 0

theorem exTrained {bd : BinnedData Q} (h : binMatrix exSorter exX exW 8 FX.nan = .ok bd) :
    TrainedOn exSorter exX (List.replicate 6 (1 : ℚ)) 8 FX.nan exGv (fun _ => 1) (exCfg bd) .none
      [0, 1, 2, 3, 4, 5] where
  sorter := exSorter_ok
  shaped := rfl
  weights := by decide
  nonneg := by simp
  max := by decide +kernel
  binned := ⟨bd, h, rfl, rfl⟩
  sorted := (by decide : [0, 1].Pairwise (· < ·))
  cols := (by decide : ∀ j ∈ [0, 1], j < 2)
  grad := by
    intro r x hx
    match r, hx with
    | 0, hx | 1, hx | 2, hx | 3, hx | 4, hx | 5, hx => injection hx with hx; exact hx.symm
    | r + 6, hx => cases hx
  hess := by
    intro r x hx
    match r, hx with
    | 0, hx | 1, hx | 2, hx | 3, hx | 4, hx | 5, hx => injection hx with hx; exact hx.symm
    | r + 6, hx => cases hx
  pos := (by decide +kernel : ((0 : Q) <ᶠ q 1) = true)
  rows_lt := by decide
  nodup := by decide
  full := fun _ => ⟨rfl, rfl⟩

/-- The hypotheses of C01, C02 and C37 are met by a tree with two ternary splits; one node has rows
that are missing in the split feature and the other has none, and values are as C02 says. -/
example : ∃ bd t, TrainedOn exSorter exX (List.replicate 6 (1 : ℚ)) 8 FX.nan exGv (fun _ => 1)
      (exCfg bd) .none [0, 1, 2, 3, 4, 5] ∧ Tree.fit (exCfg bd) .none [0, 1, 2, 3, 4, 5] = .ok t ∧
      t.nodes.map (fun n => (n.hessianSum, n.weightValue, n.isLeaf)) =
        [(q 6, q 0, false), (q 2, q 0, true), (q 2, q (5/2), false), (q 2, q (-9/4), true),
         (q 0, q (5/2), true), (q 1, q 2, true), (q 1, q 3, true)] := by
  have : (match binMatrix exSorter exX exW 8 FX.nan with
    | .ok bd => (match Tree.fit (exCfg bd) .none [0, 1, 2, 3, 4, 5] with
      | .ok t => decide (t.nodes.map (fun n => (n.hessianSum, n.weightValue, n.isLeaf)) =
        [(q 6, q 0, false), (q 2, q 0, true), (q 2, q (5/2), false), (q 2, q (-9/4), true),
         (q 0, q (5/2), true), (q 1, q 2, true), (q 1, q 3, true)])
      | _ => false)
    | _ => false) = true := by decide +kernel
  split at this
  · rename_i bd hbd
    split at this
    · rename_i t ht
      exact ⟨bd, t, exTrained hbd, ht, of_decide_eq_true this⟩
    · cases this
  · cases this

end Verif
