import Verif.Props.StepLimit
import Verif.Props.Splits
import Verif.Proofs.Average
import Verif.Proofs.Contrib

/-!
# C35: AverageLeafWeight
-/

namespace Verif

open scoped Verif

set_option linter.unusedSectionVars false

section
variable {R F D : Type} [Fl F] [Fl D] [FlCast F D]

/-- **C35.**  Any arithmetic.  With `create_missing_branch` and AverageLeafWeight, the missing child of
every internal node is neither the left nor the right child, and if it is a leaf it stores exactly the
value of its parent. -/
theorem C35_parent_value (env : Env R F D) (b b' : Booster F D) (data : Matrix D) (y w : List D)
    (ev : Option (List (EvalSet D))) (h : b.fit env data y w ev = .ok (b', .ok ()))
    (hb : b.createMissingBranch = true) (hm : b.missingNodeTreatment = .averageLeafWeight)
    (t : Tree F D) (ht : t ∈ b'.trees) (n : Node F D) (hn : n ∈ t.nodes) (hl : n.isLeaf = false) :
    n.missingNode ≠ n.leftChild ∧ n.missingNode ≠ n.rightChild ∧
      ∃ m, t.nodes[n.missingNode]? = some m ∧ (m.isLeaf = true → m.weightValue = n.weightValue) := by
  obtain ⟨_, _, hts⟩ := Booster.fit_trees h
  obtain ⟨cfg, rows, hF⟩ := hts t ht
  have hp := hF.splitter.trans (splitter_branch hb)
  obtain ⟨g, hs, sort, hists, nodes, gs, nl, _, _, hc, hcert, hr, _⟩ := Tree.fit_cert hF.fit
  have hsh := cleanUpSplits_shape hc
  have hter := hcert.ternary ⟨_, hp⟩
  obtain ⟨i, hi⟩ := List.mem_iff_getElem?.1 hn
  have hwf : Tree.Wf (⟨nodes⟩ : Tree F D) := by
    refine hcert.wf (.refl _) ?_
    have := (List.getElem?_eq_some_iff.1 hi).1
    rw [hsh.1, ← hcert.len] at this
    omega
  obtain ⟨n0, hn0, e0⟩ : ∃ n0, nodes[i]? = some n0 ∧ n = { n0 with weightValue := n.weightValue } := by
    have hlt := (List.getElem?_eq_some_iff.1 hi).1
    rw [hsh.1] at hlt
    obtain ⟨w, hw⟩ := hsh.2 i _ (List.getElem?_eq_getElem hlt)
    rw [hi] at hw
    cases hw
    exact ⟨_, List.getElem?_eq_getElem hlt, rfl⟩
  have hl0 : n0.isLeaf = false := by rw [e0] at hl; exact hl
  have hch : n0.IsChild n0.missingNode := ⟨hl0, .inr (.inr rfl)⟩
  have hmlt := (hwf.child i n0 _ hn0 hch).2
  obtain ⟨wm, hwm⟩ := hsh.2 _ _ (List.getElem?_eq_getElem hmlt)
  have em : n.missingNode = n0.missingNode := by rw [e0]
  have ht0 := hter i n0 hn0 hl0
  simp only [Node.hasMissingBranch, Bool.and_eq_true, bne_iff_ne] at ht0
  refine ⟨by rw [e0]; exact ht0.2, by rw [e0]; exact ht0.1, _, by rw [em]; exact hwm, fun hml => ?_⟩
  have hav := cleanUpSplits_avg hp (show b.branchParams.missingNodeTreatment = _ from hm) hc hwf hter
  rcases hav i n0 n hn0 hi with ⟨h1, _⟩ | ⟨_, n1, h1, h2⟩
  · rw [hl0] at h1; cases h1
  rw [hn0] at h1; cases h1
  rcases h2 with ⟨_, a, ha, hw⟩ | ⟨h2, _⟩
  swap
  · rw [hl0] at h2; cases h2
  rcases hav _ _ _ (List.getElem?_eq_getElem hmlt) hwm with ⟨_, h2, _⟩ | ⟨_, n1, h1, h2⟩
  · exact absurd ⟨n0, hn0, hl0, rfl⟩ (h2 i)
  rw [List.getElem?_eq_getElem hmlt] at h1; cases h1
  rcases h2 with ⟨h2, _⟩ | ⟨_, q, a', ⟨nq, hq1, hq2, hq3⟩, ha', hw'⟩
  · simp only at hml
    rw [h2] at hml; cases hml
  have : q = i := hwf.parent_unique q i nq n0 _ hq1 hn0 ⟨hq2, .inr (.inr hq3.symm)⟩ hch
  subst this
  rw [hw', hw, ha.unique ha']

end

section exact
variable {K : Type} [Field K] [LinearOrder K] [IsStrictOrderedRing K] {m32 m64 : Fmt K}
  [m32.Exact] [m64.Exact]
variable {S : Sorter} {X : Matrix (FX m64)} {w : List K} {nbins : Nat} {missing : FX m64}
  {gv hv : Nat → K} {c : GrowCfg (FX m32) (FX m64)} {sm : SampleMethod} {rows : List Nat}
  {t : Tree (FX m32) (FX m64)} {o : SNode (FX m32) (FX m64) → Prop}
  {gs : List (Ghost (FX m32) (FX m64))} {nodes : List (Node (FX m32) (FX m64))}

theorem up_down_fin {a : FX m64} {x : K} (h : (down a : FX m32) = FX.fin x) :
    a = FX.fin x := by
  cases a with
  | fin y => rw [FX.down_fin] at h; cases h; rfl
  | nan => cases h
  | ninf => cases h
  | pinf => cases h

/-- The cover of a node split in three is the sum of the covers of its children. -/
theorem FitView.cover_three (hV : FitView X missing gv hv c rows t o gs nodes) {p : BranchParams (FX m32)}
    (hp : c.splitter = .branch p) {i : Nat} {n l r m : Node (FX m32) (FX m64)}
    (hn : t.nodes[i]? = some n) (hl : n.isLeaf = false) (hnl : t.nodes[n.leftChild]? = some l)
    (hnr : t.nodes[n.rightChild]? = some r) (hnm : t.nodes[n.missingNode]? = some m) :
    ∃ a b d : K, l.hessianSum = FX.fin a ∧ r.hessianSum = FX.fin b ∧ m.hessianSum = FX.fin d ∧
      n.hessianSum = FX.fin (a + b + d) := by
  obtain ⟨g, info, k, kids, hI⟩ := hV.cert.internal hV.shape hn hl
  have cov : ∀ (j : Nat) (n' : Node (FX m32) (FX m64)) (g' : Ghost (FX m32) (FX m64)),
      t.nodes[j]? = some n' → gs[j]? = some g' → n'.hessianSum = FX.fin (Verif.rowSum hv g'.rows) := by
    intro j n' g' hn' hg'
    obtain ⟨n0, h1, h2, _⟩ := hV.cert.nodeOf hg'
    obtain ⟨w, hw⟩ := hV.shape.2 _ _ h1
    rw [hn'] at hw; cases hw
    show n0.hessianSum = _
    rw [h2.cover, (hV.sums _ _ hg').hess]
  have har := hI.isSplit.arity
  have e1 := hI.left
  have e2 := hI.right
  have e3 := hI.missing
  rw [hp] at har e1 e2 e3
  simp only [Splitter.arity] at har
  simp only [Splitter.links] at e1 e2 e3
  obtain ⟨k1, k2, k3, rfl⟩ := List.length_eq_three.1 har
  obtain ⟨g1, a1, _, b1, _⟩ := hI.isSplit.kid 0 k1 rfl
  obtain ⟨g2, a2, _, b2, _⟩ := hI.isSplit.kid 1 k2 rfl
  obtain ⟨g3, a3, _, b3, _⟩ := hI.isSplit.kid 2 k3 rfl
  have hperm := hI.isSplit.perm
  refine ⟨_, _, _, cov _ _ _ hnl (by rw [e1]; exact a2), cov _ _ _ hnr (by rw [e2]; exact a3),
    cov _ _ _ hnm (by rw [e3]; exact a1), ?_⟩
  rw [cov _ _ _ hn hI.ghost]
  congr 1
  have := (hperm.map hv).sum_eq
  simp only [List.flatMap_cons, List.flatMap_nil, List.append_nil, List.map_append,
    List.sum_append] at this
  unfold Verif.rowSum
  rw [b1, b2, b3, ← this]
  ring

/-- With AverageLeafWeight, the values of nodes other than missing leaves are the averages. -/
theorem FitView.avg (hV : FitView X missing gv hv c rows t o gs nodes) {p : BranchParams (FX m32)}
    (hp : c.splitter = .branch p) (ha : p.missingNodeTreatment = .averageLeafWeight)
    (hfin : t.FiniteValues) {i : Nat} {n : Node (FX m32) (FX m64)} (hn : t.nodes[i]? = some n)
    (hm : n.isLeaf = true → ∀ q, ¬ IsMissingChild nodes q i) : Avg nodes i (up n.weightValue) := by
  have hwf : Tree.Wf (⟨nodes⟩ : Tree (FX m32) (FX m64)) := by
    obtain ⟨g0, h0, _⟩ := hV.root
    exact hV.cert.wf (SameShape.refl _) (List.getElem?_eq_some_iff.1 h0).1
  have hlt := (List.getElem?_eq_some_iff.1 hn).1
  rw [hV.shape.1] at hlt
  have hn0 := List.getElem?_eq_getElem hlt
  obtain ⟨w', hw'⟩ := hV.shape.2 _ _ hn0
  obtain ⟨x, hx⟩ := hfin n (List.mem_of_getElem? hn)
  rw [hn] at hw'
  rcases cleanUpSplits_avg hp ha hV.clean hwf (hV.cert.ternary ⟨_, hp⟩) i _ n hn0 hn with
    ⟨h1, _, h3⟩ | ⟨_, n1, h1, h2⟩
  · rw [h3]
    exact .leaf hn0 h1
  · rw [hn0] at h1; cases h1
    rcases h2 with ⟨_, a, ha, hw⟩ | ⟨h2, q, a, hq, _⟩
    · rw [hx] at hw ⊢
      rw [FX.up_fin, ← up_down_fin hw.symm]
      exact ha
    · refine absurd hq (hm ?_ q)
      cases hw'
      exact h2

/-- **C35** (trees).  With ternary splits and AverageLeafWeight, for every internal node of a fitted
tree: the covers of its left and right child are positive; if its missing child is a leaf, that leaf has
the value of the node and the value of the node is the average of the values of its left and right child
weighted by their covers; if not, the value of the node is the average of the values of its three
children weighted by their covers. -/
theorem C35_tree (h : TrainedOn S X w nbins missing gv hv c sm rows) (hf : Tree.fit c sm rows = .ok t)
    (hh : ∀ r ∈ rows, 0 ≤ hv r) (hfin : t.FiniteValues) {p : BranchParams (FX m32)}
    (hp : c.splitter = .branch p) (ha : p.missingNodeTreatment = .averageLeafWeight)
    (n : Node (FX m32) (FX m64)) (hn : n ∈ t.nodes) (hl : n.isLeaf = false) :
    ∃ (l r m : Node (FX m32) (FX m64)) (v vl vr vm cl cr cm : K),
      t.nodes[n.leftChild]? = some l ∧ t.nodes[n.rightChild]? = some r ∧
      t.nodes[n.missingNode]? = some m ∧ n.weightValue = FX.fin v ∧ l.weightValue = FX.fin vl ∧
      r.weightValue = FX.fin vr ∧ m.weightValue = FX.fin vm ∧ l.hessianSum = FX.fin cl ∧ 0 < cl ∧
      r.hessianSum = FX.fin cr ∧ 0 < cr ∧ m.hessianSum = FX.fin cm ∧ 0 ≤ cm ∧
      n.hessianSum = FX.fin (cl + cr + cm) ∧
      (m.isLeaf = true → vm = v ∧ v * (cl + cr) = vl * cl + vr * cr) ∧
      (m.isLeaf = false → v * (cl + cr + cm) = vl * cl + vr * cr + vm * cm) := by
  obtain ⟨o, gs, nodes, hV⟩ := h.view hf
  obtain ⟨i, hi⟩ := List.mem_iff_getElem?.1 hn
  have hwf : Tree.Wf (⟨nodes⟩ : Tree (FX m32) (FX m64)) := by
    obtain ⟨g0, h0, _⟩ := hV.root
    exact hV.cert.wf (SameShape.refl _) (List.getElem?_eq_some_iff.1 h0).1
  have hter := hV.cert.ternary ⟨_, hp⟩
  have back : ∀ (j : Nat), j < nodes.length → ∃ (n0 n' : Node (FX m32) (FX m64)),
      nodes[j]? = some n0 ∧ t.nodes[j]? = some n' ∧ n' = { n0 with weightValue := n'.weightValue } := by
    intro j hj
    obtain ⟨w', hw'⟩ := hV.shape.2 _ _ (List.getElem?_eq_getElem hj)
    exact ⟨_, _, List.getElem?_eq_getElem hj, hw', rfl⟩
  obtain ⟨n0, n', hn0, hn', en⟩ := back i (by
    have := (List.getElem?_eq_some_iff.1 hi).1
    rw [hV.shape.1] at this
    exact this)
  rw [hi] at hn'; cases hn'
  have hl0 : n0.isLeaf = false := by rw [en] at hl; exact hl
  have el : n.leftChild = n0.leftChild := by rw [en]
  have er : n.rightChild = n0.rightChild := by rw [en]
  have em : n.missingNode = n0.missingNode := by rw [en]
  obtain ⟨l0, l, hl0', hl', enl⟩ := back _ (hwf.child i n0 _ hn0 ⟨hl0, .inl rfl⟩).2
  obtain ⟨r0, r, hr0', hr', enr⟩ := back _ (hwf.child i n0 _ hn0 ⟨hl0, .inr (.inl rfl)⟩).2
  obtain ⟨m0, m, hm0', hm', enm⟩ := back _ (hwf.child i n0 _ hn0 ⟨hl0, .inr (.inr rfl)⟩).2
  obtain ⟨v, hv'⟩ := hfin n hn
  obtain ⟨vl, hvl⟩ := hfin l (List.mem_of_getElem? hl')
  obtain ⟨vr, hvr⟩ := hfin r (List.mem_of_getElem? hr')
  obtain ⟨vm, hvm⟩ := hfin m (List.mem_of_getElem? hm')
  obtain ⟨c1, c2⟩ := hV.covers h hh
  obtain ⟨cl, cr, d1, d2, d3, d4⟩ := c2 i n0 l0 r0 hn0 hl0 hl0' hr0'
  obtain ⟨cm, d5, d6⟩ := c1 _ _ hm0'
  have f1 : l.hessianSum = FX.fin cl := by rw [enl]; exact d1
  have f2 : r.hessianSum = FX.fin cr := by rw [enr]; exact d3
  have f3 : m.hessianSum = FX.fin cm := by rw [enm]; exact d5
  have lml : m.isLeaf = m0.isLeaf := by rw [enm]
  obtain ⟨x1, x2, x3, y1, y2, y3, y4⟩ := hV.cover_three hp hi hl (by rw [el]; exact hl')
    (by rw [er]; exact hr') (by rw [em]; exact hm')
  rw [f1] at y1; cases y1
  rw [f2] at y2; cases y2
  rw [f3] at y3; cases y3
  have al := hV.avg hp ha hfin hl' fun _ q => hter.main_child hwf hn0 hl0 (.inl rfl)
  have ar := hV.avg hp ha hfin hr' fun _ q => hter.main_child hwf hn0 hl0 (.inr rfl)
  have an := hV.avg hp ha hfin hi fun h => by rw [hl] at h; cases h
  rw [hvl] at al
  rw [hvr] at ar
  rw [hv'] at an
  simp only [FX.up_fin] at al ar an
  refine ⟨l, r, m, v, vl, vr, vm, cl, cr, cm, by rw [el]; exact hl', by rw [er]; exact hr',
    by rw [em]; exact hm', hv', hvl, hvr, hvm, f1, d2, f2, d4, f3, d6, y4, fun hml => ?_, fun hml => ?_⟩
  · rw [lml] at hml
    have hp0 : (cl + cr + 0 : K) ≠ 0 := by positivity
    have h1 := an.unique (.missingLeaf hn0 hl0 hr0' hl0' hm0' hml ar al)
    rw [d1, d3] at h1
    simp only [FX.up_fin, FX.fin_mul, FX.fin_add, FX.zero_def, FX.fin_div _ _ hp0, FX.fin.injEq] at h1
    refine ⟨?_, ?_⟩
    · rcases cleanUpSplits_avg hp ha hV.clean hwf hter _ _ m hm0' hm' with ⟨_, h2, _⟩ | ⟨_, n1, h2, h3⟩
      · exact absurd ⟨n0, hn0, hl0, rfl⟩ (h2 i)
      rw [hm0'] at h2; cases h2
      rcases h3 with ⟨h3, _⟩ | ⟨_, q, a', ⟨nq, hq1, hq2, hq3⟩, ha', hw'⟩
      · rw [hml] at h3; cases h3
      have : q = i := hwf.parent_unique q i nq n0 _ hq1 hn0 ⟨hq2, .inr (.inr hq3.symm)⟩
        ⟨hl0, .inr (.inr rfl)⟩
      subst this
      rw [ha'.unique an, hvm, FX.down_fin] at hw'
      cases hw'; rfl
    · rw [h1]
      field_simp
      ring
  · have am := hV.avg hp ha hfin hm' fun h => by rw [hml] at h; cases h
    rw [hvm] at am
    simp only [FX.up_fin] at am
    rw [lml] at hml
    have hp0 : (cl + cr + cm : K) ≠ 0 := by positivity
    have h1 := an.unique (.missingBranch hn0 hl0 hr0' hl0' hm0' hml ar al am)
    rw [d1, d3, d5] at h1
    simp only [FX.up_fin, FX.fin_mul, FX.fin_add, FX.fin_div _ _ hp0, FX.fin.injEq] at h1
    rw [h1]
    field_simp
    ring

/-- The values of the nodes are the averages of the leaves below them. -/
theorem avgLeaf_value (h : TrainedOn S X w nbins missing gv hv c sm rows)
    (hf : Tree.fit c sm rows = .ok t) (hh : ∀ r ∈ rows, 0 ≤ hv r) (hfin : t.FiniteValues) (hwf : t.Wf)
    {p : BranchParams (FX m32)} (hp : c.splitter = .branch p)
    (ha : p.missingNodeTreatment = .averageLeafWeight) :
    ∀ (d i : Nat) (n : Node (FX m32) (FX m64)), t.nodes.length - i ≤ d → t.nodes[i]? = some n →
      AvgLeaf t.nodes i (up n.weightValue) := by
  intro d
  induction d with
  | zero =>
    intro i n hd hn
    have := (List.getElem?_eq_some_iff.1 hn).1
    omega
  | succ d ih =>
    intro i n hd hn
    cases hl : n.isLeaf with
    | true => exact .leaf hn hl
    | false =>
      obtain ⟨o, gs, nodes, hV⟩ := h.view hf
      obtain ⟨l, r, m, v, vl, vr, vm, cl, cr, cm, hnl, hnr, hnm, e1, e2, e3, e4, f1, f1', f2, f2', f3, f3',
        f4, k1, k2⟩ := C35_tree h hf hh hfin hp ha n (List.mem_of_getElem? hn) hl
      obtain ⟨i1, i2⟩ := hwf.child i n _ hn ⟨hl, .inl rfl⟩
      obtain ⟨j1, j2⟩ := hwf.child i n _ hn ⟨hl, .inr (.inl rfl)⟩
      obtain ⟨k1', k2'⟩ := hwf.child i n _ hn ⟨hl, .inr (.inr rfl)⟩
      have al := ih _ _ (by omega) hnl
      have ar := ih _ _ (by omega) hnr
      have am := ih _ _ (by omega) hnm
      have hne : n.missingNode ≠ n.rightChild ∧ n.missingNode ≠ n.leftChild := by
        obtain ⟨g, info, k, kids, hI⟩ := hV.cert.internal hV.shape hn hl
        obtain ⟨_, _, _, _, _, _, _, _, _, _, _, _, _, _, _, q1, q2⟩ := hI.missingSide hp
        exact ⟨q2, q1⟩
      have := AvgLeaf.three hn hl hne.1 hne.2 hnl hnr hnm al ar am
      have hp0 : (cl + cr + cm : K) ≠ 0 := by positivity
      rw [f1, f2, f3, f4, e2, e3, e4] at this
      simp only [FX.up_fin, FX.fin_mul, FX.fin_add, FX.fin_div _ _ hp0] at this
      rw [e1, FX.up_fin]
      convert this using 2
      rw [eq_div_iff hp0]
      cases hml : m.isLeaf with
      | true =>
        obtain ⟨rfl, k⟩ := k1 hml
        linear_combination k
      | false =>
        linear_combination k2 hml

theorem Res.bind_congr {α β : Type} {x : Res α} {f g : α → Res β} (h : ∀ a, x = .ok a → f a = g a) :
    (x >>= f) = (x >>= g) := by
  cases x with
  | ok a => exact h a rfl
  | panic => rfl
  | diverge => rfl

theorem Res.foldM'_congr {α β : Type} {f g : β → α → Res β} {l : List α}
    (h : ∀ a ∈ l, ∀ x, f x a = g x a) (x : β) : Res.foldM' f x l = Res.foldM' g x l := by
  induction l generalizing x with
  | nil => rfl
  | cons a l ih =>
    rw [Res.foldM'_cons, Res.foldM'_cons, h a (by simp)]
    exact Res.bind_congr fun y _ => ih (fun b hb => h b (by simp [hb])) y

/-- The walks of two methods agree when their changes do. -/
theorem contribWalk_congr {F D : Type} [Fl D] {nodes : List (Node F D)} {row : List D} {missing : D}
    {d1 d2 : Nat → Node F D → Nat → Res (Option D)}
    (hd : ∀ (i : Nat) (n : Node F D) (j : Nat), nodes[i]? = some n → n.IsChild j →
      d1 i n j = d2 i n j) :
    ∀ (fuel i : Nat) (cs : List D), contribWalk nodes row missing d1 fuel i cs =
      contribWalk nodes row missing d2 fuel i cs := by
  intro fuel
  induction fuel with
  | zero => intro i cs; rfl
  | succ fuel ih =>
    intro i cs
    rw [contribWalk, contribWalk]
    refine Res.bind_congr fun n hn => ?_
    rw [idx_eq_ok] at hn
    split
    · rfl
    · rename_i hl
      refine Res.bind_congr fun v _ => Res.bind_congr fun j hj => ?_
      have hc : n.IsChild j := by
        simp only [Node.getChildIdx, Res.bind_eq_ok, Res.ok.injEq] at hj
        obtain ⟨b, _, rfl⟩ := hj
        refine ⟨by simpa using hl, ?_⟩
        split
        · exact .inr (.inr rfl)
        · split
          · exact .inl rfl
          · exact .inr (.inl rfl)
      rw [hd i n j hn hc]
      refine Res.bind_congr fun d _ => ?_
      cases d with
      | none => exact Res.bind_congr fun cs' _ => ih _ _
      | some d => exact Res.bind_congr fun cs' _ => ih _ _

/-- **C35** (contributions).  For a booster fitted on finite data with `create_missing_branch` and
AverageLeafWeight, the contributions of method Weight to the predictions of any data are those of method
Average. -/
theorem C35_contributions {R : Type} {env : Env R (FX m32) (FX m64)} {b b' : Booster (FX m32) (FX m64)}
    {y : List K} {ev : Option (List (EvalSet (FX m64)))} {l1 l2 mds lr : K}
    (h : PlainFit env b X y w ev b' l1 l2 mds lr)
    (hb : b.createMissingBranch = true) (hm : b.missingNodeTreatment = .averageLeafWeight)
    (data : Matrix (FX m64)) :
    b'.predictContributions data .weight = b'.predictContributions data .average := by
  obtain ⟨_, _, hts⟩ := Booster.fit_trees h.fit
  have key : ∀ t ∈ b'.trees, ∃ ws, t.distributeLeafWeights = .ok ws ∧ ∀ (r cs : List (FX m64)),
      t.contribWeight r cs b'.missing = t.contribAverage r cs ws b'.missing := by
    intro t ht
    obtain ⟨binned, p, k, cfg, rows, hA⟩ := h.tree_mem ht
    have hp := hA.treeAt.fitted.splitter.trans (splitter_branch hb)
    have hwf : t.Wf := C03_well_formed env b b' X _ _ ev h.fit t ht
    obtain ⟨ws, e1, e2, e3⟩ := distributeLeafWeights_spec hwf
    have hav := avgLeaf_value hA.trained hA.treeAt.fitted.fit hA.params.hess hA.values hwf hp hm
      t.nodes.length
    have hfill : ∀ i, i < t.nodes.length → Filled t.nodes ws i := by
      intro i
      induction i using Nat.strong_induction_on with
      | _ i ih =>
        intro hi
        by_cases h0 : i = 0
        · rw [h0]; exact e3
        · obtain ⟨j, n, hj, hc⟩ := hwf.parent i (by omega) hi
          cases ih j (hwf.child j n i hj hc).1 (List.getElem?_eq_some_iff.1 hj).1 with
          | mk g1 g2 g3 g4 =>
            rw [hj] at g1; cases g1
            exact g4 i hc
    have hws : ∀ (i : Nat) (n : Node (FX m32) (FX m64)), t.nodes[i]? = some n →
        ws[i]? = some (up n.weightValue) := by
      intro i n hn
      cases hfill i (List.getElem?_eq_some_iff.1 hn).1 with
      | mk g1 g2 g3 g4 => rw [g2, g3.unique (hav i n (by omega) hn)]
    refine ⟨ws, e1, fun r cs => ?_⟩
    unfold Tree.contribWeight Tree.contribAverage
    have h0 := List.getElem?_eq_getElem (List.length_pos_iff.2 hwf.nonempty)
    rw [idx_eq_ok.2 h0, idx_eq_ok.2 (hws _ _ h0)]
    simp only [Res.ok_bind]
    refine Res.bind_congr fun cs' _ => ?_
    rw [contribWalk_congr fun i n j hn hc => ?_]
    have hj := List.getElem?_eq_getElem (hwf.child i n j hn hc).2
    rw [deltaWeight, deltaAverage, idx_eq_ok.2 hj, idx_eq_ok.2 (hws _ _ hj), idx_eq_ok.2 (hws _ _ hn)]
    rfl
  unfold Booster.predictContributions Booster.contribRows
  simp only [Res.bind_assoc']
  refine Res.bind_congr fun ts hts' => ?_
  have hsub : ∀ t ∈ ts, t ∈ b'.trees := by
    intro t ht
    rw [predictionTrees_eq_ok] at hts'
    rw [hts'.2] at ht
    exact List.mem_of_mem_take ht
  obtain ⟨ws, hws⟩ : ∃ ws, Res.mapM' Tree.distributeLeafWeights ts = .ok ws :=
    Res.mapM'_exists fun t ht => by
      obtain ⟨w, hw, _⟩ := key t (hsub t ht); exact ⟨w, hw⟩
  rw [hws, Res.ok_bind]
  congr 2
  funext i
  unfold contribsRowAlone contribsRowAverage
  refine Res.bind_congr fun r _ => ?_
  rw [Res.mapM'_eq_ok] at hws
  generalize initContribs data.cols b'.baseScore = cs
  clear hts'
  induction hws generalizing cs with
  | nil => rfl
  | @cons t w' ts ws hw _ ih =>
    rw [List.zip_cons_cons, Res.foldM'_cons, Res.foldM'_cons]
    obtain ⟨w1, h1, h2⟩ := key t (hsub t (by simp))
    rw [hw] at h1; cases h1
    simp only [rowPredFn, h2]
    exact Res.bind_congr fun cs' _ => ih (fun t ht => hsub t (by simp [ht])) cs'

end exact

/-! ### Example -/

/-- Ternary splits with averaged missing leaves. -/
def exAvg : Booster Q Q :=
  { exFresh with createMissingBranch := true, iterations := 2
                 missingNodeTreatment := .averageLeafWeight, initializeBaseScore := false }

/-- The hypotheses of C35 are met by a fit with several splits per tree. -/
example : ∃ b', PlainFit exEnv exAvg exX [0, 0, 1, 3, 3, 5] (List.replicate 6 (1 : ℚ)) none b' 0 0 0
      (1/2) ∧ exAvg.createMissingBranch = true ∧ exAvg.missingNodeTreatment = .averageLeafWeight ∧
      b'.trees.map (fun t => t.nodes.map fun n => n.weightValue) =
        [[q (3/4), q (3/4), q (-1/12), q (19/12), q (-1/12), q (-1/4), q (1/4)],
        [q (3/8), q (3/8), q (19/120), q (35/24), q (19/120), q (-1/24), q (11/24)]] := by
  have : (match exAvg.fit exEnv exX exY exW none with
    | .ok (b', .ok ()) => decide (b'.trees.map (fun t => t.nodes.map fun n => n.weightValue) =
        [[q (3/4), q (3/4), q (-1/12), q (19/12), q (-1/12), q (-1/4), q (1/4)],
        [q (3/8), q (3/8), q (19/120), q (35/24), q (19/120), q (-1/24), q (11/24)]])
    | _ => false) = true := by decide +kernel
  split at this
  · rename_i b' h
    exact ⟨b', exPlain rfl rfl rfl rfl le_rfl rfl rfl rfl rfl ⟨_, rfl⟩ rfl h, rfl, rfl,
      of_decide_eq_true this⟩
  · cases this

end Verif
