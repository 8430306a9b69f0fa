import Verif.Proofs.GradTree
import Verif.Proofs.GridFit

/-!
# Rounding errors of the gradient sums and values of a fitted tree
-/

namespace Verif

open scoped Verif

set_option linter.unusedSectionVars false

section any
variable {F D : Type} [Fl F] [Fl D] [FlCast F D]

/-- Children are one level deeper. -/
theorem kidsOf_depth {s : Splitter F} {t : TrainData F D} {sn : SNode F D} {rows : List Nat}
    {info : SplitInfo F D} {kids : List (Kid F D)} (h : kidsOf s t sn rows info = .ok kids) :
    ∀ kid ∈ kids, kid.sn.depth = sn.depth + 1 := by
  cases s with
  | imputer p =>
    have h : imputerKids t sn rows info = .ok kids := h
    simp only [imputerKids, Res.bind_eq_ok, Prod.exists, Res.ok.injEq] at h
    obtain ⟨mr, h1, feature, h2, rows', k, h3, lh, rh, h4, rfl⟩ := h
    intro kid hk
    simp only [List.mem_cons, List.not_mem_nil, or_false] at hk
    rcases hk with rfl | rfl <;> rfl
  | branch p =>
    have h : branchKids p t sn rows info = .ok kids := h
    simp only [branchKids, Res.bind_eq_ok, Prod.exists, Res.ok.injEq, Res.assert_eq_ok,
      decide_eq_true_eq] at h
    obtain ⟨isLeaf, minfo, h1, feature, h2, rows', j, k, h3, _, ⟨h5, h6⟩, mh, lh, rh, h4, rfl⟩ := h
    intro kid hk
    simp only [List.mem_cons, List.not_mem_nil, or_false] at hk
    rcases hk with rfl | rfl | rfl <;> rfl

/-- Without constraints the weight of a child that is not reserved for missing values is the step of its own
sums. -/
theorem kids_weight {s : Splitter F} {t : TrainData F D} {sn : SNode F D} {rows : List Nat} {j i : Nat}
    {info : SplitInfo F D} (hc : IsCandidate s sn t.colIndex j i info) {kids : List (Kid F D)}
    (hk : kidsOf s t sn rows info = .ok kids)
    (hno : ∀ f, noConstraint (s.params.getConstraint f) = true)
    (hforce : ∀ p, s = .branch p → p.forceChildrenToBoundParent = false) {q : Nat} {kid : Kid F D}
    (hq : kids[q]? = some kid) (hq0 : ∀ p, s = .branch p → q ≠ 0) :
    kid.sn.weightValue = weight s.params.l1 s.params.l2 s.params.maxDeltaStep kid.sn.gradientSum
      kid.sn.hessianSum := by
  obtain ⟨feature, missing, bins, bin, h1, h2, h3, h4⟩ := hc.made
  obtain ⟨l, r, m, gn, k1, k2, k3, rfl⟩ := evalCandidate_some.1 h4
  cases s with
  | imputer p =>
    obtain ⟨mr', feature', rows', k, kl, kr, a1, a2, a3, a4, rfl, a5, a6, a7, a8, a9, a10⟩ :=
      imputerKids_view hk
    simp only [Splitter.evaluateSplit, Res.ok.injEq] at k1
    obtain ⟨w1, w2⟩ : l.weight = p.cw _ l.grad l.cover ∧ r.weight = p.cw _ r.grad r.cover := by
      unfold imputerEvaluateSplit at k1
      split at k1
      · cases k1
      · simp only at k1
        split at k1
        · cases k1
        · split at k1
          · split at k1
            all_goals
              split at k1
              · cases k1
              · simp only [Option.some.injEq, Prod.mk.injEq] at k1
                obtain ⟨rfl, rfl, rfl⟩ := k1
                exact ⟨rfl, rfl⟩
          · split at k1
            · cases k1
            · simp only [Option.some.injEq, Prod.mk.injEq] at k1
              obtain ⟨rfl, rfl, rfl⟩ := k1
              exact ⟨rfl, rfl⟩
    have e := hno feature
    match q, hq with
    | 0, hq =>
      cases hq
      rw [a7.weight, a7.grad, a7.cover]
      simp only [SplitParams.cw, constrainedWeight] at w1
      rw [if_pos e] at w1
      exact w1
    | 1, hq =>
      cases hq
      rw [a8.weight, a8.grad, a8.cover]
      simp only [SplitParams.cw, constrainedWeight] at w2
      rw [if_pos e] at w2
      exact w2
    | q + 2, hq => simp at hq
  | branch p =>
    obtain ⟨isLeaf, minfo, feature', rows', jm, k, km, kl, kr, b1, a2, a3, _, _, a4, rfl, c1, c2, c3, d1, d2,
      d3, d4, d5, d6⟩ := branchKids_view hk
    obtain ⟨lw, rw', q1, q2, q3, q4, q5, q6⟩ := branchEvaluateSplit_some k1
    unfold branchChildWeights at q1
    simp only [hforce p rfl, Bool.false_eq_true, if_false, Res.ok.injEq, Prod.mk.injEq] at q1
    obtain ⟨w1, w2⟩ := q1
    have e := hno feature
    match q, hq with
    | 0, hq => exact absurd rfl (hq0 p rfl)
    | 1, hq =>
      cases hq
      rw [d2.weight, d2.grad, d2.cover]
      simp only [q4, mkInfo]
      rw [← w1]
      simp only [SplitParams.cw, constrainedWeight]
      rw [if_pos e]
      rfl
    | 2, hq =>
      cases hq
      rw [d3.weight, d3.grad, d3.cover]
      simp only [q5, mkInfo]
      rw [← w2]
      simp only [SplitParams.cw, constrainedWeight]
      rw [if_pos e]
      rfl
    | q + 3, hq => simp at hq

/-- Without constraints the weight of a node that is not reserved for missing values is the step of its own
sums. -/
theorem Cert.weight_own {c : GrowCfg F D} {o : SNode F D → Prop} {gs : List (Ghost F D)}
    {nodes nodes' : List (Node F D)} (h : Cert c o gs nodes) (hs : SameShape nodes nodes')
    (hno : ∀ f, noConstraint (c.splitter.params.getConstraint f) = true)
    (hforce : ∀ p, c.splitter = .branch p → p.forceChildrenToBoundParent = false) {n : Nat} {g0 h0 : F}
    {hists : JaggedMatrix (Bin F D)} {r : Ghost F D} (hr : gs[0]? = some r)
    (hroot : r.sn = rootNode c.splitter.params n g0 h0 hists) {i : Nat} {g : Ghost F D}
    (hg : gs[i]? = some g) (hm : ¬ OnlyMissing nodes' i) :
    g.sn.weightValue = weight c.splitter.params.l1 c.splitter.params.l2 c.splitter.params.maxDeltaStep
      g.sn.gradientSum g.sn.hessianSum := by
  rcases Nat.eq_zero_or_pos i with rfl | hi
  · rw [hr] at hg; cases hg
    rw [hroot]; rfl
  · obtain ⟨gj, info, k, b1, b2, b3, b4⟩ := h.parent i g hg hi
    obtain ⟨kids, hS⟩ := h.split _ gj info k b1 b2
    obtain ⟨kid, g', d1, d2, d5, d3, d4⟩ := hS.new_lt b3 b4
    rw [hg] at d2; cases d2
    obtain ⟨j, b, hc⟩ := bestSplit_mem hS.best
    have := kids_weight hc hS.kids_eq hno hforce d1 (fun p hp hz => ?_)
    · rw [d5]; exact this
    · obtain ⟨n0, hn0, _, hleaf⟩ := h.nodeOf b1
      obtain ⟨w, hw⟩ := hs.2 _ _ hn0
      have hl : n0.isLeaf = false := by
        cases hx : n0.isLeaf with
        | false => rfl
        | true => rw [hleaf.1 hx] at b2; cases b2
      obtain ⟨g'', info', k', kids', hI⟩ := h.internal hs hw hl
      have hgg := hI.ghost
      rw [b1] at hgg; cases hgg
      have hii := hI.info_eq
      rw [b2] at hii; cases hii
      have e1 := hI.left
      have e2 := hI.right
      have e3 := hI.missing
      rw [hp] at e1 e2 e3
      simp only [Splitter.links] at e1 e2 e3
      refine hm ⟨_, _, hw, hl, ?_, ?_, ?_⟩
      · show n0.missingNode = i
        have : n0.missingNode = k := e3
        omega
      · show n0.leftChild ≠ i
        have : n0.leftChild = k + 1 := e1
        omega
      · show n0.rightChild ≠ i
        have : n0.rightChild = k + 2 := e2
        omega

/-- The final pass leaves alone the values of the nodes that are not reserved for missing values; with
`AverageLeafWeight` only those of leaves. -/
theorem cleanUp_value {c : GrowCfg F D} {o : SNode F D → Prop} {gs : List (Ghost F D)}
    {nodes nodes' : List (Node F D)} (h : Cert c o gs nodes) (hcl : cleanUpSplits c.splitter nodes = .ok nodes')
    {i : Nat} {n n0 : Node F D} (hn0 : nodes[i]? = some n0) (hn : nodes'[i]? = some n)
    (hmiss : ¬ OnlyMissing nodes' i)
    (havg : (∃ p, c.splitter = .branch p ∧ p.missingNodeTreatment = .averageLeafWeight) → n.isLeaf = true) :
    n.weightValue = n0.weightValue := by
  have hs := cleanUpSplits_shape hcl
  have hleaf : n.isLeaf = n0.isLeaf := by
    obtain ⟨w, hw⟩ := hs.2 _ _ hn0
    rw [hn] at hw; cases hw; rfl
  have same : nodes'[i]? = some n0 → n.weightValue = n0.weightValue := by
    intro e
    rw [hn] at e; cases e; rfl
  have hcl' := hcl
  unfold cleanUpSplits at hcl'
  split at hcl'
  · injection hcl' with e
    exact same (by rw [← e]; exact hn0)
  · rename_i p hp
    split at hcl'
    · rename_i htr
      simp only [Res.bind_eq_ok, Prod.exists, Res.ok.injEq] at hcl'
      obtain ⟨ns, a, h1, h2⟩ := hcl'
      refine same ?_
      rw [← h2]
      refine updateAverage_frame _ _ _ _ _ h1 (fun j m hj => ?_) i n0 hn0 ?_ (fun q nq hq hql hqm => ?_)
      · obtain ⟨gj, hgj, hnode⟩ := h.node hj
        obtain ⟨m', b1, b2, _⟩ := h.nodeOf hgj
        rw [hj] at b1; cases b1
        rw [b2.num, (h.num _ _ hgj).1]
      · rw [← hleaf]; exact havg ⟨p, hp, htr⟩
      · obtain ⟨w', hw'⟩ := hs.2 _ _ hq
        obtain ⟨_, _, _, _, hI⟩ := h.internal hs hw' hql
        have c1 := hI.left
        have c2 := hI.right
        have c3 := hI.missing
        rw [hp] at c1 c2 c3
        simp only [Splitter.links] at c1 c2 c3
        refine hmiss ⟨q, _, hw', hql, hqm, ?_, ?_⟩
        · show nq.leftChild ≠ i
          omega
        · show nq.rightChild ≠ i
          omega
    · injection hcl' with e
      exact same (by rw [← e]; exact hn0)

end any

section
variable {K : Type} [Field K] [LinearOrder K] [IsStrictOrderedRing K] {m32 m64 : Fmt K}
  {u32 u64 v : K} {P : K → Prop} {N M : Nat} {gv : Nat → K}

/-- The gradient sum and histograms of the root. -/
theorem root_grad {t : TrainData (FX m32) (FX m64)} (hT : ErrTrain t u32 u64 v P N M gv) {sm : SampleMethod}
    {rows : List Nat} (hlen : rows.length + 17 ≤ N)
    (hsm : sm = .none → rows = List.range t.grad.length ∧ t.hess.length = t.grad.length)
    {g h : FX m32} {sort : Bool} {hists : JaggedMatrix (Bin (FX m32) (FX m64))}
    (h1 : rootSums (D := FX m64) sm t.grad t.hess rows = .ok (g, h, sort))
    (h2 : histogramMatrix t.data t.cuts t.grad t.hess rows t.colIndex sort = .ok hists)
    (p : SplitParams (FX m32)) (n : Nat) : GradErr t v M gv rows 0 (rootNode p n g h hists) rows := by
  have hr32 := hT.fmt.r32
  have ha32 := hT.fmt.a32
  have hr64 := hT.fmt.r64
  have ha64 := hT.fmt.a64
  have hem := hT.fmt.embeds
  have hv := ha32.nonneg
  have hup : ∀ l : List Nat, ((l.map fun r => (FX.fin (gv r) : FX m32)).map (up : FX m32 → FX m64)) =
        (l.map gv).map FX.fin := by
    intro l; simp
  have hrep : ∀ y ∈ (rows.map gv).map (FX.fin : K → FX m64), y.PX P := by
    intro y hy z e
    subst e
    rw [List.map_map] at hy
    obtain ⟨r, _, e⟩ := List.mem_map.1 hy
    cases e
    exact hT.fmt.narrows.of_repr (hT.repr r)
  have sampled : ∀ gs, Res.mapM' (idx t.grad) rows = .ok gs →
      NearX v 1 (down ((gs.map (up : FX m32 → FX m64)).foldl (· + ·) 0) : FX m32) (rowSum gv rows)
        (rowSum (fun r => |gv r|) rows) := by
    intro gs e
    rw [finRows_gather hT.grad e, hup]
    have hn : NearX u64 (0 + (rows.map gv).length) (((rows.map gv).map (FX.fin : K → FX m64)).foldl (· + ·) 0)
        (0 + ((rows.map gv).map id).sum) (0 + ((rows.map gv).map (|·|)).sum) := by
      rw [List.foldl_map]
      refine NearX.foldl (val := fun x : K => (FX.fin x : FX m64)) (s := id) (a := (|·|)) _ 0 0 0 0 NearX.zero ?_
      intro y hy
      obtain ⟨r, _, rfl⟩ := List.mem_map.1 hy
      exact NearX.of (fun q e => by cases e; exact hem.repr (hT.repr r)) rfl
    simp only [zero_add, List.map_id, List.length_map] at hn
    have := NearX.narrow hT.fmt.narrows hT.fmt.unit (hn.mono ha64.nonneg (by omega))
      (FX.PX.foldl hT.fmt.narrows _ _ (FX.PX.zero hT.fmt.narrows) hrep)
    have e2 : ((rows.map gv).map fun x => |x|).sum = rowSum (fun r => |gv r|) rows := by
      rw [List.map_map]; rfl
    rw [e2] at this
    exact this
  cases sm with
  | none =>
    obtain ⟨e1, e2⟩ := hsm rfl
    simp only [rootSums, Res.ok.injEq, Prod.mk.injEq] at h1
    obtain ⟨rfl, rfl, rfl⟩ := h1
    refine ⟨?_, fun _ => ?_⟩
    · show NearX v (1 + 0 * (M + 6 * 0)) (fastF64Sum (D := FX m64) t.grad) _ _
      have e : t.grad = (rows.map gv).map FX.fin := by
        rw [hT.grad.eq_range, e1, List.map_map]; rfl
      rw [e]
      have hu : ((rows.map gv).map (FX.fin : K → FX m32)).map (up : FX m32 → FX m64) =
          (rows.map gv).map FX.fin := by
        rw [List.map_map]; rfl
      unfold fastF64Sum
      rw [hu]
      simp only [List.length_map]
      have hn := lanes_near (m := m64) (u := u64) (rows.map gv) (fun x hx => by
        obtain ⟨r, _, rfl⟩ := List.mem_map.1 hx
        exact hem.repr (hT.repr r))
      have h16 : lanes = 16 := rfl
      rw [List.length_map, h16] at hn
      have hle : rows.length / 16 + 16 + 1 ≤ N := by omega
      have hz : ∀ x ∈ List.replicate lanes (0 : FX m64), x.PX P := by
        intro x hx
        obtain rfl := List.eq_of_mem_replicate hx
        exact FX.PX.zero hT.fmt.narrows
      obtain ⟨l1, l2⟩ := FX.PX.lanes hT.fmt.narrows rows.length (List.replicate lanes 0)
        ((rows.map gv).map FX.fin) hz hrep
      have := NearX.narrow hT.fmt.narrows hT.fmt.unit (hn.mono ha64.nonneg hle)
        ((FX.PX.foldl hT.fmt.narrows _ _ (FX.PX.zero hT.fmt.narrows) l1).add hT.fmt.narrows
          (FX.PX.foldl hT.fmt.narrows _ _ (FX.PX.zero hT.fmt.narrows) l2))
      have e3 : ((rows.map gv).map fun x => |x|).sum = rowSum (fun r => |gv r|) rows := by
        rw [List.map_map]; rfl
      rw [e3] at this
      rw [Nat.zero_mul]
      exact this
    · show GradOf t v gv rows 1 rows hists
      rw [e1] at h2 hlen ⊢
      rw [List.length_range] at hlen
      exact gradOf_all hT.fmt hT.laid hT.repr (by omega) hT.grad e2 h2
  | random =>
    simp only [rootSums, Res.bind_eq_ok, Res.ok.injEq, Prod.mk.injEq] at h1
    obtain ⟨gs, a1, hs, a2, rfl, rfl, rfl⟩ := h1
    refine ⟨?_, fun _ => gradOf_rows hT.fmt hT.laid hT.repr (by omega) (.refl _) hT.grad h2⟩
    show NearX v (1 + 0 * (M + 6 * 0)) _ _ _
    rw [Nat.zero_mul]
    exact sampled gs a1
  | goss =>
    simp only [rootSums, Res.bind_eq_ok, Res.ok.injEq, Prod.mk.injEq] at h1
    obtain ⟨gs, a1, hs, a2, rfl, rfl, rfl⟩ := h1
    refine ⟨?_, fun _ => gradOf_rows hT.fmt hT.laid hT.repr (by omega) (.refl _) hT.grad h2⟩
    show NearX v (1 + 0 * (M + 6 * 0)) _ _ _
    rw [Nat.zero_mul]
    exact sampled gs a1

variable {c : GrowCfg (FX m32) (FX m64)} {o : SNode (FX m32) (FX m64) → Prop}
  {gs : List (Ghost (FX m32) (FX m64))} {nodes : List (Node (FX m32) (FX m64))} {u : K} {N' : Nat} {hv : Nat → K}

/-- Gradient sums of all nodes. -/
theorem Cert.grad_sums (h : Cert c o gs nodes) (hH : GridTrain c.train u N' hv)
    (hT : ErrTrain c.train u32 u64 v P N M gv)
    (hpos : (0 <ᶠ c.splitter.params.minLeafWeight) = true) {g0 : Ghost (FX m32) (FX m64)}
    (h0 : gs[0]? = some g0) (hg0 : OnGrid u N' (rowSum hv g0.rows))
    (hN0 : HessSums c.train hv g0.sn g0.rows) (hlen : g0.rows.length ≤ N)
    (hlt : ∀ r ∈ g0.rows, r < c.train.data.rows) (hd0 : g0.sn.depth = 0)
    (hE0 : GradErr c.train v M gv g0.rows 0 g0.sn g0.rows) :
    ∀ (i : Nat) (g : Ghost (FX m32) (FX m64)), gs[i]? = some g →
      PartOf g.rows g0.rows ∧ GradErr c.train v M gv g0.rows g.sn.depth g.sn g.rows := by
  have hall := h.hess_sums hH hpos h0 hg0 hN0 hlt
  intro i
  induction i using Nat.strong_induction_on with
  | _ i ih =>
    intro g hg
    by_cases hi : i = 0
    · subst hi
      rw [h0] at hg; cases hg
      rw [hd0]
      exact ⟨.refl _, hE0⟩
    · obtain ⟨gi, info, k, b1, b2, b3, b4⟩ := h.parent i g hg (by omega)
      obtain ⟨kids, hS⟩ := h.split _ gi info k b1 b2
      obtain ⟨kid, g', d1, d2, d5, d3, d4⟩ := hS.new_lt b3 b4
      rw [hg] at d2; cases d2
      obtain ⟨hp, hE⟩ := ih _ (by have := hS.later; omega) gi b1
      obtain ⟨hgi, hNi⟩ := hall _ gi b1
      have hlti : ∀ r ∈ gi.rows, r < c.train.data.rows := fun r hr => hlt r (h.rows_mem h0 _ gi b1 r hr)
      obtain ⟨j, b, hc⟩ := bestSplit_mem hS.best
      obtain ⟨f, cu, x1, x2, x3, x4, x5, mr, x6, x7⟩ :=
        kids_hess hH hpos hgi hNi hS.notMissing hlti hc hS.kids_eq
      have hkid : kid ∈ kids := List.mem_of_getElem? d1
      have hk := kids_grad hT hp hlen hlt hE hS.notMissing hc hS.kids_eq hS.perm x1 x6
        (x7.imp fun _ _ h => h.1) kid hkid
      have hdep := kidsOf_depth hS.kids_eq kid hkid
      have hpk : PartOf kid.rows gi.rows := by
        obtain ⟨k1, k2, rfl⟩ := List.append_of_mem hkid
        refine ⟨k1.flatMap Kid.rows ++ k2.flatMap Kid.rows, hS.perm.symm.trans ?_⟩
        rw [List.flatMap_append, List.flatMap_cons, ← List.append_assoc, ← List.append_assoc]
        exact List.perm_append_comm.append_right _
      rw [d5, d3]
      refine ⟨hpk.trans hp, ?_⟩
      show GradErr c.train v M gv g0.rows kid.sn.depth _ _
      rw [hdep]
      exact ⟨hk.grad, hk.hist⟩

end

end Verif
