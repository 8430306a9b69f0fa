import Verif.Proofs.Grid
import Verif.Proofs.Routing

/-!
# Covers of a fitted tree when the hessians are multiples of a unit
-/

namespace Verif

open scoped Verif

set_option linter.unusedSectionVars false

section
variable {K : Type} [Field K] [LinearOrder K] [IsStrictOrderedRing K] {m32 m64 : Fmt K} {u : K} {N : Nat}
  {t : TrainData (FX m32) (FX m64)} {hv : Nat → K}

/-- The covers of the two sides of a binary split. -/
theorem imputer_hess {p : SplitParams (FX m32)} {a : SplitArgs (FX m32)} {l r : NodeInfo (FX m32)}
    {m : MissingInfo (FX m32)} (h : imputerEvaluateSplit p a = some (l, r, m)) :
    (m = .left ∧ l.cover = a.lh + a.mh ∧ r.cover = a.rh) ∨
    (m = .right ∧ l.cover = a.lh ∧
      (r.cover = a.rh + a.mh ∨ (r.cover = a.rh ∧ (a.mh =ᶠ 0) = true))) := by
  unfold imputerEvaluateSplit at h
  split at h
  · cases h
  · simp only at h
    split at h
    · cases h
    · split at h
      · split at h
        all_goals
          split at h
          · cases h
          · simp only [Option.some.injEq, Prod.mk.injEq] at h
            obtain ⟨rfl, rfl, rfl⟩ := h
            simp [mkInfo]
      · rename_i h0
        split at h
        · cases h
        · simp only [Option.some.injEq, Prod.mk.injEq] at h
          obtain ⟨rfl, rfl, rfl⟩ := h
          simp only [Bool.or_eq_true, Bool.not_eq_true', not_or, Bool.not_eq_false] at h0
          exact .inr ⟨rfl, rfl, .inr ⟨rfl, h0.2⟩⟩

/-- A split of a node with correct covers makes children with correct covers; the rows of the children
are the rows on their side of the split. -/
theorem kids_hess (hT : GridTrain t u N hv) {s : Splitter (FX m32)}
    (hpos : (0 <ᶠ s.params.minLeafWeight) = true) {sn : SNode (FX m32) (FX m64)} {rows : List Nat}
    (hg : OnGrid u N (rowSum hv rows)) (hN : HessSums t hv sn rows) (hml : sn.isMissingLeaf = false)
    (hlt : ∀ r ∈ rows, r < t.data.rows) {j i : Nat} {info : SplitInfo (FX m32) (FX m64)}
    (hc : IsCandidate s sn t.colIndex j i info) {kids : List (Kid (FX m32) (FX m64))}
    (hk : kidsOf s t sn rows info = .ok kids) :
    ∃ f c, t.data.getCol info.splitFeature = .ok f ∧ t.cuts.getCol info.splitFeature = .ok c ∧
      info.splitFeature ∈ t.colIndex ∧ i + 1 < c.length ∧ c[i]? = some info.splitValue ∧
      ∃ mr, (∀ p, s = .imputer p → info.missingNode.goesRight = .ok mr) ∧
        List.Forall₂ (fun kid sides => kid.rows.Perm (rowsOn f (i + 1) sides rows) ∧
          HessSums t hv kid.sn kid.rows) kids (kidSides s mr) := by
  obtain ⟨feature, missing, bins, bin, h1, h2, h3, h4⟩ := hc.made
  obtain ⟨f, c, e1, e2, e3, e4, e5, elh, erh, emh⟩ := candidate_hess hT hg hN hml hlt h1 h2 h3
  have hmem : feature ∈ t.colIndex := List.mem_of_getElem? h1
  have hcl := hT.small feature hmem c e2
  obtain ⟨l, r, m, gn, k1, k2, k3, rfl⟩ := evalCandidate_some.1 h4
  refine ⟨f, c, e1, e2, hmem, e3, e4, ?_⟩
  have h6 : (i + 1) % 65536 = i + 1 := Nat.mod_eq_of_lt (by omega)
  simp only at hk k1 ⊢
  have hfr : ∀ r ∈ rows, r < f.length := by rw [e5]; exact hlt
  have hH := hN.hist hml
  have hpart : ∀ s, OnGrid u N (rowSum hv (rowsOn f (i + 1) s rows)) := fun s =>
    rowSum_part hT.pos hT.mult hg _
  have hrows : ∀ {idx : List Nat}, (∃ rest, rows.Perm (idx ++ rest)) → OnGrid u N (rowSum hv idx) := by
    rintro idx ⟨rest, hp⟩
    refine (rowSum_mult hT.mult _).onGrid hT.pos ?_ hg
    have h0 := (rowSum_mult hT.mult rest).nonneg hT.pos
    rw [rowSum_perm hp]
    simp only [rowSum, List.map_append, List.sum_append] at h0 ⊢
    linarith
  cases s with
  | imputer p =>
    obtain ⟨mr, feature', rows', k, kl, kr, a1, a2, a3, a4, rfl, a5, a6, a7, a8, a9, a10⟩ :=
      imputerKids_view hk
    rw [e1] at a2; injection a2 with a2; subst a2
    simp only [Splitter.evaluateSplit, Res.ok.injEq] at k1
    obtain ⟨_, hcr, _⟩ := imputerEvaluateSplit_some k1
    have hsums := imputer_hess k1
    simp only at hsums
    rw [erh, elh, emh] at hsums
    have key : l.cover = FX.fin (rowSum hv (rowsOn f (i + 1) (leftSides mr) rows)) ∧
        r.cover = FX.fin (rowSum hv (rowsOn f (i + 1) (rightSides mr) rows)) := by
      rcases hsums with ⟨e, b2, b4⟩ | ⟨e, b2, b4⟩
      · rw [e] at a1; injection a1 with a1; subst a1
        have hg2 := hpart [.missing, .left]
        rw [rowSum_two_l] at hg2
        rw [b2, b4, hT.grid32.add hg2]
        simp only [leftSides, rightSides, Bool.false_eq_true, if_false, rowSum_two_l, and_self]
      · rw [e] at a1; injection a1 with a1; subst a1
        rw [b2]
        simp only [leftSides, rightSides, if_true, rowSum_two_r, true_and]
        have hg2 := hpart [.missing, .right]
        rw [rowSum_two_r] at hg2
        rcases b4 with b4 | ⟨b4, b5⟩
        · rw [b4, hT.grid32.add hg2]
        · rw [b4]
          have : decide (rowSum hv (rowsOn f (i + 1) [.missing] rows) = 0) = true := b5
          rw [of_decide_eq_true this, add_zero]
    have hne : rowsOn f (i + 1) (rightSides mr) rows ≠ [] := by
      intro e
      rw [key.2] at hcr
      have := pos_of_min hpos hcr
      rw [e] at this
      exact absurd this (by simp [rowSum])
    obtain ⟨index', k', d1, d2, d3, d4⟩ := C30_binary hfr hne
    rw [h6, d1] at a3
    simp only [Res.ok.injEq, Prod.mk.injEq] at a3
    obtain ⟨rfl, rfl⟩ := a3
    have hpm := rowsOn_perm2 f (i + 1) mr rows
    have hperm : rows.Perm (index'.take k' ++ index'.drop k') := hpm.trans (d3.symm.append d4.symm)
    have hists : HessOf t hv (index'.take k') kl.sn.histograms ∧
        HessOf t hv (index'.drop k') kr.sn.histograms := by
      unfold imputerKidHists at a4
      split at a4
      · simp only [Res.bind_eq_ok, Res.ok.injEq, Prod.mk.injEq] at a4
        obtain ⟨lh, b1, rfl, b2⟩ := a4
        have := hessOf_rows hT.pos hT.grid32 hT.grid64 hT.laid hT.mult (hrows ⟨_, hperm⟩) hT.hess b1
        refine ⟨this, ?_⟩
        rw [← b2]; exact hH.sub hT.pos hT.grid32 hT.mult hg this hperm
      · simp only [Res.bind_eq_ok, Res.ok.injEq, Prod.mk.injEq] at a4
        obtain ⟨rh, b1, b2, rfl⟩ := a4
        have hp' := hperm.trans List.perm_append_comm
        have := hessOf_rows hT.pos hT.grid32 hT.grid64 hT.laid hT.mult (hrows ⟨_, hp'⟩) hT.hess b1
        refine ⟨?_, this⟩
        rw [← b2]; exact hH.sub hT.pos hT.grid32 hT.mult hg this hp'
    refine ⟨mr, fun _ _ => a1, ?_⟩
    refine .cons ⟨by rw [a5]; exact d3, ?_, fun _ => by rw [a5]; exact hists.1⟩
      (.cons ⟨by rw [a6]; exact d4, ?_, fun _ => by rw [a6]; exact hists.2⟩ .nil)
    · rw [a7.cover, a5, rowSum_perm d3]; exact key.1
    · rw [a8.cover, a6, rowSum_perm d4]; exact key.2
  | branch p =>
    obtain ⟨isLeaf, minfo, feature', rows', jm, k, km, kl, kr, b1, a2, a3, _, _, a4, rfl, c1, c2, c3, d1, d2,
      d3, d4, d5, d6⟩ := branchKids_view hk
    rw [e1] at a2; injection a2 with a2; subst a2
    obtain ⟨lw, rw', q1, q2, q3, q4, q5, q6⟩ := branchEvaluateSplit_some k1
    simp only at q2 q3 q4 q5 q6
    have hne : rowsOn f (i + 1) [.right] rows ≠ [] := by
      intro e
      rw [erh] at q3
      have := pos_of_min hpos (x := rowSum hv (rowsOn f (i + 1) [.right] rows)) q3
      rw [e] at this
      exact absurd this (by simp [rowSum])
    obtain ⟨index', m', k', p1, p2, p3, p4, p5, p6, p7⟩ := C30_ternary (by omega) hfr hne
    rw [h6, p1] at a3
    simp only [Res.ok.injEq, Prod.mk.injEq] at a3
    obtain ⟨rfl, rfl, rfl⟩ := a3
    have hpm := rowsOn_perm3 f (i + 1) rows
    obtain ⟨M, hM⟩ : ∃ M, M = index'.take m' := ⟨_, rfl⟩
    obtain ⟨L, hL⟩ : ∃ L, L = (index'.drop m').take (k' - m') := ⟨_, rfl⟩
    obtain ⟨Rr, hR⟩ : ∃ Rr, Rr = index'.drop k' := ⟨_, rfl⟩
    rw [← hM] at p5 c1 a4
    rw [← hL] at p6 c2 a4
    rw [← hR] at p7 c3 a4
    have hperm : rows.Perm (M ++ (L ++ Rr)) := hpm.trans (p5.symm.append (p6.symm.append p7.symm))
    have gM : OnGrid u N (rowSum hv M) := hrows ⟨_, hperm⟩
    have gL : OnGrid u N (rowSum hv L) :=
      hrows ⟨Rr ++ M, hperm.trans (by rw [← List.append_assoc L Rr M]; exact List.perm_append_comm)⟩
    have gR : OnGrid u N (rowSum hv Rr) :=
      hrows ⟨M ++ L, hperm.trans (by rw [← List.append_assoc M L Rr]; exact List.perm_append_comm)⟩
    have hists : (km.sn.isMissingLeaf = false → HessOf t hv M km.sn.histograms) ∧
        HessOf t hv L kl.sn.histograms ∧ HessOf t hv Rr kr.sn.histograms := by
      have mk : ∀ {idx : List Nat} {mm : JaggedMatrix (Bin (FX m32) (FX m64))},
          OnGrid u N (rowSum hv idx) →
          histogramMatrix t.data t.cuts t.grad t.hess idx t.colIndex true = .ok mm →
          HessOf t hv idx mm := fun hgi hh =>
        hessOf_rows hT.pos hT.grid32 hT.grid64 hT.laid hT.mult hgi hT.hess hh
      unfold branchKidHists at a4
      simp only at a4
      split at a4
      · rename_i hm0
        have hMnil : M = [] := List.length_eq_zero_iff.1 hm0
        rw [hMnil, List.nil_append] at hperm
        have hfalse : km.sn.isMissingLeaf = false → HessOf t hv M km.sn.histograms := by
          intro e
          rw [d4, c1] at e
          simp [hm0] at e
        refine ⟨hfalse, ?_⟩
        split at a4
        · simp only [Res.bind_eq_ok, Res.ok.injEq, Prod.mk.injEq] at a4
          obtain ⟨rh, x1, _, x2, rfl⟩ := a4
          have := mk gR x1
          refine ⟨?_, this⟩
          rw [← x2]; exact hH.sub hT.pos hT.grid32 hT.mult hg this (hperm.trans List.perm_append_comm)
        · simp only [Res.bind_eq_ok, Res.ok.injEq, Prod.mk.injEq] at a4
          obtain ⟨lh, x1, _, rfl, x2⟩ := a4
          have := mk gL x1
          refine ⟨this, ?_⟩
          rw [← x2]; exact hH.sub hT.pos hT.grid32 hT.mult hg this hperm
      · split at a4
        · simp only [Res.bind_eq_ok, Res.ok.injEq, Prod.mk.injEq] at a4
          obtain ⟨lh, x1, rh, x2, x3, rfl, rfl⟩ := a4
          have l1 := mk gL x1
          have l2 := mk gR x2
          refine ⟨fun _ => ?_, l1, l2⟩
          rw [← x3]
          refine hH.sub2 hT.pos hT.grid32 hT.mult hg l1 l2 (hperm.trans ?_)
          rw [← List.append_assoc L Rr M]
          exact List.perm_append_comm
        · split at a4
          · simp only [Res.bind_eq_ok, Res.ok.injEq, Prod.mk.injEq] at a4
            obtain ⟨mh, x1, rh, x2, rfl, x3, rfl⟩ := a4
            have l1 := mk gM x1
            have l2 := mk gR x2
            refine ⟨fun _ => l1, ?_, l2⟩
            rw [← x3]
            exact hH.sub2 hT.pos hT.grid32 hT.mult hg l1 l2
              (hperm.trans (List.perm_append_comm.append_left M))
          · simp only [Res.bind_eq_ok, Res.ok.injEq, Prod.mk.injEq] at a4
            obtain ⟨mh, x1, lh, x2, rfl, rfl, x3⟩ := a4
            have l1 := mk gM x1
            have l2 := mk gL x2
            refine ⟨fun _ => l1, l2, ?_⟩
            rw [← x3]
            exact hH.sub2 hT.pos hT.grid32 hT.mult hg l1 l2 hperm
    have hmi : minfo.cover = FX.fin (rowSum hv (rowsOn f (i + 1) [.missing] rows)) := by
      unfold BranchParams.missingChild at b1
      simp only [q6] at b1
      rw [emh] at b1
      split at b1
      · rename_i e
        split at e
        · injection e with e
          simp only [Res.ok.injEq, Prod.mk.injEq] at b1
          rw [← b1.2, ← e]
        · cases e
      · rename_i e
        split at e
        · cases e
        · injection e with e
          simp only [Res.ok.injEq, Prod.mk.injEq] at b1
          rw [← b1.2, ← e]
      · cases b1
    refine ⟨false, (fun p h => nomatch h), ?_⟩
    refine .cons ⟨by rw [c1]; exact p5, ?_, by rw [c1]; exact hists.1⟩
      (.cons ⟨by rw [c2]; exact p6, ?_, fun _ => by rw [c2]; exact hists.2.1⟩
        (.cons ⟨by rw [c3]; exact p7, ?_, fun _ => by rw [c3]; exact hists.2.2⟩ .nil))
    · rw [d1.cover, c1, rowSum_perm p5]
      split <;> exact hmi
    · rw [d2.cover, c2, rowSum_perm p6, ← elh]; simp only [q4]; rfl
    · rw [d3.cover, c3, rowSum_perm p7, ← erh]; simp only [q5]; rfl

variable {c : GrowCfg (FX m32) (FX m64)} {o : SNode (FX m32) (FX m64) → Prop}
  {gs : List (Ghost (FX m32) (FX m64))} {nodes : List (Node (FX m32) (FX m64))}

theorem splitRows_hess (hT : GridTrain c.train u N hv)
    (hpos : (0 <ᶠ c.splitter.params.minLeafWeight) = true)
    {i : Nat} {g : Ghost (FX m32) (FX m64)} {info : SplitInfo (FX m32) (FX m64)} {k : Nat}
    {kids : List (Kid (FX m32) (FX m64))} (hS : IsSplit c gs nodes i g info k kids)
    (hg : OnGrid u N (rowSum hv g.rows)) (hN : HessSums c.train hv g.sn g.rows)
    (hlt : ∀ r ∈ g.rows, r < c.train.data.rows) :
    ∃ f cu b mr, SplitRows c g info kids f cu b mr ∧
      ∀ kid ∈ kids, HessSums c.train hv kid.sn kid.rows := by
  obtain ⟨j, b, hc⟩ := bestSplit_mem hS.best
  obtain ⟨f, cu, h1, h2, h3, h4, h5, mr, h9, h10⟩ :=
    kids_hess hT hpos hg hN hS.notMissing hlt hc hS.kids_eq
  refine ⟨f, cu, b, mr, ⟨h1, h2, h3, h4, h5, h9, h10.imp fun _ _ h => h.1⟩, fun kid hkid => ?_⟩
  obtain ⟨q, hq⟩ := List.mem_iff_getElem?.1 hkid
  have hlen := (List.getElem?_eq_some_iff.1 hq).1
  have := (List.forall₂_iff_get.1 h10).2 _ hlen (by rw [← h10.length_eq]; exact hlen)
  rw [List.get_eq_getElem, (List.getElem?_eq_some_iff.1 hq).2] at this
  exact this.2

/-- Covers of all nodes. -/
theorem Cert.hess_sums (h : Cert c o gs nodes) (hT : GridTrain c.train u N hv)
    (hpos : (0 <ᶠ c.splitter.params.minLeafWeight) = true) {g0 : Ghost (FX m32) (FX m64)}
    (h0 : gs[0]? = some g0) (hg0 : OnGrid u N (rowSum hv g0.rows))
    (hN : HessSums c.train hv g0.sn g0.rows) (hlt : ∀ r ∈ g0.rows, r < c.train.data.rows) :
    ∀ (i : Nat) (g : Ghost (FX m32) (FX m64)), gs[i]? = some g →
      OnGrid u N (rowSum hv g.rows) ∧ HessSums c.train hv g.sn g.rows := by
  intro i
  induction i using Nat.strong_induction_on with
  | _ i ih =>
    intro g hg
    by_cases hi : i = 0
    · subst hi
      rw [h0] at hg; cases hg; exact ⟨hg0, hN⟩
    · obtain ⟨gi, info, k, b1, b2, b3, b4⟩ := h.parent i g hg (by omega)
      obtain ⟨kids, hS⟩ := h.split _ gi info k b1 b2
      obtain ⟨kid, g', d1, d2, d5, d3, d4⟩ := hS.new_lt b3 b4
      rw [hg] at d2; cases d2
      obtain ⟨hgi, hN'⟩ := ih _ (by have := hS.later; omega) gi b1
      obtain ⟨f, cu, b, mr, hF, hk⟩ := splitRows_hess hT hpos hS hgi hN'
        (fun r hr => hlt r (h.rows_mem h0 _ gi b1 r hr))
      have hkid : kid ∈ kids := List.mem_of_getElem? d1
      obtain ⟨a2, a3⟩ := hk kid hkid
      rw [d5, d3]
      refine ⟨(rowSum_mult hT.mult _).onGrid hT.pos ?_ hgi, a2, a3⟩
      obtain ⟨k1, k2, rfl⟩ := List.append_of_mem hkid
      rw [← rowSum_perm hS.perm]
      have n1 := (rowSum_mult hT.mult (k1.flatMap Kid.rows)).nonneg hT.pos
      have n2 := (rowSum_mult hT.mult (k2.flatMap Kid.rows)).nonneg hT.pos
      simp only [rowSum, List.flatMap_append, List.flatMap_cons, List.map_append, List.sum_append] at n1 n2 ⊢
      linarith

/-- The cover of the root. -/
theorem root_hess (hT : GridTrain t u N hv) {sm : SampleMethod} {rows : List Nat}
    (hgr : OnGrid u N (rowSum hv rows))
    (hsm : sm = .none → rows = List.range t.grad.length ∧ t.hess.length = t.grad.length)
    {g h : FX m32} {sort : Bool} {hists : JaggedMatrix (Bin (FX m32) (FX m64))}
    (h1 : rootSums (D := FX m64) sm t.grad t.hess rows = .ok (g, h, sort))
    (h2 : histogramMatrix t.data t.cuts t.grad t.hess rows t.colIndex sort = .ok hists)
    (p : SplitParams (FX m32)) (n : Nat) : HessSums t hv (rootNode p n g h hists) rows := by
  have hmult : ∀ x ∈ rows.map hv, Mult u x := fun x hx => by
    obtain ⟨r, _, rfl⟩ := List.mem_map.1 hx; exact hT.mult r
  have hup : ∀ l : List Nat, ((l.map fun r => (FX.fin (hv r) : FX m32)).map (up : FX m32 → FX m64)) =
        (l.map hv).map FX.fin := by
    intro l; simp
  have sampled : ∀ hs, Res.mapM' (idx t.hess) rows = .ok hs →
      (down ((hs.map (up : FX m32 → FX m64)).foldl (· + ·) 0) : FX m32) = FX.fin (rowSum hv rows) := by
    intro hs e
    rw [finRows_gather hT.hess e, hup, hT.grid64.foldl_zero hT.pos hmult hgr]
    exact hT.grid32.down hgr
  cases sm with
  | none =>
    obtain ⟨e1, e2⟩ := hsm rfl
    simp only [rootSums, Res.ok.injEq, Prod.mk.injEq] at h1
    obtain ⟨rfl, rfl, rfl⟩ := h1
    refine ⟨?_, fun _ => ?_⟩
    · show fastF64Sum (D := FX m64) t.hess = _
      have : t.hess = (rows.map hv).map FX.fin := by
        rw [hT.hess.eq_range, e1, e2, List.map_map]; rfl
      rw [this, hT.grid32.fastF64Sum hT.pos hT.grid64 hmult hgr]; rfl
    · rw [e1] at h2 hgr ⊢
      exact hessOf_all hT.pos hT.grid32 hT.grid64 hT.laid hT.mult hgr hT.hess e2 h2
  | random =>
    simp only [rootSums, Res.bind_eq_ok, Res.ok.injEq, Prod.mk.injEq] at h1
    obtain ⟨gs, a1, hs, a2, rfl, rfl, rfl⟩ := h1
    exact ⟨sampled hs a2, fun _ => hessOf_rows hT.pos hT.grid32 hT.grid64 hT.laid hT.mult hgr hT.hess h2⟩
  | goss =>
    simp only [rootSums, Res.bind_eq_ok, Res.ok.injEq, Prod.mk.injEq] at h1
    obtain ⟨gs, a1, hs, a2, rfl, rfl, rfl⟩ := h1
    exact ⟨sampled hs a2, fun _ => hessOf_rows hT.pos hT.grid32 hT.grid64 hT.laid hT.mult hgr hT.hess h2⟩

end

end Verif
