import Verif.Proofs.GradHist

/-!
# Rounding errors of the gradient sums of the nodes
-/

namespace Verif

open scoped Verif

set_option linter.unusedSectionVars false

section
variable {K : Type} [Field K] [LinearOrder K] [IsStrictOrderedRing K] {m32 m64 : Fmt K}
  {u32 u64 v : K} {P : K → Prop} {N M : Nat} {gv : Nat → K} {t : TrainData (FX m32) (FX m64)}

/-- Roundings in the histograms of a node of depth `d`. -/
def histRounds (d : Nat) : Nat := 4 * d + 1

/-- Roundings in the gradient sum of a node of depth `d`, with up to `M` bins per column. -/
def sumRounds (M d : Nat) : Nat := 1 + d * (M + 6 * d)

/-- The gradient sum and the histograms of a node of depth `d` approximate those of its rows. -/
structure GradErr (t : TrainData (FX m32) (FX m64)) (v : K) (M : Nat) (gv : Nat → K) (rows0 : List Nat) (d : Nat)
    (sn : SNode (FX m32) (FX m64)) (rows : List Nat) : Prop where
  grad : NearX v (sumRounds M d) sn.gradientSum (rowSum gv rows) (rowSum (fun r => |gv r|) rows0)
  hist : sn.isMissingLeaf = false → GradOf t v gv rows0 (histRounds d) rows sn.histograms

/-- What the induction needs to know about the training data. -/
structure ErrTrain (t : TrainData (FX m32) (FX m64)) (u32 u64 v : K) (P : K → Prop) (N M : Nat)
    (gv : Nat → K) : Prop where
  fmt : ErrFmt m32 m64 u32 u64 v P N
  repr : ∀ r, m32.Repr (gv r)
  laid : t.Laid
  grad : FinRows t.grad gv
  bins : ∀ col ∈ t.colIndex, ∀ c, t.cuts.getCol col = .ok c → c.length ≤ M + 1

theorem gradSum_near (hE : ErrFmt m32 m64 u32 u64 v P N) {rows0 rows f : List Nat} {k : Nat}
    {bins : List (Bin (FX m32) (FX m64))} :
    ∀ i, i ≤ bins.length → (∀ b x, bins[b]? = some x →
      NearX v k x.grad (binSum f gv rows (b + 1)) (binSum f (fun r => |gv r|) rows0 (b + 1))) →
    NearX v (k + i) (gradSum (bins.take i)) ((List.range i).map fun b => binSum f gv rows (b + 1)).sum
      ((List.range i).map fun b => binSum f (fun r => |gv r|) rows0 (b + 1)).sum := by
  have hr32 := hE.r32
  have ha32 := hE.a32
  intro i
  induction i with
  | zero =>
    intro _ _
    simpa [gradSum] using (NearX.zero (m := m32) (v := v)).mono ha32.nonneg (Nat.zero_le k)
  | succ i ih =>
    intro hi hb
    have h1 := ih (by omega) hb
    have h2 := hb i bins[i] (List.getElem?_eq_getElem (by omega))
    rw [List.take_succ_eq_append_getElem (by omega)]
    have e : gradSum (bins.take i ++ [bins[i]]) = gradSum (bins.take i) + bins[i].grad := by
      unfold gradSum
      rw [List.map_append, List.foldl_append]; rfl
    rw [e, List.range_succ, List.map_append, List.map_append, List.sum_append, List.sum_append]
    simp only [List.map_cons, List.map_nil, List.sum_cons, List.sum_nil, add_zero]
    exact h1.add (h2.mono ha32.nonneg (by omega))

/-- The gradients a candidate split is evaluated on. -/
theorem candidate_grad (hT : ErrTrain t u32 u64 v P N M gv) {sn : SNode (FX m32) (FX m64)}
    {rows0 rows : List Nat} {d : Nat} (hpart : PartOf rows rows0) (hlt0 : ∀ r ∈ rows0, r < t.data.rows)
    (hN : GradErr t v M gv rows0 d sn rows) (hml : sn.isMissingLeaf = false)
    {j i feature : Nat} {missing bin : Bin (FX m32) (FX m64)}
    {bins : List (Bin (FX m32) (FX m64))} (h1 : t.colIndex[j]? = some feature)
    (h2 : sn.histograms.getCol j = .ok (missing :: bins)) (h3 : bins[i]? = some bin)
    {f : List Nat} (hf : t.data.getCol feature = .ok f) :
    NearX v (histRounds d + M) (gradSum (bins.take i)) (rowSum gv (rowsOn f (i + 1) [.left] rows))
        (rowSum (fun r => |gv r|) rows0) ∧
      NearX v (histRounds d) missing.grad (rowSum gv (rowsOn f (i + 1) [.missing] rows))
        (rowSum (fun r => |gv r|) rows0) ∧
      NearX v (sumRounds M d + 2 * histRounds d + M + 2)
        (sn.gradientSum - gradSum (bins.take i) - missing.grad)
        (rowSum gv (rowsOn f (i + 1) [.right] rows)) (rowSum (fun r => |gv r|) rows0) := by
  have hr32 := hT.fmt.r32
  have ha32 := hT.fmt.a32
  have hv := ha32.nonneg
  obtain ⟨hs, hj, hfa⟩ := hN.hist hml
  have hjlt : j < t.colIndex.length := (List.getElem?_eq_some_iff.1 h1).1
  obtain ⟨h, hh, f', c, e1, e2, e3, e4, e5⟩ : ∃ h, hs[j]? = some h ∧ ∃ f c, t.data.getCol feature = .ok f ∧
      t.cuts.getCol feature = .ok c ∧ c ≠ [] ∧ h.length = c.length ∧
      GradIs v gv rows0 (histRounds d) rows f h := by
    have hjl : j < hs.length := by rw [← hfa.length_eq]; exact hjlt
    refine ⟨hs[j], List.getElem?_eq_getElem hjl, ?_⟩
    have := (List.forall₂_iff_get.1 hfa).2 j hjlt hjl
    rw [List.getElem?_eq_getElem hjlt] at h1
    injection h1 with h1
    simpa [h1] using this
  rw [hf] at e1; cases e1
  rw [hj.getCol, hh, Res.ofOption_some, Res.ok.injEq] at h2
  subst h2
  rw [List.length_cons] at e4
  have hil : i < bins.length := (List.getElem?_eq_some_iff.1 h3).1
  have hM := hT.bins feature (List.mem_of_getElem? h1) c e2
  have hfr0 : ∀ r ∈ rows0, r < f.length := by rw [getCol_length hf]; exact hlt0
  have hsub : ∀ r ∈ rows, r ∈ rows0 := by
    intro r hr
    obtain ⟨rest, hp⟩ := hpart
    exact hp.symm.subset (by simp [hr])
  have hfr : ∀ r ∈ rows, r < f.length := fun r hr => hfr0 r (hsub r hr)
  have habs : ∀ r, 0 ≤ |gv r| := fun r => abs_nonneg _
  have hside : ∀ s, PartOf (rowsOn f (i + 1) s rows) rows0 := fun s => (PartOf.filter _ _).trans hpart
  have a1 : NearX v (histRounds d + M) (gradSum (bins.take i))
      (rowSum gv (rowsOn f (i + 1) [.left] rows)) (rowSum (fun r => |gv r|) rows0) := by
    have := gradSum_near hT.fmt (f := f) (rows := rows) (rows0 := rows0) (gv := gv) i hil.le
      (fun b x hx => e5 (b + 1) x (by simpa using hx))
    rw [binSum_left hfr, binSum_left hfr0] at this
    refine (this.mono hv (by omega)).widen hv ?_
    exact (PartOf.filter _ _).rowSum_le habs
  have a2 : NearX v (histRounds d) missing.grad (rowSum gv (rowsOn f (i + 1) [.missing] rows))
      (rowSum (fun r => |gv r|) rows0) := by
    have := e5 0 missing (by simp)
    rw [binSum_missing (split := i + 1) hfr, binSum_missing (split := i + 1) hfr0] at this
    exact this.widen hv ((PartOf.filter _ _).rowSum_le habs)
  refine ⟨a1, a2, ?_⟩
  have h3' := rowSum_three gv f (i + 1) rows
  have q1 : rowSum gv rows - rowSum gv (rowsOn f (i + 1) [.left] rows) =
      rowSum gv (rowsOn f (i + 1) [.missing, .right] rows) := by
    rw [h3', rowSum_two_r]; ring
  have q2 : rowSum gv (rowsOn f (i + 1) [.missing, .right] rows) -
      rowSum gv (rowsOn f (i + 1) [.missing] rows) = rowSum gv (rowsOn f (i + 1) [.right] rows) := by
    rw [rowSum_two_r]; ring
  have b1 := hN.grad.sub_in a1 (by rw [q1]; exact (hside _).abs_le)
  rw [q1] at b1
  have b2 := b1.sub_in a2 (by rw [q2]; exact (hside _).abs_le)
  rw [q2] at b2
  exact b2.mono hv (by omega)

/-- The gradients of the two sides of a binary split. -/
theorem imputer_grad {p : SplitParams (FX m32)} {a : SplitArgs (FX m32)} {l r : NodeInfo (FX m32)}
    {m : MissingInfo (FX m32)} (h : imputerEvaluateSplit p a = some (l, r, m)) :
    (m = .left ∧ l.grad = a.lg + a.mg ∧ r.grad = a.rg) ∨
    (m = .right ∧ l.grad = a.lg ∧
      (r.grad = a.rg + a.mg ∨ (r.grad = a.rg ∧ (a.mg =ᶠ 0) = true))) := by
  unfold imputerEvaluateSplit at h
  split at h
  · cases h
  · simp only at h
    split at h
    · cases h
    · split at h
      · split at h
        all_goals
          split at h
          · cases h
          · simp only [Option.some.injEq, Prod.mk.injEq] at h
            obtain ⟨rfl, rfl, rfl⟩ := h
            simp [mkInfo]
      · rename_i h0
        split at h
        · cases h
        · simp only [Option.some.injEq, Prod.mk.injEq] at h
          obtain ⟨rfl, rfl, rfl⟩ := h
          simp only [Bool.or_eq_true, Bool.not_eq_true', not_or, Bool.not_eq_false] at h0
          exact .inr ⟨rfl, rfl, .inr ⟨rfl, h0.1⟩⟩

theorem sumRounds_succ (M d : Nat) :
    sumRounds M d + 3 * histRounds d + M + 3 ≤ sumRounds M (d + 1) := by
  unfold sumRounds histRounds
  ring_nf
  omega

theorem histRounds_succ (d : Nat) : histRounds (d + 1) = histRounds d + 4 := by
  unfold histRounds; ring

/-- The sum that a rounded zero leaves out. -/
theorem NearX.drop_zero {m : Fmt K} [hm : m.Accurate v] [hr : m.Rounds] {i j : Nat} {x y : FX m} {s t a : K}
    (h1 : NearX v i x s a) (h2 : NearX v j y t a) (hst : |s + t| ≤ a) (h0 : (y =ᶠ 0) = true) :
    NearX v (i + j + 1) x (s + t) a := by
  refine ⟨hst, fun z e => ?_⟩
  have hy : y = .fin 0 := by
    cases y with
    | fin q =>
      have : decide (q = 0) = true := h0
      rw [of_decide_eq_true this]
    | nan => cases h0
    | ninf => cases h0
    | pinf => cases h0
  subst e
  have h := h1.add_in h2 hst
  refine h.near z ?_
  rw [hy]
  show FX.rd (z + 0) = _
  rw [add_zero, FX.rd, show m.rnd z = .fin z from (h1.near z rfl).1]; rfl

/-- The children of a split: their gradient sums and histograms. -/
theorem kids_grad (hT : ErrTrain t u32 u64 v P N M gv) {s : Splitter (FX m32)}
    {sn : SNode (FX m32) (FX m64)} {rows0 rows : List Nat} {d : Nat} (hpart : PartOf rows rows0)
    (hlen0 : rows0.length ≤ N) (hlt0 : ∀ r ∈ rows0, r < t.data.rows)
    (hN : GradErr t v M gv rows0 d sn rows) (hml : sn.isMissingLeaf = false)
    {j i : Nat} {info : SplitInfo (FX m32) (FX m64)}
    (hc : IsCandidate s sn t.colIndex j i info) {kids : List (Kid (FX m32) (FX m64))}
    (hk : kidsOf s t sn rows info = .ok kids) (hperm : (kids.flatMap Kid.rows).Perm rows)
    {f : List Nat} (hf : t.data.getCol info.splitFeature = .ok f) {mr : Bool}
    (hmr : ∀ p, s = .imputer p → info.missingNode.goesRight = .ok mr)
    (hrows : List.Forall₂ (fun kid sides => kid.rows.Perm (rowsOn f (i + 1) sides rows)) kids (kidSides s mr)) :
    ∀ kid ∈ kids, GradErr t v M gv rows0 (d + 1) kid.sn kid.rows := by
  have hr32 := hT.fmt.r32
  have ha32 := hT.fmt.a32
  have hv := ha32.nonneg
  obtain ⟨feature, missing, bins, bin, h1, h2, h3, h4⟩ := hc.made
  obtain ⟨l, r, m, gn, k1, k2, k3, rfl⟩ := evalCandidate_some.1 h4
  simp only at hf hmr k1
  obtain ⟨alg, amg, arg⟩ := candidate_grad hT hpart hlt0 hN hml h1 h2 h3 hf
  have hH := hN.hist hml
  have hs := sumRounds_succ M d
  have hsz : ∀ {part : List Nat}, PartOf part rows → part.length ≤ N := by
    rintro part ⟨r1, p1⟩
    obtain ⟨r2, p2⟩ := hpart
    have e1 := p1.length_eq
    have e2 := p2.length_eq
    rw [List.length_append] at e1 e2
    omega
  have mk : ∀ {idx : List Nat} {mm : JaggedMatrix (Bin (FX m32) (FX m64))}, PartOf idx rows →
      histogramMatrix t.data t.cuts t.grad t.hess idx t.colIndex true = .ok mm →
      GradOf t v gv rows0 1 idx mm := fun hp hh =>
    gradOf_rows hT.fmt hT.laid hT.repr (hsz hp) (hp.trans hpart) hT.grad hh
  have hside : ∀ s, PartOf (rowsOn f (i + 1) s rows) rows0 := fun s => (PartOf.filter _ _).trans hpart
  have one_le : 1 ≤ histRounds (d + 1) := by unfold histRounds; omega
  have two_le : histRounds d + 2 ≤ histRounds (d + 1) := by rw [histRounds_succ]; omega
  have four_le : histRounds d + 4 ≤ histRounds (d + 1) := by rw [histRounds_succ]
  cases s with
  | imputer p =>
    obtain ⟨mr', feature', rows', k, kl, kr, a1, a2, a3, a4, rfl, a5, a6, a7, a8, a9, a10⟩ :=
      imputerKids_view hk
    have := hmr p rfl
    rw [this] at a1; injection a1 with a1; subst a1
    simp only [kidSides, List.forall₂_cons, List.forall₂_nil_right_iff, and_true] at hrows
    obtain ⟨pl, pr⟩ := hrows
    simp only [List.flatMap_cons, List.flatMap_nil, List.append_nil] at hperm
    rw [← a5, ← a6] at a4
    simp only [Splitter.evaluateSplit, Res.ok.injEq] at k1
    have hsums := imputer_grad k1
    simp only at hsums
    have key : NearX v (sumRounds M (d + 1)) l.grad (rowSum gv (rowsOn f (i + 1) (leftSides mr) rows))
          (rowSum (fun r => |gv r|) rows0) ∧
        NearX v (sumRounds M (d + 1)) r.grad (rowSum gv (rowsOn f (i + 1) (rightSides mr) rows))
          (rowSum (fun r => |gv r|) rows0) := by
      have hl2 := hside [.missing, .left]
      have hr2 := hside [.missing, .right]
      rcases hsums with ⟨e, b2, b4⟩ | ⟨e, b2, b4⟩
      · rw [e] at this; injection this with this; subst this
        rw [b2, b4]
        simp only [leftSides, rightSides, Bool.false_eq_true, if_false]
        have hab := hl2.abs_le (gv := gv)
        rw [rowSum_two_l] at hab ⊢
        exact ⟨(alg.add_in amg hab).mono hv (by omega), arg.mono hv (by omega)⟩
      · rw [e] at this; injection this with this; subst this
        rw [b2]
        simp only [leftSides, rightSides, if_true]
        refine ⟨alg.mono hv (by omega), ?_⟩
        have hab := hr2.abs_le (gv := gv)
        rw [rowSum_two_r] at hab ⊢
        rcases b4 with b4 | ⟨b4, b5⟩
        · rw [b4]
          exact (arg.add_in amg hab).mono hv (by omega)
        · rw [b4]
          exact (arg.drop_zero amg hab b5).mono hv (by omega)
    have hists : GradOf t v gv rows0 (histRounds (d + 1)) kl.rows kl.sn.histograms ∧
        GradOf t v gv rows0 (histRounds (d + 1)) kr.rows kr.sn.histograms := by
      unfold imputerKidHists at a4
      split at a4
      · simp only [Res.bind_eq_ok, Res.ok.injEq, Prod.mk.injEq] at a4
        obtain ⟨lh, b1, rfl, b2⟩ := a4
        have hm := mk ⟨_, hperm.symm⟩ b1
        refine ⟨hm.mono hv one_le, ?_⟩
        rw [← b2]; exact (hH.sub hT.fmt hpart hm hperm.symm).mono hv two_le
      · simp only [Res.bind_eq_ok, Res.ok.injEq, Prod.mk.injEq] at a4
        obtain ⟨rh, b1, b2, rfl⟩ := a4
        have hp' := hperm.symm.trans List.perm_append_comm
        have hm := mk ⟨_, hp'⟩ b1
        refine ⟨?_, hm.mono hv one_le⟩
        rw [← b2]; exact (hH.sub hT.fmt hpart hm hp').mono hv two_le
    intro kid hkid
    simp only [List.mem_cons, List.not_mem_nil, or_false] at hkid
    rcases hkid with rfl | rfl
    · refine ⟨?_, fun _ => hists.1⟩
      rw [a7.grad, rowSum_perm pl]; exact key.1
    · refine ⟨?_, fun _ => hists.2⟩
      rw [a8.grad, rowSum_perm pr]; exact key.2
  | branch p =>
    obtain ⟨isLeaf, minfo, feature', rows', jm, k, km, kl, kr, b1, a2, a3, _, _, a4, rfl, c1, c2, c3, d1, d2,
      d3, d4, d5, d6⟩ := branchKids_view hk
    obtain ⟨lw, rw', q1, q2, q3, q4, q5, q6⟩ := branchEvaluateSplit_some k1
    simp only at q4 q5 q6
    simp only [kidSides, List.forall₂_cons, List.forall₂_nil_right_iff, and_true] at hrows
    obtain ⟨pm, pl, pr⟩ := hrows
    simp only [List.flatMap_cons, List.flatMap_nil, List.append_nil] at hperm
    rw [← c1, ← c2, ← c3] at a4
    have hperm' := hperm.symm
    have gM : PartOf km.rows rows := ⟨_, hperm'⟩
    have gL : PartOf kl.rows rows :=
      ⟨kr.rows ++ km.rows, hperm'.trans (by
        rw [← List.append_assoc kl.rows kr.rows km.rows]; exact List.perm_append_comm)⟩
    have gR : PartOf kr.rows rows :=
      ⟨km.rows ++ kl.rows, hperm'.trans (by rw [← List.append_assoc]; exact List.perm_append_comm)⟩
    have hists : (km.sn.isMissingLeaf = false → GradOf t v gv rows0 (histRounds (d + 1)) km.rows km.sn.histograms) ∧
        GradOf t v gv rows0 (histRounds (d + 1)) kl.rows kl.sn.histograms ∧
        GradOf t v gv rows0 (histRounds (d + 1)) kr.rows kr.sn.histograms := by
      unfold branchKidHists at a4
      simp only at a4
      split at a4
      · rename_i hm0
        have hMnil : km.rows = [] := List.length_eq_zero_iff.1 hm0
        rw [hMnil, List.nil_append] at hperm'
        have hfalse : km.sn.isMissingLeaf = false →
            GradOf t v gv rows0 (histRounds (d + 1)) km.rows km.sn.histograms := by
          intro e
          rw [d4] at e
          simp [hm0] at e
        refine ⟨hfalse, ?_⟩
        split at a4
        · simp only [Res.bind_eq_ok, Res.ok.injEq, Prod.mk.injEq] at a4
          obtain ⟨rh, x1, _, x2, rfl⟩ := a4
          have hm := mk gR x1
          refine ⟨?_, hm.mono hv one_le⟩
          rw [← x2]
          exact (hH.sub hT.fmt hpart hm (hperm'.trans List.perm_append_comm)).mono hv two_le
        · simp only [Res.bind_eq_ok, Res.ok.injEq, Prod.mk.injEq] at a4
          obtain ⟨lh, x1, _, rfl, x2⟩ := a4
          have hm := mk gL x1
          refine ⟨hm.mono hv one_le, ?_⟩
          rw [← x2]; exact (hH.sub hT.fmt hpart hm hperm').mono hv two_le
      · split at a4
        · simp only [Res.bind_eq_ok, Res.ok.injEq, Prod.mk.injEq] at a4
          obtain ⟨lh, x1, rh, x2, x3, rfl, rfl⟩ := a4
          have l1 := mk gL x1
          have l2 := mk gR x2
          refine ⟨fun _ => ?_, l1.mono hv one_le, l2.mono hv one_le⟩
          rw [← x3]
          refine (hH.sub2 hT.fmt hpart l1 l2 (hperm'.trans ?_)).mono hv four_le
          rw [← List.append_assoc kl.rows kr.rows km.rows]
          exact List.perm_append_comm
        · split at a4
          · simp only [Res.bind_eq_ok, Res.ok.injEq, Prod.mk.injEq] at a4
            obtain ⟨mh, x1, rh, x2, rfl, x3, rfl⟩ := a4
            have l1 := mk gM x1
            have l2 := mk gR x2
            refine ⟨fun _ => l1.mono hv one_le, ?_, l2.mono hv one_le⟩
            rw [← x3]
            exact (hH.sub2 hT.fmt hpart l1 l2
              (hperm'.trans (List.perm_append_comm.append_left km.rows))).mono hv four_le
          · simp only [Res.bind_eq_ok, Res.ok.injEq, Prod.mk.injEq] at a4
            obtain ⟨mh, x1, lh, x2, rfl, rfl, x3⟩ := a4
            have l1 := mk gM x1
            have l2 := mk gL x2
            refine ⟨fun _ => l1.mono hv one_le, l2.mono hv one_le, ?_⟩
            rw [← x3]
            exact (hH.sub2 hT.fmt hpart l1 l2 hperm').mono hv four_le
    have hmi : minfo.grad = missing.grad := by
      unfold BranchParams.missingChild at b1
      simp only [q6] at b1
      split at b1
      · rename_i e
        split at e
        · injection e with e
          simp only [Res.ok.injEq, Prod.mk.injEq] at b1
          rw [← b1.2, ← e]
        · cases e
      · rename_i e
        split at e
        · cases e
        · injection e with e
          simp only [Res.ok.injEq, Prod.mk.injEq] at b1
          rw [← b1.2, ← e]
      · cases b1
    intro kid hkid
    simp only [List.mem_cons, List.not_mem_nil, or_false] at hkid
    rcases hkid with rfl | rfl | rfl
    · refine ⟨?_, hists.1⟩
      have e : kid.sn.gradientSum = missing.grad := by
        rw [d1.grad]; split <;> exact hmi
      rw [e, rowSum_perm pm]
      exact amg.mono hv (by omega)
    · refine ⟨?_, fun _ => hists.2.1⟩
      have e : kid.sn.gradientSum = gradSum (bins.take i) := by rw [d2.grad]; simp only [q4]; rfl
      rw [e, rowSum_perm pl]
      exact alg.mono hv (by omega)
    · refine ⟨?_, fun _ => hists.2.2⟩
      have e : kid.sn.gradientSum = sn.gradientSum - gradSum (bins.take i) - missing.grad := by
        rw [d3.grad]; simp only [q5]; rfl
      rw [e, rowSum_perm pr]
      exact arg.mono hv (by omega)

end

end Verif
