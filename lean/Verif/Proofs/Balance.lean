import Verif.Props.SquaredLoss

/-!
# The values of the leaves and the rows that reach them
-/

namespace Verif

open scoped Verif

set_option linter.unusedSectionVars false

section
variable {K : Type} [Field K] [LinearOrder K] [IsStrictOrderedRing K] {m32 m64 : Fmt K}
  [m32.Exact] [m64.Exact]
variable {S : Sorter} {X : Matrix (FX m64)} {w : List K} {nbins : Nat} {missing : FX m64}
  {gv hv : Nat → K} {c : GrowCfg (FX m32) (FX m64)} {sm : SampleMethod} {rows : List Nat}
  {t : Tree (FX m32) (FX m64)}

/-- Without regularisation the step brings the gradient to 0. -/
theorem IsStep.newton {G H x : K} (h : IsStep 0 0 0 G H x) (hH : 0 < H) : G + H * x = 0 := by
  have hle := h.least (-G / H) (.inl rfl)
  unfold regObj at hle
  have e : G * (-G / H) + (H + 0) * (-G / H) ^ 2 / 2 + 0 * |-G / H| = - (G ^ 2 / H) / 2 := by
    field_simp
    ring
  rw [e] at hle
  have e2 : (G + H * x) ^ 2 = 2 * H * (G * x + (H + 0) * x ^ 2 / 2 + 0 * |x| + G ^ 2 / H / 2) := by
    field_simp
    ring
  have : (G + H * x) ^ 2 ≤ 0 := by
    rw [e2]
    exact mul_nonpos_of_nonneg_of_nonpos (by linarith) (by linarith)
  exact pow_eq_zero_iff (two_ne_zero) |>.1 (le_antisymm this (sq_nonneg _))

/-- A step, scaled by a learning rate up to 1, brings the gradient nearer to 0 without passing it. -/
theorem IsStep.nearer {l1 l2 mds G H x lr : K} (h : IsStep l1 l2 mds G H x) (hH : 0 ≤ H) (h2 : 0 ≤ l2)
    (h1 : 0 ≤ l1) (hlr : 0 ≤ lr) (hlr1 : lr ≤ 1) :
    0 ≤ (G + H * (x * lr)) * G ∧ |G + H * (x * lr)| ≤ |G| := by
  have hd := h.descent hH h2 h1
  have key : (0 ≤ G ∧ -G ≤ H * x ∧ H * x ≤ 0) ∨ (G ≤ 0 ∧ 0 ≤ H * x ∧ H * x ≤ -G) := by
    rcases lt_trichotomy x 0 with hx | hx | hx
    · left
      have h3 : 0 ≤ G + H * x := by
        by_contra hc
        have := mul_pos_of_neg_of_neg hx (not_le.1 hc)
        nlinarith
      have h4 : H * x ≤ 0 := mul_nonpos_of_nonneg_of_nonpos hH hx.le
      exact ⟨by linarith, by linarith, h4⟩
    · subst hx
      rcases le_total 0 G with hg | hg
      · left; simp [hg]
      · right; simp [hg]
    · right
      have h3 : G + H * x ≤ 0 := by
        by_contra hc
        have := mul_pos hx (not_le.1 hc)
        nlinarith
      have h4 : 0 ≤ H * x := mul_nonneg hH hx.le
      exact ⟨by linarith, h4, by linarith⟩
  have e : H * (x * lr) = (H * x) * lr := by ring
  rw [e]
  generalize H * x = u at key
  rcases key with ⟨a, b, c⟩ | ⟨a, b, c⟩
  · have b1 : u * lr ≤ 0 := mul_nonpos_of_nonpos_of_nonneg c hlr
    have b2 : -G ≤ u * lr := by nlinarith
    refine ⟨mul_nonneg (by linarith) a, ?_⟩
    rw [abs_of_nonneg a, abs_of_nonneg (by linarith)]
    linarith
  · have b1 : 0 ≤ u * lr := mul_nonneg b hlr
    have b2 : u * lr ≤ -G := by nlinarith
    refine ⟨mul_nonneg_of_nonpos_of_nonpos (by linarith) a, ?_⟩
    rw [abs_of_nonpos a, abs_of_nonpos (by linarith)]
    linarith

/-- The leaf a training row is led to holds the step of the rows that are led to it. -/
theorem leaf_step (h : TrainedOn S X w nbins missing gv hv c sm rows)
    (hf : Tree.fit c sm rows = .ok t) {l1 l2 mds lr : K} (hP : PlainParams c hv rows l1 l2 mds lr)
    (hl1 : 0 ≤ l1) (hmds : 0 ≤ mds)
    (hno : ∀ f, noConstraint (c.splitter.params.getConstraint f) = true)
    (hforce : ∀ p, c.splitter = .branch p → p.forceChildrenToBoundParent = false)
    (hmiss : ∀ i, OnlyMissing t.nodes i → ∀ r ∈ rows, ¬ Reaches t.nodes (X.entry r) missing i)
    {r0 : Nat} (hr0 : r0 ∈ rows) :
    ∃ i n x, t.nodes[i]? = some n ∧ n.isLeaf = true ∧ n.weightValue = FX.fin (x * lr) ∧
      (∀ r ∈ rows, t.predictLeaf X r missing = .ok n ↔ Reaches t.nodes (X.entry r) missing i) ∧
      t.predictLeaf X r0 missing = .ok n ∧
      0 ≤ ((rowsAt t X missing rows i).map hv).sum ∧
      0 < ((rowsAt t X missing rows i).map hv).sum + l2 ∧
      IsStep l1 l2 mds ((rowsAt t X missing rows i).map gv).sum
        ((rowsAt t X missing rows i).map hv).sum x := by
  obtain ⟨o, gs, nodes, hV⟩ := h.view hf
  obtain ⟨i, n, hn1, hn2, hn3, hn4⟩ := hV.toLeaf r0 hr0
  have hom : ¬ OnlyMissing t.nodes i := fun hc => hmiss i hc r0 hr0 hn3
  have hsub : ∀ r ∈ rowsAt t X missing rows i, r ∈ rows := fun r hr => (List.mem_filter.1 hr).1
  have hnn : 0 ≤ ((rowsAt t X missing rows i).map hv).sum := List.sum_nonneg (by
    intro x hx
    obtain ⟨r, hr, rfl⟩ := List.mem_map.1 hx
    exact hP.hess r (hsub r hr))
  have hpos : 0 < ((rowsAt t X missing rows i).map hv).sum + l2 := by
    have h2 := hP.l2_nonneg
    rcases Nat.eq_zero_or_pos i with rfl | hi0
    · have : rowsAt t X missing rows 0 = rows := by
        unfold rowsAt
        refine List.filter_eq_self.2 fun r _ => ?_
        simp only [decide_eq_true_eq]
        exact .root
      rw [this]
      exact hP.root
    · obtain ⟨g, _, hg, _⟩ := hV.node hn1
      obtain ⟨j, nj, gj, info, k, kids, _, hj, hjl, hI, hside⟩ := hV.main hg hi0 hom
      obtain ⟨a, lg, lh, rg, rh, mg, mh, clg, clh, crg, crh, hE⟩ := hV.evalFacts h hP.hess hI
      rw [hV.rowSum h.nodup hg]
      have hs := (hV.sums i g hg).hess
      rcases hside with ⟨_, hh⟩ | ⟨_, hh⟩
      · have e := hs.symm.trans (hh.cover.trans hE.lcover)
        rw [FX.fin.inj e]
        linarith [hE.lpos]
      · have e := hs.symm.trans (hh.cover.trans hE.rcover)
        rw [FX.fin.inj e]
        linarith [hE.rpos]
  obtain ⟨x, hx, hstep⟩ := C02_value h hf hP.l1_eq hP.l2_eq hP.mds_eq hP.lr_eq hl1 hmds hno hforce hn1 hom
    (fun _ => hn2) hpos
  exact ⟨i, n, x, hn1, hn2, hx, fun r hr => hV.leaf_iff hr hn1 hn2, (hV.leaf_iff hr0 hn1 hn2).2 hn3, hnn, hpos, hstep⟩

/-- The same for a tree of a booster. -/
theorem PlainTree.leaf_step {R : Type} {env : Env R (FX m32) (FX m64)} {b : Booster (FX m32) (FX m64)}
    {y p : List K} {l1 l2 mds lr : K} {binned : BinnedData (FX m64)} {k : Nat}
    (hA : PlainTree env b X y w l1 l2 mds lr binned p k t c rows) (hc : b.monotoneConstraints = none)
    (hl1 : 0 ≤ l1) (hmds : 0 ≤ mds)
    (hm : b.createMissingBranch = false ∨
      (b.forceChildrenToBoundParent = false ∧ ∀ v ∈ X.data, ¬ IsMissing b.missing v))
    {r0 : Nat} (hr0 : r0 ∈ rows) :
    ∃ i n x, t.nodes[i]? = some n ∧ n.isLeaf = true ∧ n.weightValue = FX.fin (x * lr) ∧
      (∀ r ∈ rows, t.predictLeaf X r b.missing = .ok n ↔ Reaches t.nodes (X.entry r) b.missing i) ∧
      t.predictLeaf X r0 b.missing = .ok n ∧
      0 ≤ ((rowsAt t X b.missing rows i).map (rowVals c.train.hess)).sum ∧
      0 < ((rowsAt t X b.missing rows i).map (rowVals c.train.hess)).sum + l2 ∧
      IsStep l1 l2 mds ((rowsAt t X b.missing rows i).map (rowVals c.train.grad)).sum
        ((rowsAt t X b.missing rows i).map (rowVals c.train.hess)).sum x := by
  refine Verif.leaf_step hA.trained hA.treeAt.fitted.fit hA.params hl1 hmds ?_ ?_ ?_ hr0
  · intro f
    rw [hA.treeAt.fitted.splitter]
    have : ∀ s : Splitter (FX m32), s.params.constraintsMap = [] → noConstraint (s.params.getConstraint f) = true := by
      intro s hs'
      simp [SplitParams.getConstraint, hs', noConstraint]
    apply this
    unfold Booster.splitter
    split <;> simp [Splitter.params, Booster.constraintsMap, hc]
  · intro q hq'
    rw [hA.treeAt.fitted.splitter] at hq'
    unfold Booster.splitter at hq'
    rcases hm with hm | hm
    · simp [hm] at hq'
    · split at hq'
      · cases hq'
        exact hm.1
      · cases hq'
  · intro i hi r hr
    rcases hm with hm | hm
    · obtain ⟨o, gs, nodes, hV⟩ := hA.trained.view hA.treeAt.fitted.fit
      have hsp := hA.treeAt.fitted.splitter
      unfold Booster.splitter at hsp
      rw [if_neg (by simp [hm])] at hsp
      exact absurd hi (hV.no_onlyMissing hsp i)
    · exact not_reaches_onlyMissing (Tree.fit_wf hA.treeAt.fitted.fit) hm.2 hi

end

end Verif
