import Verif.Props.SquaredLossGain
import Verif.Proofs.GradErr
import Verif.Props.Settled

/-!
# Trees that consist of a single leaf
-/

namespace Verif

open scoped Verif

set_option linter.unusedSectionVars false

section
variable {F D : Type} [Fl F] [Fl D] [FlCast F D]

/-- A tree whose first node is not split has no other nodes, and cleaning up changes nothing. -/
theorem Cert.single {c : GrowCfg F D} {o : SNode F D → Prop} {gs : List (Ghost F D)} {nodes nodes' : List (Node F D)}
    (hcert : Cert c o gs nodes) {g0 : Ghost F D} (hg0 : gs[0]? = some g0) (hno : g0.info = none)
    (hc : cleanUpSplits c.splitter nodes = .ok nodes') :
    nodes' = [g0.sn.asNode c.splitter.params.learningRate] ∧
      (g0.sn.asNode c.splitter.params.learningRate).isLeaf = true := by
  have hnone : ∀ info k, g0.info ≠ some (info, k) := by
    intro info k e
    rw [hno] at e; cases e
  have hlen : nodes.length = 1 := by
    rw [← hcert.len]
    have hpos : 0 < gs.length := (List.getElem?_eq_some_iff.1 hg0).1
    by_contra hne
    obtain ⟨g1, hg1⟩ : ∃ g1, gs[1]? = some g1 := ⟨_, List.getElem?_eq_getElem (by omega)⟩
    obtain ⟨gi, info, k, e1, e2, e3, e4⟩ := hcert.parent 1 g1 hg1 (by omega)
    obtain ⟨kids, hS⟩ := hcert.split _ gi info k e1 e2
    have := hS.later
    have h0 : g1.parent = 0 := by omega
    rw [h0, hg0] at e1
    cases e1
    exact hnone _ _ e2
  obtain ⟨hn, _⟩ := hcert.leaf 0 g0 hg0 hno
  have hnodes : nodes = [g0.sn.asNode c.splitter.params.learningRate] := by
    match nodes, hlen, hn with
    | [n], _, hn => simp only [List.getElem?_cons_zero, Option.some.injEq] at hn; rw [hn]
  have hleaf : (g0.sn.asNode c.splitter.params.learningRate).isLeaf = true := (hcert.num 0 g0 hg0).2
  refine ⟨?_, hleaf⟩
  rw [hnodes] at hc
  unfold cleanUpSplits at hc
  split at hc
  · injection hc with e; exact e.symm
  · split at hc
    · simp only [List.length_singleton, updateAverage, idx, List.getElem?_cons_zero, Res.ofOption_some, Res.ok_bind,
        hleaf, if_true] at hc
      injection hc with e; exact e.symm
    · injection hc with e; exact e.symm

end

section
variable {K : Type} [Field K] [LinearOrder K] [IsStrictOrderedRing K] {m32 m64 : Fmt K}
  [m32.Exact] [m64.Exact]
variable {S : Sorter} {X : Matrix (FX m64)} {w : List K} {nbins : Nat} {missing : FX m64}
  {gv hv : Nat → K} {c : GrowCfg (FX m32) (FX m64)} {sm : SampleMethod} {rows : List Nat}
  {t : Tree (FX m32) (FX m64)} {l1 l2 mds lr : K}

theorem stepK_zero {l1 l2 mds g h : K} (hm : 0 ≤ mds) (hg : |g| ≤ l1) : stepK l1 l2 mds g h = 0 := by
  have hs : softG l1 g = 0 := by
    unfold softG
    obtain ⟨a, b⟩ := abs_le.1 hg
    split
    · rename_i e; rw [e] at a b; linarith
    · rw [if_neg (not_lt.2 b), if_neg (not_lt.2 a)]
  unfold stepK
  simp only [hs, zero_div, neg_zero, abs_zero]
  rw [if_neg (fun e => not_lt.2 hm e.2)]

theorem score_zero (l2 G H : K) : score l2 G H 0 = 0 := by unfold score; ring

/-- A tree whose gradients are outweighed by the l1 penalty is a single leaf of value 0. -/
theorem tree_zero_of_l1 (h : TrainedOn S X w nbins missing gv hv c sm rows)
    (hf : Tree.fit c sm rows = .ok t) (hP : PlainParams c hv rows l1 l2 mds lr) (hmds : 0 ≤ mds)
    (hgam : ((0 : FX m32) ≤ᶠ c.splitter.params.gamma) = true)
    (hl1 : (rows.map fun r => |gv r|).sum ≤ l1) : t.IsZero := by
  obtain ⟨o, gs, nodes, hV⟩ := h.view hf
  obtain ⟨g0, hg0, hrows, nn, hists, hsn⟩ := hV.root
  have hroot : |rowSum gv rows| ≤ l1 := (rowSum_abs gv rows).trans hl1
  have hcw : ∀ (a : SplitArgs (FX m32)) (G H : K), a.lower = g0.sn.lowerBound → a.upper = g0.sn.upperBound →
      0 < H → |G| ≤ l1 → ValIn (· = 0) (c.splitter.params.cw a (FX.fin G) (FX.fin H)) := by
    intro a G H h1 h2 h3 h4
    have := hP.l2_nonneg
    simp only [SplitParams.cw, hP.l1_eq, hP.l2_eq, hP.mds_eq, h1, h2]
    exact constrainedWeight_in (B := (· = 0)) (by linarith) (stepK_zero hmds h4) (.inl (by rw [hsn]; rfl))
      (.inl (by rw [hsn]; rfl)) _
  have hw0 : g0.sn.weightValue = FX.fin 0 := by
    rw [hsn]
    show Verif.weight _ _ _ _ _ = _
    have hr : 0 < rowSum hv rows + l2 := hP.root
    rw [hP.l1_eq, hP.l2_eq, hP.mds_eq, weight_fin hr.ne', stepK_zero hmds hroot]
  have hno : g0.info = none := by
    cases hinfo : g0.info with
    | none => rfl
    | some x =>
    exfalso
    obtain ⟨n0, hn0, _, hleaf⟩ := hV.cert.nodeOf hg0
    have hl0 : n0.isLeaf = false := by
      cases e : n0.isLeaf with
      | false => rfl
      | true => rw [hleaf.1 e] at hinfo; cases hinfo
    obtain ⟨g, info, k, kids, hI⟩ := hV.cert.internal (.refl _) hn0 hl0
    have hgg := hI.ghost
    rw [hg0] at hgg
    injection hgg with hgg
    subst hgg
    obtain ⟨gl, gr, x1, x2, x3, x4, _⟩ := hI.sides
    obtain ⟨a, lg, lh, rg, rh, mg, mh, clg, clh, crg, crh, hE⟩ := hV.evalFacts h hP.hess hI
    obtain ⟨x, hpos, kl, kr, himp, hbr⟩ := hI.gains rfl x1 x2
    obtain ⟨ki, kb⟩ := hI.rowSum_kids (fun r => |gv r|) x1 x2
    obtain ⟨ki', kb'⟩ := hI.rowSum_kids gv x1 x2
    rw [hrows] at ki kb ki' kb'
    have sl := hV.sums _ _ x1
    have sr := hV.sums _ _ x2
    have nn : ∀ rs : List Nat, 0 ≤ rowSum (fun r => |gv r|) rs := rowSum_nonneg fun r => abs_nonneg _
    have el : rowSum gv gl.rows = clg := by
      have := sl.grad
      rw [x3.grad, hE.lgrad] at this
      exact (FX.fin.inj this).symm
    have er : rowSum gv gr.rows = crg := by
      have := sr.grad
      rw [x4.grad, hE.rgrad] at this
      exact (FX.fin.inj this).symm
    have hl1' : rowSum (fun r => |gv r|) rows ≤ l1 := hl1
    have hab : |clg| ≤ l1 ∧ |crg| ≤ l1 := by
      rw [← el, ← er]
      have a1 := rowSum_abs gv gl.rows
      have a2 := rowSum_abs gv gr.rows
      have a3 := nn gl.rows
      have a4 := nn gr.rows
      cases hs : c.splitter with
      | imputer p =>
        have := ki p hs
        constructor <;> linarith
      | branch p =>
        obtain ⟨gm, _, y1, _⟩ := hbr p hs
        have := kb p hs gm y1
        have := nn gm.rows
        constructor <;> linarith
    have hcl := hcw a clg clh hE.lower hE.upper hE.lpos hab.1
    have hcr := hcw a crg crh hE.lower hE.upper hE.rpos hab.2
    have hkids : info.leftNode.weight = FX.fin 0 ∧ info.rightNode.weight = FX.fin 0 := by
      cases hs : c.splitter with
      | imputer p =>
        obtain ⟨d1, d2⟩ := hE.imputer p hs
        rw [hs] at hcl hcr
        obtain ⟨_, e1, rfl⟩ := hcl
        obtain ⟨_, e2, rfl⟩ := hcr
        exact ⟨d1.trans e1, d2.trans e2⟩
      | branch p =>
        obtain ⟨rfl, rfl, rfl, rfl, d5, _⟩ := hE.branch p hs
        rw [hs] at hcl hcr
        unfold branchChildWeights at d5
        rw [hE.lg_eq, hE.lh_eq, hE.rg_eq, hE.rh_eq] at d5
        simp only at d5
        have key : ∀ z : FX m32, ValIn (· = 0) z → z = FX.fin 0 := by
          rintro z ⟨_, e, rfl⟩; exact e
        split at d5
        · simp only [Res.bind_eq_ok, Res.ok.injEq, Prod.mk.injEq] at d5
          obtain ⟨_, _, _, _, d6, d7⟩ := d5
          rw [← d6, ← d7]
          have := boundToParent_in (B := (· = 0)) (p := a.parentWeight) ⟨0, by rw [hE.parent, hw0], rfl⟩ hcl hcr
          exact ⟨key _ this.1, key _ this.2⟩
        · simp only [Res.ok.injEq, Prod.mk.injEq] at d5
          obtain ⟨d6, d7⟩ := d5
          rw [← d6, ← d7]
          exact ⟨key _ hcl, key _ hcr⟩
    have hx : x = FX.fin 0 := by
      cases hs : c.splitter with
      | imputer p => exact himp p hs
      | branch p =>
        obtain ⟨gm, mi, y1, y2, y3, y4, y5, y6⟩ := hbr p hs
        obtain ⟨c1, c2, c3, c4, _, mi', d1, d2, _, _, d5, d6⟩ := hE.branch p hs
        have emi : mi = mi' := by
          rcases y2 with u | u <;> rcases d1 with u' | u' <;> rw [u] at u' <;> injection u'
        subst emi
        have smm := hV.sums _ _ y1
        have hl2 : p.l2 = FX.fin l2 := by have := hP.l2_eq; rw [hs] at this; exact this
        obtain ⟨gm', isLeaf, minfo, feature, rows', j, k', z1, z2, z3, z4, _, z5, z6, z7, _⟩ := hI.missingSide hs
        rw [y1] at z4; cases z4
        have := missingChild_eq z1 y2
        subst this
        have em : rowSum gv gm.rows = mg := by
          have := smm.grad
          rw [z6.grad] at this
          have e : (if p.missingNodeTreatment = .assignToParent then
            { minfo with weight := g0.sn.weightValue } else minfo).grad = FX.fin mg := by
            split <;> exact d6
          rw [e] at this
          exact (FX.fin.inj this).symm
        have hmi : minfo.weight = FX.fin 0 := by
          rw [d2, hkids.1, hkids.2]
          unfold branchMissingWeight
          rw [hE.lg_eq, hE.lh_eq, hE.rg_eq, hE.rh_eq, hE.mg_eq, hE.mh_eq]
          rw [hs] at hcw
          have key : ∀ z : FX m32, ValIn (· = 0) z → z = FX.fin 0 := by
            rintro z ⟨_, e, rfl⟩; exact e
          have p1 := hE.lpos
          have p2 := hE.rpos
          have p3 := hE.mh_nonneg
          rw [c2] at p1
          rw [c4] at p2
          have havg : ((FX.fin 0 : FX m32) * FX.fin rh + FX.fin 0 * FX.fin lh) / (FX.fin rh + FX.fin lh) = FX.fin 0 := by
            simp only [FX.fin_mul, FX.fin_add, zero_mul, add_zero]
            rw [FX.fin_div _ _ (by linarith : (0 : K) < rh + lh).ne']
            simp
          split
          · simp only [FX.fin_add]
            refine key _ (hcw a _ _ hE.lower hE.upper (by linarith) ?_)
            have := kb' p hs gm y1
            rw [el, er, em, c1, c3] at this
            rw [show mg + lg + rg = rowSum gv rows by rw [this]; ring]
            exact hroot
          · exact havg
          · exact havg
          · split
            · rw [hE.parent, hw0]
            · rename_i hc
              have hmh : mh ≠ 0 := by
                rintro rfl
                apply hc
                simp [FX.zero_def, FX.feq_fin]
              refine key _ (hcw a _ _ hE.lower hE.upper (lt_of_le_of_ne p3 (Ne.symm hmh)) ?_)
              have := kb p hs gm y1
              have a1 := rowSum_abs gv gm.rows
              have a3 := nn gl.rows
              have a4 := nn gr.rows
              rw [← em]
              linarith
        rw [y4, y5, hl2, smm.grad, smm.hess, hmi, gainGivenWeight_fin, score_zero]
    have hkid : ∀ (gk : Ghost (FX m32) (FX m64)) (G H : K), gk.sn.gradientSum = FX.fin G → gk.sn.hessianSum = FX.fin H →
        gk.sn.weightValue = FX.fin 0 →
        KidGain c.splitter.params gk.sn.gradientSum gk.sn.hessianSum gk.sn.weightValue gk.sn.gainValue →
        gk.sn.gainValue = .ninf ∨ gk.sn.gainValue = FX.fin 0 := by
      intro gk G H e1 e2 e3 e4
      unfold KidGain at e4
      rw [e1, e2, e3, hP.l2_eq, gainGivenWeight_fin, score_zero] at e4
      exact e4.symm
    have kl' := hkid gl _ _ sl.grad sl.hess (x3.weight.trans hkids.1) kl
    have kr' := hkid gr _ _ sr.grad sr.hess (x4.weight.trans hkids.2) kr
    have hr : 0 < rowSum hv rows + l2 := hP.root
    obtain ⟨γ, hγ, hγ'⟩ := gain_nonneg (m32 := m32) (G := rowSum gv rows) hr
    have hgv : g0.sn.gainValue = FX.fin γ := by
      rw [hsn, ← hγ', ← hP.l2_eq]; rfl
    rw [hx, hgv] at hpos
    generalize c.splitter.params.gamma = z at hgam hpos
    rcases kl' with e1 | e1 <;> rcases kr' with e2 | e2 <;> rw [e1, e2] at hpos
    · cases z <;> cases hpos
    · cases z <;> cases hpos
    · cases z <;> cases hpos
    · cases z with
      | nan => cases hgam
      | ninf => cases hgam
      | pinf => simp only [FX.fin_add, FX.fin_sub] at hpos; cases hpos
      | fin vz =>
        have hz' : (0 : K) ≤ vz := of_decide_eq_true hgam
        simp only [FX.fin_add, FX.fin_sub] at hpos
        have : (0 : K) < 0 + 0 + 0 - γ - vz := of_decide_eq_true hpos
        linarith
  obtain ⟨e1, e2⟩ := hV.cert.single hg0 hno hV.clean
  refine ⟨_, e1, e2, ?_⟩
  show g0.sn.weightValue * c.splitter.params.learningRate = 0
  rw [hw0, hP.lr_eq, FX.fin_mul, zero_mul]; rfl

theorem sum_rows_le {f : Nat → K} (hf : ∀ r, 0 ≤ f r) {rows : List Nat} {n : Nat} (hn : rows.Nodup)
    (hlt : ∀ r ∈ rows, r < n) : (rows.map f).sum ≤ ((List.range n).map f).sum := by
  obtain ⟨l, hp, hs⟩ := List.subperm_of_subset hn (fun r hr => List.mem_range.2 (hlt r hr))
  rw [← (hp.map f).sum_eq]
  refine (hs.map f).sum_le_sum fun x hx => ?_
  obtain ⟨r, _, rfl⟩ := List.mem_map.1 hx
  exact hf r

/-- A tree is a single leaf if its sum of hessians is less than twice `min_leaf_weight`. -/
theorem tree_single_of_weight (h : TrainedOn S X w nbins missing gv hv c sm rows)
    (hf : Tree.fit c sm rows = .ok t) (hP : PlainParams c hv rows l1 l2 mds lr) {q : K}
    (hq : c.splitter.params.minLeafWeight = FX.fin q) (hlt : (rows.map hv).sum < 2 * q) :
    ∃ n, t.nodes = [n] ∧ n.isLeaf = true := by
  obtain ⟨o, gs, nodes, hV⟩ := h.view hf
  obtain ⟨g0, hg0, hrows, nn, hists, hsn⟩ := hV.root
  have hno : g0.info = none := by
    cases hinfo : g0.info with
    | none => rfl
    | some x =>
    exfalso
    obtain ⟨n0, hn0, _, hleaf⟩ := hV.cert.nodeOf hg0
    have hl0 : n0.isLeaf = false := by
      cases e : n0.isLeaf with
      | false => rfl
      | true => rw [hleaf.1 e] at hinfo; cases hinfo
    obtain ⟨g, info, k, kids, hI⟩ := hV.cert.internal (.refl _) hn0 hl0
    have hgg := hI.ghost
    rw [hg0] at hgg
    injection hgg with hgg
    subst hgg
    obtain ⟨gl, gr, x1, x2, x3, x4, _⟩ := hI.sides
    obtain ⟨_, _, _, _, _, _, ⟨_, kl⟩, _, kr⟩ := hI.kidGain rfl x1 x2
    obtain ⟨ki, kb⟩ := hI.rowSum_kids hv x1 x2
    obtain ⟨_, _, _, _, _, hbr⟩ := hI.gains rfl x1 x2
    rw [hrows] at ki kb
    rw [(hV.sums _ _ x1).hess, hq, FX.lt_fin, decide_eq_false_iff_not, not_lt] at kl
    rw [(hV.sums _ _ x2).hess, hq, FX.lt_fin, decide_eq_false_iff_not, not_lt] at kr
    have hlt' : rowSum hv rows < 2 * q := hlt
    cases hs : c.splitter with
    | imputer p =>
      have := ki p hs
      linarith
    | branch p =>
      obtain ⟨gm, _, y1, _⟩ := hbr p hs
      have := kb p hs gm y1
      have := hP.sum_nonneg (hV.sub _ _ y1)
      linarith
  obtain ⟨e1, e2⟩ := hV.cert.single hg0 hno hV.clean
  exact ⟨_, e1, e2⟩

/-- The part of the sample weight of a row that its hessian can reach. -/
def ObjectiveType.curvature : ObjectiveType → K
  | .squaredLoss => 1
  | .logLoss => 1 / 4

theorem hessOf_le {o : ObjectiveType} (he : o = .logLoss → ExpPos m64) (y p w : K) (hw : 0 ≤ w) :
    (FlCast.down (o.hessOf (FX.fin y : FX m64) (FX.fin p) (FX.fin w)) : FX m32).val ≤ o.curvature * w := by
  cases o with
  | squaredLoss =>
    simp only [ObjectiveType.hessOf, squaredLossHess, FX.down_fin, FX.val, ObjectiveType.curvature]
    linarith
  | logLoss =>
    obtain ⟨s, hs, _⟩ := logistic_fin (he rfl) p
    simp only [ObjectiveType.hessOf, logLossHess, hs, FX.one_def, FX.fin_sub, FX.fin_mul, FX.down_fin, FX.val,
      ObjectiveType.curvature]
    refine mul_le_mul_of_nonneg_right ?_ hw
    nlinarith [sq_nonneg (s - 1 / 2)]

/-- The value of a tree that is a single leaf. -/
theorem single_predict {t : Tree (FX m32) (FX m64)} {n : Node (FX m32) (FX m64)} (h1 : t.nodes = [n])
    (h2 : n.isLeaf = true) (Z : Matrix (FX m64)) (missing : FX m64) :
    t.predict Z missing = .ok (List.replicate Z.rows (FlCast.up n.weightValue)) := by
  have : ∀ i, t.predictLeaf Z i missing = .ok n := by
    intro i
    unfold Tree.predictLeaf
    rw [h1]
    simp [leafFrom, idx, h2]
  unfold Tree.predict Matrix.index
  generalize hl : List.range Z.rows = l
  have hlen : Z.rows = l.length := by rw [← hl]; simp
  rw [hlen]
  clear hl hlen
  induction l with
  | nil => rfl
  | cons i l ih =>
    rw [Res.mapM'_cons, this i, ih]
    rfl

theorem addPreds_replicate (n : Nat) (x y : FX m64) :
    addPreds (List.replicate n x) (List.replicate n y) = List.replicate n (x + y) := by
  induction n with
  | zero => rfl
  | succ n ih => rw [List.replicate_succ, List.replicate_succ, addPreds, ih, List.replicate_succ]

/-- A sum of trees that are single leaves is constant. -/
theorem predictFold_single {missing : FX m64} : ∀ {ts : List (Tree (FX m32) (FX m64))} (x : FX m64),
    (∀ t ∈ ts, ∃ n, t.nodes = [n] ∧ n.isLeaf = true) →
    ∃ v, ∀ Z : Matrix (FX m64), predictFold missing Z (List.replicate Z.rows x) ts = .ok (List.replicate Z.rows v)
  | [], x, _ => ⟨x, fun _ => rfl⟩
  | t :: ts, x, h => by
    obtain ⟨n, h1, h2⟩ := h t (by simp)
    obtain ⟨v, hv⟩ := predictFold_single (missing := missing) (ts := ts) (x + FlCast.up n.weightValue)
      fun t' ht => h t' (List.mem_cons_of_mem _ ht)
    refine ⟨v, fun Z => ?_⟩
    unfold predictFold
    rw [Res.foldM'_cons, single_predict h1 h2, Res.ok_bind, addPreds_replicate]
    exact hv Z

end

end Verif
