import Verif.Props.StepLimit
import Verif.Props.BoundParent
import Mathlib.Algebra.BigOperators.Group.Finset.Basic
import Mathlib.Algebra.Order.BigOperators.Group.Finset

/-!
# C52: boosting does not increase the squared training loss
-/

namespace Verif

open scoped Verif

set_option linter.unusedSectionVars false

section
variable {K : Type} [Field K] [LinearOrder K] [IsStrictOrderedRing K] {m32 m64 : Fmt K}
  [m32.Exact] [m64.Exact]

/-- A regularised step goes against the gradient and is not too long. -/
theorem IsStep.descent {l1 l2 mds G H x : K} (h : IsStep l1 l2 mds G H x) (hH : 0 ≤ H) (h2 : 0 ≤ l2)
    (h1 : 0 ≤ l1) : G * x + H * x ^ 2 ≤ 0 := by
  -- against shorter steps
  have key : ∀ t : K, 0 ≤ t → t < 1 → G * x + (H + l2) * x ^ 2 * (1 + t) / 2 + l1 * |x| ≤ 0 := by
    intro t ht ht1
    have hall : StepAllowed mds (t * x) := by
      rcases h.allowed with e | e
      · exact .inl e
      · refine .inr ?_
        rw [abs_mul, abs_of_nonneg ht]
        have := abs_nonneg x
        nlinarith
    have hle := h.least (t * x) hall
    unfold regObj at hle
    rw [abs_mul, abs_of_nonneg ht] at hle
    have h3 : (1 - t) * (G * x + (H + l2) * x ^ 2 * (1 + t) / 2 + l1 * |x|) ≤ 0 := by nlinarith
    have h4 : 0 < 1 - t := by linarith
    by_contra hc
    rw [not_le] at hc
    have := mul_pos h4 hc
    linarith
  have hA : 0 ≤ (H + l2) * x ^ 2 := by positivity
  have hl : 0 ≤ l1 * |x| := mul_nonneg h1 (abs_nonneg x)
  have hlim : G * x + (H + l2) * x ^ 2 + l1 * |x| ≤ 0 := by
    by_contra hc
    rw [not_le] at hc
    rcases hA.eq_or_lt with h0 | h0
    · have := key 0 le_rfl one_pos
      rw [← h0] at this hc
      linarith
    · set A := (H + l2) * x ^ 2 with hAdef
      set B := G * x + l1 * |x| with hB
      set e := min 1 ((A + B) / A) with he
      have hAB : 0 < A + B := by linarith
      have e1 : 0 < e := lt_min one_pos (div_pos hAB h0)
      have e2 : e ≤ 1 := min_le_left _ _
      have e3 : A * e ≤ A + B := by
        have : e ≤ (A + B) / A := min_le_right _ _
        calc A * e ≤ A * ((A + B) / A) := mul_le_mul_of_nonneg_left this h0.le
          _ = A + B := by field_simp
      have := key (1 - e) (by linarith) (by linarith)
      nlinarith
  have : 0 ≤ l2 * x ^ 2 := by positivity
  nlinarith

/-- The second order loss of a leaf whose value is the step times the learning rate, with the second order
term taken `κ` times. -/
theorem IsStep.loss_mul {l1 l2 mds G H x lr κ : K} (h : IsStep l1 l2 mds G H x) (hH : 0 ≤ H) (h2 : 0 ≤ l2)
    (h1 : 0 ≤ l1) (hlr : 0 ≤ lr) (hlr2 : κ * lr ≤ 2) :
    2 * (G * (x * lr)) + κ * H * (x * lr) ^ 2 ≤ 0 := by
  have hd := h.descent hH h2 h1
  have hx : 0 ≤ H * x ^ 2 := by positivity
  have e : 2 * (G * (x * lr)) + κ * H * (x * lr) ^ 2 =
      2 * lr * (G * x + H * x ^ 2) - lr * (2 - κ * lr) * (H * x ^ 2) := by ring
  rw [e]
  have a1 : 0 ≤ lr * (2 - κ * lr) * (H * x ^ 2) := mul_nonneg (mul_nonneg hlr (by linarith)) hx
  have a2 : 2 * lr * (G * x + H * x ^ 2) ≤ 0 :=
    mul_nonpos_of_nonneg_of_nonpos (by linarith) hd
  linarith

variable {S : Sorter} {X : Matrix (FX m64)} {w : List K} {nbins : Nat} {missing : FX m64}
  {gv hv : Nat → K} {c : GrowCfg (FX m32) (FX m64)} {sm : SampleMethod} {rows : List Nat}
  {t : Tree (FX m32) (FX m64)}

open Classical in
/-- A sum over rows that are led to nodes can be taken node by node. -/
theorem sum_by_node (rows : List Nat) (hn : rows.Nodup) (F : Nat → K) (N : Nat) (leaf : Nat → Nat)
    (hlt : ∀ r ∈ rows, leaf r < N)
    (h : ∀ i < N, ((rows.filter fun r => decide (leaf r = i)).map F).sum ≤ 0) : (rows.map F).sum ≤ 0 := by
  have e1 : (rows.map F).sum = ∑ r ∈ rows.toFinset, F r := (List.sum_toFinset F hn).symm
  rw [e1, ← Finset.sum_fiberwise_of_maps_to (t := Finset.range N) (g := leaf)
    (fun r hr => Finset.mem_range.2 (hlt r (List.mem_toFinset.1 hr)))]
  refine Finset.sum_nonpos fun i hi => ?_
  have e2 : rows.toFinset.filter (fun r => leaf r = i) =
      (rows.filter fun r => decide (leaf r = i)).toFinset := by
    ext r
    simp
  rw [e2, List.sum_toFinset F (hn.filter _)]
  exact h i (Finset.mem_range.1 hi)

/-- The rows of a tree without constraints move towards a smaller second order loss, unless rows are led
to a node reserved for missing values. -/
theorem tree_loss_mul (h : TrainedOn S X w nbins missing gv hv c sm rows)
    (hf : Tree.fit c sm rows = .ok t) {l1 l2 mds lr κ : K} (hP : PlainParams c hv rows l1 l2 mds lr)
    (hl1 : 0 ≤ l1) (hmds : 0 ≤ mds) (hlr : 0 ≤ lr) (hlr2 : κ * lr ≤ 2)
    (hno : ∀ f, noConstraint (c.splitter.params.getConstraint f) = true)
    (hforce : ∀ p, c.splitter = .branch p → p.forceChildrenToBoundParent = false)
    (hmiss : ∀ i, OnlyMissing t.nodes i → ∀ r ∈ rows, ¬ Reaches t.nodes (X.entry r) missing i)
    {v : Nat → K}
    (hv' : ∀ r ∈ rows, ∀ l, t.predictLeaf X r missing = .ok l → l.weightValue = FX.fin (v r)) :
    (rows.map fun r => 2 * (gv r * v r) + κ * hv r * v r ^ 2).sum ≤ 0 := by
  obtain ⟨o, gs, nodes, hV⟩ := h.view hf
  choose leaf n hn1 hn2 hn3 hn4 using hV.toLeaf
  classical
  refine sum_by_node rows h.nodup _ t.nodes.length (fun r => if hr : r ∈ rows then leaf r hr else 0) ?_ ?_
  · intro r hr
    simp only [hr, dif_pos]
    exact (List.getElem?_eq_some_iff.1 (hn1 r hr)).1
  · intro i hi
    have hni := List.getElem?_eq_getElem hi
    by_cases hemp : (rows.filter fun r => decide ((if hr : r ∈ rows then leaf r hr else 0) = i)) = []
    · rw [hemp]; simp
    · obtain ⟨r0, hr0⟩ := List.exists_mem_of_ne_nil _ hemp
      rw [List.mem_filter] at hr0
      obtain ⟨hr0, hr0'⟩ := hr0
      simp only [hr0, dif_pos, decide_eq_true_eq] at hr0'
      have hleaf : (t.nodes[i]).isLeaf = true := by
        have := hn1 r0 hr0
        rw [hr0', hni] at this
        rw [Option.some.inj this]
        exact hn2 r0 hr0
      have hreach : Reaches t.nodes (X.entry r0) missing i := hr0' ▸ hn3 r0 hr0
      have hom : ¬ OnlyMissing t.nodes i := fun hc => hmiss i hc r0 hr0 hreach
      have hrows : (rows.filter fun r => decide ((if hr : r ∈ rows then leaf r hr else 0) = i)) =
          rowsAt t X missing rows i := by
        unfold rowsAt
        refine List.filter_congr fun r hr => ?_
        simp only [hr, dif_pos, decide_eq_decide]
        constructor
        · intro e
          rw [← e]
          exact hn3 r hr
        · intro hc
          have h1 := predictLeaf_iff.1 ((hV.leaf_iff hr hni hleaf).2 hc)
          have h2 := h1.unique (hn4 r hr)
          have hw := Tree.fit_wf hf
          rw [← hw.num _ _ (hn1 r hr), ← hw.num _ _ hni, h2]
      rw [hrows]
      have hsub : ∀ r ∈ rowsAt t X missing rows i, r ∈ rows := fun r hr => (List.mem_filter.1 hr).1
      have hnn : 0 ≤ ((rowsAt t X missing rows i).map hv).sum := List.sum_nonneg (by
        intro x hx
        obtain ⟨r, hr, rfl⟩ := List.mem_map.1 hx
        exact hP.hess r (hsub r hr))
      have hpos : 0 < ((rowsAt t X missing rows i).map hv).sum + l2 := by
        have h2 := hP.l2_nonneg
        rcases Nat.eq_zero_or_pos i with rfl | hi0
        · have : rowsAt t X missing rows 0 = rows := by
            unfold rowsAt
            refine List.filter_eq_self.2 fun r _ => ?_
            simp only [decide_eq_true_eq]
            exact .root
          rw [this]
          exact hP.root
        · obtain ⟨g, _, hg, _⟩ := hV.node hni
          obtain ⟨j, nj, gj, info, k, kids, _, hj, hjl, hI, hside⟩ := hV.main hg hi0 hom
          obtain ⟨a, lg, lh, rg, rh, mg, mh, clg, clh, crg, crh, hE⟩ := hV.evalFacts h hP.hess hI
          rw [hV.rowSum h.nodup hg]
          have hs := (hV.sums i g hg).hess
          rcases hside with ⟨_, hh⟩ | ⟨_, hh⟩
          · have e := hs.symm.trans (hh.cover.trans hE.lcover)
            rw [FX.fin.inj e]
            linarith [hE.lpos]
          · have e := hs.symm.trans (hh.cover.trans hE.rcover)
            rw [FX.fin.inj e]
            linarith [hE.rpos]
      obtain ⟨x, hx, hstep⟩ := C02_value h hf hP.l1_eq hP.l2_eq hP.mds_eq hP.lr_eq hl1 hmds hno hforce hni hom
        (fun _ => hleaf) hpos
      have hval : ∀ r ∈ rowsAt t X missing rows i, v r = x * lr := by
        intro r hr
        have hr' := hsub r hr
        have hre : Reaches t.nodes (X.entry r) missing i := by
          have := (List.mem_filter.1 hr).2
          simpa using this
        have := hv' r hr' _ ((hV.leaf_iff hr' hni hleaf).2 hre)
        rw [hx] at this
        exact (FX.fin.inj this).symm
      have e : ((rowsAt t X missing rows i).map fun r => 2 * (gv r * v r) + κ * hv r * v r ^ 2) =
          (rowsAt t X missing rows i).map fun r => 2 * (gv r * (x * lr)) + κ * hv r * (x * lr) ^ 2 :=
        List.map_congr_left fun r hr => by rw [hval r hr]
      rw [e]
      have e2 : ∀ rs : List Nat, (rs.map fun r => 2 * (gv r * (x * lr)) + κ * hv r * (x * lr) ^ 2).sum =
          2 * ((rs.map gv).sum * (x * lr)) + κ * (rs.map hv).sum * (x * lr) ^ 2 := by
        intro rs
        induction rs with
        | nil => simp
        | cons a rs ih =>
          simp only [List.map_cons, List.sum_cons, ih]
          ring
      rw [e2]
      exact hstep.loss_mul hnn hP.l2_nonneg hl1 hlr hlr2


/-- With imputed missing values no node is reserved for missing values. -/
theorem FitView.no_onlyMissing {o : SNode (FX m32) (FX m64) → Prop} {gs : List (Ghost (FX m32) (FX m64))}
    {nodes : List (Node (FX m32) (FX m64))} (hV : FitView X missing gv hv c rows t o gs nodes)
    {p : SplitParams (FX m32)} (hp : c.splitter = .imputer p) (j : Nat) : ¬ OnlyMissing t.nodes j := by
  rintro ⟨i, n, hn, hl, rfl, h1, h2⟩
  obtain ⟨g, info, k, kids, hI⟩ := hV.cert.internal hV.shape hn hl
  have e1 := hI.left
  have e2 := hI.right
  have e3 := hI.missing
  rw [hp] at e1 e2 e3
  simp only [Splitter.links] at e1 e2 e3
  rw [e1, e3] at h1
  rw [e2, e3] at h2
  cases hc : info.missingNode <;> simp [hc] at h1 h2

/-- Data without missing values reaches no node reserved for missing values. -/
theorem not_reaches_onlyMissing (hW : t.Wf) {r j : Nat} (hm : ∀ v ∈ X.data, ¬ IsMissing missing v)
    (hj : OnlyMissing t.nodes j) : ¬ Reaches t.nodes (X.entry r) missing j := by
  obtain ⟨i, n, hn, hl, hmn, h1, h2⟩ := hj
  have hpos : 0 < j := lt_of_le_of_lt (Nat.zero_le i) (hW.child i n j hn ⟨hl, .inr (.inr hmn.symm)⟩).1
  intro hr
  cases hr with
  | root => exact absurd hpos (lt_irrefl 0)
  | @step i' n' v hr' hn' hl' hv' _ =>
    have hnm : ¬ IsMissing missing v := hm v (List.mem_of_getElem? hv')
    have hcf : n'.childFor missing v = n'.leftChild ∨ n'.childFor missing v = n'.rightChild := by
      unfold Node.childFor
      rw [if_neg hnm]
      split
      · exact .inl rfl
      · exact .inr rfl
    have : i' = i := hW.parent_unique i' i n' n _ hn' hn
      ⟨hl', by rcases hcf with e | e <;> simp [e]⟩ ⟨hl, .inr (.inr hmn.symm)⟩
    subst this
    rw [hn] at hn'; cases hn'
    rcases hcf with e | e
    · exact h1 e.symm
    · exact h2 e.symm

/-- Weighted squared error of predictions `p`. -/
def sqLoss (y w p : List K) : K :=
  ((List.range y.length).map fun i => w.getD i 0 * (y.getD i 0 - p.getD i 0) ^ 2).sum

/-- One round of boosting without sampling: the tree is trained on all rows, on the gradients and hessians
at the predictions `p` of the earlier trees, and adds the value `v i` of its leaf to the prediction of
row `i`. -/
theorem booster_round {R : Type} {env : Env R (FX m32) (FX m64)} {b b' : Booster (FX m32) (FX m64)}
    {y : List K} {ev : Option (List (EvalSet (FX m64)))} {l1 l2 mds lr : K}
    (h : PlainFit env b X y w ev b' l1 l2 mds lr) (hs : b.sampleMethod = .none)
    {k : Nat} (hk : k < b'.trees.length) :
    ∃ (p p' : List K) (binned : BinnedData (FX m64)) (cfg : GrowCfg (FX m32) (FX m64)) (v : Nat → K),
      ({ b' with predictionIteration := some k }).predict X = .ok (p.map FX.fin) ∧
      ({ b' with predictionIteration := some (k + 1) }).predict X = .ok (p'.map FX.fin) ∧
      PlainTree env b X y w l1 l2 mds lr binned p k b'.trees[k] cfg (List.range y.length) ∧
      (∀ i < y.length, p'.getD i 0 = p.getD i 0 + v i) ∧
      (∀ r ∈ List.range y.length, ∀ l, b'.trees[k].predictLeaf X r b.missing = .ok l →
        l.weightValue = FX.fin (v r)) ∧
      ∀ i < y.length,
        rowVals cfg.train.grad i = (FlCast.down (b.objectiveType.gradOf (FX.fin (y.getD i 0) : FX m64)
          (FX.fin (p.getD i 0)) (FX.fin (w.getD i 0))) : FX m32).val ∧
        rowVals cfg.train.hess i = (FlCast.down (b.objectiveType.hessOf (FX.fin (y.getD i 0) : FX m64)
          (FX.fin (p.getD i 0)) (FX.fin (w.getD i 0))) : FX m32).val := by
  obtain ⟨base, binned, st, stop, N, hT⟩ := Booster.fit_trace h.fit
  have hkN : k < N := by rw [← hT.length]; exact hk
  obtain ⟨p, hp⟩ := h.yhat hT k (by omega)
  obtain ⟨p', hp'⟩ := h.yhat hT (k + 1) (by omega)
  have ht := List.getElem?_eq_getElem hk
  obtain ⟨cfg, rows, hA⟩ := h.tree_of hT ht hp
  have hf := hT.final
  unfold Booster.SameParams at hf
  have hmis : b'.missing = b.missing := by rw [hf]
  have hpre : ∀ j, j ≤ N → ({ b' with predictionIteration := some j }).predict X = .ok (st j).yhat := by
    intro j hj
    refine predict_prefix (n := y.length) h.ylen (base := base) (by rw [hf]) (by rw [hT.length]; omega) ?_
    have := hT.yhat j hj
    rw [hmis]
    simpa using this
  -- the rows and their gradients
  obtain ⟨r1, r2, hsam⟩ := hA.treeAt.sample
  rw [hs] at hsam
  simp only [sampleIndex, Res.ok.injEq, Prod.mk.injEq] at hsam
  obtain ⟨e1, e2, e3, _⟩ := hsam
  have hrows : rows = List.range y.length := by rw [← e1, h.ylen]; rfl
  have hgh : ∀ i < y.length,
      rowVals cfg.train.grad i = (FlCast.down (b.objectiveType.gradOf (FX.fin (y.getD i 0) : FX m64)
        (FX.fin (p.getD i 0)) (FX.fin (w.getD i 0))) : FX m32).val ∧
      rowVals cfg.train.hess i = (FlCast.down (b.objectiveType.hessOf (FX.fin (y.getD i 0) : FX m64)
        (FX.fin (p.getD i 0)) (FX.fin (w.getD i 0))) : FX m32).val := by
    intro i hi
    have hip : i < p.length := by rw [hA.len, ← h.ylen]; exact hi
    have hiw : i < w.length := by rw [h.wlen, ← h.ylen]; exact hi
    obtain ⟨g1, g2⟩ := calcGradHess_get (F := FX m32) b.objectiveType (y.map FX.fin : List (FX m64))
      (p.map FX.fin) (w.map FX.fin) i (yi := FX.fin y[i]) (pi := FX.fin p[i]) (wi := FX.fin w[i])
      (by simp [hi]) (by simp [hip]) (by simp [hiw])
    rw [e2] at g1
    rw [e3] at g2
    unfold rowVals
    rw [g1, g2]
    simp [hi, hip, hiw]
  -- the new predictions
  have h1 := hT.yhat k (by omega)
  have h2 := hT.yhat (k + 1) (by omega)
  rw [List.take_add_one, ht, predictFold, Res.foldM'_append] at h2
  rw [predictFold] at h1
  rw [h1, Res.ok_bind] at h2
  simp only [Option.toList_some, Res.foldM'_cons, Res.foldM', Res.bind_eq_ok, Res.ok.injEq] at h2
  obtain ⟨a, ⟨qs, h3, rfl⟩, h4⟩ := h2
  rw [hp, hp'] at h4
  obtain ⟨qlen, hq⟩ := Tree.predict_eq_ok.1 h3
  obtain ⟨qv, hqv⟩ := AllFin.eq_map (predict_fin hA.values h3)
  have hlen : qv.length = y.length := by
    rw [← List.length_map (f := (FX.fin : K → FX m64)), ← hqv, qlen, h.ylen]
  have hadd : ∀ i < y.length, p'.getD i 0 = p.getD i 0 + qv.getD i 0 := by
    intro i hi
    have hip : i < p.length := by rw [hA.len, ← h.ylen]; exact hi
    have := congrArg (fun l => l[i]?) h4
    simp only [getElem?_addPreds, hqv, List.getElem?_map, List.getElem?_eq_getElem hip,
      List.getElem?_eq_getElem (hlen ▸ hi : i < qv.length), Option.map_some, FX.fin_add] at this
    have hlt : i < p'.length := by
      by_contra hc
      rw [List.getElem?_eq_none (not_lt.1 hc)] at this
      cases this
    rw [List.getElem?_eq_getElem hlt] at this
    simp only [Option.map_some, Option.some.injEq, FX.fin.injEq] at this
    simp [hlt, hip, hlen, hi, ← this]
  rw [hrows] at hA
  refine ⟨p, p', binned, cfg, fun i => qv.getD i 0, by rw [hpre k (by omega), hp],
    by rw [hpre (k + 1) (by omega), hp'], hA, hadd, ?_, hgh⟩
  intro r hr l hl
  rw [List.mem_range] at hr
  have := hq r (FX.fin (qv.getD r 0)) (by rw [hqv]; simp [hlen, hr])
  obtain ⟨l', b1, b2⟩ := this
  have e := (predictLeaf_iff.1 hl).unique b1
  subst e
  obtain ⟨z, hz⟩ := hA.values l (Route.mem b1).1
  rw [hz, FX.up_fin] at b2
  rw [hz]
  exact congrArg FX.fin (FX.fin.inj b2).symm

/-- If every tree lowers the second order loss, boosting does not increase the squared training error. -/
theorem booster_loss {R : Type} {env : Env R (FX m32) (FX m64)} {b b' : Booster (FX m32) (FX m64)}
    {y : List K} {ev : Option (List (EvalSet (FX m64)))} {l1 l2 mds lr : K}
    (h : PlainFit env b X y w ev b' l1 l2 mds lr) (ho : b.objectiveType = .squaredLoss)
    (hs : b.sampleMethod = .none)
    (htree : ∀ binned p k t cfg rows, PlainTree env b X y w l1 l2 mds lr binned p k t cfg rows → ∀ v : Nat → K,
      (∀ r ∈ rows, ∀ l, t.predictLeaf X r b.missing = .ok l → l.weightValue = FX.fin (v r)) →
      (rows.map fun r => 2 * (rowVals cfg.train.grad r * v r) + rowVals cfg.train.hess r * v r ^ 2).sum ≤ 0)
    {k : Nat} (hk : k < b'.trees.length) :
    ∃ p p' : List K, ({ b' with predictionIteration := some k }).predict X = .ok (p.map FX.fin) ∧
      ({ b' with predictionIteration := some (k + 1) }).predict X = .ok (p'.map FX.fin) ∧
      sqLoss y w p' ≤ sqLoss y w p := by
  obtain ⟨p, p', binned, cfg, v, h1, h2, hA, hadd, hval, hgh⟩ := booster_round h hs hk
  refine ⟨p, p', h1, h2, ?_⟩
  have hloss := htree _ _ _ _ _ _ hA v hval
  have key : sqLoss y w p' = sqLoss y w p + ((List.range y.length).map fun r =>
      2 * (rowVals cfg.train.grad r * v r) + rowVals cfg.train.hess r * v r ^ 2).sum := by
    unfold sqLoss
    rw [← List.sum_map_add]
    congr 1
    refine List.map_congr_left fun i hi => ?_
    have hi' := List.mem_range.1 hi
    obtain ⟨a1, a2⟩ := hgh i hi'
    rw [a1, a2, hadd i hi', ho]
    simp only [ObjectiveType.gradOf, ObjectiveType.hessOf, squaredLossGrad, squaredLossHess, FX.fin_sub,
      FX.fin_mul, FX.down_fin, FX.val]
    ring
  rw [key]
  linarith

/-- A tree of such a booster lowers the second order loss. -/
theorem PlainTree.loss_mul {R : Type} {env : Env R (FX m32) (FX m64)} {b : Booster (FX m32) (FX m64)}
    {y p : List K} {l1 l2 mds lr κ : K} {binned : BinnedData (FX m64)} {k : Nat}
    (hA : PlainTree env b X y w l1 l2 mds lr binned p k t c rows) (hc : b.monotoneConstraints = none)
    (hl1 : 0 ≤ l1) (hmds : 0 ≤ mds) (hlr : 0 ≤ lr) (hlr2 : κ * lr ≤ 2)
    (hm : b.createMissingBranch = false ∨
      (b.forceChildrenToBoundParent = false ∧ ∀ v ∈ X.data, ¬ IsMissing b.missing v))
    {v : Nat → K} (hv' : ∀ r ∈ rows, ∀ l, t.predictLeaf X r b.missing = .ok l → l.weightValue = FX.fin (v r)) :
    (rows.map fun r => 2 * (rowVals c.train.grad r * v r) + κ * rowVals c.train.hess r * v r ^ 2).sum ≤ 0 := by
  refine tree_loss_mul hA.trained hA.treeAt.fitted.fit hA.params hl1 hmds hlr hlr2 ?_ ?_ ?_ hv'
  · intro f
    rw [hA.treeAt.fitted.splitter]
    have : ∀ s : Splitter (FX m32), s.params.constraintsMap = [] → noConstraint (s.params.getConstraint f) = true := by
      intro s hs'
      simp [SplitParams.getConstraint, hs', noConstraint]
    apply this
    unfold Booster.splitter
    split <;> simp [Splitter.params, Booster.constraintsMap, hc]
  · intro q hq'
    rw [hA.treeAt.fitted.splitter] at hq'
    unfold Booster.splitter at hq'
    rcases hm with hm | hm
    · simp [hm] at hq'
    · split at hq'
      · cases hq'
        exact hm.1
      · cases hq'
  · intro i hi r hr
    rcases hm with hm | hm
    · obtain ⟨o, gs, nodes, hV⟩ := hA.trained.view hA.treeAt.fitted.fit
      have hsp := hA.treeAt.fitted.splitter
      unfold Booster.splitter at hsp
      rw [if_neg (by simp [hm])] at hsp
      exact absurd hi (hV.no_onlyMissing hsp i)
    · exact not_reaches_onlyMissing (Tree.fit_wf hA.treeAt.fitted.fit) hm.2 hi

/-- **C52** (partial).  With SquaredLoss, no sampling, no monotone constraints and a learning rate between
0 and 2, the weighted squared training error of the predictions with the first `k + 1` trees is no larger
than that with the first `k` trees, provided missing values are imputed, or there are none and children
are not forced to bound their parent.  Full claim: without this proviso; it is false, see
`C52_counterexample`. -/
theorem C52_loss_partial {R : Type} {env : Env R (FX m32) (FX m64)} {b b' : Booster (FX m32) (FX m64)}
    {y : List K} {ev : Option (List (EvalSet (FX m64)))} {l1 l2 mds lr : K}
    (h : PlainFit env b X y w ev b' l1 l2 mds lr) (ho : b.objectiveType = .squaredLoss)
    (hs : b.sampleMethod = .none) (hc : b.monotoneConstraints = none)
    (hl1 : 0 ≤ l1) (hmds : 0 ≤ mds) (hlr : 0 ≤ lr) (hlr2 : lr ≤ 2)
    (hm : b.createMissingBranch = false ∨
      (b.forceChildrenToBoundParent = false ∧ ∀ v ∈ X.data, ¬ IsMissing b.missing v))
    {k : Nat} (hk : k < b'.trees.length) :
    ∃ p p' : List K, ({ b' with predictionIteration := some k }).predict X = .ok (p.map FX.fin) ∧
      ({ b' with predictionIteration := some (k + 1) }).predict X = .ok (p'.map FX.fin) ∧
      sqLoss y w p' ≤ sqLoss y w p := by
  refine booster_loss h ho hs (fun binned p k t cfg rows hA v hv' => ?_) hk
  have := hA.loss_mul (κ := 1) hc hl1 hmds hlr (by linarith) hm hv'
  simpa only [one_mul] using this

end

/-- Missing values get a branch of their own; the learning rate is 2. -/
def exFast : Booster Q Q :=
  { exForcedNone with maxDepth := 1, forceChildrenToBoundParent := false, learningRate := q 2 }

/-- **C52** is false with a missing branch: the two missing rows have gradients 1 and -1, which sum to 0,
and therefore get the value of their parent, while the learning rate of 2 leaves the error of the other rows
unchanged.  The squared error rises from 51 to 797/9. -/
theorem C52_counterexample : ∃ b', PlainFit exEnv exFast boundZ [1, 4, 4, 4, 1, -1]
      (List.replicate 6 (1 : ℚ)) none b' 0 0 0 2 ∧ exFast.objectiveType = .squaredLoss ∧
      exFast.sampleMethod = .none ∧ exFast.monotoneConstraints = none ∧
    ∃ p p' : List ℚ, ({ b' with predictionIteration := some 0 }).predict boundZ = .ok (p.map FX.fin) ∧
      ({ b' with predictionIteration := some 1 }).predict boundZ = .ok (p'.map FX.fin) ∧
      sqLoss [1, 4, 4, 4, 1, -1] (List.replicate 6 (1 : ℚ)) p <
        sqLoss [1, 4, 4, 4, 1, -1] (List.replicate 6 (1 : ℚ)) p' := by
  have : (match exFast.fit exEnv boundZ ([1, 4, 4, 4, 1, -1].map q) (List.replicate 6 (q 1)) none with
    | .ok (b', .ok ()) =>
      decide (({ b' with predictionIteration := some 0 }).predict boundZ =
          .ok (([0, 0, 0, 0, 0, 0] : List ℚ).map FX.fin) ∧
        ({ b' with predictionIteration := some 1 }).predict boundZ =
          .ok (([2, 8, 8, 8, 13 / 3, 13 / 3] : List ℚ).map FX.fin))
    | _ => false) = true := by decide +kernel
  split at this
  · rename_i b' h
    obtain ⟨h1, h2⟩ := of_decide_eq_true this
    exact ⟨b', boundPlain rfl rfl rfl rfl le_rfl rfl rfl rfl rfl ⟨_, rfl⟩ rfl rfl rfl rfl (by decide +kernel) h,
      rfl, rfl, rfl, _, _, h1, h2, by decide +kernel⟩
  · cases this

/-- Missing values are imputed, with `l1 = 1/4`, `l2 = 1` and a learning rate of 3/2; two iterations. -/
def exSlow : Booster Q Q :=
  { exMixed with monotoneConstraints := none, iterations := 2, l1 := q (1 / 4), l2 := q 1
                 learningRate := q (3 / 2) }

/-- The hypotheses of `C52_loss_partial` are met, and the loss falls with each tree. -/
example : ∃ b', PlainFit exEnv exSlow boundZ [1, 4, 4, 4, 1, -1]
      (List.replicate 6 (1 : ℚ)) none b' (1 / 4) 1 0 (3 / 2) ∧ exSlow.createMissingBranch = false ∧
      b'.trees.length = 2 ∧
    ∃ p0 p1 p2 : List ℚ, ({ b' with predictionIteration := some 0 }).predict boundZ = .ok (p0.map FX.fin) ∧
      ({ b' with predictionIteration := some 1 }).predict boundZ = .ok (p1.map FX.fin) ∧
      ({ b' with predictionIteration := some 2 }).predict boundZ = .ok (p2.map FX.fin) ∧
      sqLoss [1, 4, 4, 4, 1, -1] (List.replicate 6 (1 : ℚ)) p1 <
        sqLoss [1, 4, 4, 4, 1, -1] (List.replicate 6 (1 : ℚ)) p0 ∧
      sqLoss [1, 4, 4, 4, 1, -1] (List.replicate 6 (1 : ℚ)) p2 <
        sqLoss [1, 4, 4, 4, 1, -1] (List.replicate 6 (1 : ℚ)) p1 := by
  have : (match exSlow.fit exEnv boundZ ([1, 4, 4, 4, 1, -1].map q) (List.replicate 6 (q 1)) none with
    | .ok (b', .ok ()) => decide (b'.trees.length = 2 ∧
        ({ b' with predictionIteration := some 0 }).predict boundZ =
          .ok (([0, 0, 0, 0, 0, 0] : List ℚ).map FX.fin) ∧
        ({ b' with predictionIteration := some 1 }).predict boundZ =
          .ok (([9 / 16, 141 / 32, 141 / 32, 141 / 32, 0, 0] : List ℚ).map FX.fin) ∧
        ({ b' with predictionIteration := some 2 }).predict boundZ =
          .ok (([45 / 64, 1035 / 256, 1035 / 256, 1035 / 256, 0, 0] : List ℚ).map FX.fin))
    | _ => false) = true := by decide +kernel
  split at this
  · rename_i b' h
    obtain ⟨h0, h1, h2, h3⟩ := of_decide_eq_true this
    exact ⟨b', boundPlain rfl rfl rfl rfl (by norm_num) rfl rfl rfl rfl ⟨_, rfl⟩ rfl rfl rfl rfl
      (by decide +kernel) h, rfl, h0, _, _, _, h1, h2, h3, by decide +kernel, by decide +kernel⟩
  · cases this

end Verif
