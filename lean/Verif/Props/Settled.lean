import Verif.Proofs.ZeroGrad
import Verif.Props.Boosting
import Verif.Props.Objective
import Verif.Props.MonotoneFloat

/-!
# C118: a model that fits the training data exactly does not change any more

Without gradients no split has a positive gain, so the tree is a single leaf of value zero; the predictions stay what
they are and so does the next gradient.  In particular a booster fitted to constant targets predicts this constant.
-/

namespace Verif

open scoped Verif

set_option linter.unusedSectionVars false

section
variable {K : Type} [Field K] [LinearOrder K] [IsStrictOrderedRing K] {m32 m64 : Fmt K}

/-- The tree is a single leaf of value zero. -/
def Tree.IsZero (t : Tree (FX m32) (FX m64)) : Prop :=
  ∃ n, t.nodes = [n] ∧ n.isLeaf = true ∧ n.weightValue = 0

/-- Parameters that penalise and limit, as they are meant to be. -/
structure Regular (p : SplitParams (FX m32)) : Prop where
  l1 : (p.l1 <ᶠ 0) = false
  l2 : ((0 : FX m32) <ᶠ p.l2) = true
  l2_repr : p.l2.InFormat
  mds : (p.maxDeltaStep <ᶠ 0) = false
  gamma : (p.gamma <ᶠ 0) = false
  mlw : ((0 : FX m32) ≤ᶠ p.minLeafWeight) = true
  lr : ∃ r, p.learningRate = FX.fin r

/-- Zero or more, not NaN. -/
def FX.Pos0 {m : Fmt K} (x : FX m) : Prop := ((0 : FX m) ≤ᶠ x) = true

theorem FX.pos0_fin {m : Fmt K} {q : K} : (FX.fin q : FX m).Pos0 ↔ 0 ≤ q := by
  unfold FX.Pos0; rw [FX.zero_def, FX.le_fin, decide_eq_true_eq]

theorem FX.Pos0.cases {m : Fmt K} {x : FX m} (h : x.Pos0) : (∃ q, 0 ≤ q ∧ x = FX.fin q) ∨ x = FX.pinf := by
  cases x with
  | nan => cases h
  | ninf => cases h
  | pinf => exact .inr rfl
  | fin q => exact .inl ⟨q, FX.pos0_fin.1 h, rfl⟩

theorem FX.Pos0.nn {m : Fmt K} {x : FX m} (h : x.Pos0) : x.NN := by
  rcases h.cases with ⟨q, hq, rfl⟩ | rfl
  · exact FX.nn_fin.2 hq
  · exact FX.nn_pinf

theorem FX.Pos0.up {m m' : Fmt K} {x : FX m} (h : x.Pos0) : (up x : FX m').Pos0 := by
  rcases h.cases with ⟨q, hq, rfl⟩ | rfl
  · exact FX.pos0_fin.2 hq
  · rfl

theorem FX.pos0_rd {m : Fmt K} [m.Rounds] {q : K} (h : 0 ≤ q) : (FX.rd q : FX m).Pos0 := by
  rcases rd_nonneg (m := m) h with ⟨y, hy, e⟩ | e
  · rw [e]; exact FX.pos0_fin.2 hy
  · rw [e]; rfl

theorem FX.Pos0.down {m m' : Fmt K} [m.Rounds] {x : FX m'} (h : x.Pos0) : (down x : FX m).Pos0 := by
  rcases h.cases with ⟨q, hq, rfl⟩ | rfl
  · exact FX.pos0_rd hq
  · rfl

theorem FX.Pos0.add {m : Fmt K} [m.Rounds] {x y : FX m} (hx : x.Pos0) (hy : y.Pos0) : (x + y).Pos0 := by
  rcases hx.cases with ⟨q, hq, rfl⟩ | rfl <;> rcases hy.cases with ⟨r, hr, rfl⟩ | rfl
  · exact FX.pos0_rd (by linarith)
  · rfl
  · rfl
  · rfl

/-- The sum of a number that is not negative and a positive one is positive. -/
theorem FX.pos0_add_pos {m : Fmt K} [hm : m.Rounds] {h l : FX m} (hh : h.Pos0) (hl : ((0 : FX m) <ᶠ l) = true)
    (hr : l.InFormat) : (∃ q, 0 < q ∧ h + l = FX.fin q) ∨ h + l = FX.pinf := by
  cases l with
  | nan => cases hl
  | ninf => cases hl
  | pinf => rcases hh.cases with ⟨q, _, rfl⟩ | rfl <;> exact .inr rfl
  | fin b =>
    rw [FX.zero_def, FX.lt_fin, decide_eq_true_eq] at hl
    rcases hh.cases with ⟨q, hq, rfl⟩ | rfl
    · have := hm.mono (show b ≤ q + b by linarith)
      rw [hr b rfl] at this
      change (∃ q', 0 < q' ∧ FX.rd (q + b) = FX.fin q') ∨ FX.rd (q + b) = FX.pinf
      unfold FX.rd
      cases e : m.rnd (q + b) with
      | fin y => rw [e] at this; exact .inl ⟨y, lt_of_lt_of_le hl this, rfl⟩
      | pinf => exact .inr rfl
      | ninf => rw [e] at this; exact this.elim
    · exact .inr rfl

variable [h32 : m32.Rounds] [h64 : m64.Rounds]

/-- The value of a leaf without gradient. -/
theorem weight_zero {p : SplitParams (FX m32)} (hp : Regular p) {h : FX m32} (hh : h.Pos0) :
    weight p.l1 p.l2 p.maxDeltaStep 0 h = 0 := by
  have e1 : l1Regularization (0 : FX m32) p.l1 = 0 := by
    unfold l1Regularization
    have a := hp.l1
    generalize p.l1 = l at a
    cases l with
    | nan => rfl
    | ninf => cases a
    | pinf => rfl
    | fin q =>
      rw [FX.zero_def, FX.lt_fin, decide_eq_false_iff_not, not_lt] at a
      rw [FX.zero_def, FX.feq_fin, FX.lt_fin, FX.neg_fin, FX.lt_fin]
      simp only [decide_eq_true_eq]
      split
      · rfl
      · rw [if_neg (by linarith), if_neg (by linarith)]
  have e2 : (0 : FX m32) / (h + p.l2) = 0 := by
    rcases FX.pos0_add_pos hh hp.l2 hp.l2_repr with ⟨q, hq, e⟩ | e
    · rw [e]
      change FX.div (FX.fin 0) (FX.fin q) = _
      simp only [FX.div, if_neg hq.ne', zero_div]
      exact FX.rd_zero
    · rw [e]; rfl
  have e3 : -(0 : FX m32) = 0 := by rw [FX.zero_def, FX.neg_fin, neg_zero]
  unfold weight
  simp only [e1, e2, e3]
  have a := hp.mds
  have e4 : Fl.abs (0 : FX m32) = 0 := by rw [FX.zero_def, FX.abs_fin, abs_zero]
  rw [e4, a, Bool.and_false, if_neg (by simp)]

/-- A tree fitted to zero gradients is a single leaf; its value is that of the sums of gradients (zero) and
hessians. -/
theorem fit_zero_grad {c : GrowCfg (FX m32) (FX m64)} (hl2 : c.splitter.params.l2.NN)
    (hgamma : (c.splitter.params.gamma <ᶠ 0) = false)
    (hmlw : ((0 : FX m32) ≤ᶠ c.splitter.params.minLeafWeight) = true) {sm : SampleMethod}
    {rows : List Nat} {t : Tree (FX m32) (FX m64)} (hg : ∀ x ∈ c.train.grad, x = 0)
    (hh : ∀ x ∈ c.train.hess, ((0 : FX m32) ≤ᶠ x) = true) (h : Tree.fit c sm rows = .ok t) :
    ∃ n hs, t.nodes = [n] ∧ n.isLeaf = true ∧ n.weightValue = weight c.splitter.params.l1 c.splitter.params.l2
      c.splitter.params.maxDeltaStep 0 hs * c.splitter.params.learningRate ∧ hs.Pos0 ∧
      ((∀ x ∈ c.train.hess, x = 0) → hs = 0) := by
  obtain ⟨g, hs, sort, hists, nodes, gs, nl, h1, h2, hc, hcert, ⟨g0, hg0, hsn, _⟩, _⟩ := Tree.fit_cert h
  have hup0 : (up (0 : FX m32) : FX m64) = 0 := rfl
  have hzero : (∀ x ∈ c.train.hess, x = 0) → hs = 0 := by
    intro hz
    obtain ⟨a, b, rfl, rfl, _, rfl⟩ := rootSums_all (P := fun x : FX m64 => x = 0) (Q := fun x : FX m64 => x = 0) rfl
      rfl (by rintro _ _ rfl rfl; exact FX.zero_add_zero) (by rintro _ _ rfl rfl; exact FX.zero_add_zero)
      (fun x hx => by rw [hg x hx]; rfl) (fun x hx => by rw [hz x hx]; rfl) h1
    exact FX.down_zero
  obtain ⟨a, b, rfl, hb, rfl, rfl⟩ := rootSums_all (P := fun x : FX m64 => x = 0) (Q := FX.Pos0) rfl
    (FX.pos0_fin.2 le_rfl) (by rintro _ _ rfl rfl; exact FX.zero_add_zero) (fun _ _ h h' => h.add h')
    (fun x hx => by rw [hg x hx]; rfl) (fun x hx => FX.Pos0.up (hh x hx)) h1
  have hbins := histogramMatrix_all (P := fun x : FX m64 => x = 0) (Q := FX.Pos0) h2 rfl
    (FX.pos0_fin.2 le_rfl) (by rintro _ rfl x hx; rw [hg x hx, hup0]; exact FX.zero_add_zero)
    (fun _ h x hx => h.add (FX.Pos0.up (hh x hx)))
  have hnone : ∀ info k, g0.info ≠ some (info, k) := by
    intro info k e
    obtain ⟨kids, hS⟩ := hcert.split 0 g0 info k hg0 e
    have := bestSplit_none_of_zero (m := m32) (s := c.splitter) hl2 hgamma hmlw (node := g0.sn)
      (by rw [hsn]; exact FX.down_zero)
      (by
        rw [hsn]
        show (gain c.splitter.params.l2 (down (0 : FX m64)) (down b)).NN
        rw [FX.down_zero]
        unfold gain
        have : (0 : FX m32) * 0 = 0 := by
          change FX.rd ((0 : K) * 0) = _
          rw [mul_zero]; exact FX.rd_zero
        rw [this]
        rcases FX.zero_div (down b + c.splitter.params.l2 : FX m32) with e | e <;> rw [e]
        exacts [FX.NN.zero, FX.nn_nan])
      (by
        rw [hsn]
        intro x hx
        obtain ⟨a', b', rfl, hb', e1, e2⟩ := hbins x hx
        rw [e1, e2]
        exact ⟨FX.down_zero, hb'.nn.down⟩) hS.best
    cases this
  have hnil : g0.info = none := by
    cases e : g0.info with
    | none => rfl
    | some x => exact absurd e (hnone x.1 x.2)
  have hlen : nodes.length = 1 := by
    rw [← hcert.len]
    have hpos : 0 < gs.length := (List.getElem?_eq_some_iff.1 hg0).1
    by_contra hne
    obtain ⟨g1, hg1⟩ : ∃ g1, gs[1]? = some g1 := ⟨_, List.getElem?_eq_getElem (by omega)⟩
    obtain ⟨gi, info, k, e1, e2, e3, e4⟩ := hcert.parent 1 g1 hg1 (by omega)
    obtain ⟨kids, hS⟩ := hcert.split _ gi info k e1 e2
    have := hS.later
    have h0 : g1.parent = 0 := by omega
    rw [h0, hg0] at e1
    cases e1
    exact hnone _ _ e2
  obtain ⟨hn, _⟩ := hcert.leaf 0 g0 hg0 hnil
  have hnodes : nodes = [g0.sn.asNode c.splitter.params.learningRate] := by
    match nodes, hlen, hn with
    | [n], _, hn => simp only [List.getElem?_cons_zero, Option.some.injEq] at hn; rw [hn]
  have hleaf : (g0.sn.asNode c.splitter.params.learningRate).isLeaf = true := (hcert.num 0 g0 hg0).2
  have hval : (g0.sn.asNode c.splitter.params.learningRate).weightValue = weight c.splitter.params.l1
      c.splitter.params.l2 c.splitter.params.maxDeltaStep 0 (down b) * c.splitter.params.learningRate := by
    show g0.sn.weightValue * c.splitter.params.learningRate = _
    rw [hsn]
    show weight _ _ _ (down (0 : FX m64)) (down b) * _ = _
    rw [FX.down_zero]
  refine ⟨_, _, ?_, hleaf, hval, hb.down, hzero⟩
  rw [hnodes] at hc
  unfold cleanUpSplits at hc
  split at hc
  · injection hc with e; exact e.symm
  · split at hc
    · simp only [List.length_singleton, updateAverage, idx, List.getElem?_cons_zero, Res.ofOption_some, Res.ok_bind,
        hleaf, if_true] at hc
      injection hc with e; exact e.symm
    · injection hc with e; exact e.symm

/-- **C118** (trees).  In floating point arithmetic too, a tree fitted to zero gradients is a single leaf of value
zero. -/
theorem C118_tree {c : GrowCfg (FX m32) (FX m64)} (hp : Regular c.splitter.params) {sm : SampleMethod}
    {rows : List Nat} {t : Tree (FX m32) (FX m64)} (hg : ∀ x ∈ c.train.grad, x = 0)
    (hh : ∀ x ∈ c.train.hess, ((0 : FX m32) ≤ᶠ x) = true) (h : Tree.fit c sm rows = .ok t) :
    ∃ n, t.nodes = [n] ∧ n.isLeaf = true ∧ n.weightValue = 0 := by
  have hl2 : c.splitter.params.l2.NN := by
    have := hp.l2
    generalize c.splitter.params.l2 = l at this
    cases l with
    | nan => exact FX.nn_nan
    | pinf => exact FX.nn_pinf
    | ninf => cases this
    | fin q => rw [FX.zero_def, FX.lt_fin, decide_eq_true_eq] at this; exact FX.nn_fin.2 this.le
  obtain ⟨n, hs, h1, h2, h3, h4, _⟩ := fit_zero_grad hl2 hp.gamma hp.mlw hg hh h
  obtain ⟨r, hr⟩ := hp.lr
  refine ⟨n, h1, h2, ?_⟩
  rw [h3, weight_zero hp h4, hr]
  change FX.rd ((0 : K) * r) = _
  rw [zero_mul]; exact FX.rd_zero

/-! ### Predictions -/

theorem FX.add_zero_inFormat {m : Fmt K} {x : FX m} (h : x.InFormat) : x + 0 = x := by
  cases x with
  | nan => rfl
  | ninf => rfl
  | pinf => rfl
  | fin q =>
    change FX.rd (q + 0) = _
    rw [add_zero, FX.rd, h q rfl]; rfl

theorem FX.add_inFormat {m : Fmt K} [hm : m.Rounds] (x y : FX m) : (x + y).InFormat := by
  change (FX.add x y).InFormat
  cases x <;> cases y <;> first | exact FX.rd_inFormat _ | (intro z h; cases h)

theorem addPreds_inFormat {m : Fmt K} [m.Rounds] : ∀ (a p : List (FX m)), (∀ x ∈ a, x.InFormat) →
    ∀ x ∈ addPreds a p, x.InFormat
  | [], _, _ => by simp [addPreds]
  | _ :: _, [], h => by simpa [addPreds] using h
  | a :: as, p :: ps, h => by
    intro x hx
    rw [addPreds] at hx
    rcases List.mem_cons.1 hx with rfl | hx
    · exact FX.add_inFormat _ _
    · exact addPreds_inFormat as ps (fun x hx => h x (by simp [hx])) x hx

theorem addPreds_zero {m : Fmt K} : ∀ (a : List (FX m)) (n : Nat), (∀ x ∈ a, x.InFormat) →
    addPreds a (List.replicate n 0) = a
  | [], n, _ => by cases n <;> rfl
  | _ :: _, 0, _ => rfl
  | a :: as, n + 1, h => by
    rw [List.replicate_succ, addPreds, FX.add_zero_inFormat (h a (by simp)),
      addPreds_zero as n fun x hx => h x (by simp [hx])]

theorem Tree.IsZero.predict {t : Tree (FX m32) (FX m64)} (h : t.IsZero) (Z : Matrix (FX m64)) (missing : FX m64) :
    t.predict Z missing = .ok (List.replicate Z.rows 0) := by
  obtain ⟨n, h1, h2, h3⟩ := h
  have : ∀ i, t.predictLeaf Z i missing = .ok n := by
    intro i
    unfold Tree.predictLeaf
    rw [h1]
    simp [leafFrom, idx, h2]
  unfold Tree.predict Matrix.index
  generalize hl : List.range Z.rows = l
  have hlen : Z.rows = l.length := by rw [← hl]; simp
  rw [hlen]
  clear hl hlen
  induction l with
  | nil => rfl
  | cons i l ih =>
    rw [Res.mapM'_cons, this i, ih]
    simp only [Res.ok_bind, h3]
    rfl

theorem predictFold_zero {missing : FX m64} {Z : Matrix (FX m64)} : ∀ {ts : List (Tree (FX m32) (FX m64))}
    {acc : List (FX m64)}, (∀ t ∈ ts, t.IsZero) → (∀ x ∈ acc, x.InFormat) →
    predictFold missing Z acc ts = .ok acc
  | [], _, _, _ => rfl
  | t :: ts, acc, h, ha => by
    unfold predictFold
    rw [Res.foldM'_cons, (h t (by simp)).predict, Res.ok_bind, addPreds_zero acc _ ha]
    exact predictFold_zero (fun t ht => h t (by simp [ht])) ha

theorem predictFold_inFormat {missing : FX m64} {Z : Matrix (FX m64)} : ∀ {ts : List (Tree (FX m32) (FX m64))}
    {acc out : List (FX m64)}, (∀ x ∈ acc, x.InFormat) → predictFold missing Z acc ts = .ok out →
    ∀ x ∈ out, x.InFormat
  | [], acc, out, ha, h => by
    simp only [predictFold, Res.foldM', Res.ok.injEq] at h; subst h; exact ha
  | t :: ts, acc, out, ha, h => by
    unfold predictFold at h
    rw [Res.foldM'_cons, Res.bind_eq_ok] at h
    obtain ⟨acc', h1, h2⟩ := h
    rw [Res.bind_eq_ok] at h1
    obtain ⟨p, _, h1⟩ := h1
    injection h1 with h1
    subst h1
    exact predictFold_inFormat (addPreds_inFormat _ _ ha) h2

theorem predictFold_append {missing : FX m64} {Z : Matrix (FX m64)} (ts ts' : List (Tree (FX m32) (FX m64)))
    (acc : List (FX m64)) : predictFold missing Z acc (ts ++ ts') =
      (predictFold missing Z acc ts >>= fun a => predictFold missing Z a ts') := by
  induction ts generalizing acc with
  | nil => rfl
  | cons t ts ih =>
    unfold predictFold at ih ⊢
    rw [List.cons_append, Res.foldM'_cons, Res.foldM'_cons]
    cases t.predict Z missing with
    | panic => rfl
    | diverge => rfl
    | ok p => exact ih _

/-- The predictions of the first `k` trees. -/
theorem predict_firstTrees {b : Booster (FX m32) (FX m64)} {k : Nat} (hk : k ≤ b.trees.length) (Z : Matrix (FX m64)) :
    ({ b with predictionIteration := some k } : Booster (FX m32) (FX m64)).predict Z =
      predictFold b.missing Z (List.replicate Z.rows b.baseScore) (b.trees.take k) := by
  unfold Booster.predict Booster.predictionTrees predictFold
  simp only [Option.getD_some]
  rw [if_pos hk]
  rfl

theorem sampleIndex_same {R : Type} {S : Sorter} {rng : Rng R (FX m32) (FX m64)} {sm : SampleMethod} {ss : FX m32} {tr or : FX m64}
    {r r' : R} {ix rows : List Nat} {g h g' h' : List (FX m32)} (hs : sm ≠ .goss)
    (e : sampleIndex S rng sm ss tr or r ix g h = .ok (rows, g', h', r')) : g' = g ∧ h' = h := by
  cases sm with
  | none =>
    simp only [sampleIndex, Res.ok.injEq, Prod.mk.injEq] at e
    exact ⟨e.2.1.symm, e.2.2.1.symm⟩
  | random =>
    simp only [sampleIndex, Res.ok.injEq, Prod.mk.injEq] at e
    exact ⟨e.2.1.symm, e.2.2.1.symm⟩
  | goss => exact absurd rfl hs

variable {R : Type} {env : Env R (FX m32) (FX m64)} {b b' : Booster (FX m32) (FX m64)} {X : Matrix (FX m64)}
  {y w : List (FX m64)} {ev : Option (List (EvalSet (FX m64)))}

/-- **C118** (boosters).  Fit a booster with any objective and without GOSS sampling, in floating point arithmetic.
If at the predictions of the first `j` trees all gradients are zero and no hessian is negative, then all later trees
are single leaves of value zero, and for all data the predictions of `j` trees are those of more trees. -/
theorem C118_settled (h : b.fit env X y w ev = .ok (b', .ok ())) (hp : Regular b.splitter.params)
    (hgoss : b.sampleMethod ≠ .goss) (hy : y.length = X.rows) (hbase : b'.baseScore.InFormat) {j : Nat}
    (hj : j ≤ b'.trees.length) {p : List (FX m64)}
    (hpred : ({ b' with predictionIteration := some j } : Booster (FX m32) (FX m64)).predict X = .ok p)
    (hg : ∀ x ∈ (calcGradHess (F := FX m32) b.objectiveType y p w).1, x = 0)
    (hh : ∀ x ∈ (calcGradHess (F := FX m32) b.objectiveType y p w).2, ((0 : FX m32) ≤ᶠ x) = true) :
    (∀ k t, j ≤ k → b'.trees[k]? = some t → t.IsZero) ∧
    ∀ k, j ≤ k → k ≤ b'.trees.length → ∀ Z : Matrix (FX m64),
      ({ b' with predictionIteration := some k } : Booster (FX m32) (FX m64)).predict Z =
        ({ b' with predictionIteration := some j } : Booster (FX m32) (FX m64)).predict Z := by
  obtain ⟨base, binned, st, stop, N, hT⟩ := Booster.fit_trace h
  have hN := hT.length
  have hsame := hT.same N le_rfl
  rw [hT.last] at hsame
  have hbs : b'.baseScore = base := by unfold Booster.SameParams at hsame; rw [hsame]
  have hmiss : b'.missing = b.missing := by unfold Booster.SameParams at hsame; rw [hsame]
  rw [predict_firstTrees hj] at hpred
  have hstart : ∀ Z : Matrix (FX m64), ∀ x ∈ List.replicate Z.rows b'.baseScore, x.InFormat := by
    intro Z x hx
    rw [List.eq_of_mem_replicate hx]; exact hbase
  have hyhat : ∀ k, k ≤ N → predictFold b'.missing X (List.replicate X.rows b'.baseScore) (b'.trees.take k) =
      .ok (st k).yhat := by
    intro k hk
    rw [hmiss, hbs, ← hy]; exact hT.yhat k hk
  have hin : ∀ x ∈ p, x.InFormat := predictFold_inFormat (hstart X) hpred
  have step : ∀ k, k < N → (st k).yhat = p → ∀ t, b'.trees[k]? = some t → t.IsZero := by
    intro k hk e t ht
    obtain ⟨cfg, rows, hA⟩ := hT.treeAt ht
    obtain ⟨r1, r2, hs⟩ := hA.sample
    obtain ⟨e1, e2⟩ := sampleIndex_same hgoss hs
    rw [e] at e1 e2
    exact C118_tree (by rw [hA.fitted.splitter]; exact hp) (by rw [e1]; exact hg) (by rw [e2]; exact hh) hA.fitted.fit
  have hall : ∀ k, j ≤ k → k ≤ N → (st k).yhat = p := by
    intro k hjk
    induction k, hjk using Nat.le_induction with
    | base =>
      intro hk
      have := hyhat j hk
      rw [hpred] at this
      injection this with this
      exact this.symm
    | succ k hjk ih =>
      intro hk
      have e := ih (by omega)
      have hlt : k < b'.trees.length := by omega
      have ht : b'.trees[k]? = some b'.trees[k] := List.getElem?_eq_getElem hlt
      have hz := step k (by omega) e _ ht
      have a1 := hyhat (k + 1) hk
      rw [List.take_add_one, ht, Option.toList_some, predictFold_append, hyhat k (by omega), Res.ok_bind, e,
        predictFold_zero (by simpa using hz) hin] at a1
      injection a1 with a1
      exact a1.symm
  have hzero : ∀ k t, j ≤ k → b'.trees[k]? = some t → t.IsZero := by
    intro k t hk ht
    have hlt := (List.getElem?_eq_some_iff.1 ht).1
    exact step k (by omega) (hall k hk (by omega)) t ht
  refine ⟨hzero, fun k hk hkN Z => ?_⟩
  rw [predict_firstTrees hkN, predict_firstTrees hj]
  obtain ⟨d, rfl⟩ := Nat.exists_eq_add_of_le hk
  rw [List.take_add, predictFold_append]
  cases e : predictFold b'.missing Z (List.replicate Z.rows b'.baseScore) (b'.trees.take j) with
  | panic => rfl
  | diverge => rfl
  | ok q =>
    rw [Res.ok_bind]
    refine predictFold_zero (fun t ht => ?_) (predictFold_inFormat (hstart Z) e)
    obtain ⟨i, hi⟩ := List.mem_iff_getElem?.1 (List.mem_of_mem_take ht)
    rw [List.getElem?_drop] at hi
    exact hzero _ t (by omega) hi

/-- The gradients of squared loss vanish where the predictions are the targets. -/
theorem squared_settled {p : List (FX m64)} : ∀ {y w : List (FX m64)}, p = y → (∀ x ∈ y, ∃ q, x = FX.fin q) →
    (∀ x ∈ w, ∃ q, 0 ≤ q ∧ x = FX.fin q) →
    (∀ x ∈ (calcGradHess (F := FX m32) .squaredLoss y p w).1, x = 0) ∧
    ∀ x ∈ (calcGradHess (F := FX m32) .squaredLoss y p w).2, ((0 : FX m32) ≤ᶠ x) = true := by
  rintro y w rfl hy hw
  unfold calcGradHess
  simp only [List.unzip_eq_map, List.map_map]
  have key : ∀ t ∈ zip3 p p w, t.1 = t.2.1 ∧ (∃ q, t.1 = FX.fin q) ∧ ∃ q, 0 ≤ q ∧ t.2.2 = FX.fin q := by
    intro t ht
    induction p generalizing w with
    | nil => simp [zip3] at ht
    | cons a p ih =>
      cases w with
      | nil => simp [zip3] at ht
      | cons c w =>
        rw [zip3] at ht
        rcases List.mem_cons.1 ht with rfl | ht
        · exact ⟨rfl, hy a (by simp), hw c (by simp)⟩
        · exact ih (fun x hx => hy x (by simp [hx])) (fun x hx => hw x (by simp [hx])) ht
  constructor
  · intro x hx
    obtain ⟨t, ht, rfl⟩ := List.mem_map.1 hx
    obtain ⟨e1, ⟨a, e2⟩, ⟨c, _, e3⟩⟩ := key t ht
    simp only [Function.comp_apply, squaredLossGrad]
    rw [← e1, e2, e3]
    have e4 : (FX.fin a : FX m64) - FX.fin a = 0 := by
      change FX.rd (a + -a) = _
      rw [add_neg_cancel]; exact FX.rd_zero
    rw [e4]
    have e5 : (0 : FX m64) * FX.fin c = 0 := by
      change FX.rd ((0 : K) * c) = _
      rw [zero_mul]; exact FX.rd_zero
    rw [e5]; exact FX.down_zero
  · intro x hx
    obtain ⟨t, ht, rfl⟩ := List.mem_map.1 hx
    obtain ⟨_, _, ⟨c, hc, e3⟩⟩ := key t ht
    simp only [Function.comp_apply, squaredLossHess]
    rw [e3]
    exact FX.Pos0.down (FX.pos0_fin.2 hc)

/-- **C118** (an exact fit).  With squared loss: if the first `j` trees predict all targets exactly, all later trees
are single leaves of value zero and change no prediction. -/
theorem C118_perfect (h : b.fit env X y w ev = .ok (b', .ok ())) (hp : Regular b.splitter.params)
    (hgoss : b.sampleMethod ≠ .goss) (hobj : b.objectiveType = .squaredLoss) (hy : y.length = X.rows)
    (hyf : ∀ x ∈ y, ∃ q, x = FX.fin q) (hw : ∀ x ∈ w, ∃ q, 0 ≤ q ∧ x = FX.fin q)
    (hbase : b'.baseScore.InFormat) {j : Nat} (hj : j ≤ b'.trees.length)
    (hpred : ({ b' with predictionIteration := some j } : Booster (FX m32) (FX m64)).predict X = .ok y) :
    (∀ k t, j ≤ k → b'.trees[k]? = some t → t.IsZero) ∧
    ∀ k, j ≤ k → k ≤ b'.trees.length → ∀ Z : Matrix (FX m64),
      ({ b' with predictionIteration := some k } : Booster (FX m32) (FX m64)).predict Z =
        ({ b' with predictionIteration := some j } : Booster (FX m32) (FX m64)).predict Z := by
  obtain ⟨h1, h2⟩ := squared_settled (m32 := m32) (p := y) rfl hyf hw
  rw [← hobj] at h1 h2
  exact C118_settled h hp hgoss hy hbase hj hpred h1 h2

/-- **C118** (constant targets).  If all targets equal the base score, all trees are single leaves of value zero and
every row of every matrix gets this prediction, in floating point arithmetic. -/
theorem C118_constant (h : b.fit env X y w ev = .ok (b', .ok ())) (hp : Regular b.splitter.params)
    (hgoss : b.sampleMethod ≠ .goss) (hobj : b.objectiveType = .squaredLoss) (hy : y.length = X.rows)
    (hw : ∀ x ∈ w, ∃ q, 0 ≤ q ∧ x = FX.fin q) {c : K} (hbase : b'.baseScore = FX.fin c) (hc : m64.rnd c = .fin c)
    (hyc : ∀ x ∈ y, x = FX.fin c) (hit : b'.predictionIteration.getD 0 ≤ b'.trees.length) :
    (∀ t ∈ b'.trees, t.IsZero) ∧ ∀ Z : Matrix (FX m64), b'.predict Z = .ok (List.replicate Z.rows (FX.fin c)) := by
  have hin : b'.baseScore.InFormat := by
    intro q e
    rw [hbase] at e
    cases e; exact hc
  have hyr : y = List.replicate X.rows b'.baseScore := by
    rw [hbase]
    exact List.eq_replicate_iff.2 ⟨hy, hyc⟩
  have hpred : ({ b' with predictionIteration := some 0 } : Booster (FX m32) (FX m64)).predict X = .ok y := by
    rw [predict_firstTrees (Nat.zero_le _), hyr]
    rfl
  obtain ⟨h1, _⟩ := C118_perfect h hp hgoss hobj hy (fun x hx => ⟨c, hyc x hx⟩) hw hin (Nat.zero_le _) hpred
  have hall : ∀ t ∈ b'.trees, t.IsZero := by
    intro t ht
    obtain ⟨k, hk⟩ := List.mem_iff_getElem?.1 ht
    exact h1 k t (Nat.zero_le _) hk
  refine ⟨hall, fun Z => ?_⟩
  have hn : b'.predictionIteration.getD b'.trees.length ≤ b'.trees.length := by
    cases e : b'.predictionIteration with
    | none => exact le_rfl
    | some k => rw [e] at hit; exact hit
  unfold Booster.predict Booster.predictionTrees
  simp only
  rw [if_pos hn, Res.ok_bind, ← hbase]
  exact predictFold_zero (fun t ht => hall t (List.mem_of_mem_take ht)) fun x hx => by
    rw [List.eq_of_mem_replicate hx]; exact hin

end

/-- **C118** (constant targets, initialised base score).  In exact arithmetic, a booster of squared loss that computes
its base score predicts a constant target for every row of every matrix. -/
theorem C118_constant_mean {K : Type} [Field K] [LinearOrder K] [IsStrictOrderedRing K] {m32 m64 : Fmt K}
    [m32.Exact] [m64.Exact] {R : Type} {env : Env R (FX m32) (FX m64)} {b b' : Booster (FX m32) (FX m64)}
    {X : Matrix (FX m64)} {w : List K} {c : K} {ev : Option (List (EvalSet (FX m64)))}
    (h : b.fit env X (List.replicate X.rows (FX.fin c)) (w.map FX.fin) ev = .ok (b', .ok ()))
    (hp : Regular b.splitter.params) (hgoss : b.sampleMethod ≠ .goss) (hobj : b.objectiveType = .squaredLoss)
    (hi : b.initializeBaseScore = true) (hl : w.length = X.rows) (hw : ∀ x ∈ w, 0 ≤ x) (hs : 0 < w.sum)
    (hit : b'.predictionIteration.getD 0 ≤ b'.trees.length) :
    (∀ t ∈ b'.trees, t.IsZero) ∧ ∀ Z : Matrix (FX m64), b'.predict Z = .ok (List.replicate Z.rows (FX.fin c)) := by
  have e : (List.replicate X.rows (FX.fin c : FX m64)) = (List.replicate X.rows c).map FX.fin := by simp
  have hbase : b'.baseScore = FX.fin c := by
    have h' := h
    rw [e] at h'
    obtain ⟨base, g, h1, h2, _⟩ := C42_mean h' hi hobj (by simp [hl]) hs
    rw [h1, h2]
    have : ∀ (n : Nat) (w : List K), w.length = n → (List.zipWith (· * ·) w (List.replicate n c)).sum = w.sum * c := by
      intro n
      induction n with
      | zero => intro w hw; rw [List.length_eq_zero_iff.1 hw]; simp
      | succ n ih =>
        intro w hw
        cases w with
        | nil => simp at hw
        | cons a w =>
          rw [List.replicate_succ, List.zipWith_cons_cons, List.sum_cons, List.sum_cons, ih w (by simpa using hw)]
          ring
    rw [this _ _ hl, mul_div_cancel_left₀ _ hs.ne']
  refine C118_constant h hp hgoss hobj (by simp) ?_ hbase (Fmt.Exact.rnd_eq c) ?_ hit
  · intro x hx
    obtain ⟨q, hq, rfl⟩ := List.mem_map.1 hx
    exact ⟨q, hw q hq, rfl⟩
  · intro x hx
    exact List.eq_of_mem_replicate hx

/-- A default booster, except for: squared loss, three trees, base score zero, learning rate 2. -/
def exExact : Option (Booster F32 F64) :=
  (Booster.default F32 F64).map fun b =>
    { b with objectiveType := .squaredLoss, iterations := 3, baseScore := 0, initializeBaseScore := false,
             learningRate := f32 2 }

/-- One column, two rows. -/
def exExactX : Matrix F64 := { data := [0, 1].map f64, rows := 2, cols := 1 }

/-- C118: in floating point, the first tree of this booster has a split and predicts the targets 1 and -1; there are
three trees. -/
example : ∃ b r, exExact = some b ∧ Regular b.splitter.params ∧ b.sampleMethod ≠ .goss ∧
    b.objectiveType = .squaredLoss ∧ r.baseScore = FX.fin 0 ∧
    b.fit floatEnv exExactX [f64 1, f64 (-1)] [f64 1, f64 1] none = .ok (r, .ok ()) ∧ r.trees.length = 3 ∧
    ({ r with predictionIteration := some 1 } : Booster F32 F64).predict exExactX = .ok [f64 1, f64 (-1)] := by
  have : (match exExact with
    | some b => (match b.fit floatEnv exExactX [f64 1, f64 (-1)] [f64 1, f64 1] none with
      | .ok (r, .ok ()) => (match ({ r with predictionIteration := some 1 } : Booster F32 F64).predict exExactX,
          b.sampleMethod, b.objectiveType with
        | .ok p, .none, .squaredLoss => decide (p = [f64 1, f64 (-1)] ∧ r.trees.length = 3 ∧ r.baseScore = FX.fin 0 ∧
            b.splitter.params.l1 = FX.fin 0 ∧ b.splitter.params.l2 = FX.fin 1 ∧
            b.splitter.params.maxDeltaStep = FX.fin 0 ∧ b.splitter.params.gamma = FX.fin 0 ∧
            b.splitter.params.minLeafWeight = FX.fin 1 ∧ b.splitter.params.learningRate = FX.fin 2)
        | _, _, _ => false)
      | _ => false)
    | _ => false) = true := by decide +kernel
  split at this
  next b hb =>
    split at this
    next r hr =>
      split at this
      next p hp h1 h2 =>
        obtain ⟨e1, e2, e3, f1, f2, f3, f4, f5, f6⟩ := of_decide_eq_true this
        have hreg : Regular b.splitter.params := by
          refine ⟨?_, ?_, ?_, ?_, ?_, ?_, 2, f6⟩
          · rw [f1]; decide +kernel
          · rw [f2]; decide +kernel
          · rw [f2]
            intro q hq
            cases hq
            decide +kernel
          · rw [f3]; decide +kernel
          · rw [f4]; decide +kernel
          · rw [f5]; decide +kernel
        exact ⟨b, r, hb, hreg, (by rw [h1]; exact fun h => by cases h), h2, e3, hr, e2, e1 ▸ hp⟩
      next => cases this
    next => cases this
  next => cases this

/-- A booster of squared loss that computes its base score. -/
def exConst : Booster Q Q := { exFresh with initializeBaseScore := true, objectiveType := .squaredLoss, l2 := q 1 }

/-- C118: constant targets of 7 and the base score computed, in exact arithmetic. -/
example : Regular exConst.splitter.params ∧ exConst.sampleMethod ≠ .goss ∧ exConst.objectiveType = .squaredLoss ∧
    exConst.initializeBaseScore = true ∧
    ∃ r, exConst.fit exEnv exX
      (List.replicate exX.rows (FX.fin 7)) ((List.replicate exX.rows 1).map FX.fin) none = .ok (r, .ok ()) ∧
      0 < r.trees.length ∧ r.predict exX = .ok (List.replicate exX.rows (FX.fin 7)) := by
  refine ⟨⟨by decide +kernel, by decide +kernel, ?_, by decide +kernel, by decide +kernel, by decide +kernel, ?_⟩,
    by decide, rfl, rfl, ?_⟩
  · intro q _; rfl
  · exact ⟨_, rfl⟩
  have : (match exConst.fit exEnv
      exX (List.replicate exX.rows (FX.fin 7)) ((List.replicate exX.rows 1).map FX.fin) none with
    | .ok (r, .ok ()) => (match r.predict exX with
      | .ok p => decide (0 < r.trees.length ∧ p = List.replicate exX.rows (FX.fin 7))
      | _ => false)
    | _ => false) = true := by decide +kernel
  split at this
  next r hr =>
    split at this
    next p hp =>
      obtain ⟨h1, rfl⟩ := of_decide_eq_true this
      exact ⟨r, hr, h1, hp⟩
    next => cases this
  next => cases this

/-- A default booster of squared loss; it computes its base score. -/
def exTenth : Option (Booster F32 F64) :=
  (Booster.default F32 F64).map fun b => { b with objectiveType := .squaredLoss, iterations := 1 }

/-- **C118** (the base score is rounded).  In floating point `C118_constant_mean` fails: three rows of weight one
whose targets are all the double nearest to 0.1 are predicted as another number. -/
theorem C118_rounded_mean : ∃ b r p, exTenth = some b ∧ b.initializeBaseScore = true ∧
    b.fit floatEnv ({ data := [f64 0, f64 1, f64 2], rows := 3, cols := 1 } : Matrix F64)
      (List.replicate 3 (f64 (1 / 10))) (List.replicate 3 (f64 1)) none = .ok (r, .ok ()) ∧
    r.predict ({ data := [f64 0], rows := 1, cols := 1 } : Matrix F64) = .ok [p] ∧ p ≠ f64 (1 / 10) := by
  have : (match exTenth with
    | some b => (match b.fit floatEnv ({ data := [f64 0, f64 1, f64 2], rows := 3, cols := 1 } : Matrix F64)
        (List.replicate 3 (f64 (1 / 10))) (List.replicate 3 (f64 1)) none with
      | .ok (r, .ok ()) => (match r.predict ({ data := [f64 0], rows := 1, cols := 1 } : Matrix F64) with
        | .ok [p] => decide (p ≠ f64 (1 / 10) ∧ b.initializeBaseScore = true)
        | _ => false)
      | _ => false)
    | _ => false) = true := by decide +kernel
  split at this
  next b hb =>
    split at this
    next r hr =>
      split at this
      next p hp =>
        obtain ⟨h1, h2⟩ := of_decide_eq_true this
        exact ⟨b, r, p, hb, h2, hr, hp, h1⟩
      next => cases this
    next => cases this
  next => cases this

end Verif
