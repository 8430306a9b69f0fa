import Verif.Spec.Copies
import Verif.Proofs.CopiesBins
import Verif.Proofs.CopiesGrow
import Verif.Proofs.TotalFit
import Verif.Props.Objective

/-!
# Copies of rows: the fit
-/

namespace Verif

open scoped Verif

set_option linter.unusedSectionVars false

variable {K : Type} [Field K] [LinearOrder K] [IsStrictOrderedRing K] {m32 m64 : Fmt K}
  [m32.Exact] [m64.Exact]

section
variable {D : Type} {σ : Nat → Nat} {X X' : Matrix D} {y y' w w' : List K}

theorem Matrix.entry_none {T : Type} {X : Matrix T} (hX : X.Shaped) {i j : Nat} (hj : X.cols ≤ j) :
    X.entry i j = none := by
  unfold Matrix.entry
  rw [List.getElem?_eq_none]
  rw [hX, Nat.mul_comm]
  have := Nat.mul_le_mul_right X.rows hj
  omega

theorem Copies.row (h : Copies σ X X' y y' w w') (hX : X.Shaped) (hX' : X'.Shaped) {r' : Nat}
    (hr : r' < X'.rows) : X'.entry r' = X.entry (σ r') := by
  funext j
  by_cases hj : j < X.cols
  · exact h.entry r' hr j hj
  · rw [Matrix.entry_none hX (by omega), Matrix.entry_none hX' (by rw [h.cols]; omega)]

theorem Copies.fib (h : Copies σ X X' y y' w w') :
    FibSum σ X.rows X'.rows (fun r => w[r]?.getD 0) (fun r => w'[r]?.getD 0) := by
  intro r hr
  dsimp only
  rw [h.weight r hr]; rfl

/-- A quantity that is a multiple of the weight. -/
theorem Copies.fib_mul (h : Copies σ X X' y y' w w') {f f' : Nat → K}
    (hf : ∀ r' < X'.rows, w'[r']? = some 0 ∨ f' r' = f (σ r')) :
    FibSum σ X.rows X'.rows (fun r => f r * w[r]?.getD 0) (fun r => f' r * w'[r]?.getD 0) := by
  intro r hr
  have hr0 : w[r]?.getD 0 = _ := h.fib r hr
  dsimp only
  rw [hr0, ← List.sum_map_mul_left]
  congr 1
  refine List.map_congr_left fun r' hr' => ?_
  rw [List.mem_filter, List.mem_range, decide_eq_true_eq] at hr'
  rcases hf r' hr'.1 with h0 | h1
  · rw [h0]; simp
  · rw [h1, hr'.2]

theorem Copies.colCopy {m : Fmt K} {X X' : Matrix (FX m)} (h : Copies σ X X' y y' w w') (hX : X.Shaped)
    (hX' : X'.Shaped) (hw : w.length = X.rows) (hw' : w'.length = X'.rows) (h0 : ∀ x ∈ w, 0 ≤ x)
    (h0' : ∀ x ∈ w', 0 ≤ x) {j : Nat} (hj : j < X.cols) :
    ColCopy σ (X.column j) (X'.column j) w w' := by
  refine ⟨?_, ?_, ?_, ?_, ?_, ?_, h0, h0'⟩
  · rw [Matrix.column_length hX hj, hw]
  · rw [Matrix.column_length hX' (by rw [h.cols]; exact hj), hw']
  · rw [hw, hw']; exact h.lt
  · rw [hw, hw']; exact h.onto
  · intro r' hr'
    rw [hw'] at hr'
    rw [Matrix.column_getElem? _ hr', Matrix.column_getElem? _ (h.lt r' hr')]
    exact h.entry r' hr' j hj
  · rw [hw, hw']; exact h.fib

end

section bins
variable {σ : Nat → Nat} {X X' : Matrix (FX m64)} {y y' w w' : List K}

theorem forall₂_range_eq {α : Type} {P P' : Nat → α → Prop} {n : Nat} {l l' : List α}
    (h : List.Forall₂ P (List.range n) l) (h' : List.Forall₂ P' (List.range n) l')
    (e : ∀ j < n, ∀ a a', P j a → P' j a' → a' = a) : l' = l := by
  have e1 := h.length_eq
  have e2 := h'.length_eq
  refine List.ext_getElem (by omega) fun j hj hj' => ?_
  rw [List.length_range] at e1 e2
  have a := (List.forall₂_iff_get.1 h).2 j (by simp; omega) hj'
  have b := (List.forall₂_iff_get.1 h').2 j (by simp; omega) hj
  simp only [List.get_eq_getElem, List.getElem_range] at a b
  exact e j (by omega) _ _ a b

/-- The cuts are the same, and a row has the bins of the row it is a copy of. -/
theorem binMatrix_copy {S : Sorter} (hS : S.Ok) (h : Copies σ X X' y y' w w') (hX : X.Shaped)
    (hX' : X'.Shaped) (hw : w.length = X.rows) (hw' : w'.length = X'.rows) (h0 : ∀ x ∈ w, 0 ≤ x)
    (h0' : ∀ x ∈ w', 0 ≤ x) {nbins : Nat} {missing : FX m64} {bd bd' : BinnedData (FX m64)}
    (e : binMatrix S X (w.map FX.fin) nbins missing = .ok bd)
    (e' : binMatrix S X' (w'.map FX.fin) nbins missing = .ok bd') :
    bd'.cuts = bd.cuts ∧ ∀ r' < X'.rows, ∀ j < X.cols,
      bd'.binned[j * X'.rows + r']? = bd.binned[j * X.rows + σ r']? := by
  obtain ⟨c, hb⟩ := binMatrix_binned hX (by simp [hw]) e
  obtain ⟨c', hb'⟩ := binMatrix_binned hX' (by simp [hw']) e'
  have hc : c' = c := by
    refine List.ext_getElem (by rw [hb.len, hb'.len, h.cols]) fun j hj hj' => ?_
    have k := hb.made j _ (List.getElem?_eq_getElem hj')
    have k' := hb'.made j _ (List.getElem?_eq_getElem hj)
    exact colCuts_copy hS (h.colCopy hX hX' hw hw' h0 h0' (by rw [← hb.len]; exact hj')) k k'
  subst hc
  constructor
  · unfold binMatrix at e e'
    simp only [Res.bind_eq_ok] at e e'
    obtain ⟨cs, k1, _, _, k2⟩ := e
    obtain ⟨cs', k1', _, _, k2'⟩ := e'
    injection k2 with k2
    injection k2' with k2'
    rw [← k2, ← k2']
    rw [Res.mapM'_eq_ok] at k1 k1'
    rw [h.cols] at k1'
    rw [forall₂_range_eq k1 k1' fun j hj a a' p p' => ?_]
    rw [Matrix.getCol_eq hX hj, Res.ok_bind] at p
    rw [Matrix.getCol_eq hX' (by rw [h.cols]; exact hj), Res.ok_bind] at p'
    exact colCuts_copy hS (h.colCopy hX hX' hw hw' h0 h0' hj) p p'
  · intro r' hr' j hj
    have hent : ∃ v, X.entry (σ r') j = some v := by
      have := Matrix.column_getElem? X (j := j) (h.lt r' hr')
      rw [← this]
      exact ⟨_, List.getElem?_eq_getElem (by rw [Matrix.column_length hX hj]; exact h.lt r' hr')⟩
    obtain ⟨v, hv⟩ := hent
    have hcj := List.getElem?_eq_getElem (show j < c'.length by rw [hb.len]; exact hj)
    obtain ⟨k, k1, k2⟩ := hb.bin _ _ _ _ (h.lt r' hr') hv hcj
    obtain ⟨k', k1', k2'⟩ := hb'.bin _ _ _ _ hr' (by rw [h.entry r' hr' j hj]; exact hv) hcj
    rw [k2] at k2'
    injection k2' with k2'
    injection k2' with k2'
    rw [k1, k1', k2']

end bins

/-! ## Gradients -/

/-- Gradient and hessian are multiples of the weight. -/
theorem gradHess_mul {o : ObjectiveType} (he : o = .logLoss → ExpPos m64) (y p : K) :
    ∃ g h, ∀ w : K, o.gradOf (FX.fin y : FX m64) (FX.fin p) (FX.fin w) = FX.fin (g * w) ∧
      o.hessOf (FX.fin y : FX m64) (FX.fin p) (FX.fin w) = FX.fin (h * w) := by
  cases o with
  | squaredLoss =>
    exact ⟨p - y, 1, fun w => ⟨by simp [ObjectiveType.gradOf, squaredLossGrad],
      by simp [ObjectiveType.hessOf, squaredLossHess]⟩⟩
  | logLoss =>
    obtain ⟨q, h1, h2, h3⟩ := logistic_fin (he rfl) p
    exact ⟨q - y, q * (1 - q), fun w => ⟨by simp [ObjectiveType.gradOf, logLossGrad, h1],
      by simp [ObjectiveType.hessOf, logLossHess, h1, FX.one_def]⟩⟩

section grads
variable {σ : Nat → Nat} {X X' : Matrix (FX m64)} {y y' w w' p p' : List K}

theorem rowVals_of {m : Fmt K} {l : List (FX m)} {r : Nat} {x : K} (h : l[r]? = some (FX.fin x)) :
    rowVals l r = x := by
  unfold rowVals; rw [h]; rfl

theorem grads_copy {o : ObjectiveType} (he : o = .logLoss → ExpPos m64) (h : Copies σ X X' y y' w w')
    (hy : y.length = X.rows) (hw : w.length = X.rows) (hp : p.length = X.rows)
    (hy' : y'.length = X'.rows) (hw' : w'.length = X'.rows) (hpp : ∀ r' < X'.rows, p'[r']? = p[σ r']?) :
    FibSum σ X.rows X'.rows
        (rowVals (calcGradHess (F := FX m32) o (y.map FX.fin : List (FX m64)) (p.map FX.fin) (w.map FX.fin)).1)
        (rowVals (calcGradHess (F := FX m32) o (y'.map FX.fin : List (FX m64)) (p'.map FX.fin) (w'.map FX.fin)).1) ∧
      FibSum σ X.rows X'.rows
        (rowVals (calcGradHess (F := FX m32) o (y.map FX.fin : List (FX m64)) (p.map FX.fin) (w.map FX.fin)).2)
        (rowVals (calcGradHess (F := FX m32) o (y'.map FX.fin : List (FX m64)) (p'.map FX.fin) (w'.map FX.fin)).2) := by
  choose g hh hgh using fun (a : K × K) => gradHess_mul (m64 := m64) he a.1 a.2
  have key : ∀ (n : Nat) (y p w : List K), w.length = n → ∀ r < n, ∀ a b, y[r]? = some a → p[r]? = some b →
      rowVals (calcGradHess (F := FX m32) o (y.map FX.fin : List (FX m64)) (p.map FX.fin) (w.map FX.fin)).1 r =
        g (a, b) * w[r]?.getD 0 ∧
      rowVals (calcGradHess (F := FX m32) o (y.map FX.fin : List (FX m64)) (p.map FX.fin) (w.map FX.fin)).2 r =
        hh (a, b) * w[r]?.getD 0 := by
    intro n y p w hw r hr a b ha hb
    have hwr : w[r]? = some (w[r]'(by omega)) := List.getElem?_eq_getElem (by omega)
    obtain ⟨g1, g2⟩ := calcGradHess_get (F := FX m32) o (y.map FX.fin : List (FX m64))
      (p.map FX.fin) (w.map FX.fin) r (yi := FX.fin a) (pi := FX.fin b) (wi := FX.fin (w[r]'(by omega)))
      (by simp [ha]) (by simp [hb]) (by simp [hwr])
    rw [(hgh (a, b) _).1, FX.down_fin] at g1
    rw [(hgh (a, b) _).2, FX.down_fin] at g2
    rw [rowVals_of g1, rowVals_of g2, hwr]
    exact ⟨rfl, rfl⟩
  have hY : ∀ r < X.rows, ∃ a, y[r]? = some a := fun r hr => ⟨_, List.getElem?_eq_getElem (by omega)⟩
  have hP : ∀ r < X.rows, ∃ a, p[r]? = some a := fun r hr => ⟨_, List.getElem?_eq_getElem (by omega)⟩
  have main : ∀ (G : K × K → K) (v v' : Nat → K),
      (∀ r < X.rows, ∀ a b, y[r]? = some a → p[r]? = some b → v r = G (a, b) * w[r]?.getD 0) →
      (∀ r < X'.rows, ∀ a b, y'[r]? = some a → p'[r]? = some b → v' r = G (a, b) * w'[r]?.getD 0) →
      FibSum σ X.rows X'.rows v v' := by
    intro G v v' hv hv' r hr
    obtain ⟨a, ha⟩ := hY r hr
    obtain ⟨b, hb⟩ := hP r hr
    have hr0 : w[r]?.getD 0 = _ := h.fib r hr
    rw [hv r hr a b ha hb, hr0, ← List.sum_map_mul_left]
    congr 1
    refine List.map_congr_left fun r' hr' => ?_
    rw [List.mem_filter, List.mem_range, decide_eq_true_eq] at hr'
    have hb' : p'[r']? = some b := by rw [hpp r' hr'.1, hr'.2, hb]
    rcases h.target r' hr'.1 with h0 | h1
    · have ha' : y'[r']? = some (y'[r']'(by omega)) := List.getElem?_eq_getElem _
      rw [hv' r' hr'.1 _ b ha' hb', h0]; simp
    · rw [hv' r' hr'.1 a b (by rw [h1, hr'.2, ha]) hb']
  exact ⟨main g _ _ (fun r hr a b ha hb => (key _ y p w hw r hr a b ha hb).1)
      (fun r hr a b ha hb => (key _ y' p' w' hw' r hr a b ha hb).1),
    main hh _ _ (fun r hr a b ha hb => (key _ y p w hw r hr a b ha hb).2)
      (fun r hr a b ha hb => (key _ y' p' w' hw' r hr a b ha hb).2)⟩

theorem calcInit_copy (h : Copies σ X X' y y' w w') (hy : y.length = X.rows) (hw : w.length = X.rows)
    (hy' : y'.length = X'.rows) (hw' : w'.length = X'.rows) (o : ObjectiveType) :
    calcInit o (y'.map FX.fin : List (FX m64)) (w'.map FX.fin) =
      calcInit o (y.map FX.fin : List (FX m64)) (w.map FX.fin) := by
  have e1 : ∀ (n : Nat) (w : List K), w.length = n → w.sum = ((List.range n).map fun r => w[r]?.getD 0).sum := by
    intro n w hn
    congr 1
    refine List.ext_getElem (by simp [hn]) fun k hk hk' => by simp [hk]
  have e2 : ∀ (n : Nat) (y w : List K), y.length = n → w.length = n → weightedSum y w =
      ((List.range n).map fun r => y[r]?.getD 0 * w[r]?.getD 0).sum := by
    intro n y w hn hn'
    unfold weightedSum
    congr 1
    refine List.ext_getElem (by simp [hn, hn']) fun k hk hk' => ?_
    simp only [List.length_map, List.length_range] at hk'
    have a : k < y.length := by omega
    have b : k < w.length := by omega
    simp [a, b, mul_comm]
  have hs : w'.sum = w.sum := by
    rw [e1 _ w hw, e1 _ w' hw']
    exact (Over.range h.lt).sum h.fib
  have hws : weightedSum y' w' = weightedSum y w := by
    rw [e2 _ y w hy hw, e2 _ y' w' hy' hw']
    exact (Over.range h.lt).sum (h.fib_mul fun r' hr' => (h.target r' hr').imp id fun e => by rw [e])
  unfold calcInit
  rw [initSums_fin _ _ (by omega), initSums_fin _ _ (by omega), hs, hws]

end grads

/-! ## The boosting loop -/

section loop
variable {R : Type}

theorem fitIteration_none {F D : Type} [Fl F] [Fl D] [FlCast F D] {env : Env R F D} {data : Matrix D}
    {y w : List D} {sp : Splitter F} {bdata : Matrix Nat} {cuts : JaggedMatrix D} {i : Nat}
    {s s' : FitState R F D} {stop : Bool} (hs : s.booster.sampleMethod = .none)
    (h : fitIteration env data y w sp bdata cuts i s = .ok (s', stop)) :
    ∃ tree preds b1 ev best,
      Tree.fit { splitter := sp, train := { data := bdata, cuts, grad := s.grad, hess := s.hess
                                            colIndex := (sampleColumns env.rng s.booster.colsampleBytree
                                              s.rng data.cols).1 }
                 maxLeaves := s.booster.maxLeaves, maxDepth := s.booster.maxDepth
                 policy := s.booster.growPolicy, heap := env.heap i } .none data.index = .ok tree ∧
      tree.predict data s.booster.missing = .ok preds ∧
      evalSets env.sorter tree i s.booster s.evals s.best = .ok (b1, ev, best, stop) ∧
      s'.booster = { b1 with trees := b1.trees ++ [tree] } ∧ s'.yhat = addPreds s.yhat preds ∧
      s'.evals = ev ∧ s'.best = best ∧
      s'.rng = (sampleColumns env.rng s.booster.colsampleBytree s.rng data.cols).2 := by
  simp only [fitIteration, hs, sampleIndex, Res.ok_bind] at h
  simp only [Res.bind_eq_ok] at h
  obtain ⟨tree, h1, preds, h2, ⟨b1, ev, best, st⟩, h3, h⟩ := h
  cases st with
  | true =>
    simp only [if_true, Res.ok.injEq, Prod.mk.injEq] at h
    obtain ⟨rfl, rfl⟩ := h
    exact ⟨tree, preds, b1, ev, best, h1, h2, h3, rfl, rfl, rfl, rfl, rfl⟩
  | false =>
    simp only [Bool.false_eq_true, if_false, Res.ok.injEq, Prod.mk.injEq] at h
    obtain ⟨rfl, rfl⟩ := h
    exact ⟨tree, preds, b1, ev, best, h1, h2, h3, rfl, rfl, rfl, rfl, rfl⟩

variable {σ : Nat → Nat} {X X' : Matrix (FX m64)} {y y' w w' : List K}

theorem predict_copy (h : Copies σ X X' y y' w w') (hX : X.Shaped) (hX' : X'.Shaped)
    {t : Tree (FX m32) (FX m64)} {missing : FX m64} {p p' : List (FX m64)}
    (e : t.predict X missing = .ok p) (e' : t.predict X' missing = .ok p') :
    ∀ r' < X'.rows, p'[r']? = p[σ r']? := by
  intro r' hr'
  rw [Tree.predict_eq_ok] at e e'
  have h1 : p'[r']? = some (p'[r']'(by rw [e'.1]; exact hr')) := List.getElem?_eq_getElem _
  have h2 : p[σ r']? = some (p[σ r']'(by rw [e.1]; exact h.lt r' hr')) := List.getElem?_eq_getElem _
  obtain ⟨l, r1, r2⟩ := e.2 _ _ h2
  obtain ⟨l', r1', r2'⟩ := e'.2 _ _ h1
  rw [h.row hX hX' hr'] at r1'
  rw [h1, h2, r2, r2', r1.unique r1']

variable {env : Env R (FX m32) (FX m64)} {b b1 b1' : Booster (FX m32) (FX m64)}
  {ev : Option (List (EvalSet (FX m64)))} {l1 l2 mds lr : K}

theorem treeFit_copy_index {c c' : GrowCfg (FX m32) (FX m64)} {gv hv gv' hv' : Nat → K}
    {r r' : Tree (FX m32) (FX m64)} {i i' : List Nat} (e : Tree.fit c .none i = .ok r)
    (e' : Tree.fit c' .none i' = .ok r') (hi : i = List.range c.train.data.rows)
    (hi' : i' = List.range c'.train.data.rows) (hC : CfgCopy σ c c' gv hv gv' hv')
    (hg : c.train.grad.length = c.train.data.rows) (hh : c.train.hess.length = c.train.data.rows)
    (hg' : c'.train.grad.length = c'.train.data.rows) (hh' : c'.train.hess.length = c'.train.data.rows) :
    r' = r := by
  subst hi hi'
  exact treeFit_copy hC hg hh hg' hh' e e'

theorem fit_copy (hP : PlainFit env b X y w ev b1 l1 l2 mds lr)
    (hP' : PlainFit env b X' y' w' ev b1' l1 l2 mds lr) (h : Copies σ X X' y y' w w')
    (hn : b.sampleMethod = .none) (hh : ∀ i, (env.heap i).ByScore) : b1' = b1 := by
  obtain ⟨base, binned, st, stop, N, hT⟩ := Booster.fit_trace hP.fit
  obtain ⟨base', binned', st', stop', N', hT'⟩ := Booster.fit_trace hP'.fit
  have hbase : base' = base := by
    have a := hT.base_eq
    have a' := hT'.base_eq
    rw [calcInit_copy h hP.ylen hP.wlen hP'.ylen hP'.wlen] at a'
    split at a
    · next hi => rw [if_pos hi, a] at a'; injection a' with a'; exact a'.symm
    · next hi => rw [if_neg hi] at a'; rw [a, a']
  subst hbase
  obtain ⟨hcuts, hbins⟩ := binMatrix_copy hP.sorter h hP.shaped hP'.shaped hP.wlen hP'.wlen hP.nonneg
    hP'.nonneg hT.bin_eq hT'.bin_eq
  -- the states are related as long as both loops run
  have main : ∀ k : Nat, k ≤ N → k ≤ N' → (st' k).booster = (st k).booster ∧ (st' k).evals = (st k).evals ∧
      (st' k).best = (st k).best ∧ (st' k).rng = (st k).rng ∧
      (∀ r' < X'.rows, (st' k).yhat[r']? = (st k).yhat[σ r']?) ∧
      ∀ j : Nat, j + 1 = k → stop' j = stop j := by
    intro k
    induction k with
    | zero =>
      intro _ _
      rw [hT.start, hT'.start]
      refine ⟨rfl, rfl, rfl, rfl, ?_, by omega⟩
      intro r' hr'
      simp only [fitStart, List.length_map, List.getElem?_replicate]
      rw [if_pos (by rw [hP'.ylen]; exact hr'), if_pos (by rw [hP.ylen]; exact h.lt r' hr')]
    | succ k ih =>
      intro hk hk'
      obtain ⟨i1, i2, i3, i4, i5, _⟩ := ih (by omega) (by omega)
      have hsame := hT.same k (by omega)
      have hsm : (st k).booster.sampleMethod = .none := by
        unfold Booster.SameParams at hsame; rw [hsame]; exact hn
      obtain ⟨t, p, bb, e, be, a1, a2, a3, a4, a5, a6, a7, a8⟩ :=
        fitIteration_none hsm (hT.step k (by omega))
      obtain ⟨t', p', bb', e', be', a1', a2', a3', a4', a5', a6', a7', a8'⟩ :=
        fitIteration_none (by rw [i1]; exact hsm) (hT'.step k (by omega))
      obtain ⟨q, hq⟩ := hP.yhat hT k (by omega)
      obtain ⟨q', hq'⟩ := hP'.yhat hT' k (by omega)
      have hg := hT.grad k (by omega)
      have hg' := hT'.grad k (by omega)
      rw [hq] at hg
      rw [hq'] at hg'
      have hql : q.length = X.rows := by
        have := predictFold_length (hT.yhat k (by omega))
        rw [hq] at this
        simpa [hP.ylen] using this
      have hql' : q'.length = X'.rows := by
        have := predictFold_length (hT'.yhat k (by omega))
        rw [hq'] at this
        simpa [hP'.ylen] using this
      have hqq : ∀ r' < X'.rows, q'[r']? = q[σ r']? := by
        intro r' hr'
        have := i5 r' hr'
        rw [hq, hq', List.getElem?_map, List.getElem?_map] at this
        have h1 : q'[r']? = some (q'[r']'(by omega)) := List.getElem?_eq_getElem _
        have h2 : q[σ r']? = some (q[σ r']'(by rw [hql]; exact h.lt r' hr')) := List.getElem?_eq_getElem _
        rw [h1, h2] at this ⊢
        simp only [Option.map_some, Option.some.injEq, FX.fin.injEq] at this
        rw [this]
      have hfib := grads_copy (m32 := m32) hP.exp h hP.ylen hP.wlen hql hP'.ylen hP'.wlen hqq
      rw [← hg, ← hg'] at hfib
      have hf := calcGradHess_fin (m32 := m32) hP.exp y q w hP.nonneg
      have hf' := calcGradHess_fin (m32 := m32) hP.exp y' q' w' hP'.nonneg
      have hl := calcGradHess_length (F := FX m32) (n := X.rows) b.objectiveType (y.map FX.fin : List (FX m64))
        (q.map FX.fin) (w.map FX.fin) (by simp [hP.ylen]) (by simp [hql]) (by simp [hP.wlen])
      have hl' := calcGradHess_length (F := FX m32) (n := X'.rows) b.objectiveType
        (y'.map FX.fin : List (FX m64)) (q'.map FX.fin) (w'.map FX.fin) (by simp [hP'.ylen])
        (by simp [hql']) (by simp [hP'.wlen])
      rw [← hg] at hf hl
      rw [← hg'] at hf' hl'
      rw [i1, i4, h.cols] at a1'
      have hsc := sampleColumns_sorted hP.rng (rate := (st k).booster.colsampleBytree) (r := (st k).rng)
        (cols := X.cols)
        (cs := (sampleColumns env.rng (st k).booster.colsampleBytree (st k).rng X.cols).1)
        (r' := (sampleColumns env.rng (st k).booster.colsampleBytree (st k).rng X.cols).2) rfl
      generalize hci : (sampleColumns env.rng (st k).booster.colsampleBytree (st k).rng X.cols).1 = ci
        at a1 a1' hsc
      have ok := trainOf_ok hP.sorter hP.shaped hP.wlen.ge hP.max hT.bin_eq hsc.1 hsc.2.1
        hf.1.finRows hf.2.fin.finRows
      have ok' := trainOf_ok hP'.sorter hP'.shaped hP'.wlen.ge hP'.max hT'.bin_eq hsc.1
        (by rw [h.cols]; exact hsc.2.1) hf'.1.finRows hf'.2.fin.finRows
      have hpos : (0 <ᶠ b.splitter.params.minLeafWeight) = true := by
        have : b.splitter.params.minLeafWeight = b.minLeafWeight := by
          unfold Booster.splitter; split <;> rfl
        rw [this]; exact hP.minLeafWeight
      have hbd := binMatrix_binned hP.shaped (by simp [hP.wlen]) hT.bin_eq
      have hbd' := binMatrix_binned hP'.shaped (by simp [hP'.wlen]) hT'.bin_eq
      have ht : t' = t := by
        unfold trainOf at ok'
        rw [h.cols] at ok'
        refine treeFit_copy_index (σ := σ) a1 a1' rfl rfl
          ⟨rfl, rfl, rfl, rfl, rfl, hh k, ?_, ok, ok', hpos⟩ hl.1 hl.2 hl'.1 hl'.2
        refine ⟨rfl, hcuts, h.lt, h.onto, ?_, hfib.1, hfib.2⟩
        intro col hcol f f' hf1 hf1' r' hr'
        have hcol : col < X.cols := hsc.2.1 col hcol
        obtain ⟨cs, hb⟩ := hbd
        obtain ⟨cs', hb'⟩ := hbd'
        have s1 : (Matrix.mk binned.binned X.rows X.cols).Shaped := by
          unfold Matrix.Shaped; rw [hb.size]; exact hP.shaped
        have s2 : (Matrix.mk binned'.binned X'.rows X.cols).Shaped := by
          unfold Matrix.Shaped; rw [hb'.size, ← h.cols]; exact hP'.shaped
        change (Matrix.mk binned.binned X.rows X.cols).getCol col = .ok f at hf1
        change (Matrix.mk binned'.binned X'.rows X.cols).getCol col = .ok f' at hf1'
        rw [Matrix.getCol_eq s1 hcol] at hf1
        rw [Matrix.getCol_eq s2 hcol] at hf1'
        injection hf1 with hf1
        injection hf1' with hf1'
        rw [← hf1, ← hf1']
        change r' < X'.rows at hr'
        rw [Matrix.column_getElem? _ (show r' < (Matrix.mk binned'.binned X'.rows X.cols).rows from hr'),
          Matrix.column_getElem? _ (show σ r' < (Matrix.mk binned.binned X.rows X.cols).rows from h.lt r' hr')]
        exact hbins r' hr' col hcol
      subst ht
      rw [i1] at a2'
      rw [i1, i2, i3, a3] at a3'
      injection a3' with a3'
      simp only [Prod.mk.injEq] at a3'
      obtain ⟨rfl, rfl, rfl, e4⟩ := a3'
      refine ⟨by rw [a4, a4'], by rw [a6, a6'], by rw [a7, a7'], ?_, ?_, ?_⟩
      · rw [a8, a8', i1, i4, h.cols]
      · intro r' hr'
        rw [a5, a5', getElem?_addPreds, getElem?_addPreds, i5 r' hr',
          predict_copy h hP.shaped hP'.shaped a2 a2' r' hr']
      · intro j hj
        obtain rfl : j = k := by omega
        exact e4.symm
  have hN : N = N' := by
    rcases Nat.lt_trichotomy N N' with hlt | he | hlt
    · obtain ⟨c1, c2⟩ := hT.ended (by have := hT'.le; omega)
      have := (main N (le_refl _) (by omega)).2.2.2.2.2 (N - 1) (by omega)
      rw [c2, hT'.cont (N - 1) (by omega)] at this
      cases this
    · exact he
    · obtain ⟨c1, c2⟩ := hT'.ended (by have := hT.le; omega)
      have := (main N' (by omega) (le_refl _)).2.2.2.2.2 (N' - 1) (by omega)
      rw [c2, hT.cont (N' - 1) (by omega)] at this
      cases this
  subst hN
  rw [← hT.last, ← hT'.last]
  exact (main N (le_refl _) (le_refl _)).1

end loop

end Verif
