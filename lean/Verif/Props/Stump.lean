import Verif.Proofs.Stump
import Verif.Props.Growth
import Verif.Props.SquaredLoss
import Verif.Proofs.ScaleFit

/-!
# C123: settings under which the model is constant
-/

namespace Verif

open scoped Verif

set_option linter.unusedSectionVars false

section
variable {K : Type} [Field K] [LinearOrder K] [IsStrictOrderedRing K] {m32 m64 : Fmt K}
  [m32.Exact] [m64.Exact]
variable {X : Matrix (FX m64)} {w : List K} {R : Type} {env : Env R (FX m32) (FX m64)}
  {b b' : Booster (FX m32) (FX m64)} {y : List K} {ev : Option (List (EvalSet (FX m64)))} {l1 l2 mds lr : K}

/-- C123.  If the l1 penalty is at least the sum of the absolute gradients at the base score, then every tree is a
single leaf of value 0, and every row of every matrix is predicted to have the base score. -/
theorem C123_l1 (h : PlainFit env b X y w ev b' l1 l2 mds lr) (hs : b.sampleMethod ≠ .goss) (hmds : 0 ≤ mds)
    (hgam : ((0 : FX m32) ≤ᶠ b.gamma) = true) {g : List K}
    (hg : (calcGradHess (F := FX m32) b.objectiveType (y.map FX.fin : List (FX m64))
      (List.replicate y.length b'.baseScore) (w.map FX.fin)).1 = g.map FX.fin)
    (hl1 : (g.map fun x => |x|).sum ≤ l1) :
    (∀ t ∈ b'.trees, t.IsZero) ∧
    ∀ k ≤ b'.trees.length, ∀ Z : Matrix (FX m64),
      ({ b' with predictionIteration := some k } : Booster (FX m32) (FX m64)).predict Z =
        .ok (List.replicate Z.rows b'.baseScore) := by
  obtain ⟨base, binned, st, stop, N, hT⟩ := Booster.fit_trace h.fit
  have hN := hT.length
  have hf := hT.final
  unfold Booster.SameParams at hf
  have hbs : b'.baseScore = base := by rw [hf]
  obtain ⟨s, hbase⟩ := h.base base hT.base_eq
  have hin : ∀ n, ∀ x ∈ List.replicate n base, x.InFormat := by
    intro n x hx
    rw [List.eq_of_mem_replicate hx, hbase]
    intro q e
    exact Fmt.Exact.rnd_eq q
  have step : ∀ k, k < N → (st k).yhat = List.replicate y.length base → ∀ t, b'.trees[k]? = some t → t.IsZero := by
    intro k hk e t ht
    have e' : (st k).yhat = (List.replicate y.length s).map FX.fin := by rw [e, hbase, List.map_replicate]
    obtain ⟨cfg, rows, hA⟩ := h.tree_of hT ht e'
    obtain ⟨r1, r2, hsam⟩ := hA.treeAt.sample
    obtain ⟨e1, e2⟩ := sampleIndex_same hs hsam
    rw [← e', e, ← hbs, hg] at e1
    refine tree_zero_of_l1 hA.trained hA.treeAt.fitted.fit hA.params hmds ?_ ?_
    · rw [hA.treeAt.fitted.splitter, splitter_params]; exact hgam
    · have hlen : g.length = X.rows := by
        have := (calcGradHess_length (F := FX m32) b.objectiveType (y.map FX.fin : List (FX m64))
          (List.replicate y.length b'.baseScore) (w.map FX.fin) (n := X.rows) (by simpa using h.ylen)
          (by simpa using h.ylen) (by simpa using h.wlen)).1
        rw [hg] at this
        simpa using this
      refine (sum_rows_le (f := fun r => |rowVals cfg.train.grad r|) (fun r => abs_nonneg _) hA.trained.nodup
        hA.trained.rows_lt).trans (le_trans (le_of_eq ?_) hl1)
      congr 1
      refine List.ext_getElem (by simp [hlen]) fun i h1 h2 => ?_
      have hi : i < g.length := by simpa using h2
      simp only [List.getElem_map, List.getElem_range]
      rw [e1]
      simp only [rowVals, List.getElem?_map, List.getElem?_eq_getElem hi,
        Option.map_some, FX.val]
  have hall : ∀ k, k ≤ N → (st k).yhat = List.replicate y.length base := by
    intro k
    induction k with
    | zero =>
      intro _
      have h0 := hT.yhat 0 (Nat.zero_le _)
      simp only [List.take_zero, predictFold, Res.foldM', Res.ok.injEq, List.length_map] at h0
      exact h0.symm
    | succ k ih =>
      intro hk
      have e := ih (by omega)
      have hlt : k < b'.trees.length := by omega
      have ht : b'.trees[k]? = some b'.trees[k] := List.getElem?_eq_getElem hlt
      have hz := step k (by omega) e _ ht
      have a1 := hT.yhat (k + 1) hk
      rw [List.take_add_one, ht, Option.toList_some, predictFold_append, hT.yhat k (by omega), Res.ok_bind, e,
        predictFold_zero (by simpa using hz) (hin _)] at a1
      injection a1 with a1
      exact a1.symm
  have hzero : ∀ t ∈ b'.trees, t.IsZero := by
    intro t ht
    obtain ⟨k, hk⟩ := List.mem_iff_getElem?.1 ht
    have hlt := (List.getElem?_eq_some_iff.1 hk).1
    exact step k (by omega) (hall k (by omega)) t hk
  refine ⟨hzero, fun k hk Z => ?_⟩
  rw [predict_firstTrees hk]
  exact predictFold_zero (fun t ht => hzero t (List.mem_of_mem_take ht)) (by rw [hbs]; exact hin _)

/-- C123, with SquaredLoss: the gradients are the weighted residuals. -/
theorem C123_l1_squared (h : PlainFit env b X y w ev b' l1 l2 mds lr) (ho : b.objectiveType = .squaredLoss)
    (hs : b.sampleMethod ≠ .goss) (hmds : 0 ≤ mds) (hgam : ((0 : FX m32) ≤ᶠ b.gamma) = true) {s : K}
    (hb : b'.baseScore = FX.fin s) (hl1 : (List.zipWith (fun y w => w * |y - s|) y w).sum ≤ l1) :
    ∀ k ≤ b'.trees.length, ∀ Z : Matrix (FX m64),
      ({ b' with predictionIteration := some k } : Booster (FX m32) (FX m64)).predict Z =
        .ok (List.replicate Z.rows (FX.fin s)) := by
  have key : ∀ y w : List K, (calcGradHess (F := FX m32) .squaredLoss (y.map FX.fin : List (FX m64))
      (List.replicate y.length (FX.fin s)) (w.map FX.fin)).1 =
        (List.zipWith (fun y w => (s - y) * w) y w).map FX.fin := by
    intro y
    induction y with
    | nil => intro w; simp [calcGradHess, zip3]
    | cons a y ih =>
      intro w
      cases w with
      | nil => simp [calcGradHess, zip3]
      | cons c w =>
        rw [List.map_cons, List.map_cons, List.length_cons, List.replicate_succ, calcGradHess_cons, ih w]
        simp [calcGradHess, zip3, squaredLossGrad, FX.down_fin]
  have hw := h.nonneg
  have e := C123_l1 h hs hmds hgam (g := List.zipWith (fun y w => (s - y) * w) y w) (by rw [ho, hb]; exact key y w) ?_
  · intro k hk Z
    rw [e.2 k hk Z, hb]
  · refine le_trans (le_of_eq ?_) hl1
    clear h hl1 key
    induction y generalizing w with
    | nil => simp
    | cons a y ih =>
      cases w with
      | nil => simp
      | cons c w =>
        have hc := hw c (by simp)
        simp only [List.zipWith_cons_cons, List.map_cons, List.sum_cons]
        rw [ih fun x hx => hw x (List.mem_cons_of_mem _ hx), abs_mul, abs_of_nonneg hc, abs_sub_comm, mul_comm]

/-- C123.  If the sample weights (with LogLoss: a quarter of them) sum to less than twice `min_leaf_weight`, then no
tree has a split, and the model is a constant. -/
theorem C123_min_leaf_weight (h : PlainFit env b X y w ev b' l1 l2 mds lr) (hs : b.sampleMethod ≠ .goss) {q : K}
    (hq : b.minLeafWeight = FX.fin q) (hlt : (match b.objectiveType with
      | .squaredLoss => w.sum
      | .logLoss => w.sum / 4) < 2 * q) :
    (∀ t ∈ b'.trees, ∃ n, t.nodes = [n] ∧ n.isLeaf = true) ∧
    ∀ k ≤ b'.trees.length, ∃ v, ∀ Z : Matrix (FX m64),
      ({ b' with predictionIteration := some k } : Booster (FX m32) (FX m64)).predict Z =
        .ok (List.replicate Z.rows v) := by
  have hall : ∀ t ∈ b'.trees, ∃ n, t.nodes = [n] ∧ n.isLeaf = true := by
    intro t ht
    obtain ⟨binned, p, k, cfg, rows, hA⟩ := h.tree_mem ht
    refine tree_single_of_weight hA.trained hA.treeAt.fitted.fit hA.params (q := q)
      (by rw [hA.treeAt.fitted.splitter, splitter_params]; exact hq) (lt_of_le_of_lt ?_ hlt)
    obtain ⟨r1, r2, hsam⟩ := hA.treeAt.sample
    obtain ⟨_, e2⟩ := sampleIndex_same hs hsam
    have hle : ∀ r, r < X.rows → rowVals cfg.train.hess r ≤ b.objectiveType.curvature * w.getD r 0 := by
      intro i hi
      have hiy : i < y.length := by rw [h.ylen]; exact hi
      have hip : i < p.length := by rw [hA.len]; exact hi
      have hiw : i < w.length := by rw [h.wlen]; exact hi
      obtain ⟨_, g2⟩ := calcGradHess_get (F := FX m32) b.objectiveType (y.map FX.fin : List (FX m64))
        (p.map FX.fin) (w.map FX.fin) i (yi := FX.fin y[i]) (pi := FX.fin p[i]) (wi := FX.fin w[i])
        (by simp [hiy]) (by simp [hip]) (by simp [hiw])
      rw [← e2] at g2
      unfold rowVals
      rw [g2]
      simp only [List.getD_eq_getElem?_getD, List.getElem?_eq_getElem hiw, Option.getD_some]
      exact hessOf_le h.exp _ _ _ (h.nonneg _ (List.getElem_mem hiw))
    have hnn : ∀ r, 0 ≤ b.objectiveType.curvature * w.getD r 0 := by
      intro r
      refine mul_nonneg ?_ ?_
      · cases b.objectiveType <;> simp [ObjectiveType.curvature]
      · rw [List.getD_eq_getElem?_getD]
        by_cases hr : r < w.length
        · rw [List.getElem?_eq_getElem hr]; exact h.nonneg _ (List.getElem_mem hr)
        · rw [List.getElem?_eq_none (not_lt.1 hr)]; exact le_rfl
    have e3 : ((List.range X.rows).map fun r => b.objectiveType.curvature * w.getD r 0).sum =
        b.objectiveType.curvature * w.sum := by
      rw [List.sum_map_mul_left]
      congr 2
      refine List.ext_getElem (by simp [h.wlen]) fun i h1 h2 => ?_
      simp [h2]
    calc (rows.map (rowVals cfg.train.hess)).sum
        ≤ (rows.map fun r => b.objectiveType.curvature * w.getD r 0).sum :=
          List.sum_le_sum fun r hr => hle r (hA.trained.rows_lt r hr)
      _ ≤ ((List.range X.rows).map fun r => b.objectiveType.curvature * w.getD r 0).sum :=
          sum_rows_le hnn hA.trained.nodup hA.trained.rows_lt
      _ = b.objectiveType.curvature * w.sum := e3
      _ ≤ _ := by
        cases b.objectiveType with
        | squaredLoss => simp [ObjectiveType.curvature]
        | logLoss => simp only [ObjectiveType.curvature]; linarith
  refine ⟨hall, fun k hk => ?_⟩
  obtain ⟨v, hv⟩ := predictFold_single (missing := b'.missing) b'.baseScore
    (fun t ht => hall t (List.mem_of_mem_take (i := k) ht))
  exact ⟨v, fun Z => by rw [predict_firstTrees hk]; exact hv Z⟩

end

/-- `exSlow` with an l1 penalty of 15. -/
def exPenalised : Booster Q Q := { exSlow with l1 := q 15 }

/-- C123: the residuals at the base score 0 sum to 15 in absolute value; two trees are fitted. -/
example : ∃ b', PlainFit exEnv exPenalised boundZ [1, 4, 4, 4, 1, -1]
      (List.replicate 6 (1 : ℚ)) none b' 15 1 0 (3 / 2) ∧ exPenalised.objectiveType = .squaredLoss ∧
      exPenalised.sampleMethod ≠ .goss ∧ ((0 : Q) ≤ᶠ exPenalised.gamma) = true ∧ b'.baseScore = FX.fin 0 ∧
      (List.zipWith (fun y w => w * |y - 0|) [1, 4, 4, 4, 1, -1] (List.replicate 6 (1 : ℚ))).sum ≤ 15 ∧
      b'.trees.length = 2 := by
  have : (match exPenalised.fit exEnv boundZ ([1, 4, 4, 4, 1, -1].map q) (List.replicate 6 (q 1)) none with
    | .ok (b', .ok ()) => decide (b'.trees.length = 2 ∧ b'.baseScore = q 0)
    | _ => false) = true := by decide +kernel
  split at this
  · rename_i b' h
    obtain ⟨h0, h1⟩ := of_decide_eq_true this
    exact ⟨b', boundPlain rfl rfl rfl rfl (by norm_num) rfl rfl rfl rfl ⟨_, rfl⟩ rfl rfl rfl rfl
      (by decide +kernel) h, rfl, (fun e => nomatch e), by decide +kernel, h1, by decide +kernel, h0⟩
  · cases this

/-- With a penalty of 2 the first tree of the same booster has a split. -/
example : (match ({ exPenalised with l1 := q 2 } : Booster Q Q).fit exEnv boundZ ([1, 4, 4, 4, 1, -1].map q)
      (List.replicate 6 (q 1)) none with
    | .ok (b', .ok ()) => b'.trees.any fun t => decide (1 < t.nodes.length)
    | _ => false) = true := by decide +kernel

/-- `exSlow` with `min_leaf_weight` 7/2. -/
def exHeavy : Booster Q Q := { exSlow with minLeafWeight := q (7 / 2) }

/-- C123: six rows of weight 1 are less than twice 7/2; the leaf of the first tree is not 0. -/
example : ∃ b', PlainFit exEnv exHeavy boundZ [1, 4, 4, 4, 1, -1]
      (List.replicate 6 (1 : ℚ)) none b' (1 / 4) 1 0 (3 / 2) ∧ exHeavy.objectiveType = .squaredLoss ∧
      exHeavy.sampleMethod ≠ .goss ∧ exHeavy.minLeafWeight = FX.fin (7 / 2) ∧
      (List.replicate 6 (1 : ℚ)).sum < 2 * (7 / 2) ∧
      ({ b' with predictionIteration := some 1 }).predict boundZ =
        .ok (List.replicate 6 (q (153 / 56))) := by
  have : (match exHeavy.fit exEnv boundZ ([1, 4, 4, 4, 1, -1].map q) (List.replicate 6 (q 1)) none with
    | .ok (b', .ok ()) => decide (({ b' with predictionIteration := some 1 }).predict boundZ =
        .ok (List.replicate 6 (q (153 / 56))))
    | _ => false) = true := by decide +kernel
  split at this
  · rename_i b' h
    refine ⟨b', ?_, rfl, (fun e => nomatch e), rfl, by norm_num, of_decide_eq_true this⟩
    exact { sorter := exSorter_ok, rng := exRng_ok, shaped := rfl, ylen := rfl, wlen := rfl
            max := by decide +kernel
            minLeafWeight := by decide +kernel
            l1_eq := rfl, l2_eq := rfl, mds_eq := rfl, lr_eq := rfl, l2_nonneg := by norm_num
            positive := .inl (by norm_num), goss := (fun h => nomatch h), exp := (fun h => nomatch h)
            base := by rintro s rfl; exact ⟨_, rfl⟩
            fit := h }
  · cases this

end Verif
