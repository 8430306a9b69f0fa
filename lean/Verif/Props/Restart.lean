import Verif.Props.Nested
import Verif.Props.AverageBalance

/-!
# C151: squared-loss boosting can be interrupted and continued on the residuals
-/

set_option linter.unusedSectionVars false

namespace Verif

open scoped Verif

section
variable {K : Type} [Field K] [LinearOrder K] [IsStrictOrderedRing K] {m32 m64 : Fmt K}
  [m32.Exact] [m64.Exact]

/-- The difference of two lists of numbers, entry by entry. -/
def minus (a p : List K) : List K := List.zipWith (· - ·) a p

theorem minus_length {a p : List K} (h : a.length = p.length) : (minus a p).length = p.length := by
  simp [minus, h]

theorem minus_self : ∀ p : List K, minus p p = List.replicate p.length 0
  | [] => rfl
  | a :: p => by
    have := minus_self p
    unfold minus at *
    rw [List.zipWith_cons_cons, this, sub_self]
    rfl

/-- The derivatives of the squared loss depend on the residuals only. -/
theorem calcGradHess_minus : ∀ (y P p w : List K), y.length = p.length → P.length = p.length →
    calcGradHess (F := FX m32) .squaredLoss ((minus y p).map FX.fin : List (FX m64)) ((minus P p).map FX.fin)
        (w.map FX.fin) =
      calcGradHess .squaredLoss (y.map FX.fin : List (FX m64)) (P.map FX.fin) (w.map FX.fin) := by
  intro y P p w hy hP
  unfold calcGradHess
  congr 1
  induction p generalizing y P w with
  | nil =>
    obtain rfl : y = [] := List.length_eq_zero_iff.1 hy
    rfl
  | cons c p ih =>
    cases y with
    | nil => simp at hy
    | cons a y =>
    cases P with
    | nil => simp at hP
    | cons d P =>
    cases w with
    | nil => simp [zip3]
    | cons e w =>
    have := ih y P w (by simpa using hy) (by simpa using hP)
    simp only [minus, zip3, List.zipWith_cons_cons, List.map_cons, List.zip_cons_cons] at this ⊢
    rw [this]
    simp only [squaredLossGrad, squaredLossHess, FX.fin_sub, sub_sub_sub_cancel_right]

theorem addPreds_minus : ∀ {a a' p : List K} {l : List (FX m64)},
    (a'.map FX.fin : List (FX m64)) = addPreds (a.map FX.fin) l →
    ((minus a' p).map FX.fin : List (FX m64)) = addPreds ((minus a p).map FX.fin) l
  | [], a', p, l, h => by
    have : a'.map FX.fin = ([] : List (FX m64)) := by rw [h]; cases l <;> rfl
    rw [List.map_eq_nil_iff] at this
    subst this
    cases l <;> simp [minus, addPreds]
  | x :: a, a', p, [], h => by
    have h : a'.map FX.fin = ((x :: a).map FX.fin : List (FX m64)) := h
    have : a' = x :: a := by
      refine List.map_injective_iff.2 ?_ h
      intro u v huv
      injection huv
    rw [this]
    unfold minus
    cases p <;> rfl
  | x :: a, [], p, z :: l, h => by simp [addPreds] at h
  | x :: a, x' :: a', [], z :: l, h => by simp [minus, addPreds]
  | x :: a, x' :: a', c :: p, z :: l, h => by
    simp only [List.map_cons, addPreds, List.cons.injEq] at h
    have := addPreds_minus (p := p) h.2
    unfold minus at this ⊢
    simp only [List.zipWith_cons_cons, List.map_cons, addPreds, this, List.cons.injEq, and_true]
    cases z with
    | nan => exact absurd h.1 (by intro h; cases h)
    | ninf => exact absurd h.1 (by intro h; cases h)
    | pinf => exact absurd h.1 (by intro h; cases h)
    | fin z =>
      have h1 := h.1
      rw [FX.fin_add] at h1
      injection h1 with h1
      rw [FX.fin_add, h1]
      congr 1
      ring

theorem fitLoop_of_steps {R : Type} {env : Env R (FX m32) (FX m64)} {X : Matrix (FX m64)} {y w : List (FX m64)}
    {sp : Splitter (FX m32)} {bd : Matrix Nat} {cuts : JaggedMatrix (FX m64)}
    {st : Nat → FitState R (FX m32) (FX m64)} : ∀ (m i : Nat),
    (∀ k, i ≤ k → k < i + m → fitIteration env X y w sp bd cuts k (st k) = .ok (st (k + 1), false)) →
    fitLoop env X y w sp bd cuts m i (st i) = .ok (st (i + m))
  | 0, i, _ => rfl
  | m + 1, i, h => by
    rw [fitLoop, h i (le_refl _) (by omega), Res.ok_bind]
    simp only [Bool.false_eq_true, if_false]
    rw [fitLoop_of_steps m (i + 1) fun k h1 h2 => h k (by omega) (by omega)]
    congr 2
    omega

/-- The booster that goes on for `m` iterations from nothing, with the base score 0. -/
def Booster.onward (b : Booster (FX m32) (FX m64)) (m : Nat) : Booster (FX m32) (FX m64) :=
  { b with iterations := m, initializeBaseScore := false, baseScore := FX.fin 0 }

/-! ### C151 -/

/-- C151.  Exact arithmetic, squared loss, no sampling.  The trees grown after the first `n` are the trees of a fit
with the base score 0 to the residuals of the model with `n` trees: what the targets exceed its predictions by.  The
heap picks among equal gains as it did in the later iterations; the generator does not matter. -/
theorem C151_trees {R R' : Type} {env : Env R (FX m32) (FX m64)} {env' : Env R' (FX m32) (FX m64)}
    {b b' : Booster (FX m32) (FX m64)} {X : Matrix (FX m64)} {y w : List K}
    {ev : Option (List (EvalSet (FX m64)))} {l1 l2 mds lr : K}
    (h : PlainFit env b X y w ev b' l1 l2 mds lr) (ho : b.objectiveType = .squaredLoss)
    (hs : b.sampleMethod = .none) (hc : (b.colsampleBytree =ᶠ 1) = true) {n : Nat} (hn : n ≤ b'.trees.length)
    (hS : env'.sorter = env.sorter) (hH : ∀ k, env'.heap k = env.heap (n + k)) {p : List K}
    (hp : ({ b' with predictionIteration := some n }).predict X = .ok (p.map FX.fin)) :
    ∃ c', (b.onward (b'.trees.length - n)).fit env' X ((minus y p).map FX.fin) (w.map FX.fin) none =
        .ok (c', .ok ()) ∧ c'.trees = b'.trees.drop n ∧ c'.baseScore = FX.fin 0 := by
  obtain ⟨base, binned, st, stop, N, hT⟩ := Booster.fit_trace h.fit
  rw [hT.length] at hn ⊢
  have hf := hT.final
  unfold Booster.SameParams at hf
  have hlen : ∀ k ≤ N, (st k).yhat.length = X.rows := fun k hk => by
    rw [predictFold_length (hT.yhat k hk), List.length_replicate, List.length_map, h.ylen]
  have hpn : (st n).yhat = p.map FX.fin := by
    have h1 := predict_prefix (b := b') (k := n) (n := (y.map FX.fin : List (FX m64)).length) (data := X)
      (by rw [List.length_map, h.ylen]) (base := base) (by rw [hf])
      (by rw [hT.length]; omega) (by rw [show b'.missing = b.missing by rw [hf]]; exact hT.yhat n hn)
    rw [hp] at h1
    injection h1 with h1
    exact h1.symm
  have hplen : p.length = X.rows := by
    have := hlen n hn
    rw [hpn, List.length_map] at this
    exact this
  have hP : ∀ k, ∃ P : List K, k ≤ N → (st k).yhat = P.map FX.fin := fun k => by
    by_cases hk : k ≤ N
    · obtain ⟨P, hP⟩ := h.yhat hT k hk
      exact ⟨P, fun _ => hP⟩
    · exact ⟨[], fun h => absurd h hk⟩
  choose P hPP using hP
  have hPlen : ∀ k ≤ N, (P k).length = p.length := fun k hk => by
    have := hlen k hk
    rw [hPP k hk, List.length_map] at this
    rw [this, hplen]
  have hPn : P n = p := by
    have := (hPP n hn).symm.trans hpn
    refine List.map_injective_iff.2 ?_ this
    intro u v huv
    injection huv
  let c := b.onward (N - n)
  have hcs := c.start_eq
  let gh := fun k => calcGradHess (F := FX m32) .squaredLoss ((minus y p).map FX.fin : List (FX m64))
    ((minus (P (n + k)) p).map FX.fin) (w.map FX.fin)
  let st' : Nat → FitState R' (FX m32) (FX m64) := fun k =>
    { booster := { c.start with baseScore := FX.fin 0, trees := (b'.trees.drop n).take k }
      yhat := (minus (P (n + k)) p).map FX.fin
      grad := (gh k).1, hess := (gh k).2
      evals := none, best := none, rng := env'.rng.seed c.seed }
  have hgh : ∀ k, n + k < N → ((st (n + k)).grad, (st (n + k)).hess) = gh k := fun k hk => by
    rw [hT.grad _ hk, ho, hPP _ hk.le]
    exact (calcGradHess_minus y (P (n + k)) p w (by rw [h.ylen, hplen]) (hPlen _ hk.le)).symm
  have hstep : ∀ k, 0 ≤ k → k < 0 + (N - n) →
      fitIteration env' X ((minus y p).map FX.fin) (w.map FX.fin) b.splitter
        { data := binned.binned, rows := X.rows, cols := X.cols } binned.cuts k (st' k) =
        .ok (st' (k + 1), false) := by
    intro k _ hk
    have hk : n + k < N := by omega
    obtain ⟨cfg, chosen, tree, preds, hI⟩ := fitIteration_ok (hT.step _ hk)
    have hsame := hT.same (n + k) hk.le
    unfold Booster.SameParams at hsame
    obtain ⟨r1, r2, a1, a2, -⟩ := hI.sample
    rw [show (st (n + k)).booster.sampleMethod = .none by rw [hsame]; exact hs] at a1
    simp only [sampleIndex, Res.ok.injEq, Prod.mk.injEq] at a1
    obtain ⟨e1, e2, e3, e4⟩ := a1
    rw [show (st (n + k)).booster.colsampleBytree = b.colsampleBytree by rw [hsame], sampleColumns,
      if_pos hc] at a2
    simp only [Prod.mk.injEq] at a2
    have hg := hgh k hk
    simp only [Prod.ext_iff] at hg
    have htree := hI.tree_eq
    rw [show (st (n + k)).booster.sampleMethod = .none by rw [hsame]; exact hs, ← e1, hI.cfg_eq, ← e2, ← e3,
      ← a2.1, show (st (n + k)).booster.maxLeaves = b.maxLeaves by rw [hsame],
      show (st (n + k)).booster.maxDepth = b.maxDepth by rw [hsame],
      show (st (n + k)).booster.growPolicy = b.growPolicy by rw [hsame], ← hH k, hg.1, hg.2] at htree
    have hpreds := hI.preds_eq
    rw [show (st (n + k)).booster.missing = b.missing by rw [hsame]] at hpreds
    have f1 : (st' k).booster.sampleMethod = .none := by
      show c.start.sampleMethod = _; rw [hcs]; exact hs
    have f2 : (st' k).booster.colsampleBytree = b.colsampleBytree := by
      show c.start.colsampleBytree = _; rw [hcs]; rfl
    have f3 : (st' k).booster.maxLeaves = b.maxLeaves := by show c.start.maxLeaves = _; rw [hcs]; rfl
    have f4 : (st' k).booster.maxDepth = b.maxDepth := by show c.start.maxDepth = _; rw [hcs]; rfl
    have f5 : (st' k).booster.growPolicy = b.growPolicy := by show c.start.growPolicy = _; rw [hcs]; rfl
    have f6 : (st' k).booster.missing = b.missing := by show c.start.missing = _; rw [hcs]; rfl
    have f7 : c.start.objectiveType = .squaredLoss := by rw [hcs]; exact ho
    unfold fitIteration
    simp only [f1, f2, f3, f4, f5, f6, sampleIndex, Res.ok_bind, sampleColumns, if_pos hc]
    rw [show (st' k).grad = (gh k).1 from rfl, show (st' k).hess = (gh k).2 from rfl, htree]
    simp only [Res.ok_bind]
    rw [hpreds]
    have htk : (b'.trees.drop n)[k]? = some tree := by
      rw [List.getElem?_drop]
      have x1 := hT.trees (n + k + 1) (by omega)
      rw [hI.trees_eq, hT.trees (n + k) hk.le] at x1
      have l1 : n + k < b'.trees.length := by rw [hT.length]; omega
      have y1 := congrArg (·[n + k]?) x1
      simp [List.getElem?_append, List.length_take, Nat.min_eq_left l1.le, List.getElem?_take] at y1
      rw [← y1]
    have hy' : addPreds (st' k).yhat preds = (st' (k + 1)).yhat := by
      have hy := hI.yhat_eq
      rw [hPP _ hk.le, hPP _ (show n + k + 1 ≤ N by omega)] at hy
      exact (addPreds_minus hy).symm
    simp only [Res.ok_bind, hy']
    rw [show (st' k).evals = none from rfl]
    simp only [evalSets, Res.ok_bind]
    simp only [Bool.false_eq_true, if_false]
    have hb' : ({ (st' k).booster with trees := (st' k).booster.trees ++ [tree] } : Booster (FX m32) (FX m64)) =
        (st' (k + 1)).booster := by
      show ({ c.start with baseScore := FX.fin 0, trees := (b'.trees.drop n).take k ++ [tree] } :
        Booster (FX m32) (FX m64)) = { c.start with baseScore := FX.fin 0, trees := (b'.trees.drop n).take (k + 1) }
      rw [List.take_add_one, htk]
      rfl
    rw [hb']
    show Res.ok (_, false) = Res.ok (st' (k + 1), false)
    have : calcGradHess (F := FX m32) (st' (k + 1)).booster.objectiveType
        ((minus y p).map FX.fin : List (FX m64)) (st' (k + 1)).yhat (w.map FX.fin) = gh (k + 1) := by
      show calcGradHess c.start.objectiveType _ _ _ = _
      rw [f7]
    rw [this]
  have hloop := fitLoop_of_steps (N - n) 0 hstep
  rw [Nat.zero_add] at hloop
  have hstart : st' 0 = fitStart env' { c.start with baseScore := FX.fin 0 } ((minus y p).map FX.fin) (w.map FX.fin)
      none := by
    have hz : ((minus (P (n + 0)) p).map FX.fin : List (FX m64)) =
        List.replicate ((minus y p).map FX.fin : List (FX m64)).length (FX.fin 0) := by
      rw [Nat.add_zero, hPn, minus_self, List.map_replicate, List.length_map,
        minus_length (by rw [h.ylen, hplen])]
    have ht : (b'.trees.drop n).take 0 = c.start.trees := by rw [hcs]; rfl
    have ho' : c.start.objectiveType = .squaredLoss := by rw [hcs]; exact ho
    have hsd : c.start.seed = c.seed := by rw [hcs]
    unfold fitStart
    simp only [st', gh, hz, ht, ho', hsd]
    rfl
  refine ⟨(st' (N - n)).booster, ?_, ?_, rfl⟩
  · unfold Booster.fit
    have hv : validateFit ((minus y p).map FX.fin : List (FX m64)) (w.map FX.fin) none = .ok () := by
      have hv := hT.valid
      rw [validateFit_ok] at hv ⊢
      rintro (hb | hb | hb)
      · obtain ⟨v, hv, hnan⟩ := hb
        obtain ⟨u, -, rfl⟩ := List.mem_map.1 hv
        simp at hnan
      · exact hv (.inr (.inl hb))
      · simp at hb
    rw [hv]
    have : fitTrees env' c X ((minus y p).map FX.fin) (w.map FX.fin) c.splitter none =
        .ok (st' (N - n)).booster := by
      rw [fitTrees_eq_ok]
      refine ⟨FX.fin 0, binned, st' (N - n), ?_, ?_, ?_, rfl⟩
      · show if false = true then _ else _
        simp only [Bool.false_eq_true, if_false]
        rfl
      · rw [hS]; exact hT.bin_eq
      · rw [← hstart]; exact hloop
    show (fitTrees env' c X _ _ c.splitter none >>= _) = _
    rw [this]
    rfl
  · show (b'.trees.drop n).take (N - n) = _
    rw [List.take_of_length_le (by rw [List.length_drop, hT.length])]

theorem fin_add_assoc (u : K) (x z : FX m64) : (FX.fin u + x) + z = FX.fin u + (x + z) := by
  cases x <;> cases z <;> first
    | rfl
    | (rw [FX.fin_add]; rfl)
    | (simp only [FX.fin_add]; congr 1; ring)

theorem addPreds_zip : ∀ (u : List K) (v l : List (FX m64)),
    addPreds (List.zipWith (· + ·) (u.map FX.fin) v) l = List.zipWith (· + ·) (u.map FX.fin) (addPreds v l)
  | [], v, l => by cases l <;> simp [addPreds]
  | a :: u, [], l => by cases l <;> simp [addPreds]
  | a :: u, x :: v, [] => by simp [addPreds]
  | a :: u, x :: v, z :: l => by
    simp only [List.map_cons, List.zipWith_cons_cons, addPreds, addPreds_zip u v l, fin_add_assoc]

theorem predictFold_zip {missing : FX m64} {Z : Matrix (FX m64)} (u : List K) :
    ∀ (ts : List (Tree (FX m32) (FX m64))) (v : List (FX m64)),
      predictFold missing Z (List.zipWith (· + ·) (u.map FX.fin) v) ts =
        (predictFold missing Z v ts >>= fun r => .ok (List.zipWith (· + ·) (u.map FX.fin) r))
  | [], v => rfl
  | t :: ts, v => by
    unfold predictFold
    rw [Res.foldM'_cons, Res.foldM'_cons, Res.bind_assoc', Res.bind_assoc', Res.bind_assoc']
    refine Res.bind_congr fun l _ => ?_
    simp only [Res.ok_bind, addPreds_zip]
    exact predictFold_zip u ts _

theorem predictFold_fin {missing : FX m64} {Z : Matrix (FX m64)} :
    ∀ {ts : List (Tree (FX m32) (FX m64))} {v out : List (FX m64)}, (∀ t ∈ ts, t.FiniteValues) → AllFin v →
      predictFold missing Z v ts = .ok out → AllFin out
  | [], v, out, _, hv, h => by
    simp only [predictFold, Res.foldM', Res.ok.injEq] at h
    rw [← h]; exact hv
  | t :: ts, v, out, ht, hv, h => by
    unfold predictFold at h
    rw [Res.foldM'_cons, Res.bind_eq_ok] at h
    obtain ⟨a, h1, h2⟩ := h
    rw [Res.bind_eq_ok] at h1
    obtain ⟨l, h3, h4⟩ := h1
    simp only [Res.ok.injEq] at h4
    subst h4
    exact predictFold_fin (fun t h => ht t (by simp [h])) (addPreds_fin hv (predict_fin (ht t (by simp)) h3)) h2

theorem predict_fold {b : Booster (FX m32) (FX m64)} {n : Nat} (hn : n ≤ b.trees.length) (Z : Matrix (FX m64)) :
    ({ b with predictionIteration := some n }).predict Z =
      predictFold b.missing Z (List.replicate Z.rows b.baseScore) (b.trees.take n) := by
  unfold Booster.predict Booster.predictionTrees
  simp only [Option.getD_some, if_pos hn, Res.ok_bind]
  rfl

theorem predict_fold_all {b : Booster (FX m32) (FX m64)} (Z : Matrix (FX m64)) :
    ({ b with predictionIteration := none }).predict Z =
      predictFold b.missing Z (List.replicate Z.rows b.baseScore) b.trees := by
  unfold Booster.predict Booster.predictionTrees
  simp only [Option.getD_none, if_pos (le_refl _), Res.ok_bind, List.take_length]
  rfl

/-- C151.  The predictions of the whole model, for any data, are those of its first `n` trees plus those of the model
fitted to the residuals. -/
theorem C151_predict {R R' : Type} {env : Env R (FX m32) (FX m64)} {env' : Env R' (FX m32) (FX m64)}
    {b b' c' : Booster (FX m32) (FX m64)} {X : Matrix (FX m64)} {y w : List K}
    {ev : Option (List (EvalSet (FX m64)))} {l1 l2 mds lr : K}
    (h : PlainFit env b X y w ev b' l1 l2 mds lr) (ho : b.objectiveType = .squaredLoss)
    (hs : b.sampleMethod = .none) (hc : (b.colsampleBytree =ᶠ 1) = true) {n : Nat} (hn : n ≤ b'.trees.length)
    (hS : env'.sorter = env.sorter) (hH : ∀ k, env'.heap k = env.heap (n + k)) {p : List K}
    (hp : ({ b' with predictionIteration := some n }).predict X = .ok (p.map FX.fin))
    (hc' : (b.onward (b'.trees.length - n)).fit env' X ((minus y p).map FX.fin) (w.map FX.fin) none =
      .ok (c', .ok ())) (Z : Matrix (FX m64)) {u : List (FX m64)}
    (hu : ({ b' with predictionIteration := some n }).predict Z = .ok u) :
    ({ b' with predictionIteration := none }).predict Z =
      (({ c' with predictionIteration := none }).predict Z >>= fun v => .ok (List.zipWith (· + ·) u v)) := by
  obtain ⟨c, h1, h2, h3⟩ := C151_trees h ho hs hc hn hS hH hp
  rw [hc'] at h1
  simp only [Res.ok.injEq, Prod.mk.injEq, and_true] at h1
  subst h1
  obtain ⟨base, binned, st, stop, N, hT⟩ := Booster.fit_trace h.fit
  have hf := hT.final
  unfold Booster.SameParams at hf
  obtain ⟨base2, binned2, st2, stop2, N2, hT2⟩ := Booster.fit_trace hc'
  have hf2 := hT2.final
  unfold Booster.SameParams at hf2
  have hm : c'.missing = b'.missing := by rw [hf, hf2]; rfl
  have hbase : b'.baseScore.IsFin := by rw [hf]; exact h.base base hT.base_eq
  rw [predict_fold hn] at hu
  have hfin : AllFin u := predictFold_fin
    (fun t ht => h.explainable.values t (List.mem_of_mem_take ht))
    (fun x hx => by rw [(List.mem_replicate.1 hx).2]; exact hbase) hu
  have hul := predictFold_length hu
  rw [List.length_replicate] at hul
  obtain ⟨u, rfl⟩ := hfin.eq_map
  rw [predict_fold_all, predict_fold_all, h2, h3, hm, ← predictFold_zip]
  conv_lhs => rw [← List.take_append_drop n b'.trees]
  unfold predictFold at hu ⊢
  rw [Res.foldM'_append, hu, Res.ok_bind]
  congr 1
  rw [List.length_map] at hul
  rw [← hul]
  clear hul hu hfin
  induction u with
  | nil => rfl
  | cons a u ih =>
    rw [List.map_cons, List.length_cons, List.replicate_succ, List.zipWith_cons_cons, ← ih, FX.fin_add, add_zero]

end

/-! ### The hypotheses are met -/

/-- Two trees of depth 2: the second is the tree of a fit to the residuals of the first. -/
example : ∃ b' c' : Booster Q Q, PlainFit exEnv (exDepth 2) exAnd [0, 0, 0, 4] [(1 : ℚ), 2, 1, 3] none b' 0 0 0
      (1/2) ∧ (exDepth 2).objectiveType = .squaredLoss ∧ (exDepth 2).sampleMethod = .none ∧
      ((exDepth 2).colsampleBytree =ᶠ 1) = true ∧ 1 ≤ b'.trees.length ∧
      (∀ k, exEnv.heap k = exEnv.heap (1 + k)) ∧
      ({ b' with predictionIteration := some 1 }).predict exAnd = .ok [q (1/4), q (1/4), q (1/4), q (9/4)] ∧
      ((exDepth 2).onward 1).fit exEnv exAnd [q (-1/4), q (-1/4), q (-1/4), q (7/4)] [q 1, q 2, q 1, q 3] none =
        .ok (c', .ok ()) ∧ c'.trees = b'.trees.drop 1 ∧
      c'.predict exAnd = .ok [q (-1/8), q (-1/8), q (-1/8), q (7/8)] := by
  have : (match (exDepth 2).fit exEnv exAnd [q 0, q 0, q 0, q 4] [q 1, q 2, q 1, q 3] none,
      ((exDepth 2).onward 1).fit exEnv exAnd [q (-1/4), q (-1/4), q (-1/4), q (7/4)] [q 1, q 2, q 1, q 3] none with
    | .ok (b', .ok ()), .ok (c', .ok ()) => decide (1 ≤ b'.trees.length ∧
      ({ b' with predictionIteration := some 1 }).predict exAnd = .ok [q (1/4), q (1/4), q (1/4), q (9/4)] ∧
      c'.trees = b'.trees.drop 1 ∧ c'.predict exAnd = .ok [q (-1/8), q (-1/8), q (-1/8), q (7/8)])
    | _, _ => false) = true := by decide +kernel
  split at this
  · rename_i b' c' h h'
    obtain ⟨a1, a2, a3, a4⟩ := of_decide_eq_true this
    exact ⟨b', c', exWeighted_plain h, rfl, rfl, by decide +kernel, a1, fun _ => rfl, a2, h', a3, a4⟩
  · cases this

end Verif
