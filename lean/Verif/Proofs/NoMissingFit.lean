import Verif.Proofs.NoMissing
import Verif.Proofs.Evals

/-!
# Fits with and without a missing branch on data without missing values
-/

namespace Verif

open scoped Verif

set_option linter.unusedSectionVars false

section
variable {R F D : Type} [Fl F] [Fl D] [FlCast F D]

/-- The same booster with a missing branch and other trees. -/
def Booster.branchy (b : Booster F D) (ts : List (Tree F D)) : Booster F D :=
  { b with createMissingBranch := true, trees := ts }

theorem earlyStopUpdate_branchy (b : Booster F D) (ts : List (Tree F D)) (i : Nat) (m : D)
    (mx : Bool) (best : Option D) (stop : Bool) :
    earlyStopUpdate (b.branchy ts) i m mx best stop =
      ((earlyStopUpdate b i m mx best stop).1.branchy ts, (earlyStopUpdate b i m mx best stop).2) := by
  unfold earlyStopUpdate
  cases h : b.earlyStoppingRounds with
  | none => simp [Booster.branchy, h]
  | some r =>
    cases best with
    | none => simp [Booster.branchy, h, Booster.updateBestIteration]
    | some v =>
      cases hb : b.bestIteration <;> by_cases hc : isComparisonBetter v m mx = true <;>
        simp [Booster.branchy, h, Booster.updateBestIteration, hb, hc]

theorem evalLoop_branchy {S : Sorter} {t t' : Tree F D} {Q : Matrix D → Prop} {missing : D}
    (ht : ∀ Z, Q Z → t'.predict Z missing = t.predict Z missing) (i n : Nat)
    (ts : List (Tree F D)) : ∀ (l : List (TrainEval D)) (k : Nat) (b : Booster F D) (best : Option D)
      (stop : Bool), b.missing = missing → (∀ e ∈ l, Q e.data) → evalLoop S t' i n l k (b.branchy ts) best stop =
        evalLoop S t i n l k b best stop >>= fun r =>
          Res.ok (r.1, r.2.1, r.2.2.1.branchy ts, r.2.2.2) := by
  intro l
  induction l with
  | nil => intro k b best stop _ _; rfl
  | cons e l ih =>
    intro k b best stop hm hQ
    have hm' : (b.branchy ts).metric = b.metric := rfl
    have hq : ∀ e ∈ l, Q e.data := fun e he => hQ e (List.mem_cons_of_mem _ he)
    rw [evalLoop, evalLoop]
    simp only [Res.bind_assoc', hm', show (b.branchy ts).missing = b.missing from rfl,
      earlyStopUpdate_branchy, hm, ht e.data (hQ e List.mem_cons_self)]
    congr 1
    funext preds
    congr 1
    funext m
    have hm2 : (earlyStopUpdate b i m b.metric.maximize best stop).1.missing = missing := by
      have := (earlyStopUpdate_same b i m b.metric.maximize best stop).1
      unfold Booster.SameParams at this
      rw [← hm, this]
    by_cases hk : k + 1 = n
    · simp only [if_pos hk, ih _ _ _ _ hm2 hq, Res.bind_assoc', Res.ok_bind]
    · simp only [if_neg hk, ih _ _ _ _ hm hq, Res.bind_assoc', Res.ok_bind]

theorem evalSets_branchy {S : Sorter} {t t' : Tree F D} {Q : Matrix D → Prop} {b : Booster F D}
    (ht : ∀ Z, Q Z → t'.predict Z b.missing = t.predict Z b.missing) (i : Nat)
    (ts : List (Tree F D)) {es : Option (List (TrainEval D))} (hQ : ∀ l, es = some l → ∀ e ∈ l, Q e.data)
    (best : Option D) :
    evalSets S t' i (b.branchy ts) es best =
      evalSets S t i b es best >>= fun r => Res.ok (r.1.branchy ts, r.2) := by
  cases es with
  | none => rfl
  | some es =>
    have hw : withHistory (b.branchy ts) es.length = (withHistory b es.length).branchy ts := by
      unfold withHistory
      cases h : b.evaluationHistory <;> simp [Booster.branchy, h]
    have hm : (withHistory b es.length).missing = b.missing := by
      unfold withHistory
      cases h : b.evaluationHistory <;> rfl
    rw [evalSets, evalSets, hw, evalLoop_branchy ht i _ ts _ _ _ _ _ hm (hQ es rfl)]
    simp only [Res.bind_assoc']
    congr 1
    funext r
    have ha : ∀ (b : Booster F D) ms, appendHistory (b.branchy ts) ms =
        appendHistory b ms >>= fun b => Res.ok (b.branchy ts) := by
      intro b ms
      unfold appendHistory
      cases h : b.evaluationHistory with
      | none => simp [Booster.branchy, h, Res.pure_def, Res.ok_bind]
      | some hist =>
        simp only [Booster.branchy, h, Res.bind_assoc', Res.pure_def, Res.ok_bind]
    simp only [Res.ok_bind, ha, Res.bind_assoc']

/-- The evaluation sets keep their data. -/
theorem evalSets_keeps_data {S : Sorter} {t : Tree F D} {i : Nat} {b b' : Booster F D} {Q : Matrix D → Prop}
    {es es' : Option (List (TrainEval D))} {best best' : Option D} {stop : Bool}
    (h : evalSets S t i b es best = .ok (b', es', best', stop))
    (hQ : ∀ l, es = some l → ∀ e ∈ l, Q e.data) : ∀ l, es' = some l → ∀ e ∈ l, Q e.data := by
  cases es with
  | none =>
    simp only [evalSets, Res.ok.injEq, Prod.mk.injEq] at h
    obtain ⟨_, rfl, _⟩ := h
    intro l hl; cases hl
  | some es =>
    rw [evalSets] at h
    simp only [Res.bind_eq_ok] at h
    obtain ⟨⟨es2, ms, b2, best2, stop2⟩, h1, b3, h2, h3⟩ := h
    simp only [Res.ok.injEq, Prod.mk.injEq] at h3
    obtain ⟨_, rfl, _⟩ := h3
    have : List.Forall₂ (fun e e' : TrainEval D => e'.toEvalSet = e.toEvalSet) es es2 :=
      (evalLoop_ok es 0 _ _ _ _ _ _ _ _ (by simp) h1).1.imp fun _ _ h => h.1
    intro l hl e he
    cases hl
    have hq := hQ es rfl
    clear h1 h2 hQ
    induction this with
    | nil => cases he
    | cons hd _ ih =>
      rename_i a a' l l' _
      rcases List.mem_cons.1 he with rfl | he
      · rw [show e.data = a.data from congrArg EvalSet.data hd]
        exact hq a List.mem_cons_self
      · exact ih he fun e he => hq e (List.mem_cons_of_mem _ he)

theorem fitIteration_branchy {env : Env R F D}
    {data : Matrix D} {y w : List D} {sp sp' : Splitter F} {bdata : Matrix Nat}
    {cuts : JaggedMatrix D} {i : Nat} {s s1 s1' : FitState R F D} {stop stop' : Bool}
    {ts : List (Tree F D)} {Q : Matrix D → Prop} (hD : Q data)
    (hE : ∀ l, s.evals = some l → ∀ e ∈ l, Q e.data)
    (h : fitIteration env data y w sp bdata cuts i s = .ok (s1, stop))
    (h' : fitIteration env data y w sp' bdata cuts i { s with booster := s.booster.branchy ts } =
      .ok (s1', stop'))
    (H : ∀ (cfg : GrowCfg F D) rows r1 r2 r3 t t',
      sampleIndex env.sorter env.rng s.booster.sampleMethod s.booster.subsample s.booster.topRate
        s.booster.otherRate r1 data.index s.grad s.hess = .ok (rows, cfg.train.grad, cfg.train.hess, r2) →
      sampleColumns env.rng s.booster.colsampleBytree r2 data.cols = (cfg.train.colIndex, r3) →
      cfg.splitter = sp → cfg.train.data = bdata → cfg.train.cuts = cuts →
      cfg.maxLeaves = s.booster.maxLeaves → cfg.maxDepth = s.booster.maxDepth →
      cfg.policy = s.booster.growPolicy → cfg.heap = env.heap i →
      Tree.fit cfg s.booster.sampleMethod rows = .ok t →
      Tree.fit { cfg with splitter := sp' } s.booster.sampleMethod rows = .ok t' →
      s1.booster.trees = s.booster.trees ++ [t] → t' ∈ s1'.booster.trees →
      ∀ Z, Q Z → t'.predict Z s.booster.missing = t.predict Z s.booster.missing) :
    stop' = stop ∧ (∀ l, s1.evals = some l → ∀ e ∈ l, Q e.data) ∧
      ∃ t t', s1.booster.trees = s.booster.trees ++ [t] ∧
      s1' = { s1 with booster := s1.booster.branchy (ts ++ [t']) } ∧
      ∀ Z, Q Z → t'.predict Z s.booster.missing = t.predict Z s.booster.missing := by
  simp only [fitIteration] at h h'
  rw [Res.bind_eq_ok] at h h'
  obtain ⟨⟨chosen, grad, hess, r1⟩, h1, h⟩ := h
  obtain ⟨x, h1', h'⟩ := h'
  have : x = (chosen, grad, hess, r1) := by
    rw [show sampleIndex env.sorter env.rng (s.booster.branchy ts).sampleMethod
      (s.booster.branchy ts).subsample (s.booster.branchy ts).topRate (s.booster.branchy ts).otherRate
      s.rng data.index s.grad s.hess = sampleIndex env.sorter env.rng s.booster.sampleMethod
      s.booster.subsample s.booster.topRate s.booster.otherRate s.rng data.index s.grad s.hess from rfl,
      h1] at h1'
    cases h1'; rfl
  subst this
  simp only [show (s.booster.branchy ts).colsampleBytree = s.booster.colsampleBytree from rfl] at h h'
  generalize hsc : sampleColumns env.rng s.booster.colsampleBytree r1 data.cols = sc at h h'
  obtain ⟨colIndex, r2⟩ := sc
  simp only [Res.bind_eq_ok] at h h'
  obtain ⟨t, ht, preds, hp, ⟨b1, ev1, best1, st1⟩, he, h⟩ := h
  obtain ⟨t', ht', preds', hp', ⟨b1', ev1', best1', st1'⟩, he', h'⟩ := h'
  have e1 : s1.booster.trees = s.booster.trees ++ [t] := by
    rw [← (evalSets_same he).2]
    split at h <;> (cases h; rfl)
  have e2 : t' ∈ s1'.booster.trees := by
    split at h' <;> (cases h'; simp)
  have hpred := H _ _ _ _ _ t t' h1 hsc rfl rfl rfl rfl rfl rfl rfl ht ht' e1 e2
  have hpp : preds' = preds := by
    rw [show (s.booster.branchy ts).missing = s.booster.missing from rfl, hpred _ hD, hp] at hp'
    cases hp'; rfl
  subst hpp
  have hev := evalSets_keeps_data he hE
  simp only [evalSets_branchy hpred i ts hE, he, Res.ok_bind, Res.ok.injEq, Prod.mk.injEq] at he'
  obtain ⟨rfl, rfl, rfl, rfl⟩ := he'
  refine ⟨?_, ?_, t, t', e1, ?_, hpred⟩
  · cases st1
    · simp only [Bool.false_eq_true, if_false] at h h'; cases h; cases h'; rfl
    · simp only [if_true] at h h'; cases h; cases h'; rfl
  · cases st1
    · simp only [Bool.false_eq_true, if_false] at h; cases h; exact hev
    · simp only [if_true] at h; cases h; exact hev
  · cases st1
    · simp only [Bool.false_eq_true, if_false] at h h'; cases h; cases h'; rfl
    · simp only [if_true] at h h'; cases h; cases h'; rfl

end

section
variable {K : Type} [Field K] [LinearOrder K] [IsStrictOrderedRing K] {m32 m64 : Fmt K}
  [m32.Exact] [m64.Exact] {R : Type}
  {env : Env R (FX m32) (FX m64)} {b b' : Booster (FX m32) (FX m64)} {X : Matrix (FX m64)}
  {y w : List K} {ev : Option (List (EvalSet (FX m64)))} {l1 l2 mds lr : K}

/-- `PlainFit.tree_of` for a given configuration. -/
theorem PlainFit.tree_with (h : PlainFit env b X y w ev b' l1 l2 mds lr) {base : FX m64}
    {binned : BinnedData (FX m64)} {st : Nat → FitState R (FX m32) (FX m64)} {stop : Nat → Bool} {N : Nat}
    (hT : FitTrace env b X (y.map FX.fin) (w.map FX.fin) ev b' base binned st stop N) {k : Nat}
    {t : Tree (FX m32) (FX m64)} (ht : b'.trees[k]? = some t) {p : List K}
    (hp : (st k).yhat = p.map FX.fin) {cfg : GrowCfg (FX m32) (FX m64)} {rows : List Nat}
    (hA : TreeAt env b X (y.map FX.fin) (w.map FX.fin) binned (st k).yhat k t cfg rows) :
    PlainTree env b X y w l1 l2 mds lr binned p k t cfg rows := by
  obtain ⟨a1, a2⟩ := hT.trainedOn h.sorter h.rng h.shaped (by simpa using h.ylen) h.wlen h.max
    h.minLeafWeight ht hA
  rw [hp] at hA a1
  obtain ⟨r1, r2, hs⟩ := hA.sample
  obtain ⟨c1, c2⟩ := calcGradHess_fin (m32 := m32) h.exp y p w h.nonneg
  obtain ⟨d1, d2⟩ := sampleIndex_fin h.goss hs c1 c2
  have htr := a2 _ _ d1.finRows d2.fin.finRows
  have hnn : ∀ r ∈ rows, 0 ≤ rowVals cfg.train.hess r := fun r _ => d2.rowVals r
  have hP : PlainParams cfg (rowVals cfg.train.hess) rows l1 l2 mds lr := by
    refine ⟨?_, ?_, ?_, ?_, h.l2_nonneg, hnn, ?_⟩
    · rw [hA.fitted.splitter, ← h.l1_eq]; unfold Booster.splitter; split <;> rfl
    · rw [hA.fitted.splitter, ← h.l2_eq]; unfold Booster.splitter; split <;> rfl
    · rw [hA.fitted.splitter, ← h.mds_eq]; unfold Booster.splitter; split <;> rfl
    · rw [hA.fitted.splitter, ← h.lr_eq]; unfold Booster.splitter; split <;> rfl
    · have hsum : 0 ≤ (rows.map (rowVals cfg.train.hess)).sum := List.sum_nonneg (by
        intro x hx
        obtain ⟨r, hr, rfl⟩ := List.mem_map.1 hx
        exact hnn r hr)
      rcases h.positive with hl | ⟨hn, x, hx, hx0⟩
      · linarith
      · rw [hn] at hs
        simp only [sampleIndex, Res.ok.injEq, Prod.mk.injEq] at hs
        obtain ⟨e1, e2, e3, _⟩ := hs
        obtain ⟨j, hj⟩ := List.mem_iff_getElem?.1 hx
        have hjl : j < X.rows := by rw [← h.wlen]; exact (List.getElem?_eq_some_iff.1 hj).1
        obtain ⟨yj, hyj⟩ : ∃ v, y[j]? = some v := ⟨_, List.getElem?_eq_getElem (by rw [h.ylen]; exact hjl)⟩
        have hlen : p.length = X.rows := by simpa using a1
        obtain ⟨pj, hpj⟩ : ∃ v, p[j]? = some v := ⟨_, List.getElem?_eq_getElem (by rw [hlen]; exact hjl)⟩
        obtain ⟨_, g2⟩ := calcGradHess_get (F := FX m32) b.objectiveType (y.map FX.fin : List (FX m64))
          (p.map FX.fin) (w.map FX.fin) j (yi := FX.fin yj) (pi := FX.fin pj) (wi := FX.fin x)
          (by simp [hyj]) (by simp [hpj]) (by simp [hj])
        obtain ⟨g, hh, _, e5, _, e6⟩ := gradHess_fin h.exp yj pj x hx0.le
        rw [e3, e5, FX.down_fin] at g2
        have hrv : rowVals cfg.train.hess j = hh := by unfold rowVals; rw [g2]; rfl
        have hmem : j ∈ rows := by rw [← e1]; simpa [Matrix.index] using hjl
        have hle : rowVals cfg.train.hess j ≤ (rows.map (rowVals cfg.train.hess)).sum :=
          List.single_le_sum (by
            intro x hx
            obtain ⟨r, hr, rfl⟩ := List.mem_map.1 hx
            exact hnn r hr) _ (List.mem_map_of_mem hmem)
        have := e6 hx0
        have := h.l2_nonneg
        rw [hrv] at hle
        linarith
  exact ⟨hA, by simpa using a1, htr, hP, fit_finiteValues htr hA.fitted.fit hP⟩

end

end Verif
