import Verif.Proofs.Evals
import Verif.Props.Validation
import Verif.Props.Shift
import Verif.Props.Boosting

/-!
# C117: only the last evaluation set decides

Several evaluation sets can be given to `fit`.  Only the last one decides which iteration is the best and when training
stops, so the others can be left out: the fitted model is the same except for the record of the metrics, which then has
only the last column.
-/

namespace Verif

open scoped Verif

set_option linter.unusedSectionVars false

section
variable {F D : Type} [Fl F] [Fl D] [FlCast F D] {R : Type}

/-- The second record has the last column of the first. -/
structure LastColumn (h h' : RowMajorMatrix D) : Prop where
  rows : h'.rows = h.rows
  cols : h'.cols = 1
  entry : ∀ i, i < h.rows → ∃ v, h.get i (h.cols - 1) = .ok v ∧ h'.get i 0 = .ok v

/-- Two records during the two runs. -/
def HistLast (n : Nat) (o o' : Option (RowMajorMatrix D)) : Prop :=
  (o = none ∧ o' = none) ∨ ∃ (rows : List (List D)) (h h' : RowMajorMatrix D), o = some h ∧ o' = some h' ∧
    (∀ r ∈ rows, r.length = n) ∧ h = RowMajorMatrix.new rows.flatten rows.length n ∧
    ∃ ls : List D, rows.map (·.getLast?) = ls.map some ∧ h' = RowMajorMatrix.new ls ls.length 1

/-- Two states of the boosting loop. -/
structure FitLast (n : Nat) (s s' : FitState R F D) : Prop where
  booster : s'.booster = { s.booster with evaluationHistory := s'.booster.evaluationHistory }
  hist : HistLast n s.booster.evaluationHistory s'.booster.evaluationHistory
  yhat : s'.yhat = s.yhat
  grad : s'.grad = s.grad
  hess : s'.hess = s.hess
  best : s'.best = s.best
  rng : s'.rng = s.rng
  evals : ∃ l x, s.evals = some (l ++ [x]) ∧ l.length + 1 = n ∧ s'.evals = some [x]

/-- The booster with another record of the metrics. -/
def Booster.withRecord (b : Booster F D) (o : Option (RowMajorMatrix D)) : Booster F D :=
  { b with evaluationHistory := o }

theorem earlyStopUpdate_record (b : Booster F D) (o : Option (RowMajorMatrix D)) (i : Nat) (m : D) (mx : Bool)
    (best : Option D) (stop : Bool) :
    earlyStopUpdate (b.withRecord o) i m mx best stop =
      ((earlyStopUpdate b i m mx best stop).1.withRecord o, (earlyStopUpdate b i m mx best stop).2) ∧
    (earlyStopUpdate b i m mx best stop).1.evaluationHistory = b.evaluationHistory := by
  unfold earlyStopUpdate
  rw [show (b.withRecord o).earlyStoppingRounds = b.earlyStoppingRounds from rfl,
    show (b.withRecord o).bestIteration = b.bestIteration from rfl]
  generalize b.earlyStoppingRounds = er
  generalize b.bestIteration = bi
  cases er with
  | none => exact ⟨rfl, rfl⟩
  | some r =>
    cases best with
    | none => exact ⟨rfl, rfl⟩
    | some v =>
      dsimp only
      cases isComparisonBetter v m mx <;> cases bi <;> exact ⟨rfl, rfl⟩

theorem earlyStopUpdate_hist (b : Booster F D) (o : Option (RowMajorMatrix D)) (i : Nat) (m : D) (mx : Bool)
    (best : Option D) (stop : Bool) :
    earlyStopUpdate { b with evaluationHistory := o } i m mx best stop =
      ({ (earlyStopUpdate b i m mx best stop).1 with evaluationHistory := o },
        (earlyStopUpdate b i m mx best stop).2) ∧
    (earlyStopUpdate b i m mx best stop).1.evaluationHistory = b.evaluationHistory :=
  earlyStopUpdate_record b o i m mx best stop

theorem forall₂_append_singleton {α β : Type} {R : α → β → Prop} {l : List α} {x : α} {l' : List β}
    (h : List.Forall₂ R (l ++ [x]) l') : ∃ l1 y, l' = l1 ++ [y] ∧ List.Forall₂ R l l1 ∧ R x y := by
  induction l generalizing l' with
  | nil =>
    cases h with
    | cons h1 h2 => cases h2; exact ⟨[], _, rfl, .nil, h1⟩
  | cons a l ih =>
    cases h with
    | cons h1 h2 =>
      obtain ⟨l1, y, rfl, h3, h4⟩ := ih h2
      exact ⟨_ :: l1, y, rfl, .cons h1 h3, h4⟩

theorem evalSets_last {S : Sorter} {t : Tree F D} {i n : Nat} {b b1 : Booster F D} {l : List (TrainEval D)}
    {x : TrainEval D} {best best1 : Option D} {ev : Option (List (TrainEval D))} {stop : Bool}
    {o : Option (RowMajorMatrix D)} (hl : l.length + 1 = n) (ho : HistLast n b.evaluationHistory o)
    (h : evalSets S t i b (some (l ++ [x])) best = .ok (b1, ev, best1, stop)) :
    ∃ l' x' o', ev = some (l' ++ [x']) ∧ l'.length + 1 = n ∧ HistLast n b1.evaluationHistory o' ∧
      evalSets S t i { b with evaluationHistory := o } (some [x]) best =
        .ok ({ b1 with evaluationHistory := o' }, some [x'], best1, stop) := by
  simp only [evalSets] at h
  obtain ⟨⟨es', ms, b2, best2, stop2⟩, h1, h⟩ := Res.bind_eq_ok.1 h
  obtain ⟨b3, h2, h⟩ := Res.bind_eq_ok.1 h
  cases h
  obtain ⟨a1, a2, a3⟩ := evalLoop_ok _ _ _ _ _ _ _ _ _ _ (by simp) h1
  obtain ⟨l', x', rfl, c1, ⟨c2, preds, c3, c4⟩⟩ := forall₂_append_singleton a1
  obtain ⟨ms0, m, rfl, d1, d2⟩ := forall₂_append_singleton a2
  rw [List.getLast?_append, List.getLast?_singleton, Option.some_or] at a3
  dsimp only at a3
  have hmetric : ∀ (b : Booster F D) (n : Nat), (withHistory b n).metric = b.metric ∧
      (withHistory b n).missing = b.missing := by
    intro b n
    unfold withHistory
    split <;> exact ⟨rfl, rfl⟩
  have hx' : x' = { x with yhat := addPreds x.yhat preds } := by
    cases x'
    cases x
    simp only at c2 c4
    rw [c2, c4]
  have hlen : (l ++ [x]).length = n := by simp [hl]
  rw [hlen] at a3 h1 c3 d2
  -- the record before the metrics are appended
  have hw : ∃ (rows : List (List D)) (ls : List D) (h h' : RowMajorMatrix D), withHistory b n = { b with evaluationHistory := some h } ∧
      withHistory { b with evaluationHistory := o } 1 = { b with evaluationHistory := some h' } ∧
      (∀ r ∈ rows, r.length = n) ∧ h = RowMajorMatrix.new rows.flatten rows.length n ∧
      rows.map (·.getLast?) = ls.map some ∧ h' = (RowMajorMatrix.new ls ls.length 1 : RowMajorMatrix D) := by
    rcases ho with ⟨e1, e2⟩ | ⟨rows, h, h', e1, e2, e3, e4, ls, e5, e6⟩
    · refine ⟨[], [], _, _, ?_, ?_, by simp, rfl, rfl, rfl⟩
      · unfold withHistory; rw [e1]; rfl
      · unfold withHistory; rw [e2]; rfl
    · refine ⟨rows, ls, h, h', ?_, ?_, e3, e4, e5, e6⟩
      · unfold withHistory; rw [e1]; dsimp only; rw [← e1]
      · unfold withHistory; rw [e2]
  obtain ⟨rows, ls, H, H', w1, w2, w3, w4, w5, w6⟩ := hw
  rw [w1] at a3 c3 d2
  have hu := earlyStopUpdate_hist b (some H) i m b.metric.maximize best false
  have hu' := earlyStopUpdate_hist b (some H') i m b.metric.maximize best false
  rw [show ({ b with evaluationHistory := some H } : Booster F D).metric = b.metric from rfl] at a3 d2
  rw [hu.1] at a3
  generalize earlyStopUpdate b i m b.metric.maximize best false = u at a3 hu hu'
  obtain ⟨u1, u2, u3⟩ := u
  simp only [Prod.mk.injEq] at a3
  obtain ⟨rfl, rfl, rfl⟩ := a3
  -- the row is appended
  have hmsl : (ms0 ++ [m]).length = n := by
    rw [List.length_append, ← d1.length_eq, ← c1.length_eq]
    simpa using hl
  have hn : n ≠ 0 := by omega
  unfold appendHistory at h2
  dsimp only at h2
  rw [w4] at h2
  unfold RowMajorMatrix.appendRow at h2
  rw [show (RowMajorMatrix.new rows.flatten rows.length n : RowMajorMatrix D).cols = n from rfl, if_neg hn, hmsl,
    if_pos (Nat.mod_self n)] at h2
  simp only [Res.ok_bind, Nat.div_self (by omega : 0 < n)] at h2
  cases h2
  refine ⟨l', x', some (RowMajorMatrix.new (ls ++ [m]) (ls ++ [m]).length 1), rfl, by rw [← c1.length_eq, hl],
    .inr ⟨rows ++ [ms0 ++ [m]], _, _, rfl, rfl, ?_, ?_, ls ++ [m], ?_, rfl⟩, ?_⟩
  · intro r hr
    rw [List.mem_append, List.mem_singleton] at hr
    rcases hr with hr | rfl
    · exact w3 r hr
    · exact hmsl
  · simp [RowMajorMatrix.new]
  · rw [List.map_append, w5]
    simp
  · simp only [evalSets, List.length_singleton, w2, evalLoop]
    rw [show ({ b with evaluationHistory := some H' } : Booster F D).metric = b.metric from rfl]
    rw [show t.predict x.data b.missing = .ok preds from c3]
    simp only [Res.ok_bind]
    rw [hx'] at d2
    rw [show b.metric.eval S x.y (addPreds x.yhat preds) x.w = .ok m from d2]
    simp only [Res.ok_bind, if_true, hu'.1]
    unfold appendHistory
    dsimp only
    rw [w6]
    simp only [RowMajorMatrix.appendRow, RowMajorMatrix.new, Nat.one_ne_zero, if_false, List.length_singleton,
      Nat.mod_self, if_true, Res.ok_bind, Res.pure_def, hx', List.length_append, Nat.div_self Nat.one_pos]

theorem fitIteration_last {env : Env R F D} {data : Matrix D} {y w : List D} {sp : Splitter F} {bdata : Matrix Nat}
    {cuts : JaggedMatrix D} {i n : Nat} {s s' r : FitState R F D} {stop : Bool} (hs : FitLast n s s')
    (h : fitIteration env data y w sp bdata cuts i s = .ok (r, stop)) :
    ∃ r', fitIteration env data y w sp bdata cuts i s' = .ok (r', stop) ∧ FitLast n r r' := by
  obtain ⟨l, x, e1, e2, e3⟩ := hs.evals
  have hb := hs.booster
  generalize s'.booster.evaluationHistory = o at hb
  have ho := hs.hist
  rw [show s'.booster.evaluationHistory = o by rw [hb]] at ho
  simp only [fitIteration, e1, e3, hs.yhat, hs.grad, hs.hess, hs.best, hs.rng, hb] at h ⊢
  obtain ⟨⟨chosen, grad, hess, r1⟩, h1, h⟩ := Res.bind_eq_ok.1 h
  rw [h1]
  simp only [Res.ok_bind]
  dsimp only at h
  obtain ⟨tree, h2, h⟩ := Res.bind_eq_ok.1 h
  rw [h2]
  simp only [Res.ok_bind]
  obtain ⟨preds, h3, h⟩ := Res.bind_eq_ok.1 h
  rw [h3]
  simp only [Res.ok_bind]
  obtain ⟨⟨b1, ev, best1, st⟩, h4, h⟩ := Res.bind_eq_ok.1 h
  obtain ⟨l', x', o', f1, f2, f3, f4⟩ := evalSets_last e2 ho h4
  rw [f4]
  simp only [Res.ok_bind]
  dsimp only at h
  split at h
  · rename_i hst
    cases h
    rw [if_pos hst]
    exact ⟨_, rfl, ⟨rfl, f3, rfl, rfl, rfl, rfl, rfl, ⟨l', x', f1, f2, rfl⟩⟩⟩
  · rename_i hst
    cases h
    rw [if_neg hst]
    exact ⟨_, rfl, ⟨rfl, f3, rfl, rfl, rfl, rfl, rfl, ⟨l', x', f1, f2, rfl⟩⟩⟩

theorem fitLoop_last {env : Env R F D} {data : Matrix D} {y w : List D} {sp : Splitter F} {bdata : Matrix Nat}
    {cuts : JaggedMatrix D} {n : Nat} : ∀ (k i : Nat) {s s' r : FitState R F D}, FitLast n s s' →
    fitLoop env data y w sp bdata cuts k i s = .ok r →
    ∃ r', fitLoop env data y w sp bdata cuts k i s' = .ok r' ∧ FitLast n r r'
  | 0, _, s, s', r, hs, h => by cases h; exact ⟨s', rfl, hs⟩
  | k + 1, i, s, s', r, hs, h => by
    simp only [fitLoop] at h ⊢
    obtain ⟨⟨s1, st⟩, h1, h⟩ := Res.bind_eq_ok.1 h
    obtain ⟨s1', h1', hs1⟩ := fitIteration_last hs h1
    rw [h1']
    simp only [Res.ok_bind]
    dsimp only at h
    split at h
    · rename_i hst
      cases h
      rw [if_pos hst]
      exact ⟨s1', rfl, hs1⟩
    · rename_i hst
      rw [if_neg hst]
      exact fitLoop_last k (i + 1) hs1 h

theorem HistLast.last {n : Nat} (hn : 0 < n) {o o' : Option (RowMajorMatrix D)} (h : HistLast n o o') {H : RowMajorMatrix D}
    (ho : o = some H) : ∃ H', o' = some H' ∧ LastColumn H H' := by
  rcases h with ⟨e1, _⟩ | ⟨rows, h, h', e1, e2, e3, e4, ls, e5, e6⟩
  · rw [e1] at ho; cases ho
  · rw [e1] at ho
    injection ho with ho
    subst ho
    have hlen : ls.length = rows.length := by
      have := congrArg List.length e5
      simpa using this.symm
    refine ⟨h', e2, ⟨by rw [e4, e6]; exact hlen, by rw [e6]; rfl, fun i hi => ?_⟩⟩
    subst e4
    subst e6
    simp only [RowMajorMatrix.new] at hi ⊢
    have h0 : ls[i]? = some ls[i] := List.getElem?_eq_getElem (by omega)
    refine ⟨ls[i], ?_, ?_⟩
    · unfold RowMajorMatrix.get idx
      dsimp only
      have key : ∀ (rows : List (List D)) (i : Nat) (v : D), (∀ r ∈ rows, r.length = n) →
          (rows.map (·.getLast?))[i]? = some (some v) → rows.flatten[n * i + (n - 1)]? = some v := by
        intro rows
        induction rows with
        | nil => intro i v _ hv; simp at hv
        | cons r rows ih =>
          intro i v hr hv
          have hr0 : r.length = n := hr r (by simp)
          rw [List.flatten_cons]
          cases i with
          | zero =>
            simp only [List.map_cons, List.getElem?_cons_zero, Option.some.injEq] at hv
            rw [List.getLast?_eq_getElem?, hr0] at hv
            rw [List.getElem?_append_left (by omega), Nat.mul_zero, Nat.zero_add]
            exact hv
          | succ i =>
            rw [List.getElem?_append_right (by rw [hr0, Nat.mul_succ]; omega), hr0]
            have : n * (i + 1) + (n - 1) - n = n * i + (n - 1) := by rw [Nat.mul_succ]; omega
            rw [this]
            refine ih i v (fun r h => hr r (by simp [h])) ?_
            simpa using hv
      rw [Nat.mul_one, key rows i ls[i] e3 (by rw [e5, List.getElem?_map, h0]; rfl)]
      rfl
    · unfold RowMajorMatrix.get idx
      dsimp only
      rw [Nat.one_mul, Nat.zero_mul, Nat.add_zero, h0]
      rfl

/-- **C117**.  A fit with the evaluation sets `es` and then `e` gives the same model as a fit with `e` alone: the same
trees, base score, best iteration and prediction iteration, all fields but the record of the metrics.  That record has
the last column of the other.  Any arithmetic, any metric, with or without early stopping. -/
theorem C117_fit {env : Env R F D} {b r : Booster F D} {X : Matrix D} {y w : List D} {es : List (EvalSet D)}
    {e : EvalSet D} (hb : b.trees ≠ [] ∨ b.evaluationHistory = none)
    (h : b.fit env X y w (some (es ++ [e])) = .ok (r, .ok ())) :
    ∃ r', b.fit env X y w (some [e]) = .ok (r', .ok ()) ∧
      r' = { r with evaluationHistory := r'.evaluationHistory } ∧
      (r.evaluationHistory = none → r'.evaluationHistory = none) ∧
      ∀ H, r.evaluationHistory = some H → ∃ H', r'.evaluationHistory = some H' ∧ LastColumn H H' := by
  unfold Booster.fit at h ⊢
  have hv : validateFit y w (some (es ++ [e])) = .ok () → validateFit y w (some [e]) = .ok () := by
    rw [validateFit_ok, validateFit_ok]
    intro h0 h1
    refine h0 ?_
    rcases h1 with h1 | h1 | ⟨l, hl, e', he', h1⟩
    · exact .inl h1
    · exact .inr (.inl h1)
    · cases hl
      rw [List.mem_singleton] at he'
      subst he'
      exact .inr (.inr ⟨_, rfl, e', by simp, h1⟩)
  split at h
  · cases h
  · rename_i hval
    rw [hv hval]
    dsimp only
    obtain ⟨b', h1, h2⟩ := Res.bind_eq_ok.1 h
    cases h2
    rw [fitTrees_eq_rest] at h1 ⊢
    dsimp only at h1 ⊢
    have hb0 : (if b.trees.isEmpty then b else b.reset).evaluationHistory = none := by
      split
      · rename_i h0
        rcases hb with hb | hb
        · exact absurd (by simpa using h0) hb
        · exact hb
      · rfl
    generalize (if b.trees.isEmpty then b else b.reset) = b0 at h1 hb0 ⊢
    have rest : ∀ b1 : Booster F D, b1.evaluationHistory = none →
        fitRest env X y w b.splitter (some (es ++ [e])) b1 = .ok r →
        ∃ r', fitRest env X y w b.splitter (some [e]) b1 = .ok r' ∧
          r' = { r with evaluationHistory := r'.evaluationHistory } ∧
          HistLast (es.length + 1) r.evaluationHistory r'.evaluationHistory := by
      intro b1 hb1 h
      unfold fitRest at h ⊢
      dsimp only at h ⊢
      obtain ⟨binned, h4, h⟩ := Res.bind_eq_ok.1 h
      rw [h4]
      simp only [Res.ok_bind]
      obtain ⟨s, h5, h⟩ := Res.bind_eq_ok.1 h
      cases h
      obtain ⟨s', h6, hs⟩ := fitLoop_last (n := es.length + 1)
        (s' := { booster := b1, yhat := List.replicate y.length b1.baseScore
                 grad := (calcGradHess (F := F) b1.objectiveType y (List.replicate y.length b1.baseScore) w).1
                 hess := (calcGradHess (F := F) b1.objectiveType y (List.replicate y.length b1.baseScore) w).2
                 evals := some [{ toEvalSet := e, yhat := List.replicate e.y.length b1.baseScore }]
                 best := none, rng := env.rng.seed b1.seed }) _ _
        (by exact ⟨rfl, .inl ⟨hb1, hb1⟩, rfl, rfl, rfl, rfl, rfl, ⟨es.map fun e =>
          { toEvalSet := e, yhat := List.replicate e.y.length b1.baseScore : TrainEval D },
          { toEvalSet := e, yhat := List.replicate e.y.length b1.baseScore },
          congrArg some List.map_append, by simp, rfl⟩⟩) h5
      simp only [Option.map_some, List.map_cons, List.map_nil]
      rw [h6]
      exact ⟨_, rfl, hs.booster, hs.hist⟩
    have fin : ∀ r' : Booster F D, HistLast (es.length + 1) r.evaluationHistory r'.evaluationHistory →
        (r.evaluationHistory = none → r'.evaluationHistory = none) ∧
        ∀ H, r.evaluationHistory = some H → ∃ H', r'.evaluationHistory = some H' ∧ LastColumn H H' := by
      intro r' hr
      refine ⟨fun h0 => ?_, fun H hH => hr.last (by omega) hH⟩
      rcases hr with ⟨_, e2⟩ | ⟨_, _, _, e1, _⟩
      · exact e2
      · rw [h0] at e1; cases e1
    split at h1
    · rename_i hini
      obtain ⟨sc, hsc, h1⟩ := Res.bind_eq_ok.1 h1
      rw [if_pos hini, hsc]
      simp only [Res.ok_bind]
      obtain ⟨r', g1, g2, g3⟩ := rest { b0 with baseScore := sc } hb0 h1
      rw [g1]
      exact ⟨r', rfl, g2, (fin r' g3).1, (fin r' g3).2⟩
    · rename_i hini
      rw [if_neg hini]
      obtain ⟨r', g1, g2, g3⟩ := rest _ hb0 h1
      rw [g1]
      exact ⟨r', rfl, g2, (fin r' g3).1, (fin r' g3).2⟩

/-- **C117** (the other sets).  Two fits whose last evaluation sets agree give the same model, whatever the other
evaluation sets are, except for the record of the metrics. -/
theorem C117_others {env : Env R F D} {b r r2 : Booster F D} {X : Matrix D} {y w : List D}
    {es es2 : List (EvalSet D)} {e : EvalSet D} (hb : b.trees ≠ [] ∨ b.evaluationHistory = none)
    (h : b.fit env X y w (some (es ++ [e])) = .ok (r, .ok ()))
    (h2 : b.fit env X y w (some (es2 ++ [e])) = .ok (r2, .ok ())) :
    r2 = { r with evaluationHistory := r2.evaluationHistory } := by
  obtain ⟨r', h1, e1, _⟩ := C117_fit hb h
  obtain ⟨r'', h1', e2, _⟩ := C117_fit hb h2
  rw [h1] at h1'
  injection h1' with h3
  injection h3 with h3
  subst h3
  generalize r'.evaluationHistory = o at e1 e2
  subst e1
  cases r
  cases r2
  simp only [Booster.mk.injEq] at e2 ⊢
  simp_all

end

/-! ## Examples -/

/-- C117: two evaluation sets, early stopping; the record has four rows or fewer and two columns. -/
example : (exStop.trees ≠ [] ∨ exStop.evaluationHistory = none) ∧
    ∃ e r, exSets = [e] ++ [{ data := exX, y := [q 0, q 0, q 1, q 1, q 2, q 1], w := exW }] ∧
      exStop.fit exEnv exX exY exW (some exSets) = .ok (r, .ok ()) ∧ 1 < r.trees.length ∧ r.trees.length < 5 ∧
      ∃ H, r.evaluationHistory = some H ∧ H.cols = 2 ∧ H.rows = r.trees.length := by
  refine ⟨.inr rfl, { data := exX, y := exY, w := exW }, ?_⟩
  have : (match exStop.fit exEnv exX exY exW (some exSets) with
      | .ok (b', .ok ()) => (match b'.evaluationHistory with
        | some H => decide (1 < b'.trees.length ∧ b'.trees.length < 5 ∧ H.cols = 2 ∧ H.rows = b'.trees.length)
        | none => false)
      | _ => false) = true := by decide +kernel
  split at this
  · next r h =>
    split at this
    · next H hH =>
      simp only [decide_eq_true_eq] at this
      exact ⟨r, rfl, h, this.1, this.2.1, H, hH, this.2.2⟩
    · cases this
  · cases this

/-- **C117** (the order matters).  With the same two evaluation sets in the other order training stops at another
iteration. -/
theorem C117_order : ∃ r r' : Booster Q Q, exStop.fit exEnv exX exY exW (some exSets) = .ok (r, .ok ()) ∧
    exStop.fit exEnv exX exY exW (some exSets.reverse) = .ok (r', .ok ()) ∧ r.bestIteration ≠ r'.bestIteration ∧
    r.trees.length ≠ r'.trees.length := by
  have : (match exStop.fit exEnv exX exY exW (some exSets), exStop.fit exEnv exX exY exW (some exSets.reverse) with
      | .ok (b1, .ok ()), .ok (b2, .ok ()) =>
        decide (b1.bestIteration ≠ b2.bestIteration ∧ b1.trees.length ≠ b2.trees.length)
      | _, _ => false) = true := by decide +kernel
  split at this
  · next b1 b2 h1 h2 =>
    simp only [decide_eq_true_eq] at this
    exact ⟨b1, b2, h1, h2, this⟩
  · cases this

end Verif
