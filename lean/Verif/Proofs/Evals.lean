import Verif.Proofs.Trace
import Verif.Proofs.Order

/-!
# Evaluation sets and early stopping
-/

namespace Verif

open scoped Verif

variable {F D : Type} [Fl F] [Fl D] [FlCast F D] {R : Type}

set_option linter.unusedSectionVars false

/-- What the loop over the evaluation sets does. -/
theorem evalLoop_ok {S : Sorter} {t : Tree F D} {i n : Nat} : ∀ (l : List (TrainEval D)) (k : Nat)
    (b : Booster F D) (best : Option D) (stop : Bool) es ms b' best' stop', k + l.length = n →
    evalLoop S t i n l k b best stop = .ok (es, ms, b', best', stop') →
    List.Forall₂ (fun e e' => e'.toEvalSet = e.toEvalSet ∧ ∃ preds,
      t.predict e.data b.missing = .ok preds ∧ e'.yhat = addPreds e.yhat preds) l es ∧
    List.Forall₂ (fun (e' : TrainEval D) m => b.metric.eval S e'.y e'.yhat e'.w = .ok m) es ms ∧
    (match ms.getLast? with
      | none => (b', best', stop') = (b, best, stop)
      | some m => (b', best', stop') = earlyStopUpdate b i m b.metric.maximize best stop) := by
  intro l
  induction l with
  | nil =>
    intro k b best stop es ms b' best' stop' _ h
    simp only [evalLoop, Res.ok.injEq, Prod.mk.injEq] at h
    obtain ⟨rfl, rfl, rfl, rfl, rfl⟩ := h
    exact ⟨.nil, .nil, rfl⟩
  | cons e l ih =>
    intro k b best stop es ms b' best' stop' hk h
    simp only [List.length_cons] at hk
    simp only [evalLoop, Res.bind_eq_ok] at h
    obtain ⟨preds, hp, m, hm, h⟩ := h
    split at h
    · rename_i hkn
      simp only [Prod.exists, Res.ok.injEq, Prod.mk.injEq] at h
      obtain ⟨es1, ms1, b2, best2, stop2, h1, rfl, rfl, rfl, rfl, rfl⟩ := h
      have hl : l = [] := List.length_eq_zero_iff.1 (by omega)
      subst hl
      simp only [evalLoop, Res.ok.injEq, Prod.mk.injEq] at h1
      obtain ⟨rfl, rfl, rfl, rfl, rfl⟩ := h1
      exact ⟨.cons ⟨rfl, preds, hp, rfl⟩ .nil, .cons hm .nil, rfl⟩
    · rename_i hkn
      simp only [Prod.exists, Res.ok.injEq, Prod.mk.injEq] at h
      obtain ⟨es1, ms1, b2, best2, stop2, h1, rfl, rfl, rfl, rfl, rfl⟩ := h
      obtain ⟨a1, a2, a3⟩ := ih (k + 1) _ _ _ _ _ _ _ _ (by omega) h1
      refine ⟨.cons ⟨rfl, preds, hp, rfl⟩ a1, .cons hm a2, ?_⟩
      have hne : ms1 ≠ [] := by
        rintro rfl
        have l1 := a2.length_eq
        have l2 := a1.length_eq
        simp only [List.length_nil] at l1
        omega
      rw [List.getLast?_cons_of_ne_nil hne]
      exact a3

/-- What a successful iteration does with the evaluation sets. -/
theorem evalSets_ok {S : Sorter} {t : Tree F D} {i : Nat} {b b' : Booster F D}
    {es : List (TrainEval D)} {ev' : Option (List (TrainEval D))} {best best' : Option D} {stop : Bool}
    (hne : es ≠ []) (h : evalSets S t i b (some es) best = .ok (b', ev', best', stop)) :
    ∃ es' ms m b1 H H', ev' = some es' ∧
      List.Forall₂ (fun e e' => e'.toEvalSet = e.toEvalSet ∧ ∃ preds,
        t.predict e.data b.missing = .ok preds ∧ e'.yhat = addPreds e.yhat preds) es es' ∧
      List.Forall₂ (fun (e' : TrainEval D) m => b.metric.eval S e'.y e'.yhat e'.w = .ok m) es' ms ∧
      ms.getLast? = some m ∧
      (b1, best', stop) = earlyStopUpdate (withHistory b es.length) i m b.metric.maximize best false ∧
      (withHistory b es.length).evaluationHistory = some H ∧ H.appendRow ms = .ok H' ∧
      b' = { b1 with evaluationHistory := some H' } := by
  simp only [evalSets] at h
  rw [Res.bind_eq_ok] at h
  obtain ⟨⟨es', ms, b2, best2, stop2⟩, he, h⟩ := h
  simp only [Res.bind_eq_ok, Res.ok.injEq, Prod.mk.injEq] at h
  obtain ⟨b3, h3, rfl, rfl, rfl, rfl⟩ := h
  have hsame := withHistory_same b es.length
  have hw : ∃ H, (withHistory b es.length).evaluationHistory = some H := by
    unfold withHistory
    split
    · exact ⟨_, rfl⟩
    · rename_i v hv; exact ⟨v, hv⟩
  have hm : (withHistory b es.length).missing = b.missing := by
    unfold withHistory; split <;> rfl
  have hmt : (withHistory b es.length).metric = b.metric := by
    unfold withHistory; split <;> rfl
  obtain ⟨H, hH⟩ := hw
  obtain ⟨a1, a2, a3⟩ := evalLoop_ok _ _ _ _ _ _ _ _ _ _ (by simp) he
  rw [hm] at a1
  rw [hmt] at a2 a3
  have hb2 : b2.evaluationHistory = some H := by
    rw [← hH]
    exact (evalLoop_same _ _ _ _ _ _ _ _ _ _ he).2.2
  unfold appendHistory at h3
  rw [hb2] at h3
  simp only [Res.bind_eq_ok, Res.pure_def, Res.ok.injEq] at h3
  obtain ⟨H', hH', rfl⟩ := h3
  cases hlast : ms.getLast? with
  | none =>
    rw [List.getLast?_eq_none_iff] at hlast
    subst hlast
    cases a2
    cases a1
    exact absurd rfl hne
  | some m =>
    rw [hlast] at a3
    exact ⟨es', ms, m, b2, H, H', rfl, a1, a2, hlast, a3, hH, hH', rfl⟩

/-- The better of two metrics; NaN is the worst. -/
def Better (maximize : Bool) (a b : D) : Prop :=
  isNaN a = false ∧ (isNaN b = true ∨ if maximize then (b <ᶠ a) = true else (a <ᶠ b) = true)

theorem isComparisonBetter_iff [Fl.OrdLaws D] (v c : D) (mx : Bool) :
    isComparisonBetter v c mx = true ↔ Better mx c v := by
  unfold isComparisonBetter Better
  cases isNaN v <;> cases isNaN c <;> cases mx <;> simp

section
variable [Fl.OrdLaws D] {mx : Bool} {a b c : D}

theorem Better.irrefl : ¬ Better mx a a := by
  rintro ⟨h1, h2⟩
  rw [h1] at h2
  cases mx <;> simp [Fl.OrdLaws.lt_irrefl] at h2

theorem Better.trans (h : Better mx a b) (h' : Better mx b c) : Better mx a c := by
  refine ⟨h.1, ?_⟩
  rcases h'.2 with h2 | h2
  · exact .inl h2
  · rcases h.2 with h1 | h1
    · rw [h'.1] at h1; cases h1
    · right
      cases mx
      · exact Fl.OrdLaws.lt_trans _ _ _ h1 h2
      · exact Fl.OrdLaws.lt_trans _ _ _ h2 h1

theorem Better.cotrans (h : Better mx a b) : Better mx a c ∨ Better mx c b := by
  by_cases hc : isNaN c = true
  · exact .inl ⟨h.1, .inl hc⟩
  · have hc : isNaN c = false := by simpa using hc
    rcases h.2 with h1 | h1
    · exact .inr ⟨hc, .inl h1⟩
    · cases mx
      · rcases Fl.OrdLaws.cotrans _ _ c hc h1 with h2 | h2
        · exact .inl ⟨h.1, .inr h2⟩
        · exact .inr ⟨hc, .inr h2⟩
      · rcases Fl.OrdLaws.cotrans _ _ c hc h1 with h2 | h2
        · exact .inr ⟨hc, .inr h2⟩
        · exact .inl ⟨h.1, .inr h2⟩

end

/-- Position `k` holds the first of the best metrics. -/
def FirstBestAt (mx : Bool) (l : List D) (k : Nat) : Prop :=
  ∃ x, l[k]? = some x ∧ (∀ (j : Nat) z, l[j]? = some z → ¬ Better mx z x) ∧
    ∀ (j : Nat) z, j < k → l[j]? = some z → Better mx x z

theorem FirstBestAt.unique {mx : Bool} {l : List D} {k k' : Nat} (h : FirstBestAt mx l k)
    (h' : FirstBestAt mx l k') : k = k' := by
  obtain ⟨x, h1, h2, h3⟩ := h
  obtain ⟨x', h1', h2', h3'⟩ := h'
  rcases Nat.lt_trichotomy k k' with hlt | rfl | hlt
  · exact absurd (h3' k x hlt h1) (h2 k' x' h1')
  · rfl
  · exact absurd (h3 k' x' hlt h1') (h2' k x h1)

theorem FirstBestAt.keep {mx : Bool} {l : List D} {k : Nat} {x m : D} (h : FirstBestAt mx l k)
    (hx : l[k]? = some x) (hm : ¬ Better mx m x) : FirstBestAt mx (l ++ [m]) k := by
  obtain ⟨x', h1, h2, h3⟩ := h
  rw [hx] at h1; cases h1
  have hk := (List.getElem?_eq_some_iff.1 hx).1
  refine ⟨x, by rw [List.getElem?_append_left hk]; exact hx, ?_, ?_⟩
  · intro j z hz
    by_cases hj : j < l.length
    · rw [List.getElem?_append_left hj] at hz; exact h2 j z hz
    · rw [List.getElem?_append_right (by omega)] at hz
      cases hj' : j - l.length with
      | zero => rw [hj'] at hz; simp at hz; rw [← hz]; exact hm
      | succ _ => rw [hj'] at hz; simp at hz
  · intro j z hj hz
    rw [List.getElem?_append_left (by omega)] at hz
    exact h3 j z hj hz

theorem FirstBestAt.better [Fl.OrdLaws D] {mx : Bool} {l : List D} {k : Nat} {x m : D}
    (h : FirstBestAt mx l k) (hx : l[k]? = some x) (hm : Better mx m x) :
    FirstBestAt mx (l ++ [m]) l.length := by
  obtain ⟨x', h1, h2, h3⟩ := h
  rw [hx] at h1; cases h1
  have key : ∀ (j : Nat) z, l[j]? = some z → Better mx m z := by
    intro j z hz
    rcases hm.cotrans (c := z) with h | h
    · exact h
    · exact absurd h (h2 j z hz)
  refine ⟨m, by simp, ?_, ?_⟩
  · intro j z hz hb
    by_cases hj : j < l.length
    · rw [List.getElem?_append_left hj] at hz
      exact Better.irrefl (hb.trans (key j z hz))
    · rw [List.getElem?_append_right (by omega)] at hz
      cases hj' : j - l.length with
      | zero => rw [hj'] at hz; simp at hz; rw [← hz] at hb; exact Better.irrefl hb
      | succ _ => rw [hj'] at hz; simp at hz
  · intro j z hj hz
    rw [List.getElem?_append_left hj] at hz
    exact key j z hz

theorem FirstBestAt.one [Fl.OrdLaws D] (mx : Bool) (m : D) : FirstBestAt mx [m] 0 := by
  refine ⟨m, rfl, ?_, by omega⟩
  intro j z hz
  cases j with
  | zero => simp at hz; rw [← hz]; exact Better.irrefl
  | succ j => simp at hz

section
variable {env : Env R F D} {b b' : Booster F D} {data : Matrix D} {y w : List D}
  {es : List (EvalSet D)} {base : D} {binned : BinnedData D} {st : Nat → FitState R F D}
  {stop : Nat → Bool} {N : Nat}

/-- The evaluation part of an iteration. -/
theorem fitIteration_eval {env : Env R F D} {data : Matrix D} {y w : List D} {splitter : Splitter F}
    {bdata : Matrix Nat} {cuts : JaggedMatrix D} {i : Nat} {s s' : FitState R F D} {stop : Bool}
    (h : fitIteration env data y w splitter bdata cuts i s = .ok (s', stop)) :
    ∃ tree b', s'.booster.trees = s.booster.trees ++ [tree] ∧
      evalSets env.sorter tree i s.booster s.evals s.best = .ok (b', s'.evals, s'.best, stop) ∧
      s'.booster = { b' with trees := b'.trees ++ [tree] } := by
  simp only [fitIteration] at h
  rw [Res.bind_eq_ok] at h
  obtain ⟨⟨chosen, grad, hess, r1⟩, h1, h⟩ := h
  simp only at h
  rw [Res.bind_eq_ok] at h
  obtain ⟨tree, h2, h⟩ := h
  rw [Res.bind_eq_ok] at h
  obtain ⟨preds, h3, h⟩ := h
  rw [Res.bind_eq_ok] at h
  obtain ⟨⟨b4, evals4, best4, stop4⟩, h4, h⟩ := h
  obtain ⟨c1, c2⟩ := evalSets_same h4
  simp only at h
  split at h
  · rename_i hst
    simp only [Res.ok.injEq, Prod.mk.injEq] at h
    obtain ⟨rfl, rfl⟩ := h
    refine ⟨tree, b4, congrArg (· ++ [tree]) c2, ?_, rfl⟩
    subst hst
    exact h4
  · rename_i hst
    simp only [Res.ok.injEq, Prod.mk.injEq] at h
    obtain ⟨rfl, rfl⟩ := h
    refine ⟨tree, b4, congrArg (· ++ [tree]) c2, ?_, rfl⟩
    simp only [Bool.not_eq_true] at hst
    subst hst
    exact h4

/-- What is known about the evaluation sets after `k` iterations: the running predictions, the metrics
of all prefixes (`rows`), the history. -/
structure EvalInv (env : Env R F D) (b b' : Booster F D) (es : List (EvalSet D)) (base : D) (k : Nat)
    (s : FitState R F D) (rows : List (List D)) : Prop where
  evals : ∃ es', s.evals = some es' ∧ List.Forall₂ (fun e (e' : TrainEval D) => e'.toEvalSet = e ∧
    predictFold b.missing e.data (List.replicate e.y.length base) (b'.trees.take k) = .ok e'.yhat) es es'
  len : rows.length = k
  row : ∀ (j : Nat) r, rows[j]? = some r → List.Forall₂ (fun e m => ∃ yhat,
    predictFold b.missing e.data (List.replicate e.y.length base) (b'.trees.take (j + 1)) = .ok yhat ∧
    b.metric.eval env.sorter e.y yhat e.w = .ok m) es r
  hist0 : k = 0 → s.booster.evaluationHistory = b.start.evaluationHistory
  hist : b.start.evaluationHistory = none → 0 < k → s.booster.evaluationHistory =
    some { data := rows.flatten, rows := k, cols := es.length, stride1 := 1, stride2 := es.length }

/-- What is known about early stopping: `ms` are the metrics of the last evaluation set. -/
structure StopInv (b : Booster F D) (k : Nat) (s : FitState R F D) (ms : List D) :
    Prop where
  len : ms.length = k
  none : k = 0 → s.best = none
  best : 0 < k → ∃ bi x, s.booster.bestIteration = some bi ∧
    s.booster.predictionIteration = some (bi + 1) ∧ s.best = some x ∧ ms[bi]? = some x ∧
    FirstBestAt b.metric.maximize ms bi

theorem FitTrace.evalInv [Fl.OrdLaws D]
    (h : FitTrace env b data y w (some es) b' base binned st stop N)
    (hne : es ≠ []) : ∀ k, k ≤ N → ∃ rows, EvalInv env b b' es base k (st k) rows ∧
      ∀ rounds, b.earlyStoppingRounds = some rounds → ∃ ms,
        List.Forall₂ (fun (r : List D) m => r.getLast? = some m) rows ms ∧
        StopInv b k (st k) ms ∧ ∀ j < k, ∃ bi, FirstBestAt b.metric.maximize (ms.take (j + 1)) bi ∧
          (stop j = true ↔ bi ≠ j ∧ rounds ≤ j - bi) := by
  intro k
  induction k with
  | zero =>
    intro _
    refine ⟨[], ⟨⟨_, by rw [h.start]; rfl, ?_⟩, rfl, by simp, ?_, by simp⟩, ?_⟩
    · rw [List.forall₂_map_right_iff, List.forall₂_same]
      intro e _
      exact ⟨rfl, rfl⟩
    · intro _; rw [h.start]; rfl
    · intro rounds _
      exact ⟨[], .nil, ⟨rfl, fun _ => by rw [h.start]; rfl, by omega⟩, by omega⟩
  | succ k ih =>
    intro hk
    obtain ⟨rows, hI, hStop⟩ := ih (by omega)
    obtain ⟨tree, b4, e1, e2, e3⟩ := fitIteration_eval (h.step k (by omega))
    obtain ⟨es1, f1, f2⟩ := hI.evals
    have hlen := f2.length_eq
    have hne1 : es1 ≠ [] := by rintro rfl; exact hne (List.length_eq_zero_iff.1 hlen)
    rw [f1] at e2
    obtain ⟨es', ms, m, b1, H, H', g1, g2, g3, g4, g5, g6, g7, g8⟩ := evalSets_ok hne1 e2
    have hsame := h.same k (by omega)
    have hmiss : (st k).booster.missing = b.missing := by
      unfold Booster.SameParams at hsame; rw [hsame]
    have hmet : (st k).booster.metric = b.metric := by
      unfold Booster.SameParams at hsame; rw [hsame]; rfl
    rw [hmiss] at g2
    rw [hmet] at g3
    have ht : b'.trees.take (k + 1) = b'.trees.take k ++ [tree] := by
      rw [← h.trees (k + 1) hk, e1, h.trees k (by omega)]
    have hev : List.Forall₂ (fun e (e' : TrainEval D) => e'.toEvalSet = e ∧
        predictFold b.missing e.data (List.replicate e.y.length base) (b'.trees.take (k + 1)) =
          .ok e'.yhat) es es' := by
      clear g3 hlen e2 f1 g1 hne hne1 hI hStop ih h g5 g6
      induction f2 generalizing es' with
      | nil => cases g2; exact .nil
      | cons p _ ih2 =>
        cases g2 with
        | cons q q2 =>
          refine .cons ?_ (ih2 _ q2)
          obtain ⟨p1, p2⟩ := p
          obtain ⟨q1, preds, q2, q3⟩ := q
          refine ⟨q1.trans p1, ?_⟩
          rw [ht, predictFold, Res.foldM'_append, show Res.foldM' _ _ (b'.trees.take k) = _ from p2,
            Res.ok_bind, Res.foldM'_cons, ← p1, q2, Res.ok_bind, Res.ok_bind, q3]
          rfl
    have hrow : List.Forall₂ (fun e m => ∃ yhat,
        predictFold b.missing e.data (List.replicate e.y.length base) (b'.trees.take (k + 1)) = .ok yhat ∧
        b.metric.eval env.sorter e.y yhat e.w = .ok m) es ms := by
      clear g2 hlen e2 f1 g1 hne hne1 f2 g4 g7 hI hStop ih h
      induction hev generalizing ms with
      | nil => cases g3; exact .nil
      | cons p _ ih2 =>
        cases g3 with
        | cons q q2 =>
          refine .cons ?_ (ih2 _ q2)
          obtain ⟨rfl, p2⟩ := p
          exact ⟨_, p2, q⟩
    refine ⟨rows ++ [ms], ⟨⟨es', g1, hev⟩, by simp [hI.len], ?_, by omega, ?_⟩, ?_⟩
    · intro j r hr
      by_cases hj : j < rows.length
      · rw [List.getElem?_append_left hj] at hr
        exact hI.row j r hr
      · rw [List.getElem?_append_right (by omega)] at hr
        have hj' : j - rows.length = 0 := by
          by_contra hc
          rw [List.getElem?_eq_none (by simp; omega)] at hr
          cases hr
        rw [hj'] at hr
        simp only [List.getElem?_cons_zero, Option.some.injEq] at hr
        subst hr
        rw [show j = k by have := hI.len; omega]
        exact hrow
    · intro hn _
      have hHr : H = { data := rows.flatten, rows := k, cols := es.length, stride1 := 1
                       stride2 := es.length } := by
        by_cases hk0 : k = 0
        · subst hk0
          have := hI.hist0 rfl
          rw [hn] at this
          unfold withHistory at g6
          rw [this] at g6
          have hr0 : rows = [] := List.length_eq_zero_iff.1 hI.len
          subst hr0
          simp only [Option.some.injEq] at g6
          rw [← g6, ← hlen]; rfl
        · have := hI.hist hn (by omega)
          unfold withHistory at g6
          rw [this] at g6
          simp only at g6
          rw [this] at g6
          exact (Option.some.inj g6).symm
      have hms : ms.length = es.length := by rw [← hrow.length_eq]
      have hpos : es.length ≠ 0 := fun hc => hne (List.length_eq_zero_iff.1 hc)
      subst hHr
      unfold RowMajorMatrix.appendRow at g7
      simp only [if_neg hpos, hms, Nat.mod_self, if_true, Res.ok.injEq] at g7
      rw [e3, g8, ← g7]
      simp [Nat.div_self (Nat.pos_of_ne_zero hpos)]
    · intro rounds hr
      obtain ⟨ls, c1, c2, c3⟩ := hStop rounds hr
      have c1' : List.Forall₂ (fun (r : List D) m => r.getLast? = some m) (rows ++ [ms]) (ls ++ [m]) :=
        List.rel_append c1 (.cons g4 .nil)
      have hb3 : (st (k + 1)).booster.bestIteration = b1.bestIteration := by rw [e3, g8]
      have hb4 : (st (k + 1)).booster.predictionIteration = b1.predictionIteration := by rw [e3, g8]
      have hw : (withHistory (st k).booster es1.length).earlyStoppingRounds = some rounds := by
        unfold withHistory
        unfold Booster.SameParams at hsame
        split <;> (rw [hsame]; exact hr)
      have hwb : (withHistory (st k).booster es1.length).bestIteration =
          (st k).booster.bestIteration := by
        unfold withHistory; split <;> rfl
      have hwp : (withHistory (st k).booster es1.length).predictionIteration =
          (st k).booster.predictionIteration := by
        unfold withHistory; split <;> rfl
      have hmx : (st k).booster.metric.maximize = b.metric.maximize := by rw [hmet]
      have hlast : ∀ bi, FirstBestAt b.metric.maximize (ls ++ [m]) bi →
          (stop k = true ↔ bi ≠ k ∧ rounds ≤ k - bi) →
          ∀ j < k + 1, ∃ bi, FirstBestAt b.metric.maximize ((ls ++ [m]).take (j + 1)) bi ∧
            (stop j = true ↔ bi ≠ j ∧ rounds ≤ j - bi) := by
        intro bi hf hs j hj
        by_cases hjk : j < k
        · rw [List.take_append_of_le_length (by rw [c2.len]; omega)]
          exact c3 j hjk
        · obtain rfl : j = k := by omega
          rw [List.take_of_length_le (by simp [c2.len])]
          exact ⟨bi, hf, hs⟩
      have hl : (ls ++ [m]).length = k + 1 := by simp [c2.len]
      rw [hmx] at g5
      unfold earlyStopUpdate at g5
      rw [hw] at g5
      simp only at g5
      by_cases hk0 : k = 0
      · subst hk0
        obtain rfl : ls = [] := List.length_eq_zero_iff.1 c2.len
        rw [c2.none rfl] at g5
        simp only [Prod.mk.injEq] at g5
        obtain ⟨rfl, g52, g53⟩ := g5
        have hfb : FirstBestAt b.metric.maximize ([] ++ [m]) 0 := FirstBestAt.one _ m
        refine ⟨[] ++ [m], c1', ⟨hl, by omega, fun _ => ⟨0, m, by rw [hb3]; rfl, by rw [hb4]; rfl, g52,
          rfl, hfb⟩⟩, hlast 0 hfb (by rw [g53]; simp)⟩
      · obtain ⟨bi, x, d1, d2, d3, d4, d5⟩ := c2.best (by omega)
        have hbi : bi < k := by rw [← c2.len]; exact (List.getElem?_eq_some_iff.1 d4).1
        rw [d3] at g5
        simp only at g5
        split at g5
        · rename_i hbet
          rw [isComparisonBetter_iff] at hbet
          simp only [Prod.mk.injEq] at g5
          obtain ⟨rfl, g52, g53⟩ := g5
          have hfb := d5.better d4 hbet
          rw [c2.len] at hfb
          refine ⟨ls ++ [m], c1', ⟨hl, by omega, fun _ => ⟨k, m, by rw [hb3]; rfl, by rw [hb4]; rfl,
            g52, by rw [List.getElem?_append_right (by rw [c2.len])]; simp [c2.len], hfb⟩⟩,
            hlast k hfb (by rw [g53]; simp)⟩
        · rename_i hbet
          rw [isComparisonBetter_iff] at hbet
          rw [hwb, d1] at g5
          simp only [Bool.false_or, Prod.mk.injEq] at g5
          obtain ⟨rfl, g52, g53⟩ := g5
          have hfb := d5.keep d4 hbet
          refine ⟨ls ++ [m], c1', ⟨hl, by omega, fun _ => ⟨bi, x, by rw [hb3, hwb]; exact d1,
            by rw [hb4, hwp]; exact d2, g52, ?_, hfb⟩⟩, hlast bi hfb ?_⟩
          · rw [List.getElem?_append_left (by rw [c2.len]; omega)]; exact d4
          · rw [g53, decide_eq_true_eq]
            constructor
            · intro h; exact ⟨by omega, h⟩
            · exact fun h => h.2

end

end Verif
