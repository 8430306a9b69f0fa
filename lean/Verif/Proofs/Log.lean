import Verif.Model.Log
import Verif.Proofs.Evals

/-!
# The messages of `fit`
-/

namespace Verif

open scoped Verif

variable {F D : Type} [Fl F] [Fl D] [FlCast F D] {R : Type}

set_option linter.unusedSectionVars false

/-- The result without the messages. -/
def Res.quiet {α β : Type} (x : Res (α × β)) : Res α := x >>= fun r => .ok r.1

theorem Res.quiet_eq_ok {α β : Type} {x : Res (α × β)} {a : α} : x.quiet = .ok a ↔ ∃ l, x = .ok (a, l) := by
  unfold Res.quiet
  cases x with
  | ok r => simp only [Res.ok_bind, Res.ok.injEq]; constructor
            · rintro rfl; exact ⟨r.2, rfl⟩
            · rintro ⟨l, rfl⟩; rfl
  | panic => simp
  | diverge => simp

theorem Res.quiet_bind {α β γ δ : Type} {x : Res (α × β)} {x' : Res α} {f : α × β → Res (γ × δ)} {f' : α → Res γ}
    (hx : x.quiet = x') (hf : ∀ a l, (f (a, l)).quiet = f' a) : (x >>= f).quiet = x' >>= f' := by
  subst hx
  cases x with
  | ok r => exact hf r.1 r.2
  | panic => rfl
  | diverge => rfl

theorem Res.quiet_bind' {α γ δ : Type} {x : Res α} {f : α → Res (γ × δ)} {f' : α → Res γ}
    (hf : ∀ a, (f a).quiet = f' a) : (x >>= f).quiet = x >>= f' := by
  cases x with
  | ok r => exact hf r
  | panic => rfl
  | diverge => rfl

theorem earlyStopLogged_fst (b : Booster F D) (i : Nat) (m : D) (mx : Bool) (best : Option D) (stop : Bool) :
    (earlyStopLogged b i m mx best stop).1 = earlyStopUpdate b i m mx best stop := by
  unfold earlyStopLogged earlyStopUpdate
  cases b.earlyStoppingRounds with
  | none => rfl
  | some rounds =>
    cases best with
    | none => rfl
    | some v =>
      dsimp only
      by_cases hc : isComparisonBetter v m mx = true
      · rw [if_pos hc, if_pos hc]
      · rw [if_neg hc, if_neg hc]
        cases b.bestIteration with
        | none => rfl
        | some bi => dsimp only; split <;> simp [*]

theorem evalLoopLogged_quiet {S : Sorter} {t : Tree F D} {i n : Nat} : ∀ (l : List (TrainEval D)) (k : Nat)
    (b : Booster F D) (best : Option D) (stop : Bool),
    (evalLoopLogged S t i n l k b best stop).quiet = evalLoop S t i n l k b best stop := by
  intro l
  induction l with
  | nil => intro k b best stop; rfl
  | cons e l ih =>
    intro k b best stop
    rw [evalLoopLogged, evalLoop]
    refine Res.quiet_bind' fun preds => Res.quiet_bind' fun m => ?_
    by_cases hk : k + 1 = n
    · simp only [if_pos hk]
      rw [← earlyStopLogged_fst]
      exact Res.quiet_bind (ih _ _ _ _) fun a l => rfl
    · simp only [if_neg hk]
      exact Res.quiet_bind (ih _ _ _ _) fun a l => rfl

theorem evalSetsLogged_quiet {S : Sorter} {t : Tree F D} {i : Nat} {v : Bool} {b : Booster F D}
    (ev : Option (List (TrainEval D))) (best : Option D) :
    (evalSetsLogged S t i v b ev best).quiet = evalSets S t i b ev best := by
  cases ev with
  | none => rfl
  | some es =>
    rw [evalSetsLogged, evalSets]
    exact Res.quiet_bind (evalLoopLogged_quiet _ _ _ _ _) fun a l => Res.quiet_bind' fun b => rfl

theorem fitIterationLogged_quiet {env : Env R F D} {data : Matrix D} {y w : List D} {splitter : Splitter F}
    {bdata : Matrix Nat} {cuts : JaggedMatrix D} {i : Nat} {s : FitState R F D} :
    (fitIterationLogged env data y w splitter bdata cuts i s).quiet =
      fitIteration env data y w splitter bdata cuts i s := by
  rw [fitIterationLogged, fitIteration]
  refine Res.quiet_bind' fun a => ?_
  refine Res.quiet_bind' fun tree => Res.quiet_bind' fun preds => ?_
  refine Res.quiet_bind (evalSetsLogged_quiet _ _) fun r l => ?_
  dsimp only
  split <;> rfl

theorem fitLoopLogged_quiet {env : Env R F D} {data : Matrix D} {y w : List D} {splitter : Splitter F}
    {bdata : Matrix Nat} {cuts : JaggedMatrix D} : ∀ n i (s : FitState R F D),
    (fitLoopLogged env data y w splitter bdata cuts n i s).quiet = fitLoop env data y w splitter bdata cuts n i s := by
  intro n
  induction n with
  | zero => intro i s; rfl
  | succ n ih =>
    intro i s
    rw [fitLoopLogged, fitLoop]
    refine Res.quiet_bind fitIterationLogged_quiet fun r l => ?_
    dsimp only
    split
    · rfl
    · rw [← ih]
      cases fitLoopLogged env data y w splitter bdata cuts n (i + 1) r.1 <;> rfl

theorem fitTreesLogged_quiet {env : Env R F D} {b : Booster F D} {data : Matrix D} {y w : List D}
    {splitter : Splitter F} {ev : Option (List (EvalSet D))} :
    (fitTreesLogged env b data y w splitter ev).quiet = fitTrees env b data y w splitter ev := by
  rw [fitTreesLogged, fitTrees]
  dsimp only
  generalize (if b.trees.isEmpty then b else b.reset) = b0
  by_cases hc : b0.initializeBaseScore = true
  · rw [if_pos hc, if_pos hc]
    refine Res.quiet_bind' fun b => Res.quiet_bind' fun b => Res.quiet_bind' fun binned => ?_
    exact Res.quiet_bind (fitLoopLogged_quiet _ _ _) fun s l => rfl
  · rw [if_neg hc, if_neg hc]
    refine Res.quiet_bind' fun b => Res.quiet_bind' fun binned => ?_
    exact Res.quiet_bind (fitLoopLogged_quiet _ _ _) fun s l => rfl

theorem fitLogged_quiet {env : Env R F D} {b : Booster F D} {data : Matrix D} {y w : List D}
    {ev : Option (List (EvalSet D))} : (b.fitLogged env data y w ev).quiet = b.fit env data y w ev := by
  unfold Booster.fitLogged Booster.fit
  cases validateFit y w ev with
  | error e => rfl
  | ok u => exact Res.quiet_bind fitTreesLogged_quiet fun r l => rfl

theorem fitTreesLogged_ok {env : Env R F D} {b : Booster F D} {data : Matrix D} {y w : List D}
    {sp : Splitter F} {ev : Option (List (EvalSet D))} {out : Booster F D} {log : List (LogMsg D)}
    (h : fitTreesLogged env b data y w sp ev = .ok (out, log)) :
    ∃ base binned s log0,
      (if b.initializeBaseScore then calcInit b.objectiveType y w = .ok base
        else base = b.baseScore) ∧
      binMatrix env.sorter data w b.nbins b.missing = .ok binned ∧
      fitLoopLogged env data y w sp { data := binned.binned, rows := data.rows, cols := data.cols }
        binned.cuts b.iterations 0 (fitStart env { b.start with baseScore := base } y w ev) = .ok (s, log0) ∧
      out = s.booster ∧
      log = log0 ++ if 0 < out.logIterations then [.finished out.trees.length] else [] := by
  have e := b.start_eq
  rw [fitTreesLogged] at h
  change (do
    let b ← if b.start.initializeBaseScore then do
        let s ← calcInit b.start.objectiveType y w
        pure { b.start with baseScore := s }
      else pure b.start
    let yhat := List.replicate y.length b.baseScore
    let gh := calcGradHess (F := F) b.objectiveType y yhat w
    let binned ← binMatrix env.sorter data w b.nbins b.missing
    let bdata : Matrix Nat := { data := binned.binned, rows := data.rows, cols := data.cols }
    let evals := ev.map fun es => es.map fun e =>
      { toEvalSet := e, yhat := List.replicate e.y.length b.baseScore : TrainEval D }
    let (s, log) ← fitLoopLogged env data y w sp bdata binned.cuts b.iterations 0
      { booster := b, yhat, grad := gh.1, hess := gh.2, evals, best := none
        rng := env.rng.seed b.seed }
    Res.ok (s.booster, log ++ if 0 < s.booster.logIterations then [.finished s.booster.trees.length] else [])) =
      Res.ok (out, log) at h
  have h1 : b.start.initializeBaseScore = b.initializeBaseScore := by rw [e]
  have h2 : b.start.objectiveType = b.objectiveType := by rw [e]
  have h3 : b.start.nbins = b.nbins := by rw [e]
  have h4 : b.start.missing = b.missing := by rw [e]
  have h5 : b.start.iterations = b.iterations := by rw [e]
  have h6 : b.start.baseScore = b.baseScore := by rw [e]
  rw [h1] at h
  cases hi : b.initializeBaseScore with
  | false =>
    simp only [hi, Bool.false_eq_true, if_false, Res.pure_def, Res.ok_bind, Res.bind_eq_ok, Res.ok.injEq,
      Prod.exists, Prod.mk.injEq] at h
    obtain ⟨binned, hbin, s, log0, hs, rfl, rfl⟩ := h
    refine ⟨b.baseScore, binned, s, log0, by simp, by rw [h3, h4] at hbin; exact hbin, ?_, rfl, rfl⟩
    rw [h5] at hs
    rw [← h6]; exact hs
  | true =>
    rw [hi, if_pos rfl, Res.bind_eq_ok] at h
    obtain ⟨base, hbase, h⟩ := h
    rw [h2] at hbase
    simp only [Res.pure_def, Res.ok_bind, Res.bind_eq_ok, Res.ok.injEq, Prod.exists, Prod.mk.injEq] at h
    obtain ⟨binned, hbin, s, log0, hs, rfl, rfl⟩ := h
    refine ⟨base, binned, s, log0, by simpa using hbase, by rw [h3, h4] at hbin; exact hbin, ?_, rfl, rfl⟩
    rw [← h5]
    exact hs

/-- The loop goes through states, with the messages of each iteration. -/
theorem fitLoopLogged_states {env : Env R F D} {data : Matrix D} {y w : List D} {splitter : Splitter F}
    {bdata : Matrix Nat} {cuts : JaggedMatrix D} : ∀ n i (s s' : FitState R F D) log,
    fitLoopLogged env data y w splitter bdata cuts n i s = .ok (s', log) →
    ∃ (st : Nat → FitState R F D) (stop : Nat → Bool) (logs : Nat → List (LogMsg D)) (N : Nat),
      N ≤ n ∧ st 0 = s ∧ st N = s' ∧
      (∀ k < N, fitIterationLogged env data y w splitter bdata cuts (i + k) (st k) =
        .ok ((st (k + 1), stop k), logs k)) ∧
      (∀ k, k + 1 < N → stop k = false) ∧ (N < n → 0 < N ∧ stop (N - 1) = true) ∧
      log = (List.range N).flatMap logs := by
  intro n
  induction n with
  | zero =>
    intro i s s' log h
    simp only [fitLoopLogged, Res.ok.injEq, Prod.mk.injEq] at h
    obtain ⟨rfl, rfl⟩ := h
    exact ⟨fun _ => s, fun _ => false, fun _ => [], 0, le_refl _, rfl, rfl, by omega, by omega, by omega, rfl⟩
  | succ n ih =>
    intro i s s' log h
    simp only [fitLoopLogged, Res.bind_eq_ok, Prod.exists] at h
    obtain ⟨s1, b, log1, h1, h⟩ := h
    cases b with
    | true =>
      simp only [if_true, Res.ok.injEq, Prod.mk.injEq] at h
      obtain ⟨rfl, rfl⟩ := h
      refine ⟨fun k => if k = 0 then s else s1, fun _ => true, fun _ => log1, 1, by omega, rfl, rfl, ?_, by omega,
        fun _ => ⟨by omega, rfl⟩, by simp [List.range_succ]⟩
      intro k hk
      obtain rfl : k = 0 := by omega
      exact h1
    | false =>
      simp only [Bool.false_eq_true, if_false, Res.bind_eq_ok, Prod.exists, Res.ok.injEq, Prod.mk.injEq] at h
      obtain ⟨s2, log2, h2, rfl, rfl⟩ := h
      obtain ⟨st, stop, logs, N, a1, a2, a3, a4, a5, a6, rfl⟩ := ih (i + 1) s1 _ _ h2
      refine ⟨fun k => match k with | 0 => s | k + 1 => st k,
        fun k => match k with | 0 => false | k + 1 => stop k,
        fun k => match k with | 0 => log1 | k + 1 => logs k, N + 1, by omega, rfl, a3, ?_, ?_, ?_, ?_⟩
      · intro k hk
        cases k with
        | zero => show _ = Res.ok ((st 0, false), _); rw [a2]; exact h1
        | succ k =>
          have := a4 k (by omega)
          rw [show i + (k + 1) = i + 1 + k by omega]
          exact this
      · intro k hk
        cases k with
        | zero => rfl
        | succ k => exact a5 k (by omega)
      · intro hN
        obtain ⟨b1, b2⟩ := a6 (by omega)
        refine ⟨by omega, ?_⟩
        obtain ⟨N', rfl⟩ : ∃ N', N = N' + 1 := ⟨N - 1, by omega⟩
        simpa using b2
      · rw [List.range_succ_eq_map, List.flatMap_cons, List.flatMap_map]

/-- The states of a fit with the messages of each iteration. -/
theorem fitLogged_trace {env : Env R F D} {b b' : Booster F D} {data : Matrix D} {y w : List D}
    {ev : Option (List (EvalSet D))} {log : List (LogMsg D)}
    (h : b.fitLogged env data y w ev = .ok ((b', .ok ()), log)) :
    ∃ base binned st stop N logs, FitTrace env b data y w ev b' base binned st stop N ∧
      (∀ k < N, fitIterationLogged env data y w b.splitter
        { data := binned.binned, rows := data.rows, cols := data.cols } binned.cuts k (st k) =
          .ok ((st (k + 1), stop k), logs k)) ∧
      log = (List.range N).flatMap logs ++ if 0 < b.logIterations then [.finished N] else [] := by
  unfold Booster.fitLogged at h
  split at h
  · cases h
  · rename_i hv
    simp only [Res.bind_eq_ok, Res.ok.injEq, Prod.mk.injEq, and_true, Prod.exists] at h
    obtain ⟨b1, log1, h, rfl, rfl⟩ := h
    obtain ⟨base, binned, s, log0, hb, hbin, hl, rfl, rfl⟩ := fitTreesLogged_ok h
    obtain ⟨st, stop, logs, N, a1, a2, rfl, a4, a5, a6, rfl⟩ := fitLoopLogged_states _ _ _ _ _ hl
    simp only [Nat.zero_add] at a4
    have hT : FitTrace env b data y w ev (st N).booster base binned st stop N := by
      refine ⟨hv, hb, hbin, a2, rfl, a1, ?_, a5, a6⟩
      intro k hk
      rw [← fitIterationLogged_quiet, a4 k hk]; rfl
    refine ⟨base, binned, st, stop, N, logs, hT, a4, ?_⟩
    have hs := hT.same N (le_refl _)
    unfold Booster.SameParams at hs
    rw [hT.length, show (st N).booster.logIterations = b.logIterations by rw [hs]]

theorem earlyStopLogged_log (b : Booster F D) (i : Nat) (m : D) (mx : Bool) (best : Option D) :
    (earlyStopLogged b i m mx best false).2 =
      if (earlyStopLogged b i m mx best false).1.2.2 = true ∧ 0 < b.logIterations then [.stopping i m] else [] := by
  unfold earlyStopLogged
  cases b.earlyStoppingRounds with
  | none => simp
  | some rounds =>
    cases best with
    | none => simp
    | some v =>
      dsimp only
      by_cases hc : isComparisonBetter v m mx = true
      · simp [hc]
      · cases b.bestIteration with
        | none => simp [hc]
        | some bi => by_cases hr : rounds ≤ i - bi <;> simp [hc, hr]

theorem metrics_unique {S : Sorter} {mt : Metric} {es : List (TrainEval D)} {ms : List D}
    (h : List.Forall₂ (fun (e : TrainEval D) m => mt.eval S e.y e.yhat e.w = .ok m) es ms) :
    ∀ {ms' : List D}, List.Forall₂ (fun (e : TrainEval D) m => mt.eval S e.y e.yhat e.w = .ok m) es ms' →
      ms' = ms := by
  induction h with
  | nil => intro ms' h'; cases h'; rfl
  | cons p _ ih =>
    intro ms' h'
    cases h' with
    | cons p2 q2 =>
      rw [p] at p2
      cases p2
      rw [ih q2]

theorem evalLoopLogged_log {S : Sorter} {t : Tree F D} {i n : Nat} : ∀ (l : List (TrainEval D)) (k : Nat)
    (b : Booster F D) (best : Option D) es ms b' best' stop' log, k + l.length = n →
    evalLoopLogged S t i n l k b best false = .ok ((es, ms, b', best', stop'), log) →
    ∀ m, ms.getLast? = some m → log = if stop' = true ∧ 0 < b.logIterations then [.stopping i m] else [] := by
  intro l
  induction l with
  | nil =>
    intro k b best es ms b' best' stop' log _ h
    simp only [evalLoopLogged, Res.ok.injEq, Prod.mk.injEq] at h
    obtain ⟨⟨rfl, rfl, rfl, rfl, rfl⟩, rfl⟩ := h
    simp
  | cons e l ih =>
    intro k b best es ms b' best' stop' log hk h m hm
    simp only [List.length_cons] at hk
    simp only [evalLoopLogged, Res.bind_eq_ok] at h
    obtain ⟨preds, hp, m', hm', h⟩ := h
    by_cases hkn : k + 1 = n
    · simp only [if_pos hkn, Prod.exists, Res.ok.injEq, Prod.mk.injEq] at h
      obtain ⟨es1, ms1, b2, best2, stop2, log2, h1, ⟨rfl, rfl, rfl, rfl, rfl⟩, rfl⟩ := h
      have hl : l = [] := List.length_eq_zero_iff.1 (by omega)
      subst hl
      simp only [evalLoopLogged, Res.ok.injEq, Prod.mk.injEq] at h1
      obtain ⟨⟨rfl, rfl, rfl, rfl, rfl⟩, rfl⟩ := h1
      simp only [List.getLast?_singleton, Option.some.injEq] at hm
      subst hm
      rw [List.append_nil]
      exact earlyStopLogged_log _ _ _ _ _
    · simp only [if_neg hkn, Prod.exists, Res.ok.injEq, Prod.mk.injEq] at h
      obtain ⟨es1, ms1, b2, best2, stop2, log2, h1, ⟨rfl, rfl, rfl, rfl, rfl⟩, rfl⟩ := h
      rw [List.nil_append]
      refine ih (k + 1) b best es1 ms1 b2 best2 stop2 log2 (by omega) h1 m ?_
      have hq : evalLoop S t i n l (k + 1) b best false = .ok (es1, ms1, b2, best2, stop2) := by
        rw [← evalLoopLogged_quiet, h1]; rfl
      obtain ⟨a1, a2, a3⟩ := evalLoop_ok _ _ _ _ _ _ _ _ _ _ (by omega) hq
      have hne : ms1 ≠ [] := by
        rintro rfl
        have l1 := a2.length_eq
        have l2 := a1.length_eq
        simp only [List.length_nil] at l1
        omega
      rwa [List.getLast?_cons_of_ne_nil hne] at hm

/-- The messages of one iteration without evaluation sets. -/
theorem fitIterationLogged_none {env : Env R F D} {data : Matrix D} {y w : List D} {splitter : Splitter F}
    {bdata : Matrix Nat} {cuts : JaggedMatrix D} {i : Nat} {s s' : FitState R F D} {stop : Bool}
    {log : List (LogMsg D)} (hev : s.evals = none)
    (h : fitIterationLogged env data y w splitter bdata cuts i s = .ok ((s', stop), log)) :
    s'.evals = none ∧ log = if verboseAt s.booster.logIterations i then [.completed i s.booster.iterations] else [] := by
  simp only [fitIterationLogged, hev, evalSetsLogged, Res.ok_bind, Bool.false_eq_true, if_false, List.nil_append] at h
  rw [Res.bind_eq_ok] at h
  obtain ⟨⟨chosen, grad, hess, r1⟩, h1, h⟩ := h
  simp only at h
  rw [Res.bind_eq_ok] at h
  obtain ⟨tree, h2, h⟩ := h
  rw [Res.bind_eq_ok] at h
  obtain ⟨preds, h3, h⟩ := h
  simp only [Res.ok.injEq, Prod.mk.injEq] at h
  obtain ⟨⟨rfl, rfl⟩, rfl⟩ := h
  exact ⟨rfl, rfl⟩

/-- The messages of one iteration with evaluation sets, and the row of metrics that it adds to the history. -/
theorem fitIterationLogged_some {env : Env R F D} {data : Matrix D} {y w : List D} {splitter : Splitter F}
    {bdata : Matrix Nat} {cuts : JaggedMatrix D} {i : Nat} {s s' : FitState R F D} {stop : Bool}
    {log : List (LogMsg D)} {es : List (TrainEval D)} (hev : s.evals = some es) (hne : es ≠ [])
    (h : fitIterationLogged env data y w splitter bdata cuts i s = .ok ((s', stop), log)) :
    ∃ es' ms m H H', s'.evals = some es' ∧ es'.length = es.length ∧ ms.length = es.length ∧ ms.getLast? = some m ∧
      (withHistory s.booster es.length).evaluationHistory = some H ∧ H.appendRow ms = .ok H' ∧
      s'.booster.evaluationHistory = some H' ∧
      (s.booster.earlyStoppingRounds = none → stop = false) ∧
      log = (if stop = true ∧ 0 < s.booster.logIterations then [.stopping i m] else []) ++
        (if verboseAt s.booster.logIterations i then [.evaluation i ms] else []) ++
        (if verboseAt s.booster.logIterations i = true ∧ stop = false then [.completed i s.booster.iterations]
          else []) := by
  have hq : fitIteration env data y w splitter bdata cuts i s = .ok (s', stop) := by
    rw [← fitIterationLogged_quiet, h]; rfl
  simp only [fitIterationLogged] at h
  rw [Res.bind_eq_ok] at h
  obtain ⟨⟨chosen, grad, hess, r1⟩, h1, h⟩ := h
  simp only at h
  rw [Res.bind_eq_ok] at h
  obtain ⟨tree, h2, h⟩ := h
  rw [Res.bind_eq_ok] at h
  obtain ⟨preds, h3, h⟩ := h
  rw [Res.bind_eq_ok] at h
  obtain ⟨⟨⟨b4, evals4, best4, stop4⟩, log4⟩, h4, h⟩ := h
  have h4q : evalSets env.sorter tree i s.booster s.evals s.best = .ok (b4, evals4, best4, stop4) := by
    rw [← evalSetsLogged_quiet (v := verboseAt s.booster.logIterations i), h4]; rfl
  have hsame := (evalSets_same h4q).1
  rw [hev] at h4 h4q
  obtain ⟨es', ms, m, b1, H, H', g1, g2, g3, g4, g5, g6, g7, g8⟩ := evalSets_ok hne h4q
  -- the messages of the evaluation block
  have hlog4 : log4 = (if stop4 = true ∧ 0 < s.booster.logIterations then [.stopping i m] else []) ++
      (if verboseAt s.booster.logIterations i then [.evaluation i ms] else []) := by
    simp only [evalSetsLogged] at h4
    rw [Res.bind_eq_ok] at h4
    obtain ⟨⟨⟨es2, ms2, b2, best2, stop2⟩, log2⟩, k1, h4⟩ := h4
    simp only [Res.bind_eq_ok, Res.ok.injEq, Prod.mk.injEq] at h4
    obtain ⟨b3, k3, ⟨rfl, rfl, rfl, rfl⟩, rfl⟩ := h4
    have k1q : evalLoop env.sorter tree i es.length es 0 (withHistory s.booster es.length) s.best false =
        .ok (es2, ms2, b2, best2, stop2) := by
      rw [← evalLoopLogged_quiet, k1]; rfl
    have hms : ms2 = ms := by
      have hm2 := (evalLoop_ok _ _ _ _ _ _ _ _ _ _ (by simp) k1q).2.1
      cases g1
      have e1 : (withHistory s.booster es.length).metric = s.booster.metric := by
        unfold withHistory; split <;> rfl
      rw [e1] at hm2
      exact metrics_unique g3 hm2
    subst hms
    have hl := evalLoopLogged_log _ _ _ _ _ _ _ _ _ _ (by simp) k1 m g4
    rw [hl]
    have e2 : (withHistory s.booster es.length).logIterations = s.booster.logIterations := by
      unfold withHistory; split <;> rfl
    rw [e2]
  have hlen : es'.length = es.length := g2.length_eq.symm
  have hround : s.booster.earlyStoppingRounds = none → stop4 = false := by
    intro hr
    have e3 : (withHistory s.booster es.length).earlyStoppingRounds = none := by
      unfold withHistory; split <;> exact hr
    unfold earlyStopUpdate at g5
    rw [e3] at g5
    simp only [Prod.mk.injEq] at g5
    exact g5.2.2
  have hit : b4.iterations = s.booster.iterations := by
    unfold Booster.SameParams at hsame; rw [hsame]
  cases stop4 with
  | true =>
    simp only [if_true, Res.ok.injEq, Prod.mk.injEq] at h
    obtain ⟨⟨rfl, rfl⟩, rfl⟩ := h
    exact ⟨es', ms, m, H, H', g1, hlen, by rw [← g3.length_eq, hlen], g4, g6, g7, by rw [g8], hround, by
      rw [hlog4]; simp⟩
  | false =>
    simp only [Bool.false_eq_true, if_false, Res.ok.injEq, Prod.mk.injEq] at h
    obtain ⟨⟨rfl, rfl⟩, rfl⟩ := h
    refine ⟨es', ms, m, H, H', g1, hlen, by rw [← g3.length_eq, hlen], g4, g6, g7, by rw [g8], hround, ?_⟩
    rw [hlog4, hit]
    simp

end Verif
