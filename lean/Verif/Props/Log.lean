import Verif.Proofs.Log
import Verif.Props.LastSet

/-!
# C125: the messages of `fit`
-/

namespace Verif

open scoped Verif

section
variable {F D : Type} [Fl F] [Fl D] [FlCast F D] {R : Type}

set_option linter.unusedSectionVars false

/-- C125.  Writing messages has no influence on the fit: without its messages it is the fit that all other properties
are about, with the same result, the same error and the same panics. -/
theorem C125_no_influence (env : Env R F D) (b : Booster F D) (data : Matrix D) (y w : List D)
    (ev : Option (List (EvalSet D))) :
    (b.fitLogged env data y w ev >>= fun r => .ok r.1) = b.fit env data y w ev :=
  fitLogged_quiet

/-- C125.  With `log_iterations = 0`, and when the data are refused, there are no messages. -/
theorem C125_silent {env : Env R F D} {b b' : Booster F D} {data : Matrix D} {y w : List D}
    {ev : Option (List (EvalSet D))} {log : List (LogMsg D)} {r : Except ForustError Unit}
    (h : b.fitLogged env data y w ev = .ok ((b', r), log)) (h0 : b.logIterations = 0 ∨ r ≠ .ok ())
    (hev : ev ≠ some []) : log = [] := by
  cases r with
  | error e =>
    unfold Booster.fitLogged at h
    split at h
    · cases h; rfl
    · simp only [Res.bind_eq_ok, Res.ok.injEq, Prod.mk.injEq, Prod.exists] at h
      obtain ⟨_, _, _, ⟨_, h⟩, _⟩ := h
      cases h
  | ok u =>
    have h0 : b.logIterations = 0 := h0.resolve_right (by simp)
    obtain ⟨base, binned, st, stop, N, logs, hT, hl, rfl⟩ := fitLogged_trace h
    have hL : ∀ k, k ≤ N → (st k).booster.logIterations = 0 := by
      intro k hk
      have := hT.same k hk
      unfold Booster.SameParams at this
      rw [this]; exact h0
    have key : ∀ k < N, logs k = [] := by
      intro k hk
      cases hs : (st k).evals with
      | none =>
        rw [(fitIterationLogged_none hs (hl k hk)).2, hL k (by omega)]; rfl
      | some es =>
        have hne : es ≠ [] := by
          have : ∀ k, k ≤ N → ∀ es, (st k).evals = some es → es ≠ [] := by
            intro k
            induction k with
            | zero =>
              intro _ es he
              rw [hT.start] at he
              simp only [fitStart, Option.map_eq_some_iff] at he
              obtain ⟨l, rfl, rfl⟩ := he
              intro hc
              rw [List.map_eq_nil_iff] at hc
              exact hev (by rw [hc])
            | succ k ih =>
              intro hk es he
              cases hs : (st k).evals with
              | none =>
                rw [(fitIterationLogged_none hs (hl k (by omega))).1] at he; cases he
              | some es0 =>
                have h1 := ih (by omega) es0 hs
                obtain ⟨es', ms, m, H, H', g1, g2, _⟩ := fitIterationLogged_some hs h1 (hl k (by omega))
                rw [g1] at he
                cases he
                intro hc
                rw [hc] at g2
                exact h1 (List.length_eq_zero_iff.1 g2.symm)
          exact this k (by omega) es hs
        obtain ⟨es', ms, m, H, H', _, _, _, _, _, _, _, _, g⟩ := fitIterationLogged_some hs hne (hl k hk)
        rw [g, hL k (by omega)]
        simp [verboseAt]
    rw [h0]
    simp only [lt_irrefl, if_false, List.append_nil, List.flatMap_eq_nil_iff, List.mem_range]
    exact key

/-- C125.  Without evaluation sets the messages are: after every iteration whose number is a multiple of
`log_iterations` that it is completed, and at the end the number of trees. -/
theorem C125_plain {env : Env R F D} {b b' : Booster F D} {data : Matrix D} {y w : List D}
    {log : List (LogMsg D)} (h : b.fitLogged env data y w none = .ok ((b', .ok ()), log))
    (h0 : b.logIterations ≠ 0) :
    log = (List.range b.iterations).flatMap
        (fun k => if k % b.logIterations = 0 then [.completed k b.iterations] else []) ++
      [.finished b'.trees.length] := by
  have hq : b.fit env data y w none = .ok (b', .ok ()) := by rw [← fitLogged_quiet, h]; rfl
  have hN := C20_no_evaluation hq
  obtain ⟨base, binned, st, stop, N, logs, hT, hl, rfl⟩ := fitLogged_trace h
  rw [hT.length] at hN ⊢
  rw [if_pos (Nat.pos_of_ne_zero h0), hN]
  congr 1
  have key : ∀ k, k ≤ N → (st k).evals = none := by
    intro k
    induction k with
    | zero => intro _; rw [hT.start]; rfl
    | succ k ih =>
      intro hk
      exact (fitIterationLogged_none (ih (by omega)) (hl k (by omega))).1
  rw [← hN]
  apply List.flatMap_congr
  intro k hk
  rw [List.mem_range] at hk
  rw [(fitIterationLogged_none (key k hk.le) (hl k hk)).2]
  have := hT.same k hk.le
  unfold Booster.SameParams at this
  have e1 : (st k).booster.logIterations = b.logIterations := by rw [this]
  have e2 : (st k).booster.iterations = b.iterations := by rw [this]
  rw [e1, e2, verboseAt, if_neg h0]
  simp [hN]

/-- C125.  With evaluation sets the messages are, for every iteration `k` in turn: if training stops early at it, that
it does, with the metric of the last set; if `k` is a multiple of `log_iterations`, the metrics of all sets, and,
unless training stops early at it, that the iteration is completed.  At the end the number of trees.  The metrics are
those of row `k` of the evaluation history, and training stops early at the last iteration exactly if the best
iteration is an earlier one, by at least `early_stopping_rounds`. -/
theorem C125_evaluated [Fl.OrdLaws D] {env : Env R F D} {b b' : Booster F D} {data : Matrix D} {y w : List D}
    {es : List (EvalSet D)} {log : List (LogMsg D)} (h : b.fitLogged env data y w (some es) = .ok ((b', .ok ()), log))
    (hes : es ≠ []) (h0 : b.logIterations ≠ 0) (hb : b.trees ≠ [] ∨ b.evaluationHistory = none)
    (hi : b'.trees ≠ []) :
    ∃ (H : RowMajorMatrix D) (row : Nat → List D) (last : Nat → D) (early : Bool),
      b'.evaluationHistory = some H ∧
      (∀ k < b'.trees.length, (row k).length = es.length ∧ (∀ j m, (row k)[j]? = some m → H.get k j = .ok m) ∧
        H.get k (es.length - 1) = .ok (last k)) ∧
      (early = true ↔ ∃ rounds best, b.earlyStoppingRounds = some rounds ∧ b'.bestIteration = some best ∧
        best ≠ b'.trees.length - 1 ∧ rounds ≤ b'.trees.length - 1 - best) ∧
      log = (List.range b'.trees.length).flatMap (fun k =>
          (if k = b'.trees.length - 1 ∧ early = true then [.stopping k (last k)] else []) ++
          (if k % b.logIterations = 0 then [.evaluation k (row k)] else []) ++
          (if k % b.logIterations = 0 ∧ ¬ (k = b'.trees.length - 1 ∧ early = true) then [.completed k b.iterations]
            else [])) ++ [.finished b'.trees.length] := by
  obtain ⟨base, binned, st, stop, N, logs, hT, hl, rfl⟩ := fitLogged_trace h
  have hstart : b.start.evaluationHistory = none := by
    unfold Booster.start
    split
    · rename_i hc
      rcases hb with hb | hb
      · exact absurd (List.isEmpty_iff.1 hc) hb
      · exact hb
    · rfl
  have hN : 0 < N := by
    rw [← hT.length]; exact List.length_pos_iff.2 hi
  have hpos : 0 < es.length := List.length_pos_iff.2 hes
  -- all iterations
  have hev : ∀ k, k ≤ N → ∃ es', (st k).evals = some es' ∧ es'.length = es.length := by
    intro k
    induction k with
    | zero => intro _; rw [hT.start]; exact ⟨_, rfl, by simp⟩
    | succ k ih =>
      intro hk
      obtain ⟨es0, e1, e2⟩ := ih (by omega)
      have hne : es0 ≠ [] := List.length_pos_iff.1 (by omega)
      obtain ⟨es', ms, m, H, H', g1, g2, _⟩ := fitIterationLogged_some e1 hne (hl k (by omega))
      exact ⟨es', g1, g2.trans e2⟩
  have hit : ∀ k, ∃ ms m, k < N → ms.length = es.length ∧ ms.getLast? = some m ∧
      (∃ H H', (withHistory (st k).booster es.length).evaluationHistory = some H ∧ H.appendRow ms = .ok H' ∧
        (st (k + 1)).booster.evaluationHistory = some H') ∧
      (b.earlyStoppingRounds = none → stop k = false) ∧
      logs k = (if stop k = true ∧ 0 < b.logIterations then [.stopping k m] else []) ++
        (if verboseAt b.logIterations k then [.evaluation k ms] else []) ++
        (if verboseAt b.logIterations k = true ∧ stop k = false then [.completed k b.iterations] else []) := by
    intro k
    by_cases hk : k < N
    · obtain ⟨es0, e1, e2⟩ := hev k hk.le
      have hne : es0 ≠ [] := List.length_pos_iff.1 (by omega)
      obtain ⟨es', ms, m, H, H', g1, g2, g3, g4, g5, g6, g7, g8, g9⟩ := fitIterationLogged_some e1 hne (hl k hk)
      have := hT.same k hk.le
      unfold Booster.SameParams at this
      have e3 : (st k).booster.logIterations = b.logIterations := by rw [this]
      have e4 : (st k).booster.iterations = b.iterations := by rw [this]
      have e5 : (st k).booster.earlyStoppingRounds = b.earlyStoppingRounds := by rw [this]
      rw [e3, e4] at g9
      rw [e5] at g8
      rw [e2] at g3 g5
      exact ⟨ms, m, fun _ => ⟨g3, g4, ⟨H, H', g5, g6, g7⟩, g8, g9⟩⟩
    · exact ⟨[], base, fun hc => absurd hc hk⟩
  choose row last hrow using hit
  -- the history
  have hhist : ∀ k, k ≤ N → (withHistory (st k).booster es.length).evaluationHistory =
      some { data := ((List.range k).map row).flatten, rows := k, cols := es.length, stride1 := 1
             stride2 := es.length } := by
    intro k
    induction k with
    | zero =>
      intro _
      have e1 : (st 0).booster.evaluationHistory = none := by rw [hT.start]; exact hstart
      unfold withHistory
      rw [e1]; rfl
    | succ k ih =>
      intro hk
      obtain ⟨r1, _, ⟨H, H', g5, g6, g7⟩, _⟩ := hrow k (by omega)
      rw [ih (by omega)] at g5
      cases g5
      unfold withHistory
      rw [g7]
      unfold RowMajorMatrix.appendRow at g6
      simp only [if_neg (Nat.pos_iff_ne_zero.1 hpos), r1, Nat.mod_self, if_true, Res.ok.injEq] at g6
      dsimp only
      rw [g7, ← g6]
      simp [List.range_succ, Nat.div_self hpos]
  have hH : b'.evaluationHistory = some { data := ((List.range N).map row).flatten, rows := N, cols := es.length
                                          stride1 := 1, stride2 := es.length } := by
    have h1 := hhist N (le_refl _)
    obtain ⟨_, _, ⟨H, H', _, _, g7⟩, _⟩ := hrow (N - 1) (by omega)
    rw [show N - 1 + 1 = N by omega] at g7
    unfold withHistory at h1
    rw [g7] at h1
    dsimp only at h1
    rw [← hT.last, h1]
  have hget : ∀ k < N, ∀ j < es.length, ∀ m, (row k)[j]? = some m →
      ({ data := ((List.range N).map row).flatten, rows := N, cols := es.length
         stride1 := 1, stride2 := es.length } : RowMajorMatrix D).get k j = .ok m := by
    intro k hk j hj m hm
    unfold RowMajorMatrix.get
    rw [idx_eq_ok]
    simp only [Nat.mul_one]
    rw [flatten_get ((List.range N).map row) k (row k) (by simp [hk]) ?_ j hj]
    · exact hm
    · intro r hr
      simp only [List.mem_map, List.mem_range] at hr
      obtain ⟨i, hi, rfl⟩ := hr
      exact (hrow i hi).1
  -- early stopping
  have hearly : stop (N - 1) = true ↔ ∃ rounds best, b.earlyStoppingRounds = some rounds ∧
      b'.bestIteration = some best ∧ best ≠ N - 1 ∧ rounds ≤ N - 1 - best := by
    cases hr : b.earlyStoppingRounds with
    | none =>
      have := (hrow (N - 1) (by omega)).2.2.2.1 hr
      rw [this]
      simp
    | some rounds =>
      obtain ⟨rows, hI, hS⟩ := hT.evalInv hes N (le_refl _)
      obtain ⟨ms, c1, c2, c3⟩ := hS rounds hr
      obtain ⟨bi, x, d1, d2, d3, d4, d5⟩ := c2.best hN
      rw [hT.last] at d1
      obtain ⟨bi', e1, e2⟩ := c3 (N - 1) (by omega)
      rw [List.take_of_length_le (by rw [c2.len]; omega)] at e1
      obtain rfl := e1.unique d5
      rw [e2, d1]
      constructor
      · intro hc; exact ⟨rounds, bi', rfl, rfl, hc⟩
      · rintro ⟨r, bb, hr', hb', hc⟩
        cases hr'; cases hb'; exact hc
  refine ⟨_, row, last, stop (N - 1), hH, ?_, by rw [hT.length]; exact hearly, ?_⟩
  · intro k hk
    rw [hT.length] at hk
    obtain ⟨r1, r2, _⟩ := hrow k hk
    refine ⟨r1, fun j m hm => ?_, ?_⟩
    · exact hget k hk j (by rw [← r1]; exact (List.getElem?_eq_some_iff.1 hm).1) m hm
    · rw [List.getLast?_eq_getElem?, r1] at r2
      exact hget k hk _ (by omega) _ r2
  · rw [hT.length, if_pos (Nat.pos_of_ne_zero h0)]
    congr 1
    apply List.flatMap_congr
    intro k hk
    rw [List.mem_range] at hk
    rw [(hrow k hk).2.2.2.2]
    have hsk : stop k = true ↔ k = N - 1 ∧ stop (N - 1) = true := by
      by_cases hc : k + 1 < N
      · rw [hT.cont k hc]
        constructor
        · intro hf; cases hf
        · intro hf; omega
      · rw [show k = N - 1 by omega]; simp
    have hsk' : stop k = false ↔ ¬ (k = N - 1 ∧ stop (N - 1) = true) := by
      rw [← hsk]; simp
    rw [verboseAt, if_neg h0]
    simp only [hsk, hsk', Nat.pos_of_ne_zero h0, and_true, decide_eq_true_eq]

end

/-! ### Examples -/

/-- Messages for every second iteration. -/
def exTalk : Booster Q Q := { exStop with logIterations := 2 }

/-- A fit that stops early: the hypotheses of `C125_evaluated`, and the text. -/
example : exSets ≠ [] ∧ exTalk.logIterations ≠ 0 ∧ (exTalk.trees ≠ [] ∨ exTalk.evaluationHistory = none) ∧
    ∃ b' log, exTalk.fitLogged exEnv exX exY exW (some exSets) = .ok ((b', .ok ()), log) ∧ b'.trees ≠ [] ∧
      log.map (LogMsg.text (fun _ => "m") (fun _ => "x")) =
        ["Iteration 0 evaluation data values: x, x", "Completed iteration 0 of 5",
          "Stopping early at iteration 1 with metric value m", "Finished training booster with 2 iterations."] := by
  refine ⟨by simp [exSets], by decide, .inr rfl, ?_⟩
  have : (match exTalk.fitLogged exEnv exX exY exW (some exSets) with
      | .ok ((b', .ok ()), log) => decide (b'.trees.length ≠ 0 ∧
          log.map (LogMsg.text (fun _ => "m") (fun _ => "x")) =
            ["Iteration 0 evaluation data values: x, x", "Completed iteration 0 of 5",
              "Stopping early at iteration 1 with metric value m", "Finished training booster with 2 iterations."])
      | _ => false) = true := by decide +kernel
  split at this
  · next b' log h =>
    simp only [decide_eq_true_eq] at this
    exact ⟨b', log, h, fun hc => this.1 (by rw [hc]; rfl), this.2⟩
  · cases this

/-- A fit without evaluation sets, for `C125_plain`. -/
example : ∃ b', exTalk.fitLogged exEnv exX exY exW none =
    .ok ((b', .ok ()), [.completed 0 5, .completed 2 5, .completed 4 5, .finished 5]) := by
  have : (match exTalk.fitLogged exEnv exX exY exW none with
      | .ok ((_, .ok ()), log) => decide (log = [.completed 0 5, .completed 2 5, .completed 4 5, .finished 5])
      | _ => false) = true := by decide +kernel
  split at this
  · next b' log h =>
    simp only [decide_eq_true_eq] at this
    exact ⟨b', by rw [h, this]⟩
  · cases this

/-- A fit without messages, for `C125_silent`. -/
example : ∃ b' log, exStop.fitLogged exEnv exX exY exW (some exSets) = .ok ((b', .ok ()), log) ∧
    exStop.logIterations = 0 := by
  have : (match exStop.fitLogged exEnv exX exY exW (some exSets) with
      | .ok ((_, .ok ()), _) => true
      | _ => false) = true := by decide +kernel
  split at this
  · next b' log h => exact ⟨b', log, h, rfl⟩
  · cases this

end Verif
