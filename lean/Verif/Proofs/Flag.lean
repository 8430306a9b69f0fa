import Verif.Proofs.PyBooster

/-!
# The flag `parallel` is carried through training
-/

namespace Verif

open scoped Verif

set_option linter.unusedSectionVars false

variable {R F D : Type} [Fl F] [Fl D] [FlCast F D]

/-- Set the flag. -/
def Booster.withParallel (b : Booster F D) (p : Bool) : Booster F D :=
  { b with parallel := p }

theorem earlyStopUpdate_flag (b : Booster F D) (p : Bool) (i : Nat) (m : D) (mx : Bool)
    (best : Option D) (stop : Bool) :
    earlyStopUpdate (b.withParallel p) i m mx best stop =
      ((earlyStopUpdate b i m mx best stop).1.withParallel p, (earlyStopUpdate b i m mx best stop).2) := by
  unfold earlyStopUpdate
  change (match b.earlyStoppingRounds with
    | none => _
    | some rounds => _) = _
  cases b.earlyStoppingRounds with
  | none => rfl
  | some rounds =>
    cases best with
    | none => rfl
    | some v =>
      dsimp only
      split
      · rfl
      · change (match b.bestIteration with
          | some bi => _
          | none => _) = _
        cases b.bestIteration <;> rfl

theorem evalLoop_flag (S : Sorter) (t : Tree F D) (i n : Nat) (p : Bool) :
    ∀ (l : List (TrainEval D)) (k : Nat) (b : Booster F D) (best : Option D) (stop : Bool),
    evalLoop S t i n l k (b.withParallel p) best stop =
      (evalLoop S t i n l k b best stop >>= fun r =>
        .ok (r.1, r.2.1, r.2.2.1.withParallel p, r.2.2.2)) := by
  intro l
  induction l with
  | nil => intro k b best stop; rfl
  | cons e l ih =>
    intro k b best stop
    simp only [evalLoop, Res.bind_assoc']
    change (t.predict e.data b.missing >>= _) = _
    refine Res.bind_congr fun preds _ => ?_
    change (b.metric.eval S e.y _ e.w >>= _) = _
    refine Res.bind_congr fun m _ => ?_
    by_cases hk : k + 1 = n
    · simp only [hk, if_true]
      have e0 : (b.withParallel p).metric = b.metric := rfl
      simp only [e0, earlyStopUpdate_flag, ih, Res.bind_assoc']
      refine Res.bind_congr fun r _ => rfl
    · simp only [hk, if_false]
      rw [ih, Res.bind_assoc']
      refine Res.bind_congr fun r _ => rfl

theorem withHistory_flag (b : Booster F D) (p : Bool) (n : Nat) :
    withHistory (b.withParallel p) n = (withHistory b n).withParallel p := by
  unfold withHistory
  change (match b.evaluationHistory with
    | none => _
    | some _ => _) = _
  cases b.evaluationHistory <;> rfl

theorem appendHistory_flag (b : Booster F D) (p : Bool) (ms : List D) :
    appendHistory (b.withParallel p) ms = (appendHistory b ms >>= fun c => .ok (c.withParallel p)) := by
  unfold appendHistory
  change (match b.evaluationHistory with
    | none => _
    | some h => _) = _
  cases b.evaluationHistory with
  | none => rfl
  | some h => dsimp only; rw [Res.bind_assoc']; exact Res.bind_congr fun _ _ => rfl

theorem evalSets_flag (S : Sorter) (t : Tree F D) (i : Nat) (b : Booster F D)
    (p : Bool) (es : Option (List (TrainEval D))) (best : Option D) :
    evalSets S t i (b.withParallel p) es best =
      (evalSets S t i b es best >>= fun r => .ok (r.1.withParallel p, r.2)) := by
  cases es with
  | none => rfl
  | some es =>
    simp only [evalSets, withHistory_flag, evalLoop_flag, Res.bind_assoc']
    refine Res.bind_congr fun r _ => ?_
    simp only [Res.ok_bind]
    rw [appendHistory_flag, Res.bind_assoc']
    exact Res.bind_congr fun _ _ => rfl

/-- Set the flag of the booster in a state. -/
def FitState.withParallel (s : FitState R F D) (p : Bool) : FitState R F D :=
  { s with booster := s.booster.withParallel p }

theorem fitIteration_flag (env : Env R F D) (data : Matrix D) (y w : List D) (sp : Splitter F)
    (bdata : Matrix Nat) (cuts : JaggedMatrix D) (i : Nat) (s : FitState R F D)
    (p : Bool) :
    fitIteration env data y w sp bdata cuts i (s.withParallel p) =
      (fitIteration env data y w sp bdata cuts i s >>= fun r => .ok (r.1.withParallel p, r.2)) := by
  simp only [fitIteration, Res.bind_assoc']
  change (sampleIndex env.sorter env.rng s.booster.sampleMethod _ _ _ _ _ _ _ >>= _) = _
  refine Res.bind_congr fun a _ => ?_
  refine Res.bind_congr fun t _ => ?_
  change (t.predict data s.booster.missing >>= _) = _
  refine Res.bind_congr fun q _ => ?_
  change (evalSets env.sorter t i (s.booster.withParallel p) s.evals s.best >>= _) = _
  rw [evalSets_flag, Res.bind_assoc']
  refine Res.bind_congr fun r _ => ?_
  obtain ⟨b, evals, best, stop⟩ := r
  cases stop <;> rfl

theorem fitLoop_flag (env : Env R F D) (data : Matrix D) (y w : List D) (sp : Splitter F)
    (bdata : Matrix Nat) (cuts : JaggedMatrix D) (p : Bool) :
    ∀ (n i : Nat) (s : FitState R F D),
    fitLoop env data y w sp bdata cuts n i (s.withParallel p) =
      (fitLoop env data y w sp bdata cuts n i s >>= fun r => .ok (r.withParallel p)) := by
  intro n
  induction n with
  | zero => intro i s; rfl
  | succ n ih =>
    intro i s
    simp only [fitLoop, fitIteration_flag, Res.bind_assoc']
    refine Res.bind_congr fun r _ => ?_
    obtain ⟨s', stop⟩ := r
    cases stop
    · simpa using ih (i + 1) s'
    · rfl

theorem fitTrees_flag (env : Env R F D) (b : Booster F D) (data : Matrix D) (y w : List D)
    (sp : Splitter F) (ev : Option (List (EvalSet D))) (p : Bool) :
    fitTrees env (b.withParallel p) data y w sp ev =
      (fitTrees env b data y w sp ev >>= fun c => .ok (c.withParallel p)) := by
  simp only [fitTrees]
  have e1 : (if (b.withParallel p).trees.isEmpty then b.withParallel p else (b.withParallel p).reset) =
      (if b.trees.isEmpty then b else b.reset).withParallel p := by
    change (if b.trees.isEmpty then _ else _) = _
    split <;> rfl
  rw [e1]
  generalize (if b.trees.isEmpty then b else b.reset) = c
  have tail : ∀ d : Booster F D, (do
      let binned ← binMatrix env.sorter data w (d.withParallel p).nbins (d.withParallel p).missing
      let s ← fitLoop env data y w sp { data := binned.binned, rows := data.rows, cols := data.cols }
        binned.cuts (d.withParallel p).iterations 0 (fitStart env (d.withParallel p) y w ev)
      Res.ok s.booster) = ((do
      let binned ← binMatrix env.sorter data w d.nbins d.missing
      let s ← fitLoop env data y w sp { data := binned.binned, rows := data.rows, cols := data.cols }
        binned.cuts d.iterations 0 (fitStart env d y w ev)
      Res.ok s.booster) >>= fun c => Res.ok (c.withParallel p)) := by
    intro d
    rw [Res.bind_assoc']
    change (binMatrix env.sorter data w d.nbins d.missing >>= _) = _
    refine Res.bind_congr fun bin _ => ?_
    have := fitLoop_flag env data y w sp { data := bin.binned, rows := data.rows, cols := data.cols }
      bin.cuts p d.iterations 0 (fitStart env d y w ev)
    change (fitLoop env data y w sp _ _ d.iterations 0 ((fitStart env d y w ev).withParallel p) >>= _) = _
    rw [this, Res.bind_assoc', Res.bind_assoc']
    exact Res.bind_congr fun _ _ => rfl
  by_cases hc : c.initializeBaseScore = true
  · have hc' : (c.withParallel p).initializeBaseScore = true := hc
    rw [if_pos hc, if_pos hc', Res.bind_assoc']
    change (calcInit c.objectiveType y w >>= _) = _
    refine Res.bind_congr fun s _ => ?_
    exact tail { c with baseScore := s }
  · have hc' : ¬ (c.withParallel p).initializeBaseScore = true := hc
    rw [if_neg hc, if_neg hc']
    exact tail c

/-- Sequential training carries the flag through and does not look at it. -/
theorem Booster.fit_flag (env : Env R F D) (b : Booster F D) (data : Matrix D) (y w : List D)
    (ev : Option (List (EvalSet D))) (p : Bool) :
    (b.withParallel p).fit env data y w ev =
      (b.fit env data y w ev >>= fun r => .ok (r.1.withParallel p, r.2)) := by
  unfold Booster.fit
  split
  · rfl
  · have : (b.withParallel p).splitter = b.splitter := rfl
    rw [this, fitTrees_flag, Res.bind_assoc', Res.bind_assoc']
    exact Res.bind_congr fun _ _ => rfl

end Verif
