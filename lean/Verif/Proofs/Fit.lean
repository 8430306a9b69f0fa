import Verif.Model.Booster
import Verif.Proofs.Data

/-!
# Unfolding of `fit`
-/

namespace Verif

open scoped Verif

variable {F D : Type} [Fl F] [Fl D] [FlCast F D] {R : Type}

set_option linter.unusedSectionVars false

/-- The booster with which the loop starts, apart from the base score. -/
def Booster.start (b : Booster F D) : Booster F D := if b.trees.isEmpty then b else b.reset

theorem Booster.start_eq (b : Booster F D) : b.start =
    { b with trees := [], evaluationHistory := b.start.evaluationHistory
             bestIteration := b.start.bestIteration
             predictionIteration := b.start.predictionIteration } := by
  unfold Booster.start
  split
  · next h => rw [List.isEmpty_iff] at h; rw [← h]
  · rfl

/-- State at the beginning of the loop. -/
def fitStart (env : Env R F D) (b : Booster F D) (y w : List D) (ev : Option (List (EvalSet D))) :
    FitState R F D :=
  { booster := b
    yhat := List.replicate y.length b.baseScore
    grad := (calcGradHess b.objectiveType y (List.replicate y.length b.baseScore) w).1
    hess := (calcGradHess b.objectiveType y (List.replicate y.length b.baseScore) w).2
    evals := ev.map fun es => es.map fun e =>
      { toEvalSet := e, yhat := List.replicate e.y.length b.baseScore }
    best := none, rng := env.rng.seed b.seed }

theorem fitTrees_eq_ok {env : Env R F D} {b : Booster F D} {data : Matrix D} {y w : List D}
    {sp : Splitter F} {ev : Option (List (EvalSet D))} {out : Booster F D} :
    fitTrees env b data y w sp ev = .ok out ↔
      ∃ base binned s,
        (if b.initializeBaseScore then calcInit b.objectiveType y w = .ok base
          else base = b.baseScore) ∧
        binMatrix env.sorter data w b.nbins b.missing = .ok binned ∧
        fitLoop env data y w sp { data := binned.binned, rows := data.rows, cols := data.cols }
          binned.cuts b.iterations 0 (fitStart env { b.start with baseScore := base } y w ev) = .ok s ∧
        out = s.booster := by
  have e := b.start_eq
  have hb : ∀ base : D, ({ b.start with baseScore := base } : Booster F D).iterations = b.iterations := by
    intro; rw [e]
  rw [fitTrees]
  change (do
    let b ← if b.start.initializeBaseScore then do
        let s ← calcInit b.start.objectiveType y w
        pure { b.start with baseScore := s }
      else pure b.start
    let yhat := List.replicate y.length b.baseScore
    let gh := calcGradHess (F := F) b.objectiveType y yhat w
    let binned ← binMatrix env.sorter data w b.nbins b.missing
    let bdata : Matrix Nat := { data := binned.binned, rows := data.rows, cols := data.cols }
    let evals := ev.map fun es => es.map fun e =>
      { toEvalSet := e, yhat := List.replicate e.y.length b.baseScore : TrainEval D }
    let s ← fitLoop env data y w sp bdata binned.cuts b.iterations 0
      { booster := b, yhat, grad := gh.1, hess := gh.2, evals, best := none
        rng := env.rng.seed b.seed }
    Res.ok s.booster) = Res.ok out ↔ _
  have h1 : b.start.initializeBaseScore = b.initializeBaseScore := by rw [e]
  have h2 : b.start.objectiveType = b.objectiveType := by rw [e]
  have h3 : b.start.nbins = b.nbins := by rw [e]
  have h4 : b.start.missing = b.missing := by rw [e]
  have h5 : b.start.iterations = b.iterations := by rw [e]
  have h6 : b.start.baseScore = b.baseScore := by rw [e]
  rw [h1]
  cases hi : b.initializeBaseScore with
  | false =>
    simp only [Bool.false_eq_true, if_false, Res.pure_def, Res.ok_bind, Res.bind_eq_ok, Res.ok.injEq]
    constructor
    · rintro ⟨binned, hbin, s, hs, rfl⟩
      refine ⟨b.baseScore, binned, s, rfl, by rw [h3, h4] at hbin; exact hbin, ?_, rfl⟩
      rw [h5] at hs
      rw [← h6]; exact hs
    · rintro ⟨base, binned, s, rfl, hbin, hs, rfl⟩
      refine ⟨binned, by rw [h3, h4]; exact hbin, s, ?_, rfl⟩
      rw [h5]
      rw [← h6] at hs; exact hs
  | true =>
    simp only [if_true, h2]
    constructor
    · intro h
      rw [Res.bind_eq_ok] at h
      obtain ⟨base, hbase, h⟩ := h
      simp only [Res.pure_def, Res.ok_bind, Res.bind_eq_ok, Res.ok.injEq] at h
      obtain ⟨binned, hbin, s, hs, rfl⟩ := h
      refine ⟨base, binned, s, hbase, by rw [h3, h4] at hbin; exact hbin, ?_, rfl⟩
      rw [← h5]
      exact hs
    · rintro ⟨base, binned, s, hbase, hbin, hs, rfl⟩
      rw [hbase]
      simp only [Res.pure_def, Res.ok_bind, Res.bind_eq_ok, Res.ok.injEq]
      refine ⟨binned, by rw [h3, h4]; exact hbin, s, ?_, rfl⟩
      rw [← h5] at hs
      exact hs

end Verif
