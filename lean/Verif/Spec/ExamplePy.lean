import Verif.Spec.PyBooster
import Verif.Spec.ExampleFit

/-!
# Instances of the Python class for examples
-/

namespace Verif

open scoped Verif

/-- Keyword arguments. -/
def exParams : PyParams Q :=
  { objectiveType := "SquaredLoss", iterations := 2, learningRate := q (1/2), maxDepth := 2, maxLeaves := 4
    l1 := q 0, l2 := q 0, gamma := q 0, maxDeltaStep := q 0, minLeafWeight := q 1, baseScore := q (1/2)
    nbins := 8, parallel := false, allowMissingSplits := true, monotoneConstraints := none
    subsample := q 1, topRate := q (1/10), otherRate := q (1/5), colsampleBytree := q 1, seed := 0
    missing := FX.nan, createMissingBranch := false, sampleMethod := none, growPolicy := "DepthWise"
    evaluationMetric := none, earlyStoppingRounds := none, initializeBaseScore := true
    terminateMissingFeatures := none, missingNodeTreatment := "None", logIterations := 0
    featureImportanceMethod := "Gain", forceChildrenToBoundParent := false }

/-- A data frame with the columns "a" and "b". -/
def exFrame : Frame Q := { columns := some ["a", "b"], data := exX }

/-- The same values as an array. -/
def exArray : Frame Q := { columns := none, data := exX }

/-- An evaluation set without weights. -/
def exPyEval : PyEval Q := { frame := exFrame, y := exY, w := none }

/-- A new instance. -/
def exPyNew : Option (PyBooster Q Q) :=
  match pyNew exJson exParams with
  | .ok o => some o
  | .error _ => none

/-- The instance after a successful `fit`. -/
def pyFitted (o : PyBooster Q Q) (X : Frame Q) (y : List Q) (es : Option (List (PyEval Q))) :
    Option (PyBooster Q Q) :=
  match o.fit exJson exEnv X y none es with
  | .ok (o', .ok ()) => some o'
  | _ => none

/-- A new instance, fitted. -/
def exFitted (X : Frame Q) (y : List Q) (es : Option (List (PyEval Q))) : Option (PyBooster Q Q) :=
  exPyNew.bind fun o => pyFitted o X y es

theorem exFitted_made {X : Frame Q} {y : List Q} {es : Option (List (PyEval Q))} {o : PyBooster Q Q}
    (h : exFitted X y es = some o) : Made exJson exParams o ∧
      ∃ o0, pyNew exJson exParams = .ok o0 ∧ o0.fit exJson exEnv X y none es = .ok (o, .ok ()) := by
  unfold exFitted at h
  rw [Option.bind_eq_some_iff] at h
  obtain ⟨o0, h0, h1⟩ := h
  have hn : pyNew exJson exParams = .ok o0 := by
    unfold exPyNew at h0
    split at h0
    · rename_i hn; cases h0; exact hn
    · cases h0
  have hf : o0.fit exJson exEnv X y none es = .ok (o, .ok ()) := by
    unfold pyFitted at h1
    split at h1
    · rename_i hf; cases h1; exact hf
    · cases h1
  exact ⟨.fit exEnv X y none es _ (.new hn) hf, o0, hn, hf⟩

theorem pyFitted_eq {o o' : PyBooster Q Q} {X : Frame Q} {y : List Q} {es : Option (List (PyEval Q))}
    (h : pyFitted o X y es = some o') : o.fit exJson exEnv X y none es = .ok (o', .ok ()) := by
  unfold pyFitted at h
  split at h
  · rename_i hf; cases h; exact hf
  · cases h

/-- The value of an `Except`. -/
def exceptValue {α : Type} : Except PyErr α → Option α
  | .ok a => some a
  | .error _ => none

theorem exceptValue_eq {α : Type} {x : Except PyErr α} {a : α} (h : exceptValue x = some a) : x = .ok a := by
  cases x <;> simp_all [exceptValue]

/-- The value of a `Res`. -/
def resValue {α : Type} : Res α → Option α
  | .ok a => some a
  | _ => none

theorem resValue_eq {α : Type} {x : Res α} {a : α} (h : resValue x = some a) : x = .ok a := by
  cases x <;> simp_all [resValue]

end Verif
