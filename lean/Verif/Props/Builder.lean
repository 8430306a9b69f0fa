import Verif.Spec.Builder
import Verif.Props.Validation
import Verif.Spec.ExampleFit

/-!
# C75: defaults and setters
-/

namespace Verif

open scoped Verif

section
variable {F D : Type}

/-- A setter gives its field its value. -/
theorem call_same (b : Booster F D) (s : Setter F D) : (b.call s).param s.param = s.value := by
  cases s <;> rfl

/-- A setter leaves the other fields. -/
theorem call_other (b : Booster F D) (s : Setter F D) {p : Param} (h : p ≠ s.param) :
    (b.call s).param p = b.param p := by
  cases s <;> (cases p <;> first | rfl | exact absurd rfl h)

/-- Boosters whose fields have the same values are equal. -/
theorem Booster.ext_param {b b' : Booster F D} (h : ∀ p, b.param p = b'.param p) : b = b' := by
  cases b; cases b'
  have := h .objectiveType
  have := h .iterations
  have := h .learningRate
  have := h .maxDepth
  have := h .maxLeaves
  have := h .l1
  have := h .l2
  have := h .gamma
  have := h .maxDeltaStep
  have := h .minLeafWeight
  have := h .baseScore
  have := h .nbins
  have := h .parallel
  have := h .allowMissingSplits
  have := h .monotoneConstraints
  have := h .subsample
  have := h .topRate
  have := h .otherRate
  have := h .colsampleBytree
  have := h .seed
  have := h .missing
  have := h .createMissingBranch
  have := h .sampleMethod
  have := h .growPolicy
  have := h .evaluationMetric
  have := h .earlyStoppingRounds
  have := h .initializeBaseScore
  have := h .terminateMissingFeatures
  have := h .evaluationHistory
  have := h .bestIteration
  have := h .predictionIteration
  have := h .missingNodeTreatment
  have := h .logIterations
  have := h .forceChildrenToBoundParent
  have := h .trees
  have := h .metadata
  simp_all [Booster.param]

/-- **C75** (setters).  After a chain of calls each field of the booster has the value of the last call of
its setter, and the value it had before if there is no such call. -/
theorem C75_last_call (b : Booster F D) (l : List (Setter F D)) (p : Param) :
    (b.calls l).param p =
      ((l.filter fun s => s.param = p).getLast?.map Setter.value).getD (b.param p) := by
  induction l generalizing b with
  | nil => rfl
  | cons s l ih =>
    show ((b.call s).calls l).param p = _
    rw [ih, List.filter_cons]
    by_cases h : s.param = p
    · rw [if_pos (decide_eq_true h), List.getLast?_cons]
      cases (l.filter fun s => s.param = p).getLast? with
      | some t => rfl
      | none => subst h; exact call_same b s
    · rw [if_neg (by simpa using h), call_other b s (fun e => h e.symm)]

/-- **C75** (fields without setter).  No chain of calls changes the trees, the metadata, the history, the
best iteration and the parameters that have no setter. -/
theorem C75_unset (b : Booster F D) (l : List (Setter F D)) {p : Param} (h : p ∈ Param.unset) :
    (b.calls l).param p = b.param p := by
  rw [C75_last_call, List.filter_eq_nil_iff.2]
  · rfl
  · intro s _ hs
    rw [decide_eq_true_eq] at hs
    subst hs
    cases s <;> simp [Param.unset, Setter.param] at h

/-- **C75** (order).  The order of calls of different setters is irrelevant. -/
theorem C75_order (b : Booster F D) {l l' : List (Setter F D)} (hp : l.Perm l')
    (hd : (l.map Setter.param).Nodup) : b.calls l = b.calls l' := by
  refine Booster.ext_param fun p => ?_
  rw [C75_last_call, C75_last_call]
  have h1 : (l.filter fun s => s.param = p).length ≤ 1 := by
    have := List.nodup_iff_count_le_one.1 hd p
    rw [List.count, List.countP_map, List.countP_eq_length_filter] at this
    refine le_trans (le_of_eq ?_) this
    congr 1
  have h2 := hp.filter fun s => s.param = p
  have : (l.filter fun s => s.param = p) = l'.filter fun s => s.param = p := by
    cases e : l.filter (fun s => s.param = p) with
    | nil => rw [e] at h2; exact h2.symm.eq_nil.symm
    | cons a t =>
      rw [e] at h1 h2
      obtain rfl : t = [] := List.length_eq_zero_iff.1 (by simpa using h1)
      exact (List.perm_singleton.1 h2.symm).symm
  rw [this]

section
variable [Fl F] [Fl D]

/-- The arguments are stored as given. -/
theorem new_fields {args b : Booster F D} (h : Booster.new args = .ok b) :
    b = { args with evaluationHistory := none, bestIteration := none, predictionIteration := none
                    trees := [], metadata := [] } := by
  unfold Booster.new at h
  dsimp only at h
  generalize Booster.validateParameters (F := F) (D := D) _ = r at h
  cases r with
  | error e => cases h
  | ok u => injection h with h; exact h.symm

/-- **C75** (setters and constructor).  Starting with the default, or any other booster without trees, the
setters give what the constructor gives for the same parameters, if it accepts them and the parameters
without setter agree. -/
theorem C75_constructor {args b d : Booster F D} (h : Booster.new args = .ok b)
    (h0 : d.predictionIteration = none)
    (hu : ∀ p ∈ Param.unset, d.param p = b.param p) {l : List (Setter F D)} (hl : l.Perm (settersOf args)) :
    d.calls l = b := by
  have hn : ((settersOf args).map Setter.param).Nodup := by
    show ([_, _, _, _, _, _, _, _, _, _, _, _, _, _, _, _, _, _, _, _, _, _, _, _, _] : List Param).Nodup
    simp [Setter.param]
  rw [C75_order d hl ((hl.map _).nodup_iff.2 hn)]
  have hb := new_fields h
  refine Booster.ext_param fun p => ?_
  by_cases hp : p ∈ Param.unset
  · rw [C75_unset _ _ hp, hu p hp]
  · rw [C75_last_call]
    subst hb
    cases p <;> first | exact absurd (by decide) hp | (simp [settersOf, Setter.param, Setter.value, Booster.param, h0])

/-- The default has no trees and its parameters pass the checks. -/
theorem default_new {d : Booster F D} (h : Booster.default F D = some d) :
    ∃ args, Booster.new args = .ok d := by
  unfold Booster.default at h
  split at h
  · next e => injection h with h; subst h; exact ⟨_, e⟩
  · cases h

/-- **C75** (no checks).  The setters do not check their arguments: with a learning rate that the
constructor refuses, the chain of setters gives a booster all the same, and so does `set_l2` etc. -/
theorem C75_unchecked [Fl.InfTop F] [Fl.InfTop D] (d : Booster F D) (x : F) (hx : ¬ Acceptable x) :
    Booster.new (d.calls [.learningRate x]) = .error (.invalidParameter "learning_rate") ∧
    (d.calls [.learningRate x]).learningRate = x := by
  refine ⟨?_, rfl⟩
  rw [C25_constructor]
  have : (d.calls [.learningRate x]).unacceptable = "learning_rate" :: (d.calls [.learningRate x]).unacceptable.drop 1 := by
    unfold Booster.unacceptable
    rw [if_neg (show ¬ Acceptable (d.calls [.learningRate x]).learningRate from hx)]
    rfl
  rw [this]

end

end

/-- **C75** (default, exact arithmetic).  The `unwrap` in `default()` does not panic. -/
theorem C75_default {K : Type} [Field K] [LinearOrder K] [IsStrictOrderedRing K] {m32 m64 : Fmt K}
    [m32.Exact] [m64.Exact] : ∃ d, Booster.default (FX m32) (FX m64) = some d ∧ d.trees = [] ∧
      d.predictionIteration = none ∧ d.learningRate = FX.fin (3 / 10) ∧ d.topRate = FX.fin (1 / 10) ∧
      d.otherRate = FX.fin (2 / 10) ∧ d.baseScore = FX.fin (1 / 2) := by
  have h10 : ((10 : Nat) : K) ≠ 0 := by norm_num
  have h2 : ((2 : Nat) : K) ≠ 0 := by norm_num
  have a0 : Acceptable (0 : FX m32) := by simp [Acceptable, FX.zero_def]
  have a1 : Acceptable (1 : FX m32) := by simp [Acceptable, FX.zero_def, FX.one_def]
  have a1' : Acceptable (1 : FX m64) := by simp [Acceptable, FX.zero_def, FX.one_def]
  have a3 : Acceptable (Fl.ofNat 3 / Fl.ofNat 10 : FX m32) := by
    rw [FX.ofNat_eq, FX.ofNat_eq, FX.fin_div _ _ h10]
    simp only [Acceptable, FX.zero_def, FX.isNaN_fin, FX.lt_fin, decide_eq_false_iff_not, not_lt, true_and]
    exact div_nonneg (Nat.cast_nonneg _) (Nat.cast_nonneg _)
  have a4 : ∀ n : Nat, Acceptable (Fl.ofNat n / Fl.ofNat 10 : FX m64) := by
    intro n
    rw [FX.ofNat_eq, FX.ofNat_eq, FX.fin_div _ _ h10]
    simp only [Acceptable, FX.zero_def, FX.isNaN_fin, FX.lt_fin, decide_eq_false_iff_not, not_lt, true_and]
    exact div_nonneg (Nat.cast_nonneg _) (Nat.cast_nonneg _)
  refine ⟨?d, ?h, ?_⟩
  case h =>
    unfold Booster.default
    rw [C25_constructor]
    simp only [Booster.unacceptable, if_pos a0, if_pos a1, if_pos a1', if_pos a3, if_pos (a4 _), List.append_nil]
    rfl
  refine ⟨rfl, rfl, ?_, ?_, ?_, ?_⟩
  all_goals
    dsimp only
    rw [FX.ofNat_eq, FX.ofNat_eq, FX.fin_div _ _ (by assumption)]
    norm_num

/-! ## Examples -/

/-- A chain in which a setter is called twice. -/
example : (exFresh.calls [.l2 (q 1), .maxDepth 3, .l2 (q 2), .predictionIteration (some 4)]).l2 = q 2 ∧
    (exFresh.calls [.l2 (q 1), .maxDepth 3, .l2 (q 2), .predictionIteration (some 4)]).predictionIteration
      = some 5 := ⟨rfl, rfl⟩

/-- C75_order: two orders of calls of different setters. -/
example : ([.l2 (q 1), .maxDepth 3, .seed 7] : List (Setter Q Q)).Perm [.seed 7, .l2 (q 1), .maxDepth 3] ∧
    (([.l2 (q 1), .maxDepth 3, .seed 7] : List (Setter Q Q)).map Setter.param).Nodup :=
  ⟨(List.perm_append_comm (α := Setter Q Q) (l₁ := [.l2 (q 1), .maxDepth 3]) (l₂ := [.seed 7])), by decide⟩

/-- C75_constructor: a constructor call with parameters other than the defaults. -/
example : ∃ d args b : Booster Q Q, Booster.default Q Q = some d ∧ Booster.new args = .ok b ∧
    d.predictionIteration = none ∧ (∀ p ∈ Param.unset, d.param p = b.param p) ∧ b ≠ d := by
  have h : ((Booster.default Q Q).bind fun d =>
      match Booster.new { d with l2 := q 7, objectiveType := .squaredLoss } with
      | .ok b => some (decide (d.predictionIteration = none ∧ (∀ p ∈ Param.unset, d.param p = b.param p) ∧ b ≠ d))
      | .error _ => none) = some true := by decide +kernel
  simp only [Option.bind_eq_some_iff] at h
  obtain ⟨d, hd, h⟩ := h
  split at h
  · next b hb =>
    rw [Option.some.injEq, decide_eq_true_eq] at h
    exact ⟨d, _, b, hd, hb, h⟩
  · cases h

end Verif
