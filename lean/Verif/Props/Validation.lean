import Verif.Spec.ExampleFit
import Verif.Proofs.Fit

/-!
# C24, C25, C54, C58 Validation, metadata, empty evaluation list
-/

namespace Verif

open scoped Verif

variable {F D : Type} [Fl F] [Fl D] [FlCast F D]

/-! ### C25 -/

/-- A parameter is acceptable: not NaN and not below zero. -/
def Acceptable {G : Type} [Fl G] (x : G) : Prop := isNaN x = false ∧ (x <ᶠ 0) = false

instance {G : Type} [Fl G] (x : G) : Decidable (Acceptable x) := by unfold Acceptable; infer_instance

/-- The validated parameters that are not acceptable, by name. -/
def Booster.unacceptable (b : Booster F D) : List String :=
  (if Acceptable b.learningRate then [] else ["learning_rate"]) ++
  (if Acceptable b.l1 then [] else ["l1"]) ++
  (if Acceptable b.l2 then [] else ["l2"]) ++
  (if Acceptable b.gamma then [] else ["gamma"]) ++
  (if Acceptable b.maxDeltaStep then [] else ["max_delta_step"]) ++
  (if Acceptable b.minLeafWeight then [] else ["min_leaf_weight"]) ++
  (if Acceptable b.subsample then [] else ["subsample"]) ++
  (if Acceptable b.topRate then [] else ["top_rate"]) ++
  (if Acceptable b.otherRate then [] else ["other_rate"]) ++
  (if Acceptable b.colsampleBytree then [] else ["colsample_bytree"])

/-- Nothing exceeds infinity. -/
class Fl.InfTop (F : Type) [Fl F] : Prop where
  inf_lt : ∀ x : F, (inf <ᶠ x) = false

instance {K : Type} [Field K] [LinearOrder K] (m : Fmt K) : Fl.InfTop (FX m) :=
  ⟨fun x => by cases x <;> rfl⟩

theorem validatePositive_eq {G : Type} [Fl G] [Fl.InfTop G] (x : G) (n : String) :
    validatePositiveFloatParameter x n =
      if Acceptable x then .ok () else .error (.invalidParameter n) := by
  unfold validatePositiveFloatParameter validateFloatParameter Acceptable
  rw [Fl.InfTop.inf_lt]
  by_cases h1 : isNaN x = true <;> by_cases h2 : (x <ᶠ 0) = true <;> simp [h1, h2]

omit [FlCast F D] in
/-- C25.  Construction succeeds iff every validated parameter is neither NaN nor negative, and then
gives a booster with these parameters and no trees; otherwise the error names the first parameter (in
declaration order) that is not acceptable. -/
theorem C25_constructor [Fl.InfTop F] [Fl.InfTop D] (args : Booster F D) :
    Booster.new args = match args.unacceptable with
      | [] => .ok { args with evaluationHistory := none, bestIteration := none
                              predictionIteration := none, trees := [], metadata := [] }
      | n :: _ => .error (.invalidParameter n) := by
  simp only [Booster.new, Booster.validateParameters, validatePositive_eq, Booster.unacceptable]
  by_cases h1 : Acceptable args.learningRate
  case neg => simp [h1]; rfl
  by_cases h2 : Acceptable args.l1
  case neg => simp [h1, h2]; rfl
  by_cases h3 : Acceptable args.l2
  case neg => simp [h1, h2, h3]; rfl
  by_cases h4 : Acceptable args.gamma
  case neg => simp [h1, h2, h3, h4]; rfl
  by_cases h5 : Acceptable args.maxDeltaStep
  case neg => simp [h1, h2, h3, h4, h5]; rfl
  by_cases h6 : Acceptable args.minLeafWeight
  case neg => simp [h1, h2, h3, h4, h5, h6]; rfl
  by_cases h7 : Acceptable args.subsample
  case neg => simp [h1, h2, h3, h4, h5, h6, h7]; rfl
  by_cases h8 : Acceptable args.topRate
  case neg => simp [h1, h2, h3, h4, h5, h6, h7, h8]; rfl
  by_cases h9 : Acceptable args.otherRate
  case neg => simp [h1, h2, h3, h4, h5, h6, h7, h8, h9]; rfl
  by_cases h10 : Acceptable args.colsampleBytree
  case neg => simp [h1, h2, h3, h4, h5, h6, h7, h8, h9, h10]; rfl
  simp [h1, h2, h3, h4, h5, h6, h7, h8, h9, h10]; rfl

example : ({ exBooster with gamma := FX.nan, topRate := q (-1) }).unacceptable = ["gamma", "top_rate"] := by
  decide +kernel
example : exBooster.unacceptable = [] := by decide +kernel
example : ({ exBooster with l2 := FX.pinf }).unacceptable = [] := by decide +kernel

/-! ### C24 -/

/-- A target vector with a NaN. -/
def BadY (y : List D) : Prop := ∃ v ∈ y, isNaN v = true

/-- A weight vector with a NaN or a negative weight. -/
def BadW (w : List D) : Prop := ∃ v ∈ w, isNaN v = true ∨ (v <ᶠ 0) = true

/-- The training data or some evaluation set is bad. -/
def BadInput (y w : List D) (evalData : Option (List (EvalSet D))) : Prop :=
  BadY y ∨ BadW w ∨ ∃ es, evalData = some es ∧ ∃ e ∈ es, BadY e.y ∨ BadW e.w

omit [Fl F] [FlCast F D] in
theorem validateNotNan_ok (v : List D) (n : String) :
    validateNotNanVec v n = .ok () ↔ ¬ BadY v := by
  unfold validateNotNanVec BadY
  split
  · next h => simpa using h
  · next h => simpa using h

omit [Fl F] [FlCast F D] in
theorem validatePositiveNotNan_ok (v : List D) (n : String) :
    validatePositiveNotNanVec v n = .ok () ↔ ¬ BadW v := by
  unfold validatePositiveNotNanVec validatePositiveVec BadW
  simp only
  by_cases h : (v.filter fun i => isNaN i || i <ᶠ 0).any (· <ᶠ 0) = true
  · have hb : ∃ x ∈ v, isNaN x = true ∨ (x <ᶠ 0) = true := by
      rw [List.any_eq_true] at h
      obtain ⟨x, hx, hx'⟩ := h
      exact ⟨x, (List.mem_filter.1 hx).1, .inr hx'⟩
    rw [if_pos h]
    simp only [hb, not_true, iff_false]
    intro hc; cases hc
  · rw [if_neg h]
    have : (Except.ok () >>= fun _ => validateNotNanVec (v.filter fun i => isNaN i || i <ᶠ 0) n) =
        validateNotNanVec (v.filter fun i => isNaN i || i <ᶠ 0) n := rfl
    rw [this, validateNotNan_ok, not_iff_not]
    constructor
    · rintro ⟨x, hx, hx'⟩
      exact ⟨x, (List.mem_filter.1 hx).1, .inl hx'⟩
    · rintro ⟨x, hx, hx' | hx'⟩
      · exact ⟨x, List.mem_filter.2 ⟨hx, by simp [hx']⟩, hx'⟩
      · exact absurd (List.any_eq_true.2 ⟨x, List.mem_filter.2 ⟨hx, by simp [hx']⟩, hx'⟩) h

omit [Fl F] [Fl D] [FlCast F D] in
theorem except_unit_bind_ok (a b : Except ForustError Unit) :
    (a >>= fun _ => b) = .ok () ↔ a = .ok () ∧ b = .ok () := by
  cases a with
  | error e => simp [bind, Except.bind]
  | ok u => simp [bind, Except.bind]

omit [Fl F] [FlCast F D] in
theorem validateEvals_ok (es : List (EvalSet D)) (i : Nat) :
    validateEvals es i = .ok () ↔ ¬ ∃ e ∈ es, BadY e.y ∨ BadW e.w := by
  induction es generalizing i with
  | nil => simp [validateEvals]
  | cons e es ih =>
    rw [validateEvals, except_unit_bind_ok, except_unit_bind_ok, validateNotNan_ok,
      validatePositiveNotNan_ok, ih]
    simp only [List.mem_cons, exists_eq_or_imp, not_or]
    tauto

omit [Fl F] [FlCast F D] in
theorem validateFit_ok (y w : List D) (ev : Option (List (EvalSet D))) :
    validateFit y w ev = .ok () ↔ ¬ BadInput y w ev := by
  unfold validateFit
  rw [except_unit_bind_ok, except_unit_bind_ok, validateNotNan_ok,
    validatePositiveNotNan_ok]
  cases ev with
  | none => simp [BadInput]
  | some es =>
    simp only [validateEvals_ok, BadInput, Option.some.injEq, exists_eq_left']
    rw [not_or, not_or]

/-- C24.  On bad input `fit` returns an error and the booster is the one before the call. -/
theorem C24_bad_input {R : Type} (env : Env R F D) (b : Booster F D) (data : Matrix D) (y w : List D)
    (ev : Option (List (EvalSet D))) (h : BadInput y w ev) :
    ∃ e, b.fit env data y w ev = .ok (b, .error e) := by
  unfold Booster.fit
  cases hv : validateFit y w ev with
  | error e => exact ⟨e, rfl⟩
  | ok u => exact absurd h ((validateFit_ok y w ev).1 hv)

/-- C24.  On other input `fit` never returns an error. -/
theorem C24_good_input {R : Type} (env : Env R F D) (b : Booster F D) (data : Matrix D) (y w : List D)
    (ev : Option (List (EvalSet D))) (h : ¬ BadInput y w ev) (b' : Booster F D)
    (r : Except ForustError Unit) (hf : b.fit env data y w ev = .ok (b', r)) : r = .ok () := by
  rw [Booster.fit, (validateFit_ok y w ev).2 h] at hf
  simp only [Res.bind_eq_ok, Res.ok.injEq, Prod.mk.injEq] at hf
  obtain ⟨_, _, _, rfl⟩ := hf
  rfl

example : BadInput exY [q 1, FX.nan] none := .inr (.inl ⟨FX.nan, by simp, .inl rfl⟩)
example : BadInput exY exW (some [⟨exX, [q 0], [q (-1)]⟩]) :=
  .inr (.inr ⟨_, rfl, _, List.mem_singleton.2 rfl, .inr ⟨q (-1), by simp, .inr (by decide +kernel)⟩⟩)
example : ¬ BadInput exY exW none := by
  rw [← validateFit_ok]; decide +kernel
example : ∃ b, exFresh.fit exEnv exX exY exW none = .ok (b, .ok ()) ∧ b.trees.length = 2 := by
  have : (match exFresh.fit exEnv exX exY exW none with
    | .ok (b, .ok ()) => b.trees.length == 2
    | _ => false) = true := by decide +kernel
  split at this
  · next b h => exact ⟨b, h, by simpa using this⟩
  · simp at this

/-! ### C54 -/

/-- The value most recently inserted under a key. -/
def lastInserted (k : String) : List (String × String) → Option String
  | [] => none
  | (k', v) :: l => match lastInserted k l with
    | some v => some v
    | none => if k' = k then some v else none

theorem lookup_mapInsert {V : Type} (m : List (String × V)) (k k' : String) (v : V) :
    (mapInsert m k v).lookup k' = if k' = k then some v else m.lookup k' := by
  induction m with
  | nil => by_cases h : k' = k <;> simp [mapInsert, h]
  | cons p m ih =>
    obtain ⟨a, x⟩ := p
    by_cases ha : a = k
    · subst ha
      by_cases h : k' = a
      · subst h; simp [mapInsert]
      · have : (k' == a) = false := by simpa using h
        simp only [mapInsert, if_pos, List.lookup, this, if_neg h]
    · by_cases h : k' = k
      · subst h
        have : (k' == a) = false := by simpa using fun e => ha e.symm
        simp [mapInsert, List.lookup, this, ih, ha]
      · by_cases h2 : k' = a
        · subst h2; simp [mapInsert, List.lookup, ha]
        · have : (k' == a) = false := by simpa using h2
          simp [mapInsert, List.lookup, this, ih, ha, h]

omit [Fl F] [Fl D] [FlCast F D] in
/-- C54.  After any sequence of insertions a key yields the value inserted last under it; keys that
were not inserted yield what they did before, which is an error (`none`) for unknown keys. -/
theorem C54_metadata (b : Booster F D) (l : List (String × String)) (k : String) :
    (l.foldl (fun b p => b.insertMetadata p.1 p.2) b).getMetadata k =
      match lastInserted k l with
      | some v => some v
      | none => b.getMetadata k := by
  induction l generalizing b with
  | nil => rfl
  | cons p l ih =>
    obtain ⟨k', v⟩ := p
    rw [List.foldl_cons, ih, lastInserted]
    cases lastInserted k l with
    | some v => rfl
    | none =>
      simp only [Booster.getMetadata, Booster.insertMetadata, lookup_mapInsert]
      by_cases h : k = k'
      · subst h; simp
      · rw [if_neg h, if_neg (fun e => h e.symm)]

omit [Fl F] [Fl D] [FlCast F D] in
/-- C54.  A booster without metadata (in particular a new one) reports every key as an error. -/
theorem C54_unknown_key (b : Booster F D) (h : b.metadata = []) (k : String) :
    b.getMetadata k = none := by rw [Booster.getMetadata, h]; rfl

omit [Fl F] [Fl D] [FlCast F D] in
/-- C54.  Insertions change nothing but the metadata. -/
theorem C54_only_metadata (b : Booster F D) (k v : String) :
    ∃ m, b.insertMetadata k v = { b with metadata := m } := ⟨_, rfl⟩

example : ((exBooster.insertMetadata "a" "1").insertMetadata "a" "2").getMetadata "a" = some "2" := by
  decide +kernel

/-! ### C58 -/

/-- C58 (the claim is false).  With an empty list of evaluation sets and at least one iteration `fit`
never succeeds, for a fresh or previously fitted booster. -/
theorem C58_empty_evals_never_succeeds {R : Type} (env : Env R F D) (b : Booster F D)
    (data : Matrix D) (y w : List D) (hi : b.iterations ≠ 0)
    (hb : b.trees ≠ [] ∨ b.evaluationHistory = none) (b' : Booster F D) :
    b.fit env data y w (some []) ≠ .ok (b', .ok ()) := by
  intro h
  unfold Booster.fit at h
  split at h
  · simp at h
  rw [Res.bind_eq_ok] at h
  obtain ⟨b1, h1, h2⟩ := h
  rw [fitTrees_eq_ok] at h1
  obtain ⟨base, binned, s, -, -, hs, -⟩ := h1
  have hb0 : b.start.evaluationHistory = none := by
    unfold Booster.start
    split
    · next he => exact hb.resolve_left (by simpa using he)
    · rfl
  obtain ⟨n, hn⟩ : ∃ n, b.iterations = n + 1 := ⟨b.iterations - 1, by omega⟩
  rw [hn, fitLoop, Res.bind_eq_ok] at hs
  obtain ⟨r, hs, -⟩ := hs
  simp only [fitIteration, fitStart, Res.bind_eq_ok, Option.map_some, hb0, evalSets, withHistory,
    appendHistory, evalLoop, List.map_nil,
    RowMajorMatrix.new, RowMajorMatrix.appendRow, List.length_nil] at hs
  simp at hs

/-- C58, the part that holds: without iterations the empty list is equivalent to no evaluation data. -/
theorem C58_no_iterations_partial {R : Type} (env : Env R F D) (b : Booster F D)
    (data : Matrix D) (y w : List D) (hi : b.iterations = 0) :
    b.fit env data y w (some []) = b.fit env data y w none := by
  have hv : validateFit y w (some []) = validateFit y w none := by
    simp [validateFit, validateEvals]
  have h5 : b.start.iterations = 0 := by rw [b.start_eq]; exact hi
  have ht : fitTrees env b data y w b.splitter (some []) = fitTrees env b data y w b.splitter none := by
    unfold fitTrees
    change (do
      let b ← if b.start.initializeBaseScore then do
          let s ← calcInit b.start.objectiveType y w
          pure { b.start with baseScore := s }
        else pure b.start
      _ : Res _) = (do
      let b ← if b.start.initializeBaseScore then do
          let s ← calcInit b.start.objectiveType y w
          pure { b.start with baseScore := s }
        else pure b.start
      _ : Res _)
    split
    · cases calcInit b.start.objectiveType y w with
      | ok s =>
        simp only [Res.ok_bind, Res.pure_def, h5, fitLoop]
      | panic => rfl
      | diverge => rfl
    · simp only [Res.ok_bind, Res.pure_def, h5, fitLoop]
  rw [Booster.fit, Booster.fit, hv, ht]

/-- C58.  The same call without evaluation data succeeds, so the claim is false. -/
theorem C58_counterexample :
    (∃ b, exFresh.fit exEnv exX exY exW none = .ok (b, .ok ())) ∧
      exFresh.fit exEnv exX exY exW (some []) = .panic := by
  constructor
  · have : (match exFresh.fit exEnv exX exY exW none with
      | .ok (_, .ok ()) => true
      | _ => false) = true := by decide +kernel
    split at this
    · next b h => exact ⟨b, h⟩
    · simp at this
  · have : (match exFresh.fit exEnv exX exY exW (some []) with
      | .panic => true
      | _ => false) = true := by decide +kernel
    split at this
    · next h => exact h
    · simp at this

end Verif
