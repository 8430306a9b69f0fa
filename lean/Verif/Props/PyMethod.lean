import Verif.Props.PyStore
import Verif.Spec.ExamplePy

/-!
# C90 Names handed to the constructor of the Python class
-/

namespace Verif

open scoped Verif

variable {F D : Type} [Fl F] [Fl D] [FlCast F D]

/-- The sampling documented for `sample_method` and `subsample` (`__init__.py` 374-376, 387-391). -/
def PyParams.samplesBy (p : PyParams D) : SampleMethod → Prop
  | .none => p.sampleMethod = none ∧ ¬ (p.subsample <ᶠ 1) = true
  | .goss => p.sampleMethod = some "goss" ∨ p.sampleMethod = some "Goss"
  | .random => (p.sampleMethod = none ∧ (p.subsample <ᶠ 1) = true) ∨ p.sampleMethod = some "random" ∨
      p.sampleMethod = some "Random"

/-- The five names are known. -/
def PyParams.KnownNames (p : PyParams D) : Prop :=
  (∃ o : ObjectiveType, p.objectiveType = o.name) ∧ (∃ g : GrowPolicy, p.growPolicy = g.name) ∧
  (∃ t : MissingNodeTreatment, p.missingNodeTreatment = t.name) ∧
  (∀ s, p.evaluationMetric = some s → ∃ e : Metric, s = e.name) ∧ ∃ s, p.samplesBy s

/-- **C90** is false: a sample method that does not exist is accepted. -/
theorem C90_false : ∃ (p : PyParams Q) (b : Booster Q Q), crateNew p = .ok b ∧ ¬ p.KnownNames := by
  have h : (match crateNew (F := Q) { exParams with sampleMethod := some "bernoulli" } with
      | .ok _ => true | .error _ => false) = true := by decide +kernel
  split at h
  · next b hb =>
    refine ⟨_, b, hb, fun hk => ?_⟩
    obtain ⟨_, _, _, _, s, hs⟩ := hk
    cases s
    · exact absurd hs.1 (by decide)
    · rcases hs with hs | hs | hs
      · exact absurd hs.1 (by decide)
      · exact absurd hs (by decide)
      · exact absurd hs (by decide)
    · rcases hs with hs | hs
      · exact absurd hs (by decide)
      · exact absurd hs (by decide)
  · cases h

/-- **C90** (what holds).  A booster is only made if the other four names are known, and it has what they name; and if
the sample method is known, it is the one documented, otherwise rows are sampled at random. -/
theorem C90_partial (p : PyParams D) (b : Booster F D) (h : crateNew p = .ok b) :
    p.objectiveType = b.objectiveType.name ∧ p.growPolicy = b.growPolicy.name ∧
    p.missingNodeTreatment = b.missingNodeTreatment.name ∧ p.evaluationMetric = b.evaluationMetric.map Metric.name ∧
    (∀ s, p.samplesBy s → b.sampleMethod = s) ∧ ((∀ s, ¬ p.samplesBy s) → b.sampleMethod = .random) := by
  obtain ⟨o, s, g, e, t, h1, h2, h3, h4, h5, -, rfl, -⟩ := crateNew_eq_ok.1 h
  refine ⟨(ObjectiveType.name_of h1).symm, (GrowPolicy.name_of h3).symm, (MissingNodeTreatment.name_of h5).symm,
    (parseMetric_name h4).symm, ?_, ?_⟩
  · intro s' hs
    show s = s'
    rw [PyParams.sampleMethod'] at h2
    cases s' with
    | none =>
      obtain ⟨ha, hb⟩ := hs
      rw [ha, if_neg (fun hc => hb hc.1)] at h2
      exact (Option.some.inj h2).symm
    | goss =>
      rcases hs with ha | ha
      all_goals
        rw [ha, if_neg (fun hc => absurd hc.2 (by decide))] at h2
        exact (Option.some.inj h2).symm
    | random =>
      rcases hs with ⟨ha, hb⟩ | ha | ha
      · rw [ha, if_pos ⟨hb, rfl⟩] at h2
        exact (Option.some.inj h2).symm
      all_goals
        rw [ha, if_neg (fun hc => absurd hc.2 (by decide))] at h2
        exact (Option.some.inj h2).symm
  · intro hn
    show s = .random
    rw [PyParams.sampleMethod'] at h2
    cases hm : p.sampleMethod with
    | none =>
      by_cases hb : (p.subsample <ᶠ 1) = true
      · exact absurd (Or.inl ⟨hm, hb⟩) (hn .random)
      · exact absurd ⟨hm, hb⟩ (hn .none)
    | some x =>
      have hx : ¬ (x = "goss" ∨ x = "Goss") := fun hx =>
        hn .goss (hx.imp (fun e => by rw [hm, e]) (fun e => by rw [hm, e]))
      have hr : sampleMethodOf (some x) = "Random" := if_neg hx
      rw [hm, hr, if_neg (fun hc => absurd hc.2 (by decide))] at h2
      exact (Option.some.inj h2).symm

theorem pyParse_error {α : Type} {f : String → Option α} {s : String} {e : PyErr} (h : pyParse f s = .error e) :
    e = .valueError := by
  unfold pyParse at h
  split at h <;> cases h
  rfl

theorem except_bind_error {ε α β : Type} {x : Except ε α} {f : α → Except ε β} {e : ε} (h : (x >>= f) = .error e) :
    x = .error e ∨ ∃ a, f a = .error e := by
  cases x with
  | error e' =>
    cases h
    exact .inl rfl
  | ok a => exact .inr ⟨a, h⟩

theorem crateNew_error {p : PyParams D} {e : PyErr} (h : (crateNew p : Except PyErr (Booster F D)) = .error e) :
    e = .valueError := by
  unfold crateNew at h
  rcases except_bind_error h with h | ⟨o, h⟩
  · exact pyParse_error h
  rcases except_bind_error h with h | ⟨s, h⟩
  · exact pyParse_error h
  rcases except_bind_error h with h | ⟨g, h⟩
  · exact pyParse_error h
  rcases except_bind_error h with h | ⟨m, h⟩
  · unfold parseMetric at h
    split at h
    · unfold pyParse at h
      split at h <;> cases h
      rfl
    · cases h
  rcases except_bind_error h with h | ⟨t, h⟩
  · exact pyParse_error h
  split at h
  · split at h <;> cases h
    rfl
  · cases h
    rfl

/-- **C90** (rejection).  If one of the four names is unknown, the constructor raises a `ValueError`. -/
theorem C90_rejected (p : PyParams D)
    (h : (∀ o : ObjectiveType, p.objectiveType ≠ o.name) ∨ (∀ g : GrowPolicy, p.growPolicy ≠ g.name) ∨
      (∀ t : MissingNodeTreatment, p.missingNodeTreatment ≠ t.name) ∨
      ∃ s, p.evaluationMetric = some s ∧ ∀ e : Metric, s ≠ e.name) :
    (crateNew p : Except PyErr (Booster F D)) = .error .valueError := by
  cases hc : (crateNew p : Except PyErr (Booster F D)) with
  | error e => rw [crateNew_error hc]
  | ok b =>
    obtain ⟨h1, h2, h3, h4, -⟩ := C90_partial p b hc
    rcases h with h | h | h | ⟨s, hs, h⟩
    · exact absurd h1 (h _)
    · exact absurd h2 (h _)
    · exact absurd h3 (h _)
    · rw [hs] at h4
      cases he : b.evaluationMetric with
      | none => rw [he] at h4; cases h4
      | some m => rw [he] at h4; exact absurd (Option.some.inj h4) (h m)

/-- GOSS by its second spelling, and an objective that does not exist. -/
example : (match crateNew (F := Q) { exParams with sampleMethod := some "Goss" } with
      | .ok b => decide (b.sampleMethod = .goss) | .error _ => false) = true ∧
    (match crateNew (F := Q) { exParams with objectiveType := "Poisson" } with
      | .ok _ => false | .error e => decide (e = .valueError)) = true := by decide +kernel

end Verif
