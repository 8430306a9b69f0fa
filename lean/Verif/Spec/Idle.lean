import Verif.Spec.Route

/-!
# Settings that can be idle
-/

namespace Verif

variable {F D : Type}

/-- Values for the settings that can be idle. -/
structure IdleParams (F D : Type) where
  /-- `seed` -/
  seed : Nat
  /-- `nbins` -/
  nbins : Nat
  /-- `subsample` -/
  subsample : F
  /-- `top_rate` -/
  topRate : D
  /-- `other_rate` -/
  otherRate : D
  /-- `log_iterations` -/
  logIterations : Nat
  /-- `metadata` -/
  metadata : List (String × String)
  /-- `terminate_missing_features` -/
  terminateMissingFeatures : List Nat
  /-- `missing_node_treatment` -/
  missingNodeTreatment : MissingNodeTreatment
  /-- `force_children_to_bound_parent` -/
  forceChildrenToBoundParent : Bool
  /-- `evaluation_metric` -/
  evaluationMetric : Option Metric
  /-- `early_stopping_rounds` -/
  earlyStoppingRounds : Option Nat

/-- Replace these settings. -/
def Booster.withIdle (b : Booster F D) (p : IdleParams F D) : Booster F D :=
  { b with
    seed := p.seed, nbins := p.nbins, subsample := p.subsample, topRate := p.topRate, otherRate := p.otherRate
    logIterations := p.logIterations, metadata := p.metadata
    terminateMissingFeatures := p.terminateMissingFeatures, missingNodeTreatment := p.missingNodeTreatment
    forceChildrenToBoundParent := p.forceChildrenToBoundParent, evaluationMetric := p.evaluationMetric
    earlyStoppingRounds := p.earlyStoppingRounds }

/-- The settings may differ from those of the booster only where they do not apply: the rates of a way of sampling
that is not used, the treatment of missing branches that are not made, and the metric and the patience if there is
nothing to evaluate.  `seed`, `nbins`,
`log_iterations` and `metadata` are not restricted here. -/
structure IdleParams.For (p : IdleParams F D) (b : Booster F D) (evaluates : Prop) : Prop where
  subsample : b.sampleMethod = .random → p.subsample = b.subsample
  rates : b.sampleMethod = .goss → p.topRate = b.topRate ∧ p.otherRate = b.otherRate
  missing : b.createMissingBranch = true → p.terminateMissingFeatures = b.terminateMissingFeatures ∧
    p.missingNodeTreatment = b.missingNodeTreatment ∧ p.forceChildrenToBoundParent = b.forceChildrenToBoundParent
  evals : evaluates → p.evaluationMetric = b.evaluationMetric ∧ p.earlyStoppingRounds = b.earlyStoppingRounds

/-- Column `c` has at most `n` different values, not counting missing ones. -/
def Matrix.Few [Fl D] (X : Matrix D) (missing : D) (n c : Nat) : Prop :=
  ∃ L : List D, L.length ≤ n ∧ ∀ i v, X.entry i c = some v → ¬ IsMissing missing v → v ∈ L

end Verif
