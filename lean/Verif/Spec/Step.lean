import Mathlib.Algebra.Order.Field.Basic
import Mathlib.Algebra.Order.AbsoluteValue.Basic

/-!
# The regularised Newton step

Specification of node values: the minimiser of a penalised quadratic.
-/

namespace Verif

section
variable {K : Type} [Field K] [LinearOrder K]

/-- The penalised second order approximation of the loss of a node with gradient sum `g` and hessian
sum `h`, as a function of the value of the node. -/
def regObj (l1 l2 g h w : K) : K := g * w + (h + l2) * w ^ 2 / 2 + l1 * |w|

/-- Values that `max_delta_step` allows; 0 means no limit. -/
def StepAllowed (maxDeltaStep w : K) : Prop := maxDeltaStep = 0 ∨ |w| ≤ maxDeltaStep

/-- `x` is the best allowed value. -/
structure IsStep (l1 l2 maxDeltaStep g h x : K) : Prop where
  allowed : StepAllowed maxDeltaStep x
  least : ∀ w, StepAllowed maxDeltaStep w → regObj l1 l2 g h x ≤ regObj l1 l2 g h w

end

end Verif
