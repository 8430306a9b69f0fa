import Verif.Spec.Route
import Verif.Model.Booster

/-!
# Specification: transformed features

Data whose columns are transformed one by one, and trees whose split values are transformed alike.
-/

namespace Verif

open scoped Verif

section
variable {F D : Type}

/-- The matrix with `φ j` applied to column `j` (contents are column major). -/
def Matrix.mapCols (φ : Nat → D → D) (X : Matrix D) : Matrix D :=
  { X with data := X.data.zipIdx.map fun p => φ (p.2 / X.rows) p.1 }

/-- The evaluation set with transformed features. -/
def EvalSet.mapCols (φ : Nat → D → D) (e : EvalSet D) : EvalSet D := { e with data := e.data.mapCols φ }

/-- A split on feature `j` has its value transformed by `φ j`; leaves are unchanged. -/
def Node.mapSplit (φ : Nat → D → D) (n : Node F D) : Node F D :=
  if n.isLeaf then n else { n with splitValue := φ n.splitFeature n.splitValue }

/-- The tree with transformed split values. -/
def Tree.mapSplits (φ : Nat → D → D) (t : Tree F D) : Tree F D := { nodes := t.nodes.map (Node.mapSplit φ) }

/-- The booster with transformed split values. -/
def Booster.mapSplits (φ : Nat → D → D) (b : Booster F D) : Booster F D :=
  { b with trees := b.trees.map (Tree.mapSplits φ) }

variable [Fl D]

/-- The value is a number and not missing. -/
def Present (missing v : D) : Prop := isNaN v = false ∧ ¬ IsMissing missing v

/-- `φ j` preserves, on the values of column `j` (given by `dom j`), being NaN, being equal to the missing
value, the comparisons of values that are present, and their comparison with the greatest number (which
closes the list of cuts). -/
structure Respects (φ : Nat → D → D) (missing : D) (dom : Nat → D → Prop) : Prop where
  nan : ∀ j a, dom j a → isNaN (φ j a) = isNaN a
  sentinel : ∀ j a, dom j a → (φ j a =ᶠ missing) = (a =ᶠ missing)
  lt : ∀ j a b, dom j a → dom j b → Present missing a → Present missing b → (φ j a <ᶠ φ j b) = (a <ᶠ b)
  le : ∀ j a b, dom j a → dom j b → Present missing a → Present missing b → (φ j a ≤ᶠ φ j b) = (a ≤ᶠ b)
  feq : ∀ j a b, dom j a → dom j b → Present missing a → Present missing b → (φ j a =ᶠ φ j b) = (a =ᶠ b)
  max_le : ∀ j a, dom j a → Present missing a → (Fl.maxv ≤ᶠ φ j a) = (Fl.maxv ≤ᶠ a)
  feq_max : ∀ j a, dom j a → Present missing a → (φ j a =ᶠ Fl.maxv) = (a =ᶠ Fl.maxv)

/-- The values of column `j` of the matrix lie in `dom j`. -/
def Matrix.Within (X : Matrix D) (dom : Nat → D → Prop) : Prop :=
  ∀ (p : Nat) (v : D), X.data[p]? = some v → dom (p / X.rows) v

end

/-- The order in which a comparison sort returns the elements depends on the outcomes of the comparisons
only: sorting related lists with comparisons that agree gives related lists. -/
def Sorter.Natural (S : Sorter) : Prop :=
  ∀ {α β : Type} (f : α → β) (le : α → α → Bool) (le' : β → β → Bool) (l : List α),
    (∀ a ∈ l, ∀ b ∈ l, le' (f a) (f b) = le a b) → S.sort le' (l.map f) = (S.sort le l).map f

/-- The heap looks at the scores of the nodes only. -/
def HeapPick.ByScore {F D : Type} (h : HeapPick F D) : Prop :=
  ∀ (n : Nat) (l l' : List (SNode F D)), l.map SNode.gainValue = l'.map SNode.gainValue →
    h.pick n l = h.pick n l'

/-- What is assumed of the sorting procedure, of the generator of random numbers and of the heap: they meet
their contracts, and the first and the last look at nothing but comparisons and scores. -/
structure EnvNatural {R F D : Type} [Fl F] [Fl D] (env : Env R F D) : Prop where
  sorter : env.sorter.Ok
  natural : env.sorter.Natural
  rng : env.rng.Ok
  heap : ∀ i, (env.heap i).ByScore

end Verif
