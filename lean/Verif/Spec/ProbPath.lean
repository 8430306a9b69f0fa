import Verif.Spec.Path

/-!
# The path of a row through the trees, with the log odds so far
-/

namespace Verif

variable {F D : Type} [Fl F] [Fl D] [FlCast F D]

/-- The probability that belongs to log odds. -/
def chance (x : D) : D := 1 / (1 + Fl.exp (-x))

/-- What one tree does to a row: the log odds before the tree, the root, and the steps to the leaf. -/
structure Visit (F D : Type) where
  before : D
  root : Node F D
  steps : List (Step F D)

/-- The row visits the trees in order.  The log odds start at `lo`, and every tree adds the value of the leaf that the
row reaches. -/
inductive Visits (row : Nat → Option D) (missing : D) : D → List (Tree F D) → List (Visit F D) → Prop
  | nil {lo : D} : Visits row missing lo [] []
  | cons {lo : D} {t : Tree F D} {ts : List (Tree F D)} {root leaf : Node F D} {steps : List (Step F D)}
      {vs : List (Visit F D)} : t.nodes[0]? = some root → Path t.nodes row missing 0 steps →
      Route t.nodes row missing 0 leaf → Visits row missing (lo + up leaf.weightValue) ts vs →
      Visits row missing lo (t :: ts) ({ before := lo, root := root, steps := steps } :: vs)

/-- Add the change of the probability if the step tests feature `f`. -/
def Step.addChance (lo : D) (f : Nat) (acc : D) (s : Step F D) : D :=
  if s.node.splitFeature = f then
    acc + (chance (up s.child.weightValue + lo) - chance (up s.node.weightValue + lo))
  else acc

/-- Add the changes of the steps of a tree. -/
def Visit.addTo (f : Nat) (acc : D) (v : Visit F D) : D := v.steps.foldl (Step.addChance v.before f) acc

/-- Add the change from before the tree to its root. -/
def Visit.addBias (acc : D) (v : Visit F D) : D :=
  acc + (chance (v.before + up v.root.weightValue) - chance v.before)

end Verif
