import Verif.Model.PyDependence

/-!
# The warnings of the Python class (`py-forust/forust/__init__.py` 461-467, 622-625, 843-850)

`load_booster` (962-964) and the assignment of `base_score` in `__init__` (516-518) suppress warnings.
-/

namespace Verif

open scoped Verif

/-- The three calls of `warnings.warn`. -/
inductive PyWarning
  /-- "It appears as if you are modifying the `base_score` value, but `initialize_base_score` is set to
  True. The `base_score` will be calculated at `fit` time." (461-467) -/
  | baseScore
  /-- "Multiple evaluation datasets passed, only the last one will be used to determine early stopping."
  (622-625) -/
  | manySets
  /-- "No feature names were provided at fit, but feature was a string, attempting to determine feature
  index from DataFrame Column, ensure columns are the same order as data passed when fit." (845-850) -/
  | columnOrder
  deriving DecidableEq, Repr

section
variable {F D : Type} [Fl F] [Fl D] [FlCast F D]

/-- The warnings of `__init__` (`__init__.py` 461-467), given before the crate is called. -/
def initWarnings (p : PyParams D) : List PyWarning :=
  if (!(p.baseScore =ᶠ Fl.ofNat 1 / Fl.ofNat 2) && p.initializeBaseScore) = true then [.baseScore] else []

/-- The warnings of `set_params` (`__init__.py` 1140-1149), which calls `__init__`. -/
def PyBooster.setParamsWarnings (o : PyBooster F D) (update : PyParams D → PyParams D) : List PyWarning :=
  initWarnings (update o.getParams)

/-- The warnings of `fit` (`__init__.py` 578-625): given when all evaluation sets have been converted, so
not if an exception is raised before. -/
def PyBooster.fitWarnings (J : PyJson) (o : PyBooster F D) (X : Frame D)
    (evals : Option (List (PyEval D))) : List PyWarning :=
  let o := o.describe J X
  match pyFitConstraints X.columns (o.params.monotoneConstraints.getD []) with
  | .error _ => []
  | .ok _ =>
    match pyFitTerminate X.columns (o.params.terminateMissingFeatures.getD []) with
    | .error _ => []
    | .ok _ =>
      match pyMap (fun e : PyEval D => o.validateFeatures e.frame.features) (evals.getD []) with
      | .error _ => []
      | .ok l => if 1 < l.length then [.manySets] else []

omit [Fl F] [Fl D] [FlCast F D] in
/-- The warnings of `partial_dependence` (`__init__.py` 833-851): `X.loc[:, feature]` raises first if there
is no such column. -/
def PyBooster.dependenceWarnings (o : PyBooster F D) (X : Frame D) : PyKey → List PyWarning
  | .str s =>
    match X.columns with
    | none => []
    | some cols =>
      if positions cols s = [] then []
      else match o.featureNames with
        | some _ => []
        | none => [.columnOrder]
  | .int _ => []

end

end Verif
