import Verif.Model.PyBooster

/-!
# `partial_dependence` of the Python class (`py-forust/forust/__init__.py` 762-879)
-/

namespace Verif

open scoped Verif

section
variable {F D : Type} [Fl F] [Fl D] [FlCast F D]

/-- `np.quantile(values, np.linspace(lo, hi, num=n))` (`__init__.py` 865). -/
structure Numpy (D : Type) where
  /-- the quantiles, or an exception -/
  quantiles : List D → Nat → D → D → Except PyErr (List D)

omit [Fl F] [Fl D] [FlCast F D] in
/-- Column `j` of a frame (`X.iloc[:, j]`, `X[:, j]`). -/
def Frame.column (X : Frame D) (j : Nat) : List D := (X.data.data.drop (j * X.data.rows)).take X.data.rows

omit [Fl F] [Fl D] [FlCast F D] in
/-- `[i for i, v in enumerate(names) if v == feature]`. -/
def positions (names : List String) (feature : String) : List Nat :=
  (List.range names.length).filter fun i => names[i]? = some feature

omit [Fl F] [Fl D] [FlCast F D] in
/-- The number of the feature and the values of its column (`__init__.py` 829-857).  A name needs a data
frame.  If the frame has several columns of that name, the values of all of them are taken (the boolean
index in line 859 flattens them; the order of the values is irrelevant for what follows).  The number of the
feature is the one position of the name among the names seen by `fit` or, without those, in the frame.  A
number that is no column is an `IndexError` (modelled as `keyError`). -/
def PyBooster.dependenceInput (o : PyBooster F D) (X : Frame D) : PyKey → Except PyErr (Nat × List D)
  | .str s =>
    match X.columns with
    | none => .error .valueError
    | some cols =>
      if positions cols s = [] then .error .keyError
      else match positions (o.featureNames.getD cols) s with
        | [i] => .ok (i, (positions cols s).flatMap X.column)
        | _ => .error .valueError
  | .int i => if i < X.data.cols then .ok (i, X.column i) else .error .keyError

/-- `values[~(np.isnan(values) | (values == self.missing))]` (`__init__.py` 859). -/
def presentValues (missing : D) (values : List D) : List D :=
  values.filter fun v => !(isNaN v || v =ᶠ missing)

/-- `np.sort(np.unique(values))` (`__init__.py` 861). -/
def npUnique (S : Sorter) (values : List D) : List D := dedupF (S.sort (fun a b => a ≤ᶠ b) values)

/-- The values of the first column of the result (`__init__.py` 858-869). -/
def PyBooster.dependenceGrid (N : Numpy D) (S : Sorter) (o : PyBooster F D) (values : List D)
    (samples : Option Nat) (excludeMissing : Bool) (lo hi : D) : Except PyErr (List D) := do
  let present := presentValues o.params.missing values
  let grid ← match samples with
    | none => .ok (npUnique S present)
    | some n => N.quantiles present n lo hi
  .ok (if excludeMissing then grid else o.params.missing :: grid)

/-- `partial_dependence` (`__init__.py` 762-879) as a list of pairs; if there are none the array that the
code returns has one dimension only. -/
def PyBooster.partialDependence (N : Numpy D) (S : Sorter) (o : PyBooster F D) (X : Frame D)
    (feature : PyKey) (samples : Option Nat) (excludeMissing : Bool) (lo hi : D) :
    Res (Except PyErr (List (D × D))) :=
  match o.dependenceInput X feature with
  | .error e => .ok (.error e)
  | .ok (idx, values) =>
    match o.dependenceGrid N S values samples excludeMissing lo hi with
    | .error e => .ok (.error e)
    | .ok grid => do
      let rows ← Res.mapM' (fun v => do
        let p ← o.booster.valuePartialDependence idx v
        .ok (v, p)) grid
      .ok (.ok rows)

end

end Verif
