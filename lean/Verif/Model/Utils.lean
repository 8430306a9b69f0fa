import Verif.Model.Data

/-!
# Numeric and index helpers (`src/utils.rs`)

`F` stands for `f32`, `D` for `f64`.
-/

namespace Verif

open scoped Verif

/-- `ForustError` (src/errors.rs), the variants that the modelled functions return.  Messages are not
modelled; the parameter or vector name is. -/
inductive ForustError where
  | missingValuesFound (name : String)
  | negativeValuesFound (name : String)
  | invalidParameter (name : String)
  | unableToRead
  | noMetadata (key : String)
  deriving DecidableEq, Repr

/-- `Constraint` (src/constraints.rs). -/
inductive Constraint where
  | positive
  | negative
  | unconstrained
  deriving DecidableEq, Repr

/-- `ConstraintMap`, a hash map from feature to constraint (src/constraints.rs); the model uses an
association list. -/
abbrev ConstraintMap := List (Nat × Constraint)

section f
variable {F : Type} [Fl F]

/-- `validate_float_parameter` (src/utils.rs 41-58). -/
def validateFloatParameter (value min max : F) (parameter : String) : Except ForustError Unit :=
  if isNaN value || value <ᶠ min || max <ᶠ value then .error (.invalidParameter parameter)
  else .ok ()

/-- `validate_positive_float_parameter` (src/utils.rs 34-39). -/
def validatePositiveFloatParameter (value : F) (parameter : String) : Except ForustError Unit :=
  validateFloatParameter value 0 inf parameter

/-- `validate_not_nan_vec` (src/utils.rs 60-66). -/
def validateNotNanVec (v : List F) (name : String) : Except ForustError Unit :=
  if v.any isNaN then .error (.missingValuesFound name) else .ok ()

/-- `validate_positive_vec` (src/utils.rs 68-74). -/
def validatePositiveVec (v : List F) (name : String) : Except ForustError Unit :=
  if v.any (· <ᶠ 0) then .error (.negativeValuesFound name) else .ok ()

/-- `validate_positive_not_nan_vec` (src/utils.rs 76-85). -/
def validatePositiveNotNanVec (v : List F) (name : String) : Except ForustError Unit := do
  let remainder := v.filter fun i => isNaN i || i <ᶠ 0
  validatePositiveVec remainder name
  validateNotNanVec remainder name

/-- `is_missing` (src/utils.rs 98-109). -/
def isMissing (value missing : F) : Res Bool :=
  if isNaN missing then .ok (isNaN value)
  else if isNaN value then .panic
  else .ok (value =ᶠ missing)

/-- `l1_regularization` (src/utils.rs 237-247). -/
def l1Regularization (w l1 : F) : F :=
  if l1 =ᶠ 0 then w
  else if l1 <ᶠ w then w - l1
  else if w <ᶠ -l1 then w + l1
  else 0

/-- `weight` (src/utils.rs 252-264). -/
def weight (l1 l2 maxDeltaStep gradientSum hessianSum : F) : F :=
  let w := -(l1Regularization gradientSum l1 / (hessianSum + l2))
  if !(maxDeltaStep =ᶠ 0) && maxDeltaStep <ᶠ Fl.abs w then Fl.copysign maxDeltaStep w else w

/-- Is the constraint absent (`None | Some(Unconstrained)`)? -/
def noConstraint : Option Constraint → Bool
  | none => true
  | some .unconstrained => true
  | _ => false

/-- `constrained_weight` (src/utils.rs 115-138). -/
def constrainedWeight (l1 l2 maxDeltaStep gradientSum hessianSum lower upper : F)
    (constraint : Option Constraint) : F :=
  let w := weight l1 l2 maxDeltaStep gradientSum hessianSum
  if noConstraint constraint then w
  else if upper <ᶠ w then upper
  else if w <ᶠ lower then lower
  else w

/-- `between` (src/utils.rs 142-148). -/
def between (i j v : F) : Bool :=
  if j <ᶠ i then (v ≤ᶠ i) && (j ≤ᶠ v) else (i ≤ᶠ v) && (v ≤ᶠ j)

/-- `bound_to_parent` (src/utils.rs 151-186). -/
def boundToParent (parent left right : F) : F × F :=
  if between left right parent then (left, right)
  else if right <ᶠ left then
    if left <ᶠ parent then (parent, right) else (left, parent)
  else
    if right <ᶠ parent then (left, parent) else (parent, right)

/-- `odds` (src/utils.rs 190-192). -/
def odds (v : F) : F := 1 / (1 + Fl.exp (-v))

/-- `gain` (src/utils.rs 196-198). -/
def gain (l2 gradientSum hessianSum : F) : F := (gradientSum * gradientSum) / (hessianSum + l2)

/-- `gain_given_weight` (src/utils.rs 204-206). -/
def gainGivenWeight (l2 gradientSum hessianSum weight : F) : F :=
  -(Fl.ofNat 2 * gradientSum * weight + (hessianSum + l2) * (weight * weight))

/-- `cull_gain` (src/utils.rs 210-233). -/
def cullGain (gain leftWeight rightWeight : F) : Option Constraint → F
  | none => gain
  | some .unconstrained => gain
  | some .negative => if leftWeight ≤ᶠ rightWeight then ninf else gain
  | some .positive => if rightWeight ≤ᶠ leftWeight then ninf else gain

/-- `LANES` (src/utils.rs 266). -/
def lanes : Nat := 16

/-- One chunk added to the accumulators lane by lane (src/utils.rs 276-282). -/
def addLanes (acc chunk : List F) : List F := List.zipWith (· + ·) acc chunk

/-- `chunks_exact(LANES)`: accumulators after all full chunks, and the remainder (src/utils.rs
273-282).  `fuel` bounds the number of chunks; `values.length` is always enough. -/
def foldLanes : Nat → List F → List F → List F × List F
  | 0, acc, l => (acc, l)
  | n + 1, acc, l =>
    if l.length < lanes then (acc, l)
    else foldLanes n (addLanes acc (l.take lanes)) (l.drop lanes)

/-- `fast_sum` (src/utils.rs 272-291). -/
def fastSum (values : List F) : F :=
  let (sum, remainder) := foldLanes values.length (List.replicate lanes 0) values
  let r := remainder.foldl (· + ·) 0
  let reduced := sum.foldl (· + ·) 0
  reduced + r

/-- `naive_sum` (src/utils.rs 321-323). -/
def naiveSum (values : List F) : F := values.foldl (· + ·) 0

/-- `map_bin`, the binary search loop (src/utils.rs 389-401).  `fuel` bounds the number of steps;
`x.length + 1` is always enough. -/
def mapBinLoop (x : List F) (v : F) : Nat → Nat → Nat → Res Nat
  | 0, low, high => if low = high then .ok low else .diverge
  | n + 1, low, high =>
    if low = high then .ok low
    else do
      let mid := (low + high) / 2
      let xm ← idx x mid
      if xm ≤ᶠ v then mapBinLoop x v n (mid + 1) high else mapBinLoop x v n low mid

/-- `map_bin` (src/utils.rs 385-403): `None` when the bin does not fit in 16 bits. -/
def mapBin (x : List F) (v missing : F) : Res (Option Nat) :=
  if isNaN v || v =ᶠ missing then .ok (some 0)
  else do
    let low ← mapBinLoop x v (x.length + 1) 0 x.length
    .ok (if low < 65536 then some low else none)

end f

/-- `fast_f64_sum` (src/utils.rs 298-319). -/
def fastF64Sum {F D : Type} [Fl F] [Fl D] [FlCast F D] (values : List F) : F :=
  let (sum, remainder) :=
    foldLanes values.length (List.replicate lanes (0 : D)) (values.map (up : F → D))
  let r := remainder.foldl (· + ·) (0 : D)
  let reduced := sum.foldl (· + ·) (0 : D)
  down (reduced + r)

/-- Behaviour of the standard library's `sort_unstable_by` (a deterministic function of the
comparison and the input whose treatment of ties is unspecified). -/
structure Sorter where
  /-- sort by a "less or equal" test -/
  sort : {α : Type} → (α → α → Bool) → List α → List α

/-- What is known about it: the result is a permutation, sorted when the comparison is a total preorder
on the elements of the list. -/
structure Sorter.Ok (S : Sorter) : Prop where
  perm : ∀ {α : Type} (le : α → α → Bool) (l : List α), (S.sort le l).Perm l
  sorted : ∀ {α : Type} (le : α → α → Bool) (l : List α),
    (∀ a ∈ l, ∀ b ∈ l, ∀ c ∈ l, le a b = true → le b c = true → le a c = true) →
    (∀ a ∈ l, ∀ b ∈ l, le a b = true ∨ le b a = true) → (S.sort le l).Pairwise (fun a b => le a b = true)

section percentiles
variable {F : Type} [Fl F]

/-- The comparison `|a, b| a.partial_cmp(b).unwrap()` panics on NaN; every element of a list of two
or more is compared at least once. -/
def sortPartialCmp (S : Sorter) {α : Type} (key : α → F) (l : List α) : Res (List α) :=
  if 2 ≤ l.length ∧ l.any (fun a => isNaN (key a)) then .panic
  else .ok (S.sort (fun a b => key a ≤ᶠ key b) l)

/-- The inner `while cuml_pct >= current_pct` loop of `percentiles` (src/utils.rs 357-363): pushes the
current value for every level reached.  Returns the output, and the remaining levels with the current
one first (`none` when they ran out and the function returns). -/
def pctWhile (cuml value : F) : F → List F → List F → List F × Option (F × List F)
  | cur, [], p => if cur ≤ᶠ cuml then (p ++ [value], none) else (p, some (cur, []))
  | cur, nxt :: rest, p =>
    if cur ≤ᶠ cuml then pctWhile cuml value nxt rest (p ++ [value]) else (p, some (cur, nxt :: rest))

/-- The main loop of `percentiles` (src/utils.rs 349-371) over the sorted `(value, weight)` pairs;
`last` is the value of the last index. -/
def pctLoop (total last : F) : List (F × F) → F → F → F → List F → List F → List F
  | [], _, _, _, _, p => p
  | (v, w) :: l, curValue, cuml, curPct, pcts, p =>
    let curValue := if curValue =ᶠ v then curValue else v
    let cuml := cuml + w / total
    if curPct =ᶠ 0 || curPct ≤ᶠ cuml then
      match pctWhile cuml curValue curPct pcts p with
      | (p', none) => p'
      | (p', some (c', pcts')) => pctLoop total last l curValue cuml c' pcts' p'
    else if curPct =ᶠ 1 then p ++ [last]
    else pctLoop total last l curValue cuml curPct pcts p

/-- `percentiles` (src/utils.rs 333-373).  Panics: NaN in the comparison, no percentiles, empty
`v`, `sample_weight` shorter than `v`.  (`sample_weight` is read inside the loop, which may return
early; the model reads all weights first, so a short weight vector is a panic in every case.) -/
def percentiles (S : Sorter) (v sampleWeight pcts : List F) : Res (List F) := do
  let order ← sortPartialCmp S (fun i => v[i]?.getD 0) (List.range v.length)
  match pcts with
  | [] => .panic
  | cur :: rest => do
    let vals ← Res.mapM' (fun i => do
      let a ← idx v i
      let w ← idx sampleWeight i
      pure (a, w)) order
    match vals with
    | [] => .panic
    | (v0, _) :: _ =>
      let last := (vals.getLast?.map Prod.fst).getD v0
      .ok (pctLoop (fastSum sampleWeight) last vals v0 0 cur rest [])

end percentiles

/-- `missing_compare(split, value, missing_right)` is `Greater`, i.e. the row goes left
(src/utils.rs 533-547). -/
def missingGoesLeft (split value : Nat) (missingRight : Bool) : Bool :=
  if value = 0 then !missingRight else decide (value < split)

/-- `index.swap(i, j)`; panics when out of range. -/
def swapIdx (l : List Nat) (i j : Nat) : Res (List Nat) := do
  let a ← idx l i
  let b ← idx l j
  .ok ((l.set i b).set j a)

/-- First inner loop of `pivot_on_split` (src/utils.rs 430-436). -/
def pivotLow (index feature : List Nat) (split : Nat) (mr : Bool) (maxIdx : Nat) :
    Nat → Nat → Res Nat
  | 0, low => if low < maxIdx then .diverge else .ok low
  | n + 1, low =>
    if low < maxIdx then do
      let i ← idx index low
      let l ← idx feature i
      if missingGoesLeft split l mr then pivotLow index feature split mr maxIdx n (low + 1)
      else .ok low
    else .ok low

/-- Second inner loop of `pivot_on_split` (src/utils.rs 437-446). -/
def pivotHigh (index feature : List Nat) (split : Nat) (mr : Bool) (low : Nat) :
    Nat → Nat → Res Nat
  | 0, high => if low < high then .diverge else .ok high
  | n + 1, high =>
    if low < high then do
      let i ← idx index high
      let h ← idx feature i
      if missingGoesLeft split h mr then .ok high
      else pivotHigh index feature split mr low n (high - 1)
    else .ok high

/-- Outer loop of `pivot_on_split` (src/utils.rs 426-450); returns the permuted index and `low`. -/
def pivotLoop (feature : List Nat) (split : Nat) (mr : Bool) (maxIdx : Nat) :
    Nat → List Nat → Nat → Nat → Res (List Nat × Nat)
  | 0, index, low, high => if low < high then .diverge else .ok (index, low)
  | n + 1, index, low, high =>
    if low < high then do
      let low ← pivotLow index feature split mr maxIdx (maxIdx + 1) low
      let high ← pivotHigh index feature split mr low (maxIdx + 1) high
      let index ← if low < high then swapIdx index high low else pure index
      pivotLoop feature split mr maxIdx n index low high
    else .ok (index, low)

/-- `pivot_on_split` (src/utils.rs 416-452); `index.len() - 1` underflows (panics) on an empty slice.
The fuel `index.length + 1` is always enough. -/
def pivotOnSplit (index feature : List Nat) (split : Nat) (missingRight : Bool) :
    Res (List Nat × Nat) :=
  if index.length = 0 then .panic
  else pivotLoop feature split missingRight (index.length - 1) (index.length + 1) index 0
    (index.length - 1)

/-- First inner loop of `pivot_on_split_exclude_missing` (src/utils.rs 490-500); returns the index,
`missing` and `low`. -/
def pivotXLow (feature : List Nat) (split maxIdx : Nat) :
    Nat → List Nat → Nat → Nat → Res (List Nat × Nat × Nat)
  | 0, index, missing, low => if low < maxIdx then .diverge else .ok (index, missing, low)
  | n + 1, index, missing, low =>
    if low < maxIdx then do
      let i ← idx index low
      let l ← idx feature i
      let (index, missing) ←
        if l = 0 then do
          let ix ← swapIdx index missing low
          pure (ix, missing + 1)
        else pure (index, missing)
      if l < split then pivotXLow feature split maxIdx n index missing (low + 1)
      else .ok (index, missing, low)
    else .ok (index, missing, low)

/-- Second inner loop of `pivot_on_split_exclude_missing` (src/utils.rs 501-521); returns the index,
`missing`, `low` and `high`. -/
def pivotXHigh (feature : List Nat) (split : Nat) :
    Nat → List Nat → Nat → Nat → Nat → Res (List Nat × Nat × Nat × Nat)
  | 0, index, missing, low, high =>
    if low < high then .diverge else .ok (index, missing, low, high)
  | n + 1, index, missing, low, high =>
    if low < high then do
      let i ← idx index high
      let h ← idx feature i
      let (index, missing, low) ←
        if h = 0 then do
          let ix ← swapIdx index missing high
          let missing := missing + 1
          pure (ix, missing, if low < missing then missing else low)
        else pure (index, missing, low)
      if h < split then .ok (index, missing, low, high)
      else pivotXHigh feature split n index missing low (high - 1)
    else .ok (index, missing, low, high)

/-- Outer loop of `pivot_on_split_exclude_missing` (src/utils.rs 486-525). -/
def pivotXLoop (feature : List Nat) (split maxIdx : Nat) :
    Nat → List Nat → Nat → Nat → Nat → Res (List Nat × Nat × Nat)
  | 0, index, missing, low, high =>
    if low < high then .diverge else .ok (index, missing, low)
  | n + 1, index, missing, low, high =>
    if low < high then do
      let (index, missing, low) ← pivotXLow feature split maxIdx (maxIdx + 1) index missing low
      let (index, missing, low, high) ←
        pivotXHigh feature split (maxIdx + 1) index missing low high
      let index ← if low < high then swapIdx index high low else pure index
      pivotXLoop feature split maxIdx n index missing low high
    else .ok (index, missing, low)

/-- `pivot_on_split_exclude_missing` (src/utils.rs 471-527): the permuted index, the number of
missing rows and the position of the first right row. -/
def pivotOnSplitExcludeMissing (index feature : List Nat) (split : Nat) :
    Res (List Nat × Nat × Nat) :=
  if index.length = 0 then .panic
  else pivotXLoop feature split (index.length - 1) (2 * index.length + 1) index 0 0
    (index.length - 1)

end Verif
