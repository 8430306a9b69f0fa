import Verif.Model.PyBooster

/-!
# Arrays handed to the Python class

`_convert_input_frame` and `_convert_input_array` (py-forust/forust/`__init__.py` 248-275) and the use of the arrays in
py-forust/src/lib.rs: a numpy array is a view of memory, and the crate reads slices of memory.

Simplifications: arrays have one or two dimensions as documented; an element is the double it is converted to; the
`TypeError` raised for an array that is not contiguous is the same error value as a `ValueError`.
-/

namespace Verif

section
variable {D : Type}

/-- A one dimensional numpy array: memory, position of the first element, number of elements, and the distance from
one element to the next. -/
structure PyVec (D : Type) where
  /-- memory -/
  mem : List D
  /-- position of the first element -/
  start : Nat
  /-- `shape[0]` -/
  len : Nat
  /-- `strides[0]`, in elements -/
  step : Int
  /-- is the type `float64`? -/
  double : Bool

/-- The element `a[i]`. -/
def PyVec.at? (a : PyVec D) (i : Nat) : Option D :=
  let p := (a.start : Int) + i * a.step
  if p < 0 then none else a.mem[p.toNat]?

/-- The elements in order. -/
def PyVec.toList (a : PyVec D) : List D := (List.range a.len).filterMap a.at?

/-- `_convert_input_array` (`__init__.py` 268-275): an array of another type is copied; the copy of a one dimensional
array is contiguous. -/
def PyVec.convert (a : PyVec D) : PyVec D :=
  if a.double then a else { mem := a.toList, start := 0, len := a.len, step := 1, double := true }

/-- `PyReadonlyArray1::as_slice` (py-forust/src/lib.rs 219-232): the memory itself; an error unless the array is
contiguous.  numpy calls arrays of at most one element contiguous, whatever the step. -/
def PyVec.asSlice (a : PyVec D) : Except PyErr (List D) :=
  if a.len ≤ 1 ∨ a.step = 1 then .ok ((a.mem.drop a.start).take a.len) else .error .valueError

/-- A two dimensional numpy array. -/
structure PyMat (D : Type) where
  /-- memory -/
  mem : List D
  /-- position of the first element -/
  start : Nat
  /-- `shape[0]` -/
  rows : Nat
  /-- `shape[1]` -/
  cols : Nat
  /-- `strides[0]`, in elements -/
  step0 : Int
  /-- `strides[1]`, in elements -/
  step1 : Int
  /-- is the type `float64`? -/
  double : Bool

/-- The element `a[i, j]`. -/
def PyMat.at? (a : PyMat D) (i j : Nat) : Option D :=
  let p := (a.start : Int) + i * a.step0 + j * a.step1
  if p < 0 then none else a.mem[p.toNat]?

/-- `ravel(order="F")`: a new contiguous array with the columns one after the other (numpy returns a view if the
memory has this order already, with the same contents). -/
def PyMat.ravelF (a : PyMat D) : PyVec D :=
  { mem := (List.range a.cols).flatMap fun j => (List.range a.rows).filterMap fun i => a.at? i j
    start := 0, len := a.rows * a.cols, step := 1, double := a.double }

/-- `astype(dtype="float64", copy=False)` for an array of another type: a copy, here with the rows one after the
other (the order of the copy in memory is not visible, as `ravel` follows). -/
def PyMat.astype (a : PyMat D) : PyMat D :=
  if a.double then a
  else
    { mem := (List.range a.rows).flatMap fun i => (List.range a.cols).filterMap fun j => a.at? i j
      start := 0, rows := a.rows, cols := a.cols, step0 := a.cols, step1 := 1, double := true }

/-- A data frame or a two dimensional array. -/
structure PyFrame (D : Type) where
  /-- `X.columns`, for a data frame -/
  columns : Option (List String)
  /-- `X.to_numpy()` or `X` -/
  array : PyMat D

/-- `_convert_input_frame` (`__init__.py` 248-265) and `Matrix::new` with the slice (py-forust/src/lib.rs 219-220). -/
def PyFrame.convert (X : PyFrame D) : Except PyErr (Frame D) := do
  let a := X.array.astype
  let flat ← a.ravelF.asSlice
  .ok { columns := X.columns, data := { data := flat, rows := a.rows, cols := a.cols } }

/-- One entry of `evaluation_data`. -/
structure PyEvalArr (D : Type) where
  /-- features -/
  frame : PyFrame D
  /-- targets -/
  y : PyVec D
  /-- weights -/
  w : Option (PyVec D)

variable {F : Type} [Fl F] [Fl D] [FlCast F D]

/-- The weights the crate reads (`__init__.py` 586-588, py-forust/src/lib.rs 222). -/
def sliceWeights : Option (PyVec D) → Except PyErr (Option (List D))
  | none => .ok none
  | some w => do
    let l ← w.convert.asSlice
    .ok (some l)

/-- What the crate reads of an entry of `evaluation_data` (`__init__.py` 599-623, py-forust/src/lib.rs 224-236). -/
def PyEvalArr.slices (e : PyEvalArr D) : Except PyErr (PyEval D) := do
  let f ← e.frame.convert
  let y ← e.y.convert.asSlice
  let w ← sliceWeights e.w
  .ok { frame := f, y, w }

/-- The evaluation data the crate reads (py-forust/src/lib.rs 224-238). -/
def sliceEvals : Option (List (PyEvalArr D)) → Except PyErr (Option (List (PyEval D)))
  | none => .ok none
  | some es => do
    let l ← pyMap PyEvalArr.slices es
    .ok (some l)

/-- All slices are taken before the crate's `fit` is called (py-forust/src/lib.rs 219-238). -/
def sliceAll (y : PyVec D) (w : Option (PyVec D)) (evals : Option (List (PyEvalArr D))) :
    Except PyErr (List D × Option (List D) × Option (List (PyEval D))) := do
  let ys ← y.convert.asSlice
  let ws ← sliceWeights w
  let es ← sliceEvals evals
  .ok (ys, ws, es)

/-- `fit` (`__init__.py` 547-641, py-forust/src/lib.rs 210-243) on arrays; cf. `PyBooster.fit`. -/
def PyBooster.fitArrays {R : Type} (J : PyJson) (env : Env R F D) (o : PyBooster F D) (X : PyFrame D) (y : PyVec D)
    (w : Option (PyVec D)) (evals : Option (List (PyEvalArr D))) :
    Res (PyBooster F D × Except PyErr Unit) :=
  match X.convert with
  | .error e => .ok (o, .error e)
  | .ok X =>
    let o := o.describe J X
    match pyFitConstraints X.columns (o.params.monotoneConstraints.getD []) with
    | .error e => .ok (o, .error e)
    | .ok m =>
      let o := { o with booster := { o.booster with monotoneConstraints := some m } }
      match pyFitTerminate X.columns (o.params.terminateMissingFeatures.getD []) with
      | .error e => .ok (o, .error e)
      | .ok t =>
        let o := { o with booster := { o.booster with terminateMissingFeatures := t } }
        match pyMap (fun e : PyEvalArr D => o.validateFeatures (e.frame.columns.getD [])) (evals.getD []) with
        | .error e => .ok (o, .error e)
        | .ok _ =>
          match sliceAll y w evals with
          | .error e => .ok (o, .error e)
          | .ok (y, w, evals) => do
            let r ← o.booster.fit env X.data y (w.getD (List.replicate y.length 1))
              (evals.map fun es => es.map PyEval.toSet)
            match r with
            | (b, .ok ()) => .ok ({ o with booster := b, params := { o.params with baseScore := b.baseScore } }, .ok ())
            | (b, .error _) => .ok ({ o with booster := b }, .error .valueError)

/-- `predict` (`__init__.py` 650-671) on arrays. -/
def PyBooster.predictArrays (o : PyBooster F D) (X : PyFrame D) : Res (Except PyErr (List D)) :=
  match X.convert with
  | .error e => .ok (.error e)
  | .ok X => o.predict X

end

end Verif
