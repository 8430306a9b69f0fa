import Verif.Num

/-!
# Containers (`src/data.rs`)

Slices and vectors are lists; an index out of range is `Res.panic`.
-/

namespace Verif

/-- `&v[i]`: panics when out of range. -/
def idx {T : Type} (l : List T) (i : Nat) : Res T := Res.ofOption l[i]?

/-- `&v[i..j]`: panics unless `i <= j <= v.len()`. -/
def slice {T : Type} (l : List T) (i j : Nat) : Res (List T) :=
  if i ≤ j ∧ j ≤ l.length then .ok ((l.drop i).take (j - i)) else .panic

/-- `iter.step_by(n)` started with `k` elements still to skip (`n ≥ 1`). -/
def stepAux {T : Type} (n : Nat) : Nat → List T → List T
  | _, [] => []
  | 0, a :: l => a :: stepAux n (n - 1) l
  | k + 1, _ :: l => stepAux n k l

/-- `Matrix` (src/data.rs 91-111).  `stride1 = rows`, `stride2 = 1` and `index = 0..rows` are fixed by
`Matrix::new`, so they are not stored. -/
structure Matrix (T : Type) where
  /-- column-major contents -/
  data : List T
  /-- number of rows -/
  rows : Nat
  /-- number of columns -/
  cols : Nat
  deriving DecidableEq, Repr

namespace Matrix
variable {T : Type}

/-- The `index` field set by `Matrix::new` (src/data.rs 105). -/
def index (m : Matrix T) : List Nat := List.range m.rows

/-- `item_index` (src/data.rs 121-125) with the strides of `Matrix::new`. -/
def itemIndex (m : Matrix T) (i j : Nat) : Nat := 1 * i + j * m.rows

/-- `get` (src/data.rs 117-119). -/
def get (m : Matrix T) (i j : Nat) : Res T := idx m.data (m.itemIndex i j)

/-- `get_row_iter` and `get_row` (src/data.rs 128-133, 159-161): `skip(row).step_by(rows)`;
`step_by(0)` panics. -/
def getRow (m : Matrix T) (row : Nat) : Res (List T) :=
  if m.rows = 0 then .panic else .ok (stepAux m.rows 0 (m.data.drop row))

/-- `get_col_slice` (src/data.rs 140-144). -/
def getColSlice (m : Matrix T) (col startRow endRow : Nat) : Res (List T) :=
  slice m.data (m.itemIndex startRow col) (m.itemIndex endRow col)

/-- `get_col` (src/data.rs 149-151). -/
def getCol (m : Matrix T) (col : Nat) : Res (List T) := m.getColSlice col 0 m.rows

end Matrix

/-- `RowMajorMatrix` (src/data.rs 171-189); `stride1 = 1`, `stride2 = cols` are fixed by `new` and are
stored fields of the serialized form. -/
structure RowMajorMatrix (T : Type) where
  /-- row-major contents -/
  data : List T
  /-- number of rows -/
  rows : Nat
  /-- number of columns -/
  cols : Nat
  /-- distance of two neighbours in a row -/
  stride1 : Nat
  /-- distance of two neighbours in a column -/
  stride2 : Nat
  deriving DecidableEq, Repr

namespace RowMajorMatrix
variable {T : Type}

/-- `RowMajorMatrix::new` (src/data.rs 181-189). -/
def new (data : List T) (rows cols : Nat) : RowMajorMatrix T :=
  { data, rows, cols, stride1 := 1, stride2 := cols }

/-- `get` (src/data.rs 195-203). -/
def get (m : RowMajorMatrix T) (i j : Nat) : Res T := idx m.data (m.stride2 * i + j * m.stride1)

/-- `append_row` (src/data.rs 207-212): `% 0` panics, and so does a length that is not a multiple of
the number of columns. -/
def appendRow (m : RowMajorMatrix T) (items : List T) : Res (RowMajorMatrix T) :=
  if m.cols = 0 then .panic
  else if items.length % m.cols = 0 then
    .ok { m with rows := m.rows + items.length / m.cols, data := m.data ++ items }
  else .panic

end RowMajorMatrix

/-- `JaggedMatrix` (src/data.rs 238-247). -/
structure JaggedMatrix (T : Type) where
  /-- concatenated columns -/
  data : List T
  /-- end offset of each column -/
  ends : List Nat
  /-- number of columns -/
  cols : Nat
  /-- number of records as counted by the code -/
  nRecords : Nat
  deriving DecidableEq, Repr

namespace JaggedMatrix
variable {T : Type}

/-- `JaggedMatrix::new` (src/data.rs 281-288). -/
def empty : JaggedMatrix T := { data := [], ends := [], cols := 0, nRecords := 0 }

/-- Loop body of `from_vecs` (src/data.rs 261-268); `e` is the last end. -/
def pushVec (s : JaggedMatrix T × Nat) (v : List T) : JaggedMatrix T × Nat :=
  let e := s.2 + v.length
  ({ s.1 with data := s.1.data ++ v, ends := s.1.ends ++ [e], nRecords := s.1.nRecords + e }, e)

/-- `from_vecs` (src/data.rs 256-277). -/
def fromVecs (vecs : List (List T)) : JaggedMatrix T :=
  { (vecs.foldl pushVec (empty, 0)).1 with cols := vecs.length }

/-- `get_col` (src/data.rs 291-299). -/
def getCol (m : JaggedMatrix T) (col : Nat) : Res (List T) := do
  Res.assert (decide (col < m.ends.length))
  let i ← if col = 0 then .ok 0 else idx m.ends (col - 1)
  let j ← idx m.ends col
  slice m.data i j

end JaggedMatrix

end Verif
