import Verif.Num

/-!
# The serializers of the Python package (`py-forust/forust/serialize.py`)

`ObjectSerializer` is `json.dumps`/`json.loads` (see `PyJson`).  This file models the two others.
-/

namespace Verif

/-- What `ScalerSerializer` stores: `Union[int, float, str]` (`serialize.py` 25).  Floats are not
modelled, but the texts `nan` and `inf` are. -/
inductive PyScalar where
  | int (z : Int)
  | str (s : List Char)
  deriving DecidableEq, Repr

/-- `str` of an integer. -/
def pyIntText : Int → List Char
  | .ofNat n => (toString n).toList
  | .negSucc n => '-' :: (toString (n + 1)).toList

/-- `ScalerSerializer.serialize` (`serialize.py` 29-34): a string is put between quotes as it is. -/
def PyScalar.serialize : PyScalar → List Char
  | .str s => '\'' :: (s ++ ['\''])
  | .int z => pyIntText z

/-! ## `NumpySerializer` (`serialize.py` 55-75) -/

/-- Nested lists, as `tolist` makes them and JSON stores them. -/
inductive Nested (α : Type) where
  | item (a : α)
  | list (l : List (Nested α))

/-- A numpy array: shape and elements in row-major order. -/
structure NdArray (α : Type) where
  shape : List Nat
  data : List α
  deriving DecidableEq, Repr

/-- `NumpyData` (`serialize.py` 55-59), without the type name. -/
structure NumpyData (α : Type) where
  array : Nested α
  shape : List Nat

section
variable {α β : Type}

/-- numpy's `tolist` on the elements from the front: the nested lists and the elements left. -/
def nestOf (dflt : α) : List Nat → List α → Nested α
  | [], l => .item (l.headD dflt)
  | d :: shape, l =>
    .list ((List.range d).map fun i => nestOf dflt shape (l.drop (i * shape.prod)))

mutual
/-- The elements of nested lists from left to right. -/
def Nested.leaves : Nested α → List α
  | .item a => [a]
  | .list l => Nested.leavesList l
/-- The elements of several nested lists. -/
def Nested.leavesList : List (Nested α) → List α
  | [] => []
  | x :: l => x.leaves ++ Nested.leavesList l
end

mutual
/-- The shape numpy infers: a list of equally shaped items adds a dimension; unequal ones are refused. -/
def Nested.shapeOf : Nested α → Option (List Nat)
  | .item _ => some []
  | .list l => match l with
    | [] => some [0]
    | x :: r => do
      let s ← x.shapeOf
      if Nested.allShape s r then some ((r.length + 1) :: s) else none
/-- All have the given shape. -/
def Nested.allShape (s : List Nat) : List (Nested α) → Bool
  | [] => true
  | x :: r => (x.shapeOf == some s) && Nested.allShape s r
end

/-- `np.array(nested, dtype)`: `cast` converts one element. -/
def npArray (cast : β → α) (n : Nested β) : Option (NdArray α) := do
  let s ← n.shapeOf
  some { shape := s, data := n.leaves.map cast }

/-- `reshape`: as many elements, else an error. -/
def NdArray.reshape (a : NdArray α) (shape : List Nat) : Option (NdArray α) :=
  if a.data.length = shape.prod then some { a with shape } else none

/-- `NumpySerializer.serialize` (`serialize.py` 62-65) before it becomes text; `item` is the conversion
of one element to a Python number. -/
def NdArray.serialize (dflt : β) (item : α → β) (a : NdArray α) : NumpyData β :=
  { array := nestOf dflt a.shape (a.data.map item), shape := a.shape }

/-- `NumpySerializer.deserialize` (`serialize.py` 67-73). -/
def NumpyData.deserialize (cast : β → α) (d : NumpyData β) : Option (NdArray α) := do
  let a ← npArray cast d.array
  if d.shape.length = 1 then some a else a.reshape d.shape

end

end Verif
