import Verif.Model.Booster

/-!
# Dictionary logic of the Python wrapper (`py-forust/forust/__init__.py`, `py-forust/src/lib.rs`)
-/

namespace Verif

/-- Keys of a Python constraint dictionary: a column number or a column name. -/
inductive PyKey where
  | int (n : Nat)
  | str (s : String)
  deriving DecidableEq, Repr

/-- A Python dictionary, in insertion order. -/
abbrev PyDict (K V : Type) := List (K × V)

/-- A Python call returns a value or raises. -/
inductive PyErr where
  | keyError
  | valueError
  deriving DecidableEq, Repr

/-- `d[k]`. -/
def pyGet {K V : Type} [DecidableEq K] (d : PyDict K V) (k : K) : Except PyErr V :=
  match d.lookup k with
  | some v => .ok v
  | none => .error .keyError

/-- `{... for ...}`: later keys replace earlier ones. -/
def pyDict {K V : Type} [DecidableEq K] (l : List (K × V)) : PyDict K V :=
  l.foldl (fun d p => mapInsert d p.1 p.2) []

/-- `{f: i for i, f in enumerate(X.columns)}` (`__init__.py` 999, 1009). -/
def featureMap (columns : List String) : PyDict PyKey Nat :=
  pyDict (columns.zipIdx.map fun p => (PyKey.str p.1, p.2))

/-- `[f(x) for x in l]` where `f` may raise. -/
def pyMap {α β : Type} (f : α → Except PyErr β) : List α → Except PyErr (List β)
  | [] => .ok []
  | a :: l => do
    let b ← f a
    let bs ← pyMap f l
    .ok (b :: bs)

/-- `_standardize_monotonicity_map` (`__init__.py` 992-1000): `columns` is `none` for a numpy array.
The result of the numpy case is passed on as is; a name there is rejected by the conversion to
`HashMap<usize, i8>` (modelled as `valueError`). -/
def standardizeMonotonicityMap (columns : Option (List String)) (m : PyDict PyKey Int) :
    Except PyErr (PyDict Nat Int) :=
  match columns with
  | none => pyMap (fun p => match p.1 with
      | .int n => .ok (n, p.2)
      | .str _ => .error .valueError) m
  | some cols => do
    let l ← pyMap (fun p => do
      let i ← pyGet (featureMap cols) p.1
      .ok (i, p.2)) m
    .ok (pyDict l)

/-- `int_map_to_constraint_map` (py-forust/src/lib.rs 24-35). -/
def intMapToConstraintMap (m : PyDict Nat Int) : Except PyErr ConstraintMap :=
  pyMap (fun p =>
    if p.2 = -1 then .ok (p.1, Constraint.negative)
    else if p.2 = 1 then .ok (p.1, Constraint.positive)
    else if p.2 = 0 then .ok (p.1, Constraint.unconstrained)
    else .error .valueError) m

/-- The constraints of `get_params` (py-forust/src/lib.rs 374-388). -/
def constraintParams (m : Option ConstraintMap) : PyDict PyKey Int :=
  (m.getD []).map fun p => (PyKey.int p.1, match p.2 with
    | .negative => -1
    | .positive => 1
    | .unconstrained => 0)

/-- The monotone constraints part of the Python `fit` (`__init__.py` 590-593): the constraints stored
in the crate's booster. -/
def pyFitConstraints (columns : Option (List String)) (m : PyDict PyKey Int) :
    Except PyErr ConstraintMap := do
  let s ← standardizeMonotonicityMap columns m
  intMapToConstraintMap s

/-- The monotone constraints part of the Python `load_booster` (`__init__.py` 961-982): `names` is the
stored `feature_names_in_`, if any; the `KeyError` of the dictionary comprehension is swallowed and
leaves the numbered dictionary. -/
def pyLoadConstraints (names : Option (List String)) (stored : Option ConstraintMap) :
    PyDict PyKey Int :=
  let c := constraintParams stored
  match names with
  | none => c
  | some cols =>
    match pyMap (fun (p : String × Nat) => do
        let v ← pyGet c (.int p.2)
        .ok (PyKey.str p.1, v)) cols.zipIdx with
    | .ok l => pyDict l
    | .error _ => c

/-- The `terminate_missing_features` part of the Python `fit` (`__init__.py` 594-596, 1002-1010): the set
of features stored in the crate's booster, as a list. -/
def pyFitTerminate (columns : Option (List String)) (fs : List PyKey) : Except PyErr (List Nat) :=
  match columns with
  | none => pyMap (fun f => match f with
      | .int n => .ok n
      | .str _ => .error .valueError) fs
  | some cols => pyMap (fun f => pyGet (featureMap cols) f) fs

/-- The `terminate_missing_features` part of the Python `load_booster` (`__init__.py` 961-982, with
py-forust/src/lib.rs 439): the stored numbers are handed to the constructor and never translated back. -/
def pyLoadTerminate (_names : Option (List String)) (stored : List Nat) : List PyKey :=
  stored.map PyKey.int

/-- A node of an XGBoost JSON dump: leaves have a value, other nodes have a split and children. -/
inductive XgbNode where
  | leaf (nodeid : Nat) (leaf cover : Rat)
  | split (nodeid : Nat) (depth : Nat) (feature : String) (condition gain cover : Rat)
      (missing yes no : Nat) (children : List XgbNode)

/-- The forust node made from a dump node (`Node`, `__init__.py` 50-63). -/
structure PyNode where
  /-- position -/
  num : Nat
  /-- leaf value -/
  weightValue : Rat
  /-- cover -/
  hessianSum : Rat
  /-- depth -/
  depth : Nat
  /-- threshold -/
  splitValue : Rat
  /-- feature number -/
  splitFeature : Nat
  /-- gain -/
  splitGain : Rat
  /-- missing child -/
  missingNode : Nat
  /-- left child -/
  leftChild : Nat
  /-- right child -/
  rightChild : Nat
  /-- leaf flag -/
  isLeaf : Bool
  deriving DecidableEq, Repr

/-- `_from_xgboost_node` (`__init__.py` 65-81).  `rnd` is `float(np.float32(..))`; the model drops the
`depth` that newer dumps omit (the default 0 is used for leaves, as leaves carry no depth). -/
def fromXgboostNode (rnd : Rat → Rat) (fmap : PyDict String Nat) : XgbNode → PyNode
  | .leaf nodeid leaf cover =>
    { num := nodeid, weightValue := leaf, hessianSum := cover, depth := 0, splitValue := rnd 0
      splitFeature := 0, splitGain := 0, missingNode := 0, leftChild := 0, rightChild := 0
      isLeaf := true }
  | .split nodeid depth feature condition gain cover missing yes no _ =>
    { num := nodeid, weightValue := 0, hessianSum := cover, depth, splitValue := rnd condition
      splitFeature := (fmap.lookup feature).getD 0, splitGain := gain, missingNode := missing
      leftChild := yes, rightChild := no, isLeaf := false }

/-- Children in the dump. -/
def XgbNode.children : XgbNode → List XgbNode
  | .leaf _ _ _ => []
  | .split _ _ _ _ _ _ _ _ _ c => c

/-- Number of nodes of a dump. -/
def XgbNode.size : XgbNode → Nat
  | .leaf _ _ _ => 1
  | .split _ _ _ _ _ _ _ _ _ c => 1 + go c
where
  /-- sizes of the children -/
  go : List XgbNode → Nat
    | [] => 0
    | x :: l => x.size + go l

/-- The loop of `_xgboost_tree_to_nodes` (`__init__.py` 87-97): breadth first with a queue. -/
def xgbLoop (f : XgbNode → PyNode) : Nat → List XgbNode → List PyNode
  | _, [] => []
  | 0, _ :: _ => []
  | n + 1, x :: buffer => f x :: xgbLoop f n (buffer ++ x.children)

/-- `_xgboost_tree_to_nodes` (`__init__.py` 84-108): `sorted` is stable; misaligned numbers raise. -/
def xgboostTreeToNodes (rnd : Rat → Rat) (fmap : PyDict String Nat) (t : XgbNode) :
    Except PyErr (List PyNode) :=
  let l := (xgbLoop (fromXgboostNode rnd fmap) t.size [t]).insertionSort fun a b => a.num ≤ b.num
  if l.map PyNode.num = List.range l.length then .ok l else .error .valueError

/-- The feature map of `_from_xgboost_model` (`__init__.py` 120-124). -/
def xgbFeatureMap (names : Option (List String)) : PyDict String Nat :=
  match names with
  | none => []
  | some l => pyDict l.zipIdx

end Verif
