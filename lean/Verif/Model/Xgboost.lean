import Verif.Model.PyBooster

/-!
# Import of a whole XGBoost model (`py-forust/forust/__init__.py`)
-/

namespace Verif

open scoped Verif

section
variable {F D : Type} [Fl F] [Fl D] [FlCast F D]

/-- The keyword defaults of `__init__` (`__init__.py` 289-325); `sys.maxsize` is `2^63 - 1`. -/
def pyDefaults : PyParams D :=
  { objectiveType := "LogLoss", iterations := 100, learningRate := Fl.ofNat 3 / Fl.ofNat 10, maxDepth := 5
    maxLeaves := 2 ^ 63 - 1, l1 := 0, l2 := 1, gamma := 0, maxDeltaStep := 0, minLeafWeight := 1
    baseScore := Fl.ofNat 5 / Fl.ofNat 10, nbins := 256, parallel := true, allowMissingSplits := true
    monotoneConstraints := none, subsample := 1, topRate := Fl.ofNat 1 / Fl.ofNat 10
    otherRate := Fl.ofNat 2 / Fl.ofNat 10, colsampleBytree := 1, seed := 0, missing := Fl.nan
    createMissingBranch := false, sampleMethod := none, growPolicy := "DepthWise", evaluationMetric := none
    earlyStoppingRounds := none, initializeBaseScore := true, terminateMissingFeatures := none
    missingNodeTreatment := "None", logIterations := 0, featureImportanceMethod := "Gain"
    forceChildrenToBoundParent := false }

/-- How decimal numbers of a document are read: as `f32`, as `f64`, and the rational value of
`float(np.float32(..))`. -/
structure XgbNums (F D : Type) where
  /-- read as `f32` -/
  toF : Rat → F
  /-- read as `f64` -/
  toD : Rat → D
  /-- `float(np.float32(..))` -/
  rnd : Rat → Rat

omit [Fl F] [Fl D] [FlCast F D] in
/-- The node the crate reads from the JSON of a Python node (`dataclasses.asdict`, `__init__.py` 91-94, and
src/node.rs 44-60). -/
def PyNode.toNode (N : XgbNums F D) (p : PyNode) : Node F D :=
  { num := p.num, weightValue := N.toF p.weightValue, hessianSum := N.toF p.hessianSum, depth := p.depth
    splitValue := N.toD p.splitValue, splitFeature := p.splitFeature, splitGain := N.toF p.splitGain
    missingNode := p.missingNode, leftChild := p.leftChild, rightChild := p.rightChild, isLeaf := p.isLeaf }

/-- What is read of an XGBoost model (`__init__.py` 111-138). -/
structure XgbModel (D : Type) where
  /-- an `XGBModel`, with the method `get_booster`, and not a `Booster` -/
  wrapper : Bool
  /-- `get_dump` -/
  dump : List XgbNode
  /-- `feature_names` -/
  names : Option (List String)
  /-- `base_score` of the configuration -/
  baseScore : D
  /-- name of the objective -/
  objective : String

omit [Fl F] [Fl D] [FlCast F D] in
/-- `model_json[name] = j` for a key that is present. -/
def jsonSet (name : String) (j : Json F D) : Json F D → Json F D
  | .obj l => .obj (l.map fun p => if p.1 = name then (name, j) else p)
  | x => x

/-- `_from_xgboost_model` (`__init__.py` 111-155).  The configuration is read from `model.get_booster()`
(line 136), which a `Booster` does not have.  `json.dumps` writes a number that is not finite as `NaN` or
`Infinity`; the crate refuses those, as it refuses the `null` written here. -/
def fromXgboostModel (J : PyJson) (N : XgbNums F D) (m : XgbModel D) : Except PyErr (PyBooster F D) := do
  let trees ← pyMap (fun t => xgboostTreeToNodes N.rnd (xgbFeatureMap m.names) t) m.dump
  if m.wrapper = true then
    let base := if m.objective = "binary:logistic" then Fl.ln (m.baseScore / (1 - m.baseScore)) else m.baseScore
    let d : PyBooster F D ← pyNew J pyDefaults
    let j := jsonSet "base_score" (Json.ofF64 base) d.booster.jsonDump
    let j := jsonSet "trees" (.arr (trees.map fun l =>
      encTree ({ nodes := l.map (PyNode.toNode N) } : Tree F D))) j
    let o : PyBooster F D ← pyNew J pyDefaults
    let b ← crateLoad j
    .ok (match m.names with
      | none => { o with booster := b }
      | some l => { o with booster := b, featureNames := some l, nFeatures := some l.length })
  else .error .valueError

end

end Verif
