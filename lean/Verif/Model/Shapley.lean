import Verif.Model.Contrib

/-!
# Shapley contributions (`src/shapley.rs`)
-/

namespace Verif

open scoped Verif

/-- `PathElement` (src/shapley.rs 4-10). -/
structure PathElement (F : Type) where
  /-- feature -/
  feature : Nat
  /-- fraction of cover that follows the path when the feature is unknown -/
  zero : F
  /-- fraction that follows it when the feature is known -/
  one : F
  /-- permutation weight -/
  pweight : F
  deriving DecidableEq, Repr

section
variable {F D : Type} [Fl F]

/-- `PathElement::default` (src/shapley.rs 12-21). -/
def PathElement.default : PathElement F := { feature := 0, zero := 0, one := 0, pweight := 0 }

/-- `get_element` (src/shapley.rs 29-37): reading one past the end pushes a default element. -/
def getEl (p : List (PathElement F)) (i : Nat) : Res (PathElement F × List (PathElement F)) :=
  if i = p.length then .ok (PathElement.default, p ++ [PathElement.default])
  else do
    let e ← idx p i
    .ok (e, p)

/-- `get_element_mut` followed by an update (src/shapley.rs 38-46). -/
def modEl (p : List (PathElement F)) (i : Nat) (f : PathElement F → PathElement F) :
    Res (List (PathElement F)) := do
  let (e, p) ← getEl p i
  .ok (p.set i (f e))

/-- Loop of `extend_path` (src/shapley.rs 70-77); the argument counts `i + 1` down to 0. -/
def extendLoop (depth : Nat) (zero one : F) : Nat → List (PathElement F) →
    Res (List (PathElement F))
  | 0, p => .ok p
  | i + 1, p => do
    let (e, p) ← getEl p i
    let add := (one * e.pweight * Fl.ofNat (i + 1)) / Fl.ofNat (depth + 1)
    let p ← modEl p (i + 1) fun e => { e with pweight := e.pweight + add }
    let (e, p) ← getEl p i
    let w := (zero * e.pweight * Fl.ofNat (depth - i)) / Fl.ofNat (depth + 1)
    let p ← modEl p i fun e => { e with pweight := w }
    extendLoop depth zero one i p

/-- `extend_path` (src/shapley.rs 59-78). -/
def extendPath (p : List (PathElement F)) (depth : Nat) (zero one : F) (feature : Nat) :
    Res (List (PathElement F)) := do
  let p ← modEl p depth fun _ =>
    { feature, zero, one, pweight := if depth = 0 then 1 else 0 }
  extendLoop depth zero one depth p

/-- First loop of `unwind_path` (src/shapley.rs 84-97). -/
def unwindLoop (depth : Nat) (zero one : F) : Nat → F → List (PathElement F) →
    Res (List (PathElement F))
  | 0, _, p => .ok p
  | i + 1, next, p => do
    let (e, p) ← getEl p i
    if !(one =ᶠ 0) then do
      let w := (next * Fl.ofNat (depth + 1)) / (Fl.ofNat (i + 1) * one)
      let p ← modEl p i fun e => { e with pweight := w }
      let next := e.pweight - (w * zero * Fl.ofNat (depth - i)) / Fl.ofNat (depth + 1)
      unwindLoop depth zero one i next p
    else do
      let w := (e.pweight * Fl.ofNat (depth + 1)) / (zero * Fl.ofNat (depth - i))
      let p ← modEl p i fun e => { e with pweight := w }
      unwindLoop depth zero one i next p

/-- Second loop of `unwind_path` (src/shapley.rs 98-102): shift features and fractions, not weights. -/
def shiftLoop : Nat → Nat → List (PathElement F) → Res (List (PathElement F))
  | 0, _, p => .ok p
  | n + 1, i, p => do
    let (e, p) ← getEl p (i + 1)
    let p ← modEl p i fun d => { d with feature := e.feature, zero := e.zero, one := e.one }
    shiftLoop n (i + 1) p

/-- `unwind_path` (src/shapley.rs 80-103). -/
def unwindPath (p : List (PathElement F)) (depth pathIndex : Nat) :
    Res (List (PathElement F)) := do
  let (e, p) ← getEl p pathIndex
  let (l, p) ← getEl p depth
  let p ← unwindLoop depth e.zero e.one depth l.pweight p
  shiftLoop (depth - pathIndex) pathIndex p

/-- Loop of `unwound_path_sum` (src/shapley.rs 110-123). -/
def unwoundLoop (depth : Nat) (zero one : F) : Nat → F → F → List (PathElement F) → Res F
  | 0, _, total, _ => .ok total
  | i + 1, next, total, p =>
    if !(one =ᶠ 0) then do
      let tmp := (next * Fl.ofNat (depth + 1)) / (Fl.ofNat (i + 1) * one)
      let total := total + tmp
      let (e, p) ← getEl p i
      let next := e.pweight - tmp * zero * (Fl.ofNat (depth - i) / Fl.ofNat (depth + 1))
      unwoundLoop depth zero one i next total p
    else if !(zero =ᶠ 0) then do
      let (e, p) ← getEl p i
      let total := total + (e.pweight / zero) / (Fl.ofNat (depth - i) / Fl.ofNat (depth + 1))
      unwoundLoop depth zero one i next total p
    else do
      let (e, p) ← getEl p i
      if !(e.pweight =ᶠ 0) then .panic
      else unwoundLoop depth zero one i next total p

/-- `unwound_path_sum` (src/shapley.rs 105-125).  (The path it may extend by reading is discarded;
all its reads are in range, see `Proofs.TreeShap`.) -/
def unwoundPathSum (p : List (PathElement F)) (depth pathIndex : Nat) : Res F := do
  let (e, p) ← getEl p pathIndex
  let (l, p) ← getEl p depth
  unwoundLoop depth e.zero e.one depth l.pweight 0 p

omit [Fl F] in
/-- `get_hot_cold_children` (src/shapley.rs 127-142). -/
def hotColdChildren (next : Nat) (node : Node F D) : List Nat :=
  if node.hasMissingBranch then
    if next = node.rightChild then [node.rightChild, node.leftChild, node.missingNode]
    else if next = node.leftChild then [node.leftChild, node.rightChild, node.missingNode]
    else [node.missingNode, node.leftChild, node.rightChild]
  else if next = node.rightChild then [node.rightChild, node.leftChild]
  else [node.leftChild, node.rightChild]

/-- Loop over the path elements at a leaf (src/shapley.rs 166-171). -/
def leafContribs [Fl D] [FlCast F D] (p : List (PathElement F)) (depth : Nat) (value : F) :
    Nat → Nat → List D → Res (List D)
  | 0, _, c => .ok c
  | n + 1, i, c => do
    let w ← unwoundPathSum p depth i
    let (el, _) ← getEl p i
    let c ← addAt c el.feature (up (w * (el.one - el.zero) * value))
    leafContribs p depth value n (i + 1) c

omit [Fl F] in
/-- Search for the feature on the path (src/shapley.rs 178-184): the first position at most `depth`
with the feature, or `depth + 1`. -/
def findOnPath (p : List (PathElement F)) (depth feature : Nat) : Nat → Nat → Res Nat
  | 0, i => .ok i
  | n + 1, i =>
    if i ≤ depth then do
      let e ← idx p i
      if e.feature = feature then .ok i else findOnPath p depth feature n (i + 1)
    else .ok i

/-- `tree_shap` (src/shapley.rs 145-211); the inner loop over the children is `goChildren`. -/
def treeShap [Fl D] [FlCast F D] (nodes : List (Node F D)) (row : List D) (missing : D) :
    Nat → Nat → Nat → List (PathElement F) → F → F → Nat → List D → Res (List D)
  | 0, _, _, _, _, _, _, _ => .diverge
  | fuel + 1, nodeIndex, depth, path, pz, po, pf, contribs => do
    let node ← idx nodes nodeIndex
    let path ← extendPath path depth pz po pf
    if node.isLeaf then leafContribs path depth node.weightValue depth 1 contribs
    else do
      let v ← idx row node.splitFeature
      let next ← node.getChildIdx v missing
      let children := hotColdChildren next node
      let k ← findOnPath path depth node.splitFeature (depth + 1) 0
      let (iz, io, path, depth) ←
        if k ≠ depth + 1 then do
          let (e, path) ← getEl path k
          let path ← unwindPath path depth k
          pure (e.zero, e.one, path, depth - 1)
        else pure (1, 1, path, depth)
      Res.foldM' (fun (contribs : List D) (ci : Nat × Nat) => do
        let c ← idx nodes ci.1
        let z := (c.hessianSum / node.hessianSum) * iz
        let o := if ci.2 = 0 then io else 0
        treeShap nodes row missing fuel ci.1 (depth + 1) path z o node.splitFeature contribs)
        contribs children.zipIdx

/-- `predict_contributions_row_shapley` (src/shapley.rs 213-232). -/
def Tree.contribShapley [Fl D] [FlCast F D] (t : Tree F D) (row contribs : List D) (missing : D) :
    Res (List D) := do
  let avg ← averageLeafWeights t.nodes t.nodes.length 0
  let contribs ← addBias contribs avg
  treeShap t.nodes row missing t.nodes.length 0 0 [] 1 1 (row.length + 100) contribs

end

end Verif
