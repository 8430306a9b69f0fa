import Verif.Model.Node

/-!
# Splitters (`src/splitter.rs`)
-/

namespace Verif

open scoped Verif

/-- `MissingNodeTreatment` (src/gradientbooster.rs 70-80). -/
inductive MissingNodeTreatment where
  | none
  | assignToParent
  | averageLeafWeight
  | averageNodeWeight
  deriving DecidableEq, Repr

/-- Fields shared by the two splitters (`MissingImputerSplitter`, src/splitter.rs 721-730). -/
structure SplitParams (F : Type) where
  /-- L1 penalty -/
  l1 : F
  /-- L2 penalty -/
  l2 : F
  /-- bound on the weight, 0 for none -/
  maxDeltaStep : F
  /-- minimal split gain -/
  gamma : F
  /-- minimal cover of a child -/
  minLeafWeight : F
  /-- step size -/
  learningRate : F
  /-- allow splits on missingness -/
  allowMissingSplits : Bool
  /-- monotone constraints -/
  constraintsMap : ConstraintMap

/-- Additional fields of `MissingBranchSplitter` (src/splitter.rs 248-260). -/
structure BranchParams (F : Type) extends SplitParams F where
  /-- features whose missing branch is never split -/
  terminateMissingFeatures : List Nat
  /-- value of missing branches -/
  missingNodeTreatment : MissingNodeTreatment
  /-- keep the parent's value between the children's -/
  forceChildrenToBoundParent : Bool

/-- The two implementations of the trait `Splitter`. -/
inductive Splitter (F : Type) where
  | imputer (p : SplitParams F)
  | branch (p : BranchParams F)

/-- Shared parameters. -/
def Splitter.params {F : Type} : Splitter F → SplitParams F
  | imputer p => p
  | branch p => p.toSplitParams

/-- `new_leaves_added` as `Tree::fit` calls it.  The trait default is 1 (src/splitter.rs 47-49);
`MissingBranchSplitter` has an *inherent* method of the same name returning 2 (src/splitter.rs
263-265), which does not override the trait method, and `Tree::fit` is generic over `T: Splitter`,
so the trait method is the one that runs for both splitters. -/
def Splitter.newLeavesAdded {F : Type} (_ : Splitter F) : Nat := 1

/-- The inherent method (src/splitter.rs 263-265), not called by `Tree::fit`. -/
def MissingBranchSplitter.newLeavesAdded {F : Type} (_ : BranchParams F) : Nat := 2

/-- `get_constraint` (src/splitter.rs 324-326, 759-761). -/
def SplitParams.getConstraint {F : Type} (p : SplitParams F) (feature : Nat) : Option Constraint :=
  p.constraintsMap.lookup feature

section
variable {F D : Type} [Fl F]

/-- Arguments of `evaluate_split` (src/splitter.rs 87-100). -/
structure SplitArgs (F : Type) where
  /-- left gradient -/
  lg : F
  /-- left hessian -/
  lh : F
  /-- right gradient -/
  rg : F
  /-- right hessian -/
  rh : F
  /-- missing gradient -/
  mg : F
  /-- missing hessian -/
  mh : F
  /-- lower bound -/
  lower : F
  /-- upper bound -/
  upper : F
  /-- value of the node being split -/
  parentWeight : F
  /-- constraint of the feature -/
  constraint : Option Constraint

/-- `constrained_weight` with the splitter's parameters and the bounds of the call. -/
def SplitParams.cw (p : SplitParams F) (a : SplitArgs F) (g h : F) : F :=
  constrainedWeight p.l1 p.l2 p.maxDeltaStep g h a.lower a.upper a.constraint

/-- `NodeInfo` with the placeholder bounds (src/splitter.rs 479-492). -/
def mkInfo (grad gain cover weight : F) : NodeInfo F :=
  { grad, gain, cover, weight, lower := ninf, upper := inf }

/-- `MissingImputerSplitter::evaluate_split` (src/splitter.rs 783-946). -/
def imputerEvaluateSplit (p : SplitParams F) (a : SplitArgs F) :
    Option (NodeInfo F × NodeInfo F × MissingInfo F) :=
  if ((a.lg =ᶠ 0 && a.lh =ᶠ 0) || (a.rg =ᶠ 0 && a.rh =ᶠ 0)) && !p.allowMissingSplits then none
  else
    let lw := p.cw a a.lg a.lh
    let rw := p.cw a a.rg a.rh
    let lgain := gainGivenWeight p.l2 a.lg a.lh lw
    let rgain := gainGivenWeight p.l2 a.rg a.rh rw
    if !p.allowMissingSplits && (a.rh <ᶠ p.minLeafWeight || a.lh <ᶠ p.minLeafWeight) then none
    else
      let (lg, lh, lgain, lw, rg, rh, rgain, rw, info) :=
        if !(a.mg =ᶠ 0) || !(a.mh =ᶠ 0) then
          let mlw := p.cw a (a.lg + a.mg) (a.lh + a.mh)
          let mlg := gainGivenWeight p.l2 (a.lg + a.mg) (a.lh + a.mh) mlw
          let mlg := cullGain mlg mlw rw a.constraint
          let mrw := p.cw a (a.rg + a.mg) (a.rh + a.mh)
          let mrg := gainGivenWeight p.l2 (a.rg + a.mg) (a.rh + a.mh) mrw
          let mrg := cullGain mrg lw mrw a.constraint
          if (mrg - rgain) <ᶠ (mlg - lgain) then
            (a.lg + a.mg, a.lh + a.mh, mlg, mlw, a.rg, a.rh, rgain, rw, MissingInfo.left)
          else
            (a.lg, a.lh, lgain, lw, a.rg + a.mg, a.rh + a.mh, mrg, mrw, MissingInfo.right)
        else (a.lg, a.lh, lgain, lw, a.rg, a.rh, rgain, rw, MissingInfo.right)
      if rh <ᶠ p.minLeafWeight || lh <ᶠ p.minLeafWeight then none
      else some (mkInfo lg lgain lh lw, mkInfo rg rgain rh rw, info)

/-- The weight of the missing branch (src/splitter.rs 411-446). -/
def branchMissingWeight (p : BranchParams F) (a : SplitArgs F) (lw rw : F) : F :=
  match p.missingNodeTreatment with
  | .assignToParent => p.cw a (a.mg + a.lg + a.rg) (a.mh + a.lh + a.rh)
  | .averageLeafWeight => (rw * a.rh + lw * a.lh) / (a.rh + a.lh)
  | .averageNodeWeight => (rw * a.rh + lw * a.lh) / (a.rh + a.lh)
  | .none => if a.mh =ᶠ 0 || a.mg =ᶠ 0 then a.parentWeight else p.cw a a.mg a.mh

/-- The left and right weights, bounded to the parent when requested (src/splitter.rs 368-395); the
two `assert!`s may panic. -/
def branchChildWeights (p : BranchParams F) (a : SplitArgs F) : Res (F × F) :=
  let lw := p.cw a a.lg a.lh
  let rw := p.cw a a.rg a.rh
  if p.forceChildrenToBoundParent then do
    let (lw, rw) := boundToParent a.parentWeight lw rw
    Res.assert (between a.lower a.upper lw)
    Res.assert (between a.lower a.upper rw)
    .ok (lw, rw)
  else .ok (lw, rw)

/-- `MissingBranchSplitter::evaluate_split` (src/splitter.rs 347-495). -/
def branchEvaluateSplit (p : BranchParams F) (a : SplitArgs F) :
    Res (Option (NodeInfo F × NodeInfo F × MissingInfo F)) :=
  if (a.lg =ᶠ 0 && a.lh =ᶠ 0) || (a.rg =ᶠ 0 && a.rh =ᶠ 0) then .ok none
  else do
    let (lw, rw) ← branchChildWeights p a
    let lgain := gainGivenWeight p.l2 a.lg a.lh lw
    let rgain := gainGivenWeight p.l2 a.rg a.rh rw
    if a.rh <ᶠ p.minLeafWeight || a.lh <ᶠ p.minLeafWeight then .ok none
    else
      let mw := branchMissingWeight p a lw rw
      let mgain := gainGivenWeight p.l2 a.mg a.mh mw
      let info : NodeInfo F :=
        { grad := a.mg, gain := mgain, cover := a.mh, weight := mw
          lower := a.lower, upper := a.upper }
      let mnode :=
        if (!(a.mg =ᶠ 0) || !(a.mh =ᶠ 0)) && p.allowMissingSplits then MissingInfo.branch info
        else MissingInfo.leaf info
      .ok (some (mkInfo a.lg lgain a.lh lw, mkInfo a.rg rgain a.rh rw, mnode))

/-- Dispatch of `evaluate_split`. -/
def Splitter.evaluateSplit (s : Splitter F) (a : SplitArgs F) :
    Res (Option (NodeInfo F × NodeInfo F × MissingInfo F)) :=
  match s with
  | .imputer p => .ok (imputerEvaluateSplit p a)
  | .branch p => branchEvaluateSplit p a

/-- Bounds of the two children (src/splitter.rs 167-176). -/
def childBounds (constraint : Option Constraint) (lower upper mid : F) : (F × F) × (F × F) :=
  match constraint with
  | none => ((lower, upper), (lower, upper))
  | some .unconstrained => ((lower, upper), (lower, upper))
  | some .negative => ((mid, upper), (lower, mid))
  | some .positive => ((lower, mid), (mid, upper))

/-- One candidate of `best_feature_split`: evaluation, score, and bounds (src/splitter.rs 126-181).
Returns `none` when the candidate is skipped. -/
def evalCandidate (s : Splitter F) (node : SNode F D) (feature : Nat) (constraint : Option Constraint)
    (missing bin : Bin F D) (i : Nat) (cg ch : F) : Res (Option (SplitInfo F D)) := do
  let r ← s.evaluateSplit
    { lg := cg, lh := ch
      rg := node.gradientSum - cg - missing.grad, rh := node.hessianSum - ch - missing.hess
      mg := missing.grad, mh := missing.hess
      lower := node.lowerBound, upper := node.upperBound, parentWeight := node.weightValue
      constraint }
  match r with
  | none => .ok none
  | some (l, r, m) =>
    let g := node.getSplitGain l r m s.params.gamma
    let g := cullGain g l.weight r.weight constraint
    if g ≤ᶠ 0 then .ok none
    else
      let mid := (l.weight + r.weight) / Fl.ofNat 2
      let b := childBounds constraint node.lowerBound node.upperBound mid
      let g := if isNaN g then 0 else g
      .ok (some
        { splitGain := g, splitFeature := feature, splitValue := bin.cut
          splitBin := (i + 1) % 65536
          leftNode := { l with lower := b.1.1, upper := b.1.2 }
          rightNode := { r with lower := b.2.1, upper := b.2.2 }
          missingNode := m })

/-- The loop of `best_feature_split` (src/splitter.rs 121-197); `best` is `split_info`, whose
`split_gain` is `max_gain`. -/
def bestFeatureLoop (s : Splitter F) (node : SNode F D) (feature : Nat)
    (constraint : Option Constraint) (missing : Bin F D) :
    List (Bin F D) → Nat → F → F → Option (SplitInfo F D) → Res (Option (SplitInfo F D))
  | [], _, _, _, best => .ok best
  | bin :: l, i, cg, ch, best => do
    let c ← evalCandidate s node feature constraint missing bin i cg ch
    let best := match c with
      | none => best
      | some c =>
        match best with
        | none => some c
        | some b => if b.splitGain <ᶠ c.splitGain then some c else some b
    bestFeatureLoop s node feature constraint missing l (i + 1) (cg + bin.grad) (ch + bin.hess) best

/-- `best_feature_split` (src/splitter.rs 104-199). -/
def bestFeatureSplit (s : Splitter F) (node : SNode F D) (feature idx : Nat) :
    Res (Option (SplitInfo F D)) := do
  let histogram ← node.histograms.getCol idx
  match histogram with
  | [] => .panic
  | missing :: bins =>
    bestFeatureLoop s node feature (s.params.getConstraint feature) missing bins 0 0 0 none

/-- The loop of `best_split` (src/splitter.rs 70-81). -/
def bestSplitLoop (s : Splitter F) (node : SNode F D) :
    List Nat → Nat → F → Option (SplitInfo F D) → Res (Option (SplitInfo F D))
  | [], _, _, best => .ok best
  | f :: l, idx, bestGain, best => do
    let r ← bestFeatureSplit s node f idx
    match r with
    | some info =>
      if bestGain <ᶠ info.splitGain then bestSplitLoop s node l (idx + 1) info.splitGain (some info)
      else bestSplitLoop s node l (idx + 1) bestGain best
    | none => bestSplitLoop s node l (idx + 1) bestGain best

/-- `best_split` (src/splitter.rs 67-83). -/
def bestSplit (s : Splitter F) (node : SNode F D) (colIndex : List Nat) :
    Res (Option (SplitInfo F D)) :=
  bestSplitLoop s node colIndex 0 0 none

end

/-- What training reads: binned data, cuts, gradients, hessians and the columns in use. -/
structure TrainData (F D : Type) where
  /-- binned data -/
  data : Matrix Nat
  /-- cut values -/
  cuts : JaggedMatrix D
  /-- gradients -/
  grad : List F
  /-- hessians -/
  hess : List F
  /-- columns in use -/
  colIndex : List Nat

section handle
variable {F D : Type} [Fl F] [Fl D] [FlCast F D]

/-- `HistogramMatrix::new` on the rows `index[i..j]`, sorted. -/
def TrainData.hist (t : TrainData F D) (index : List Nat) (i j : Nat) :
    Res (JaggedMatrix (Bin F D)) := do
  let rows ← slice index i j
  histogramMatrix t.data t.cuts t.grad t.hess rows t.colIndex true

omit [Fl F] [Fl D] [FlCast F D] in
/-- Write the permuted rows back into `index[i..j]`. -/
def writeBack (index : List Nat) (i j : Nat) (rows : List Nat) : List Nat :=
  index.take i ++ rows ++ index.drop j

omit [Fl F] [Fl D] [FlCast F D] in
/-- Does a binary split send missing rows right (src/splitter.rs 964-968)? -/
def MissingInfo.goesRight : MissingInfo F → Res Bool
  | .left => .ok false
  | .right => .ok true
  | _ => .panic

/-- `MissingImputerSplitter::handle_split_info` (src/splitter.rs 948-1046).  Returns the updated
node, the updated row index and the new nodes. -/
def imputerHandle (t : TrainData F D) (info : SplitInfo F D) (nNodes : Nat) (node : SNode F D)
    (index : List Nat) : Res (SNode F D × List Nat × List (SNode F D)) := do
  let leftChild := nNodes
  let rightChild := leftChild + 1
  let missingRight ← info.missingNode.goesRight
  let rows ← slice index node.startIdx node.stopIdx
  let feature ← t.data.getCol info.splitFeature
  let (rows, split) ← pivotOnSplit rows feature info.splitBin missingRight
  let index := writeBack index node.startIdx node.stopIdx rows
  let total := node.stopIdx - node.startIdx
  let nRight := total - split
  let nLeft := total - nRight
  let splitIdx := split + node.startIdx
  let (lh, rh) ←
    if nLeft < nRight then do
      let lh ← t.hist index node.startIdx splitIdx
      pure (lh, histFromParentChild node.histograms lh)
    else do
      let rh ← t.hist index splitIdx node.stopIdx
      pure (histFromParentChild node.histograms rh, rh)
  let missingChild := if missingRight then rightChild else leftChild
  let node' := node.updateChildren missingChild leftChild rightChild info
  let l := SNode.fromNodeInfo leftChild lh (node.depth + 1) node.startIdx splitIdx info.leftNode
  let r := SNode.fromNodeInfo rightChild rh (node.depth + 1) splitIdx node.stopIdx info.rightNode
  .ok (node', index, [l, r])

omit [Fl F] [Fl D] [FlCast F D] in
/-- Index of the last maximum of `[n_missing, n_left, n_right]` (`max_by` returns the last of equal
maxima, src/splitter.rs 552-562). -/
def maxOf3 (nMissing nLeft nRight : Nat) : Nat :=
  if nMissing ≤ nRight ∧ nLeft ≤ nRight then 2
  else if nMissing ≤ nLeft then 1
  else 0

/-- The three child histograms of a ternary split (src/splitter.rs 570-683). -/
def branchHists (t : TrainData F D) (node : SNode F D) (index : List Nat)
    (nMissing nLeft nRight missingSplit split : Nat) :
    Res (JaggedMatrix (Bin F D) × JaggedMatrix (Bin F D) × JaggedMatrix (Bin F D)) :=
  let mx := maxOf3 nMissing nLeft nRight
  if nMissing = 0 then
    if mx = 1 then do
      let rh ← t.hist index split node.stopIdx
      .ok (JaggedMatrix.empty, histFromParentChild node.histograms rh, rh)
    else do
      let lh ← t.hist index missingSplit split
      .ok (JaggedMatrix.empty, lh, histFromParentChild node.histograms lh)
  else if mx = 0 then do
    let lh ← t.hist index missingSplit split
    let rh ← t.hist index split node.stopIdx
    .ok (histFromParentTwoChildren node.histograms lh rh, lh, rh)
  else if mx = 1 then do
    let mh ← t.hist index node.startIdx missingSplit
    let rh ← t.hist index split node.stopIdx
    .ok (mh, histFromParentTwoChildren node.histograms mh rh, rh)
  else do
    let mh ← t.hist index node.startIdx missingSplit
    let lh ← t.hist index missingSplit split
    .ok (mh, lh, histFromParentTwoChildren node.histograms mh lh)

omit [Fl F] [Fl D] [FlCast F D] in
/-- Is the missing child of a ternary split a leaf, and its record (src/splitter.rs 511-528)? -/
def BranchParams.missingChild (p : BranchParams F) (info : SplitInfo F D) : Res (Bool × NodeInfo F) :=
  match info.missingNode with
  | .branch i => .ok (p.terminateMissingFeatures.contains info.splitFeature, i)
  | .leaf i => .ok (true, i)
  | _ => .panic

/-- `MissingBranchSplitter::handle_split_info` (src/splitter.rs 497-714).  The unsigned subtractions
of lines 547-548 underflow when the boundaries are out of order, which needs a split bin of 0; the
model follows a build with overflow checks and panics. -/
def branchHandle (p : BranchParams F) (t : TrainData F D) (info : SplitInfo F D) (nNodes : Nat)
    (node : SNode F D) (index : List Nat) :
    Res (SNode F D × List Nat × List (SNode F D)) := do
  let missingChild := nNodes
  let leftChild := missingChild + 1
  let rightChild := missingChild + 2
  let node' := node.updateChildren missingChild leftChild rightChild info
  let (isLeaf, minfo) ← p.missingChild info
  let minfo := if p.missingNodeTreatment = .assignToParent then
      { minfo with weight := node.weightValue } else minfo
  let rows ← slice index node.startIdx node.stopIdx
  let feature ← t.data.getCol info.splitFeature
  let (rows, mSplit, split) ← pivotOnSplitExcludeMissing rows feature info.splitBin
  let index := writeBack index node.startIdx node.stopIdx rows
  let total := node.stopIdx - node.startIdx
  Res.assert (decide (mSplit ≤ split ∧ split ≤ total))
  let nRight := total - split
  let nLeft := total - nRight - mSplit
  let nMissing := total - (nRight + nLeft)
  let splitIdx := split + node.startIdx
  let missingSplitIdx := mSplit + node.startIdx
  let (mh, lh, rh) ← branchHists t node index nMissing nLeft nRight missingSplitIdx splitIdx
  let isLeaf := isLeaf || decide (nMissing = 0)
  let m := { SNode.fromNodeInfo missingChild mh (node.depth + 1) node.startIdx missingSplitIdx minfo
    with isMissingLeaf := isLeaf }
  let l := SNode.fromNodeInfo leftChild lh (node.depth + 1) missingSplitIdx splitIdx info.leftNode
  let r := SNode.fromNodeInfo rightChild rh (node.depth + 1) splitIdx node.stopIdx info.rightNode
  .ok (node', index, [m, l, r])

/-- `split_node` (src/splitter.rs 222-240).  Returns the (possibly updated) node, the row index and
the new nodes (none for a leaf). -/
def splitNode (s : Splitter F) (t : TrainData F D) (nNodes : Nat) (node : SNode F D)
    (index : List Nat) : Res (SNode F D × List Nat × List (SNode F D)) := do
  let best ← bestSplit s node t.colIndex
  match best with
  | none => .ok (node, index, [])
  | some info =>
    match s with
    | .imputer _ => imputerHandle t info nNodes node index
    | .branch p => branchHandle p t info nNodes node index

end handle

end Verif
