import Verif.Spec.RatFmt
import Verif.Model.Booster

/-!
# A small model used in examples
-/

namespace Verif

/-- A leaf. -/
def exLeaf (num depth : Nat) (w cover : ℚ) : Node Q Q :=
  { num, weightValue := q w, hessianSum := q cover, depth, splitValue := q 0, splitFeature := 0
    splitGain := q 0, missingNode := 0, leftChild := 0, rightChild := 0, isLeaf := true }

/-- An internal node. -/
def exSplit (num depth : Nat) (w cover : ℚ) (feature : Nat) (value gain : ℚ) (m l r : Nat) :
    Node Q Q :=
  { num, weightValue := q w, hessianSum := q cover, depth, splitValue := q value
    splitFeature := feature, splitGain := q gain, missingNode := m, leftChild := l, rightChild := r
    isLeaf := false }

/-- A tree with a binary split above a ternary one. -/
def exTree : Tree Q Q :=
  { nodes := [exSplit 0 0 (1/2) 10 0 2 7 1 1 2, exSplit 1 1 (1/4) 6 1 5 3 3 4 5, exLeaf 2 1 2 4
              , exLeaf 3 2 (-1) 1, exLeaf 4 2 1 2, exLeaf 5 2 3 3] }

/-- A tree with one split. -/
def exTree2 : Tree Q Q :=
  { nodes := [exSplit 0 0 0 10 1 4 2 2 1 2, exLeaf 1 1 (-1/3) 5, exLeaf 2 1 (1/3) 5] }

/-- A booster with the two trees. -/
def exBooster : Booster Q Q :=
  { objectiveType := .logLoss, iterations := 2, learningRate := q (1/2), maxDepth := 2, maxLeaves := 8
    l1 := q 0, l2 := q 1, gamma := q 0, maxDeltaStep := q 0, minLeafWeight := q 1
    baseScore := q (1/2), nbins := 16, parallel := true, allowMissingSplits := true
    monotoneConstraints := some [(0, .positive), (1, .unconstrained)], subsample := q 1
    topRate := q (1/10), otherRate := q (1/5), colsampleBytree := q 1, seed := 7, missing := FX.nan
    createMissingBranch := true, sampleMethod := .none, growPolicy := .depthWise
    evaluationMetric := none, earlyStoppingRounds := none, initializeBaseScore := false
    terminateMissingFeatures := [1], evaluationHistory := none, bestIteration := none
    predictionIteration := none, missingNodeTreatment := .assignToParent, logIterations := 0
    forceChildrenToBoundParent := false, trees := [exTree, exTree2], metadata := [("k", "v")] }

/-- Three rows, two columns. -/
def exData : Matrix Q := { data := [q 1, q 3, FX.nan, q 7, q 1, FX.nan], rows := 3, cols := 2 }

end Verif
