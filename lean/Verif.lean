import Verif.Num
import Verif.Model.Parallel
import Verif.Model.Serde
import Verif.Model.Python
import Verif.Props.Matrices
import Verif.Props.Sums
import Verif.Props.Predict
import Verif.Props.Contrib
import Verif.Props.Validation
import Verif.Props.Json
import Verif.Props.Parallel
import Verif.Props.Missing
import Verif.Props.Python
import Verif.Props.Dump
import Verif.Props.Importance
import Verif.Props.PartialDependence
import Verif.Props.Partition
import Verif.Props.Growth
import Verif.Props.Splits
import Verif.Props.Binning
import Verif.Props.Histograms
import Verif.Props.Boosting
import Verif.Props.Sampling
import Verif.Props.Weights
import Verif.Props.Cover
import Verif.Props.Termination
import Verif.Props.Policies
import Verif.Props.StepLimit
import Verif.Props.AverageLeaf
import Verif.Props.Monotone
import Verif.Props.BoundParent
import Verif.Props.Objective
import Verif.Props.Auc
import Verif.Props.SquaredLoss
import Verif.Props.Shapley
import Verif.Props.Explained
import Verif.Props.Shift
import Verif.Props.Total
import Verif.Proofs.RelateContrib
import Verif.Props.Increasing
import Verif.Model.PyBooster
import Verif.Spec.PyBooster
import Verif.Spec.ExamplePy
import Verif.Proofs.PyBooster
import Verif.Proofs.ContribLength
import Verif.Props.PyOutputs
import Verif.Props.PyStore
import Verif.Props.PyRefit
import Verif.Props.PyNames
import Verif.Props.PyFrame
import Verif.Props.MonotoneDependence
import Verif.Props.Copies
import Verif.Props.Builder
import Verif.Props.PyDependence
import Verif.Spec.Ieee
import Verif.Proofs.Ieee
import Verif.Proofs.TotalAny
import Verif.Proofs.Rounds
import Verif.Spec.ExampleFloat
import Verif.Props.TotalAny
import Verif.Props.Range
import Verif.Props.MonotoneFloat
import Verif.Props.SquaredLossGain
import Verif.Proofs.RoundError
import Verif.Props.RoundError
import Verif.Props.StepLimitFloat
import Verif.Props.Scaling
import Verif.Props.Mirror
import Verif.Props.LabelSwap
import Verif.Props.Text
import Verif.Props.DefaultMetric
import Verif.Props.RowSlice
import Verif.Props.PyMethod
import Verif.Props.LogLossDescent
import Verif.Props.Metrics
import Verif.Props.Leaves
import Verif.Props.FullGrowth
import Verif.Props.DumpFaithful
import Verif.Props.Xgboost
import Verif.Props.GossMean
import Verif.Props.Serialize
import Verif.Props.ExactCovers
import Verif.Props.ValueError
import Verif.Props.Nested
import Verif.Props.ExtraColumn
import Verif.Props.Unused
import Verif.Props.Recode
import Verif.Props.BinningFloat
import Verif.Props.MissingSplits
import Verif.Props.Limits
import Verif.Props.Gamma
import Verif.Proofs.AucFloat
import Verif.Props.Ranking
import Verif.Model.ParallelFit
import Verif.Proofs.Flag
import Verif.Props.ParallelFit
import Verif.Spec.StepWise
import Verif.Proofs.SameSides
import Verif.Props.StepWise
import Verif.Props.FinitePredict
import Verif.Spec.SelectColumns
import Verif.Proofs.SelectGrow
import Verif.Proofs.SelectCol
import Verif.Proofs.SelectFit
import Verif.Props.SelectColumns
import Verif.Props.Interactions
import Verif.Spec.Idle
import Verif.Proofs.Idle
import Verif.Props.IdleSettings
import Verif.Spec.LearningRate
import Verif.Proofs.LearningRate
import Verif.Props.LearningRate
import Verif.Props.LastSet
import Verif.Proofs.ZeroGrad
import Verif.Props.Settled
import Verif.Model.PyArrays
import Verif.Props.Layout
import Verif.Proofs.NoMissing
import Verif.Proofs.NoMissingFit
import Verif.Props.NoMissing
import Verif.Model.JsonText
import Verif.Proofs.JsonText
import Verif.Proofs.JsonRender
import Verif.Proofs.JsonTyped
import Verif.Spec.ExampleText
import Verif.Props.JsonText
import Verif.Proofs.Balance
import Verif.Props.Balance
import Verif.Proofs.Stump
import Verif.Props.Stump
import Verif.Model.Files
import Verif.Proofs.Files
import Verif.Props.Files
import Verif.Model.Log
import Verif.Proofs.Log
import Verif.Props.Log
import Verif.Spec.PowerOfTwo
import Verif.Proofs.PowerOfTwo
import Verif.Props.PowerOfTwo
import Verif.Spec.SignedZero
import Verif.Props.SignedZero
import Verif.Model.Usize
import Verif.Proofs.Usize
import Verif.Props.Usize
import Verif.Model.ErrorText
import Verif.Props.ErrorText
import Verif.Props.Reach
import Verif.Spec.ColumnOrder
import Verif.Proofs.ColumnOrder
import Verif.Props.ColumnOrder
import Verif.Props.OneClass
import Verif.Props.Additive
import Verif.Props.TotalGain
import Verif.Props.GammaBudget
import Verif.Props.BinWeights
import Verif.Model.PyWarnings
import Verif.Props.PyWarnings
import Verif.Spec.Quantised
import Verif.Proofs.Quantised
import Verif.Props.Quantised
import Verif.Spec.Drawn
import Verif.Proofs.Drawn
import Verif.Props.Drawn
import Verif.Props.LeafBudget
import Verif.Proofs.FullRate
import Verif.Props.FullRate
import Verif.Proofs.TopRate
import Verif.Props.TopRate
import Verif.Proofs.MetricError
import Verif.Props.MetricError
import Verif.Props.ShapleyBound
import Verif.Props.ShapleyMonotone
import Verif.Spec.MeanPath
import Verif.Props.AverageShapley
import Verif.Spec.ProbPath
import Verif.Props.ProbabilityPath
import Verif.Props.AverageBalance
import Verif.Props.MissingNeutral
import Verif.Props.WeightAverage
import Verif.Props.Restart
import Verif.Props.Shrink
import Verif.Props.Larger
import Verif.Model.Helpers
import Verif.Props.Helpers
import Verif.Props.PctTop
import Verif.Audit
