import Verif.Props.Additive
import Verif.Props.Auc
import Verif.Props.AverageBalance
import Verif.Props.AverageLeaf
import Verif.Props.AverageShapley
import Verif.Props.Balance
import Verif.Props.BinWeights
import Verif.Props.Binning
import Verif.Props.BinningFloat
import Verif.Props.Boosting
import Verif.Props.BoundParent
import Verif.Props.Builder
import Verif.Props.ColumnOrder
import Verif.Props.Contrib
import Verif.Props.Copies
import Verif.Props.Cover
import Verif.Props.DefaultMetric
import Verif.Props.Drawn
import Verif.Props.Dump
import Verif.Props.DumpFaithful
import Verif.Props.ErrorText
import Verif.Props.ExactCovers
import Verif.Props.Explained
import Verif.Props.ExtraColumn
import Verif.Props.Files
import Verif.Props.FinitePredict
import Verif.Props.FullGrowth
import Verif.Props.FullRate
import Verif.Props.Gamma
import Verif.Props.GammaBudget
import Verif.Props.GossMean
import Verif.Props.Growth
import Verif.Props.Helpers
import Verif.Props.Histograms
import Verif.Props.IdleSettings
import Verif.Props.Importance
import Verif.Props.Increasing
import Verif.Props.Interactions
import Verif.Props.Json
import Verif.Props.JsonText
import Verif.Props.LabelSwap
import Verif.Props.Larger
import Verif.Props.LastSet
import Verif.Props.Layout
import Verif.Props.LeafBudget
import Verif.Props.LearningRate
import Verif.Props.Leaves
import Verif.Props.Limits
import Verif.Props.Log
import Verif.Props.LogLossDescent
import Verif.Props.Matrices
import Verif.Props.MetricError
import Verif.Props.Metrics
import Verif.Props.Mirror
import Verif.Props.Missing
import Verif.Props.MissingNeutral
import Verif.Props.MissingSplits
import Verif.Props.Monotone
import Verif.Props.MonotoneDependence
import Verif.Props.MonotoneFloat
import Verif.Props.Nested
import Verif.Props.NoMissing
import Verif.Props.Objective
import Verif.Props.OneClass
import Verif.Props.Parallel
import Verif.Props.ParallelFit
import Verif.Props.PartialDependence
import Verif.Props.Partition
import Verif.Props.PctTop
import Verif.Props.Policies
import Verif.Props.PowerOfTwo
import Verif.Props.Predict
import Verif.Props.ProbabilityPath
import Verif.Props.PyDependence
import Verif.Props.PyFrame
import Verif.Props.PyMethod
import Verif.Props.PyNames
import Verif.Props.PyOutputs
import Verif.Props.PyRefit
import Verif.Props.PyStore
import Verif.Props.PyWarnings
import Verif.Props.Python
import Verif.Props.Quantised
import Verif.Props.Range
import Verif.Props.Ranking
import Verif.Props.Reach
import Verif.Props.Recode
import Verif.Props.Restart
import Verif.Props.RoundError
import Verif.Props.RowSlice
import Verif.Props.Sampling
import Verif.Props.Scaling
import Verif.Props.SelectColumns
import Verif.Props.Serialize
import Verif.Props.Settled
import Verif.Props.Shapley
import Verif.Props.ShapleyBound
import Verif.Props.ShapleyMonotone
import Verif.Props.Shift
import Verif.Props.Shrink
import Verif.Props.SignedZero
import Verif.Props.Splits
import Verif.Props.SquaredLoss
import Verif.Props.SquaredLossGain
import Verif.Props.StepLimit
import Verif.Props.StepLimitFloat
import Verif.Props.StepWise
import Verif.Props.Stump
import Verif.Props.Sums
import Verif.Props.Termination
import Verif.Props.Text
import Verif.Props.TopRate
import Verif.Props.Total
import Verif.Props.TotalAny
import Verif.Props.TotalGain
import Verif.Props.Unused
import Verif.Props.Usize
import Verif.Props.Validation
import Verif.Props.ValueError
import Verif.Props.WeightAverage
import Verif.Props.Weights
import Verif.Props.Xgboost

/-!
# Axioms of every property theorem
-/

#print axioms Verif.C01_booster
#print axioms Verif.C01_cover
#print axioms Verif.C01_leaf
#print axioms Verif.C02_value
#print axioms Verif.C03_predict_stops
#print axioms Verif.C03_well_formed
#print axioms Verif.C04_depth
#print axioms Verif.C05_max_leaves
#print axioms Verif.C06_counterexample
#print axioms Verif.C06_max_leaves_partial
#print axioms Verif.C07_min_leaf_weight
#print axioms Verif.C08_gain
#print axioms Verif.C08_gamma
#print axioms Verif.C09_booster
#print axioms Verif.C09_float
#print axioms Verif.C09_float_tree
#print axioms Verif.C09_tree
#print axioms Verif.C100_children
#print axioms Verif.C100_children_tree
#print axioms Verif.C100_counts
#print axioms Verif.C100_covers
#print axioms Verif.C100_sharp
#print axioms Verif.C100_tree
#print axioms Verif.C101_bound
#print axioms Verif.C101_tree
#print axioms Verif.C101_values
#print axioms Verif.C102_base
#print axioms Verif.C102_evaluation
#print axioms Verif.C102_fewer
#print axioms Verif.C102_predict
#print axioms Verif.C102_prefix
#print axioms Verif.C103_constant
#print axioms Verif.C103_constraint
#print axioms Verif.C103_copy
#print axioms Verif.C103_predict
#print axioms Verif.C104_contributions
#print axioms Verif.C104_dependence
#print axioms Verif.C104_fitted
#print axioms Verif.C104_importance
#print axioms Verif.C104_predict
#print axioms Verif.C104_zero
#print axioms Verif.C105_dependence
#print axioms Verif.C105_fit
#print axioms Verif.C105_predict
#print axioms Verif.C106_allowed
#print axioms Verif.C106_counterexample
#print axioms Verif.C106_present_partial
#print axioms Verif.C106_tree_partial
#print axioms Verif.C107_candidate
#print axioms Verif.C107_left_present
#print axioms Verif.C107_witness
#print axioms Verif.C108_booster
#print axioms Verif.C108_cut
#print axioms Verif.C108_leaves
#print axioms Verif.C109_booster_partial
#print axioms Verif.C109_counterexample
#print axioms Verif.C109_cut_partial
#print axioms Verif.C109_refused
#print axioms Verif.C10_booster
#print axioms Verif.C10_tree
#print axioms Verif.C110_constant
#print axioms Verif.C110_perfect
#print axioms Verif.C110_ranking
#print axioms Verif.C110_reverse
#print axioms Verif.C110_rounded
#print axioms Verif.C110_swap
#print axioms Verif.C111_below
#print axioms Verif.C111_below_counterexample
#print axioms Verif.C111_dependence
#print axioms Verif.C111_floor
#print axioms Verif.C111_step
#print axioms Verif.C111_value
#print axioms Verif.C112_accuracy
#print axioms Verif.C112_contributions
#print axioms Verif.C112_fitted
#print axioms Verif.C112_prediction
#print axioms Verif.C112_training_counterexample
#print axioms Verif.C113_entries
#print axioms Verif.C113_fit
#print axioms Verif.C113_order
#print axioms Verif.C113_predict
#print axioms Verif.C113_same
#print axioms Verif.C114_additive
#print axioms Verif.C114_columns
#print axioms Verif.C114_interaction
#print axioms Verif.C114_leaf
#print axioms Verif.C114_stump
#print axioms Verif.C115_base_score
#print axioms Verif.C115_nbins
#print axioms Verif.C115_sampling
#print axioms Verif.C115_seed
#print axioms Verif.C115_settings
#print axioms Verif.C116_scaled
#print axioms Verif.C116_second
#print axioms Verif.C116_single
#print axioms Verif.C116_structure
#print axioms Verif.C116_weights
#print axioms Verif.C117_fit
#print axioms Verif.C117_order
#print axioms Verif.C117_others
#print axioms Verif.C118_constant
#print axioms Verif.C118_constant_mean
#print axioms Verif.C118_perfect
#print axioms Verif.C118_rounded_mean
#print axioms Verif.C118_settled
#print axioms Verif.C118_tree
#print axioms Verif.C119_counterexample
#print axioms Verif.C119_fit_partial
#print axioms Verif.C119_frame
#print axioms Verif.C119_predict
#print axioms Verif.C119_rejected
#print axioms Verif.C119_vector
#print axioms Verif.C11_booster_partial
#print axioms Verif.C11_counterexample
#print axioms Verif.C11_tree_partial
#print axioms Verif.C120_counterexample
#print axioms Verif.C120_leaf_limit
#print axioms Verif.C120_partial
#print axioms Verif.C120_tree_partial
#print axioms Verif.C121_document
#print axioms Verif.C121_injective
#print axioms Verif.C121_round_trip
#print axioms Verif.C121_trailing
#print axioms Verif.C121_truncated
#print axioms Verif.C122_leaf
#print axioms Verif.C122_mean
#print axioms Verif.C122_missing_branch
#print axioms Verif.C122_shrink
#print axioms Verif.C122_total
#print axioms Verif.C123_l1
#print axioms Verif.C123_l1_squared
#print axioms Verif.C123_min_leaf_weight
#print axioms Verif.C124_byte_order_mark
#print axioms Verif.C124_cut
#print axioms Verif.C124_history
#print axioms Verif.C124_injective
#print axioms Verif.C124_round_trip
#print axioms Verif.C124_trailing
#print axioms Verif.C125_evaluated
#print axioms Verif.C125_no_influence
#print axioms Verif.C125_plain
#print axioms Verif.C125_silent
#print axioms Verif.C126_agrees
#print axioms Verif.C126_other_factors
#print axioms Verif.C126_predict
#print axioms Verif.C126_product
#print axioms Verif.C126_range
#print axioms Verif.C126_targets
#print axioms Verif.C126_weights
#print axioms Verif.C127_fit
#print axioms Verif.C127_missing
#print axioms Verif.C127_split_value
#print axioms Verif.C128_bin_zero
#print axioms Verif.C128_fit
#print axioms Verif.C128_shapley
#print axioms Verif.C128_total
#print axioms Verif.C129_distinct
#print axioms Verif.C129_fit
#print axioms Verif.C129_new
#print axioms Verif.C129_no_alarm
#print axioms Verif.C129_parameter
#print axioms Verif.C12_path
#print axioms Verif.C12_weight_sum
#print axioms Verif.C130_exact
#print axioms Verif.C130_float
#print axioms Verif.C131_clear
#print axioms Verif.C131_fit
#print axioms Verif.C131_same
#print axioms Verif.C132_fit
#print axioms Verif.C132_history
#print axioms Verif.C132_init
#print axioms Verif.C132_no_l2
#print axioms Verif.C132_save
#print axioms Verif.C133_additive
#print axioms Verif.C133_fitted
#print axioms Verif.C133_game
#print axioms Verif.C133_interaction
#print axioms Verif.C133_known
#print axioms Verif.C133_unknown
#print axioms Verif.C134_equal
#print axioms Verif.C134_fall
#print axioms Verif.C134_logistic
#print axioms Verif.C134_rate
#print axioms Verif.C134_total
#print axioms Verif.C135_logistic
#print axioms Verif.C135_squared
#print axioms Verif.C136_balance
#print axioms Verif.C136_count
#print axioms Verif.C137_after_fit
#print axioms Verif.C137_after_fit_case
#print axioms Verif.C137_ignored
#print axioms Verif.C137_order
#print axioms Verif.C137_sets
#print axioms Verif.C137_used
#print axioms Verif.C138_bins
#print axioms Verif.C138_exists
#print axioms Verif.C138_fit
#print axioms Verif.C138_predict
#print axioms Verif.C139_initial_score
#print axioms Verif.C139_rows
#print axioms Verif.C139_targets
#print axioms Verif.C139_tree
#print axioms Verif.C13_average_sum
#print axioms Verif.C140_exact
#print axioms Verif.C140_rounded
#print axioms Verif.C140_sharp
#print axioms Verif.C140_single
#print axioms Verif.C141_fit
#print axioms Verif.C141_rounded
#print axioms Verif.C142_fit
#print axioms Verif.C142_rounded
#print axioms Verif.C143_f64
#print axioms Verif.C143_overflow
#print axioms Verif.C143_perfect
#print axioms Verif.C143_rmse
#print axioms Verif.C144_bound
#print axioms Verif.C144_fitted
#print axioms Verif.C145_booster_partial
#print axioms Verif.C145_counterexample
#print axioms Verif.C146_average
#print axioms Verif.C146_bias
#print axioms Verif.C146_fitted
#print axioms Verif.C146_single
#print axioms Verif.C147_bound
#print axioms Verif.C147_path
#print axioms Verif.C148_balance
#print axioms Verif.C148_tree
#print axioms Verif.C149_average
#print axioms Verif.C149_difference
#print axioms Verif.C149_probability
#print axioms Verif.C149_weight
#print axioms Verif.C14_logistic
#print axioms Verif.C14_other_objectives
#print axioms Verif.C14_probability_sum
#print axioms Verif.C150_balance
#print axioms Verif.C150_contributions
#print axioms Verif.C150_nodes
#print axioms Verif.C151_predict
#print axioms Verif.C151_trees
#print axioms Verif.C152_gain
#print axioms Verif.C152_root
#print axioms Verif.C152_weight
#print axioms Verif.C153_root
#print axioms Verif.C153_value
#print axioms Verif.C153_weight
#print axioms Verif.C154_percentiles
#print axioms Verif.C154_print
#print axioms Verif.C154_round
#print axioms Verif.C155_levels
#print axioms Verif.C155_no_weight
#print axioms Verif.C155_twice
#print axioms Verif.C15_fitted
#print axioms Verif.C15_shapley_sum
#print axioms Verif.C16_shapley
#print axioms Verif.C17_row_independence
#print axioms Verif.C17_row_selection
#print axioms Verif.C17_row_slice
#print axioms Verif.C17_row_slice_value
#print axioms Verif.C18_contributions
#print axioms Verif.C18_fit
#print axioms Verif.C18_flag
#print axioms Verif.C18_histogram
#print axioms Verif.C18_leaf_indices
#print axioms Verif.C18_partial_dependence
#print axioms Verif.C18_partial_dependence_rounding
#print axioms Verif.C18_predict
#print axioms Verif.C19_prediction_iteration
#print axioms Verif.C19_prefix
#print axioms Verif.C19_too_many
#print axioms Verif.C20_early_stopping
#print axioms Verif.C20_no_evaluation
#print axioms Verif.C20_no_rounds
#print axioms Verif.C21_history
#print axioms Verif.C21_none
#print axioms Verif.C22_gradients
#print axioms Verif.C23_again
#print axioms Verif.C23_refit
#print axioms Verif.C24_bad_input
#print axioms Verif.C24_good_input
#print axioms Verif.C25_constructor
#print axioms Verif.C26_load
#print axioms Verif.C26_required
#print axioms Verif.C26_round_trip
#print axioms Verif.C27_counterexample_auc
#print axioms Verif.C27_counterexample_base
#print axioms Verif.C27_loads_iff_partial
#print axioms Verif.C27_missing_lost
#print axioms Verif.C28_counterexample
#print axioms Verif.C28_cuts
#print axioms Verif.C28_missing_float_partial
#print axioms Verif.C28_missing_partial
#print axioms Verif.C29_no_bins
#print axioms Verif.C29_range
#print axioms Verif.C29_resolution
#print axioms Verif.C29_too_many
#print axioms Verif.C29_too_many_example
#print axioms Verif.C30_binary
#print axioms Verif.C30_binary_one_sided
#print axioms Verif.C30_ternary
#print axioms Verif.C30_ternary_one_sided
#print axioms Verif.C31_direct
#print axioms Verif.C31_order
#print axioms Verif.C31_subtract
#print axioms Verif.C31_subtract_two
#print axioms Verif.C32_fit
#print axioms Verif.C32_goss
#print axioms Verif.C32_random
#print axioms Verif.C33_columns
#print axioms Verif.C33_histograms
#print axioms Verif.C34_no_contribution
#print axioms Verif.C34_parent_value
#print axioms Verif.C35_contributions
#print axioms Verif.C35_parent_value
#print axioms Verif.C35_tree
#print axioms Verif.C36_average
#print axioms Verif.C37_missing_leaf
#print axioms Verif.C37_no_missing_rows
#print axioms Verif.C38_average
#print axioms Verif.C38_average_partial
#print axioms Verif.C38_booster_partial
#print axioms Verif.C38_ignored
#print axioms Verif.C38_panic
#print axioms Verif.C38_tree_partial
#print axioms Verif.C39_between
#print axioms Verif.C39_booster
#print axioms Verif.C39_mixture
#print axioms Verif.C39_only
#print axioms Verif.C39_unused
#print axioms Verif.C40_importance
#print axioms Verif.C40_normalized
#print axioms Verif.C41_mann_whitney
#print axioms Verif.C41_order
#print axioms Verif.C42_log_odds
#print axioms Verif.C42_mean
#print axioms Verif.C43_derivatives
#print axioms Verif.C44_booster
#print axioms Verif.C44_depth_wise
#print axioms Verif.C44_loss_guide
#print axioms Verif.C44_same_predictions
#print axioms Verif.C45_percentiles
#print axioms Verif.C46_fast_f64_sum
#print axioms Verif.C46_fast_f64_sum_finite
#print axioms Verif.C46_fast_sum
#print axioms Verif.C46_fast_sum_finite
#print axioms Verif.C46_naive_sum
#print axioms Verif.C46_rounded
#print axioms Verif.C46_rounded_f64
#print axioms Verif.C47_leaf_indices
#print axioms Verif.C47_sum_of_leaves
#print axioms Verif.C48_binning
#print axioms Verif.C48_fit
#print axioms Verif.C48_nan_missing
#print axioms Verif.C48_predict
#print axioms Verif.C49_booster
#print axioms Verif.C49_depth_limit
#print axioms Verif.C49_leaf_limit
#print axioms Verif.C49_tree
#print axioms Verif.C50_best
#print axioms Verif.C50_fitted
#print axioms Verif.C50_missing_side
#print axioms Verif.C50_none
#print axioms Verif.C51_dump
#print axioms Verif.C51_text
#print axioms Verif.C52_average_counterexample
#print axioms Verif.C52_counterexample
#print axioms Verif.C52_gain_partial
#print axioms Verif.C52_loss_partial
#print axioms Verif.C53_constrained
#print axioms Verif.C53_gain
#print axioms Verif.C53_weight
#print axioms Verif.C54_json
#print axioms Verif.C54_metadata
#print axioms Verif.C54_only_metadata
#print axioms Verif.C54_unknown_key
#print axioms Verif.C55_all_columns_partial
#print axioms Verif.C55_counterexample
#print axioms Verif.C55_some_columns
#print axioms Verif.C56_counterexample
#print axioms Verif.C56_features_partial
#print axioms Verif.C56_no_names
#print axioms Verif.C56_positions
#print axioms Verif.C57_append_panics
#print axioms Verif.C57_append_read_back
#print axioms Verif.C57_append_rows
#print axioms Verif.C57_column_major_views
#print axioms Verif.C58_counterexample
#print axioms Verif.C58_empty_evals_never_succeeds
#print axioms Verif.C58_no_iterations_partial
#print axioms Verif.C59_bias
#print axioms Verif.C59_difference
#print axioms Verif.C59_untested
#print axioms Verif.C60_arrays_partial
#print axioms Verif.C60_lost
#print axioms Verif.C61_fit_shift
#print axioms Verif.C61_init
#print axioms Verif.C61_predict_shift
#print axioms Verif.C62_fit
#print axioms Verif.C62_logLoss
#print axioms Verif.C62_predict
#print axioms Verif.C62_squaredLoss
#print axioms Verif.C63_dependence
#print axioms Verif.C63_fit
#print axioms Verif.C63_increasing
#print axioms Verif.C63_invariant
#print axioms Verif.C63_predict
#print axioms Verif.C64_contributions
#print axioms Verif.C64_history
#print axioms Verif.C64_leaf_indices
#print axioms Verif.C64_rows_sum
#print axioms Verif.C65_load
#print axioms Verif.C65_pickle
#print axioms Verif.C65_refit
#print axioms Verif.C66_set_params_partial
#print axioms Verif.C66_stale
#print axioms Verif.C67_changed
#print axioms Verif.C67_failed_fit_partial
#print axioms Verif.C68_array_partial
#print axioms Verif.C68_duplicate
#print axioms Verif.C68_names_partial
#print axioms Verif.C68_stale
#print axioms Verif.C69_converse
#print axioms Verif.C69_refit
#print axioms Verif.C70_array
#print axioms Verif.C70_frame
#print axioms Verif.C71_booster_partial
#print axioms Verif.C71_counterexample
#print axioms Verif.C71_plot_partial
#print axioms Verif.C71_tree_partial
#print axioms Verif.C72_copies
#print axioms Verif.C72_row_order
#print axioms Verif.C73_integer_weights
#print axioms Verif.C74_counterexample
#print axioms Verif.C74_zero_weight_partial
#print axioms Verif.C75_constructor
#print axioms Verif.C75_default
#print axioms Verif.C75_last_call
#print axioms Verif.C75_order
#print axioms Verif.C75_unchecked
#print axioms Verif.C75_unset
#print axioms Verif.C76_by_name
#print axioms Verif.C76_samples
#print axioms Verif.C76_sentinel
#print axioms Verif.C76_total
#print axioms Verif.C76_unique
#print axioms Verif.C77_fit
#print axioms Verif.C77_predict
#print axioms Verif.C78_counterexample
#print axioms Verif.C78_reached_partial
#print axioms Verif.C79_counterexample
#print axioms Verif.C79_initialised_partial
#print axioms Verif.C79_range_partial
#print axioms Verif.C80_all_constrained
#print axioms Verif.C80_booster
#print axioms Verif.C80_tree
#print axioms Verif.C81_contributions
#print axioms Verif.C81_f64
#print axioms Verif.C81_fitted
#print axioms Verif.C81_prediction
#print axioms Verif.C82_fit
#print axioms Verif.C82_predict
#print axioms Verif.C82_sqrt
#print axioms Verif.C83_fit
#print axioms Verif.C83_predict
#print axioms Verif.C83_unconverted
#print axioms Verif.C84_fit
#print axioms Verif.C84_predict
#print axioms Verif.C85_fit
#print axioms Verif.C85_probability
#print axioms Verif.C86_columns
#print axioms Verif.C86_shape
#print axioms Verif.C86_write
#print axioms Verif.C87_false
#print axioms Verif.C87_partial
#print axioms Verif.C88_display
#print axioms Verif.C88_items
#print axioms Verif.C88_metric
#print axioms Verif.C88_numbers
#print axioms Verif.C89_default
#print axioms Verif.C89_early_stopping
#print axioms Verif.C89_history
#print axioms Verif.C90_false
#print axioms Verif.C90_partial
#print axioms Verif.C90_rejected
#print axioms Verif.C91_false
#print axioms Verif.C91_gain_partial
#print axioms Verif.C91_plain_partial
#print axioms Verif.C92_logLoss
#print axioms Verif.C92_no_weight
#print axioms Verif.C92_rmse
#print axioms Verif.C92_rmsle
#print axioms Verif.C93_logLoss
#print axioms Verif.C93_squaredLoss
#print axioms Verif.C94_booster_partial
#print axioms Verif.C94_false
#print axioms Verif.C94_leaf_partial
#print axioms Verif.C95_rounds
#print axioms Verif.C95_rows
#print axioms Verif.C95_values
#print axioms Verif.C95_xor
#print axioms Verif.C96_base
#print axioms Verif.C96_fields
#print axioms Verif.C96_model
#print axioms Verif.C96_tree
#print axioms Verif.C97_double
#print axioms Verif.C97_link
#print axioms Verif.C97_native
#print axioms Verif.C97_predict_partial
#print axioms Verif.C97_total
#print axioms Verif.C98_bias
#print axioms Verif.C98_few
#print axioms Verif.C98_goss
#print axioms Verif.C98_over
#print axioms Verif.C98_random
#print axioms Verif.C98_unbiased
#print axioms Verif.C99_array
#print axioms Verif.C99_changed
#print axioms Verif.C99_int
#print axioms Verif.C99_quote
#print axioms Verif.C99_string_iff
#print axioms Verif.C99_string_partial
