{
 "claims": [
  {
   "property": "C01",
   "status": "proved",
   "theorems": [
    "Verif.C01_booster",
    "Verif.C01_cover",
    "Verif.C01_leaf"
   ],
   "note": "Exact arithmetic. For every tree of every fitted booster, every sampling method, grow policy and both splitters; the gradients and hessians of the sample are assumed finite, the present values at most the largest finite number."
  },
  {
   "property": "C02",
   "status": "proved",
   "theorems": [
    "Verif.C02_value"
   ],
   "note": "Exact arithmetic. force_children_to_bound_parent must be false; with AverageLeafWeight the claim is about leaves, since the clean-up overwrites internal nodes."
  },
  {
   "property": "C03",
   "status": "proved",
   "theorems": [
    "Verif.C03_predict_stops",
    "Verif.C03_well_formed"
   ],
   "note": "Any arithmetic; every fit that succeeds. Prediction stops at a leaf for every row (NaN panic as in C48)."
  },
  {
   "property": "C04",
   "status": "proved",
   "theorems": [
    "Verif.C04_depth"
   ],
   "note": "Any arithmetic."
  },
  {
   "property": "C05",
   "status": "proved",
   "theorems": [
    "Verif.C05_max_leaves"
   ],
   "note": "Any arithmetic."
  },
  {
   "property": "C06",
   "status": "partial",
   "theorems": [
    "Verif.C06_counterexample",
    "Verif.C06_max_leaves_partial"
   ],
   "note": "The claim is false of the code (C06_counterexample, a concrete fit with 3 leaves for max_leaves 2). C06_max_leaves_partial proves max(1, max_leaves + 1) for all fits."
  },
  {
   "property": "C07",
   "status": "proved",
   "theorems": [
    "Verif.C07_min_leaf_weight"
   ],
   "note": "Any arithmetic: the stored cover is not below min_leaf_weight (so also for NaN)."
  },
  {
   "property": "C08",
   "status": "proved",
   "theorems": [
    "Verif.C08_gain",
    "Verif.C08_gamma"
   ],
   "note": "Arithmetic with the laws Fl.GainLaws (true of IEEE-754 and of exact arithmetic); the gain formula is in C08_gain."
  },
  {
   "property": "C09",
   "status": "proved",
   "theorems": [
    "Verif.C09_booster",
    "Verif.C09_float",
    "Verif.C09_float_tree",
    "Verif.C09_tree"
   ],
   "note": "C09_tree, C09_booster: exact arithmetic, finite data and parameters, no division by zero (l2 > 0, or no sampling and a positive weight); both splitters, all treatments, any constraints. C09_float_tree, C09_float: any rounding arithmetic (f32/f64 among them) and any data, for every finite node value, when missing branches are not averaged; the limit is the rounded product max_delta_step * learning_rate."
  },
  {
   "property": "C10",
   "status": "proved",
   "theorems": [
    "Verif.C10_booster",
    "Verif.C10_tree"
   ],
   "note": "C10_tree, C10_booster: rows differing in one constrained feature (both values present) have ordered predictions whenever every split feature is constrained; both splitters and all parameters of a fit on finite data."
  },
  {
   "property": "C11",
   "status": "partial",
   "theorems": [
    "Verif.C11_booster_partial",
    "Verif.C11_counterexample",
    "Verif.C11_tree_partial"
   ],
   "note": "The claim is false: C11_counterexample exhibits a fit whose predictions decrease in a Positive feature, because bounds are not applied at a split on an unconstrained feature. C11_tree_partial and C11_booster_partial prove it when all splits below constrained splits are constrained."
  },
  {
   "property": "C12",
   "status": "proved",
   "theorems": [
    "Verif.C12_path",
    "Verif.C12_weight_sum"
   ],
   "note": "Exact arithmetic, any model with finite node values; success of predict is the only other hypothesis."
  },
  {
   "property": "C13",
   "status": "proved",
   "theorems": [
    "Verif.C13_average_sum"
   ],
   "note": "Exact arithmetic; trees well formed (C03), covers finite and non-zero at internal nodes."
  },
  {
   "property": "C14",
   "status": "proved",
   "theorems": [
    "Verif.C14_logistic",
    "Verif.C14_other_objectives",
    "Verif.C14_probability_sum"
   ],
   "note": "Exact arithmetic; any function that odds computes; C14_logistic instantiates it with the real logistic function. Other objectives panic."
  },
  {
   "property": "C15",
   "status": "proved",
   "theorems": [
    "Verif.C15_fitted",
    "Verif.C15_shapley_sum"
   ],
   "note": "Exact arithmetic. For well-formed trees with finite values and covers that are not zero at internal nodes, and rows whose tested entries can be read; a feature may be tested any number of times on a path. Follows from C16 and the efficiency of the Shapley value (shapley_efficient)."
  },
  {
   "property": "C16",
   "status": "proved",
   "theorems": [
    "Verif.C16_shapley"
   ],
   "note": "Exact arithmetic. The model of extend_path, unwind_path, unwound_path_sum and tree_shap is shown to compute the Shapley values of the game given by CondExp (Spec/Shapley.lean), summed over the trees used; the bias is the base score plus the expectations with nothing known."
  },
  {
   "property": "C17",
   "status": "proved",
   "theorems": [
    "Verif.C17_row_independence",
    "Verif.C17_row_selection",
    "Verif.C17_row_slice",
    "Verif.C17_row_slice_value"
   ],
   "note": "Any arithmetic."
  },
  {
   "property": "C18",
   "status": "proved",
   "theorems": [
    "Verif.C18_contributions",
    "Verif.C18_fit",
    "Verif.C18_flag",
    "Verif.C18_histogram",
    "Verif.C18_leaf_indices",
    "Verif.C18_partial_dependence",
    "Verif.C18_partial_dependence_rounding",
    "Verif.C18_predict"
   ],
   "note": "Any arithmetic. The parts that use rayon are compared on success; training as a whole (C18_fit, C18_flag) likewise, for every division of the histogram columns and every order of the row writes at every node of every tree. Partial dependence needs associative addition; C18_partial_dependence_rounding shows that f64 does not have it and that the value depends on the division."
  },
  {
   "property": "C19",
   "status": "proved",
   "theorems": [
    "Verif.C19_prediction_iteration",
    "Verif.C19_prefix",
    "Verif.C19_too_many"
   ],
   "note": "Any arithmetic."
  },
  {
   "property": "C20",
   "status": "proved",
   "theorems": [
    "Verif.C20_early_stopping",
    "Verif.C20_no_evaluation",
    "Verif.C20_no_rounds"
   ],
   "note": "Any arithmetic whose comparisons satisfy OrdLaws (IEEE does); NaN metrics are beaten by every number. Without evaluation sets all iterations run."
  },
  {
   "property": "C21",
   "status": "proved",
   "theorems": [
    "Verif.C21_history",
    "Verif.C21_none"
   ],
   "note": "Any arithmetic whose comparisons satisfy OrdLaws. A booster without trees but with a history (hand-edited file) is excluded."
  },
  {
   "property": "C22",
   "status": "proved",
   "theorems": [
    "Verif.C22_gradients"
   ],
   "note": "Any arithmetic."
  },
  {
   "property": "C23",
   "status": "proved",
   "theorems": [
    "Verif.C23_again",
    "Verif.C23_refit"
   ],
   "note": "Any booster with trees, and any fresh booster fitted before. A booster without trees on which prediction_iteration was set by hand keeps that setting, so it is not called fitted here."
  },
  {
   "property": "C24",
   "status": "proved",
   "theorems": [
    "Verif.C24_bad_input",
    "Verif.C24_good_input"
   ],
   "note": "Any arithmetic; fit errors iff BadInput, and then returns the booster it was given."
  },
  {
   "property": "C25",
   "status": "proved",
   "theorems": [
    "Verif.C25_constructor"
   ],
   "note": "Any arithmetic in which nothing exceeds infinity (true of IEEE and of FX)."
  },
  {
   "property": "C26",
   "status": "proved",
   "theorems": [
    "Verif.C26_load",
    "Verif.C26_required",
    "Verif.C26_round_trip"
   ],
   "note": "Any arithmetic, at the level of JSON trees: any member order, unknown members, removed defaulted members; other members are required."
  },
  {
   "property": "C27",
   "status": "partial",
   "theorems": [
    "Verif.C27_counterexample_auc",
    "Verif.C27_counterexample_base",
    "Verif.C27_loads_iff_partial",
    "Verif.C27_missing_lost"
   ],
   "note": "The claim is false of the code: two fitted witnesses that cannot be loaded. C27_loads_iff_partial: exactly the boosters with finite floats (missing aside) load; C27_missing_lost."
  },
  {
   "property": "C28",
   "status": "partial",
   "theorems": [
    "Verif.C28_counterexample",
    "Verif.C28_cuts",
    "Verif.C28_missing_float_partial",
    "Verif.C28_missing_partial"
   ],
   "note": "Cut points and the comparison clause (C28_cuts): any arithmetic with an ordered comparison, finite data. 'Bin 0 only for missing' is false when all weights are zero and there are more than nbins+1 values (C28_counterexample); it is proved when the column has a non-missing value with positive weight, for exact arithmetic (C28_missing_partial) and with rounding, f64 included (C28_missing_float_partial)."
  },
  {
   "property": "C29",
   "status": "proved",
   "theorems": [
    "Verif.C29_no_bins",
    "Verif.C29_range",
    "Verif.C29_resolution",
    "Verif.C29_too_many",
    "Verif.C29_too_many_example"
   ],
   "note": "Resolution, range, and both panics (nbins = 0, nbins = 65535), each also on concrete data."
  },
  {
   "property": "C30",
   "status": "proved",
   "theorems": [
    "Verif.C30_binary",
    "Verif.C30_binary_one_sided",
    "Verif.C30_ternary",
    "Verif.C30_ternary_one_sided"
   ],
   "note": "Both pivot functions, with and without a row on the right; the three-way one needs a split bin above 0 (bin 0 is the missing bin)."
  },
  {
   "property": "C31",
   "status": "proved",
   "theorems": [
    "Verif.C31_direct",
    "Verif.C31_order",
    "Verif.C31_subtract",
    "Verif.C31_subtract_two"
   ],
   "note": "Exact arithmetic (sums are associative), finite gradients; direct histograms, order of rows, and both subtractions."
  },
  {
   "property": "C32",
   "status": "proved",
   "theorems": [
    "Verif.C32_fit",
    "Verif.C32_goss",
    "Verif.C32_random"
   ],
   "note": "Any arithmetic; the GOSS ranking needs total_cmp to be a total preorder."
  },
  {
   "property": "C33",
   "status": "proved",
   "theorems": [
    "Verif.C33_columns",
    "Verif.C33_histograms"
   ],
   "note": "Any arithmetic whose comparisons satisfy OrdLaws."
  },
  {
   "property": "C34",
   "status": "proved",
   "theorems": [
    "Verif.C34_no_contribution",
    "Verif.C34_parent_value"
   ],
   "note": "Any arithmetic for the stored value; the contribution needs 0+0=0 and x-x=0 for the node values, true of IEEE for finite values."
  },
  {
   "property": "C35",
   "status": "proved",
   "theorems": [
    "Verif.C35_contributions",
    "Verif.C35_parent_value",
    "Verif.C35_tree"
   ],
   "note": "C35_parent_value (any arithmetic): missing leaves store their parent's value. C35_tree: internal values are the cover-weighted averages of the children that are not missing leaves. C35_contributions: Weight and Average contributions of fitted boosters are equal on all data."
  },
  {
   "property": "C36",
   "status": "proved",
   "theorems": [
    "Verif.C36_average"
   ],
   "note": "Exact arithmetic, finite values and covers whose sum is not 0."
  },
  {
   "property": "C37",
   "status": "proved",
   "theorems": [
    "Verif.C37_missing_leaf",
    "Verif.C37_no_missing_rows"
   ],
   "note": "The first two conditions for every fit in any arithmetic; the third, in exact arithmetic, for the training rows that reach the node."
  },
  {
   "property": "C38",
   "status": "partial",
   "theorems": [
    "Verif.C38_average",
    "Verif.C38_average_partial",
    "Verif.C38_booster_partial",
    "Verif.C38_ignored",
    "Verif.C38_panic",
    "Verif.C38_tree_partial"
   ],
   "note": "The full claim is false, and three theorems give witnesses: C38_ignored (the imputing splitter ignores the flag), C38_panic (mixed constrained and unconstrained features make the assertion panic), C38_average (AverageLeafWeight with a missing branch that is split further rewrites the parent's value). C38_tree_partial and C38_booster_partial prove the claim for the missing-branch splitter: for every internal node of every fitted tree when the treatment is not AverageLeafWeight; C38_average_partial for AverageLeafWeight when the missing child is a leaf. Exact arithmetic, fits on finite data (PlainFit), learning rate at least 0."
  },
  {
   "property": "C39",
   "status": "proved",
   "theorems": [
    "Verif.C39_between",
    "Verif.C39_booster",
    "Verif.C39_mixture",
    "Verif.C39_only",
    "Verif.C39_unused"
   ],
   "note": "Exact arithmetic; well-formed trees, finite values, positive covers for left and right children, value readable (not NaN unless missing is NaN)."
  },
  {
   "property": "C40",
   "status": "proved",
   "theorems": [
    "Verif.C40_importance",
    "Verif.C40_normalized"
   ],
   "note": "Exact arithmetic; well-formed trees with finite gains and covers; any sorting routine that permutes."
  },
  {
   "property": "C41",
   "status": "proved",
   "theorems": [
    "Verif.C41_mann_whitney",
    "Verif.C41_order"
   ],
   "note": "Exact arithmetic. C41_mann_whitney: scores that are numbers (infinities allowed), labels in [0,1] (so in particular 0/1), non-negative weights, any sorter that sorts: the weighted fraction of correctly ranked pairs, ties one half, between 0 and 1; NaN when one class has no weight. C41_order: independent of row order and of the sort's tie breaking."
  },
  {
   "property": "C42",
   "status": "proved",
   "theorems": [
    "Verif.C42_log_odds",
    "Verif.C42_mean"
   ],
   "note": "C42_mean: SquaredLoss, exact arithmetic over any ordered field: the base score after fit is the weighted mean, the gradients at it add up to 0, and it minimises the weighted squared error over all constants. C42_log_odds: LogLoss over the reals, when the weighted label sum lies strictly between 0 and the total weight: log odds of the weighted mean, gradients add up to 0, total loss minimal over all constants."
  },
  {
   "property": "C43",
   "status": "proved",
   "theorems": [
    "Verif.C43_derivatives"
   ],
   "note": "Over the reals (real exp and log): gradient and hessian of calc_grad_hess are the first and second derivative of the loss of calc_loss (half of it for SquaredLoss) in the raw prediction; hessian not negative for non-negative weights."
  },
  {
   "property": "C44",
   "status": "proved",
   "theorems": [
    "Verif.C44_booster",
    "Verif.C44_depth_wise",
    "Verif.C44_loss_guide",
    "Verif.C44_same_predictions"
   ],
   "note": "Any arithmetic. Depth-wise: depths of expanded nodes never decrease along a run. Loss-guided: the expanded node has the greatest own score (total_cmp) of all leaves of the current tree that can still be split; the heap is only assumed to return a greatest element. Same predictions on any data, for trees and for whole boosters (with evaluation sets, early stopping and sampling), when no tree reaches its leaf limit, for any two heaps."
  },
  {
   "property": "C45",
   "status": "proved",
   "theorems": [
    "Verif.C45_percentiles"
   ],
   "note": "Exact arithmetic; non-negative weights with positive total."
  },
  {
   "property": "C46",
   "status": "proved",
   "theorems": [
    "Verif.C46_fast_f64_sum",
    "Verif.C46_fast_f64_sum_finite",
    "Verif.C46_fast_sum",
    "Verif.C46_fast_sum_finite",
    "Verif.C46_naive_sum",
    "Verif.C46_rounded",
    "Verif.C46_rounded_f64"
   ],
   "note": "Exact arithmetic including infinities and NaN (C46_fast_sum, C46_fast_f64_sum). C46_rounded, C46_rounded_f64: error bounds in floating point when the result is finite."
  },
  {
   "property": "C47",
   "status": "proved",
   "theorems": [
    "Verif.C47_leaf_indices",
    "Verif.C47_sum_of_leaves"
   ],
   "note": "Any arithmetic."
  },
  {
   "property": "C48",
   "status": "proved",
   "theorems": [
    "Verif.C48_binning",
    "Verif.C48_fit",
    "Verif.C48_nan_missing",
    "Verif.C48_predict"
   ],
   "note": "Prediction: panics iff a route tests NaN (well-formed trees, columns in range). Training: binning panics for this reason iff the sentinel is not NaN and the data contain NaN (nbins within 1..65533), and then the whole fit panics (C48_fit)."
  },
  {
   "property": "C49",
   "status": "proved",
   "theorems": [
    "Verif.C49_booster",
    "Verif.C49_depth_limit",
    "Verif.C49_leaf_limit",
    "Verif.C49_tree"
   ],
   "note": "Any arithmetic. The loop runs at most 3*max_leaves+1 and at most 4^(max_depth+1) times; the partition loops, the clean-up, the binary search of binning and the whole fit of a booster end as well. The sort, the heap and the random generator are oracles that return."
  },
  {
   "property": "C50",
   "status": "proved",
   "theorems": [
    "Verif.C50_best",
    "Verif.C50_fitted",
    "Verif.C50_missing_side",
    "Verif.C50_none"
   ],
   "note": "Arithmetic with the order laws Fl.OrdLaws (true of IEEE-754). The missing side (C50_missing_side) in exact arithmetic."
  },
  {
   "property": "C51",
   "status": "proved",
   "theorems": [
    "Verif.C51_dump",
    "Verif.C51_text"
   ],
   "note": "Any arithmetic; number formatting is a parameter."
  },
  {
   "property": "C52",
   "status": "partial",
   "theorems": [
    "Verif.C52_average_counterexample",
    "Verif.C52_counterexample",
    "Verif.C52_gain_partial",
    "Verif.C52_loss_partial"
   ],
   "note": "The full statement is false for the missing-branch splitter: C52_counterexample gives a fit with learning rate 2 whose squared error rises, because missing rows whose gradients sum to 0 receive their parent's value; C52_average_counterexample one with learning rate 1 and AverageLeafWeight. Proved (exact arithmetic, any data, weights, l1, l2, max_delta_step): for learning rates up to 2 without constraints when missing values are imputed, or when no value is missing and children are not forced to bound their parent (C52_loss_partial); for learning rates up to 1 with any monotone constraints, with or without forcing, for the imputer and for missing branches with treatment None or AverageNodeWeight, and for AssignToParent without further splits, constraints and forcing (C52_gain_partial)."
  },
  {
   "property": "C53",
   "status": "proved",
   "theorems": [
    "Verif.C53_constrained",
    "Verif.C53_gain",
    "Verif.C53_weight"
   ],
   "note": "Exact arithmetic: minimality over all allowed values, uniqueness, and the gain."
  },
  {
   "property": "C54",
   "status": "proved",
   "theorems": [
    "Verif.C54_json",
    "Verif.C54_metadata",
    "Verif.C54_only_metadata",
    "Verif.C54_unknown_key"
   ],
   "note": "Any arithmetic; any sequence of insertions; survival through JSON (C54_json)."
  },
  {
   "property": "C55",
   "status": "partial",
   "theorems": [
    "Verif.C55_all_columns_partial",
    "Verif.C55_counterexample",
    "Verif.C55_some_columns"
   ],
   "note": "The claim is false of the code: if only some columns are constrained no name is restored and a refit raises (C55_some_columns, C55_counterexample). It holds when every column is constrained."
  },
  {
   "property": "C56",
   "status": "partial",
   "theorems": [
    "Verif.C56_counterexample",
    "Verif.C56_features_partial",
    "Verif.C56_no_names",
    "Verif.C56_positions"
   ],
   "note": "The claim is false of the code: without feature names every split feature becomes 0 (C56_no_names, C56_counterexample). Positions are right for all dumps (C56_positions), features when names are known. Depth, written only by some XGBoost versions, is not part of the claim."
  },
  {
   "property": "C57",
   "status": "proved",
   "theorems": [
    "Verif.C57_append_panics",
    "Verif.C57_append_read_back",
    "Verif.C57_append_rows",
    "Verif.C57_column_major_views"
   ],
   "note": "Any element type."
  },
  {
   "property": "C58",
   "status": "partial",
   "theorems": [
    "Verif.C58_counterexample",
    "Verif.C58_empty_evals_never_succeeds",
    "Verif.C58_no_iterations_partial"
   ],
   "note": "The claim is false of the code: with an empty list fit never succeeds if iterations > 0 (any arithmetic); concrete witness; it holds only without iterations."
  },
  {
   "property": "C59",
   "status": "proved",
   "theorems": [
    "Verif.C59_bias",
    "Verif.C59_difference",
    "Verif.C59_untested"
   ],
   "note": "Any arithmetic; exact sum per feature over the steps of the paths. The bias is 0 + base_score, which is base_score in exact arithmetic (C59_bias)."
  },
  {
   "property": "C60",
   "status": "partial",
   "theorems": [
    "Verif.C60_arrays_partial",
    "Verif.C60_lost"
   ],
   "note": "The claim is false of the code for data frames (C60_lost); it holds for arrays, where numbers are given."
  },
  {
   "property": "C61",
   "status": "proved",
   "theorems": [
    "Verif.C61_fit_shift",
    "Verif.C61_init",
    "Verif.C61_predict_shift"
   ],
   "note": "C61_fit_shift (the whole outcome of fit, including errors and panics), C61_init (with initialize_base_score the given base score is not used), C61_predict_shift. Exact arithmetic; the metric hypothesis only matters when evaluation sets are given."
  },
  {
   "property": "C62",
   "status": "proved",
   "theorems": [
    "Verif.C62_fit",
    "Verif.C62_logLoss",
    "Verif.C62_predict",
    "Verif.C62_squaredLoss"
   ],
   "note": "Fit: exact arithmetic (rationals or reals; no rounding), with finite results; C77 covers rounded arithmetic by another argument. Prediction: any arithmetic. The panics that the hypotheses exclude are real: C38_panic (forced children with mixed constraints), C58 (empty list of evaluation sets), bins beyond u16, AUC of an empty set."
  },
  {
   "property": "C63",
   "status": "proved",
   "theorems": [
    "Verif.C63_dependence",
    "Verif.C63_fit",
    "Verif.C63_increasing",
    "Verif.C63_invariant",
    "Verif.C63_predict"
   ],
   "note": "Any arithmetic. C63_fit, C63_predict, C63_dependence for transformations meeting Respects; C63_increasing shows that functions strictly increasing on the values of each column meet it (values and images below the greatest number). Hypotheses on the oracles: the sort depends on comparisons only (Sorter.Natural, true of a comparison sort), the heap on scores only (HeapPick.ByScore, as Ord for SplittableNode compares gain_value only)."
  },
  {
   "property": "C64",
   "status": "proved",
   "theorems": [
    "Verif.C64_contributions",
    "Verif.C64_history",
    "Verif.C64_leaf_indices",
    "Verif.C64_rows_sum"
   ],
   "note": "C64_leaf_indices, C64_contributions, C64_history in any arithmetic (history: ordering laws of f64, as C21); C64_rows_sum in exact arithmetic with finite node values, from C12. The class is modelled in Model/PyBooster.lean."
  },
  {
   "property": "C65",
   "status": "proved",
   "theorems": [
    "Verif.C65_load",
    "Verif.C65_pickle",
    "Verif.C65_refit"
   ],
   "note": "Any arithmetic with down (up x) = x (f32 to f64 to f32, an identity of IEEE numbers). Made is the set of instances reachable by the listed calls, with failing fits included. Storable as in C26 (finite numbers, missing finite or NaN). Rounding of the seven f32 parameters and translation of constraints (C55, C60 say what is lost there) are stated exactly by PyBooster.reloaded."
  },
  {
   "property": "C66",
   "status": "partial",
   "theorems": [
    "Verif.C66_set_params_partial",
    "Verif.C66_stale"
   ],
   "note": "False in general: feature_names_in_ of the old instance remains (C66_stale: after fit on a data frame, set_params() and fit on an array, predict on a frame with other names raises, the new instance predicts). C66_set_params_partial: everything else is the new instance, and fits on data frames (or of an instance without names) are identical."
  },
  {
   "property": "C67",
   "status": "partial",
   "theorems": [
    "Verif.C67_changed",
    "Verif.C67_failed_fit_partial"
   ],
   "note": "False in general: n_features_ and feature_names_in_ are overwritten before anything is checked (C67_changed). C67_failed_fit_partial: parameters and booster are unchanged apart from constraints, terminated features and metadata; predictions, leaf indices and contributions are unchanged on arrays, and on all frames if the names did not change."
  },
  {
   "property": "C68",
   "status": "partial",
   "theorems": [
    "Verif.C68_array_partial",
    "Verif.C68_duplicate",
    "Verif.C68_names_partial",
    "Verif.C68_stale"
   ],
   "note": "False in general: stale names after a fit on a wider array (C68_stale, KeyError), and duplicate column names (C68_duplicate). C68_names_partial: data frames with distinct names; C68_array_partial: arrays for instances never fitted on a data frame. Column sampling by a source with Rng.Ok."
  },
  {
   "property": "C69",
   "status": "proved",
   "theorems": [
    "Verif.C69_converse",
    "Verif.C69_refit"
   ],
   "note": "Any arithmetic. The hypothesis on the prediction iteration is needed (example at the end of Props/PyRefit.lean). Stale names: C66_stale."
  },
  {
   "property": "C70",
   "status": "proved",
   "theorems": [
    "Verif.C70_array",
    "Verif.C70_frame"
   ],
   "note": "Any arithmetic; TableRoute (Spec/Table.lean) reads the table only. Column sampling by a source with Rng.Ok. pandas' conversion of None to NaN in Split is not modelled."
  },
  {
   "property": "C71",
   "status": "partial",
   "theorems": [
    "Verif.C71_booster_partial",
    "Verif.C71_counterexample",
    "Verif.C71_plot_partial",
    "Verif.C71_tree_partial"
   ],
   "note": "False in general (C71_counterexample: falls from 1/4 to -1/4 under a Positive constraint, because bounds are not applied at splits on unconstrained features, as in C11). C71_tree_partial, C71_booster_partial, C71_plot_partial (the array of the Python class): holds when all splits below splits on constrained features are constrained."
  },
  {
   "property": "C72",
   "status": "proved",
   "theorems": [
    "Verif.C72_copies",
    "Verif.C72_row_order"
   ],
   "note": "Exact arithmetic, no sampling of rows; the heap may look at scores only. C72_copies for copies in general, C72_row_order for orders. Equality of the results of fit as a whole."
  },
  {
   "property": "C73",
   "status": "proved",
   "theorems": [
    "Verif.C73_integer_weights"
   ],
   "note": "Exact arithmetic, no sampling of rows; equality of the results of fit and fit_unweighted as a whole."
  },
  {
   "property": "C74",
   "status": "partial",
   "theorems": [
    "Verif.C74_counterexample",
    "Verif.C74_zero_weight_partial"
   ],
   "note": "The general claim is false of the code: C74_counterexample. Proved for dropped rows whose features occur in a row that is kept, whatever their targets."
  },
  {
   "property": "C75",
   "status": "proved",
   "theorems": [
    "Verif.C75_constructor",
    "Verif.C75_default",
    "Verif.C75_last_call",
    "Verif.C75_order",
    "Verif.C75_unchecked",
    "Verif.C75_unset"
   ],
   "note": "Any arithmetic, except that the default passes its own checks (C75_default) is for exact arithmetic."
  },
  {
   "property": "C76",
   "status": "proved",
   "theorems": [
    "Verif.C76_by_name",
    "Verif.C76_samples",
    "Verif.C76_sentinel",
    "Verif.C76_total",
    "Verif.C76_unique"
   ],
   "note": "Grids: any arithmetic with ordered comparison. Success (C76_total): exact arithmetic, under the hypotheses of PlainFit. C76_sentinel: with a numeric missing value the samples can equal it though exclude_missing=True."
  },
  {
   "property": "C77",
   "status": "proved",
   "theorems": [
    "Verif.C77_fit",
    "Verif.C77_predict"
   ],
   "note": "Any arithmetic with Fl.OrdLaws (order of f64) and Fl.ZeroLaws (0 + 0 = 0, the cast of 0 is 0); instances for exact formats and for the IEEE formats b32/b64 of Spec/Ieee.lean (Ieee.fmt_rounds). Not covered: create_missing_branch together with force_children_to_bound_parent, whose assertions can fail (C38_panic)."
  },
  {
   "property": "C78",
   "status": "partial",
   "theorems": [
    "Verif.C78_counterexample",
    "Verif.C78_reached_partial"
   ],
   "note": "Proved in exact arithmetic (C78_reached_partial). False in the f32/f64 arithmetic of the program: C78_counterexample trains the model in IEEE arithmetic on seven rows, one of weight 2^24, and gets a leaf of cover 2 that no training row reaches (the same data refute the claims of C01 and C02 on covers and leaf values outside exact arithmetic)."
  },
  {
   "property": "C79",
   "status": "partial",
   "theorems": [
    "Verif.C79_counterexample",
    "Verif.C79_initialised_partial",
    "Verif.C79_range_partial"
   ],
   "note": "Proved in exact arithmetic (C79_range_partial, C79_initialised_partial). False in the f32/f64 arithmetic of the program: C79_counterexample, where targets between 1 and 100 give predictions of 200 on training rows and -1 on a new row, because the f32 histogram of the larger child is the difference of two rounded sums."
  },
  {
   "property": "C80",
   "status": "proved",
   "theorems": [
    "Verif.C80_all_constrained",
    "Verif.C80_booster",
    "Verif.C80_tree"
   ],
   "note": "For monotone, odd, idempotent roundings (instances binary32/binary64). Hypotheses: fit succeeded; the missing branch is imputed, or created with treatment none or assignToParent (not an average); max_delta_step is an f32; l2 and min_leaf_weight are at least 0; positive finite learning rate; finite node values; base score not NaN; no unconstrained split below a constrained one (as in C11; the example C11_counterexample shows the need for it already in exact arithmetic) or all splits constrained."
  },
  {
   "property": "C81",
   "status": "proved",
   "theorems": [
    "Verif.C81_contributions",
    "Verif.C81_f64",
    "Verif.C81_fitted",
    "Verif.C81_prediction"
   ],
   "note": "C81_prediction, C81_contributions: any format whose sums of representable numbers have relative error at most u (class Accurate; instances: exact formats with u = 0, f32 with 2^-24, f64 with 2^-53), leaf values converted from the narrow format. C81_f64: the explicit bound n/2^52. C81_fitted: the node values of every fitted model are numbers of the narrow format, so the hypothesis Stored only asks this of the base score. Not covered: overflow (the bound is for finite results), and the other contribution methods."
  },
  {
   "property": "C82",
   "status": "proved",
   "theorems": [
    "Verif.C82_fit",
    "Verif.C82_predict",
    "Verif.C82_sqrt"
   ],
   "note": "exact arithmetic; C82_sqrt shows that the real square root meets the hypothesis on sqrt"
  },
  {
   "property": "C83",
   "status": "proved",
   "theorems": [
    "Verif.C83_fit",
    "Verif.C83_predict",
    "Verif.C83_unconverted"
   ],
   "note": "exact arithmetic; C83_unconverted shows that the parameters must be converted"
  },
  {
   "property": "C84",
   "status": "proved",
   "theorems": [
    "Verif.C84_fit",
    "Verif.C84_predict"
   ],
   "note": "any odd monotone rounding (Fmt.Rounds), including binary32/binary64; the model has one zero only"
  },
  {
   "property": "C85",
   "status": "proved",
   "theorems": [
    "Verif.C85_fit",
    "Verif.C85_probability"
   ],
   "note": "real arithmetic (realFmt)"
  },
  {
   "property": "C86",
   "status": "proved",
   "theorems": [
    "Verif.C86_columns",
    "Verif.C86_shape",
    "Verif.C86_write"
   ],
   "note": "Any element type. Changes of a column keep its length, as a slice does."
  },
  {
   "property": "C87",
   "status": "partial",
   "theorems": [
    "Verif.C87_false",
    "Verif.C87_partial"
   ],
   "note": "False of the code: C87_false has a witness. C87_partial states what n_records is and exactly when it is the number of elements."
  },
  {
   "property": "C88",
   "status": "proved",
   "theorems": [
    "Verif.C88_display",
    "Verif.C88_items",
    "Verif.C88_metric",
    "Verif.C88_numbers"
   ],
   "note": "The formatting of one number is a parameter."
  },
  {
   "property": "C89",
   "status": "proved",
   "theorems": [
    "Verif.C89_default",
    "Verif.C89_early_stopping",
    "Verif.C89_history"
   ],
   "note": "All roundings. The evaluation sets have as many targets and weights as rows."
  },
  {
   "property": "C90",
   "status": "partial",
   "theorems": [
    "Verif.C90_false",
    "Verif.C90_partial",
    "Verif.C90_rejected"
   ],
   "note": "False of the code for the sample method: C90_false has a witness. C90_partial and C90_rejected give the claim for the other names and say what an unknown sample method does."
  },
  {
   "property": "C91",
   "status": "partial",
   "theorems": [
    "Verif.C91_false",
    "Verif.C91_gain_partial",
    "Verif.C91_plain_partial"
   ],
   "note": "False without a limit on the steps (witness: two rows, one leaf, p = 0.99, the loss rises from under 10 to over 40). Proved for every booster whose learning rate and max_delta_step satisfy exp(lr*mds) <= 1 + lr*mds + lr*mds^2, without constraints and with imputed missing values; with lr*mds^2/2 also with monotone constraints, forced children and missing branches (same treatments as C52_gain_partial). Rests on log(1+e^(x+v)) <= log(1+e^x) + s v + s(1-s)(e^|v|-1-|v|), proved for all reals."
  },
  {
   "property": "C92",
   "status": "proved",
   "theorems": [
    "Verif.C92_logLoss",
    "Verif.C92_no_weight",
    "Verif.C92_rmse",
    "Verif.C92_rmsle"
   ],
   "note": "Real arithmetic. C92_no_weight covers weights that are all zero."
  },
  {
   "property": "C93",
   "status": "proved",
   "theorems": [
    "Verif.C93_logLoss",
    "Verif.C93_squaredLoss"
   ],
   "note": "Real arithmetic, under the conditions under which C52 and C91 hold. Uses C21 for the history and C92 for the metric."
  },
  {
   "property": "C94",
   "status": "partial",
   "theorems": [
    "Verif.C94_booster_partial",
    "Verif.C94_false",
    "Verif.C94_leaf_partial"
   ],
   "note": "False at the root when l1 or max_delta_step is used (C94_false: a tree stays a single leaf although a split lowers the objective). Proved for every other leaf and for the root without these (C94_leaf_partial for any sample of rows, C94_booster_partial in terms of the loss of a booster)."
  },
  {
   "property": "C95",
   "status": "proved",
   "theorems": [
    "Verif.C95_rounds",
    "Verif.C95_rows",
    "Verif.C95_values",
    "Verif.C95_xor"
   ],
   "note": "C95_values is one round, C95_rounds all rounds, C95_rows the single rows. C95_xor shows that distinct rows without a column of distinct values are not enough."
  },
  {
   "property": "C96",
   "status": "proved",
   "theorems": [
    "Verif.C96_base",
    "Verif.C96_fields",
    "Verif.C96_model",
    "Verif.C96_tree"
   ],
   "note": "Number printing is a parameter: any injective printer without comma, closing bracket or line break. C96_fields: nodes agree in all shown fields; C96_tree and C96_model: same predictions, leaves and importances; C96_base: the base score is not in the dump."
  },
  {
   "property": "C97",
   "status": "partial",
   "theorems": [
    "Verif.C97_double",
    "Verif.C97_link",
    "Verif.C97_native",
    "Verif.C97_predict_partial",
    "Verif.C97_total"
   ],
   "note": "The claim is false of the code: C97_native (native boosters are refused), C97_link (count:poisson and other links), C97_double (f64 data near a condition). C97_predict_partial covers the rest; C97_total: every row reaches a leaf. XGBoost's reading of a dump and its links are a specification written from its documentation; XGBoost adds leaf values in f32, the theorem gives the f64 sum."
  },
  {
   "property": "C98",
   "status": "proved",
   "theorems": [
    "Verif.C98_bias",
    "Verif.C98_few",
    "Verif.C98_goss",
    "Verif.C98_over",
    "Verif.C98_random",
    "Verif.C98_unbiased"
   ],
   "note": "Exact arithmetic; the generator's numbers are the M equally likely multiples of 1/M, independent of each other (an assumption about rand's gen_range, M = 2^23 for f32 and 2^52 for f64). Hypothesis Truncates says that conversion to usize cuts off the fraction (proved for the rationals)."
  },
  {
   "property": "C99",
   "status": "partial",
   "theorems": [
    "Verif.C99_array",
    "Verif.C99_changed",
    "Verif.C99_int",
    "Verif.C99_quote",
    "Verif.C99_string_iff",
    "Verif.C99_string_partial"
   ],
   "note": "The claim is false of the code for strings (C99_quote, C99_changed); C99_string_iff says exactly which strings come back. literal_eval is specified in Spec/PyLiteral (string literals of the Python reference; integers in decimal); numpy's tolist, array and reshape are specified in Model/Serialize; JSON in between is assumed to round trip. Floats are not modelled."
  },
  {
   "property": "C100",
   "status": "proved",
   "theorems": [
    "Verif.C100_children",
    "Verif.C100_children_tree",
    "Verif.C100_counts",
    "Verif.C100_covers",
    "Verif.C100_sharp",
    "Verif.C100_tree"
   ],
   "note": "In IEEE f32/f64 with rounding. C100_tree and C100_children_tree hold in any format that represents the multiples; C100_sharp shows that the bound 2^24 cannot be dropped."
  },
  {
   "property": "C101",
   "status": "proved",
   "theorems": [
    "Verif.C101_bound",
    "Verif.C101_tree",
    "Verif.C101_values"
   ],
   "note": "In IEEE f32/f64 with rounding. C101_tree holds for any formats whose sums have a relative error; C101_bound gives the size of the bound for up to 2^24 rows. The bound is measured against the absolute gradients of the whole sample, not of the node: histogram subtraction cancels."
  },
  {
   "property": "C102",
   "status": "proved",
   "theorems": [
    "Verif.C102_base",
    "Verif.C102_evaluation",
    "Verif.C102_fewer",
    "Verif.C102_predict",
    "Verif.C102_prefix"
   ],
   "note": "C102_prefix compares any two successful fits; C102_evaluation and C102_base compare with the fit without evaluation data; C102_fewer also proves that the shorter fit succeeds. Any arithmetic, any environment; logging and threads are not modelled, so log_iterations and parallel are unused fields."
  },
  {
   "property": "C103",
   "status": "proved",
   "theorems": [
    "Verif.C103_constant",
    "Verif.C103_constraint",
    "Verif.C103_copy",
    "Verif.C103_predict"
   ],
   "note": "C103_copy: an appended copy of a column (same constraint) leaves the fitted booster unchanged in every field; C103_constant: the same for a column of one value, a number or the mark of missing values; C103_predict: predictions and leaf indices on wider data; C103_constraint: a concrete case shows that the copy must carry the same constraint. Column sampling (colsample_bytree other than 1) is excluded because it draws from the wider list of columns."
  },
  {
   "property": "C104",
   "status": "proved",
   "theorems": [
    "Verif.C104_contributions",
    "Verif.C104_dependence",
    "Verif.C104_fitted",
    "Verif.C104_importance",
    "Verif.C104_predict",
    "Verif.C104_zero"
   ],
   "note": "Any arithmetic. C104_predict: predictions and leaves. C104_contributions, C104_zero: every method. C104_dependence, C104_importance: partial dependence and importances. C104_fitted: data with appended columns."
  },
  {
   "property": "C105",
   "status": "proved",
   "theorems": [
    "Verif.C105_dependence",
    "Verif.C105_fit",
    "Verif.C105_predict"
   ],
   "note": "Any arithmetic, equality of results including errors and panics. C105_fit: training. C105_predict: predictions, leaves and contributions. C105_dependence: partial dependence."
  },
  {
   "property": "C106",
   "status": "partial",
   "theorems": [
    "Verif.C106_allowed",
    "Verif.C106_counterexample",
    "Verif.C106_present_partial",
    "Verif.C106_tree_partial"
   ],
   "note": "Proved in exact arithmetic (C106_tree_partial for the sums of hessians, C106_present_partial for whole boosters). False in f32/f64: C106_counterexample, where sums obtained by subtraction leave a remainder of hessian in bins without rows. C106_allowed shows that the flag matters."
  },
  {
   "property": "C107",
   "status": "proved",
   "theorems": [
    "Verif.C107_candidate",
    "Verif.C107_left_present",
    "Verif.C107_witness"
   ],
   "note": "C107_candidate holds in every rounding arithmetic (with NaN as in IEEE), C107_left_present for whole fits in exact arithmetic. C107_witness is a fit that consequently does not separate the missing values although allow_missing_splits is on."
  },
  {
   "property": "C108",
   "status": "proved",
   "theorems": [
    "Verif.C108_booster",
    "Verif.C108_cut",
    "Verif.C108_leaves"
   ],
   "note": "C108_cut: depth limits, policies and heaps; C108_leaves: leaf limits, node by node; C108_booster: first trees of two fits. Values of inner nodes are exempt when average_leaf_weight replaces them after growing."
  },
  {
   "property": "C109",
   "status": "partial",
   "theorems": [
    "Verif.C109_booster_partial",
    "Verif.C109_counterexample",
    "Verif.C109_cut_partial",
    "Verif.C109_refused"
   ],
   "note": "False in floating point: C109_counterexample trains two f32 boosters whose roots are split at different columns because two neighbouring gains tie after gamma is subtracted. C109_refused holds in any rounding arithmetic; C109_cut_partial and C109_booster_partial prove the claim in exact arithmetic."
  },
  {
   "property": "C110",
   "status": "proved",
   "theorems": [
    "Verif.C110_constant",
    "Verif.C110_perfect",
    "Verif.C110_ranking",
    "Verif.C110_reverse",
    "Verif.C110_rounded",
    "Verif.C110_swap"
   ],
   "note": "Ranking: any arithmetic. Swapped labels, negated scores, constant scores, perfect ranking: exact arithmetic. Correct rounding: f64 with labels 0/1, whole weights and total weight at most 2^26."
  },
  {
   "property": "C111",
   "status": "proved",
   "theorems": [
    "Verif.C111_below",
    "Verif.C111_below_counterexample",
    "Verif.C111_dependence",
    "Verif.C111_floor",
    "Verif.C111_step",
    "Verif.C111_value"
   ],
   "note": "C111_value, C111_step, C111_dependence: any arithmetic; C111_floor: any arithmetic with an ordered comparison; C111_below: exact arithmetic, without splits that only separate missing values; C111_below_counterexample: with allow_missing_splits a number below the training range goes with the missing values."
  },
  {
   "property": "C112",
   "status": "partial",
   "theorems": [
    "Verif.C112_accuracy",
    "Verif.C112_contributions",
    "Verif.C112_fitted",
    "Verif.C112_prediction",
    "Verif.C112_training_counterexample"
   ],
   "note": "Predictions, contributions, accuracy and fitted node values are proved for f32/f64. The part 'training on finite data gives a finite model' is false of the code; C112_training_counterexample proves it."
  },
  {
   "property": "C113",
   "status": "proved",
   "theorems": [
    "Verif.C113_entries",
    "Verif.C113_fit",
    "Verif.C113_order",
    "Verif.C113_predict",
    "Verif.C113_same"
   ],
   "note": "C113_fit: the fit on the kept columns is the renumbered fit, every field; C113_predict, C113_same: predictions and leaves; C113_entries: what the restricted data hold; C113_order: witness that the order of the columns must be kept. Column sampling is excluded because its draws depend on the number of columns."
  },
  {
   "property": "C114",
   "status": "proved",
   "theorems": [
    "Verif.C114_additive",
    "Verif.C114_columns",
    "Verif.C114_interaction",
    "Verif.C114_leaf",
    "Verif.C114_stump"
   ],
   "note": "C114_leaf: at most max_depth entries decide the leaf of a row; C114_columns: fewer than max_leaves columns per tree; C114_stump and C114_additive: max_depth = 1; C114_interaction: witness with max_depth = 2."
  },
  {
   "property": "C115",
   "status": "proved",
   "theorems": [
    "Verif.C115_base_score",
    "Verif.C115_nbins",
    "Verif.C115_sampling",
    "Verif.C115_seed",
    "Verif.C115_settings"
   ],
   "note": "C115_settings, C115_seed: fit commutes with replacing idle settings (also for failing fits); C115_nbins: nbins beyond the number of different values (comparison must be a strict order); C115_base_score; C115_sampling: witness that the seed matters with sampling. log_iterations is idle because log output is not modelled."
  },
  {
   "property": "C116",
   "status": "proved",
   "theorems": [
    "Verif.C116_scaled",
    "Verif.C116_second",
    "Verif.C116_single",
    "Verif.C116_structure",
    "Verif.C116_weights"
   ],
   "note": "C116_structure, C116_weights: any arithmetic, sampling and splitter, evaluation sets may differ. C116_scaled, C116_single: exact arithmetic. C116_second: witness that the second tree is not scaled."
  },
  {
   "property": "C117",
   "status": "proved",
   "theorems": [
    "Verif.C117_fit",
    "Verif.C117_order",
    "Verif.C117_others"
   ],
   "note": "C117_fit, C117_others; C117_order: witness. The hypothesis on the booster (no record of metrics without trees) holds for every booster made by the constructors or by a fit."
  },
  {
   "property": "C118",
   "status": "proved",
   "theorems": [
    "Verif.C118_constant",
    "Verif.C118_constant_mean",
    "Verif.C118_perfect",
    "Verif.C118_rounded_mean",
    "Verif.C118_settled",
    "Verif.C118_tree"
   ],
   "note": "C118_tree: zero gradients grow a leaf of value zero. C118_settled: the booster, any objective. C118_perfect, C118_constant: squared loss. C118_constant_mean: computed base score, exact arithmetic; C118_rounded_mean: in floating point the computed base score is rounded, so constant targets of 0.1 are not predicted exactly. l2 > 0 excludes 0/0 = NaN for rows of weight zero."
  },
  {
   "property": "C119",
   "status": "partial",
   "theorems": [
    "Verif.C119_counterexample",
    "Verif.C119_fit_partial",
    "Verif.C119_frame",
    "Verif.C119_predict",
    "Verif.C119_rejected",
    "Verif.C119_vector"
   ],
   "note": "False of the code for targets and weights: C119_counterexample (the first column of a row-major float64 array as y). C119_rejected: such targets are never accepted and nothing is trained. C119_frame, C119_predict: features, any layout. C119_vector: exactly which targets and weights are read. C119_fit_partial: with readable targets and weights fit depends on the numbers only."
  },
  {
   "property": "C120",
   "status": "partial",
   "theorems": [
    "Verif.C120_counterexample",
    "Verif.C120_leaf_limit",
    "Verif.C120_partial",
    "Verif.C120_tree_partial"
   ],
   "note": "False of the code: C120_counterexample (l2 = 1, four rows), C120_leaf_limit (l2 = 0, max_leaves = 3). C120_tree_partial and C120_partial prove it for l2 = 0, force_children_to_bound_parent off and leaf limits not reached, in exact arithmetic, for all rows used or a positive total weight as in PlainFit."
  },
  {
   "property": "C121",
   "status": "proved",
   "theorems": [
    "Verif.C121_document",
    "Verif.C121_injective",
    "Verif.C121_round_trip",
    "Verif.C121_trailing",
    "Verif.C121_truncated"
   ],
   "note": "On the character level. serde_json is a dependency; its writer, its escapes and its reader are modelled in Model/JsonText.lean. That floats read back is the hypothesis NumText.Exact: it is what the feature float_roundtrip of serde_json (Cargo.toml 20) is for. UTF-8 encoding of the file, serde_json's recursion limit (128, not reached by these documents) and its range checks of numbers in skipped members are not modelled."
  },
  {
   "property": "C122",
   "status": "proved",
   "theorems": [
    "Verif.C122_leaf",
    "Verif.C122_mean",
    "Verif.C122_missing_branch",
    "Verif.C122_shrink",
    "Verif.C122_total"
   ],
   "note": "Exact arithmetic; for rounding errors of node values see C101. C122_missing_branch shows that the proviso on missing values is needed."
  },
  {
   "property": "C123",
   "status": "proved",
   "theorems": [
    "Verif.C123_l1",
    "Verif.C123_l1_squared",
    "Verif.C123_min_leaf_weight"
   ],
   "note": "Exact arithmetic."
  },
  {
   "property": "C124",
   "status": "proved",
   "theorems": [
    "Verif.C124_byte_order_mark",
    "Verif.C124_cut",
    "Verif.C124_history",
    "Verif.C124_injective",
    "Verif.C124_round_trip",
    "Verif.C124_trailing"
   ],
   "note": "The file is a sequence of bytes and the text is its UTF-8 decoding. As in C121 the texts of numbers are an assumption (NumText.Exact), and the model must be storable (no infinite or NaN value where JSON has none, C26). The write is that of fs::write: open with truncation, then write all bytes."
  },
  {
   "property": "C125",
   "status": "proved",
   "theorems": [
    "Verif.C125_evaluated",
    "Verif.C125_no_influence",
    "Verif.C125_plain",
    "Verif.C125_silent"
   ],
   "note": "Messages are values with their arguments; LogMsg.text gives the text. The part on early stopping uses the laws of comparisons (Fl.OrdLaws). The history must be that of this fit (b.trees ≠ [] or no history), as in C21. Messages before a panic are not in the model."
  },
  {
   "property": "C126",
   "status": "proved",
   "theorems": [
    "Verif.C126_agrees",
    "Verif.C126_other_factors",
    "Verif.C126_predict",
    "Verif.C126_product",
    "Verif.C126_range",
    "Verif.C126_targets",
    "Verif.C126_weights"
   ],
   "note": "C126_targets, C126_weights, C126_predict; C126_product: the factor is multiplied as the machine would; C126_agrees: where the rounding is that of f32 and f64; C126_range and C126_other_factors: what fails otherwise. The square root used by the metric must satisfy sqrt(4^k x) = 2^k sqrt(x) (wide_sqrt shows one that does). The exact version of C82 and C83 is a special case of the same lemmas."
  },
  {
   "property": "C127",
   "status": "proved",
   "theorems": [
    "Verif.C127_fit",
    "Verif.C127_missing",
    "Verif.C127_split_value"
   ],
   "note": "C127_fit, C127_missing; C127_split_value: the split value shows the sign. The arithmetic SZ adds the negative zero to FX; training looks at features through comparisons only (C63)."
  },
  {
   "property": "C128",
   "status": "proved",
   "theorems": [
    "Verif.C128_bin_zero",
    "Verif.C128_fit",
    "Verif.C128_shapley",
    "Verif.C128_total"
   ],
   "note": "C128_fit: for every UsizeSub the second version of training (Model/Usize, the subtraction is a parameter) returns what the model returns; C128_total: with the arguments of C77 no hypothesis on the result is left; C128_shapley: equality for any booster. C128_bin_zero: the partition of a ternary split called with split bin 0 would give counts out of order, so the property is not one of the partition alone."
  },
  {
   "property": "C129",
   "status": "proved",
   "theorems": [
    "Verif.C129_distinct",
    "Verif.C129_fit",
    "Verif.C129_new",
    "Verif.C129_no_alarm",
    "Verif.C129_parameter"
   ],
   "note": "C129_fit, C129_no_alarm: against firstProblem, which lists the arrays and their problems directly; C129_distinct: texts of problems are different (needs that decimal numbers are); C129_new, C129_parameter: the constructor."
  },
  {
   "property": "C130",
   "status": "proved",
   "theorems": [
    "Verif.C130_exact",
    "Verif.C130_float"
   ],
   "note": "C130_exact from C09_booster and C19; C130_float from C09_float with monotone rounding. Both examples reach the bound."
  },
  {
   "property": "C131",
   "status": "proved",
   "theorems": [
    "Verif.C131_clear",
    "Verif.C131_fit",
    "Verif.C131_same"
   ],
   "note": "C131_fit, C131_same; the hypothesis fitsClearly runs the fit and checks every searched node; C131_clear says what the check needs in terms of candidate splits. That ties do decide is C113_order."
  },
  {
   "property": "C132",
   "status": "proved",
   "theorems": [
    "Verif.C132_fit",
    "Verif.C132_history",
    "Verif.C132_init",
    "Verif.C132_no_l2",
    "Verif.C132_save"
   ],
   "note": "C132_init: the base score; C132_fit: trees and predictions; C132_history: the metric is NaN; C132_save: the text cannot be loaded; C132_no_l2: the case l2 = 0. That one is a number of the format is a hypothesis, shown for f64 in the example."
  },
  {
   "property": "C133",
   "status": "proved",
   "theorems": [
    "Verif.C133_additive",
    "Verif.C133_fitted",
    "Verif.C133_game",
    "Verif.C133_interaction",
    "Verif.C133_known",
    "Verif.C133_unknown"
   ],
   "note": "C133_known and C133_unknown: partial dependence of a tree is the expectation with one feature, or none, known. C133_game: the same for a booster, for the very games of C16_shapley. C133_additive: contributions and predictions of models with one feature per tree. C133_fitted: fitted models with max_depth at most 1 (the covers add up: FitView.coversAdd). C133_interaction: a fit with max_depth 2 where the contribution is not the partial dependence less the bias."
  },
  {
   "property": "C134",
   "status": "proved",
   "theorems": [
    "Verif.C134_equal",
    "Verif.C134_fall",
    "Verif.C134_logistic",
    "Verif.C134_rate",
    "Verif.C134_total"
   ],
   "note": "C134_fall: the inequality for one tree (L1, max_delta_step, monotone constraints, forced bounds and missing branches allowed, under the same settings as C52_gain_partial). C134_total: over all trees, with the importances that calculate_feature_importance returns. C134_equal: equality for a learning rate of 1. C134_rate: equality for every learning rate. C134_logistic: log loss with short steps falls by at least half the learning rate times the gains. Outside these settings the values of nodes are overwritten after the gains are stored, see C52_average_counterexample."
  },
  {
   "property": "C135",
   "status": "proved",
   "theorems": [
    "Verif.C135_logistic",
    "Verif.C135_squared"
   ],
   "note": "C135_squared and C135_logistic, from C134_fall, C134_logistic and C08_gamma. The condition on max_delta_step for log loss is that of C91_gain_partial."
  },
  {
   "property": "C136",
   "status": "proved",
   "theorems": [
    "Verif.C136_balance",
    "Verif.C136_count"
   ],
   "note": "C136_balance is the general statement, C136_count the case of equal weights and distinct values. Exact arithmetic; values finite and at most f64::MAX, weights finite and not negative (zero total weight included)."
  },
  {
   "property": "C137",
   "status": "proved",
   "theorems": [
    "Verif.C137_after_fit",
    "Verif.C137_after_fit_case",
    "Verif.C137_ignored",
    "Verif.C137_order",
    "Verif.C137_sets",
    "Verif.C137_used"
   ],
   "note": "C137_ignored and C137_used: base score; C137_sets: evaluation sets (through C117); C137_order: names; C137_after_fit: set_params after fit, with the concrete case C137_after_fit_case (a warning although nothing was modified)."
  },
  {
   "property": "C138",
   "status": "proved",
   "theorems": [
    "Verif.C138_bins",
    "Verif.C138_exists",
    "Verif.C138_fit",
    "Verif.C138_predict"
   ],
   "note": "C138_bins (same cut points and bins), C138_fit (fit on rounded data is fit on the data, also when it fails), C138_predict (outputs on rounded data), C138_exists (rounding is possible). The values are FX m: the model has one zero, so equal numbers are the same; values above the greatest finite number are excluded as in C28."
  },
  {
   "property": "C139",
   "status": "proved",
   "theorems": [
    "Verif.C139_initial_score",
    "Verif.C139_rows",
    "Verif.C139_targets",
    "Verif.C139_tree"
   ],
   "note": "C139_tree (a tree reads the gradients of its rows), C139_rows (targets and weights), C139_targets (targets only), C139_initial_score (witness that a given initial score is needed). The drawn rows are specified from the generator alone (Spec/Drawn.lean). Drawn rows are counted over all iterations, also when training stops early."
  },
  {
   "property": "C140",
   "status": "proved",
   "theorems": [
    "Verif.C140_exact",
    "Verif.C140_rounded",
    "Verif.C140_sharp",
    "Verif.C140_single"
   ],
   "note": "C140_rounded is the claim in f32/f64 with rounding (covers are exact there by C100), C140_single its consequence for light data, C140_exact the claim in exact arithmetic for both objectives, C140_sharp a fit that reaches the bound. The count of splits is the count of nodes that are not leaves, the depth is the length of the path from the root."
  },
  {
   "property": "C141",
   "status": "proved",
   "theorems": [
    "Verif.C141_fit",
    "Verif.C141_rounded"
   ],
   "note": "C141_fit is the claim; its hypothesis on the wide format is exactness, the narrow format is arbitrary. C141_rounded is a run in f32 and f64 with rounding where the predictions differ. Column sampling is off because it consumes the same generator."
  },
  {
   "property": "C142",
   "status": "proved",
   "theorems": [
    "Verif.C142_fit",
    "Verif.C142_rounded"
   ],
   "note": "C142_fit is the claim, for runs in exact arithmetic. C142_rounded is a run in f32 and f64 where the predictions differ, which is why exactness is assumed."
  },
  {
   "property": "C143",
   "status": "proved",
   "theorems": [
    "Verif.C143_f64",
    "Verif.C143_overflow",
    "Verif.C143_perfect",
    "Verif.C143_rmse"
   ],
   "note": "C143_rmse and C143_perfect are the general statements, C143_f64 the bound in f64. C143_overflow shows that the hypothesis on the sum of the weights is needed."
  },
  {
   "property": "C144",
   "status": "proved",
   "theorems": [
    "Verif.C144_bound",
    "Verif.C144_fitted"
   ],
   "note": "C144_bound for any explainable model, C144_fitted for fitted models with max_delta_step."
  },
  {
   "property": "C145",
   "status": "partial",
   "theorems": [
    "Verif.C145_booster_partial",
    "Verif.C145_counterexample"
   ],
   "note": "False in general: C145_counterexample is a fitted model with one constrained and one unconstrained feature where the contribution falls from 9/8 to -9/8. C145_booster_partial proves it for models whose splits below splits on constrained features are all on constrained features."
  },
  {
   "property": "C146",
   "status": "proved",
   "theorems": [
    "Verif.C146_average",
    "Verif.C146_bias",
    "Verif.C146_fitted",
    "Verif.C146_single"
   ],
   "note": "C146_average is the full characterisation, against MeanPath and CondExp; C146_bias, C146_single and C146_fitted are the comparisons with C16. An example shows that with max_depth 2 the methods disagree. Exact arithmetic."
  },
  {
   "property": "C147",
   "status": "proved",
   "theorems": [
    "Verif.C147_bound",
    "Verif.C147_path"
   ],
   "note": "C147_path holds in any arithmetic, operation by operation; C147_bound is for real arithmetic with the real exponential."
  },
  {
   "property": "C148",
   "status": "proved",
   "theorems": [
    "Verif.C148_balance",
    "Verif.C148_tree"
   ],
   "note": "C148_tree is about the changes of one tree (any objective and sampling), C148_balance about predict_contributions of the fitted booster with squared loss and no sampling. With log loss the covers are second derivatives that change from tree to tree, so only the statement per tree holds."
  },
  {
   "property": "C149",
   "status": "proved",
   "theorems": [
    "Verif.C149_average",
    "Verif.C149_difference",
    "Verif.C149_probability",
    "Verif.C149_weight"
   ],
   "note": "Extends C34, which is about AssignToParent and Weight only. C149_probability is about trees whose missing branches keep the value of the parent; fit_keepsParent shows that fitted trees are such under the settings named."
  },
  {
   "property": "C150",
   "status": "proved",
   "theorems": [
    "Verif.C150_balance",
    "Verif.C150_contributions",
    "Verif.C150_nodes"
   ],
   "note": "C150_nodes is about the values in the nodes, C150_contributions about predict_contributions, C150_balance is the consequence by C148. For fits with missing branches and AverageLeafWeight see C35."
  },
  {
   "property": "C151",
   "status": "proved",
   "theorems": [
    "Verif.C151_predict",
    "Verif.C151_trees"
   ],
   "note": "The heap breaks ties in the second fit as it did in the later iterations of the first (hypothesis hH; the real heap is the same in every iteration). In floating point the residuals are rounded, so the statement is about exact arithmetic."
  },
  {
   "property": "C152",
   "status": "proved",
   "theorems": [
    "Verif.C152_gain",
    "Verif.C152_root",
    "Verif.C152_weight"
   ],
   "note": "C152_weight and C152_gain are about any rounding arithmetic with representable inputs; C152_root about whole fits in exact arithmetic."
  },
  {
   "property": "C153",
   "status": "proved",
   "theorems": [
    "Verif.C153_root",
    "Verif.C153_value",
    "Verif.C153_weight"
   ],
   "note": "C153_weight and C153_value are about any rounding arithmetic; C153_root about whole fits in exact arithmetic."
  },
  {
   "property": "C154",
   "status": "proved",
   "theorems": [
    "Verif.C154_percentiles",
    "Verif.C154_print",
    "Verif.C154_round"
   ],
   "note": "precision_round is modelled in exact arithmetic only (10^precision is not exact in f64 for negative precisions)."
  },
  {
   "property": "C155",
   "status": "proved",
   "theorems": [
    "Verif.C155_levels",
    "Verif.C155_no_weight",
    "Verif.C155_twice"
   ],
   "note": "C45 covers levels below 1, repeated levels and weights of zero; here 1 is allowed. The two cases outside the conditions are concrete witnesses (C155_twice, C155_no_weight)."
  }
 ]
}
