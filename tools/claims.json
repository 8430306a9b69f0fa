{
"C12": {"status": "proved", "note": "Exact arithmetic, any model with finite node values; success of predict is the only other hypothesis."},
"C13": {"status": "proved", "note": "Exact arithmetic; trees well formed (C03), covers finite and non-zero at internal nodes."},
"C14": {"status": "proved", "note": "Exact arithmetic; any function that odds computes; C14_logistic instantiates it with the real logistic function. Other objectives panic."},
"C17": {"status": "proved", "note": "Any arithmetic."},
"C18": {"status": "proved", "note": "Any arithmetic. The parts that use rayon are compared on success; training as a whole (C18_fit, C18_flag) likewise, for every division of the histogram columns and every order of the row writes at every node of every tree. Partial dependence needs associative addition; C18_partial_dependence_rounding shows that f64 does not have it and that the value depends on the division."},
"C19": {"status": "proved", "note": "Any arithmetic."},
"C24": {"status": "proved", "note": "Any arithmetic; fit errors iff BadInput, and then returns the booster it was given."},
"C25": {"status": "proved", "note": "Any arithmetic in which nothing exceeds infinity (true of IEEE and of FX)."},
"C26": {"status": "proved", "note": "Any arithmetic, at the level of JSON trees: any member order, unknown members, removed defaulted members; other members are required."},
"C27": {"status": "partial", "note": "The claim is false of the code: two fitted witnesses that cannot be loaded. C27_loads_iff_partial: exactly the boosters with finite floats (missing aside) load; C27_missing_lost."},
"C39": {"status": "proved", "note": "Exact arithmetic; well-formed trees, finite values, positive covers for left and right children, value readable (not NaN unless missing is NaN)."},
"C40": {"status": "proved", "note": "Exact arithmetic; well-formed trees with finite gains and covers; any sorting routine that permutes."},
"C46": {"status": "proved", "note": "Exact arithmetic including infinities and NaN (C46_fast_sum, C46_fast_f64_sum). C46_rounded, C46_rounded_f64: error bounds in floating point when the result is finite."},
"C47": {"status": "proved", "note": "Any arithmetic."},
"C28": {"status": "partial", "note": "Cut points and the comparison clause (C28_cuts): any arithmetic with an ordered comparison, finite data. 'Bin 0 only for missing' is false when all weights are zero and there are more than nbins+1 values (C28_counterexample); it is proved when the column has a non-missing value with positive weight, for exact arithmetic (C28_missing_partial) and with rounding, f64 included (C28_missing_float_partial)."},
"C29": {"status": "proved", "note": "Resolution, range, and both panics (nbins = 0, nbins = 65535), each also on concrete data."},
"C44": {"status": "proved", "note": "Any arithmetic. Depth-wise: depths of expanded nodes never decrease along a run. Loss-guided: the expanded node has the greatest own score (total_cmp) of all leaves of the current tree that can still be split; the heap is only assumed to return a greatest element. Same predictions on any data, for trees and for whole boosters (with evaluation sets, early stopping and sampling), when no tree reaches its leaf limit, for any two heaps."},
"C45": {"status": "proved", "note": "Exact arithmetic; non-negative weights with positive total."},
"C48": {"status": "proved", "note": "Prediction: panics iff a route tests NaN (well-formed trees, columns in range). Training: binning panics for this reason iff the sentinel is not NaN and the data contain NaN (nbins within 1..65533), and then the whole fit panics (C48_fit)."},
"C51": {"status": "proved", "note": "Any arithmetic; number formatting is a parameter."},
"C53": {"status": "proved", "note": "Exact arithmetic: minimality over all allowed values, uniqueness, and the gain."},
"C54": {"status": "proved", "note": "Any arithmetic; any sequence of insertions; survival through JSON (C54_json)."},
"C55": {"status": "partial", "note": "The claim is false of the code: if only some columns are constrained no name is restored and a refit raises (C55_some_columns, C55_counterexample). It holds when every column is constrained."},
"C56": {"status": "partial", "note": "The claim is false of the code: without feature names every split feature becomes 0 (C56_no_names, C56_counterexample). Positions are right for all dumps (C56_positions), features when names are known. Depth, written only by some XGBoost versions, is not part of the claim."},
"C57": {"status": "proved", "note": "Any element type."},
"C58": {"status": "partial", "note": "The claim is false of the code: with an empty list fit never succeeds if iterations > 0 (any arithmetic); concrete witness; it holds only without iterations."},
"C59": {"status": "proved", "note": "Any arithmetic; exact sum per feature over the steps of the paths. The bias is 0 + base_score, which is base_score in exact arithmetic (C59_bias)."},
"C60": {"status": "partial", "note": "The claim is false of the code for data frames (C60_lost); it holds for arrays, where numbers are given."},
"C31": {"status": "proved", "note": "Exact arithmetic (sums are associative), finite gradients; direct histograms, order of rows, and both subtractions."},
"C20": {"status": "proved", "note": "Any arithmetic whose comparisons satisfy OrdLaws (IEEE does); NaN metrics are beaten by every number. Without evaluation sets all iterations run."},
"C21": {"status": "proved", "note": "Any arithmetic whose comparisons satisfy OrdLaws. A booster without trees but with a history (hand-edited file) is excluded."},
"C22": {"status": "proved", "note": "Any arithmetic."},
"C23": {"status": "proved", "note": "Any booster with trees, and any fresh booster fitted before. A booster without trees on which prediction_iteration was set by hand keeps that setting, so it is not called fitted here."},
"C32": {"status": "proved", "note": "Any arithmetic; the GOSS ranking needs total_cmp to be a total preorder."},
"C33": {"status": "proved", "note": "Any arithmetic whose comparisons satisfy OrdLaws."},
"C30": {"status": "proved", "note": "Both pivot functions, with and without a row on the right; the three-way one needs a split bin above 0 (bin 0 is the missing bin)."},
"C01": {"status": "proved", "note": "Exact arithmetic. For every tree of every fitted booster, every sampling method, grow policy and both splitters; the gradients and hessians of the sample are assumed finite, the present values at most the largest finite number."},
"C02": {"status": "proved", "note": "Exact arithmetic. force_children_to_bound_parent must be false; with AverageLeafWeight the claim is about leaves, since the clean-up overwrites internal nodes."},
"C03": {"status": "proved", "note": "Any arithmetic; every fit that succeeds. Prediction stops at a leaf for every row (NaN panic as in C48)."},
"C04": {"status": "proved", "note": "Any arithmetic."},
"C05": {"status": "proved", "note": "Any arithmetic."},
"C06": {"status": "partial", "note": "The claim is false of the code (C06_counterexample, a concrete fit with 3 leaves for max_leaves 2). C06_max_leaves_partial proves max(1, max_leaves + 1) for all fits."},
"C07": {"status": "proved", "note": "Any arithmetic: the stored cover is not below min_leaf_weight (so also for NaN)."},
"C08": {"status": "proved", "note": "Arithmetic with the laws Fl.GainLaws (true of IEEE-754 and of exact arithmetic); the gain formula is in C08_gain."},
"C34": {"status": "proved", "note": "Any arithmetic for the stored value; the contribution needs 0+0=0 and x-x=0 for the node values, true of IEEE for finite values."},
"C36": {"status": "proved", "note": "Exact arithmetic, finite values and covers whose sum is not 0."},
"C37": {"status": "proved", "note": "The first two conditions for every fit in any arithmetic; the third, in exact arithmetic, for the training rows that reach the node."},
"C50": {"status": "proved", "note": "Arithmetic with the order laws Fl.OrdLaws (true of IEEE-754). The missing side (C50_missing_side) in exact arithmetic."},
"C49": {"status": "proved", "note": "Any arithmetic. The loop runs at most 3*max_leaves+1 and at most 4^(max_depth+1) times; the partition loops, the clean-up, the binary search of binning and the whole fit of a booster end as well. The sort, the heap and the random generator are oracles that return."},
"C09": {"status": "proved", "note": "C09_tree, C09_booster: exact arithmetic, finite data and parameters, no division by zero (l2 > 0, or no sampling and a positive weight); both splitters, all treatments, any constraints. C09_float_tree, C09_float: any rounding arithmetic (f32/f64 among them) and any data, for every finite node value, when missing branches are not averaged; the limit is the rounded product max_delta_step * learning_rate."},
"C35": {"status": "proved", "note": "C35_parent_value (any arithmetic): missing leaves store their parent's value. C35_tree: internal values are the cover-weighted averages of the children that are not missing leaves. C35_contributions: Weight and Average contributions of fitted boosters are equal on all data."},
"C10": {"status": "proved", "note": "C10_tree, C10_booster: rows differing in one constrained feature (both values present) have ordered predictions whenever every split feature is constrained; both splitters and all parameters of a fit on finite data."},
"C11": {"status": "partial", "note": "The claim is false: C11_counterexample exhibits a fit whose predictions decrease in a Positive feature, because bounds are not applied at a split on an unconstrained feature. C11_tree_partial and C11_booster_partial prove it when all splits below constrained splits are constrained."},
"C38": {"status": "partial", "note": "The full claim is false, and three theorems give witnesses: C38_ignored (the imputing splitter ignores the flag), C38_panic (mixed constrained and unconstrained features make the assertion panic), C38_average (AverageLeafWeight with a missing branch that is split further rewrites the parent's value). C38_tree_partial and C38_booster_partial prove the claim for the missing-branch splitter: for every internal node of every fitted tree when the treatment is not AverageLeafWeight; C38_average_partial for AverageLeafWeight when the missing child is a leaf. Exact arithmetic, fits on finite data (PlainFit), learning rate at least 0."},
"C42": {"status": "proved", "note": "C42_mean: SquaredLoss, exact arithmetic over any ordered field: the base score after fit is the weighted mean, the gradients at it add up to 0, and it minimises the weighted squared error over all constants. C42_log_odds: LogLoss over the reals, when the weighted label sum lies strictly between 0 and the total weight: log odds of the weighted mean, gradients add up to 0, total loss minimal over all constants."},
"C43": {"status": "proved", "note": "Over the reals (real exp and log): gradient and hessian of calc_grad_hess are the first and second derivative of the loss of calc_loss (half of it for SquaredLoss) in the raw prediction; hessian not negative for non-negative weights."},
"C41": {"status": "proved", "note": "Exact arithmetic. C41_mann_whitney: scores that are numbers (infinities allowed), labels in [0,1] (so in particular 0/1), non-negative weights, any sorter that sorts: the weighted fraction of correctly ranked pairs, ties one half, between 0 and 1; NaN when one class has no weight. C41_order: independent of row order and of the sort's tie breaking."},
"C52": {"status": "partial", "note": "The full statement is false for the missing-branch splitter: C52_counterexample gives a fit with learning rate 2 whose squared error rises, because missing rows whose gradients sum to 0 receive their parent's value; C52_average_counterexample one with learning rate 1 and AverageLeafWeight. Proved (exact arithmetic, any data, weights, l1, l2, max_delta_step): for learning rates up to 2 without constraints when missing values are imputed, or when no value is missing and children are not forced to bound their parent (C52_loss_partial); for learning rates up to 1 with any monotone constraints, with or without forcing, for the imputer and for missing branches with treatment None or AverageNodeWeight, and for AssignToParent without further splits, constraints and forcing (C52_gain_partial)."},
"C15": {"status": "proved", "note": "Exact arithmetic. For well-formed trees with finite values and covers that are not zero at internal nodes, and rows whose tested entries can be read; a feature may be tested any number of times on a path. Follows from C16 and the efficiency of the Shapley value (shapley_efficient)."},
"C16": {"status": "proved", "note": "Exact arithmetic. The model of extend_path, unwind_path, unwound_path_sum and tree_shap is shown to compute the Shapley values of the game given by CondExp (Spec/Shapley.lean), summed over the trees used; the bias is the base score plus the expectations with nothing known."},
"C61": {"status": "proved", "note": "C61_fit_shift (the whole outcome of fit, including errors and panics), C61_init (with initialize_base_score the given base score is not used), C61_predict_shift. Exact arithmetic; the metric hypothesis only matters when evaluation sets are given."},
"C62": {"status": "proved", "note": "Fit: exact arithmetic (rationals or reals; no rounding), with finite results; C77 covers rounded arithmetic by another argument. Prediction: any arithmetic. The panics that the hypotheses exclude are real: C38_panic (forced children with mixed constraints), C58 (empty list of evaluation sets), bins beyond u16, AUC of an empty set."},
"C63": {"status": "proved", "note": "Any arithmetic. C63_fit, C63_predict, C63_dependence for transformations meeting Respects; C63_increasing shows that functions strictly increasing on the values of each column meet it (values and images below the greatest number). Hypotheses on the oracles: the sort depends on comparisons only (Sorter.Natural, true of a comparison sort), the heap on scores only (HeapPick.ByScore, as Ord for SplittableNode compares gain_value only)."},
"C64": {"status": "proved", "note": "C64_leaf_indices, C64_contributions, C64_history in any arithmetic (history: ordering laws of f64, as C21); C64_rows_sum in exact arithmetic with finite node values, from C12. The class is modelled in Model/PyBooster.lean."},
"C65": {"status": "proved", "note": "Any arithmetic with down (up x) = x (f32 to f64 to f32, an identity of IEEE numbers). Made is the set of instances reachable by the listed calls, with failing fits included. Storable as in C26 (finite numbers, missing finite or NaN). Rounding of the seven f32 parameters and translation of constraints (C55, C60 say what is lost there) are stated exactly by PyBooster.reloaded."},
"C66": {"status": "partial", "note": "False in general: feature_names_in_ of the old instance remains (C66_stale: after fit on a data frame, set_params() and fit on an array, predict on a frame with other names raises, the new instance predicts). C66_set_params_partial: everything else is the new instance, and fits on data frames (or of an instance without names) are identical."},
"C67": {"status": "partial", "note": "False in general: n_features_ and feature_names_in_ are overwritten before anything is checked (C67_changed). C67_failed_fit_partial: parameters and booster are unchanged apart from constraints, terminated features and metadata; predictions, leaf indices and contributions are unchanged on arrays, and on all frames if the names did not change."},
"C68": {"status": "partial", "note": "False in general: stale names after a fit on a wider array (C68_stale, KeyError), and duplicate column names (C68_duplicate). C68_names_partial: data frames with distinct names; C68_array_partial: arrays for instances never fitted on a data frame. Column sampling by a source with Rng.Ok."},
"C69": {"status": "proved", "note": "Any arithmetic. The hypothesis on the prediction iteration is needed (example at the end of Props/PyRefit.lean). Stale names: C66_stale."},
"C70": {"status": "proved", "note": "Any arithmetic; TableRoute (Spec/Table.lean) reads the table only. Column sampling by a source with Rng.Ok. pandas' conversion of None to NaN in Split is not modelled."},
"C71": {"status": "partial", "note": "False in general (C71_counterexample: falls from 1/4 to -1/4 under a Positive constraint, because bounds are not applied at splits on unconstrained features, as in C11). C71_tree_partial, C71_booster_partial, C71_plot_partial (the array of the Python class): holds when all splits below splits on constrained features are constrained."},
"C72": {"status": "proved", "note": "Exact arithmetic, no sampling of rows; the heap may look at scores only. C72_copies for copies in general, C72_row_order for orders. Equality of the results of fit as a whole."},
"C73": {"status": "proved", "note": "Exact arithmetic, no sampling of rows; equality of the results of fit and fit_unweighted as a whole."},
"C74": {"status": "partial", "note": "The general claim is false of the code: C74_counterexample. Proved for dropped rows whose features occur in a row that is kept, whatever their targets."},
"C75": {"status": "proved", "note": "Any arithmetic, except that the default passes its own checks (C75_default) is for exact arithmetic."},
"C76": {"status": "proved", "note": "Grids: any arithmetic with ordered comparison. Success (C76_total): exact arithmetic, under the hypotheses of PlainFit. C76_sentinel: with a numeric missing value the samples can equal it though exclude_missing=True."},
"C77": {"status": "proved", "note": "Any arithmetic with Fl.OrdLaws (order of f64) and Fl.ZeroLaws (0 + 0 = 0, the cast of 0 is 0); instances for exact formats and for the IEEE formats b32/b64 of Spec/Ieee.lean (Ieee.fmt_rounds). Not covered: create_missing_branch together with force_children_to_bound_parent, whose assertions can fail (C38_panic)."},
"C78": {"status": "partial", "note": "Proved in exact arithmetic (C78_reached_partial). False in the f32/f64 arithmetic of the program: C78_counterexample trains the model in IEEE arithmetic on seven rows, one of weight 2^24, and gets a leaf of cover 2 that no training row reaches (the same data refute the claims of C01 and C02 on covers and leaf values outside exact arithmetic)."},
"C79": {"status": "partial", "note": "Proved in exact arithmetic (C79_range_partial, C79_initialised_partial). False in the f32/f64 arithmetic of the program: C79_counterexample, where targets between 1 and 100 give predictions of 200 on training rows and -1 on a new row, because the f32 histogram of the larger child is the difference of two rounded sums."},
"C80": {"status": "proved", "note": "For monotone, odd, idempotent roundings (instances binary32/binary64). Hypotheses: fit succeeded; the missing branch is imputed, or created with treatment none or assignToParent (not an average); max_delta_step is an f32; l2 and min_leaf_weight are at least 0; positive finite learning rate; finite node values; base score not NaN; no unconstrained split below a constrained one (as in C11; the example C11_counterexample shows the need for it already in exact arithmetic) or all splits constrained."},
"C81": {"status": "proved", "note": "C81_prediction, C81_contributions: any format whose sums of representable numbers have relative error at most u (class Accurate; instances: exact formats with u = 0, f32 with 2^-24, f64 with 2^-53), leaf values converted from the narrow format. C81_f64: the explicit bound n/2^52. C81_fitted: the node values of every fitted model are numbers of the narrow format, so the hypothesis Stored only asks this of the base score. Not covered: overflow (the bound is for finite results), and the other contribution methods."},
"C82": {"status": "proved", "note": "exact arithmetic; C82_sqrt shows that the real square root meets the hypothesis on sqrt"},
"C83": {"status": "proved", "note": "exact arithmetic; C83_unconverted shows that the parameters must be converted"},
"C84": {"status": "proved", "note": "any odd monotone rounding (Fmt.Rounds), including binary32/binary64; the model has one zero only"},
"C85": {"status": "proved", "note": "real arithmetic (realFmt)"},
"C86": {"status": "proved", "note": "Any element type. Changes of a column keep its length, as a slice does."},
"C87": {"status": "partial", "note": "False of the code: C87_false has a witness. C87_partial states what n_records is and exactly when it is the number of elements."},
"C88": {"status": "proved", "note": "The formatting of one number is a parameter."},
"C89": {"status": "proved", "note": "All roundings. The evaluation sets have as many targets and weights as rows."},
"C90": {"status": "partial", "note": "False of the code for the sample method: C90_false has a witness. C90_partial and C90_rejected give the claim for the other names and say what an unknown sample method does."},
"C91": {"status": "partial", "note": "False without a limit on the steps (witness: two rows, one leaf, p = 0.99, the loss rises from under 10 to over 40). Proved for every booster whose learning rate and max_delta_step satisfy exp(lr*mds) <= 1 + lr*mds + lr*mds^2, without constraints and with imputed missing values; with lr*mds^2/2 also with monotone constraints, forced children and missing branches (same treatments as C52_gain_partial). Rests on log(1+e^(x+v)) <= log(1+e^x) + s v + s(1-s)(e^|v|-1-|v|), proved for all reals."},
"C92": {"status": "proved", "note": "Real arithmetic. C92_no_weight covers weights that are all zero."},
"C93": {"status": "proved", "note": "Real arithmetic, under the conditions under which C52 and C91 hold. Uses C21 for the history and C92 for the metric."},
"C94": {"status": "partial", "note": "False at the root when l1 or max_delta_step is used (C94_false: a tree stays a single leaf although a split lowers the objective). Proved for every other leaf and for the root without these (C94_leaf_partial for any sample of rows, C94_booster_partial in terms of the loss of a booster)."},
"C95": {"status": "proved", "note": "C95_values is one round, C95_rounds all rounds, C95_rows the single rows. C95_xor shows that distinct rows without a column of distinct values are not enough."},
"C96": {"status": "proved", "note": "Number printing is a parameter: any injective printer without comma, closing bracket or line break. C96_fields: nodes agree in all shown fields; C96_tree and C96_model: same predictions, leaves and importances; C96_base: the base score is not in the dump."},
"C97": {"status": "partial", "note": "The claim is false of the code: C97_native (native boosters are refused), C97_link (count:poisson and other links), C97_double (f64 data near a condition). C97_predict_partial covers the rest; C97_total: every row reaches a leaf. XGBoost's reading of a dump and its links are a specification written from its documentation; XGBoost adds leaf values in f32, the theorem gives the f64 sum."},
"C98": {"status": "proved", "note": "Exact arithmetic; the generator's numbers are the M equally likely multiples of 1/M, independent of each other (an assumption about rand's gen_range, M = 2^23 for f32 and 2^52 for f64). Hypothesis Truncates says that conversion to usize cuts off the fraction (proved for the rationals)."},
"C99": {"status": "partial", "note": "The claim is false of the code for strings (C99_quote, C99_changed); C99_string_iff says exactly which strings come back. literal_eval is specified in Spec/PyLiteral (string literals of the Python reference; integers in decimal); numpy's tolist, array and reshape are specified in Model/Serialize; JSON in between is assumed to round trip. Floats are not modelled."},
"C100": {"status": "proved", "note": "In IEEE f32/f64 with rounding. C100_tree and C100_children_tree hold in any format that represents the multiples; C100_sharp shows that the bound 2^24 cannot be dropped."},
"C101": {"status": "proved", "note": "In IEEE f32/f64 with rounding. C101_tree holds for any formats whose sums have a relative error; C101_bound gives the size of the bound for up to 2^24 rows. The bound is measured against the absolute gradients of the whole sample, not of the node: histogram subtraction cancels."},
"C102": {"status": "proved", "note": "C102_prefix compares any two successful fits; C102_evaluation and C102_base compare with the fit without evaluation data; C102_fewer also proves that the shorter fit succeeds. Any arithmetic, any environment; logging and threads are not modelled, so log_iterations and parallel are unused fields."},
"C103": {"status": "proved", "note": "C103_copy: an appended copy of a column (same constraint) leaves the fitted booster unchanged in every field; C103_constant: the same for a column of one value, a number or the mark of missing values; C103_predict: predictions and leaf indices on wider data; C103_constraint: a concrete case shows that the copy must carry the same constraint. Column sampling (colsample_bytree other than 1) is excluded because it draws from the wider list of columns."},
"C104": {"status": "proved", "note": "Any arithmetic. C104_predict: predictions and leaves. C104_contributions, C104_zero: every method. C104_dependence, C104_importance: partial dependence and importances. C104_fitted: data with appended columns."},
"C105": {"status": "proved", "note": "Any arithmetic, equality of results including errors and panics. C105_fit: training. C105_predict: predictions, leaves and contributions. C105_dependence: partial dependence."},
"C106": {"status": "partial", "note": "Proved in exact arithmetic (C106_tree_partial for the sums of hessians, C106_present_partial for whole boosters). False in f32/f64: C106_counterexample, where sums obtained by subtraction leave a remainder of hessian in bins without rows. C106_allowed shows that the flag matters."},
"C107": {"status": "proved", "note": "C107_candidate holds in every rounding arithmetic (with NaN as in IEEE), C107_left_present for whole fits in exact arithmetic. C107_witness is a fit that consequently does not separate the missing values although allow_missing_splits is on."},
"C108": {"status": "proved", "note": "C108_cut: depth limits, policies and heaps; C108_leaves: leaf limits, node by node; C108_booster: first trees of two fits. Values of inner nodes are exempt when average_leaf_weight replaces them after growing."},
"C109": {"status": "partial", "note": "False in floating point: C109_counterexample trains two f32 boosters whose roots are split at different columns because two neighbouring gains tie after gamma is subtracted. C109_refused holds in any rounding arithmetic; C109_cut_partial and C109_booster_partial prove the claim in exact arithmetic."},
"C110": {"status": "proved", "note": "Ranking: any arithmetic. Swapped labels, negated scores, constant scores, perfect ranking: exact arithmetic. Correct rounding: f64 with labels 0/1, whole weights and total weight at most 2^26."},
"C111": {"status": "proved", "note": "C111_value, C111_step, C111_dependence: any arithmetic; C111_floor: any arithmetic with an ordered comparison; C111_below: exact arithmetic, without splits that only separate missing values; C111_below_counterexample: with allow_missing_splits a number below the training range goes with the missing values."},
"C112": {"status": "partial", "note": "Predictions, contributions, accuracy and fitted node values are proved for f32/f64. The part 'training on finite data gives a finite model' is false of the code; C112_training_counterexample proves it."},
"C113": {"status": "proved", "note": "C113_fit: the fit on the kept columns is the renumbered fit, every field; C113_predict, C113_same: predictions and leaves; C113_entries: what the restricted data hold; C113_order: witness that the order of the columns must be kept. Column sampling is excluded because its draws depend on the number of columns."},
"C114": {"status": "proved", "note": "C114_leaf: at most max_depth entries decide the leaf of a row; C114_columns: fewer than max_leaves columns per tree; C114_stump and C114_additive: max_depth = 1; C114_interaction: witness with max_depth = 2."},
"C115": {"status": "proved", "note": "C115_settings, C115_seed: fit commutes with replacing idle settings (also for failing fits); C115_nbins: nbins beyond the number of different values (comparison must be a strict order); C115_base_score; C115_sampling: witness that the seed matters with sampling. log_iterations is idle because log output is not modelled."},
"C116": {"status": "proved", "note": "C116_structure, C116_weights: any arithmetic, sampling and splitter, evaluation sets may differ. C116_scaled, C116_single: exact arithmetic. C116_second: witness that the second tree is not scaled."},
"C117": {"status": "proved", "note": "C117_fit, C117_others; C117_order: witness. The hypothesis on the booster (no record of metrics without trees) holds for every booster made by the constructors or by a fit."},
"C118": {"status": "proved", "note": "C118_tree: zero gradients grow a leaf of value zero. C118_settled: the booster, any objective. C118_perfect, C118_constant: squared loss. C118_constant_mean: computed base score, exact arithmetic; C118_rounded_mean: in floating point the computed base score is rounded, so constant targets of 0.1 are not predicted exactly. l2 > 0 excludes 0/0 = NaN for rows of weight zero."},
"C119": {"status": "partial", "note": "False of the code for targets and weights: C119_counterexample (the first column of a row-major float64 array as y). C119_rejected: such targets are never accepted and nothing is trained. C119_frame, C119_predict: features, any layout. C119_vector: exactly which targets and weights are read. C119_fit_partial: with readable targets and weights fit depends on the numbers only."},
"C120": {"status": "partial", "note": "False of the code: C120_counterexample (l2 = 1, four rows), C120_leaf_limit (l2 = 0, max_leaves = 3). C120_tree_partial and C120_partial prove it for l2 = 0, force_children_to_bound_parent off and leaf limits not reached, in exact arithmetic, for all rows used or a positive total weight as in PlainFit."},
"C121": {"status": "proved", "note": "On the character level. serde_json is a dependency; its writer, its escapes and its reader are modelled in Model/JsonText.lean. That floats read back is the hypothesis NumText.Exact: it is what the feature float_roundtrip of serde_json (Cargo.toml 20) is for. UTF-8 encoding of the file, serde_json's recursion limit (128, not reached by these documents) and its range checks of numbers in skipped members are not modelled."},
"C122": {"status": "proved", "note": "Exact arithmetic; for rounding errors of node values see C101. C122_missing_branch shows that the proviso on missing values is needed."},
"C123": {"status": "proved", "note": "Exact arithmetic."},
"C124": {"status": "proved", "note": "The file is a sequence of bytes and the text is its UTF-8 decoding. As in C121 the texts of numbers are an assumption (NumText.Exact), and the model must be storable (no infinite or NaN value where JSON has none, C26). The write is that of fs::write: open with truncation, then write all bytes."},
"C125": {"status": "proved", "note": "Messages are values with their arguments; LogMsg.text gives the text. The part on early stopping uses the laws of comparisons (Fl.OrdLaws). The history must be that of this fit (b.trees ≠ [] or no history), as in C21. Messages before a panic are not in the model."},
"C126": {"status": "proved", "note": "C126_targets, C126_weights, C126_predict; C126_product: the factor is multiplied as the machine would; C126_agrees: where the rounding is that of f32 and f64; C126_range and C126_other_factors: what fails otherwise. The square root used by the metric must satisfy sqrt(4^k x) = 2^k sqrt(x) (wide_sqrt shows one that does). The exact version of C82 and C83 is a special case of the same lemmas."},
"C127": {"status": "proved", "note": "C127_fit, C127_missing; C127_split_value: the split value shows the sign. The arithmetic SZ adds the negative zero to FX; training looks at features through comparisons only (C63)."},
"C128": {"status": "proved", "note": "C128_fit: for every UsizeSub the second version of training (Model/Usize, the subtraction is a parameter) returns what the model returns; C128_total: with the arguments of C77 no hypothesis on the result is left; C128_shapley: equality for any booster. C128_bin_zero: the partition of a ternary split called with split bin 0 would give counts out of order, so the property is not one of the partition alone."},
"C129": {"status": "proved", "note": "C129_fit, C129_no_alarm: against firstProblem, which lists the arrays and their problems directly; C129_distinct: texts of problems are different (needs that decimal numbers are); C129_new, C129_parameter: the constructor."},
"C130": {"status": "proved", "note": "C130_exact from C09_booster and C19; C130_float from C09_float with monotone rounding. Both examples reach the bound."},
"C131": {"status": "proved", "note": "C131_fit, C131_same; the hypothesis fitsClearly runs the fit and checks every searched node; C131_clear says what the check needs in terms of candidate splits. That ties do decide is C113_order."},
"C132": {"status": "proved", "note": "C132_init: the base score; C132_fit: trees and predictions; C132_history: the metric is NaN; C132_save: the text cannot be loaded; C132_no_l2: the case l2 = 0. That one is a number of the format is a hypothesis, shown for f64 in the example."},
"C133": {"status": "proved", "note": "C133_known and C133_unknown: partial dependence of a tree is the expectation with one feature, or none, known. C133_game: the same for a booster, for the very games of C16_shapley. C133_additive: contributions and predictions of models with one feature per tree. C133_fitted: fitted models with max_depth at most 1 (the covers add up: FitView.coversAdd). C133_interaction: a fit with max_depth 2 where the contribution is not the partial dependence less the bias."},
"C134": {"status": "proved", "note": "C134_fall: the inequality for one tree (L1, max_delta_step, monotone constraints, forced bounds and missing branches allowed, under the same settings as C52_gain_partial). C134_total: over all trees, with the importances that calculate_feature_importance returns. C134_equal: equality for a learning rate of 1. C134_rate: equality for every learning rate. C134_logistic: log loss with short steps falls by at least half the learning rate times the gains. Outside these settings the values of nodes are overwritten after the gains are stored, see C52_average_counterexample."},
"C135": {"status": "proved", "note": "C135_squared and C135_logistic, from C134_fall, C134_logistic and C08_gamma. The condition on max_delta_step for log loss is that of C91_gain_partial."},
"C136": {"status": "proved", "note": "C136_balance is the general statement, C136_count the case of equal weights and distinct values. Exact arithmetic; values finite and at most f64::MAX, weights finite and not negative (zero total weight included)."},
"C137": {"status": "proved", "note": "C137_ignored and C137_used: base score; C137_sets: evaluation sets (through C117); C137_order: names; C137_after_fit: set_params after fit, with the concrete case C137_after_fit_case (a warning although nothing was modified)."},
"C138": {"status": "proved", "note": "C138_bins (same cut points and bins), C138_fit (fit on rounded data is fit on the data, also when it fails), C138_predict (outputs on rounded data), C138_exists (rounding is possible). The values are FX m: the model has one zero, so equal numbers are the same; values above the greatest finite number are excluded as in C28."},
"C139": {"status": "proved", "note": "C139_tree (a tree reads the gradients of its rows), C139_rows (targets and weights), C139_targets (targets only), C139_initial_score (witness that a given initial score is needed). The drawn rows are specified from the generator alone (Spec/Drawn.lean). Drawn rows are counted over all iterations, also when training stops early."},
"C140": {"status": "proved", "note": "C140_rounded is the claim in f32/f64 with rounding (covers are exact there by C100), C140_single its consequence for light data, C140_exact the claim in exact arithmetic for both objectives, C140_sharp a fit that reaches the bound. The count of splits is the count of nodes that are not leaves, the depth is the length of the path from the root."},
"C141": {"status": "proved", "note": "C141_fit is the claim; its hypothesis on the wide format is exactness, the narrow format is arbitrary. C141_rounded is a run in f32 and f64 with rounding where the predictions differ. Column sampling is off because it consumes the same generator."},
"C142": {"status": "proved", "note": "C142_fit is the claim, for runs in exact arithmetic. C142_rounded is a run in f32 and f64 where the predictions differ, which is why exactness is assumed."},
"C143": {"status": "proved", "note": "C143_rmse and C143_perfect are the general statements, C143_f64 the bound in f64. C143_overflow shows that the hypothesis on the sum of the weights is needed."},
"C144": {"status": "proved", "note": "C144_bound for any explainable model, C144_fitted for fitted models with max_delta_step."},
"C145": {"status": "partial", "note": "False in general: C145_counterexample is a fitted model with one constrained and one unconstrained feature where the contribution falls from 9/8 to -9/8. C145_booster_partial proves it for models whose splits below splits on constrained features are all on constrained features."},
"C146": {"status": "proved", "note": "C146_average is the full characterisation, against MeanPath and CondExp; C146_bias, C146_single and C146_fitted are the comparisons with C16. An example shows that with max_depth 2 the methods disagree. Exact arithmetic."},
"C147": {"status": "proved", "note": "C147_path holds in any arithmetic, operation by operation; C147_bound is for real arithmetic with the real exponential."},
"C148": {"status": "proved", "note": "C148_tree is about the changes of one tree (any objective and sampling), C148_balance about predict_contributions of the fitted booster with squared loss and no sampling. With log loss the covers are second derivatives that change from tree to tree, so only the statement per tree holds."},
"C149": {"status": "proved", "note": "Extends C34, which is about AssignToParent and Weight only. C149_probability is about trees whose missing branches keep the value of the parent; fit_keepsParent shows that fitted trees are such under the settings named."},
"C150": {"status": "proved", "note": "C150_nodes is about the values in the nodes, C150_contributions about predict_contributions, C150_balance is the consequence by C148. For fits with missing branches and AverageLeafWeight see C35."},
"C151": {"status": "proved", "note": "The heap breaks ties in the second fit as it did in the later iterations of the first (hypothesis hH; the real heap is the same in every iteration). In floating point the residuals are rounded, so the statement is about exact arithmetic."},
"C152": {"status": "proved", "note": "C152_weight and C152_gain are about any rounding arithmetic with representable inputs; C152_root about whole fits in exact arithmetic."},
"C153": {"status": "proved", "note": "C153_weight and C153_value are about any rounding arithmetic; C153_root about whole fits in exact arithmetic."},
"C154": {"status": "proved", "note": "precision_round is modelled in exact arithmetic only (10^precision is not exact in f64 for negative precisions)."},
"C155": {"status": "proved", "note": "C45 covers levels below 1, repeated levels and weights of zero; here 1 is allowed. The two cases outside the conditions are concrete witnesses (C155_twice, C155_no_weight)."}
}
