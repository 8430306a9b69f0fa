{"id": "C01", "title": "Training rows reach at predict time the leaf they were counted in", "statement": "After fitting a tree (exact arithmetic, min_leaf_weight > 0), every row that took part in the fit reaches, through the prediction routine on its raw feature values, a leaf whose stored cover is exactly the sum of the hessians of the training rows that reach that leaf; the same holds at every internal node.", "quantifier": "for all data sets, missing sentinels, gradients, hessians, parameters, grow policies and row/column samples", "why_tests_cant": "The pivot of row indices, the bin boundaries and the raw-value comparison live in four different functions; only a proof covers every interleaving of ties, missing values and bins.", "anchors": ["src/tree.rs Tree::fit, predict_leaf", "src/splitter.rs handle_split_info", "src/utils.rs pivot_on_split, pivot_on_split_exclude_missing, map_bin", "src/node.rs get_child_idx"]}
{"id": "C02", "title": "Leaf values are the regularised Newton step of the rows in the leaf", "statement": "Without monotone constraints and with force_children_to_bound_parent=false, the value stored in each non-missing-branch node of a fitted tree (with AverageLeafWeight: in each non-missing-branch leaf) equals learning_rate times the (l1, l2, max_delta_step) regularised weight computed from the gradient and hessian sums of exactly the training rows that reach that node.", "quantifier": "for all data sets, gradients, hessians and regularisation parameters (exact arithmetic)", "why_tests_cant": "The weight is computed from incrementally subtracted histograms; tests check a few sums on one data set.", "anchors": ["src/splitter.rs evaluate_split", "src/utils.rs weight, constrained_weight", "src/histogram.rs HistogramMatrix::from_parent_child"]}
{"id": "C03", "title": "Fitted trees are well formed and every prediction terminates in a leaf", "statement": "A fitted tree's nodes are stored at the position given by their number; children of an internal node have larger numbers, are in range and are distinct; each non-root node is the child of exactly one node; hence for every input row prediction stops at a leaf without out-of-range access (up to the documented NaN panic).", "quantifier": "for every splitter, grow policy, data set and any floating point arithmetic at all", "why_tests_cant": "Structure is built by mutation over a work list; no finite set of examples rules out a dangling or shared child.", "anchors": ["src/tree.rs Tree::fit, predict_leaf", "src/node.rs update_children", "src/splitter.rs handle_split_info"]}
{"id": "C04", "title": "Tree depth never exceeds max_depth", "statement": "Every node of a fitted tree has depth at most max_depth, and its stored depth equals its distance from the root.", "quantifier": "for all parameters, data, grow policies and splitters, any arithmetic", "why_tests_cant": "The check is off-by-one prone (depth is compared after increment) and must hold for all work-list orders.", "anchors": ["src/tree.rs Tree::fit", "src/splitter.rs handle_split_info"]}
{"id": "C05", "title": "max_leaves is respected by trees without a missing branch", "statement": "With create_missing_branch=false a fitted tree has at most max(1, max_leaves) leaves, and the number of nodes is 2*leaves-1.", "quantifier": "for all parameters, data and grow policies, any arithmetic", "why_tests_cant": "The running leaf counter is maintained separately from the node list; agreement is an invariant over all executions.", "anchors": ["src/tree.rs Tree::fit", "src/splitter.rs Splitter::new_leaves_added"]}
{"id": "C06", "title": "max_leaves with create_missing_branch=true", "statement": "With create_missing_branch=true a fitted tree should have at most max(1, max_leaves) leaves. (The inherent method returning 2 is never called through the generic parameter, so the bound is only max(1, max_leaves + 1), and it is reached.)", "quantifier": "for all parameters, data and grow policies, any arithmetic", "why_tests_cant": "The defect is in method resolution and only shows when the leaf budget binds on a ternary tree.", "anchors": ["src/splitter.rs MissingBranchSplitter::new_leaves_added", "src/tree.rs Tree::fit"]}
{"id": "C07", "title": "min_leaf_weight is a lower bound for the cover of both sides of every split", "statement": "In every fitted tree the left and right child of every split have a stored cover that is not below min_leaf_weight; only dedicated missing-branch nodes are exempt.", "quantifier": "for all data, parameters and arithmetic", "why_tests_cant": "The check is made on candidate statistics before missing rows are assigned and must survive until the stored node.", "anchors": ["src/splitter.rs evaluate_split, best_feature_split", "src/node.rs update_children"]}
{"id": "C08", "title": "gamma is a strict lower bound for the gain of every split kept", "statement": "Every internal node of a fitted tree stores a split_gain strictly larger than gamma, and split_gain is the children gains minus the node's own gain.", "quantifier": "for all data and parameters (arithmetic in which 0 < a-b implies b < a)", "why_tests_cant": "Tests look at a handful of trees; the recomputation with gamma=0 in update_children must agree with the selection score on every path.", "anchors": ["src/splitter.rs best_feature_split, best_split", "src/node.rs get_split_gain, update_children"]}
{"id": "C09", "title": "max_delta_step bounds every node value", "statement": "If max_delta_step is positive, every node value of every fitted tree has magnitude at most learning_rate*max_delta_step, for every missing treatment and with or without monotone constraints and AverageLeafWeight clean-up.", "quantifier": "for all data and parameters (exact arithmetic)", "why_tests_cant": "Bounds, averaging, parent bounding and clean-up all rewrite weights after the clamp.", "anchors": ["src/utils.rs weight, constrained_weight, bound_to_parent", "src/splitter.rs update_average_missing_nodes"]}
{"id": "C10", "title": "Monotone constraints: every split feature constrained", "statement": "If every feature that the tree splits on has a Positive or Negative constraint, then the model's prediction is monotone in each constrained feature (rows equal elsewhere, both values present), in the required direction.", "quantifier": "for all data, all pairs of rows, all parameters and both splitters (exact arithmetic)", "why_tests_cant": "Monotonicity quantifies over all pairs of rows; tests sweep one feature on one data set.", "anchors": ["src/utils.rs constrained_weight, cull_gain", "src/splitter.rs evaluate_split, handle_split_info"]}
{"id": "C11", "title": "Monotone constraints: mixed constrained and unconstrained features", "statement": "A Positive/Negative constraint on a feature should make predictions monotone in it even when other features are unconstrained. (False: bounds are not applied to a split on an unconstrained feature.)", "quantifier": "for all data, all pairs of rows and all parameters", "why_tests_cant": "The violation needs an unconstrained split below a constrained one; the repository's tests constrain every feature.", "anchors": ["src/utils.rs constrained_weight", "src/splitter.rs evaluate_split"]}
{"id": "C12", "title": "Weight contributions add up to the prediction", "statement": "For predict_contributions with method Weight, the sum of a row's contributions including the bias column equals the predicted value of the row.", "quantifier": "for all models with finite node values, all rows, all prediction_iteration values (exact arithmetic)", "why_tests_cant": "Sum identities over every path of every tree.", "anchors": ["src/tree.rs predict_contributions_row_weight", "src/gradientbooster.rs predict_contributions_tree_alone"]}
{"id": "C13", "title": "Average contributions add up to the prediction", "statement": "For predict_contributions with method Average, the sum of a row's contributions including the bias column equals the predicted value.", "quantifier": "for all models with finite node values and non-zero covers, all rows (exact arithmetic)", "why_tests_cant": "The method recomputes internal node averages by recursion; the telescoping must hold on every path.", "anchors": ["src/tree.rs predict_contributions_row_average, distribute_leaf_weights", "src/gradientbooster.rs predict_contributions_average"]}
{"id": "C14", "title": "ProbabilityChange contributions add up to the predicted probability", "statement": "For a LogLoss model, ProbabilityChange contributions of a row including the bias sum to the logistic transform of the predicted log odds; for other objectives the call is refused.", "quantifier": "for all models, all rows (exact arithmetic, any logistic function)", "why_tests_cant": "The running log odds must be threaded through the trees in order; tests compare with tolerance on one model.", "anchors": ["src/tree.rs predict_contributions_row_probability_change", "src/gradientbooster.rs predict_contributions_probability_change"]}
{"id": "C15", "title": "Shapley contributions add up to the prediction", "statement": "For predict_contributions with method Shapley, the sum of a row's contributions including the bias column equals the predicted value (local accuracy).", "quantifier": "for all models with finite values, non-zero covers at internal nodes, all rows, any repetition of features along a path (exact arithmetic)", "why_tests_cant": "The EXTEND/UNWIND path algebra is combinatorial; tests use one model and a tolerance.", "anchors": ["src/shapley.rs tree_shap, extend_path, unwind_path, unwound_path_sum"]}
{"id": "C16", "title": "Shapley contributions are the Shapley values of the cover-weighted game", "statement": "The contribution of a feature equals its Shapley value in the cooperative game that values a set of features by the cover-weighted conditional expectation of the tree with those features known.", "quantifier": "for all trees and rows (exact arithmetic)", "why_tests_cant": "The defining sum ranges over exponentially many coalitions.", "anchors": ["src/shapley.rs tree_shap"]}
{"id": "C17", "title": "A row's prediction depends on that row only", "statement": "predict on a matrix returns, at position i, the value obtained from base_score and the trees on row i alone; permuting, dropping or adding rows permutes, drops or adds predictions.", "quantifier": "for all models and matrices, any arithmetic", "why_tests_cant": "Column-major indexing makes cross-row mix-ups possible for shapes not in the tests.", "anchors": ["src/data.rs Matrix::get", "src/tree.rs predict", "src/gradientbooster.rs predict"]}
{"id": "C18", "title": "The parallel flag does not change results", "statement": "For predict, predict_leaf_indices, predict_contributions, histogram construction and training as a whole the result with parallel=true equals the result with parallel=false, for every division of the columns and every order in which the workers write the rows; two boosters that differ in the flag only are trained to boosters that differ in the flag only. For partial dependence it does so when addition is associative, which f64 addition is not: there the value depends on how the pool divides the trees.", "quantifier": "for all inputs and all interleavings of the workers", "why_tests_cant": "A test run exercises one schedule.", "anchors": ["src/tree.rs predict", "src/gradientbooster.rs predict_contributions, value_partial_dependence", "src/histogram.rs HistogramMatrix::new", "src/gradientbooster.rs fit, fit_trees", "src/tree.rs fit", "src/splitter.rs split_node"]}
{"id": "C19", "title": "prediction_iteration selects a prefix of the trees", "statement": "With prediction_iteration = n the prediction is base_score plus the outputs of the first n trees in order; without it all trees are used; n larger than the number of trees is a panic.", "quantifier": "for all models, rows and n, any arithmetic", "why_tests_cant": "Prefix semantics for every n; tests use one or two values.", "anchors": ["src/gradientbooster.rs get_prediction_trees, predict, set_prediction_iteration"]}
{"id": "C20", "title": "Early stopping keeps the best iteration and stops on time", "statement": "After fitting with early_stopping_rounds, best_iteration is the first iteration whose recorded metric on the last evaluation set is not beaten by any other recorded one; prediction_iteration is best_iteration+1; training stopped at the first iteration that is early_stopping_rounds past the best, or ran all iterations.", "quantifier": "for all metric sequences including NaN, all rounds values and iteration counts", "why_tests_cant": "Depends on the entire history of metric values.", "anchors": ["src/gradientbooster.rs fit_trees, update_best_iteration", "src/metric.rs is_comparison_better"]}
{"id": "C21", "title": "Evaluation history records the metric of each model prefix", "statement": "Row k, column e of the evaluation history is the metric of evaluation set e applied to the predictions of the model consisting of base_score and the first k+1 trees; there is one row per tree.", "quantifier": "for all evaluation sets and iteration counts, any arithmetic", "why_tests_cant": "Incrementally updated predictions have to equal recomputed ones at every iteration.", "anchors": ["src/gradientbooster.rs fit_trees", "src/data.rs RowMajorMatrix::append_row"]}
{"id": "C22", "title": "Training predictions equal predictions of the model so far", "statement": "At each boosting iteration the gradients are those of the objective at the predictions that predict() would return for the training data with the trees fitted so far.", "quantifier": "for all data, objectives, sampling methods and iteration counts, any arithmetic", "why_tests_cant": "An invariant of the training loop over all iterations.", "anchors": ["src/gradientbooster.rs fit_trees, update_predictions_inplace"]}
{"id": "C23", "title": "Refitting gives the same model as fitting a fresh booster", "statement": "Calling fit on an already fitted booster yields the model that fit yields on a freshly constructed booster with the same parameters; in particular fitting twice equals fitting once.", "quantifier": "for all parameters, data and previous fits", "why_tests_cant": "Quantifies over the history of the object; state that survives reset is invisible in single-fit tests.", "anchors": ["src/gradientbooster.rs fit, fit_trees, reset"]}
{"id": "C24", "title": "Input validation of fit, and failed fits leave the booster unchanged", "statement": "fit returns an error iff y contains NaN or a sample weight is negative or NaN, in the training data or any evaluation set, and in that case the booster is unchanged.", "quantifier": "for all inputs", "why_tests_cant": "Position of the offending element is arbitrary; atomicity is about all failing inputs.", "anchors": ["src/gradientbooster.rs fit", "src/utils.rs validate_not_nan_vec, validate_positive_vec, validate_positive_not_nan_vec"]}
{"id": "C25", "title": "Constructor validation", "statement": "Constructing a booster succeeds iff each validated numeric parameter is not NaN and not negative; the error names a parameter that is out of range.", "quantifier": "for all parameter values including NaN and infinities", "why_tests_cant": "Ten parameters times special values.", "anchors": ["src/gradientbooster.rs new, validate_parameters", "src/utils.rs validate_float_parameter, validate_positive_float_parameter"]}
{"id": "C26", "title": "JSON round trip", "statement": "Dumping a booster to JSON and loading it gives back the same booster whenever its floats are finite (missing may be NaN); fields with a documented default may be absent from the text and then take that default.", "quantifier": "for all boosters with finite floats and all subsets of defaulted fields removed", "why_tests_cant": "Universally quantified over models.", "anchors": ["src/gradientbooster.rs json_dump, from_json, parse_missing, serde defaults"]}
{"id": "C27", "title": "JSON round trip with non-finite floats", "statement": "Every booster that can be fitted and dumped can be loaded again. (False: a NaN in the evaluation history or an infinite base_score is written as null and refused on load; an infinite missing comes back as NaN.)", "quantifier": "for all boosters", "why_tests_cant": "Requires models with unusual values, which the tests never save.", "anchors": ["src/gradientbooster.rs json_dump, from_json", "src/metric.rs roc_auc_score", "src/objective.rs calc_init"]}
{"id": "C28", "title": "Binning is order preserving and exact at the cut points", "statement": "For every feature the cut points are strictly increasing (finite data); a value is missing iff it gets bin 0; and for every usable split bin b with cut value c, a value has bin < b iff the value is < c. Hence binned training decisions are raw-value decisions.", "quantifier": "for all data columns, weights, nbins and values", "why_tests_cant": "Binary search boundaries, ties and duplicates.", "anchors": ["src/binning.rs bin_matrix, percentiles_or_value", "src/utils.rs map_bin"]}
{"id": "C29", "title": "Binning resolution and range", "statement": "If a feature has at most nbins+1 distinct values each gets its own bin; bin numbers fit in 16 bits for nbins <= 65533. (For nbins = 65535 fitting can panic; for nbins=0 fitting panics as soon as a feature has two distinct values.)", "quantifier": "for all data and nbins", "why_tests_cant": "The failing sizes are far outside of the tests.", "anchors": ["src/binning.rs percentiles_or_value, bin_matrix_from_cuts", "src/utils.rs map_bin"]}
{"id": "C30", "title": "Splitting a node neither loses nor duplicates rows", "statement": "Partitioning the rows of a node yields a permutation of the same rows: first (missing,) then left then right rows, with the reported boundaries, provided at least one row goes right; if none does, the boundary is off by one.", "quantifier": "for all index arrays, bins, thresholds, both missing directions", "why_tests_cant": "Hoare-style two-pointer loops with swaps; tests check a few arrays.", "anchors": ["src/utils.rs pivot_on_split, pivot_on_split_exclude_missing"]}
{"id": "C31", "title": "Histogram subtraction equals direct construction", "statement": "The histogram of a child obtained by subtracting the sibling(s) from the parent equals the histogram computed from the child's rows; histogram totals do not depend on the order of the rows.", "quantifier": "for all data, gradients, row partitions and column samples (exact arithmetic)", "why_tests_cant": "An identity over all inputs.", "anchors": ["src/histogram.rs HistogramMatrix::new, from_parent_child, from_parent_two_children, create_feature_histogram"]}
{"id": "C32", "title": "Row sampling", "statement": "Random sampling splits the rows into chosen and excluded, each row exactly once and in order. GOSS selects without repetition, always includes the floor(top_rate*n) rows of largest |gradient|, scales exactly the additionally selected rows by (1-top_rate)/other_rate and leaves all other gradients unchanged.", "quantifier": "for all random streams, gradients and rates", "why_tests_cant": "Quantifies over all random streams.", "anchors": ["src/sampler.rs RandomSampler::sample, GossSampler::sample"]}
{"id": "C33", "title": "Column sampling", "statement": "With colsample_bytree < 1 each tree splits only on the floor(rate*cols) columns sampled for it, and the histograms of sampled columns are those of the full data.", "quantifier": "for all random choices, data and rates, any arithmetic", "why_tests_cant": "Column offsets in the histogram are recomputed for the sample; a wrong offset shows only for certain samples.", "anchors": ["src/gradientbooster.rs fit_trees", "src/histogram.rs HistogramMatrix::new", "src/splitter.rs best_split"]}
{"id": "C34", "title": "AssignToParent makes missing values neutral", "statement": "With create_missing_branch and missing_node_treatment AssignToParent, every missing-branch child stores exactly its parent's value; so with method Weight a feature that is missing in a row contributes exactly 0.", "quantifier": "for all data, parameters, rows, any arithmetic (x - x = 0 for the contribution)", "why_tests_cant": "Universal over trees and rows.", "anchors": ["src/splitter.rs evaluate_split, handle_split_info", "src/tree.rs predict_contributions_row_weight"]}
{"id": "C35", "title": "AverageLeafWeight makes missing values neutral", "statement": "With AverageLeafWeight every missing leaf stores its parent's value, every internal node stores the cover-weighted average of its non-missing-leaf children, and Weight contributions equal Average contributions.", "quantifier": "for all data, parameters and rows (exact arithmetic)", "why_tests_cant": "A recursive post-pass over every tree shape.", "anchors": ["src/splitter.rs update_average_missing_nodes, clean_up_splits", "src/tree.rs get_average_leaf_weights"]}
{"id": "C36", "title": "AverageNodeWeight stores the weighted average of the siblings", "statement": "With AverageNodeWeight the missing child of each split stores the cover-weighted average of the values of the left and right child.", "quantifier": "for all data and parameters (exact arithmetic)", "why_tests_cant": "Universal over splits.", "anchors": ["src/splitter.rs evaluate_split"]}
{"id": "C37", "title": "Missing branches that must not be split are leaves", "statement": "If allow_missing_splits is false, or the split feature is listed in terminate_missing_features, or none of the training rows that reach the node is missing in the split feature, the missing-branch child of the split is a leaf of the final tree.", "quantifier": "for all data, parameters and grow policies; the first two conditions in any arithmetic, the third in exact arithmetic", "why_tests_cant": "Must hold for every execution of the work list.", "anchors": ["src/splitter.rs handle_split_info", "src/tree.rs Tree::fit"]}
{"id": "C38", "title": "force_children_to_bound_parent", "statement": "With force_children_to_bound_parent=true the parent's value lies between the values of its left and right child for every split. (Only the missing-branch splitter honours it; the other ignores the flag; mixed constrained/unconstrained features can make the internal assertion panic.)", "quantifier": "for all data and parameters (exact arithmetic)", "why_tests_cant": "Needs all splits of all trees.", "anchors": ["src/utils.rs bound_to_parent, between", "src/splitter.rs MissingBranchSplitter::evaluate_split"]}
{"id": "C39", "title": "Partial dependence is a cover-weighted average of leaf values", "statement": "The partial dependence of a tree at a feature value is a convex combination of leaf values; it equals the prediction if the tree uses only that feature, does not depend on the value if the tree does not use the feature, and equals the cover-weighted mean over the routes compatible with the value.", "quantifier": "for all trees with positive covers and all values (exact arithmetic)", "why_tests_cant": "Universal over trees and values.", "anchors": ["src/partial_dependence.rs tree_partial_dependence", "src/gradientbooster.rs value_partial_dependence"]}
{"id": "C40", "title": "Feature importance", "statement": "Weight importance counts the splits on each feature over all trees, TotalGain and TotalCover add the stored gains and covers, Gain and Cover are the per-split means; features never split on are absent; normalised importances sum to 1 when the total is not 0.", "quantifier": "for all models (exact arithmetic)", "why_tests_cant": "Universal over models.", "anchors": ["src/tree.rs calculate_importance_*", "src/gradientbooster.rs calculate_feature_importance"]}
{"id": "C41", "title": "AUC is the weighted Mann-Whitney statistic", "statement": "roc_auc_score equals the weighted fraction of (positive, negative) pairs ranked correctly, ties counting one half; it does not depend on the order of the rows nor on how the sort breaks ties, and lies between 0 and 1; it is NaN iff one class has no weight.", "quantifier": "for all labels in {0,1}, scores and weights", "why_tests_cant": "Ties and weights interact with the group-wise trapezoid sum; tests compare a few vectors.", "anchors": ["src/metric.rs roc_auc_score, trapezoid_area"]}
{"id": "C42", "title": "Base score minimises the training loss", "statement": "With initialize_base_score the base score is the weighted mean for SquaredLoss and the log odds of the weighted mean for LogLoss; the total gradient at it is 0.", "quantifier": "for all targets and weights for which it is defined (exact arithmetic / reals)", "why_tests_cant": "Optimality over all constants.", "anchors": ["src/objective.rs calc_init"]}
{"id": "C43", "title": "Gradient and hessian are derivatives of the loss", "statement": "For LogLoss the gradient and hessian are the first and second derivative of the loss in the raw prediction; for SquaredLoss they are those of half the squared error; the hessian is non-negative for non-negative weights.", "quantifier": "for all targets, predictions and weights (reals)", "why_tests_cant": "An analytic identity.", "anchors": ["src/objective.rs calc_grad_hess, calc_loss"]}
{"id": "C44", "title": "Grow policies", "statement": "DepthWise expands nodes in non-decreasing depth; LossGuide always expands a node whose own score is maximal among the open ones; without a binding leaf limit both policies produce trees with the same predictions.", "quantifier": "for all data and parameters, any arithmetic", "why_tests_cant": "Statement about all work-list histories.", "anchors": ["src/grower.rs", "src/node.rs Ord for SplittableNode", "src/tree.rs Tree::fit"]}
{"id": "C45", "title": "Weighted percentiles", "statement": "The percentile cut for level p is the smallest data value at which the cumulative sample weight share reaches p; the cuts are sorted and are members of the data.", "quantifier": "for all values, positive weights and increasing levels in [0,1) (exact arithmetic)", "why_tests_cant": "Cumulative loop with ties and skipped levels.", "anchors": ["src/utils.rs percentiles"]}
{"id": "C46", "title": "Unrolled summation equals the plain sum", "statement": "fast_sum and fast_f64_sum return the sum of all elements for every length.", "quantifier": "for all slices (exact arithmetic)", "why_tests_cant": "All lengths modulo the lane count.", "anchors": ["src/utils.rs fast_sum, fast_f64_sum"]}
{"id": "C47", "title": "Leaf indices agree with predictions", "statement": "predict_leaf_indices returns, in tree-major order, the number of the leaf each row reaches in each used tree, and summing the values of these leaves after base_score gives predict.", "quantifier": "for all models and matrices, any arithmetic", "why_tests_cant": "Layout for all shapes.", "anchors": ["src/gradientbooster.rs predict_leaf_indices", "src/tree.rs predict_leaf_indices"]}
{"id": "C48", "title": "NaN with a non-NaN missing sentinel", "statement": "If missing is not NaN, a prediction panics iff the row's route visits a feature holding NaN, and training panics iff the data contain NaN; if missing is NaN neither ever panics for this reason.", "quantifier": "for all trees and rows", "why_tests_cant": "Which cells are visited depends on the tree and row.", "anchors": ["src/utils.rs is_missing", "src/node.rs get_child_idx", "src/binning.rs bin_matrix"]}
{"id": "C49", "title": "Fitting a tree terminates", "statement": "For finite max_depth or finite max_leaves the tree growing loop terminates.", "quantifier": "for all data and parameters, any arithmetic", "why_tests_cant": "Termination over all executions.", "anchors": ["src/tree.rs Tree::fit"]}
{"id": "C50", "title": "The chosen split is the best candidate", "statement": "When a node is split, the split has the largest positive score among all candidates (feature, cut, missing side) evaluated for the node, ties going to the first; when no candidate has a positive score the node stays a leaf.", "quantifier": "for all histograms and parameters", "why_tests_cant": "Maximality over all candidates, including NaN scores.", "anchors": ["src/splitter.rs best_split, best_feature_split"]}
{"id": "C51", "title": "The text dump lists every node once", "statement": "The textual dump of a tree has one line per node reachable from the root, each exactly once, parents before children.", "quantifier": "for all well-formed trees", "why_tests_cant": "Stack traversal over all shapes.", "anchors": ["src/tree.rs Display for Tree"]}
{"id": "C52", "title": "Boosting does not increase the squared training loss", "statement": "With SquaredLoss, no sampling, no monotone constraints and learning_rate <= 2, each boosting iteration leaves the weighted squared training error no larger than before.", "quantifier": "for all data, weights and regularisation parameters (exact arithmetic)", "why_tests_cant": "A global property of all components together.", "anchors": ["src/gradientbooster.rs fit_trees", "src/tree.rs Tree::fit", "src/objective.rs SquaredLoss", "src/utils.rs weight"]}
{"id": "C53", "title": "Weight is the minimiser of the regularised objective", "statement": "The node weight minimises g*w + (h+l2)*w^2/2 + l1*|w| over all w allowed by max_delta_step (and by the monotone bounds when they apply), and the gain of a node at weight w is minus twice the unpenalised part.", "quantifier": "for all statistics and parameters with h+l2 > 0 (exact arithmetic)", "why_tests_cant": "Optimality over all real w.", "anchors": ["src/utils.rs weight, l1_regularization, gain_given_weight, constrained_weight"]}
{"id": "C54", "title": "Model metadata", "statement": "A metadata value inserted under a key is returned by get_metadata for the key, other keys are unaffected, a missing key is an error, and metadata survives the JSON round trip.", "quantifier": "for all sequences of insertions and keys", "why_tests_cant": "All histories of insertions.", "anchors": ["src/gradientbooster.rs insert_metadata, get_metadata"]}
{"id": "C55", "title": "Python constraint map after save and load", "statement": "Monotone constraints given by column name are restored under the same names by load_booster. (False when only some columns are constrained: the names are lost and a refit on a data frame fails.)", "quantifier": "for all column lists and constraint maps", "why_tests_cant": "Partial maps are not in the tests.", "anchors": ["py-forust/forust/__init__.py load_booster, _standardize_monotonicity_map", "py-forust/src/lib.rs int_map_to_constraint_map"]}
{"id": "C56", "title": "XGBoost import keeps the split features", "statement": "Importing an XGBoost dump yields nodes at the position of their ids with the same split features. (False when the booster has no feature names: every split feature becomes 0.)", "quantifier": "for all dumps", "why_tests_cant": "Feature-name-free boosters are not tested.", "anchors": ["py-forust/forust/__init__.py _xgboost_tree_to_nodes, from_xgboost"]}
{"id": "C57", "title": "Matrix views agree", "statement": "get, get_row, get_col and the row iterator of a column-major matrix agree at every position; appending rows to the row-major history and reading them back gives the appended rows; an append whose length is not a multiple of the column count panics.", "quantifier": "for all shapes", "why_tests_cant": "All shapes and indices.", "anchors": ["src/data.rs Matrix, RowMajorMatrix, JaggedMatrix"]}
{"id": "C58", "title": "An empty list of evaluation sets", "statement": "fit with an empty list of evaluation sets should behave like fit without evaluation data. (False: the first iteration divides by zero and panics.)", "quantifier": "for all data and parameters with at least one iteration", "why_tests_cant": "The tests never pass an empty list.", "anchors": ["src/gradientbooster.rs fit_trees", "src/data.rs RowMajorMatrix::append_row"]}
{"id": "C59", "title": "Branch, midpoint and mode difference contributions follow the path", "statement": "Under BranchDifference, MidpointDifference and ModeDifference only features tested on the row's path get a non-zero contribution, and a missing-branch step contributes 0; the bias column is base_score.", "quantifier": "for all trees and rows (exact arithmetic)", "why_tests_cant": "Universal over trees and rows.", "anchors": ["src/tree.rs predict_contributions_row_branch_difference, _midpoint_difference, _mode_difference"]}
{"id": "C60", "title": "terminate_missing_features after save and load", "statement": "Column names given in terminate_missing_features are restored by load_booster, so that the loaded booster can be refitted on a data frame with the same columns. (False: the stored column numbers are never translated back, and such a refit raises KeyError.)", "quantifier": "for all column lists and feature sets", "why_tests_cant": "No test refits a loaded booster that terminates missing features.", "anchors": ["py-forust/forust/__init__.py load_booster, _standardize_terminate_missing_features", "py-forust/src/lib.rs get_params"]}
{"id": "C61", "title": "Adding a constant to the targets", "statement": "With squared loss, adding a constant c to all targets (and to the given base score, and to the targets of the evaluation sets, whose metric is the root mean squared error) changes the outcome of fit only in that base_score is larger by c: trees, evaluation history, best iteration, errors and panics are the same, and all predictions are larger by c. With initialize_base_score the given base score does not matter.", "quantifier": "for all data, targets, weights, parameters and constants (exact arithmetic)", "why_tests_cant": "A statement about pairs of whole fits for every constant.", "anchors": ["src/gradientbooster.rs fit_trees", "src/objective.rs SquaredLoss", "src/metric.rs root_mean_squared_error"]}
{"id": "C62", "title": "Training and prediction do not panic", "statement": "With a matrix of the right shape, finite targets, finite non-negative weights, 1 to 65533 bins, positive min_leaf_weight, finite l1, max_delta_step and learning rate, finite l2 >= 0 (positive, or no sampling and some positive weight), GOSS rates with at most n top rows, a finite base score (with initialize_base_score: non-zero total weight, or both classes present for log loss), a list of evaluation sets that is not empty and whose sets are not empty, and not force_children_to_bound_parent together with create_missing_branch and mixed constraints, fit neither panics nor loops for ever and reports success. A fitted booster predicts on every matrix with the training columns and no NaN other than the missing value, and its Weight, Average and Shapley contributions exist.", "quantifier": "for all data, targets, weights, parameters, evaluation sets, random generators and heap orders (fit: exact arithmetic; predict: any arithmetic)", "why_tests_cant": "Absence of panics over all inputs; the code has dozens of index, slice, unwrap and subtraction sites.", "anchors": ["src/gradientbooster.rs fit, fit_trees, predict", "src/tree.rs fit", "src/splitter.rs split_node, best_split, best_feature_split", "src/binning.rs", "src/sampler.rs", "src/utils.rs pivot_on_split"]}
{"id": "C63", "title": "Only the order of feature values matters", "statement": "Let each feature be transformed by a function that preserves, on the values of the data, the order of the values present, being NaN and being equal to the missing value (and their position relative to f64::MAX). Then fit on the transformed features (and transformed evaluation sets) ends as fit on the original features does; when it succeeds, the two boosters are the same except that each split value is transformed by the function of its feature, with the same number of trees, weights, gains, covers, structure, evaluation history and best iteration. Predictions, leaf indices, contributions of every method, partial dependence on transformed data and feature importances are the same.", "quantifier": "for all data, targets, weights, parameters, evaluation sets, random generators, heaps that look at scores only, sorting procedures that look at comparisons only, order-preserving transformations; any arithmetic", "why_tests_cant": "Quantifies over all order-preserving transformations and all data; needs a simulation argument through binning, histograms, split search, growth and early stopping.", "anchors": ["src/binning.rs bin_matrix, bin_matrix_from_cuts", "src/utils.rs percentiles, map_bin", "src/histogram.rs", "src/splitter.rs", "src/tree.rs fit, predict, predict_contributions_*", "src/gradientbooster.rs fit, predict, predict_contributions, value_partial_dependence, calculate_feature_importance", "src/shapley.rs", "src/partial_dependence.rs"]}
{"id": "C64", "title": "Arrays returned by the Python class", "statement": "If the columns pass the check and the crate's call returns, predict_leaf_indices returns a matrix with a row per row of X and a column per tree in use whose entry (r, k) is the number of the leaf that row r reaches in tree k; predict_contributions returns a matrix with cols + 1 columns whose entry (r, c) is entry r * (cols + 1) + c of the crate's result, and in exact arithmetic each row for the method Weight (or weight) sums to the entry of predict. After a successful fit with evaluation data, get_evaluation_history has a row per tree and a column per evaluation set, and entry (k, j) is the metric on set j (with unit weights if none were given) of the predictions with the first k + 1 trees.", "quantifier": "for all instances, frames, methods, evaluation sets, environments, arithmetics", "why_tests_cant": "Shapes agree by luck for one tree, one row or one evaluation set; the claim ranges over all sizes and all prediction iterations.", "anchors": ["py-forust/forust/__init__.py predict_leaf_indices, predict_contributions, get_evaluation_history", "py-forust/src/lib.rs predict_leaf_indices, predict_contributions, get_evaluation_history"]}
{"id": "C65", "title": "Saving, loading and pickling of the Python class", "statement": "Unpickling a pickled instance with finite values gives the same instance. Loading the file of an instance that was made by GradientBooster(**p) and any calls of fit, set_prediction_iteration and insert_metadata (with other keys than the three reserved ones) succeeds and gives the same booster, n_features_, feature_names_in_, feature_importance_method and parameters, except that seven parameters have gone through f32, that the sample method is the one in use, and that constraints and terminated features are those stored by the last fit. Without constraints and terminated features, any fit of the loaded instance ends as the fit of the saved one with the same booster.", "quantifier": "for all parameters, call sequences, data, environments, JSON printers that are read back, arithmetics in which f32 to f64 to f32 is the identity", "why_tests_cant": "Quantifies over all call sequences; a test saves one model.", "anchors": ["py-forust/forust/__init__.py __init__, fit, load_booster, save_booster, __getstate__, __setstate__, _set_metadata_attributes, _get_metadata_attributes", "py-forust/src/lib.rs new, get_params, load_booster, from_json", "src/gradientbooster.rs json_dump, from_json"]}
{"id": "C66", "title": "set_params reinstates the booster", "statement": "set_params has the same effect as making a new instance with the changed parameters: it succeeds exactly if the constructor does, and afterwards every fit and prediction is as for the new instance.", "quantifier": "for all instances, parameter updates, data, environments, arithmetics", "why_tests_cant": "Quantifies over all histories of an instance before set_params.", "anchors": ["py-forust/forust/__init__.py set_params, get_params, __init__, fit, _validate_features"]}
{"id": "C67", "title": "A failing fit changes nothing", "statement": "If fit of the Python class raises, the instance predicts as before on every frame.", "quantifier": "for all instances, data, evaluation sets, environments, arithmetics", "why_tests_cant": "Tests check that an error is raised, not the state afterwards on every frame.", "anchors": ["py-forust/forust/__init__.py fit, predict, predict_leaf_indices, predict_contributions, _validate_features", "py-forust/src/lib.rs fit"]}
{"id": "C68", "title": "Feature importances of the Python class", "statement": "After a successful fit, calculate_feature_importance maps the name of each column (or its number, for arrays) to the importance the crate computes for this column and has no other keys, and feature_importances_ lists the importances in the order of the columns with 0 for columns that no tree uses.", "quantifier": "for all instances, frames, methods, environments, arithmetics", "why_tests_cant": "Quantifies over all column counts and all sequences of fits; a test fits a new instance once.", "anchors": ["py-forust/forust/__init__.py calculate_feature_importance, feature_importances_, fit", "src/gradientbooster.rs calculate_feature_importance"]}
{"id": "C69", "title": "Refitting an instance of the Python class", "statement": "Let an instance be made by GradientBooster(**p) and any calls of fit (failing ones included), set_prediction_iteration and insert_metadata, where no prediction iteration has been set before the first tree was grown. If a further fit succeeds, the same fit succeeds on GradientBooster(**p) and on the clone GradientBooster(**get_params()) and gives the same booster apart from metadata, the same parameters, number of features and, for data frames, names; and conversely, unless names of an earlier data frame remain.", "quantifier": "for all parameters, call sequences, data, weights, evaluation sets, environments, arithmetics", "why_tests_cant": "Quantifies over all call sequences before the fit.", "anchors": ["py-forust/forust/__init__.py __init__, fit, get_params, set_prediction_iteration, insert_metadata", "src/gradientbooster.rs fit, reset"]}
{"id": "C70", "title": "The table of trees can be read", "statement": "After a successful fit on a data frame (or, for an instance fitted on arrays only, on an array) trees_to_dataframe succeeds; it has one row per node in the order of trees and nodes, with distinct IDs and the hessian sum of the node as Cover. A reader who starts at the row with ID k-0, looks up the value of the column named under Feature and goes on to the row named under Missing, Yes or No ends at a row whose Gain is the weight that tree k gives to the record, and at no other value.", "quantifier": "for all instances, frames, records, sentinels, environments, arithmetics", "why_tests_cant": "Quantifies over all trees and all records, incl. NaN and sentinel values.", "anchors": ["py-forust/forust/__init__.py trees_to_dataframe, get_node_lists", "src/tree.rs, src/node.rs"]}
{"id": "C71", "title": "Partial dependence of a constrained feature", "statement": "With a monotone constraint on a feature, value_partial_dependence of every fitted booster is ordered as the constraint asks for any two values of the feature that are not missing.", "quantifier": "for all data, weights, parameters with non-negative learning rate, environments, values; exact arithmetic", "why_tests_cant": "Quantifies over all fits and all pairs of values; a test looks at one plot.", "anchors": ["src/partial_dependence.rs tree_partial_dependence", "src/gradientbooster.rs value_partial_dependence", "src/splitter.rs, src/constraints.rs", "py-forust/forust/__init__.py partial_dependence"]}
{"id": "C72", "title": "Order of the rows, copies of rows", "statement": "Without sampling of rows, putting the rows of the training data in another order, or splitting a row into copies that share its weight, gives the same booster, in all its fields (or the same error).", "quantifier": "for all data, weights, orders, splittings into copies, parameters, evaluation sets, environments; exact arithmetic", "why_tests_cant": "Quantifies over all data sets and all n! orders; a floating-point test sees rounding differences and cannot tell them from a dependence on the order.", "anchors": ["src/binning.rs bin_matrix, percentiles_or_value", "src/utils.rs percentiles", "src/histogram.rs", "src/tree.rs fit", "src/splitter.rs", "src/gradientbooster.rs fit"]}
{"id": "C73", "title": "Whole weights are repetitions", "statement": "Without sampling of rows, fit with positive whole weights gives the same booster, in all its fields, as fit_unweighted on the data in which each row is repeated as often as its weight says.", "quantifier": "for all data, positive whole weights, parameters, evaluation sets, environments; exact arithmetic", "why_tests_cant": "Quantifies over all data sets and all weights.", "anchors": ["src/gradientbooster.rs fit, fit_unweighted", "src/binning.rs", "src/utils.rs percentiles", "src/objective.rs calc_grad, calc_hess, calc_init"]}
{"id": "C74", "title": "Rows of weight zero have no influence", "statement": "Without sampling of rows, rows of weight zero can be dropped from the training data without changing the booster. (False in general: the value of a row of weight zero can become the limit of a bin. True if every dropped row has the features of a row that is kept.)", "quantifier": "for all data, targets of the dropped rows, parameters, evaluation sets, environments; exact arithmetic", "why_tests_cant": "Quantifies over all data sets; that the cuts depend on rows of weight zero shows at new records only.", "anchors": ["src/utils.rs percentiles", "src/binning.rs percentiles_or_value", "src/gradientbooster.rs fit"]}
{"id": "C75", "title": "Builder: defaults and setters", "statement": "After a chain of set_ calls each field of the booster has the value of the last call of its setter (set_prediction_iteration stores its argument plus one) and the value it had before if there is none; the order of calls of different setters is irrelevant; starting with default(), whose unwrap does not panic, the setters give what new() gives for the same parameters if new() accepts them. The setters do not check: with a learning rate that new() refuses the chain gives a booster all the same.", "quantifier": "for all boosters, call sequences and arguments; default() in exact arithmetic", "why_tests_cant": "Quantifies over all call sequences and arguments.", "anchors": ["src/gradientbooster.rs Default for GradientBooster, new, validate_parameters, set_* (1063-1252)"]}
{"id": "C76", "title": "partial_dependence of the Python class", "statement": "partial_dependence returns pairs whose first column is the grid asked for and whose second column is the partial dependence of the booster there: with samples=None the present values of the column, strictly increasing, each once and none left out; with samples=n the n quantiles, in order, between present values; before these the missing value if exclude_missing=False. A feature given by name gives the same result for every order of the columns of the frame if the model was fitted with names. It succeeds with finite values for every fitted model if the feature is in the frame and, for samples=n, the column has present values, all finite. (With a number as missing value the quantiles can hit that number, so that exclude_missing=True does not keep it out.)", "quantifier": "for all fitted instances, frames, features, numbers of samples, levels, quantile and sort implementations that meet their contract; the grids in any ordered arithmetic, success in exact arithmetic", "why_tests_cant": "Quantifies over all frames and models; that a sample can equal the missing value depends on the data.", "anchors": ["py-forust/forust/__init__.py partial_dependence (762-879)", "src/gradientbooster.rs value_partial_dependence"]}
{"id": "C77", "title": "Training does not panic in floating point", "statement": "In any arithmetic with 0 + 0 = 0 and the usual order of numbers (in particular f32/f64 with rounding, overflow and NaN), with a matrix of the right shape, targets and weights for all rows, 1 to 65533 bins, positive min_leaf_weight, at most n top rows for GOSS, evaluation sets that the model can be evaluated on, and not both create_missing_branch and force_children_to_bound_parent, fit neither panics nor loops for ever: it reports an error exactly for targets or weights that fail validation and else returns a booster that predicts on every matrix with the training columns and no NaN other than the missing value. Targets, weights and the parameters l1, l2, gamma, learning rate, max_delta_step may be any numbers, infinities or NaN.", "quantifier": "for all arithmetics, data, targets, weights, parameters, evaluation sets, random generators and heap orders", "why_tests_cant": "Rounding residues of histogram subtraction make nodes with wrong sums, for which the exact argument fails; no finite set of inputs covers them.", "anchors": ["src/gradientbooster.rs fit, fit_trees, predict", "src/tree.rs fit", "src/splitter.rs split_node, best_split, handle_split_info", "src/histogram.rs from_parent_child, from_parent_two_children", "src/utils.rs pivot_on_split"]}
{"id": "C78", "title": "Every leaf is reached by a training row", "statement": "With min_leaf_weight > 0, every node of a fitted tree other than the root and other than the nodes reserved for missing values is passed by at least one row of the training data when these are predicted.", "quantifier": "for all data, targets, weights, parameters, objectives, sampling methods, environments; exact arithmetic and the f32/f64 arithmetic of the program", "why_tests_cant": "The covers that min_leaf_weight is compared with come from f32 sums and subtracted histograms; the loss of the claim in floating point needs weights above 2^24 against small ones and a sibling group, which no test has.", "anchors": ["src/splitter.rs best_feature_split, evaluate_split", "src/histogram.rs HistogramMatrix::from_parent_child", "src/tree.rs Tree::fit"]}
{"id": "C79", "title": "One tree predicts between the targets", "statement": "With SquaredLoss, a learning rate between 0 and 1, no sampling, no monotone constraints and imputed missing values, the prediction with the first tree for any row lies between the least and the largest of the base score and the targets; with an initialised base score it lies between the least and the largest target.", "quantifier": "for all training data, targets, weights, l1, l2, max_delta_step, environments and all rows to predict; exact arithmetic and the f32/f64 arithmetic of the program", "why_tests_cant": "A statement about all rows, also outside the training data, and about leaf values that are computed from subtracted histograms.", "anchors": ["src/gradientbooster.rs fit_trees, predict", "src/tree.rs Tree::fit", "src/objective.rs SquaredLoss", "src/histogram.rs HistogramMatrix::from_parent_child"]}
{"id": "C80", "title": "Monotone constraints hold in floating point arithmetic", "statement": "Where the missing branch is not given an average of its siblings and no unconstrained split lies below a constrained one, raising a feature constrained +1 never lowers and raising a feature constrained -1 never raises the prediction of a fitted model, with every sum, product, quotient and midpoint rounded to f32 and every sum of leaf values rounded to f64. The midpoint that bounds the children does not overflow when a split was chosen.", "quantifier": "for all data, targets, weights, objectives, l1, l2 >= 0, positive learning rates, samplings, environments, numbers of trees; all IEEE-like roundings (monotone, odd, idempotent), instantiated for binary32/binary64", "why_tests_cant": "The claim is about the rounding of a midpoint between neighbouring floats, about overflow of weight sums, and about all pairs of rows; random data never reach these cases.", "anchors": ["src/splitter.rs evaluate_split", "src/splitter.rs best_feature_split", "src/utils.rs constrained_weight", "src/utils.rs cull_gain", "src/tree.rs Tree::fit", "src/gradientbooster.rs predict"]}
{"id": "C81", "title": "Rounding errors of predictions and contributions", "statement": "A finite prediction of n trees differs from the exact sum of the base score and of the leaf values by at most ((1+u)^n - 1) times the sum of their absolute values (u = 2^-53 for f64), hence by at most n*2^-52 times that sum for n <= 2^52; the sum of the Weight contributions of a row differs from the same exact value by at most (1+u)^N - 1 times the absolute values of the base score, the roots and the changes along the paths, N being the number of trees and steps plus one.", "quantifier": "for all stored or fitted models with finite values, all data, any rounding with a relative error u of sums, in particular f32/f64", "why_tests_cant": "The worst case of rounding errors is not reached by random samples; the bound holds for all models and rows, subnormal numbers included.", "anchors": ["src/gradientbooster.rs predict, predict_contributions", "src/tree.rs Tree::predict, predict_contributions_row_weight"]}
{"id": "C82", "title": "The unit of the targets does not matter", "statement": "With squared loss and exact arithmetic, multiplying the targets and the given base score by c > 0, l1 and max_delta_step by c and gamma by c^2 multiplies the fitted base score, node values, recorded root mean squared errors and predictions by c and the gains by c^2, and leaves splits, covers, best iteration, errors and panics unchanged.", "quantifier": "for all c > 0, data, targets, weights, parameters, samplings, growing policies, evaluation sets (none or RMSE), sorts and heaps that look at comparisons only", "why_tests_cant": "Relates two runs for every factor and every input; a test compares a few runs, in floating point arithmetic, where rounding hides or mimics a missing factor.", "anchors": ["src/gradientbooster.rs fit, fit_trees, predict", "src/utils.rs weight, gain, gain_given_weight, l1_regularization", "src/objective.rs SquaredLoss", "src/sampler.rs GossSampler"]}
{"id": "C83", "title": "The unit of the sample weights does not matter", "statement": "With exact arithmetic, multiplying all sample weights and l1, l2, gamma and min_leaf_weight by c > 0 multiplies the covers and gains stored in the trees by c and leaves everything else (values, splits, base score, evaluation history, best iteration, errors, panics, predictions) unchanged. Without converting l2 the values change.", "quantifier": "for all c > 0, data, targets, weights, parameters, objectives, metrics, samplings, growing policies, evaluation sets, sorts and heaps that look at comparisons only", "why_tests_cant": "Relates two runs for every factor and every input, over every objective and metric; it covers the binning by weighted percentiles, the AUC and the parameters in one statement.", "anchors": ["src/gradientbooster.rs fit, fit_trees", "src/binning.rs bin_matrix", "src/utils.rs percentiles", "src/metric.rs roc_auc_score, log_loss", "src/objective.rs calc_init"]}
{"id": "C84", "title": "Negated targets give the negated model, in floating point", "statement": "With squared loss, negating the targets and the given base score negates the fitted base score, all node values and all predictions and leaves everything else unchanged, bit for bit, in floating point arithmetic. There are no monotone constraints, children are not forced to bound the parent, l1 and max_delta_step are not negative, and the metric is RMSE if there are evaluation sets.", "quantifier": "for all data, targets, weights, parameters, samplings, growing policies and all roundings that are odd and monotone, instantiated for binary32/binary64", "why_tests_cant": "Equality of all bits after any number of trees for all inputs; an asymmetric comparison or clamp shows only on special data.", "anchors": ["src/gradientbooster.rs fit, fit_trees, predict", "src/utils.rs weight, l1_regularization, gain_given_weight", "src/objective.rs SquaredLoss", "src/metric.rs root_mean_squared_error"]}
{"id": "C85", "title": "Swapped labels give complementary probabilities", "statement": "With logistic loss and real arithmetic, replacing every target y by 1 - y negates the fitted base score and all node values and leaves splits, gains, covers, evaluation history, best iteration, errors and panics unchanged; the predicted probabilities of the two models add up to 1.", "quantifier": "for all data, targets (between 0 and 1 if the base score is initialised), weights, parameters, samplings, growing policies, without monotone constraints, evaluation sets (none or log loss)", "why_tests_cant": "The symmetry holds for every input only with exact arithmetic; tests see it up to rounding, where a wrong term in the hessian or initial log odds is easily missed.", "anchors": ["src/objective.rs LogLoss", "src/metric.rs log_loss", "src/gradientbooster.rs fit, fit_trees, predict"]}
{"id": "C86", "title": "Columns of a jagged matrix", "statement": "A jagged matrix made by from_vecs returns vector j as column j and panics behind the last; ends[j] is the number of elements up to and including column j; a change of a column through get_col_mut gives the matrix of the changed vectors and touches no other column.", "quantifier": "for all lists of vectors (empty ones included), all columns, all in-place changes", "why_tests_cant": "Empty vectors and first/last columns are special cases of the offset arithmetic; the claim is for every list of lengths.", "anchors": ["src/data.rs JaggedMatrix::from_vecs, get_col, get_col_mut"]}
{"id": "C87", "title": "n_records counts the elements of a jagged matrix", "statement": "The field n_records, documented as the number of elements in the matrix, equals that number. (False: the code sums the ends, so two columns of one element give 3. What holds: it is the sum of the ends, never too low, and right exactly if every column but the last is empty.)", "quantifier": "for all lists of vectors", "why_tests_cant": "No test reads the field; the exact condition under which it is right ranges over all lengths.", "anchors": ["src/data.rs JaggedMatrix::from_vecs"]}
{"id": "C88", "title": "Printed lists and matrices, names of metrics", "statement": "fmt_vec_output prints the numbers in order, a comma and a blank between neighbours; items_to_strings puts them behind every item; a matrix is displayed row by row, entries separated by blanks, rows ended by a line feed; Metric::from_str accepts exactly the names serde uses and reports any other name.", "quantifier": "for all lists, matrices, number formats and strings", "why_tests_cant": "Separators at the ends of lists of every length; all strings that are not names.", "anchors": ["src/utils.rs items_to_strings, fmt_vec_output", "src/data.rs Display for Matrix", "src/metric.rs FromStr for Metric"]}
{"id": "C89", "title": "The default metric of the squared loss and targets below -1", "statement": "Without an evaluation metric the squared loss is monitored by the root mean squared log error. With a target below -1 in an evaluation set the history of that set is NaN after every tree, and if it is the last set and early stopping is on, the best iteration is 0, predictions use one tree only and training stops after max(rounds, 1) + 1 trees.", "quantifier": "for all data, targets, weights, parameters, environments and all roundings", "why_tests_cant": "Test data have positive targets; the consequence holds whatever the model learns.", "anchors": ["src/gradientbooster.rs fit_trees", "src/objective.rs default_metric", "src/metric.rs root_mean_squared_log_error"]}
{"id": "C90", "title": "The constructor of the Python class rejects unknown names", "statement": "A booster is made only if objective, growing policy, missing node treatment, metric and sample method are among the documented names, and then it has what they name. (False for the sample method: an unknown one is silently taken for random. It holds for the other four.)", "quantifier": "for all keyword arguments, any arithmetic", "why_tests_cant": "Ranges over all strings.", "anchors": ["py-forust/forust/__init__.py SAMPLE_METHODS, GradientBooster.__init__", "py-forust/src/lib.rs GradientBooster::new"]}
{"id": "C91", "title": "Boosting does not increase the logistic training loss", "statement": "With LogLoss and no sampling, each boosting iteration leaves the weighted logistic training loss no larger than before. (False without a limit on the steps: with max_delta_step = 0, its default, one tree can raise it. It holds when exp(a) <= 1 + a + a * max_delta_step, where a = learning_rate * max_delta_step > 0, and with a factor 1/2 before the last term also with monotone constraints and missing branches.)", "quantifier": "for all data, weights and regularisation parameters (real arithmetic)", "why_tests_cant": "A global property of all components together; the loss is not quadratic, so the bound on the step matters and cannot be found by trying.", "anchors": ["src/gradientbooster.rs fit_trees", "src/tree.rs Tree::fit", "src/objective.rs LogLoss", "src/utils.rs weight, constrained_weight"]}
{"id": "C92", "title": "The metrics are the weighted means they are named after", "statement": "LogLoss is the weighted mean of the negative log likelihoods under the predicted probabilities; RootMeanSquaredError and RootMeanSquaredLogError are the square roots of the weighted means of the squared differences of the values and of log(1 + value). With weights that are all zero the three are NaN.", "quantifier": "for all targets, predictions and weights of equal length (real arithmetic; targets and predictions above -1 for the log error)", "why_tests_cant": "Ranges over all vectors.", "anchors": ["src/metric.rs log_loss, root_mean_squared_error, root_mean_squared_log_error"]}
{"id": "C93", "title": "The metric reported for the training set never gets worse", "statement": "When the training data is passed as an evaluation set, there is no sampling, and the conditions of C52 (SquaredLoss with RootMeanSquaredError) or C91 (LogLoss with LogLoss) hold, every entry of the evaluation history for that set is a number that is no larger than the entry before it.", "quantifier": "for all data, weights, parameters and iterations (real arithmetic)", "why_tests_cant": "Joins training, prediction, metric and history; a test sees single runs.", "anchors": ["src/gradientbooster.rs fit_trees", "src/metric.rs", "src/objective.rs"]}
{"id": "C94", "title": "A leaf stays a leaf only when no split of it helps", "statement": "In a tree with fewer leaves than max_leaves, for a leaf above max_depth: every split at a cut of a column in use, with both sides at least min_leaf_weight, wherever the missing values go, lowers the regularised second order objective of the leaf by at most gamma / 2. (False at the root when l1 or max_delta_step is used, because the score of the root ignores both: proved for all other leaves, and for the root without them.)", "quantifier": "for all data, gradients, parameters, leaves, columns and cuts (exact arithmetic; no missing branch, no constraints)", "why_tests_cant": "Says that the search misses no candidate and that growing stops at no leaf too early, for every tree.", "anchors": ["src/tree.rs fit", "src/splitter.rs best_split, best_feature_split, evaluate_split", "src/node.rs update_children"]}
{"id": "C95", "title": "Fully grown trees fit every value of every column", "statement": "With SquaredLoss, no penalties, sampling or constraints, room for as many leaves and levels as rows, and rows at least as heavy as min_leaf_weight: in each round the weighted residuals of the rows that share a value of a column, summed, shrink exactly by the factor 1 - learning_rate, if the column has no missing values and its distinct values fit in the bins. If a column has distinct values, every row's residual after k rounds is (1 - learning_rate)^k times the one of the base score.", "quantifier": "for all data, weights, targets, learning rates, columns and rounds (exact arithmetic)", "why_tests_cant": "An exact law of convergence of the whole training procedure.", "anchors": ["src/gradientbooster.rs fit_trees", "src/tree.rs fit", "src/splitter.rs", "src/binning.rs"]}
{"id": "C96", "title": "The text dump determines the trees", "statement": "If two models of well-formed trees have the same text_dump, their trees agree node by node in everything shown (number, depth, kind, cover, leaf value, split feature, split value, children, missing node, gain). With the same base score, missing value and number of trees used they give the same predictions, leaf indices and feature importances on all data. The dump does not show the base score, so it does not fix the predictions by itself.", "quantifier": "for all models, data, importance methods, and all ways to print numbers that print different numbers differently and use no comma, closing bracket or line break", "why_tests_cant": "That no two different models share a dump is a statement about all pairs of models.", "anchors": ["src/tree.rs Display", "src/node.rs Display", "py-forust/src/lib.rs text_dump"]}
{"id": "C97", "title": "An imported XGBoost model predicts like XGBoost", "statement": "The model made from an XGBoost model predicts, for every row, XGBoost's starting margin plus the values of the leaves XGBoost finds. (False in three ways: a native Booster is always refused although the code has a branch for it; objectives with a link other than binary:logistic start from the untransformed base score; values that are not f32 numbers are compared unrounded, while XGBoost rounds them. Proved when none of the three applies.)", "quantifier": "for all dumps with named features, base scores, matrices of f32 numbers and rows", "why_tests_cant": "Compares two readings of all trees on all rows; tests use a few fitted models.", "anchors": ["py-forust/forust/__init__.py _from_xgboost_model, _xgboost_tree_to_nodes, _from_xgboost_node", "src/tree.rs predict"]}
{"id": "C98", "title": "Sampling keeps the sums on average", "statement": "GOSS divides the rows by their gradients alone into the ⌊αn⌋ largest and the others. On average over all outcomes of the generator (all sequences of numbers 0, 1/M, …, (M-1)/M) the sums of gradients and hessians over the sampled rows of any set of rows are the sum over its large rows plus a factor times the sum over its other rows. The factor is exactly 1 when αn, βn and the count of outcomes below the threshold are whole; in general, for α+β ≤ 1, it lies between 1 - 1/(βn) - 1/((1-α)n) and 1 + (1-α)/(βM); it is 0 when βn < 1, and (1-α)/β < 1 when α+β > 1. Random sampling keeps the share `subsample` of every sum, up to one part in M.", "quantifier": "for all rates, gradients, hessians, sets of rows, numbers of rows and sizes M of the generator's grid", "why_tests_cant": "A statement about the average over all random outcomes; a test sees a few seeds.", "anchors": ["src/sampler.rs GossSampler::sample", "src/sampler.rs RandomSampler::sample"]}
{"id": "C99", "title": "The serializers give back what was stored", "statement": "`ScalerSerializer` and `NumpySerializer` give back every value. (False for strings: a string comes back exactly when it contains no single quote, line break or NUL and every backslash in it is followed by a character that does not form an escape sequence; otherwise it is refused or comes back changed. Integers and arrays of every shape, including dimensions of size zero, come back.)", "quantifier": "for all strings, integers, and arrays of any number of dimensions", "why_tests_cant": "The test tries a handful of values without quotes or backslashes.", "anchors": ["py-forust/forust/serialize.py ScalerSerializer", "py-forust/forust/serialize.py NumpySerializer"]}
{"id": "C100", "title": "Covers are exact in floating point arithmetic", "statement": "With squared loss, no GOSS sampling, min_leaf_weight > 0 and sample weights that are multiples of a power of two u (within the range of f32) with a total of at most 2^24·u - for instance up to 2^24 rows of weight 1 - and with f32/f64 rounding everywhere: the stored cover of every node of every fitted tree is exactly the sum of the weights of the sampled training rows that pass the node at prediction time, the cover of an internal node is exactly the sum of its children's covers, and every sampled row is led to a leaf. Targets, gradients and node values may be rounded, infinite or NaN. The bound on the total is sharp.", "quantifier": "for all data, targets, weights as described, parameters, trees and nodes", "why_tests_cant": "Covers pass through single precision casts, histogram subtraction and lane sums; a test sees agreement for a few data sets and cannot tell whether a rounding would occur in others.", "anchors": ["src/histogram.rs create_feature_histogram", "src/utils.rs fast_f64_sum", "src/splitter.rs handle_split_info", "src/tree.rs fit"]}
{"id": "C101", "title": "Rounding errors of node values are bounded", "statement": "Under the hypotheses of C100 (squared loss, no GOSS, exactly summable weights, min_leaf_weight > 0), without constraints, l1 and max_delta_step and with finite l2 and learning rate: let G and H be the exact sums of the f32 gradients and of the weights of the tree's sampled rows that pass a node at prediction time, A the sum of the absolute gradients of the whole sample, n its size and d the node's depth. If the gradients and the stored value of the node are finite, the stored value differs from -lr·G/(H+l2) by at most ((1+v)^(d·(nbins+1+6d)+5) - 1)·|lr|·A/|H+l2| plus (|lr|(1+2^-24)+1)·2^-150, with 1+v = (1+2^-24)(1+2^-53)^(n+17); with at most 2^24 rows the factor is at most (d·(nbins+1+6d)+5)·2^-22. This covers the lane sums, f64 to f32 casts, histogram subtraction along the path, the running sums over bins, the division and the multiplication. (Nodes reserved for missing values, and internal nodes with AverageLeafWeight, are not covered.)", "quantifier": "for all data, targets, weights as described, parameters, trees and nodes", "why_tests_cant": "Tests compare predictions with stored ones up to a tolerance; errors depend on the data, the depth and the order of the operations.", "anchors": ["src/histogram.rs create_feature_histogram", "src/histogram.rs from_parent_child", "src/utils.rs fast_f64_sum", "src/utils.rs weight", "src/splitter.rs best_feature_split", "src/tree.rs fit"]}
{"id": "C102", "title": "Iterations, early stopping and evaluation data only cut the sequence of trees", "statement": "Fit two boosters on the same data that differ at most in iterations, evaluation_metric, early_stopping_rounds, the evaluation data, log_iterations, parallel and earlier results. If both fits succeed, the base scores are equal and the shorter list of trees is a prefix of the longer. Evaluation data leave a prefix of the trees of the fit without, and exactly the same trees without early stopping. If a fit succeeds, so does the fit asking for n ≤ iterations, with exactly the first n trees; without evaluation data, predicting with prediction_iteration = n equals predicting with the model fitted with n iterations. Computing the base score or setting it to the computed value gives the same trees (a prefix of them if evaluation data stop the fit early).", "quantifier": "for all data, targets, weights, parameters, evaluation data, sampling methods, generators and numbers of iterations, in any arithmetic", "why_tests_cant": "Tests compare few settings; a random draw or a gradient update that depends on evaluation data would show only for particular seeds and settings.", "anchors": ["src/gradientbooster.rs fit_trees", "src/gradientbooster.rs fit", "src/gradientbooster.rs get_prediction_trees"]}
{"id": "C103", "title": "A column that brings nothing new does not change the model", "statement": "Append to the data, at the right end, a copy of a column (with the same monotone constraint), a constant column, or a column of missing values only. If the fit on the original data succeeds and columns are not sampled, the fit on the wider data succeeds and returns exactly the same booster, in every field: among equally good features the earliest wins, and a column of one value offers no split (for constants: the splitter makes missing branches, or allow_missing_splits is off, or min_leaf_weight is positive). Evaluation sets may be widened as well. A model predicts the same values and leaves on data to which columns have been appended.", "quantifier": "for all data, weights, parameters, evaluation data, sampling methods and generators; copies in any arithmetic whose comparison is a strict order, constants in any format with rounding (f32/f64 included)", "why_tests_cant": "A tie between equal features occurs at every node; a rule that lets the last feature win, or an order that depends on threads, changes models only where columns tie, and tests do not contain copies of columns for all parameters.", "anchors": ["src/splitter.rs best_split", "src/splitter.rs best_feature_split", "src/binning.rs bin_matrix", "src/histogram.rs HistogramMatrix::new", "src/gradientbooster.rs fit_trees"]}
{"id": "C104", "title": "Features that no split uses have no influence", "statement": "Let two matrices agree in all columns that some split of the model asks for; they may differ elsewhere and have different numbers of columns. Then predictions and leaf indices are the same, and for every contribution method (Weight, Average, Branch, Midpoint and Mode difference, Probability change, Shapley) the contributions of the features asked for and the bias are the same. A feature that no split asks for gets exactly 0 in every row and with every method, its partial dependence is the same for all values, and it is not listed among the importances. A fitted model gives 0 to columns appended after the training columns and keeps the other contributions.", "quantifier": "for all boosters (fitted or not), matrices, rows, methods and values, in any arithmetic", "why_tests_cant": "Writing a contribution to a wrong place (for instance the first feature, the bias, or a stale element of the Shapley path) keeps the sums that tests check; only particular trees and rows show it.", "anchors": ["src/tree.rs predict_contributions_row_*", "src/shapley.rs tree_shap", "src/gradientbooster.rs predict_contributions", "src/partial_dependence.rs", "src/gradientbooster.rs calculate_feature_importance"]}
{"id": "C105", "title": "The code for missing values does not matter", "statement": "Missing values may be coded as NaN or as a number that is not otherwise used. Replace the code in the parameters and, at the same places, in the data and the evaluation data. Then fit ends in the same way (success, error or panic), and the fitted booster is the same in every field except the code itself: cut points, bins, trees, history and best iteration. Predictions, leaf indices, contributions of every method and partial dependence on recoded data are the same.", "quantifier": "for all boosters, data, weights, evaluation data, pairs of codes and environments (sorting, heap, sampling), in any arithmetic", "why_tests_cant": "Missing values are recognised in three places with three different tests (is_missing when cut points are computed, map_bin when values are binned, get_child_idx when a row is routed); a sentinel that one of them overlooks becomes an ordinary value in one step only.", "anchors": ["src/utils.rs is_missing", "src/utils.rs map_bin", "src/binning.rs bin_matrix", "src/node.rs get_child_idx", "src/gradientbooster.rs fit"]}
{"id": "C106", "title": "Without allow_missing_splits, no split only separates missing values", "statement": "When allow_missing_splits is off, or missing values have their own branch, the training rows that reach a split of a fitted tree include rows with a value of the split feature below the split value and rows with a value not below it; in each of the two groups the hessians add up to at least min_leaf_weight. With the flag on, a split can send only the missing rows to one side.", "quantifier": "for all data, weights, objectives, parameters with positive min_leaf_weight, sampled or not, all trees and all splits", "why_tests_cant": "The flag is tested in two places before the missing values are given to a side; a version that tests only after that, or only one side, differs only when the best split is a pure missing split.", "anchors": ["src/splitter.rs MissingImputerSplitter::evaluate_split 797-846", "src/splitter.rs MissingBranchSplitter::evaluate_split"]}
{"id": "C107", "title": "With l2 = 0 missing values never get a left child of their own", "statement": "allow_missing_splits promises splits that separate missing from other values. With l2 = 0 and imputed missing values the gain of an empty left side is 0/0, so a candidate with no present rows on the left is refused: in exact arithmetic every split of a fitted tree is reached by training rows with a value below the split value. The root therefore cannot separate missing values, whatever the targets are.", "quantifier": "for all candidates in any rounding arithmetic; for all data, weights, objectives, parameters with l2 = 0 and positive min_leaf_weight, all trees and splits in exact arithmetic", "why_tests_cant": "The tests use l2 = 1; a NaN in a comparison silently selects the other branch.", "anchors": ["src/splitter.rs MissingImputerSplitter::evaluate_split 804-905", "src/utils.rs weight", "src/utils.rs gain_given_weight"]}
{"id": "C108", "title": "Limits on depth and leaves only cut trees", "statement": "The splits of a tree do not depend on the limits. Of two trees fitted to the same data with different max_depth, the one with the smaller limit is a cut of the other when the leaf limit of the other does not bind: each node a row passes has a counterpart at the same depth with the same cover, value and split, and only leaves at the smaller depth limit are split further, whatever the policies and heaps. With only max_leaves raised, the tree grows on from where it stopped: nodes keep their place, splits and children, and there is a difference only if the smaller limit was reached. Both hold for the first trees of two boosters that differ in these parameters.", "quantifier": "for all data, splitters (imputing or with missing branch), limits, policies, heaps, rows, in any arithmetic", "why_tests_cant": "Tests check single limits by their leaf counts; the claim relates pairs of whole trees.", "anchors": ["src/tree.rs Tree::fit 35-163", "src/gradientbooster.rs fit_trees 575-640"]}
{"id": "C109", "title": "Gamma only prunes", "statement": "gamma is the gain a split must exceed; it does not change which split is best. Of two trees fitted to the same data, the one with the larger gamma is a cut of the one with the smaller gamma when the leaf limit of the latter does not bind: each node a row passes has a counterpart at the same depth with the same cover, value and split, and leaves are split further only at the depth limit or where the gain is at most the larger gamma. A node that is refused is refused with every larger gamma. In floating point the last statement holds, but the choice of the split depends on gamma: two gains that differ may be equal after gamma is subtracted.", "quantifier": "for all data, splitters, gammas, limits, policies, rows in exact arithmetic; refusal of nodes in any rounding arithmetic", "why_tests_cant": "Tests check that gamma reduces the number of leaves; the tie appears only for particular gains and gammas of different size.", "anchors": ["src/splitter.rs best_feature_split 104-199", "src/node.rs get_split_gain 187-199"]}
{"id": "C110", "title": "The AUC depends on the ranking only and is correctly rounded", "statement": "A change of the scores that keeps their order and their ties does not change the AUC. Exchanging the two classes, or negating the scores, turns the AUC q into 1 - q; constant scores give 1/2; the AUC is 1 exactly when every positive row of positive weight is ranked above every negative one. In f64 with labels 0 and 1, whole weights and a total weight of at most 2^26, all sums and areas are exact and the result is the exact AUC rounded once, between 0 and 1.", "quantifier": "for all lists of rows, scores, labels, weights (ranking: any arithmetic; swap, negation, constant, perfect: exact arithmetic; rounding: f64, no bound on the number of rows but the total weight)", "why_tests_cant": "Tests compare the AUC of a few data sets with the value of scikit-learn to some digits; invariance and correct rounding concern all rankings.", "anchors": ["src/metric.rs roc_auc_score 173-205", "src/metric.rs trapezoid_area 169-171"]}
{"id": "C111", "title": "Predictions change at training values only", "statement": "Every split value of a fitted tree is one of the numbers in its column of the training data. Hence two rows whose values are not separated by a training value of their column (and are missing in the same columns) get the same predictions, leaf indices and contributions of every method, and the same partial dependence; a number may be replaced by the greatest training value not above it, so predictions are constant above the training range. Below the training range they are constant and equal to those of the least training value in exact arithmetic when allow_missing_splits is off or missing values have a branch of their own; with allow_missing_splits a number below every training value can be sent with the missing values.", "quantifier": "for all data, targets, weights, parameters, evaluation sets, generators, heaps that look at scores only, natural sorting procedures, and all rows to predict; any arithmetic (the last clause: exact arithmetic)", "why_tests_cant": "Quantifies over all data and all pairs of rows between training values.", "anchors": ["src/binning.rs bin_matrix", "src/utils.rs percentiles", "src/splitter.rs best_feature_split", "src/node.rs get_child_idx", "src/tree.rs predict", "src/partial_dependence.rs", "src/shapley.rs"]}
{"id": "C112", "title": "Finite models predict finite numbers", "statement": "A model whose node values are finite f32 numbers, whose base score is at most 2^1000 in size and which has at most 2^52 trees predicts a finite f64 number for every row, within n/2^52 of the exact sum relative to the sizes of its terms (n trees); its Weight contributions are finite too if it has at most 2^51 nodes. Node values of fitted models are always f32 numbers, so only their finiteness is needed. Training does not always give a finite model: one finite target beyond the range of f32 makes every prediction of the fitted model non-finite, although training succeeds.", "quantifier": "for all models, data and rows in f32/f64 with any elementary functions; no bound on rows, columns or depth", "why_tests_cant": "Overflow of a sum of leaf values cannot be excluded by samples; the failing targets are larger than any in the tests.", "anchors": ["src/gradientbooster.rs predict", "src/tree.rs predict, predict_contributions_row_weight", "src/objective.rs SquaredLoss", "src/node.rs"]}
{"id": "C113", "title": "Columns that no split uses can be left out of the training data", "statement": "Train a model, and let keep be a list of columns, in their order, that contains every column the model splits on. Training again on the columns keep only, with monotone constraints, terminated features and evaluation data restricted in the same way, gives the same model with the features renumbered: all trees, node values, statistics, the evaluation history and the best iteration. The two models give the same predictions and leaf indices. The order must be kept: reversing two equally good columns gives another model.", "quantifier": "for all data, targets, weights, parameters without column sampling, evaluation sets, generators, sorting procedures and heaps that look at scores only; any arithmetic whose comparison is a strict order", "why_tests_cant": "Quantifies over all data sets and all sets of unused columns; the tests train on fixed data with all columns.", "anchors": ["src/splitter.rs best_split", "src/histogram.rs", "src/binning.rs bin_matrix", "src/tree.rs fit", "src/gradientbooster.rs fit_trees"]}
{"id": "C114", "title": "The depth limits the interactions of features", "statement": "For every tree of a fitted model and every row there are at most max_depth columns whose entries decide the leaf: all rows with the same entries there reach the same leaf. A tree without missing branches splits on fewer than max_leaves columns. With max_depth = 1 every tree splits on at most one column, and the model is additive: its prediction is a number plus one function per column of the entries of the row, for all data. With max_depth = 2 this can fail.", "quantifier": "for all training data, parameters, evaluation sets, generators, heaps, sorting procedures and all rows to predict; any arithmetic (additivity: exact arithmetic, finite node values)", "why_tests_cant": "Quantifies over all models and all pairs of rows; a test sees finitely many rows.", "anchors": ["src/tree.rs fit, predict", "src/node.rs get_child_idx", "src/gradientbooster.rs max_depth, max_leaves, predict"]}
{"id": "C115", "title": "Settings that do not apply have no influence", "statement": "Without sampling of rows and columns the seed and the random generator have no influence on the fitted model. subsample has no influence unless rows are sampled at random, top_rate and other_rate unless GOSS is used, terminate_missing_features, missing_node_treatment and force_children_to_bound_parent unless missing branches are made, evaluation_metric and early_stopping_rounds unless there is evaluation data, log_iterations and metadata never: fit carries them through and the result, all other fields and also panics are the same. The base score set before a fit has no influence if it is computed from the data. nbins has no influence once the different values of every column fit in the bins.", "quantifier": "for all data, targets, weights, settings, evaluation sets, environments; any arithmetic", "why_tests_cant": "Quantifies over all values of the settings that should not matter, on all data.", "anchors": ["src/gradientbooster.rs fit, fit_trees, sample_index", "src/sampler.rs", "src/splitter.rs MissingBranchSplitter, MissingImputerSplitter", "src/binning.rs percentiles_or_value"]}
{"id": "C116", "title": "The learning rate only scales the first tree", "statement": "Two fits of the same data whose settings differ only in learning_rate compute the same base score, and their first trees have the same nodes, splits, children, gains, covers and depths. Unless missing branches get the average of the leaves, the value of every node is the same weight times the one or the other learning rate. With exact arithmetic a learning rate c > 0 times as large makes all values of the first tree c times as large in every case, and for a model of one tree the difference of every prediction to the base score c times as large, with the same leaf for every row. For the second tree this is false (witness).", "quantifier": "for all data, targets, weights, settings, learning rates, evaluation sets, environments; structure and weights in any arithmetic", "why_tests_cant": "Quantifies over all data and learning rates, and compares the whole structure of two runs.", "anchors": ["src/tree.rs fit", "src/node.rs as_node, make_parent_node", "src/splitter.rs clean_up_splits, best_split", "src/gradientbooster.rs fit_trees"]}
{"id": "C117", "title": "Only the last evaluation set decides", "statement": "A fit with several evaluation sets gives the same model as a fit with the last of them alone: the same trees, base score, best iteration, prediction iteration and all other fields except the record of the metrics, which has only the last column of the other record. So two fits with the same last evaluation set agree whatever the other sets are. The order of the sets does matter (witness).", "quantifier": "for all data, targets, weights, settings, evaluation sets, metrics, environments; any arithmetic", "why_tests_cant": "Quantifies over all lists of evaluation sets and compares whole models.", "anchors": ["src/gradientbooster.rs fit_trees (evaluation block)", "src/data.rs RowMajorMatrix::append_row"]}
{"id": "C118", "title": "A model that fits the training data exactly does not change any more", "statement": "In floating point arithmetic: if, at the predictions of the first j trees, all gradients are zero and no hessian is negative (for squared loss: the predictions are the targets), then every later tree is a single leaf of value zero and, for all data, the predictions of j trees are those of any larger number of trees. In particular a booster of squared loss whose targets all equal its base score predicts this number for every row of every matrix; in exact arithmetic the same holds when the base score is computed from constant targets.", "quantifier": "every booster without GOSS sampling whose penalties and limits are not negative and whose l2 is positive, every objective, grow policy, missing-value treatment, matrix, weights, evaluation sets, and every rounding arithmetic", "why_tests_cant": "A test sees one exactly fitted data set; that no split has a positive gain, that missing branches and forced bounds add nothing, and that all later sums stay exactly zero, for every configuration, needs the whole training loop", "anchors": ["src/gradientbooster.rs fit_trees", "src/splitter.rs best_feature_split, evaluate_split", "src/tree.rs fit", "src/utils.rs weight, gain, cull_gain", "src/objective.rs SquaredLoss"]}
{"id": "C119", "title": "The layout of arrays in memory does not matter", "statement": "However a table of features lies in memory (rows or columns first, slices, reversed views, float64 or another type), the crate gets the matrix with the same shape and the same element in every place, so predictions and fits depend on the values only. For targets and weights this is false: an array of type float64 with a step between its elements makes fit fail, though the same numbers without a step (or of another type) are accepted; when all targets and weights can be read in place or are converted, fit on the arrays is fit on the numbers they hold.", "quantifier": "for all tables, strides, offsets, types, column names, targets, weights, evaluation data, settings; any arithmetic", "why_tests_cant": "Tests use freshly made contiguous arrays; views of other arrays have unboundedly many layouts", "anchors": ["py-forust/forust/__init__.py _convert_input_frame, _convert_input_array, fit, predict", "py-forust/src/lib.rs fit, predict (as_slice)"]}
{"id": "C120", "title": "Without missing values the missing branch does not matter", "statement": "When neither the training data nor the evaluation sets hold a missing value, training with create_missing_branch and training without it give the same number of trees and the same predictions on data without missing values. This is false: with a positive l2 the empty missing branch lowers the gain of every split by l2 times the square of its weight, and the empty branch counts as a leaf, so that max_leaves is reached earlier. It is true when l2 is 0, force_children_to_bound_parent is not set and no tree reaches max_leaves.", "quantifier": "for all data without missing values, weights, objectives, evaluation sets, parameters (l2 = 0, minimum leaf weight positive, leaf limit not reached, force_children_to_bound_parent off), column samples, seeds; exact arithmetic", "why_tests_cant": "Compares two training runs with different splitters, node by node, on every data set without missing values", "anchors": ["src/splitter.rs MissingBranchSplitter evaluate_split, MissingImputerSplitter evaluate_split", "src/gradientbooster.rs fit"]}
{"id": "C121", "title": "The text of a saved model reads back exactly and no damaged text is read", "statement": "For every model whose floats are finite (missing may be NaN), the JSON text of the model - as json_dump writes it, or as Python's json module writes the same document - reads back as exactly that model, with any white space around it. For every model at all, a text cut short at any place is refused, and so is a text followed by anything but white space. Different models have different texts. Names and values in the metadata may contain any characters.", "quantifier": "all models, all strings in the metadata, all cut positions, all continuations, any way of writing floats as JSON numbers that read back as the same float", "why_tests_cant": "A test writes a few models with plain metadata; escapes of quotes, control characters and characters outside the basic plane, and the places at which a file may be cut, are unbounded in number.", "anchors": ["src/gradientbooster.rs json_dump", "src/gradientbooster.rs from_json", "src/gradientbooster.rs save_booster", "src/gradientbooster.rs load_booster", "py-forust/forust/__init__.py save_booster", "py-forust/forust/__init__.py load_booster"]}
{"id": "C122", "title": "The residuals are balanced in every leaf", "statement": "With SquaredLoss and without sampling and monotone constraints, missing values being imputed or absent: without l1, l2 and max_delta_step each tree multiplies the weighted sum of the residuals of the training rows in each of its leaves by 1 - learning_rate (a learning rate of 1 balances every leaf); over all training rows the sum after k trees is (1 - learning_rate)^k times that of the base score; with the base score initialised, the weighted mean of the predictions equals that of the targets after any number of trees. With any l1, l2 and max_delta_step and a learning rate up to 1, each tree brings the sum in each of its leaves nearer to 0 and does not change its sign.", "quantifier": "all data, weights, numbers of trees and settings as stated; exact arithmetic", "why_tests_cant": "A test compares two means on one data set up to a tolerance; the identity for every leaf of every tree of every data set cannot be enumerated.", "anchors": ["src/tree.rs fit", "src/utils.rs weight", "src/gradientbooster.rs fit_trees", "src/objective.rs SquaredLoss"]}
{"id": "C123", "title": "Strong regularisation gives a constant model", "statement": "For every objective and any sampling but GOSS, with missing values imputed or in a branch of their own and any monotone constraints: (a) if l1 is at least the sum of the absolute gradients of the training rows at the base score (with SquaredLoss: the weighted absolute residuals) and gamma is not negative, then every tree is a single leaf of value 0 and the model predicts the base score for every row of every matrix; (b) if the sample weights with SquaredLoss, or a quarter of them with LogLoss, sum to less than twice min_leaf_weight, then every tree is a single leaf and the model predicts the same value for every row of every matrix.", "quantifier": "all data, weights, matrices, numbers of trees and settings as stated; exact arithmetic", "why_tests_cant": "A test fits a few penalties on a few data sets; that no candidate split of any histogram of any data set has a positive gain cannot be enumerated.", "anchors": ["src/utils.rs l1_regularization", "src/utils.rs weight", "src/splitter.rs evaluate_split", "src/gradientbooster.rs fit_trees"]}
{"id": "C124", "title": "A saved file gives back its model or nothing", "statement": "After a call of save_booster that reports success, load_booster of the same path returns the same model, whatever the file held before, and no other file has changed. After any sequence of calls of save_booster, by any models to any paths, each of which may be refused, stop after any number of bytes or succeed, a path gives the model of the last call that opened it if all bytes of that call were written, an error if not, and what it gave before if no call opened it: never an older model, never a mixture. A file that ends too early, also inside a character, has other bytes than white space after the model, or begins with a byte order mark is refused. Two different models have different files.", "quantifier": "for all models, all disks, all paths, all sequences of saves and all places at which a write may stop", "why_tests_cant": "A test saves once and loads once; it cannot stop the writing at every byte, nor run over all sequences of saves.", "anchors": ["src/gradientbooster.rs save_booster", "src/gradientbooster.rs load_booster", "py-forust/src/lib.rs save_booster", "py-forust/src/lib.rs load_booster"]}
{"id": "C125", "title": "The messages of fit tell what happened and change nothing", "statement": "The messages that fit hands to the logger have no influence on the fitted model, on errors or on panics. With log_iterations = 0 and after refused input there are none. Otherwise, without evaluation data, they are the completion of every iteration whose number is a multiple of log_iterations, in order, and at the end the number of trees. With evaluation data they are, iteration by iteration: that training stops early, with the metric of the last set, exactly at the last iteration if it lies early_stopping_rounds or more past an earlier best iteration; for every multiple of log_iterations the metrics of all sets, equal to that row of the evaluation history; and, for those multiples, the completion of the iteration unless training stopped at it. At the end the number of trees.", "quantifier": "for all data, settings, evaluation sets and values of log_iterations, in any arithmetic", "why_tests_cant": "Tests do not look at the log; and which messages appear depends on the course of training, the settings and the evaluation data together.", "anchors": ["src/gradientbooster.rs fit_trees", "src/utils.rs fmt_vec_output"]}
{"id": "C126", "title": "Changing the unit of targets or weights by a power of two changes nothing bit by bit, in floating point", "statement": "All results being rounded to p bits (single precision) and q bits (double precision), for any p and q and every integer k: with squared loss, multiplying the targets (also those of evaluation sets), l1, max_delta_step and the given base score by 2^k and gamma by 4^k multiplies the fitted base score, all node values, all recorded metrics and all predictions by exactly 2^k and all gains by exactly 4^k and changes nothing else. For every objective and metric, multiplying the sample weights, l1, l2, gamma and min_leaf_weight by 2^k multiplies covers and gains by exactly 2^k and leaves everything else, including predictions, identical. Exponents are not bounded: for results of normal size the rounding is that of f32 and f64, and with subnormal results the statement fails. For factors that are not powers of two it fails as well.", "quantifier": "all data, weights, parameters, sampling and growing methods, evaluation sets, formats, k", "why_tests_cant": "A test compares two runs for a few factors and data sets, and cannot tell equality up to rounding from equality bit by bit on all data.", "anchors": ["src/gradientbooster.rs fit", "src/tree.rs fit", "src/splitter.rs evaluate_split", "src/objective.rs calc_grad_hess", "src/histogram.rs create_feature_histogram"]}
{"id": "C127", "title": "The sign of zero in the features does not matter", "statement": "In an arithmetic with the positive and the negative zero of IEEE 754: if the training data and the data of the evaluation sets differ in the signs of zeros only, training ends alike (same error, panic, or success); on success the fitted boosters differ in the signs of zero split values only, and on any data that differ in the signs of zeros only they give the same predictions, leaf indices and contributions of every method. When a zero is the code for missing values, its sign does not matter either. The split values themselves can show the sign.", "quantifier": "all data with zeros of either sign, parameters, objectives, sampling and growing methods, evaluation sets, formats", "why_tests_cant": "Negative zeros are hardly ever in test data, and a comparison by total order or by bit pattern at one place would show for some data only.", "anchors": ["src/binning.rs bin_matrix", "src/utils.rs map_bin", "src/utils.rs percentiles", "src/utils.rs is_missing", "src/node.rs get_child_idx", "src/gradientbooster.rs fit"]}
{"id": "C128", "title": "No subtraction of indices or counts goes below zero", "statement": "The usize subtractions of the code - `high -= 1` while partitioning the rows, the record counts `total_recs - split_idx` and `total_recs - n_right - missing_split_idx` of a split, `n_leaves -= 1` while growing a tree, `i - best_iteration` of early stopping, `unique_depth - i` and `unique_depth -= 1` of the Shapley path - never go below zero: whatever a subtraction does below zero (panic as in a build with overflow checks, wrap around as in a release build, anything), training returns the same booster and Shapley contributions are the same.", "quantifier": "every arithmetic, every subtraction that is right where the difference is not negative, every booster, data, targets, weights and evaluation sets for which the model's training returns (in particular all arguments of C77); Shapley contributions of any booster at all on any data", "why_tests_cant": "An underflow needs one input that puts two counters out of order, and in a release build it does not stop the program but yields a huge count that only changes which histogram is computed; tests pass through a few shapes of trees and data.", "anchors": ["src/utils.rs pivot_on_split", "src/utils.rs pivot_on_split_exclude_missing", "src/splitter.rs handle_split_info", "src/tree.rs fit", "src/gradientbooster.rs fit_trees", "src/shapley.rs tree_shap"]}
{"id": "C129", "title": "The text of an error tells what was wrong", "statement": "If an array given to fit has a problem, the text of the error returned is `Missing values found in ...` or `Negative values found in ...` with the name of the first array that has a problem, in the order targets, weights, then targets and weights of each evaluation set with its number (negative weights are reported before NaN weights); without a problem there is no error; and two problems with the same text are the same problem of the same array. The text of an error of the constructor names the first rejected parameter with the range and the value passed, and determines the parameter.", "quantifier": "every booster, data, targets, weights and any number of evaluation sets, any arithmetic, any way of printing numbers", "why_tests_cant": "Which array is reported depends on the order of the checks and on combinations of problems in any number of evaluation sets; that no two problems share a text is a statement about all numbers of sets.", "anchors": ["src/errors.rs ForustError", "src/utils.rs validate_float_parameter", "src/utils.rs validate_positive_not_nan_vec", "src/gradientbooster.rs fit", "src/gradientbooster.rs validate_parameters"]}
{"id": "C130", "title": "With max_delta_step the predictions stay near the base score", "statement": "A booster fitted with a positive max_delta_step predicts, for any data whatever, numbers that differ from the base score by at most the number of trees used times learning_rate * max_delta_step (and so by at most iterations times that product). In floating point numbers: a finite prediction lies between the results of subtracting from, and adding to, the base score the rounded product once for every tree used, with the rounded additions of f64.", "quantifier": "every fit on finite data, every data set predicted on; exact arithmetic and every rounding arithmetic", "why_tests_cant": "The bound concerns all data sets predicted on, including rows far outside the training data, and all fits.", "anchors": ["src/gradientbooster.rs predict", "src/tree.rs predict", "src/utils.rs weight", "src/utils.rs constrained_weight"]}
{"id": "C131", "title": "The order of the columns decides between equal gains only", "statement": "Reorder the columns of the training data and of the evaluation data, and renumber constraints and terminated features accordingly. If at no node that is searched during the fit a column other than that of the chosen split offers a gain at least as large, then the fit on the reordered data returns the same model with its features renumbered: same trees, values, covers, gains, evaluation history and best iteration; and it predicts for reordered data what the original model predicts for the data as they were.", "quantifier": "every number of columns and every permutation of them, every booster without column sampling, both splitters, both growers, any sampling of rows, any evaluation sets, any arithmetic whose comparison is a strict order (so f32/f64 too)", "why_tests_cant": "The number of orders grows with the factorial of the columns, and equality is bit by bit through all iterations.", "anchors": ["src/splitter.rs best_split", "src/histogram.rs HistogramMatrix", "src/binning.rs bin_matrix", "src/gradientbooster.rs fit"]}
{"id": "C132", "title": "What is learnt from labels of one class", "statement": "With the logistic loss and a computed base score, labels that are all 1 (or all 0) give the base score +infinity (-infinity). All trees are then single leaves of value zero, and every row of every matrix is predicted, with any number of trees, to be of this class with probability exactly 1 (0). The log loss that the fit reports is NaN at every iteration for every evaluation set with a row of this class, although the prediction of this row is right, and the saved text of the model cannot be loaded. With l2 = 0 the first tree is a leaf of value 0/0 and with it all predictions are NaN.", "quantifier": "for all matrices, all weights that are numbers of the format and whose sum is positive and does not overflow, both classes, all data to predict, all numbers of trees, all settings with positive l2 (or l2 = 0 for the last sentence), non-negative penalties and limits and finite learning rate without GOSS sampling, in floating point arithmetic", "why_tests_cant": "A test fits one data set; that no weight and no setting makes a tree move an infinite base score, and that the metric is NaN for every evaluation set, is a statement about all of them.", "anchors": ["src/objective.rs calc_init", "src/objective.rs calc_grad_hess", "src/metric.rs log_loss", "src/gradientbooster.rs fit_trees", "src/gradientbooster.rs predict"]}
{"id": "C133", "title": "Partial dependence is the worth of one known feature, and it explains additive models exactly", "statement": "In exact arithmetic the partial dependence of a fitted model on a feature, at the value a row has, is the base score plus the worth of that feature alone in the games whose Shapley values predict_contributions returns; on a feature that no tree tests it is the bias column. For models whose trees each test one feature, in particular every model fitted with max_depth at most 1, the Shapley contribution of a feature is the partial dependence less the bias, and the prediction is the bias plus the sum of these differences. With max_depth 2 this fails.", "quantifier": "For every model fitted on finite data (any objective, sampling, growing policy, missing value treatment, binary or ternary splits), every new matrix with at least the training columns and readable values, every row, feature and value.", "why_tests_cant": "It relates two algorithms (the path algorithm of TreeSHAP and the recursion of partial dependence) for all trees and all values, and needs that the covers of the children of every grown node add up to its own; tests compare numbers on samples with rounding.", "anchors": ["src/shapley.rs:1-232", "src/partial_dependence.rs:1-133", "src/tree.rs:449-451", "src/gradientbooster.rs:958-971"]}
{"id": "C134", "title": "The stored gains measure the fall of the training loss", "statement": "With squared loss and no sampling, in exact arithmetic, every tree lowers the weighted squared error of the training data by at least the learning rate times the sum of the gains stored in its nodes, for learning rates between 0 and 1; so the unnormalised total_gain importances, times the learning rate, add up to no more than what training took off the error. With a learning rate of 1 the fall of a tree that splits is exactly the squared sum of residuals over the weight plus l2, plus the sum of its gains, plus l2 times the sum of the squared leaf values. Without l1, max_delta_step and monotone constraints and with missing values imputed the same holds for every learning rate, with 2 lr - lr^2 times the first two terms.", "quantifier": "For every fit with squared loss on finite data without sampling, every matrix, weights, number of trees, growing policy, bins, gamma at least 0, l1, l2 and max_delta_step; missing values imputed or in a branch of their own treated so that the weights of nodes are those of their gains.", "why_tests_cant": "It is an identity between what the splitter computes for candidate splits from histograms, what the nodes store, and the predictions on the data, for trees of every size and shape; a test sees single numbers with rounding.", "anchors": ["src/node.rs:166-199", "src/splitter.rs:300-760", "src/tree.rs:45-140", "src/gradientbooster.rs:975-1035"]}
{"id": "C135", "title": "Gamma limits the number of splits of the whole model", "statement": "However many trees are grown: with squared loss, no sampling and a learning rate between 0 and 1, the number of splits of all trees together, times gamma and the learning rate, is at most the weighted squared error of the base score; with log loss and a max_delta_step short enough, the number of splits times gamma and half the learning rate is at most the logistic loss of the base score. So the number of trees that are not a single leaf is limited by the same numbers.", "quantifier": "For every fit on finite data without sampling, every number of iterations, matrix, weights, growing policy, l1 and l2 at least 0, gamma at least 0; missing values imputed or in a branch of their own treated so that the weights of nodes are those of their gains.", "why_tests_cant": "A bound for any number of rounds cannot be tested; it needs that every stored gain is an amount of training loss and that every split kept exceeds gamma.", "anchors": ["src/splitter.rs:300-760", "src/node.rs:187-199", "src/gradientbooster.rs:560-760"]}
{"id": "C136", "title": "No bin holds much more than its share of the weight", "statement": "After a matrix has been binned with nbins bins, take any bin of any column. The rows of that bin that do not stand at its least value weigh together at most one nbins-th of the weight of all rows of the column that are not missing. In particular, with equal weights and a column without repeated values no bin has more than (rows not missing) / nbins + 1 rows.", "quantifier": "for every matrix with finite entries, every list of weights that are not negative, every number of bins, every column and every bin, in exact arithmetic", "why_tests_cant": "A test looks at a few columns; where a heavy value falls relative to the levels, ties, zero weights and missing entries combine in unboundedly many ways.", "anchors": ["src/binning.rs:74-128", "src/utils.rs:333-374", "src/utils.rs:385-403"]}
{"id": "C137", "title": "The warnings of the Python class say what happens", "statement": "The constructor warns that base_score will be calculated exactly if the base score given is not 0.5 and initialize_base_score is set; if it warns, every successful fit gives the very same instance whatever base score was given, and if it does not, a base score other than 0.5 is the base score of the fitted model. A successful fit warns about several evaluation sets exactly if more than one was passed, and then its result is that of the last set alone apart from the evaluation history. partial_dependence warns about the order of the columns only if no names were seen by fit; without the warning the result for a name does not depend on the order of the columns, with it the feature explained is the one at the position of the column in the frame passed. After a fit with initialize_base_score every set_params that leaves base_score alone warns as well, unless the calculated value is 0.5.", "quantifier": "for every parameter set, training data, evaluation sets, frame and feature name, in any arithmetic", "why_tests_cant": "The claims relate pairs of whole runs of fit (another base score, fewer evaluation sets) for all data.", "anchors": ["py-forust/forust/__init__.py:461-467", "py-forust/forust/__init__.py:516-518", "py-forust/forust/__init__.py:622-625", "py-forust/forust/__init__.py:833-851", "py-forust/forust/__init__.py:1140-1149"]}
{"id": "C138", "title": "Only the cut points matter", "statement": "Round every training value down to the greatest cut point of its column that is not above it, and leave missing values. Binning the rounded data gives the same cut points and the same bins as binning the data, whatever the weights, and training on the rounded data ends in the same way with the same model: the same trees, history and best iteration. A fitted model gives the same predictions, leaves and contributions for new data and for the same data rounded down to the cut points. With weights that are not negative, one of them positive in every column that has numbers, the training data can always be rounded down to the cut points.", "quantifier": "for all data, weights, numbers of bins, objectives, sampling methods, evaluation data, stopping rules and environments (sorting, heap, random numbers), in any rounding arithmetic", "why_tests_cant": "The rounded data take the branch for few distinct values and the data take the branch with percentiles; that both give the same cut points relates two runs on different data.", "anchors": ["src/binning.rs bin_matrix", "src/binning.rs percentiles_or_value", "src/utils.rs map_bin", "src/gradientbooster.rs fit_trees", "src/node.rs get_child_idx"]}
{"id": "C139", "title": "Rows that are never drawn have no say", "statement": "Train with random sampling of rows and a given initial score. Draw the rows from the generator: in every iteration one number per row, a row being drawn when its number is below the sampling rate, then the columns. If other targets agree with the given ones on every row drawn in some iteration, and neither contains NaN, then training gives the same result, also when it fails: the same trees, history and best iteration. The same holds for the weights as long as they are valid and give the same bins. With either sampling method a tree depends on the gradients and hessians of its sampled rows only. With an initial score computed from the targets the claim is false.", "quantifier": "for every arithmetic, generator, sorting and heap behaviour, all data, targets, weights, evaluation sets, parameters, splitters and numbers of iterations", "why_tests_cant": "It relates two runs on different targets through the whole sequence of random draws; a root sum or histogram that reads one row too many gives a plausible model.", "anchors": ["src/sampler.rs RandomSampler::sample", "src/gradientbooster.rs sample_index", "src/gradientbooster.rs fit_trees", "src/tree.rs Tree::fit", "src/histogram.rs HistogramMatrix::new"]}
{"id": "C140", "title": "min_leaf_weight limits the number of splits and the depth of trees", "statement": "Let q be min_leaf_weight and W the total sample weight (a quarter of it for LogLoss). Every tree of a fitted model that has s > 0 splits satisfies (s + 1) * q <= W, and every node d > 0 steps below the root satisfies (d + 1) * q <= W. In particular no tree splits when W < 2 * q. The bound is reached. It holds for both ways of treating missing values and for random row sampling.", "quantifier": "All data, targets, weights and parameters with a positive min_leaf_weight, without GOSS: for both objectives in exact arithmetic; for SquaredLoss in f32 and f64 with rounding when the weights are multiples of a power of two with a total of at most 2^24 units.", "why_tests_cant": "The bound concerns every data set and every number of rows; a test sees a few trees that other limits (max_leaves, max_depth, gamma) have stopped first.", "anchors": ["src/splitter.rs MissingBranchSplitter::evaluate_split", "src/splitter.rs MissingImputerSplitter::evaluate_split", "src/tree.rs Tree::fit", "src/histogram.rs HistogramMatrix::new"]}
{"id": "C141", "title": "A sampling rate of one is no sampling", "statement": "Take a booster that samples neither rows nor columns. The same booster with random sampling of rows at a rate above all numbers of the generator, such as a rate of one, and with any seed, gives the same outcome of fit: the same trees, history and best iteration, or the same failure. This holds when sums in f64 are exact, whatever the rounding of f32, also with infinite or NaN gradients. With rounding in f64 it is false, because the gradients of the root are then added in another order.", "quantifier": "for every generator, sorting and heap behaviour, all data, targets, weights of the right length, evaluation sets, parameters, splitters, objectives, seeds and numbers of iterations; f64 exact", "why_tests_cant": "It relates two code paths (gathered gradients with a plain sum, and all gradients with an unrolled sum) through all iterations of two whole runs; tests compare neither, and the counterexample with rounding needs 17 rows or more with cancelling gradients.", "anchors": ["src/sampler.rs RandomSampler::sample", "src/tree.rs Tree::fit", "src/histogram.rs HistogramMatrix::new", "src/utils.rs fast_f64_sum", "src/gradientbooster.rs fit_trees"]}
{"id": "C142", "title": "GOSS with top_rate one is no sampling", "statement": "A booster which does not sample rows, and the same booster with GOSS sampling, top_rate = 1 and any other_rate, give the same result of fit in exact arithmetic: the same trees, base score, evaluation history and best iteration, also when columns are sampled, because GOSS then only reorders the rows and does not use the generator. In f32 and f64 the order of the additions matters and the predictions can differ.", "quantifier": "all matrices, finite targets and weights, parameters (with at most one of create_missing_branch and force_children_to_bound_parent), generators, sorting algorithms and evaluation sets; every heap which picks by gain", "why_tests_cant": "The reordered rows give the same node sums for every data set and every tree only as a theorem about all orders; a test can compare two runs, and in floating point the runs can legitimately differ.", "anchors": ["src/sampler.rs:78-109", "src/tree.rs:50-65", "src/gradientbooster.rs:493-509"]}
{"id": "C143", "title": "The root mean squared error is accurate in floating point", "statement": "In f64, for n rows with finite targets, predictions and non-negative weights, if the sum of the weights does not overflow, the result is finite and no squared error, weighted squared error or mean is a non-zero number in the subnormal range, then the square of the computed root_mean_squared_error differs from the exact weighted mean of the squared errors by a relative error of at most (2n + 7) / 2^51, and the computed value is zero if and only if all rows with a weight are predicted exactly. If the sum of the weights overflows the metric is zero although the predictions are wrong.", "quantifier": "all lists of rows with 2n + 7 <= 2^50, all rounding modes given by a format with relative error u (general form), every square root with a relative error of half a unit in the last place", "why_tests_cant": "An implementation which expands the square or drops the weights agrees with the right one on round numbers; a relative error bound for all inputs, with cancellation between target and prediction, needs a proof.", "anchors": ["src/metric.rs:155-167"]}
{"id": "C144", "title": "Shapley contributions are bounded by the spread of the leaf values", "statement": "In exact arithmetic, if the leaf values of each tree lie between lo and hi of that tree, then the Shapley contribution of a feature to a prediction is in absolute value at most the sum of hi - lo over the trees in use which test the feature (zero for a feature no tree tests), and the bias lies between the base score plus the sum of the lo and the base score plus the sum of the hi. For a fitted model with max_delta_step > 0 no contribution exceeds 2 * learning_rate * max_delta_step times the number of trees which test the feature.", "quantifier": "all models with well-formed trees whose covers add up, in particular all fitted models; all matrices with readable values; all prediction_iteration", "why_tests_cant": "The path algorithm divides by fractions of covers and unwinds polynomials; a wrong term shows as a large contribution on some tree shape only, with repeated features on a path. The bound holds for every shape.", "anchors": ["src/shapley.rs:59-232", "src/gradientbooster.rs:802"]}
{"id": "C145", "title": "Shapley contributions of a constrained feature follow the constraint", "statement": "Of two rows which differ in one monotone-constrained feature only, where both have a value, the row which the constraint favours has the larger Shapley contribution of that feature (exact arithmetic).", "quantifier": "all fitted models, all data, all pairs of rows, both signs of the constraint", "why_tests_cant": "The order of the contributions has to hold for all subsets of known features in every tree; a test can only compare some rows of some models.", "anchors": ["src/shapley.rs:59-232", "src/utils.rs:115-150", "src/splitter.rs evaluate_split"]}
{"id": "C146", "title": "Average contributions follow the expectations along the path, and are Shapley values for stumps", "statement": "In exact arithmetic, the Average contribution of a feature to a row is the sum, over the trees and over the nodes on the way of the row that test the feature, of the change of the cover-weighted expectation from the node to the child chosen, and the last number of the row is the base score plus the expectations of the trees. The last numbers of the methods Average and Shapley are always equal. When each tree tests a single feature, in particular for every fitted model with max_depth at most 1, both methods return exactly the same numbers.", "quantifier": "all boosters with well-formed trees, finite values and non-zero covers; all matrices whose tested values can be read; all fits on finite data for the last part", "why_tests_cant": "The tests compare the sums of contributions with predictions, which also holds for wrong attributions; they do not compare the methods, and one tree cannot show the agreement for all trees that test one feature.", "anchors": ["src/tree.rs predict_contributions_row_average, distribute_leaf_weights", "src/shapley.rs tree_shap", "src/gradientbooster.rs predict_contributions_average"]}
{"id": "C147", "title": "ProbabilityChange contributions follow the path and are at most a quarter of the change of the log odds", "statement": "For a LogLoss model and method ProbabilityChange, the contribution of a feature to a row is the sum, tree by tree and step by step, of the changes of the probability at the steps that test the feature, where the log odds collected in the trees before are added to the node values; the last number is the probability of the base score plus the changes from before each tree to its root. In real arithmetic the contribution of a feature is at most a quarter of the sum of the sizes of the changes of the node values at these steps, and it has their sign when they agree in sign.", "quantifier": "all boosters with well-formed trees, all matrices that can be predicted, in any arithmetic; the bound for all finite models in real arithmetic", "why_tests_cant": "Tests check that the contributions add up to the probability, which also holds when changes are credited to other features or the log odds of the wrong trees are used in a way that telescopes.", "anchors": ["src/tree.rs predict_contributions_row_probability_change", "src/gradientbooster.rs predict_contributions_probability_change", "src/utils.rs odds"]}
{"id": "C148", "title": "On the training data the Average contributions of each feature cancel out", "statement": "Exact arithmetic. In every fitted tree, whatever the objective, the sampling and the treatment of missing values, the changes of the expectation that the tree credits to a feature add up to zero over the rows it was trained on, each row weighted with its second derivative. For squared loss without sampling, the numbers predict_contributions with method Average gives to a feature over the rows of the training data therefore have the weighted sum zero, with the weights of the rows, and the bias is the same for all rows and equals the weighted mean of their predictions. The same holds of the model cut off at any prediction_iteration. The method Shapley shares the bias but not the cancellation, by an example.", "quantifier": "for all training data, targets, weights, parameters of plain fits, features, prediction iterations; exact arithmetic", "why_tests_cant": "A test explains one fitted model; that the covers stored in the nodes are exactly the weights that make the credited changes cancel at every node of every tree depends on how growth, binning and prediction route the rows.", "anchors": ["src/tree.rs predict_contributions_row_average", "src/tree.rs distribute_leaf_weights", "src/gradientbooster.rs predict_contributions"]}
{"id": "C149", "title": "What a missing value contributes", "statement": "With create_missing_branch, the methods BranchDifference, MidpointDifference and ModeDifference give exactly 0 to a feature that is missing in the row, in any arithmetic and however missing values are treated. When missing branches keep the value of their parent, which holds with AssignToParent, and with AverageLeafWeight for features whose missing branches are not split (allow_missing_splits false, or the feature listed in terminate_missing_features), a missing feature contributes exactly 0 by the method Weight, in any arithmetic in which node values minus themselves are 0, and by ProbabilityChange in real arithmetic. With AverageLeafWeight it contributes exactly 0 by the method Average as well, in exact arithmetic. Examples show that AssignToParent does not do this for Average, nor the treatment None for Weight.", "quantifier": "for all fits, rows, features, parameters; any arithmetic, exact for Average, real for ProbabilityChange", "why_tests_cant": "Tests compare a few models; the claim is about every step of every row through every tree of every fit, for each combination of treatment and method.", "anchors": ["src/tree.rs predict_contributions_row_weight", "src/tree.rs predict_contributions_row_branch_difference", "src/tree.rs predict_contributions_row_midpoint_difference", "src/tree.rs predict_contributions_row_mode_difference", "src/tree.rs predict_contributions_row_average", "src/tree.rs predict_contributions_row_probability_change", "src/splitter.rs clean_up_splits"]}
{"id": "C150", "title": "Without regularisation the Weight contributions are the Average contributions", "statement": "Exact arithmetic. When a booster is fitted with l1, l2 and max_delta_step 0, without monotone constraints and without missing branches, the value of every node of every tree, inner nodes included, is the average of the leaves below it weighted with their covers. Therefore predict_contributions gives the same numbers by the methods Weight and Average for any data and any prediction_iteration, and with squared loss the Weight contributions of each feature have the weighted sum zero over the training data. With l2 = 1 the methods differ, by an example.", "quantifier": "for all training data, targets, weights, objectives, plain fits without regularisation, explained data, prediction iterations; exact arithmetic", "why_tests_cant": "A test compares the two methods on one model; that the weights computed top down during growth from gradient sums agree with the averages computed bottom up from the leaves depends on every split dealing out gradients and covers completely.", "anchors": ["src/utils.rs weight", "src/tree.rs predict_contributions_row_weight", "src/tree.rs predict_contributions_row_average", "src/tree.rs distribute_leaf_weights"]}
{"id": "C151", "title": "Squared-loss boosting can be interrupted and continued on the residuals", "statement": "Exact arithmetic, squared loss, no sampling of rows or columns. Take a fitted model and any n up to its number of trees. A fresh fit with the same parameters, base score 0 and the remaining number of iterations, to the residuals of the model with its first n trees (targets minus its predictions of the training data), succeeds and grows exactly the later trees of the model. For any data the predictions of the whole model are those of its first n trees plus those of the model fitted to the residuals. Evaluation data and early stopping of the first fit do not matter, nor do seeds and generators.", "quantifier": "for all training data, targets, weights, parameters of plain squared-loss fits without sampling, n, evaluation data, generators, predicted data; exact arithmetic", "why_tests_cant": "A test could compare one interrupted run with one uninterrupted run; that nothing but the residuals is carried from one iteration to the next is a statement about all the state of the loop.", "anchors": ["src/gradientbooster.rs fit_trees", "src/objective.rs SquaredLoss", "src/gradientbooster.rs predict"]}
{"id": "C152", "title": "Stronger regularisation never enlarges a node value", "statement": "In any arithmetic with monotone symmetric rounding, floating point included: the value weight computes for given gradient and hessian sums is not larger in absolute value when l1, l2 or the hessian sum is larger, or when max_delta_step is tighter (positive and smaller, or set where it was 0); overflow to infinity included. The gain of a node likewise does not grow with l2 or the hessian sum unless the squared gradient overflows. For whole fits in exact arithmetic without sampling, constraints and missing branches: of two fits to the same data from the same base score and with the same learning rate the more strongly regularised one has the smaller absolute value at the root of the first tree, whatever their other settings.", "quantifier": "for all rounding arithmetics, gradients, hessians and regularisation parameters; for all training data and pairs of plain fits (exact arithmetic)", "why_tests_cant": "Monotonicity in four parameters at once under rounding is a statement about pairs of inputs; a test samples a few of them and the cases at the boundary of the l1 dead zone and of the step limit are easily missed.", "anchors": ["src/utils.rs weight", "src/utils.rs l1_regularization", "src/utils.rs gain"]}
{"id": "C153", "title": "Larger targets never lower the value of the root", "statement": "In any arithmetic with monotone symmetric rounding, floating point included: weight does not grow with the gradient sum, for any l1, l2 and max_delta_step; and with either objective, targets that are nowhere smaller give a root value that is not smaller, through the rounded gradients, the cast to f32, the sum in lanes of 16 in f64, the cast back, the soft threshold, the division and the step limit, as long as the sums do not overflow (and, for the log loss, the sum of the second derivatives is not negative). In exact arithmetic, of two fits with the same objective, regularisation, learning rate and base score to the same features and weights, without sampling, constraints and missing branches, the one with the larger targets has the larger value at the root of its first tree, whatever their other settings.", "quantifier": "for all rounding arithmetics, targets, predictions, weights and regularisation parameters; for all training data and pairs of plain fits (exact arithmetic)", "why_tests_cant": "Order preservation through several roundings and a sum whose order of additions differs from the order of the rows is a statement about all pairs of inputs.", "anchors": ["src/utils.rs weight", "src/utils.rs fast_f64_sum", "src/objective.rs SquaredLoss::calc_grad_hess", "src/objective.rs LogLoss::calc_grad_hess", "src/tree.rs fit"]}
{"id": "C154", "title": "The helper functions used by tests do what their names say", "statement": "percentiles of the Python module returns, for contiguous double arrays in exact arithmetic, for each level the least value whose cumulated share of the weight reaches it, in the order of the levels, and refuses every other array with an error. print_matrix prints the table whose columns the array lists one after the other: a line per row, numbers separated by one space, and an empty line at the end. precision_round, in exact arithmetic, gives a decimal number with the asked number of digits that no other such number is nearer than, and of two equally near ones the one farther from zero.", "quantifier": "for all arrays, weights, increasing levels in [0,1), tables with at least one column, numbers and precisions (negative ones included)", "why_tests_cant": "Tests use these functions to judge other code; that they are right for all inputs is not itself tested.", "anchors": ["py-forust/src/lib.rs percentiles", "py-forust/src/lib.rs print_matrix", "src/utils.rs precision_round"]}
{"id": "C155", "title": "Weighted percentiles with the level 1", "statement": "For positive weights and levels in [0,1] that increase strictly, percentiles returns exactly one value per level, the least data value at which the cumulated share of the weight reaches the level; the values do not decrease, and the value of the level 1 is the greatest of the data. The conditions are needed: the level 1 given twice can be answered once only, and a greatest value without weight is returned for the level 1 or not, depending on the levels before it.", "quantifier": "for all values, positive weights and strictly increasing levels in [0,1] (exact arithmetic)", "why_tests_cant": "The code leaves the loop early at the level 1; whether that agrees with the general rule depends on where the earlier levels were reached, on ties and on weights of zero.", "anchors": ["src/utils.rs percentiles"]}
