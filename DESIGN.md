# Formal model of forust in Lean 4

The model covers the Rust crate in `/repo/src` (binning, histograms, splitters, tree growing,
prediction, contributions, boosting loop, metrics, objectives, sampling, JSON shape) and the pure
logic of the Python wrapper.  It is written function by function; every definition names the file
and lines it models and states its simplifications.

## Trusted base

* the Lean 4.33 kernel and the axioms `propext`, `Classical.choice`, `Quot.sound` (at most; the file
  `lean/Verif/Audit.lean` prints the axioms of every theorem listed in `MANIFEST.json`);
* the transcription of the Rust source into `lean/Verif/Model/*.lean`;
* the behaviours listed under "Oracles" and "Not modelled" below.

No axioms of our own, no `sorry`, no `native_decide`, no `bv_decide`.

## Numbers

Rust computes in `f32` and `f64`.  The model is generic in two types `F` (f32) and `D` (f64).

* `class Fl` lists the operations and states **no law**.  A theorem that only assumes `[Fl F] [Fl D]
  [FlCast F D]` therefore holds for IEEE-754 arithmetic exactly as the machine does it
  ("any arithmetic").
* `FX m` is the concrete instance: finite numbers of an ordered field `K`, the infinities and NaN, the
  IEEE rules for special values, and every finite result rounded by `m.rnd`.  `Fmt.Exact m`: no
  rounding.  "Exact arithmetic" in a property means `FX m` with `Fmt.Exact m`; the special values
  stay.  Simplifications: one zero (no negative zero), NaN has no sign or payload.
* Properties that need only an order on non-NaN numbers are stated for `FX m` with any `m`
  (arbitrary rounding), or for a small class of order laws that both satisfy.
* `Spec/Ieee.lean` defines the formats of IEEE 754 (`Ieee.b32`, `Ieee.b64`: `p` bits, round to nearest even,
  gradual underflow, overflow) as computable instances of `Fmt ℚ`.  `Fmt.Rounds` (`Proofs/Rounds.lean`) lists
  the laws of rounding that proofs use (monotone, odd, idempotent, doubling is exact); exact formats and the
  IEEE formats are proved to obey them.
* Real-valued statements (derivatives) use `K = ℝ`.
* Small law classes are used where a property needs less than `FX`: `Fl.InfTop` (infinity is the top of
  the order, `Props/Validation`), `Fl.AddLaws` (a commutative monoid, `Proofs/Sum`), `Fl.OrdLaws` and
  `Fl.TotLaws` (order laws, `Proofs/Order`), `Fl.GainLaws` (order laws for gains, `Props/Splits`).  Each has
  an instance for `FX`, so none is void.
* C65 (loading a saved instance) assumes that widening an f32 to f64 and rounding it back is the
  identity, `down (up x) = x`; true of IEEE-754, an explicit hypothesis of the theorem.

## Faults

`Res α = ok | panic | diverge`.  Index out of range, failed assertions, `unwrap` of `None`, NaN
comparison, division of integers by zero are `panic`.  Loops carry fuel; running out is `diverge`,
and theorems show the given fuel is never exhausted.  Unsigned subtraction below zero is `panic`
at some sites and stops at 0 at others; C128 shows that it does not occur, whatever it does.  Machine integers are `Nat`, except `u16` bins,
which are checked (`map_bin`) or wrapped (`split_bin`) as in the code; 64-bit overflow is not modelled.

## Oracles (behaviour outside of the repository)

* `sort_unstable_by`: any function that returns a sorted permutation for a total preorder
  (`Sorter.Ok`); ties in any order.
* `BinaryHeap`: `pop` returns an element that no other exceeds (`HeapPick.Ok`); ties in any order.
* random generator: an arbitrary state machine; `choose_multiple` returns some list of distinct
  elements of the requested size.
* random numbers (C98 only): `gen_range(0.0..1.0)` is one of `M` equally likely multiples of `1/M`, independently
  each time (`tapes`, `meanOf` in Spec/Tapes); nothing else assumes anything about the numbers drawn
* rayon: an indexed parallel map runs one task per slot in any order (`Parallel`); `sum` is any
  reduction tree over the items.
* `exp`, `ln`, `sqrt`: parameters of the format, specified only where a property needs it.
* serde_json: structs map to objects by field name, `NaN`/infinities are written as `null`;
  text <-> tree parsing and decimal printing of finite floats are assumed to round trip.
* C63 compares two runs, so the oracles must treat them alike: `Sorter.Natural` (sorting looks at the
  order only, not at the values), `HeapPick.ByScore` (the heap looks at the gains only).
  C82-C85 use `Sorter.Natural` and `HeapPick.ByOrder` (the heap looks at the comparisons of the gains only).
* Python's `json.dumps`/`json.loads` round trip on the values stored as metadata (`PyJson.Ok`).
* numpy: `np.quantile` with `np.linspace` (`Numpy.Ok`): as many numbers as asked for, in order, between the
  values.  An instance with linear interpolation is shown to meet this (`linNumpy_ok`).
* numpy (C119 only): the element of a view is found from its strides; `ravel(order="F")` and `astype` give contiguous
  arrays with the same elements; `as_slice` of rust-numpy is the memory of a contiguous array, otherwise an error.
* XGBoost (C97 only): how it walks a dumped tree (`XgbReaches`) and the link of each objective (`xgbMargin`) are
  written from its documentation; that its dumps number nodes from 0 with the root first is a hypothesis.
* `HashMap`/`HashSet`: association lists / lists; only order-independent facts are stated.

## Coverage per source file

| file | modelled | not modelled |
|------|----------|--------------|
| `binning.rs` | all | |
| `constraints.rs` | all | |
| `data.rs` | `Matrix`, `RowMajorMatrix`, `JaggedMatrix` access, `append_row`, `Display` of a matrix | conversions of `FloatData` (part of `FlCast`) |
| `errors.rs` | all, with the texts | |
| `gradientbooster.rs` | validation, `fit`, prediction, contributions, importance, partial dependence, JSON, saving to and loading from files, metadata, defaults, setters, messages of `fit` | |
| `grower.rs` | both growers | |
| `histogram.rs` | histograms, child histograms, column subsets | |
| `metric.rs` | all metrics, `roc_auc`, names | |
| `node.rs` | all, with JSON and `Display` of a node | |
| `objective.rs` | both objectives | |
| `partial_dependence.rs` | all | |
| `sampler.rs` | both samplers | the generator itself |
| `shapley.rs` | all | |
| `splitter.rs` | both splitters | |
| `tree.rs` | all, with `Display` | |
| `utils.rs` | sums, percentiles, pivots, weights, gains, sorting order, text helpers, `precision_round` (exact arithmetic) | |
| `py-forust/src/lib.rs` | constructor, parameters, load, `text_dump`, methods behind the class, `percentiles`, `print_matrix` | PyO3 marshalling except the reading of arrays (`PyArrays`) |
| `forust/__init__.py` | the class: constructor, `fit`, predictions, contributions, importances, partial dependence, metadata, saving, loading, pickling, `get_params`/`set_params`, `trees_to_dataframe`, import of an XGBoost model, conversion of arrays of any layout and type, warnings | object columns |
| `forust/serialize.py` | `ObjectSerializer` (oracle `PyJson`), `ScalerSerializer`, `NumpySerializer` | floats in `ScalerSerializer`; type names of arrays |

Simplifications of the Python class: an `AttributeError` is the same error value as a `ValueError`;
metadata text that does not parse counts as a missing key; `None` in a data frame column is not turned into
NaN; a frame is a matrix with optional column names.

Not modelled anywhere: the file system beyond bytes at paths (no links, no permissions besides readable or not), rayon internals, memory, 64-bit
overflow. Negative zero: `FX` has one zero; `SZ` (`Spec/SignedZero.lean`) has two, and C127 and all theorems for any
arithmetic (`[Fl F]`) apply to it.

## Layout

* `Verif/Num.lean` — results, number classes, `FX`.
* `Verif/Model/*.lean` — the model.
* `Verif/Spec/*.lean` — definitions used to state properties, independent of the model's helpers.
* `Verif/Proofs/*.lean` — helper lemmas.
* `Verif/Props/*.lean` — property theorems with concrete `example`s.
* `Verif/Audit.lean` — generated; prints the axioms of every theorem in the manifest.
* `tools/manifest.py` — writes `MANIFEST.json` and `Audit.lean` from `tools/claims.json` and the names of
  the theorems in `Props/`.
* `tools/seed.py`, `tools/seedlog.py`, `seeded/mutants.json`, `seeded/LOG.jsonl` — seeded bugs: `seed.py`
  applies a mutant to a scratch copy, rebuilds, replaces each failing theorem by `sorry` in the scratch copy
  and goes on, so that the list of failing theorems is complete; `seedlog.py` writes the log.

## Plan per property

| id | modelled | how |
|----|----------|-----|
| C01 | binning, histograms, splitters, growing, routing | loop invariant: the node's slice of the index is the multiset of rows routed to it; cover = sum of hessians, via histogram prefix sums and C28, C30, C31 |
| C02 | same + `weight` | same invariant for gradient and value |
| C03 | `Tree::fit`, `predict` | structural invariant of the growing loop, any arithmetic |
| C04 | same | same invariant |
| C05 | same, imputer | counting invariant: nodes = 2 leaves - 1, leaves <= max |
| C06 | same, missing branch | false; witness tree, and the true bound max_leaves+1 as `_partial` |
| C07 | `evaluate_split`, growing | every candidate returned passed the test; lifted through the loop |
| C08 | `get_split_gain`, growing | same |
| C09 | `weight`, clean-up | bound of clipping, convex combination for clean-up; in floating point arithmetic midpoints and products are monotone |
| C10 | bounds, growing, routing | invariant: subtree values inside the node's bounds; siblings separated by the midpoint |
| C11 | same | false; witness data set and tree |
| C12 | contributions | telescoping along the path |
| C13 | contributions, average weights | telescoping |
| C14 | contributions | telescoping |
| C15 | `shapley.rs` | path polynomial invariant |
| C16 | `shapley.rs` | path polynomial invariant against the permutation definition |
| C17 | `predict` | per-row independence, permutation lemma |
| C18 | `Parallel`, `ParallelFit` | schedule independence of slot writes; reduction trees for sums; training re-modelled with a division of the columns and a row order at every use of the pool (`PoolRun`), equal to the sequential model step by step |
| C19 | `predict` | fold over prefix |
| C20 | `fit_trees` loop | invariant over the iterations with arbitrary metric values |
| C21 | `fit_trees` loop | invariant |
| C22 | `fit_trees` loop | invariant |
| C23 | `fit` | reset then run; equality of states |
| C24 | `fit` validation | case analysis |
| C25 | `new` validation | case analysis |
| C26 | serde derive | value-level encode/decode, round trip |
| C27 | same | false; witness |
| C28 | binning | binary search correctness, sortedness |
| C29 | binning | counting |
| C30 | pivots | loop invariants |
| C31 | histograms | sums over rows |
| C32 | sampler | induction / selection |
| C33 | `fit_trees`, growing | features of splits are in the column index |
| C34 | missing branch splitter | growing invariant |
| C35 | clean-up | recursion |
| C36 | missing branch splitter | growing invariant |
| C37 | missing branch splitter | growing invariant |
| C38 | `bound_to_parent` | case analysis + growing invariant |
| C39 | partial dependence | recursion |
| C40 | importance | recursion |
| C41 | `roc_auc_score` | sweep invariant against pair counting |
| C42 | objectives | algebra |
| C43 | objectives | Mathlib derivatives |
| C44 | growing | queue invariants; confluence |
| C45 | percentiles | sweep invariant |
| C46 | `fast_sum` | chunk induction; with rounding: error bound with exponent n/16 + 17 |
| C47 | leaf indices | fold |
| C48 | `is_missing` | case analysis on the route |
| C49 | growing | potential function |
| C50 | best split | fold maximum |
| C51 | `Display` | stack traversal |
| C52 | boosting, squared loss | per-leaf quadratic, sum over leaves (uses C01/C02) |
| C53 | `weight`, gain | convexity |
| C54 | metadata | map laws |
| C55 | python wrapper | dictionary model; false, witness |
| C56 | python wrapper | dump import model; false, witness |
| C57 | matrices | index arithmetic |
| C58 | `fit_trees` | false; witness for every data set |
| C59 | contributions | induction on the path |
| C60 | python wrapper, load | dictionary model; false, witness |
| C61 | boosting, squared loss | simulation of two fits, the relation shifts scores and targets |
| C62 | everything below `fit` and `predict` | finiteness invariants: every value compared is a number, every index is in range |
| C63 | binning, growing | simulation of two fits related by an order isomorphism per feature |
| C64 | python class | reshaping lemmas over the crate's outputs |
| C65 | python class, JSON | round trip through C26, invariant of instances reachable by calls |
| C66 | `set_params` | false (stale names); witness, and the true part |
| C67 | `fit` of the class | false (attributes are set before the failure); witness, and the true part |
| C68 | importances | key lemmas; false for duplicate and stale names |
| C69 | `fit` of the class | invariant of instances reachable by calls, C23 |
| C70 | tree table | reader of the table against the routing specification |
| C71 | partial dependence, monotone constraints | mean of ordered mixtures; false in general, witness |
| C72 | fit as a whole | fit on copies of rows simulates the fit on the rows: sums over rows are sums over copies, percentiles depend on the distribution only |
| C73 | fit, fit_unweighted | C72 for rows repeated as often as their weights say |
| C74 | percentiles, fit | false in general, witness; C72 for rows of weight zero |
| C75 | defaults, setters | induction over the calls; field by field against a table of parameters |
| C76 | `partial_dependence` of the class | sorted duplicate-free grid, contract of `np.quantile`, C39 for success |
| C77 | fit as a whole, floating point | invariant of the histograms that needs no sums: nodes without rows have zero bins and are never split |
| C78 | fitted trees, exact and floating point | covers of children are positive sums over the rows that reach them; counterexample evaluated in the IEEE formats |
| C79 | one-tree models, exact and floating point | a regularised step lies between the single steps of its rows; counterexample evaluated in the IEEE formats |
| C80 | fitted models, floating point | bounds are midpoints of representable weights, rounding is monotone; a chosen split has a finite gain, so the midpoint does not overflow |
| C81 | predictions and Weight contributions, floating point | sums of representable numbers have a small relative error, subnormal ones are exact; errors collected along folds |
| C82 | fit, squared loss, exact | simulation of the two runs: maps of gradients, hessians, weights, gains and bounds that commute with every operation (`Scale.Laws`) are pushed through histograms, splits, growing, sampling, boosting |
| C83 | fit, any objective and metric, exact | the same simulation with other maps; percentiles and metrics are quotients of sums of weights |
| C84 | fit, squared loss, floating point | the same simulation with negation, which commutes with rounding |
| C85 | fit, logistic loss, real arithmetic | the same simulation; 1 - logistic(x) = logistic(-x) |
| C86 | `JaggedMatrix` | offsets are prefix sums; take/append/drop of the data |
| C87 | `JaggedMatrix::from_vecs` | false, witness of two columns; sum of the ends |
| C88 | printed text, names | induction over the list |
| C89 | default metric, early stopping | NaN through the metric; C20, C21 |
| C90 | constructor of the Python class | false for the sample method, witness; otherwise the parsed names |
| C91 | logistic training loss | false without a limit on the steps, witness over the reals; holds when `exp (lr * mds) ≤ 1 + lr * mds + lr * mds ^ 2` |
| C92 | `metric.rs` | sums over zipped lists as sums over row numbers, real elementary functions |
| C93 | boosting, history, metrics | C21 and C92 with C52 and C91 |
| C94 | `Tree::fit`, splitters, exact | false at the root with `l1` or `max_delta_step`, witness; otherwise the best candidate is no better than the leaf, and open leaves are left only at the leaf limit |
| C95 | fit, squared loss, exact | by C94 the sums below each cut are proportional in every leaf; added up over leaves, then differences of cuts |
| C96 | `text_dump`, `Display`, any number printer | lines are read back character by character; C51 gives the order; prediction and importance use shown fields only |
| C97 | `_from_xgboost_model`, JSON, `predict` | false for native boosters, other links and `f64` data, witnesses; otherwise XGBoost's walk on the dump is followed by the imported tree, JSON by C26 and C27 |
| C98 | sampling, exact | induction over the sequences of numbers drawn; the order of the rows does not depend on them; counting the numbers below the threshold |
| C99 | `serialize.py`, Python's string literals | a literal is longer than its string by the quotes, with equality only if it stands for itself; nested lists by induction on the shape |
| C100 | squared loss, `f32`/`f64` with rounding | sums of multiples of a unit below the largest representable multiple are not rounded, in any order; induction over the tree for the covers and the histograms; the routing does not use sums |
| C101 | squared loss, `f32`/`f64` with rounding | `NearX`: distance to an exact sum, counted in roundings; `f64` sums of `f32` numbers are multiples of 2^-149, so the cast to `f32` has a relative error; histogram subtraction adds 4 roundings per level, a prefix of bins at most `nbins + 1` |
| C102 | any arithmetic | two traces of the loop agree in running predictions, generator and trees as long as both go on; one iteration commutes with changing the number of iterations |
| C103 | copies: any arithmetic with a strict order; constants: any format with rounding | forward simulation of growing with one more column (`TrainExt`), parametrised by the relation of the new column of the histograms to the others; the last feature never has a strictly greater gain |
| C104 | any arithmetic | forward simulation of the contribution walks and of `tree_shap` on two rows that agree where the splits look; the features on the path are split features |
| C105 | any arithmetic | simulation of training and of the walks on two codings; the three tests for missing values agree on recoded values |
| C106 | exact; false in floating point | the candidate chosen passed the test before missing values are assigned; bins translated to raw values |
| C107 | any rounding arithmetic (candidate); exact (fit) | the gain of an empty side is NaN without l2, and comparisons with NaN send the missing values right |
| C108 | any arithmetic | both trees' nodes matched from the root down; the loop with a larger leaf limit passes through the final state of the other |
| C109 | exact; false in floating point (refusal of nodes: any rounding arithmetic) | subtracting gamma keeps the order of the gains, so the first best candidate is the same; trees matched as for C108 |
| C110 | ranking: any arithmetic; symmetries: exact; rounding: `f64` | the sort and the loop look at comparisons only; sums of whole weights and areas are multiples of 1/2 below 2^52, so only the last division rounds |
| C111 | fitting, predictions, contributions, partial dependence | the simulation of C63 with the identity shows that cuts and split values are training values; outputs depend on the side taken at each split only (`SameSides`); below the range C106 |
| C112 | `f32`/`f64` with any elementary functions; finiteness of training false | partial sums stay below multiples of 2^970, which are `f64` numbers, and rounding is monotone; witness with a target of 10^39 |
| C113 | binning, histograms, splits, growth, boosting loop, predictions; any arithmetic with a strict order | simulation between two runs: the search over the kept columns finds the same split because the winner of the search over all columns is a kept column and ties go to the first; the condition on the final model is pulled back through the growth loop because splits are never removed |
| C114 | growing, routing, predictions; additivity: exact arithmetic | the length of a route is the depth of its leaf (C04); a stump looks at one entry, so the sum over the trees can be sorted by columns |
| C115 | fit, boosting loop, sampling | simulation of two runs that differ in idle fields and generators; any arithmetic |
| C116 | tree growing, as_node, clean_up_splits, fit | simulation of two growth loops that differ in the learning rate |
| C117 | evaluation block of fit_trees, append_row | simulation of two boosting loops; any arithmetic |
| C118 | tree growing, both splitters, fit_trees, squared loss | induction over the trees: zero gradients leave no gain; floats with any rounding |
| C119 | `_convert_input_frame`, `_convert_input_array`, `as_slice` | index arithmetic of strided views; false for strided targets, witness |
| C120 | both splitters on the same data | walk of the two trees in step; false for l2 > 0 and at the leaf limit, witnesses |
| C121 | `json_dump`, `from_json`, `save_booster`, `load_booster` as texts; serde_json's and Python's writers; a JSON reader | reading back by induction on the fuel of the reader; a successful reading of an object does not depend on what follows |
| C122 | fitting, prediction, squared loss | the leaf of a row holds the step of the rows led to it (C02); a sum that vanishes on every class of rows vanishes on all rows |
| C123 | fitting, prediction, both splitters | sums over parts of the rows are bounded by the sum of the absolute values, so that all weights are 0 and no split has a positive gain; the two children of a split would both reach min_leaf_weight |
| C124 | `save_booster` and `load_booster` on a disk of bytes, with interrupted writes | UTF-8 decoding of Lean's core library and C121; induction over the sequence of saves |
| C125 | `fit` with the messages of `info!` collected in order | the fit without messages is equal to `Booster.fit`; states of the loop with the messages of each iteration; early stopping from C20 |
| C126 | powers of two as factors in rounded arithmetic | formats of p bits without bounds on exponents; agreement with f32 and f64 in the normal range |
| C127 | arithmetic with two zeros | numbers SZ with the rules for the negative zero; the map that forgets the sign respects comparisons, then C63 and C105 |
| C128 | usize subtractions of utils, splitter, tree, booster, shapley | the functions written with the subtraction as a parameter; invariants: bounds of the partitions, at least one leaf, best iteration in the past when there is a best metric, the root of the Shapley path carries no feature of the row |
| C129 | errors.rs with the derived texts, validation with the error in full | list of arrays in order; findSome; head or last characters of texts; the text up to the first comma |
| C130 | fit and predict | sum of bounded leaves; in floating point monotone rounding of every addition |
| C131 | fit on permuted columns | forward simulation of C113 with histograms in another order; the search as a fold whose maximum is unique |
| C132 | src/objective.rs, src/metric.rs, src/gradientbooster.rs (no new definitions) | gradients and hessians vanish at an infinite score, so C118 applies from tree 0 on; zero times the logarithm of zero is NaN |
| C133 | `value_partial_dependence`, `predict_contributions` (Shapley), the covers of grown nodes | exact arithmetic; games as in C16, mixtures as in C39 |
| C134 | `update_children`, `get_split_gain`, `calculate_importance_gain`, growing and predicting | exact arithmetic; loss and sums of the data stated on lists of numbers |
| C135 | as C134 | C08 and C134 summed over all trees |
| C136 | `bin_matrix`, `percentiles_or_value`, `percentiles`, `map_bin` | `C136_balance`: the percentile property (C45) and the position of the cuts (C28) bound the weight between two cuts; `C136_count`: the number of rows of a bin |
| C137 | `warnings.warn` in `__init__`, `fit`, `partial_dependence`, `set_params` | `PyWarnings.lean` models when each warning is given; `C137_ignored` compares two fits, `C137_sets` uses C117, `C137_order` the lookup of names |
| C138 | Rounding training values to the cut points | two runs, same bins; split values are cut points |
| C139 | Undrawn rows under random sampling | two runs; gradients read through the sample only |
| C140 | growth, splitters, objectives | induction over the subtree walk: each child pays for its splits, each side of a split holds min_leaf_weight |
| C141 | Random sampling at rate one against no sampling | two runs; gathering all rows is the identity, the two root sums agree by C46 |
| C142 | GOSS with `top_rate` one against no sampling | two runs; no row is left to draw, and growth from reordered rows follows the argument of C72 |
| C143 | the root mean squared error has a small relative error in `f64` | `Props/MetricError.lean` |
| C144 | Shapley contributions are bounded by the spread of leaf values | `Props/ShapleyBound.lean`; C16, expectations are means of leaf values, the weights of a Shapley value sum to one |
| C145 | Shapley contributions of a constrained feature follow the constraint | false in general, witness; true when only constrained features are split on below; `Props/ShapleyMonotone.lean` |
| C146 | Average contributions are sums of changes of expectations along the path; same bias as Shapley, and equal to Shapley when each tree tests one feature | walk lemma over the filled average table; the expectation with the path's features known telescopes along the path |
| C147 | ProbabilityChange per feature along the path, in any arithmetic; bounded by a quarter of the changes of the node values | walk lemma over the relation Visits; the derivative of the logistic function is at most 1/4 |
| C148 | on the training data the Average contributions of each feature cancel out and the bias is the weighted mean prediction | induction over the nodes from the leaves up: rows that pass a node are dealt out to its children, whose covers weigh the expectations |
| C149 | a missing feature contributes exactly 0 under the settings and methods for which that is promised | the entry of the feature is untouched along the walk; missing leaves store the value of the parent |
| C150 | without regularisation the methods Weight and Average give the same contributions | each node's value solves its Newton equation; gradients and covers of the children add up; induction from the leaves up |
| C151 | boosting with squared loss is the same as fitting the remaining trees to the residuals | the states of the second loop are written down explicitly and shown to be steps; derivatives depend on the residuals only |
| C152 | values of nodes shrink with l1, l2 and the step limit, in floating point too | monotone rounding; soft thresholding moves towards zero; exact roots through C02 |
| C153 | root values keep the order of the targets, in floating point too | monotone rounding pushed through gradients, lanes, threshold, quotient and clamp; exact roots through C02 |
| C154 | the functions exported for tests | C45, C88 and C119 composed; floor of x + 1/2 |
| C155 | the special branch for the level 1 in percentiles | the last value is the only one that reaches all of the weight |
