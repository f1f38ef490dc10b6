# Formal model of wildwood: design

This document was written before the proofs and is updated as the model grows.
The source is `/repo/wildwood` (Python + numba). It is read as text only.

## 1. Layout

* `lean/Verif/Model/*.lean`: executable model, one file per source module. Each definition cites
  the file and lines it models, and states simplifications.
* `lean/Verif/Spec/*.lean`: small independent specifications (what a property means, with no
  reference to the helper functions of the model).
* `lean/Verif/Proofs/*.lean`: helper lemmas.
* `lean/Verif/Props/*.lean`: the property theorems (listed in `MANIFEST.json`), each with an `example`
  showing that its hypotheses are satisfiable on a non-trivial case.

## 2. Modelling decisions

**Exceptions and memory errors are values.** Functions that index arrays run in `Except Err`. A read or
write out of bounds is `Err.oob`; the real code is compiled with `boundscheck=False`, so an
out-of-bounds access is silent memory corruption there. An unsigned subtraction below zero is
`Err.underflow`, a `while` loop that runs out of fuel is `Err.fuel`. Python exceptions are separate
constructors. Theorems state that a function returns `.ok`, so memory safety and
termination are part of the statements.

**Floats.** The class `Num F` lists the float operations used by the code (add, mul, div, lt,
exp, log, cast from and to integers) *without any law*. Structural theorems (tree shape, routing, counts,
stopping rules, memory safety, termination) hold for every `F` with every interpretation of the operations,
hence also for IEEE float32 with NaN, infinities and rounding, and with `fastmath`.
Numeric theorems (probability vectors, aggregation formula, optimality) are about the instance at `ℝ`
(or any ordered field): rounding is not modelled there. C92 is about rounding: its positive part holds for every arithmetic with the laws
`FloatLaws` (rounding to nearest has them as long as nothing overflows), its violation is in `F32`, a model of float32 with 24 digits, ties to even
and gradual underflow, without overflow. C116 is about `F32` as well.

**Randomness.** The numba generator is an abstract deterministic state machine (`Rng`): any state type, any
transition, with the only contract that `randint n` returns a number below `n` when `n > 0`. Theorems hold for all of
them, thus for every sequence of draws. `np.argsort` is a parameter that returns some permutation (sorted order is assumed only
where the theorem says so: numba uses an unstable quicksort).

**Arrays** are `List`s. `np.empty` contents are parameters ("garbage") where they could matter.

**Integers** are `Nat` (with checked subtraction), except the packed words of `FeaturesBitArray`, which
are `BitVec 64`, so shifts drop bits as in the hardware.

**Threads** are interleavings of atomic steps chosen by an arbitrary schedule.

## 3. Trusted base

* Lean's kernel (4.33.0) and Mathlib's definitions used in statements (`Real`, `Real.exp`, `Real.log`, `List`, `Finset.sum`, ...).
* Axioms: at most `propext`, `Classical.choice`, `Quot.sound` for every theorem. See section 6.
* The reading of the source: the model is tied to the code only by the citations.
* External behaviour assumed: numpy/pandas/sklearn/joblib/numba calls as stated in the comments of each model
  definition (for example `np.unique` sorts and removes duplicates, `pandas` categories are duplicate-free,
  `sklearn._check_sample_weight` returns the same array when the dtype already matches).

Not modelled: plotting, the contents of the dataset files (their readers and converters are arbitrary functions in C123-C125; creating directories is assumed to succeed), pickling of the byte stream itself (only the field-by-field
state functions), numba compilation, joblib internals beyond "runs every task once, returns results in order",
float rounding in the numeric theorems other than C92 and C116.

## 4. Properties: model and proof plan

| id | what is modelled | how it is proved |
|----|------------------|------------------|
| C01 | `FeaturesBitArray` with 64-bit words, packing, unpacking | bit-level round trip, induction on samples per word |
| C02 | same, whole buffer with offsets | offsets are cumulative, frame lemma |
| C03 | `_bin_continuous_column` loop | binary-search invariant |
| C04 | `_find_binning_thresholds` over an ordered field | sortedness of midpoints and of percentiles; counting the values below a threshold (order statistics) |
| C05 | `Encoder.fit/transform` | bins of known cells are below the number of bins; `max_values` read off the first loop |
| C06 | same | index-of-category injective; the errors of both loops collected into one acceptance condition |
| C07 | same + bit array | transform is a map over rows |
| C08 | `inverse_transform` | round trip using C03 and C06 |
| C09 | dictionary keyed by column name | proved for distinct names, negation for repeated ones |
| C10 | decision tables of `_checks.py` | case analysis over all inputs |
| C11 | `get_is_categorical` | direct |
| C12 | `_get_max_features_` | `Nat.sqrt`, `Nat.log2` bounds |
| C13 | `sample_without_replacement` | invariant: pool prefix holds the not-yet-drawn items |
| C14 | `_generate_train_valid_samples` | counts and complement |
| C15 | same | negation for n = 1, positive for n >= 2 |
| C16 | `split_indices` | loop invariant on the buffers |
| C17 | histograms and `try_feature_order_*` | histogram = count lemmas, prefix sums |
| C18-C23 | `grow` with stack, node arrays, partitions | big-step lemma: processing one record builds the whole subtree and restores the stack; strong induction on the number of samples |
| C24 | `find_leaf` + growth invariant | thresholds are bins present at the node |
| C25 | `bin_partitions` buffer | append-only invariant, binary search |
| C26 | split search | loop invariant: best so far; soundness of the early exit |
| C27 | impurity formulas over the reals | algebra, Cauchy-Schwarz / Jensen |
| C28-C31 | node predictions and forest averages over the reals | convexity |
| C32-C34 | `compute_tree_weights`, `log_sum_2_exp`, prediction walk | recursion over the tree; explicit sum over all prunings |
| C35, C36 | setters, `recompute_node_predictions` | two growths in lockstep, structure does not read step/dirichlet |
| C37 | parameter state machine | negation with a call sequence |
| C38, C39 | threads, per-thread generator, lock | induction over schedules |
| C40 | fit with a global generator as hidden input | proved without subsampling; negation with it; a tree depends on its generator only through the state its own seed gives (two fits whose seeding functions agree on one seed share that tree) |
| C41, C42 | state functions of `tree.py` | field-wise round trip; negation after `lighten` |
| C43 | seed index arithmetic | negation |
| C44-C47, C51 | parameter/fit state machine | negation with witnesses, partial theorems |
| C48 | node statistics over the reals | sums over repeated lists |
| C49 | node table | negation |
| C50 | categorical orders | Fisher/Breiman argument for binary gini; negation for regression (bins are sorted by sum) |
| C52 | `resize`, record stack | refinement to a list |
| C53 | `np.empty` arrays as parameters of the fit | relational induction over the growing loop |
| C54 | `fit` and `predict` of both estimators, with all checks and side effects, around the models of encoder and trees | composition of the encoder, growth and prediction theorems; the state of a successful fit is computed explicitly |
| C55 | as C54; `renameWorld` applies an increasing function to the stored classes | relational proof over the monad of side effects: every step of `fit` commutes with the renaming (`Proofs/Comm`, `Proofs/Labels`) |
| C56 | as C54; `balancedOf` is the documented formula for balanced weights, in terms of the labels only | both fits are brought to the same call of the common part of `fit` |
| C57 | as C54; `Spec/EndToEnd` defines shares, losses and averages over prunings as sums over the rows of the training data that visit a node | the nodes of each tree are matched with the rows that visit them, the bootstrap is made explicit, and the accumulation over trees is computed exactly |
| C58 | as C54 | from C57, since equal rows have equal bins (C07) |
| C59 | `Est.apply` (Model/Inspect), on the model of the whole `fit` | C23 for every tree of the forest; the shape is refuted |
| C60 | `Est.predictProbaTrees`, `Est.predictTrees`, numpy's assignment of a matrix to a slot | the values of C57; one-versus-rest and regression are refuted |
| C61 | `getNodes`, `getActualDepth`, the attributes of a tree and scikit-learn's `check_is_fitted` | depths are levels (C21), the deepest node is a leaf; the other methods are refuted |
| C62 | `pathStep`, `pathFrom`, `samplePathLeaf`, `Est.pathLeaf` | induction on the tree behind the arrays; one-node trees and forests are refuted |
| C63 | `displayTree`: the data frame of `_compute_display_tree` as lists indexed by node, drawn in sorted order | the sort visits parents before children; the distance of the nodes below a child is less than the step to it |
| C64 | the dataset before `fit` and `predict` with each numerical column changed by an increasing function (`recode`); the whole of `fit` and `predict` | thresholds are halfway between two neighbouring values, so a training value is on the same side of the old and of the new threshold; the rest of `fit` sees only bins |
| C65 | the same with `a x + b` | the thresholds move with the values, so every number stays on its side |
| C66 | the whole of `fit`, `predict` and `apply` of a regressor over ℝ, run twice in lockstep (`TaskSim`) | sums, means, losses and impurities of the second run are linear images of those of the first; comparisons are not changed by positive factors; log-weights of the aggregation agree since `step * loss` does. Without categorical columns, or without shift (the order of the categories is then the same). `C66_shift_violated`: a shift with a categorical column |
| C67 | the same for `fit` of classifiers and regressors with weights times `κ` | the same lockstep; node shares `(k w + k d) / (k W + k n d)` do not change |
| C68 | hyperparameters as Python values (`PyVal`), the setters, the two constructors, `get_params`, `set_params` (Model/Params.lean), the checks of the `Encoder` constructor inside `fit`; the link to the estimator model is `PObj.toEst` | case analysis of each setter against the documented values (`Allowed`); induction over all programs (`Reach`): constructor, assignments, `set_params`, `fit`; `C68_ready` turns this into the hypotheses of C54. NaN, `random_state` and the three settings of the encoder violate it |
| C69 | `clone` (sklearn) over `get_params` and the constructor; `fit` of the estimator model | `fit` is followed step by step with an invariant for each hyperparameter; `C69_refit_partial` combines this with C40. `multiclass`, `categorical_features` and a `random_state` that was dropped violate it |
| C70 | The whole of `fit`: hyperparameters, encoder, bootstrap, growth of every tree (Model/Estimator down to Model/Split) | `FitFacts.tree` gives for each tree its settings, its rows and the run of `fitTree`; C18, C19, C21, C22 and C26 are applied to it (`tree_limits`, `tree_greedy`); the columns come from C04, C06, C10 and C11. The specification (Spec/Greedy, Spec/ForestColumns) speaks of the data, the drawn rows and the tests in the trees only |
| C71 | The whole of `fit`, twice (Model/Estimator, Model/Forest, Model/Grow); `Est.apply` and `Est.predictProbaTrees` (Model/Inspect) | Both runs of `growLoop` are compared step by step (Proofs/OutOfBag: all statistics of a node except losses and weights of the rows left out are equal, so the chosen splits and the permutations of the rows are equal); the bootstrap depends on the seed only, and the classes, class weights and encoder are shown equal (Proofs/OutOfBagEst). For arbitrary `Num` |
| C72 | `Dataset.extract` with its transformers (Model/Datasets; frames as lists of named columns, `train_test_split`, conversion to floats and square root as parameters) | The columns of each fitted feature are related to the names that the feature should have (`contFit_columns`, `catFit_columns`); under the hypothesis on the declared columns these names are `columns_` (`columnNames_eq`). Mean and variance: `scalerFit_spec` at every ordered field. Three witnesses of the violation, the first with the data of `load_boston` cut down to three columns |
| C73 | as C72, two runs | The training frames are equal (`rows_congr`), hence the fitted features; the code of a test row is a function of the fitted features and the row (`transformFrame_row`) |
| C74 | as C72, two runs | No fitted feature reads the label column (`extract_label`); the witness declares the label in `dtype` |
| C75 | `gini`, `scaled_gini` and the frequencies of the labels (Model/Datasets) | The difference to the maximum is a sum of squares (`scaledGini_spec`); one class gives 0 / 0 |
| C76 | `get_signal` and the four signals with the real sine and square root (Model/Signals); NaN is `none` | minimum and maximum of the list; one input gives NaN for every signal |
| C77 | as C76 | affine image within a call; the witness is the signal "blocks" at 0 with 0.12 or 0.14 as second input |
| C78 | `make_regression` (Model/Signals) with an abstract global generator | the run after `np.random.seed` does not use the old state; contents from C76 |
| C79 | nothing new: the estimator model with the limits switched off (`NoLimits` in Spec/FullTree) | C70 gives for each leaf: pure, or no candidate on any feature, hence all drawn rows of the leaf have the same bins; then shares and averages from C57 |
| C80 | nothing new: fit, predictions and leaves of the estimator model, any float arithmetic | by C70 both children of a node contain a drawn row when `min_samples_leaf` is at least 1, and these rows have different outcomes of the test; the descent to the leaf reads only tested columns |
| C81 | nothing new: fit and per-tree predictions of the estimator model at ℝ; specification `outOfBagLog`, `outOfBagSquare`, `frequency`, `drawnMean`, `NearBestLog`, `NearBestSquare` | the tree values of C57 are averages with exponential weights over the prunings; the prior weights of the prunings sum to one, the leaves of a pruning partition the out-of-bag rows, the losses are convex, and the mean loss under exponential weights is bounded by the variational inequality (`gibbs`) |
| C82 | `getNodes`, `getNodesPred` of Model/Inspect; the printed forms of the cells (numbers with two digits, lists of more than 1000 categories shortened) are not modelled | specification `TableVisits`: the way of a row read off the table alone; it agrees with the tests of the tree line by line, then C23 |
| C83 | as C57 | the drawn weight at a node is at most `n` times the largest row weight, so a smoothed share lies between `d / (B + C d)` and `(B + d) / (B + C d)`; averages with the weights of the prunings stay between; the normalisation of one-versus-rest scores is bounded below by smallest over `C` times largest |
| C84 | `fitClassifier`, `fitRegressor`, `Est.apply`, `Est.predictProbaTrees`, `Est.weightedDepth`; hypothesis on numpy: drawing `k` integers from a seeded generator gives the first `k` of `m` | the first `k` seeds and depths are the same, encoder and labels do not depend on the number of estimators; violated in one-versus-rest mode: tree `i` belongs to class `i // n_estimators` but uses seed `i // n_classes`, witness computed in the kernel |
| C85 | `EncObj` (the attributes of an `Encoder`), `EncObj.fit` with assignments at the lines of the code, `EncObj.transform` and `EncObj.inverse` with the number of columns from `n_features_in_` | induction over the history; `transform` with as many fitted columns as `n_features_in_` is `encoderTransform`; violated: `fit` assigns `n_samples_in_` and `n_features_in_` before it looks at the columns, so a failed `fit` on data with another number of columns breaks the encoder, and narrower data are then accepted, while wider data raise IndexError (example computed in the kernel) |
| C86 | `EncObj.assign`, `EncObj.construct` on Python values `PyVal` and masks `MaskArg` | cases of the setters, induction over the history; violated: the setter of `cat_min_categories` has no branch for values that are neither int nor str |
| C87 | `findBinningThresholds`, `binContinuousColumn`, `encoderFit`, `encoderTransform` | the values below a threshold are counted by the position of its percentile in the sorted column; a bin is the difference of two such counts |
| C88 | `fitClassifier`, `fitRegressor`, `encoderFit`, `encoderTransform`, predictions on `Dataset.frame` and `Dataset.array` | both encoder paths are equal column by column; congruence through the `Py` monad; violated at the boundary of the automatic typing |
| C89 | `fitRegressor`, `fitClassifier` with two label arrays | lockstep of the two fits (`TaskSim`, shared with C66 and C67): a sample of weight zero adds nothing to sums and losses, so all numbers are equal |
| C90 | `fitClassifier` twice on the same estimator, with `y` and with `ρ` of every label; `probaOf classes row l` is the column of `classes_` at which `l` stands | lockstep of the two fits over ℝ: labels correspond by the permutation of the class indices, node statistics are permuted, Gini and entropy of permuted counts are equal, so the same splits are found; `C90_categorical_violated`, `C90_ovr_violated`: whole fits evaluated in the kernel with fractions |
| C91 | `fitClassifier` and `fitRegressor` twice on the same estimator, on a dataset and on the dataset with `ch j` applied to the cells and dtype categories of column `j` | names in the old order: the codes are the old codes, so the encoded data are equal and the rest of the fit is the same computation. Any names: the codes of a column are permuted; the two forests are grown in lockstep (`Proofs/Permute*.lean`): histograms are permuted, the bins that occur are listed in the order of appearance of rows so that the order in which categories are tried is the same, only the sum over all bins is added in another order; the nodes differ only in the stored sets of codes, which are permuted, and every row goes to the same leaf |
| C92 | `fit` and `predict_proba` of classifiers in an arithmetic with rounding (`FloatLaws`: monotone operations, exact for 0, 1, small integers and x/x); float32 numbers as rationals with 24 digits (`F32`, `round32`) with correctly rounded operations, exp and log | every sum of weights of a class is at most the rounded sum of all weights, since rounded addition is monotone, and so on up to the average over the trees; the laws are proved for float32 from the monotonicity of rounding; the violation is a fit evaluated in float32 by the kernel, with the values of exp and log that occur bounded by Mathlib's bounds of log 2 and e |
| C93 | `fitRegressor` and the predictions of its trees at float32 (`F32`, operations rounded to 24 digits) | sums of integers below 2^24 are exact in float32, so node statistics are the exact ones; the computed impurity `q / w - (s / w)^2` of a node with two different labels is positive: the exact one is at least 1 / w^2, the rounding errors of quotient and square are smaller under the bound; hence every leaf whose rows can be separated has one label `z`, and `w z / w` is exact. Violation: a fit evaluated by the kernel |
| C94 | `fitClassifier` and the probabilities of its trees at float32 | sums of integer weights, their squares and the sum of squares are integers of at most 24 digits, hence exact; the quotient of two different such integers rounds to a number below 1, so an impure node has a positive computed impurity; a leaf has one class, whose smoothed share is strictly larger after rounding. Violation: a fit evaluated by the kernel |
| C95 | two runs of `fitClassifier` / `fitRegressor` that differ in `max_depth` and `min_samples_split` | each node of a grown tree has statistics and a split that depend on its rows only, in the order of the stable partition (`PureAt`, induction over the growing process `Grown`); the search for a split does not use the generator (`NoDraw`); induction on the larger tree compares the two; transport to the node tables by `Repr`. `C95_leaves`: induction on the nodes a row visits |
| C96 | `fitClassifier` / `fitRegressor`, then `predict`, `predictProba`, `predictProbaTrees`, `apply`, `weightedDepth` on two datasets | the thresholds lie between the smallest and the largest number (`thresholds_le`, `thresholds_fit`), so the two cells have the same bin or both have bins at least the largest occupied one (`sameSide_bins`); a node tests an occupied bin or the bins below it (`Facts.test`), so both cells take the same branch everywhere. `C96_violated`: kernel evaluation of a fit with rational numbers |
| C97 | `fitClassifier` / `fitRegressor`, node tables of all trees | induction on the grown tree (`GOK`): leaves of the two children add up, and so do their rows; a leaf has a drawn row, and rows of different children differ in the tested column (`GOK.representatives`); equal cells have equal bins (`FitFacts.bins_of_cells`) |
| C98 | `fitClassifier` / `fitRegressor` without aggregation, values of every tree at its leaves from the training data (`FitFacts.class_values`, `FitFacts.reg_values`) | a row visits a leaf exactly if it lands there (`visits_leaf_iff`), so a sum over the bootstrap is a sum over leaves (`total_leaves`); per leaf the mean minimises the square loss and Gibbs' inequality (`gibbs_leaf`) gives the classes |
| C99 | `Est.assign`, `Est.assignCls`: the setters of both estimators; `attempts`: assignments whose exceptions are caught | induction on the history; an accepted `step` or `dirichlet` is a refit of every tree (`Outcome.fitAll_change`, from C35 and C36 with the contexts of the fitted trees), all other assignments keep what predictions read (`assign_other`) |
| C100 | `Est.predictHelper`, `Est.callPredictProba`, …: the methods with `len(self.trees)` for `trees = None`; `NeverFitted`, `EverFitted`: histories of assignments, `lighten` and `fit` | induction on the history; a failed `fit` keeps trees and flag (`fitRest_error`), a successful one has one tree per seed, and there is a seed (`seedsOf_nonempty`) |
| C101 | `SameOrUnseen`: which cells may differ, in terms of the cells and dtypes of the training data | the fitted categories are the values that occur or are listed (`cats_fit`); missing and unknown cells have the same bin; the set of bins of a node has only bins of training rows (`Facts.testCat`), so other bins go right |
| C102 | `withMode`: the two estimators | both prepare the same trees, targets and weights (`encodeY_mode`), and `fitRest` sees the same state |
| C103 | `withWeights`: the caller's array | `fit` copies the weights or makes an array of ones; a relation between the two runs that ignores the caller's array (`fitRest_callerWeights`) |
| C104 | `unfittedRegressor`, `unfittedClassifier`: the estimator as its constructor made it | a successful `fit` assigns every fitted attribute before it is read (`fitRest_late`) |
| C105 | `withUnknown`, `AllKnown`: the categories of the table | `fit` encodes the training data, in which every category is known (`encoderFit_known`); `encoderTransform_known`, `encoderTransform_rejects` |
| C106 | `ColumnsAgree`: the same columns, other names | `fit` keeps its transformers in a dict by column name; with distinct names the dict has the columns in order (`dict_distinct`), and `transform` goes by position |
| C107 | `SStep`: one element is stored at a time, `SRun`; specification `HoldsVecs`, `HoldsMats` | invariant over runs (`SInv`): a row is written only by its task; a potential decreases with each step |
| C108 | `DepthBelow`, `NoContext` | the two loops run in lockstep (`growLoop_deep`), a path has two nodes per level and a tree fewer than twice as many nodes as rows (`Grown.depth_le`) |
| C109 | real arithmetic | from C54: a distribution over one class; without categorical columns the strategy has no effect (C111) |
| C110 | `withSpelling`, `FeaturesTried`, `KeepsAll`, `MinCategories` | the number of features and the configuration of the encoder are the same, so the rest of `fit` is the same computation (`fitRest_spelling`) |
| C111 | `withStrategy` | the orders of the categories are computed for categorical features only (`findBestAlong_orders`), through the growth of the tree (`growStep_orders`) and the forest (`growTrees_orders`) |
| C112 | `NoContext` | a node with fewer rows than twice `min_samples_leaf` has no admissible split (`sameChoice_split`), and the search has no other effect; the two loops run in lockstep (`growLoop_two`) |
| C113 | `withBalanced` | the weight of each class is one (`balancedWeights_equal`), so the weights of the rows are the given ones (`classWeights_equal`) |
| C114 | `FewValues`, `withMaxBins` | rows that are drawn for the thresholds have at most as many different values as the column (`npUnique_length_le`); then the thresholds are midpoints (`findBinningThresholds_few`, `encoderFit_bins`) |
| C115 | `Declares`, `withCatMin` | with a mask the number of categories is not looked at (`encoderFit_mask`) |
| C116 | rows with labels between two bounds, sums rounded to float32 after each row | sums of numbers between two multiples of a power of two stay between the multiples, because rounding is monotone and the multiples are floats (`round32_grid`, `Coarse`, `FitFacts.coarse`); the violation is a computed fit |
| C117 | `Est.apply`, `predictProba`, `predict`, `predictReg`, `weightedDepth` of any estimator state; `Spec.SameLeaves` compares two results of apply | the walk back to the root depends only on the leaf (`predictRow_sameLeaf`, `weightedDepthRow_leaf`), then row by row through the sums over the trees (`leaf_proba`, `leaf_ovr`, `leaf_predict`) |
| C118 | the whole of `fitClassifier`/`fitRegressor` and the predictions, over a class `Num F` without laws | `fitClassifier_ok`/`fitRegressor_ok` hold without laws; predictions walk only along stored nodes (`Built.predict_any`, `proba_any`, `ovr_any`), `argmax` of a row with as many columns as classes is a class number |
| C119 | `fitClassifier`/`fitRegressor` with the whole encoder; `Spec.CutsOf` relates the cut points to the training table, `Spec.SameSteps` compares two rows | thresholds are midpoints of consecutive values or quantiles (`thresholds_half`); numbers not separated have the same bin (`binOf_notSeparated`), equal bins have equal leaves (`findLeaf_bins`), then C117's lemmas; at most max_bins + 1 bins (`few_values`) |
| C120 | `fitClassifier`/`fitRegressor` with the whole encoder and `find_leaf`; `Spec.Reads` walks down a tree with the cells of a row, `Spec.ReadLeaves` says that `apply` returns the one leaf reached | a bin is at most `bin_threshold` iff the number is at most that cut point (`binOf_le_iff`); `bin_threshold` is at most the number of cut points because a training row is on the right (`Facts.test`); `Reads` and `Visits` agree (`reads_iff`), then C23; untested columns with `reads_congr` and C117 |
| C121 | `fitClassifier`/`fitRegressor` on two tables; `Spec.Extends`, `ConstantColumn`, `CopiesColumn` describe the added column, `AddsColumn` the prediction tables | both fits in lockstep (`fitTree_ext`): trying the same bins again never gives a gain that is strictly larger (`findBestAlong_twice`), a column with one bin has no split; the bins of the old columns are the same (`encode_x`), and no tree tests the new column, so predictions agree (`findLeafFrom_x`) |
| C122 | `Est.save`, `SavedForest.load` (Model/Save) on top of the tree states of C41; `Spec.lifeOf` runs a list of assignments and files | invariant between the forest with files and the one without: equal attributes, and trees equal in all that is saved (`SameAttrs`); it is kept by loading (`ObjOK.round_trip`, the round trip of C41 for every tree that fit or the setters produce) and by every assignment (`C41_same_behaviour`), and all answers depend on nothing else |
| C123 | `Fetch.load` and the nine loaders (Model/Fetch): files as a map from paths to bytes, a process that is killed after any number of steps, `_fetch_remote` of the locked scikit-learn version; `Spec.afterCalls`, `Spec.publishedTable` | Hoare triples for the disk computations (`Triple`); invariant: the data file is absent or a beginning of the converted file (converting loaders); absent, or all files are the published ones (direct loaders) |
| C124 | as C123; `Spec.NeverCutOff` (and `Spec.NothingLeft` for the direct loaders) describes the histories in which no call was killed in the middle of writing the data file | total correctness with a number of steps (`Total`): fetching and reading end normally whenever the data file is absent or complete; for the violation the call is killed right after the data file was opened, then every call ends with the same exception and changes nothing |
| C125 | `Env.dataHome`, `Env.csvPath` with `posixpath.join` and `expanduser` on strings (Model/Fetch) | partial: joins with an absolute path ignore what is to the left of it, so all accesses go to the same file; violation: the file that is read never exists, an invariant of all calls |
| C126 | as C123 | frame rule for every step of fetching and reading (`run_keeps_rel`): all files that are written have names relative to the directory of the dataset; `removeAll_gone`, `run_zip_gone` for the files that are removed |
| C127 | the loaders of C123 as sequences of single disk accesses (Model/FetchPar), and their interleavings | a process alone is the sequential model (`exec_load`, `interleave_alone`); a process that finds the data file only reads (`ReadsTo`), which every interleaving preserves (`interleave_readers`, `interleave_readsIn`); runs of concrete schedules for the violations |
| C128 | `Dataset` objects with the attributes in the order in which extract sets them, also when it raises (Model/DatasetObj) | the values agree with the model of C72 (`extractObj_fst`), the attributes are computed for every successful call (`extractObj_snd`), invariants of histories (`extractObj_keeps`) |
| C129 | `getXy`, `loadFromCsv`, table `rawLoaders` of the labels and dropped columns that each loader passes in its two branches (Model/RawData) | one lemma for loaders with equal arguments in both branches (`sameRaw_same`), then the cases of the table; for boston, lookups before and after astype |
| C130 | `describeOne`, `describeDatasets` on top of the objects of C128 (Model/Describe); `Spec.Describes` | from the attributes after one call of extract on a new object (`extractObj_fst`, `extractObj_snd`), then induction over the list (`mapM_describe`) |

## 5. Disagreements between code and properties

Each entry is proved: the theorem named gives the negation or a concrete witness. The `_partial` theorems of the
same property state what does hold.

| id | what the code does | where in the source | theorem |
|----|--------------------|---------------------|---------|
| C04 | values above 1e300 share one bin because thresholds are clipped to 1e300 | `_binning.py` | `C04_clip_merges` |
| C05, C07 | a missing cell of an object array becomes the text of a category or an error, and the result depends on other rows | `encoder.py`, array branch | `C05_violated_object_array`, `C07_violated_object_array` |
| C08 | `inverse_transform` raises IndexError for a categorical column without any category | `encoder.py` | `C08_violated_no_category` |
| C09 | columns of a dataframe with the same name are all encoded from the first one | `encoder.py` | `C09_violated_duplicate_names` |
| C10 | a column of a dataframe of dtype object declared numerical is treated as categorical; undeclared numeric-looking text columns of arrays are numerical | `_checks.py` | `C10_violated_frame`, `C10_violated_array` |
| C15 | with one row the bootstrap never finds a validation row: RecursionError for every generator | `forest.py` `_generate_train_valid_samples` | `C15_violated_one_row` |
| C34 | without aggregation the log-weights are NaN, and so is the weighted depth | `tree.py`, `_tree.py` | `C34_violated` |
| C37 | `dirichlet = 0` is accepted after a fit with aggregation; `aggregation` can be switched on after a fit with `dirichlet = 0` | setters of `forest.py` | `C37_violated` |
| C40 | with an integer `random_state`, the global generator still decides the depths of `randomized_depth=True` and the rows used for binning when `subsample < n_samples` | `forest.py:364-370, 391, 416`, `encoder.py:184-188` | `C40_violated_depth`, `C40_violated_subsample` |
| C42 | a lightened tree can be pickled but never unpickled; its `step` and `dirichlet` setters fail | `tree.py` `lighten` | `C42_violated`, `C42_setters` |
| C43 | one-versus-rest: `np.repeat` gives tree `i` the seed of estimator `i // n_classes`, but tree `i` belongs to class `i // n_estimators`; the first trees of a class are exact copies of each other | `forest.py:233-257, 430-465` | `C43_violated`, `C43_seeds` |
| C44 | `categorical_features` of the constructor is ignored, only the argument of `fit` counts | `forest.py:301-302, 362` | `C44_violated` |
| C45 | an invalid `random_state` is not rejected, because `raise` is missing; the attribute may then not exist | `forest.py:854-870` | `C45_violated` |
| C46 | a failed refit leaves new classes (or a new encoder) with the old trees; `predict_proba` then fails, or uses the wrong encoding | `forest.py:316-380` | `C46_violated`, `C46_violated_regressor` |
| C47 | with `class_weight="balanced"` in multinomial mode a float32 `sample_weight` of the caller is multiplied in place | `forest.py:331-336` | `C47_violated` |
| C49 | `is_left` is never written, all nodes have `False` | `_tree.py`, `_grow.py` | `C49_never_set`, `C49_violated` |
| C50 | regression sorts the bins of a categorical feature by weighted sum, not mean; better splits are missed | `_split.py` | `C50_regression_violated` |
| C51 | a fitted one-versus-rest forest refitted on one or two classes raises AttributeError | `forest.py:1138-1183, 1422-1434` | `C51_violated` |
| C59 | `apply` returns an array of shape (n_trees, n_samples), the documentation says (n_samples, n_estimators) | `forest.py:472-501` | `C59_shape_violated` |
| C60 | one-versus-rest: `predict_proba_trees` has shape (n_classes * n_estimators, n_samples, 2); `predict_trees` calls `_bin_data`, which does not exist | `forest.py:1279-1331, 1679-1717` | `C60_ovr_violated`, `C60_regressor_violated` |
| C61 | `get_depth` and `get_n_leaves` call `check_is_fitted`, which finds no attribute that ends with an underscore and raises NotFittedError | `tree.py:102-135` | `C61_violated` |
| C62 | `sample_path_leaf` takes a step before it tests for a leaf; `path_leaf` of a forest calls `_bin_data`, which does not exist | `_tree.py:739-807`, `forest.py:658-662` | `C62_root_violated`, `C62_forest_violated` |
| C66 | categories are sorted by the sum of their labels, so that adding a constant to all labels changes which groups of categories are tried | `_split.py:888` | `C66_shift_violated` |
| C68 | NaN is stored for `step`, `dirichlet`, `max_features`; `random_state=RandomState(…)`, which is documented, and negative numbers are dropped without an exception; `handle_unknown`, `cat_min_categories` and `subsample` are not checked before `fit` | setters of `forest.py`, `forest.py:222-228, 854-870` | `C68_violated_nan`, `C68_violated_random_state`, `C68_violated_unchecked` |
| C69 | `fit` sets `multiclass` to "multinomial" when there are at most two classes, and `categorical_features` to its argument; without the attribute `random_state` (see C68) `get_params`, `set_params` and `clone` raise AttributeError | `forest.py:301-302, 1161-1170` | `C69_violated_multiclass`, `C69_violated_categorical`, `C69_violated_clone` |
| C72 | `columns_` comes from the dtypes of the frame, `X` from the declared columns: `load_boston` has 13 names for 14 columns, in another order; `from_dtype` with another order than the file (`load_hcv`) gives wrong names; `drop="first"` gives too many names | `dataset.py:297-372`, `loaders.py:39-76, 403-424` | `C72_boston_violates`, `C72_order_violates`, `C72_drop_violates` |
| C74 | a label column that is declared, e.g. in the `dtype` of `from_dtype`, becomes a feature | `dataset.py:171-190, 213-287` | `C74_label_violates` |
| C75 | with one class `scaled_gini_` is 0 / 0 | `dataset.py:33-36` | `C75_one_class_violates` |
| C76 | where the signal is constant on the inputs (e.g. one input) the result is 0 / 0 | `signals.py:143-145` | `C76_constant_violates` |
| C77 | minimum and maximum over the given inputs enter the result, which is not the value of a signal at an input | `signals.py:143-145` | `C77_pointwise_violated` |
| C84 | in one-versus-rest mode more estimators change the seeds of the first trees of every class but the first | `forest.py:233-257, 430-465` | `C84_ovr_violated` |
| C85 | a failed `Encoder.fit` on data with another number of columns changes `n_features_in_` (and `n_samples_in_`): `transform` then rejects the data of the earlier `fit` and accepts data with the wrong number of columns | `encoder.py:170-174, 281-285, 308-311` | `C85_violated` |
| C86 | `cat_min_categories` silently ignores values that are neither int nor str; an encoder constructed with one has no such attribute and `fit` raises AttributeError | `encoder.py:741-757` | `C86_violated` |
| C88 | a numerical column with missing cells and exactly `cat_min_categories` distinct values is categorical in a DataFrame but continuous in an array: `nunique()` ignores NaN, `np.unique(col).size` counts it | `_checks.py:118-119, 262-266` | `C88_violated` |
| C90 | exchanging the names of two classes changes the predictions: with a categorical column the categories are ordered by the proportion of the class with the greater name, which decides between equally good cuts; in one-versus-rest mode the seeds of the trees of a class depend on the rank of its name | `_split.py:684-692`, `forest.py:251-257, 436-446` | `C90_categorical_violated`, `C90_ovr_violated` |
| C92 | with `aggregation=True` probabilities leave [0, 1]: `log_weight_tree` is stored as float32 (_node.py:69), so when the loss of the root is large its difference to `log_weight_tree` is not log 2 but a multiple of the spacing of float32 numbers, and `alpha = 0.5 * exp(loss - log_weight_tree)` (_tree.py:914) exceeds 1. Between 2^23 and 2^24 it is 1.36 and a row gets the probabilities 1.174 and -0.174; since log 2 is rounded up to 0.75 for losses between 2^20 and 2^22 and to 89/128 between 2^16 and 2^17, losses of 10^5 rows suffice for small errors | `_node.py:69`, `_tree.py:900-920`, `_grow.py` (compute_tree_weights) | `C92_aggregation_violated`; without aggregation the probabilities are in [0, 1] in every arithmetic with rounding: `C92_partial` |
| C93 | in single precision a regressor without limits merges rows with different labels: `y_sq_sum / w - (y_sum / w) ** 2` cancels to a value ≤ 0 for labels 16383 and 16385, and a node with impurity ≤ 0 is a leaf | `_impurity.py:349`, `_grow.py:373-374` | `C93_regressor_violated`; the labels are reproduced exactly for integers with a bound: `C93_regressor_partial` |
| C94 | in single precision a classifier without limits merges rows of different classes: `1 - sum((y_sum / w)^2)` is 0 for weights 2^26 and 1, and a node with impurity ≤ 0 is a leaf; the lighter row gets the wrong class | `_impurity.py:135-159`, `_grow.py:373-374` | `C94_violated`; the classes are separated for integer weights with a total of at most 4096: `C94_partial` |
| C96 | the largest number of a column and a greater number have different predictions: with missing cells and more than `max_bins` distinct numbers the largest number can be equal to the last threshold, its bin is then not the last one, and a greater number gets a bin that no training row has and follows the missing cells | `_binning.py:60-118`, `_split.py` (search over bins) | `C96_violated`; otherwise both are treated alike: `C96_classifier_partial`, `C96_regressor_partial` |
| C100 | the prediction methods of a new estimator raise AttributeError (TypeError after a failed `fit`) instead of the NotFittedError of `check_is_fitted`, and `lighten` raises TypeError | `forest.py:207-208, 224, 640-653` | `C100_never_classifier`, `C100_never_regressor` |
| C104 | a fitted classifier with `multiclass="ovr"` cannot be refitted on labels with at most two classes: `_encode_y` assigns `self.multiclass`, and the setter raises AttributeError after `fit` | `forest.py:1421-1426` | `C104_violated`; otherwise: `C104_regressor`, `C104_classifier_partial` |
| C109 | a classifier with `cat_split_strategy="binary"`, the default, and a categorical column reads column 1 of an array with one column when all labels are equal (an IndexError with bounds checks, otherwise a read outside of the array) | `_split.py:703` | `C109_violated`; with the other strategies: `C109_classifier_partial`; without categorical columns: `C109_numerical_partial` |
| C116 | the mean of equal labels is not the label in float32: with seven rows, all with the label 0.1 and no weights, a forest of one tree predicts 6710887/67108864 for every row, more than the label, because the weighted sum of the labels is rounded after each row | `_node.py:840-870` | `C116_violated`; without aggregation and for bounds with few digits: `C116_partial` |
| C123 | a file with a wrong checksum, or only the beginning of a file, raises at the first call of `load_higgs`, but it stays at the place where the second call looks for the data; the second call returns it as the dataset | `_higgs.py:42-50`, `_bank.py:23-32`, `_epsilon.py:30-41` | `C123_direct_violated`; `C123_converting`, `C123_direct_partial`, `C123_direct_killed_partial` |
| C124 | `df.to_csv(data_path)` of the converting loaders is not atomic: a process killed while it writes leaves a truncated file at the place where later calls look for the data, and all of them raise until the user deletes it | `_car.py:29-41` and the like | `C124_violated`; `C124_converting_partial`, `C124_direct_partial`, `C124_direct_killed_partial`, `C124_direct_loaded` |
| C125 | if WILDWOOD_DATA is a relative path, the loaders write the data file below the current directory, but `load_from_csv` and `load_raw_dataset` join the path with the directory of the built-in datasets and raise FileNotFoundError | `dataset.py:82-83, 192-194`, `_utils.py:11-38` | `C125_violated`; `C125_partial`, `C125_absolute_partial` |
| C127 | processes that load the same dataset at the same time can get and keep a wrong table without an exception, and load_bank can raise FileNotFoundError | downloads and extracted files have fixed names in the shared data directory, with no lock and no temporary name; the checksum is tested before the file is read again | `C127_converting_violated`, `C127_bank_violated`; what holds: `C127_converting_partial`, `C127_direct_partial` |
| C128 | after extract with one_hot_encode=False, setting one_hot_encode=True and extracting again leaves a categorical_features_ for the earlier columns | dataset.py:321-328 sets the mask only in one branch and never resets it | `C128_mask_violated`; what holds: `C128_returns`, `C128_attributes_partial`, `C128_again_partial` |
| C129 | load_boston(raw=True) gives the column chas the dtype category, but the Dataset of load_boston() has it as a numerical column, although it is listed in categorical_columns | loaders.py:42-44 and 64-76, dataset.py:304-315 | `C129_boston_violated`; what holds: `C129_same_partial`, `C129_boston_partial` |

Further observations, not stated as properties:

  excludes it (`StrategyOK`).
* The docstring says that `max_bins` is at least 4; 3 is accepted.
* `set_params` is not atomic: the values before the first refused one are stored (`C68_set_params`).
* A method that needs a fitted estimator raises AttributeError instead of NotFittedError.
* The comments on `cat_split_strategy="random"` describe another behaviour than the code.
* The column `threshold` of `get_nodes` is the constant 0.42 for all inner nodes (_grow.py:399-401); the test of a node is in `bin_partition` (C82).
## 6. Axioms per theorem

Output of `collectAxioms` for the theorems of `MANIFEST.json`, grouped by the set of axioms.

* `propext`: `C10_violated_frame`, `C129_caller`, `C95_leaves`
* `Quot.sound`, `propext`: `C100_never_classifier`, `C100_never_regressor`, `C103_classifier`, `C103_regressor`, `C104_regressor`, `C105_fit_regressor`, `C105_predict`, `C106_fit_classifier`, `C106_fit_regressor`, `C106_predict`, `C107_rows`, `C10_array_column_partial`, `C10_fit_frame_partial`, `C10_frame_column_partial`, `C110_predict`, `C111_predict`, `C113_predict`, `C114_predict`, `C115_predict`, `C115_regressor`, `C117_classifier`, `C117_regressor`, `C128_attributes_partial`, `C128_describe`, `C128_mask_violated`, `C128_returns`, `C129_same_partial`, `C130_lines`, `C130_returns`, `C15_violated_one_row`, `C34_violated`, `C37_partial`, `C39_lock_needed`, `C39_mutual_exclusion`, `C40_classifier_partial`, `C40_own_seed_classifier`, `C40_own_seed_regressor`, `C40_regressor_partial`, `C41_encoder`, `C41_forest`, `C41_same_behaviour`, `C42_classifier_partial`, `C42_regressor_partial`, `C42_setters`, `C42_tree_partial`, `C42_violated`, `C45_read_back_partial`, `C45_violated`, `C52_resize`, `C52_stack`, `C60_regressor_violated`, `C62_forest_violated`, `C68_effect`, `C68_fit_refuses_classifier`, `C68_fit_refuses`, `C68_violated_nan`, `C68_violated_random_state`, `C68_violated_unchecked`, `C69_refit_partial`, `C69_regressor_partial`, `C69_violated_categorical`, `C85_refit`, `C85_violated_more`, `C85_violated`, `C86_violated`, `C99_nFeaturesIn`
* `Classical.choice`, `Quot.sound`, `propext`: `C01_bitarray_roundtrip`, `C02_column_write_frame`, `C02_write_history`, `C02_writes_commute`, `C03_binning`, `C04_balanced`, `C04_clip_merges`, `C04_half_way`, `C04_quantiles`, `C04_thresholds`, `C05_missing_bin_partial`, `C05_reserved_bin_partial`, `C05_violated_object_array`, `C06_accepts_iff`, `C06_known_categories`, `C06_transform_correct`, `C06_unknown_as_missing`, `C06_unknown_raises`, `C07_row_independent_partial`, `C07_violated_object_array`, `C08_inverse_transform`, `C08_violated_no_category`, `C09_columns_encoded_partial`, `C09_violated_duplicate_names`, `C100_ever_classifier`, `C100_ever_regressor`, `C101_classifier`, `C101_regressor`, `C102_classifier`, `C104_classifier_partial`, `C104_violated`, `C105_fit_classifier`, `C107_deterministic`, `C107_terminates`, `C108_classifier`, `C108_regressor`, `C109_classifier_partial`, `C109_numerical_partial`, `C109_violated`, `C10_violated_array`, `C110_classifier`, `C110_regressor`, `C111_fit`, `C112_classifier`, `C112_regressor`, `C113_balanced`, `C113_real`, `C114_classifier`, `C114_regressor`, `C115_classifier`, `C116_partial`, `C116_violated`, `C118_classifier`, `C118_regressor`, `C119_classifier`, `C119_regressor`, `C11_categorical_features`, `C120_classifier`, `C120_regressor`, `C121_classifier`, `C121_regressor`, `C122_classifier`, `C122_regressor`, `C123_converting`, `C123_direct_killed_partial`, `C123_direct_partial`, `C123_direct_violated`, `C124_converting_partial`, `C124_direct_killed_partial`, `C124_direct_loaded`, `C124_direct_partial`, `C124_violated`, `C125_absolute_partial`, `C125_partial`, `C125_violated`, `C126_bank_cleans`, `C126_converting_cleans`, `C126_directory`, `C126_no_network`, `C126_no_writes`, `C126_only_own_directory`, `C127_alone`, `C127_bank_violated`, `C127_converting_partial`, `C127_converting_violated`, `C127_direct_partial`, `C128_again_partial`, `C129_boston_partial`, `C129_boston_violated`, `C12_max_features`, `C13_distinct_features`, `C13_every_sample_possible`, `C14_bootstrap_partition`, `C15_bootstrap_returns_partial`, `C15_returns_iff`, `C16_split_partitions`, `C17_counts_classifier`, `C17_counts_regressor`, `C18_min_samples_leaf`, `C19_stopping`, `C20_grow_terminates`, `C21_well_formed`, `C22_routing`, `C23_apply_total`, `C24_unseen_right`, `C25_category_sets`, `C26_max_gain`, `C27_class_impurity`, `C27_gain_nonneg`, `C27_mse`, `C27_proxy_ranks`, `C28_class_predictions`, `C29_regression_range`, `C30_multinomial`, `C30_ovr`, `C30_zero_scores`, `C31_argmax`, `C32_classifier`, `C32_regressor`, `C33_log_sum`, `C33_no_overflow`, `C33_weights`, `C34_weighted_depth_partial`, `C35_step_is_refit_ovr`, `C35_step_is_refit`, `C36_dirichlet_is_refit_ovr`, `C36_dirichlet_is_refit`, `C36_predictions`, `C37_violated`, `C38_completes`, `C38_schedule_ovr`, `C38_schedule`, `C38_trees`, `C39_exactly_once`, `C39_fitted_multinomial`, `C39_fitted_ovr`, `C39_fitted_regression`, `C39_multinomial_real`, `C39_multinomial`, `C39_ovr_real`, `C39_ovr`, `C39_regression_real`, `C39_regression`, `C39_schedule_independent`, `C39_sum`, `C39_terminates`, `C40_violated_depth`, `C40_violated_subsample`, `C41_dict_is_complete`, `C41_round_trip`, `C43_one_estimator_partial`, `C43_seeds`, `C43_violated`, `C44_fit_argument_partial`, `C44_violated`, `C46_classifier_partial`, `C46_regressor_partial`, `C46_violated_regressor`, `C46_violated`, `C47_violated`, `C47_weights_partial`, `C48_integer_weights`, `C49_children_partial`, `C49_never_set`, `C49_violated`, `C50_binary_gini`, `C50_regression_partial`, `C50_regression_violated`, `C51_refit_partial`, `C51_violated`, `C52_insertions`, `C53_uninitialised_memory_ovr`, `C53_uninitialised_memory`, `C54_classifier`, `C54_regressor`, `C55_rename_labels`, `C56_balanced_is_weights`, `C56_equal_classes`, `C57_multinomial`, `C57_ovr`, `C57_regressor`, `C58_classifier`, `C58_regressor`, `C59_classifier_partial`, `C59_regressor_partial`, `C59_shape_violated`, `C60_ovr_violated`, `C60_trees_partial`, `C61_depth_partial`, `C61_violated`, `C62_path_partial`, `C62_root_violated`, `C63_drawing`, `C64_order_classifier`, `C64_order_regressor`, `C65_units_classifier`, `C65_units_regressor`, `C66_shift_partial`, `C66_shift_violated`, `C66_units`, `C67_classifier`, `C67_regressor`, `C68_always_partial`, `C68_assign_partial`, `C68_classifier`, `C68_construct_partial`, `C68_ready`, `C68_regressor`, `C68_set_params`, `C69_classifier_partial`, `C69_clone_models_partial`, `C69_clone_partial`, `C69_refit_classifier_partial`, `C69_violated_clone`, `C69_violated_multiclass`, `C70_limits_classifier`, `C70_limits_regressor`, `C70_multinomial`, `C70_ovr`, `C70_regressor`, `C71_classifier`, `C71_regressor`, `C72_boston_violates`, `C72_drop_violates`, `C72_extract_partial`, `C72_order_violates`, `C73_no_test_leakage`, `C74_label_violates`, `C74_no_label_leakage_partial`, `C75_one_class_violates`, `C75_scaled_gini_partial`, `C76_constant_violates`, `C76_signal_rescaled_partial`, `C77_one_call_partial`, `C77_pointwise_violated`, `C78_regression_seeded`, `C78_regression_unseeded`, `C79_majority`, `C79_multinomial`, `C79_ovr`, `C79_regressor`, `C80_classifier`, `C80_regressor`, `C81_multinomial`, `C81_ovr`, `C81_regressor`, `C82_node_table`, `C83_no_zero_probability`, `C84_multinomial_partial`, `C84_ovr_violated`, `C84_regressor_partial`, `C85_partial`, `C86_always_partial`, `C86_assign_partial`, `C87_bins`, `C87_encoder`, `C88_classifier_partial`, `C88_predict_reg`, `C88_predict`, `C88_regressor_partial`, `C88_violated`, `C89_classifier`, `C89_regressor`, `C90_categorical_violated`, `C90_multinomial_partial`, `C90_ovr_violated`, `C91_classifier`, `C91_order_classifier`, `C91_order_regressor`, `C91_regressor`, `C92_aggregation_violated`, `C92_partial`, `C93_regressor_partial`, `C93_regressor_violated`, `C94_partial`, `C94_violated`, `C95_classifier`, `C95_regressor`, `C96_classifier_partial`, `C96_regressor_partial`, `C96_violated`, `C97_classifier`, `C97_regressor`, `C98_multinomial`, `C98_ovr`, `C98_regressor`, `C99_classifier`, `C99_regressor`, `treeOf_unique`
