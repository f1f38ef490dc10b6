{"id": "C01", "title": "Bit-packed dataset round trip", "statement": "Packing any matrix of non-negative bin values into the bit-packed dataset and reading any cell back (one cell at a time or the whole matrix) returns exactly the value that was packed, and the unpacked matrix has the same number of rows and columns and an integer width wide enough for every value.", "quantifier": "for every number of rows and columns, every matrix of bin values below 2^63, and every initial content of the uninitialised word buffer", "why_tests_cant": "The number of bits, values per word and word offsets depend on each column's maximum and on the number of rows; tests sample a handful of maxima and row counts, not every combination nor every garbage content of the uninitialised buffer.", "anchors": ["wildwood/preprocessing/features_bitarray.py: FeaturesBitArray.__init__, _features_bitarray_fill_column, _features_bitarray_fill_values, array_to_bitarray, get_value_from_column, get_value, features_bitarray_to_array"]}
{"id": "C02", "title": "Writing one packed column never disturbs another", "statement": "Writing one column of the packed dataset leaves every cell of every other column unchanged, never touches a word outside that column's own range, and the columns can be written in any order with the same final contents.", "quantifier": "for every packed dataset, every pair of distinct columns, every new column content and every order of writes", "why_tests_cant": "Overlaps between word ranges only show for particular combinations of widths and row counts; tests fill columns in one order only.", "anchors": ["wildwood/preprocessing/features_bitarray.py: FeaturesBitArray.__init__, _features_bitarray_fill_column, features_bitarray_fill_column"]}
{"id": "C03", "title": "Continuous binning places each value in the documented bin", "statement": "A non-missing value x of a continuous column is encoded as the bin i such that thresholds[i-1] < x <= thresholds[i] (with open ends at the first and last bins); this bin is unique, and encoding preserves order: x <= y implies bin(x) <= bin(y).", "quantifier": "for every sorted list of thresholds of any length (including empty and with ties) and every value", "why_tests_cant": "The bin is computed by binary search; off-by-one errors show only for special positions, lengths and ties, which finite examples cannot exhaust.", "anchors": ["wildwood/preprocessing/_binning.py: _bin_continuous_column", "wildwood/preprocessing/encoder.py: Encoder.transform"]}
{"id": "C04", "title": "Binning thresholds are sorted, bounded in number, and separate distinct values", "statement": "The thresholds learnt on a continuous column are non-decreasing, there are at most max_bins - 1 of them (so at most max_bins bins without the missing one), and when the column has at most max_bins distinct values then two different values are always encoded in different bins. With few distinct values each threshold is half-way between two consecutive ones; otherwise it is half-way between the two values around the matching quantile of the column, so that the bins are balanced.", "quantifier": "for every column of real values below the 1e300 clip (with any missing pattern) and every max_bins", "why_tests_cant": "Depends on all columns and bin budgets: midpoints and percentiles interact with ties and column length.", "anchors": ["wildwood/preprocessing/_binning.py: _find_binning_thresholds, _bin_continuous_column"]}
{"id": "C05", "title": "Missing values get their own bin", "statement": "In every encoded column, missing cells are encoded in one bin that no non-missing known cell of any dataset is ever encoded in, whether or not missing values were present during fit.", "quantifier": "for every fitted encoder, every dataset passed to transform, and every cell", "why_tests_cant": "Tests encode particular frames; the claim relates all later frames to all earlier fits.", "anchors": ["wildwood/preprocessing/encoder.py: Encoder.fit, Encoder.transform", "wildwood/preprocessing/_binning.py: _bin_continuous_column"]}
{"id": "C06", "title": "Known and unknown categories", "statement": "A categorical cell whose value was seen by fit is encoded as that value's own bin, distinct from the bin of every other category; a cell with an unseen value is encoded as missing when handle_unknown='consider_missing' and makes transform raise ValueError when handle_unknown='error'.", "quantifier": "for every fitted encoder, every list of categories, and every dataset passed to transform", "why_tests_cant": "The mapping must be injective for all category sets and all later data, not only for the sampled ones.", "anchors": ["wildwood/preprocessing/encoder.py: Encoder.fit, Encoder.transform"]}
{"id": "C07", "title": "Encoding a row does not depend on the other rows", "statement": "When transform succeeds, the bins of a row are the same whether the row is passed alone or together with any other rows, although the number of bits of the packed columns may differ; hence predictions of a row do not depend on the rest of the batch.", "quantifier": "for every fitted encoder and every pair of batches that contain the same row", "why_tests_cant": "Batches decide whether an extra bin is allocated; a test compares a few batches, the claim is about all of them.", "anchors": ["wildwood/preprocessing/encoder.py: Encoder.transform", "wildwood/preprocessing/features_bitarray.py: FeaturesBitArray.__init__, get_value", "wildwood/_tree.py: find_leaf"]}
{"id": "C08", "title": "inverse_transform undoes transform", "statement": "For a dataset encoded by transform, inverse_transform gives back the same category for every known categorical cell, a missing cell for every missing or unknown cell, and for each non-missing numeric cell an interval (a, b] that contains the original number.", "quantifier": "for every fitted encoder (whose categorical columns have at least one category) and every dataset accepted by transform", "why_tests_cant": "Round trips over all category sets and thresholds cannot be enumerated.", "anchors": ["wildwood/preprocessing/encoder.py: Encoder.transform, Encoder.inverse_transform"]}
{"id": "C09", "title": "Every input column is encoded, whatever the column names", "statement": "transform encodes the k-th column of a dataframe in the k-th column of the packed dataset, for every k, whatever the names of the columns.", "quantifier": "for every dataframe, including those with repeated column names", "why_tests_cant": "Tests use frames with distinct names; repeated names collapse in an internal dictionary and leave packed columns uninitialised.", "anchors": ["wildwood/preprocessing/encoder.py: Encoder.transform"]}
{"id": "C10", "title": "Column type inference follows the documented rules", "statement": "A column is treated as categorical exactly when: it is declared categorical; or it is not declared and has a pandas category dtype, or a string/boolean/object dtype, or a numeric dtype with at most cat_min_categories distinct values; columns declared numerical are numerical if their dtype allows it and otherwise raise ValueError.", "quantifier": "for every column dtype, number of distinct values, declaration and cat_min_categories", "why_tests_cant": "The decision has many interacting branches; tests exercise a sample of dtype/declaration/cardinality combinations.", "anchors": ["wildwood/preprocessing/_checks.py: is_series_categorical, get_array_dtypes, check_X"]}
{"id": "C11", "title": "categorical_features as indices or as mask", "statement": "Giving categorical_features as a list of integer indices or as the boolean mask with the same True positions selects the same columns; None or an empty list selects automatic detection; every out-of-range index, mask of the wrong length or other dtype raises ValueError.", "quantifier": "for every number of features and every list of indices or booleans", "why_tests_cant": "All lists and lengths, including negative indices and duplicates.", "anchors": ["wildwood/preprocessing/_checks.py: get_is_categorical"]}
{"id": "C12", "title": "Number of features tried is always valid", "statement": "For every accepted max_features setting, the number of features drawn at each node is between 1 and the number of features; settings that would fall outside that range make fit raise ValueError.", "quantifier": "for every number of features >= 1 and every max_features value (None, 'auto', 'sqrt', 'log2' or integer)", "why_tests_cant": "sqrt/log2 roundings must be checked for every number of features.", "anchors": ["wildwood/forest.py: ForestBase.max_features, ForestBase._get_max_features_"]}
{"id": "C13", "title": "Feature subsampling draws without replacement", "statement": "At each node the features considered are pairwise distinct valid column indices, exactly max_features of them, and across a node's draw every column stays possible.", "quantifier": "for every population size, sample size not above it, and every sequence of random draws", "why_tests_cant": "Quantifies over all outputs of the random generator.", "anchors": ["wildwood/_utils.py: sample_without_replacement", "wildwood/_node.py: compute_node_classifier_context, compute_node_regressor_context"]}
{"id": "C14", "title": "Bootstrap train/validation split is a partition", "statement": "Whenever the bootstrap of a tree returns, its training rows and validation rows are disjoint, together cover every row exactly once, both are non-empty, and the in-bag multiplicities are positive exactly on training rows and add up to the number of rows.", "quantifier": "for every number of rows and every sequence of random draws and seeds", "why_tests_cant": "Quantifies over all random draws and re-seedings.", "anchors": ["wildwood/forest.py: _generate_train_valid_samples, _parallel_build_trees"]}
{"id": "C15", "title": "The bootstrap of a tree returns for every dataset size", "statement": "For every number of rows at least one, there are random draws for which the bootstrap split of a tree returns.", "quantifier": "for every number of rows n >= 1 and every generator", "why_tests_cant": "Non-termination (or unbounded recursion) for one particular size is invisible to tests that use ordinary datasets.", "anchors": ["wildwood/forest.py: _generate_train_valid_samples"]}
{"id": "C16", "title": "Splitting a node partitions its samples", "statement": "Splitting a node sends each of its training and validation samples to exactly one child: left exactly when the sample's bin satisfies the split; the samples of all other nodes keep their positions, and the relative order inside each child is preserved.", "quantifier": "for every dataset, node range, split (numeric or categorical) and content of the scratch buffers", "why_tests_cant": "All ranges, splits and stale buffer contents cannot be enumerated.", "anchors": ["wildwood/_split.py: split_indices, is_bin_in_partition"]}
{"id": "C17", "title": "Counts used to choose a split are the real child sizes", "statement": "The numbers of training samples (and validation samples when aggregation is on) recorded for the chosen split are the numbers of samples that actually go to each child.", "quantifier": "for every dataset, node, feature and sample weights, numeric or categorical, for classification and regression", "why_tests_cant": "The counts come from histograms and cumulative sums over bins with gaps; agreement must hold for all histograms.", "anchors": ["wildwood/_node.py: compute_node_classifier_context, compute_node_regressor_context", "wildwood/_split.py: try_feature_order_for_classifier_split, find_best_split_classifier_along_feature, find_best_split_regressor_along_feature, split_indices"]}
{"id": "C18", "title": "min_samples_leaf is respected everywhere", "statement": "In a fitted tree every node except the root holds at least min_samples_leaf training samples, and at least min_samples_leaf validation samples when aggregation is on.", "quantifier": "for every dataset, weights, parameters, random draws and floating-point behaviour", "why_tests_cant": "A test checks some fitted forests; the claim is over all data and draws.", "anchors": ["wildwood/_split.py: try_feature_order_for_classifier_split, find_best_split_regressor_along_feature", "wildwood/_grow.py: grow"]}
{"id": "C19", "title": "min_samples_split, max_depth and purity stop splitting", "statement": "In a fitted tree a node that was split has at least min_samples_split training samples (and validation samples when aggregation is on), has depth strictly below max_depth, and (unless it is the root) has a recorded impurity that is not <= 0; in particular no node is deeper than max_depth.", "quantifier": "for every dataset, parameters, random draws and floating-point behaviour", "why_tests_cant": "A test checks some fitted forests; the claim is over all data and draws.", "anchors": ["wildwood/_grow.py: grow"]}
{"id": "C20", "title": "Growing terminates, in bounds, with at most 2n-1 nodes", "statement": "Growing a tree on n >= 1 training samples always terminates, never reads or writes outside the arrays it allocated, never makes an unsigned counter negative, and produces at most 2n-1 nodes.", "quantifier": "for every valid dataset, weights, parameters, random draws and floating-point behaviour", "why_tests_cant": "Bounds checks are compiled out; tests cannot observe silent out-of-bounds accesses nor prove termination.", "anchors": ["wildwood/_grow.py: grow, push_record, pop_node_record", "wildwood/_tree.py: add_node_tree, resize_tree, resize_tree_bin_partitions", "wildwood/_node.py: compute_node_classifier_context", "wildwood/_split.py: find_node_split, split_indices"]}
{"id": "C21", "title": "Fitted trees are well-formed binary trees", "statement": "In a fitted tree node 0 is the only root, each split node has two different children that point back to it with depth one more and larger ids, each non-root node is the child of exactly one node, leaves have no children, and the number of nodes is twice the number of leaves minus one.", "quantifier": "for every dataset, parameters, random draws and floating-point behaviour", "why_tests_cant": "Structural invariant over all growth histories.", "anchors": ["wildwood/_grow.py: grow", "wildwood/_tree.py: add_node_tree"]}
{"id": "C22", "title": "Training samples are routed to the leaf that holds them", "statement": "For each training or validation sample of a fitted tree, apply on the same encoded row returns the leaf whose range contains that sample; each node's recorded sample counts are the numbers of samples routed through it, and leaf ranges partition the samples.", "quantifier": "for every dataset, parameters, random draws and floating-point behaviour", "why_tests_cant": "Growing and predicting use separate code paths (histograms versus search); agreement must hold for all inputs.", "anchors": ["wildwood/_grow.py: grow", "wildwood/_split.py: split_indices, compute_bin_partition", "wildwood/_tree.py: find_leaf, tree_apply, add_node_tree"]}
{"id": "C23", "title": "apply reaches a leaf for every row", "statement": "For every fitted tree and every encoded row, including rows with bins never seen in training, apply terminates at an existing leaf node, so predict is always defined.", "quantifier": "for every fitted tree and every row of bins", "why_tests_cant": "All trees and all rows, including unseen bins.", "anchors": ["wildwood/_tree.py: find_leaf, tree_apply, path_leaf"]}
{"id": "C24", "title": "Rows with unseen bins follow the right branch", "statement": "At each split of a fitted tree, a row whose bin for the split column is larger than every bin present at that node in training (such as a missing value when none was seen) or, for categorical columns, is absent from the node's training bins, goes to the right child.", "quantifier": "for every fitted tree and every row of bins", "why_tests_cant": "All trees, all rows.", "anchors": ["wildwood/_tree.py: find_leaf", "wildwood/_split.py: is_bin_in_partition, find_node_split, compute_bin_partition"]}
{"id": "C25", "title": "Category sets stored in a tree are never corrupted", "statement": "The set of categories sent left at each categorical split of the fitted tree is exactly the set chosen when the node was split: later nodes and array growth never overwrite it, and testing a bin against it answers set membership.", "quantifier": "for every growth history, every set of bins and every bin", "why_tests_cant": "Storage is a shared growing buffer addressed by ranges; overwrites depend on the whole history of insertions.", "anchors": ["wildwood/_tree.py: add_node_tree, resize_tree_bin_partitions", "wildwood/_split.py: is_bin_in_partition, compute_bin_partition"]}
{"id": "C26", "title": "The chosen split maximises the gain among admissible candidates", "statement": "The split chosen at a node has the largest gain among all candidate splits of the features tried that leave at least min_samples_leaf training (and validation when aggregation is on) samples on both sides, and a node is declared unsplittable only when there is no such candidate with finite gain.", "quantifier": "for every histogram, every order of features, both tasks and every criterion with a totally ordered gain", "why_tests_cant": "An early exit prunes candidates; soundness must be checked for all histograms.", "anchors": ["wildwood/_split.py: try_feature_order_for_classifier_split, find_best_split_classifier_along_feature, find_best_split_regressor_along_feature, find_node_split"]}
{"id": "C27", "title": "Gain proxy and impurities are sound", "statement": "Over the reals, ranking splits by the internal proxy is the same as ranking them by information gain; gini, entropy and mse node impurities are non-negative and vanish on pure nodes; the information gain of every split is non-negative for gini and mse.", "quantifier": "for every vector of non-negative class weights, every list of weighted labels and every split of them", "why_tests_cant": "Inequalities over all real vectors.", "anchors": ["wildwood/_impurity.py: information_gain_proxy, information_gain, gini_node, gini_childs, entropy_node, entropy_childs, mse_node, mse_childs"]}
{"id": "C28", "title": "Node predictions are probability vectors", "statement": "Each node's class prediction has entries in [0, 1] that sum to one; with dirichlet > 0 every entry is strictly positive, so the validation loss is finite and non-negative.", "quantifier": "for every set of non-negative sample weights with positive total (or dirichlet > 0), labels and number of classes", "why_tests_cant": "All weights and labels.", "anchors": ["wildwood/_node.py: compute_node_classifier_context", "wildwood/_grow.py: recompute_node_predictions"]}
{"id": "C29", "title": "Regression predictions stay within the range of training labels", "statement": "Every prediction of a fitted regressor lies between the smallest and the largest training label, with or without aggregation.", "quantifier": "for every dataset with positive weights, every row to predict and every forest size", "why_tests_cant": "All datasets and rows.", "anchors": ["wildwood/_node.py: compute_node_regressor_context", "wildwood/_tree.py: tree_regressor_predict", "wildwood/forest.py: ForestRegressor.predict"]}
{"id": "C30", "title": "predict_proba rows are probability distributions", "statement": "Every row returned by predict_proba has entries in [0, 1] summing to one, in multinomial mode, in one-versus-rest mode (including rows where all scores vanish) and for forests with one or many trees.", "quantifier": "for every fitted forest whose node predictions are probability vectors and every row", "why_tests_cant": "All forests and rows; the degenerate zero-score row is nearly unreachable by tests.", "anchors": ["wildwood/_tree.py: tree_classifier_predict_proba", "wildwood/forest.py: ForestClassifier.predict_proba"]}
{"id": "C31", "title": "predict returns the most probable class", "statement": "predict returns for each row a label whose predict_proba entry is maximal, the first such label in classes_ order in case of ties.", "quantifier": "for every fitted forest and every row", "why_tests_cant": "All probability rows, with ties.", "anchors": ["wildwood/forest.py: ForestClassifier.predict"]}
{"id": "C32", "title": "Aggregated prediction equals the exponentially weighted average over all prunings", "statement": "With aggregation on, the prediction of a tree for a row is exactly the average, over all prunings of the fitted tree, of the prediction of the leaf of the pruning containing the row, with weights proportional to 2^-(number of nodes of the pruning that are not leaves of the fitted tree) * exp(-step * total validation loss of the pruning's leaves).", "quantifier": "for every fitted tree, validation losses, step and row (over the reals)", "why_tests_cant": "The number of prunings is exponential; tests cannot compare to the explicit average except on tiny trees.", "anchors": ["wildwood/_grow.py: compute_tree_weights", "wildwood/_utils.py: log_sum_2_exp", "wildwood/_tree.py: tree_classifier_predict_proba, tree_regressor_predict"]}
{"id": "C33", "title": "Log-weights are exact and never overflow", "statement": "The log-weight recursion computes log((exp a + exp b)/2) exactly (over the reals), every exponential it evaluates has a non-positive argument so its value lies in (0, 1], and each aggregation coefficient lies strictly between 0 and 1.", "quantifier": "for every pair of reals and every fitted tree", "why_tests_cant": "All reals, including very large magnitudes.", "anchors": ["wildwood/_utils.py: log_sum_2_exp", "wildwood/_grow.py: compute_tree_weights", "wildwood/_tree.py: tree_classifier_predict_proba"]}
{"id": "C34", "title": "Weighted depth is bounded by the leaf depth", "statement": "The weighted depth of a row in a fitted tree lies between 0 and the depth of the leaf containing the row, for every step.", "quantifier": "for every fitted tree and every row (over the reals)", "why_tests_cant": "All trees and rows.", "anchors": ["wildwood/_tree.py: tree_regressor_weighted_depth", "wildwood/forest.py: ForestRegressor._weighted_depth"]}
{"id": "C35", "title": "Changing step after fit is the same as refitting with that step", "statement": "Setting step on a fitted forest gives exactly the same trees and predictions as fitting with that step from the start, and any sequence of step changes only depends on the last one.", "quantifier": "for every dataset, random draws and history of step changes", "why_tests_cant": "All histories; also requires that the grown structure never depends on step.", "anchors": ["wildwood/tree.py: TreeBase.step", "wildwood/_grow.py: grow, compute_tree_weights", "wildwood/forest.py: ForestBase.step"]}
{"id": "C36", "title": "Changing dirichlet after fit is the same as refitting with that value", "statement": "Setting dirichlet on a fitted classifier gives exactly the same tree structures, node predictions, weights and predictions as fitting with that value from the start (over the reals), for every history of dirichlet and step changes.", "quantifier": "for every dataset, random draws and history of setter calls", "why_tests_cant": "All histories; recomputation goes through the final sample ranges rather than the growth-time ones.", "anchors": ["wildwood/tree.py: TreeClassifier.dirichlet", "wildwood/_grow.py: recompute_node_predictions, compute_tree_weights", "wildwood/forest.py: ForestClassifier.dirichlet"]}
{"id": "C37", "title": "dirichlet can never be zero while aggregation is on", "statement": "No sequence of parameter settings and successful fits leads to a fitted forest with aggregation on and dirichlet equal to zero (for which the validation loss is undefined).", "quantifier": "for every sequence of setter calls and fits", "why_tests_cant": "All histories of calls.", "anchors": ["wildwood/forest.py: ForestBase.fit, ForestClassifier.dirichlet, ForestBase.aggregation"]}
{"id": "C38", "title": "Fitting does not depend on n_jobs or on scheduling", "statement": "The list of fitted trees is the same for every number of worker threads, every assignment of trees to workers and every interleaving of the workers.", "quantifier": "for every number of workers and every schedule", "why_tests_cant": "Schedules cannot be enumerated by tests.", "anchors": ["wildwood/forest.py: ForestBase.fit, _parallel_build_trees", "wildwood/_tree.py: _TreeClassifier.__init__, _TreeRegressor.__init__"]}
{"id": "C39", "title": "Prediction does not depend on scheduling and loses no tree", "statement": "For every interleaving of the worker threads, the accumulated prediction is the sum over all trees of each tree's prediction, each counted exactly once; without the lock there are interleavings that lose a tree.", "quantifier": "for every number of trees, workers and every interleaving of individual read and write steps", "why_tests_cant": "Races appear under rare schedules only.", "anchors": ["wildwood/forest.py: _accumulate_prediction, ForestClassifier.predict_proba, ForestRegressor.predict"]}
{"id": "C40", "title": "random_state makes fitting reproducible", "statement": "With an integer random_state, fitting twice on the same data gives the same forest whatever the state of the global random generator.", "quantifier": "for every dataset, parameters and state of the global generator", "why_tests_cant": "Hidden dependence on global state shows only for large datasets (subsampled binning) or special options.", "anchors": ["wildwood/forest.py: ForestBase.fit, ForestBase._generate_random_states", "wildwood/preprocessing/encoder.py: Encoder.fit"]}
{"id": "C41", "title": "Saving and loading a fitted tree is lossless", "statement": "Pickling then unpickling a fitted tree gives a tree with the same nodes, predictions, category sets, parameters and packed training data, hence the same predictions and the same behaviour of later setter calls.", "quantifier": "for every fitted tree", "why_tests_cant": "All fitted trees with any capacity, number of nodes and category buffers.", "anchors": ["wildwood/tree.py: TreeBase.__getstate__, TreeBase.__setstate__, serialize, unserialize"]}
{"id": "C42", "title": "lighten preserves predictions and can still be pickled", "statement": "After lighten, predictions of the forest are unchanged and the forest can still be pickled and unpickled with the same predictions.", "quantifier": "for every fitted forest", "why_tests_cant": "All forests, in particular those whose node capacity exceeds the number of nodes.", "anchors": ["wildwood/tree.py: TreeBase.lighten, serialize, unserialize", "wildwood/forest.py: ForestBase.lighten"]}
{"id": "C43", "title": "One-versus-rest trees share seeds across classes", "statement": "In one-versus-rest mode, the trees of the same estimator rank for the different classes use the same random seeds (as documented in the code), and the trees of one class use the seeds of the different estimators.", "quantifier": "for every number of estimators and classes", "why_tests_cant": "Index arithmetic that happens to work for some sizes.", "anchors": ["wildwood/forest.py: ForestBase._generate_random_states, ForestBase.fit"]}
{"id": "C44", "title": "categorical_features given to the constructor are used by fit", "statement": "Columns listed in the categorical_features argument of the constructor are treated as categorical by fit.", "quantifier": "for every dataset and list of categorical features", "why_tests_cant": "Holds by accident when automatic detection agrees with the list.", "anchors": ["wildwood/forest.py: ForestBase.__init__, ForestBase.fit"]}
{"id": "C45", "title": "Invalid random_state values are rejected", "statement": "Setting random_state to a negative integer or to a non-integer raises ValueError, and after every accepted setting reading random_state gives back the value.", "quantifier": "for every value and every sequence of settings", "why_tests_cant": "All values and histories of settings.", "anchors": ["wildwood/forest.py: ForestBase.random_state"]}
{"id": "C46", "title": "A refit that fails leaves the fitted forest usable", "statement": "If fit on an already fitted forest raises, then the forest still has the classes, trees and predictions of the previous successful fit.", "quantifier": "for every history of fits and every point at which a fit can raise", "why_tests_cant": "All crash points inside fit.", "anchors": ["wildwood/forest.py: ForestBase.fit, ForestClassifier._encode_y, ForestBase._get_max_features_"]}
{"id": "C47", "title": "fit does not modify the caller's arrays", "statement": "fit leaves the caller's sample_weight array unchanged.", "quantifier": "for every dtype of sample_weight and every class_weight and multiclass option", "why_tests_cant": "Aliasing occurs only for one dtype/option combination.", "anchors": ["wildwood/forest.py: ForestBase.fit, ForestClassifier._encode_y"]}
{"id": "C48", "title": "Integer weights behave as repeated rows", "statement": "The weighted node statistics (total weight, class sums, impurities, predictions, validation loss) computed with integer sample weights are those computed with unit weights on the dataset in which each row is repeated that many times.", "quantifier": "for every dataset and integer weights (over the reals)", "why_tests_cant": "All datasets and weights.", "anchors": ["wildwood/_node.py: compute_node_classifier_context, compute_node_regressor_context", "wildwood/forest.py: _parallel_build_trees"]}
{"id": "C49", "title": "get_nodes reports which nodes are left children", "statement": "In the node table of a fitted tree, is_left is True exactly for the nodes that are the left child of their parent.", "quantifier": "for every fitted tree with at least one split", "why_tests_cant": "Universal over all fitted trees.", "anchors": ["wildwood/_tree.py: add_node_tree, get_nodes", "wildwood/_grow.py: grow"]}
{"id": "C50", "title": "Categorical splits are optimal over all category subsets", "statement": "For binary classification with gini and for regression, when min_samples_leaf does not bind, the categorical split found on a column has the largest gain among all splits of its bins in two non-empty groups.", "quantifier": "for every histogram of every number of categories", "why_tests_cant": "The number of subsets is exponential in the number of categories.", "anchors": ["wildwood/_split.py: find_best_split_classifier_along_feature, find_best_split_regressor_along_feature"]}
{"id": "C51", "title": "A forest can be refitted on data with another number of classes", "statement": "Calling fit again on a fitted classifier with a valid dataset succeeds whatever the number of classes of the previous dataset.", "quantifier": "for every history of fits", "why_tests_cant": "All histories of calls.", "anchors": ["wildwood/forest.py: ForestClassifier._encode_y, ForestClassifier.multiclass"]}
{"id": "C52", "title": "Array growth preserves contents; the work stack is last-in first-out", "statement": "Growing the node, prediction, category and record arrays keeps all the entries written before; pushing and popping node records behaves as a stack for every sequence of operations.", "quantifier": "for every sequence of pushes and pops and every initial capacity", "why_tests_cant": "All operation histories.", "anchors": ["wildwood/_utils.py: resize", "wildwood/_grow.py: push_record, pop_node_record, has_records", "wildwood/_tree.py: resize_tree, resize_tree_bin_partitions"]}
{"id": "C53", "title": "Fitting does not depend on uninitialised memory", "statement": "Whatever the arrays created with np.empty contain, fit fails in the same way or gives trees with the same nodes, node predictions and category sets, and with the same predictions on all data.", "quantifier": "for every dataset and parameters and every two contents of the uninitialised arrays", "why_tests_cant": "The contents of uninitialised memory cannot be chosen in a test.", "anchors": ["wildwood/_grow.py: grow, Records", "wildwood/_tree_context.py: init_tree_context", "wildwood/_tree.py: resize_tree_bin_partitions"]}
{"id": "C54", "title": "Fitting on valid data succeeds and gives sound predictions", "statement": "On valid data and parameters fit returns without error. Afterwards predict_proba gives one probability distribution per row over the classes, predict gives a label of the training set that maximises it, and predict of a regressor gives values in the range of the training labels. The training data itself is accepted.", "quantifier": "for every dataset (dataframe or array, mixed columns, missing values), weights, parameters, state of the generators and every later dataset that the encoder accepts", "why_tests_cant": "Whole pipeline for all inputs: no test covers all datasets, parameters and random draws.", "anchors": ["wildwood/forest.py: ForestBase.fit, ForestClassifier.predict_proba, ForestClassifier.predict, ForestRegressor.predict, ForestBase._predict_helper", "wildwood/preprocessing/encoder.py: Encoder.fit, Encoder.transform"]}
{"id": "C55", "title": "Only the order of the labels matters", "statement": "Renaming the labels of a classifier by an increasing function changes nothing else: fit raises the same exception or none, changes the same attributes, and afterwards gives the same probabilities and the renamed predictions.", "quantifier": "for every increasing renaming, every dataset and parameters, valid or not, and every state of the estimator", "why_tests_cant": "All renamings of all label types; tests use a few label sets.", "anchors": ["wildwood/forest.py: ForestClassifier._encode_y, ForestClassifier.fit, ForestClassifier.predict", "wildwood/forest.py: ForestBase.fit"]}
{"id": "C56", "title": "class_weight='balanced' is the same as sample weights", "statement": "In multinomial mode, fit with class_weight='balanced' gives the same estimator and the same failures as fit without class weights on sample weights multiplied by n_samples / (n_classes * size of the class). With equal sample weights all classes get the same total weight.", "quantifier": "for every dataset, sample weights, parameters and random draws", "why_tests_cant": "Equality of the estimators on all inputs.", "anchors": ["wildwood/forest.py: ForestClassifier._encode_y, ForestBase.fit"]}
{"id": "C57", "title": "The predictions are the documented estimator of the training data", "statement": "After fit, the prediction for a row is the mean over the trees of the average, over all prunings of the tree, of the statistic of the leaf that contains the row. The statistic (smoothed class shares, or mean label) is computed from the rows drawn for the tree, each as often as it was drawn; a pruning is weighted by 2^-(number of its nodes that are not leaves of the whole tree) times exp(-step * loss), with the loss on the rows that were not drawn. Without aggregation it is the statistic at the leaf. All with the sample weights times the balancing factor. In one-versus-rest mode, block c of n_estimators trees scores class c against the rest, and the scores are normalised.", "quantifier": "for every dataset, weights, parameters, random draws and every later dataset that the encoder accepts", "why_tests_cant": "Equality with a sum over exponentially many prunings, for all inputs; a test compares a few numbers with recorded ones.", "anchors": ["wildwood/forest.py: ForestBase.fit, ForestClassifier.predict_proba, ForestRegressor.predict, _generate_train_valid_samples", "wildwood/tree.py: TreeBase.fit", "wildwood/_node.py: compute_node_classifier_context, compute_node_regressor_context"]}
{"id": "C58", "title": "The prediction for a row does not depend on the other rows", "statement": "Predicting a row alone or within any other dataset gives the same probabilities and the same label.", "quantifier": "for every fitted forest and every two datasets that the encoder accepts (both dataframes, or both arrays of one kind) which share a row, at any positions", "why_tests_cant": "All pairs of datasets.", "anchors": ["wildwood/forest.py: ForestBase._predict_helper, ForestClassifier.predict_proba, ForestClassifier.predict, ForestRegressor.predict", "wildwood/preprocessing/encoder.py: Encoder.transform"]}
{"id": "C59", "title": "apply returns the leaf of every sample in every tree", "statement": "apply(X) returns an array of shape (n_samples, n_estimators) whose entry for a sample and a tree is the index of the leaf of the tree where the sample ends: the only leaf whose tests the sample passes.", "quantifier": "for every fitted classifier and regressor and every dataset that the encoder accepts", "why_tests_cant": "All forests and datasets; uniqueness of the leaf is a statement about all leaves.", "anchors": ["wildwood/forest.py: ForestBase.apply, _parallel_tree_apply", "wildwood/_tree.py: tree_apply, find_leaf"]}
{"id": "C60", "title": "Per-tree predictions average to the forest prediction", "statement": "predict_proba_trees returns an array of shape (n_estimators, n_samples, n_classes); entry t is the prediction of tree t, and the mean over the trees is predict_proba. predict_trees does the same for a regressor.", "quantifier": "for every fitted forest and every dataset that the encoder accepts (over the reals)", "why_tests_cant": "All forests and datasets.", "anchors": ["wildwood/forest.py: ForestClassifier.predict_proba_trees, ForestRegressor.predict_trees, _get_tree_prediction"]}
{"id": "C61", "title": "The reported depth is the length of the longest path", "statement": "For every fitted tree, get_depth and get_actual_depth return the number of edges of the longest path from the root to a leaf, and get_n_leaves the number of leaves.", "quantifier": "for every fitted tree", "why_tests_cant": "All trees that growing can produce.", "anchors": ["wildwood/tree.py: TreeBase.get_depth, TreeBase.get_actual_depth, TreeBase.get_n_leaves", "wildwood/_tree.py: get_nodes"]}
{"id": "C62", "title": "path_leaf describes the way of a sample to its leaf", "statement": "path_leaf returns, for every sample, one line per node on its way before the leaf, in the order of the depth; a line names the feature, the kind of the test, the threshold or the set of categories with the meaning it has in predictions, and the side taken.", "quantifier": "for every fitted tree and every row", "why_tests_cant": "All trees, rows and categorical sets.", "anchors": ["wildwood/_tree.py: path_leaf, sample_path_leaf", "wildwood/forest.py: ForestBase.path_leaf"]}
{"id": "C63", "title": "plot_tree draws a tree without crossings", "statement": "The coordinates computed for a fitted tree put all nodes inside the figure, all nodes below a left child to the left of the node and all nodes below a right child to the right, each level one unit below the previous one, and every segment between a node and its parent.", "quantifier": "for every fitted tree of every depth and shape (over the reals)", "why_tests_cant": "All shapes of trees; exponentially many for each depth.", "anchors": ["wildwood/plot.py: _compute_display_tree, plot_tree"]}
{"id": "C64", "title": "Only the order of the numbers in a numerical column matters", "statement": "Apply a strictly increasing function to the numbers of any numerical columns of the training data (numbers at most 1e300 before and after, different numbers stay different, and fewer rows than subsample). Then fit ends with the same trees, seeds, classes and attributes; only the thresholds stored in the encoder differ. predict and predict_proba on the training rows, or on any data made of values of the training columns, changed in the same way, return what they returned before.", "quantifier": "for every dataframe or array, every choice of columns and increasing functions, every classifier and regressor and every state of the generators", "why_tests_cant": "Functions and datasets range over infinite sets; a test can only try some.", "anchors": ["wildwood/preprocessing/encoder.py: Encoder.fit, Encoder.transform", "wildwood/preprocessing/_binning.py: _find_binning_thresholds, _bin_continuous_column", "wildwood/forest.py: ForestBase.fit, ForestClassifier.predict_proba, ForestClassifier.predict, ForestRegressor.predict"]}
{"id": "C65", "title": "The units of numerical columns do not matter", "statement": "Replace the numbers x of some numerical columns by a*x + b with a > 0, in the training data and in the data given to predict. Then fit ends with the same trees, and predict and predict_proba return the same values on every dataset, whether or not the encoder draws a random subset of the rows.", "quantifier": "for every dataframe or array, all columns, all a > 0 and b, all new data, every state of the generators (in exact arithmetic)", "why_tests_cant": "All datasets and all changes of units; new data may lie anywhere, also outside the range of the training data.", "anchors": ["wildwood/preprocessing/encoder.py: Encoder.fit, Encoder.transform", "wildwood/preprocessing/_binning.py: _find_binning_thresholds, _bin_continuous_column", "wildwood/forest.py: ForestBase.fit, ForestClassifier.predict_proba, ForestClassifier.predict, ForestRegressor.predict"]}
{"id": "C66", "title": "Changing the unit or origin of regression labels changes predictions accordingly", "statement": "A ForestRegressor fitted on the labels a*y + b (a > 0) with step/a**2 predicts a*p + b wherever the regressor fitted on y with step predicts p, and apply returns the same leaves, for all data passed to predict and apply. Everything else (features, weights, random draws, other parameters) is equal.", "quantifier": "for every accepted dataset with positive weights, all parameters, all a > 0 and b, all random draws, in exact arithmetic", "why_tests_cant": "Relates two fits for all data and all pairs (a, b); every node of every tree, its impurity comparisons and its aggregation weights must agree.", "anchors": ["wildwood/forest.py: ForestBase.fit, ForestRegressor.predict, ForestBase.apply", "wildwood/tree.py: TreeRegressor.fit", "wildwood/_node.py: compute_node_regressor_context", "wildwood/_split.py: find_best_split_regressor_along_feature", "wildwood/_impurity.py: mse_childs"]}
{"id": "C67", "title": "Only the relative sizes of sample weights matter", "statement": "Multiplying all sample weights by a constant k > 0, dividing step by k and (for classifiers) multiplying dirichlet by k changes neither predict, predict_proba nor apply, whatever data they get: regressors and classifiers, multinomial and one-versus-rest, balanced or not.", "quantifier": "for every accepted dataset with given positive weights, all parameters, all k > 0, all random draws, in exact arithmetic", "why_tests_cant": "Relates two fits for all data and all constants.", "anchors": ["wildwood/forest.py: ForestBase.fit, ForestClassifier._encode_y, ForestClassifier.predict_proba, ForestRegressor.predict", "wildwood/tree.py: TreeClassifier.fit, TreeRegressor.fit", "wildwood/_node.py: compute_node_classifier_context, compute_node_regressor_context", "wildwood/_split.py: find_node_split"]}
{"id": "C68", "title": "Hyperparameters always hold documented values", "statement": "Whatever a program does with a ForestClassifier or ForestRegressor (constructor, assignments, set_params, fit, with or without exceptions), every hyperparameter holds a documented value. An allowed value that is assigned is stored and changes no other hyperparameter; a value that is not allowed, or a hyperparameter locked after fit, raises and changes nothing; the constructor raises ValueError for a value that is not allowed. A forest built this way can be fitted on every accepted dataset and predicts.", "quantifier": "for all sequences of constructor calls, assignments, set_params and fit with all Python values, for all 21 hyperparameters of both classes", "why_tests_cant": "The sequences of operations and the values are infinitely many; tests try single bad values.", "anchors": ["wildwood/forest.py: ForestBase.__init__, ForestClassifier.__init__, ForestBase.n_estimators, ForestBase.max_depth, ForestBase.max_features, ForestBase.fit", "wildwood/preprocessing/encoder.py: Encoder.__init__"]}
{"id": "C69", "title": "fit leaves the hyperparameters alone, and clone gives the same unfitted forest", "statement": "fit, also when it raises, changes no hyperparameter. clone works on every forest and returns an unfitted forest with equal hyperparameters; with an integer random_state, fitting the clone on the same data gives the same trees, seeds and encoder, in any state of the global generator.", "quantifier": "for all forests that a program can reach, all data, all outcomes of fit and all states of the generators", "why_tests_cant": "All data and all ways in which fit can end.", "anchors": ["wildwood/forest.py: ForestBase.fit, ForestClassifier._encode_y, ForestBase.random_state, ForestBase.__init__, ForestClassifier.__init__"]}
{"id": "C70", "title": "Every hyperparameter has its documented effect on the fitted forest", "statement": "After fit there are n_estimators trees (per class in one-versus-rest mode with more than two classes). In every tree no node is deeper than max_depth, a node that is split has min_samples_split in-the-bag rows (and out-of-the-bag rows with aggregation), a node other than the root has min_samples_leaf of them. The test of a node maximises the decrease of criterion among all admissible tests on max_features random features, in the order of the categories given by cat_split_strategy; a node is a leaf only if a limit applies, it is pure, or there is no admissible test. max_features, max_bins, subsample, cat_min_categories, categorical_features and handle_unknown select features, thresholds, column types and the reaction to unknown categories as documented.", "quantifier": "for every accepted dataset (dataframe or array), all valid hyperparameters, all random draws; limits and encoder for arbitrary float arithmetic, the choice of the tests with exact arithmetic and positive weights", "why_tests_cant": "The statement is about every node of every tree for all data and all combinations of hyperparameters.", "anchors": ["wildwood/forest.py: ForestBase.fit, ForestBase._get_max_features_, _generate_train_valid_samples", "wildwood/_grow.py: grow", "wildwood/_split.py: find_node_split, find_best_split_along_feature", "wildwood/preprocessing/encoder.py: Encoder.fit, Encoder.transform", "wildwood/preprocessing/_binning.py: _find_binning_thresholds"]}
{"id": "C71", "title": "A tree learns only from the rows of its bootstrap", "statement": "Two fits on the same features, from the same state of forest and generators, with labels and sample weights that agree on the rows drawn by the bootstrap of a tree: this tree has the same nodes, tests, counts, impurities and node predictions in both forests. apply puts every row of every dataset in the same leaf of it; without aggregation its predictions (predict_proba_trees) are equal. Labels and weights of the rows left out enter only through the losses used by aggregation. (For a classifier the same classes must occur, and equally often if class_weight is balanced.)", "quantifier": "for all datasets, all labels and weights of the rows left out, all parameters, all random draws, arbitrary float arithmetic", "why_tests_cant": "Absence of an influence: relates all pairs of fits that differ in rows a tree must not see.", "anchors": ["wildwood/forest.py: _parallel_build_trees, ForestBase.fit, ForestBase.apply, ForestClassifier.predict_proba_trees", "wildwood/_grow.py: grow", "wildwood/_node.py: compute_node_classifier_context, compute_node_regressor_context", "wildwood/_split.py: find_node_split, split_indices"]}
{"id": "C72", "title": "The matrices, names, mask and labels of Dataset.extract describe the same rows and columns", "statement": "extract of a Dataset returns X_train, X_test, y_train, y_test such that columns_ has one name for each column, every feature of the dataframe occurs once (every level once with one-hot encoding), and each column holds what its name says for the rows of the split: a standardised (training mean 0, variance 1) or unchanged numerical feature, the rank of the category among the training categories (-1 if unknown), or the indicator of one level. categorical_features_ marks the categorical columns. Labels are those of the same rows, coded by the sorted training classes.", "quantifier": "for all dataframes, declared columns, tasks, encodings and splits (exact arithmetic)", "why_tests_cant": "The frames, the orders of columns and the splits are infinitely many; the loaders' tests check shapes at most.", "anchors": ["wildwood/datasets/dataset.py: Dataset.extract, Dataset._build_transform, Dataset.from_dtype", "wildwood/datasets/loaders.py: load_boston, load_hcv"]}
{"id": "C73", "title": "No information about the test rows leaks into the training set or the encoding", "statement": "Two data sets with the same columns and the same training rows: extract returns the same X_train, y_train, columns_, categorical_features_ and classes_, whatever the other rows are and however many there are; a test row that occurs in both is encoded in the same way in both.", "quantifier": "for all pairs of dataframes that agree on the training rows, all configurations", "why_tests_cant": "Absence of an influence: relates all pairs of data sets.", "anchors": ["wildwood/datasets/dataset.py: Dataset.extract, Dataset._build_transform"]}
{"id": "C74", "title": "The labels do not leak into the features", "statement": "Two data sets that differ only in the labels: with the same split, extract returns the same X_train, X_test, columns_ and categorical_features_.", "quantifier": "for all dataframes, labels, declared columns and configurations", "why_tests_cant": "Absence of an influence: relates all pairs of data sets. (A comment before _build_transform asks whether the label column is normalised.)", "anchors": ["wildwood/datasets/dataset.py: Dataset.from_dtype, Dataset._build_transform, Dataset.extract"]}
{"id": "C75", "title": "scaled_gini_ lies between 0 and 1, and is 1 exactly for balanced classes", "statement": "After extract of a classification data set, scaled_gini_ is a number between 0 and 1; it is 1 iff all classes have the same number of rows.", "quantifier": "for all label columns", "why_tests_cant": "A real inequality with its case of equality, for all label counts.", "anchors": ["wildwood/datasets/dataset.py: scaled_gini, gini, Dataset.extract"]}
{"id": "C76", "title": "get_signal returns the signal scaled to [0, 1]", "statement": "get_signal returns, for each of the four signals, an increasing affine image of the signal whose values lie between 0 and 1 and reach both.", "quantifier": "for all arrays of inputs and all signal names (exact arithmetic)", "why_tests_cant": "All real inputs.", "anchors": ["wildwood/datasets/signals.py: get_signal, _heavisine, _bumps, _blocks, _doppler"]}
{"id": "C77", "title": "get_signal evaluates a signal at the inputs", "statement": "As the docstring says, the result is the value of a signal at the given inputs: equal inputs have equal values, in the same call and in different calls, whatever the other inputs are.", "quantifier": "for all arrays of inputs and all positions in them", "why_tests_cant": "Relates all pairs of calls.", "anchors": ["wildwood/datasets/signals.py: get_signal"]}
{"id": "C78", "title": "make_regression with a seed depends only on its arguments", "statement": "With random_state given, make_regression returns the same sample in every state of the global generator and leaves that generator in a state that depends only on the arguments. X is the sorted list of the uniform draws; where the signal varies on X, y is one increasing affine image of the signal at the entries of X plus noise times the normal draws, row by row.", "quantifier": "for all generators, numbers of rows, signals, noise levels, seeds and states of the global generator", "why_tests_cant": "All states of the generator and all draws.", "anchors": ["wildwood/datasets/signals.py: make_regression"]}
{"id": "C79", "title": "Without limits, every tree fits its bootstrap exactly", "statement": "With aggregation=False, no max_depth, min_samples_split=2, min_samples_leaf=1, max_features=None and positive weights, every tree separates the rows of its bootstrap: for a drawn row, unless another drawn row has the same bins and another label, the tree gives the label of the row the largest probability (one with dirichlet=0), and a regression tree predicts the label itself. So with dirichlet=0 predict gives every row that is in the bootstrap of more than half of the trees its own label, and the mean of a regression forest differs from the label only through the trees that left the row out.", "quantifier": "for all data sets, weights, seeds and forests without limits (exact arithmetic)", "why_tests_cant": "Depends on every split of every tree having been made when needed: a stop rule or a split search that gives up early is visible only on data that need the missing split.", "anchors": ["wildwood/_grow.py: grow", "wildwood/_split.py: find_best_split_along_feature, find_node_split", "wildwood/forest.py: ForestClassifier.predict_proba_trees, ForestClassifier.predict, ForestRegressor.predict"]}
{"id": "C80", "title": "A column that is constant in the training data is ignored", "statement": "Every test of a tree is on a column in which the rows drawn by the bootstrap of the tree have different cells. So two data sets that agree in all columns that vary in the training data have the same predict_proba, predict, predict_proba_trees, apply and weighted depths, whatever the constant columns contain at prediction time (missing or new values included).", "quantifier": "for all training data, forests and prediction data, in any float arithmetic", "why_tests_cant": "Absence of an influence: all values of the constant columns at prediction time, and all trees.", "anchors": ["wildwood/_split.py: find_best_split_along_feature, find_node_split", "wildwood/_grow.py: grow", "wildwood/_tree.py: find_leaf, tree_apply", "wildwood/forest.py: ForestClassifier.predict_proba, ForestRegressor.predict"]}
{"id": "C81", "title": "Aggregation is almost as good as the best pruning of the tree", "statement": "With aggregation=True, step>0 and (classifier) dirichlet>0, the out-of-bag loss of the aggregated predictions of every tree (logarithmic for a classifier, square for a regressor) is at most the loss of any pruning of the tree plus log(2)/step times the number of nodes of the pruning that are not leaves of the tree. In particular it exceeds the loss of the constant prediction (class frequencies or mean of the bootstrap) at most by log(2)/step, and the loss of the same tree without aggregation at most by log(2)/step times its number of splits.", "quantifier": "for all data sets, nonnegative weights, seeds, forests, trees and prunings (exact arithmetic)", "why_tests_cant": "A guarantee against all prunings of all trees, whose number is exponential in the size of the tree; it is the reason for aggregation in the first place.", "anchors": ["wildwood/_grow.py: grow, compute_tree_weights", "wildwood/_tree.py: tree_classifier_predict_proba, tree_regressor_predict", "wildwood/forest.py: ForestClassifier.predict_proba_trees, ForestRegressor.predict"]}
{"id": "C82", "title": "The node table of get_nodes describes the tree completely", "statement": "get_nodes returns one line per node, line k for node k. Reading the way of a row of bins off the columns is_leaf, feature, bin_partition, left_child and right_child leads to exactly one leaf, the one that apply returns, and y_pred in its line is what the tree predicts without aggregation.", "quantifier": "for all fitted trees and all rows of bins, in any float arithmetic", "why_tests_cant": "All trees, rows and sets of categories; a table that is wrong for one kind of node agrees with the tree on most rows.", "anchors": ["wildwood/tree.py: get_nodes, get_nodes_classifier, get_nodes_regressor", "wildwood/forest.py: ForestBase.get_nodes"]}
{"id": "C83", "title": "With dirichlet>0 no class gets probability zero", "statement": "With dirichlet=d>0 and sample weights between 0 and c, every probability that predict_proba returns on any accepted input is at least d/(C(B+d)), where C is the number of classes and B is n*c for n training rows (n*n*c with class_weight='balanced'), in multinomial and in one-versus-rest mode, with and without aggregation. So the logarithmic loss of a prediction is at most log(C(B+d)/d), whatever the true class of the row.", "quantifier": "for all training data, weights, seeds, forests and prediction data (exact arithmetic)", "why_tests_cant": "A bound over all trees and all inputs, in terms of the arguments of fit alone; a missing smoothing in one branch shows up only where a class is absent from a node.", "anchors": ["wildwood/_tree.py: tree_classifier_predict_proba", "wildwood/forest.py: ForestClassifier.predict_proba", "wildwood/_grow.py: grow"]}
{"id": "C84", "title": "More estimators keep the trees of the smaller forest", "statement": "With an integer random_state, fitting with m instead of k<=m estimators (all else equal) keeps the first k trees (of every class, in one-versus-rest mode): the lines of apply, predict_proba_trees and weighted_depth for these trees are the same in both forests on all data.", "quantifier": "for all training data, hyperparameters, seeds, numbers of estimators and prediction data, in any float arithmetic", "why_tests_cant": "Relates two fits for all data and all pairs of sizes.", "anchors": ["wildwood/forest.py: ForestBase.fit, ForestBase._generate_random_states, ForestBase.apply, ForestClassifier.predict_proba_trees"]}
{"id": "C85", "title": "transform of an Encoder is determined by its last successful fit", "statement": "After a successful Encoder.fit and until the next successful one, whatever assignments to hyperparameters (accepted or refused) and failed calls of fit come in between, transform gives what the columns found by that fit (with the hyperparameters of that time) and the current handle_unknown determine; the current is_categorical matters only by its size; inverse_transform and n_features_in_ depend on that fit alone. A successful fit forgets the history: the encoder equals a new one with the same hyperparameters fitted on the same data.", "quantifier": "for all histories of assignments and fits, all data, in any arithmetic", "why_tests_cant": "Quantifies over histories of calls of any length.", "anchors": ["wildwood/preprocessing/encoder.py: Encoder.fit, Encoder.transform, Encoder.inverse_transform, Encoder.n_features_in_, Encoder.max_bins, Encoder.handle_unknown", "wildwood/preprocessing/_checks.py: check_X"]}
{"id": "C86", "title": "The hyperparameters of an Encoder have documented values", "statement": "Assigning a documented value to max_bins, subsample, cat_min_categories, is_categorical or handle_unknown of an Encoder stores it and changes nothing else; any other value raises an exception and changes nothing. Whatever a program does with an encoder, max_bins>=3, subsample is None or at least 50000, and an integer cat_min_categories exceeds 3.", "quantifier": "for all Python values and all histories of constructor calls, assignments and fits", "why_tests_cant": "Quantifies over all values and all histories.", "anchors": ["wildwood/preprocessing/encoder.py: Encoder.__init__, max_bins, subsample, cat_min_categories, is_categorical, handle_unknown"]}
{"id": "C87", "title": "The bins of a continuous column are balanced", "statement": "After Encoder.fit on all the rows of a dataframe or numerical array, transform of the same data distributes the rows of every continuous column with more than max_bins distinct values evenly: apart from the repetitions of a single value, no bin gets more than (n-1)/max_bins+1 of the n rows with a value, and when no value is repeated every bin gets (n-1)/max_bins rows (rounded down) or one more.", "quantifier": "for all columns of any length with any ties and missing cells, and all max_bins", "why_tests_cant": "The size of a bin depends on the whole column, its ties and the rounding of max_bins-1 percentile positions; tests look at a few columns.", "anchors": ["wildwood/preprocessing/_binning.py: _find_binning_thresholds, _bin_continuous_column", "wildwood/preprocessing/encoder.py: Encoder.fit, Encoder.transform"]}
{"id": "C88", "title": "A numerical table gives the same forest as a DataFrame and as an array", "statement": "fit on a DataFrame whose columns have numerical dtypes and distinct names does exactly the same (same exception, or same estimator and same generator state) as fit on the array of its values with the same other arguments; predict_proba, predict, apply, predict_proba_trees and _weighted_depth of any estimator give the same results for both forms.", "quantifier": "for all tables with any missing cells, all estimator states, weights, labels, categorical_features and generators", "why_tests_cant": "The two forms go through separate code paths for column typing, fit and transform; tests compare them on a few complete tables.", "anchors": ["wildwood/preprocessing/encoder.py: Encoder.fit, Encoder.transform", "wildwood/preprocessing/_checks.py: is_series_categorical, get_array_dtypes", "wildwood/forest.py: ForestBase.fit, ForestBase.apply"]}
{"id": "C89", "title": "Labels of rows with weight zero do not matter", "statement": "If two label arrays differ only in rows whose sample_weight is zero (and, for a classifier without class weights, have the same classes), then fits with them both succeed and the two forests give the same predictions and the same leaves for all data. This holds for regressors and for multinomial and one-versus-rest classifiers, with categorical columns and with aggregation.", "quantifier": "for all datasets, weights, labels, hyperparameters and generators (float operations are exact)", "why_tests_cant": "A weight of zero enters the node statistics, histograms, losses and orders of categories of every tree in different ways; tests compare a few fits.", "anchors": ["wildwood/_node.py: compute_node_classifier_context, compute_node_regressor_context", "wildwood/_split.py: find_best_split_classifier_along_feature, find_best_split_regressor_along_feature", "wildwood/forest.py: ForestBase.fit"]}
{"id": "C90", "title": "Names of the classes do not matter", "statement": "Renaming the classes in y by any injective renaming, also one that changes their order, leaves the fitted forest the same up to the names: predict_proba gives the new name of a class the probability of the class, and apply gives the same leaves.", "quantifier": "for every training set, every injective renaming of the labels, every parameter and every data for prediction", "why_tests_cant": "All renamings, in particular those which permute the sorted classes; ties between splits are rare in tests.", "anchors": ["wildwood/forest.py: ForestClassifier._encode_y, ForestClassifier.predict_proba", "wildwood/_split.py: find_best_split_classifier_along_feature", "wildwood/_tree_context.py: TreeClassifierContext"]}
{"id": "C91", "title": "Names of the categories do not matter", "statement": "Giving new names to the categories of categorical columns, different names to different categories, in the training data and in the data for prediction, leaves the forest the same up to the names: predict_proba, predict and apply give the same for all data, including missing cells and categories that do not occur in the training data. If the new names sort like the old ones, or the column has a category dtype, the trees are exactly the same, rounding included; otherwise the sums are added in another order and the predictions are the same with exact arithmetic.", "quantifier": "for every training set, every injective renaming of the categories of any categorical columns, every parameter and every data for prediction", "why_tests_cant": "All renamings of all columns; the order of the names decides the codes of the categories, hence the layout of every histogram and every stored set of categories.", "anchors": ["wildwood/preprocessing/encoder.py: Encoder.fit, Encoder.transform", "wildwood/_split.py: find_best_split_classifier_along_feature, find_best_split_regressor_along_feature", "wildwood/_node.py: compute_node_classifier_context, compute_node_regressor_context", "wildwood/forest.py: ForestBase.fit"]}
{"id": "C92", "title": "Class probabilities stay between 0 and 1 in floating-point arithmetic", "statement": "After fit on valid data, every number that predict_proba returns is at least 0 and at most 1, also with the rounding errors of floating-point arithmetic.", "quantifier": "for every training set, every parameter, every data for prediction, and every rounding of the results of the operations that is monotone and exact for representable numbers", "why_tests_cant": "All roundings of all intermediate results; a probability leaves the range only for losses of a certain size, far above those of unit tests.", "anchors": ["wildwood/_tree.py: tree_classifier_predict_proba", "wildwood/_node.py: compute_node_classifier_context", "wildwood/_grow.py: compute_tree_weights", "wildwood/_utils.py: log_sum_2_exp", "wildwood/forest.py: ForestClassifier.predict_proba"]}
{"id": "C93", "title": "Without limits a regressor reproduces its labels exactly, in single precision", "statement": "A regressor with criterion mse, aggregation=False and no limit on the trees (max_depth None, min_samples_split 2, min_samples_leaf 1, max_features None) is fitted in float32 arithmetic, where every operation is rounded to 24 digits. Whenever the bins of the columns determine the labels among the rows a tree has drawn, the prediction of this tree for each of these rows is the very number that was given as label, without any error.", "quantifier": "all datasets, labels, weights, seeds, numbers of trees and columns", "why_tests_cant": "All roundings of all sums of all nodes; a loss of precision merges rows only for labels or weights of a certain size, which tests with small random data do not reach.", "anchors": ["wildwood/_impurity.py: mse_node, mse_childs", "wildwood/_grow.py: grow", "wildwood/_node.py: compute_node_regressor_context", "wildwood/_split.py: find_best_split_regressor_along_feature", "wildwood/forest.py: ForestRegressor.fit, ForestRegressor.predict"]}
{"id": "C94", "title": "Without limits a classifier separates the classes, in single precision", "statement": "A multinomial classifier with criterion gini, aggregation=False and no limit on the trees (max_depth None, min_samples_split 2, min_samples_leaf 1, max_features None) is fitted in float32 arithmetic. Whenever the bins of the columns determine the classes among the rows a tree has drawn, this tree gives each of these rows a strictly larger probability for its own class than for every other class.", "quantifier": "all datasets, labels, weights, values of dirichlet in [0, 1], categorical split strategies, seeds, numbers of trees and columns", "why_tests_cant": "All roundings of all sums of all nodes; a loss of precision merges classes only for weights of very different size, which tests do not use.", "anchors": ["wildwood/_impurity.py: gini_node, gini_childs", "wildwood/_grow.py: grow", "wildwood/_node.py: compute_node_classifier_context", "wildwood/_split.py: find_best_split_classifier_along_feature", "wildwood/forest.py: ForestClassifier.fit, ForestClassifier.predict_proba"]}
{"id": "C95", "title": "Stricter max_depth or min_samples_split cut the trees", "statement": "Two estimators with the same random_state and the same settings are fitted on the same data, except that max_depth and min_samples_split of the first are at least as strict. All features are tried for each split (max_features None), randomized_depth is False, and for a classifier cat_split_strategy is not 'random' or there is no categorical column. Then each tree of the first forest is the tree of the second forest cut at the topmost nodes that break a limit of the first: the nodes that remain have the same tests, counts, weights, impurities, validation losses and predictions, and a row gets in the first forest the leaf that corresponds to the first node on its way down the second tree that is a leaf or breaks the limit.", "quantifier": "all datasets, labels, weights, settings, pairs of limits, rows to predict and floating-point results", "why_tests_cant": "The splits of deep nodes depend on the order of the rows left by the splits of other nodes and on the state of the generator after them; a test compares a few pairs of limits on a few datasets.", "anchors": ["wildwood/_grow.py: grow", "wildwood/_node.py: compute_node_classifier_context, compute_node_regressor_context", "wildwood/_split.py: find_node_split, split_indices", "wildwood/forest.py: ForestClassifier.fit, ForestRegressor.fit"]}
{"id": "C96", "title": "Numbers beyond the training range are treated like the nearest extreme", "statement": "A fitted forest is given two datasets that differ only in numerical columns, in cells where both numbers are at most the smallest number of the column in the training data, or both are at least the largest number. Then predict, predict_proba, the predictions of the single trees, apply and weighted_depth return the same for both datasets. If the column has no missing training cell, a missing cell is treated like the largest number too.", "quantifier": "all training sets, settings, random states, rows to predict, cells beyond the range and floating-point results", "why_tests_cant": "The bin of a cell depends on the quantiles of the training column and on which bins are occupied, and the effect shows only in nodes whose rows lie on one side; tests compare a few values on a few columns.", "anchors": ["wildwood/preprocessing/_binning.py: _find_binning_thresholds, _bin_continuous_column", "wildwood/preprocessing/encoder.py: Encoder.transform", "wildwood/_split.py: find_best_split_classifier_along_feature, find_best_split_regressor_along_feature", "wildwood/forest.py: ForestBase.apply, ForestClassifier.predict_proba, ForestRegressor.predict"]}
{"id": "C97", "title": "The sizes of the trees are bounded by the hyperparameters and the data", "statement": "In a fitted forest every tree has one node fewer than twice its number of leaves. A tree with more than one leaf has at most n / min_samples_leaf leaves, where n is the number of rows of its bootstrap, and with aggregation also at most m / min_samples_leaf leaves, where m is the number of rows outside the bootstrap; at most n + 2 - max(2, min_samples_split) leaves; at most 2^max_depth leaves; and at most as many leaves as there are different rows in the bootstrap.", "quantifier": "all training sets, labels, weights, settings, random states and floating-point results", "why_tests_cant": "Tests look at the sizes of a few trees; the bounds depend on how the rows of the bootstrap and the other rows are divided by every split of every tree.", "anchors": ["wildwood/_grow.py: grow", "wildwood/_split.py: find_node_split, split_indices", "wildwood/_tree.py: add_node_tree", "wildwood/forest.py: ForestClassifier.fit, ForestRegressor.fit"]}
{"id": "C98", "title": "Without aggregation every tree is the best fit to its bootstrap", "statement": "With aggregation=False, the predictions of every tree of a fitted regressor for the training rows are constant on the leaves, no other values that are constant on the leaves have a smaller weighted square loss on the bootstrap of the tree, and at every leaf the sum of the predictions over the bootstrap is the sum of the labels. For a classifier, predict_proba_trees returns for every tree the probabilities, constant on the leaves, that maximise the weighted likelihood of the bootstrap times a Dirichlet prior with parameter dirichlet+1; with dirichlet=0 every leaf predicts the class frequencies of its rows in the bootstrap.", "quantifier": "all training sets, labels, weights that are not negative, dirichlet>=0, limits, split criteria and random states, in exact arithmetic", "why_tests_cant": "Tests compare the scores of a fitted model with a threshold; that no other values at the leaves would be better is a statement on a continuum of alternatives for every training set.", "anchors": ["wildwood/_node.py: compute_node_classifier_context, compute_node_regressor_context", "wildwood/tree.py: TreeClassifier, TreeRegressor", "wildwood/_tree.py: tree_classifier_predict_proba, tree_regressor_predict", "wildwood/forest.py: ForestClassifier.predict_proba_trees, ForestRegressor.fit"]}
{"id": "C99", "title": "After fit only step and dirichlet have an effect, and they act as if given before fit", "statement": "A forest is fitted and then values are assigned to its hyperparameters in any order, where assignments that raise are caught by the caller. The forest then returns the same predict_proba, predict, predict_proba_trees, apply, classes_, n_classes_, n_samples_in_ and n_features_in_ as a forest fitted on the same data with the original hyperparameters except for the last accepted value of step and of dirichlet. A regressor has the same trees, predict and apply as one fitted with the last accepted step.", "quantifier": "all datasets, labels, weights, hyperparameters and random states that fit accepts, all finite sequences of assignments to n_estimators, criterion, step, dirichlet, aggregation, max_depth, min_samples_split, min_samples_leaf, max_bins, categorical_features, max_features, subsample, cat_min_categories, handle_unknown, random_state, class_weight, multiclass, cat_split_strategy, classes_ and n_classes_, and all later datasets", "why_tests_cant": "Tests change one attribute of one fitted forest and look at one prediction; the property is about every sequence of accepted and rejected assignments and every later question.", "anchors": ["wildwood/forest.py: ForestBase.step, ForestBase.n_estimators, ForestBase.aggregation, ForestBase.max_depth, ForestBase.random_state, ForestBase.n_features_in_, ForestClassifier.dirichlet, ForestClassifier.multiclass, ForestClassifier.cat_split_strategy, ForestClassifier.classes_", "wildwood/tree.py: TreeBase.step, TreeClassifier.dirichlet", "wildwood/_grow.py: recompute_node_predictions, compute_tree_weights"]}
{"id": "C100", "title": "A forest that was never fitted answers nothing, and once fitted it stays fitted", "statement": "As long as no call of fit has succeeded, predict, predict_proba, predict_proba_trees, predict_trees, apply, get_nodes, classes_, n_classes_, n_samples_in_ and n_features_in_ raise an exception, whatever was assigned to the hyperparameters and wherever earlier calls of fit failed. After the first successful call these attributes can be read and the methods work on at least one tree for ever, whatever is assigned and however later calls of fit end.", "quantifier": "all new estimators, all finite histories of assignments, calls of lighten and calls of fit with any arguments, all later datasets, in any arithmetic", "why_tests_cant": "Tests call predict once on a new estimator; the property is about every history of failed and successful calls.", "anchors": ["wildwood/forest.py: ForestBase._predict_helper, ForestBase.fit, ForestBase.get_nodes, ForestBase.lighten, ForestBase.apply, ForestBase.n_samples_in_, ForestBase.n_features_in_, ForestClassifier.predict, ForestClassifier.predict_proba, ForestClassifier.predict_proba_trees, ForestClassifier.classes_, ForestRegressor.predict"]}
{"id": "C101", "title": "Categories that are not in the training data are all treated alike", "statement": "In a categorical column a missing cell and an unknown category (with handle_unknown=\"consider_missing\") have the same predictions, leaves and weighted depths. So have any two cells that no row of the training data has: categories that only the dtype lists, and, when the column had no missing cell, missing cells and unknown categories.", "quantifier": "all training data and parameters with which fit succeeds, all pairs of datasets that differ only in such cells, any number of rows and columns, in any arithmetic", "why_tests_cant": "The categories that can first appear at prediction time are unbounded, and the effect depends on the sets of bins in all nodes of all trees.", "anchors": ["wildwood/preprocessing/encoder.py: Encoder.transform", "wildwood/_split.py: is_bin_in_partition", "wildwood/_tree.py: find_leaf", "wildwood/forest.py: ForestBase.fit, ForestBase.apply, ForestClassifier.predict_proba, ForestClassifier.predict, ForestRegressor.predict, ForestRegressor.weighted_depth"]}
{"id": "C102", "title": "With at most two classes multiclass=\"ovr\" is the same as \"multinomial\"", "statement": "For labels with at most two classes, fitting a new classifier with multiclass=\"ovr\" does exactly what fitting it with multiclass=\"multinomial\" does: the same exception or none, the same draws of the global random generator, the same changes of the caller's weights and, if fit succeeds, the same fitted forest, including its attribute multiclass.", "quantifier": "all labels with one or two classes, all data, parameters, weights and external random generators, any arithmetic, successful or failing fits", "why_tests_cant": "The two settings take different paths through the preparation of the labels; that the paths meet again for every parameter setting and also when fit fails cannot be sampled.", "anchors": ["wildwood/forest.py: ForestClassifier._encode_y, ForestBase.fit"]}
{"id": "C103", "title": "Giving every row the sample weight one is the same as giving no weights", "statement": "fit with sample_weight=np.ones(n) does the same as fit without sample_weight: the same exception or none, the same draws of the global random generator and the same fitted forest, with and without class_weight=\"balanced\".", "quantifier": "all data, parameters, labels, weights arrays of ones of any dtype, histories of the estimator, any arithmetic", "why_tests_cant": "The weights enter every sum of every tree; a test compares a few forests.", "anchors": ["wildwood/forest.py: ForestBase.fit, ForestClassifier._validate_y_class_weight"]}
{"id": "C104", "title": "Refitting forgets the previous fit", "statement": "fit of an estimator that was fitted before, on whatever data, ends in the same state as fit of a new estimator with the same parameters on the new data, and succeeds in the same cases.", "quantifier": "all estimators with any history, all new data and labels, any number of classes, columns and rows, any arithmetic", "why_tests_cant": "Traces of the old fit (number of classes, number of trees per class, encoders) could survive for particular sequences of datasets only.", "anchors": ["wildwood/forest.py: ForestBase.fit, ForestClassifier._encode_y, ForestClassifier.multiclass"]}
{"id": "C105", "title": "handle_unknown only decides what happens to unknown categories", "statement": "handle_unknown has no effect on fit. At prediction a table whose categories were all known to fit has the same result with both values; with handle_unknown=\"error\" no other table is accepted.", "quantifier": "all training data, all tables of any number of rows and columns, both kinds of forests, predictions and leaves, any arithmetic", "why_tests_cant": "The sets of categories are unbounded, and the test for unknown ones is written separately for dataframes and arrays.", "anchors": ["wildwood/preprocessing/encoder.py: Encoder.transform, Encoder.fit", "wildwood/forest.py: ForestBase.fit, ForestBase.apply, ForestClassifier.predict_proba, ForestRegressor.predict"]}
{"id": "C106", "title": "Column names are irrelevant; columns are identified by position", "statement": "fit of dataframes with the same columns in the same order does the same, whatever the (different) column names. A fitted forest gives tables with the same columns in the same order the same predictions, leaves and weighted depths, whatever their names, also when the names are those of other training columns.", "quantifier": "all dataframes with distinct column names, all renamings, all estimators, any arithmetic, successful or failing calls", "why_tests_cant": "The space of names and permutations of names is unbounded.", "anchors": ["wildwood/preprocessing/encoder.py: Encoder.fit, Encoder.transform", "wildwood/forest.py: ForestBase.fit, ForestBase.apply, ForestClassifier.predict_proba, ForestRegressor.predict"]}
{"id": "C107", "title": "Results per tree do not depend on the scheduling of threads", "statement": "apply, predict_proba_trees and _weighted_depth fill one row of a shared array per tree from several threads. Whatever the interleaving and the assignment of tasks to threads, every run ends, and the array then has the results of the trees in the order of the trees. During the run a row is untouched until its task stores and complete once its task has ended.", "quantifier": "all numbers of threads, trees and rows, all interleavings of single-element writes, all assignments of tasks to threads, all initial contents of the array", "why_tests_cant": "The number of interleavings grows exponentially, and a test sees the few that the scheduler picks.", "anchors": ["wildwood/forest.py: _compute_weighted_depth, _get_tree_prediction, _parallel_tree_apply, ForestBase.apply, ForestClassifier.predict_proba_trees, ForestRegressor._weighted_depth"]}
{"id": "C108", "title": "A max_depth that no node reaches has no effect", "statement": "If every node of the forest is less deep than max_depth, the fit with another max_depth that no node reaches either, or with none, does the same: same nodes, same predictions and leaves. No tree is as deep as the number of training rows, so max_depth=None and any max_depth of at least that number are equivalent.", "quantifier": "all data, parameters and pairs of limits; all trees; any arithmetic", "why_tests_cant": "The depth is compared at each node of each tree; a test compares a few limits on a few datasets.", "anchors": ["wildwood/_grow.py: grow", "wildwood/forest.py: ForestBase.fit, ForestBase.max_depth, ForestBase._get_max_depth_"]}
{"id": "C109", "title": "A classifier can be fitted on labels with a single class", "statement": "A classifier can be fitted when all rows have the same label. It then predicts this class with probability one for every row of every acceptable dataset.", "quantifier": "all data, parameters and labels with one class, both multiclass modes", "why_tests_cant": "Arrays over classes have length one there, and whether an index is outside of them depends on the path through the search for splits.", "anchors": ["wildwood/forest.py: ForestBase.fit, ForestClassifier.predict_proba, ForestClassifier.predict", "wildwood/_split.py: find_best_split_classifier_along_feature"]}
{"id": "C110", "title": "Values of max_features, subsample and cat_min_categories that mean the same are interchangeable", "statement": "Two estimators that differ only in max_features, subsample and cat_min_categories behave alike when the two values of max_features give the same number of features for the number of columns (for example None, 1.0 and the number of columns), both values of subsample keep all rows (None, or at least the number of rows), and both values of cat_min_categories give the same number. If the first can be fitted, so can the second, with the same forest, the same draws of the global random generator and the same answers.", "quantifier": "all data, parameters, labels, weights, numbers of rows and columns, pairs of equivalent values; any arithmetic; histories of the estimator", "why_tests_cant": "Each of the three parameters has several types that are converted in separate branches; the pairs of values and sizes of data are unbounded.", "anchors": ["wildwood/forest.py: ForestBase._get_max_features_, ForestBase.fit", "wildwood/preprocessing/encoder.py: Encoder.fit, Encoder.subsample"]}
{"id": "C111", "title": "cat_split_strategy has no effect without categorical columns", "statement": "When fit treats no column as categorical, a classifier with another cat_split_strategy is fitted to the same forest, with the same draws of all random generators, and answers alike.", "quantifier": "all data, labels, weights, parameters and pairs of strategies; any number of trees and nodes; any arithmetic", "why_tests_cant": "The strategy is consulted in the search for the split of each node of each tree.", "anchors": ["wildwood/forest.py: ForestClassifier.cat_split_strategy, ForestBase.fit", "wildwood/_split.py: find_best_split_classifier_along_feature, find_node_split"]}
{"id": "C112", "title": "min_samples_split has no effect up to twice min_samples_leaf", "statement": "Two estimators that differ only in min_samples_split, with values of at most twice min_samples_leaf, are fitted to forests with the same nodes, leave the global random generator in the same state and answer alike.", "quantifier": "all valid data, parameters and pairs of values; all trees and nodes; regressors, and classifiers with a strategy other than \"random\" or without categorical columns; any arithmetic", "why_tests_cant": "A node that only one of the two limits admits to the search must be shown to have no admissible split, for every node of every tree.", "anchors": ["wildwood/_grow.py: grow", "wildwood/_split.py: find_node_split", "wildwood/forest.py: ForestBase.min_samples_split, ForestBase.min_samples_leaf"]}
{"id": "C113", "title": "class_weight=\"balanced\" has no effect on equally frequent classes", "statement": "When all classes have the same number of rows, a classifier with class_weight=\"balanced\" is fitted to the same forest as without class weights, and the caller's weights are left as they are, in multinomial mode or with at most two classes.", "quantifier": "all data, labels with equally frequent classes, weights and parameters; any arithmetic in which a product with one is exact and n / (k * (n / k)) is one; in particular real numbers", "why_tests_cant": "The numbers of rows, classes and the weights are unbounded, and the weights enter every sum.", "anchors": ["wildwood/forest.py: ForestBase.fit, ForestClassifier._validate_y_class_weight"]}
{"id": "C114", "title": "max_bins has no effect on columns with few different values", "statement": "If no column that fit treats as numerical has more different values than max_bins, fit with another max_bins of at least that number gives the same forest, bins and draws of random generators, and the same answers afterwards.", "quantifier": "all data, labels, weights, parameters and pairs of values; dataframes and arrays; any arithmetic in the trees", "why_tests_cant": "The number of bins decides between two algorithms for the thresholds and is stored with the forest; the values of the columns are unbounded.", "anchors": ["wildwood/preprocessing/_binning.py: find_binning_thresholds", "wildwood/preprocessing/encoder.py: Encoder.fit", "wildwood/forest.py: ForestBase.fit, ForestBase.max_bins"]}
{"id": "C115", "title": "cat_min_categories has no effect when categorical_features is given", "statement": "When fit is told by categorical_features which columns are categorical, another accepted value of cat_min_categories gives the same forest, the same bins, the same draws of random generators and the same answers afterwards.", "quantifier": "all data, labels, weights, parameters and pairs of values; indices and masks; dataframes and arrays; any arithmetic", "why_tests_cant": "Columns and their numbers of values are unbounded, and dataframes and arrays are treated by different code.", "anchors": ["wildwood/preprocessing/encoder.py: Encoder.fit", "wildwood/forest.py: ForestBase.fit"]}
{"id": "C116", "title": "Regression predictions stay within the range of the training labels in single precision", "statement": "With float32 arithmetic, every prediction of a fitted regressor lies between the smallest and the largest training label.", "quantifier": "all data, labels, weights, parameters, numbers of trees and matrices to predict; float32 rounding after each operation", "why_tests_cant": "Rounding errors add up over rows and trees; the numbers of rows, trees and labels are unbounded, and a counterexample needs particular labels.", "anchors": ["wildwood/_node.py: compute_node_regressor_context", "wildwood/_tree.py: tree_regressor_predict", "wildwood/forest.py: ForestRegressor.predict"]}
{"id": "C117", "title": "Rows in the same leaves have the same predictions", "statement": "If apply puts two rows, of one table or of two tables, in the same leaf of every tree, then predict_proba, predict and the weighted depths are the same for both rows.", "quantifier": "all fitted forests, tables, rows, parameters and floating-point arithmetics", "why_tests_cant": "Numbers of trees, rows and leaves are unbounded; the claim compares arbitrary pairs of rows, also of different tables.", "anchors": ["wildwood/forest.py: ForestClassifier.predict_proba", "wildwood/forest.py: ForestClassifier.apply", "wildwood/forest.py: ForestRegressor.predict", "wildwood/forest.py: ForestBase.apply", "wildwood/_tree.py: tree_classifier_predict_proba, tree_regressor_predict, tree_apply"]}
{"id": "C118", "title": "fit and predict complete with the right shapes in any floating-point arithmetic", "statement": "On valid data and parameters, whatever the rounding, infinities or NaN that occur, fit returns; then predict_proba returns one row per row and one column per class, predict one label of the training data per row (a number for regression), and apply a leaf of every tree for every row.", "quantifier": "all data, labels, weights (also negative or NaN), parameters, generators and interpretations of the float operations", "why_tests_cant": "Overflow and NaN arise for particular inputs only; tests sample a few well-behaved data sets on one machine.", "anchors": ["wildwood/forest.py: ForestBase.fit", "wildwood/forest.py: ForestClassifier.predict_proba, predict, apply", "wildwood/forest.py: ForestRegressor.predict, apply", "wildwood/_grow.py: grow", "wildwood/_node.py"]}
{"id": "C119", "title": "Predictions are step functions of the numerical columns", "statement": "After fit every numerical column has fewer than max_bins cut points, each halfway between two numbers of the training column (at most 1e300). Two rows, of one table or of two, that agree up to numbers not separated by a cut point have the same leaves, probabilities, labels and predictions. While one numerical cell of a row varies, at most max_bins + 1 different predictions occur.", "quantifier": "all training data, parameters, tables, rows, numbers and floating-point arithmetics", "why_tests_cant": "A numerical column has a continuum of values; tests try a few numbers and cannot show that nothing happens between the cut points, nor bound the number of different answers.", "anchors": ["wildwood/forest.py: ForestBase.fit", "wildwood/forest.py: ForestClassifier.predict_proba, predict, apply", "wildwood/forest.py: ForestRegressor.predict", "wildwood/preprocessing/encoder.py: Encoder", "wildwood/preprocessing/_binning.py: _find_binning_thresholds, _bin_continuous_column"]}
{"id": "C120", "title": "Fitted trees can be read as rules about the original values", "statement": "After fit every column has a rule: cut points for a numerical column, or the list of its categories. apply returns the leaves that are reached by reading the trees in these terms: at a node on a numerical column a row goes left if its cell is a number that is at most the cut point with index bin_threshold, and a missing cell goes right; at a node on a categorical column a row goes left if the position of its category is in the stored set (missing cells and unknown categories share one extra position). Hence columns that no tree tests have no effect: two rows, of one table or of two, with the same cells in the tested columns have the same leaves, probabilities, labels and predictions.", "quantifier": "all training data, parameters, tables, rows and floating-point arithmetics", "why_tests_cant": "Binning, bit packing and the tests on bins have to agree for every value, threshold and table layout; tests try a few cells, and cannot show that a reading of the trees in terms of the original values is right for all rows.", "anchors": ["wildwood/forest.py: ForestBase.fit", "wildwood/forest.py: ForestBase.apply", "wildwood/forest.py: ForestClassifier.predict_proba, predict", "wildwood/forest.py: ForestRegressor.predict", "wildwood/preprocessing/encoder.py: Encoder", "wildwood/preprocessing/features_bitarray.py", "wildwood/_tree.py: find_leaf"]}
{"id": "C121", "title": "Redundant columns on the right of the table have no effect", "statement": "With max_features=None, adding a column on the right of the training table that is constant, or that is a copy of another column, changes nothing: fit grows trees with the same nodes, and predict_proba, predict and apply return the same on every table with one more column, whatever that column contains at prediction time. For classifiers a copy of a categorical column is excluded when the categories are ordered by a randomly drawn class, because then the copy consumes random numbers.", "quantifier": "all training data, parameters with max_features=None, redundant columns, prediction tables, seeds and floating-point arithmetics with a transitive and irreflexive comparison", "why_tests_cant": "It needs that the search prefers the first of equally good splits at every node, that the copy gets the same bins and the same splits, that the larger table has the same number of bins and that no random number depends on the number of columns; a test can try a few tables only.", "anchors": ["wildwood/forest.py: ForestBase.fit", "wildwood/forest.py: ForestClassifier.predict_proba, predict", "wildwood/forest.py: ForestRegressor.predict", "wildwood/_split.py: find_node_split, find_best_split_classifier_along_feature, find_best_split_regressor_along_feature", "wildwood/_node.py: compute_node_classifier_context, compute_node_regressor_context", "wildwood/_sampling.py: sample_without_replacement", "wildwood/preprocessing/encoder.py: Encoder"]}
{"id": "C122", "title": "Saving and loading a fitted forest at any moment changes nothing", "statement": "Fit a forest, then assign values to its attributes in any order (some assignments may raise exceptions), and at any moments between them pickle the forest and go on with the unpickled one, possibly in another process. Pickling and unpickling never raise, every assignment returns or raises exactly what it would without the files, all attributes are equal at the end, and predict_proba, predict, predict_proba_trees, apply, path-based depths and the fitted attributes are the same as those of the forest that was never saved.", "quantifier": "all training data, parameters, histories of assignments and files of any length, contents of uninitialised memory, states of the generators of the loading process, and floating-point arithmetics", "why_tests_cant": "It depends on every field of the compiled trees and contexts being saved and restored, including those that only later assignments of step or dirichlet read, and on no answer depending on memory that is not saved; tests pickle a few forests and compare predictions only.", "anchors": ["wildwood/forest.py: ForestBase.__getstate__, __setstate__", "wildwood/forest.py: ForestBase.step", "wildwood/forest.py: ForestClassifier.dirichlet", "wildwood/tree.py: TreeBase.__getstate__, __setstate__, serialize, unserialize"]}
{"id": "C123", "title": "A downloaded dataset that is returned is the published one", "statement": "Whenever load_adult, load_amazon, load_bank, load_car, load_default_cb, load_epsilon, load_higgs, load_internet or load_kick returns a dataset, it is the one contained in the published files whose checksums are written in the code. This holds whatever the server sent during earlier calls and during this one, whichever of these calls raised exceptions, and at whatever moments processes were killed.", "quantifier": "all histories of calls (any number, any replies of the server including truncated and wrong files, with and without download_if_missing, killed at any byte that is written), and all contents of the published files, readers and converters", "why_tests_cant": "It quantifies over crash points and network failures in sequences of processes; tests neither kill the loader in the middle of a file nor send wrong files, and there is no test of a second call after a failed one.", "anchors": ["wildwood/datasets/_adult.py: _fetch_adult, load_adult", "wildwood/datasets/_amazon.py: _fetch_amazon, load_amazon", "wildwood/datasets/_bank.py: _fetch_bank, load_bank", "wildwood/datasets/_car.py: _fetch_car, load_car", "wildwood/datasets/_default_cb.py: _fetch_default_cb, load_default_cb", "wildwood/datasets/_epsilon.py: _fetch_epsilon, load_epsilon", "wildwood/datasets/_higgs.py: _fetch_higgs, load_higgs", "wildwood/datasets/_internet.py: _fetch_internet, load_internet", "wildwood/datasets/_kick.py: _fetch_kick, load_kick"]}
{"id": "C124", "title": "Downloads that failed do no lasting harm", "statement": "After any sequence of calls of a dataset loader that raised exceptions or were killed, a call with download_if_missing=True, a working server and enough time returns the published dataset.", "quantifier": "all histories of calls, replies of the server and moments at which processes are killed", "why_tests_cant": "It quantifies over crash points in sequences of processes; tests do not interrupt the loaders.", "anchors": ["wildwood/datasets/_adult.py: _fetch_adult, load_adult", "wildwood/datasets/_amazon.py: _fetch_amazon, load_amazon", "wildwood/datasets/_bank.py: _fetch_bank, load_bank", "wildwood/datasets/_car.py: _fetch_car, load_car", "wildwood/datasets/_default_cb.py: _fetch_default_cb, load_default_cb", "wildwood/datasets/_epsilon.py: _fetch_epsilon, load_epsilon", "wildwood/datasets/_higgs.py: _fetch_higgs, load_higgs", "wildwood/datasets/_internet.py: _fetch_internet, load_internet", "wildwood/datasets/_kick.py: _fetch_kick, load_kick"]}
{"id": "C125", "title": "The directory for the datasets can be any directory", "statement": "With any value of the environment variable WILDWOOD_DATA that names a directory, and in any current directory, a first call of a dataset loader with a working server returns the published dataset.", "quantifier": "all environments (WILDWOOD_DATA, home directories, current directory, place of the package), loaders and contents of the published files", "why_tests_cant": "There are infinitely many paths; tests use the default directory.", "anchors": ["wildwood/datasets/_utils.py: get_data_home", "wildwood/datasets/dataset.py: Dataset.load_from_csv, load_raw_dataset", "wildwood/datasets/_adult.py: _fetch_adult, load_adult", "wildwood/datasets/_amazon.py: _fetch_amazon, load_amazon", "wildwood/datasets/_bank.py: _fetch_bank, load_bank", "wildwood/datasets/_car.py: _fetch_car, load_car", "wildwood/datasets/_default_cb.py: _fetch_default_cb, load_default_cb", "wildwood/datasets/_epsilon.py: _fetch_epsilon, load_epsilon", "wildwood/datasets/_higgs.py: _fetch_higgs, load_higgs", "wildwood/datasets/_internet.py: _fetch_internet, load_internet", "wildwood/datasets/_kick.py: _fetch_kick, load_kick"]}
{"id": "C126", "title": "The dataset loaders touch only their own directory and leave no temporary files", "statement": "No call of a dataset loader creates, changes or removes a file outside of the directory of this dataset in the data directory, whether it returns, raises or is killed. A first call of a loader that converts its downloads leaves, when it returns, none of the downloaded files behind, and load_bank leaves no extracted file behind. The data directory is the one that WILDWOOD_DATA names, and wildwood_data in the home directory by default. With download_if_missing=False nothing depends on the network, and the converting loaders change no file; the same holds for them when the data file is already there.", "quantifier": "all histories of calls, replies of the server, moments at which processes are killed, files that are on the disk before, and absolute data directories", "why_tests_cant": "It is a statement about all files of the machine at all crash points; tests look only at what the loader returns.", "anchors": ["wildwood/datasets/_adult.py: _fetch_adult, load_adult", "wildwood/datasets/_amazon.py: _fetch_amazon, load_amazon", "wildwood/datasets/_bank.py: _fetch_bank, load_bank", "wildwood/datasets/_car.py: _fetch_car, load_car", "wildwood/datasets/_default_cb.py: _fetch_default_cb, load_default_cb", "wildwood/datasets/_epsilon.py: _fetch_epsilon, load_epsilon", "wildwood/datasets/_higgs.py: _fetch_higgs, load_higgs", "wildwood/datasets/_internet.py: _fetch_internet, load_internet", "wildwood/datasets/_kick.py: _fetch_kick, load_kick"]}
{"id": "C127", "title": "Processes that load the same dataset at the same time do not disturb each other", "statement": "When several processes on one machine call the same dataset loader at the same time, each call that returns gives the published table, and no call raises because of another one.", "quantifier": "all numbers of processes, all interleavings of their accesses to the disk, all replies of the server, with and without downloading", "why_tests_cant": "The outcome depends on the interleaving of single disk accesses of several processes; tests run one process.", "anchors": ["wildwood/datasets/_adult.py: _fetch_adult, load_adult", "wildwood/datasets/_amazon.py: _fetch_amazon, load_amazon", "wildwood/datasets/_bank.py: _fetch_bank, load_bank", "wildwood/datasets/_car.py: _fetch_car, load_car", "wildwood/datasets/_default_cb.py: _fetch_default_cb, load_default_cb", "wildwood/datasets/_epsilon.py: _fetch_epsilon, load_epsilon", "wildwood/datasets/_higgs.py: _fetch_higgs, load_higgs", "wildwood/datasets/_internet.py: _fetch_internet, load_internet", "wildwood/datasets/_kick.py: _fetch_kick, load_kick"]}
{"id": "C128", "title": "A Dataset can be extracted again after its settings were changed", "statement": "What extract of a Dataset returns, and the attributes it leaves (columns_, categorical_features_, classes_, scaled_gini_, transformer and so on), depend only on the settings, the data and the seed of this call, not on earlier calls of extract on the same object.", "quantifier": "all histories of calls of extract, successful or not, with any settings, data frames and splits in between", "why_tests_cant": "The property is about all histories of one object; tests extract a new object once, or a few times with one order of settings.", "anchors": ["wildwood/datasets/dataset.py: Dataset.extract, Dataset._build_transform, Dataset.from_dtype", "wildwood/datasets/loaders.py: load_boston, load_hcv"]}
{"id": "C129", "title": "raw=True of a dataset loader gives the features and labels of the Dataset", "statement": "A loader called with raw=True returns X and y such that y is the label column of the Dataset that the loader returns otherwise, and X consists of all its other columns, in the same order, with the same cells and with the same division into categorical and numerical features. It raises only if the Dataset cannot be loaded either or has no label column.", "quantifier": "all loaders with an argument raw except those of epsilon, and all contents of the files they read", "why_tests_cant": "Tests would compare the two ways of loading on the shipped files only; the claim is for all contents, including missing columns.", "anchors": ["wildwood/datasets/dataset.py: get_X_y_from_dataframe, load_raw_dataset, Dataset.load_from_csv", "wildwood/datasets/loaders.py: load_breastcancer, load_boston, load_californiahousing, load_letor, load_cardio, load_churn, load_covtype, load_diabetes, load_kddcup99, load_letter, load_satimage, load_sensorless, load_spambase", "wildwood/datasets/_adult.py: _fetch_adult, load_adult", "wildwood/datasets/_amazon.py: _fetch_amazon, load_amazon", "wildwood/datasets/_bank.py: _fetch_bank, load_bank", "wildwood/datasets/_car.py: _fetch_car, load_car", "wildwood/datasets/_default_cb.py: _fetch_default_cb, load_default_cb", "wildwood/datasets/_higgs.py: _fetch_higgs, load_higgs", "wildwood/datasets/_internet.py: _fetch_internet, load_internet", "wildwood/datasets/_kick.py: _fetch_kick, load_kick"]}
{"id": "C130", "title": "Each line of describe_datasets describes its dataset", "statement": "describe_datasets returns one line for each dataset of the chosen list, in the order of the list. A line depends only on its own dataset: n_samples is the number of rows, n_samples_train and n_samples_test are positive and add up to it, n_features_cat and n_features_cont count the columns other than the label with and without dtype category, n_features counts all of them, n_columns is the width of X_train, and n_classes and scaled_gini are those of extract. It returns exactly if all datasets can be loaded and extracted, and raises ValueError for other values of include.", "quantifier": "all lists of loaders, all data frames, settings and splits of their datasets, and all values of include", "why_tests_cant": "Tests can only describe the shipped datasets, most of which must be downloaded; the claim is for any contents of the files and any split.", "anchors": ["wildwood/datasets/loaders.py: describe_datasets, loaders_small_classification, loaders_small_regression", "wildwood/datasets/dataset.py: Dataset.extract"]}
