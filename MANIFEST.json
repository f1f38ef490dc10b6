{
 "claims": [
  {
   "property": "C01",
   "status": "proved",
   "theorems": [
    "Verif.C01_bitarray_roundtrip"
   ],
   "note": "All matrices with at least one row and values below 2^63; words are BitVec 64."
  },
  {
   "property": "C02",
   "status": "proved",
   "theorems": [
    "Verif.C02_column_write_frame",
    "Verif.C02_write_history",
    "Verif.C02_writes_commute"
   ],
   "note": "Frame, histories of writes, commutation of writes to different columns."
  },
  {
   "property": "C03",
   "status": "proved",
   "theorems": [
    "Verif.C03_binning"
   ],
   "note": "Any linear order of values."
  },
  {
   "property": "C04",
   "status": "proved",
   "theorems": [
    "Verif.C04_thresholds",
    "Verif.C04_half_way",
    "Verif.C04_quantiles",
    "Verif.C04_balanced",
    "Verif.C04_clip_merges"
   ],
   "note": "Any ordered field; the last theorem shows the effect of the 1e300 clip."
  },
  {
   "property": "C05",
   "status": "partial",
   "theorems": [
    "Verif.C05_missing_bin_partial",
    "Verif.C05_reserved_bin_partial",
    "Verif.C05_violated_object_array"
   ],
   "note": "Violated by the code for object arrays with missing cells (witness); proved for all other inputs."
  },
  {
   "property": "C06",
   "status": "proved",
   "theorems": [
    "Verif.C06_transform_correct",
    "Verif.C06_accepts_iff",
    "Verif.C06_known_categories",
    "Verif.C06_unknown_as_missing",
    "Verif.C06_unknown_raises"
   ],
   "note": "For dataframes with distinct names and arrays without missing object cells."
  },
  {
   "property": "C07",
   "status": "partial",
   "theorems": [
    "Verif.C07_row_independent_partial",
    "Verif.C07_violated_object_array"
   ],
   "note": "Violated by the code for object arrays with missing cells (witness)."
  },
  {
   "property": "C08",
   "status": "proved",
   "theorems": [
    "Verif.C08_inverse_transform",
    "Verif.C08_violated_no_category"
   ],
   "note": "Every categorical column needs a category; otherwise IndexError (witness)."
  },
  {
   "property": "C09",
   "status": "partial",
   "theorems": [
    "Verif.C09_columns_encoded_partial",
    "Verif.C09_violated_duplicate_names"
   ],
   "note": "Violated by the code for repeated column names (witness)."
  },
  {
   "property": "C10",
   "status": "partial",
   "theorems": [
    "Verif.C10_frame_column_partial",
    "Verif.C10_array_column_partial",
    "Verif.C10_fit_frame_partial",
    "Verif.C10_violated_frame",
    "Verif.C10_violated_array"
   ],
   "note": "Violated by the code in two corners (witnesses)."
  },
  {
   "property": "C11",
   "status": "proved",
   "theorems": [
    "Verif.C11_categorical_features"
   ],
   "note": "All index lists, masks and numbers of features."
  },
  {
   "property": "C12",
   "status": "proved",
   "theorems": [
    "Verif.C12_max_features"
   ],
   "note": "All settings, any ordered field for floats."
  },
  {
   "property": "C13",
   "status": "proved",
   "theorems": [
    "Verif.C13_distinct_features",
    "Verif.C13_every_sample_possible"
   ],
   "note": "Any generator with values in range; every sample is reachable."
  },
  {
   "property": "C14",
   "status": "proved",
   "theorems": [
    "Verif.C14_bootstrap_partition"
   ],
   "note": "Any generator, seed and recursion limit."
  },
  {
   "property": "C15",
   "status": "partial",
   "theorems": [
    "Verif.C15_returns_iff",
    "Verif.C15_bootstrap_returns_partial",
    "Verif.C15_violated_one_row"
   ],
   "note": "Violated by the code for one row (RecursionError for every generator); proved for two rows or more."
  },
  {
   "property": "C16",
   "status": "proved",
   "theorems": [
    "Verif.C16_split_partitions"
   ],
   "note": "split_indices with the four scratch buffers and both partitions, numeric and categorical splits, any buffer contents"
  },
  {
   "property": "C17",
   "status": "proved",
   "theorems": [
    "Verif.C17_counts_classifier",
    "Verif.C17_counts_regressor"
   ],
   "note": "for any float arithmetic; all random draws; argsort is any function returning a permutation; binary strategy needs two classes (see DESIGN.md, disagreements)"
  },
  {
   "property": "C18",
   "status": "proved",
   "theorems": [
    "Verif.C18_min_samples_leaf"
   ],
   "note": "Every fitted tree, classification and regression."
  },
  {
   "property": "C19",
   "status": "proved",
   "theorems": [
    "Verif.C19_stopping"
   ],
   "note": "Every fitted tree; the impurity entry is missing only at the root."
  },
  {
   "property": "C20",
   "status": "proved",
   "theorems": [
    "Verif.C20_grow_terminates"
   ],
   "note": "Model reads, writes and subtractions are checked, so the theorem gives memory safety and termination; a single class with strategy binary is excluded (see DESIGN.md)."
  },
  {
   "property": "C21",
   "status": "proved",
   "theorems": [
    "Verif.C21_well_formed"
   ],
   "note": "Every fitted tree."
  },
  {
   "property": "C22",
   "status": "proved",
   "theorems": [
    "Verif.C22_routing"
   ],
   "note": "All samples of the training matrix; ranges refer to the final partitions."
  },
  {
   "property": "C23",
   "status": "proved",
   "theorems": [
    "Verif.C23_apply_total"
   ],
   "note": "Any binned matrix with as many columns, including bins never seen in training."
  },
  {
   "property": "C24",
   "status": "proved",
   "theorems": [
    "Verif.C24_unseen_right"
   ],
   "note": "Every split node and every row that visits it."
  },
  {
   "property": "C25",
   "status": "proved",
   "theorems": [
    "Verif.C25_category_sets"
   ],
   "note": "Sets in the final tree, after all later insertions and resizes."
  },
  {
   "property": "C26",
   "status": "proved",
   "theorems": [
    "Verif.C26_max_gain"
   ],
   "note": "Over the reals, at every node of every fitted classification or regression tree, with positive training weights."
  },
  {
   "property": "C27",
   "status": "proved",
   "theorems": [
    "Verif.C27_proxy_ranks",
    "Verif.C27_class_impurity",
    "Verif.C27_mse",
    "Verif.C27_gain_nonneg"
   ],
   "note": "Over the reals; also shows that the gain is non-negative for entropy."
  },
  {
   "property": "C28",
   "status": "proved",
   "theorems": [
    "Verif.C28_class_predictions"
   ],
   "note": "over the reals, at every node of every fitted classification tree"
  },
  {
   "property": "C29",
   "status": "proved",
   "theorems": [
    "Verif.C29_regression_range"
   ],
   "note": "Over the reals, any number of trees, any bootstrap draws and any encoded rows, with or without aggregation."
  },
  {
   "property": "C30",
   "status": "proved",
   "theorems": [
    "Verif.C30_multinomial",
    "Verif.C30_ovr",
    "Verif.C30_zero_scores"
   ],
   "note": "Over the reals: node predictions are proved to be probability vectors when weights are non-negative and dirichlet or all weights are positive."
  },
  {
   "property": "C31",
   "status": "proved",
   "theorems": [
    "Verif.C31_argmax"
   ],
   "note": "np.argmax modelled as the first-maximum scan, over the reals (no NaN); applies to all rows of C30."
  },
  {
   "property": "C32",
   "status": "proved",
   "theorems": [
    "Verif.C32_regressor",
    "Verif.C32_classifier",
    "Verif.treeOf_unique"
   ],
   "note": "over the reals; the list of prunings is defined on the tree read off the node table"
  },
  {
   "property": "C33",
   "status": "proved",
   "theorems": [
    "Verif.C33_log_sum",
    "Verif.C33_no_overflow",
    "Verif.C33_weights"
   ],
   "note": "over the reals; that no exponential is evaluated at a positive argument is stated as independence of the values there"
  },
  {
   "property": "C34",
   "status": "partial",
   "theorems": [
    "Verif.C34_weighted_depth_partial",
    "Verif.C34_violated"
   ],
   "note": "holds with aggregation; without aggregation the log-weights are NaN and so is the weighted depth (concrete witness)"
  },
  {
   "property": "C35",
   "status": "proved",
   "theorems": [
    "Verif.C35_step_is_refit",
    "Verif.C35_step_is_refit_ovr"
   ],
   "note": "For every float type whose comparison identifies only equal values apart from signed zeros; the result is the same object, so every later observation agrees."
  },
  {
   "property": "C36",
   "status": "proved",
   "theorems": [
    "Verif.C36_dirichlet_is_refit",
    "Verif.C36_dirichlet_is_refit_ovr",
    "Verif.C36_predictions"
   ],
   "note": "Over the reals, for every history of dirichlet and step changes. Without aggregation the losses stored in the nodes differ (recomputing fills them, fit leaves zero); nothing reads them and predictions are proved equal."
  },
  {
   "property": "C37",
   "status": "partial",
   "theorems": [
    "Verif.C37_violated",
    "Verif.C37_partial"
   ],
   "note": "Violated: dirichlet = 0 is accepted after a fit with aggregation, and aggregation can be switched on after a fit with dirichlet 0. Proved without these two calls."
  },
  {
   "property": "C38",
   "status": "proved",
   "theorems": [
    "Verif.C38_schedule",
    "Verif.C38_schedule_ovr",
    "Verif.C38_trees",
    "Verif.C38_completes"
   ],
   "note": "Workers grow their trees one loop step at a time, interleaved in any way, each with its own generator, whatever the generators' initial states and the uninitialised memory. The result is the list of the sequential program; no deadlock, no endless run."
  },
  {
   "property": "C39",
   "status": "proved",
   "theorems": [
    "Verif.C39_exactly_once",
    "Verif.C39_mutual_exclusion",
    "Verif.C39_terminates",
    "Verif.C39_multinomial",
    "Verif.C39_regression",
    "Verif.C39_ovr",
    "Verif.C39_sum",
    "Verif.C39_schedule_independent",
    "Verif.C39_multinomial_real",
    "Verif.C39_regression_real",
    "Verif.C39_ovr_real",
    "Verif.C39_fitted_multinomial",
    "Verif.C39_fitted_regression",
    "Verif.C39_fitted_ovr",
    "Verif.C39_lock_needed"
   ],
   "note": "Individual reads and writes of all array cells are interleaved. For all floats the result is that of the sequential program on a permutation of the trees; over the reals it is that of the sequential program. Without the lock a tree can be lost."
  },
  {
   "property": "C40",
   "status": "partial",
   "theorems": [
    "Verif.C40_classifier_partial",
    "Verif.C40_regressor_partial",
    "Verif.C40_own_seed_classifier",
    "Verif.C40_own_seed_regressor",
    "Verif.C40_violated_depth",
    "Verif.C40_violated_subsample"
   ],
   "note": "The code violates the property when randomized_depth is used and when the encoder draws a subset of the rows; both use the global generator. Proved in all other cases. The own_seed theorems add, with no such restriction, that every tree depends on its generator only through the state that its own seed gives."
  },
  {
   "property": "C41",
   "status": "proved",
   "theorems": [
    "Verif.C41_round_trip",
    "Verif.C41_dict_is_complete",
    "Verif.C41_same_behaviour",
    "Verif.C41_forest",
    "Verif.C41_encoder"
   ],
   "note": "Byte-level pickling of dictionaries and arrays is taken from Python and numpy; modelled are __getstate__, __setstate__, serialize and unserialize."
  },
  {
   "property": "C42",
   "status": "partial",
   "theorems": [
    "Verif.C42_tree_partial",
    "Verif.C42_regressor_partial",
    "Verif.C42_classifier_partial",
    "Verif.C42_violated",
    "Verif.C42_setters"
   ],
   "note": "Predictions are unchanged by lighten. The code violates the rest: a lightened tree can never be unpickled (ValueError or TypeError), and its step and dirichlet cannot be changed."
  },
  {
   "property": "C43",
   "status": "partial",
   "theorems": [
    "Verif.C43_seeds",
    "Verif.C43_one_estimator_partial",
    "Verif.C43_violated"
   ],
   "note": "The code violates the property: the seeds are repeated in the order of the estimators while the trees are in the order of the classes, so that trees of one class are copies of each other. C43_seeds gives the actual seeds."
  },
  {
   "property": "C44",
   "status": "partial",
   "theorems": [
    "Verif.C44_fit_argument_partial",
    "Verif.C44_violated"
   ],
   "note": "The code violates the property: the constructor argument is ignored. The argument of fit is honoured."
  },
  {
   "property": "C45",
   "status": "partial",
   "theorems": [
    "Verif.C45_read_back_partial",
    "Verif.C45_violated"
   ],
   "note": "The code violates the property: invalid values are silently ignored. Valid values are read back after every sequence of settings."
  },
  {
   "property": "C46",
   "status": "partial",
   "theorems": [
    "Verif.C46_violated",
    "Verif.C46_classifier_partial",
    "Verif.C46_regressor_partial",
    "Verif.C46_violated_regressor"
   ],
   "note": "The code violates the property: a refit that fails after the labels were encoded leaves the new classes with the old trees, a failure inside a tree leaves a new encoder with the old trees. The partial theorems give the failures after which the old forest works as before."
  },
  {
   "property": "C47",
   "status": "partial",
   "theorems": [
    "Verif.C47_weights_partial",
    "Verif.C47_violated"
   ],
   "note": "The code violates the property with class_weight=balanced in multinomial mode and weights that are not copied; it holds in all other cases."
  },
  {
   "property": "C48",
   "status": "proved",
   "theorems": [
    "Verif.C48_integer_weights"
   ],
   "note": "over the reals, for all statistics of a node"
  },
  {
   "property": "C49",
   "status": "partial",
   "theorems": [
    "Verif.C49_children_partial",
    "Verif.C49_never_set",
    "Verif.C49_violated"
   ],
   "note": "Violated by the code: is_left is never written. The child pointers do identify left children."
  },
  {
   "property": "C50",
   "status": "partial",
   "theorems": [
    "Verif.C50_binary_gini",
    "Verif.C50_regression_partial",
    "Verif.C50_regression_violated"
   ],
   "note": "binary classification with gini: the chosen categorical split is the best of all subsets of bins; regression: the code sorts the bins by the weighted label sum, not by the mean, so the statement fails (witness) and holds when the sum order is a mean order"
  },
  {
   "property": "C51",
   "status": "partial",
   "theorems": [
    "Verif.C51_refit_partial",
    "Verif.C51_violated"
   ],
   "note": "The code violates the property: a fitted one-versus-rest forest cannot be refitted on one or two classes."
  },
  {
   "property": "C52",
   "status": "proved",
   "theorems": [
    "Verif.C52_stack",
    "Verif.C52_resize",
    "Verif.C52_insertions"
   ],
   "note": "All sequences of operations, any positive initial capacity (the code uses 10 for the stack)."
  },
  {
   "property": "C53",
   "status": "proved",
   "theorems": [
    "Verif.C53_uninitialised_memory",
    "Verif.C53_uninitialised_memory_ovr"
   ],
   "note": "Garbage parameters: the record stack, the partition buffers and the enlarged bin_partitions. The histograms of a node context are reset before use (C12)."
  },
  {
   "property": "C54",
   "status": "proved",
   "theorems": [
    "Verif.C54_classifier",
    "Verif.C54_regressor"
   ],
   "note": "Predictions over the reals; external code (generators, argsort, conversion of cells) by contract."
  },
  {
   "property": "C55",
   "status": "proved",
   "theorems": [
    "Verif.C55_rename_labels"
   ],
   "note": "For all inputs, including those on which fit fails."
  },
  {
   "property": "C56",
   "status": "proved",
   "theorems": [
    "Verif.C56_balanced_is_weights",
    "Verif.C56_equal_classes"
   ],
   "note": "Over the real numbers; the first theorem covers failing fits too, once the shapes and targets are accepted."
  },
  {
   "property": "C57",
   "status": "proved",
   "theorems": [
    "Verif.C57_multinomial",
    "Verif.C57_ovr",
    "Verif.C57_regressor"
   ],
   "note": "Over the real numbers. The bins of the training data are those of the fitted encoder, see C06; the structure of the trees is taken from the fitted trees, see C19 to C26 for how the tests are chosen."
  },
  {
   "property": "C58",
   "status": "proved",
   "theorems": [
    "Verif.C58_classifier",
    "Verif.C58_regressor"
   ],
   "note": "Over the real numbers, for accepted datasets; object arrays with missing cells are not well-formed inputs, see C07."
  },
  {
   "property": "C59",
   "status": "partial",
   "theorems": [
    "Verif.C59_classifier_partial",
    "Verif.C59_regressor_partial",
    "Verif.C59_shape_violated"
   ],
   "note": "The entries are right, but the array is transposed: one line per tree instead of one per sample."
  },
  {
   "property": "C60",
   "status": "partial",
   "theorems": [
    "Verif.C60_trees_partial",
    "Verif.C60_ovr_violated",
    "Verif.C60_regressor_violated"
   ],
   "note": "Holds in multinomial mode. In one-versus-rest mode the shape differs, and predict_trees of a regressor always raises."
  },
  {
   "property": "C61",
   "status": "partial",
   "theorems": [
    "Verif.C61_depth_partial",
    "Verif.C61_violated"
   ],
   "note": "get_actual_depth is right; get_depth and get_n_leaves raise NotFittedError on every fitted tree."
  },
  {
   "property": "C62",
   "status": "partial",
   "theorems": [
    "Verif.C62_path_partial",
    "Verif.C62_root_violated",
    "Verif.C62_forest_violated"
   ],
   "note": "Holds for trees whose root is split; a tree with one node raises IndexError, and path_leaf of a forest always raises."
  },
  {
   "property": "C63",
   "status": "proved",
   "theorems": [
    "Verif.C63_drawing"
   ],
   "note": "Over the reals."
  },
  {
   "property": "C64",
   "status": "proved",
   "theorems": [
    "Verif.C64_order_classifier",
    "Verif.C64_order_regressor"
   ],
   "note": "For all datasets and all increasing changes of numerical columns, for the whole of fit and predict. Hypotheses: no random subset of rows is drawn by the encoder, numbers at most 1e300, distinct column names, changed columns numerical in the fitted encoder. Exact arithmetic for the thresholds."
  },
  {
   "property": "C65",
   "status": "proved",
   "theorems": [
    "Verif.C65_units_classifier",
    "Verif.C65_units_regressor"
   ],
   "note": "With or without a random subset of rows, for all new data. Exact arithmetic."
  },
  {
   "property": "C66",
   "status": "partial",
   "theorems": [
    "Verif.C66_units",
    "Verif.C66_shift_partial",
    "Verif.C66_shift_violated"
   ],
   "note": "Change of unit: all data, including categorical columns. Change of origin: only without categorical columns. With categorical columns the code violates it, since it sorts categories by the sum of their labels: C66_shift_violated has two trees for labels that differ by a constant and group the rows differently."
  },
  {
   "property": "C67",
   "status": "proved",
   "theorems": [
    "Verif.C67_regressor",
    "Verif.C67_classifier"
   ],
   "note": "Exact arithmetic. np.argsort is assumed to depend only on how the numbers compare."
  },
  {
   "property": "C68",
   "status": "partial",
   "theorems": [
    "Verif.C68_effect",
    "Verif.C68_assign_partial",
    "Verif.C68_always_partial",
    "Verif.C68_construct_partial",
    "Verif.C68_set_params",
    "Verif.C68_ready",
    "Verif.C68_regressor",
    "Verif.C68_classifier",
    "Verif.C68_fit_refuses",
    "Verif.C68_fit_refuses_classifier",
    "Verif.C68_violated_nan",
    "Verif.C68_violated_random_state",
    "Verif.C68_violated_unchecked"
   ],
   "note": "Missing because the code violates it: NaN is stored for step, dirichlet and max_features; random_state drops a RandomState instance or a negative number silently; handle_unknown, cat_min_categories and subsample are checked only in fit. Everything else holds for all programs and all values."
  },
  {
   "property": "C69",
   "status": "partial",
   "theorems": [
    "Verif.C69_classifier_partial",
    "Verif.C69_clone_models_partial",
    "Verif.C69_regressor_partial",
    "Verif.C69_clone_partial",
    "Verif.C69_refit_partial",
    "Verif.C69_refit_classifier_partial",
    "Verif.C69_violated_multiclass",
    "Verif.C69_violated_categorical",
    "Verif.C69_violated_clone"
   ],
   "note": "Missing because the code violates it: fit changes multiclass for at most two classes and overwrites categorical_features with its argument; a forest whose random_state was dropped cannot be cloned. The refit theorems inherit the exceptions of C40."
  },
  {
   "property": "C70",
   "status": "proved",
   "theorems": [
    "Verif.C70_limits_classifier",
    "Verif.C70_limits_regressor",
    "Verif.C70_multinomial",
    "Verif.C70_ovr",
    "Verif.C70_regressor"
   ],
   "note": "Limits, counts and the encoder for arbitrary float arithmetic (class numbers up to the number of classes must be exact); the greedy choice of the tests over the reals with positive weights. A column declared numerical whose dtype is not numerical is excluded in the typing rule, see C10. The effect of step, dirichlet and aggregation on predictions is C57."
  },
  {
   "property": "C71",
   "status": "proved",
   "theorems": [
    "Verif.C71_classifier",
    "Verif.C71_regressor"
   ],
   "note": "Both fits are assumed to succeed, as they do on accepted data; the labels of a classifier must not be empty. Arbitrary float arithmetic."
  },
  {
   "property": "C72",
   "status": "partial",
   "theorems": [
    "Verif.C72_extract_partial",
    "Verif.C72_boston_violates",
    "Verif.C72_order_violates",
    "Verif.C72_drop_violates"
   ],
   "note": "Proved when the declared columns are those of the frame in its order and drop is None; violated by load_boston, by a dtype in another order than the file, and by drop='first'."
  },
  {
   "property": "C73",
   "status": "proved",
   "theorems": [
    "Verif.C73_no_test_leakage"
   ],
   "note": ""
  },
  {
   "property": "C74",
   "status": "partial",
   "theorems": [
    "Verif.C74_no_label_leakage_partial",
    "Verif.C74_label_violates"
   ],
   "note": "Proved when the label is not among the declared columns; violated otherwise."
  },
  {
   "property": "C75",
   "status": "partial",
   "theorems": [
    "Verif.C75_scaled_gini_partial",
    "Verif.C75_one_class_violates"
   ],
   "note": "Proved for two classes or more; with one class the value is NaN."
  },
  {
   "property": "C76",
   "status": "partial",
   "theorems": [
    "Verif.C76_signal_rescaled_partial",
    "Verif.C76_constant_violates"
   ],
   "note": "Proved when the signal takes two values on the inputs; NaN otherwise."
  },
  {
   "property": "C77",
   "status": "partial",
   "theorems": [
    "Verif.C77_one_call_partial",
    "Verif.C77_pointwise_violated"
   ],
   "note": "Proved within one call; violated by two calls with different other inputs."
  },
  {
   "property": "C78",
   "status": "proved",
   "theorems": [
    "Verif.C78_regression_seeded",
    "Verif.C78_regression_unseeded"
   ],
   "note": ""
  },
  {
   "property": "C79",
   "status": "proved",
   "theorems": [
    "Verif.C79_multinomial",
    "Verif.C79_majority",
    "Verif.C79_ovr",
    "Verif.C79_regressor"
   ],
   "note": "From the greedy growth of C70: a leaf of an unlimited tree is pure or all its drawn rows have the same bins. Exact arithmetic, positive weights. In one-versus-rest mode the trees of a class separate this class from the rest."
  },
  {
   "property": "C80",
   "status": "proved",
   "theorems": [
    "Verif.C80_classifier",
    "Verif.C80_regressor"
   ],
   "note": "Any float arithmetic, min_samples_leaf >= 1 (enforced by its setter). From the limits of C70: both children of a node hold a drawn row."
  },
  {
   "property": "C81",
   "status": "proved",
   "theorems": [
    "Verif.C81_multinomial",
    "Verif.C81_ovr",
    "Verif.C81_regressor"
   ],
   "note": "Exact arithmetic; weights may be zero. The comparison is against every pruning of the shape of the fitted tree; constant and unpruned predictions are the two extreme prunings."
  },
  {
   "property": "C82",
   "status": "proved",
   "theorems": [
    "Verif.C82_node_table"
   ],
   "note": "Any float arithmetic. The printed forms of the cells are not modelled; the column threshold (a constant) is not used."
  },
  {
   "property": "C83",
   "status": "proved",
   "theorems": [
    "Verif.C83_no_zero_probability"
   ],
   "note": "Exact arithmetic. One theorem for both modes, with and without aggregation."
  },
  {
   "property": "C84",
   "status": "partial",
   "theorems": [
    "Verif.C84_multinomial_partial",
    "Verif.C84_regressor_partial",
    "Verif.C84_ovr_violated"
   ],
   "note": "Holds in multinomial mode, with at most two classes and for regressors, in any float arithmetic. Violated in one-versus-rest mode (kernel-checked witness): the seeds are repeated per class in an order that does not match the order of the trees."
  },
  {
   "property": "C85",
   "status": "partial",
   "theorems": [
    "Verif.C85_partial",
    "Verif.C85_refit",
    "Verif.C85_violated",
    "Verif.C85_violated_more"
   ],
   "note": "The code violates it: fit assigns n_features_in_ before it processes the columns, so a failed fit on data with another number of columns makes the encoder reject the data of the earlier fit (C85_violated, with a concrete example). C85_partial proves the property for all histories without such a failure; C85_refit is the full last sentence."
  },
  {
   "property": "C86",
   "status": "partial",
   "theorems": [
    "Verif.C86_assign_partial",
    "Verif.C86_always_partial",
    "Verif.C86_violated"
   ],
   "note": "The code violates it: the setter of cat_min_categories silently ignores values that are neither integers nor strings (C86_violated). All other values and hyperparameters are covered."
  },
  {
   "property": "C87",
   "status": "proved",
   "theorems": [
    "Verif.C87_bins",
    "Verif.C87_encoder"
   ],
   "note": "At the level of the two binning functions, and of Encoder.fit followed by Encoder.transform. Values are below the clip 1e300, the fit uses all rows (subsample is None or n is below it), and for arrays the dtype is numerical."
  },
  {
   "property": "C88",
   "status": "partial",
   "theorems": [
    "Verif.C88_classifier_partial",
    "Verif.C88_regressor_partial",
    "Verif.C88_predict",
    "Verif.C88_predict_reg",
    "Verif.C88_violated"
   ],
   "note": "Predictions: proved in full. fit: proved when categorical_features declares the columns, or no column with missing cells has exactly cat_min_categories distinct values. Missing: such columns, where the code violates the property (C88_violated: nunique ignores missing cells in a DataFrame, np.unique counts them in an array, so the column is categorical in one form and continuous in the other)."
  },
  {
   "property": "C89",
   "status": "proved",
   "theorems": [
    "Verif.C89_regressor",
    "Verif.C89_classifier"
   ],
   "note": "Floats are real numbers. In a node whose rows all have weight zero the code divides by zero; there the model has x / 0 = 0, and the two fits agree up to that point in any case."
  },
  {
   "property": "C90",
   "status": "partial",
   "theorems": [
    "Verif.C90_multinomial_partial",
    "Verif.C90_categorical_violated",
    "Verif.C90_ovr_violated"
   ],
   "note": "Proved over the real numbers for multinomial classifiers on data without categorical columns, for every injective renaming. Violated for categorical columns with two classes (ties between cuts are broken by the proportion of the class with the greater name) and for one-versus-rest (the seeds of the trees depend on the rank of the name): witnesses in exact rational arithmetic."
  },
  {
   "property": "C91",
   "status": "proved",
   "theorems": [
    "Verif.C91_classifier",
    "Verif.C91_regressor",
    "Verif.C91_order_classifier",
    "Verif.C91_order_regressor"
   ],
   "note": "C91_classifier and C91_regressor: any new names, for arithmetics in which the order of the summands does not matter, and tables with at least one row. C91_order_*: any arithmetic, for new names that sort like the old ones and for columns with a category dtype."
  },
  {
   "property": "C92",
   "status": "partial",
   "theorems": [
    "Verif.C92_partial",
    "Verif.C92_aggregation_violated"
   ],
   "note": "Violated by the code with aggregation in float32 (witness: exact float32 evaluation of a whole fit, probabilities 1.174 and -0.174 because log_weight_tree is rounded). Proved without aggregation, in both modes, for every arithmetic with rounding that satisfies FloatLaws, which float32 without overflow does (f32_laws)."
  },
  {
   "property": "C93",
   "status": "partial",
   "theorems": [
    "Verif.C93_regressor_partial",
    "Verif.C93_regressor_violated"
   ],
   "note": "The code violates the property for large labels (C93_regressor_violated: labels 16383 and 16385 share a leaf and are both predicted as 16384). C93_regressor_partial: exact for integer labels of absolute value at most B and integer weights in [1, w] with rows * w * B^2 <= 2^20."
  },
  {
   "property": "C94",
   "status": "partial",
   "theorems": [
    "Verif.C94_partial",
    "Verif.C94_violated"
   ],
   "note": "The code violates the property for weights of very different size (C94_violated: weights 2^26 and 1). C94_partial: holds for integer weights in [1, w] with rows * w <= 4096."
  },
  {
   "property": "C95",
   "status": "proved",
   "theorems": [
    "Verif.C95_classifier",
    "Verif.C95_regressor",
    "Verif.C95_leaves"
   ],
   "note": "Any float arithmetic, both modes of the classifier. The conditions (all features tried, no random strategy on categorical columns, no randomized depth) are those of the statement."
  },
  {
   "property": "C96",
   "status": "partial",
   "theorems": [
    "Verif.C96_classifier_partial",
    "Verif.C96_regressor_partial",
    "Verif.C96_violated"
   ],
   "note": "Any float arithmetic. Proved for numbers up to the smallest one, and at the upper end for columns without missing training cells, for columns with at most max_bins distinct numbers, and for pairs of numbers above the largest one. In the remaining case the code violates the property: with missing cells in a column of more than max_bins numbers, a number above the largest one can be treated like a missing cell (C96_violated)."
  },
  {
   "property": "C97",
   "status": "proved",
   "theorems": [
    "Verif.C97_classifier",
    "Verif.C97_regressor"
   ],
   "note": "Any float arithmetic, both modes of the classifier. With randomized_depth the limit for the depth is the number drawn for the tree."
  },
  {
   "property": "C98",
   "status": "proved",
   "theorems": [
    "Verif.C98_multinomial",
    "Verif.C98_ovr",
    "Verif.C98_regressor"
   ],
   "note": "Over the real numbers. In one-vs-rest mode a tree is fitted to the membership of its class."
  },
  {
   "property": "C99",
   "status": "proved",
   "theorems": [
    "Verif.C99_classifier",
    "Verif.C99_regressor",
    "Verif.C99_nFeaturesIn"
   ],
   "note": "Classifier over the real numbers, regressor in any arithmetic in which equal positive numbers are identical. C99_nFeaturesIn records that n_features_in_, which is no hyperparameter, can be overwritten with any number, after which predict_proba_trees rejects the data that predict_proba accepts."
  },
  {
   "property": "C100",
   "status": "proved",
   "theorems": [
    "Verif.C100_never_classifier",
    "Verif.C100_never_regressor",
    "Verif.C100_ever_classifier",
    "Verif.C100_ever_regressor"
   ],
   "note": "The exception is AttributeError or TypeError and not NotFittedError: check_is_fitted accepts a new estimator, because the constructor assigns attributes that end with an underscore. A TypeError arises when an earlier fit failed after it stored the encoder. C100_ever says that the methods are those of the other properties, not that they succeed, see C46."
  },
  {
   "property": "C101",
   "status": "proved",
   "theorems": [
    "Verif.C101_classifier",
    "Verif.C101_regressor"
   ],
   "note": "The two datasets are accepted by the encoder (see Acceptable) and convert numbers in the same way (both dataframes or arrays of the same kind)."
  },
  {
   "property": "C102",
   "status": "proved",
   "theorems": [
    "Verif.C102_classifier"
   ],
   "note": "For a classifier that was never fitted; a fitted one raises an exception, see C51 and C104."
  },
  {
   "property": "C103",
   "status": "proved",
   "theorems": [
    "Verif.C103_regressor",
    "Verif.C103_classifier"
   ],
   "note": "As many labels as rows; the caller's own array is the only thing that may differ afterwards (C70)."
  },
  {
   "property": "C104",
   "status": "partial",
   "theorems": [
    "Verif.C104_regressor",
    "Verif.C104_classifier_partial",
    "Verif.C104_violated"
   ],
   "note": "Complete for regressors and for classifiers with multinomial mode or more than two classes. A fitted one-versus-rest classifier cannot be refitted on at most two classes although a new one can: C104_violated (cause as in C51)."
  },
  {
   "property": "C105",
   "status": "proved",
   "theorems": [
    "Verif.C105_fit_regressor",
    "Verif.C105_fit_classifier",
    "Verif.C105_predict"
   ],
   "note": "For a column of category dtype the categories of the table are those that its dtype lists, used or not."
  },
  {
   "property": "C106",
   "status": "proved",
   "theorems": [
    "Verif.C106_fit_regressor",
    "Verif.C106_fit_classifier",
    "Verif.C106_predict"
   ],
   "note": "Names within a dataframe are distinct; for repeated names see C99."
  },
  {
   "property": "C107",
   "status": "proved",
   "theorems": [
    "Verif.C107_rows",
    "Verif.C107_terminates",
    "Verif.C107_deterministic"
   ],
   "note": "Threads interleave at single elements of the array; the predictions of different trees are computed from data that no thread writes."
  },
  {
   "property": "C108",
   "status": "proved",
   "theorems": [
    "Verif.C108_classifier",
    "Verif.C108_regressor"
   ],
   "note": "With randomized_depth=False in the call of fit; the trees differ only in the parameter that they keep."
  },
  {
   "property": "C109",
   "status": "partial",
   "theorems": [
    "Verif.C109_classifier_partial",
    "Verif.C109_numerical_partial",
    "Verif.C109_violated"
   ],
   "note": "Proved for cat_split_strategy \"all\" and \"random\", and for every strategy when no column is treated as categorical; in exact arithmetic for the probabilities. With the default \"binary\" and a categorical column the code reads outside of an array: C109_violated."
  },
  {
   "property": "C110",
   "status": "proved",
   "theorems": [
    "Verif.C110_regressor",
    "Verif.C110_classifier",
    "Verif.C110_predict"
   ],
   "note": "For fits that succeed. The stored values of the three parameters are the only difference afterwards."
  },
  {
   "property": "C111",
   "status": "proved",
   "theorems": [
    "Verif.C111_fit",
    "Verif.C111_predict"
   ],
   "note": "That no column is categorical is read off is_categorical_ after the first fit."
  },
  {
   "property": "C112",
   "status": "proved",
   "theorems": [
    "Verif.C112_classifier",
    "Verif.C112_regressor"
   ],
   "note": "With \"random\" and categorical columns the searches that find nothing draw from the generator of the tree, and later nodes may differ; this case is excluded."
  },
  {
   "property": "C113",
   "status": "proved",
   "theorems": [
    "Verif.C113_balanced",
    "Verif.C113_real",
    "Verif.C113_predict"
   ],
   "note": "For fits that succeed. In one-versus-rest mode with more than two classes each class is balanced against the others, so the weights differ."
  },
  {
   "property": "C114",
   "status": "proved",
   "theorems": [
    "Verif.C114_regressor",
    "Verif.C114_classifier",
    "Verif.C114_predict"
   ],
   "note": "For fits that succeed. The stored value of max_bins is the only difference afterwards."
  },
  {
   "property": "C115",
   "status": "proved",
   "theorems": [
    "Verif.C115_regressor",
    "Verif.C115_classifier",
    "Verif.C115_predict"
   ],
   "note": "For fits that succeed; categorical_features is the argument of fit and is not empty (C44)."
  },
  {
   "property": "C116",
   "status": "partial",
   "theorems": [
    "Verif.C116_partial",
    "Verif.C116_violated"
   ],
   "note": "Proved without aggregation for bounds lo * 2^e and hi * 2^e of the labels with few digits (number of rows times the largest weight, and number of trees, times lo and hi at most 2^24) and positive integer weights; the labels between the bounds are arbitrary. Violated in general: seven rows with the label 0.1 give predictions above 0.1. The accumulator over the trees is float64 in the code and float32 in the model."
  },
  {
   "property": "C117",
   "status": "proved",
   "theorems": [
    "Verif.C117_classifier",
    "Verif.C117_regressor"
   ],
   "note": "Any state of the estimator, no law of arithmetic used. Weighted depths are those of the regressor's trees."
  },
  {
   "property": "C118",
   "status": "proved",
   "theorems": [
    "Verif.C118_classifier",
    "Verif.C118_regressor"
   ],
   "note": "The only assumption about arithmetic is that the class numbers survive the conversion to a float and back."
  },
  {
   "property": "C119",
   "status": "proved",
   "theorems": [
    "Verif.C119_classifier",
    "Verif.C119_regressor"
   ],
   "note": "No law of arithmetic used."
  },
  {
   "property": "C120",
   "status": "proved",
   "theorems": [
    "Verif.C120_classifier",
    "Verif.C120_regressor"
   ],
   "note": "No law of arithmetic used."
  },
  {
   "property": "C121",
   "status": "proved",
   "theorems": [
    "Verif.C121_classifier",
    "Verif.C121_regressor"
   ],
   "note": "Laws of arithmetic used: < is transitive and irreflexive, and what is greater than something is greater than minus infinity (true for floats with NaN)."
  },
  {
   "property": "C122",
   "status": "proved",
   "theorems": [
    "Verif.C122_classifier",
    "Verif.C122_regressor"
   ],
   "note": "`TreeAttrs` describes the attributes of the tree objects that the model of the forest does not contain (class, drawn rows); such a description exists for every forest (exists_treeAttrs)."
  },
  {
   "property": "C123",
   "status": "partial",
   "theorems": [
    "Verif.C123_converting",
    "Verif.C123_direct_partial",
    "Verif.C123_direct_killed_partial",
    "Verif.C123_direct_violated"
   ],
   "note": "Holds for the six loaders that convert the downloaded files (C123_converting, under the hypothesis that a gzip file that is cut off cannot be read). Violated for load_higgs, and in the same way possible for load_bank and load_epsilon, since the download goes directly to the file whose existence is the test for later calls (C123_direct_violated); proved for them if no earlier call was killed or failed while downloading (C123_direct_partial), or if no such call left a new data file (C123_direct_killed_partial). Assumes that no other file has the same SHA-256 checksum."
  },
  {
   "property": "C124",
   "status": "partial",
   "theorems": [
    "Verif.C124_converting_partial",
    "Verif.C124_direct_partial",
    "Verif.C124_direct_killed_partial",
    "Verif.C124_direct_loaded",
    "Verif.C124_violated"
   ],
   "note": "Violated for all six converting loaders: a process killed while df.to_csv writes the data file leaves a file that exists but cannot be read, and all later calls raise (C124_violated). Proved for histories in which no call was killed in the middle of writing this file (all other kills, wrong files and broken connections are allowed), and for the direct loaders if no call that was killed or failed while downloading left a new data file (C124_direct_partial, C124_direct_killed_partial); once they have loaded the dataset, nothing that happens to later calls does harm (C124_direct_loaded)."
  },
  {
   "property": "C125",
   "status": "partial",
   "theorems": [
    "Verif.C125_partial",
    "Verif.C125_absolute_partial",
    "Verif.C125_violated"
   ],
   "note": "Violated for relative paths: the file is written relative to the current directory, but read relative to the directory of the built-in datasets (C125_violated: then no call ever returns). Proved for absolute paths (C125_absolute_partial: these are paths that begin with a slash, paths in the home directory of some user, and the default)."
  },
  {
   "property": "C126",
   "status": "proved",
   "theorems": [
    "Verif.C126_only_own_directory",
    "Verif.C126_directory",
    "Verif.C126_no_network",
    "Verif.C126_no_writes",
    "Verif.C126_converting_cleans",
    "Verif.C126_bank_cleans"
   ],
   "note": "Creating the directories themselves is not modelled."
  },
  {
   "property": "C127",
   "status": "partial",
   "theorems": [
    "Verif.C127_alone",
    "Verif.C127_converting_partial",
    "Verif.C127_direct_partial",
    "Verif.C127_converting_violated",
    "Verif.C127_bank_violated"
   ],
   "note": "Violated as stated. Proved: when the data file of a converting loader is complete, or the published files of load_epsilon and load_higgs are on the disk, any number of processes under any schedule get the published table and change nothing. Missing: the first call of a converting loader (two processes that both download can convert a half downloaded file, and the wrong table then stays on the disk), and load_bank, whose calls all extract to the same file. The two violation theorems are concrete witnesses, for load_car and load_bank. Directories, and writing to a file that another process has removed or truncated meanwhile, are simplified."
  },
  {
   "property": "C128",
   "status": "partial",
   "theorems": [
    "Verif.C128_returns",
    "Verif.C128_attributes_partial",
    "Verif.C128_again_partial",
    "Verif.C128_describe",
    "Verif.C128_mask_violated"
   ],
   "note": "Violated as stated: categorical_features_ is not reset when one_hot_encode is set to True after a call with False, so that it describes other columns; in the same way classes_, n_classes_ and scaled_gini_ when the task becomes regression. Proved without restriction: the returned values; all other attributes; and all attributes if the calls before did not code categorical columns by numbers unless this one does, and were not classification unless this one is."
  },
  {
   "property": "C129",
   "status": "partial",
   "theorems": [
    "Verif.C129_same_partial",
    "Verif.C129_boston_partial",
    "Verif.C129_boston_violated",
    "Verif.C129_caller"
   ],
   "note": "Violated by load_boston: raw=True makes the column chas categorical, but the frame of the Dataset keeps it as a number, and extract takes the kind of a column from the frame. Proved for the twenty other loaders of the table, and for load_boston everything except the dtype of chas (C129_boston_partial). C129_caller: get_X_y_from_dataframe changes the frame it is given, so that a second call on it raises. Not modelled: load_epsilon, and load_epsilon_catboost, which ignores raw and returns a Dataset. pd.read_csv and the scikit-learn loaders are the arbitrary frame df; that both branches pass them the same arguments was checked by reading."
  },
  {
   "property": "C130",
   "status": "proved",
   "theorems": [
    "Verif.C130_lines",
    "Verif.C130_returns"
   ],
   "note": "train_test_split is assumed to split the rows into two parts that are not empty. The counts follow the dtypes of the frame, not the declared columns; for load_boston these differ (C129). The data frame with the lines is a list of records."
  }
 ]
}
