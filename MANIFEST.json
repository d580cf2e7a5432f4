{
 "claims": [
  {
   "property": "C01",
   "status": "proved",
   "theorems": [
    "BT.C01_predict_is_walk",
    "BT.C01_batch_independent",
    "BT.C01_predict_descends"
   ],
   "note": "predict entry i depends on row i only and is the value of the leaf its walk reaches; any router whose two tests exclude each other"
  },
  {
   "property": "C02",
   "status": "proved",
   "theorems": [
    "BT.C02_same_leaf",
    "BT.C02_exact_always_leaf",
    "BT.C02_hyperplane",
    "BT.C02_reports"
   ],
   "note": "predict, predict_proba and raw leaf data read the same leaf"
  },
  {
   "property": "C03",
   "status": "proved",
   "theorems": [
    "BT.C03_walk_none_iff",
    "BT.C03_nan_rows"
   ],
   "note": "rows whose walk tests a NaN feature get 0 / None"
  },
  {
   "property": "C04",
   "status": "partial",
   "theorems": [
    "BT.C04_exact",
    "BT.C04_first_two_partial",
    "BT.C04_chain_partial",
    "BT.C04_same_partial",
    "BT.C04_paths_partial",
    "BT.C04_refuted"
   ],
   "note": "false of the code: prediction_paths mixes relative and absolute row indices below depth 1. C04_exact says exactly which decisions are reported. Partial: the first two decisions of every path are right, every path leads to a leaf, paths are right for trees of depth at most 2, for single rows and for batches of rows with the same decisions. C04_refuted gives a fitted tree and a query where paths are wrong"
  },
  {
   "property": "C05",
   "status": "proved",
   "theorems": [
    "BT.C05_proba_rows",
    "BT.C05_hyperplane",
    "BT.C91_classification",
    "BT.C91_hyper_classification"
   ],
   "note": ""
  },
  {
   "property": "C06",
   "status": "proved",
   "theorems": [
    "BT.C06_predict_argmax",
    "BT.C06_hyperplane",
    "BT.C91_classification",
    "BT.C91_hyper_classification"
   ],
   "note": ""
  },
  {
   "property": "C07",
   "status": "proved",
   "theorems": [
    "BT.C07_regression_hull",
    "BT.C07_regression_hull_exact",
    "BT.C07_hyperplane",
    "BT.C91_regression",
    "BT.C91_hyper_regression"
   ],
   "note": ""
  },
  {
   "property": "C08",
   "status": "proved",
   "theorems": [
    "BT.C08_rows_routed_back",
    "BT.C08_closed"
   ],
   "note": ""
  },
  {
   "property": "C09",
   "status": "proved",
   "theorems": [
    "BT.C09_posteriors",
    "BT.C09_classification",
    "BT.C09_regression",
    "BT.C09_closed",
    "BT.C49_closed"
   ],
   "note": "delta = 0"
  },
  {
   "property": "C10",
   "status": "partial",
   "theorems": [
    "BT.C10_leaf_update_partial",
    "BT.C10_refuted"
   ],
   "note": "false of the code: a child leaf that is not fitted recursively is updated from the parent prior although its own prior attribute differs (delta != 0)"
  },
  {
   "property": "C11",
   "status": "proved",
   "theorems": [
    "BT.C11_leaf_sizes",
    "BT.C11_closed",
    "BT.C11_hyperplane"
   ],
   "note": ""
  },
  {
   "property": "C12",
   "status": "proved",
   "theorems": [
    "BT.C12_fit_terminates",
    "BT.C12_only_index_error",
    "BT.C12_children_smaller",
    "BT.C12_closed",
    "BT.C91_perp"
   ],
   "note": ""
  },
  {
   "property": "C13",
   "status": "proved",
   "theorems": [
    "BT.C13_greedy_optimal",
    "BT.C13_cuts_exact",
    "BT.C13_closed",
    "BT.C13_closed_children"
   ],
   "note": ""
  },
  {
   "property": "C14",
   "status": "proved",
   "theorems": [
    "BT.C14_unsplit_justified",
    "BT.C14_closed"
   ],
   "note": ""
  },
  {
   "property": "C15",
   "status": "proved",
   "theorems": [
    "BT.C15_ties",
    "BT.C15_closed"
   ],
   "note": ""
  },
  {
   "property": "C16",
   "status": "proved",
   "theorems": [
    "BT.C16_row_order",
    "BT.C16_closed"
   ],
   "note": ""
  },
  {
   "property": "C17",
   "status": "proved",
   "theorems": [
    "BT.C17_strictly_between",
    "BT.C13_closed",
    "BT.C13_closed_children"
   ],
   "note": ""
  },
  {
   "property": "C18",
   "status": "proved",
   "theorems": [
    "BT.C18_constant_unused",
    "BT.C18_constant_importance",
    "BT.C18_closed"
   ],
   "note": ""
  },
  {
   "property": "C19",
   "status": "proved",
   "theorems": [
    "BT.C19_hyper",
    "BT.C19_child_prior",
    "BT.C19_closed",
    "BT.C72_classification_fit",
    "BT.C19_hyperplane"
   ],
   "note": ""
  },
  {
   "property": "C20",
   "status": "proved",
   "theorems": [
    "BT.C20_proper",
    "BT.C20_domains",
    "BT.C20_hyperplane"
   ],
   "note": ""
  },
  {
   "property": "C21",
   "status": "proved",
   "theorems": [
    "BT.C21_prune",
    "BT.C21_fuel",
    "BT.C21_fit",
    "BT.C21_fit_fullyPruned",
    "BT.C21_closed",
    "BT.C21_hyperplane",
    "BT.C21_hyper_fit",
    "BT.C91_perp",
    "BT.C91_hyper"
   ],
   "note": ""
  },
  {
   "property": "C22",
   "status": "partial",
   "theorems": [
    "BT.C22_prune_classes_partial",
    "BT.C22_prior_partial",
    "BT.C22_hyperplane_partial",
    "BT.C22_refuted",
    "BT.C22_refuted_delta",
    "BT.C22_hyperplane_refuted"
   ],
   "note": "false of the code for asymmetric priors and for delta != 0 (both with concrete fits over the reals); proved for constant priors and delta = 0; for any prior, pruning keeps the class of a row or moves it to a class with a strictly smaller prior (delta = 0, or hyperplane trees with any delta)"
  },
  {
   "property": "C23",
   "status": "partial",
   "theorems": [
    "BT.C23_prune_means_partial",
    "BT.C23_away_partial",
    "BT.C23_hyperplane_partial",
    "BT.C23_merged_mean",
    "BT.C23_refuted",
    "BT.C23_hyperplane_refuted"
   ],
   "note": "false of the code; C23_merged_mean gives the exact change of one merge for delta = 0; C23_away_partial: for any data, pruning keeps the prediction of a row or moves it further away from the prior mean on the same side (delta = 0; hyperplane trees with any delta); C23_prune_means_partial: the case in which siblings agree only on the prior mean"
  },
  {
   "property": "C24",
   "status": "proved",
   "theorems": [
    "BT.C24_attributes_perp",
    "BT.C24_attributes_hyper",
    "BT.C24_pruned_nodes",
    "BT.C24_statistics",
    "BT.C24_closed",
    "BT.C24_hyperplane",
    "BT.C91_perp",
    "BT.C91_hyper"
   ],
   "note": "erasure of split attributes is built into the tree type: a leaf has none"
  },
  {
   "property": "C25",
   "status": "proved",
   "theorems": [
    "BT.C25_depth_leaves",
    "BT.C25_subtree_depth",
    "BT.C25_closed",
    "BT.C25_hyperplane",
    "BT.C91_perp",
    "BT.C91_hyper"
   ],
   "note": "C25_subtree_depth: get_depth of a sub-node of a fitted tree is absolute"
  },
  {
   "property": "C26",
   "status": "proved",
   "theorems": [
    "BT.C26_importance",
    "BT.C26_closed",
    "BT.C91_perp",
    "BT.C91_hyper"
   ],
   "note": ""
  },
  {
   "property": "C27",
   "status": "proved",
   "theorems": [
    "BT.C27_sums_to_one",
    "BT.C27_chain_rule",
    "BT.C27_predictive"
   ],
   "note": ""
  },
  {
   "property": "C28",
   "status": "proved",
   "theorems": [
    "BT.C28_order_classification",
    "BT.C28_order_regression"
   ],
   "note": ""
  },
  {
   "property": "C29",
   "status": "proved",
   "theorems": [
    "BT.C29_coherent",
    "BT.C29_marginal_adds"
   ],
   "note": ""
  },
  {
   "property": "C30",
   "status": "proved",
   "theorems": [
    "BT.C30_prior_classification",
    "BT.C30_prior_regression",
    "BT.C30_deeper"
   ],
   "note": ""
  },
  {
   "property": "C31",
   "status": "proved",
   "theorems": [
    "BT.C31_scores_classification",
    "BT.C31_scores_regression"
   ],
   "note": ""
  },
  {
   "property": "C32",
   "status": "partial",
   "theorems": [
    "BT.clsCheck_good",
    "BT.regCheck_good",
    "BT.C32_shapes_partial",
    "BT.C32_unchanged",
    "BT.C32_refuted"
   ],
   "note": "ValueError and an unchanged model for all wrong shapes except a 0-dimensional array without feature names, which raises IndexError (refutation holds for every model and target that passes the target check)."
  },
  {
   "property": "C33",
   "status": "proved",
   "theorems": [
    "BT.C33_check",
    "BT.C33_fit",
    "BT.C33_one_class",
    "BT.C33_no_class"
   ],
   "note": "K >= 2; accepting valid data is C34_fit_partial; priors for one or no class are C33_one_class and C33_no_class"
  },
  {
   "property": "C34",
   "status": "partial",
   "theorems": [
    "BT.C34_refuted",
    "BT.C34_fit_partial"
   ],
   "note": "False for all data: prior=None always raises (TypeError from len(None)). With a prior for at least two classes every valid data set is accepted."
  },
  {
   "property": "C35",
   "status": "partial",
   "theorems": [
    "BT.C35_refuted",
    "BT.C35_refuted_target",
    "BT.C35_fit_partial"
   ],
   "note": "False for all one-row data sets and models: y.squeeze() makes the target 0-dimensional. Two or more rows are accepted."
  },
  {
   "property": "C36",
   "status": "partial",
   "theorems": [
    "BT.C36_unfitted_partial",
    "BT.C36_unfitted_fails",
    "BT.C36_unfitted_others",
    "BT.C36_history_partial",
    "BT.C36_columns",
    "BT.C36_one_sample",
    "BT.C36_one_sample_value",
    "BT.C36_refuted",
    "BT.C36_dims"
   ],
   "note": "A 0-dimensional array raises IndexError before the check."
  },
  {
   "property": "C37",
   "status": "partial",
   "theorems": [
    "BT.C37_native",
    "BT.C37_lossless",
    "BT.C37_rejects_partial",
    "BT.C37_refuted"
   ],
   "note": "An object array with an element that cannot be converted raises the exception of the conversion (TypeError for a dict), not ValueError."
  },
  {
   "property": "C38",
   "status": "proved",
   "theorems": [
    "BT.C38_refit",
    "BT.C38_params",
    "BT.C38_perp",
    "BT.C38_hyper"
   ],
   "note": "perpendicular and hyperplane classes via LawfulKit (perpKit_lawful, hyperKit_lawful)"
  },
  {
   "property": "C39",
   "status": "partial",
   "theorems": [
    "BT.C39_validation_partial",
    "BT.C39_perp_partial",
    "BT.C39_default_names",
    "BT.C39_hyper_partial",
    "BT.C39_corrupts",
    "BT.C39_corrupts_tree",
    "BT.C39_refuted"
   ],
   "note": "False: with fewer feature names than columns a failing fit overwrites the split dimension. Holds for validation failures, for perpendicular trees with enough names, and for hyperplane trees unless the optimizer raises below the root."
  },
  {
   "property": "C40",
   "status": "proved",
   "theorems": [
    "BT.C40_query",
    "BT.C40_state",
    "BT.C40_answers",
    "BT.C40_repeat",
    "BT.C91_perp",
    "BT.C91_hyper"
   ],
   "note": "The model of a query returns no new state because the code assigns no attribute in it; the theorems are about interleavings."
  },
  {
   "property": "C41",
   "status": "proved",
   "theorems": [
    "BT.C41_index_dtype"
   ],
   "note": ""
  },
  {
   "property": "C42",
   "status": "partial",
   "theorems": [
    "BT.C42_gap_partial",
    "BT.C42_gap_signed",
    "BT.C42_midpoint",
    "BT.C42_structure_partial",
    "BT.C42_same_partial",
    "BT.C42_refuted",
    "BT.C42_refuted_uint8"
   ],
   "note": "False: int8 values -64 and 64 give no candidate split (the difference wraps to -128), and the sum of uint8 values 100 and 200 wraps so the threshold is 22. Same candidates when the difference fits the dtype, same tree when the sums fit as well."
  },
  {
   "property": "C43",
   "status": "partial",
   "theorems": [
    "BT.C43_route",
    "BT.C43_structure",
    "BT.C43_fit_partial",
    "BT.C43_refuted"
   ],
   "note": "False for neighbouring floats whose midpoint rounds to the lower one (1 and 1+2^-52). Holds when a float lies strictly between any two distinct training values of a column."
  },
  {
   "property": "C44",
   "status": "proved",
   "theorems": [
    "BT.C44_column",
    "BT.C44_fit",
    "BT.C44_predict",
    "BT.C44_paths"
   ],
   "note": "perpendicular trees, CSR and CSC; exact sums of duplicate entries"
  },
  {
   "property": "C45",
   "status": "proved",
   "theorems": [
    "BT.C45_feature_names",
    "BT.C45_names",
    "BT.C19_closed"
   ],
   "note": "C45_names is in terms of the arguments of fit."
  },
  {
   "property": "C46",
   "status": "proved",
   "theorems": [
    "BT.C46_monotone",
    "BT.C46_best",
    "BT.C46_closed"
   ],
   "note": "any optimizer (adaptive strategy), classification and regression; exact arithmetic for projections"
  },
  {
   "property": "C47",
   "status": "proved",
   "theorems": [
    "BT.C47_ties",
    "BT.C46_closed"
   ],
   "note": ""
  },
  {
   "property": "C48",
   "status": "proved",
   "theorems": [
    "BT.C48_unit",
    "BT.C48_accepts",
    "BT.C48_tree",
    "BT.C48_closed_direction",
    "BT.C48_closed_cube",
    "BT.C48_exact",
    "BT.C50_closed"
   ],
   "note": "norm is the exact Euclidean norm (overflow of the norm of huge vectors is a float effect and not modelled)"
  },
  {
   "property": "C49",
   "status": "proved",
   "theorems": [
    "BT.C49_rows_routed_back",
    "BT.C49_terminates",
    "BT.C49_closed"
   ],
   "note": ""
  },
  {
   "property": "C50",
   "status": "partial",
   "theorems": [
    "BT.C50_refuted",
    "BT.C50_score_realised_partial",
    "BT.C50_equal_projections",
    "BT.C50_positions",
    "BT.C50_closed",
    "BT.C50_closed_partial",
    "BT.C50_groups_partial",
    "BT.C50_off_plane_partial"
   ],
   "note": "false in general: candidate positions come from unsorted projections; C50_refuted is a kernel-checked counterexample. True if no row of the node lies on the plane, in particular for pairwise different projections. For any data the score is that of two groups, one on or below and one on or above the plane; only rows on the plane can be counted on the wrong side"
  },
  {
   "property": "C51",
   "status": "partial",
   "theorems": [
    "BT.C51_refuted",
    "BT.C51_delta_ignored",
    "BT.C51_child_prior",
    "BT.C51_delta_partial",
    "BT.C51_closed"
   ],
   "note": "false: the code passes delta=0; proved that delta has no effect, and the claim for delta = 0"
  },
  {
   "property": "C52",
   "status": "partial",
   "theorems": [
    "BT.hyperObj_importance",
    "BT.C52_refuted",
    "BT.C52_importance_partial",
    "BT.C52_closed_partial"
   ],
   "note": "false when all accepted splits tie with no split (NaN); proved whenever some gain is positive"
  },
  {
   "property": "C53",
   "status": "partial",
   "theorems": [
    "BT.C53_refuted",
    "BT.C53_hangs",
    "BT.C53_terminates_partial",
    "BT.C53_rejects_partial"
   ],
   "note": "false: integer targets with maximum 0 that are not all 0 make the inner loop run forever, and integer-valued regression targets are not rejected; proved: termination for targets >= 0 and a fair generator, TypeError exactly if some target is not an integer"
  },
  {
   "property": "C54",
   "status": "proved",
   "theorems": [
    "BT.C54_cube",
    "BT.C54_index",
    "BT.C54_terminates",
    "BT.C54_local"
   ],
   "note": ""
  },
  {
   "property": "C55",
   "status": "proved",
   "theorems": [
    "BT.C55_on_sphere",
    "BT.C55_rejects",
    "BT.C55_rows",
    "BT.C55_no_dimension"
   ],
   "note": "real arithmetic; for D = 0 the function raises (C55_no_dimension, numpy AxisError read off the numpy source)"
  },
  {
   "property": "C56",
   "status": "proved",
   "theorems": [
    "BT.C56_unit_cube",
    "BT.C56_shift",
    "BT.C56_phi_converges",
    "BT.C56_exact_loop",
    "BT.C56_loop_result"
   ],
   "note": "real arithmetic; the float loop for phi stops by rounding, which is not modelled: phi is an arbitrary number in C56_unit_cube"
  },
  {
   "property": "C57",
   "status": "partial",
   "theorems": [
    "BT.C57_lines_partial",
    "BT.C57_text",
    "BT.C57_order",
    "BT.C57_unfitted",
    "BT.C57_refuted",
    "BT.C57_perp_conditions",
    "BT.C57_hyper_sides"
   ],
   "note": "The text is exactly one described node per preorder position; one line per node holds iff the formatted pieces contain no line break. Refuted in general: numpy wraps long probability vectors and a feature name may contain a newline."
  },
  {
   "property": "C58",
   "status": "proved",
   "theorems": [
    "BT.C58_bind",
    "BT.C58_get",
    "BT.C58_roundtrip",
    "BT.C58_construct",
    "BT.C58_clone",
    "BT.C58_child"
   ],
   "note": "instance dictionaries, positional and keyword binding, the four constructors with both base constructors; get_params and clone of sklearn"
  },
  {
   "property": "C59",
   "status": "proved",
   "theorems": [
    "BT.C59_only_tested",
    "BT.C59_predict_only_tested",
    "BT.C59_box",
    "BT.C59_boxes_partition",
    "BT.C59_fitted_box_nonempty"
   ],
   "note": ""
  },
  {
   "property": "C60",
   "status": "partial",
   "theorems": [
    "BT.C60_relabel_partial",
    "BT.C60_pruned_partial",
    "BT.C60_refuted"
   ],
   "note": "false for pruned trees in which a node has two equally likely top classes (C60_refuted); proved for unpruned trees and for pruned trees without such ties; with any ties (constant prior, delta = 0) both pruned trees predict a most likely class of the row in the unpruned tree, so the prediction is renamed wherever that class is unique"
  },
  {
   "property": "C61",
   "status": "proved",
   "theorems": [
    "BT.C61_affine"
   ],
   "note": ""
  },
  {
   "property": "C62",
   "status": "proved",
   "theorems": [
    "BT.C62_shift"
   ],
   "note": ""
  },
  {
   "property": "C63",
   "status": "proved",
   "theorems": [
    "BT.C63_exact_scores"
   ],
   "note": ""
  },
  {
   "property": "C64",
   "status": "proved",
   "theorems": [
    "BT.C64_onto",
    "BT.C64_every_plane"
   ],
   "note": "real arithmetic"
  },
  {
   "property": "C65",
   "status": "proved",
   "theorems": [
    "BT.C65_random",
    "BT.C65_quasi",
    "BT.C65_quasi_one",
    "BT.C65_random_new",
    "BT.C65_quasi_new"
   ],
   "note": ""
  },
  {
   "property": "C66",
   "status": "proved",
   "theorems": [
    "BT.C66_cube",
    "BT.C66_index",
    "BT.C66_terminates"
   ],
   "note": "real arithmetic"
  },
  {
   "property": "C67",
   "status": "proved",
   "theorems": [
    "BT.C67_annealing",
    "BT.C67_descent",
    "BT.C67_quasi",
    "BT.C67_random",
    "BT.C67_two_points"
   ],
   "note": ""
  },
  {
   "property": "C68",
   "status": "partial",
   "theorems": [
    "BT.C68_defaults_partial",
    "BT.C68_refuted"
   ],
   "note": "False: HyperplaneClassificationTree() has delta=None."
  },
  {
   "property": "C69",
   "status": "partial",
   "theorems": [
    "BT.C69_regression_ascending_partial",
    "BT.C69_classification",
    "BT.C69_classification_data",
    "BT.C69_regression_two",
    "BT.C69_leaf_partial",
    "BT.C69_refuted",
    "BT.C69_refuted_classification"
   ],
   "note": "False: for classification every fit in which some feature has a candidate split raises KeyError (label -1), for regression e.g. two rows in descending order. Without any candidate split the result is that of the array."
  },
  {
   "property": "C70",
   "status": "partial",
   "theorems": [
    "BT.C70_scores",
    "BT.C70_same_partial",
    "BT.C70_hyper_partial",
    "BT.C70_mean",
    "BT.C70_beta_error",
    "BT.C70_negative",
    "BT.C70_refuted"
   ],
   "note": "False: int8 targets 12, 12 give the posterior beta = -207. The same tree if every square fits the dtype; the posterior mean is always right."
  },
  {
   "property": "C71",
   "status": "proved",
   "theorems": [
    "BT.C71_matvec",
    "BT.C71_rows",
    "BT.C71_row",
    "BT.C71_fit",
    "BT.C71_predict",
    "BT.C71_fit_predict",
    "BT.reads_random",
    "BT.reads_quasi",
    "BT.reads_sa",
    "BT.reads_gd",
    "BT.reads_twoPoint"
   ],
   "note": "CSR and CSC; scipy product, row selection and toarray on stored entries; exact sums of duplicate entries. Third-party optimizers: any that only reads the data."
  },
  {
   "property": "C72",
   "status": "partial",
   "theorems": [
    "BT.C72_classification",
    "BT.C72_classification_fit",
    "BT.C72_regression_iff",
    "BT.C72_regression_fit_partial",
    "BT.C72_refuted"
   ],
   "note": "True for classification. False for regression unless delta is 0 or 1 or the targets have the prior mean: beta is divided by kappa + n instead of kappa + n * delta; mu, kappa and alpha are right."
  },
  {
   "property": "C73",
   "status": "proved",
   "theorems": [
    "BT.C73_bayes",
    "BT.C73_stay",
    "BT.C73_fit",
    "BT.C73_hyperplane"
   ],
   "note": "Integrals with Mathlib's gammaMeasure and gaussianReal; real arithmetic."
  },
  {
   "property": "C74",
   "status": "proved",
   "theorems": [
    "BT.C74_bayes",
    "BT.C74_stay",
    "BT.C74_fit",
    "BT.C74_hyperplane"
   ],
   "note": "Dirichlet integral as iterated interval integral over the simplex; real arithmetic."
  },
  {
   "property": "C75",
   "status": "proved",
   "theorems": [
    "BT.C75_regression",
    "BT.C75_classification",
    "BT.C75_hyperplane_regression",
    "BT.C75_hyperplane_classification"
   ],
   "note": "Unpruned trees; perpendicular trees with delta = 0 (see C10 for delta > 0)."
  },
  {
   "property": "C76",
   "status": "proved",
   "theorems": [
    "BT.C76_perpendicular",
    "BT.C76_hyperplane",
    "BT.C76_regression",
    "BT.C76_regression_hyperplane",
    "BT.C76_predictions"
   ],
   "note": ""
  },
  {
   "property": "C77",
   "status": "proved",
   "theorems": [
    "BT.C77_scale"
   ],
   "note": "Real arithmetic."
  },
  {
   "property": "C78",
   "status": "proved",
   "theorems": [
    "BT.C78_monotone"
   ],
   "note": "Exact arithmetic."
  },
  {
   "property": "C79",
   "status": "partial",
   "theorems": [
    "BT.C79_columns_partial",
    "BT.C79_same_rows_partial",
    "BT.C79_root_partial",
    "BT.C79_refuted"
   ],
   "note": "True if no two features offer equally good cuts at a split; false with ties. For all data, ties included, nodes with the same rows, level and prior (the roots always) are split in both trees with the same two likelihoods or in neither."
  },
  {
   "property": "C80",
   "status": "proved",
   "theorems": [
    "BT.C80_similarity",
    "BT.C80_two_point",
    "BT.blind_random",
    "BT.blind_quasi",
    "BT.blind_annealing",
    "BT.blind_descent"
   ],
   "note": "Real arithmetic; a sort that only compares values. Scipy and optuna optimizers: covered as far as they only see dimension and values."
  },
  {
   "property": "C81",
   "status": "proved",
   "theorems": [
    "BT.C81_affine",
    "BT.shiftBlind_random",
    "BT.shiftBlind_quasi",
    "BT.shiftBlind_annealing",
    "BT.shiftBlind_descent"
   ],
   "note": "Real arithmetic; a sort that only compares values."
  },
  {
   "property": "C82",
   "status": "partial",
   "theorems": [
    "BT.C82_row_order_partial",
    "BT.C82_row_order_refuted"
   ],
   "note": "False in general: candidate positions come from unsorted neighbours, so exchanging two of four rows changes tree and predictions (C82_row_order_refuted). Proved if no two rows are within split_precision of each other along any direction the optimizer may ask for, after any history of returned values."
  },
  {
   "property": "C83",
   "status": "proved",
   "theorems": [
    "BT.C83_relabel",
    "BT.C83_pruned"
   ],
   "note": "Real arithmetic, a sort that only compares values, optimizers that only see dimension and values."
  },
  {
   "property": "C84",
   "status": "partial",
   "theorems": [
    "BT.C84_integers_partial",
    "BT.C84_two_point_refuted",
    "BT.C84_overflow_leaf",
    "BT.C84_overflow_refuted"
   ],
   "note": "False in general: the two-point optimizer raises TypeError on every integer matrix with two classes (C84_two_point_refuted), and sums that overflow move the origin, so the bytes 100 and 200 are never split (C84_overflow_leaf, C84_overflow_refuted). Proved for all optimizers that return the same vectors if no sum of two entries of a column overflows."
  },
  {
   "property": "C85",
   "status": "proved",
   "theorems": [
    "BT.C85_subtree",
    "BT.C85_subtree_hyper",
    "BT.C85_level_zero",
    "BT.C85_level_zero_hyper"
   ],
   "note": "Exact arithmetic (perpendicular: any ordered field; hyperplane: real numbers). Hyperplane trees: every optimizer that only looks at the sub-matrix, targets and parameters it is given; the built-in ones do (reads_random, reads_quasi, reads_sa, reads_gd, reads_twoPoint)."
  },
  {
   "property": "C86",
   "status": "partial",
   "theorems": [
    "BT.C86_agrees_partial",
    "BT.C86_unusable",
    "BT.C86_which",
    "BT.C86_which_hyper",
    "BT.C86_refuted"
   ],
   "note": "False of the code: a child with one row or one common target never gets n_dim_, so its predict raises AttributeError although is_fitted() is True (C86_which, C86_which_hyper, C86_unusable, C86_refuted). Proved for all nodes that have n_dim_, i.e. the root and all nodes with two different targets."
  },
  {
   "property": "C87",
   "status": "partial",
   "theorems": [
    "BT.C87_trained",
    "BT.C87_posterior",
    "BT.C87_terminates",
    "BT.C87_thresholds",
    "BT.C87_missing_partial",
    "BT.C87_infinite_partial",
    "BT.C87_fewer_partial",
    "BT.C87_refuted"
   ],
   "note": "False in general: NaN rows are trained right and predicted nowhere, -inf rows are trained left of the threshold -inf and predicted right, and between -inf and +inf the threshold is NaN (C87_refuted). For arbitrary matrices C87_trained says which rows a node is trained on. Proved as stated for numbers and +inf; with NaN the rows routed are the training rows without NaN in a feature split above."
  },
  {
   "property": "C88",
   "status": "proved",
   "theorems": [
    "BT.C88_larger_prior"
   ],
   "note": "Real numbers with the scores of the code; priors given or default."
  },
  {
   "property": "C89",
   "status": "proved",
   "theorems": [
    "BT.C89_redundant",
    "BT.C89_unused",
    "BT.C89_regression_default"
   ],
   "note": "Real numbers with the scores of the code. For regression also with the default prior; the default prior of classification has one entry per feature (C34)."
  },
  {
   "property": "C90",
   "status": "proved",
   "theorems": [
    "BT.C90_oblivious",
    "BT.C90_adaptive",
    "BT.oblivious_random",
    "BT.oblivious_quasi",
    "BT.oblivious_two_point",
    "BT.steady_annealing",
    "BT.steady_descent"
   ],
   "note": "Real numbers with the scores of the code. The condition for the two adaptive optimizers is Spread (as in C82): without it they may see the score of staying, which moves differently."
  },
  {
   "property": "C91",
   "status": "proved",
   "theorems": [
    "BT.C91_perp",
    "BT.C91_hyper",
    "BT.C91_classification",
    "BT.C91_hyper_classification",
    "BT.C91_regression",
    "BT.C91_hyper_regression",
    "BT.C91_row_major"
   ],
   "note": "C91_perp also describes prediction_paths; hyperplane trees have none. The closed forms assume at least one row and, for perpendicular trees, at least one column and at most 2^64 rows."
  },
  {
   "property": "C92",
   "status": "proved",
   "theorems": [
    "BT.C92_perp",
    "BT.C92_hyper",
    "BT.C92_scores",
    "BT.C92_predictions",
    "BT.C92_finite_posterior",
    "BT.C92_finite_scores",
    "BT.C92_finite_prior"
   ],
   "note": "Targets are numbers with NaN and infinities; no rounding or overflow. The hypothesis on the special functions is log(NaN) = NaN. On finite targets the arithmetic is that of the other theorems (C92_finite_...)."
  },
  {
   "property": "C93",
   "status": "proved",
   "theorems": [
    "BT.C93_rows",
    "BT.C93_origins",
    "BT.C93_lost",
    "BT.C93_far",
    "BT.C93_no_leaf",
    "BT.C93_nan_row",
    "BT.C93_leaf_total",
    "BT.C93_predictions",
    "BT.C93_finite",
    "BT.C93_targets",
    "BT.C93_rows_lost"
   ],
   "note": "Exact arithmetic with NaN and infinities. C93_rows_lost: three training rows, the leaves have two. On finite features the fit is that of the other theorems (C93_finite)."
  },
  {
   "property": "C94",
   "status": "proved",
   "theorems": [
    "BT.C94_maximum",
    "BT.C94_stay",
    "BT.C94_split"
   ],
   "note": "Real numbers, exact gamma function."
  },
  {
   "property": "C95",
   "status": "proved",
   "theorems": [
    "BT.C95_gain",
    "BT.C95_leaf",
    "BT.C95_split"
   ],
   "note": "Real numbers. With delta > 0 the prior is the updated prior of the node, as stored in its prior attribute."
  },
  {
   "property": "C96",
   "status": "proved",
   "theorems": [
    "BT.C96_copies",
    "BT.C96_learns",
    "BT.C96_one_feature",
    "BT.C96_predict"
   ],
   "note": "C96_copies is the explicit bound for every number of copies. All theorems keep the limit of 2^64 training rows of the index array (C33), so for the asymptotic ones the bound of C96_copies decides whether the number of copies is reached; an example shows that ten copies suffice for two rows under the default parameters."
  },
  {
   "property": "C97",
   "status": "proved",
   "theorems": [
    "BT.C97_joint",
    "BT.C97_split",
    "BT.C97_half",
    "BT.C97_uninformative",
    "BT.C97_exact",
    "BT.C97_xor"
   ],
   "note": "Real numbers. The default partition_prior is 0.9, so at the first levels C97_split is the relevant form."
  },
  {
   "property": "C98",
   "status": "proved",
   "theorems": [
    "BT.C98_maximum",
    "BT.C98_stay",
    "BT.C98_split",
    "BT.exp_normalLogLik"
   ],
   "note": "Real numbers, exact gamma function. The lower bounds are for every variance because the targets of one side may be all equal, when the likelihood has no maximum."
  },
  {
   "property": "C99",
   "status": "proved",
   "theorems": [
    "BT.C99_leaf",
    "BT.C99_split",
    "BT.C99_copies",
    "BT.C99_learns",
    "BT.C99_one_feature",
    "BT.C99_predict"
   ],
   "note": "C99_copies is the explicit bound for every number of copies. All theorems keep the limit of 2^64 training rows of the index array (C33); an example shows that twenty copies of two rows are split under the default partition prior. The upper bound of C99_split is for sides whose targets are not all equal."
  },
  {
   "property": "C100",
   "status": "proved",
   "theorems": [
    "BT.C100_joint",
    "BT.C100_split",
    "BT.C100_half",
    "BT.C100_uninformative",
    "BT.C100_exact",
    "BT.C100_xor"
   ],
   "note": "Real numbers. The default partition_prior is 0.9, so at the first levels C100_split is the relevant form."
  },
  {
   "property": "C101",
   "status": "proved",
   "theorems": [
    "BT.C101_terminates",
    "BT.C101_split",
    "BT.C101_leaf",
    "BT.C101_same",
    "BT.C101_predict",
    "BT.perturbed_computed"
   ],
   "note": "Comparisons of feature values and midpoints of thresholds are exact; errors are in the scores. delta = 0, so that computed posteriors do not become priors of children."
  },
  {
   "property": "C102",
   "status": "proved",
   "theorems": [
    "BT.C102_scipy_solve",
    "BT.C102_scipy",
    "BT.C102_optuna_solve",
    "BT.C102_optuna",
    "BT.C102_outside",
    "BT.C102_one_feature",
    "BT.C102_one_feature_fails",
    "BT.C102_scipy_one",
    "BT.C102_optuna_one",
    "BT.C102_annealing_one",
    "BT.C102_descent_one",
    "BT.C67_random",
    "BT.C65_quasi_one"
   ],
   "note": "The third-party search is any program evaluating points within its bounds. That np.linalg.norm with axis=-1 raises AxisError on a 0-dimensional array is an assumption about numpy. Exact real arithmetic. QuasiRandomHyperplaneOptimizer raises ValueError on one feature (C65)."
  },
  {
   "property": "C103",
   "status": "proved",
   "theorems": [
    "BT.C103_uniform",
    "BT.C103_axes",
    "BT.C103_support",
    "BT.C103_separates"
   ],
   "note": "Exact real arithmetic. Probability is Lebesgue measure on the unit cube; a set of directions has the probability given by its share of the volume of the (half) ball."
  },
  {
   "property": "C104",
   "status": "proved",
   "theorems": [
    "BT.C104_cube",
    "BT.C104_directions",
    "BT.C104_dense",
    "BT.C104_period",
    "BT.exists_golden"
   ],
   "note": "Exact real arithmetic; phi is the exact solution of phi^(D+1) = phi + 1, to which the loop of the code converges (C56_phi_converges). C104_period says what changes for a rational phi."
  },
  {
   "property": "C105",
   "status": "proved",
   "theorems": [
    "BT.C105_split",
    "BT.C105_leaf",
    "BT.C105_distinct",
    "BT.C105_settles"
   ],
   "note": "Exact real arithmetic with the exact phi, see C104. Where rows have equal coordinates along a direction, the score is that of one of the orders of these rows. N is not given explicitly."
  },
  {
   "property": "C106",
   "status": "proved",
   "theorems": [
    "BT.C106_uniform",
    "BT.C106_cube",
    "BT.C106_miss",
    "BT.C106_split",
    "BT.C106_leaf",
    "BT.C106_distinct"
   ],
   "note": "Exact real arithmetic; the draws are assumed independent and standard normal, which a seeded generator only imitates. Every solve starts from the same seed, so all nodes see the same draws; the theorem uses one sequence of draws for all nodes. The uniform law is stated for two or more features."
  },
  {
   "property": "C107",
   "status": "proved",
   "theorems": [
    "BT.C107_perpendicular",
    "BT.C107_hyperplane",
    "BT.C107_prior_needed"
   ],
   "note": "Exact arithmetic. C107_prior_needed shows that the condition on the prior weight cannot be dropped."
  },
  {
   "property": "C108",
   "status": "proved",
   "theorems": [
    "BT.C108_perpendicular",
    "BT.C108_prior_mean",
    "BT.C108_hyperplane",
    "BT.C108_mean_not_beaten"
   ],
   "note": "Exact arithmetic."
  },
  {
   "property": "C109",
   "status": "proved",
   "theorems": [
    "BT.C109_regression",
    "BT.C109_classification",
    "BT.C109_leaves"
   ],
   "note": "Exact real arithmetic with the true log-gamma function. The evidence is the integral of the likelihood over the prior (C73, C74)."
  },
  {
   "property": "C110",
   "status": "partial",
   "theorems": [
    "BT.C110_refuted",
    "BT.C110_classification_partial",
    "BT.C110_regression_partial"
   ],
   "note": "False of the code: a node is split if the split is more probable than staying with the children counted as unsplit, but not multiplied by the probability that the children are not split. Two rows of different classes with partition_prior 1/2 are split although the tree has probability 9/128 < 1/12 (C110_refuted). Proved: the probability is at least that of a single leaf times the probability that no other node of the tree is split."
  },
  {
   "property": "C111",
   "status": "proved",
   "theorems": [
    "BT.C111_regression",
    "BT.C111_classification",
    "BT.C111_frequencies",
    "BT.C111_moments",
    "BT.C111_ties_matter"
   ],
   "note": "Exact real arithmetic with the true log-gamma function. C111_ties_matter shows that the condition on the rows cannot be dropped; it is the reason why C50 is partial."
  },
  {
   "property": "C112",
   "status": "proved",
   "theorems": [
    "BT.C112_classification",
    "BT.C112_classification_fails",
    "BT.C112_missing_label",
    "BT.C112_missing_label_fails",
    "BT.C112_first_row",
    "BT.C112_one_child",
    "BT.C112_silent"
   ],
   "note": "Exact arithmetic. Indexing a Series with an integer index is modelled as look-up by label, as in C69. C112_silent gives the data of a fit that differs."
  },
  {
   "property": "C113",
   "status": "proved",
   "theorems": [
    "BT.C113_stay",
    "BT.C113_splits",
    "BT.C113_rows",
    "BT.C113_default",
    "BT.C113_mean",
    "BT.C113_leaf",
    "BT.C113_float64"
   ],
   "note": "Overflow and underflow are not modelled: floats have unbounded exponents. log and gammaln are arbitrary functions except that np.log of a negative number is NaN. C113_float64 uses round-to-nearest-even with 53 binary digits."
  },
  {
   "property": "C114",
   "status": "proved",
   "theorems": [
    "BT.C114_stay",
    "BT.C114_split",
    "BT.C114_arguments",
    "BT.C114_terminates",
    "BT.C114_best",
    "BT.C114_leaf",
    "BT.C114_same",
    "BT.C114_predict",
    "BT.C114_proba",
    "BT.C114_million",
    "BT.C114_float64"
   ],
   "note": "Features and their comparisons are exact: only the computations on targets are rounded. Overflow and underflow are not modelled: floats have unbounded exponents. The accuracy of scipy is an assumption (AccurateLib); clsLib64, float64 with correctly rounded functions, satisfies it."
  },
  {
   "property": "C115",
   "status": "proved",
   "theorems": [
    "BT.C115_stay",
    "BT.C115_split",
    "BT.C115_mean",
    "BT.C115_terminates",
    "BT.C115_best",
    "BT.C115_leaf",
    "BT.C115_same",
    "BT.C115_predict",
    "BT.C115_default",
    "BT.C115_thousand",
    "BT.C115_float64"
   ],
   "note": "Features and their comparisons are exact: only the computations on targets are rounded. Overflow and underflow are not modelled: floats have unbounded exponents. The accuracy of scipy is an assumption (AccurateReg); lib64, float64 with correctly rounded functions, satisfies it."
  },
  {
   "property": "C116",
   "status": "proved",
   "theorems": [
    "BT.C116_regex",
    "BT.C116_command",
    "BT.C116_tagged",
    "BT.C116_untagged",
    "BT.C116_unreadable"
   ],
   "note": "Text is ASCII as far as white space and digits are concerned. What git prints is a hypothesis (Checkout)."
  },
  {
   "property": "C117",
   "status": "proved",
   "theorems": [
    "BT.C117_pep440",
    "BT.C117_release",
    "BT.C117_untagged",
    "BT.C117_injective",
    "BT.C117_describe"
   ],
   "note": "PEP 440 is specified by its normal form, with leading zeros and a missing number after .post allowed, as pip accepts them."
  },
  {
   "property": "C118",
   "status": "partial",
   "theorems": [
    "BT.C118_refuted",
    "BT.C118_never",
    "BT.C118_package",
    "BT.C118_archive",
    "BT.C118_outside_partial"
   ],
   "note": "False of the code: get_config in _version.py is that of another project (no tag prefix, hadoop-utils-), setup.cfg has the prefix ver- and the style pep440-pre. In a checkout with the tag ver-V the two never agree and __version__ is not a version (C118_never). An installed package reports the tag of whatever repository its directory lies in (C118_package). Outside of repositories __version__ is 0+unknown (C118_outside_partial) and a distribution built in bayesian_decision_tree-V gets the version -V (C118_archive)."
  },
  {
   "property": "C119",
   "status": "partial",
   "theorems": [
    "BT.C119_refuted",
    "BT.C119_import_partial",
    "BT.C119_no_commit_partial",
    "BT.C119_tagged",
    "BT.C119_untagged"
   ],
   "note": "False of the code: if git show or git rev-list fails after git describe succeeded, None.strip() raises AttributeError and int(None) raises TypeError. Proved for environments in which these two commands succeed. C119_no_commit_partial, C119_tagged and C119_untagged say exactly when the import succeeds, depending on which git commands do"
  },
  {
   "property": "C120",
   "status": "proved",
   "theorems": [
    "BT.C120_archive"
   ],
   "note": "References without commas and parentheses in their names, at least one of them a tag."
  },
  {
   "property": "C121",
   "status": "proved",
   "theorems": [
    "BT.C121_errors",
    "BT.C121_node",
    "BT.C121_split",
    "BT.C121_leaf",
    "BT.C121_classification_errors",
    "BT.C121_classification_split",
    "BT.C121_classification_leaf",
    "BT.C121_regression_finite",
    "BT.C121_regression_errors",
    "BT.C121_regression_split",
    "BT.C121_regression_leaf"
   ],
   "note": "Features, projections and normals are exact: only the computations on targets are rounded. The prior is given. The accuracy of scipy is an assumption, as in C114 and C115."
  },
  {
   "property": "C122",
   "status": "proved",
   "theorems": [
    "BT.C122_same",
    "BT.C122_perpendicular",
    "BT.C122_count",
    "BT.C122_hyper_same",
    "BT.C122_hyperplane",
    "BT.C122_readable",
    "BT.C122_text"
   ],
   "note": "Dense features in exact arithmetic for the contents of the lines; the claim that printing changes nothing is for arbitrary arithmetic. Lines printed before an exception are in the model, their contents are only characterised for fits that succeed."
  },
  {
   "property": "C123",
   "status": "partial",
   "theorems": [
    "BT.C123_route",
    "BT.C123_structure",
    "BT.C123_fit_partial",
    "BT.C123_refuted"
   ],
   "note": "False if the sum of two neighbouring values overflows (2^1023 and 3*2^1022: the threshold is inf), and for neighbouring floats as in C43. C123_route says for each split exactly which training rows are routed to the wrong side, C123_structure that nothing else in the tree changes. Holds for values up to half the largest float without neighbouring floats (C123_fit_partial). Scores are exact here (C114 and C115 are about their rounding)."
  },
  {
   "property": "C124",
   "status": "proved",
   "theorems": [
    "BT.C124_regression",
    "BT.C124_classification",
    "BT.C124_regression_node",
    "BT.C124_classification_node"
   ],
   "note": "Exact arithmetic. The nodes versions give the posterior of every node."
  },
  {
   "property": "C125",
   "status": "partial",
   "theorems": [
    "BT.C125_leaf_partial",
    "BT.C125_apart_partial",
    "BT.C125_random",
    "BT.C125_refuted"
   ],
   "note": "False of the code: the best position can lie between rows with equal coordinates; the plane then has all rows on one side, _fit drops it, and other directions that separate the rows are not used. C125_leaf_partial says that this is the only exception (two rows on the plane, none below it), C125_apart_partial that it does not occur if no two rows coincide along an evaluated direction, C125_random that random search almost surely avoids it if no two rows are equal."
  }
 ]
}