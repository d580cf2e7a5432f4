{"id": "C01", "title": "predict is the per-row decision walk", "statement": "On a fitted tree, predict(X)[i] is the prediction of the leaf reached by walking from the root with row i alone (a perpendicular split sends x[dim] < value left and x[dim] >= value right), for every batch X; in particular it does not depend on the other rows of the batch or on their order.", "quantifier": "all fitted trees of any shape, all batches X, all rows i", "why_tests_cant": "the index bookkeeping (relative indices re-based at each level) depends on tree shape and on how the whole batch splits; tests use trees of depth <= 2", "anchors": ["bayesian_decision_tree/base.py: BaseTree.predict, BaseTree._predict", "bayesian_decision_tree/base_perpendicular.py: _compute_child1_and_child2_indices"]}
{"id": "C02", "title": "predict_proba and raw leaf data use the same leaf as predict", "statement": "predict_proba(X)[i] and _get_raw_leaf_data(X)[i] are the posterior mean / the (prior, posterior) pair of exactly the leaf whose class or value predict(X)[i] reports.", "quantifier": "all fitted trees, all batches, all rows", "why_tests_cant": "must hold for every tree shape and batch; the three calls traverse the tree separately", "anchors": ["bayesian_decision_tree/base.py: _predict, _get_raw_leaf_data", "bayesian_decision_tree/classification.py: predict_proba"]}
{"id": "C03", "title": "rows with NaN features get the initial value instead of a prediction", "statement": "Every row gets the prediction of some leaf, except rows whose decision walk meets a split feature that is NaN: for those predict returns 0.0 and predict_proba leaves the row unset, whatever the tree.", "quantifier": "all fitted trees, all rows including NaN, +inf and -inf", "why_tests_cant": "depends on which features the walk inspects; needs all trees and all NaN patterns", "anchors": ["bayesian_decision_tree/base.py: _predict", "bayesian_decision_tree/base_perpendicular.py: _compute_child1_and_child2_indices"]}
{"id": "C04", "title": "prediction_paths lists the decisions of each row", "statement": "prediction_paths(X)[i] is the list of (dimension, feature name, split value, went right) steps on row i's walk from the root to its leaf, for every tree and batch.", "quantifier": "all fitted perpendicular trees of any depth, all batches, all rows", "why_tests_cant": "the existing tests only use trees with two levels of splits, where relative and absolute row indices coincide", "anchors": ["bayesian_decision_tree/base_perpendicular.py: prediction_paths, _update_prediction_paths"]}
{"id": "C05", "title": "predict_proba rows are probability vectors", "statement": "Every row of predict_proba(X) has one entry per class, all entries strictly positive and at most 1, summing to exactly 1 (exact arithmetic), for every training set, positive prior, delta >= 0, pruned or not.", "quantifier": "all training sets, positive priors, delta >= 0, prune on/off, all query rows", "why_tests_cant": "normalisation must hold for every reachable leaf posterior", "anchors": ["bayesian_decision_tree/classification.py: _compute_posterior_mean, predict_proba"]}
{"id": "C06", "title": "predict is the first argmax of predict_proba", "statement": "The class predict(X)[i] is an integer in 0..n_classes-1 and is the smallest class with maximal probability in predict_proba(X)[i].", "quantifier": "all training sets and fitted classification trees, all query rows", "why_tests_cant": "ties and every posterior have to be covered", "anchors": ["bayesian_decision_tree/classification.py: _predict_leaf, _compute_posterior_mean"]}
{"id": "C07", "title": "regression predictions stay within the convex hull of prior mean and targets", "statement": "Every value returned by predict of a regression tree lies between the minimum and the maximum of the prior mean and the training targets.", "quantifier": "all training sets, priors with kappa > 0, delta in [0,1], all query rows", "why_tests_cant": "an all-inputs bound; tests only look at mean squared error on one data set", "anchors": ["bayesian_decision_tree/regression.py: _compute_posterior_internal, _compute_posterior_mean"]}
{"id": "C08", "title": "training rows are routed back to the node that counted them (perpendicular)", "statement": "After fit on finite data with split_precision >= 0 and exact arithmetic, the n_data_ of every node of the tree equals the number of training rows that predict routes through that node.", "quantifier": "all training sets, all sort orders numpy may return for ties, all nodes", "why_tests_cant": "fit partitions by sort position, predict by comparing with the midpoint; agreement needs all data sets including ties", "anchors": ["bayesian_decision_tree/base_perpendicular.py: _fit, _compute_child1_and_child2_indices"]}
{"id": "C09", "title": "leaf posteriors are the conjugate update of the training rows in the leaf", "statement": "With delta = 0 every node's posterior_ is the conjugate posterior (Dirichlet counts, or Normal-gamma) of the root prior given exactly the targets of the training rows that predict routes to that node, so for classification posterior_ - prior are the class counts.", "quantifier": "all training sets, priors, all nodes, classification and regression", "why_tests_cant": "needs every node of every tree", "anchors": ["bayesian_decision_tree/base_perpendicular.py: _fit", "bayesian_decision_tree/classification.py: _compute_posterior", "bayesian_decision_tree/regression.py: _compute_posterior_internal"]}
{"id": "C10", "title": "with delta > 0 all leaves are updated from their own prior", "statement": "With delta != 0 every leaf's posterior_ is the conjugate update of that leaf's own prior attribute with its training targets, whether or not the leaf was fitted recursively.", "quantifier": "all training sets, delta in (0,1], all leaves", "why_tests_cant": "leaves reached through the two code branches (recursive fit vs. direct posterior) have to agree for every tree", "anchors": ["bayesian_decision_tree/base_perpendicular.py: _fit"]}
{"id": "C11", "title": "leaf sizes add up and bound the tree", "statement": "The n_data_ of the leaves sum to the number of training rows, no leaf is empty, get_n_leaves() <= n and get_depth() <= n-1.", "quantifier": "all training sets and trees", "why_tests_cant": "structural invariant over every recursion", "anchors": ["bayesian_decision_tree/base_perpendicular.py: _fit", "bayesian_decision_tree/base.py: get_n_leaves, get_depth"]}
{"id": "C12", "title": "fit of a perpendicular tree terminates", "statement": "fit returns on every valid input: each recursive fit works on strictly fewer rows.", "quantifier": "all training sets, priors, partition priors, split precisions", "why_tests_cant": "non-termination cannot be observed by a finite test", "anchors": ["bayesian_decision_tree/base_perpendicular.py: _fit"]}
{"id": "C13", "title": "greedy split is optimal", "statement": "At each split node the chosen (dimension, threshold) has the highest log marginal likelihood among all axis-parallel thresholds in all dimensions that separate the node's rows by more than split_precision, it strictly beats not splitting, and ties are resolved to the lowest dimension and then the lowest threshold.", "quantifier": "all training sets, all nodes, all alternative dimensions and thresholds", "why_tests_cant": "quantifies over all alternative thresholds of all data sets", "anchors": ["bayesian_decision_tree/base_perpendicular.py: _fit", "bayesian_decision_tree/classification.py: _compute_log_p_data_split", "bayesian_decision_tree/regression.py: _compute_log_p_data_split"]}
{"id": "C14", "title": "unsplit nodes are justified", "statement": "A leaf of an unpruned tree either holds a single row, or rows with one common target, or no admissible split beats its no-split likelihood.", "quantifier": "all training sets, all leaves, all alternative splits", "why_tests_cant": "absence of a better split is a universal claim", "anchors": ["bayesian_decision_tree/base_perpendicular.py: _fit"]}
{"id": "C15", "title": "fit does not depend on how ties are sorted", "statement": "The fitted tree is the same for every behaviour of np.argsort on equal values (quicksort is not stable).", "quantifier": "all training sets, all tie-breaking behaviours", "why_tests_cant": "tests run one numpy implementation only", "anchors": ["bayesian_decision_tree/base_perpendicular.py: _fit"]}
{"id": "C16", "title": "fit does not depend on the order of the training rows", "statement": "Permuting the rows of (X, y) jointly yields the same fitted tree (exact arithmetic).", "quantifier": "all training sets, all permutations", "why_tests_cant": "factorially many permutations per data set", "anchors": ["bayesian_decision_tree/base_perpendicular.py: _fit"]}
{"id": "C17", "title": "splits lie strictly between separated data values", "statement": "Every split_value_ lies strictly between two consecutive observed values a < b of the node's rows with b - a > split_precision, so both children are non-empty and no split separates points closer than split_precision.", "quantifier": "all training sets, all split nodes, split_precision >= 0", "why_tests_cant": "universal over data and nodes", "anchors": ["bayesian_decision_tree/base_perpendicular.py: _fit"]}
{"id": "C18", "title": "constant features are never used", "statement": "A feature that is constant over the training rows never appears as split_dimension_ and has feature_importance 0.", "quantifier": "all training sets with a constant column", "why_tests_cant": "universal over data sets", "anchors": ["bayesian_decision_tree/base_perpendicular.py: _fit, _update_feature_importance"]}
{"id": "C19", "title": "children inherit the hyper-parameters with level + 1", "statement": "Every node at depth k of a fitted tree has level = k and the same partition_prior, delta, prune and split_precision as the root; its prior is the parent's prior updated with delta times the child's data.", "quantifier": "all training sets, all nodes", "why_tests_cant": "positional constructor calls in recursion; must hold for all nodes", "anchors": ["bayesian_decision_tree/base_perpendicular.py: _fit", "bayesian_decision_tree/base_hyperplane.py: _fit", "bayesian_decision_tree/base.py: BaseTree.__init__"]}
{"id": "C20", "title": "regression hyper-parameters stay valid", "statement": "Starting from kappa, alpha, beta > 0 and delta in [0,1], every prior and posterior in the tree has kappa, alpha, beta > 0, so every logarithm and log-gamma is evaluated inside its domain.", "quantifier": "all targets, priors, delta, all nodes and all candidate splits", "why_tests_cant": "needs Cauchy-Schwarz for all target vectors", "anchors": ["bayesian_decision_tree/regression.py: _compute_posterior_internal, _compute_log_p_data"]}
{"id": "C21", "title": "pruning terminates in a fully pruned tree", "statement": "fit with prune=True returns; no remaining split has two leaf children with equal predictions; pruning again changes nothing; the result is that of a single bottom-up merge.", "quantifier": "all trees", "why_tests_cant": "the repeat-until-unchanged recursion must be analysed for all tree shapes", "anchors": ["bayesian_decision_tree/base.py: _prune"]}
{"id": "C22", "title": "pruning does not change class predictions", "statement": "For classification, fit with prune=True and with prune=False predict the same classes for every input.", "quantifier": "all training sets, priors, all query rows", "why_tests_cant": "requires all trees and priors; existing test compares one symmetric prior", "anchors": ["bayesian_decision_tree/base.py: _prune", "bayesian_decision_tree/classification.py: PerpendicularClassificationTree docstring"]}
{"id": "C23", "title": "pruning does not change regression predictions", "statement": "For regression, prune=True 'can safely be set' as documented: predictions are the same as with prune=False for every input.", "quantifier": "all trees, priors, query rows", "why_tests_cant": "requires all trees; merged node re-weights the prior", "anchors": ["bayesian_decision_tree/base.py: _prune", "bayesian_decision_tree/regression.py: _compute_posterior_internal"]}
{"id": "C24", "title": "pruned nodes keep the statistics of their training rows", "statement": "After pruning, every node still has n_data_ and posterior_ computed from exactly the training rows routed to it, and erased split information.", "quantifier": "all training sets, all trees", "why_tests_cant": "universal over prune sequences", "anchors": ["bayesian_decision_tree/base.py: _prune, _erase_split_info_base"]}
{"id": "C25", "title": "get_depth and get_n_leaves measure the tree", "statement": "On the root, get_n_leaves() is the number of leaves and get_depth() the height; hence get_n_leaves() <= 2**get_depth() and the number of splits is get_n_leaves()-1.", "quantifier": "all trees", "why_tests_cant": "universal over trees; accumulator-style recursion", "anchors": ["bayesian_decision_tree/base.py: _update_depth, _update_n_leaves"]}
{"id": "C26", "title": "feature_importance is a normalised non-negative vector", "statement": "On a perpendicular tree with at least one split feature_importance() has n_features entries, all >= 0, summing to 1, entry d being the share of log-likelihood gains of splits on d; on a tree without splits it is all NaN.", "quantifier": "all fitted trees", "why_tests_cant": "needs the gain of every split of every tree to be positive", "anchors": ["bayesian_decision_tree/base.py: feature_importance", "bayesian_decision_tree/base_perpendicular.py: _update_feature_importance"]}
{"id": "C27", "title": "the classification likelihood is a probability distribution", "statement": "For each node the data likelihood used for (not) splitting is the Dirichlet-multinomial probability: over all label sequences of a given length the likelihoods sum to 1, and it satisfies the chain rule p(A,B) = p(A) p(B | posterior of A).", "quantifier": "all lengths, numbers of classes, positive priors", "why_tests_cant": "sum over exponentially many sequences for all n", "anchors": ["bayesian_decision_tree/classification.py: _compute_log_p_data, _compute_log_p_data_no_split", "bayesian_decision_tree/utils.py: multivariate_betaln"]}
{"id": "C28", "title": "likelihoods and posteriors do not depend on the order of targets", "statement": "Permuting the targets inside a node (or inside each side of a split) changes neither posterior nor likelihood.", "quantifier": "all target lists and permutations", "why_tests_cant": "factorially many permutations", "anchors": ["bayesian_decision_tree/classification.py: _compute_posterior", "bayesian_decision_tree/regression.py: _compute_posterior, _compute_log_p_data_split"]}
{"id": "C29", "title": "Normal-gamma updating is coherent", "statement": "Updating with batch A and then with batch B gives the same (mu, kappa, alpha, beta) as updating with A and B together (delta = 1), and the log marginal likelihood adds up accordingly.", "quantifier": "all priors with kappa > 0, all non-empty batches", "why_tests_cant": "algebraic identity over all reals", "anchors": ["bayesian_decision_tree/regression.py: _compute_posterior_internal, _compute_log_p_data"]}
{"id": "C30", "title": "structure prior is a sub-probability", "statement": "The exponentiated prior terms of not splitting and of all candidate splits over all dimensions of a node are positive and sum to at most 1, with equality iff every dimension admits a split; deeper nodes have a strictly smaller prior probability of splitting.", "quantifier": "all data sets, levels and partition priors in (0,1)", "why_tests_cant": "universal over data sets and levels", "anchors": ["bayesian_decision_tree/classification.py: _compute_log_p_data_no_split, _compute_log_p_data_split", "bayesian_decision_tree/regression.py: same methods"]}
{"id": "C31", "title": "the split score is the likelihood of the two sides", "statement": "The score vector computed from cumulative sums equals, at each candidate split position k, log prior + log-likelihood of the first k targets + log-likelihood of the rest, for any subset of positions (including the special case that every position is a candidate).", "quantifier": "all target lists, all candidate position lists", "why_tests_cant": "vectorised cumulative sums with two code paths; all lengths", "anchors": ["bayesian_decision_tree/regression.py: _compute_log_p_data_split", "bayesian_decision_tree/classification.py: _compute_log_p_data_split"]}
{"id": "C32", "title": "invalid shapes are rejected", "statement": "fit raises ValueError whenever the squeezed y is not one-dimensional, X is not two-dimensional after normalisation, or the numbers of rows differ, and in that case an already fitted model is unchanged.", "quantifier": "all shapes of X and y", "why_tests_cant": "all shapes and model histories", "anchors": ["bayesian_decision_tree/base.py: fit, _normalize_data_and_feature_names"]}
{"id": "C33", "title": "classification targets are validated", "statement": "For a prior with K >= 2 classes fit accepts y iff the set of values of y is exactly {0,...,K-1}.", "quantifier": "all target vectors, all K >= 2", "why_tests_cant": "comparison uses numpy broadcasting, whose corner cases need all lengths", "anchors": ["bayesian_decision_tree/classification.py: _check_target"]}
{"id": "C34", "title": "classification works with the default prior", "statement": "A classification tree constructed with its default arguments (prior=None) can be fitted to valid data.", "quantifier": "all data sets", "why_tests_cant": "claims about every data set", "anchors": ["bayesian_decision_tree/classification.py: _check_target, _get_prior, PerpendicularClassificationTree.__init__"]}
{"id": "C35", "title": "a single training sample can be fitted", "statement": "fit accepts a training set with one row.", "quantifier": "all one-row data sets, models", "why_tests_cant": "the squeeze of y removes its only axis for every such input", "anchors": ["bayesian_decision_tree/base.py: fit"]}
{"id": "C36", "title": "prediction input is validated", "statement": "predict / predict_proba raise ValueError on an unfitted model and on any X whose number of columns differs from the training data; a 1-D X of the right length is treated as one sample.", "quantifier": "all histories, all shapes", "why_tests_cant": "all histories and shapes", "anchors": ["bayesian_decision_tree/base.py: predict, _ensure_is_fitted, _normalize_data_and_feature_names"]}
{"id": "C37", "title": "dtype conversion is lossless", "statement": "_normalize keeps numeric data as it is and converts other dtypes to float64 only if every value is preserved; otherwise (including NaN in object arrays) it raises ValueError.", "quantifier": "all arrays and dtypes", "why_tests_cant": "all arrays", "anchors": ["bayesian_decision_tree/base.py: _ensure_float64"]}
{"id": "C38", "title": "refitting forgets the past", "statement": "After a successful fit the model's observable state is the same as that of a fresh model with the same parameters fitted on the same data, whatever was fitted or predicted before.", "quantifier": "all histories of fit/predict calls", "why_tests_cant": "all histories", "anchors": ["bayesian_decision_tree/base.py: fit", "bayesian_decision_tree/base_perpendicular.py: _fit", "bayesian_decision_tree/base_hyperplane.py: _fit"]}
{"id": "C39", "title": "a failed fit leaves the model usable as before", "statement": "If fit raises, predictions of a previously fitted model are unchanged.", "quantifier": "all histories, all inputs on which fit raises", "why_tests_cant": "all failure points inside the recursion", "anchors": ["bayesian_decision_tree/base.py: fit", "bayesian_decision_tree/base_perpendicular.py: _fit"]}
{"id": "C40", "title": "queries do not modify the model", "statement": "predict, predict_proba, prediction_paths, feature_importance, get_depth, get_n_leaves and str leave the model unchanged, so any interleaving of them returns the same answers.", "quantifier": "all histories of queries", "why_tests_cant": "all histories", "anchors": ["bayesian_decision_tree/base.py", "bayesian_decision_tree/base_perpendicular.py"]}
{"id": "C41", "title": "compact sort-index dtype never truncates", "statement": "The unsigned integer type chosen for sort indices can represent every row number, so sort positions survive the cast.", "quantifier": "all numbers of rows below 2**64", "why_tests_cant": "boundary values at 2**16 and 2**32 rows are never tested", "anchors": ["bayesian_decision_tree/base_perpendicular.py: _fit"]}
{"id": "C42", "title": "small integer dtypes behave like their real values", "statement": "Fitting on int8/uint8 data (accepted without conversion) finds the same candidate splits and midpoints as on the same data in float64.", "quantifier": "all int8/uint8 columns", "why_tests_cant": "wrap-around only shows for particular value pairs", "anchors": ["bayesian_decision_tree/base.py: _ensure_float64", "bayesian_decision_tree/base_perpendicular.py: _fit"]}
{"id": "C43", "title": "float rounding of midpoints keeps the routing", "statement": "With midpoints rounded by a monotone rounding function, predict routes every training row to the side on which fit put it.", "quantifier": "all float pairs", "why_tests_cant": "fails only for adjacent floats", "anchors": ["bayesian_decision_tree/base_perpendicular.py: _fit"]}
{"id": "C44", "title": "sparse and dense inputs are equivalent", "statement": "Fitting and predicting with a sparse matrix gives the same result as with the dense matrix of the same entries; column extraction yields a vector of length n also for n = 1.", "quantifier": "all matrices", "why_tests_cant": "all shapes, including 1x1 slices", "anchors": ["bayesian_decision_tree/base_perpendicular.py: _to_array, _fit"]}
{"id": "C45", "title": "split feature names match the split dimension", "statement": "split_feature_name_ of each split node is the column name (DataFrame), the user-supplied name or 'x<dim>' of its split_dimension_.", "quantifier": "all data sets and name lists, all nodes", "why_tests_cant": "all nodes", "anchors": ["bayesian_decision_tree/base.py: _normalize_data_and_feature_names", "bayesian_decision_tree/base_perpendicular.py: _fit"]}
{"id": "C46", "title": "hyperplane search remembers the best evaluation", "statement": "After any sequence of evaluations by any optimizer, the stored best log-likelihood is the maximum of the no-split likelihood and all evaluated likelihoods, it never decreases, and function_evaluations counts the calls.", "quantifier": "all optimizers, all evaluation sequences, all data", "why_tests_cant": "all histories of an adaptive optimizer", "anchors": ["bayesian_decision_tree/hyperplane_optimization.py: HyperplaneOptimizationFunction.compute"]}
{"id": "C47", "title": "hyperplane ties are broken by distance", "statement": "Among evaluated hyperplanes with the best likelihood the stored one has the largest cumulative distance of the points to the plane (the first such).", "quantifier": "all evaluation sequences", "why_tests_cant": "all histories", "anchors": ["bayesian_decision_tree/hyperplane_optimization.py: HyperplaneOptimizationFunction.compute"]}
{"id": "C48", "title": "stored hyperplane normals are unit vectors", "statement": "Whatever vector the optimizer passes (zero, NaN, infinite), the stored normal has Euclidean length 1 and the right dimension.", "quantifier": "all input vectors", "why_tests_cant": "all vectors", "anchors": ["bayesian_decision_tree/hyperplane_optimization.py: HyperplaneOptimizationFunction.compute"]}
{"id": "C49", "title": "training rows are routed back to the node that counted them (hyperplane)", "statement": "For hyperplane trees and any optimizer, n_data_ and posterior_ of each node are those of the training rows predict routes through it, both children of a split are non-empty, and fit terminates.", "quantifier": "all optimizers, data sets, nodes", "why_tests_cant": "all optimizers and data sets", "anchors": ["bayesian_decision_tree/base_hyperplane.py: _fit, _compute_child1_and_child2_indices"]}
{"id": "C50", "title": "hyperplane split score belongs to the realised partition", "statement": "The stored best_log_p_data_split_ of a hyperplane node is the likelihood of the partition that its hyperplane induces on the node's data, and only points with different projections are separated.", "quantifier": "all data sets, all optimizers", "why_tests_cant": "candidate positions are computed on unsorted projections; only data with repeated projections show the difference", "anchors": ["bayesian_decision_tree/hyperplane_optimization.py: HyperplaneOptimizationFunction.compute"]}
{"id": "C51", "title": "hyperplane trees honour delta", "statement": "The delta parameter strengthens the prior of child nodes in hyperplane trees as documented.", "quantifier": "all data sets and delta", "why_tests_cant": "all data sets", "anchors": ["bayesian_decision_tree/base_hyperplane.py: _fit"]}
{"id": "C52", "title": "hyperplane feature_importance is normalised", "statement": "feature_importance() of a hyperplane tree with a split is non-negative and sums to 1.", "quantifier": "all trees", "why_tests_cant": "zero-gain ties are accepted; all trees", "anchors": ["bayesian_decision_tree/base_hyperplane.py: feature_importance, _update_feature_importance"]}
{"id": "C53", "title": "two-point optimizer terminates and rejects regression", "statement": "RandomTwoPointOptimizer.solve returns for every target vector and raises TypeError on regression problems.", "quantifier": "all targets, all random streams", "why_tests_cant": "non-termination cannot be observed; all random streams", "anchors": ["bayesian_decision_tree/hyperplane_optimization.py: RandomTwoPointOptimizer.solve"]}
{"id": "C54", "title": "simulated annealing terminates inside the cube", "statement": "SimulatedAnnealingOptimizer.solve terminates for every data set (the objective takes finitely many values), evaluates only points of the unit cube, and never indexes out of range when n_scan, n_keep >= 1; in round k after the scan every point differs by at most |spread_factor|^k in each coordinate from an earlier one.", "quantifier": "all random streams, all objectives with finitely many values", "why_tests_cant": "all random streams", "anchors": ["bayesian_decision_tree/hyperplane_optimization.py: SimulatedAnnealingOptimizer.solve"]}
{"id": "C55", "title": "hypercube points map to unit vectors on the (half) sphere", "statement": "hypercube_to_hypersphere_surface maps every point of [0,1]^D to a vector of D+1 coordinates and Euclidean norm 1, with non-negative first coordinate for the half sphere; points outside the cube are rejected.", "quantifier": "all D, all points, half and full", "why_tests_cant": "all dimensions and points", "anchors": ["bayesian_decision_tree/utils.py: hypercube_to_hypersphere_surface"]}
{"id": "C56", "title": "quasi-random sequence stays in the unit cube", "statement": "Every element of the R2 sequence has n_dim coordinates in [0,1); n_dim = 0 raises ValueError at the first element; in exact arithmetic the phi iteration decreases towards the root of x^(n_dim+1) = x + 1, and whenever the iteration stops it has reached that root.", "quantifier": "all n_dim, all positions", "why_tests_cant": "infinite sequence", "anchors": ["bayesian_decision_tree/utils.py: r2_series_generator"]}
{"id": "C57", "title": "printed tree lists every node once", "statement": "str(model) has exactly one line per node of the tree (2*leaves-1 lines), children after their parent, left before right; an unfitted model prints 'Unfitted model'.", "quantifier": "all trees", "why_tests_cant": "all trees", "anchors": ["bayesian_decision_tree/base_perpendicular.py: __str__, _str", "bayesian_decision_tree/base_hyperplane.py: __str__, _str"]}
{"id": "C58", "title": "parameters survive get_params / clone", "statement": "Constructing a model from the values of its constructor attributes reproduces the same parameters, for each of the four classes.", "quantifier": "all parameter values", "why_tests_cant": "multiple-inheritance positional init; all values", "anchors": ["bayesian_decision_tree/base.py: __init__", "bayesian_decision_tree/classification.py: __init__", "bayesian_decision_tree/regression.py: __init__"]}
{"id": "C59", "title": "predictions only depend on features used on the path", "statement": "Changing features of a query row that are not tested on its path does not change the prediction, and each leaf's region is an axis-parallel box; the boxes of distinct leaves are disjoint and cover the space.", "quantifier": "all trees, all rows", "why_tests_cant": "all rows", "anchors": ["bayesian_decision_tree/base_perpendicular.py: _compute_child1_and_child2_indices"]}
{"id": "C60", "title": "class relabelling is equivariant", "statement": "Permuting class labels together with the prior yields the same splits and permuted probabilities.", "quantifier": "all data sets, all label permutations", "why_tests_cant": "all data sets", "anchors": ["bayesian_decision_tree/classification.py"]}
{"id": "C61", "title": "increasing affine rescaling of a feature does not change predictions", "statement": "With split_precision = 0, rescaling features by x -> a*x+b with a > 0 in training and query data leaves predictions unchanged and transforms thresholds accordingly.", "quantifier": "all data sets and affine maps", "why_tests_cant": "all data sets", "anchors": ["bayesian_decision_tree/base_perpendicular.py: _fit"]}
{"id": "C62", "title": "shifting regression targets shifts predictions", "statement": "Adding c to all targets and to the prior mean leaves the splits unchanged and adds c to every prediction.", "quantifier": "all data sets, priors, c", "why_tests_cant": "all data sets", "anchors": ["bayesian_decision_tree/regression.py"]}
{"id": "C63", "title": "log-gamma scores order splits like exact Dirichlet-multinomial probabilities", "statement": "The tree chosen with log-beta scores equals the tree chosen by comparing the exact (rational for rational parameters) Dirichlet-multinomial probabilities.", "quantifier": "all data sets, positive priors", "why_tests_cant": "all data sets", "anchors": ["bayesian_decision_tree/classification.py: _compute_log_p_data_split", "bayesian_decision_tree/utils.py: multivariate_betaln"]}
{"id": "C64", "title": "every direction can be reached from the cube", "statement": "hypercube_to_hypersphere_surface is onto: every unit vector in D+1 >= 2 dimensions (for the half sphere: with non-negative first coordinate) is the image of a point of [0,1]^D, so every hyperplane orientation can be proposed by the optimizers searching the cube.", "quantifier": "all dimensions, all unit vectors", "why_tests_cant": "existence for a continuum of directions", "anchors": ["bayesian_decision_tree/utils.py: hypercube_to_hypersphere_surface"]}
{"id": "C65", "title": "random and quasi-random optimizers evaluate exactly n normals", "statement": "RandomHyperplaneOptimizer and (with two or more features) QuasiRandomHyperplaneOptimizer never fail and evaluate exactly the requested number of hyperplanes; with a single feature the quasi-random optimizer raises ValueError.", "quantifier": "all data sets, all random streams, all n", "why_tests_cant": "all random streams", "anchors": ["bayesian_decision_tree/hyperplane_optimization.py: RandomHyperplaneOptimizer.solve", "bayesian_decision_tree/hyperplane_optimization.py: QuasiRandomHyperplaneOptimizer.solve"]}
{"id": "C66", "title": "gradient descent terminates inside the cube", "statement": "GradientDescentOptimizer.solve with n_init, n_keep >= 1 evaluates only points of the unit cube (also for its difference quotients), never indexes out of range and terminates on every data set with two or more features; with n_init = 0 or n_keep = 0 it raises IndexError.", "quantifier": "all data sets, all random streams", "why_tests_cant": "three nested loops without a bound; all random streams", "anchors": ["bayesian_decision_tree/hyperplane_optimization.py: GradientDescentOptimizer.solve"]}
{"id": "C67", "title": "hyperplane fits terminate with a tree", "statement": "fit of a hyperplane tree with each of the built-in optimizers (annealing, gradient descent, quasi-random: two or more features; random: one or more; two-point: non-negative integer targets and a fair generator) terminates and yields a tree.", "quantifier": "all data sets, all random streams", "why_tests_cant": "termination of unbounded loops inside a recursion", "anchors": ["bayesian_decision_tree/base_hyperplane.py: _fit", "bayesian_decision_tree/hyperplane_optimization.py"]}
{"id": "C68", "title": "default parameters are those documented", "statement": "For each of the four classes the defaults of delta, prune and split_precision are the documented ones (0.0, False, 0.0).", "quantifier": "all classes and parameters", "why_tests_cant": "no test constructs a hyperplane classifier without delta", "anchors": ["bayesian_decision_tree/classification.py: __init__", "bayesian_decision_tree/regression.py: __init__"]}
{"id": "C69", "title": "targets may be a pandas Series", "statement": "fit of a perpendicular tree with y given as a pandas Series with the default index 0..n-1 gives the same tree as with the array of its values.", "quantifier": "all data sets, both kinds of perpendicular trees", "why_tests_cant": "label-based indexing fails for some row orders only; the tests only use arrays", "anchors": ["bayesian_decision_tree/base.py: fit", "bayesian_decision_tree/base_perpendicular.py: _fit", "bayesian_decision_tree/classification.py: _compute_log_p_data_split", "bayesian_decision_tree/regression.py: _compute_log_p_data_split"]}
{"id": "C70", "title": "integer regression targets of any width", "statement": "fit of a regression tree on targets of a fixed-width integer dtype gives the same tree as on the same values in float64.", "quantifier": "all data sets, all integer dtypes", "why_tests_cant": "y**2 wraps around silently; the tests use small values or floats", "anchors": ["bayesian_decision_tree/base.py: _ensure_float64", "bayesian_decision_tree/regression.py: _compute_log_p_data_no_split, _compute_log_p_data_split, _compute_posterior"]}
{"id": "C71", "title": "sparse and dense inputs are equivalent for hyperplane trees", "statement": "fit, predict and predict_proba of hyperplane trees on a CSR or CSC matrix give the same model and predictions as on the dense matrix with the same entries, for every built-in optimizer.", "quantifier": "all sparse matrices, also with duplicate or explicit zero entries; all optimizers that only read the data", "why_tests_cant": "the tests compare a few matrices; sub-matrices of sub-matrices arise in the recursion", "anchors": ["bayesian_decision_tree/base_hyperplane.py: _fit, _compute_child1_and_child2_indices", "bayesian_decision_tree/hyperplane_optimization.py: compute", "bayesian_decision_tree/base.py: _predict"]}
{"id": "C72", "title": "delta weights the observations of a child", "statement": "After fit with delta > 0 the prior of every child of a split is its parent's prior updated with the child's targets, each counting with weight delta: its density is proportional to the parent prior density times the likelihood to the power delta.", "quantifier": "all data sets, all delta >= 0, both target models", "why_tests_cant": "the parameters are plausible for any delta; the tests only compare accuracies", "anchors": ["bayesian_decision_tree/classification.py: _compute_posterior", "bayesian_decision_tree/regression.py: _compute_posterior_internal", "bayesian_decision_tree/base_perpendicular.py: _fit"]}
{"id": "C73", "title": "regression scores are the probability of the data", "statement": "In exact arithmetic the score of every node, candidate and accepted split of a regression tree is the logarithm of (prior probability of the structure) times the density of the targets of each part, averaged over a Normal-gamma distributed mean and precision; and the posterior parameters are those of the conditional distribution of mean and precision given the targets (Bayes' theorem).", "quantifier": "all data sets, all proper priors, all partition priors in (0,1)", "why_tests_cant": "an integral over the prior; the tests compare fitted trees only", "anchors": ["bayesian_decision_tree/regression.py: _compute_log_p_data, _compute_posterior_internal", "bayesian_decision_tree/base_perpendicular.py: _fit", "bayesian_decision_tree/hyperplane_optimization.py: compute"]}
{"id": "C74", "title": "classification scores are the probability of the data", "statement": "In exact arithmetic the score of every node, candidate and accepted split of a classification tree is the logarithm of (prior probability of the structure) times the probability of the label sequence of each part, averaged over Dirichlet distributed class probabilities; and the posterior parameters are those of the conditional distribution given the labels (Bayes' theorem).", "quantifier": "all data sets, all priors with positive entries, all partition priors in (0,1)", "why_tests_cant": "an integral over the simplex; the tests compare fitted trees only", "anchors": ["bayesian_decision_tree/classification.py: _compute_log_p_data_no_split, _compute_log_p_data_split, _compute_posterior", "bayesian_decision_tree/base_perpendicular.py: _fit", "bayesian_decision_tree/hyperplane_optimization.py: compute"]}
{"id": "C75", "title": "predictions are posterior expectations", "statement": "After an unpruned fit (delta = 0, for hyperplane trees any delta) predict of a regression tree returns the expectation of the mean, predict_proba of a classification tree the expectation of every class probability, conditional on the training targets of the rows that share the leaf of the predicted row.", "quantifier": "all data sets, all rows, all proper priors", "why_tests_cant": "an integral over the posterior; the tests compare accuracies", "anchors": ["bayesian_decision_tree/regression.py: _predict_leaf", "bayesian_decision_tree/classification.py: _predict_leaf, predict_proba", "bayesian_decision_tree/base.py: _predict"]}
{"id": "C76", "title": "the default prior is no special case", "statement": "fit of a regression tree with prior=None gives the same tree and predictions as fit with the documented default prior passed explicitly; only the prior attribute of the root differs (None).", "quantifier": "all data sets, both kinds of trees, all parameters", "why_tests_cant": "no test compares the two", "anchors": ["bayesian_decision_tree/regression.py: _get_prior", "bayesian_decision_tree/base_perpendicular.py: _fit", "bayesian_decision_tree/base_hyperplane.py: _fit"]}
{"id": "C77", "title": "units of regression targets do not matter", "statement": "Multiplying all targets of a perpendicular regression tree by s != 0, together with the prior mean by s and the prior beta by s**2, leaves splits, thresholds and feature importances unchanged, multiplies every prediction by s and moves both scores of every node by -n_data_ * log|s|.", "quantifier": "all data sets, proper priors, delta >= 0, with or without pruning; also negative s", "why_tests_cant": "a relation between two fits for all scalings; no test compares fits", "anchors": ["bayesian_decision_tree/regression.py: _compute_log_p_data_no_split, _compute_log_p_data_split, _compute_posterior", "bayesian_decision_tree/base_perpendicular.py: _fit"]}
{"id": "C78", "title": "only the order of feature values matters", "statement": "With split_precision = 0, replacing every feature by a strictly increasing function of it leaves the shape of a perpendicular tree, its split features, the rows, statistics and scores of every node, the feature importances and the predictions of the training rows unchanged; every threshold stays the midpoint of the same two neighbouring training values.", "quantifier": "all data sets, all strictly increasing functions, with or without pruning, both target models", "why_tests_cant": "a relation between two fits for all monotone functions", "anchors": ["bayesian_decision_tree/base_perpendicular.py: _fit", "bayesian_decision_tree/base.py: _predict"]}
{"id": "C79", "title": "the order of the feature columns does not matter", "statement": "Permuting the columns of the training data and of the queries in the same way leaves the predictions of a perpendicular tree unchanged; its splits use the permuted feature numbers.", "quantifier": "all data sets, all permutations, with or without pruning", "why_tests_cant": "ties between features are broken by the feature number; the tests never permute columns", "anchors": ["bayesian_decision_tree/base_perpendicular.py: _fit", "bayesian_decision_tree/base.py: _predict"]}
{"id": "C80", "title": "hyperplane trees follow the position and unit of the features", "statement": "Multiplying all features of the training data by one a > 0, adding a fixed vector to every row and multiplying split_precision by a gives a hyperplane tree with the same normals, rows, statistics, scores and feature importances, with origins mapped in the same way, and the same predictions for queries mapped in the same way; or the same exception.", "quantifier": "all data sets, both target models, every optimizer that only sees the dimension and the returned values (random, quasi-random, annealing, gradient descent, scipy, optuna), and the two-point optimizer", "why_tests_cant": "a relation between two searches for all scalings and translations", "anchors": ["bayesian_decision_tree/hyperplane_optimization.py: compute", "bayesian_decision_tree/base_hyperplane.py: _fit, _compute_child1_and_child2_indices, feature_importance"]}
{"id": "C81", "title": "units of regression targets do not matter for hyperplane trees", "statement": "Replacing every target y of a hyperplane regression tree by s*y + m with s != 0, and the prior mean and beta by s*mu + m and s**2*beta, leaves all normals, origins, rows and feature importances unchanged, maps every prediction v to s*v + m and moves both scores of every node by -n_data_ * log|s|; or the same exception is raised.", "quantifier": "all data sets, proper priors, random, quasi-random, annealing and gradient descent optimizers", "why_tests_cant": "the optimizers see different objective values in both fits; no test compares fits", "anchors": ["bayesian_decision_tree/regression.py: _compute_log_p_data_no_split, _compute_log_p_data_split, _compute_posterior", "bayesian_decision_tree/hyperplane_optimization.py: compute, SimulatedAnnealingOptimizer.solve, GradientDescentOptimizer.solve", "bayesian_decision_tree/base_hyperplane.py: _fit"]}
{"id": "C82", "title": "the order of the training rows does not matter for hyperplane trees", "statement": "Permuting the rows of X and y in the same way leaves the tree fitted by a hyperplane model, and hence all its predictions, unchanged, for every optimizer that only sees the dimension and the returned values.", "quantifier": "all data sets, all permutations, both target models", "why_tests_cant": "candidate positions depend on neighbouring rows of the input; the tests never permute rows", "anchors": ["bayesian_decision_tree/hyperplane_optimization.py: compute", "bayesian_decision_tree/base_hyperplane.py: _fit"]}
{"id": "C83", "title": "renaming the classes renames a hyperplane classification tree", "statement": "Permuting the class numbers in y and the entries of the prior accordingly permutes the entries of every prior and posterior of the fitted hyperplane classification tree and changes nothing else (normals, origins, scores, row counts); with prune=True the same holds if no node of the unpruned tree has two equally probable top classes. If a fit raises, so does the other, with the same exception.", "quantifier": "all data sets, all priors, all permutations of the classes", "why_tests_cant": "the tests use a few fixed class numberings", "anchors": ["bayesian_decision_tree/classification.py: _compute_log_p_data_no_split, _compute_log_p_data_split, _compute_posterior", "bayesian_decision_tree/base_hyperplane.py: _fit", "bayesian_decision_tree/base.py: _prune"]}
{"id": "C84", "title": "hyperplane trees treat integer matrices like the same numbers as floats", "statement": "Fitting a hyperplane tree to a matrix of an integer dtype gives the same tree (or the same exception) as fitting it to the same numbers in float64.", "quantifier": "all integer dtypes up to 32 bits, all data sets, priors and optimizers", "why_tests_cant": "the tests use integer matrices with small entries and one optimizer at a time", "anchors": ["bayesian_decision_tree/base.py: _ensure_float64", "bayesian_decision_tree/hyperplane_optimization.py: compute, RandomTwoPointOptimizer.solve", "bayesian_decision_tree/base_hyperplane.py: _fit"]}
{"id": "C85", "title": "every subtree is the tree fitted to its own rows", "statement": "Take the root, an inner node, or a node whose training rows have two different targets, of a fitted model (pruned or not, constructed with any level). A fresh model constructed with the prior and level attributes of that node and the same parameters, fitted to the training rows that reach the node, is exactly the subtree below that node.", "quantifier": "all data sets, all nodes, both kinds of trees, both target models, all built-in optimizers", "why_tests_cant": "a relation between a fit and the fits of all subsets of rows it produces; the tests never refit parts of the data", "anchors": ["bayesian_decision_tree/base_perpendicular.py: _fit", "bayesian_decision_tree/base_hyperplane.py: _fit", "bayesian_decision_tree/base.py: fit, _prune"]}
{"id": "C86", "title": "the nodes of a fitted model are fitted models", "statement": "Every child1_ and child2_ of a fitted model is itself a fitted model: is_fitted() is True and predict, predict_proba return for every row that reaches the node the same value as the whole model.", "quantifier": "all fitted models, all nodes, all query matrices", "why_tests_cant": "the tests only look at attributes of children", "anchors": ["bayesian_decision_tree/base_perpendicular.py: _fit", "bayesian_decision_tree/base_hyperplane.py: _fit", "bayesian_decision_tree/base.py: predict, _ensure_is_fitted"]}
{"id": "C87", "title": "training rows with missing or infinite features are routed back to the nodes they were used in", "statement": "Also for training matrices with NaN or infinite entries, which fit accepts, n_data_ of every node of a perpendicular tree is the number of training rows that predict routes through the node.", "quantifier": "all matrices with arbitrary float entries, both target models, all priors", "why_tests_cant": "the tests use finite training data only", "anchors": ["bayesian_decision_tree/base_perpendicular.py: _fit, _compute_child1_and_child2_indices", "bayesian_decision_tree/base.py: fit, _predict"]}
{"id": "C88", "title": "a larger partition_prior only grows the tree", "statement": "Of two perpendicular trees fitted to the same data that differ in partition_prior only (0 < a <= b < 1), the one for a is the one for b cut back: every node of it exists in the other tree at the same place with the same prior, level, n_data_ and posterior_, and every split of it is made there with the same feature and threshold. In particular get_depth() and get_n_leaves() do not decrease with partition_prior, with or without pruning.", "quantifier": "all data sets, priors, both target models, pruned or not", "why_tests_cant": "a relation between infinitely many fits; the tests fix one partition_prior per test", "anchors": ["bayesian_decision_tree/base_perpendicular.py: _fit", "bayesian_decision_tree/classification.py: _compute_log_p_data_no_split, _compute_log_p_data_split", "bayesian_decision_tree/regression.py: _compute_log_p_data_no_split, _compute_log_p_data_split", "bayesian_decision_tree/base.py: _prune"]}
{"id": "C89", "title": "features that say nothing new only cut the tree back", "statement": "Adding columns that are constant or repeat an earlier column, anywhere in the matrix, to the training data of a perpendicular tree with a given prior gives the tree fitted without them, cut back: they are never split on, no node changes its statistics, and no split is made that was not made before.", "quantifier": "all data sets, all positions and numbers of added columns, both target models, pruned or not", "why_tests_cant": "the tests never compare fits on different feature sets", "anchors": ["bayesian_decision_tree/base_perpendicular.py: _fit", "bayesian_decision_tree/classification.py: _compute_log_p_data_split", "bayesian_decision_tree/regression.py: _compute_log_p_data_split", "bayesian_decision_tree/base.py: _prune"]}
{"id": "C90", "title": "a larger partition_prior only grows a hyperplane tree", "statement": "Of two hyperplane trees fitted to the same data with the same optimizer and seed that differ in partition_prior only (0 < a <= b < 1), the one for a is the one for b cut back: every node of it exists in the other tree at the same place with the same prior, level, n_data_ and posterior_, and every split of it is made there with the same plane. This holds for RandomTwoPoint, Random and QuasiRandom optimizers always, and for SimulatedAnnealing and GradientDescent if every direction they try separates every two rows by more than split_precision.", "quantifier": "all data sets, priors, random streams, both target models, pruned or not", "why_tests_cant": "a relation between infinitely many fits; the tests fix one partition_prior per test", "anchors": ["bayesian_decision_tree/base_hyperplane.py: _fit", "bayesian_decision_tree/hyperplane_optimization.py: compute, RandomTwoPointOptimizer.solve, RandomHyperplaneOptimizer.solve, QuasiRandomHyperplaneOptimizer.solve, SimulatedAnnealingOptimizer.solve, GradientDescentOptimizer.solve", "bayesian_decision_tree/base.py: _prune"]}
{"id": "C91", "title": "the public interface reports the fitted tree, end to end", "statement": "After any sequence of calls on a model that ends in a fit() that returns, every public query answers from the tree that this fit alone determines: predict, predict_proba and raw leaf data give, for each row of any readable argument with the training number of columns, the values of the leaf the row walks to; get_depth and get_n_leaves are height and number of leaves; feature_importance and str are those of that tree; prediction_paths gives the path of each row (perpendicular trees only; hyperplane trees have no such method); an argument with another number of columns raises ValueError. In particular predict_proba rows are probability vectors with positive entries, predict is the first most probable class, and regression predictions stay in every interval containing the prior mean and the targets.", "quantifier": "all call histories, all arguments with at least one training row and column, both kinds of trees, both target models, non-negative delta and split_precision", "why_tests_cant": "ranges over all histories of calls including failed ones; the tests call fit once and look at a few outputs", "anchors": ["bayesian_decision_tree/base.py: fit, predict, feature_importance, get_depth, get_n_leaves", "bayesian_decision_tree/classification.py: predict_proba, _check_target", "bayesian_decision_tree/base_perpendicular.py: _fit, __str__", "bayesian_decision_tree/base_hyperplane.py: _fit, __str__"]}
{"id": "C92", "title": "one NaN or infinite regression target silently disables learning", "statement": "fit of a regression tree accepts targets with NaN or infinite entries. With any such entry among the training targets the result is a single leaf, for every other target, every feature matrix, prior, split_precision and optimizer: no split is ever made. posterior_.beta is NaN, and predict returns the same value for every row: NaN if the targets contain NaN or infinities of both signs, otherwise the infinity that occurs.", "quantifier": "all float targets with at least one non-finite entry, both kinds of trees", "why_tests_cant": "the tests use finite targets only; the claim ranges over all values of all other targets and features", "anchors": ["bayesian_decision_tree/regression.py: _check_target, _compute_log_p_data_no_split, _compute_log_p_data_split, _compute_posterior, _compute_posterior_internal", "bayesian_decision_tree/base_perpendicular.py: _fit", "bayesian_decision_tree/base_hyperplane.py: _fit", "bayesian_decision_tree/hyperplane_optimization.py: compute"]}
{"id": "C93", "title": "which rows with NaN or infinite features a hyperplane tree can place", "statement": "Also for training matrices with NaN or infinite entries, which fit accepts: n_data_ and posterior_ of every node of a hyperplane tree are those of the training rows that predict routes through the node; every split has a finite origin; at a split a row goes to neither child exactly if it has a NaN, an infinite value for a feature of weight 0, or lies infinitely far in both directions of the normal; rows infinitely far in one direction go to that side. Hence leaves count exactly the training rows that predict places, rows with NaN are counted in no leaf and are predicted 0.", "quantifier": "all matrices with arbitrary float entries, both target models, all priors and optimizers", "why_tests_cant": "the tests use finite data only", "anchors": ["bayesian_decision_tree/base_hyperplane.py: _fit, _compute_child1_and_child2_indices", "bayesian_decision_tree/hyperplane_optimization.py: compute", "bayesian_decision_tree/base.py: fit, _predict"]}
{"id": "C94", "title": "classification scores lie between maximum likelihood and maximum likelihood minus a logarithmic penalty", "statement": "For labels ys and a Dirichlet prior with positive entries, the score of staying is at most log(1 - q) plus the largest log-likelihood any class probabilities give ys, and at least that minus sum_j log(1 + n_j/alpha_j) + (sum alpha) * log(1 + n). The score of each split lies between the same expressions for the two sides. The largest log-likelihood is attained by the relative frequencies only.", "quantifier": "all priors, all labels, all split positions, all levels", "why_tests_cant": "an inequality between gamma functions and a maximum over all probability vectors", "anchors": ["bayesian_decision_tree/classification.py: _compute_log_p_data_no_split, _compute_log_p_data_split"]}
{"id": "C95", "title": "what an unpruned classification tree leaves unexplained, and what a split needs", "statement": "Let the information gain of a cut be the gain in maximal log-likelihood from describing both sides separately; it is never negative, and zero exactly if both sides have the same class frequencies. Every admissible cut of the rows of a leaf of an unpruned perpendicular tree has a gain of at most the log prior odds against it plus the logarithmic penalties of both sides, unless the leaf has one row or one label. Every split that is made has a gain of more than the log prior odds against it minus the penalty of the rows of the node.", "quantifier": "all data sets, priors, delta >= 0, all nodes", "why_tests_cant": "bounds over all data sets with explicit constants; the tests look at particular trees", "anchors": ["bayesian_decision_tree/base_perpendicular.py: _fit", "bayesian_decision_tree/classification.py: _compute_log_p_data_no_split, _compute_log_p_data_split, _get_prior"]}
{"id": "C96", "title": "with enough copies of the data a classification tree learns what its cuts can tell", "statement": "Repeat a data set k times. For k large enough no leaf of the unpruned tree with delta = 0 has an admissible cut with different class frequencies on both sides; the number of copies needed is bounded explicitly. With one feature and split_precision = 0, predict_proba for every training row differs from the class frequencies among the rows with the same feature value by at most A/(A + k), A the sum of the prior, and predict returns their most frequent class; if equal feature values have equal labels, predict returns the training labels.", "quantifier": "all finite data sets, all priors, all partition priors in (0, 1)", "why_tests_cant": "a limit statement over all data sets", "anchors": ["bayesian_decision_tree/base_perpendicular.py: _fit", "bayesian_decision_tree/classification.py: _compute_log_p_data_no_split, _compute_log_p_data_split, _compute_posterior, predict_proba", "bayesian_decision_tree/base.py: predict"]}
{"id": "C97", "title": "cuts that do not change the class frequencies are not made", "statement": "If both sides of a cut have the same class frequencies, the marginal likelihood of both sides together is at least the product of the marginal likelihoods of the sides, for every Dirichlet prior. So with partition_prior <= 1/2 the children of every split of a perpendicular classification tree have different class frequencies, and in general a split without that needs a prior probability above that of not splitting. Consequences: data in which no single cut changes the class frequencies, such as the exclusive or of two binary features, give a single leaf however often the rows are repeated; and for enough copies of any data set a node of the unpruned tree with delta = 0 is a leaf exactly if none of its cuts changes the class frequencies.", "quantifier": "all data sets, all priors, delta >= 0, pruned or not", "why_tests_cant": "an inequality between products of gamma functions for all labels and priors; the failure on XOR is for all numbers of rows", "anchors": ["bayesian_decision_tree/base_perpendicular.py: _fit", "bayesian_decision_tree/classification.py: _compute_log_p_data_no_split, _compute_log_p_data_split"]}
{"id": "C98", "title": "regression scores lie between maximum likelihood and the likelihood of any variance minus a logarithmic penalty", "statement": "For targets ys that are not all equal, the normal distribution with mean and variance of ys has the largest likelihood of all normal distributions and is the only one. The score of staying is at most log(1 - q) plus that log-likelihood, and, for every variance v > 0, at least log(1 - q) plus the log-likelihood under the sample mean and v minus log(alpha + n/2) + log(1 + n/kappa)/2 and a term that depends on prior, sample mean and v only. The score of each split lies between the same expressions for the two sides.", "quantifier": "all proper priors, all targets, all variances, all split positions, all levels", "why_tests_cant": "an inequality between gamma functions and a maximum over all normal distributions", "anchors": ["bayesian_decision_tree/regression.py: _compute_log_p_data_no_split, _compute_log_p_data_split, _compute_log_p_data"]}
{"id": "C99", "title": "with enough copies of the data a regression tree learns what its cuts can tell", "statement": "Repeat a data set k times. For k large enough every admissible cut of the rows of a leaf of the unpruned tree with delta = 0 has the same mean and the same variance of the targets on both sides; the number of copies needed is bounded explicitly. With one feature and split_precision = 0 the prediction for every training row differs from the mean m of the targets of the rows with the same feature value by at most kappa*|mu - m|/(kappa + k). For any number of rows, the cuts of leaves and the splits made obey bounds by the gain in log-likelihood as in classification.", "quantifier": "all finite data sets, all proper priors, all partition priors in (0, 1)", "why_tests_cant": "a limit statement over all data sets", "anchors": ["bayesian_decision_tree/base_perpendicular.py: _fit", "bayesian_decision_tree/regression.py: _compute_log_p_data_no_split, _compute_log_p_data_split, _compute_posterior, _predict_leaf", "bayesian_decision_tree/base.py: predict"]}
{"id": "C100", "title": "cuts that change neither mean nor variance are not made", "statement": "If both sides of a cut have the same mean and variance of the targets, the marginal likelihood of both sides together is at least the product of the marginal likelihoods of the sides, for every Normal-gamma prior. So with partition_prior <= 1/2 the children of every split of a perpendicular regression tree differ in mean or variance, and in general a split without that needs a prior probability above that of not splitting. Consequences: data in which no single cut changes mean or variance, such as the exclusive or of two binary features, give a single leaf however often the rows are repeated; and for enough copies of any data set a node of the unpruned tree with delta = 0 is a leaf exactly if none of its cuts changes mean or variance.", "quantifier": "all data sets, all proper priors, delta >= 0, pruned or not", "why_tests_cant": "an inequality between products of gamma functions for all targets and priors; the failure on XOR is for all numbers of rows", "anchors": ["bayesian_decision_tree/base_perpendicular.py: _fit", "bayesian_decision_tree/regression.py: _compute_log_p_data_no_split, _compute_log_p_data_split"]}
{"id": "C101", "title": "errors of the computed scores only matter near ties", "statement": "Let the scores of staying and of splitting be computed with errors of at most eps, in whatever way and depending on the order of summation, and let delta = 0. fit still returns a tree. At each of its splits no admissible cut of the rows of the node, and not staying either, has an exact score that exceeds the exact score of the chosen cut by more than 2 eps, and the stored likelihoods are within eps of the exact ones; for the rows of each leaf of the unpruned tree with different targets no cut exceeds the exact score of staying by more than 2 eps. If in the exact unpruned tree every decision is clear by more than 2 eps, then the computed tree has the same splits and sizes, and if the leaf predictions are computed exactly, predict returns the same values for all inputs, with and without pruning.", "quantifier": "all data sets, both target models, all priors, all errors up to eps", "why_tests_cant": "the tests compare with fixed expected trees and cannot range over all possible rounding errors", "anchors": ["bayesian_decision_tree/base_perpendicular.py: _fit", "bayesian_decision_tree/classification.py: _compute_log_p_data_no_split, _compute_log_p_data_split", "bayesian_decision_tree/regression.py: _compute_log_p_data_no_split, _compute_log_p_data_split", "bayesian_decision_tree/base.py: predict, _prune"]}
{"id": "C102", "title": "fits with the default optimizer, and hyperplane trees on a single feature", "statement": "With two or more features a fit with ScipyOptimizer around any search that respects its bounds, or with OptunaOptimizer, raises nothing and returns a tree; optuna evaluates exactly n_trials hyperplanes at each node that is searched. A search that leaves the unit cube makes fit raise AssertionError. With a single feature no optimizer that searches the unit cube finds a split: fit returns a single leaf or raises, and it raises as soon as the optimizer evaluates a hyperplane. In particular the default optimizer, OptunaOptimizer, SimulatedAnnealingOptimizer and GradientDescentOptimizer raise AxisError on every data set with one feature, whereas RandomHyperplaneOptimizer works.", "quantifier": "all data sets, both target models, all priors, all third-party searches and samplers", "why_tests_cant": "the third-party search is arbitrary; all hyperplane tests have two features and use a fixed seed", "anchors": ["bayesian_decision_tree/hyperplane_optimization.py: ScipyOptimizer, OptunaOptimizer, SimulatedAnnealingOptimizer, GradientDescentOptimizer, compute", "bayesian_decision_tree/utils.py: hypercube_to_hypersphere_surface", "bayesian_decision_tree/base_hyperplane.py: _fit"]}
{"id": "C103", "title": "uniform points of the cube become uniform directions", "statement": "hypercube_to_hypersphere_surface maps uniformly distributed points of [0,1]^D to uniformly distributed points of the sphere or half sphere, as its docstring says: for every measurable set A of directions the points of the cube that are mapped into A fill the same fraction of the cube as the directions A fill of the (half) unit ball. For sets of axes the half sphere and the full sphere give the same probabilities, so that searching only the half sphere prefers no orientation of a hyperplane; every open set of directions is hit with positive probability; and almost no point of the cube gives a direction along which two different rows are projected to the same number.", "quantifier": "all D >= 1, all measurable sets of directions, half and full sphere, all finite data sets", "why_tests_cant": "a statement about a continuum of points; a statistical test of samples could only fail to reject it", "anchors": ["bayesian_decision_tree/utils.py: hypercube_to_hypersphere_surface"]}
{"id": "C104", "title": "the quasi-random directions are equidistributed", "statement": "With phi the limit of its defining loop, the share of the first N elements of r2_series_generator that lie in a set S of the unit cube tends to the volume of S as N grows, for every measurable S whose boundary has volume 0; so the sequence comes arbitrarily close to every point of the cube. The directions QuasiRandomHyperplaneOptimizer evaluates are equidistributed on the half sphere in the same sense: the share of the first N directions in a set A tends to the fraction of the half ball in these directions. For every rational phi, hence for the float64 the loop ends with, the sequence in exact arithmetic is periodic instead.", "quantifier": "all dimensions, all measurable sets with null boundary", "why_tests_cant": "a limit over infinite sequences and all sets; rests on the linear independence of powers of phi over the rationals", "anchors": ["bayesian_decision_tree/utils.py: r2_series_generator, hypercube_to_hypersphere_surface", "bayesian_decision_tree/hyperplane_optimization.py: QuasiRandomHyperplaneOptimizer"]}
{"id": "C105", "title": "enough quasi-random directions are as good as all directions", "statement": "For each data set there is a number N, depending on the features, the number of rows and split_precision only, such that in every hyperplane tree fitted with QuasiRandomHyperplaneOptimizer and N or more directions no direction of the half sphere is better than the plane of a split: along no direction does a position considered score more than the stored score, except possibly along directions for which neighbouring rows differ by exactly split_precision. For each leaf of the unpruned tree whose targets differ, no such position scores more than staying, or more than the best plane found, which then has all rows on one side. The best score found at a node does not change any more from some number of directions on.", "quantifier": "all data sets with two or more features, all targets, priors and partition priors, both target models, all directions", "why_tests_cant": "a bound over a continuum of directions and a limit in the number of evaluations", "anchors": ["bayesian_decision_tree/hyperplane_optimization.py: QuasiRandomHyperplaneOptimizer, compute", "bayesian_decision_tree/utils.py: r2_series_generator, hypercube_to_hypersphere_surface", "bayesian_decision_tree/base_hyperplane.py: _fit"]}
{"id": "C106", "title": "random normals are uniform directions and find the best plane in the limit", "statement": "If the numbers returned by rand.normal are independent standard normal, then the direction of each normal RandomHyperplaneOptimizer evaluates is uniform on the sphere (the same law as uniform points of the cube mapped to the full sphere), and n_mc draws all miss a set of directions that makes up the fraction p of the sphere with probability (1-p)^n_mc. With probability one the search is optimal in the limit: for each matrix and split_precision there is a number of draws from which on no direction is better than the plane of any split of the fitted tree, and no direction is better than staying (or than the best plane found, if that has all rows on one side) in any leaf of the unpruned tree whose targets differ; directions along which neighbouring rows differ by exactly split_precision are excepted. If no two rows are equal points the exception for one-sided planes is not needed.", "quantifier": "all generators whose draws are independent standard normal, all data sets, targets, priors, both target models, all directions", "why_tests_cant": "a statement about probabilities and a continuum of directions", "anchors": ["bayesian_decision_tree/hyperplane_optimization.py: RandomHyperplaneOptimizer, compute", "bayesian_decision_tree/base_hyperplane.py: _fit"]}
{"id": "C107", "title": "training accuracy is at least that of the majority class", "statement": "With a symmetric prior a classification tree gets at least as many training rows right as predicting the most frequent class everywhere, and with any prior at least as many as predicting a class with the largest prior weight. This holds for perpendicular trees with delta = 0 and for hyperplane trees with any optimizer and any delta, pruned or not. With a prior that is not symmetric the most frequent class can be the better prediction.", "quantifier": "all data sets, all labels, all priors, all partition priors and precisions", "why_tests_cant": "a statement about all data sets and all trees the search can produce; the tests compare predictions of a few fixed data sets", "anchors": ["bayesian_decision_tree/base_perpendicular.py: _fit", "bayesian_decision_tree/base_hyperplane.py: _fit", "bayesian_decision_tree/classification.py: _compute_posterior, _predict_leaf", "bayesian_decision_tree/base.py: predict"]}
{"id": "C108", "title": "training error of regression trees", "statement": "The sum of squared training errors of a regression tree is at most that of any constant prediction m plus kappa (m - mu)^2 for every leaf, where mu and kappa are the first two entries of the prior. In particular it is at most that of predicting the prior mean, which is 0 if no prior is given. It can exceed that of predicting the mean of the targets, so that the training R^2 is negative.", "quantifier": "all data sets and targets, perpendicular trees with delta = 0 and hyperplane trees with any optimizer, given or default prior with kappa >= 0, pruned or not", "why_tests_cant": "an inequality for all data sets and all trees; the tests use fixed data sets", "anchors": ["bayesian_decision_tree/base_perpendicular.py: _fit", "bayesian_decision_tree/base_hyperplane.py: _fit", "bayesian_decision_tree/regression.py: _compute_posterior, _predict_leaf, _get_prior", "bayesian_decision_tree/base.py: predict"]}
{"id": "C109", "title": "every split multiplies the evidence", "statement": "With delta = 0 the probability (density) of the training targets given a fitted perpendicular tree, each leaf having its own parameters drawn from the prior, exceeds that without a tree by at least the factor (1 - partition_prior) / partition_prior * n_dim for each split. For classification the number of leaves L therefore satisfies ((1 - partition_prior) / partition_prior * n_dim)^(L - 1) <= 1 / evidence(y), and the tree is a single leaf whenever the number of features is at least partition_prior / (1 - partition_prior) / evidence(y), whatever the features contain.", "quantifier": "all data sets, proper priors, partition priors in (0, 1), both target models, pruned or not", "why_tests_cant": "relates the size of the tree to integrals over the prior for all data sets", "anchors": ["bayesian_decision_tree/base_perpendicular.py: _fit", "bayesian_decision_tree/classification.py: _compute_log_p_data_no_split, _compute_log_p_data_split", "bayesian_decision_tree/regression.py: _compute_log_p_data_no_split, _compute_log_p_data_split"]}
{"id": "C110", "title": "probability of the fitted tree against that of a single leaf", "statement": "With delta = 0 the joint probability of the fitted perpendicular tree and the training targets, under the prior over trees that partition_prior describes (a node of level l is split with probability partition_prior^(l+1), at a feature and a cut drawn uniformly), is at least that of a single leaf.", "quantifier": "all data sets, proper priors, partition priors in (0, 1), both target models", "why_tests_cant": "needs the probability of whole trees, which the code never computes, and a claim about all data sets", "anchors": ["bayesian_decision_tree/base_perpendicular.py: _fit", "bayesian_decision_tree/classification.py: _compute_log_p_data_no_split, _compute_log_p_data_split", "bayesian_decision_tree/regression.py: _compute_log_p_data_no_split, _compute_log_p_data_split"]}
{"id": "C111", "title": "every split of a hyperplane tree multiplies the evidence unless rows lie on its plane", "statement": "Whatever the optimizer and delta, if at every split no row of the node lies on the plane (as when no two rows have the same coordinate along the normal), the probability (density) of the training targets given the fitted hyperplane tree, each leaf having its own parameters drawn from the prior, exceeds that without a tree by at least the factor (1 - partition_prior) / partition_prior * n_dim for each split; for classification this bounds the number of leaves. If moreover partition_prior < n_dim / (n_dim + 1), the children of such a split have different class frequencies, or different means or variances of the targets. With rows on the plane the code accepts planes that lower the evidence.", "quantifier": "all data sets, proper priors, partition priors in (0, 1), all optimizers, all delta, both target models, pruned or not", "why_tests_cant": "relates the tree to integrals over the prior for all data sets and all searches", "anchors": ["bayesian_decision_tree/base_hyperplane.py: _fit", "bayesian_decision_tree/hyperplane_optimization.py: compute", "bayesian_decision_tree/classification.py: _compute_log_p_data_no_split, _compute_log_p_data_split", "bayesian_decision_tree/regression.py: _compute_log_p_data_no_split, _compute_log_p_data_split"]}
{"id": "C112", "title": "hyperplane trees fitted to a pandas Series", "statement": "A hyperplane classification tree fitted to a pandas Series raises KeyError whenever the fit to the array of its values finds a split. So does a regression tree if one of the labels 0, ..., n-1 is missing, as after selecting rows. A fit that succeeds can differ silently from the fit to the array, even with the default index, and is always one-sided: every node that is split contains the first training row, so at most one child of a node is split again.", "quantifier": "all data sets, all Series of two or more numbers with any integer labels, all optimizers, priors and precisions, both target models", "why_tests_cant": "an argument about labels at every node of every tree; the tests use arrays for hyperplane trees or look at single predictions", "anchors": ["bayesian_decision_tree/base_hyperplane.py: _fit", "bayesian_decision_tree/hyperplane_optimization.py: compute", "bayesian_decision_tree/classification.py: _compute_log_p_data_split", "bayesian_decision_tree/regression.py: _compute_log_p_data_split", "bayesian_decision_tree/base.py: fit"]}
{"id": "C113", "title": "regression in floating-point arithmetic", "statement": "If every operation has relative error at most u, sums being taken in any order, and 7 n^2 u times the sum of the squared targets is less than the prior beta (with 100 n u <= 1), every likelihood a regression fit computes, without a split and for every split, is a number, and the same holds for every selection of the rows; the computed posterior mean differs from the exact one by at most (n+6)u/(1-(n+6)u) times the mean absolute value. Without the condition the computed beta can be negative, and whenever that is so at the root the perpendicular tree is a single leaf, for all features and hyperparameters: in float64 this happens for the targets 1000000004, 1000000013 with prior mean 10^9, for which the exact tree has two leaves.", "quantifier": "all data sets, all priors with kappa > 0, all rounding functions with relative error u, all summation orders, all partition priors and levels", "why_tests_cant": "bounds on rounding errors for all inputs and all summation orders; the tests use small numbers of one scale", "anchors": ["bayesian_decision_tree/regression.py: _compute_posterior_internal, _compute_posterior, _compute_log_p_data, _compute_log_p_data_no_split, _compute_log_p_data_split", "bayesian_decision_tree/base_perpendicular.py: _fit"]}
{"id": "C114", "title": "classification in floating-point arithmetic", "statement": "If every operation and the logarithm have relative error at most u, counts are exact, sums are taken in any order, and gammaln and betaln are accurate to u times the numbers they are computed from, every score a classification fit computes at a level below the number of rows, without a split and for every split, is within an explicit bound e (scoreError) of the exact one, and logarithms and log-gamma functions are only taken of positive numbers. The perpendicular fit returns a tree with delta = 0; each of its splits is by exact scores within 2e of every alternative, and no leaf of the unpruned tree misses a cut better by more than 2e. If prior weights plus counts are representable and the decisions of the exact tree are clear by more than 2e, the computed tree has the same splits and posteriors and predicts the same classes. Class probabilities have relative error at most 6 c u for c classes. For two classes with prior weights 1, up to a million rows, up to 1000 features, a partition prior between 0.01 and 0.99 and u = 2^-50, e is at most 0.0001.", "quantifier": "all data sets, all labels, all positive priors, all libraries with the given accuracy, all summation orders, partition priors with 6u <= 1 - partition_prior, delta = 0, pruned or not", "why_tests_cant": "bounds on rounding errors for all inputs and all summation orders; the tests compare predictions for a few data sets", "anchors": ["bayesian_decision_tree/classification.py: _compute_log_p_data_no_split, _compute_log_p_data_split, _compute_posterior, _compute_posterior_mean, _compute_log_p_data", "bayesian_decision_tree/utils.py: multivariate_betaln", "bayesian_decision_tree/base_perpendicular.py: _fit", "bayesian_decision_tree/base.py: predict"]}
{"id": "C115", "title": "scores of regression in floating-point arithmetic", "statement": "If every operation and the logarithm have relative error at most u, counts are exact, sums are taken in any order, gammaln is accurate to u times 1 plus its size and the targets lie between -Y and Y, every score a regression fit computes at a level below the number of rows, without a split and for every split, is a number within an explicit bound e (regScoreError) of the exact one, provided u is small compared with beta / (n^2 Y^2) (condition Fine). The perpendicular fit with delta = 0 then returns a tree whose scores are numbers; each of its splits is by exact scores within 2e of every alternative, and no leaf of the unpruned tree misses a cut better by more than 2e. If the decisions of the exact tree are clear by more than 2e, the unpruned computed tree has the same splits, and its predictions differ from the exact ones by at most 2(n+6)u(|mu|+Y). For the prior (0, 1, 1/2, 1/2), which is the default for fewer than 200 rows, up to 1000 rows, up to 1000 features, targets between -1 and 1, a partition prior between 0.01 and 0.99 and u = 2^-50, e is at most 0.002.", "quantifier": "all data sets, all proper priors, all libraries with the given accuracy, all summation orders, partition priors with 6u <= 1 - partition_prior, delta = 0", "why_tests_cant": "bounds on rounding errors for all inputs and all summation orders; the tests compare predictions for a few data sets", "anchors": ["bayesian_decision_tree/regression.py: _compute_log_p_data_no_split, _compute_log_p_data_split, _compute_posterior, _compute_posterior_internal, _compute_log_p_data, _get_prior", "bayesian_decision_tree/base_perpendicular.py: _fit", "bayesian_decision_tree/base.py: predict"]}
{"id": "C116", "title": "git describe is read back exactly", "statement": "In a checkout, git_pieces_from_vcs returns the tag without the prefix, the number of commits since the tag, the abbreviated and the full commit, whether files were changed and the date in ISO 8601 form, whatever the tag is called (hyphens, -dirty and texts like 1-gab included); without a tag it returns the total number of commits. The regular expression matches exactly the texts TAG-NUM-gHEX, and any other output with a hyphen gives the version \"unknown\" with an error message in every style.", "quantifier": "all tags, numbers, commits, dates, prefixes and styles", "why_tests_cant": "all texts, including tags that look like the output of git describe; there are no tests of this file", "anchors": ["bayesian_decision_tree/_version.py: git_pieces_from_vcs, run_command, render"]}
{"id": "C117", "title": "rendered versions are versions by PEP 440 and tell commits apart", "statement": "If the tag is a version by PEP 440, with or without local part, so is the version rendered in the default style; for tags without post-release, development and local part, and without tags, this holds for the styles pep440, pep440-pre, pep440-post and pep440-old. For tags without \"+\", two states of the repository with the same version have the same tag, number of commits since the tag and changed files, and the same abbreviated commit unless both are exactly the tag. The style git-describe-long reproduces the output of git describe.", "quantifier": "all tags, numbers, commits and styles", "why_tests_cant": "a claim about all tags and the grammar of versions; there are no tests of this file", "anchors": ["bayesian_decision_tree/_version.py: render, render_pep440, render_pep440_pre, render_pep440_post, render_pep440_old, render_git_describe_long, plus_or_dot"]}
{"id": "C118", "title": "__version__ is the version of the distribution", "statement": "bayesian_decision_tree.__version__ is the version that setup.py gives to the distribution.", "quantifier": "all repositories and directories", "why_tests_cant": "compares two programs configured in different files (get_config in _version.py and setup.cfg) in all environments", "anchors": ["bayesian_decision_tree/_version.py: get_versions, get_config, versions_from_parentdir", "setup.cfg", "setup.py", "versioneer.py: get_versions"]}
{"id": "C119", "title": "the package can be imported anywhere", "statement": "Importing the package, which calls get_versions, raises no exception, whatever git does and wherever the package is installed.", "quantifier": "all results of all git commands, all directories, Windows or not", "why_tests_cant": "all failures of an external program", "anchors": ["bayesian_decision_tree/__init__.py", "bayesian_decision_tree/_version.py: get_versions, git_pieces_from_vcs, run_command"]}
{"id": "C120", "title": "versions in archives", "statement": "With the keywords that git archive fills in, the version is the least tag of the commit, in the order of its characters, among those with the prefix, without the prefix; if there is none it is 0+unknown. The full commit and the date in ISO 8601 form are returned with it.", "quantifier": "all lists of references, prefixes, commits and dates", "why_tests_cant": "all texts; there are no tests of this file", "anchors": ["bayesian_decision_tree/_version.py: git_versions_from_keywords"]}
{"id": "C121", "title": "hyperplane trees with computed scores", "statement": "If every score is within e of the exact one, a hyperplane fit with a given prior fails only if the optimizer raises an exception, proposes a vector that is rejected, or does not stop. Each split of the tree is by exact scores within 2e of not splitting and of all planes along all vectors the optimizer evaluated on the rows of the node; the stored scores are within e of the exact ones, the plane goes halfway between the two rows next to its position, and both children have rows. A leaf of the unpruned tree has one row or one target value, or no plane evaluated on its rows is better than not splitting by more than 2e, or the best plane, within 2e, has all rows on one side. Every node has the computed posterior of the rows that reach it. In floating-point arithmetic e is the bound of C114 for classification and of C115 for regression, where all scores are numbers.", "quantifier": "all data sets, all optimizers, including those that react to the computed values, all errors of the scores, any delta, pruned or not; features, projections and normals exact", "why_tests_cant": "all optimizers and all rounding errors; the tests compare predictions of a few data sets with a few optimizers", "anchors": ["bayesian_decision_tree/base_hyperplane.py: _fit", "bayesian_decision_tree/hyperplane_optimization.py: compute", "bayesian_decision_tree/classification.py: _compute_log_p_data_no_split, _compute_log_p_data_split", "bayesian_decision_tree/regression.py: _compute_log_p_data_no_split, _compute_log_p_data_split"]}
{"id": "C122", "title": "progress messages", "statement": "fit(..., verbose=True) returns the tree, or raises the exception, of fit(..., verbose=False), which prints nothing. It prints one line for the root and for each node whose rows have different targets, each node before its children and the first child before the second, with the level, the side and the number of training rows of the node in the tree before pruning. There is at least one line, and with n >= 2 rows at most n - 1; the lines read \"Training level L SIDE with N data points\" with N right aligned in at least ten characters, so lines of nodes with different level, side or number of rows differ.", "quantifier": "all data sets, both tree types, both target models, all optimizers, pruned or not", "why_tests_cant": "a claim about the text printed by all fits; the tests never use verbose", "anchors": ["bayesian_decision_tree/base.py: fit", "bayesian_decision_tree/base_perpendicular.py: _fit", "bayesian_decision_tree/base_hyperplane.py: _fit"]}
{"id": "C123", "title": "features of any size in float64", "statement": "Between float64 feature values, including the largest and the smallest ones, predict routes every training row to the node where fit put it: n_data_ is the number of training rows routed to the node, and with delta = 0 its posterior is that of their targets.", "quantifier": "all data sets of finite float64 values, both target models", "why_tests_cant": "all float64 values including subnormal numbers and sums that overflow; the tests use small numbers", "anchors": ["bayesian_decision_tree/base_perpendicular.py: _fit, _compute_child1_and_child2_indices"]}
{"id": "C124", "title": "predictions with any delta", "statement": "With any delta >= 0 the prediction of a perpendicular tree for a row is a weighted mean over all training rows: predict of a regression tree is the mean of the prior mean, with weight kappa, and of all training targets; predict_proba of a classification tree is proportional to the prior plus the total weight of the training rows of each class. A training row has weight 1 if it is in the leaf of the row, 0 otherwise, plus delta for every split on the way to the leaf at which both rows go the same way, up to the first at which they do not; if all targets in the leaf are equal, the last split before the leaf does not count.", "quantifier": "all data sets, priors, delta >= 0, all predicted rows, pruned or not, both target models", "why_tests_cant": "an exact formula for the predictions of all trees; the tests only compare a few trees with delta = 0", "anchors": ["bayesian_decision_tree/base_perpendicular.py: _fit", "bayesian_decision_tree/classification.py: _compute_posterior", "bayesian_decision_tree/regression.py: _compute_posterior", "bayesian_decision_tree/base.py: predict, predict_proba"]}
{"id": "C125", "title": "unsplit nodes of hyperplane trees", "statement": "A leaf of an unpruned hyperplane tree is justified: all targets of its rows are equal, or no position considered along any direction the optimizer evaluated on its rows scores more than not splitting.", "quantifier": "all data sets, priors, optimizers, delta = 0, both target models", "why_tests_cant": "needs all data sets with equal coordinates and all directions; the tests only look at a few trees that do split", "anchors": ["bayesian_decision_tree/base_hyperplane.py: _fit", "bayesian_decision_tree/hyperplane_optimization.py: HyperplaneOptimizationFunction.compute"]}
