# Formal model of UBS-IB/bayesian_tree in Lean 4

## Layout

* `lean/Verif/Model/*.lean`  – the model, function by function; each definition cites the file and lines it describes
  (paths relative to `/repo/bayesian_decision_tree`).
* `lean/Verif/Spec/*.lean`   – what the properties talk about, independent of the model's helper functions.
* `lean/Verif/Lemmas/*.lean` – helper lemmas and the concrete data sets used by examples.
* `lean/Verif/Props/*.lean`  – the property theorems, with non-vacuity `example`s beside them. The theorem(s) of
  property `Cnn` are called `Cnn_…`; `_partial` marks a theorem that covers only part of the property, `_refuted` the
  negation of the property with a concrete witness.
* `properties.jsonl` – the properties; `MANIFEST.json` – property → theorems; `seeded/LOG.jsonl` – mutation log.

## Trusted base

* The Lean 4 kernel, and its reading of the definitions in `Model/` and `Spec/`.
* Axioms: every theorem in the manifest depends on a subset of `propext`, `Classical.choice`, `Quot.sound`
  (checked with `#print axioms` for all of them). No axiom is declared, there is no `sorry`, `native_decide` or
  `bv_decide`. Concrete witnesses are evaluated with `decide +kernel`, i.e. by the kernel.
* The model is a hand translation of the Python text. Nothing has been executed. That numpy, scipy, pandas and sklearn
  functions do what their documentation says is assumed, in the form in which the model states it.

## Modelling decisions

* **Numbers.** The code computes in float64. The model is generic in an ordered field `K` (exact arithmetic), with the
  special functions (`log`, `gammaln`, `betaln`, `pi`) as a record `Fns K`; `realFns` is the instance with Mathlib's
  real functions. Rounding, NaN/infinity and wrap-around are modelled where a property is about them:
  `Model/XF.lean` (values with NaN and ±∞), `Model/Rounding.lean` (midpoints rounded to `p`-bit floats, unbounded
  exponent), `Model/IntTy.lean` (fixed width integers). Elsewhere they are outside the model. In particular the
  theorems on scores say nothing about rounding errors of `gammaln`.
* **Totalised functions.** `Real.log` of a non-positive number and division by zero have values in Lean. C20 proves that
  arguments of logarithms and log-gammas stay positive; theorems that evaluate scores carry the hypotheses that make
  the arguments positive, or compare exact rational scores (`probTarget`) that C63 links to the code's scores.
* **Feature values.** A perpendicular fit only sorts values, tests `abs(diff) > split_precision`, takes a midpoint and
  compares with `<` and `>=`. These operations are a record `XOps`; the laws a theorem needs are an explicit hypothesis
  (`LawfulOps`), proved for exact arithmetic and shown to fail for small integers and neighbouring floats.
* **`np.argsort`** is an arbitrary function that returns a sorting permutation (`IsArgsort`).
* **Abstract methods** of `BaseTree` are a record `Target`; classification (`clsTarget`), regression (`regTarget`) and
  the exact-probability variant `probTarget` are instances.
* **Termination.** Recursion and unbounded loops take fuel; running out is the error `noTermination`. Termination is a
  theorem for the fuel used (C12, C21, C49, C53, C54, C66, C67).
* **Exceptions** are values (`Except Err`). `Err` has the exceptions the modelled code can raise.
* **Two levels for fit.** `Model/Perp.lean` and `Model/Hyper.lean` give the tree a successful fit produces.
  `Model/Object.lean` and `Model/Api.lean` assign attributes one after another and keep the state that an exception
  leaves; `Lemmas/Object.lean` proves that both agree on success.
* **Optimizers** are arbitrary adaptive strategies in C46–C52. The built-in ones are programs (`Prog`) with explicit
  random generator state (`Model/Optimize.lean`).
* **Queries** (`predict`, …) are modelled as functions without a new state, because the code assigns no attribute of
  the model in them. C40 is therefore about interleavings of calls, not about hidden assignments.
* A leaf of the tree type `Node` has no split attributes, so "a pruned node has no split info" (part of C24) holds by
  the type; on the object level (`Obj`) it is the erasing assignment that is modelled.

## What is modelled

| code | model |
|------|-------|
| `base.py` `__init__` | `Ctor.baseTreeInit` |
| `base.py` `fit` (validation, `_normalize…`, `_ensure_float64`, `_ensure_is_fitted`) | `Api` |
| `base.py` `_predict`, `predict`, raw leaf data | `Tree`, `Predict`, `Object`, `Api` |
| `base.py` `_prune`, depth, leaves, importance, erasing | `Tree`, `Object` |
| `base_perpendicular.py`, dense and CSR/CSC | `Perp`, `Object`, `Sparse` |
| `base_hyperplane.py`, dense and CSR/CSC, integer matrices | `Hyper`, `Object`, `SparseHyper`, `HyperInt` |
| `hyperplane_optimization.py` `HyperplaneOptimizationFunction` | `Hyper` |
| `hyperplane_optimization.py` two-point, random, quasi-random, annealing, gradient descent, the scipy and optuna wrappers | `Optimize` |
| `classification.py`, `regression.py` | `Target`, `Real`, `Api`, `Ctor` |
| `utils.py` `multivariate_betaln`, `r2_series_generator`, `hypercube_to_hypersphere_surface` | `Target`, `Optimize`, `Sphere` |
| constructor argument `level`, `child1_`/`child2_` as models | `Level`, `Child` |
| `__str__`, `_str` | `Str` |
| `y` as pandas `Series`, `y` of an integer dtype | `Series`, `SeriesHyper`, `IntTarget` |
| regression targets with NaN and infinite values | `XTarget` |
| `regression.py` in rounded (float64) arithmetic | `RegFloat` |
| `classification.py` in rounded (float64) arithmetic | `ClsFloat` |
| `base_hyperplane.py` on features with NaN and infinite values | `HyperX` |
| `_version.py`, and `get_versions` of `versioneer.py` with `setup.cfg` | `Version` |
| what `fit(..., verbose=True)` prints | `Verbose` |
| `base_perpendicular.py` on float64 features, with overflow and gradual underflow | `Overflow` |

Not modelled: the third-party search inside `ScipyOptimizer` and `OptunaOptimizer` (a parameter: any
program, any sampler); sparse matrices other than CSR/CSC; a pandas `Series` with a non-integer index; ragged lists; `versioneer.py` apart from `get_versions` and what it shares with `_version.py`, the rest of `setup.py`, the examples and tests; memory, speed and statistical quality of the
random streams.

Simplifications inside the model: integer parameters such as `level` and `n_mc` are natural numbers; conversion of
sums of 64-bit integers to float64 is exact; overflow to infinity and underflow are modelled for
the features of perpendicular trees (C123) and not elsewhere; the attribute values
`None` and "never assigned" are the same except for `posterior_`; keyword order in `get_params` is that of the
signature.

## Properties that are false of the code

For each of these the negation is proved with a concrete witness, next to theorems for the part that holds.

| id | finding |
|----|---------|
| C04 | `_update_prediction_paths` passes relative instead of absolute row indices down, so paths of batches are wrong below depth 1 |
| C10 | a child that is not fitted recursively is updated from the parent's prior, although its own `prior` differs (delta ≠ 0) |
| C22, C23 | pruning changes predictions: classification with asymmetric priors or delta ≠ 0, regression in general |
| C32, C36 | a 0-dimensional array raises IndexError instead of ValueError |
| C34 | a classification tree with the default prior `None` cannot be fitted at all (`len(None)`) |
| C35 | a training set with one row is always rejected (`y.squeeze()`) |
| C37 | object arrays that cannot be converted raise the conversion's exception (TypeError) |
| C39 | a failing fit (too few feature names) overwrites the split dimension of a fitted model |
| C42 | differences and sums of int8/uint8 data wrap around: splits are missed, thresholds are wrong |
| C43 | the midpoint of neighbouring floats can round to the lower one, so a training row is routed to the other side |
| C50 | candidate positions of hyperplane splits come from unsorted projections |
| C51 | hyperplane trees ignore delta |
| C52 | hyperplane feature importance is 0/0 if all accepted splits tie with not splitting |
| C53 | the two-point optimizer does not terminate for some targets and accepts integer-valued regression targets |
| C57 | a node of the printed tree can take several lines |
| C60 | relabelling classes changes a pruned tree when two classes are equally likely |
| C68 | `HyperplaneClassificationTree()` has `delta=None`, documented is 0.0 |
| C69 | a pandas `Series` as target: KeyError (label −1) in classification, KeyError for some row orders in regression |
| C70 | squares of integer regression targets wrap around (int8 12, 12 gives a negative beta) |
| C72 | for 0 < delta < 1 the regression update divides by `kappa + n` instead of `kappa + n * delta`, so beta is not that of weighted observations |
| C79 | permuting feature columns changes predictions when two features offer equally good cuts |
| C82 | exchanging two training rows with equal features changes a hyperplane tree: candidate positions and their number come from neighbours in input order |
| C84 | hyperplane trees on integer matrices: the two-point optimizer always raises `TypeError`; `0.5 * (p1 + p2)` wraps around, so rows 100 and 200 of dtype uint8 are never split |
| C86 | children with a single row or a single target never get `n_dim_`: `is_fitted()` is `True`, but `predict`, `predict_proba` and `feature_importance` raise `AttributeError` |
| C87 | a row with NaN in the split feature is trained in the right child and predicted nowhere; rows with `-inf` are trained left of the threshold `-inf` and predicted right; a cut between `-inf` and `+inf` has the threshold NaN and routes no row |
| C110 | a node is split without counting the probability that the children are not split again, so the fitted tree can be less probable than a single leaf |
| C118 | `_version.py` is configured for another project (`hadoop-utils-`, no tag prefix), so `__version__` is `ver-1.0` where `setup.py` gives `1.0`; an installed package reports the tag of whatever repository it lies in |
| C119 | importing the package raises `AttributeError` or `TypeError` if `git show` or `git rev-list` fails after `git describe` succeeded |
| C123 | if the sum of two neighbouring feature values exceeds the largest float64, the threshold is infinite and all rows of the node are routed to one side |
| C125 | if the best position found lies between rows with equal coordinates along the direction, the plane has all rows on one side and the node is not split, even if another direction evaluated separates the classes |

## Proof methods

* Predictions (C01–C03): refinement of the index-list recursion to a per-row walk.
* Perpendicular fit (C08–C20, C45): `Built`, the invariant that every row of the sort matrix is a sorted permutation of
  the node's rows.
* Closed forms (`Props/Closed.lean`): the theorems above for the code's two target models in exact arithmetic, with
  thresholds, cuts and scores written out; the contract of `np.argsort` is the only assumption left.
* Closed forms of hyperplane trees (`Props/HyperClosed.lean`): the same over the real numbers; normals are described
  by direction and length, sides by the sign of `Σ w_j (x_j - o_j)`, the search by orders along the normal and scores.
* Equivariances (C15, C16, C60–C63, C42, C43): a simulation theorem between two fits (`Lemmas/Sim.lean`,
  `Lemmas/Shape.lean`).
* Further equivariances (C77–C79): a second simulation (`Spec/Image.lean`, `Lemmas/Image.lean`) with renumbered features,
  scores mapped per row count and thresholds that correspond only as midpoints.
* Equivariances of hyperplane trees (C80, C81): a simulation of `compute`, `solve` and `_fit` (`Lemmas/HyperMove.lean`) under
  similarity maps of the features, and of the optimizers under a common shift of all objective values
  (`Lemmas/ProgShift.lean`).
* Row order of hyperplane trees (C82): without near ties every position is a candidate and the order along the normal is
  unique, so `compute` depends on the set of rows only (`Lemmas/HyperRows.lean`).
* Renamed classes in hyperplane trees (C83): the simulation of `Lemmas/HyperMove.lean` with the identity on features.
* Integer matrices in hyperplane trees (C84): `Model/HyperInt.lean` repeats the search with the origin computed in the dtype.
* Growing trees (C88, C89): `Readier c c'` says that cuts are ordered alike in two situations, gain at least as much in
  the second, and staying is worth at most as much; then the best cut is the same and the first tree is the second cut
  back (`Built.trimmed`).  Pruning keeps this relation (`Trimmed.merge`).
* Growing hyperplane trees (C90, `Props/HyperMonotone.lean`): `HReadier c hp' ok` is the same condition for the result
  of a plane search, and `hFitRoot_trimmed` draws the same conclusion from it. The optimizer is an unknown program, so
  the theorems name what they use of it: `Oblivious` (the questions asked do not depend on the answers) or `Steady`
  (they do not change if all answers are moved by the same amount). Each modelled optimizer is proved to have one of
  the two. `Steady` searches also need `Spread`: every direction asked separates the rows. Otherwise a direction without
  any cut answers 0 in both fits, which is not moved.
* Hyperplane versions of C02, C05–C07, C11, C19–C21, C24, C25 (`Props/HyperShape.lean`): from `HBuilt`, as for perpendicular
  trees.  `C02_reports` states what the two target models report at a leaf.
* End to end (C91, `Props/EndToEnd.lean`): a `fit` call that returns leaves the object of the tree that the fit computes from
  the normalised arguments (`fitCall_tree`), whatever happened before; `Spec/Answers.lean` lists what each query returns.
* Non-finite targets (C92, `Props/XTarget.lean`): `XF K` with IEEE rules for NaN and infinities is a commutative monoid under
  addition, so sums do not depend on order. With one non-finite target every score is NaN; comparisons with NaN are false, so
  no split is accepted. numpy's `argmax` returns the position of the first NaN, the model's the first maximum; on lists of
  NaN only, which is what occurs, both are 0.
* Non-finite features in hyperplane trees (C93, `Props/HyperX.lean`): a split is kept only if both children have a row, which
  forces a finite offset and hence a finite origin; the projection of a row is NaN just if its side is undetermined.
* Maximum likelihood (C94–C96, `Spec/MaxLik.lean`, `Props/MaxLik.lean`, `Props/Copies.lean`): the evidence is an average of
  likelihoods over the simplex (C73), so at most their maximum, which Gibbs' inequality identifies; it is at least the maximum
  minus an explicit penalty by bounding rising factorials. For repeated data (`Spec/Copies.lean`) the gain of a cut grows with the
  number of copies, the penalties with its logarithm.
* Uninformative cuts (C97, `Lemmas/SameFreq.lean`): with equal frequencies one likelihood is a power of the other, so
  `(L_A - c) * (L_B - c^r) >= 0` everywhere on the simplex; integrating against the prior with `c` the evidence of `A` gives the claim.
* Regression (C98–C100, `Spec/MaxNormal.lean`, `Lemmas/MaxNormal.lean`, `Props/MaxNormal.lean`, `Props/SameMoments.lean`):
  the same with normal likelihoods.  The evidence is an integral of the likelihood (C73), hence at most its maximum; from
  below the closed form is compared with the likelihood of any variance through `Γ(s) ≥ s^(s-1) e^(-s)`.  Groups with
  the same mean and variance again have likelihoods that are powers of each other.
* Errors of the scores (C101, `Spec/Noise.lean`, `Lemmas/Noise.lean`, `Props/Noise.lean`): `Computed` bounds the
  errors of an arbitrary target model against the written-out scores, for the targets of training rows in any order.
  `NearBuilt` is the counterpart of `Built`; `clear_alike` compares it with the exact tree. Feature comparisons stay
  exact, and `delta = 0`.
* Scipy and optuna (C102, `Props/Wrappers.lean`): the third-party search is an arbitrary `Prog`, assumed to stay within the
  bounds it is given.  On a single feature the array mapped to the half sphere is 0-dimensional after `squeeze` and
  `np.linalg.norm(..., axis=-1)` raises `AxisError`; this is read off numpy's source, not run.
* Uniform directions (C103, `Lemmas/SphereLaw.lean`, `Props/SphereLaw.lean`): induction over the passes of the loop. The
  invariant `Polar` writes integrals over `ℝ^m` with a radius and the point that a uniform cube point is mapped to; one pass
  is polar coordinates in the plane of the two new coordinates followed by `ρ² = r² - |z|²` and `s = r u^(1/m)`. The starting
  points (no angle, one angle, two angles) are done by hand. The statement compares volumes in the cube with volumes in the
  ball, so no measure on the sphere has to be defined.
* Equidistribution (C104, `Lemmas/Weyl.lean`, `Lemmas/WeylCube.lean`, `Props/Equidist.lean`): Weyl's criterion on the
  torus. The averages of every character along the sequence tend to 0 by the geometric sum, because no nontrivial integer
  combination of the steps `phi^-1, ..., phi^-D` is an integer: `X^(D+1) - X - 1` is irreducible (Selmer, in Mathlib).
  Stone-Weierstrass extends this to continuous functions, and weak convergence to sets with null boundary. The directions
  follow with C103. The float64 `phi` of the code is rational; `C104_period` proves the exact sequence for it periodic.
* Quasi-random search (C105, `Lemmas/SweepStable.lean`, `Props/QuasiSearch.lean`): near a direction along which no
  neighbouring rows differ by exactly the precision, the order of the rows can only become stricter and the positions
  considered stay the same, so the scores are those of the direction itself. By C104 and the continuity of the map to the
  half sphere some quasi-random direction is that near. Only finitely many orders and sets of positions exist, which makes
  the number of directions uniform over all directions, row subsets, targets and priors.
* Random search (C106, `Lemmas/Gaussian.lean`, `Props/RandomSearch.lean`): the density of a vector of independent
  standard normal numbers depends on its length only, so the polar coordinates of C103 give its direction; the draws
  are dense with probability one, and near a stable direction nothing changes (as for C105).
* Training errors (C107, C108, `Props/TrainError.lean`): `leafSum_le` adds up a bound that holds leaf by leaf, for
  any routing that sends each row one way. For classification the bound is that the first maximum of prior weight
  plus count has at least the count of any class of maximal prior weight; for regression it is the identity that
  the posterior mean minimises squared error plus `κ (m - μ)²`.
* Probability of whole trees (C109, C110, `Spec/Joint.lean`, `Props/Joint.lean`): induction over the nodes with the
  condition under which the code splits. C110 is false: the condition for a split leaves out the probability that
  the children are not split. The witness has two rows; its tree has joint probability 9/128, a single leaf 1/12.
* Evidence of hyperplane trees (C111, `Props/HyperJoint.lean`): as for C109, with the closed form of the score of a
  split with no row on its plane (C50, `Props/HyperGroups.lean`). A fit of eight rows at two places shows that the condition is needed.
* Hyperplane trees fitted to a Series (C112): the scores are looked up at a position taken for a label, so a node whose Series lacks
  the label 0 is never split (`hComputeSer_best`); a child keeps the labels `np.where` returned at its parent, and label 0 goes with
  the first row of the node (`filter_zero`). The difference from the array (`C112_silent`) is computed on three rows with a
  partition prior chosen between two scores.
* Rounded regression (C113): `FloatSum` is a sum of given numbers by rounded additions in any order and with any
  brackets; its error is at most ((1+u)^(n-1) - 1) times the sum of absolute values. The square of the sum over n is at most the sum of squares
  (Cauchy–Schwarz), so the computed `beta` loses at most 7 n² u Σy² (`beta_pos`, `beta_condition`); the other side of a
  split gets the errors of both operands of the subtraction (`betaR_sides`). For the counterexample the eight relevant
  roundings are computed one by one (`beta64`).
* Annealing narrows (C54, `C54_local`): `Prog.SatH` carries the list of points evaluated so far; clipping to the cube
  does not increase the distance from a point of the cube.
* Rounded classification (C114): `log Γ` is convex, so that a relative error `δ` of its argument changes it by at most
  `4 δ` times its size nearby (`lgam_near`). Together with the errors of sums (C113) this bounds the error of every
  score by `scoreError`, and C101 turns the bound into statements about trees. The accuracy of `gammaln`, `betaln` and
  `log` is assumed (`AccurateLib`); midpoints of cuts and comparisons of features are exact in this model.
* Scores of rounded regression (C115): `Ap u k W x z` says that `x` has size at most `W` and that `z` approximates it
  after `k` roundings; it is closed under the operations of the code, so that the bound follows the formulas. The only
  ill-conditioned steps are the two subtractions in the scale parameter, which is why the bound contains
  `n² Y² / beta`. Scores are then numbers, so the fit, whose scores may be NaN in the model, equals the fit with scores in
  ℝ (`perpFitRoot_fin`), to which C101 applies.
* Versions (C116-C120, `Props/Version.lean`): text is a list of characters; starting a program is a parameter. The groups of the
  regular expression are unique because commit and number contain no hyphen (`split_unique`), so the order in which the engine
  tries them does not matter. PEP 440 is a grammar in `Spec/Version.lean`; versions begin with a digit (`pep440_head`) and
  public versions contain no `+`, which decides between `+` and `.` in `plus_or_dot`.
* Hyperplane trees with computed scores (C121): an invariant of the search state (`NearSearched`) bounds the exact scores of
  all vectors evaluated so far by the computed best score plus `ε`, whatever the optimizer does with the computed values;
  an induction on the fit gives each node its own search. For regression `hFitRoot_fin` first replaces scores with NaN and
  infinities by numbers, for the same optimizer seen through `numOpt`.
* Progress messages (C122): `Model/Verbose.lean` repeats the two `_fit`s with the list of printed lines as a second result.
  `perpFitV_faithful` and `hFitV_faithful` show by induction on the fuel that the first result is that of the silent fit and that
  the lines are those of the nodes that have `n_dim_` set; `Built`/`HBuilt` identify these with the root and the nodes with mixed
  targets. The count follows because each split divides the rows into two non-empty parts.
* Overflow and underflow (C123): `FloatFormat` states what is used of a format (nearest rounding, differences of different
  numbers are not rounded to zero, doubling is exact, halving a sum is exact unless the sum was); float64 with gradual
  underflow is proved to be one (`float64_format`). The fit in float64 is compared with the fit in exact arithmetic: same
  shape and attributes, each threshold computed from the sum of the same two values (`C123_structure`).
* What pruning can change (C22, C23): the pruned tree is the merge of the unpruned one, so a relation that holds between a
  node and its two children whenever these agree, and that is reflexive and transitive, holds between the two predictions
  of every row. With the closed form of the posteriors the relation is `LowerPrior` for classes and `Away` for means.
  Hyperplane trees need no `delta = 0` because their children have the prior of the root.
* Predictions with any `delta` (C124): a statistic of the prior that is additive in the data (class weight, `kappa`,
  `kappa * mu`) is followed down the tree with C19; the sums over the nodes on the way are exchanged with the sum over the
  rows, which gives each training row its weight. Which leaves miss their last update is C86 and C10.
* Column order with ties (C79): `Props/ColumnTies.lean` compares nodes of the two trees with the same rows, level and
  prior.  A cut of one data set is a cut of the other with the same score, so both nodes have the same best score and the
  same decision; only which of several best cuts is taken can differ.
* Renamed classes and pruning (C60, C83): `Props/RelabelPrune.lean` uses that pruning keeps the predictions for constant
  priors, so both pruned trees predict a most likely class of the row's unpruned leaf, whatever is pruned.
* Unsplit hyperplane nodes (C125): a plane kept by the search passes halfway between two rows in the order of their
  coordinates.  The upper one of them is never below it, so if one side is empty it is the lower one, and then both rows
  lie on the plane.  The counterexample is a set of six points that the second axis alone splits into its classes; with
  the first axis evaluated as well the tree is a single leaf.  Random search almost surely draws no direction along which
  two different rows coincide: such directions lie on a hyperplane through 0, a set of measure 0 (`Props/RandomLeaf.lean`).
* Non-finite training data (C87): `_fit` uses feature values only in the gap test and the midpoint (`perpFit_ops`), so its result
  is that of comparisons `sideOps` which are lawful for all values; every theorem about lawful comparisons then applies.
* Subtrees as fits (C85): rows are renumbered from 0 (`Built.take`, `hFit_pull`); greedy trees do not depend on row numbers, and
  a fit on at most `fuel` rows does not depend on `fuel`.
* Pruning (C21–C24): refinement to one bottom-up merge (`Spec.merge`).
* Likelihoods (C27–C31): functional equation of Gamma, field algebra, permutation lemmas.
* Hyperplane search (C46–C50): fold invariants over arbitrary evaluation sequences.
* Optimizers (C53, C54, C65–C67): the objective takes finitely many values on a data set, hence strictly decreasing
  loops end.
* Probability of the data (C73–C75): `Spec/Evidence.lean` states the statistical models with Mathlib's `gammaMeasure` and
  `gaussianReal` and with iterated integrals over the simplex; the closed forms of `Props/Closed.lean` are shown to be
  these integrals (completing the square, Gamma and Beta integrals).
* Default prior (C76): the fit reads the `prior` attribute of the root through `_get_prior` only.
* Refutations over the reals: evaluation in ℚ by the kernel, transferred with `cast_fit`.
