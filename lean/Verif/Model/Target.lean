import Verif.Model.Tree

/-!
# Abstract methods of `BaseTree` and their two implementations

`Target` is the record of abstract methods (base.py:298-336) that classification and regression trees
implement.
-/

namespace BT

/-- Abstract methods of `BaseTree` that depend on the kind of target.
`K` targets and parameters, `P` prior/posterior, `S` scores (log-likelihoods), `O` posterior means. -/
structure Target (K P S O : Type) where
  /-- `_get_prior(n_data, n_dim)` with `self.prior` as first argument -/
  getPrior : Option P → Nat → Nat → P
  /-- `_compute_log_p_data_no_split(y, prior)`; first arguments `partition_prior`, `level` -/
  logNoSplit : K → Nat → List K → P → S
  /-- `_compute_log_p_data_split(y, prior, n_dim, split_indices)` -/
  logSplit : K → Nat → List K → P → Nat → List Nat → List S
  /-- `_compute_posterior(y, prior, delta)` -/
  posterior : List K → P → K → P
  /-- `_predict_leaf()` as a function of `posterior_` -/
  predictLeaf : P → K
  /-- `_compute_posterior_mean()` as a function of `posterior_` -/
  posteriorMean : P → O

section classification
variable {K : Type} [Field K] [LinearOrder K]

/-- `multivariate_betaln(alphas)` (utils.py:7-12). -/
def multivariateBetaln (F : Fns K) (alphas : List K) : K :=
  match alphas with
  | [a, b] => F.betaln a b
  | _ => (alphas.map F.gammaln).sum - F.gammaln alphas.sum

/-- `np.sum(y == i)`: number of targets of class `i`. -/
def classCount (y : List K) (i : Nat) : Nat := y.countP fun v => decide (v = (i : K))

/-- `_compute_posterior(y, prior, delta)` (classification.py:90-100). -/
def clsPosterior (y : List K) (prior : List K) (delta : K) : List K :=
  if delta = 0 then prior
  else prior.mapIdx fun i a => a + delta * (classCount y i : K)

/-- `_get_prior` (classification.py:56-61).  The default branch builds `n_dim` ones, not `n_classes`;
it is never reached from `fit` because `_check_target` fails on `None` first (classification.py:52). -/
def clsGetPrior (prior : Option (List K)) (nData nDim : Nat) : List K :=
  match prior with
  | some p => p
  | none => List.replicate nDim (((max 1 (nData / 100) : Nat) : K) * 1)

/-- `_compute_log_p_data_no_split` (classification.py:63-69). -/
def clsLogNoSplit (F : Fns K) (partitionPrior : K) (level : Nat) (y : List K) (prior : List K) : K :=
  let posterior := clsPosterior y prior 1
  let logPPrior := F.log (1 - partitionPrior ^ (1 + level))
  let logPData := multivariateBetaln F posterior - multivariateBetaln F prior
  logPPrior + logPData

/-- `(y == i).cumsum()` (classification.py:76). -/
def classCumsum (y : List K) (i : Nat) : List Nat :=
  cumsum (y.map fun v => if v = (i : K) then 1 else 0)

/-- `_compute_log_p_data(k, prior, betaln_prior)` for one split position (classification.py:105-108):
`k` are the class counts on one side. -/
def clsLogPData (F : Fns K) (k : List Nat) (prior : List K) (betalnPrior : K) : K :=
  multivariateBetaln F (List.zipWith (fun (a : K) (c : Nat) => a + (c : K)) prior k) - betalnPrior

/-- `_compute_log_p_data_split` (classification.py:71-88).  `k1`, `k2` are indexed `[class][split]` as
in the code; the vectorised evaluation is spelled out per split position `j`. -/
def clsLogSplit (F : Fns K) (partitionPrior : K) (level : Nat) (y : List K) (prior : List K)
    (nDim : Nat) (splitIndices : List Nat) : List K :=
  let nClasses := prior.length
  let k1 : List (List Nat) := (List.range nClasses).map fun i =>
    splitIndices.map fun s => (classCumsum y i).getD (s - 1) 0
  let k2 : List (List Nat) := (List.range nClasses).map fun i =>
    let total := (classCumsum y i).getLastD 0
    (k1.getD i []).map fun c => total - c
  let nSplits := splitIndices.length
  let logPPrior := F.log (partitionPrior ^ (1 + level) / ((nSplits : K) * (nDim : K)))
  let betalnPrior := multivariateBetaln F prior
  (List.range nSplits).map fun j =>
    logPPrior + clsLogPData F (k1.map fun r => r.getD j 0) prior betalnPrior
      + clsLogPData F (k2.map fun r => r.getD j 0) prior betalnPrior

/-- `_compute_posterior_mean` (classification.py:102-103). -/
def clsPosteriorMean (posterior : List K) : List K :=
  posterior.map fun a => a / posterior.sum

/-- `_predict_leaf` (classification.py:110-112), stored into a float array by `predict`. -/
def clsPredictLeaf (posterior : List K) : K := (argmax posterior : Nat)

/-- The classification implementation of the abstract methods. -/
def clsTarget (F : Fns K) : Target K (List K) K (List K) where
  getPrior := clsGetPrior
  logNoSplit := clsLogNoSplit F
  logSplit := clsLogSplit F
  posterior := clsPosterior
  predictLeaf := clsPredictLeaf
  posteriorMean := clsPosteriorMean

end classification

section regression
variable {K : Type} [Field K] [LinearOrder K]

/-- Normal-gamma parameters `[mu, kappa, alpha, beta]` (regression.py:94, 146-150). -/
structure NG (K : Type) where
  mu : K
  kappa : K
  alpha : K
  beta : K
  deriving DecidableEq, Repr

/-- `_compute_posterior_internal(prior, n, y_sum, y_squared_sum, delta)` (regression.py:93-104).
For `n = 0` numpy yields NaN, the field model `x / 0 = 0`; `fit` only calls it with `n ≥ 1` unless the
whole training set is empty. -/
def ngPosterior (prior : NG K) (n : Nat) (ySum ySquaredSum delta : K) : NG K :=
  let nDelta := (n : K) * delta
  let kappaPost := prior.kappa + nDelta
  let muPost := (prior.kappa * prior.mu + nDelta * ySum / (n : K)) / kappaPost
  let alphaPost := prior.alpha + (1 / 2) * nDelta
  let betaPost := prior.beta + (1 / 2) * delta * (ySquaredSum - ySum ^ 2 / (n : K))
    + (1 / 2) * prior.kappa * nDelta * (ySum / (n : K) - prior.mu) ^ 2 / (prior.kappa + (n : K))
  ⟨muPost, kappaPost, alphaPost, betaPost⟩

/-- `_compute_posterior(y, prior, delta)` (regression.py:83-91). -/
def regPosterior (y : List K) (prior : NG K) (delta : K) : NG K :=
  if delta = 0 then prior
  else ngPosterior prior y.length y.sum (y.map fun v => v ^ 2).sum delta

/-- `_compute_log_p_data(prior, alpha_new, beta_new, kappa_new, n_new)` (regression.py:109-116). -/
def ngLogPData (F : Fns K) (prior : NG K) (alphaNew betaNew kappaNew : K) (nNew : Nat) : K :=
  F.gammaln alphaNew - F.gammaln prior.alpha
    + prior.alpha * F.log prior.beta - alphaNew * F.log betaNew
    + (1 / 2) * F.log (prior.kappa / kappaNew)
    - (1 / 2) * (nNew : K) * F.log (2 * F.pi)

/-- `_compute_log_p_data_no_split` (regression.py:29-37). -/
def regLogNoSplit (F : Fns K) (partitionPrior : K) (level : Nat) (y : List K) (prior : NG K) : K :=
  let ySum := y.sum
  let ySquaredSum := (y.map fun v => v ^ 2).sum
  let n := y.length
  let post := ngPosterior prior n ySum ySquaredSum 1
  let logPPrior := F.log (1 - partitionPrior ^ (1 + level))
  logPPrior + ngLogPData F prior post.alpha post.beta post.kappa n

/-- Fancy indexing of a float vector by `split_indices - 1` (regression.py:50-57); positions are in
range because split indices lie in `1..n-1`. -/
def gatherD {α : Type} (d : α) (a : List α) (idx : List Nat) : List α := idx.map fun j => a.getD j d

/-- `_compute_log_p_data_split` (regression.py:39-68), including the shortcut that skips the indexing
when every position is a candidate. -/
def regLogSplit (F : Fns K) (partitionPrior : K) (level : Nat) (y : List K) (prior : NG K)
    (nDim : Nat) (splitIndices : List Nat) : List K :=
  let n := y.length
  let n1 : List Nat := (List.range (n - 1)).map (1 + ·)
  let n2 : List Nat := n1.map (n - ·)
  let ySum1 := (cumsum y).dropLast
  let ySum2 := ySum1.map (y.sum - ·)
  let ySq1 := cumsum (y.dropLast.map fun v => v ^ 2)
  let ySq2 := ySq1.map ((y.map fun v => v ^ 2).sum - ·)
  let sm1 := splitIndices.map (· - 1)
  let all := splitIndices.length == y.length - 1
  let n1 := if all then n1 else gatherD 0 n1 sm1
  let n2 := if all then n2 else gatherD 0 n2 sm1
  let ySum1 := if all then ySum1 else gatherD 0 ySum1 sm1
  let ySum2 := if all then ySum2 else gatherD 0 ySum2 sm1
  let ySq1 := if all then ySq1 else gatherD 0 ySq1 sm1
  let ySq2 := if all then ySq2 else gatherD 0 ySq2 sm1
  let nSplits := splitIndices.length
  let logPPrior := F.log (partitionPrior ^ (1 + level) / ((nSplits : K) * (nDim : K)))
  (List.range nSplits).map fun j =>
    let p1 := ngPosterior prior (n1.getD j 0) (ySum1.getD j 0) (ySq1.getD j 0) 1
    let p2 := ngPosterior prior (n2.getD j 0) (ySum2.getD j 0) (ySq2.getD j 0) 1
    logPPrior + ngLogPData F prior p1.alpha p1.beta p1.kappa (n1.getD j 0)
      + ngLogPData F prior p2.alpha p2.beta p2.kappa (n2.getD j 0)

/-- `_get_prior` (regression.py:70-81). -/
def regGetPrior (prior : Option (NG K)) (nData _nDim : Nat) : NG K :=
  match prior with
  | some p => p
  | none =>
    let count : K := ((max 1 (nData / 100) : Nat) : K)
    let tau : K := 1
    let alpha := count / 2
    ⟨0, count, alpha, alpha / tau⟩

/-- The regression implementation of the abstract methods; `_predict_leaf` and
`_compute_posterior_mean` are both `posterior_[0]` (regression.py:106-107, 118-120). -/
def regTarget (F : Fns K) : Target K (NG K) K K where
  getPrior := regGetPrior
  logNoSplit := regLogNoSplit F
  logSplit := regLogSplit F
  posterior := regPosterior
  predictLeaf := fun p => p.mu
  posteriorMean := fun p => p.mu

end regression

end BT
