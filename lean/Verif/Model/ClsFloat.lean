import Verif.Model.Target

/-!
# Classification in floating-point arithmetic

The functions of classification.py with the result of every arithmetic operation rounded by `r`, in the order in which
Python evaluates them.  Overflow and underflow are not modelled.  `**` counts as one rounded operation; class counts,
`n_splits * n_dim` and their conversion to floating point are exact (below 2^53).  `np.log` of a number that is not
positive would be NaN or infinite; here it is whatever `log` gives, see `C114_arguments`.
-/

namespace BT
section
variable {K : Type} [Field K] [LinearOrder K]

/-- The library functions and how numbers are rounded: `sum` is `np.sum` (in an order of its own choice). -/
structure ClsLib (K : Type) where
  r : K → K
  sum : List K → K
  log : K → K
  gammaln : K → K
  betaln : K → K → K

/-- `multivariate_betaln(alphas)` (utils.py:7-12). -/
def multivariateBetalnR (L : ClsLib K) (alphas : List K) : K :=
  match alphas with
  | [a, b] => L.betaln a b
  | _ => L.r (L.sum (alphas.map L.gammaln) - L.gammaln (L.sum alphas))

/-- `_compute_posterior(y, prior, delta)` (classification.py:90-100). -/
def clsPosteriorR (L : ClsLib K) (y : List K) (prior : List K) (delta : K) : List K :=
  if delta = 0 then prior
  else prior.mapIdx fun i a => L.r (a + L.r (delta * (classCount y i : K)))

/-- `_compute_log_p_data_no_split` (classification.py:63-69). -/
def clsLogNoSplitR (L : ClsLib K) (partitionPrior : K) (level : Nat) (y : List K) (prior : List K) : K :=
  let posterior := clsPosteriorR L y prior 1
  let logPPrior := L.log (L.r (1 - L.r (partitionPrior ^ (1 + level))))
  let logPData := L.r (multivariateBetalnR L posterior - multivariateBetalnR L prior)
  L.r (logPPrior + logPData)

/-- `_compute_log_p_data(k, prior, betaln_prior)` for one split position (classification.py:105-108). -/
def clsLogPDataR (L : ClsLib K) (k : List Nat) (prior : List K) (betalnPrior : K) : K :=
  L.r (multivariateBetalnR L (List.zipWith (fun (a : K) (c : Nat) => L.r (a + (c : K))) prior k) - betalnPrior)

/-- `_compute_log_p_data_split` (classification.py:71-88). -/
def clsLogSplitR (L : ClsLib K) (partitionPrior : K) (level : Nat) (y : List K) (prior : List K)
    (nDim : Nat) (splitIndices : List Nat) : List K :=
  let nClasses := prior.length
  let k1 : List (List Nat) := (List.range nClasses).map fun i =>
    splitIndices.map fun s => (classCumsum y i).getD (s - 1) 0
  let k2 : List (List Nat) := (List.range nClasses).map fun i =>
    let total := (classCumsum y i).getLastD 0
    (k1.getD i []).map fun c => total - c
  let nSplits := splitIndices.length
  let logPPrior := L.log (L.r (L.r (partitionPrior ^ (1 + level)) / ((nSplits : K) * (nDim : K))))
  let betalnPrior := multivariateBetalnR L prior
  (List.range nSplits).map fun j =>
    L.r (L.r (logPPrior + clsLogPDataR L (k1.map fun r => r.getD j 0) prior betalnPrior)
      + clsLogPDataR L (k2.map fun r => r.getD j 0) prior betalnPrior)

/-- `_compute_posterior_mean` (classification.py:102-103). -/
def clsPosteriorMeanR (L : ClsLib K) (posterior : List K) : List K :=
  posterior.map fun a => L.r (a / L.sum posterior)

/-- The classification methods in floating-point arithmetic; an array is copied and compared exactly. -/
def clsTargetR (L : ClsLib K) : Target K (List K) K (List K) where
  getPrior := clsGetPrior
  logNoSplit := clsLogNoSplitR L
  logSplit := clsLogSplitR L
  posterior := clsPosteriorR L
  predictLeaf := clsPredictLeaf
  posteriorMean := clsPosteriorMeanR L

end
end BT
