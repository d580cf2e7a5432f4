import Verif.Model.XTarget

/-!
# Regression in floating-point arithmetic

The functions of regression.py with the result of every arithmetic operation rounded by `r`, in the order in which
Python evaluates them.  Overflow and underflow are not modelled, so that posteriors are numbers; the scores may be NaN or
infinite, since `np.log` gives NaN for negative numbers and `-inf` for 0.  Priors are assumed proper: a divisor 0 is not
modelled.  `**` and integer-to-float conversions count as one rounded operation each.  `argmax` in Model/Perp.lean does
not prefer NaN as numpy does; the theorems about fits with these scores (C113) are about searches that start from NaN,
where this makes no difference.
-/

namespace BT
section
variable {K : Type} [Field K] [LinearOrder K]

/-- The library functions and how numbers are rounded: `sum` is `ndarray.sum` (in an order of its own choice). -/
structure FloatLib (K : Type) where
  r : K → K
  sum : List K → K
  log : K → K
  gammaln : K → K
  pi : K

/-- `a.cumsum()`, one rounded addition after the other. -/
def cumsumRFrom (r : K → K) (acc : K) : List K → List K
  | [] => []
  | x :: l => r (acc + x) :: cumsumRFrom r (r (acc + x)) l

/-- `a.cumsum()`: the first element is copied. -/
def cumsumR (r : K → K) : List K → List K
  | [] => []
  | x :: l => x :: cumsumRFrom r x l

/-- `a ** 2` for an array. -/
def squaresR (r : K → K) (y : List K) : List K := y.map fun v => r (v * v)

/-- `_compute_posterior_internal` (regression.py:93-104). -/
def ngPosteriorR (r : K → K) (prior : NG K) (n : Nat) (ySum ySquaredSum delta : K) : NG K :=
  let nDelta := r ((n : K) * delta)
  let kappaPost := r (prior.kappa + nDelta)
  let muPost := r (r (r (prior.kappa * prior.mu) + r (r (nDelta * ySum) / (n : K))) / kappaPost)
  let alphaPost := r (prior.alpha + r ((1 / 2) * nDelta))
  let deviation := r (r (ySum / (n : K)) - prior.mu)
  let betaPost := r (r (prior.beta + r (r ((1 / 2) * delta) * r (ySquaredSum - r (r (ySum * ySum) / (n : K)))))
    + r (r (r (r ((1 / 2) * prior.kappa) * nDelta) * r (deviation * deviation)) / r (prior.kappa + (n : K))))
  ⟨muPost, kappaPost, alphaPost, betaPost⟩

/-- `_compute_posterior` (regression.py:83-91). -/
def regPosteriorR (L : FloatLib K) (y : List K) (prior : NG K) (delta : K) : NG K :=
  if delta = 0 then prior
  else ngPosteriorR L.r prior y.length (L.sum y) (L.sum (squaresR L.r y)) delta

/-- `np.log`. -/
def FloatLib.logX (L : FloatLib K) (x : K) : XF K :=
  if 0 < x then .fin (L.log x) else if x = 0 then .ninf else .nan

/-- A rounded result that may be NaN or infinite. -/
def FloatLib.rX (L : FloatLib K) : XF K → XF K
  | .fin a => .fin (L.r a)
  | a => a

/-- `_compute_log_p_data` (regression.py:109-116). -/
def ngLogPDataR (L : FloatLib K) (prior : NG K) (alphaNew betaNew kappaNew : K) (nNew : Nat) : XF K :=
  let x1 : XF K := L.rX (.fin (L.gammaln alphaNew) - .fin (L.gammaln prior.alpha))
  let x2 := L.rX (x1 + L.rX (.fin prior.alpha * L.logX prior.beta))
  let x3 := L.rX (x2 - L.rX (.fin alphaNew * L.logX betaNew))
  let x4 := L.rX (x3 + L.rX (.fin (1 / 2) * L.logX (L.r (prior.kappa / kappaNew))))
  L.rX (x4 - L.rX (.fin (L.r ((1 / 2) * (nNew : K))) * L.logX (L.r (2 * L.pi))))

/-- `_compute_log_p_data_no_split` (regression.py:29-37). -/
def regLogNoSplitR (L : FloatLib K) (partitionPrior : K) (level : Nat) (y : List K) (prior : NG K) : XF K :=
  let post := ngPosteriorR L.r prior y.length (L.sum y) (L.sum (squaresR L.r y)) 1
  let logPPrior := L.logX (L.r (1 - L.r (partitionPrior ^ (1 + level))))
  L.rX (logPPrior + ngLogPDataR L prior post.alpha post.beta post.kappa y.length)

/-- `_compute_log_p_data_split` (regression.py:39-68). -/
def regLogSplitR (L : FloatLib K) (partitionPrior : K) (level : Nat) (y : List K) (prior : NG K)
    (nDim : Nat) (splitIndices : List Nat) : List (XF K) :=
  let n := y.length
  let n1 : List Nat := (List.range (n - 1)).map (1 + ·)
  let n2 : List Nat := n1.map (n - ·)
  let ySum1 := (cumsumR L.r y).dropLast
  let ySum2 := ySum1.map fun s => L.r (L.sum y - s)
  let ySq1 := cumsumR L.r (squaresR L.r y.dropLast)
  let ySq2 := ySq1.map fun s => L.r (L.sum (squaresR L.r y) - s)
  let sm1 := splitIndices.map (· - 1)
  let all := splitIndices.length == y.length - 1
  let n1 := if all then n1 else gatherD 0 n1 sm1
  let n2 := if all then n2 else gatherD 0 n2 sm1
  let ySum1 := if all then ySum1 else gatherD 0 ySum1 sm1
  let ySum2 := if all then ySum2 else gatherD 0 ySum2 sm1
  let ySq1 := if all then ySq1 else gatherD 0 ySq1 sm1
  let ySq2 := if all then ySq2 else gatherD 0 ySq2 sm1
  let nSplits := splitIndices.length
  let logPPrior := L.logX (L.r (L.r (partitionPrior ^ (1 + level)) / ((nSplits : K) * (nDim : K))))
  (List.range nSplits).map fun j =>
    let p1 := ngPosteriorR L.r prior (n1.getD j 0) (ySum1.getD j 0) (ySq1.getD j 0) 1
    let p2 := ngPosteriorR L.r prior (n2.getD j 0) (ySum2.getD j 0) (ySq2.getD j 0) 1
    L.rX (L.rX (logPPrior + ngLogPDataR L prior p1.alpha p1.beta p1.kappa (n1.getD j 0))
      + ngLogPDataR L prior p2.alpha p2.beta p2.kappa (n2.getD j 0))

/-- `_get_prior` (regression.py:70-81): the quotients are exact. -/
def regGetPriorR (prior : Option (NG K)) (nData _nDim : Nat) : NG K :=
  match prior with
  | some p => p
  | none =>
    let count : K := ((max 1 (nData / 100) : Nat) : K)
    ⟨0, count, count / 2, count / 2 / 1⟩

/-- The regression methods in floating-point arithmetic. -/
def regTargetR (L : FloatLib K) : Target K (NG K) (XF K) K where
  getPrior := regGetPriorR
  logNoSplit := regLogNoSplitR L
  logSplit := regLogSplitR L
  posterior := regPosteriorR L
  predictLeaf := fun p => p.mu
  posteriorMean := fun p => p.mu

end
end BT
