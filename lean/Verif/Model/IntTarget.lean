import Verif.Model.Target
import Verif.Model.IntTy
import Mathlib.Algebra.Order.Floor.Defs

/-!
# Regression targets of an integer dtype

`_ensure_float64` returns integer targets unchanged (base.py:59, 227-231).  The element-wise square
`y ** 2` (regression.py:31, 45, 46, 89) is then computed in the dtype of `y` and wraps around; the sums
are accumulated in 64 bits (`np.sum` and `np.cumsum` of smaller integers), whose overflow is not
modelled.  The functions below are those of `Model/Target.lean` with the square as a parameter.
-/

namespace BT
variable {K : Type} [Field K] [LinearOrder K]

/-- `_compute_posterior(y, prior, delta)` (regression.py:83-91). -/
def regPosteriorSq (sq : K → K) (y : List K) (prior : NG K) (delta : K) : NG K :=
  if delta = 0 then prior
  else ngPosterior prior y.length y.sum (y.map sq).sum delta

/-- `_compute_log_p_data_no_split` (regression.py:29-37). -/
def regLogNoSplitSq (sq : K → K) (F : Fns K) (partitionPrior : K) (level : Nat) (y : List K)
    (prior : NG K) : K :=
  let post := ngPosterior prior y.length y.sum (y.map sq).sum 1
  let logPPrior := F.log (1 - partitionPrior ^ (1 + level))
  logPPrior + ngLogPData F prior post.alpha post.beta post.kappa y.length

/-- `_compute_log_p_data_split` (regression.py:39-68). -/
def regLogSplitSq (sq : K → K) (F : Fns K) (partitionPrior : K) (level : Nat) (y : List K) (prior : NG K)
    (nDim : Nat) (splitIndices : List Nat) : List K :=
  let n := y.length
  let n1 : List Nat := (List.range (n - 1)).map (1 + ·)
  let n2 : List Nat := n1.map (n - ·)
  let ySum1 := (cumsum y).dropLast
  let ySum2 := ySum1.map (y.sum - ·)
  let ySq1 := cumsum (y.dropLast.map sq)
  let ySq2 := ySq1.map ((y.map sq).sum - ·)
  let sm1 := splitIndices.map (· - 1)
  let all := splitIndices.length == y.length - 1
  let n1 := if all then n1 else gatherD 0 n1 sm1
  let n2 := if all then n2 else gatherD 0 n2 sm1
  let ySum1 := if all then ySum1 else gatherD 0 ySum1 sm1
  let ySum2 := if all then ySum2 else gatherD 0 ySum2 sm1
  let ySq1 := if all then ySq1 else gatherD 0 ySq1 sm1
  let ySq2 := if all then ySq2 else gatherD 0 ySq2 sm1
  let nSplits := splitIndices.length
  let logPPrior := F.log (partitionPrior ^ (1 + level) / ((nSplits : K) * (nDim : K)))
  (List.range nSplits).map fun j =>
    let p1 := ngPosterior prior (n1.getD j 0) (ySum1.getD j 0) (ySq1.getD j 0) 1
    let p2 := ngPosterior prior (n2.getD j 0) (ySum2.getD j 0) (ySq2.getD j 0) 1
    logPPrior + ngLogPData F prior p1.alpha p1.beta p1.kappa (n1.getD j 0)
      + ngLogPData F prior p2.alpha p2.beta p2.kappa (n2.getD j 0)

/-- The regression implementation with element-wise square `sq`. -/
def regTargetSq (sq : K → K) (F : Fns K) : Target K (NG K) K K where
  getPrior := regGetPrior
  logNoSplit := regLogNoSplitSq sq F
  logSplit := regLogSplitSq sq F
  posterior := regPosteriorSq sq
  predictLeaf := fun p => p.mu
  posteriorMean := fun p => p.mu

/-- `y ** 2` of one target in the integer dtype `t`. -/
def wrapSq [FloorRing K] (t : IntTy) (v : K) : K := ((t.wrap (⌊v⌋ * ⌊v⌋) : Int) : K)

end BT
