import Verif.Model.Target
import Verif.Model.XF

/-!
# Regression targets with NaN and infinite values

`_check_target` of a regression tree only looks at `y.ndim` (regression.py:25-27), so that `fit` accepts targets with NaN or
infinite entries.  The functions of regression.py restated for float64 values up to rounding; the operations follow
IEEE 754 (a zero divisor counts as `+0`).  On finite values they agree with `Model/Target.lean`
(`Props/XTarget.lean`, `C92_finite_*`).
-/

namespace BT

namespace XF
variable {K : Type} [Field K] [LinearOrder K]

/-- An infinity with the sign of `a`, NaN for `a = 0`. -/
def signed (a : K) : XF K := if a = 0 then nan else if 0 < a then pinf else ninf

/-- IEEE `a * b`. -/
def mul : XF K → XF K → XF K
  | nan, _ => nan
  | _, nan => nan
  | fin a, fin b => fin (a * b)
  | pinf, fin b => signed b
  | ninf, fin b => signed (-b)
  | fin a, pinf => signed a
  | fin a, ninf => signed (-a)
  | pinf, pinf => pinf
  | ninf, ninf => pinf
  | pinf, ninf => ninf
  | ninf, pinf => ninf

/-- IEEE `a / b`. -/
def div : XF K → XF K → XF K
  | nan, _ => nan
  | _, nan => nan
  | fin a, fin b => if b = 0 then signed a else fin (a / b)
  | fin _, _ => fin 0
  | pinf, fin b => if 0 ≤ b then pinf else ninf
  | ninf, fin b => if 0 ≤ b then ninf else pinf
  | _, _ => nan

instance : Add (XF K) := ⟨add⟩
instance : Neg (XF K) := ⟨neg⟩
instance : Sub (XF K) := ⟨fun a b => add a (neg b)⟩
instance : Mul (XF K) := ⟨mul⟩
instance : Div (XF K) := ⟨div⟩
instance : Zero (XF K) := ⟨fin 0⟩
instance : One (XF K) := ⟨fin 1⟩
instance : LT (XF K) := ⟨fun a b => lt a b = true⟩
instance : LE (XF K) := ⟨fun a b => ge b a = true⟩
instance : DecidableLT (XF K) := fun a b => inferInstanceAs (Decidable (lt a b = true))
instance : DecidableLE (XF K) := fun a b => inferInstanceAs (Decidable (ge b a = true))

/-- An integer converted to float64. -/
def nat (n : Nat) : XF K := fin (n : K)

/-- `a ** n` for an integer exponent `n ≥ 1`. -/
def pow (a : XF K) : Nat → XF K
  | 0 => 1
  | 1 => a
  | n + 2 => pow a (n + 1) * a

end XF

/-- `log`, `gammaln` and `pi` on such values. -/
structure XFns (K : Type) where
  log : XF K → XF K
  gammaln : XF K → XF K
  pi : XF K

section
variable {K : Type} [Field K] [LinearOrder K]

/-- `np.log` and `scipy.special.gammaln` outside the positive numbers (regression.py:34, 63, 113-116): the logarithm of 0 is
`-inf`, of negative numbers and NaN is NaN. -/
def ieeeFns (F : Fns K) : XFns K where
  log
    | .nan => .nan
    | .ninf => .nan
    | .pinf => .pinf
    | .fin a => if 0 < a then .fin (F.log a) else if a = 0 then .ninf else .nan
  gammaln
    | .nan => .nan
    | .ninf => .pinf
    | .pinf => .pinf
    | .fin a => .fin (F.gammaln a)
  pi := .fin F.pi

/-- `_compute_posterior_internal` (regression.py:93-104). -/
def ngPosteriorX (prior : NG (XF K)) (n : Nat) (ySum ySquaredSum delta : XF K) : NG (XF K) :=
  let nDelta := XF.nat n * delta
  let kappaPost := prior.kappa + nDelta
  let muPost := (prior.kappa * prior.mu + nDelta * ySum / XF.nat n) / kappaPost
  let alphaPost := prior.alpha + .fin (1 / 2) * nDelta
  let betaPost := prior.beta + .fin (1 / 2) * delta * (ySquaredSum - XF.pow ySum 2 / XF.nat n)
    + .fin (1 / 2) * prior.kappa * nDelta * XF.pow (ySum / XF.nat n - prior.mu) 2 / (prior.kappa + XF.nat n)
  ⟨muPost, kappaPost, alphaPost, betaPost⟩

/-- `_compute_posterior` (regression.py:83-91). -/
def regPosteriorX (y : List (XF K)) (prior : NG (XF K)) (delta : XF K) : NG (XF K) :=
  if delta = 0 then prior
  else ngPosteriorX prior y.length y.sum (y.map fun v => XF.pow v 2).sum delta

/-- `_compute_log_p_data` (regression.py:109-116). -/
def ngLogPDataX (F : XFns K) (prior : NG (XF K)) (alphaNew betaNew kappaNew : XF K) (nNew : Nat) : XF K :=
  F.gammaln alphaNew - F.gammaln prior.alpha
    + prior.alpha * F.log prior.beta - alphaNew * F.log betaNew
    + .fin (1 / 2) * F.log (prior.kappa / kappaNew)
    - .fin (1 / 2) * XF.nat nNew * F.log (.fin 2 * F.pi)

/-- `_compute_log_p_data_no_split` (regression.py:29-37). -/
def regLogNoSplitX (F : XFns K) (partitionPrior : XF K) (level : Nat) (y : List (XF K)) (prior : NG (XF K)) : XF K :=
  let ySum := y.sum
  let ySquaredSum := (y.map fun v => XF.pow v 2).sum
  let n := y.length
  let post := ngPosteriorX prior n ySum ySquaredSum 1
  let logPPrior := F.log (1 - XF.pow partitionPrior (1 + level))
  logPPrior + ngLogPDataX F prior post.alpha post.beta post.kappa n

/-- `_compute_log_p_data_split` (regression.py:39-68). -/
def regLogSplitX (F : XFns K) (partitionPrior : XF K) (level : Nat) (y : List (XF K)) (prior : NG (XF K))
    (nDim : Nat) (splitIndices : List Nat) : List (XF K) :=
  let n := y.length
  let n1 : List Nat := (List.range (n - 1)).map (1 + ·)
  let n2 : List Nat := n1.map (n - ·)
  let ySum1 := (cumsum y).dropLast
  let ySum2 := ySum1.map (y.sum - ·)
  let ySq1 := cumsum (y.dropLast.map fun v => XF.pow v 2)
  let ySq2 := ySq1.map ((y.map fun v => XF.pow v 2).sum - ·)
  let sm1 := splitIndices.map (· - 1)
  let all := splitIndices.length == y.length - 1
  let n1 := if all then n1 else gatherD 0 n1 sm1
  let n2 := if all then n2 else gatherD 0 n2 sm1
  let ySum1 := if all then ySum1 else gatherD 0 ySum1 sm1
  let ySum2 := if all then ySum2 else gatherD 0 ySum2 sm1
  let ySq1 := if all then ySq1 else gatherD 0 ySq1 sm1
  let ySq2 := if all then ySq2 else gatherD 0 ySq2 sm1
  let nSplits := splitIndices.length
  let logPPrior := F.log (XF.pow partitionPrior (1 + level) / (XF.nat nSplits * XF.nat nDim))
  (List.range nSplits).map fun j =>
    let p1 := ngPosteriorX prior (n1.getD j 0) (ySum1.getD j 0) (ySq1.getD j 0) 1
    let p2 := ngPosteriorX prior (n2.getD j 0) (ySum2.getD j 0) (ySq2.getD j 0) 1
    logPPrior + ngLogPDataX F prior p1.alpha p1.beta p1.kappa (n1.getD j 0)
      + ngLogPDataX F prior p2.alpha p2.beta p2.kappa (n2.getD j 0)

/-- `_get_prior` (regression.py:70-81). -/
def regGetPriorX (prior : Option (NG (XF K))) (nData _nDim : Nat) : NG (XF K) :=
  match prior with
  | some p => p
  | none =>
    let count : K := ((max 1 (nData / 100) : Nat) : K)
    ⟨.fin 0, .fin count, .fin (count / 2), .fin (count / 2 / 1)⟩

/-- The regression methods on such values. -/
def regTargetX (F : XFns K) : Target (XF K) (NG (XF K)) (XF K) (XF K) where
  getPrior := regGetPriorX
  logNoSplit := regLogNoSplitX F
  logSplit := regLogSplitX F
  posterior := regPosteriorX
  predictLeaf := fun p => p.mu
  posteriorMean := fun p => p.mu

end

end BT
