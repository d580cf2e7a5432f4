import Verif.Spec.Perp
import Mathlib.Algebra.BigOperators.Group.List.Basic

/-!
# Textbook likelihoods

Conjugate updates and marginal likelihoods as functions of a list of targets, without cumulative sums,
index arrays or sums of squares.
-/

namespace BT.Spec

section
variable {K : Type} [Field K] [LinearOrder K]

/-- Number of targets equal to class `i`. -/
def count (ys : List K) (i : Nat) : Nat := (ys.filter fun v => v = (i : K)).length

/-- Dirichlet posterior: concentration plus class count. -/
def dirichletPosterior (prior : List K) (ys : List K) : List K :=
  prior.mapIdx fun i a => a + (count ys i : K)

/-- Logarithm of the multivariate Beta function. -/
def logBeta (F : Fns K) (alphas : List K) : K :=
  if alphas.length = 2 then F.betaln (alphas.getD 0 0) (alphas.getD 1 0)
  else (alphas.map F.gammaln).sum - F.gammaln alphas.sum

/-- Log marginal likelihood of class labels under a Dirichlet prior. -/
def dirichletMarginal (F : Fns K) (prior : List K) (ys : List K) : K :=
  logBeta F (dirichletPosterior prior ys) - logBeta F prior

/-- Sample mean. -/
def mean (ys : List K) : K := ys.sum / (ys.length : K)

/-- Sum of squared deviations from the sample mean. -/
def sqDev (ys : List K) : K := (ys.map fun v => (v - mean ys) ^ 2).sum

/-- Normal-gamma posterior (Murphy, "Conjugate Bayesian analysis of the Gaussian distribution",
equations (86)-(89)). -/
def ngPosterior (p : NG K) (ys : List K) : NG K where
  mu := (p.kappa * p.mu + (ys.length : K) * mean ys) / (p.kappa + (ys.length : K))
  kappa := p.kappa + (ys.length : K)
  alpha := p.alpha + (ys.length : K) / 2
  beta := p.beta + sqDev ys / 2
    + p.kappa * (ys.length : K) * (mean ys - p.mu) ^ 2 / (2 * (p.kappa + (ys.length : K)))

/-- Log marginal likelihood under a Normal-gamma prior (ibid., equation (95)). -/
def ngMarginal (F : Fns K) (p : NG K) (ys : List K) : K :=
  let q := ngPosterior p ys
  F.gammaln q.alpha - F.gammaln p.alpha + p.alpha * F.log p.beta - q.alpha * F.log q.beta
    + F.log (p.kappa / q.kappa) / 2 - (ys.length : K) / 2 * F.log (2 * F.pi)

/-- Prior log probability of one particular split at level `lv`, shared equally among the `ns`
candidates along each of the `nd` dimensions. -/
def logSplitPrior (F : Fns K) (pp : K) (lv nd ns : Nat) : K :=
  F.log (pp ^ (lv + 1) / ((ns : K) * (nd : K)))

/-- Prior log probability of not splitting at level `lv`. -/
def logStayPrior (F : Fns K) (pp : K) (lv : Nat) : K := F.log (1 - pp ^ (lv + 1))

/-- Pair score of classification. -/
def clsPair (F : Fns K) : PairScore K (List K) K := fun pp lv prior nd ns a b =>
  logSplitPrior F pp lv nd ns + dirichletMarginal F prior a + dirichletMarginal F prior b

/-- Pair score of regression. -/
def regPair (F : Fns K) : PairScore K (NG K) K := fun pp lv prior nd ns a b =>
  logSplitPrior F pp lv nd ns + ngMarginal F prior a + ngMarginal F prior b

end

end BT.Spec
