import Verif.Spec.Target
import Mathlib.Analysis.SpecialFunctions.Log.Basic
import Mathlib.Analysis.SpecialFunctions.Gamma.Basic

/-!
# Specification: maximum likelihood of normal distributions
-/

namespace BT.Spec

/-- Log-likelihood of independent normal observations with mean `m` and variance `v`. -/
noncomputable def normalLogLik (ys : List ℝ) (m v : ℝ) : ℝ :=
  -((ys.length : ℝ) / 2 * Real.log (2 * Real.pi * v)) - (ys.map fun y => (y - m) ^ 2).sum / (2 * v)

/-- Variance of a sample. -/
noncomputable def sampleVariance (ys : List ℝ) : ℝ := sqDev ys / (ys.length : ℝ)

/-- Log-likelihood under mean and variance of the sample. -/
noncomputable def maxNormal (ys : List ℝ) : ℝ := normalLogLik ys (mean ys) (sampleVariance ys)

/-- How far the log marginal likelihood can be below the log-likelihood under the sample mean and variance `v`;
for fixed `v` grows with the logarithm of the number of observations. -/
noncomputable def ngSlack (p : NG ℝ) (ys : List ℝ) (v : ℝ) : ℝ :=
  Real.log (p.alpha + (ys.length : ℝ) / 2) + Real.log (1 + (ys.length : ℝ) / p.kappa) / 2 +
    (p.beta + p.kappa * (mean ys - p.mu) ^ 2 / 2) / v + p.alpha * Real.log v +
    (Real.log (Real.Gamma p.alpha) - p.alpha * Real.log p.beta)

end BT.Spec
