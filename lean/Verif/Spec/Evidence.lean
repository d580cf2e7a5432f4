import Verif.Model.Target
import Mathlib.Probability.Distributions.Gamma
import Mathlib.Probability.Distributions.Gaussian.Real
import Mathlib.MeasureTheory.Integral.IntervalIntegral.Basic

/-!
# Specification: evidence and posterior

The statistical model behind regression trees, in terms of Mathlib's probability distributions: a Gamma
distributed precision, a normally distributed mean, normal observations.  The one behind classification
trees: class probabilities with a Dirichlet density on the simplex, independent labels.
-/

open MeasureTheory ProbabilityTheory

namespace BT.Spec

/-- Variance belonging to a precision. -/
noncomputable def varianceOf (precision : ℝ) : NNReal := precision⁻¹.toNNReal

/-- Likelihood of independent normal observations with mean `m` and precision `τ`. -/
noncomputable def normalLikelihood (ys : List ℝ) (m τ : ℝ) : ℝ :=
  (ys.map fun y => gaussianPDFReal m (varianceOf τ) y).prod

/-- Normal-gamma density: the precision is Gamma distributed with shape `alpha` and rate `beta`, the mean
normal around `mu` with precision `kappa * τ`. -/
noncomputable def ngDensity (p : NG ℝ) (m τ : ℝ) : ℝ :=
  gammaPDFReal p.alpha p.beta τ * gaussianPDFReal p.mu (varianceOf (p.kappa * τ)) m

/-- Expectation of a function of mean and precision under the Normal-gamma distribution. -/
noncomputable def ngExpectation (p : NG ℝ) (f : ℝ → ℝ → ℝ) : ℝ :=
  ∫ τ, (∫ m, f m τ ∂gaussianReal p.mu (varianceOf (p.kappa * τ))) ∂gammaMeasure p.alpha p.beta

/-- Probability density of the observations: the likelihood averaged over the prior. -/
noncomputable def ngEvidence (p : NG ℝ) (ys : List ℝ) : ℝ := ngExpectation p (normalLikelihood ys)

/-- Parameters for which the Normal-gamma distribution exists. -/
def ProperNG (p : NG ℝ) : Prop := 0 < p.kappa ∧ 0 < p.alpha ∧ 0 < p.beta

/-- Integral over the points `θ` of the simplex `θ_1 + … + θ_k = c`, `θ_i ≥ 0`, as an iterated integral over
all coordinates but the last. -/
noncomputable def simplexIntegral : Nat → ℝ → (List ℝ → ℝ) → ℝ
  | 0, _, _ => 0
  | 1, c, f => f [c]
  | k + 2, c, f => ∫ x in (0 : ℝ)..c, simplexIntegral (k + 1) (c - x) fun θ => f (x :: θ)

/-- Density of the Dirichlet distribution. -/
noncomputable def dirichletDensity (alpha θ : List ℝ) : ℝ :=
  Real.Gamma alpha.sum / (alpha.map Real.Gamma).prod * (List.zipWith (fun a t => t ^ (a - 1)) alpha θ).prod

/-- Probability of the labels given the class probabilities. -/
noncomputable def labelLikelihood (labels : List Nat) (θ : List ℝ) : ℝ := (labels.map fun k => θ.getD k 0).prod

/-- Expectation of a function of the class probabilities under the Dirichlet distribution. -/
noncomputable def dirichletExpectation (alpha : List ℝ) (f : List ℝ → ℝ) : ℝ :=
  simplexIntegral alpha.length 1 fun θ => dirichletDensity alpha θ * f θ

/-- Probability of the labels: their likelihood averaged over the prior. -/
noncomputable def dirichletEvidence (alpha : List ℝ) (labels : List Nat) : ℝ :=
  dirichletExpectation alpha (labelLikelihood labels)

/-- Parameters for which the Dirichlet distribution exists. -/
def ProperDirichlet (alpha : List ℝ) : Prop := alpha ≠ [] ∧ ∀ a ∈ alpha, 0 < a

end BT.Spec
