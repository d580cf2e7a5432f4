import Verif.Spec.Target
import Mathlib.Analysis.SpecialFunctions.Log.Basic
import Mathlib.Analysis.SpecialFunctions.Trigonometric.Basic
import Mathlib.Algebra.BigOperators.Fin

/-!
# Specification: maximum likelihood

Log-likelihoods of labels under class probabilities, of real targets under a normal distribution, and what
their maxima are.
-/

namespace BT.Spec

/-- The targets are class labels `0, …, m - 1`. -/
def LabelsBelow (m : Nat) (ys : List ℝ) : Prop := ∀ v ∈ ys, ∃ k < m, v = (k : ℝ)

/-- Log-likelihood of class labels under class probabilities. -/
noncomputable def labelLogLik {m : Nat} (θ : Fin m → ℝ) (ys : List ℝ) : ℝ :=
  ∑ j : Fin m, (count ys j : ℝ) * Real.log (θ j)

/-- Relative frequencies of the classes. -/
noncomputable def frequencies (m : Nat) (ys : List ℝ) (j : Fin m) : ℝ := (count ys j : ℝ) / (ys.length : ℝ)

/-- Log-likelihood under the relative frequencies. -/
noncomputable def maxLogLik (m : Nat) (ys : List ℝ) : ℝ := labelLogLik (frequencies m ys) ys

/-- Gain in maximal log-likelihood from describing two groups of labels separately. -/
noncomputable def infoGain (m : Nat) (A B : List ℝ) : ℝ :=
  maxLogLik m A + maxLogLik m B - maxLogLik m (A ++ B)

/-- How far the log marginal likelihood can be below the maximal log-likelihood; grows with the logarithm of
the number of labels. -/
noncomputable def slack (p : List ℝ) (ys : List ℝ) : ℝ :=
  ∑ j : Fin p.length, Real.log (1 + (count ys j : ℝ) / p[j]) + p.sum * Real.log (1 + (ys.length : ℝ))

end BT.Spec
