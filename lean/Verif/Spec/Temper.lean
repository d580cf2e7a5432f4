import Verif.Model.Target
import Mathlib.Analysis.SpecialFunctions.Pow.Real

/-!
# Specification: observations that count with weight `delta`

Densities up to a constant factor; no update formulas.
-/

namespace BT.Spec

/-- Normal-gamma density of mean `m` and precision `lam`, up to a constant factor. -/
noncomputable def ngKernel (p : NG ℝ) (m lam : ℝ) : ℝ :=
  lam ^ (p.alpha - 1 / 2) * Real.exp (-(p.beta * lam)) * Real.exp (-(p.kappa * lam * (m - p.mu) ^ 2 / 2))

/-- Likelihood of independent normal observations with mean `m` and precision `lam`, up to a constant
factor. -/
noncomputable def normalKernel (ys : List ℝ) (m lam : ℝ) : ℝ :=
  (ys.map fun y => Real.sqrt lam * Real.exp (-(lam * (y - m) ^ 2 / 2))).prod

/-- `q` is the posterior of prior `p` when every observation in `ys` counts with weight `δ`: the density of
`q` is proportional to the density of `p` times the likelihood to the power `δ`. -/
def IsTempered (p : NG ℝ) (ys : List ℝ) (δ : ℝ) (q : NG ℝ) : Prop :=
  ∃ C : ℝ, 0 < C ∧ ∀ m lam : ℝ, 0 < lam → ngKernel p m lam * normalKernel ys m lam ^ δ = C * ngKernel q m lam

/-- Dirichlet density at class probabilities `θ`, up to a constant factor. -/
noncomputable def dirichletKernel (alpha : List ℝ) (θ : Nat → ℝ) : ℝ :=
  (alpha.mapIdx fun i a => θ i ^ (a - 1)).prod

/-- Likelihood of class labels. -/
noncomputable def categoricalKernel (labels : List Nat) (θ : Nat → ℝ) : ℝ := (labels.map θ).prod

/-- `q` is the Dirichlet posterior when every label counts with weight `δ`. -/
def IsTemperedDirichlet (p : List ℝ) (labels : List Nat) (δ : ℝ) (q : List ℝ) : Prop :=
  q.length = p.length ∧ ∀ θ : Nat → ℝ, (∀ i, 0 < θ i) →
    dirichletKernel p θ * categoricalKernel labels θ ^ δ = dirichletKernel q θ

end BT.Spec
