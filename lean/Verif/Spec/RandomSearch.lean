import Verif.Model.Optimize
import Mathlib.Probability.Distributions.Gaussian.Real
import Mathlib.Probability.Independence.Basic

/-!
# Specification: a generator of independent standard normal numbers
-/

namespace BT.Spec

open MeasureTheory ProbabilityTheory

/-- Asked repeatedly for `d` normal numbers, the generator returns `z 0`, `z 1`, ... -/
def Drawn {R : Type} (G : Rng R ℝ) {d : Nat} (z : Nat → Fin d → ℝ) : Prop :=
  ∃ s : Nat → R, s 0 = G.init ∧ ∀ i, G.normal d (s i) = (List.ofFn (z i), s (i + 1))

/-- All numbers drawn are independent with the standard normal distribution. -/
structure NormalDraws {Ω : Type} [MeasurableSpace Ω] (μ : Measure Ω) {d : Nat} (Z : Nat → Ω → Fin d → ℝ) : Prop where
  measurable : ∀ i, Measurable (Z i)
  independent : iIndepFun Z μ
  law : ∀ i, μ.map (Z i) = Measure.pi fun _ => gaussianReal 0 1

/-- The direction of a vector. -/
noncomputable def direction {d : Nat} (z : Fin d → ℝ) : Fin d → ℝ := fun i => z i / Real.sqrt (∑ j, z j ^ 2)

end BT.Spec
