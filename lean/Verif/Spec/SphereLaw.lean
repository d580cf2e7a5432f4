import Mathlib.MeasureTheory.Constructions.Pi
import Mathlib.Analysis.Real.Sqrt
import Mathlib.MeasureTheory.Measure.Lebesgue.EqHaar

/-!
# Specification: uniform directions

A direction is uniform on the sphere when the probability of a set of directions is the fraction of the
volume of the ball that lies in these directions.
-/

namespace BT.Spec

/-- The unit cube. -/
def unitCube (D : Nat) : Set (Fin D → ℝ) := {p | ∀ i, 0 ≤ p i ∧ p i ≤ 1}

/-- The unit ball without its centre, or the half of it with positive first coordinate. -/
def unitBall (half : Bool) (n : Nat) : Set (Fin n → ℝ) :=
  {w | 0 < ∑ i, w i ^ 2 ∧ ∑ i, w i ^ 2 ≤ 1 ∧ (half = true → ∀ i, i.val = 0 → 0 < w i)}

/-- The part of it seen from the centre in the directions `A`. -/
def sector (half : Bool) {n : Nat} (A : Set (Fin n → ℝ)) : Set (Fin n → ℝ) :=
  {w | w ∈ unitBall half n ∧ (fun i => w i / Real.sqrt (∑ j, w j ^ 2)) ∈ A}

open Classical in
/-- The share of the first `N` indices with the property. -/
noncomputable def share (p : Nat → Prop) (N : Nat) : ℝ := (((Finset.range N).filter p).card : ℝ) / (N : ℝ)

end BT.Spec
