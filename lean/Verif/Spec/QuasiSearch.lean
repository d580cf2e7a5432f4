import Verif.Spec.HyperClosed

/-!
# Specification: no direction is better

Real numbers; the directions are the unit vectors with nonnegative first entry.
-/

namespace BT.Spec

/-- No two neighbouring rows that are different points have coordinates that differ by exactly the precision:
small changes of the direction do not change which positions are considered. -/
def Stable (prec : ℝ) (X : Nat → Nat → ℝ) (R : List Nat) (w : List ℝ) : Prop :=
  ∀ k i j, R[k]? = some i → R[k + 1]? = some j → |along w (X j) - along w (X i)| = prec →
    ∀ d < w.length, X i d = X j d

/-- The unit vectors of dimension `m` with nonnegative first entry. -/
def HalfSphere (m : Nat) (w : List ℝ) : Prop :=
  w.length = m ∧ (w.map fun a => a ^ 2).sum = 1 ∧ 0 ≤ w.getD 0 0

/-- No position along any stable direction scores more than `b`; where rows have equal coordinates, in one of
their orders. -/
def NoneBetter {P : Type} (F : Fns ℝ) (ml : P → List ℝ → ℝ) (q : HProb ℝ P ℝ) (b : ℝ) : Prop :=
  ∀ w, HalfSphere q.nDim w → Stable q.prec q.X q.rows w → ∃ order, IsSweep q.X q.rows w order ∧
    ∀ k, Considered q.prec q.X q.rows w k → sweepScore F ml q w order k ≤ b

end BT.Spec
