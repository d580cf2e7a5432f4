import Mathlib.Algebra.Order.Field.Basic

/-!
# What rounding to nearest is
-/

namespace BT.Spec
variable {K : Type} [Field K] [LinearOrder K]

/-- `rnd` rounds to a nearest member of `F` (any rule for ties), never to zero unless the number is zero,
and `F` is closed under scaling by two. -/
structure RoundsTo (F : K → Prop) (rnd : K → K) : Prop where
  mem : ∀ x, F (rnd x)
  near : ∀ x f, F f → |rnd x - x| ≤ |f - x|
  ne_zero : ∀ x, x ≠ 0 → rnd x ≠ 0
  double : ∀ x, F x → F (2 * x)
  half : ∀ x, F x → F ((1 / 2) * x)

/-- Binary floating-point numbers with `p` digits and unbounded exponent. -/
def IsFloat (p : Nat) (x : K) : Prop := ∃ m e : Int, |m| ≤ 2 ^ p ∧ x = (m : K) * 2 ^ e

end BT.Spec
