import Verif.Model.Basic
import Mathlib.Data.Int.Log
import Mathlib.Algebra.Order.Floor.Defs

/-!
# Floating-point rounding of the arithmetic on feature values

Overflow and underflow are not modelled: the exponent is unbounded.
-/

namespace BT
section
variable {K : Type} [Field K] [LinearOrder K]

/-- The operations of base_perpendicular.py with every arithmetic operation rounded by `rnd`: the
difference (116), the sum and the product with 0.5 (146-149).  Comparisons and `np.abs` are exact. -/
def roundOps (rnd : K → K) : XOps K K where
  le a b := decide (a ≤ b)
  lt x v := decide (x < v)
  ge x v := decide (v ≤ x)
  gap prec a b := decide (prec < |rnd (b - a)|)
  mid a b := rnd ((1 / 2) * rnd (a + b))

variable [FloorRing K]

/-- The nearest integer, ties to even. -/
def roundEven (x : K) : Int :=
  if x - ⌊x⌋ < 1 / 2 then ⌊x⌋
  else if 1 / 2 < x - ⌊x⌋ then ⌊x⌋ + 1
  else if Even ⌊x⌋ then ⌊x⌋ else ⌊x⌋ + 1

variable [IsStrictOrderedRing K]

/-- IEEE round-to-nearest-even to `p` binary digits (float64: `p = 53`). -/
def rndFloat (p : Nat) (x : K) : K :=
  (roundEven (x / 2 ^ (Int.log 2 |x| + 1 - p)) : K) * 2 ^ (Int.log 2 |x| + 1 - p)

end
end BT
