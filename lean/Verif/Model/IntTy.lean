import Verif.Model.Basic
import Mathlib.Algebra.Order.Ring.Int

/-!
# Integer data matrices (numpy int8 … uint32)

`_ensure_float64` returns integer matrices unchanged (base.py:227-231), so the fit sorts, subtracts
and adds in the integer dtype, where results wrap around.  Only thresholds are floats.
The conversion of a sum to float64 is exact for up to 32 bits; for int64 and uint64 it may round,
which is not modelled.
-/

namespace BT

/-- A fixed-width integer dtype. -/
structure IntTy where
  bits : Nat
  signed : Bool
  deriving DecidableEq, Repr

namespace IntTy

/-- `np.int8` -/
def int8 : IntTy := ⟨8, true⟩
/-- `np.uint8` -/
def uint8 : IntTy := ⟨8, false⟩

/-- Smallest value. -/
def lo (t : IntTy) : Int := if t.signed then -2 ^ (t.bits - 1) else 0
/-- Largest value. -/
def hi (t : IntTy) : Int := if t.signed then 2 ^ (t.bits - 1) - 1 else 2 ^ t.bits - 1

/-- Two's complement wrap-around of the exact result `z`. -/
def wrap (t : IntTy) (z : Int) : Int :=
  if t.signed then (z + 2 ^ (t.bits - 1)) % 2 ^ t.bits - 2 ^ (t.bits - 1) else z % 2 ^ t.bits

/-- `np.abs` in the dtype: the absolute value of the smallest signed value wraps to itself. -/
def abs (t : IntTy) (z : Int) : Int := t.wrap |z|

end IntTy

/-- A number met by a fit on integer data: a matrix entry, or the float `0.5 * z` stored as a
threshold. -/
inductive IV where
  | data (z : Int)
  | half (z : Int)
  deriving DecidableEq, Repr

namespace IV

/-- Twice the value, an integer. -/
def twice : IV → Int
  | data z => 2 * z
  | half z => z

/-- The integer of a matrix entry (the fit never does integer arithmetic on thresholds). -/
def num : IV → Int
  | data z => z
  | half z => z

end IV

/-- The operations of base_perpendicular.py on a matrix of integer dtype `t`: comparisons (99, 196,
197) are exact, `np.diff` and `np.abs` (116) and the sum of the midpoint (146-149) wrap around. -/
def intOps (t : IntTy) (K : Type) [Field K] [LinearOrder K] : XOps IV K where
  le a b := decide (a.twice ≤ b.twice)
  lt x v := decide (x.twice < v.twice)
  ge x v := decide (v.twice ≤ x.twice)
  gap prec a b := decide (prec < ((t.abs (t.wrap (b.num - a.num)) : Int) : K))
  mid a b := .half (t.wrap (a.num + b.num))

end BT
