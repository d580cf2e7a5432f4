import Verif.Model.XF
import Verif.Model.Rounding

/-!
# Arithmetic on feature values with rounding, overflow and underflow
-/

namespace BT
section
variable {K : Type} [Field K] [LinearOrder K]

/-- The result of a floating-point operation: the exact result rounded by `rnd`, infinite if this exceeds the largest
float `M`. -/
def XF.rounded (rnd : K → K) (M : K) : XF K → XF K
  | .fin x => if M < rnd x then .pinf else if rnd x < -M then .ninf else .fin (rnd x)
  | a => a

/-- The operations of base_perpendicular.py in floating-point arithmetic: the difference (116), the sum and the product with
0.5 (146-149) are rounded.  Comparisons and `np.abs` are exact. -/
def floatOps (rnd : K → K) (M : K) : XOps (XF K) K where
  le := XF.sortLe
  lt := XF.lt
  ge := XF.ge
  gap prec a b := XF.absGt prec (XF.rounded rnd M (XF.add b (XF.neg a)))
  mid a b := XF.rounded rnd M (XF.half (XF.rounded rnd M (XF.add a b)))

/-- The largest float64, `sys.float_info.max`. -/
def max64 (K : Type) [Field K] : K := (2 ^ 53 - 1) * 2 ^ 971

variable [FloorRing K] [IsStrictOrderedRing K]

/-- Rounding to float64 before overflow: 53 binary digits, but no digits below `2^-1074` (IEEE 754, gradual underflow). -/
def rnd64 (x : K) : K :=
  if |x| < 2 ^ (-1021 : Int) then (roundEven (x / 2 ^ (-1074 : Int)) : K) * 2 ^ (-1074 : Int) else rndFloat 53 x

end
end BT
