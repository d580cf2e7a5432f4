import Mathlib.Algebra.Order.Field.Basic
import Mathlib.Algebra.BigOperators.Group.List.Basic

/-!
# Rounded arithmetic: what is assumed of it
-/

namespace BT.Spec
variable {K : Type} [Field K] [LinearOrder K]

/-- Rounding changes a number by at most the fraction `u` of it (float64: `u = 2^-53`). -/
def RelRound (u : K) (r : K → K) : Prop := ∀ x, |r x - x| ≤ u * |x|

/-- `s` is obtained from the numbers `l` by rounded additions, in any order and with any brackets. -/
inductive FloatSum (r : K → K) : List K → K → Prop
  | one (x : K) : FloatSum r [x] x
  | add {l m : List K} {a b : K} : FloatSum r l a → FloatSum r m b → FloatSum r (l ++ m) (r (a + b))
  | perm {l m : List K} {a : K} : FloatSum r l a → l.Perm m → FloatSum r m a

end BT.Spec
