import Verif.Model.Overflow
import Verif.Spec.Rounding

/-!
# Floating-point formats
-/

namespace BT.Spec

section
variable {K : Type} [Field K] [LinearOrder K]

/-- What is used of a floating-point format with numbers `F`, which may be arbitrarily large, and rounding `rnd`: numbers
are rounded to nearest, different numbers have a difference other than zero, doubling is exact, and halving a sum is exact
unless the sum was. -/
structure FloatFormat (F : K → Prop) (rnd : K → K) : Prop where
  zero : F 0
  mem : ∀ x, F (rnd x)
  near : ∀ x f, F f → |rnd x - x| ≤ |f - x|
  difference : ∀ a b, F a → F b → a ≠ b → rnd (b - a) ≠ 0
  double : ∀ x, F x → F (2 * x)
  half : ∀ a b, F a → F b → F ((1 / 2) * rnd (a + b)) ∨ rnd (a + b) = a + b

/-- Multiples of `2^-1074` with 53 binary digits. -/
def IsFloat64 (x : K) : Prop := ∃ m e : Int, |m| ≤ 2 ^ 53 ∧ -1074 ≤ e ∧ x = (m : K) * 2 ^ e

end
end BT.Spec
