import Verif.Model.Target
import Mathlib.Analysis.SpecialFunctions.Gamma.Basic
import Mathlib.Analysis.SpecialFunctions.Log.Basic

/-!
# The special functions over the reals
-/

namespace BT

/-- `np.log`, `scipy.special.gammaln` (logarithm of |Γ|), `scipy.special.betaln` (logarithm of |B|,
`B(a,b) = Γ(a)Γ(b)/Γ(a+b)`) and `np.pi` as exact real functions (utils.py:4, 7-12, regression.py:8,
113-116).  Floating-point rounding of these functions is not modelled. -/
noncomputable def realFns : Fns ℝ where
  log := Real.log
  gammaln x := Real.log |Real.Gamma x|
  betaln a b := Real.log |Real.Gamma a * Real.Gamma b / Real.Gamma (a + b)|
  pi := Real.pi

end BT
