import Verif.Model.ClsFloat
import Verif.Spec.FloatSum
import Mathlib.Analysis.SpecialFunctions.Gamma.Basic
import Mathlib.Analysis.SpecialFunctions.Log.Basic

/-!
# Classification in floating-point arithmetic: assumptions and error bound
-/

namespace BT.Spec

/-- `log Γ`. -/
noncomputable def lgam (x : ℝ) : ℝ := Real.log (Real.Gamma x)

/-- What is assumed of the library: every operation and the logarithm have relative error at most `u`, counts up to
`n` are represented exactly, `np.sum` adds the numbers in some order, and `gammaln` and `betaln` are accurate to the
fraction `u` of the numbers that they are computed from. -/
structure AccurateLib (u : ℝ) (n : Nat) (L : ClsLib ℝ) : Prop where
  nonneg : 0 ≤ u
  round : RelRound u L.r
  counts : ∀ k : Nat, k ≤ n → L.r k = k
  sum : ∀ l, l ≠ [] → FloatSum L.r l (L.sum l)
  log : ∀ x, 0 < x → |L.log x - Real.log x| ≤ u * |Real.log x|
  gammaln : ∀ x, 0 < x → |L.gammaln x - lgam x| ≤ u * (1 + |lgam x|)
  betaln : ∀ a b, 0 < a → 0 < b →
    |L.betaln a b - (lgam a + lgam b - lgam (a + b))| ≤ u * (1 + |lgam a| + |lgam b| + |lgam (a + b)|)

/-- The size of `log Γ` between `lo / 2` and `2 * hi`. -/
noncomputable def gammaSize (lo hi : ℝ) : ℝ := Real.log 2 + |lgam (lo / 2)| + |lgam (2 * hi)|

/-- The error of a score: `lo` bounds the prior weights of the classes from below, `hi` the total of prior weights and
rows from above; `c` classes, `n` rows, `nDim` features, partition prior `pp`. -/
noncomputable def scoreError (u lo hi pp : ℝ) (c n nDim : Nat) : ℝ :=
  u * (24 / (1 - pp) + 6 * (n * |Real.log pp| + Real.log (n * nDim) + 7)
    + 27 * (3 * c ^ 2 + 16 * c + 3) * (1 + gammaSize lo hi))

end BT.Spec
