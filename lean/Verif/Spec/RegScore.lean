import Verif.Model.RegFloat
import Verif.Model.Perp
import Verif.Spec.ClsFloat

/-!
# Regression in floating-point arithmetic: assumptions and error bound of the scores
-/

namespace BT.Spec

/-- What is assumed of the library: every operation and the logarithm have relative error at most `u`, counts up to
`n` are represented exactly, `ndarray.sum` adds the numbers in some order, `np.pi` is accurate, and `gammaln` has an
error of at most `u` times 1 plus its size. -/
structure AccurateReg (u : ℝ) (n : Nat) (L : FloatLib ℝ) : Prop where
  pos : 0 < u
  round : RelRound u L.r
  counts : ∀ k : Nat, k ≤ n → L.r k = k
  sum : ∀ l, l ≠ [] → FloatSum L.r l (L.sum l)
  log : ∀ x, 0 < x → |L.log x - Real.log x| ≤ u * |Real.log x|
  gammaln : ∀ x, 0 < x → |L.gammaln x - lgam x| ≤ u * (1 + |lgam x|)
  pi : |L.pi - Real.pi| ≤ u * Real.pi

/-- The size of the scale parameter of `n` targets of size `Y`. -/
noncomputable def betaSize (prior : NG ℝ) (n : Nat) (Y : ℝ) : ℝ := prior.beta + 9 * n * (Y + |prior.mu|) ^ 2

/-- The relative error of the scale parameters is at most `u` times this. -/
noncomputable def betaGain (prior : NG ℝ) (n : Nat) (Y : ℝ) : ℝ :=
  2 * (n + 12) * (betaSize prior n Y / prior.beta)

/-- The size of the parts of a marginal likelihood. -/
noncomputable def marginalSize (prior : NG ℝ) (n : Nat) (Y : ℝ) : ℝ :=
  48 * gammaSize prior.alpha (prior.alpha + n / 2) + 2 + prior.alpha * |Real.log prior.beta|
    + (prior.alpha + n / 2) * (|Real.log prior.beta| + |Real.log (betaSize prior n Y)| + 2 * betaGain prior n Y)
    + 1 / 2 * (Real.log ((prior.kappa + n) / prior.kappa) + 12) + n / 2 * (Real.log (2 * Real.pi) + 12)

/-- The error of a score, for at most `n` targets of size at most `Y`. -/
noncomputable def regScoreError (u : ℝ) (prior : NG ℝ) (pp : ℝ) (n nDim : Nat) (Y : ℝ) : ℝ :=
  22 * u * (8 / (1 - pp) + (n * |Real.log pp| + Real.log (n * nDim) + 7) + 2 * marginalSize prior n Y)

/-- The prior is proper, and the precision `u` is good enough for the size of the data and the partition prior. -/
structure Fine (u : ℝ) (prior : NG ℝ) (pp : ℝ) (n : Nat) (Y : ℝ) : Prop where
  kappa : 0 < prior.kappa
  alpha : 0 < prior.alpha
  beta : 0 < prior.beta
  size : 0 ≤ Y
  rows : 3 * ((n : ℝ) + 12) * n * u ≤ 1
  tiny : 100 * u ≤ 1
  gain : 2 * (u * betaGain prior n Y) ≤ 1
  pp_pos : 0 < pp
  pp_lt : pp < 1
  gap : 6 * u ≤ 1 - pp

/-- The prior that regression uses for fewer than 200 rows. -/
noncomputable def unitPrior : NG ℝ := ⟨0, 1, 1 / 2, 1 / 2⟩

/-- The error of a computed posterior mean. -/
def meanError (u : ℝ) (prior : NG ℝ) (n : Nat) (Y : ℝ) : ℝ := 2 * ((n + 6) * u) * (|prior.mu| + Y)

/-- A tree whose scores are numbers, as one whose scores might be NaN or infinite. -/
def finTree {Sp K P : Type} : Node Sp K K P → Node Sp (XF K) K P
  | .leaf i => .leaf i
  | .split i sp l b c1 c2 => .split i sp (.fin l) (.fin b) (finTree c1) (finTree c2)

end BT.Spec
