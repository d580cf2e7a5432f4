import Verif.Spec.MaxNormal
import Verif.Props.Evidence

/-!
# Evidence and maximum likelihood for normal observations
-/

open MeasureTheory ProbabilityTheory

namespace BT
open Spec

theorem sum_sq_mean (ys : List ℝ) (m : ℝ) :
    (ys.map fun y => (y - m) ^ 2).sum = sqDev ys + (ys.length : ℝ) * (mean ys - m) ^ 2 := by
  by_cases h : ys = []
  · subst h; simp [sqDev]
  · have hn : (ys.length : ℝ) ≠ 0 := by exact_mod_cast (List.length_pos_iff.2 h).ne'
    have e := sum_sq_dev ys m
    rw [e, sqDev_eq ys h, mean]
    field_simp
    ring

theorem log_Gamma_ge {s : ℝ} (hs : 0 < s) : s * Real.log s - s - Real.log s ≤ Real.log (Real.Gamma s) := by
  have h1 : s ^ s * Real.exp (-s) ≤ Real.Gamma (s + 1) := by
    rw [Real.Gamma_eq_integral (by linarith)]
    have hint := Real.GammaIntegral_convergent (s := s + 1) (by linarith)
    have hsub : Set.Ioi s ⊆ Set.Ioi (0 : ℝ) := Set.Ioi_subset_Ioi hs.le
    calc s ^ s * Real.exp (-s) = ∫ x in Set.Ioi s, s ^ s * Real.exp (-x) := by
          rw [integral_const_mul, integral_exp_neg_Ioi]
      _ ≤ ∫ x in Set.Ioi s, Real.exp (-x) * x ^ (s + 1 - 1) := by
          apply setIntegral_mono_on
          · exact (integrableOn_exp_neg_Ioi s).const_mul _
          · exact hint.mono_set hsub
          · exact measurableSet_Ioi
          · intro x hx
            have hx : s < x := hx
            rw [mul_comm, add_sub_cancel_right]
            exact mul_le_mul_of_nonneg_left (Real.rpow_le_rpow hs.le hx.le hs.le) (Real.exp_pos _).le
      _ ≤ ∫ x in Set.Ioi 0, Real.exp (-x) * x ^ (s + 1 - 1) := by
          apply setIntegral_mono_set hint
          · filter_upwards [ae_restrict_mem measurableSet_Ioi] with x hx
            have hx : 0 < x := hx
            positivity
          · exact Filter.Eventually.of_forall hsub
  have hG := Real.Gamma_pos_of_pos hs
  rw [Real.Gamma_add_one hs.ne'] at h1
  have h2 := Real.log_le_log (by positivity) h1
  rw [Real.log_mul (Real.rpow_pos_of_pos hs _).ne' (Real.exp_pos _).ne', Real.log_rpow hs, Real.log_exp,
    Real.log_mul hs.ne' hG.ne'] at h2
  linarith

/-- The likelihood of the normal model of the evidence, in terms of the variance. -/
theorem exp_normalLogLik (ys : List ℝ) (m : ℝ) {τ : ℝ} (hτ : 0 < τ) :
    normalLikelihood ys m τ = Real.exp (normalLogLik ys m τ⁻¹) := by
  rw [normalLikelihood_eq ys m hτ]
  have hπ := Real.pi_pos
  unfold normalLogLik
  have e : Real.sqrt (τ / (2 * Real.pi)) ^ ys.length =
      Real.exp (-((ys.length : ℝ) / 2 * Real.log (2 * Real.pi * τ⁻¹))) := by
    rw [Real.sqrt_eq_rpow, ← Real.rpow_natCast, ← Real.rpow_mul (by positivity), Real.rpow_def_of_pos (by positivity)]
    congr 1
    have : τ / (2 * Real.pi) = (2 * Real.pi * τ⁻¹)⁻¹ := by field_simp
    rw [this, Real.log_inv]
    ring
  rw [e, ← Real.exp_add]
  congr 1
  field_simp
  ring

theorem normalLogLik_eq (ys : List ℝ) (m : ℝ) {v : ℝ} (hv : 0 < v) :
    normalLogLik ys m v = -((ys.length : ℝ) / 2 * (Real.log (2 * Real.pi) + Real.log v)) -
      (sqDev ys + (ys.length : ℝ) * (mean ys - m) ^ 2) / (2 * v) := by
  unfold normalLogLik
  rw [sum_sq_mean, Real.log_mul (by positivity) hv.ne']

theorem sampleVariance_pos {ys : List ℝ} (h : 0 < sqDev ys) : 0 < sampleVariance ys := by
  have : ys ≠ [] := fun e => by rw [e] at h; simp [sqDev] at h
  have hn : (0 : ℝ) < (ys.length : ℝ) := by exact_mod_cast List.length_pos_iff.2 this
  unfold sampleVariance
  positivity

/-- The normal distribution with mean and variance of the sample is the most likely one. -/
theorem normalLogLik_le {ys : List ℝ} (h : 0 < sqDev ys) (m : ℝ) {v : ℝ} (hv : 0 < v) :
    normalLogLik ys m v ≤ maxNormal ys ∧
      (normalLogLik ys m v = maxNormal ys → m = mean ys ∧ v = sampleVariance ys) := by
  have hne : ys ≠ [] := fun e => by rw [e] at h; simp [sqDev] at h
  have hn : (0 : ℝ) < (ys.length : ℝ) := by exact_mod_cast List.length_pos_iff.2 hne
  have hv0 := sampleVariance_pos h
  have hQ : sqDev ys = (ys.length : ℝ) * sampleVariance ys := by unfold sampleVariance; field_simp
  unfold maxNormal
  rw [normalLogLik_eq ys m hv, normalLogLik_eq ys _ hv0, sub_self, hQ]
  set v0 := sampleVariance ys with hvdef
  set n : ℝ := (ys.length : ℝ) with hndef
  have e1 : (n * v0 + n * 0 ^ 2) / (2 * v0) = n / 2 := by field_simp; ring
  have e2 : (n * v0 + n * (mean ys - m) ^ 2) / (2 * v) = n / 2 * (v0 / v) + n / 2 * ((mean ys - m) ^ 2 / v) := by
    field_simp
  rw [e1, e2]
  have hx : 0 < v0 / v := div_pos hv0 hv
  have hl : Real.log (v0 / v) = Real.log v0 - Real.log v := Real.log_div hv0.ne' hv.ne'
  have h1 := Real.log_le_sub_one_of_pos hx
  have h2 : 0 ≤ (mean ys - m) ^ 2 / v := by positivity
  constructor
  · nlinarith
  · intro heq
    have key : Real.log (v0 / v) - (v0 / v - 1) = (mean ys - m) ^ 2 / v := by
      have : n / 2 * (Real.log (v0 / v) - (v0 / v - 1) - (mean ys - m) ^ 2 / v) = 0 := by
        rw [hl]; linarith
      rcases mul_eq_zero.1 this with h0 | h0
      · exact absurd h0 (by positivity)
      · linarith
    have hz : (mean ys - m) ^ 2 / v = 0 := le_antisymm (by linarith) h2
    constructor
    · rcases div_eq_zero_iff.1 hz with h0 | h0
      · have := pow_eq_zero_iff (two_ne_zero) |>.1 h0
        linarith
      · exact absurd h0 hv.ne'
    · by_contra hne'
      have : v0 / v ≠ 1 := fun e => hne' ((div_eq_one_iff_eq hv.ne').1 e).symm
      have := Real.log_lt_sub_one_of_pos hx this
      linarith

theorem integral_le_const {μ : Measure ℝ} [IsProbabilityMeasure μ] {f : ℝ → ℝ} {M : ℝ} (h0 : ∀ x, 0 ≤ f x)
    (hM : ∀ x, f x ≤ M) : ∫ x, f x ∂μ ≤ M := by
  calc ∫ x, f x ∂μ ≤ ∫ _, M ∂μ := integral_mono_of_nonneg (Filter.Eventually.of_forall h0) (integrable_const M)
        (Filter.Eventually.of_forall hM)
    _ = M := by simp

theorem normalLikelihood_nonneg (ys : List ℝ) (m τ : ℝ) : 0 ≤ normalLikelihood ys m τ :=
  List.prod_nonneg fun x hx => by
    obtain ⟨y, -, rfl⟩ := List.mem_map.1 hx
    exact gaussianPDFReal_nonneg _ _ _

theorem normalLikelihood_zero {ys : List ℝ} (hne : ys ≠ []) (m : ℝ) {τ : ℝ} (hτ : τ ≤ 0) :
    normalLikelihood ys m τ = 0 := by
  have hv : varianceOf τ = 0 := by
    unfold varianceOf
    rw [Real.toNNReal_eq_zero]
    exact inv_nonpos.2 hτ
  obtain ⟨y, ys', rfl⟩ := List.exists_cons_of_ne_nil hne
  unfold normalLikelihood
  rw [hv]
  simp

/-- The evidence of observations is at most the largest likelihood. -/
theorem ngMarginal_le {p : NG ℝ} (hp : ProperNG p) {ys : List ℝ} (h : 0 < sqDev ys) :
    ngMarginal realFns p ys ≤ maxNormal ys := by
  have hne : ys ≠ [] := fun e => by rw [e] at h; simp [sqDev] at h
  have := isProbabilityMeasure_gammaMeasure hp.2.1 hp.2.2
  have hle : ∀ m τ, normalLikelihood ys m τ ≤ Real.exp (maxNormal ys) := by
    intro m τ
    rcases le_or_gt τ 0 with hτ | hτ
    · rw [normalLikelihood_zero hne m hτ]
      exact (Real.exp_pos _).le
    · rw [exp_normalLogLik ys m hτ]
      exact Real.exp_le_exp.2 (normalLogLik_le h m (inv_pos.2 hτ)).1
  have h2 : ngEvidence p ys ≤ Real.exp (maxNormal ys) := by
    unfold ngEvidence ngExpectation
    exact integral_le_const (fun τ => integral_nonneg fun m => normalLikelihood_nonneg ys m τ)
      fun τ => integral_le_const (fun m => normalLikelihood_nonneg ys m τ) fun m => hle m τ
  rw [evidence_textbook hp] at h2
  exact Real.exp_le_exp.1 h2

/-- The evidence of observations is not much below the likelihood under the sample mean and any variance. -/
theorem ngMarginal_ge {p : NG ℝ} (hp : ProperNG p) (ys : List ℝ) {v : ℝ} (hv : 0 < v) :
    normalLogLik ys (mean ys) v - ngSlack p ys v ≤ ngMarginal realFns p ys := by
  have hq := proper_posterior hp ys
  obtain ⟨k1, k2, k3⟩ := hq
  obtain ⟨h1, h2, h3⟩ := hp
  have hQ := sqDev_nonneg ys
  have hn : (0 : ℝ) ≤ (ys.length : ℝ) := Nat.cast_nonneg _
  rw [normalLogLik_eq ys _ hv, sub_self]
  unfold ngSlack ngMarginal
  simp only
  have g1 := Real.Gamma_pos_of_pos h2
  have g2 := Real.Gamma_pos_of_pos k2
  have e1 : realFns.gammaln (Spec.ngPosterior p ys).alpha = Real.log (Real.Gamma (Spec.ngPosterior p ys).alpha) := by
    show Real.log |_| = _
    rw [abs_of_pos g2]
  have e2 : realFns.gammaln p.alpha = Real.log (Real.Gamma p.alpha) := by
    show Real.log |_| = _
    rw [abs_of_pos g1]
  have e3 : realFns.log = Real.log := rfl
  have e4 : realFns.pi = Real.pi := rfl
  rw [e1, e2, e3, e4]
  have hG := log_Gamma_ge k2
  have ha : (Spec.ngPosterior p ys).alpha = p.alpha + (ys.length : ℝ) / 2 := rfl
  have hk : (Spec.ngPosterior p ys).kappa = p.kappa + (ys.length : ℝ) := rfl
  have hb : (Spec.ngPosterior p ys).beta ≤ p.beta + sqDev ys / 2 + p.kappa * (mean ys - p.mu) ^ 2 / 2 := by
    show p.beta + sqDev ys / 2
      + p.kappa * (ys.length : ℝ) * (mean ys - p.mu) ^ 2 / (2 * (p.kappa + (ys.length : ℝ))) ≤ _
    have : p.kappa * (ys.length : ℝ) * (mean ys - p.mu) ^ 2 / (2 * (p.kappa + (ys.length : ℝ))) ≤
        p.kappa * (mean ys - p.mu) ^ 2 / 2 := by
      rw [div_le_div_iff₀ (by positivity) two_pos]
      have : 0 ≤ p.kappa * (mean ys - p.mu) ^ 2 := by positivity
      nlinarith
    linarith
  have hlogk : Real.log (p.kappa / (Spec.ngPosterior p ys).kappa) = - Real.log (1 + (ys.length : ℝ) / p.kappa) := by
    rw [hk, ← Real.log_inv]
    congr 1
    field_simp
  rw [hlogk]
  rw [ha] at hG k2 ⊢
  set s := p.alpha + (ys.length : ℝ) / 2 with hs
  set b := (Spec.ngPosterior p ys).beta with hbd
  have hx : 0 < b / v / s := by positivity
  have hl := Real.log_le_sub_one_of_pos hx
  rw [Real.log_div (by positivity) k2.ne', Real.log_div k3.ne' hv.ne'] at hl
  have hl2 : s * Real.log b ≤ s * Real.log v + s * Real.log s + b / v - s := by
    have := mul_le_mul_of_nonneg_left hl k2.le
    have e : s * (b / v / s - 1) = b / v - s := by field_simp
    rw [e] at this
    linarith
  have hbv : b / v ≤ (p.beta + sqDev ys / 2 + p.kappa * (mean ys - p.mu) ^ 2 / 2) / v :=
    div_le_div_of_nonneg_right hb hv.le
  have e5 : (p.beta + sqDev ys / 2 + p.kappa * (mean ys - p.mu) ^ 2 / 2) / v =
      (p.beta + p.kappa * (mean ys - p.mu) ^ 2 / 2) / v + (sqDev ys + (ys.length : ℝ) * 0 ^ 2) / (2 * v) := by
    field_simp
    ring
  have e6 : s * Real.log v = p.alpha * Real.log v + (ys.length : ℝ) / 2 * Real.log v := by rw [hs]; ring
  linarith

end BT
