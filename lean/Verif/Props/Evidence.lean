import Verif.Spec.Evidence
import Verif.Props.Temper

/-!
# The regression scores are evidences: C73
-/

open MeasureTheory ProbabilityTheory

namespace BT
open Spec

theorem gaussian_precision (m x : ℝ) {r : ℝ} (hr : 0 < r) :
    gaussianPDFReal m (varianceOf r) x = Real.sqrt (r / (2 * Real.pi)) * Real.exp (-(r / 2 * (x - m) ^ 2)) := by
  have hv : ((varianceOf r : NNReal) : ℝ) = r⁻¹ := Real.coe_toNNReal _ (inv_pos.2 hr).le
  rw [gaussianPDFReal_def]
  simp only [hv]
  congr 1
  · rw [← Real.sqrt_inv]
    congr 1
    field_simp
  · congr 1
    field_simp

theorem varianceOf_ne {r : ℝ} (hr : 0 < r) : varianceOf r ≠ 0 := by
  unfold varianceOf
  rw [Ne, Real.toNNReal_eq_zero, not_le]
  exact inv_pos.2 hr

theorem normalLikelihood_eq (ys : List ℝ) (m : ℝ) {τ : ℝ} (hτ : 0 < τ) :
    normalLikelihood ys m τ = Real.sqrt (τ / (2 * Real.pi)) ^ ys.length *
      Real.exp (-(τ / 2 * (ys.map fun y => (y - m) ^ 2).sum)) := by
  unfold normalLikelihood
  induction ys with
  | nil => simp
  | cons y ys ih =>
    rw [List.map_cons, List.prod_cons, ih, gaussian_precision _ _ hτ, List.map_cons, List.sum_cons,
      List.length_cons]
    have : Real.exp (-(τ / 2 * ((y - m) ^ 2 + (ys.map fun y => (y - m) ^ 2).sum))) =
        Real.exp (-(τ / 2 * (y - m) ^ 2)) * Real.exp (-(τ / 2 * (ys.map fun y => (y - m) ^ 2).sum)) := by
      rw [← Real.exp_add]; congr 1; ring
    rw [this]
    ring

theorem ng_quadratic (p : NG ℝ) (hκ : 0 < p.kappa) (ys : List ℝ) (m : ℝ) :
    p.kappa * (m - p.mu) ^ 2 + 2 * p.beta + (ys.map fun y => (y - m) ^ 2).sum =
      (Spec.ngPosterior p ys).kappa * (m - (Spec.ngPosterior p ys).mu) ^ 2 + 2 * (Spec.ngPosterior p ys).beta := by
  rcases List.eq_nil_or_concat ys with rfl | ⟨as, b, h⟩
  · simp [Spec.ngPosterior, sqDev, mean, hκ.ne']
  · have hy : ys ≠ [] := by rw [h]; simp
    have hn : (0 : ℝ) < (ys.length : ℝ) := by exact_mod_cast List.length_pos_iff.2 hy
    unfold Spec.ngPosterior
    simp only [sqDev_eq ys hy, mean, sum_sq_from]
    generalize (ys.length : ℝ) = n at *
    have : 0 < p.kappa + n := by positivity
    field_simp
    ring

theorem sqDev_nonneg (ys : List ℝ) : 0 ≤ sqDev ys :=
  List.sum_nonneg fun x hx => by
    obtain ⟨a, -, rfl⟩ := List.mem_map.1 hx
    exact sq_nonneg _

theorem proper_posterior {p : NG ℝ} (hp : ProperNG p) (ys : List ℝ) : ProperNG (Spec.ngPosterior p ys) := by
  obtain ⟨h1, h2, h3⟩ := hp
  have := sqDev_nonneg ys
  have hn : (0 : ℝ) ≤ (ys.length : ℝ) := Nat.cast_nonneg _
  refine ⟨by unfold Spec.ngPosterior; positivity, by unfold Spec.ngPosterior; positivity, ?_⟩
  unfold Spec.ngPosterior
  positivity

theorem exp_ngMarginal {p : NG ℝ} (hp : ProperNG p) (ys : List ℝ) :
    Real.exp (ngMarginal realFns p ys) =
      Real.Gamma (Spec.ngPosterior p ys).alpha / Real.Gamma p.alpha * (p.beta ^ p.alpha /
        (Spec.ngPosterior p ys).beta ^ (Spec.ngPosterior p ys).alpha) *
        Real.sqrt (p.kappa / (Spec.ngPosterior p ys).kappa) * (Real.sqrt (1 / (2 * Real.pi))) ^ ys.length := by
  obtain ⟨k1, k2, k3⟩ := proper_posterior hp ys
  obtain ⟨h1, h2, h3⟩ := hp
  unfold ngMarginal
  simp only
  generalize Spec.ngPosterior p ys = q at *
  have g1 := Real.Gamma_pos_of_pos h2
  have g2 := Real.Gamma_pos_of_pos k2
  have e1 : realFns.gammaln q.alpha = Real.log (Real.Gamma q.alpha) := by
    show Real.log |_| = _
    rw [abs_of_pos g2]
  have e2 : realFns.gammaln p.alpha = Real.log (Real.Gamma p.alpha) := by
    show Real.log |_| = _
    rw [abs_of_pos g1]
  have e3 : realFns.log = Real.log := rfl
  have e4 : realFns.pi = Real.pi := rfl
  rw [e1, e2, e3, e4]
  have hπ := Real.pi_pos
  have hk : 0 < p.kappa / q.kappa := div_pos h1 k1
  rw [Real.exp_sub, Real.exp_add, Real.exp_sub, Real.exp_add, Real.exp_sub, Real.exp_log g1, Real.exp_log g2]
  have f1 : Real.exp (p.alpha * Real.log p.beta) = p.beta ^ p.alpha := by
    rw [Real.rpow_def_of_pos h3, mul_comm]
  have f2 : Real.exp (q.alpha * Real.log q.beta) = q.beta ^ q.alpha := by
    rw [Real.rpow_def_of_pos k3, mul_comm]
  have f3 : Real.exp (Real.log (p.kappa / q.kappa) / 2) = Real.sqrt (p.kappa / q.kappa) := by
    rw [Real.sqrt_eq_rpow, Real.rpow_def_of_pos hk]
    congr 1
    ring
  have f4 : Real.exp ((ys.length : ℝ) / 2 * Real.log (2 * Real.pi)) = (Real.sqrt (1 / (2 * Real.pi)) ^ ys.length)⁻¹ := by
    rw [one_div, Real.sqrt_inv, inv_pow, inv_inv, Real.sqrt_eq_rpow, ← Real.rpow_natCast,
      ← Real.rpow_mul (by positivity), Real.rpow_def_of_pos (by positivity)]
    congr 1
    ring
  rw [f1, f2, f3, f4]
  field_simp

/-- C73, Bayes' rule: prior density times likelihood is evidence times posterior density, for the posterior
parameters the code computes. -/
theorem bayes_textbook {p : NG ℝ} (hp : ProperNG p) (ys : List ℝ) (m : ℝ) {τ : ℝ} (hτ : 0 < τ) :
    ngDensity p m τ * normalLikelihood ys m τ =
      Real.exp (ngMarginal realFns p ys) * ngDensity (Spec.ngPosterior p ys) m τ := by
  have hq := proper_posterior hp ys
  have hquad := ng_quadratic p hp.1 ys m
  rw [exp_ngMarginal hp, normalLikelihood_eq ys m hτ]
  have ha : (Spec.ngPosterior p ys).alpha = p.alpha + (ys.length : ℝ) / 2 := rfl
  generalize Spec.ngPosterior p ys = q at *
  obtain ⟨k1, k2, k3⟩ := hq
  obtain ⟨h1, h2, h3⟩ := hp
  unfold ngDensity gammaPDFReal
  rw [if_pos hτ.le, if_pos hτ.le, gaussian_precision _ _ (mul_pos h1 hτ), gaussian_precision _ _ (mul_pos k1 hτ)]
  have g1 := Real.Gamma_pos_of_pos h2
  have g2 := Real.Gamma_pos_of_pos k2
  have hπ := Real.pi_pos
  have e1 : Real.sqrt (τ / (2 * Real.pi)) ^ ys.length =
      τ ^ ((ys.length : ℝ) / 2) * Real.sqrt (1 / (2 * Real.pi)) ^ ys.length := by
    have : τ / (2 * Real.pi) = τ * (1 / (2 * Real.pi)) := by ring
    rw [this, Real.sqrt_mul hτ.le, mul_pow, Real.sqrt_eq_rpow τ, ← Real.rpow_natCast, ← Real.rpow_mul hτ.le]
    congr 2
    ring
  have e2 : Real.sqrt (p.kappa * τ / (2 * Real.pi)) =
      Real.sqrt (p.kappa / q.kappa) * Real.sqrt (q.kappa * τ / (2 * Real.pi)) := by
    rw [← Real.sqrt_mul (div_pos h1 k1).le]
    congr 1
    field_simp
  have e3 : τ ^ (q.alpha - 1) = τ ^ (p.alpha - 1) * τ ^ ((ys.length : ℝ) / 2) := by
    rw [← Real.rpow_add hτ, ha]
    congr 1
    ring
  have e4 : Real.exp (-(p.beta * τ)) * Real.exp (-(p.kappa * τ / 2 * (m - p.mu) ^ 2)) *
      Real.exp (-(τ / 2 * (ys.map fun y => (y - m) ^ 2).sum)) =
      Real.exp (-(q.beta * τ)) * Real.exp (-(q.kappa * τ / 2 * (m - q.mu) ^ 2)) := by
    rw [← Real.exp_add, ← Real.exp_add, ← Real.exp_add]
    congr 1
    linear_combination (-τ / 2) * hquad
  have hb : q.beta ^ q.alpha ≠ 0 := (Real.rpow_pos_of_pos k3 _).ne'
  rw [e1, e2, e3]
  calc _ = p.beta ^ p.alpha / Real.Gamma p.alpha * τ ^ (p.alpha - 1) * τ ^ ((ys.length : ℝ) / 2) *
        Real.sqrt (1 / (2 * Real.pi)) ^ ys.length * Real.sqrt (p.kappa / q.kappa) *
        Real.sqrt (q.kappa * τ / (2 * Real.pi)) *
        (Real.exp (-(p.beta * τ)) * Real.exp (-(p.kappa * τ / 2 * (m - p.mu) ^ 2)) *
          Real.exp (-(τ / 2 * (ys.map fun y => (y - m) ^ 2).sum))) := by ring
    _ = _ := by
      rw [e4]
      field_simp

/-- Expectations as integrals against the density. -/
theorem gamma_integral {a r : ℝ} (ha : 0 < a) (hr : 0 < r) (f : ℝ → ℝ) :
    ∫ τ, f τ ∂gammaMeasure a r = ∫ τ, gammaPDFReal a r τ * f τ := by
  unfold gammaMeasure
  rw [integral_withDensity_eq_integral_toReal_smul]
  · congr 1
    funext τ
    rw [smul_eq_mul]
    congr 1
    exact ENNReal.toReal_ofReal (gammaPDFReal_nonneg ha hr τ)
  · exact (measurable_gammaPDFReal a r).ennreal_ofReal
  · exact Filter.Eventually.of_forall fun x => ENNReal.ofReal_lt_top

theorem gamma_total {a r : ℝ} (ha : 0 < a) (hr : 0 < r) : ∫ τ, gammaPDFReal a r τ = 1 := by
  have := isProbabilityMeasure_gammaMeasure ha hr
  have h := gamma_integral ha hr fun _ => (1 : ℝ)
  simp only [mul_one] at h
  rw [← h]
  simp

/-- Expectation under the prior of a function times the likelihood, in terms of the posterior. -/
theorem ngExpectation_bayes {p : NG ℝ} (hp : ProperNG p) (ys : List ℝ) (f : ℝ → ℝ → ℝ) :
    ngExpectation p (fun m τ => normalLikelihood ys m τ * f m τ) =
      Real.exp (ngMarginal realFns p ys) * ngExpectation (Spec.ngPosterior p ys) f := by
  have hq := proper_posterior hp ys
  unfold ngExpectation
  rw [gamma_integral hp.2.1 hp.2.2, gamma_integral hq.2.1 hq.2.2, ← integral_const_mul]
  have hne : ∀ᵐ τ : ℝ, τ ≠ 0 := by
    rw [ae_iff]
    simp
  apply integral_congr_ae
  filter_upwards [hne] with τ h0
  rcases lt_or_gt_of_ne h0 with hneg | hτ
  · simp [gammaPDFReal, not_le.2 hneg]
  · rw [integral_gaussianReal_eq_integral_smul (varianceOf_ne (mul_pos hp.1 hτ)),
      integral_gaussianReal_eq_integral_smul (varianceOf_ne (mul_pos hq.1 hτ)), ← integral_const_mul,
      ← integral_const_mul, ← integral_const_mul]
    apply integral_congr_ae
    refine Filter.Eventually.of_forall fun m => ?_
    have := bayes_textbook hp ys m hτ
    unfold ngDensity at this
    simp only [smul_eq_mul]
    linear_combination f m τ * this

theorem ngExpectation_one {p : NG ℝ} (hp : ProperNG p) : ngExpectation p (fun _ _ => 1) = 1 := by
  have := isProbabilityMeasure_gammaMeasure hp.2.1 hp.2.2
  unfold ngExpectation
  simp

theorem evidence_textbook {p : NG ℝ} (hp : ProperNG p) (ys : List ℝ) :
    ngEvidence p ys = Real.exp (ngMarginal realFns p ys) := by
  have h := ngExpectation_bayes hp ys fun _ _ => 1
  simp only [mul_one] at h
  rw [ngExpectation_one (proper_posterior hp ys), mul_one] at h
  exact h

/-- Posterior expectation of the mean. -/
theorem ngExpectation_mean {p : NG ℝ} (hp : ProperNG p) : ngExpectation p (fun m _ => m) = p.mu := by
  have := isProbabilityMeasure_gammaMeasure hp.2.1 hp.2.2
  unfold ngExpectation
  simp [integral_id_gaussianReal]

end BT
