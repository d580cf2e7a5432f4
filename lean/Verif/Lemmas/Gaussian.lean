import Verif.Props.SphereLaw
import Mathlib.Probability.Distributions.Gaussian.Real

/-!
# Vectors of independent standard normal numbers

Their density depends on the length only, so their direction is uniform.
-/

noncomputable section

open MeasureTheory Set ProbabilityTheory
open scoped ENNReal

namespace BT.SphereLaw

/-- `rand.normal(0, 1, n)`: the distribution of `n` independent standard normal numbers. -/
def gauss (n : Nat) : Measure (Fin n → ℝ) := Measure.pi fun _ => gaussianReal 0 1

instance (n : Nat) : IsProbabilityMeasure (gauss n) := by unfold gauss; infer_instance

theorem lintegral_prod_pi {n : Nat} (f : Fin n → ℝ → ℝ≥0∞) (hf : ∀ i, Measurable (f i)) :
    ∫⁻ w : Fin n → ℝ, ∏ i, f i (w i) = ∏ i, ∫⁻ a, f i a := by
  induction n with
  | zero => simp [volume_pi]
  | succ n ih =>
    have hm : Measurable fun w : Fin (n + 1) → ℝ => ∏ i, f i (w i) :=
      Finset.measurable_prod _ fun i _ => (hf i).comp (measurable_pi_apply i)
    rw [volume_pi, lintegral_snoc volume hm]
    simp only [Fin.prod_univ_castSucc, Fin.snoc_castSucc, Fin.snoc_last]
    rw [← volume_pi]
    simp_rw [lintegral_const_mul _ (hf (Fin.last n))]
    rw [lintegral_mul_const _ (Finset.measurable_prod _ fun i _ => (hf i.castSucc).comp (measurable_pi_apply i)),
      ih (fun i => f i.castSucc) fun i => hf i.castSucc]

theorem gauss_density (n : Nat) :
    gauss n = (volume : Measure (Fin n → ℝ)).withDensity fun w => ∏ i, gaussianPDF 0 1 (w i) := by
  refine Measure.pi_eq fun s hs => ?_
  rw [withDensity_apply _ (MeasurableSet.univ_pi hs), ← lintegral_indicator (MeasurableSet.univ_pi hs)]
  have e : ∀ w : Fin n → ℝ, (Set.pi univ s).indicator (fun w : Fin n → ℝ => ∏ i, gaussianPDF 0 1 (w i)) w =
      ∏ i, (s i).indicator (gaussianPDF 0 1) (w i) := by
    intro w
    by_cases h : w ∈ Set.pi univ s
    · rw [indicator_of_mem h]
      exact Finset.prod_congr rfl fun i _ => (indicator_of_mem (h i (mem_univ i)) _).symm
    · rw [indicator_of_notMem h]
      obtain ⟨i, hi⟩ : ∃ i, w i ∉ s i := by simpa [Set.mem_pi] using h
      exact (Finset.prod_eq_zero (Finset.mem_univ i) (indicator_of_notMem hi _)).symm
  simp_rw [e]
  rw [lintegral_prod_pi _ fun i => (measurable_gaussianPDF 0 1).indicator (hs i)]
  refine Finset.prod_congr rfl fun i _ => ?_
  rw [lintegral_indicator (hs i), gaussianReal_of_var_ne_zero _ one_ne_zero, withDensity_apply _ (hs i)]

/-- The density as a function of the squared length. -/
def radial (n : Nat) (t : ℝ) : ℝ≥0∞ := ENNReal.ofReal (((Real.sqrt (2 * Real.pi))⁻¹) ^ n * Real.exp (-t / 2))

theorem gaussianPDF_prod {n : Nat} (w : Fin n → ℝ) : ∏ i, gaussianPDF 0 1 (w i) = radial n (nsq w) := by
  unfold gaussianPDF radial
  rw [← ENNReal.ofReal_prod_of_nonneg fun i _ => gaussianPDFReal_nonneg _ _ _]
  congr 1
  unfold gaussianPDFReal nsq
  rw [Finset.prod_mul_distrib, Finset.prod_const, Finset.card_univ, Fintype.card_fin, ← Real.exp_sum,
    ← Finset.sum_div, ← Finset.sum_neg_distrib]
  simp

theorem measurable_radial (n : Nat) : Measurable (radial n) := by unfold radial; fun_prop

/-- The direction of a vector. -/
def dirOf {n : Nat} (w : Fin n → ℝ) : Fin n → ℝ := fun i => w i / Real.sqrt (nsq w)

theorem measurable_dirOf {n : Nat} : Measurable (dirOf (n := n)) :=
  measurable_pi_iff.2 fun i => (measurable_pi_apply i).div (measurable_nsq.sqrt)

theorem radial_volume {D : Nat} {x : (Fin D → ℝ) → Fin (D + 1) → ℝ} {C : ℝ≥0∞} (hx : Measurable x)
    (hunit : ∀ p ∈ Spec.unitCube D, nsq (x p) = 1) (h : Polar (region false D) x C) {A : Set (Fin (D + 1) → ℝ)}
    (hA : MeasurableSet A) {g : ℝ → ℝ≥0∞} (hg : Measurable g) :
    ∫⁻ w : Fin (D + 1) → ℝ, (dirOf ⁻¹' A).indicator (fun w => g (nsq w)) w =
      (C * ∫⁻ r in Ioi (0 : ℝ), ENNReal.ofReal (r ^ D) * g (r ^ 2)) * cube D {p | x p ∈ A} := by
  have hm : MeasurableSet (dirOf ⁻¹' A) := measurable_dirOf hA
  have hae : ∀ᵐ p ∂(cube D), nsq (x p) = 1 := by
    have : ∀ᵐ p ∂(cube D), ∀ i : Fin D, 0 ≤ p i ∧ p i ≤ 1 := by
      rw [ae_all_iff]
      intro i
      exact (Measure.quasiMeasurePreserving_eval (fun _ : Fin D => U) i).ae U_ae
    filter_upwards [this] with p hp using hunit p hp
  have h' := h _ ((hg.comp measurable_nsq).indicator hm)
  rw [region_false, Measure.restrict_univ] at h'
  rw [show (fun w : Fin (D + 1) → ℝ => (dirOf ⁻¹' A).indicator (fun w => g (nsq w)) w) =
    (dirOf ⁻¹' A).indicator (g ∘ nsq) from rfl, h', mul_assoc, ← lintegral_mul_const]
  · congr 1
    refine setLIntegral_congr_fun measurableSet_Ioi fun r hr => ?_
    have hr0 : (0 : ℝ) < r := hr
    have : ∀ᵐ p ∂(cube D), (dirOf ⁻¹' A).indicator (g ∘ nsq) (r • x p) = g (r ^ 2) * (x ⁻¹' A).indicator 1 p := by
      filter_upwards [hae] with p hp
      have hn : nsq (r • x p) = r ^ 2 := by rw [nsq_smul, hp, mul_one]
      have hdir : dirOf (r • x p) = x p := by
        funext i
        unfold dirOf
        rw [hn, Real.sqrt_sq hr0.le, Pi.smul_apply, smul_eq_mul, mul_div_cancel_left₀ _ hr0.ne']
      by_cases h2 : x p ∈ A
      · rw [indicator_of_mem (show r • x p ∈ dirOf ⁻¹' A by rw [mem_preimage, hdir]; exact h2),
          indicator_of_mem (show p ∈ x ⁻¹' A from h2), Function.comp_apply, hn, Pi.one_apply, mul_one]
      · rw [indicator_of_notMem (show r • x p ∉ dirOf ⁻¹' A by rw [mem_preimage, hdir]; exact h2),
          indicator_of_notMem (show p ∉ x ⁻¹' A from h2), mul_zero]
    show ENNReal.ofReal (r ^ (D + 1 - 1)) * ∫⁻ p, (dirOf ⁻¹' A).indicator (g ∘ nsq) (r • x p) ∂(cube D) = _
    rw [lintegral_congr_ae this, lintegral_const_mul _ (measurable_one.indicator (hx hA)),
      lintegral_indicator_one (hx hA), Nat.add_sub_cancel, mul_assoc]
    rfl
  · exact (ENNReal.measurable_ofReal.comp (measurable_id.pow_const D)).mul (hg.comp (measurable_id.pow_const 2))

theorem gauss_apply {n : Nat} {B : Set (Fin n → ℝ)} (hB : MeasurableSet B) :
    gauss n B = ∫⁻ w, B.indicator (fun w => radial n (nsq w)) w := by
  rw [gauss_density, withDensity_apply _ hB, lintegral_indicator hB]
  exact setLIntegral_congr_fun hB fun w _ => gaussianPDF_prod w

/-- The direction of a vector of independent standard normal numbers is that of a uniform point of the cube. -/
theorem gauss_direction {D : Nat} {x : (Fin D → ℝ) → Fin (D + 1) → ℝ} {C : ℝ≥0∞} (hx : Measurable x)
    (hunit : ∀ p ∈ Spec.unitCube D, nsq (x p) = 1) (h : Polar (region false D) x C) {A : Set (Fin (D + 1) → ℝ)}
    (hA : MeasurableSet A) : gauss (D + 1) (dirOf ⁻¹' A) = cube D {p | x p ∈ A} := by
  have h1 := radial_volume hx hunit h hA (measurable_radial (D + 1))
  have h2 := radial_volume hx hunit h MeasurableSet.univ (measurable_radial (D + 1))
  rw [← gauss_apply (measurable_dirOf hA)] at h1
  rw [← gauss_apply (measurable_dirOf MeasurableSet.univ)] at h2
  have hc : IsProbabilityMeasure (cube D) := by unfold cube; infer_instance
  simp only [preimage_univ, measure_univ, mem_univ, ofPred_true, mul_one] at h2
  rw [h1, ← h2, one_mul]

end BT.SphereLaw
