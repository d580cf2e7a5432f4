import Verif.Spec.Evidence
import Mathlib.Probability.Distributions.Beta

/-!
# Integrals over the simplex
-/

open MeasureTheory ProbabilityTheory

namespace BT
open Spec

theorem beta_scaled {a b c : ℝ} (ha : 0 < a) (hb : 0 < b) (hc : 0 < c) :
    ∫ x in (0 : ℝ)..c, x ^ (a - 1) * (c - x) ^ (b - 1) =
      c ^ (a + b - 1) * (Real.Gamma a * Real.Gamma b / Real.Gamma (a + b)) := by
  have h := Complex.betaIntegral_scaled (a : ℂ) (b : ℂ) hc
  rw [Complex.betaIntegral_eq_Gamma_mul_div _ _ (by simpa using ha) (by simpa using hb)] at h
  have e1 : ∫ x in (0 : ℝ)..c, (x : ℂ) ^ ((a : ℂ) - 1) * ((c : ℂ) - x) ^ ((b : ℂ) - 1) =
      ∫ x in (0 : ℝ)..c, ((x ^ (a - 1) * (c - x) ^ (b - 1) : ℝ) : ℂ) := by
    apply intervalIntegral.integral_congr
    intro x hx
    rw [Set.uIcc_of_le hc.le] at hx
    simp only
    rw [Complex.ofReal_mul, Complex.ofReal_cpow hx.1, Complex.ofReal_cpow (sub_nonneg.2 hx.2)]
    push_cast
    rfl
  rw [e1, intervalIntegral.integral_ofReal, Complex.Gamma_ofReal, Complex.Gamma_ofReal, ← Complex.ofReal_add,
    Complex.Gamma_ofReal] at h
  have e2 : ((c : ℂ)) ^ ((a + b : ℝ) - 1 : ℂ) = ((c ^ (a + b - 1) : ℝ) : ℂ) := by
    rw [Complex.ofReal_cpow hc.le]
    push_cast
    rfl
  rw [e2] at h
  exact_mod_cast h

theorem simplex_congr : ∀ (k : Nat) (c : ℝ) (f g : List ℝ → ℝ), 0 < c →
    (∀ θ : List ℝ, θ.length = k → (∀ t ∈ θ, 0 < t) → θ.sum = c → f θ = g θ) →
    simplexIntegral k c f = simplexIntegral k c g
  | 0, _, _, _, _, _ => rfl
  | 1, c, f, g, hc, h => h [c] rfl (by simpa using hc) (by simp)
  | k + 2, c, f, g, hc, h => by
    unfold simplexIntegral
    apply intervalIntegral.integral_congr_ae
    have hne : ∀ᵐ x : ℝ, x ≠ c := by
      rw [ae_iff]
      simp
    filter_upwards [hne] with x hx hmem
    rw [Set.uIoc_of_le hc.le] at hmem
    have hlt : x < c := lt_of_le_of_ne hmem.2 hx
    refine simplex_congr (k + 1) (c - x) _ _ (sub_pos.2 hlt) fun θ h1 h2 h3 => ?_
    refine h (x :: θ) (by simp [h1]) ?_ (by rw [List.sum_cons, h3]; ring)
    intro t ht
    rcases List.mem_cons.1 ht with rfl | ht
    · exact hmem.1
    · exact h2 t ht

theorem simplex_const_mul : ∀ (k : Nat) (c C : ℝ) (f : List ℝ → ℝ),
    simplexIntegral k c (fun θ => C * f θ) = C * simplexIntegral k c f
  | 0, _, _, _ => by simp [simplexIntegral]
  | 1, _, _, _ => rfl
  | k + 2, c, C, f => by
    unfold simplexIntegral
    rw [← intervalIntegral.integral_const_mul]
    congr 1
    funext x
    exact simplex_const_mul (k + 1) (c - x) C fun θ => f (x :: θ)

theorem sum_pos_of_pos {l : List ℝ} (hne : l ≠ []) (hp : ∀ a ∈ l, 0 < a) : 0 < l.sum := by
  cases l with
  | nil => exact absurd rfl hne
  | cons a l =>
    rw [List.sum_cons]
    have h0 : 0 ≤ l.sum := List.sum_nonneg fun x hx => (hp x (by simp [hx])).le
    have := hp a (by simp)
    linarith

/-- The Dirichlet integral. -/
theorem simplex_dirichlet (as : List ℝ) (hne : as ≠ []) (hp : ∀ a ∈ as, 0 < a) (c : ℝ) (hc : 0 < c) :
    simplexIntegral as.length c (fun θ => (List.zipWith (fun a t => t ^ (a - 1)) as θ).prod) =
      c ^ (as.sum - 1) * ((as.map Real.Gamma).prod / Real.Gamma as.sum) := by
  induction as generalizing c with
  | nil => exact absurd rfl hne
  | cons a as ih =>
    have ha := hp a (by simp)
    cases as with
    | nil =>
      have g := (Real.Gamma_pos_of_pos ha).ne'
      simp [simplexIntegral, g]
    | cons b as =>
      have hp' : ∀ x ∈ b :: as, 0 < x := fun x hx => hp x (by simp [hx])
      have hS := sum_pos_of_pos (by simp) hp'
      have ih' := ih (by simp) hp'
      have e : ∀ x : ℝ, simplexIntegral (b :: as).length (c - x)
          (fun θ => (List.zipWith (fun a t => t ^ (a - 1)) (a :: b :: as) (x :: θ)).prod) =
          x ^ (a - 1) * simplexIntegral (b :: as).length (c - x)
            (fun θ => (List.zipWith (fun a t => t ^ (a - 1)) (b :: as) θ).prod) := by
        intro x
        rw [← simplex_const_mul]
        rfl
      have e2 : simplexIntegral (a :: b :: as).length c
          (fun θ => (List.zipWith (fun a t => t ^ (a - 1)) (a :: b :: as) θ).prod) =
          ∫ x in (0 : ℝ)..c, x ^ (a - 1) * simplexIntegral (b :: as).length (c - x)
            (fun θ => (List.zipWith (fun a t => t ^ (a - 1)) (b :: as) θ).prod) := by
        show (∫ x in (0 : ℝ)..c, simplexIntegral (b :: as).length (c - x) _) = _
        simp only [e]
      rw [e2]
      have e3 : ∫ x in (0 : ℝ)..c, x ^ (a - 1) * simplexIntegral (b :: as).length (c - x)
            (fun θ => (List.zipWith (fun a t => t ^ (a - 1)) (b :: as) θ).prod) =
          ∫ x in (0 : ℝ)..c, ((b :: as).map Real.Gamma).prod / Real.Gamma (b :: as).sum *
            (x ^ (a - 1) * (c - x) ^ ((b :: as).sum - 1)) := by
        apply intervalIntegral.integral_congr_ae
        have hx : ∀ᵐ x : ℝ, x ≠ c := by
          rw [ae_iff]
          simp
        filter_upwards [hx] with x hx hmem
        rw [Set.uIoc_of_le hc.le] at hmem
        have hlt : x < c := lt_of_le_of_ne hmem.2 hx
        rw [ih' (c - x) (sub_pos.2 hlt)]
        ring
      rw [e3, intervalIntegral.integral_const_mul, beta_scaled ha hS hc, List.sum_cons (l := b :: as)]
      have g := (Real.Gamma_pos_of_pos hS).ne'
      have hm : ((a :: b :: as).map Real.Gamma).prod = Real.Gamma a * ((b :: as).map Real.Gamma).prod := rfl
      rw [hm]
      field_simp

end BT
