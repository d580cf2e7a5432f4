import Verif.Lemmas.Real
import Verif.Lemmas.Simplex
import Verif.Spec.MaxLik
import Mathlib.Data.Nat.Choose.Multinomial
import Mathlib.Analysis.Convex.SpecificFunctions.Basic

/-!
# Bounds on Dirichlet-multinomial probabilities

Analytic facts behind the bounds relating the classification scores to maximum likelihood.
-/

namespace BT
open Spec MeasureTheory

/-- Gibbs' inequality for one class. -/
theorem gibbs_term {n c : ℕ} {θ : ℝ} (hn : 0 < n) (h0 : 0 ≤ θ) (hpos : c ≠ 0 → 0 < θ) :
    (c : ℝ) * Real.log θ - (c : ℝ) * Real.log ((c : ℝ) / n) ≤ n * θ - c ∧
    (θ ≠ (c : ℝ) / n → (c : ℝ) * Real.log θ - (c : ℝ) * Real.log ((c : ℝ) / n) < n * θ - c) := by
  have hn0 : (0 : ℝ) < n := by exact_mod_cast hn
  rcases Nat.eq_zero_or_pos c with hc | hc
  · subst hc
    have := mul_nonneg hn0.le h0
    refine ⟨by simpa using this, fun hne => ?_⟩
    have : 0 < θ := lt_of_le_of_ne h0 (by simpa using Ne.symm hne)
    have := mul_pos hn0 this
    simpa using this
  have h0' := hpos (by omega)
  have hc0 : (0 : ℝ) < c := by exact_mod_cast hc
  have hd := div_pos hc0 hn0
  have e : θ / ((c : ℝ) / n) = n * θ / c := by field_simp
  have e2 : (c : ℝ) * Real.log θ - (c : ℝ) * Real.log ((c : ℝ) / n) = c * (Real.log θ - Real.log ((c : ℝ) / n)) := by
    ring
  have e3 : (c : ℝ) * (n * θ / c - 1) = n * θ - c := by field_simp
  constructor
  · have := Real.log_le_sub_one_of_pos (x := θ / ((c : ℝ) / n)) (div_pos h0' hd)
    rw [Real.log_div h0'.ne' hd.ne', e] at this
    rw [e2, ← e3]
    exact mul_le_mul_of_nonneg_left this hc0.le
  · intro hne
    have := Real.log_lt_sub_one_of_pos (x := θ / ((c : ℝ) / n)) (div_pos h0' hd) (by
      rw [Ne, div_eq_one_iff_eq hd.ne']
      exact hne)
    rw [Real.log_div h0'.ne' hd.ne', e] at this
    rw [e2, ← e3]
    exact mul_lt_mul_of_pos_left this hc0

/-- Gibbs' inequality for counts. -/
theorem gibbs {m : Nat} (c : Fin m → ℕ) (θ : Fin m → ℝ) (h0 : ∀ j, 0 ≤ θ j) (hpos : ∀ j, c j ≠ 0 → 0 < θ j)
    (h1 : ∑ j, θ j ≤ 1) :
    ∑ j, (c j : ℝ) * Real.log (θ j) ≤
      ∑ j, (c j : ℝ) * Real.log ((c j : ℝ) / ((∑ i, c i : ℕ) : ℝ)) := by
  set n : ℕ := ∑ i, c i with hn
  rcases Nat.eq_zero_or_pos n with h | h
  · have : ∀ j, c j = 0 := fun j => by
      have := Finset.single_le_sum (f := c) (fun i _ => Nat.zero_le _) (Finset.mem_univ j)
      omega
    simp [this]
  have hn0 : (0 : ℝ) < n := by exact_mod_cast h
  have s := Finset.sum_le_sum fun j (_ : j ∈ Finset.univ) => (gibbs_term h (h0 j) (hpos j)).1
  rw [Finset.sum_sub_distrib, Finset.sum_sub_distrib, ← Finset.mul_sum] at s
  have : (∑ j, (c j : ℝ)) = n := by rw [hn]; push_cast; rfl
  rw [this] at s
  nlinarith

/-- Equality only for the relative frequencies. -/
theorem gibbs_strict {m : Nat} (c : Fin m → ℕ) (θ : Fin m → ℝ) (h0 : ∀ j, 0 ≤ θ j)
    (hpos : ∀ j, c j ≠ 0 → 0 < θ j) (h1 : ∑ j, θ j ≤ 1) (hn' : 0 < ∑ i, c i)
    (hne : ∃ j, θ j ≠ (c j : ℝ) / ((∑ i, c i : ℕ) : ℝ)) :
    ∑ j, (c j : ℝ) * Real.log (θ j) <
      ∑ j, (c j : ℝ) * Real.log ((c j : ℝ) / ((∑ i, c i : ℕ) : ℝ)) := by
  set n : ℕ := ∑ i, c i with hn
  have hn0 : (0 : ℝ) < n := by exact_mod_cast hn'
  obtain ⟨k, hk⟩ := hne
  have s := Finset.sum_lt_sum (fun j (_ : j ∈ Finset.univ) => (gibbs_term hn' (h0 j) (hpos j)).1)
    ⟨k, Finset.mem_univ k, (gibbs_term hn' (h0 k) (hpos k)).2 hk⟩
  rw [Finset.sum_sub_distrib, Finset.sum_sub_distrib, ← Finset.mul_sum] at s
  have : (∑ j, (c j : ℝ)) = n := by rw [hn]; push_cast; rfl
  rw [this] at s
  nlinarith

/-- The largest likelihood of the counts. -/
noncomputable def bestLik {m : Nat} (c : Fin m → ℕ) : ℝ := ∏ j, ((c j : ℝ) / ((∑ i, c i : ℕ) : ℝ)) ^ c j

theorem bestLik_pos {m : Nat} (c : Fin m → ℕ) : 0 < bestLik c := by
  apply Finset.prod_pos
  intro j _
  rcases Nat.eq_zero_or_pos (c j) with hc | hc
  · rw [hc]; simp
  · have := Finset.single_le_sum (f := c) (fun i _ => Nat.zero_le _) (Finset.mem_univ j)
    have h1 : (0 : ℝ) < c j := by exact_mod_cast hc
    have h2 : (0 : ℝ) < ((∑ i, c i : ℕ) : ℝ) := by
      exact_mod_cast lt_of_lt_of_le hc this
    positivity

theorem log_bestLik {m : Nat} (c : Fin m → ℕ) :
    Real.log (bestLik c) = ∑ j, (c j : ℝ) * Real.log ((c j : ℝ) / ((∑ i, c i : ℕ) : ℝ)) := by
  unfold bestLik
  rw [Real.log_prod]
  · simp [Real.log_pow]
  · intro j _
    have := bestLik_pos c
    unfold bestLik at this
    exact Finset.prod_ne_zero_iff.1 this.ne' j (Finset.mem_univ j)

theorem prod_pow_le {m : Nat} (c : Fin m → ℕ) (x : Fin m → ℝ) (h0 : ∀ j, 0 < x j) (h1 : ∑ j, x j ≤ 1) :
    ∏ j, x j ^ c j ≤ bestLik c := by
  have g := gibbs c x (fun j => (h0 j).le) (fun j _ => h0 j) h1
  rw [← log_bestLik] at g
  rw [← Real.log_le_log_iff (Finset.prod_pos fun j _ => pow_pos (h0 j) _) (bestLik_pos c),
    Real.log_prod (fun j _ => (pow_pos (h0 j) _).ne')]
  simpa only [Real.log_pow] using g

/-- Monotonicity of the simplex integral against a Dirichlet kernel. -/
theorem simplex_le (as : List ℝ) (hne : as ≠ []) (hp : ∀ a ∈ as, 0 < a) (M : ℝ) (hM : 0 ≤ M) (c : ℝ) (hc : 0 < c)
    (f : List ℝ → ℝ)
    (h : ∀ θ : List ℝ, θ.length = as.length → (∀ t ∈ θ, 0 < t) → θ.sum = c →
      f θ ≤ M * (List.zipWith (fun a t => t ^ (a - 1)) as θ).prod) :
    simplexIntegral as.length c f ≤ M * (c ^ (as.sum - 1) * ((as.map Real.Gamma).prod / Real.Gamma as.sum)) := by
  induction as generalizing c f M with
  | nil => exact absurd rfl hne
  | cons a as ih =>
    have ha := hp a (by simp)
    cases as with
    | nil =>
      have g := (Real.Gamma_pos_of_pos ha).ne'
      have := h [c] rfl (by simpa using hc) (by simp)
      simpa [simplexIntegral, g] using this
    | cons b as =>
      have hp' : ∀ x ∈ b :: as, 0 < x := fun x hx => hp x (by simp [hx])
      have hS := sum_pos_of_pos (by simp) hp'
      have hG : 0 < ((b :: as).map Real.Gamma).prod / Real.Gamma (b :: as).sum :=
        div_pos (List.prod_pos fun r hr => by
          obtain ⟨x, hx, rfl⟩ := List.mem_map.1 hr
          exact Real.Gamma_pos_of_pos (hp' x hx)) (Real.Gamma_pos_of_pos hS)
      have hbeta := beta_scaled ha hS hc
      have hval : 0 < c ^ (a + (b :: as).sum - 1) *
          (Real.Gamma a * Real.Gamma (b :: as).sum / Real.Gamma (a + (b :: as).sum)) := by
        have h1 := Real.Gamma_pos_of_pos ha
        have h2 := Real.Gamma_pos_of_pos hS
        have h3 := Real.Gamma_pos_of_pos (add_pos ha hS)
        positivity
      have hint : IntervalIntegrable (fun x : ℝ => x ^ (a - 1) * (c - x) ^ ((b :: as).sum - 1)) volume 0 c := by
        by_contra hn
        rw [intervalIntegral.integral_undef hn] at hbeta
        exact absurd hbeta hval.ne
      have hgoal : M * (c ^ ((a :: b :: as).sum - 1) *
          (((a :: b :: as).map Real.Gamma).prod / Real.Gamma (a :: b :: as).sum)) =
          ∫ x in (0 : ℝ)..c, M * (((b :: as).map Real.Gamma).prod / Real.Gamma (b :: as).sum) *
            (x ^ (a - 1) * (c - x) ^ ((b :: as).sum - 1)) := by
        rw [intervalIntegral.integral_const_mul, hbeta, List.sum_cons (l := b :: as)]
        have g := (Real.Gamma_pos_of_pos hS).ne'
        have hm : ((a :: b :: as).map Real.Gamma).prod = Real.Gamma a * ((b :: as).map Real.Gamma).prod := rfl
        rw [hm]
        field_simp
      rw [hgoal]
      show (∫ x in (0 : ℝ)..c, simplexIntegral (b :: as).length (c - x) fun θ => f (x :: θ)) ≤ _
      have hle : ∀ x ∈ Set.Ioo (0 : ℝ) c, simplexIntegral (b :: as).length (c - x) (fun θ => f (x :: θ)) ≤
          M * (((b :: as).map Real.Gamma).prod / Real.Gamma (b :: as).sum) *
            (x ^ (a - 1) * (c - x) ^ ((b :: as).sum - 1)) := by
        intro x hx
        have hx0 : 0 ≤ x ^ (a - 1) := Real.rpow_nonneg hx.1.le _
        have := ih (by simp) hp' (M * x ^ (a - 1)) (mul_nonneg hM hx0) (c - x) (sub_pos.2 hx.2)
          (fun θ => f (x :: θ)) (fun θ h1 h2 h3 => by
            have := h (x :: θ) (by simp [h1]) (by
              intro t ht
              rcases List.mem_cons.1 ht with rfl | ht
              · exact hx.1
              · exact h2 t ht) (by rw [List.sum_cons, h3]; ring)
            simpa [mul_assoc] using this)
        calc _ ≤ _ := this
          _ = _ := by ring
      have hint2 := hint.const_mul (M * (((b :: as).map Real.Gamma).prod / Real.Gamma (b :: as).sum))
      by_cases hf : IntervalIntegrable (fun x => simplexIntegral (b :: as).length (c - x) fun θ => f (x :: θ))
          volume 0 c
      · exact intervalIntegral.integral_mono_on_of_le_Ioo hc.le hf hint2 hle
      · rw [intervalIntegral.integral_undef hf, ← hgoal]
        have h3 := Real.Gamma_pos_of_pos (sum_pos_of_pos (l := a :: b :: as) (by simp) hp)
        have h4 : 0 ≤ ((a :: b :: as).map Real.Gamma).prod := (List.prod_pos fun r hr => by
          obtain ⟨x, hx, rfl⟩ := List.mem_map.1 hr
          exact Real.Gamma_pos_of_pos (hp x hx)).le
        exact mul_nonneg hM (mul_nonneg (Real.rpow_nonneg hc.le _) (div_nonneg h4 h3.le))

/-- The multinomial coefficient times the largest likelihood is at most 1. -/
theorem bestLik_le {m : Nat} (c : Fin m → ℕ) :
    bestLik c * ((∑ i, c i).factorial : ℝ) ≤ ∏ j, ((c j).factorial : ℝ) := by
  set n : ℕ := ∑ i, c i with hn
  have h := Finset.sum_pow_eq_sum_piAntidiag (Finset.univ : Finset (Fin m))
    (fun j => (c j : ℝ) / (n : ℝ)) n
  have hmem : c ∈ Finset.piAntidiag (Finset.univ : Finset (Fin m)) n := by
    simp [hn]
  have hle : (Nat.multinomial Finset.univ c : ℝ) * ∏ j, ((c j : ℝ) / (n : ℝ)) ^ c j ≤
      (∑ j, (c j : ℝ) / (n : ℝ)) ^ n := by
    rw [h]
    exact Finset.single_le_sum (f := fun k : Fin m → ℕ => (Nat.multinomial Finset.univ k : ℝ) *
      ∏ j, ((c j : ℝ) / (n : ℝ)) ^ k j) (fun k _ => by positivity) hmem
  have hone : (∑ j, (c j : ℝ) / (n : ℝ)) ^ n ≤ 1 := by
    rw [← Finset.sum_div]
    have : (∑ j, (c j : ℝ)) = n := by rw [hn]; push_cast; rfl
    rw [this]
    exact pow_le_one₀ (by positivity) (div_self_le_one _)
  have hspec := Nat.multinomial_spec (Finset.univ : Finset (Fin m)) c
  have hspec' : (∏ j, ((c j).factorial : ℝ)) * (Nat.multinomial Finset.univ c : ℝ) = (n.factorial : ℝ) := by
    exact_mod_cast hspec
  have hb : bestLik c = ∏ j, ((c j : ℝ) / (n : ℝ)) ^ c j := rfl
  rw [← hspec', hb]
  have h0 : (0 : ℝ) ≤ ∏ j, ((c j).factorial : ℝ) := by positivity
  calc _ = (∏ j, ((c j).factorial : ℝ)) * ((Nat.multinomial Finset.univ c : ℝ) * ∏ j, ((c j : ℝ) / (n : ℝ)) ^ c j) := by
        ring
    _ ≤ (∏ j, ((c j).factorial : ℝ)) * 1 := mul_le_mul_of_nonneg_left (hle.trans hone) h0
    _ = _ := mul_one _

theorem rising_ge {a : ℝ} (ha : 0 < a) (n : Nat) : (n.factorial : ℝ) / (1 + (n : ℝ) / a) ≤ rising a n := by
  have e : ∀ n : Nat, (n.factorial : ℝ) / (1 + (n : ℝ) / a) = n.factorial * (a / (a + n)) := by
    intro n
    have : a + (n : ℝ) ≠ 0 := by positivity
    field_simp
  rw [e]
  induction n with
  | zero => simp [rising, ha.ne']
  | succ n ih =>
    rw [rising_succ, Nat.factorial_succ]
    have h1 : (0 : ℝ) < a + n := by positivity
    have h2 : (0 : ℝ) < a + ((n + 1 : ℕ) : ℝ) := by positivity
    calc _ ≤ (n.factorial : ℝ) * (a / (a + n)) * (a + n) := by
          push_cast
          push_cast at h2
          rw [mul_assoc (n.factorial : ℝ), div_mul_cancel₀ _ h1.ne', mul_comm ((n : ℝ) + 1), mul_assoc]
          apply mul_le_mul_of_nonneg_left _ (by positivity)
          rw [mul_div_assoc', div_le_iff₀ h2]
          nlinarith
      _ ≤ _ := mul_le_mul_of_nonneg_right ih h1.le

theorem rising_le {a : ℝ} (ha : 0 < a) (n : Nat) : rising a n ≤ n.factorial * (1 + (n : ℝ)) ^ a := by
  induction n with
  | zero => simp [rising]
  | succ n ih =>
    rw [rising_succ, Nat.factorial_succ]
    have h1 : (0 : ℝ) < 1 + n := by positivity
    have h0 : (0 : ℝ) ≤ a + n := by positivity
    have key : (1 + (n : ℝ)) ^ a * (a + n) ≤ (n + 1) * (1 + ((n + 1 : ℕ) : ℝ)) ^ a := by
      have hdiv : (1 + ((n + 1 : ℕ) : ℝ)) = (1 + n) * (1 + 1 / (1 + n)) := by
        push_cast; field_simp; ring
      rw [hdiv, Real.mul_rpow h1.le (by positivity)]
      have : (a + n) ≤ (n + 1) * (1 + 1 / (1 + (n : ℝ))) ^ a := by
        rcases le_total 1 a with h | h
        · have hb := one_add_mul_self_le_rpow_one_add (s := 1 / (1 + (n : ℝ))) (by
            have : 0 ≤ 1 / (1 + (n : ℝ)) := by positivity
            linarith) h
          calc a + n ≤ (n + 1) * (1 + a * (1 / (1 + (n : ℝ)))) := by
                have : (n + 1) * (1 + a * (1 / (1 + (n : ℝ)))) = n + 1 + a := by field_simp; ring
                rw [this]; linarith
            _ ≤ _ := mul_le_mul_of_nonneg_left hb (by positivity)
        · have : 1 ≤ (1 + 1 / (1 + (n : ℝ))) ^ a := Real.one_le_rpow (by
            have : 0 ≤ 1 / (1 + (n : ℝ)) := by positivity
            linarith) ha.le
          nlinarith
      have h3 : 0 ≤ (1 + (n : ℝ)) ^ a := Real.rpow_nonneg h1.le _
      calc _ ≤ (1 + (n : ℝ)) ^ a * ((n + 1) * (1 + 1 / (1 + (n : ℝ))) ^ a) := mul_le_mul_of_nonneg_left this h3
        _ = _ := by ring
    calc _ ≤ (n.factorial : ℝ) * (1 + (n : ℝ)) ^ a * (a + n) := mul_le_mul_of_nonneg_right ih h0
      _ = (n.factorial : ℝ) * ((1 + (n : ℝ)) ^ a * (a + n)) := by ring
      _ ≤ (n.factorial : ℝ) * ((n + 1) * (1 + ((n + 1 : ℕ) : ℝ)) ^ a) :=
          mul_le_mul_of_nonneg_left key (by positivity)
      _ = _ := by push_cast; ring

end BT
