import Mathlib.Analysis.Fourier.AddCircleMulti
import Mathlib.MeasureTheory.Measure.Portmanteau
import Mathlib.RingTheory.Polynomial.Selmer
import Mathlib.FieldTheory.Minpoly.Field

/-!
# Weyl's theorem for the sequence `c + α (k + 1)` on the torus

The sequence is equidistributed if no nontrivial integer combination of the `α_j` is an integer.
-/

noncomputable section

open MeasureTheory Set Filter Topology

namespace BT.Weyl

variable {D : Nat}

/-- The Haar probability measure of the torus. -/
def haar (D : Nat) : Measure (UnitAddTorus (Fin D)) := Measure.pi fun _ => AddCircle.haarAddCircle

instance : IsProbabilityMeasure (haar D) := by unfold haar; infer_instance

instance : (haar D).IsAddLeftInvariant := by unfold haar; infer_instance

instance : (haar D).IsAddRightInvariant := ⟨fun g => by
  have : (fun x => x + g) = fun x : UnitAddTorus (Fin D) => g + x := by funext x; exact add_comm _ _
  rw [this]
  exact map_add_left_eq_self (haar D) g⟩

/-- A point of the torus. -/
def toTorus (x : Fin D → ℝ) : UnitAddTorus (Fin D) := fun j => (x j : UnitAddCircle)

theorem mFourier_mul (n : Fin D → ℤ) (x y : UnitAddTorus (Fin D)) :
    UnitAddTorus.mFourier n (x + y) = UnitAddTorus.mFourier n x * UnitAddTorus.mFourier n y := by
  simp only [UnitAddTorus.mFourier, ContinuousMap.coe_mk, ← Finset.prod_mul_distrib]
  refine Finset.prod_congr rfl fun j _ => ?_
  rw [Pi.add_apply, fourier_apply, fourier_apply, fourier_apply, smul_add, AddCircle.toCircle_add, Circle.coe_mul]

theorem mFourier_toTorus (n : Fin D → ℤ) (x : Fin D → ℝ) :
    UnitAddTorus.mFourier n (toTorus x) = Complex.exp (((∑ j, (n j : ℝ) * x j : ℝ) : ℂ) * (2 * Real.pi * Complex.I)) := by
  simp only [UnitAddTorus.mFourier, ContinuousMap.coe_mk, toTorus, fourier_coe_apply]
  rw [← Complex.exp_sum]
  congr 1
  push_cast
  rw [Finset.sum_mul]
  refine Finset.sum_congr rfl fun j _ => ?_
  ring

/-- No nontrivial integer combination is an integer. -/
def Independent (α : Fin D → ℝ) : Prop := ∀ n : Fin D → ℤ, n ≠ 0 → ∀ m : ℤ, ∑ j, (n j : ℝ) * α j ≠ m

theorem mFourier_ne_one {α : Fin D → ℝ} (h : Independent α) {n : Fin D → ℤ} (hn : n ≠ 0) :
    UnitAddTorus.mFourier n (toTorus α) ≠ 1 := by
  intro h1
  rw [mFourier_toTorus, Complex.exp_eq_one_iff] at h1
  obtain ⟨m, hm⟩ := h1
  have h2 : (((∑ j, (n j : ℝ) * α j : ℝ) : ℂ)) = (m : ℂ) := mul_right_cancel₀ Complex.two_pi_I_ne_zero hm
  exact h n hn m (by exact_mod_cast h2)

/-- The sequence. -/
def pt (α c : Fin D → ℝ) (k : Nat) : UnitAddTorus (Fin D) := toTorus fun j => c j + α j * ((k : ℝ) + 1)

theorem pt_succ (α c : Fin D → ℝ) (k : Nat) : pt α c (k + 1) = pt α c k + toTorus α := by
  funext j
  show ((c j + α j * (((k + 1 : Nat) : ℝ) + 1) : ℝ) : UnitAddCircle) =
    ((c j + α j * ((k : ℝ) + 1) : ℝ) : UnitAddCircle) + (α j : UnitAddCircle)
  rw [← AddCircle.coe_add]
  congr 1
  push_cast
  ring

theorem mFourier_pt (α c : Fin D → ℝ) (n : Fin D → ℤ) (k : Nat) :
    UnitAddTorus.mFourier n (pt α c k) =
      UnitAddTorus.mFourier n (pt α c 0) * UnitAddTorus.mFourier n (toTorus α) ^ k := by
  induction k with
  | zero => rw [pow_zero, mul_one]
  | succ k ih => rw [pt_succ, mFourier_mul, ih, pow_succ, mul_assoc]

theorem norm_mFourier_apply (n : Fin D → ℤ) (x : UnitAddTorus (Fin D)) : ‖UnitAddTorus.mFourier n x‖ = 1 := by
  simp only [UnitAddTorus.mFourier, fourier_apply, ContinuousMap.coe_mk, norm_prod, Circle.norm_coe,
    Finset.prod_const_one]

/-- Average over the first `N + 1` elements. -/
def avg (α c : Fin D → ℝ) (f : UnitAddTorus (Fin D) → ℂ) (N : Nat) : ℂ :=
  (∑ k ∈ Finset.range (N + 1), f (pt α c k)) / ((N : ℂ) + 1)

theorem integrable_cont (f : C(UnitAddTorus (Fin D), ℂ)) : Integrable f (haar D) :=
  f.continuous.integrable_of_hasCompactSupport (HasCompactSupport.of_compactSpace _)

theorem integral_mFourier {α : Fin D → ℝ} (h : Independent α) {n : Fin D → ℤ} (hn : n ≠ 0) :
    ∫ x, UnitAddTorus.mFourier n x ∂(haar D) = 0 := by
  have h1 : ∫ x, UnitAddTorus.mFourier n (x + toTorus α) ∂(haar D) = ∫ x, UnitAddTorus.mFourier n x ∂(haar D) :=
    integral_add_right_eq_self (fun x => UnitAddTorus.mFourier n x) (toTorus α)
  simp only [mFourier_mul] at h1
  rw [integral_mul_const] at h1
  have h2 := mFourier_ne_one h hn
  have h3 : (∫ x, UnitAddTorus.mFourier n x ∂(haar D)) * (UnitAddTorus.mFourier n (toTorus α) - 1) = 0 := by
    rw [mul_sub, h1, mul_one, sub_self]
  rcases mul_eq_zero.1 h3 with h4 | h4
  · exact h4
  · exact absurd (sub_eq_zero.1 h4) h2

theorem avg_mFourier {α : Fin D → ℝ} (h : Independent α) (c : Fin D → ℝ) (n : Fin D → ℤ) :
    Tendsto (avg α c (UnitAddTorus.mFourier n)) atTop (𝓝 (∫ x, UnitAddTorus.mFourier n x ∂(haar D))) := by
  by_cases hn : n = 0
  · subst hn
    have : avg α c (UnitAddTorus.mFourier 0) = fun _ => 1 := by
      funext N
      unfold avg
      simp only [UnitAddTorus.mFourier_zero, ContinuousMap.one_apply, Finset.sum_const, Finset.card_range,
        nsmul_eq_mul, mul_one]
      push_cast
      exact div_self (by exact_mod_cast Nat.succ_ne_zero N)
    rw [this, UnitAddTorus.mFourier_zero]
    simp
  · rw [integral_mFourier h hn]
    set z := UnitAddTorus.mFourier n (toTorus α) with hz
    have hz1 : z - 1 ≠ 0 := sub_ne_zero.2 (mFourier_ne_one h hn)
    have hbound : ∀ N : Nat, ‖avg α c (UnitAddTorus.mFourier n) N‖ ≤ (2 / ‖z - 1‖) * (1 / ((N : ℝ) + 1)) := by
      intro N
      unfold avg
      have hs : ∑ k ∈ Finset.range (N + 1), UnitAddTorus.mFourier n (pt α c k) =
          UnitAddTorus.mFourier n (pt α c 0) * ((z ^ (N + 1) - 1) / (z - 1)) := by
        rw [← geom_sum_eq (sub_ne_zero.1 hz1), Finset.mul_sum]
        exact Finset.sum_congr rfl fun k _ => mFourier_pt α c n k
      have hN : ‖(N : ℂ) + 1‖ = (N : ℝ) + 1 := by
        rw [show (N : ℂ) + 1 = ((N + 1 : Nat) : ℂ) by push_cast; rfl, Complex.norm_natCast]
        push_cast; rfl
      rw [hs, norm_div, norm_mul, norm_mFourier_apply, one_mul, norm_div, hN, mul_one_div]
      refine div_le_div_of_nonneg_right (div_le_div_of_nonneg_right ?_ (norm_nonneg _)) (by positivity)
      calc ‖z ^ (N + 1) - 1‖ ≤ ‖z ^ (N + 1)‖ + ‖(1 : ℂ)‖ := norm_sub_le _ _
        _ = 2 := by rw [norm_pow, norm_mFourier_apply, one_pow, norm_one]; norm_num
    refine squeeze_zero_norm hbound ?_
    have := (tendsto_one_div_add_atTop_nhds_zero_nat (𝕜 := ℝ)).const_mul (2 / ‖z - 1‖)
    rwa [mul_zero] at this

theorem avg_add (α c : Fin D → ℝ) (f g : UnitAddTorus (Fin D) → ℂ) (N : Nat) :
    avg α c (fun x => f x + g x) N = avg α c f N + avg α c g N := by
  unfold avg
  rw [Finset.sum_add_distrib, add_div]

theorem avg_smul (α c : Fin D → ℝ) (a : ℂ) (f : UnitAddTorus (Fin D) → ℂ) (N : Nat) :
    avg α c (fun x => a * f x) N = a * avg α c f N := by
  unfold avg
  rw [← Finset.mul_sum, mul_div_assoc]

theorem avg_norm_le (α c : Fin D → ℝ) (f : C(UnitAddTorus (Fin D), ℂ)) (N : Nat) : ‖avg α c f N‖ ≤ ‖f‖ := by
  unfold avg
  have hN : ‖(N : ℂ) + 1‖ = (N : ℝ) + 1 := by
    rw [show (N : ℂ) + 1 = ((N + 1 : Nat) : ℂ) by push_cast; rfl, Complex.norm_natCast]
    push_cast; rfl
  rw [norm_div, hN, div_le_iff₀ (by positivity)]
  refine (norm_sum_le _ _).trans ?_
  refine (Finset.sum_le_sum fun k _ => f.norm_coe_le_norm _).trans ?_
  rw [Finset.sum_const, Finset.card_range, nsmul_eq_mul]
  push_cast
  rw [mul_comm]

/-- Weyl's theorem. -/
theorem weyl {α : Fin D → ℝ} (h : Independent α) (c : Fin D → ℝ) (f : C(UnitAddTorus (Fin D), ℂ)) :
    Tendsto (avg α c f) atTop (𝓝 (∫ x, f x ∂(haar D))) := by
  -- the functions in the span
  have hspan : ∀ g ∈ Submodule.span ℂ (range (UnitAddTorus.mFourier (d := Fin D))),
      Tendsto (avg α c g) atTop (𝓝 (∫ x, g x ∂(haar D))) := by
    intro g hg
    induction hg using Submodule.span_induction with
    | mem g hg =>
      obtain ⟨n, rfl⟩ := hg
      exact avg_mFourier h c n
    | zero =>
      have : avg α c ((0 : C(UnitAddTorus (Fin D), ℂ))) = fun _ => 0 := by
        funext N
        simp [avg]
      rw [this]
      simp
    | add f g _ _ hf hg =>
      have : avg α c ((f + g : C(UnitAddTorus (Fin D), ℂ))) = fun N => avg α c f N + avg α c g N := by
        funext N
        exact avg_add α c f g N
      rw [this]
      have e : ∫ x, (f + g) x ∂(haar D) = ∫ x, f x ∂(haar D) + ∫ x, g x ∂(haar D) :=
        integral_add (integrable_cont f) (integrable_cont g)
      rw [e]
      exact hf.add hg
    | smul a f _ hf =>
      have : avg α c ((a • f : C(UnitAddTorus (Fin D), ℂ))) = fun N => a * avg α c f N := by
        funext N
        exact avg_smul α c a f N
      rw [this]
      have e : ∫ x, (a • f) x ∂(haar D) = a * ∫ x, f x ∂(haar D) := integral_const_mul a _
      rw [e]
      exact hf.const_mul a
  have hf : f ∈ (Submodule.span ℂ (range (UnitAddTorus.mFourier (d := Fin D)))).topologicalClosure := by
    rw [UnitAddTorus.span_mFourier_closure_eq_top]; trivial
  rw [Metric.tendsto_atTop]
  intro ε hε
  obtain ⟨g, hg, hfg⟩ := Metric.mem_closure_iff.1 hf (ε / 3) (by linarith)
  obtain ⟨N, hN⟩ := Metric.tendsto_atTop.1 (hspan g hg) (ε / 3) (by linarith)
  refine ⟨N, fun M hM => ?_⟩
  have h1 := hN M hM
  rw [dist_eq_norm] at h1 hfg ⊢
  have h2 : ‖avg α c f M - avg α c g M‖ ≤ ‖f - g‖ := by
    have : avg α c f M - avg α c g M = avg α c ((f - g : C(UnitAddTorus (Fin D), ℂ))) M := by
      unfold avg
      rw [← sub_div, ← Finset.sum_sub_distrib]
      rfl
    rw [this]
    exact avg_norm_le _ _ _ _
  have h3 : ‖∫ x, g x ∂(haar D) - ∫ x, f x ∂(haar D)‖ ≤ ‖f - g‖ := by
    rw [← integral_sub (integrable_cont g) (integrable_cont f)]
    have := norm_integral_le_of_norm_le_const (μ := haar D) (f := fun x => g x - f x) (C := ‖f - g‖)
      (Eventually.of_forall fun x => by
        rw [norm_sub_rev]
        exact (f - g).norm_coe_le_norm x)
    simpa using this
  calc ‖avg α c f M - ∫ x, f x ∂(haar D)‖
      = ‖(avg α c f M - avg α c g M) + (avg α c g M - ∫ x, g x ∂(haar D)) +
          (∫ x, g x ∂(haar D) - ∫ x, f x ∂(haar D))‖ := by congr 1; ring
    _ ≤ ‖avg α c f M - avg α c g M‖ + ‖avg α c g M - ∫ x, g x ∂(haar D)‖ +
          ‖∫ x, g x ∂(haar D) - ∫ x, f x ∂(haar D)‖ := norm_add₃_le
    _ < ε := by linarith

/-! ## Frequencies -/

/-- The empirical distribution of the first `N + 1` elements. -/
def emp (α c : Fin D → ℝ) (N : Nat) : Measure (UnitAddTorus (Fin D)) :=
  ((N : ENNReal) + 1)⁻¹ • ∑ k ∈ Finset.range (N + 1), Measure.dirac (pt α c k)

theorem succ_ne (N : Nat) : ((N : ENNReal) + 1) ≠ 0 ∧ ((N : ENNReal) + 1) ≠ ⊤ :=
  ⟨by simp, by simp⟩

instance (α c : Fin D → ℝ) (N : Nat) : IsProbabilityMeasure (emp α c N) := ⟨by
  unfold emp
  rw [Measure.smul_apply, Measure.finsetSum_apply]
  simp only [measure_univ, Finset.sum_const, Finset.card_range, nsmul_eq_mul, mul_one, smul_eq_mul]
  push_cast
  exact ENNReal.inv_mul_cancel (succ_ne N).1 (succ_ne N).2⟩

def empP (α c : Fin D → ℝ) (N : Nat) : ProbabilityMeasure (UnitAddTorus (Fin D)) := ⟨emp α c N, inferInstance⟩

def haarP (D : Nat) : ProbabilityMeasure (UnitAddTorus (Fin D)) := ⟨haar D, inferInstance⟩

theorem emp_tendsto {α : Fin D → ℝ} (h : Independent α) (c : Fin D → ℝ) :
    Tendsto (empP α c) atTop (𝓝 (haarP D)) := by
  rw [ProbabilityMeasure.tendsto_iff_forall_integral_tendsto]
  intro f
  let g : C(UnitAddTorus (Fin D), ℂ) := ⟨fun x => (f x : ℂ), Complex.continuous_ofReal.comp f.continuous⟩
  have hw := weyl h c g
  have hre := (Complex.continuous_re.tendsto _).comp hw
  have e1 : (∫ x, g x ∂(haar D)).re = ∫ x, f x ∂(haar D) := by
    have : ∫ x, g x ∂(haar D) = ((∫ x, f x ∂(haar D) : ℝ) : ℂ) := integral_ofReal
    rw [this, Complex.ofReal_re]
  have e2 : ∀ N, ∫ x, f x ∂(emp α c N) = (avg α c g N).re := by
    intro N
    unfold emp avg
    rw [integral_smul_measure, integral_finsetSum_measure]
    · simp only [integral_dirac]
      have : (∑ k ∈ Finset.range (N + 1), g (pt α c k)) / ((N : ℂ) + 1) =
          (((∑ k ∈ Finset.range (N + 1), f (pt α c k)) / ((N : ℝ) + 1) : ℝ) : ℂ) := by
        push_cast
        rfl
      rw [this, Complex.ofReal_re, div_eq_inv_mul, ENNReal.toReal_inv, ENNReal.toReal_add (by simp) (by simp)]
      simp
    · intro k _
      exact integrable_dirac (by simp)
  show Tendsto (fun N => ∫ x, f x ∂(emp α c N)) atTop (𝓝 (∫ x, f x ∂(haar D)))
  rw [← e1]
  simp only [e2]
  exact hre

/-- The frequency of a set whose boundary has measure 0 tends to its measure. -/
theorem frequency {α : Fin D → ℝ} (h : Independent α) (c : Fin D → ℝ) {S : Set (UnitAddTorus (Fin D))}
    (hS : haar D (frontier S) = 0) : Tendsto (fun N => emp α c N S) atTop (𝓝 (haar D S)) :=
  ProbabilityMeasure.tendsto_measure_of_null_frontier_of_tendsto' (emp_tendsto h c) hS

/-! ## The powers of the generalised golden ratio -/

open Polynomial in
theorem independent_golden (φ : ℝ) (h1 : 1 < φ) (hφ : φ ^ (D + 1) = φ + 1) :
    Independent fun j : Fin D => 1 / φ ^ (1 + j.val) := by
  intro n hn m hm
  obtain ⟨i, hi⟩ := Function.ne_iff.1 hn
  have hD : 0 < D := i.pos
  have h0 : (0 : ℝ) < φ := by linarith
  -- the minimal polynomial
  have hirr : Irreducible (X ^ (D + 1) - X - 1 : ℚ[X]) := X_pow_sub_X_sub_one_irreducible_rat (by omega)
  have hdeg1 : (X + 1 : ℚ[X]).degree < ((D + 1 : Nat) : WithBot Nat) := by
    have : (X + 1 : ℚ[X]).degree = 1 := by
      rw [show (X + 1 : ℚ[X]) = X + C 1 by rw [C_1]]
      exact degree_X_add_C 1
    rw [this]
    exact_mod_cast (by omega : 1 < D + 1)
  have hform : (X ^ (D + 1) - X - 1 : ℚ[X]) = X ^ (D + 1) - (X + 1) := by ring
  have hmonic : (X ^ (D + 1) - X - 1 : ℚ[X]).Monic := by
    rw [hform]
    exact monic_X_pow_sub hdeg1
  have hroot : aeval φ (X ^ (D + 1) - X - 1 : ℚ[X]) = 0 := by
    simp only [map_sub, map_pow, aeval_X, map_one]
    linarith
  have hmin := minpoly.eq_of_irreducible_of_monic hirr hroot hmonic
  have hdeg : (minpoly ℚ φ).degree = ((D + 1 : Nat) : WithBot Nat) := by
    rw [← hmin, hform, degree_sub_eq_left_of_degree_lt]
    · exact degree_X_pow _
    · rw [degree_X_pow]; exact hdeg1
  -- the relation as a polynomial
  set p : ℚ[X] := ∑ j : Fin D, C (n j : ℚ) * X ^ (D - 1 - j.val) - C (m : ℚ) * X ^ D with hp
  have hp0 : aeval φ p = 0 := by
    rw [hp, map_sub, map_sum]
    simp only [map_mul, aeval_C, map_pow, aeval_X, eq_ratCast]
    push_cast
    rw [← hm, Finset.sum_mul, ← Finset.sum_sub_distrib]
    refine Finset.sum_eq_zero fun j _ => ?_
    have : φ ^ D = φ ^ (D - 1 - j.val) * φ ^ (1 + j.val) := by
      rw [← pow_add]
      congr 1
      omega
    rw [this]
    have hne : φ ^ (1 + j.val) ≠ 0 := pow_ne_zero _ h0.ne'
    field_simp
    ring
  have hple : p.degree < ((D + 1 : Nat) : WithBot Nat) := by
    rw [degree_lt_iff_coeff_zero]
    intro k hk
    rw [hp, coeff_sub, finsetSum_coeff]
    simp only [coeff_C_mul, coeff_X_pow]
    rw [if_neg (by omega), mul_zero, sub_zero]
    refine Finset.sum_eq_zero fun j _ => ?_
    rw [if_neg (by omega), mul_zero]
  have hpz : p = 0 := by
    by_contra hne
    have := minpoly.degree_le_of_ne_zero ℚ φ hne hp0
    rw [hdeg] at this
    exact absurd hple (not_lt.2 this)
  have hc : p.coeff (D - 1 - i.val) = (n i : ℚ) := by
    rw [hp, coeff_sub, finsetSum_coeff]
    simp only [coeff_C_mul, coeff_X_pow]
    rw [if_neg (by omega), mul_zero, sub_zero, Finset.sum_eq_single i]
    · rw [if_pos rfl, mul_one]
    · intro j _ hj
      rw [if_neg, mul_zero]
      intro h
      apply hj
      apply Fin.ext
      have := i.isLt
      have := j.isLt
      omega
    · intro h
      exact absurd (Finset.mem_univ i) h
  rw [hpz, coeff_zero] at hc
  apply hi
  have : (n i : ℚ) = 0 := hc.symm
  exact_mod_cast this

end BT.Weyl
