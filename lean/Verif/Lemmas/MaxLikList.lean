import Verif.Lemmas.MaxLik
import Verif.Props.DirichletEvidence

/-!
# The bounds for lists of labels
-/

namespace BT
open Spec MeasureTheory

theorem prod_mapIdx_fin {α β : Type} [CommMonoid β] (p : List α) (f : Nat → α → β) :
    (p.mapIdx f).prod = ∏ j : Fin p.length, f j p[j] := by
  rw [← List.prod_ofFn]
  congr 1
  apply List.ext_getElem <;> simp

theorem sum_range_fin (m : Nat) (k : Nat → Nat) : ((List.range m).map k).sum = ∑ j : Fin m, k j := by
  rw [← List.sum_ofFn]
  congr 1
  apply List.ext_getElem <;> simp

theorem list_sum_fin (p : List ℝ) : p.sum = ∑ j : Fin p.length, p[j] := by
  rw [← List.sum_ofFn]
  congr 1
  apply List.ext_getElem <;> simp

theorem count_cons_label (v : ℝ) (ys : List ℝ) (i : Nat) :
    count (v :: ys) i = (if v = (i : ℝ) then 1 else 0) + count ys i := by
  unfold count
  rw [List.filter_cons]
  by_cases h : v = (i : ℝ) <;> simp [h, Nat.add_comm]

theorem sum_counts {m : Nat} {ys : List ℝ} (h : LabelsBelow m ys) : ∑ j : Fin m, count ys j = ys.length := by
  induction ys with
  | nil => simp [count]
  | cons v ys ih =>
    obtain ⟨k, hk, rfl⟩ := h v (by simp)
    simp only [count_cons_label, Finset.sum_add_distrib, ih fun w hw => h w (by simp [hw]), List.length_cons,
      Nat.cast_inj]
    have : ∀ j : Fin m, (if k = (j : Nat) then 1 else 0) = if (⟨k, hk⟩ : Fin m) = j then 1 else 0 := by
      intro j
      simp [Fin.ext_iff]
    simp only [this]
    simp [Nat.add_comm]

theorem labels_exist {m : Nat} {ys : List ℝ} (h : LabelsBelow m ys) :
    ∃ ls : List Nat, (∀ k ∈ ls, k < m) ∧ ys = ls.map fun k : Nat => (k : ℝ) := by
  induction ys with
  | nil => exact ⟨[], by simp, rfl⟩
  | cons v ys ih =>
    obtain ⟨k, hk, rfl⟩ := h v (by simp)
    obtain ⟨ls, h1, rfl⟩ := ih fun w hw => h w (by simp [hw])
    exact ⟨k :: ls, by simpa using ⟨hk, h1⟩, rfl⟩

theorem maxLogLik_eq {m : Nat} {ys : List ℝ} (h : LabelsBelow m ys) :
    maxLogLik m ys = Real.log (bestLik fun j : Fin m => count ys j) := by
  rw [log_bestLik, sum_counts h]
  rfl

theorem labelLikelihood_prod {m : Nat} {ls : List Nat} (h : ∀ k ∈ ls, k < m) (θ : List ℝ) :
    labelLikelihood ls θ = ∏ j : Fin m, θ.getD j 0 ^ count (ls.map fun k : Nat => (k : ℝ)) j := by
  unfold labelLikelihood
  induction ls with
  | nil => simp [count]
  | cons k ls ih =>
    have hk := h k (by simp)
    simp only [List.map_cons, List.prod_cons, count_cons_label, pow_add, Finset.prod_mul_distrib]
    rw [ih fun w hw => h w (by simp [hw])]
    congr 1
    rw [Finset.prod_eq_single (⟨k, hk⟩ : Fin m)]
    · simp
    · intro j _ hj
      have : k ≠ (j : Nat) := fun e => hj (Fin.ext e.symm)
      simp [this]
    · simp

theorem evidence_le {p : List ℝ} (h : ProperDirichlet p) {ls : List Nat} (hl : ∀ k ∈ ls, k < p.length) :
    dirichletEvidence p ls ≤ bestLik fun j : Fin p.length => count (ls.map fun k : Nat => (k : ℝ)) j := by
  set c : Fin p.length → ℕ := fun j => count (ls.map fun k : Nat => (k : ℝ)) j
  have hG := Real.Gamma_pos_of_pos (sum_pos_of_pos h.1 h.2)
  have hP := prod_Gamma_pos h.2
  have hC : 0 < Real.Gamma p.sum / (p.map Real.Gamma).prod := div_pos hG hP
  have := simplex_le p h.1 h.2 (Real.Gamma p.sum / (p.map Real.Gamma).prod * bestLik c)
    (mul_nonneg hC.le (bestLik_pos c).le) 1 one_pos
    (fun θ => dirichletDensity p θ * labelLikelihood ls θ) (fun θ h1 h2 h3 => by
      rw [labelLikelihood_prod hl]
      have hθ : ∀ j : Fin p.length, θ.getD j 0 = θ[j] := fun j => by simp [h1]
      have hs : ∑ j : Fin p.length, θ.getD j 0 = 1 := by
        rw [← h3, list_sum_fin θ]
        simp only [hθ]
        exact Fin.sum_congr' (fun j : Fin θ.length => θ[j]) h1.symm
      have hle := prod_pow_le c (fun j => θ.getD j 0) (fun j => by rw [hθ j]; exact h2 _ (List.getElem_mem _)) hs.le
      have hk : 0 ≤ (List.zipWith (fun a t => t ^ (a - 1)) p θ).prod := by
        apply List.prod_nonneg
        intro r hr
        rw [List.mem_iff_getElem] at hr
        obtain ⟨i, hi, rfl⟩ := hr
        rw [List.getElem_zipWith]
        exact Real.rpow_nonneg (h2 _ (List.getElem_mem _)).le _
      unfold dirichletDensity
      calc _ ≤ Real.Gamma p.sum / (p.map Real.Gamma).prod * (List.zipWith (fun a t => t ^ (a - 1)) p θ).prod *
            bestLik c := mul_le_mul_of_nonneg_left hle (mul_nonneg hC.le hk)
        _ = _ := by ring)
  refine this.trans (le_of_eq ?_)
  rw [Real.one_rpow]
  field_simp

/-- The evidence of labels is at most the largest likelihood. -/
theorem dirichletMarginal_le {p : List ℝ} (h : ProperDirichlet p) {ys : List ℝ} (hy : LabelsBelow p.length ys) :
    dirichletMarginal realFns p ys ≤ maxLogLik p.length ys := by
  rw [maxLogLik_eq hy]
  obtain ⟨ls, hl, rfl⟩ := labels_exist hy
  rw [Real.le_log_iff_exp_le (bestLik_pos _), ← dirichlet_evidence h hl]
  exact evidence_le h hl

/-- The evidence of labels is not much below the largest likelihood. -/
theorem dirichletMarginal_ge {p : List ℝ} (h : ProperDirichlet p) {ys : List ℝ} (hy : LabelsBelow p.length ys) :
    maxLogLik p.length ys - slack p ys ≤ dirichletMarginal realFns p ys := by
  have hp : ∀ j : Fin p.length, 0 < p[j] := fun j => h.2 _ (List.getElem_mem _)
  have hS := sum_pos_of_pos h.1 h.2
  rw [dirichletMarginal_real h.1 h.2, maxLogLik_eq hy]
  set c : Fin p.length → ℕ := fun j => count ys j with hc
  have hn : ∑ j, c j = ys.length := sum_counts hy
  have hd : dirMult p ys = (∏ j, rising p[j] (c j)) / rising p.sum ys.length := by
    unfold dirMult
    rw [prod_mapIdx_fin, sum_range_fin, sum_counts hy]
  have h1 : ∀ j : Fin p.length, 0 < 1 + (c j : ℝ) / p[j] := fun j => by
    have := hp j
    positivity
  have h2 : (0 : ℝ) < 1 + (ys.length : ℝ) := by positivity
  have hslack : slack p ys = Real.log ((∏ j, (1 + (c j : ℝ) / p[j])) * (1 + (ys.length : ℝ)) ^ p.sum) := by
    rw [Real.log_mul (Finset.prod_pos fun j _ => h1 j).ne' (Real.rpow_pos_of_pos h2 _).ne',
      Real.log_prod (fun j _ => (h1 j).ne'), Real.log_rpow h2]
    rfl
  have hden : 0 < (∏ j, (1 + (c j : ℝ) / p[j])) * (1 + (ys.length : ℝ)) ^ p.sum :=
    mul_pos (Finset.prod_pos fun j _ => h1 j) (Real.rpow_pos_of_pos h2 _)
  rw [hslack, ← Real.log_div (bestLik_pos c).ne' hden.ne']
  apply Real.log_le_log (div_pos (bestLik_pos c) hden)
  rw [hd, div_le_div_iff₀ hden (rising_pos hS _)]
  have g1 := bestLik_le c
  rw [hn] at g1
  have g2 : ∏ j, ((c j).factorial : ℝ) ≤ (∏ j, rising p[j] (c j)) * ∏ j, (1 + (c j : ℝ) / p[j]) := by
    rw [← Finset.prod_mul_distrib]
    exact Finset.prod_le_prod (fun j _ => by positivity) fun j _ => (div_le_iff₀ (h1 j)).1 (rising_ge (hp j) _)
  have g3 := rising_le hS ys.length
  have hr : 0 ≤ (1 + (ys.length : ℝ)) ^ p.sum := Real.rpow_nonneg h2.le _
  calc bestLik c * rising p.sum ys.length ≤ bestLik c * (ys.length.factorial * (1 + (ys.length : ℝ)) ^ p.sum) :=
        mul_le_mul_of_nonneg_left g3 (bestLik_pos c).le
    _ = bestLik c * ys.length.factorial * (1 + (ys.length : ℝ)) ^ p.sum := by ring
    _ ≤ (∏ j, rising p[j] (c j)) * (∏ j, (1 + (c j : ℝ) / p[j])) * (1 + (ys.length : ℝ)) ^ p.sum :=
        mul_le_mul_of_nonneg_right (g1.trans g2) hr
    _ = _ := by ring

end BT
