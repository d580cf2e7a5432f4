import Verif.Lemmas.Simplex
import Verif.Props.Temper

/-!
# The classification scores are probabilities of the labels: C74
-/

open MeasureTheory ProbabilityTheory

namespace BT
open Spec

theorem zipWith_kernel (alpha : List ℝ) : ∀ (θ : List ℝ), θ.length = alpha.length →
    (List.zipWith (fun a t => t ^ (a - 1)) alpha θ).prod = dirichletKernel alpha fun i => θ.getD i 1 := by
  unfold dirichletKernel
  induction alpha with
  | nil => intro θ h; simp
  | cons a as ih =>
    intro θ h
    cases θ with
    | nil => simp at h
    | cons t θ =>
      simp only [List.length_cons, Nat.add_right_cancel_iff] at h
      simp only [List.zipWith_cons_cons, List.prod_cons, List.mapIdx_cons, List.getD_cons_zero,
        List.getD_cons_succ, ih θ h]

theorem labelLikelihood_kernel {labels : List Nat} {θ : List ℝ} (hl : ∀ k ∈ labels, k < θ.length) :
    labelLikelihood labels θ = categoricalKernel labels fun i => θ.getD i 1 := by
  unfold labelLikelihood categoricalKernel
  congr 1
  refine List.map_congr_left fun k hk => ?_
  rw [List.getD_eq_getElem?_getD, List.getD_eq_getElem?_getD, List.getElem?_eq_getElem (hl k hk)]
  rfl

theorem getD_one_pos {θ : List ℝ} (h : ∀ t ∈ θ, 0 < t) (i : Nat) : 0 < θ.getD i 1 := by
  rcases lt_or_ge i θ.length with hi | hi
  · rw [List.getD_eq_getElem?_getD, List.getElem?_eq_getElem hi]
    exact h _ (List.getElem_mem _)
  · rw [List.getD_eq_getElem?_getD, List.getElem?_eq_none hi]
    exact one_pos

theorem proper_dirichletPosterior {alpha : List ℝ} (h : ProperDirichlet alpha) (ys : List ℝ) :
    ProperDirichlet (dirichletPosterior alpha ys) := by
  refine ⟨fun h0 => h.1 ?_, fun a ha => ?_⟩
  · have : (dirichletPosterior alpha ys).length = alpha.length := by simp [dirichletPosterior]
    rw [h0] at this
    exact List.eq_nil_of_length_eq_zero this.symm
  · obtain ⟨i, hi, rfl⟩ := List.mem_mapIdx.1 ha
    have := h.2 _ (List.getElem_mem hi)
    positivity

theorem prod_Gamma_pos {l : List ℝ} (h : ∀ a ∈ l, 0 < a) : 0 < (l.map Real.Gamma).prod :=
  List.prod_pos fun r hr => by
    obtain ⟨a, ha, rfl⟩ := List.mem_map.1 hr
    exact Real.Gamma_pos_of_pos (h a ha)

theorem exp_logBeta {l : List ℝ} (h : ProperDirichlet l) :
    Real.exp (logBeta realFns l) = (l.map Real.Gamma).prod / Real.Gamma l.sum := by
  have hs := Real.Gamma_pos_of_pos (sum_pos_of_pos h.1 h.2)
  rw [logBeta_real h.2, Real.exp_sub]
  congr 1
  · obtain ⟨-, h⟩ := h
    clear hs
    induction l with
    | nil => simp
    | cons a l ih =>
      have ha := Real.Gamma_pos_of_pos (h a (by simp))
      rw [List.map_cons, List.sum_cons, Real.exp_add, List.map_cons, List.prod_cons,
        ih fun x hx => h x (by simp [hx])]
      congr 1
      show Real.exp (Real.log |_|) = _
      rw [abs_of_pos ha, Real.exp_log ha]
  · show Real.exp (Real.log |_|) = _
    rw [abs_of_pos hs, Real.exp_log hs]

/-- Bayes' rule for class probabilities. -/
theorem dirichlet_bayes {alpha : List ℝ} (h : ProperDirichlet alpha) {labels : List Nat}
    (hl : ∀ k ∈ labels, k < alpha.length) {θ : List ℝ} (hlen : θ.length = alpha.length) (hθ : ∀ t ∈ θ, 0 < t) :
    dirichletDensity alpha θ * labelLikelihood labels θ =
      Real.exp (dirichletMarginal realFns alpha (labels.map fun (k : Nat) => (k : ℝ))) *
        dirichletDensity (dirichletPosterior alpha (labels.map fun (k : Nat) => (k : ℝ))) θ := by
  have hq := proper_dirichletPosterior h (labels.map fun (k : Nat) => (k : ℝ))
  obtain ⟨hql, hk⟩ := C72_classification realFns alpha labels hl 1
  have hk := hk (fun i => θ.getD i 1) (getD_one_pos hθ)
  have e : (clsTarget realFns).posterior (labels.map fun (k : Nat) => (k : ℝ)) alpha 1 =
      dirichletPosterior alpha (labels.map fun (k : Nat) => (k : ℝ)) := clsPosterior_one _ _
  rw [e] at hk hql
  rw [Real.rpow_one, ← labelLikelihood_kernel (by rw [hlen]; exact hl), ← zipWith_kernel _ _ hlen,
    ← zipWith_kernel _ _ (hlen.trans hql.symm)] at hk
  unfold dirichletMarginal dirichletDensity
  rw [Real.exp_sub, exp_logBeta hq, exp_logBeta h, mul_assoc, hk]
  have g1 := (Real.Gamma_pos_of_pos (sum_pos_of_pos h.1 h.2)).ne'
  have g2 := (Real.Gamma_pos_of_pos (sum_pos_of_pos hq.1 hq.2)).ne'
  have g3 := (prod_Gamma_pos h.2).ne'
  have g4 := (prod_Gamma_pos hq.2).ne'
  field_simp

/-- Expectation under the prior of a function times the likelihood, in terms of the posterior. -/
theorem dirichletExpectation_bayes {alpha : List ℝ} (h : ProperDirichlet alpha) {labels : List Nat}
    (hl : ∀ k ∈ labels, k < alpha.length) (f : List ℝ → ℝ) :
    dirichletExpectation alpha (fun θ => labelLikelihood labels θ * f θ) =
      Real.exp (dirichletMarginal realFns alpha (labels.map fun (k : Nat) => (k : ℝ))) *
        dirichletExpectation (dirichletPosterior alpha (labels.map fun (k : Nat) => (k : ℝ))) f := by
  have hlen : (dirichletPosterior alpha (labels.map fun (k : Nat) => (k : ℝ))).length = alpha.length := by
    simp [dirichletPosterior]
  unfold dirichletExpectation
  rw [hlen, ← simplex_const_mul]
  refine simplex_congr _ _ _ _ one_pos fun θ h1 h2 _ => ?_
  rw [← mul_assoc, dirichlet_bayes h hl h1 h2, mul_assoc]

theorem dirichletExpectation_one {alpha : List ℝ} (h : ProperDirichlet alpha) :
    dirichletExpectation alpha (fun _ => 1) = 1 := by
  unfold dirichletExpectation dirichletDensity
  simp only [mul_one]
  rw [simplex_const_mul, simplex_dirichlet _ h.1 h.2 _ one_pos, Real.one_rpow]
  have g1 := (Real.Gamma_pos_of_pos (sum_pos_of_pos h.1 h.2)).ne'
  have g3 := (prod_Gamma_pos h.2).ne'
  field_simp

theorem dirichlet_evidence {alpha : List ℝ} (h : ProperDirichlet alpha) {labels : List Nat}
    (hl : ∀ k ∈ labels, k < alpha.length) :
    dirichletEvidence alpha labels =
      Real.exp (dirichletMarginal realFns alpha (labels.map fun (k : Nat) => (k : ℝ))) := by
  have e := dirichletExpectation_bayes h hl fun _ => 1
  simp only [mul_one] at e
  rw [dirichletExpectation_one (proper_dirichletPosterior h _), mul_one] at e
  exact e

theorem count_label (labels : List Nat) (i : Nat) :
    count (labels.map fun (k : Nat) => (k : ℝ)) i = labels.count i := by
  unfold count
  rw [List.filter_map, List.length_map, List.count, List.countP_eq_length_filter]
  congr 1
  refine List.filter_congr fun k _ => ?_
  simp [beq_eq_decide]

/-- Expectation of one class probability. -/
theorem dirichletExpectation_class {alpha : List ℝ} (h : ProperDirichlet alpha) {c : Nat} (hc : c < alpha.length) :
    dirichletExpectation alpha (fun θ => θ.getD c 0) = alpha.getD c 0 / alpha.sum := by
  have e := dirichlet_evidence h (labels := [c]) (by simpa using hc)
  unfold dirichletEvidence labelLikelihood at e
  simp only [List.map_cons, List.map_nil, List.prod_cons, List.prod_nil, mul_one] at e
  rw [e, dirichletMarginal_real h.1 h.2, Real.exp_log (dirMult_pos h.1 h.2 _)]
  have hcount : ∀ i, count [((c : Nat) : ℝ)] i = if i = c then 1 else 0 := by
    intro i
    have := count_label [c] i
    rw [List.map_cons, List.map_nil] at this
    rw [this, List.count_singleton]
    by_cases h : c = i
    · simp [h]
    · have : ¬ i = c := fun h' => h h'.symm
      simp [h, this]
  have hsum : ((List.range alpha.length).map fun i => count [((c : Nat) : ℝ)] i).sum = 1 := by
    simp only [hcount]
    have hr : ∀ m : Nat, ((List.range m).map fun i => if i = c then 1 else 0).sum = if c < m then 1 else 0 := by
      intro m
      induction m with
      | zero => simp
      | succ m ih =>
        rw [List.range_succ, List.map_append, List.sum_append, ih]
        by_cases h1 : c < m
        · have h2 : ¬ m = c := by omega
          simp [h1, h2, Nat.lt_succ_of_lt h1]
        · by_cases h2 : m = c
          · subst h2; simp
          · have : ¬ c < m + 1 := by omega
            simp [h1, h2, this]
    rw [hr, if_pos hc]
  unfold dirMult
  rw [hsum]
  have e1 : rising alpha.sum 1 = alpha.sum := by simp [rising]
  rw [e1]
  congr 1
  simp only [hcount]
  clear e hsum e1 hcount h
  induction alpha generalizing c with
  | nil => simp at hc
  | cons a as ih =>
    cases c with
    | zero =>
      have e : (as.mapIdx fun (_ : Nat) (_ : ℝ) => (1 : ℝ)).prod = 1 := by
        refine List.prod_eq_one fun x hx => ?_
        obtain ⟨i, hi, rfl⟩ := List.mem_mapIdx.1 hx
        rfl
      simp [rising, List.mapIdx_cons, e]
    | succ c =>
      rw [List.mapIdx_cons, List.prod_cons, List.getD_cons_succ, ← ih (by simpa using hc)]
      simp [rising]

end BT
