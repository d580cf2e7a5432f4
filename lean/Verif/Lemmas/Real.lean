import Verif.Model.Real
import Verif.Spec.Prob
import Verif.Lemmas.Sample
import Verif.Lemmas.Sim
import Mathlib.Data.Real.Basic
import Mathlib.Data.Rat.Cast.Order
import Mathlib.Tactic.Positivity
import Mathlib.Tactic.FieldSimp
import Mathlib.Algebra.Order.BigOperators.Group.List
import Mathlib.Algebra.Order.BigOperators.Ring.List

/-!
# Log-gamma scores are logarithms of rational Dirichlet-multinomial probabilities
-/

namespace BT
open Spec

section rising
variable {K : Type} [Field K] [LinearOrder K]

omit [LinearOrder K] in
theorem rising_succ (a : K) (n : Nat) : rising a (n + 1) = rising a n * (a + (n : K)) := rfl

variable [IsStrictOrderedRing K]

theorem rising_pos {a : K} (ha : 0 < a) (n : Nat) : 0 < rising a n := by
  induction n with
  | zero => exact zero_lt_one
  | succ n ih => unfold rising; positivity

omit [LinearOrder K] [IsStrictOrderedRing K] in
theorem rising_add (a : K) (m n : Nat) : rising a (m + n) = rising a m * rising (a + (m : K)) n := by
  induction n with
  | zero => simp [rising]
  | succ n ih =>
    rw [← add_assoc, rising_succ, rising_succ, ih]
    push_cast
    ring

theorem listSum_pos {l : List K} (hne : l ≠ []) (h : ∀ a ∈ l, 0 < a) : 0 < l.sum := by
  cases l with
  | nil => exact absurd rfl hne
  | cons a l =>
    rw [List.sum_cons]
    have h1 : 0 < a := h a (by simp)
    have h2 : 0 ≤ l.sum := List.sum_nonneg fun b hb => (h b (by simp [hb])).le
    linarith

theorem dirMult_pos {prior : List K} (hne : prior ≠ []) (hp : ∀ a ∈ prior, 0 < a) (ys : List K) :
    0 < dirMult prior ys := by
  unfold dirMult
  apply div_pos _ (rising_pos (listSum_pos hne hp) _)
  apply List.prod_pos
  intro r hr
  obtain ⟨i, hi, rfl⟩ := List.mem_mapIdx.1 hr
  exact rising_pos (hp _ (List.getElem_mem _)) _

end rising

theorem Gamma_rising {a : ℝ} (ha : 0 < a) (n : Nat) :
    Real.Gamma (a + n) = rising a n * Real.Gamma a := by
  induction n with
  | zero => simp [rising]
  | succ n ih =>
    have h : a + (n : ℝ) ≠ 0 := by positivity
    rw [Nat.cast_succ, ← add_assoc, Real.Gamma_add_one h, ih, rising_succ]
    ring

theorem gammaln_rising {a : ℝ} (ha : 0 < a) (n : Nat) :
    realFns.gammaln (a + n) = Real.log (rising a n) + realFns.gammaln a := by
  show Real.log |_| = _ + Real.log |_|
  rw [Gamma_rising ha, abs_mul, Real.log_mul, abs_of_pos (rising_pos ha n)]
  · exact abs_ne_zero.2 (rising_pos ha n).ne'
  · exact abs_ne_zero.2 (Real.Gamma_pos_of_pos ha).ne'

theorem betaln_eq {a b : ℝ} (ha : 0 < a) (hb : 0 < b) :
    realFns.betaln a b = realFns.gammaln a + realFns.gammaln b - realFns.gammaln (a + b) := by
  have h1 := (Real.Gamma_pos_of_pos ha).ne'
  have h2 := (Real.Gamma_pos_of_pos hb).ne'
  have h3 := (Real.Gamma_pos_of_pos (add_pos ha hb)).ne'
  show Real.log |_| = Real.log |_| + Real.log |_| - Real.log |_|
  rw [abs_div, abs_mul, Real.log_div, Real.log_mul] <;> simp [h1, h2, h3]

/-- The two branches of `multivariate_betaln` agree. -/
theorem logBeta_real {p : List ℝ} (hp : ∀ a ∈ p, 0 < a) :
    logBeta realFns p = (p.map realFns.gammaln).sum - realFns.gammaln p.sum := by
  unfold logBeta
  split
  · next h =>
    match p, h with
    | [a, b], _ =>
      simp only [List.getD_cons_zero, List.getD_cons_succ, List.map_cons, List.map_nil,
        List.sum_cons, List.sum_nil, add_zero]
      exact betaln_eq (hp a (by simp)) (hp b (by simp))
  · rfl

theorem sum_mapIdx_gammaln {p : List ℝ} (hp : ∀ a ∈ p, 0 < a) (k : Nat → Nat) :
    ((p.mapIdx fun i a => a + (k i : ℝ)).map realFns.gammaln).sum =
      Real.log (p.mapIdx fun i a => rising a (k i)).prod + (p.map realFns.gammaln).sum := by
  induction p generalizing k with
  | nil => simp
  | cons a p ih =>
    have ha := hp a (by simp)
    have hp' : ∀ a ∈ p, 0 < a := fun b hb => hp b (by simp [hb])
    simp only [List.mapIdx_cons, List.map_cons, List.sum_cons, List.prod_cons]
    rw [ih hp' fun i => k (i + 1), gammaln_rising ha, Real.log_mul]
    · ring
    · exact (rising_pos ha _).ne'
    · refine (List.prod_pos ?_).ne'
      intro r hr
      obtain ⟨i, hi, rfl⟩ := List.mem_mapIdx.1 hr
      exact rising_pos (hp' _ (List.getElem_mem _)) _

theorem sum_mapIdx_add {K : Type} [Field K] (p : List K) (k : Nat → Nat) :
    (p.mapIdx fun i a => a + (k i : K)).sum =
      p.sum + ((((List.range p.length).map k).sum : Nat) : K) := by
  induction p generalizing k with
  | nil => simp
  | cons a p ih =>
    simp only [List.mapIdx_cons, List.sum_cons, List.length_cons, List.range_succ_eq_map,
      List.map_cons, List.map_map]
    rw [ih fun i => k (i + 1)]
    push_cast
    simp only [Function.comp_def, Nat.succ_eq_add_one]
    ring

/-- The log marginal likelihood computed with log-gammas is the logarithm of the
Dirichlet-multinomial probability. -/
theorem dirichletMarginal_real {p : List ℝ} (hne : p ≠ []) (hp : ∀ a ∈ p, 0 < a) (ys : List ℝ) :
    dirichletMarginal realFns p ys = Real.log (dirMult p ys) := by
  have hpost : ∀ a ∈ dirichletPosterior p ys, 0 < a := by
    intro a ha
    obtain ⟨i, hi, rfl⟩ := List.mem_mapIdx.1 ha
    have := hp _ (List.getElem_mem hi)
    positivity
  have hsum := listSum_pos hne hp
  unfold dirichletMarginal
  rw [logBeta_real hpost, logBeta_real hp]
  unfold dirichletPosterior
  rw [sum_mapIdx_gammaln hp, sum_mapIdx_add, gammaln_rising hsum]
  unfold dirMult
  rw [Real.log_div]
  · ring
  · refine (List.prod_pos ?_).ne'
    intro r hr
    obtain ⟨i, hi, rfl⟩ := List.mem_mapIdx.1 hr
    exact rising_pos (hp _ (List.getElem_mem _)) _
  · exact (rising_pos hsum _).ne'

section cast
variable {K : Type} [Field K] [LinearOrder K] (f : K →+* ℝ)

omit [LinearOrder K] in
theorem rising_cast (a : K) (n : Nat) : ((f (rising a n) : ℝ)) = rising (f a) n := by
  induction n with
  | zero => simp [rising]
  | succ n ih => unfold rising; simp [ih]

theorem count_cast (ys : List K) (i : Nat) : count (ys.map f) i = count ys i := by
  unfold count
  rw [List.filter_map, List.length_map]
  congr 1
  apply List.filter_congr
  intro v _
  simp only [Function.comp, decide_eq_decide]
  rw [← map_natCast f i]
  exact f.injective.eq_iff

theorem dirMult_cast (p ys : List K) : f (dirMult p ys) = dirMult (p.map f) (ys.map f) := by
  unfold dirMult
  rw [map_div₀, rising_cast, map_list_sum, map_list_prod, List.length_map]
  simp only [count_cast]
  congr 2
  apply List.ext_getElem
  · simp
  · intro i h1 h2
    simp [rising_cast]

end cast

end BT
