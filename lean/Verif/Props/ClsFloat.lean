import Mathlib.Analysis.Complex.ExponentialBounds
import Mathlib.Analysis.Real.Pi.Bounds
import Verif.Lemmas.ClsFloat
import Verif.Props.Noise
import Verif.Props.RegFloat

/-!
# C114: classification in floating-point arithmetic

Every score computed with rounded operations is within `scoreError` of the exact one, so that the statements of C101
hold for the computed trees with this explicit bound.
-/

set_option linter.unusedSectionVars false

namespace BT
open Spec

/-- The prior weights are at least `lo`, prior weights and rows add up to at most `hi`, and the precision `u` is good
enough for the number of classes and the partition prior. -/
structure Spec.Moderate (u lo hi pp : ℝ) (prior : List ℝ) (n : Nat) : Prop where
  some : prior ≠ []
  lo_pos : 0 < lo
  low : ∀ a ∈ prior, lo ≤ a
  high : prior.sum + n ≤ hi
  classes : (prior.length : ℝ) * u ≤ 1 / 8
  pp_pos : 0 < pp
  pp_lt : pp < 1
  gap : 6 * u ≤ 1 - pp

section
variable {u lo hi pp : ℝ} {n nDim : Nat} {L : ClsLib ℝ} {prior : List ℝ}

theorem sum_range_indicator (c : Nat) (v : ℝ) : ((List.range c).map fun (i : Nat) => if v = (i : ℝ) then 1 else 0).sum ≤ 1 := by
  induction c with
  | zero => simp
  | succ c ih =>
    rw [List.range_succ, List.map_append, List.sum_append]
    simp only [List.map_cons, List.map_nil, List.sum_cons, List.sum_nil, add_zero]
    by_cases h : v = (c : ℝ)
    · have : ((List.range c).map fun (i : Nat) => if v = (i : ℝ) then 1 else 0) = (List.range c).map fun _ => 0 := by
        apply List.map_congr_left
        intro i hi
        have hne : v ≠ (i : ℝ) := by
          rw [h]
          exact_mod_cast (List.mem_range.1 hi).ne'
        rw [if_neg hne]
      rw [this, if_pos h]
      simp
    · rw [if_neg h]
      omega

theorem sum_range_count (c : Nat) (ys : List ℝ) : ((List.range c).map fun (i : Nat) => count ys i).sum ≤ ys.length := by
  induction ys with
  | nil => simp [count]
  | cons v ys ih =>
    have e : ((List.range c).map fun (i : Nat) => count (v :: ys) i) =
        (List.range c).map fun (i : Nat) => (if v = (i : ℝ) then 1 else 0) + count ys i := by
      apply List.map_congr_left
      intro i _
      simp only [count, List.filter_cons]
      by_cases h : v = (i : ℝ)
      · simp [h]; omega
      · simp [h]
    rw [e, List.sum_map_add, List.length_cons]
    have := sum_range_indicator c v
    have ih' : (List.map (count ys) (List.range c)).sum ≤ ys.length := ih
    omega

theorem sum_zipWith_add (as : List ℝ) (ks : List Nat) (h : as.length = ks.length) :
    (List.zipWith (fun (a : ℝ) (c : Nat) => a + (c : ℝ)) as ks).sum = as.sum + (ks.sum : Nat) := by
  induction as generalizing ks with
  | nil =>
    cases ks with
    | nil => simp
    | cons k ks => simp at h
  | cons a as ih =>
    cases ks with
    | nil => simp at h
    | cons k ks =>
      simp only [List.zipWith_cons_cons, List.sum_cons]
      rw [ih ks (by simpa using h)]
      push_cast
      ring

/-- The weights of the classes stay between `lo` and `hi`. -/
theorem posterior_scale (h : Moderate u lo hi pp prior n) {ys : List ℝ} (hy : ys.length ≤ n) :
    (∀ z ∈ dirichletPosterior prior ys, lo ≤ z) ∧ (dirichletPosterior prior ys).sum ≤ hi ∧
      dirichletPosterior prior ys ≠ [] ∧ (dirichletPosterior prior ys).length = prior.length := by
  refine ⟨?_, ?_, ?_, by simp [dirichletPosterior]⟩
  · intro z hz
    obtain ⟨i, hi, rfl⟩ := List.mem_mapIdx.1 hz
    have := h.low _ (List.getElem_mem hi)
    have : (0 : ℝ) ≤ count ys i := Nat.cast_nonneg _
    linarith
  · rw [← zipWith_counts, sum_zipWith_add _ _ (by simp)]
    have h1 : (((List.range prior.length).map fun i => count ys i).sum : ℝ) ≤ n := by
      exact_mod_cast (sum_range_count prior.length ys).trans hy
    linarith [h.high]
  · intro e
    have := congrArg List.length e
    simp only [dirichletPosterior, List.length_mapIdx, List.length_nil] at this
    exact h.some (List.length_eq_zero_iff.1 this)

theorem count_le (ys : List ℝ) (i : Nat) : count ys i ≤ ys.length := List.length_filter_le _ _

/-- The computed posterior. -/
theorem posterior_near (hL : AccurateLib u n L) (h : Moderate u lo hi pp prior n) {ys : List ℝ} (hy : ys.length ≤ n) :
    NearList u (dirichletPosterior prior ys) (clsPosteriorR L ys prior 1) := by
  unfold clsPosteriorR dirichletPosterior
  rw [if_neg one_ne_zero]
  refine List.forall₂_iff_get.2 ⟨by simp, fun i h1 h2 => ?_⟩
  simp only [List.get_eq_getElem, List.getElem_mapIdx, one_mul]
  rw [classCount_eq, hL.counts _ ((count_le ys i).trans hy)]
  have hpos : 0 ≤ prior[i]'(by simpa using h1) + (count ys i : ℝ) := by
    have := h.low _ (List.getElem_mem (show i < prior.length by simpa using h1))
    have : (0 : ℝ) ≤ count ys i := Nat.cast_nonneg _
    linarith [h.lo_pos]
  have := hL.round (prior[i]'(by simpa using h1) + (count ys i : ℝ))
  rwa [abs_of_nonneg hpos] at this

theorem zipWith_near (hL : AccurateLib u n L) (h : Moderate u lo hi pp prior n) (ys : List ℝ) :
    NearList u (dirichletPosterior prior ys) (List.zipWith (fun (a : ℝ) (c : Nat) => L.r (a + (c : ℝ))) prior
      ((List.range prior.length).map fun i => count ys i)) := by
  unfold dirichletPosterior
  refine List.forall₂_iff_get.2 ⟨by simp, fun i h1 h2 => ?_⟩
  simp only [List.get_eq_getElem, List.getElem_mapIdx, List.getElem_zipWith, List.getElem_map, List.getElem_range]
  have hpos : 0 ≤ prior[i]'(by simpa using h1) + (count ys i : ℝ) := by
    have := h.low _ (List.getElem_mem (show i < prior.length by simpa using h1))
    have : (0 : ℝ) ≤ count ys i := Nat.cast_nonneg _
    linarith [h.lo_pos]
  have := hL.round (prior[i]'(by simpa using h1) + (count ys i : ℝ))
  rwa [abs_of_nonneg hpos] at this

/-- A rounded addition. -/
theorem add_error {r : ℝ → ℝ} (hr : RelRound u r) (hu : 0 ≤ u) {x y x' y' e1 e2 f1 f2 : ℝ} (h1 : |x' - x| ≤ e1)
    (h2 : |y' - y| ≤ e2) (g1 : u * |x| ≤ f1) (g2 : u * |y| ≤ f2) :
    |r (x' + y') - (x + y)| ≤ e1 + e2 + f1 + f2 + u * (e1 + e2) := by
  have a1 := hr (x' + y')
  have a2 : |(x' + y') - (x + y)| ≤ e1 + e2 := by
    have e : (x' + y') - (x + y) = (x' - x) + (y' - y) := by ring
    rw [e]
    exact (abs_add_le _ _).trans (add_le_add h1 h2)
  have a3 : |x' + y'| ≤ (e1 + e2) + (|x| + |y|) := by
    have := abs_add_le ((x' + y') - (x + y)) (x + y)
    rw [sub_add_cancel] at this
    linarith [abs_add_le x y]
  have a4 := mul_le_mul_of_nonneg_left a3 hu
  have a5 := abs_add_le (r (x' + y') - (x' + y')) ((x' + y') - (x + y))
  rw [sub_add_sub_cancel] at a5
  linarith

/-- The error of one computed `log B`. -/
noncomputable def betaErr (u lo hi : ℝ) (c : Nat) : ℝ := (3 * c ^ 2 + 16 * c + 3) * (u * (1 + gammaSize lo hi))

theorem gammaSize_nonneg (lo hi : ℝ) : 0 ≤ gammaSize lo hi := by
  have : 0 < Real.log 2 := Real.log_pos (by norm_num)
  unfold gammaSize
  positivity

theorem betaErr_nonneg (hu : 0 ≤ u) (lo hi : ℝ) (c : Nat) : 0 ≤ betaErr u lo hi c := by
  have := gammaSize_nonneg lo hi
  unfold betaErr
  positivity

theorem Spec.Moderate.small (h : Moderate u lo hi pp prior n) (hu : 0 ≤ u) : u ≤ 1 / 8 := by
  have h1 : (1 : ℝ) ≤ prior.length := by exact_mod_cast List.length_pos_iff.2 h.some
  have := mul_le_mul_of_nonneg_right h1 hu
  linarith [h.classes]

/-- The log marginal likelihood. -/
theorem marginal_error (hL : AccurateLib u n L) (h : Moderate u lo hi pp prior n) {ys ws : List ℝ} (hy : ys.length ≤ n)
    (hw : NearList u (dirichletPosterior prior ys) ws) :
    |L.r (multivariateBetalnR L ws - multivariateBetalnR L prior) - dirichletMarginal realFns prior ys| ≤
      5 * betaErr u lo hi prior.length ∧
    u * |dirichletMarginal realFns prior ys| ≤ 2 * betaErr u lo hi prior.length := by
  have hu := hL.nonneg
  obtain ⟨p1, p2, p3, p4⟩ := posterior_scale h hy
  have p0 := posterior_scale h (ys := []) (by simp)
  have e0 : dirichletPosterior prior ([] : List ℝ) = prior := by
    unfold dirichletPosterior
    apply List.ext_getElem
    · simp
    · intro i h1 h2; simp [count]
  rw [e0] at p0
  have hE := betaErr_nonneg hu lo hi prior.length
  have b1 := betaln_error hL h.lo_pos hw p1 p2 p3 (by rw [p4]; exact h.classes)
  have b0 := betaln_error hL h.lo_pos (nearList_self hu fun z hz => h.lo_pos.trans_le (h.low z hz)) p0.1 p0.2.1 h.some
    h.classes
  rw [p4] at b1
  have s1 := (logBeta_size h.lo_pos p1 p2 p3).1
  have s0 := (logBeta_size h.lo_pos p0.1 p0.2.1 h.some).1
  rw [p4] at s1
  have hs : ∀ x : ℝ, |x| ≤ ((prior.length : ℝ) + 1) * gammaSize lo hi → u * |x| ≤ betaErr u lo hi prior.length := by
    intro x hx
    have h1 := mul_le_mul_of_nonneg_left hx hu
    have hG := gammaSize_nonneg lo hi
    have hc : (0 : ℝ) ≤ prior.length := Nat.cast_nonneg _
    have h2 : ((prior.length : ℝ) + 1) * (u * gammaSize lo hi) ≤
        (3 * prior.length ^ 2 + 16 * prior.length + 3) * (u * (1 + gammaSize lo hi)) := by
      apply mul_le_mul _ _ (by positivity) (by positivity)
      · nlinarith
      · exact mul_le_mul_of_nonneg_left (by linarith) hu
    unfold betaErr
    linarith [show u * (((prior.length : ℝ) + 1) * gammaSize lo hi) =
      ((prior.length : ℝ) + 1) * (u * gammaSize lo hi) by ring]
  have hneg : |-(multivariateBetalnR L prior) - -(logBeta realFns prior)| ≤ betaErr u lo hi prior.length := by
    rw [show -(multivariateBetalnR L prior) - -(logBeta realFns prior) =
      -(multivariateBetalnR L prior - logBeta realFns prior) by ring, abs_neg]
    exact b0
  have hneg2 : u * |-(logBeta realFns prior)| ≤ betaErr u lo hi prior.length := by
    rw [abs_neg]; exact hs _ s0
  have b1' : |multivariateBetalnR L ws - logBeta realFns (dirichletPosterior prior ys)| ≤ betaErr u lo hi prior.length :=
    b1
  have a := add_error hL.round hu b1' hneg (hs _ s1) hneg2
  have hu8 := h.small hu
  constructor
  · rw [sub_eq_add_neg, dirichletMarginal, sub_eq_add_neg (logBeta realFns _)]
    refine a.trans ?_
    nlinarith
  · have := hs _ s1
    have := hs _ s0
    have t := mul_le_mul_of_nonneg_left (abs_sub (logBeta realFns (dirichletPosterior prior ys)) (logBeta realFns prior)) hu
    unfold dirichletMarginal
    linarith

/-- The prior probability of not splitting. -/
theorem stay_prior_error (hL : AccurateLib u n L) (h : Moderate u lo hi pp prior n) (lv : Nat) :
    0 < L.r (1 - L.r (pp ^ (1 + lv))) ∧
    |L.log (L.r (1 - L.r (pp ^ (1 + lv)))) - Real.log (1 - pp ^ (lv + 1))| ≤ 8 * (u / (1 - pp)) ∧
    u * |Real.log (1 - pp ^ (lv + 1))| ≤ 8 * (u / (1 - pp)) := by
  have hu := hL.nonneg
  have hu8 := h.small hu
  rw [Nat.add_comm 1 lv]
  set p := pp ^ (lv + 1) with hp
  have p0 : 0 < p := pow_pos h.pp_pos _
  have p1 : p ≤ pp := by
    rw [hp, pow_succ]
    have := pow_le_one₀ h.pp_pos.le h.pp_lt.le (n := lv)
    nlinarith [h.pp_pos]
  have g0 : 0 < 1 - pp := by linarith [h.pp_lt]
  have q1 := hL.round p
  rw [abs_of_pos p0] at q1
  have q1' := _root_.abs_le.1 q1
  have up : u * p ≤ u := by nlinarith
  have q2 := hL.round (1 - L.r p)
  have q3 : |1 - L.r p| ≤ 1 + u := by rw [_root_.abs_le]; constructor <;> linarith
  have q4 : u * |1 - L.r p| ≤ u * (1 + u) := mul_le_mul_of_nonneg_left q3 hu
  have q5 : |L.r (1 - L.r p) - (1 - p)| ≤ 3 * u := by
    have := abs_add_le (L.r (1 - L.r p) - (1 - L.r p)) ((1 - L.r p) - (1 - p))
    rw [sub_add_sub_cancel] at this
    have e : (1 - L.r p) - (1 - p) = -(L.r p - p) := by ring
    rw [e, abs_neg] at this
    nlinarith
  set w := u / (1 - pp) with hw
  have hw0 : 0 ≤ w := div_nonneg hu g0.le
  have hwu : w * (1 - pp) = u := div_mul_cancel₀ _ g0.ne'
  have huw : u ≤ w := by nlinarith [h.pp_pos]
  have hw6 : 6 * w ≤ 1 := by
    have := h.gap
    rw [← hwu] at this
    nlinarith
  have hx : 1 - pp ≤ 1 - p := by linarith
  have q6 : |L.r (1 - L.r p) - (1 - p)| ≤ 3 * w * (1 - p) := by
    refine q5.trans ?_
    have : w * (1 - pp) ≤ w * (1 - p) := mul_le_mul_of_nonneg_left hx hw0
    linarith
  obtain ⟨r1, r2⟩ := log_near (by linarith : 0 < 1 - p) (by linarith) q6
  have r3 := hL.log _ r1
  have r4 : |Real.log (1 - p)| ≤ 1 / (1 - pp) := by
    rw [abs_of_nonpos (Real.log_nonpos (by linarith) (by linarith)), ← Real.log_inv]
    have := Real.log_le_sub_one_of_pos (inv_pos.2 (by linarith : 0 < 1 - p))
    have h2 : (1 - p)⁻¹ ≤ 1 / (1 - pp) := by
      rw [one_div]; exact inv_anti₀ g0 hx
    linarith
  have r5 : u * |Real.log (1 - p)| ≤ w := by
    have := mul_le_mul_of_nonneg_left r4 hu
    rw [mul_one_div] at this
    exact this
  refine ⟨r1, ?_, by linarith⟩
  have r6 := abs_add_le (Real.log (L.r (1 - L.r p)) - Real.log (1 - p)) (Real.log (1 - p))
  rw [sub_add_cancel] at r6
  have r7 := mul_le_mul_of_nonneg_left r6 hu
  have r8 := abs_add_le (L.log (L.r (1 - L.r p)) - Real.log (L.r (1 - L.r p)))
    (Real.log (L.r (1 - L.r p)) - Real.log (1 - p))
  rw [sub_add_sub_cancel] at r8
  have r9 : u * |Real.log (L.r (1 - L.r p)) - Real.log (1 - p)| ≤ u * 1 :=
    mul_le_mul_of_nonneg_left (by linarith) hu
  linarith

/-- The prior probability of one of `ns` splits. -/
theorem split_prior_error (hL : AccurateLib u n L) (h : Moderate u lo hi pp prior n) (lv ns : Nat) (hlv : lv < n)
    (hns : 0 < ns) (hnsn : ns ≤ n) (hd : 0 < nDim) :
    0 < L.r (L.r (pp ^ (1 + lv)) / ((ns : ℝ) * (nDim : ℝ))) ∧
    |L.log (L.r (L.r (pp ^ (1 + lv)) / ((ns : ℝ) * (nDim : ℝ)))) - Real.log (pp ^ (lv + 1) / ((ns : ℝ) * (nDim : ℝ)))| ≤
      u * (n * |Real.log pp| + Real.log (n * nDim) + 7) ∧
    u * |Real.log (pp ^ (lv + 1) / ((ns : ℝ) * (nDim : ℝ)))| ≤ u * (n * |Real.log pp| + Real.log (n * nDim) + 7) := by
  have hu := hL.nonneg
  have hu8 := h.small hu
  rw [Nat.add_comm 1 lv]
  set p := pp ^ (lv + 1) with hp
  have p0 : 0 < p := pow_pos h.pp_pos _
  have hns1 : (1 : ℝ) ≤ ns := by exact_mod_cast hns
  have hd1 : (1 : ℝ) ≤ nDim := by exact_mod_cast hd
  set m : ℝ := (ns : ℝ) * nDim with hm
  have m1 : 1 ≤ m := by nlinarith
  have mn : m ≤ (n : ℝ) * nDim := mul_le_mul_of_nonneg_right (by exact_mod_cast hnsn) (by linarith)
  have z0 : 0 < p / m := div_pos p0 (by linarith)
  set Z := (n : ℝ) * |Real.log pp| + Real.log ((n : ℝ) * nDim) with hZ
  have q1 := hL.round p
  rw [abs_of_pos p0] at q1
  have q2 : |L.r p / m - p / m| ≤ u * (p / m) := by
    rw [← sub_div, abs_div, abs_of_pos (by linarith : 0 < m), ← mul_div_assoc]
    exact div_le_div_of_nonneg_right q1 (by linarith)
  have q3 := hL.round (L.r p / m)
  have q4 : |L.r p / m| ≤ (1 + u) * (p / m) := by
    have := abs_add_le (L.r p / m - p / m) (p / m)
    rw [sub_add_cancel, abs_of_pos z0] at this
    linarith
  have q5 : |L.r (L.r p / m) - p / m| ≤ 3 * u * (p / m) := by
    have := abs_add_le (L.r (L.r p / m) - L.r p / m) (L.r p / m - p / m)
    rw [sub_add_sub_cancel] at this
    have k := mul_le_mul_of_nonneg_left q4 hu
    have k2 : u * ((1 + u) * (p / m)) ≤ 2 * u * (p / m) := by
      have : 0 ≤ u * (p / m) := by positivity
      nlinarith
    linarith
  obtain ⟨r1, r2⟩ := log_near z0 (by linarith) q5
  have r3 := hL.log _ r1
  have lp : Real.log pp ≤ 0 := Real.log_nonpos h.pp_pos.le h.pp_lt.le
  have r4 : |Real.log (p / m)| ≤ Z := by
    have lm : 0 ≤ Real.log m := Real.log_nonneg m1
    have e : Real.log (p / m) = ((lv + 1 : Nat) : ℝ) * Real.log pp - Real.log m := by
      rw [Real.log_div p0.ne' (by linarith), hp, Real.log_pow]
    have k1 : ((lv + 1 : Nat) : ℝ) ≤ n := by exact_mod_cast hlv
    have k2 : Real.log m ≤ Real.log ((n : ℝ) * nDim) := Real.log_le_log (by linarith) mn
    have k3 : ((lv + 1 : Nat) : ℝ) * |Real.log pp| ≤ n * |Real.log pp| := mul_le_mul_of_nonneg_right k1 (abs_nonneg _)
    rw [abs_of_nonpos lp] at k3
    have k4 : (n : ℝ) * |Real.log pp| = -(n * Real.log pp) := by rw [abs_of_nonpos lp]; ring
    have k5 : 0 ≤ ((lv + 1 : Nat) : ℝ) * -Real.log pp := mul_nonneg (Nat.cast_nonneg _) (by linarith)
    rw [e, hZ, k4, _root_.abs_le]
    constructor <;> linarith
  have r5 := mul_le_mul_of_nonneg_left r4 hu
  refine ⟨r1, ?_, by linarith⟩
  have r6 := abs_add_le (Real.log (L.r (L.r p / m)) - Real.log (p / m)) (Real.log (p / m))
  rw [sub_add_cancel] at r6
  have r7 := mul_le_mul_of_nonneg_left r6 hu
  have r8 := abs_add_le (L.log (L.r (L.r p / m)) - Real.log (L.r (L.r p / m)))
    (Real.log (L.r (L.r p / m)) - Real.log (p / m))
  rw [sub_add_sub_cancel] at r8
  have r9 : u * |Real.log (L.r (L.r p / m)) - Real.log (p / m)| ≤ u * 1 :=
    mul_le_mul_of_nonneg_left (by linarith) hu
  linarith

theorem scoreError_eq (u lo hi pp : ℝ) (c n nDim : Nat) : scoreError u lo hi pp c n nDim =
    3 * (8 * (u / (1 - pp))) + 6 * (u * (n * |Real.log pp| + Real.log (n * nDim) + 7)) + 27 * betaErr u lo hi c := by
  unfold scoreError betaErr
  ring

theorem split_part_nonneg (hu : 0 ≤ u) (hn : 0 < n) (hd : 0 < nDim) :
    0 ≤ u * (n * |Real.log pp| + Real.log (n * nDim) + 7) := by
  have h1 : (1 : ℝ) ≤ n := by exact_mod_cast hn
  have h2 : (1 : ℝ) ≤ nDim := by exact_mod_cast hd
  have h3 : 0 ≤ Real.log ((n : ℝ) * nDim) := Real.log_nonneg (by nlinarith)
  positivity

/-- C114: the computed score of not splitting. -/
theorem C114_stay (hL : AccurateLib u n L) (h : Moderate u lo hi pp prior n) (hd : 0 < nDim) (hn : 0 < n) (lv : Nat)
    {ys : List ℝ} (hy : ys.length ≤ n) :
    |clsLogNoSplitR L pp lv ys prior - (Real.log (1 - pp ^ (lv + 1)) + dirichletMarginal realFns prior ys)| ≤
      scoreError u lo hi pp prior.length n nDim := by
  have hu := hL.nonneg
  have hu8 := h.small hu
  obtain ⟨-, p2, p3⟩ := stay_prior_error hL h lv
  obtain ⟨m1, m2⟩ := marginal_error hL h hy (posterior_near hL h hy)
  have a := add_error hL.round hu p2 m1 p3 m2
  have hE := betaErr_nonneg hu lo hi prior.length
  have h0 : 0 ≤ 8 * (u / (1 - pp)) := (mul_nonneg hu (abs_nonneg _)).trans p3
  have h1 := split_part_nonneg (pp := pp) hu hn hd
  rw [scoreError_eq]
  refine a.trans ?_
  have : u * (8 * (u / (1 - pp)) + 5 * betaErr u lo hi prior.length) ≤
      1 / 8 * (8 * (u / (1 - pp)) + 5 * betaErr u lo hi prior.length) := mul_le_mul_of_nonneg_right hu8 (by linarith)
  linarith

/-- The vectorised scores, one by one. -/
theorem clsLogSplitR_eq (L : ClsLib ℝ) (pp : ℝ) (lv : Nat) (y prior : List ℝ) (nd : Nat)
    (si : List Nat) (hsi : ∀ k ∈ si, 1 ≤ k ∧ k < y.length) :
    clsLogSplitR L pp lv y prior nd si = si.map fun k =>
      let side := fun z : List ℝ => L.r (multivariateBetalnR L (List.zipWith (fun (a : ℝ) (c : Nat) => L.r (a + (c : ℝ)))
        prior ((List.range prior.length).map fun i => count z i)) - multivariateBetalnR L prior)
      L.r (L.r (L.log (L.r (L.r (pp ^ (1 + lv)) / ((si.length : ℝ) * (nd : ℝ)))) + side (y.take k)) + side (y.drop k)) := by
  unfold clsLogSplitR
  simp only
  apply List.ext_getElem
  · simp
  · intro j h1 h2
    have hj : j < si.length := by simpa using h2
    have hk := hsi si[j] (List.getElem_mem hj)
    have e1 : (List.map (fun r => r.getD j 0) (List.map
        (fun i => List.map (fun s => (classCumsum y i).getD (s - 1) 0) si) (List.range prior.length))) =
        (List.range prior.length).map fun i => count (y.take si[j]) i := by
      rw [List.map_map]
      apply List.map_congr_left
      intro i _
      simp only [Function.comp, List.getD_eq_getElem?_getD, List.getElem?_map,
        List.getElem?_eq_getElem hj, Option.map_some, Option.getD_some]
      rw [← List.getD_eq_getElem?_getD, classCumsum_get y i _ hk.1 hk.2.le]
    have e2 : (List.map (fun r => r.getD j 0) (List.map (fun i => List.map
        (fun c => (classCumsum y i).getLastD 0 - c)
        ((List.map (fun i => List.map (fun s => (classCumsum y i).getD (s - 1) 0) si)
          (List.range prior.length)).getD i [])) (List.range prior.length))) =
        (List.range prior.length).map fun i => count (y.drop si[j]) i := by
      rw [List.map_map]
      apply List.map_congr_left
      intro i hi
      rw [List.mem_range] at hi
      simp only [Function.comp, List.getD_eq_getElem?_getD, List.getElem?_map,
        List.getElem?_range hi, List.getElem?_eq_getElem hj, Option.map_some, Option.getD_some]
      rw [← List.getD_eq_getElem?_getD, classCumsum_get y i _ hk.1 hk.2.le, classCumsum_last]
      have := count_append (y.take si[j]) (y.drop si[j]) i
      rw [List.take_append_drop] at this
      omega
    simp only [List.getElem_map, List.getElem_range]
    rw [e1, e2]
    rfl

/-- C114: the computed scores of splits; `si` are the positions of the candidates. -/
theorem C114_split (hL : AccurateLib u n L) (h : Moderate u lo hi pp prior n) (hd : 0 < nDim) (lv : Nat) (hlv : lv < n)
    {ys : List ℝ} (hy : ys.length ≤ n) (si : List Nat) (hsi : ∀ k ∈ si, 1 ≤ k ∧ k < ys.length)
    (hso : si.Pairwise (· < ·)) :
    (clsLogSplitR L pp lv ys prior nDim si).length = si.length ∧
    ∀ (i k : Nat) (s : ℝ), si[i]? = some k → (clsLogSplitR L pp lv ys prior nDim si)[i]? = some s →
      |s - (Real.log (pp ^ (lv + 1) / ((si.length : ℝ) * (nDim : ℝ))) + dirichletMarginal realFns prior (ys.take k)
        + dirichletMarginal realFns prior (ys.drop k))| ≤ scoreError u lo hi pp prior.length n nDim := by
  have hu := hL.nonneg
  have hu8 := h.small hu
  rw [clsLogSplitR_eq L pp lv ys prior nDim si hsi]
  refine ⟨by simp, fun i k s hi' hs => ?_⟩
  rw [List.getElem?_map, hi', Option.map_some] at hs
  cases hs
  have hmem : k ∈ si := List.mem_of_getElem? hi'
  have hpos : 0 < si.length := List.length_pos_of_mem hmem
  have hlen : si.length ≤ n := by
    have h1 : si.Nodup := hso.imp fun h => ne_of_lt h
    have h2 : si ⊆ List.range ys.length := fun k hk => List.mem_range.2 (hsi k hk).2
    have := (h1.subperm h2).length_le
    simp at this
    omega
  obtain ⟨-, p2, p3⟩ := split_prior_error hL h lv si.length hlv hpos hlen hd
  have t1 : (ys.take k).length ≤ n := by rw [List.length_take]; omega
  have t2 : (ys.drop k).length ≤ n := by rw [List.length_drop]; omega
  obtain ⟨m1, m2⟩ := marginal_error hL h t1 (zipWith_near hL h _)
  obtain ⟨m3, m4⟩ := marginal_error hL h t2 (zipWith_near hL h _)
  have a := add_error hL.round hu p2 m1 p3 m2
  have hE := betaErr_nonneg hu lo hi prior.length
  set E := betaErr u lo hi prior.length
  set E1 := u * (n * |Real.log pp| + Real.log (n * nDim) + 7)
  have h1 : 0 ≤ E1 := split_part_nonneg (pp := pp) hu (by omega) hd
  have hsum : u * |Real.log (pp ^ (lv + 1) / ((si.length : ℝ) * (nDim : ℝ))) + dirichletMarginal realFns prior (ys.take k)|
      ≤ E1 + 2 * E := by
    have := mul_le_mul_of_nonneg_left (abs_add_le (Real.log (pp ^ (lv + 1) / ((si.length : ℝ) * (nDim : ℝ))))
      (dirichletMarginal realFns prior (ys.take k))) hu
    linarith
  have b := add_error hL.round hu a m3 hsum m4
  have h0 : 0 ≤ 8 * (u / (1 - pp)) := by
    have := h.pp_lt
    exact mul_nonneg (by norm_num) (div_nonneg hu (by linarith))
  rw [scoreError_eq]
  refine b.trans ?_
  have k1 : u * (E1 + 5 * E) ≤ 1 / 8 * (E1 + 5 * E) := mul_le_mul_of_nonneg_right hu8 (by linarith)
  have k2 : u * (E1 + 5 * E + E1 + 2 * E + u * (E1 + 5 * E) + 5 * E) ≤
      1 / 8 * (E1 + 5 * E + E1 + 2 * E + u * (E1 + 5 * E) + 5 * E) :=
    mul_le_mul_of_nonneg_right hu8 (by positivity)
  linarith

/-- C114: logarithms and log-gamma functions are only taken of positive numbers, so that no score is NaN or infinite. -/
theorem C114_arguments (hL : AccurateLib u n L) (h : Moderate u lo hi pp prior n) (hd : 0 < nDim) (lv ns : Nat)
    (hlv : lv < n) (hns : 0 < ns) (hnsn : ns ≤ n) {ys : List ℝ} (hy : ys.length ≤ n) :
    0 < L.r (1 - L.r (pp ^ (1 + lv))) ∧ 0 < L.r (L.r (pp ^ (1 + lv)) / ((ns : ℝ) * (nDim : ℝ))) ∧
    (∀ w ∈ clsPosteriorR L ys prior 1, 0 < w) ∧ 0 < L.sum (clsPosteriorR L ys prior 1) := by
  have hu := hL.nonneg
  have hu8 := h.small hu
  obtain ⟨p1, p2, p3, p4⟩ := posterior_scale h hy
  have hnear := posterior_near hL h hy
  have hpos : ∀ z ∈ dirichletPosterior prior ys, 0 < z := fun z hz => h.lo_pos.trans_le (p1 z hz)
  refine ⟨(stay_prior_error hL h lv).1, (split_prior_error hL h lv ns hlv hns hnsn hd).1,
    nearList_pos (by linarith) hnear hpos, ?_⟩
  have hne : clsPosteriorR L ys prior 1 ≠ [] := by
    intro e
    have := (nearList_sum hnear).2
    rw [e] at this
    exact p3 (List.length_eq_zero_iff.1 this.symm)
  have hc := h.classes
  rw [← p4] at hc
  have := near_sum hL.round hu hnear hpos (by linarith) (hL.sum _ hne) hc
  have h0 := (logBeta_size h.lo_pos p1 p2 p3).2.2
  have h1 := (_root_.abs_le.1 this).1
  have h2 : 2 * (((dirichletPosterior prior ys).length : ℝ) * u) * (dirichletPosterior prior ys).sum ≤
      1 / 2 * (dirichletPosterior prior ys).sum := mul_le_mul_of_nonneg_right (by linarith) (by linarith [h.lo_pos])
  linarith [h.lo_pos]

theorem rowList_length {n : Nat} {R : List Nat} (h : RowList n R) : R.length ≤ n := by
  have h2 : R ⊆ List.range n := fun k hk => List.mem_range.2 (h.2.2 k hk)
  simpa using (h.2.1.subperm h2).length_le

variable {hp : Hyper ℝ} {argsort : List ℝ → List Nat} {X : Nat → Nat → ℝ} {y : Nat → ℝ} {names : List String}
  {t t' : PNode ℝ ℝ ℝ (List ℝ)}

/-- The floating-point methods compute the scores up to `scoreError`. -/
theorem cls_computed (hL : AccurateLib u n L) (h : Moderate u lo hi hp.partitionPrior prior n) (hd : 0 < nDim)
    (hn : 0 < n) (y : Nat → ℝ) : Computed realFns (dirichletMarginal realFns) hp y n nDim prior
      (scoreError u lo hi hp.partitionPrior prior.length n nDim) (clsTargetR L) where
  given _ := rfl
  stay lv R _ hR := C114_stay hL h hd hn lv (by simpa using rowList_length hR)
  len lv R si hR h1 h2 := by
    show (clsLogSplitR L hp.partitionPrior lv (R.map y) prior nDim si).length = _
    rw [clsLogSplitR_eq _ _ _ _ _ _ _ (by simpa using h1), List.length_map]
  split lv R si hlv hR h1 h2 i k s hi hs := by
    have := (C114_split hL h hd lv hlv (ys := R.map y) (by simpa using rowList_length hR) si (by simpa using h1) h2).2
      i k s hi hs
    rw [← List.map_take, ← List.map_drop] at this
    exact this

/-- C114: `fit` in floating-point arithmetic returns a tree. -/
theorem C114_terminates (hL : AccurateLib u n L) (h : Moderate u lo hi hp.partitionPrior prior n)
    (hr : Training hp argsort n nDim) (hδ : hp.delta = 0) (hnames : nDim ≤ names.length) :
    ∃ t', perpFitRoot (exactOps ℝ) (clsTargetR L) argsort hp (some prior) X y n nDim names = .ok t' :=
  C101_terminates .classification hr hδ (cls_computed hL h hr.dims hr.someRow y) hnames

/-- C114: every split of the tree computed in floating-point arithmetic is, by its exact score, within
`2 * scoreError` of all alternatives; the stored scores are within `scoreError` of the exact ones. -/
theorem C114_best (hL : AccurateLib u n L) (h : Moderate u lo hi hp.partitionPrior prior n)
    (hr : Training hp argsort n nDim) (hδ : hp.delta = 0)
    (hf : perpFitRoot (exactOps ℝ) (clsTargetR L) argsort hp (some prior) X y n nDim names = .ok t')
    (addr : List Bool) (i : Info ℝ (List ℝ)) (sp : PSplit ℝ) (l b : ℝ) (c1 c2 : PNode ℝ ℝ ℝ (List ℝ))
    (hu : nodeAt t' addr = some (.split i sp l b c1 c2)) :
    let R := rowsAt X t' n addr
    let ε := scoreError u lo hi hp.partitionPrior prior.length n nDim
    let stay := stayScore realFns (dirichletMarginal realFns) hp y prior addr.length R
    let cut := perpCutScore realFns (dirichletMarginal realFns) hp X y nDim prior addr.length R
    i.nData = R.length ∧ sp.dim < nDim ∧
    ∃ a c, IsCut hp.splitPrecision X R sp.dim a c ∧ sp.value = (a + c) / 2 ∧
      |l - stay| ≤ ε ∧ |b - cut sp.dim a| ≤ ε ∧ stay < cut sp.dim a + 2 * ε ∧
      ∀ d < nDim, ∀ a' c', IsCut hp.splitPrecision X R d a' c' → cut d a' ≤ cut sp.dim a + 2 * ε :=
  C101_split .classification hr hδ (cls_computed hL h hr.dims hr.someRow y) hf addr i sp l b c1 c2 hu

/-- C114: a leaf of the unpruned tree computed in floating-point arithmetic has one row, or one class, or no cut of
its rows has an exact score that exceeds that of not cutting by more than `2 * scoreError`. -/
theorem C114_leaf (hL : AccurateLib u n L) (h : Moderate u lo hi hp.partitionPrior prior n)
    (hr : Training hp argsort n nDim) (hδ : hp.delta = 0) (hpr : hp.prune = false)
    (hf : perpFitRoot (exactOps ℝ) (clsTargetR L) argsort hp (some prior) X y n nDim names = .ok t')
    (addr : List Bool) (i : Info ℝ (List ℝ)) (hu : nodeAt t' addr = some (.leaf i)) :
    let R := rowsAt X t' n addr
    let ε := scoreError u lo hi hp.partitionPrior prior.length n nDim
    i.nData = R.length ∧
    (R.length ≤ 1 ∨ (∀ j ∈ R, ∀ k ∈ R, y j = y k) ∨
      ∀ d < nDim, ∀ a c, IsCut hp.splitPrecision X R d a c →
        perpCutScore realFns (dirichletMarginal realFns) hp X y nDim prior addr.length R d a
          ≤ stayScore realFns (dirichletMarginal realFns) hp y prior addr.length R + 2 * ε) :=
  C101_leaf .classification hr hδ hpr (cls_computed hL h hr.dims hr.someRow y) hf addr i hu

/-- The posterior is exact if prior weights plus counts are representable. -/
theorem posteriorR_exact (hL : AccurateLib u n L) (he : ∀ a ∈ prior, ∀ k ≤ n, L.r (a + (k : ℝ)) = a + (k : ℝ))
    {ys : List ℝ} (hy : ys.length ≤ n) : clsPosteriorR L ys prior 1 = dirichletPosterior prior ys := by
  unfold clsPosteriorR dirichletPosterior
  rw [if_neg one_ne_zero]
  apply List.ext_getElem
  · simp
  · intro i h1 h2
    have hc := (count_le ys i).trans hy
    simp only [List.getElem_mapIdx, one_mul, classCount_eq]
    rw [hL.counts _ hc, he _ (List.getElem_mem _) _ hc]

/-- C114: if prior weights plus counts are representable (for example, integer weights) and all decisions of the exact
tree are clear by more than `2 * scoreError`, the computed tree is the exact one up to the stored scores: same splits,
sizes and posteriors. -/
theorem C114_same (hL : AccurateLib u n L) (h : Moderate u lo hi hp.partitionPrior prior n)
    (hr : Training hp argsort n nDim) (hδ : hp.delta = 0) (hpr : hp.prune = false)
    (he : ∀ a ∈ prior, ∀ k ≤ n, L.r (a + (k : ℝ)) = a + (k : ℝ))
    (hx : perpFitRoot (exactOps ℝ) (clsTarget realFns) argsort hp (some prior) X y n nDim names = .ok t)
    (hf : perpFitRoot (exactOps ℝ) (clsTargetR L) argsort hp (some prior) X y n nDim names = .ok t')
    (hclear : Clear realFns (dirichletMarginal realFns) hp X y n nDim prior
      (scoreError u lo hi hp.partitionPrior prior.length n nDim) t) :
    Alike (scoreError u lo hi hp.partitionPrior prior.length n nDim) (· = ·) t t' :=
  C101_same .classification hr hδ hpr (cls_computed hL h hr.dims hr.someRow y)
    (fun _ hR => (posteriorR_exact hL he (by simpa using rowList_length hR)).symm) hx hf hclear

/-- C114: and then it predicts the same classes, pruned or not. -/
theorem C114_predict (hL : AccurateLib u n L) (h : Moderate u lo hi hp.partitionPrior prior n)
    (hr : Training hp argsort n nDim) (hδ : hp.delta = 0)
    (he : ∀ a ∈ prior, ∀ k ≤ n, L.r (a + (k : ℝ)) = a + (k : ℝ)) {t0 : PNode ℝ ℝ ℝ (List ℝ)}
    (h0 : perpFitRoot (exactOps ℝ) (clsTarget realFns) argsort { hp with prune := false } (some prior) X y n nDim names
      = .ok t0)
    (hclear : Clear realFns (dirichletMarginal realFns) hp X y n nDim prior
      (scoreError u lo hi hp.partitionPrior prior.length n nDim) t0)
    (hx : perpFitRoot (exactOps ℝ) (clsTarget realFns) argsort hp (some prior) X y n nDim names = .ok t)
    (hf : perpFitRoot (exactOps ℝ) (clsTargetR L) argsort hp (some prior) X y n nDim names = .ok t')
    (Z : Nat → Nat → ℝ) (m : Nat) :
    predict (perpRouter (exactOps ℝ)) (clsTargetR L) t' Z m = predict (perpRouter (exactOps ℝ)) (clsTarget realFns) t Z m :=
  C101_predict .classification hr hδ (cls_computed hL h hr.dims hr.someRow y)
    (fun R hR => by
      show clsPredictLeaf (clsPosteriorR L (R.map y) prior 1) = clsPredictLeaf _
      rw [posteriorR_exact hL he (by simpa using rowList_length hR)])
    h0 hclear hx hf Z m

/-- C114: the computed class probabilities of a posterior have a small relative error, and add up to 1 up to it. -/
theorem C114_proba (hL : AccurateLib u n L) {q : List ℝ} (hq : q ≠ []) (hpos : ∀ a ∈ q, 0 < a)
    (hc : (q.length : ℝ) * u ≤ 1 / 8) :
    List.Forall₂ (fun p p' => |p' - p| ≤ 6 * (q.length * u) * p) (clsPosteriorMean q) (clsPosteriorMeanR L q) ∧
    |(clsPosteriorMeanR L q).sum - 1| ≤ 6 * (q.length * u) := by
  have hu := hL.nonneg
  have hl1 : (1 : ℝ) ≤ q.length := by exact_mod_cast List.length_pos_iff.2 hq
  have hu8 : u ≤ q.length * u := by nlinarith
  set w := (q.length : ℝ) * u with hw
  have hw0 : 0 ≤ w := by positivity
  have hS : 0 < q.sum := listSum_pos hq hpos
  have hs := near_sum hL.round hu (nearList_self hu hpos) hpos (by linarith) (hL.sum q hq) hc
  set s := L.sum q
  have hb := _root_.abs_le.1 hs
  have hs1 : 3 / 4 * q.sum ≤ s := by nlinarith
  have hs0 : 0 < s := by linarith
  have key : ∀ a ∈ q, |L.r (a / s) - a / q.sum| ≤ 6 * w * (a / q.sum) := by
    intro a ha
    have ha0 := hpos a ha
    have r1 := hL.round (a / s)
    rw [abs_of_pos (div_pos ha0 hs0)] at r1
    have hp0 : 0 < a / q.sum := div_pos ha0 hS
    have e1 : a / s - a / q.sum = (a / q.sum) * ((q.sum - s) / s) := by
      field_simp
    have e2 : |(q.sum - s) / s| ≤ 8 / 3 * w := by
      rw [abs_div, abs_of_pos hs0, div_le_iff₀ hs0, abs_sub_comm]
      refine hs.trans ?_
      nlinarith
    have e3 : |a / s - a / q.sum| ≤ 8 / 3 * w * (a / q.sum) := by
      rw [e1, abs_mul, abs_of_pos hp0, mul_comm]
      exact mul_le_mul_of_nonneg_right e2 hp0.le
    have e4 : a / s ≤ (1 + 8 / 3 * w) * (a / q.sum) := by linarith [(_root_.abs_le.1 e3).2]
    have e5 : u * (a / s) ≤ u * ((1 + 8 / 3 * w) * (a / q.sum)) := mul_le_mul_of_nonneg_left e4 hu
    have e6 : u * ((1 + 8 / 3 * w) * (a / q.sum)) ≤ 2 * w * (a / q.sum) := by
      rw [← mul_assoc]
      apply mul_le_mul_of_nonneg_right _ hp0.le
      nlinarith
    have t := abs_add_le (L.r (a / s) - a / s) (a / s - a / q.sum)
    rw [sub_add_sub_cancel] at t
    have : 0 ≤ w * (a / q.sum) := by positivity
    linarith
  have hF : List.Forall₂ (fun p p' => |p' - p| ≤ 6 * w * p) (clsPosteriorMean q) (clsPosteriorMeanR L q) := by
    unfold clsPosteriorMean clsPosteriorMeanR
    refine List.forall₂_iff_get.2 ⟨by simp, fun i h1 h2 => ?_⟩
    simp only [List.get_eq_getElem, List.getElem_map]
    exact key _ (List.getElem_mem _)
  refine ⟨hF, ?_⟩
  have := (nearList_sum (u := 6 * w) hF).1
  have e : (clsPosteriorMean q).sum = 1 := by
    unfold clsPosteriorMean
    have := List.sum_map_mul_right q id (q.sum)⁻¹
    simp only [id] at this
    simp only [div_eq_mul_inv]
    rw [this, List.map_id, mul_inv_cancel₀ hS.ne']
  rw [e] at this
  linarith

end

/-! ## A million rows -/

theorem lgam_half : |lgam (1 / 2)| ≤ 1 := by
  have h1 : (1 : ℝ) ≤ Real.sqrt Real.pi := by
    rw [show (1 : ℝ) = Real.sqrt 1 by simp]
    exact Real.sqrt_le_sqrt (by linarith [Real.pi_gt_three])
  have h2 : Real.sqrt Real.pi ≤ 2 := by
    rw [show (2 : ℝ) = Real.sqrt 4 by rw [show (4 : ℝ) = 2 ^ 2 by norm_num]; simp]
    exact Real.sqrt_le_sqrt Real.pi_le_four
  unfold lgam
  rw [Real.Gamma_one_half_eq, abs_of_nonneg (Real.log_nonneg h1)]
  have := Real.log_le_sub_one_of_pos (by linarith : 0 < Real.sqrt Real.pi)
  linarith

theorem log_le_of_pow {x : ℝ} (k : Nat) (hx : 0 < x) (h : x ≤ (27 / 10) ^ k) : Real.log x ≤ k := by
  rw [Real.log_le_iff_le_exp hx]
  refine h.trans ?_
  have : (27 / 10 : ℝ) ≤ Real.exp 1 := by linarith [Real.exp_one_gt_d9]
  calc (27 / 10 : ℝ) ^ k ≤ Real.exp 1 ^ k := pow_le_pow_left₀ (by norm_num) this k
    _ = Real.exp k := by rw [← Real.exp_nat_mul, mul_one]

theorem lgam_succ_le (m : Nat) : |lgam ((m : ℝ) + 1)| ≤ m * Real.log m := by
  have h1 : (1 : ℝ) ≤ (Nat.factorial m : ℝ) := by exact_mod_cast Nat.factorial_pos m
  unfold lgam
  rw [Real.Gamma_nat_eq_factorial, abs_of_nonneg (Real.log_nonneg h1), ← Real.log_pow]
  exact Real.log_le_log (by linarith) (by exact_mod_cast Nat.factorial_le_pow m)

theorem gammaSize_million : gammaSize 1 1000002 ≤ 31000000 := by
  unfold gammaSize
  have h1 := lgam_half
  have h2 : |lgam (2 * 1000002)| ≤ 2000003 * 15 := by
    have h := lgam_succ_le 2000003
    have := log_le_of_pow 15 (show (0 : ℝ) < 2000003 by norm_num) (by norm_num)
    rw [show ((2000003 : Nat) : ℝ) + 1 = 2 * 1000002 by norm_num, show ((2000003 : Nat) : ℝ) = 2000003 by norm_num] at h
    refine h.trans (mul_le_mul_of_nonneg_left ?_ (by norm_num))
    exact_mod_cast this
  have h3 := Real.log_two_lt_d9
  exact (add_le_add (add_le_add h3.le h1) h2).trans (by norm_num)

/-- C114: with float64 library functions accurate to `2^-50`, two classes with prior weights 1, up to a million rows,
up to 1000 features and a partition prior between 0.01 and 0.99 every score is right up to 0.0001. -/
theorem C114_million {n nDim : Nat} (hn : n ≤ 1000000) (hn0 : 0 < n) (hd : nDim ≤ 1000) (hd0 : 0 < nDim) {pp : ℝ}
    (h1 : 1 / 100 ≤ pp) (h2 : pp ≤ 99 / 100) :
    Moderate (1 / 2 ^ 50) 1 1000002 pp [1, 1] n ∧ scoreError (1 / 2 ^ 50) 1 1000002 pp 2 n nDim ≤ 1 / 10000 := by
  have hnr : (n : ℝ) ≤ 1000000 := by exact_mod_cast hn
  have hdr : (nDim : ℝ) ≤ 1000 := by exact_mod_cast hd
  have hn1 : (1 : ℝ) ≤ n := by exact_mod_cast hn0
  have hd1 : (1 : ℝ) ≤ nDim := by exact_mod_cast hd0
  refine ⟨⟨by simp, one_pos, by simp, ?_, by norm_num, by linarith, by linarith, by norm_num; linarith⟩, ?_⟩
  · simp only [List.sum_cons, List.sum_nil]
    linarith
  have g1 : 24 / (1 - pp) ≤ 2400 := by
    rw [div_le_iff₀ (by linarith)]
    linarith
  have g2 : |Real.log pp| ≤ 5 := by
    rw [abs_of_nonpos (Real.log_nonpos (by linarith) (by linarith)), ← Real.log_inv]
    refine (Real.log_le_log (inv_pos.2 (by linarith)) (?_ : pp⁻¹ ≤ 100)).trans ?_
    · rw [inv_le_comm₀ (by linarith) (by norm_num)]
      linarith
    · exact_mod_cast log_le_of_pow 5 (show (0 : ℝ) < 100 by norm_num) (by norm_num)
  have g3 : Real.log ((n : ℝ) * nDim) ≤ 21 := by
    refine (Real.log_le_log (by positivity) (?_ : (n : ℝ) * nDim ≤ 1000000000)).trans ?_
    · nlinarith
    · exact_mod_cast log_le_of_pow 21 (show (0 : ℝ) < 1000000000 by norm_num) (by norm_num)
  have g4 : (n : ℝ) * |Real.log pp| ≤ 5000000 := by
    have := mul_le_mul hnr g2 (abs_nonneg _) (by norm_num)
    linarith
  have g5 := gammaSize_million
  unfold scoreError
  rw [div_mul_eq_mul_div, one_mul, div_le_iff₀ (by norm_num)]
  push_cast
  norm_num at g1 ⊢
  linarith

/-- C114: so on any such data the computed tree splits every node in a way whose exact score is within 0.0002 of the
best, and splits no node for which not splitting is better by more than 0.0002. -/
theorem C114_float64 {n nDim : Nat} {L : ClsLib ℝ} {hp : Hyper ℝ} {argsort : List ℝ → List Nat} {X : Nat → Nat → ℝ}
    {y : Nat → ℝ} {names : List String} (hL : AccurateLib (1 / 2 ^ 50) n L) (hr : Training hp argsort n nDim)
    (hδ : hp.delta = 0) (hn : n ≤ 1000000) (hd : nDim ≤ 1000) (h1 : 1 / 100 ≤ hp.partitionPrior)
    (h2 : hp.partitionPrior ≤ 99 / 100) (hnames : nDim ≤ names.length) :
    ∃ t, perpFitRoot (exactOps ℝ) (clsTargetR L) argsort hp (some [1, 1]) X y n nDim names = .ok t ∧
      ∀ addr i sp l b c1 c2, nodeAt t addr = some (.split i sp l b c1 c2) →
        let R := rowsAt X t n addr
        let stay := stayScore realFns (dirichletMarginal realFns) hp y [1, 1] addr.length R
        let cut := perpCutScore realFns (dirichletMarginal realFns) hp X y nDim [1, 1] addr.length R
        ∃ a c, IsCut hp.splitPrecision X R sp.dim a c ∧ sp.value = (a + c) / 2 ∧
          stay < cut sp.dim a + 1 / 5000 ∧
          ∀ d < nDim, ∀ a' c', IsCut hp.splitPrecision X R d a' c' → cut d a' ≤ cut sp.dim a + 1 / 5000 := by
  obtain ⟨hm, hε⟩ := C114_million hn hr.someRow hd hr.dims h1 h2
  obtain ⟨t, ht⟩ := C114_terminates (X := X) (y := y) hL hm hr hδ hnames
  refine ⟨t, ht, fun addr i sp l b c1 c2 hu => ?_⟩
  obtain ⟨-, -, a, c, k1, k2, -, -, k3, k4⟩ := C114_best hL hm hr hδ ht addr i sp l b c1 c2 hu
  have e : scoreError (1 / 2 ^ 50) 1 1000002 hp.partitionPrior ([1, 1] : List ℝ).length n nDim ≤ 1 / 10000 := hε
  exact ⟨a, c, k1, k2, by linarith, fun d hd a' c' h => by linarith [k4 d hd a' c' h]⟩

/-! ## float64 -/

/-- float64 with correctly rounded library functions. -/
noncomputable def clsLib64 : ClsLib ℝ where
  r := rndFloat 53
  sum := sum64
  log := fun x => rndFloat 53 (Real.log x)
  gammaln := fun x => rndFloat 53 (lgam x)
  betaln := fun a b => rndFloat 53 (lgam a + lgam b - lgam (a + b))

theorem clsLib64_accurate {n : Nat} (hn : n ≤ 2 ^ 53) : AccurateLib (1 / 2 ^ 53) n clsLib64 where
  nonneg := by positivity
  round := rndFloat_relRound 53
  counts k hk := by
    have h : |((k : Int))| ≤ 2 ^ 53 := by
      rw [abs_of_nonneg (by positivity)]
      exact_mod_cast hk.trans hn
    have := rnd_int (k : Int) h 0
    show rndFloat 53 (k : ℝ) = k
    simpa using this
  sum := lib64_good.sum
  log x _ := rndFloat_relRound 53 _
  gammaln x _ := (rndFloat_relRound 53 _).trans (mul_le_mul_of_nonneg_left (by linarith [abs_nonneg (lgam x)])
    (by positivity))
  betaln a b _ _ := by
    refine (rndFloat_relRound 53 _).trans (mul_le_mul_of_nonneg_left ?_ (by positivity))
    have h1 := abs_sub (lgam a + lgam b) (lgam (a + b))
    have h2 := abs_add_le (lgam a) (lgam b)
    linarith

theorem Spec.AccurateLib.mono {u v : ℝ} {n : Nat} {L : ClsLib ℝ} (h : AccurateLib u n L) (huv : u ≤ v) :
    AccurateLib v n L where
  nonneg := h.nonneg.trans huv
  round x := (h.round x).trans (mul_le_mul_of_nonneg_right huv (abs_nonneg _))
  counts := h.counts
  sum := h.sum
  log x hx := (h.log x hx).trans (mul_le_mul_of_nonneg_right huv (abs_nonneg _))
  gammaln x hx := (h.gammaln x hx).trans (mul_le_mul_of_nonneg_right huv (by positivity))
  betaln a b ha hb := (h.betaln a b ha hb).trans (mul_le_mul_of_nonneg_right huv (by positivity))

theorem Spec.Clear.mono {F : Fns ℝ} {ml : List ℝ → List ℝ → ℝ} {hp : Hyper ℝ} {X : Nat → Nat → ℝ} {y : Nat → ℝ}
    {n nDim : Nat} {prior : List ℝ} {ε ε' : ℝ} {t : PNode ℝ ℝ ℝ (List ℝ)} (h : Clear F ml hp X y n nDim prior ε t)
    (he : ε' ≤ ε) : Clear F ml hp X y n nDim prior ε' t := by
  refine ⟨fun addr i hi hc d hd a c hac => ?_, fun addr i sp l b c1 c2 hi => ⟨?_, fun d hd a c hac hne => ?_⟩⟩
  · linarith [h.1 addr i hi hc d hd a c hac]
  · linarith [(h.2 addr i sp l b c1 c2 hi).1]
  · linarith [(h.2 addr i sp l b c1 c2 hi).2 d hd a c hac hne]

/-- C114 in float64, two rows with different classes: the computed tree predicts what the exact one does. -/
example (q : Bool) (Z : Nat → Nat → ℝ) (m : Nat) :
    ∃ t t', perpFitRoot (exactOps ℝ) (clsTarget realFns) realSort (twoHp q) (some [1, 1]) twoX twoY 2 1 ["x"] = .ok t ∧
      perpFitRoot (exactOps ℝ) (clsTargetR clsLib64) realSort (twoHp q) (some [1, 1]) twoX twoY 2 1 ["x"] = .ok t' ∧
      predict (perpRouter (exactOps ℝ)) (clsTargetR clsLib64) t' Z m =
        predict (perpRouter (exactOps ℝ)) (clsTarget realFns) t Z m := by
  have hT : CodeTarget realFns (clsTarget realFns) (dirichletMarginal realFns) dirichletPosterior := .classification
  have hL : AccurateLib (1 / 2 ^ 50) 2 clsLib64 := (clsLib64_accurate (by norm_num)).mono (by norm_num)
  obtain ⟨hm, hε⟩ := C114_million (n := 2) (nDim := 1) (pp := 9 / 10) (by norm_num) (by norm_num) (by norm_num)
    (by norm_num) (by norm_num) (by norm_num)
  have tot : ∀ q, ∃ t, perpFitRoot (exactOps ℝ) (clsTarget realFns) realSort (twoHp q) (some [1, 1]) twoX twoY 2 1
      ["x"] = .ok t := fun q => C12_closed hT (two_training q) _ _ _ (by decide)
  obtain ⟨t, h⟩ := tot q
  obtain ⟨t0, h0⟩ := tot false
  obtain ⟨t', h'⟩ := C114_terminates (X := twoX) (y := twoY) (names := ["x"]) (hp := twoHp q) hL hm (two_training q) rfl
    (by decide)
  have he : ∀ a ∈ [(1 : ℝ), 1], ∀ (k : Nat), k ≤ 2 → clsLib64.r (a + (k : ℝ)) = a + (k : ℝ) := by
    intro a ha k hk
    have ha1 : a = 1 := by simpa using ha
    have := rnd_int ((1 + k : Nat) : Int) (by rw [abs_of_nonneg (by positivity)]; push_cast; omega) 0
    rw [ha1]
    show rndFloat 53 ((1 : ℝ) + k) = 1 + k
    simpa using this
  refine ⟨t, t', h, h', C114_predict hL hm (two_training q) rfl he h0 ?_ h h' Z m⟩
  exact (two_clear h0).mono (by
    show scoreError (1 / 2 ^ 50) 1 1000002 (9 / 10) 2 2 1 ≤ _
    linarith)

/-- The hypotheses of `C114_proba`. -/
example : |(clsPosteriorMeanR clsLib64 [3, 1]).sum - 1| ≤ 1 / 2 ^ 49 := by
  have := (C114_proba (clsLib64_accurate (n := 1) (by norm_num)) (q := [3, 1]) (by simp) (by simp) (by norm_num)).2
  refine this.trans ?_
  norm_num

end BT
