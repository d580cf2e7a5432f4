import Verif.Lemmas.RegFloat
import Verif.Lemmas.RegSample
import Verif.Lemmas.Rounding
import Verif.Props.XTarget

/-!
# Regression in floating-point arithmetic: C113
-/

set_option linter.unusedSectionVars false

namespace BT
open Spec

section
variable {K : Type} [Field K] [LinearOrder K] [IsStrictOrderedRing K] {u : K} {L : FloatLib K}

/-- What is assumed of the library: every operation has relative error at most `u`, and `ndarray.sum` adds the
numbers in some order. -/
structure Spec.GoodLib (u : K) (L : FloatLib K) : Prop where
  nonneg : 0 ≤ u
  round : RelRound u L.r
  sum : ∀ l, l ≠ [] → FloatSum L.r l (L.sum l)
  pi : 0 < L.pi

theorem cumsumRFrom_get (r : K → K) (l : List K) {p : List K} {acc : K} (h : FloatSum r p acc) (k : Nat)
    (hk : k < l.length) : ∃ s, (cumsumRFrom r acc l)[k]? = some s ∧ FloatSum r (p ++ l.take (k + 1)) s := by
  induction l generalizing p acc k with
  | nil => simp at hk
  | cons x l ih =>
    have hx : FloatSum r (p ++ [x]) (r (acc + x)) := .add h (.one x)
    cases k with
    | zero => exact ⟨_, rfl, by simpa using hx⟩
    | succ k =>
      obtain ⟨s, h1, h2⟩ := ih hx k (by simpa using hk)
      refine ⟨s, by simpa [cumsumRFrom] using h1, ?_⟩
      simpa using h2

/-- The running sums are rounded sums of the first elements. -/
theorem cumsumR_get (r : K → K) (l : List K) (k : Nat) (hk : k < l.length) :
    ∃ s, (cumsumR r l)[k]? = some s ∧ FloatSum r (l.take (k + 1)) s := by
  cases l with
  | nil => simp at hk
  | cons x l =>
    cases k with
    | zero => exact ⟨x, rfl, by simpa using FloatSum.one x⟩
    | succ k =>
      obtain ⟨s, h1, h2⟩ := cumsumRFrom_get r l (FloatSum.one (r := r) x) k (by simpa using hk)
      exact ⟨s, by simpa [cumsumR] using h1, by simpa using h2⟩

theorem cumsumRFrom_length (r : K → K) (acc : K) (l : List K) : (cumsumRFrom r acc l).length = l.length := by
  induction l generalizing acc with
  | nil => rfl
  | cons x l ih => simp [cumsumRFrom, ih]

theorem cumsumR_length (r : K → K) (l : List K) : (cumsumR r l).length = l.length := by
  cases l with
  | nil => rfl
  | cons x l => simp [cumsumR, cumsumRFrom_length]

theorem logX_pos {x : K} (hx : 0 < x) : L.logX x = .fin (L.log x) := by
  unfold FloatLib.logX; rw [if_pos hx]

/-- A likelihood is a number if the scale and weight parameters are positive. -/
theorem ngLogPDataR_fin (hL : GoodLib u L) (hu1 : u < 1) {prior : NG K} (hb : 0 < prior.beta) (hk : 0 < prior.kappa)
    {a b k : K} (hb' : 0 < b) (hk' : 0 < k) (m : Nat) : ∃ v, ngLogPDataR L prior a b k m = .fin v := by
  unfold ngLogPDataR
  rw [logX_pos hb, logX_pos hb', logX_pos (hL.round.pos hu1 (div_pos hk hk')),
    logX_pos (hL.round.pos hu1 (mul_pos two_pos hL.pi))]
  exact ⟨_, rfl⟩

theorem kappaR_pos (hL : GoodLib u L) (hu1 : u < 1) {prior : NG K} (hk : 0 < prior.kappa) (m : Nat) (s q : K) :
    0 < (ngPosteriorR L.r prior m s q 1).kappa := by
  refine hL.round.pos hu1 (add_pos_of_pos_of_nonneg hk ?_)
  exact hL.round.nonneg hu1 (by positivity)

theorem sumSqL_append (a b : List K) : sumSqL (a ++ b) = sumSqL a + sumSqL b := by
  unfold sumSqL; rw [List.map_append, List.sum_append]

/-- What the data must satisfy: 7 n² u times the sum of squares is less than the prior's `beta`. -/
structure Spec.WellScaled (u : K) (prior : NG K) (y : List K) : Prop where
  kappa : 0 < prior.kappa
  small : 100 * ((y.length : K) * u) ≤ 1
  beta : 7 * ((y.length : K) ^ 2 * u) * (y.map fun v => v ^ 2).sum < prior.beta

theorem Spec.WellScaled.u_lt {prior : NG K} {y : List K} (hy : y ≠ []) (h : WellScaled u prior y) : u < 1 := by
  have h1 := h.small
  have h2 : (1 : K) ≤ (y.length : K) := by exact_mod_cast List.length_pos_of_ne_nil hy
  nlinarith

theorem Spec.WellScaled.beta_pos (h0 : 0 ≤ u) {prior : NG K} {y : List K} (h : WellScaled u prior y) : 0 < prior.beta := by
  refine lt_of_le_of_lt ?_ h.beta
  have := sumSqL_nonneg y
  unfold sumSqL at this
  positivity

/-- The scale parameter computed for all the data is positive. -/
theorem betaR_all (hL : GoodLib u L) {prior : NG K} {y : List K} (hy : y ≠ []) (h : WellScaled u prior y) :
    0 < (ngPosteriorR L.r prior y.length (L.sum y) (L.sum (squaresR L.r y)) 1).beta := by
  have hu1 := h.u_lt hy
  have hn : 0 < y.length := List.length_pos_of_ne_nil hy
  obtain ⟨ha, hga, hb⟩ := beta_condition hL.nonneg hn h.small (sumSqL_nonneg y) h.beta
  set a := (1 + 2 * ((1 + u) ^ y.length - 1)) * (1 + u) - 1
  have hB := abs_sum_nonneg y
  have hQ := sumSqL_nonneg y
  have e1 := (hL.sum y hy).error_le hL.round hL.nonneg (n := y.length) (by omega)
  have e2 := sumSq_error hL.round hL.nonneg (hL.sum (squaresR L.r y) (by simpa [squaresR] using hy)) (le_refl y.length)
  refine BT.beta_pos hL.round hL.nonneg hu1 h.kappa.le hn ha hB (S := y.sum) (Q2 := sumSqL y) ?_ ?_ hQ le_rfl ?_
    (abs_sum_le_list y) (sq_sum_abs_le y) hb
  · have h1 := abs_add_le (L.sum y - y.sum) y.sum
    rw [sub_add_cancel] at h1
    nlinarith
  · have := (abs_le.1 e2).1
    nlinarith
  · exact (pow_le_pow_left₀ (abs_nonneg _) (abs_sum_le_list y) 2).trans (sq_sum_abs_le y)

theorem side_sum {g T B1 B2 : K} (hg : 0 ≤ g) (hu : 0 ≤ u) (h1 : 0 ≤ B1) (h2 : 0 ≤ B2) (hT : T ≤ B2) :
    (1 + u) * (T + g * (B1 + B2) + g * B1) ≤ T + (2 * g + u + 2 * g * u) * (B1 + B2) := by
  have a1 := mul_nonneg hg h2
  have a2 := mul_nonneg hu h1
  have a3 := mul_nonneg hu (sub_nonneg.2 hT)
  have a4 := mul_nonneg hu a1
  linear_combination a1 + a2 + a3 + a4

theorem side_sq {g Q1 Q2 x z : K} (hg : 0 ≤ g) (hu : 0 ≤ u) (h1 : 0 ≤ Q1) (h2 : 0 ≤ Q2)
    (lo : Q2 - g * (2 * Q1 + Q2) ≤ x) (k3 : -(u * |x|) ≤ z - x) (k4 : u * |x| ≤ u * (Q2 + g * (2 * Q1 + Q2))) :
    Q2 - (2 * g + u + 2 * g * u) * (Q1 + Q2) ≤ z := by
  have a1 := mul_nonneg hg h2
  have a2 := mul_nonneg hu h1
  have a4 := mul_nonneg hu a1
  linear_combination lo + k3 + k4 + a1 + a2 + a4

/-- The scale parameters computed for the two sides of a split are positive. -/
theorem betaR_sides (hL : GoodLib u L) {prior : NG K} {y1 y2 : List K} (hy1 : y1 ≠ []) (hy2 : y2 ≠ [])
    (h : WellScaled u prior (y1 ++ y2)) {s1 q1 : K} (hs : FloatSum L.r y1 s1) (hq : FloatSum L.r (squaresR L.r y1) q1) :
    0 < (ngPosteriorR L.r prior y1.length s1 q1 1).beta ∧
    0 < (ngPosteriorR L.r prior y2.length (L.r (L.sum (y1 ++ y2) - s1))
      (L.r (L.sum (squaresR L.r (y1 ++ y2)) - q1)) 1).beta := by
  have hy : y1 ++ y2 ≠ [] := by simp [hy1]
  have hu1 := h.u_lt hy
  have hn : 0 < (y1 ++ y2).length := List.length_pos_of_ne_nil hy
  have hn1 : 0 < y1.length := List.length_pos_of_ne_nil hy1
  have hn2 : 0 < y2.length := List.length_pos_of_ne_nil hy2
  obtain ⟨ha, hga, hb⟩ := beta_condition hL.nonneg hn h.small (sumSqL_nonneg _) h.beta
  have hu0 := hL.nonneg
  have hg0 := one_le_pow_u hu0 (y1 ++ y2).length
  set a := (1 + 2 * ((1 + u) ^ (y1 ++ y2).length - 1)) * (1 + u) - 1 with hadef
  set g := (1 + u) ^ (y1 ++ y2).length - 1 with hg
  have hg0 : 0 ≤ g := by rw [hg]; linarith
  have hB1 := abs_sum_nonneg y1
  have hB2 := abs_sum_nonneg y2
  have hQ1 := sumSqL_nonneg y1
  have hQ2 := sumSqL_nonneg y2
  have hBapp : ((y1 ++ y2).map abs).sum = (y1.map abs).sum + (y2.map abs).sum := by
    rw [List.map_append, List.sum_append]
  have e1 := hs.error_le hL.round hL.nonneg (n := (y1 ++ y2).length) (by simp; omega)
  have e2 := sumSq_error hL.round hL.nonneg hq (n := (y1 ++ y2).length) (by simp)
  have e3 := (hL.sum _ hy).error_le hL.round hL.nonneg (n := (y1 ++ y2).length) (by omega)
  have e4 := sumSq_error hL.round hL.nonneg (hL.sum (squaresR L.r (y1 ++ y2)) (by simpa [squaresR] using fun h => absurd h hy1)) le_rfl
  rw [← hg] at e1 e2 e3 e4
  have hsq := sq_sum_abs_le (y1 ++ y2)
  rw [hBapp] at e3 hsq
  rw [sumSqL_append] at e4
  rw [List.sum_append] at e3
  set B1 := (y1.map abs).sum
  set B2 := (y2.map abs).sum
  constructor
  · refine BT.beta_pos hL.round hL.nonneg hu1 h.kappa.le hn1 ha (B := B1 + B2) (by positivity) (S := y1.sum)
      (Q2 := sumSqL y1) ?_ ?_ hQ1 (Q := sumSqL (y1 ++ y2)) (by rw [sumSqL_append]; linarith) ?_ ?_ hsq hb
    · have h1 := abs_add_le (s1 - y1.sum) y1.sum
      rw [sub_add_cancel] at h1
      nlinarith [mul_nonneg ha hB2, mul_le_mul_of_nonneg_right hga hB1]
    · have := (abs_le.1 e2).1
      rw [sumSqL_append]
      nlinarith [mul_nonneg ha hQ2, mul_le_mul_of_nonneg_right hga hQ1]
    · exact (pow_le_pow_left₀ (abs_nonneg _) (abs_sum_le_list y1) 2).trans (sq_sum_abs_le y1)
    · exact (abs_sum_le_list y1).trans (by linarith)
  · have b2 := abs_sum_le_list y2
    have haeq : a = 2 * g + u + 2 * g * u := by rw [hadef]; ring
    refine BT.beta_pos hL.round hL.nonneg hu1 h.kappa.le hn2 ha (B := B1 + B2) (by positivity) (S := y2.sum)
      (Q2 := sumSqL y2) ?_ ?_ hQ2 (Q := sumSqL (y1 ++ y2)) (by rw [sumSqL_append]; linarith) ?_ ?_ hsq hb
    · have h1 : |L.sum (y1 ++ y2) - s1| ≤ |y2.sum| + g * (B1 + B2) + g * B1 := by
        have k1 := abs_add_le (L.sum (y1 ++ y2) - (y1.sum + y2.sum)) (y1.sum - s1 + y2.sum)
        have k2 := abs_add_le (y1.sum - s1) y2.sum
        rw [abs_sub_comm y1.sum s1] at k2
        rw [show L.sum (y1 ++ y2) - (y1.sum + y2.sum) + (y1.sum - s1 + y2.sum) = L.sum (y1 ++ y2) - s1 by ring] at k1
        linarith
      have h2 := hL.round.abs_le (L.sum (y1 ++ y2) - s1)
      have h3 : (1 + u) * |L.sum (y1 ++ y2) - s1| ≤ (1 + u) * (|y2.sum| + g * (B1 + B2) + g * B1) :=
        mul_le_mul_of_nonneg_left h1 (by linarith)
      rw [haeq]
      exact (h2.trans h3).trans (side_sum hg0 hu0 hB1 hB2 b2)
    · have k1 := abs_le.1 e4
      have k2 := abs_le.1 e2
      set x := L.sum (squaresR L.r (y1 ++ y2)) - q1 with hx
      have lo : sumSqL y2 - g * (2 * sumSqL y1 + sumSqL y2) ≤ x := by
        rw [hx]; linear_combination k1.1 + k2.2
      have hi : x ≤ sumSqL y2 + g * (2 * sumSqL y1 + sumSqL y2) := by
        rw [hx]; linear_combination k1.2 + k2.1
      have hab : |x| ≤ sumSqL y2 + g * (2 * sumSqL y1 + sumSqL y2) := by
        rw [abs_le]
        exact ⟨by linarith [mul_nonneg hg0 (by positivity : 0 ≤ 2 * sumSqL y1 + sumSqL y2)], hi⟩
      have k3 := (abs_le.1 (hL.round x)).1
      have k4 := mul_le_mul_of_nonneg_left hab hu0
      rw [sumSqL_append, haeq]
      exact side_sq hg0 hu0 hQ1 hQ2 lo k3 k4
    · exact (pow_le_pow_left₀ (abs_nonneg _) b2 2).trans (sq_sum_abs_le y2)
    · linarith

/-- C113: with data that are not too large for the prior, the likelihood of a node without a split is a number. -/
theorem C113_stay (hL : GoodLib u L) {prior : NG K} {y : List K} (hy : y ≠ []) (h : WellScaled u prior y) {pp : K}
    (lv : Nat) (hpp : 0 ≤ pp) (hpp1 : (1 + u) * pp ^ (1 + lv) < 1) : ∃ v, regLogNoSplitR L pp lv y prior = .fin v := by
  have hu1 := h.u_lt hy
  obtain ⟨v, hv⟩ := ngLogPDataR_fin hL hu1 (h.beta_pos hL.nonneg) h.kappa (betaR_all hL hy h) (kappaR_pos hL hu1 h.kappa _ _ _)
    (a := (ngPosteriorR L.r prior y.length (L.sum y) (L.sum (squaresR L.r y)) 1).alpha) y.length
  have hp : 0 < L.r (1 - L.r (pp ^ (1 + lv))) := by
    refine hL.round.pos hu1 ?_
    have := hL.round.le (pow_nonneg hpp (1 + lv))
    linarith
  refine ⟨L.r (L.log (L.r (1 - L.r (pp ^ (1 + lv)))) + v), ?_⟩
  unfold regLogNoSplitR
  simp only
  rw [hv, logX_pos hp]
  rfl

/-- C113: so are the likelihoods of all its splits. -/
theorem C113_splits (hL : GoodLib u L) {prior : NG K} {y : List K} (h : WellScaled u prior y) {pp : K}
    (lv : Nat) (hpp : 0 < pp) {nd : Nat} (hnd : 0 < nd) (si : List Nat) (hsi : ∀ k ∈ si, 1 ≤ k ∧ k < y.length)
    (hp : si.Pairwise (· < ·)) : ∀ s ∈ regLogSplitR L pp lv y prior nd si, ∃ v, s = .fin v := by
  intro s hs
  unfold regLogSplitR at hs
  simp only at hs
  obtain ⟨j, hj, rfl⟩ := List.mem_map.1 hs
  have hj : j < si.length := List.mem_range.1 hj
  have hk := hsi si[j] (List.getElem_mem hj)
  simp only [gather_shortcut _ _ _ si hsi hp j hj]
  set k := si[j] with hkdef
  have n1 : (List.map (1 + ·) (List.range (y.length - 1))).getD (k - 1) 0 = (y.take k).length := by
    rw [List.getD_eq_getElem?_getD, List.getElem?_map, List.getElem?_range (by omega)]
    simp; omega
  have n2 : (List.map (y.length - ·) (List.map (1 + ·) (List.range (y.length - 1)))).getD (k - 1) 0 =
      (y.drop k).length := by
    rw [List.getD_eq_getElem?_getD, List.getElem?_map, List.getElem?_map,
      List.getElem?_range (by omega)]
    simp; omega
  obtain ⟨s1, hs1, hs1'⟩ := cumsumR_get L.r y (k - 1) (by omega)
  obtain ⟨q1, hq1, hq1'⟩ := cumsumR_get L.r (squaresR L.r y.dropLast) (k - 1) (by simp [squaresR]; omega)
  rw [Nat.sub_add_cancel hk.1] at hs1' hq1'
  have hs1 : (cumsumR L.r y).dropLast[k - 1]? = some s1 := by
    rw [List.getElem?_dropLast, if_pos (by rw [cumsumR_length]; omega), hs1]
  have hq1' : FloatSum L.r (squaresR L.r (y.take k)) q1 := by
    unfold squaresR at hq1' ⊢
    rwa [← List.map_take, List.dropLast_eq_take, List.take_take, min_eq_left (by omega)] at hq1'
  have ne1 : y.take k ≠ [] := by
    intro h; have := congrArg List.length h; rw [List.length_take, List.length_nil] at this; omega
  have ne2 : y.drop k ≠ [] := by
    intro h; have := congrArg List.length h; rw [List.length_drop, List.length_nil] at this; omega
  have hy : y ≠ [] := by rintro rfl; simp at hk
  have hu1 := h.u_lt hy
  obtain ⟨p1, p2⟩ := betaR_sides hL ne1 ne2 (by rwa [List.take_append_drop]) hs1' hq1'
  rw [List.take_append_drop] at p2
  rw [n1, n2]
  simp only [List.getD_eq_getElem?_getD, List.getElem?_map, hs1, hq1, Option.map_some, Option.getD_some]
  obtain ⟨v1, hv1⟩ := ngLogPDataR_fin hL hu1 (h.beta_pos hL.nonneg) h.kappa p1 (kappaR_pos hL hu1 h.kappa _ _ _)
    (a := (ngPosteriorR L.r prior (y.take k).length s1 q1 1).alpha) (y.take k).length
  obtain ⟨v2, hv2⟩ := ngLogPDataR_fin hL hu1 (h.beta_pos hL.nonneg) h.kappa p2 (kappaR_pos hL hu1 h.kappa _ _ _)
    (a := (ngPosteriorR L.r prior (y.drop k).length (L.r (L.sum y - s1)) (L.r (L.sum (squaresR L.r y) - q1)) 1).alpha)
    (y.drop k).length
  have hpos : 0 < L.r (L.r (pp ^ (1 + lv)) / ((si.length : K) * (nd : K))) := by
    refine hL.round.pos hu1 (div_pos (hL.round.pos hu1 (pow_pos hpp _)) (mul_pos ?_ ?_))
    · exact_mod_cast (by omega : 0 < si.length)
    · exact_mod_cast hnd
  rw [hv1, hv2, logX_pos hpos]
  exact ⟨_, rfl⟩

/-- C113: the condition passes on to every selection of rows, hence (with `delta = 0`) to every node of the tree. -/
theorem C113_rows (h0 : 0 ≤ u) {prior : NG K} {y z : List K} (h : WellScaled u prior y) (hz : z.Subperm y) :
    WellScaled u prior z := by
  obtain ⟨w, hw, hs⟩ := hz
  have hlen : z.length ≤ y.length := by rw [← hw.length_eq]; exact hs.length_le
  have hlen' : (z.length : K) ≤ (y.length : K) := by exact_mod_cast hlen
  have hsq : (z.map fun v => v ^ 2).sum ≤ (y.map fun v => v ^ 2).sum := by
    rw [← (hw.map fun v => v ^ 2).sum_eq]
    exact List.Sublist.sum_le_sum (hs.map _) (by simp only [List.mem_map]; rintro _ ⟨x, _, rfl⟩; exact sq_nonneg x)
  have hz0 := sumSqL_nonneg z
  unfold sumSqL at hz0
  refine ⟨h.kappa, le_trans ?_ h.small, lt_of_le_of_lt ?_ h.beta⟩
  · have := mul_le_mul_of_nonneg_right hlen' h0
    linarith
  · refine mul_le_mul ?_ hsq hz0 (by positivity)
    have := mul_le_mul_of_nonneg_right (pow_le_pow_left₀ (by positivity) hlen' 2) h0
    linarith

/-- C113: the condition for the default prior. -/
theorem C113_default (L : FloatLib K) {y : List K} (nd : Nat) (h1 : 100 * ((y.length : K) * u) ≤ 1)
    (h2 : 14 * ((y.length : K) ^ 2 * u) * (y.map fun v => v ^ 2).sum < ((max 1 (y.length / 100) : Nat) : K)) :
    WellScaled u ((regTargetR L).getPrior none y.length nd) y := by
  have hc : (0 : K) < ((max 1 (y.length / 100) : Nat) : K) := by exact_mod_cast (by omega : 0 < max 1 (y.length / 100))
  refine ⟨hc, h1, ?_⟩
  show _ < ((max 1 (y.length / 100) : Nat) : K) / 2 / 1
  linarith

/-- `(1 + u)^m / (1 - u)^2` in the usual form. -/
theorem pow_u_le (h0 : 0 ≤ u) (m : Nat) (h1 : ((m : K) + 2) * u < 1) :
    (1 + u) ^ m * (1 - ((m : K) + 2) * u) ≤ (1 - u) ^ 2 := by
  have hu1 : u < 1 := by nlinarith [(Nat.cast_nonneg m : (0 : K) ≤ m)]
  have b : 1 - ((m : K) + 2) * u ≤ (1 - u) ^ (m + 2) := by
    have := one_add_mul_le_pow (a := -u) (by linarith) (m + 2)
    push_cast at this
    rw [← sub_eq_add_neg] at this
    linarith
  have c : (1 + u) ^ m * (1 - u) ^ m ≤ 1 := by
    rw [← mul_pow]
    exact pow_le_one₀ (by nlinarith) (by nlinarith)
  have hp : 0 ≤ (1 + u) ^ m := by positivity
  calc (1 + u) ^ m * (1 - ((m : K) + 2) * u) ≤ (1 + u) ^ m * (1 - u) ^ (m + 2) := mul_le_mul_of_nonneg_left b hp
    _ = ((1 + u) ^ m * (1 - u) ^ m) * (1 - u) ^ 2 := by ring
    _ ≤ 1 * (1 - u) ^ 2 := mul_le_mul_of_nonneg_right c (sq_nonneg _)
    _ = (1 - u) ^ 2 := one_mul _

/-- Rounding after an error of at most `A - 1` relative to `W`. -/
theorem round_after {r : K → K} (hr : RelRound u r) (h0 : 0 ≤ u) {x z W A : K} (hz : |z| ≤ W) (hx : |x - z| ≤ (A - 1) * W) :
    |r x - z| ≤ ((1 + u) * A - 1) * W := by
  have h1 := hr x
  have h2 := abs_add_le (r x - x) (x - z)
  rw [sub_add_sub_cancel] at h2
  have h3 := abs_add_le (x - z) z
  rw [sub_add_cancel] at h3
  have h4 : u * |x| ≤ u * ((A - 1) * W + W) := mul_le_mul_of_nonneg_left (by linarith) h0
  linarith

/-- A quotient of numbers with errors. -/
theorem quotient_error (h0 : 0 ≤ u) (hu1 : u < 1) {N N' W A D θ : K} (hD : 0 < D) (hA : 1 ≤ A) (hN : |N| ≤ W)
    (hN' : |N' - N| ≤ (A - 1) * W) (h1 : (1 - u) ^ 2 ≤ θ) (h2 : θ ≤ (1 + u) ^ 2) :
    |N' / (D * θ) - N / D| ≤ (A / (1 - u) ^ 2 - 1) * (W / D) := by
  have hpos : 0 < (1 - u) ^ 2 := pow_pos (by linarith) 2
  have hθ : 0 < θ := hpos.trans_le h1
  have hW : 0 ≤ W := (abs_nonneg N).trans hN
  have e : N' / (D * θ) - N / D = ((N' - N) + N * (1 - θ)) / (D * θ) := by
    field_simp
    ring
  have k1 : |(N' - N) + N * (1 - θ)| ≤ (A - 1 + |1 - θ|) * W := by
    have := abs_add_le (N' - N) (N * (1 - θ))
    rw [abs_mul] at this
    have := mul_le_mul_of_nonneg_right hN (abs_nonneg (1 - θ))
    linarith
  have k2 : (A - 1 + |1 - θ|) / θ ≤ A / (1 - u) ^ 2 - 1 := by
    rcases le_total θ 1 with h | h
    · rw [abs_of_nonneg (by linarith)]
      have : A / θ ≤ A / (1 - u) ^ 2 := div_le_div_of_nonneg_left (by linarith) hpos h1
      rw [show A - 1 + (1 - θ) = A - θ by ring, sub_div, div_self hθ.ne']
      linarith
    · rw [abs_of_nonpos (by linarith)]
      have g1 : (A - 1 + -(1 - θ)) / θ ≤ A - 1 + -(1 - θ) := div_le_self (by linarith) h
      have g2 : A * (1 + 2 * u + u ^ 2) ≤ A / (1 - u) ^ 2 := by
        rw [le_div_iff₀ hpos]
        have : (1 + 2 * u + u ^ 2) * (1 - u) ^ 2 ≤ 1 := by
          have : (1 + 2 * u + u ^ 2) * (1 - u) ^ 2 = (1 - u ^ 2) ^ 2 := by ring
          rw [this]
          exact pow_le_one₀ (by nlinarith) (by nlinarith)
        nlinarith
      have g3 : 2 * u + u ^ 2 ≤ A * (2 * u + u ^ 2) := le_mul_of_one_le_left (by positivity) hA
      nlinarith
  rw [e, abs_div, abs_of_pos (mul_pos hD hθ)]
  calc |(N' - N) + N * (1 - θ)| / (D * θ) ≤ (A - 1 + |1 - θ|) * W / (D * θ) :=
        div_le_div_of_nonneg_right k1 (mul_pos hD hθ).le
    _ = (A - 1 + |1 - θ|) / θ * (W / D) := by field_simp
    _ ≤ (A / (1 - u) ^ 2 - 1) * (W / D) := mul_le_mul_of_nonneg_right k2 (div_nonneg hW hD.le)

set_option maxHeartbeats 800000 in
/-- C113: the mean (and prediction) of a node computed in floating-point arithmetic differs from the exact posterior mean
by at most `(n+6)u / (1 - (n+6)u)` times the mean of the absolute values (the prior counting as `kappa` values). -/
theorem C113_mean (hL : GoodLib u L) {prior : NG K} {y : List K} (hy : y ≠ []) (hk : 0 < prior.kappa)
    (hu : ((y.length : K) + 6) * u < 1) :
    |(regPosteriorR L y prior 1).mu - (Spec.ngPosterior prior y).mu| ≤
      ((y.length : K) + 6) * u / (1 - ((y.length : K) + 6) * u) *
        ((prior.kappa * |prior.mu| + (y.map fun v => |v|).sum) / (prior.kappa + (y.length : K))) := by
  have h0 := hL.nonneg
  have hr := hL.round
  have hn : 0 < y.length := List.length_pos_of_ne_nil hy
  have hn1 : (1 : K) ≤ (y.length : K) := by exact_mod_cast hn
  have hu1 : u < 1 := by nlinarith
  obtain ⟨hlen, hsum⟩ := (hL.sum y hy).error hr h0
  have hB := abs_sum_nonneg y
  have hSB := abs_sum_le_list y
  rw [regPosteriorR, if_neg one_ne_zero]
  set n := y.length with hnl
  set S := L.sum y with hS
  set B := (y.map fun v => |v|).sum with hBdef
  change 0 ≤ B at hB
  change |y.sum| ≤ B at hSB
  change |S - y.sum| ≤ ((1 + u) ^ (n - 1) - 1) * B at hsum
  have hnd := hr ((n : K) * 1)
  rw [mul_one, abs_of_pos (show (0 : K) < n by linarith)] at hnd
  set nd := L.r ((n : K) * 1) with hndd
  rw [mul_one] at hndd
  rw [← hndd] at hnd
  -- the numerator
  have t1 : |L.r (prior.kappa * prior.mu) - prior.kappa * prior.mu| ≤ ((1 + u) - 1) * (prior.kappa * |prior.mu|) := by
    have := hr (prior.kappa * prior.mu)
    rw [abs_mul, abs_of_pos hk] at this
    linarith
  have hg : 1 ≤ (1 + u) ^ (n - 1) := one_le_pow_u h0 _
  have t2 : |nd * S / (n : K) - y.sum| ≤ ((1 + u) * (1 + u) ^ (n - 1) - 1) * B := by
    have e : nd * S / (n : K) - y.sum = (nd - n) / n * S + (S - y.sum) := by
      field_simp
      ring
    have a1 : |(nd - n) / n| ≤ u := by
      rw [abs_div, abs_of_pos (show (0 : K) < n by linarith), div_le_iff₀ (by linarith)]
      exact hnd
    have a2 := abs_add_le (S - y.sum) y.sum
    rw [sub_add_cancel] at a2
    have a3 := abs_add_le ((nd - n) / n * S) (S - y.sum)
    rw [abs_mul] at a3
    have a4 : |(nd - n) / n| * |S| ≤ u * ((1 + u) ^ (n - 1) * B) :=
      mul_le_mul a1 (by linarith) (abs_nonneg _) h0
    rw [e]
    linarith
  have t3 : |L.r (nd * S) / (n : K) - y.sum| ≤ ((1 + u) * ((1 + u) * (1 + u) ^ (n - 1)) - 1) * B := by
    have hnS : |nd * S - n * y.sum| ≤ ((1 + u) * (1 + u) ^ (n - 1) - 1) * (n * B) := by
      have e : nd * S - n * y.sum = (nd * S / (n : K) - y.sum) * n := by field_simp
      rw [e, abs_mul, abs_of_pos (show (0 : K) < n by linarith)]
      have := mul_le_mul_of_nonneg_right t2 (show (0 : K) ≤ n by linarith)
      linarith
    have hz : |(n : K) * y.sum| ≤ n * B := by
      rw [abs_mul, abs_of_pos (show (0 : K) < n by linarith)]
      exact mul_le_mul_of_nonneg_left hSB (by linarith)
    have := round_after hr h0 hz hnS
    have e : L.r (nd * S) / (n : K) - y.sum = (L.r (nd * S) - n * y.sum) / n := by field_simp
    rw [e, abs_div, abs_of_pos (show (0 : K) < n by linarith), div_le_iff₀ (by linarith)]
    linarith
  have t4 := round_after hr h0 hSB t3
  set A3 := (1 + u) * ((1 + u) * ((1 + u) * (1 + u) ^ (n - 1))) with hA3
  have hA3' : 1 + u ≤ A3 := by
    have e : A3 = (1 + u) * ((1 + u) ^ (n - 1 + 2)) := by rw [hA3]; ring
    rw [e]
    exact le_mul_of_one_le_right (by linarith) (one_le_pow_u h0 _)
  set T1 := L.r (prior.kappa * prior.mu)
  set T2 := L.r (L.r (nd * S) / (n : K))
  set W := prior.kappa * |prior.mu| + B with hW
  have hkm : 0 ≤ prior.kappa * |prior.mu| := mul_nonneg hk.le (abs_nonneg _)
  have hN : |prior.kappa * prior.mu + y.sum| ≤ W := by
    have := abs_add_le (prior.kappa * prior.mu) y.sum
    rw [abs_mul, abs_of_pos hk] at this
    linarith
  have t5 : |T1 + T2 - (prior.kappa * prior.mu + y.sum)| ≤ (A3 - 1) * W := by
    have e : T1 + T2 - (prior.kappa * prior.mu + y.sum) = (T1 - prior.kappa * prior.mu) + (T2 - y.sum) := by ring
    have := abs_add_le (T1 - prior.kappa * prior.mu) (T2 - y.sum)
    rw [e]
    have : ((1 + u) - 1) * (prior.kappa * |prior.mu|) ≤ (A3 - 1) * (prior.kappa * |prior.mu|) :=
      mul_le_mul_of_nonneg_right (by linarith) hkm
    rw [hW]
    linarith
  have t6 := round_after hr h0 hN t5
  set A := (1 + u) * A3 with hA
  have hA1 : 1 ≤ A := by
    rw [hA]
    nlinarith
  -- the denominator
  set D := prior.kappa + (n : K) with hD
  have hDpos : 0 < D := by rw [hD]; linarith
  have hnd2 := abs_le.1 hnd
  have hndpos : 0 ≤ nd := by nlinarith
  have d1 : (1 - u) * D ≤ prior.kappa + nd := by rw [hD]; nlinarith
  have d2 : prior.kappa + nd ≤ (1 + u) * D := by rw [hD]; nlinarith
  have d3 := hr.ge (show 0 ≤ prior.kappa + nd by linarith)
  have d4 := hr.le (show 0 ≤ prior.kappa + nd by linarith)
  have hκ : L.r (prior.kappa + nd) = D * (L.r (prior.kappa + nd) / D) := by field_simp
  have l1 : (1 - u) ^ 2 ≤ L.r (prior.kappa + nd) / D := by
    rw [le_div_iff₀ hDpos]
    nlinarith [mul_le_mul_of_nonneg_left d1 (show 0 ≤ 1 - u by linarith)]
  have l2 : L.r (prior.kappa + nd) / D ≤ (1 + u) ^ 2 := by
    rw [div_le_iff₀ hDpos]
    nlinarith [mul_le_mul_of_nonneg_left d2 (show 0 ≤ 1 + u by linarith)]
  have q := quotient_error h0 hu1 hDpos hA1 hN t6 l1 l2
  rw [← hκ] at q
  have hND : |(prior.kappa * prior.mu + y.sum) / D| ≤ W / D := by
    rw [abs_div, abs_of_pos hDpos]
    exact div_le_div_of_nonneg_right hN hDpos.le
  have fin := round_after hr h0 hND q
  have hexact : (Spec.ngPosterior prior y).mu = (prior.kappa * prior.mu + y.sum) / D := by
    show (prior.kappa * prior.mu + (n : K) * (y.sum / (n : K))) / D = _
    rw [mul_div_cancel₀ _ (by linarith : (n : K) ≠ 0)]
  rw [hexact]
  refine fin.trans (mul_le_mul_of_nonneg_right ?_ (div_nonneg (add_nonneg hkm hB) hDpos.le))
  have hpow := pow_u_le h0 (n + 4) (by push_cast; linarith)
  push_cast at hpow
  have hpos : 0 < (1 - u) ^ 2 := pow_pos (by linarith) 2
  have hden : 0 < 1 - ((n : K) + 6) * u := by linarith
  have eA : (1 + u) * (A / (1 - u) ^ 2) = (1 + u) ^ (n + 4) / (1 - u) ^ 2 := by
    rw [hA, hA3]
    have : (1 + u) ^ (n + 4) = (1 + u) ^ 5 * (1 + u) ^ (n - 1) := by rw [← pow_add]; congr 1; omega
    rw [this]
    ring
  rw [eA, le_div_iff₀ hden]
  have : (1 + u) ^ (n + 4) / (1 - u) ^ 2 * (1 - ((n : K) + 6) * u) ≤ 1 := by
    rw [div_mul_eq_mul_div, div_le_one hpos]
    have e : (n : K) + 4 + 2 = n + 6 := by ring
    rwa [e] at hpow
  linarith

end

section nan
variable {V K : Type} [Field K] [LinearOrder K] [IsStrictOrderedRing K] {L : FloatLib K}

/-- A negative scale parameter makes the likelihood NaN. -/
theorem ngLogPDataR_nan (prior : NG K) (a k : K) (m : Nat) {b : K} (hb : b < 0) : ngLogPDataR L prior a b k m = .nan := by
  have h : L.logX b = .nan := by
    unfold FloatLib.logX
    rw [if_neg (not_lt.2 hb.le), if_neg hb.ne]
  have e : (.fin a * (.nan : XF K)) = .nan := rfl
  have e2 : L.rX .nan = .nan := rfl
  unfold ngLogPDataR
  simp only [h, e, e2, XF.sub_nan, XF.nan_add, XF.nan_sub]

theorem search_nanS {P O : Type} (o : XOps V K) (T : Target K P (XF K) O) (hp : Hyper K) (lv : Nat)
    (X : Nat → Nat → V) (y : Nat → K) (nDim : Nat) (prior : P) (sid : List (List Nat)) (l : List Nat) :
    l.foldl (searchDim o T hp lv X y nDim prior sid) ⟨.nan, none⟩ = ⟨.nan, none⟩ := by
  induction l with
  | nil => rfl
  | cons d l ih =>
    have : searchDim o T hp lv X y nDim prior sid ⟨.nan, none⟩ d = ⟨.nan, none⟩ := by
      unfold searchDim
      simp only [XF.not_nan_lt, if_false]
      split
      · rfl
      · split <;> rfl
    rw [List.foldl_cons, this, ih]

/-- C113: if the scale parameter computed for the training data is negative (whatever the order of the rows), the
tree is a single leaf — for all features, all hyperparameters and all targets. -/
theorem C113_leaf (o : XOps V K) {argsort : List V → List Nat}
    (hsort : ∀ xs, (argsort xs).Perm (List.range xs.length)) (hp : Hyper K) (prior : NG K)
    (X : Nat → Nat → V) (y : Nat → K) (n nDim : Nat) (names : List String) (hn : n ≤ 2 ^ 64) (hd : 0 < nDim)
    (hb : ∀ ys : List K, ys.Perm ((List.range n).map y) →
      (regPosteriorR L ys prior 1).beta < 0) :
    ∃ info, perpFitRoot o (regTargetR L) argsort hp (some prior) X y n nDim names = .ok (.leaf info) ∧
      info.nData = n ∧ info.posterior.beta < 0 := by
  obtain ⟨row0, rest, hs, hperm⟩ := sortMatrix_row0 hsort X n nDim hn hd
  have hlen : row0.length = n := by simpa using hperm.length_eq
  have hbeta := hb (row0.map y) (hperm.map y)
  have hnan : regLogNoSplitR L hp.partitionPrior 0 (row0.map y) prior = .nan := by
    rw [regPosteriorR, if_neg one_ne_zero] at hbeta
    unfold regLogNoSplitR
    simp only
    rw [ngLogPDataR_nan _ _ _ _ hbeta, XF.add_nan]
    rfl
  refine ⟨⟨hp, some prior, 0, some nDim, n, regPosteriorR L (row0.map y) prior 1⟩, ?_, rfl, hbeta⟩
  unfold perpFitRoot
  rw [hs, perpFit]
  simp only [show (regTargetR L).getPrior (some prior) (shape1 (row0 :: rest)) nDim = prior from rfl,
    show (regTargetR L).logNoSplit hp.partitionPrior 0 (row0.map y) prior = .nan from hnan, search_nanS]
  simp only [bind, Except.bind, pure, Except.pure, prune, Node.size, pruneFuel, shape1, List.headD_cons, hlen]
  split <;> rfl

end nan

/-! ## float64 -/

section float64

/-- Rounding to nearest has relative error at most `2^-p`. -/
theorem rndFloat_relRound {K : Type} [Field K] [LinearOrder K] [IsStrictOrderedRing K] [FloorRing K] (p : Nat) :
    RelRound (1 / 2 ^ p) (rndFloat p : K → K) := by
  intro x
  rcases eq_or_ne x 0 with rfl | hx
  · rw [rndFloat_zero]; simp
  obtain ⟨h1, h2⟩ := log2_bounds hx
  rw [rndFloat_eq h1 h2]
  set e := Int.log 2 |x|
  set w : K := 2 ^ (e + 1 - p) with hw
  have wpos : 0 < w := zpow_pos (by norm_num) _
  have near : |(roundEven (x / w) : K) - x / w| ≤ 1 / 2 := by
    have f1 := Int.floor_le (x / w)
    have f2 := Int.lt_floor_add_one (x / w)
    rcases le_total (x / w - ⌊x / w⌋) (1 / 2) with h | h
    · refine (roundEven_near (x / w) ⌊x / w⌋).trans ?_
      rw [abs_sub_comm, abs_of_nonneg (by linarith)]
      exact h
    · refine (roundEven_near (x / w) (⌊x / w⌋ + 1)).trans ?_
      push_cast
      rw [abs_of_nonneg (by linarith)]
      linarith
  have e1 : (roundEven (x / w) : K) * w - x = ((roundEven (x / w) : K) - x / w) * w := by
    rw [sub_mul, div_mul_cancel₀ _ wpos.ne']
  rw [e1, abs_mul, abs_of_pos wpos]
  have e2 : w = 2 * (1 / 2 ^ p * 2 ^ e) := by
    rw [hw, zpow_sub₀ (by norm_num), zpow_add₀ (by norm_num), zpow_one, zpow_natCast]
    field_simp
  have h3 := mul_le_mul_of_nonneg_right near wpos.le
  have h4 : 1 / 2 ^ p * (2 : K) ^ e ≤ 1 / 2 ^ p * |x| := mul_le_mul_of_nonneg_left h1 (by positivity)
  rw [e2] at h3 ⊢
  linarith

theorem roundEven_eq {K : Type} [Field K] [LinearOrder K] [IsStrictOrderedRing K] [FloorRing K] {x : K} {z : Int}
    (h : |(z : K) - x| < 1 / 2) : roundEven x = z := by
  have h1 := abs_lt.1 ((roundEven_near x z).trans_lt h)
  have h2 := abs_lt.1 h
  have h3 : ((roundEven x : Int) : K) < z + 1 := by linarith
  have h4 : (z : K) < (roundEven x : Int) + 1 := by linarith
  have h3' : roundEven x < z + 1 := by exact_mod_cast h3
  have h4' : z < roundEven x + 1 := by exact_mod_cast h4
  omega

/-- Numbers with 53 binary digits are not changed. -/
theorem rnd_int (m : Int) (h : |m| ≤ 2 ^ 53) (e : Int) : rndFloat 53 ((m : ℝ) * 2 ^ e) = (m : ℝ) * 2 ^ e :=
  (rndFloat_rounds 53 (by norm_num)).fixed ⟨m, e, h, rfl⟩

/-- `ndarray.sum` from left to right in float64. -/
noncomputable def sum64 : List ℝ → ℝ
  | [] => 0
  | x :: l => l.foldl (fun a b => rndFloat 53 (a + b)) x

/-- float64 with correctly rounded library functions. -/
noncomputable def lib64 : FloatLib ℝ where
  r := rndFloat 53
  sum := sum64
  log := fun x => rndFloat 53 (Real.log x)
  gammaln := fun x => rndFloat 53 (Real.log (Real.Gamma x))
  pi := rndFloat 53 Real.pi

theorem lib64_good : GoodLib (1 / 2 ^ 53) lib64 where
  nonneg := by positivity
  round := rndFloat_relRound 53
  sum := by
    intro l hl
    cases l with
    | nil => exact absurd rfl hl
    | cons x l =>
      have key : ∀ (l p : List ℝ) (a : ℝ), FloatSum (rndFloat 53) p a →
          FloatSum (rndFloat 53) (p ++ l) (l.foldl (fun a b => rndFloat 53 (a + b)) a) := by
        intro l
        induction l with
        | nil => intro p a h; simpa using h
        | cons b l ih =>
          intro p a h
          have := ih (p ++ [b]) _ (FloatSum.add h (.one b))
          simpa using this
      exact key l [x] x (.one x)
  pi := (rndFloat_relRound 53).pos (by norm_num) Real.pi_pos

/-- The two targets of the counterexample. -/
theorem beta64 (a b : ℝ) (h : (a = 1000000004 ∧ b = 1000000013) ∨ (a = 1000000013 ∧ b = 1000000004)) :
    (regPosteriorR lib64 [a, b] ⟨1000000000, 1, 1, 1⟩ 1).beta < 0 := by
  have rA : rndFloat 53 (1000000004 * 1000000004 : ℝ) = 1000000008000000000 := by
    rw [rndFloat_eq (e := 59) (by rw [abs_of_pos (by norm_num)]; norm_num)
      (by rw [abs_of_pos (by norm_num)]; norm_num), roundEven_eq (z := 7812500062500000) (by norm_num [abs_lt])]
    norm_num
  have rB : rndFloat 53 (1000000013 * 1000000013 : ℝ) = 1000000026000000128 := by
    rw [rndFloat_eq (e := 59) (by rw [abs_of_pos (by norm_num)]; norm_num)
      (by rw [abs_of_pos (by norm_num)]; norm_num), roundEven_eq (z := 7812500203125001) (by norm_num [abs_lt])]
    norm_num
  have rQ : rndFloat 53 (2000000034000000128 : ℝ) = 2000000034000000000 := by
    rw [rndFloat_eq (e := 60) (by rw [abs_of_pos (by norm_num)]; norm_num)
      (by rw [abs_of_pos (by norm_num)]; norm_num)]
    have hx : (2000000034000000128 : ℝ) / 2 ^ ((60 : Int) + 1 - (53 : Nat)) = 7812500132812500 + 1 / 2 := by norm_num
    have hf : ⌊(7812500132812500 + 1 / 2 : ℝ)⌋ = 7812500132812500 := by
      rw [Int.floor_eq_iff]; norm_num
    have : roundEven (7812500132812500 + 1 / 2 : ℝ) = 7812500132812500 := by
      unfold roundEven
      rw [hf, if_neg (by norm_num), if_neg (by norm_num), if_pos (by decide)]
    rw [hx, this]
    norm_num
  have rS2 : rndFloat 53 (2000000017 * 2000000017 : ℝ) = 4000000068000000512 := by
    rw [rndFloat_eq (e := 61) (by rw [abs_of_pos (by norm_num)]; norm_num)
      (by rw [abs_of_pos (by norm_num)]; norm_num), roundEven_eq (z := 7812500132812501) (by norm_num [abs_lt])]
    norm_num
  have ex : ∀ (x : ℝ) (m e : Int), |m| ≤ 2 ^ 53 → (m : ℝ) * 2 ^ e = x → rndFloat 53 x = x := by
    intro x m e h1 h2
    rw [← h2]; exact rnd_int m h1 e
  have hsum : sum64 [a, b] = 2000000017 := by
    show rndFloat 53 (a + b) = _
    have : a + b = 2000000017 := by rcases h with ⟨rfl, rfl⟩ | ⟨rfl, rfl⟩ <;> norm_num
    rw [this]
    exact ex _ 2000000017 0 (by norm_num) (by norm_num)
  have hsq : sum64 (squaresR (rndFloat 53) [a, b]) = 2000000034000000000 := by
    show rndFloat 53 (rndFloat 53 (a * a) + rndFloat 53 (b * b)) = _
    have : rndFloat 53 (a * a) + rndFloat 53 (b * b) = 2000000034000000128 := by
      rcases h with ⟨rfl, rfl⟩ | ⟨rfl, rfl⟩ <;> rw [rA, rB] <;> norm_num
    rw [this, rQ]
  rw [regPosteriorR, if_neg one_ne_zero]
  show (ngPosteriorR (rndFloat 53) _ 2 (sum64 [a, b]) (sum64 (squaresR (rndFloat 53) [a, b])) 1).beta < 0
  rw [hsum, hsq]
  unfold ngPosteriorR
  simp only
  have neg : ∀ x : ℝ, x < 0 → rndFloat 53 x < 0 := by
    intro x hx
    have := (abs_le.1 (rndFloat_relRound 53 x)).2
    rw [abs_of_neg hx] at this
    norm_num at this
    linarith
  have c1 : rndFloat 53 (((2 : Nat) : ℝ) * 1) = 2 := by
    rw [ex _ 2 0 (by norm_num) (by norm_num)]; norm_num
  have c2 : rndFloat 53 (1 / 2 * 1 : ℝ) = 1 / 2 := by
    rw [ex _ 1 (-1) (by norm_num) (by norm_num)]; norm_num
  have c3 : rndFloat 53 (4000000068000000512 / ((2 : Nat) : ℝ)) = 2000000034000000256 := by
    rw [ex _ 7812500132812501 8 (by norm_num) (by norm_num)]; norm_num
  have c4 : rndFloat 53 (2000000034000000000 - 2000000034000000256 : ℝ) = -256 := by
    rw [ex _ (-256) 0 (by norm_num) (by norm_num)]; norm_num
  have c5 : rndFloat 53 (1 / 2 * -256 : ℝ) = -128 := by
    rw [ex _ (-128) 0 (by norm_num) (by norm_num)]; norm_num
  have c6 : rndFloat 53 (1 + -128 : ℝ) = -127 := by
    rw [ex _ (-127) 0 (by norm_num) (by norm_num)]; norm_num
  have c7 : rndFloat 53 (2000000017 / ((2 : Nat) : ℝ)) = 2000000017 / 2 := by
    rw [ex _ 2000000017 (-1) (by norm_num) (by norm_num)]; norm_num
  have c8 : rndFloat 53 (2000000017 / 2 - 1000000000 : ℝ) = 17 / 2 := by
    rw [ex _ 17 (-1) (by norm_num) (by norm_num)]; norm_num
  have c9 : rndFloat 53 (17 / 2 * (17 / 2) : ℝ) = 289 / 4 := by
    rw [ex _ 289 (-2) (by norm_num) (by norm_num)]; norm_num
  have c10 : rndFloat 53 (1 / 2 * 2 : ℝ) = 1 := by
    rw [ex _ 1 0 (by norm_num) (by norm_num)]; norm_num
  have c11 : rndFloat 53 (1 * (289 / 4) : ℝ) = 289 / 4 := by
    rw [ex _ 289 (-2) (by norm_num) (by norm_num)]; norm_num
  have c12 : rndFloat 53 (1 + ((2 : Nat) : ℝ)) = 3 := by
    rw [ex _ 3 0 (by norm_num) (by norm_num)]; norm_num
  have c13 : rndFloat 53 (289 / 4 / 3 : ℝ) ≤ 25 := by
    have := (rndFloat_relRound 53).le (show (0 : ℝ) ≤ 289 / 4 / 3 by norm_num)
    refine this.trans (by norm_num)
  rw [c1, c2, rS2, c3, c4, c5, c6, c7, c8, c9, c10, c11, c12]
  exact neg _ (by linarith)

/-- C113: this happens for two ordinary measurements, 1000000004 and 1000000013 with prior mean 10^9 and unit weights:
the exact tree (for a suitable partition prior) has two leaves with the two values, the tree computed in float64 is a
single leaf. -/
theorem C113_float64 (δ : ℝ) :
    let c := regCtx2 ⟨1000000000, 1, 1, 1⟩ 1000000004 1000000013 δ false
    (∃ i sp a b l1 l2, perpFitRoot c.o (regTarget realFns) realSort c.hp (some ⟨1000000000, 1, 1, 1⟩) c.X c.y 2 1 c.names
      = .ok (.split i sp a b (.leaf l1) (.leaf l2))) ∧
    ∃ i, perpFitRoot c.o (regTargetR lib64) realSort c.hp (some ⟨1000000000, 1, 1, 1⟩) c.X c.y 2 1 c.names
      = .ok (.leaf i) ∧ i.posterior.beta < 0 := by
  intro c
  constructor
  · exact ⟨_, _, _, _, _, _, regTree2_fit ⟨1000000000, 1, 1, 1⟩ 1000000004 1000000013 δ⟩
  · obtain ⟨i, h1, -, h2⟩ := C113_leaf (L := lib64) c.o (fun xs => (realSort_spec.perm xs (fun _ _ => trivial))) c.hp
      ⟨1000000000, 1, 1, 1⟩ c.X c.y 2 1 c.names (by norm_num) one_pos (by
        intro ys hys
        have e : (List.range 2).map c.y = [1000000004, 1000000013] := by
          simp [List.range_succ, c, regCtx2]
        rw [e] at hys
        have hm := List.mem_permutations.2 hys
        have hm : ys = [1000000004, 1000000013] ∨ ys = [1000000013, 1000000004] := by
          simpa [List.permutations, List.permutationsAux, List.permutationsAux.rec, List.permutationsAux2] using hm
        rcases hm with rfl | rfl
        · exact beta64 _ _ (.inl ⟨rfl, rfl⟩)
        · exact beta64 _ _ (.inr ⟨rfl, rfl⟩))
    exact ⟨i, h1, h2⟩

/-- Three ordinary measurements satisfy the hypotheses of `C113_stay` and `C113_splits` for float64. -/
example : WellScaled (1 / 2 ^ 53 : ℝ) ⟨0, 1, 1, 1⟩ [1000, -2000, 500] :=
  ⟨by norm_num, by norm_num, by norm_num⟩

/-- So the scores of all nodes with at least one of them are numbers, and the mean of all is exact to about 10^-12. -/
example : (∃ v, regLogNoSplitR lib64 (9 / 10) 0 [1000, -2000] ⟨0, 1, 1, 1⟩ = .fin v) ∧
    (∀ s ∈ regLogSplitR lib64 (9 / 10) 0 [1000, -2000, 500] ⟨0, 1, 1, 1⟩ 1 [1, 2], ∃ v, s = .fin v) ∧
    |(regPosteriorR lib64 [1000, -2000, 500] ⟨0, 1, 1, 1⟩ 1).mu - (-125)| ≤ 1 / 10 ^ 12 := by
  have h : WellScaled (1 / 2 ^ 53 : ℝ) ⟨0, 1, 1, 1⟩ [1000, -2000, 500] := ⟨by norm_num, by norm_num, by norm_num⟩
  refine ⟨C113_stay lib64_good (by simp) (C113_rows (by positivity) h ⟨_, List.Perm.refl _, by simp⟩) 0 (by norm_num)
    (by norm_num), C113_splits lib64_good h 0 (by norm_num) one_pos [1, 2] (by simp) (by simp), ?_⟩
  have := C113_mean lib64_good (prior := ⟨0, 1, 1, 1⟩) (y := [1000, -2000, 500]) (by simp) (by norm_num) (by norm_num)
  have e : (Spec.ngPosterior (⟨0, 1, 1, 1⟩ : NG ℝ) [1000, -2000, 500]).mu = -125 := by
    norm_num [Spec.ngPosterior, mean]
  rw [e] at this
  refine this.trans ?_
  norm_num

end float64
end BT
