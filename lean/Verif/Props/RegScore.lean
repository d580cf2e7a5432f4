import Verif.Lemmas.RegScore
import Verif.Lemmas.FinScores
import Verif.Props.ClsFloat

/-!
# C115: scores of regression in floating-point arithmetic

Every score computed with rounded operations is within `regScoreError` of the exact one, so that the statements of C101
hold for the computed trees with this explicit bound.
-/

set_option linter.unusedSectionVars false

namespace BT
open Spec

section
variable {u Y pp : ℝ} {n nDim : Nat} {L : FloatLib ℝ} {prior : NG ℝ} {ys : List ℝ}

theorem abs_sum_bound (hY : ∀ v ∈ ys, |v| ≤ Y) : (ys.map abs).sum ≤ ys.length * Y := by
  have := List.sum_le_card_nsmul (ys.map abs) Y (by
    intro x hx
    obtain ⟨v, hv, rfl⟩ := List.mem_map.1 hx
    exact hY v hv)
  simpa using this

theorem sumSq_bound (hY : ∀ v ∈ ys, |v| ≤ Y) : sumSqL ys ≤ ys.length * Y ^ 2 := by
  have := List.sum_le_card_nsmul (ys.map fun v => v ^ 2) (Y ^ 2) (by
    intro x hx
    obtain ⟨v, hv, rfl⟩ := List.mem_map.1 hx
    rw [← sq_abs]
    exact pow_le_pow_left₀ (abs_nonneg v) (hY v hv) 2)
  simpa [sumSqL] using this

/-- The part of the library that the prior of splits uses. -/
noncomputable def FloatLib.cls (L : FloatLib ℝ) : ClsLib ℝ :=
  ⟨L.r, L.sum, L.log, L.gammaln, fun a b => lgam a + lgam b - lgam (a + b)⟩

theorem Spec.AccurateReg.cls (hL : AccurateReg u n L) : AccurateLib u n L.cls where
  nonneg := hL.pos.le
  round := hL.round
  counts := hL.counts
  sum := hL.sum
  log := hL.log
  gammaln := hL.gammaln
  betaln a b _ _ := by
    show |lgam a + lgam b - lgam (a + b) - _| ≤ _
    rw [sub_self, abs_zero]
    have := hL.pos
    positivity

theorem Spec.Fine.moderate (h : Fine u prior pp n Y) : Moderate u 1 (1 + n) pp [1] n where
  some := by simp
  lo_pos := one_pos
  low := by simp
  high := by simp
  classes := by simp; linarith [h.tiny]
  pp_pos := h.pp_pos
  pp_lt := h.pp_lt
  gap := h.gap

/-- The logarithm of the prior probability of no split. -/
theorem stay_prior_near (hL : AccurateReg u n L) (h : Fine u prior pp n Y) (lv : Nat) :
    0 < L.r (1 - L.r (pp ^ (1 + lv))) ∧
    Ap u 1 (8 / (1 - pp)) (Real.log (1 - pp ^ (lv + 1))) (L.log (L.r (1 - L.r (pp ^ (1 + lv))))) := by
  obtain ⟨h1, h2, h3⟩ := stay_prior_error hL.cls h.moderate lv
  have e : 8 * (u / (1 - pp)) = u * (8 / (1 - pp)) := by ring
  rw [e] at h2 h3
  exact ⟨h1, Ap.of_err (le_of_mul_le_mul_left h3 hL.pos) h2⟩

/-- The logarithm of the prior probability of a split. -/
theorem split_prior_near (hL : AccurateReg u n L) (h : Fine u prior pp n Y) (lv ns : Nat) (hlv : lv < n) (hns : 0 < ns)
    (hnsn : ns ≤ n) (hd : 0 < nDim) :
    0 < L.r (L.r (pp ^ (1 + lv)) / ((ns : ℝ) * (nDim : ℝ))) ∧
    Ap u 1 (n * |Real.log pp| + Real.log (n * nDim) + 7) (Real.log (pp ^ (lv + 1) / ((ns : ℝ) * (nDim : ℝ))))
      (L.log (L.r (L.r (pp ^ (1 + lv)) / ((ns : ℝ) * (nDim : ℝ))))) := by
  obtain ⟨h1, h2, h3⟩ := split_prior_error hL.cls h.moderate lv ns hlv hns hnsn hd
  exact ⟨h1, Ap.of_err (le_of_mul_le_mul_left h3 hL.pos) h2⟩

/-- The sum and the sum of squares of all targets. -/
theorem sums_near (hL : AccurateReg u n L) (h0 : 0 ≤ Y) (hlen : ys.length ≤ n) (hY : ∀ v ∈ ys, |v| ≤ Y)
    {s q : ℝ} (hs : FloatSum L.r ys s) (hq : FloatSum L.r (squaresR L.r ys) q) :
    |s - ys.sum| ≤ ((1 + u) ^ n - 1) * (n * Y) ∧ |q - sumSqL ys| ≤ ((1 + u) ^ n - 1) * (n * Y ^ 2) := by
  have hu := hL.pos.le
  have hc : (ys.length : ℝ) ≤ n := by exact_mod_cast hlen
  have hg : 0 ≤ (1 + u) ^ n - 1 := by linarith [one_le_pow_u hu n]
  constructor
  · refine (hs.error_le hL.round hu (n := n) (by omega)).trans (mul_le_mul_of_nonneg_left ?_ hg)
    exact (abs_sum_bound hY).trans (mul_le_mul_of_nonneg_right hc h0)
  · refine (sumSq_error hL.round hu hq hlen).trans (mul_le_mul_of_nonneg_left ?_ hg)
    exact (sumSq_bound hY).trans (mul_le_mul_of_nonneg_right hc (sq_nonneg Y))

theorem two_le_mul {a b c d : ℝ} (h1 : 0 ≤ a) (h2 : a ≤ b) (h3 : 0 ≤ c) (h4 : c ≤ d) {x : ℝ} (h : x ≤ a * c) : x ≤ b * d :=
  h.trans (mul_le_mul h2 h4 h3 (h1.trans h2))

theorem sizes (hlen : ys.length ≤ n) (hY : ∀ v ∈ ys, |v| ≤ Y) :
    |ys.sum| ≤ ys.length * Y ∧ sumSqL ys ≤ 2 * n * Y ^ 2 := by
  have hc : (ys.length : ℝ) ≤ n := by exact_mod_cast hlen
  refine ⟨(abs_sum_le_list ys).trans (abs_sum_bound hY), (sumSq_bound hY).trans ?_⟩
  have h1 := mul_le_mul_of_nonneg_right hc (sq_nonneg Y)
  have h2 : 0 ≤ (ys.length : ℝ) * Y ^ 2 := by positivity
  linarith

theorem marginalSize_nonneg (hL : AccurateReg u n L) (h : Fine u prior pp n Y) (hy : ys ≠ []) (hlen : ys.length ≤ n)
    (hY : ∀ v ∈ ys, |v| ≤ Y) : 0 ≤ marginalSize prior n Y := by
  have hu := hL.pos.le
  have hg : 0 ≤ (1 + u) ^ (n + 1) - 1 := by linarith [one_le_pow_u hu (n + 1)]
  have hY0 := h.size
  obtain ⟨v, -, hv⟩ := marginal_near (s := ys.sum) (q := sumSqL ys) hL h hy hlen (sizes hlen hY).1
    (sizes hlen hY).2 (by rw [sub_self, abs_zero]; positivity) (by rw [sub_self, abs_zero]; positivity)
  exact hv.nonneg

theorem prior_parts_nonneg (h : Fine u prior pp n Y) (hn : 0 < n) (hd : 0 < nDim) :
    0 ≤ 8 / (1 - pp) ∧ 0 ≤ n * |Real.log pp| + Real.log (n * nDim) + 7 := by
  have h1 : 0 < 1 - pp := by linarith [h.pp_lt]
  refine ⟨by positivity, ?_⟩
  have h2 : (1 : ℝ) ≤ n * nDim := by exact_mod_cast Nat.mul_pos hn hd
  have := Real.log_nonneg h2
  positivity

/-- C115: the likelihood of a node without a split is a number close to the exact one. -/
theorem C115_stay (hL : AccurateReg u n L) (h : Fine u prior pp n Y) (hd : 0 < nDim) (lv : Nat) (hy : ys ≠ [])
    (hlen : ys.length ≤ n) (hY : ∀ v ∈ ys, |v| ≤ Y) :
    ∃ v, regLogNoSplitR L pp lv ys prior = .fin v ∧
      |v - (Real.log (1 - pp ^ (lv + 1)) + ngMarginal realFns prior ys)| ≤ regScoreError u prior pp n nDim Y := by
  have hu := hL.pos.le
  have hn : 0 < n := lt_of_lt_of_le (List.length_pos_of_ne_nil hy) hlen
  obtain ⟨e1, e2⟩ := sums_near hL h.size hlen hY (hL.sum ys hy) (hL.sum _ (by simpa [squaresR] using hy))
  obtain ⟨z1, z2⟩ := sizes hlen hY
  have hp := pow_u_mono hu (show n ≤ n + 1 by omega)
  have hY0 := h.size
  have hg : 0 ≤ (1 + u) ^ n - 1 := by linarith [one_le_pow_u hu n]
  have hw1 : 0 ≤ (n : ℝ) * Y := by positivity
  have hw2 : 0 ≤ (n : ℝ) * Y ^ 2 := by positivity
  obtain ⟨v, hv, ha⟩ := marginal_near hL h hy hlen z1 z2
    (two_le_mul hg (by linarith) hw1 (by linarith) e1) (two_le_mul hg (by linarith) hw2 (by linarith) e2)
  obtain ⟨p1, p2⟩ := stay_prior_near hL h lv
  have := (p2.add hu ha).round hL.round hu
  refine ⟨L.r (L.log (L.r (1 - L.r (pp ^ (1 + lv)))) + v), ?_, ?_⟩
  rotate_left
  · refine (this.le hu (by norm_num; linarith [h.tiny])).trans ?_
    obtain ⟨q1, q2⟩ := prior_parts_nonneg h hn hd
    have q3 := ha.nonneg
    unfold regScoreError
    rw [show (22 : ℝ) * u = 2 * (11 * u) by ring]
    refine mul_le_mul (by norm_num; linarith) (by linarith) (by linarith) (by positivity)
  · unfold regLogNoSplitR
    simp only
    rw [hv, logX_pos p1]
    rfl

/-- C115: so are the likelihoods of all its splits. -/
theorem C115_split (hL : AccurateReg u n L) (h : Fine u prior pp n Y) (hd : 0 < nDim) (lv : Nat) (hlv : lv < n)
    (hlen : ys.length ≤ n) (hY : ∀ v ∈ ys, |v| ≤ Y) (si : List Nat) (hsi : ∀ k ∈ si, 1 ≤ k ∧ k < ys.length)
    (hso : si.Pairwise (· < ·)) :
    (regLogSplitR L pp lv ys prior nDim si).length = si.length ∧
    ∀ (i k : Nat) (s : XF ℝ), si[i]? = some k → (regLogSplitR L pp lv ys prior nDim si)[i]? = some s →
      ∃ v, s = .fin v ∧ |v - (Real.log (pp ^ (lv + 1) / ((si.length : ℝ) * (nDim : ℝ)))
        + ngMarginal realFns prior (ys.take k) + ngMarginal realFns prior (ys.drop k))| ≤
          regScoreError u prior pp n nDim Y := by
  have hu := hL.pos.le
  refine ⟨by simp [regLogSplitR], fun j k s hj hs => ?_⟩
  obtain ⟨hj', rfl⟩ := List.getElem?_eq_some_iff.1 hj
  have hk := hsi si[j] (List.getElem_mem hj')
  unfold regLogSplitR at hs
  simp only at hs
  rw [List.getElem?_map, List.getElem?_range hj', Option.map_some] at hs
  cases hs
  simp only [gather_shortcut _ _ _ si hsi hso j hj']
  set k := si[j] with hkdef
  have n1 : (List.map (1 + ·) (List.range (ys.length - 1))).getD (k - 1) 0 = (ys.take k).length := by
    rw [List.getD_eq_getElem?_getD, List.getElem?_map, List.getElem?_range (by omega)]
    simp; omega
  have n2 : (List.map (ys.length - ·) (List.map (1 + ·) (List.range (ys.length - 1)))).getD (k - 1) 0 =
      (ys.drop k).length := by
    rw [List.getD_eq_getElem?_getD, List.getElem?_map, List.getElem?_map,
      List.getElem?_range (by omega)]
    simp; omega
  obtain ⟨s1, hs1, hs1'⟩ := cumsumR_get L.r ys (k - 1) (by omega)
  obtain ⟨q1, hq1, hq1'⟩ := cumsumR_get L.r (squaresR L.r ys.dropLast) (k - 1) (by simp [squaresR]; omega)
  rw [Nat.sub_add_cancel hk.1] at hs1' hq1'
  have hs1 : (cumsumR L.r ys).dropLast[k - 1]? = some s1 := by
    rw [List.getElem?_dropLast, if_pos (by rw [cumsumR_length]; omega), hs1]
  have hq1' : FloatSum L.r (squaresR L.r (ys.take k)) q1 := by
    unfold squaresR at hq1' ⊢
    rwa [← List.map_take, List.dropLast_eq_take, List.take_take, min_eq_left (by omega)] at hq1'
  have ne1 : ys.take k ≠ [] := by
    intro h; have := congrArg List.length h; rw [List.length_take, List.length_nil] at this; omega
  have ne2 : ys.drop k ≠ [] := by
    intro h; have := congrArg List.length h; rw [List.length_drop, List.length_nil] at this; omega
  have hy : ys ≠ [] := by rintro rfl; simp at hk
  have hn : 0 < n := lt_of_lt_of_le (List.length_pos_of_ne_nil hy) hlen
  have hY1 : ∀ v ∈ ys.take k, |v| ≤ Y := fun v hv => hY v (List.mem_of_mem_take hv)
  have hY2 : ∀ v ∈ ys.drop k, |v| ≤ Y := fun v hv => hY v (List.mem_of_mem_drop hv)
  have len1 : (ys.take k).length ≤ n := by rw [List.length_take]; omega
  have len2 : (ys.drop k).length ≤ n := by rw [List.length_drop]; omega
  have hY0 := h.size
  have hg : 0 ≤ (1 + u) ^ n - 1 := by linarith [one_le_pow_u hu n]
  have hp := pow_u_mono hu (show n ≤ n + 1 by omega)
  have hw1 : 0 ≤ (n : ℝ) * Y := by positivity
  have hw2 : 0 ≤ (n : ℝ) * Y ^ 2 := by positivity
  obtain ⟨a1, a2⟩ := sums_near hL h.size len1 hY1 hs1' hq1'
  obtain ⟨b1, b2⟩ := sums_near hL h.size hlen hY (hL.sum ys hy) (hL.sum _ (by simpa [squaresR] using hy))
  obtain ⟨y1, y2⟩ := sizes len1 hY1
  obtain ⟨w1, w2⟩ := sizes len2 hY2
  obtain ⟨v1, hv1, m1⟩ := marginal_near hL h ne1 len1 y1 y2
    (two_le_mul hg (by linarith) hw1 (by linarith) a1) (two_le_mul hg (by linarith) hw2 (by linarith) a2)
  -- the right side, by subtraction
  have hc1 : ((ys.take k).length : ℝ) ≤ n := by exact_mod_cast len1
  have hc : (ys.length : ℝ) ≤ n := by exact_mod_cast hlen
  have t1 : Ap u n (n * Y) (ys.take k).sum s1 := ⟨y1.trans (mul_le_mul_of_nonneg_right hc1 hY0), a1⟩
  have t2 : Ap u n (n * Y) ys.sum (L.sum ys) :=
    ⟨(sizes hlen hY).1.trans (mul_le_mul_of_nonneg_right hc hY0), b1⟩
  have t3 := (t2.sub hu t1).round hL.round hu
  have q1a : Ap u n (n * Y ^ 2) (sumSqL (ys.take k)) q1 := by
    refine ⟨?_, a2⟩
    rw [abs_of_nonneg (sumSqL_nonneg _)]
    exact (sumSq_bound hY1).trans (mul_le_mul_of_nonneg_right hc1 (sq_nonneg Y))
  have q2a : Ap u n (n * Y ^ 2) (sumSqL ys) (L.sum (squaresR L.r ys)) := by
    refine ⟨?_, b2⟩
    rw [abs_of_nonneg (sumSqL_nonneg _)]
    exact (sumSq_bound hY).trans (mul_le_mul_of_nonneg_right hc (sq_nonneg Y))
  have q3 := (q2a.sub hu q1a).round hL.round hu
  have es : ys.sum - (ys.take k).sum = (ys.drop k).sum := by
    have : (ys.take k).sum + (ys.drop k).sum = ys.sum := List.sum_take_add_sum_drop ys k
    linarith
  have eq : sumSqL ys - sumSqL (ys.take k) = sumSqL (ys.drop k) := by
    have := sumSqL_append (ys.take k) (ys.drop k)
    rw [List.take_append_drop] at this
    linarith
  rw [es, max_self] at t3
  rw [eq, max_self] at q3
  obtain ⟨v2, hv2, m2⟩ := marginal_near hL h ne2 len2 w1 w2 (t3.2.trans (le_of_eq (by ring))) (q3.2.trans (le_of_eq (by ring)))
  have hpos : 0 < si.length := by omega
  have hlen' : si.length ≤ n := by
    have h1 : si.Nodup := hso.imp fun h => ne_of_lt h
    have h2 : si ⊆ List.range ys.length := fun k hk => List.mem_range.2 (hsi k hk).2
    have := (h1.subperm h2).length_le
    simp at this
    omega
  obtain ⟨p1, p2⟩ := split_prior_near hL h lv si.length hlv hpos hlen' hd
  have := (((p2.add hu m1).round hL.round hu).add hu m2).round hL.round hu
  refine ⟨L.r (L.r (L.log (L.r (L.r (pp ^ (1 + lv)) / ((si.length : ℝ) * (nDim : ℝ)))) + v1) + v2), ?_, ?_⟩
  rotate_left
  · refine (this.le hu (by norm_num; linarith [h.tiny])).trans ?_
    obtain ⟨q1, q2⟩ := prior_parts_nonneg h hn hd
    have q3 := m1.nonneg
    unfold regScoreError
    rw [show (22 : ℝ) * u = 2 * (11 * u) by ring]
    refine mul_le_mul (by norm_num) (by linarith) (by linarith) (by positivity)
  · rw [n1, n2]
    simp only [List.getD_eq_getElem?_getD, List.getElem?_map, hs1, hq1, Option.map_some, Option.getD_some]
    rw [hv1, hv2, logX_pos p1]
    rfl

/-- C115: the computed posterior mean. -/
theorem C115_mean (hL : AccurateReg u n L) (h : Fine u prior pp n Y) (hy : ys ≠ []) (hlen : ys.length ≤ n)
    (hY : ∀ v ∈ ys, |v| ≤ Y) :
    |(regPosteriorR L ys prior 1).mu - (Spec.ngPosterior prior ys).mu| ≤ meanError u prior n Y := by
  have hu := hL.pos
  have hn : 1 ≤ ys.length := List.length_pos_of_ne_nil hy
  have hl1 : (1 : ℝ) ≤ ys.length := by exact_mod_cast hn
  have hln : (ys.length : ℝ) ≤ n := by exact_mod_cast hlen
  have hw : ((ys.length : ℝ) + 6) * u ≤ 1 / 3 := by
    have h1 := h.rows
    have h2 : ((ys.length : ℝ) + 6) * u ≤ ((n : ℝ) + 12) * n * u := by
      refine mul_le_mul_of_nonneg_right ?_ hu.le
      nlinarith
    linarith
  have hgood : GoodLib u L := ⟨hu.le, hL.round, hL.sum, by
    have := (_root_.abs_le.1 hL.pi).1
    have h100 := h.tiny
    nlinarith [Real.pi_pos]⟩
  refine (C113_mean hgood hy h.kappa (by linarith)).trans ?_
  have hk := h.kappa
  unfold meanError
  have hw0 : 0 ≤ ((ys.length : ℝ) + 6) * u := by positivity
  refine mul_le_mul ?_ ?_ ?_ (by positivity)
  · rw [div_le_iff₀ (by linarith)]
    have h3 : ((ys.length : ℝ) + 6) * u ≤ ((n : ℝ) + 6) * u := mul_le_mul_of_nonneg_right (by linarith) hu.le
    nlinarith
  · rw [div_le_iff₀ (by positivity)]
    have h3 := abs_sum_bound hY
    have h4 := abs_nonneg prior.mu
    have h5 := h.size
    have h6 : 0 ≤ prior.kappa * Y := by positivity
    have h7 : 0 ≤ (ys.length : ℝ) * |prior.mu| := by positivity
    have h8 : (ys.map fun v => |v|).sum = (ys.map abs).sum := rfl
    rw [h8]
    nlinarith
  · have h3 : 0 ≤ (ys.map fun v => |v|).sum := abs_sum_nonneg ys
    positivity

end

/-! ## Trees -/

section
variable {u Y : ℝ} {n nDim : Nat} {L : FloatLib ℝ} {prior : NG ℝ} {hp : Hyper ℝ} {argsort : List ℝ → List Nat}
  {X : Nat → Nat → ℝ} {y : Nat → ℝ} {names : List String} {t : PNode ℝ ℝ ℝ (NG ℝ)} {t' : PNode ℝ (XF ℝ) ℝ (NG ℝ)}

theorem targets_bound (hY : ∀ i < n, |y i| ≤ Y) {R : List Nat} (hR : RowList n R) : ∀ v ∈ R.map y, |v| ≤ Y := by
  intro v hv
  obtain ⟨i, hi, rfl⟩ := List.mem_map.1 hv
  exact hY i (hR.2.2 i hi)

theorem reg_finite (hL : AccurateReg u n L) (h : Fine u prior hp.partitionPrior n Y) (hd : 0 < nDim)
    (hY : ∀ i < n, |y i| ≤ Y) : Finite (regTargetR L) hp y n nDim prior where
  given := fun _ => rfl
  stay := by
    intro lv R _ hR
    obtain ⟨v, hv, -⟩ := C115_stay hL h hd lv (ys := R.map y) (by simpa using hR.1) (by simpa using rowList_length hR)
      (targets_bound hY hR)
    exact ⟨v, hv⟩
  split := by
    intro lv R si hlv hR h1 h2 s hs
    obtain ⟨e1, e2⟩ := C115_split hL h hd lv hlv (ys := R.map y) (by simpa using rowList_length hR) (targets_bound hY hR) si
      (by simpa using h1) h2
    obtain ⟨i, hi, rfl⟩ := List.mem_iff_getElem.1 hs
    have hi' : i < (regLogSplitR L hp.partitionPrior lv (R.map y) prior nDim si).length := hi
    rw [e1] at hi'
    obtain ⟨v, hv, -⟩ := e2 i si[i] _ (List.getElem?_eq_getElem hi') (List.getElem?_eq_getElem hi)
    exact ⟨v, hv⟩

theorem reg_computed (hL : AccurateReg u n L) (h : Fine u prior hp.partitionPrior n Y) (hd : 0 < nDim)
    (hY : ∀ i < n, |y i| ≤ Y) :
    Computed realFns (ngMarginal realFns) hp y n nDim prior (regScoreError u prior hp.partitionPrior n nDim Y)
      (regTargetR L).num where
  given := fun _ => rfl
  stay := by
    intro lv R _ hR
    obtain ⟨v, hv, he⟩ := C115_stay hL h hd lv (ys := R.map y) (by simpa using hR.1) (by simpa using rowList_length hR)
      (targets_bound hY hR)
    show |(regLogNoSplitR L hp.partitionPrior lv (R.map y) prior).num - _| ≤ _
    rw [hv]
    exact he
  len := by
    intro lv R si hR h1 h2
    show (List.map XF.num (regLogSplitR L hp.partitionPrior lv (R.map y) prior nDim si)).length = _
    simp [regLogSplitR]
  split := by
    intro lv R si hlv hR h1 h2 i k s hi hs
    obtain ⟨e1, e2⟩ := C115_split hL h hd lv hlv (ys := R.map y) (by simpa using rowList_length hR) (targets_bound hY hR) si
      (by simpa using h1) h2
    have hs' : (List.map XF.num (regLogSplitR L hp.partitionPrior lv (R.map y) prior nDim si))[i]? = some s := hs
    rw [List.getElem?_map, Option.map_eq_some_iff] at hs'
    obtain ⟨s0, hs0, rfl⟩ := hs'
    obtain ⟨v, rfl, he⟩ := e2 i k s0 hi hs0
    rw [List.map_take, List.map_drop]
    exact he

theorem reg_fit_fin (hL : AccurateReg u n L) (h : Fine u prior hp.partitionPrior n Y) (hr : Training hp argsort n nDim)
    (hδ : hp.delta = 0) (hY : ∀ i < n, |y i| ≤ Y) :
    perpFitRoot (exactOps ℝ) (regTargetR L) argsort hp (some prior) X y n nDim names =
      (perpFitRoot (exactOps ℝ) (regTargetR L).num argsort hp (some prior) X y n nDim names).map finTree := by
  have hv := hr.valid (T := regTarget realFns) (.regression (F := realFns)) (X := X) (y := y) (names := names)
  exact perpFitRoot_fin (reg_finite hL h hr.dims hY) hδ names hr.dims hr.someRow
    (sortMatrix_good hv.sort X n nDim hv.vals hv.rows)

theorem reg_fit_num (hL : AccurateReg u n L) (h : Fine u prior hp.partitionPrior n Y) (hr : Training hp argsort n nDim)
    (hδ : hp.delta = 0) (hY : ∀ i < n, |y i| ≤ Y)
    (hf : perpFitRoot (exactOps ℝ) (regTargetR L) argsort hp (some prior) X y n nDim names = .ok t') :
    ∃ t0, perpFitRoot (exactOps ℝ) (regTargetR L).num argsort hp (some prior) X y n nDim names = .ok t0 ∧
      t' = finTree t0 := by
  rw [reg_fit_fin hL h hr hδ hY] at hf
  cases e : perpFitRoot (exactOps ℝ) (regTargetR L).num argsort hp (some prior) X y n nDim names with
  | error _ => rw [e] at hf; cases hf
  | ok t0 => rw [e] at hf; cases hf; exact ⟨t0, rfl, rfl⟩

/-- C115: `fit` in floating-point arithmetic returns a tree, all of whose scores are numbers. -/
theorem C115_terminates (hL : AccurateReg u n L) (h : Fine u prior hp.partitionPrior n Y)
    (hr : Training hp argsort n nDim) (hδ : hp.delta = 0) (hY : ∀ i < n, |y i| ≤ Y) (hnames : nDim ≤ names.length) :
    ∃ t0, perpFitRoot (exactOps ℝ) (regTargetR L) argsort hp (some prior) X y n nDim names = .ok (finTree t0) := by
  obtain ⟨t0, h0⟩ := C101_terminates (X := X) (names := names) .regression hr hδ (reg_computed hL h hr.dims hY) hnames
  refine ⟨t0, ?_⟩
  rw [reg_fit_fin hL h hr hδ hY, h0]
  rfl

/-- C115: every split of the tree computed in floating-point arithmetic is, by its exact score, within
`2 * regScoreError` of all alternatives; the stored scores are within `regScoreError` of the exact ones. -/
theorem C115_best (hL : AccurateReg u n L) (h : Fine u prior hp.partitionPrior n Y)
    (hr : Training hp argsort n nDim) (hδ : hp.delta = 0) (hY : ∀ i < n, |y i| ≤ Y)
    (hf : perpFitRoot (exactOps ℝ) (regTargetR L) argsort hp (some prior) X y n nDim names = .ok t')
    (addr : List Bool) (i : Info ℝ (NG ℝ)) (sp : PSplit ℝ) (l b : XF ℝ) (c1 c2 : PNode ℝ (XF ℝ) ℝ (NG ℝ))
    (hu : nodeAt t' addr = some (.split i sp l b c1 c2)) :
    let R := rowsAt X t' n addr
    let ε := regScoreError u prior hp.partitionPrior n nDim Y
    let stay := stayScore realFns (ngMarginal realFns) hp y prior addr.length R
    let cut := perpCutScore realFns (ngMarginal realFns) hp X y nDim prior addr.length R
    i.nData = R.length ∧ sp.dim < nDim ∧
    ∃ a c l0 b0, IsCut hp.splitPrecision X R sp.dim a c ∧ sp.value = (a + c) / 2 ∧ l = .fin l0 ∧ b = .fin b0 ∧
      |l0 - stay| ≤ ε ∧ |b0 - cut sp.dim a| ≤ ε ∧ stay < cut sp.dim a + 2 * ε ∧
      ∀ d < nDim, ∀ a' c', IsCut hp.splitPrecision X R d a' c' → cut d a' ≤ cut sp.dim a + 2 * ε := by
  obtain ⟨t0, h0, rfl⟩ := reg_fit_num hL h hr hδ hY hf
  rw [nodeAt_fin, Option.map_eq_some_iff] at hu
  obtain ⟨u0, hu0, hu1⟩ := hu
  rw [rowsAt_fin]
  cases u0 with
  | leaf j => cases hu1
  | split j sp' l0 b0 d1 d2 =>
    cases hu1
    obtain ⟨g1, g2, a, c, g3, g4, g5, g6, g7, g8⟩ :=
      C101_split .regression hr hδ (reg_computed hL h hr.dims hY) h0 addr i sp l0 b0 d1 d2 hu0
    exact ⟨g1, g2, a, c, l0, b0, g3, g4, rfl, rfl, g5, g6, g7, g8⟩

/-- C115: a leaf of the unpruned tree computed in floating-point arithmetic has one row, or one target value, or no cut
of its rows has an exact score that exceeds that of not cutting by more than `2 * regScoreError`. -/
theorem C115_leaf (hL : AccurateReg u n L) (h : Fine u prior hp.partitionPrior n Y)
    (hr : Training hp argsort n nDim) (hδ : hp.delta = 0) (hpr : hp.prune = false) (hY : ∀ i < n, |y i| ≤ Y)
    (hf : perpFitRoot (exactOps ℝ) (regTargetR L) argsort hp (some prior) X y n nDim names = .ok t')
    (addr : List Bool) (i : Info ℝ (NG ℝ)) (hu : nodeAt t' addr = some (.leaf i)) :
    let R := rowsAt X t' n addr
    let ε := regScoreError u prior hp.partitionPrior n nDim Y
    i.nData = R.length ∧
    (R.length ≤ 1 ∨ (∀ j ∈ R, ∀ k ∈ R, y j = y k) ∨
      ∀ d < nDim, ∀ a c, IsCut hp.splitPrecision X R d a c →
        perpCutScore realFns (ngMarginal realFns) hp X y nDim prior addr.length R d a
          ≤ stayScore realFns (ngMarginal realFns) hp y prior addr.length R + 2 * ε) := by
  obtain ⟨t0, h0, rfl⟩ := reg_fit_num hL h hr hδ hY hf
  rw [nodeAt_fin, Option.map_eq_some_iff] at hu
  obtain ⟨u0, hu0, hu1⟩ := hu
  rw [rowsAt_fin]
  cases u0 with
  | split j sp' l0 b0 d1 d2 => cases hu1
  | leaf j =>
    cases hu1
    exact C101_leaf .regression hr hδ hpr (reg_computed hL h hr.dims hY) h0 addr i hu0

/-- C115: if all decisions of the exact tree are clear by more than `2 * regScoreError`, then the unpruned tree computed in
floating-point arithmetic has the same splits, and its scores and means are close to the exact ones. -/
theorem C115_same (hL : AccurateReg u n L) (h : Fine u prior hp.partitionPrior n Y)
    (hr : Training hp argsort n nDim) (hδ : hp.delta = 0) (hpr : hp.prune = false) (hY : ∀ i < n, |y i| ≤ Y)
    (hx : perpFitRoot (exactOps ℝ) (regTarget realFns) argsort hp (some prior) X y n nDim names = .ok t)
    (hf : perpFitRoot (exactOps ℝ) (regTargetR L) argsort hp (some prior) X y n nDim names = .ok t')
    (hclear : Clear realFns (ngMarginal realFns) hp X y n nDim prior
      (regScoreError u prior hp.partitionPrior n nDim Y) t) :
    ∃ t0, t' = finTree t0 ∧ Alike (regScoreError u prior hp.partitionPrior n nDim Y)
      (fun p p' => |p'.mu - p.mu| ≤ meanError u prior n Y) t t0 := by
  obtain ⟨t0, h0, rfl⟩ := reg_fit_num hL h hr hδ hY hf
  refine ⟨t0, rfl, C101_same .regression hr hδ hpr (reg_computed hL h hr.dims hY) ?_ hx h0 hclear⟩
  intro R hR
  exact C115_mean hL h (by simpa using hR.1) (by simpa using rowList_length hR) (targets_bound hY hR)

/-- C115: and then its predictions are close to the exact ones. -/
theorem C115_predict (hL : AccurateReg u n L) (h : Fine u prior hp.partitionPrior n Y)
    (hr : Training hp argsort n nDim) (hδ : hp.delta = 0) (hpr : hp.prune = false) (hY : ∀ i < n, |y i| ≤ Y)
    (hx : perpFitRoot (exactOps ℝ) (regTarget realFns) argsort hp (some prior) X y n nDim names = .ok t)
    (hf : perpFitRoot (exactOps ℝ) (regTargetR L) argsort hp (some prior) X y n nDim names = .ok t')
    (hclear : Clear realFns (ngMarginal realFns) hp X y n nDim prior
      (regScoreError u prior hp.partitionPrior n nDim Y) t) (Z : Nat → Nat → ℝ) (m : Nat) :
    List.Forall₂ (fun p p' => |p' - p| ≤ meanError u prior n Y)
      (predict (perpRouter (exactOps ℝ)) (regTarget realFns) t Z m)
      (predict (perpRouter (exactOps ℝ)) (regTargetR L) t' Z m) := by
  obtain ⟨t0, rfl, hA⟩ := C115_same hL h hr hδ hpr hY hx hf hclear
  obtain ⟨l1, g1⟩ := C01_predict_is_walk (perpRouter (exactOps ℝ)) exact_exclusive (regTarget realFns) t Z m
  obtain ⟨l2, g2⟩ := C01_predict_is_walk (perpRouter (exactOps ℝ)) exact_exclusive (regTargetR L) (finTree t0) Z m
  rw [List.forall₂_iff_get]
  refine ⟨by rw [l1, l2], fun i h1 h2 => ?_⟩
  have hi : i < m := l1 ▸ h1
  have e1 := g1 i hi
  have e2 := g2 i hi
  rw [List.getElem?_eq_getElem h1, Option.some.injEq] at e1
  rw [List.getElem?_eq_getElem h2, Option.some.injEq, walk_fin] at e2
  rw [List.get_eq_getElem, List.get_eq_getElem, e1, e2]
  rcases hA.walk (perpRouter (exactOps ℝ)) (Z i) with ⟨w1, w2⟩ | ⟨j, j', w1, w2, hq⟩
  · rw [w1, w2]
    have hu := hL.pos
    have := h.size
    show |(0 : ℝ) - 0| ≤ _
    rw [sub_self, abs_zero]
    unfold meanError
    positivity
  · rw [w1, w2]
    exact hq

end
/-! ## A thousand rows -/

theorem lgam_quarter : |lgam (1 / 4)| ≤ 2 := by
  have hc := Real.convexOn_Gamma
  have h1 := hc.2 (show (1 / 4 : ℝ) ∈ Set.Ioi 0 by norm_num) (show (2 : ℝ) ∈ Set.Ioi 0 by norm_num)
    (show (0 : ℝ) ≤ 4 / 7 by norm_num) (show (0 : ℝ) ≤ 3 / 7 by norm_num) (by norm_num)
  have h2 := hc.2 (show (1 : ℝ) ∈ Set.Ioi 0 by norm_num) (show (2 : ℝ) ∈ Set.Ioi 0 by norm_num)
    (show (0 : ℝ) ≤ 3 / 4 by norm_num) (show (0 : ℝ) ≤ 1 / 4 by norm_num) (by norm_num)
  simp only [smul_eq_mul] at h1 h2
  rw [show (4 / 7 : ℝ) * (1 / 4) + 3 / 7 * 2 = 1 by norm_num, Real.Gamma_one, Real.Gamma_two] at h1
  rw [show (3 / 4 : ℝ) * 1 + 1 / 4 * 2 = 1 / 4 + 1 by norm_num, Real.Gamma_one, Real.Gamma_two,
    Real.Gamma_add_one (by norm_num)] at h2
  unfold lgam
  rw [abs_of_nonneg (Real.log_nonneg (by linarith))]
  exact_mod_cast log_le_of_pow 2 (by linarith : 0 < Real.Gamma (1 / 4)) (by norm_num; linarith)

/-- C115: the prior used by default for fewer than 200 rows. -/
theorem C115_default (L : FloatLib ℝ) {m nd : Nat} (hm : m < 200) : (regTargetR L).getPrior none m nd = unitPrior := by
  show regGetPriorR none m nd = unitPrior
  have : max 1 (m / 100) = 1 := by omega
  unfold regGetPriorR unitPrior
  simp only [this]
  norm_num

theorem marginalSize_thousand {n : Nat} (hn : n ≤ 1000) (hn0 : 0 < n) : marginalSize unitPrior n 1 ≤ 36600000000 := by
  have hnr : (n : ℝ) ≤ 1000 := by exact_mod_cast hn
  have hn1 : (1 : ℝ) ≤ n := by exact_mod_cast hn0
  have g1 : gammaSize (1 / 2) (1 / 2 + (n : ℝ) / 2) ≤ 7003 := by
    unfold gammaSize
    have a1 := lgam_quarter
    have a2 : |lgam (2 * (1 / 2 + (n : ℝ) / 2))| ≤ 1000 * 7 := by
      rw [show 2 * (1 / 2 + (n : ℝ) / 2) = (n : ℝ) + 1 by ring]
      refine (lgam_succ_le n).trans (mul_le_mul hnr ?_ (Real.log_nonneg hn1) (by norm_num))
      exact_mod_cast log_le_of_pow 7 (by linarith) (by norm_num; linarith)
    have a3 := Real.log_two_lt_d9
    rw [show (1 / 2 / 2 : ℝ) = 1 / 4 by norm_num]
    linarith
  have eb : betaSize unitPrior n 1 = 1 / 2 + 9 * n := by
    unfold betaSize unitPrior
    simp
  have l1 : |Real.log (1 / 2)| ≤ 1 := by
    rw [one_div, Real.log_inv, abs_neg, abs_of_nonneg (Real.log_nonneg (by norm_num))]
    linarith [Real.log_two_lt_d9]
  have l2 : |Real.log (betaSize unitPrior n 1)| ≤ 10 := by
    rw [eb, abs_of_nonneg (Real.log_nonneg (by linarith))]
    exact_mod_cast log_le_of_pow 10 (by linarith) (by norm_num; linarith)
  have l3 : Real.log ((1 + (n : ℝ)) / 1) ≤ 7 := by
    rw [div_one]
    have := log_le_of_pow 7 (show (0 : ℝ) < 1 + n by linarith) (by norm_num; linarith)
    simpa using this
  have l4 : Real.log (2 * Real.pi) ≤ 3 := by
    have := Real.pi_pos
    exact_mod_cast log_le_of_pow 3 (by linarith) (by norm_num; linarith [Real.pi_le_four])
  have l4' : 0 ≤ Real.log (2 * Real.pi) := Real.log_nonneg (by linarith [Real.pi_gt_three])
  have g2 : betaGain unitPrior n 1 ≤ 36434024 := by
    unfold betaGain
    rw [eb]
    show 2 * ((n : ℝ) + 12) * ((1 / 2 + 9 * n) / (1 / 2)) ≤ _
    rw [div_div_eq_mul_div, div_one]
    nlinarith
  have g2' : 0 ≤ betaGain unitPrior n 1 := by
    unfold betaGain
    rw [eb]
    show 0 ≤ 2 * ((n : ℝ) + 12) * ((1 / 2 + 9 * n) / (1 / 2))
    positivity
  have p1 : (1 / 2 + (n : ℝ) / 2) * (|Real.log (1 / 2)| + |Real.log (betaSize unitPrior n 1)| + 2 * betaGain unitPrior n 1)
      ≤ (1 / 2 + 1000 / 2) * (1 + 10 + 2 * 36434024) :=
    mul_le_mul (by linarith) (by linarith) (by positivity) (by norm_num)
  have p2 : (n : ℝ) / 2 * (Real.log (2 * Real.pi) + 12) ≤ 1000 / 2 * (3 + 12) :=
    mul_le_mul (by linarith) (by linarith) (by linarith) (by norm_num)
  unfold marginalSize
  show 48 * gammaSize (1 / 2) (1 / 2 + (n : ℝ) / 2) + 2 + 1 / 2 * |Real.log (1 / 2)|
    + (1 / 2 + (n : ℝ) / 2) * (|Real.log (1 / 2)| + |Real.log (betaSize unitPrior n 1)| + 2 * betaGain unitPrior n 1)
    + 1 / 2 * (Real.log ((1 + (n : ℝ)) / 1) + 12) + (n : ℝ) / 2 * (Real.log (2 * Real.pi) + 12) ≤ _
  norm_num at p1 p2 ⊢
  norm_num at g1 l1 l3
  linarith

/-- C115: with float64 library functions accurate to `2^-50`, targets between -1 and 1, the prior `(0, 1, 1/2, 1/2)`, up to
1000 rows, up to 1000 features and a partition prior between 0.01 and 0.99 every score is right up to 0.002. -/
theorem C115_thousand {n nDim : Nat} (hn : n ≤ 1000) (hn0 : 0 < n) (hd : nDim ≤ 1000) (hd0 : 0 < nDim) {pp : ℝ}
    (h1 : 1 / 100 ≤ pp) (h2 : pp ≤ 99 / 100) :
    Fine (1 / 2 ^ 50) unitPrior pp n 1 ∧ regScoreError (1 / 2 ^ 50) unitPrior pp n nDim 1 ≤ 1 / 500 := by
  have hnr : (n : ℝ) ≤ 1000 := by exact_mod_cast hn
  have hdr : (nDim : ℝ) ≤ 1000 := by exact_mod_cast hd
  have hn1 : (1 : ℝ) ≤ n := by exact_mod_cast hn0
  have hd1 : (1 : ℝ) ≤ nDim := by exact_mod_cast hd0
  have hgain : betaGain unitPrior n 1 ≤ 40000000 := by
    unfold betaGain betaSize unitPrior
    simp only [abs_zero, add_zero, one_pow, mul_one]
    rw [div_div_eq_mul_div, div_one]
    nlinarith
  refine ⟨⟨by simp [unitPrior], by simp [unitPrior], by simp [unitPrior], zero_le_one, ?_, by norm_num, ?_, by linarith,
    by linarith, by norm_num; linarith⟩, ?_⟩
  · have : ((n : ℝ) + 12) * n ≤ 1012 * 1000 := mul_le_mul (by linarith) hnr (by linarith) (by norm_num)
    norm_num at this ⊢
    linarith
  · norm_num
    linarith
  have g1 : 8 / (1 - pp) ≤ 800 := by
    rw [div_le_iff₀ (by linarith)]
    linarith
  have g2 : |Real.log pp| ≤ 5 := by
    rw [abs_of_nonpos (Real.log_nonpos (by linarith) (by linarith)), ← Real.log_inv]
    refine (Real.log_le_log (inv_pos.2 (by linarith)) (?_ : pp⁻¹ ≤ 100)).trans ?_
    · rw [inv_le_comm₀ (by linarith) (by norm_num)]
      linarith
    · exact_mod_cast log_le_of_pow 5 (show (0 : ℝ) < 100 by norm_num) (by norm_num)
  have g3 : Real.log ((n : ℝ) * nDim) ≤ 14 := by
    refine (Real.log_le_log (by positivity) (?_ : (n : ℝ) * nDim ≤ 1000000)).trans ?_
    · nlinarith
    · exact_mod_cast log_le_of_pow 14 (show (0 : ℝ) < 1000000 by norm_num) (by norm_num)
  have g4 : (n : ℝ) * |Real.log pp| ≤ 5000 := by
    have := mul_le_mul hnr g2 (abs_nonneg _) (by norm_num)
    linarith
  have g5 := marginalSize_thousand hn hn0
  unfold regScoreError
  rw [mul_one_div, div_mul_eq_mul_div, div_le_iff₀ (by norm_num)]
  norm_num at g1 ⊢
  linarith

/-- C115: so on any such data `fit` returns a tree that splits every node in a way whose exact score is within 0.004 of
the best. -/
theorem C115_float64 {n nDim : Nat} {L : FloatLib ℝ} {hp : Hyper ℝ} {argsort : List ℝ → List Nat} {X : Nat → Nat → ℝ}
    {y : Nat → ℝ} {names : List String} (hL : AccurateReg (1 / 2 ^ 50) n L) (hr : Training hp argsort n nDim)
    (hδ : hp.delta = 0) (hn : n ≤ 1000) (hd : nDim ≤ 1000) (h1 : 1 / 100 ≤ hp.partitionPrior)
    (h2 : hp.partitionPrior ≤ 99 / 100) (hY : ∀ i < n, |y i| ≤ 1) (hnames : nDim ≤ names.length) :
    ∃ t, perpFitRoot (exactOps ℝ) (regTargetR L) argsort hp (some unitPrior) X y n nDim names = .ok t ∧
      ∀ addr i sp l b c1 c2, nodeAt t addr = some (.split i sp l b c1 c2) →
        let R := rowsAt X t n addr
        let stay := stayScore realFns (ngMarginal realFns) hp y unitPrior addr.length R
        let cut := perpCutScore realFns (ngMarginal realFns) hp X y nDim unitPrior addr.length R
        ∃ a c, IsCut hp.splitPrecision X R sp.dim a c ∧ sp.value = (a + c) / 2 ∧
          stay < cut sp.dim a + 1 / 250 ∧
          ∀ d < nDim, ∀ a' c', IsCut hp.splitPrecision X R d a' c' → cut d a' ≤ cut sp.dim a + 1 / 250 := by
  obtain ⟨hm, hε⟩ := C115_thousand hn hr.someRow hd hr.dims h1 h2
  obtain ⟨t, ht⟩ := C115_terminates (X := X) (y := y) hL hm hr hδ hY hnames
  refine ⟨_, ht, fun addr i sp l b c1 c2 hu => ?_⟩
  obtain ⟨-, -, a, c, l0, b0, k1, k2, -, -, -, -, k3, k4⟩ := C115_best hL hm hr hδ hY ht addr i sp l b c1 c2 hu
  refine ⟨a, c, k1, k2, ?_, fun d hd a' c' h => ?_⟩
  · refine k3.trans_le ?_
    linarith
  · refine (k4 d hd a' c' h).trans ?_
    linarith

/-! ## float64 -/

theorem lib64_accurate {n : Nat} (hn : n ≤ 2 ^ 53) : AccurateReg (1 / 2 ^ 53) n lib64 where
  pos := by positivity
  round := rndFloat_relRound 53
  counts := (clsLib64_accurate hn).counts
  sum := lib64_good.sum
  log x _ := rndFloat_relRound 53 _
  gammaln x _ := by
    refine (rndFloat_relRound 53 _).trans (mul_le_mul_of_nonneg_left ?_ (by positivity))
    show |lgam x| ≤ _
    linarith [abs_nonneg (lgam x)]
  pi := by
    have := rndFloat_relRound 53 Real.pi
    rwa [abs_of_pos Real.pi_pos] at this

theorem Spec.AccurateReg.mono {u v : ℝ} {n : Nat} {L : FloatLib ℝ} (h : AccurateReg u n L) (huv : u ≤ v) :
    AccurateReg v n L where
  pos := h.pos.trans_le huv
  round x := (h.round x).trans (mul_le_mul_of_nonneg_right huv (abs_nonneg _))
  counts := h.counts
  sum := h.sum
  log x hx := (h.log x hx).trans (mul_le_mul_of_nonneg_right huv (abs_nonneg _))
  gammaln x hx := (h.gammaln x hx).trans (mul_le_mul_of_nonneg_right huv (by positivity))
  pi := h.pi.trans (mul_le_mul_of_nonneg_right huv Real.pi_pos.le)

/-- Their targets -1 and 1. -/
noncomputable def twoT : Nat → ℝ := fun i => 2 * (i : ℝ) - 1

theorem twoT_marginal :
    ngMarginal realFns unitPrior [-1, 1] = Real.log (1 / 2) + 1 / 2 * Real.log (1 / 2) - 3 / 2 * Real.log (3 / 2)
      - 1 / 2 * Real.log 3 - Real.log (2 * Real.pi) ∧
    ∀ a : ℝ, a ^ 2 = 1 → ngMarginal realFns unitPrior [a] = - 1 / 2 * Real.log Real.pi + Real.log (1 / 2)
      - Real.log (3 / 4) - 1 / 2 * Real.log (2 * Real.pi) := by
  have hpi := Real.pi_pos
  have hs : 0 < Real.sqrt Real.pi := Real.sqrt_pos.2 hpi
  have g1 : Real.log |Real.Gamma (1 / 2)| = 1 / 2 * Real.log Real.pi := by
    rw [Real.Gamma_one_half_eq, abs_of_pos hs, Real.log_sqrt hpi.le]; ring
  have g2 : Real.log |Real.Gamma (3 / 2)| = Real.log (1 / 2) + 1 / 2 * Real.log Real.pi := by
    rw [show (3 / 2 : ℝ) = 1 / 2 + 1 by norm_num, Real.Gamma_add_one (by norm_num), Real.Gamma_one_half_eq,
      abs_of_pos (by positivity), Real.log_mul (by norm_num) hs.ne', Real.log_sqrt hpi.le]
    ring
  constructor
  · unfold ngMarginal Spec.ngPosterior unitPrior realFns
    simp only [List.length_cons, List.length_nil, mean, sqDev, List.map_cons, List.map_nil, List.sum_cons, List.sum_nil]
    norm_num
    norm_num at g1 g2
    rw [g1, g2, show Real.log (1 / 3) = - Real.log 3 by rw [one_div, Real.log_inv]]
    ring
  · intro a ha
    unfold ngMarginal Spec.ngPosterior unitPrior realFns
    simp only [List.length_cons, List.length_nil, mean, sqDev, List.map_cons, List.map_nil, List.sum_cons, List.sum_nil]
    norm_num [ha]
    norm_num at g1 g2
    rw [g1]
    ring

theorem twoT_gain (q : Bool) :
    perpCutScore realFns (ngMarginal realFns) (twoHp q) twoX twoT 1 unitPrior 0 [0, 1] 0 0 -
      stayScore realFns (ngMarginal realFns) (twoHp q) twoT unitPrior 0 [0, 1] = Real.log (36 / Real.pi) := by
  obtain ⟨h1, h2⟩ := twoT_marginal
  have hpi := Real.pi_pos
  have e : ∀ x, realFns.log x = Real.log x := fun _ => rfl
  have hc : cutCount (twoHp q).splitPrecision twoX [0, 1] 0 = 1 := by
    have hd : ([0, 1] : List ℝ).dedup = [0, 1] := by simp
    simp [cutCount, twoX, twoHp, hd]
  have f1 : ([0, 1].filter fun i => decide (twoX i 0 ≤ 0)) = [0] := by simp [twoX]
  have f2 : ([0, 1].filter fun i => decide (0 < twoX i 0)) = [1] := by simp [twoX]
  unfold perpCutScore stayScore
  rw [hc, f1, f2, show [0, 1].map twoT = [-1, 1] by norm_num [twoT], show [0].map twoT = [-1] by norm_num [twoT],
    show [1].map twoT = [1] by norm_num [twoT], h1, h2 _ (by norm_num), h2 _ (by norm_num), e, e]
  have l1 : Real.log (1 / 2) = - Real.log 2 := by rw [one_div, Real.log_inv]
  have l2 : Real.log (3 / 2) = Real.log 3 - Real.log 2 := Real.log_div (by norm_num) (by norm_num)
  have l3 : Real.log (3 / 4) = Real.log 3 - 2 * Real.log 2 := by
    rw [Real.log_div (by norm_num) (by norm_num), show (4 : ℝ) = 2 ^ 2 by norm_num, Real.log_pow]; norm_num
  have l4 : Real.log (36 / Real.pi) = 2 * Real.log 2 + 2 * Real.log 3 - Real.log Real.pi := by
    rw [Real.log_div (by norm_num) hpi.ne', show (36 : ℝ) = 2 ^ 2 * 3 ^ 2 by norm_num,
      Real.log_mul (by norm_num) (by norm_num), Real.log_pow, Real.log_pow]
    norm_num
  have l5 : Real.log ((twoHp q).partitionPrior ^ (0 + 1) / (((1 : Nat) : ℝ) * ((1 : Nat) : ℝ))) =
      2 * Real.log 3 - Real.log 10 := by
    rw [show (twoHp q).partitionPrior ^ (0 + 1) / (((1 : Nat) : ℝ) * ((1 : Nat) : ℝ)) = 3 ^ 2 / 10 by norm_num [twoHp],
      Real.log_div (by norm_num) (by norm_num), Real.log_pow]
    norm_num
  have l6 : Real.log (1 - (twoHp q).partitionPrior ^ (0 + 1)) = - Real.log 10 := by
    rw [show 1 - (twoHp q).partitionPrior ^ (0 + 1) = (10 : ℝ)⁻¹ by norm_num [twoHp], Real.log_inv]
  rw [l1, l2, l3, l4, l5, l6]
  ring

theorem twoT_gap : (1 : ℝ) < Real.log (36 / Real.pi) := by
  rw [Real.lt_log_iff_exp_lt (div_pos (by norm_num) Real.pi_pos), lt_div_iff₀ Real.pi_pos]
  have h1 := Real.exp_one_lt_d9
  have h2 := Real.pi_le_four
  have h3 := Real.pi_pos
  nlinarith [Real.exp_pos 1]

theorem twoT_rows {t : PNode ℝ ℝ ℝ (NG ℝ)} : rowsAt twoX t 2 [] = [0, 1] := by
  simp [rowsAt, follows, List.range_succ]

theorem twoT_both {t : PNode ℝ ℝ ℝ (NG ℝ)}
    (h : perpFitRoot (exactOps ℝ) (regTarget realFns) realSort (twoHp false) (some unitPrior) twoX twoT 2 1 ["x"] = .ok t)
    {addr : List Bool} (h0 : 0 ∈ rowsAt twoX t 2 addr) (h1 : 1 ∈ rowsAt twoX t 2 addr) : addr = [] := by
  have hT : CodeTarget realFns (regTarget realFns) (ngMarginal realFns) Spec.ngPosterior := .regression
  cases addr with
  | nil => rfl
  | cons b bs =>
    cases t with
    | leaf i => simp [rowsAt, follows] at h0
    | split i sp l b' c1 c2 =>
      obtain ⟨p, -, -, -, -, ⟨a, c, hac, hv, -⟩, -⟩ :=
        C13_closed hT (two_training false) h [] i sp l b' c1 c2 (nodeAt_nil _)
      obtain ⟨rfl, rfl, -, -⟩ := two_cut (fun i hi => rowsAt_lt i hi) hac
      have g0 := (List.mem_filter.1 h0).2
      have g1 := (List.mem_filter.1 h1).2
      simp only [follows, hv, twoX] at g0 g1
      norm_num at g0 g1
      simp [g1.1] at g0

theorem twoT_clear {t : PNode ℝ ℝ ℝ (NG ℝ)}
    (h : perpFitRoot (exactOps ℝ) (regTarget realFns) realSort (twoHp false) (some unitPrior) twoX twoT 2 1 ["x"] = .ok t)
    {ε : ℝ} (hε : ε ≤ 1 / 500) :
    Clear realFns (ngMarginal realFns) (twoHp false) twoX twoT 2 1 unitPrior ε t := by
  have hT : CodeTarget realFns (regTarget realFns) (ngMarginal realFns) Spec.ngPosterior := .regression
  have s := twoT_gain false
  have gap := twoT_gap
  constructor
  · intro addr i hu hor d hd a c hac
    obtain ⟨-, -, h0, h1⟩ := two_cut (fun i hi => rowsAt_lt i hi) hac
    obtain rfl := twoT_both h h0 h1
    rcases C14_closed hT (two_training false) rfl h [] i hu with g | g | ⟨p', hp', g⟩
    · rw [twoT_rows] at g; simp at g
    · have := g 0 (by rw [twoT_rows]; simp) 1 (by rw [twoT_rows]; simp)
      norm_num [twoT] at this
    · have := same_prior hT (two_training false) rfl h hu
      obtain rfl : p' = unitPrior := Option.some.inj (hp'.symm.trans this)
      have g' := g 0 (by decide) 0 1 (by rw [twoT_rows]; exact two_isCut 0)
      rw [twoT_rows, List.length_nil] at g'
      linarith
  · intro addr i sp l b c1 c2 hu
    obtain ⟨p', hp', g1, g2, hdim, ⟨a, c, hac, hv, hb⟩, -⟩ :=
      C13_closed hT (two_training false) h addr i sp l b c1 c2 hu
    have := same_prior hT (two_training false) rfl h hu
    obtain rfl : p' = unitPrior := Option.some.inj (hp'.symm.trans this)
    have hd : sp.dim = 0 := by omega
    obtain ⟨rfl, rfl, h0, h1⟩ := two_cut (fun i hi => rowsAt_lt i hi) hac
    obtain rfl := twoT_both h h0 h1
    refine ⟨?_, fun d hd' a' c' hac' hne => ?_⟩
    · rw [g1, hb, hd, twoT_rows, List.length_nil]
      linarith
    · obtain ⟨rfl, rfl, -, -⟩ := two_cut (fun i hi => rowsAt_lt i hi) hac'
      exact absurd ⟨by omega, hv.symm⟩ hne

/-- C115 in float64, two rows with different targets: the predictions of the computed tree are those of the exact one up
to rounding. -/
example (Z : Nat → Nat → ℝ) (m : Nat) :
    ∃ t t', perpFitRoot (exactOps ℝ) (regTarget realFns) realSort (twoHp false) (some unitPrior) twoX twoT 2 1 ["x"] = .ok t ∧
      perpFitRoot (exactOps ℝ) (regTargetR lib64) realSort (twoHp false) (some unitPrior) twoX twoT 2 1 ["x"] = .ok t' ∧
      List.Forall₂ (fun p p' => |p' - p| ≤ 1 / 2 ^ 46) (predict (perpRouter (exactOps ℝ)) (regTarget realFns) t Z m)
        (predict (perpRouter (exactOps ℝ)) (regTargetR lib64) t' Z m) := by
  have hT : CodeTarget realFns (regTarget realFns) (ngMarginal realFns) Spec.ngPosterior := .regression
  have hL : AccurateReg (1 / 2 ^ 50) 2 lib64 := (lib64_accurate (by norm_num)).mono (by norm_num)
  obtain ⟨hm, hε⟩ := C115_thousand (n := 2) (nDim := 1) (pp := 9 / 10) (by norm_num) (by norm_num) (by norm_num)
    (by norm_num) (by norm_num) (by norm_num)
  have hY : ∀ i < 2, |twoT i| ≤ 1 := by
    intro i hi
    interval_cases i <;> norm_num [twoT]
  obtain ⟨t, h⟩ : ∃ t, perpFitRoot (exactOps ℝ) (regTarget realFns) realSort (twoHp false) (some unitPrior) twoX twoT 2 1
      ["x"] = .ok t := C12_closed hT (two_training false) _ _ _ (by decide)
  obtain ⟨t', h'⟩ := C115_terminates (X := twoX) (y := twoT) (names := ["x"]) (hp := twoHp false) hL hm
    (two_training false) rfl hY (by decide)
  refine ⟨t, _, h, h', (C115_predict hL hm (two_training false) rfl rfl hY h h' (twoT_clear h hε) Z m).imp ?_⟩
  intro p p' hpp
  refine hpp.trans ?_
  unfold meanError unitPrior
  norm_num

end BT
