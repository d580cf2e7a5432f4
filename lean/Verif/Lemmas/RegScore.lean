import Verif.Lemmas.Approx
import Verif.Spec.RegScore
import Verif.Spec.Target
import Verif.Props.RegFloat

/-!
# The posterior of a regression node in floating-point arithmetic
-/

namespace BT
open Spec

section
variable {u : ℝ} {r : ℝ → ℝ} {k : Nat} {prior : NG ℝ} {m n : Nat} {s q S Q Y : ℝ}

theorem half_near (hr : RelRound u r) (hu : 0 ≤ u) : Ap u 1 (1 / 2) (1 / 2) (r (1 / 2 * 1)) := by
  have := (Ap.exact (u := u) (1 / 2 : ℝ)).round hr hu
  rw [abs_of_pos (by norm_num)] at this
  rwa [mul_one]

theorem count_near (hr : RelRound u r) (hu : 0 ≤ u) (m : Nat) : Ap u 1 (m : ℝ) (m : ℝ) (r ((m : ℝ) * 1)) := by
  have := (Ap.exact (u := u) (m : ℝ)).round hr hu
  rw [abs_of_nonneg (Nat.cast_nonneg m)] at this
  rwa [mul_one]

theorem kappa_near (hr : RelRound u r) (hu : 0 ≤ u) (hk : 0 < prior.kappa) :
    Ap u 2 (prior.kappa + m) (prior.kappa + m) (ngPosteriorR r prior m s q 1).kappa := by
  have := ((Ap.exact (u := u) prior.kappa).add hu (count_near hr hu m)).round hr hu
  rw [abs_of_pos hk] at this
  exact this

theorem alpha_near (hr : RelRound u r) (hu : 0 ≤ u) (hk : 0 < prior.alpha) :
    Ap u 3 (prior.alpha + m / 2) (prior.alpha + m / 2) (ngPosteriorR r prior m s q 1).alpha := by
  have h1 := ((Ap.exact (u := u) (1 / 2 : ℝ)).mul hu (count_near hr hu m)).round hr hu
  rw [abs_of_pos (by norm_num)] at h1
  have := ((Ap.exact (u := u) prior.alpha).add hu h1).round hr hu
  rw [abs_of_pos hk, show 1 / 2 * (m : ℝ) = m / 2 by ring] at this
  exact this

set_option maxHeartbeats 800000 in
/-- The scale parameter. -/
theorem beta_near (hr : RelRound u r) (hu : 0 ≤ u) (hu2 : u ≤ 1 / 2) (hk : 0 < prior.kappa) (hb : 0 < prior.beta)
    (hm : 0 < m) (hmn : m ≤ n) (hY : 0 ≤ Y) (hS : |S| ≤ m * Y) (hs : |s - S| ≤ ((1 + u) ^ k - 1) * (2 * n * Y))
    (hQ : |Q| ≤ 2 * n * Y ^ 2) (hq : |q - Q| ≤ ((1 + u) ^ k - 1) * (2 * n * Y ^ 2))
    (hsmall : ((1 + u) ^ (k + 2) - 1) * n ≤ 1) :
    Ap u (k + 11) (betaSize prior n Y)
      (prior.beta + 1 / 2 * (Q - S * S / m) +
        1 / 2 * prior.kappa * m * ((S / m - prior.mu) * (S / m - prior.mu)) * (1 / (prior.kappa + m)))
      (ngPosteriorR r prior m s q 1).beta := by
  have hm1 : (1 : ℝ) ≤ m := by exact_mod_cast hm
  have hm0 : (0 : ℝ) < m := by linarith
  have hmn' : (m : ℝ) ≤ n := by exact_mod_cast hmn
  have hk2 : ((1 + u) ^ k - 1) * n ≤ 1 := by
    refine le_trans (mul_le_mul_of_nonneg_right ?_ (by linarith)) hsmall
    linarith [pow_u_mono hu (show k ≤ k + 2 by omega)]
  -- the sum of squares
  have a1 : Ap u k (4 * (2 * n * Y) * (m * Y)) (S * S) (s * s) := by
    refine Ap.sq hS hs ?_ ?_
    · have h1 := mul_le_mul_of_nonneg_right hk2 (show 0 ≤ 2 * Y by linarith)
      have h2 := mul_le_mul_of_nonneg_right hm1 (show 0 ≤ 2 * Y by linarith)
      linarith
    · have h1 := mul_le_mul_of_nonneg_right hmn' hY
      have h2 : 0 ≤ n * Y := mul_nonneg (by linarith) hY
      linarith
  have a2 := (((a1.round hr hu).div hm0).round hr hu)
  rw [show 4 * (2 * n * Y) * (m * Y) / m = 8 * n * Y ^ 2 by field_simp; ring] at a2
  have hqA : Ap u k (2 * n * Y ^ 2) Q q := ⟨hQ, hq⟩
  have a3 := ((hqA.sub hu a2).round hr hu)
  have a4 := ((half_near hr hu).mul hu a3).round hr hu
  have a5 := ((Ap.exact (u := u) prior.beta).add hu a4).round hr hu
  -- the deviation from the prior mean
  have hsA : |S / m - prior.mu| ≤ Y + |prior.mu| := by
    have h1 : |S / m| ≤ Y := by
      rw [abs_div, abs_of_pos hm0, div_le_iff₀ hm0]
      linarith
    exact (abs_sub _ _).trans (by linarith)
  set D := Y + |prior.mu| with hD
  have hD0 : 0 ≤ D := by positivity
  have hYD : Y ≤ D := by rw [hD]; linarith [abs_nonneg prior.mu]
  have hb1 : Ap u k (2 * n * Y / m) (S / m) (s / m) := by
    have hSn : |S| ≤ 2 * n * Y := by
      have h1 := mul_le_mul_of_nonneg_right hmn' hY
      have h2 : 0 ≤ n * Y := mul_nonneg (by linarith) hY
      linarith
    have : Ap u k (2 * n * Y) S s := ⟨hSn, hs⟩
    exact this.div hm0
  have hnm : 1 ≤ 2 * (n : ℝ) / m := by
    rw [le_div_iff₀ hm0]; linarith
  have hb2 := ((hb1.round hr hu).sub hu (Ap.exact (u := u) prior.mu)).round hr hu
  have hb3 : |r (r (s / m) - prior.mu) - (S / m - prior.mu)| ≤ ((1 + u) ^ (k + 2) - 1) * (2 * n / m * D) := by
    have h := hb2.mono hu (l := k + 2) (by omega) (V := 2 * n / m * D) ?_
    · exact h.2
    · have : |prior.mu| ≤ 2 * n / m * |prior.mu| := le_mul_of_one_le_left (abs_nonneg _) hnm
      rw [hD, mul_add]
      have e : 2 * (n : ℝ) * Y / m = 2 * n / m * Y := by ring
      linarith
  have b1 : Ap u (k + 2) (4 * (2 * n / m * D) * D) ((S / m - prior.mu) * (S / m - prior.mu))
      (r (r (s / m) - prior.mu) * r (r (s / m) - prior.mu)) := by
    refine Ap.sq hsA hb3 ?_ ?_
    · have h1 := mul_le_mul_of_nonneg_right hsmall (show 0 ≤ 2 / m * D by positivity)
      have h2 : 2 / (m : ℝ) * D ≤ 2 * D := by
        refine mul_le_mul_of_nonneg_right ?_ hD0
        rw [div_le_iff₀ hm0]; linarith
      calc ((1 + u) ^ (k + 2) - 1) * (2 * n / m * D) = ((1 + u) ^ (k + 2) - 1) * n * (2 / m * D) := by ring
        _ ≤ 1 * (2 / m * D) := h1
        _ ≤ 2 * D := by linarith
    · have := le_mul_of_one_le_left hD0 hnm
      linarith
  have b2 := b1.round hr hu
  have c1 : Ap u 3 (1 / 2 * prior.kappa * m) (1 / 2 * prior.kappa * m) (r (r (1 / 2 * prior.kappa) * r ((m : ℝ) * 1))) := by
    have h1 := (Ap.exact (u := u) (1 / 2 * prior.kappa)).round hr hu
    rw [abs_of_pos (by positivity)] at h1
    exact (h1.mul hu (count_near hr hu m)).round hr hu
  have hkm : 0 < prior.kappa + (m : ℝ) := by linarith
  have d1 := (((c1.mul hu b2).round hr hu).mul hu (Ap.inv hr hu hu2 hkm)).round hr hu
  have e1 := (a5.add hu d1).round hr hu
  rw [mul_one_div (r _) (r _)] at e1
  refine e1.mono hu (by omega) ?_
  unfold betaSize
  rw [abs_of_pos hb, ← hD]
  have h1 : 1 / 2 * prior.kappa * m * (4 * (2 * n / m * D) * D) * (1 / (prior.kappa + m)) ≤ 4 * n * D ^ 2 := by
    have e : 1 / 2 * prior.kappa * m * (4 * (2 * n / m * D) * D) * (1 / (prior.kappa + m)) =
        4 * n * D ^ 2 * (prior.kappa / (prior.kappa + m)) := by
      field_simp
    rw [e]
    refine mul_le_of_le_one_right (by positivity) ?_
    rw [div_le_one hkm]
    linarith
  have h2 : (n : ℝ) * Y ^ 2 ≤ n * D ^ 2 := by
    refine mul_le_mul_of_nonneg_left (pow_le_pow_left₀ hY hYD 2) (by linarith)
  linarith

/-- Where the exact scale parameter lies. -/
theorem beta_bounds {ys : List ℝ} (hk : 0 < prior.kappa) : prior.beta ≤ (Spec.ngPosterior prior ys).beta := by
  have h1 : 0 ≤ sqDev ys := List.sum_nonneg (by
    intro v hv
    obtain ⟨w, -, rfl⟩ := List.mem_map.1 hv
    positivity)
  have h2 : 0 ≤ prior.kappa * (ys.length : ℝ) * (mean ys - prior.mu) ^ 2 / (2 * (prior.kappa + (ys.length : ℝ))) := by
    positivity
  simp only [Spec.ngPosterior]
  linarith

variable {L : FloatLib ℝ} {pp : ℝ} {ys : List ℝ}

theorem Spec.Fine.small (hL : AccurateReg u n L) (h : Fine u prior pp n Y) (hn : 0 < n) : ((n : ℝ) + 12) * u ≤ 1 / 3 := by
  have hn1 : (1 : ℝ) ≤ n := by exact_mod_cast hn
  have h1 := h.rows
  have h2 : 0 ≤ ((n : ℝ) + 12) * u := mul_nonneg (by linarith) hL.pos.le
  have h3 := mul_le_mul_of_nonneg_left hn1 h2
  linarith

theorem Spec.Fine.gain_nonneg (h : Fine u prior pp n Y) : 0 ≤ betaGain prior n Y := by
  have := h.beta
  unfold betaGain betaSize
  positivity

/-- The scale parameter of the targets `ys`, whose sum and sum of squares are known up to an error. -/
theorem beta_rel (hL : AccurateReg u n L) (h : Fine u prior pp n Y) (hm : ys ≠ []) (hmn : ys.length ≤ n)
    (hS : |ys.sum| ≤ ys.length * Y) (hQ : sumSqL ys ≤ 2 * n * Y ^ 2)
    (hs : |s - ys.sum| ≤ ((1 + u) ^ (n + 1) - 1) * (2 * n * Y))
    (hq : |q - sumSqL ys| ≤ ((1 + u) ^ (n + 1) - 1) * (2 * n * Y ^ 2)) :
    (Spec.ngPosterior prior ys).beta ≤ betaSize prior n Y ∧
    |(ngPosteriorR L.r prior ys.length s q 1).beta - (Spec.ngPosterior prior ys).beta| ≤
      u * betaGain prior n Y * (Spec.ngPosterior prior ys).beta := by
  have hu := hL.pos.le
  have hm0 : 0 < ys.length := List.length_pos_of_ne_nil hm
  have hn : 0 < n := by omega
  have hsm := h.small hL hn
  have hmr : (0 : ℝ) < ys.length := by exact_mod_cast hm0
  have hn1 : (1 : ℝ) ≤ n := by exact_mod_cast hn
  have hsmall : ((1 + u) ^ (n + 1 + 2) - 1) * (n : ℝ) ≤ 1 := by
    have h0 : 0 ≤ u * n := mul_nonneg hu (by linarith)
    have h1 := pow_u_le_two hu (n + 1 + 2) (by push_cast; linarith)
    have h2 := mul_le_mul_of_nonneg_right h1 (show (0 : ℝ) ≤ n by linarith)
    have h3 := h.rows
    push_cast at h2
    nlinarith
  have key := beta_near (k := n + 1) hL.round hu (by linarith [h.tiny]) h.kappa h.beta hm0 hmn h.size hS hs
    (by rw [abs_of_nonneg (sumSqL_nonneg ys)]; exact hQ) hq hsmall
  have e : prior.beta + 1 / 2 * (sumSqL ys - ys.sum * ys.sum / (ys.length : ℝ)) +
        1 / 2 * prior.kappa * (ys.length : ℝ) * ((ys.sum / (ys.length : ℝ) - prior.mu) * (ys.sum / (ys.length : ℝ) - prior.mu)) *
          (1 / (prior.kappa + (ys.length : ℝ))) = (Spec.ngPosterior prior ys).beta := by
    have hd : sqDev ys = sumSqL ys - ys.sum * ys.sum / (ys.length : ℝ) := by
      rw [sqDev_eq ys hm, pow_two]
      rfl
    have := h.kappa
    simp only [Spec.ngPosterior, hd, mean]
    field_simp
  rw [e] at key
  have hb := beta_bounds (ys := ys) h.kappa
  refine ⟨(le_abs_self _).trans key.1, ?_⟩
  have k2 := key.le hu (by push_cast; linarith)
  push_cast at k2
  refine k2.trans ?_
  have hg : u * betaGain prior n Y * prior.beta ≤ u * betaGain prior n Y * (Spec.ngPosterior prior ys).beta :=
    mul_le_mul_of_nonneg_left hb (mul_nonneg hu h.gain_nonneg)
  refine le_trans (le_of_eq ?_) hg
  have := h.beta
  unfold betaGain
  field_simp
  ring

/-- A rounded quotient of weights. -/
theorem kappa_rel (hL : AccurateReg u n L) (h : Fine u prior pp n Y) (m : Nat) :
    |L.r (prior.kappa / (ngPosteriorR L.r prior m s q 1).kappa) - prior.kappa / (prior.kappa + m)| ≤
      6 * u * (prior.kappa / (prior.kappa + m)) := by
  have hu := hL.pos.le
  have hu1 := h.tiny
  have hk := h.kappa
  have hm : (0 : ℝ) ≤ m := Nat.cast_nonneg m
  have h1 := (kappa_near (m := m) (s := s) (q := q) hL.round hu hk).2
  set c := (ngPosteriorR L.r prior m s q 1).kappa
  set D := prior.kappa + (m : ℝ)
  have hD : 0 < D := by positivity
  have h2 : |c - D| ≤ 3 * u * D := h1.trans (mul_le_mul_of_nonneg_right (by nlinarith) hD.le)
  have h3 := (_root_.abs_le.1 h2).1
  have h4 : 3 * u * D ≤ 3 / 100 * D := mul_le_mul_of_nonneg_right (by linarith) hD.le
  have hc : 97 / 100 * D ≤ c := by linarith
  have hc0 : 0 < c := by linarith
  have e : prior.kappa / c - prior.kappa / D = prior.kappa / D * ((D - c) / c) := by field_simp
  have hx : 0 < prior.kappa / D := div_pos hk hD
  have h5 : |(D - c) / c| ≤ 4 * u := by
    rw [abs_div, abs_of_pos hc0, div_le_iff₀ hc0, abs_sub_comm]
    refine h2.trans ?_
    nlinarith
  have h6 : |prior.kappa / c - prior.kappa / D| ≤ 4 * u * (prior.kappa / D) := by
    rw [e, abs_mul, abs_of_pos hx, mul_comm]
    exact mul_le_mul_of_nonneg_right h5 hx.le
  have h7 := hL.round (prior.kappa / c)
  rw [abs_of_pos (div_pos hk hc0)] at h7
  have h8 : prior.kappa / c ≤ 2 * (prior.kappa / D) := by
    have := (_root_.abs_le.1 h6).2
    nlinarith
  have h9 : u * (prior.kappa / c) ≤ u * (2 * (prior.kappa / D)) := mul_le_mul_of_nonneg_left h8 hu
  have t := abs_add_le (L.r (prior.kappa / c) - prior.kappa / c) (prior.kappa / c - prior.kappa / D)
  rw [sub_add_sub_cancel] at t
  linarith

theorem pi_rel (hL : AccurateReg u n L) (h : Fine u prior pp n Y) :
    |L.r (2 * L.pi) - 2 * Real.pi| ≤ 6 * u * (2 * Real.pi) := by
  have hu := hL.pos.le
  have hu1 := h.tiny
  have h1 : Ap u 1 (2 * Real.pi) (2 * Real.pi) (2 * L.pi) := by
    refine Ap.of_err (abs_of_pos (by positivity)).le ?_
    rw [← mul_sub, abs_mul, abs_of_pos two_pos]
    linarith [hL.pi]
  refine (h1.round hL.round hu).2.trans (mul_le_mul_of_nonneg_right ?_ (by positivity))
  rw [show (1 + u) ^ (1 + 1) - 1 = 2 * u + u * u by ring]
  nlinarith

set_option maxHeartbeats 800000 in
/-- The marginal likelihood of the targets `ys`. -/
theorem marginal_near (hL : AccurateReg u n L) (h : Fine u prior pp n Y) (hm : ys ≠ []) (hmn : ys.length ≤ n)
    (hS : |ys.sum| ≤ ys.length * Y) (hQ : sumSqL ys ≤ 2 * n * Y ^ 2)
    (hs : |s - ys.sum| ≤ ((1 + u) ^ (n + 1) - 1) * (2 * n * Y))
    (hq : |q - sumSqL ys| ≤ ((1 + u) ^ (n + 1) - 1) * (2 * n * Y ^ 2)) :
    let p := ngPosteriorR L.r prior ys.length s q 1
    ∃ v, ngLogPDataR L prior p.alpha p.beta p.kappa ys.length = .fin v ∧
      Ap u 9 (marginalSize prior n Y) (ngMarginal realFns prior ys) v := by
  intro p
  have hu := hL.pos.le
  have hu1 := h.tiny
  have hr := hL.round
  have hmn' : (ys.length : ℝ) ≤ n := by exact_mod_cast hmn
  have hm0 : (0 : ℝ) ≤ ys.length := Nat.cast_nonneg _
  have hg0 := h.gain_nonneg
  have hk := h.kappa
  have hα := h.alpha
  have hβ := h.beta
  obtain ⟨b1, b2⟩ := beta_rel hL h hm hmn hS hQ hs hq
  have b0 := beta_bounds (ys := ys) hk
  set β := (Spec.ngPosterior prior ys).beta with hβdef
  have hβ0 : 0 < β := by linarith
  set R := betaGain prior n Y
  -- the scale
  have hlogβ : |Real.log β| ≤ |Real.log prior.beta| + |Real.log (betaSize prior n Y)| := by
    have h1 := Real.log_le_log hβ b0
    have h2 := Real.log_le_log hβ0 b1
    rw [_root_.abs_le]
    constructor
    · linarith [neg_abs_le (Real.log prior.beta), abs_nonneg (Real.log (betaSize prior n Y))]
    · linarith [le_abs_self (Real.log (betaSize prior n Y)), abs_nonneg (Real.log prior.beta)]
  have hposβ : 0 < p.beta := (log_near hβ0 (by linarith [h.gain]) b2).1
  obtain ⟨-, tβ⟩ := Ap.log (u := u) (c := 2 * R) hu hβ0 (by linarith [h.gain]) b2 (by linarith) (by linarith) hlogβ
    (hL.log _ hposβ)
  -- the shape
  have tα := alpha_near (m := ys.length) (s := s) (q := q) hr hu hα
  have tx := (tα.mul hu tβ).round hr hu
  have hα' : |p.alpha - (prior.alpha + ys.length / 2)| ≤ 6 * u * (prior.alpha + ys.length / 2) := by
    refine (tα.le hu (by push_cast; linarith)).trans (le_of_eq ?_)
    push_cast; ring
  have hαe : 0 < prior.alpha + (ys.length : ℝ) / 2 := by positivity
  set G := gammaSize prior.alpha (prior.alpha + n / 2) with hGdef
  have hG : ∀ w, (prior.alpha + ys.length / 2) / 2 ≤ w → w ≤ 2 * (prior.alpha + ys.length / 2) → |lgam w| ≤ G :=
    fun w h1 h2 => gammaSize_bound hα (by linarith) (by linarith)
  have hposα : 0 < p.alpha := by
    have h1 := (_root_.abs_le.1 hα').1
    have h2 : 6 * u * (prior.alpha + ys.length / 2) ≤ 1 / 2 * (prior.alpha + ys.length / 2) :=
      mul_le_mul_of_nonneg_right (by linarith) hαe.le
    linarith
  have g1 : Ap u 2 (24 * G + 1) (lgam (prior.alpha + ys.length / 2)) (L.gammaln p.alpha) := by
    have h1 := lgam_near hαe (by linarith) hα' hG
    have h2 := hG _ (by linarith) (by linarith : prior.alpha + (ys.length : ℝ) / 2 ≤ _)
    have h3 : 0 ≤ G := (abs_nonneg _).trans h2
    exact (Ap.of_err (u := u) (W := 24 * G) (by linarith) (by linarith)).lib hu zero_le_one (hL.gammaln _ hposα)
  have g2 : Ap u 1 (24 * G + 1) (lgam prior.alpha) (L.gammaln prior.alpha) := by
    have h2 : |lgam prior.alpha| ≤ G := gammaSize_bound hα (by linarith) (by linarith)
    have h3 : 0 ≤ G := (abs_nonneg _).trans h2
    refine ((Ap.exact (u := u) (lgam prior.alpha)).lib hu zero_le_one (hL.gammaln _ hα)).mono hu le_rfl ?_
    linarith
  have x1 := (g1.sub hu g2).round hr hu
  -- the prior scale
  have l0 : Ap u 1 |Real.log prior.beta| (Real.log prior.beta) (L.log prior.beta) := by
    have := (Ap.exact (u := u) (Real.log prior.beta)).lib hu le_rfl (by simpa using hL.log _ hβ)
    simpa using this
  have l1 := ((Ap.exact (u := u) prior.alpha).mul hu l0).round hr hu
  have x2 := (x1.add hu l1).round hr hu
  have x3 := (x2.sub hu tx).round hr hu
  -- the weight
  have hkx : 0 < prior.kappa / (prior.kappa + (ys.length : ℝ)) := by positivity
  have hkr := kappa_rel (s := s) (q := q) hL h ys.length
  have hΛk : |Real.log (prior.kappa / (prior.kappa + (ys.length : ℝ)))| ≤ Real.log ((prior.kappa + n) / prior.kappa) := by
    have e : prior.kappa / (prior.kappa + (ys.length : ℝ)) = ((prior.kappa + (ys.length : ℝ)) / prior.kappa)⁻¹ := by
      rw [inv_div]
    have h1 : 1 ≤ (prior.kappa + (ys.length : ℝ)) / prior.kappa := by
      rw [le_div_iff₀ hk]; linarith
    rw [e, Real.log_inv, abs_neg, abs_of_nonneg (Real.log_nonneg h1)]
    exact Real.log_le_log (by positivity) (div_le_div_of_nonneg_right (by linarith) hk.le)
  have hposk := (log_near hkx (by linarith) hkr).1
  obtain ⟨-, tk⟩ := Ap.log (u := u) (c := 12) hu hkx (by linarith) hkr (by linarith) (by norm_num) hΛk (hL.log _ hposk)
  have k1 := ((Ap.exact (u := u) (1 / 2 : ℝ)).mul hu tk).round hr hu
  have x4 := (x3.add hu k1).round hr hu
  -- the constant
  have hπ : 0 < 2 * Real.pi := by positivity
  have hpr := pi_rel hL h
  have hΛπ : |Real.log (2 * Real.pi)| ≤ Real.log (2 * Real.pi) := by
    rw [abs_of_nonneg (Real.log_nonneg (by linarith [Real.two_le_pi]))]
  have hposπ := (log_near hπ (by linarith) hpr).1
  obtain ⟨-, tπ⟩ := Ap.log (u := u) (c := 12) hu hπ (by linarith) hpr (by linarith) (by norm_num) hΛπ (hL.log _ hposπ)
  have p0 : Ap u 1 ((ys.length : ℝ) / 2) ((ys.length : ℝ) / 2) (L.r (1 / 2 * (ys.length : ℝ))) := by
    have := (Ap.exact (u := u) (1 / 2 * (ys.length : ℝ))).round hr hu
    rw [abs_of_nonneg (by positivity)] at this
    rwa [show (1 : ℝ) / 2 * (ys.length : ℝ) = (ys.length : ℝ) / 2 by ring] at this ⊢
  have p1 := (p0.mul hu tπ).round hr hu
  have x5 := (x4.sub hu p1).round hr hu
  have hval : lgam (prior.alpha + ↑ys.length / 2) - lgam prior.alpha + prior.alpha * Real.log prior.beta -
      (prior.alpha + ↑ys.length / 2) * Real.log β + 1 / 2 * Real.log (prior.kappa / (prior.kappa + ↑ys.length)) -
      ↑ys.length / 2 * Real.log (2 * Real.pi) = ngMarginal realFns prior ys := by
    unfold ngMarginal
    simp only
    rw [show (Spec.ngPosterior prior ys).alpha = prior.alpha + (ys.length : ℝ) / 2 from rfl, ← hβdef,
      realFns_gammaln hαe, realFns_gammaln hα]
    show _ = _ - _ + prior.alpha * Real.log prior.beta - _ * Real.log β + Real.log _ / 2 - _ * Real.log (2 * Real.pi)
    rw [show (Spec.ngPosterior prior ys).kappa = prior.kappa + (ys.length : ℝ) from rfl]
    ring
  rw [hval] at x5
  refine ⟨_, ?_, x5.mono hu (by decide) ?_⟩
  · unfold ngLogPDataR
    rw [logX_pos hβ, logX_pos hposβ, logX_pos hposk, logX_pos hposπ]
    rfl
  · unfold marginalSize
    rw [← hGdef, abs_of_pos hα, abs_of_pos (show (0 : ℝ) < 1 / 2 by norm_num)]
    have hB : 0 ≤ |Real.log prior.beta| + |Real.log (betaSize prior n Y)| + 2 * R := by positivity
    have m1 : (prior.alpha + (ys.length : ℝ) / 2) * (|Real.log prior.beta| + |Real.log (betaSize prior n Y)| + 2 * R) ≤
        (prior.alpha + (n : ℝ) / 2) * (|Real.log prior.beta| + |Real.log (betaSize prior n Y)| + 2 * R) :=
      mul_le_mul_of_nonneg_right (by linarith) hB
    have m2 : (ys.length : ℝ) / 2 * (Real.log (2 * Real.pi) + 12) ≤ (n : ℝ) / 2 * (Real.log (2 * Real.pi) + 12) :=
      mul_le_mul_of_nonneg_right (by linarith) (by linarith [(abs_nonneg _).trans hΛπ])
    linarith

end
end BT
