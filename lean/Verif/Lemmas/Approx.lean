import Verif.Lemmas.ClsFloat
import Verif.Lemmas.RegFloat

/-!
# Rounding errors in units of size

`Ap u k W x z`: `x` is at most `W` in size, and `z` differs from it by at most `(1 + u)^k - 1` times `W`.
-/

namespace BT
open Spec

def Ap (u : ℝ) (k : Nat) (W x z : ℝ) : Prop := |x| ≤ W ∧ |z - x| ≤ ((1 + u) ^ k - 1) * W

section
variable {u : ℝ} {r : ℝ → ℝ} {k l : Nat} {W V x y z w : ℝ}

theorem Ap.nonneg (h : Ap u k W x z) : 0 ≤ W := (abs_nonneg x).trans h.1

theorem Ap.exact (x : ℝ) : Ap u 0 |x| x x := ⟨le_rfl, by simp⟩

theorem Ap.mono (hu : 0 ≤ u) (h : Ap u k W x z) (hk : k ≤ l) (hW : W ≤ V) : Ap u l V x z := by
  refine ⟨h.1.trans hW, h.2.trans (mul_le_mul ?_ hW h.nonneg ?_)⟩
  · linarith [pow_u_mono hu hk]
  · linarith [one_le_pow_u hu l]

theorem Ap.round (hr : RelRound u r) (hu : 0 ≤ u) (h : Ap u k W x z) : Ap u (k + 1) W x (r z) := by
  refine ⟨h.1, ?_⟩
  have h1 := hr z
  have h2 := abs_add_le (r z - z) (z - x)
  rw [sub_add_sub_cancel] at h2
  have h3 := abs_add_le (z - x) x
  rw [sub_add_cancel] at h3
  have h4 : u * |z| ≤ u * (((1 + u) ^ k - 1) * W + W) := mul_le_mul_of_nonneg_left (by linarith [h.1, h.2]) hu
  rw [pow_succ]
  linarith [h.2]

/-- A library function with an error of `u` times its value and a constant. -/
theorem Ap.lib (hu : 0 ≤ u) (h : Ap u k W x z) {c : ℝ} (hc : 0 ≤ c) (hw : |w - z| ≤ u * (c + |z|)) :
    Ap u (k + 1) (W + c) x w := by
  refine ⟨h.1.trans (by linarith), ?_⟩
  have h2 := abs_add_le (w - z) (z - x)
  rw [sub_add_sub_cancel] at h2
  have h3 := abs_add_le (z - x) x
  rw [sub_add_cancel] at h3
  have h4 : u * |z| ≤ u * (((1 + u) ^ k - 1) * W + W) := mul_le_mul_of_nonneg_left (by linarith [h.1, h.2]) hu
  have h5 := mul_nonneg (mul_nonneg (sub_nonneg.2 (one_le_pow_u hu k)) (by linarith : 0 ≤ 1 + u)) hc
  have h6 := mul_nonneg hu hc
  rw [pow_succ]
  linarith [h.2]

theorem Ap.add (hu : 0 ≤ u) (h : Ap u k W x z) (h' : Ap u l V y w) : Ap u (max k l) (W + V) (x + y) (z + w) := by
  replace h := h.mono hu (le_max_left k l) le_rfl
  replace h' := h'.mono hu (le_max_right k l) le_rfl
  refine ⟨(abs_add_le _ _).trans (add_le_add h.1 h'.1), ?_⟩
  rw [show z + w - (x + y) = (z - x) + (w - y) by ring, mul_add]
  exact (abs_add_le _ _).trans (add_le_add h.2 h'.2)

theorem Ap.neg (h : Ap u k W x z) : Ap u k W (-x) (-z) := by
  refine ⟨by rw [abs_neg]; exact h.1, ?_⟩
  rw [show -z - -x = -(z - x) by ring, abs_neg]
  exact h.2

theorem Ap.sub (hu : 0 ≤ u) (h : Ap u k W x z) (h' : Ap u l V y w) : Ap u (max k l) (W + V) (x - y) (z - w) := by
  rw [sub_eq_add_neg, sub_eq_add_neg]
  exact h.add hu h'.neg

theorem Ap.mul (hu : 0 ≤ u) (h : Ap u k W x z) (h' : Ap u l V y w) : Ap u (k + l) (W * V) (x * y) (z * w) := by
  refine ⟨by rw [abs_mul]; exact mul_le_mul h.1 h'.1 (abs_nonneg _) h.nonneg, ?_⟩
  rw [show z * w - x * y = (z - x) * w + x * (w - y) by ring]
  refine (abs_add_le _ _).trans ?_
  rw [abs_mul, abs_mul, pow_add]
  have h3 := abs_add_le (w - y) y
  rw [sub_add_cancel] at h3
  have a1 : |z - x| * |w| ≤ (((1 + u) ^ k - 1) * W) * (((1 + u) ^ l - 1) * V + V) :=
    mul_le_mul h.2 (by linarith [h'.1, h'.2]) (abs_nonneg _)
      (mul_nonneg (by linarith [one_le_pow_u hu k]) h.nonneg)
  have a2 : |x| * |w - y| ≤ W * (((1 + u) ^ l - 1) * V) := mul_le_mul h.1 h'.2 (abs_nonneg _) h.nonneg
  linarith

theorem Ap.div {m : ℝ} (hm : 0 < m) (h : Ap u k W x z) : Ap u k (W / m) (x / m) (z / m) := by
  refine ⟨?_, ?_⟩
  · rw [abs_div, abs_of_pos hm]
    exact div_le_div_of_nonneg_right h.1 hm.le
  · rw [← sub_div, abs_div, abs_of_pos hm, ← mul_div_assoc]
    exact div_le_div_of_nonneg_right h.2 hm.le

/-- The square of a number that is smaller than the scale of its error. -/
theorem Ap.sq {T : ℝ} (hx : |x| ≤ T) (he : |z - x| ≤ ((1 + u) ^ k - 1) * V) (hs : ((1 + u) ^ k - 1) * V ≤ 2 * T)
    (hT : T ≤ 4 * V) : Ap u k (4 * V * T) (x * x) (z * z) := by
  have hT0 : 0 ≤ T := (abs_nonneg x).trans hx
  refine ⟨?_, ?_⟩
  · rw [abs_mul]
    exact (mul_le_mul hx hx (abs_nonneg _) hT0).trans (mul_le_mul_of_nonneg_right hT hT0)
  · rw [show z * z - x * x = (z - x) * ((z - x) + 2 * x) by ring, abs_mul]
    have h1 := abs_add_le (z - x) (2 * x)
    rw [abs_mul, abs_of_pos (show (0 : ℝ) < 2 by norm_num)] at h1
    have h2 : |z - x| * |(z - x) + 2 * x| ≤ (((1 + u) ^ k - 1) * V) * (4 * T) :=
      mul_le_mul he (by linarith) (abs_nonneg _) ((abs_nonneg _).trans he)
    linarith

/-- The inverse of a rounded positive number. -/
theorem Ap.inv (hr : RelRound u r) (hu : 0 ≤ u) (hu2 : u ≤ 1 / 2) {D : ℝ} (hD : 0 < D) :
    Ap u 2 (1 / D) (1 / D) (1 / r D) := by
  have h1 := hr D
  rw [abs_of_pos hD] at h1
  have h2 := (_root_.abs_le.1 h1).1
  have h3 : u * D ≤ 1 / 2 * D := mul_le_mul_of_nonneg_right hu2 hD.le
  have h4 : 0 < r D := by linarith
  refine ⟨(abs_of_pos (by positivity)).le, ?_⟩
  have e : 1 / r D - 1 / D = (D - r D) / r D * (1 / D) := by field_simp
  rw [e, abs_mul, abs_of_pos (show 0 < 1 / D by positivity)]
  refine mul_le_mul_of_nonneg_right ?_ (by positivity)
  rw [abs_div, abs_of_pos h4, div_le_iff₀ h4, abs_sub_comm]
  have h5 : u * D ≤ 2 * u * r D := by nlinarith
  have h6 : 0 ≤ u ^ 2 * r D := by positivity
  linarith

theorem Ap.of_err (h1 : |x| ≤ W) (h2 : |z - x| ≤ u * W) : Ap u 1 W x z :=
  ⟨h1, by rw [pow_one]; linarith⟩

/-- The bound in the usual form. -/
theorem Ap.le (hu : 0 ≤ u) (h : Ap u k W x z) (hk : (k : ℝ) * u ≤ 1 / 2) : |z - x| ≤ 2 * (k * u) * W :=
  h.2.trans (mul_le_mul_of_nonneg_right (pow_u_le_two hu k hk) h.nonneg)

/-- The logarithm of a positive number with a relative error, after it has been computed. -/
theorem Ap.log {δ c Λ : ℝ} (hu : 0 ≤ u) (hx : 0 < x) (hδ : δ ≤ 1 / 2) (h : |z - x| ≤ δ * x) (hc : 2 * δ ≤ u * c)
    (hc0 : 0 ≤ c) (hΛ : |Real.log x| ≤ Λ) (hw : |w - Real.log z| ≤ u * |Real.log z|) :
    0 < z ∧ Ap u 2 (Λ + c) (Real.log x) w := by
  obtain ⟨h1, h2⟩ := log_near hx hδ h
  have hΛ0 : 0 ≤ Λ := (abs_nonneg _).trans hΛ
  refine ⟨h1, ?_⟩
  have := (Ap.of_err (u := u) (W := Λ + c) (hΛ.trans (by linarith))
    (h2.trans (hc.trans (mul_le_mul_of_nonneg_left (by linarith) hu)))).lib hu (w := w) le_rfl (by simpa using hw)
  simpa using this

end
end BT
