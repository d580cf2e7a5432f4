import Verif.Model.RegFloat
import Verif.Spec.FloatSum
import Verif.Lemmas.Target
import Mathlib.Algebra.Order.Chebyshev
import Mathlib.Algebra.Order.Ring.Pow

/-!
# Rounding errors of the regression sums
-/

namespace BT
open Spec

section
variable {K : Type} [Field K] [LinearOrder K] [IsStrictOrderedRing K] {u : K} {r : K → K}

theorem Spec.RelRound.abs_le (h : RelRound u r) (x : K) : |r x| ≤ (1 + u) * |x| := by
  have h1 := h x
  have h2 : |r x| ≤ |r x - x| + |x| := by
    have := abs_add_le (r x - x) x
    rwa [sub_add_cancel] at this
  linarith

theorem Spec.RelRound.le (h : RelRound u r) {x : K} (hx : 0 ≤ x) : r x ≤ (1 + u) * x := by
  have h1 := (_root_.abs_le.1 (h x)).2
  rw [abs_of_nonneg hx] at h1
  linarith

theorem Spec.RelRound.ge (h : RelRound u r) {x : K} (hx : 0 ≤ x) : (1 - u) * x ≤ r x := by
  have h1 := (_root_.abs_le.1 (h x)).1
  rw [abs_of_nonneg hx] at h1
  linarith

theorem Spec.RelRound.nonneg (h : RelRound u r) (hu : u < 1) {x : K} (hx : 0 ≤ x) : 0 ≤ r x :=
  (mul_nonneg (by linarith) hx).trans (h.ge hx)

theorem Spec.RelRound.pos (h : RelRound u r) (hu : u < 1) {x : K} (hx : 0 < x) : 0 < r x :=
  (mul_pos (by linarith) hx).trans_le (h.ge hx.le)

/-- A lower bound survives rounding. -/
theorem Spec.RelRound.ge_neg (h : RelRound u r) (hu0 : 0 ≤ u) (hu : u < 1) {x c : K} (hc : 0 ≤ c) (hx : -c ≤ x) :
    -((1 + u) * c) ≤ r x := by
  rcases le_total 0 x with g | g
  · have := h.nonneg hu g
    have : 0 ≤ (1 + u) * c := by positivity
    linarith
  · have h1 := (_root_.abs_le.1 (h x)).1
    rw [abs_of_nonpos g] at h1
    nlinarith

theorem one_le_pow_u (hu : 0 ≤ u) (n : Nat) : 1 ≤ (1 + u) ^ n := one_le_pow₀ (by linarith)

theorem pow_u_mono (hu : 0 ≤ u) {m n : Nat} (h : m ≤ n) : (1 + u) ^ m ≤ (1 + u) ^ n :=
  pow_le_pow_right₀ (by linarith) h

theorem abs_sum_le_list (l : List K) : |l.sum| ≤ (l.map abs).sum := by
  induction l with
  | nil => simp
  | cons x l ih =>
    rw [List.sum_cons, List.map_cons, List.sum_cons]
    exact (abs_add_le _ _).trans (by linarith)

theorem abs_sum_nonneg (l : List K) : 0 ≤ (l.map abs).sum :=
  List.sum_nonneg (by simp only [List.mem_map]; rintro _ ⟨x, _, rfl⟩; exact abs_nonneg x)

/-- The classical error bound of a rounded sum. -/
theorem Spec.FloatSum.error (hr : RelRound u r) (hu : 0 ≤ u) {l : List K} {s : K} (h : FloatSum r l s) :
    0 < l.length ∧ |s - l.sum| ≤ ((1 + u) ^ (l.length - 1) - 1) * (l.map abs).sum := by
  induction h with
  | one x => simp
  | @add l m a b ha hb iha ihb =>
    obtain ⟨la, ea⟩ := iha
    obtain ⟨lb, eb⟩ := ihb
    refine ⟨by rw [List.length_append]; omega, ?_⟩
    set A := (l.map abs).sum with hA
    set B := (m.map abs).sum with hB
    have hA0 : 0 ≤ A := abs_sum_nonneg l
    have hB0 : 0 ≤ B := abs_sum_nonneg m
    have key : ∀ {l : List K} {a A : K} {k : Nat}, |a - l.sum| ≤ ((1 + u) ^ k - 1) * A → |l.sum| ≤ A →
        |a| ≤ (1 + u) ^ k * A := by
      intro l a A k h1 h2
      have := abs_add_le (a - l.sum) l.sum
      rw [sub_add_cancel] at this
      linarith
    have ka := key ea (abs_sum_le_list l)
    have kb := key eb (abs_sum_le_list m)
    have h1 := hr (a + b)
    have h2 := abs_add_le a b
    have e : r (a + b) - (l ++ m).sum = (r (a + b) - (a + b)) + ((a - l.sum) + (b - m.sum)) := by
      rw [List.sum_append]; ring
    rw [e, List.map_append, List.sum_append, ← hA, ← hB, List.length_append]
    have h3 := abs_add_le (r (a + b) - (a + b)) ((a - l.sum) + (b - m.sum))
    have h4 := abs_add_le (a - l.sum) (b - m.sum)
    have h5 : u * |a + b| ≤ u * ((1 + u) ^ (l.length - 1) * A + (1 + u) ^ (m.length - 1) * B) :=
      mul_le_mul_of_nonneg_left (by linarith) hu
    have p1 : (1 + u) ^ (l.length - 1) * (1 + u) ≤ (1 + u) ^ (l.length + m.length - 1) := by
      rw [← pow_succ]; exact pow_u_mono hu (by omega)
    have p2 : (1 + u) ^ (m.length - 1) * (1 + u) ≤ (1 + u) ^ (l.length + m.length - 1) := by
      rw [← pow_succ]; exact pow_u_mono hu (by omega)
    have q1 := mul_le_mul_of_nonneg_right p1 hA0
    have q2 := mul_le_mul_of_nonneg_right p2 hB0
    linarith
  | @perm l m a ha hp ih =>
    rw [← hp.length_eq, ← hp.sum_eq, ← (hp.map abs).sum_eq]
    exact ih

theorem Spec.FloatSum.error_le (hr : RelRound u r) (hu : 0 ≤ u) {l : List K} {s : K} (h : FloatSum r l s) {n : Nat}
    (hn : l.length ≤ n + 1) : |s - l.sum| ≤ ((1 + u) ^ n - 1) * (l.map abs).sum := by
  obtain ⟨h1, h2⟩ := h.error hr hu
  refine h2.trans (mul_le_mul_of_nonneg_right ?_ (abs_sum_nonneg l))
  linarith [pow_u_mono hu (show l.length - 1 ≤ n by omega)]

/-- The sum of squares of `y`. -/
def sumSqL (y : List K) : K := (y.map fun v => v ^ 2).sum

theorem sumSqL_nonneg (y : List K) : 0 ≤ sumSqL y :=
  List.sum_nonneg (by simp only [List.mem_map]; rintro _ ⟨x, _, rfl⟩; exact sq_nonneg x)

theorem squaresR_bounds (hr : RelRound u r) (y : List K) :
    ((squaresR r y).map abs).sum ≤ (1 + u) * sumSqL y ∧ |(squaresR r y).sum - sumSqL y| ≤ u * sumSqL y := by
  unfold squaresR sumSqL
  induction y with
  | nil => simp
  | cons v y ih =>
    simp only [List.map_cons, List.sum_cons]
    have h1 := hr (v * v)
    have h2 := hr.abs_le (v * v)
    rw [abs_mul_self] at h1 h2
    have e : r (v * v) + (y.map fun v => r (v * v)).sum - (v ^ 2 + (y.map fun v => v ^ 2).sum) =
        (r (v * v) - v * v) + ((y.map fun v => r (v * v)).sum - (y.map fun v => v ^ 2).sum) := by ring
    refine ⟨by nlinarith [ih.1], ?_⟩
    rw [e]
    have := abs_add_le (r (v * v) - v * v) ((y.map fun v => r (v * v)).sum - (y.map fun v => v ^ 2).sum)
    nlinarith [ih.2]

/-- The computed sum of squares. -/
theorem sumSq_error (hr : RelRound u r) (hu : 0 ≤ u) {y : List K} {q : K}
    (h : FloatSum r (squaresR r y) q) {n : Nat} (hn : y.length ≤ n) : |q - sumSqL y| ≤ ((1 + u) ^ n - 1) * sumSqL y := by
  obtain ⟨b1, b2⟩ := squaresR_bounds hr y
  obtain ⟨hpos, he⟩ := h.error hr hu
  have hlen : (squaresR r y).length = y.length := by simp [squaresR]
  rw [hlen] at he hpos
  have hQ := sumSqL_nonneg y
  have h1 := abs_add_le (q - (squaresR r y).sum) ((squaresR r y).sum - sumSqL y)
  rw [sub_add_sub_cancel] at h1
  have p : (1 + u) ^ (y.length - 1) * (1 + u) ≤ (1 + u) ^ n := by
    rw [← pow_succ]; exact pow_u_mono hu (by omega)
  have g0 : 0 ≤ (1 + u) ^ (y.length - 1) - 1 := by linarith [one_le_pow_u hu (y.length - 1)]
  have h2 := mul_le_mul_of_nonneg_left b1 g0
  have h3 := mul_le_mul_of_nonneg_right p hQ
  nlinarith

theorem sq_sum_abs_le (y : List K) : ((y.map abs).sum) ^ 2 ≤ (y.length : K) * sumSqL y := by
  unfold sumSqL
  induction y with
  | nil => simp
  | cons v y ih =>
    simp only [List.map_cons, List.sum_cons, List.length_cons]
    push_cast
    set B := (y.map abs).sum
    set Q := (y.map fun v => v ^ 2).sum with hQ
    have hB : 0 ≤ B := abs_sum_nonneg y
    have hv := sq_abs v
    rcases Nat.eq_zero_or_pos y.length with h0 | h0
    · have : y = [] := List.length_eq_zero_iff.1 h0
      subst this
      simp [B, hQ]
    · have hc : (0 : K) < (y.length : K) := Nat.cast_pos.2 h0
      -- `2 |v| B ≤ m v² + B² / m`
      have h1 : 2 * |v| * B ≤ (y.length : K) * v ^ 2 + Q := by
        have h2 : 0 ≤ ((y.length : K) * |v| - B) ^ 2 := sq_nonneg _
        have h3 : (y.length : K) * (2 * |v| * B) ≤ (y.length : K) * ((y.length : K) * v ^ 2 + Q) := by
          have e : ((y.length : K) * |v| - B) ^ 2 = (y.length : K) * ((y.length : K) * |v| ^ 2) -
            (y.length : K) * (2 * |v| * B) + B ^ 2 := by ring
          rw [e, hv] at h2
          linarith
        exact le_of_mul_le_mul_left h3 hc
      nlinarith

/-- What is needed of the sums of one side: they differ from the exact ones by the fraction `a` of the sums of all rows. -/
theorem beta_pos (hr : RelRound u r) (hu : 0 ≤ u) (hu1 : u < 1) {prior : NG K} (hk : 0 ≤ prior.kappa) {m n : Nat} (hm : 0 < m)
    {s q S Q2 B Q a : K} (ha : 0 ≤ a) (hB : 0 ≤ B) (hs : |s| ≤ |S| + a * B) (hq : Q2 - a * Q ≤ q) (hQ2 : 0 ≤ Q2)
    (hQ : Q2 ≤ Q) (hS : |S| ^ 2 ≤ (m : K) * Q2) (hSB : |S| ≤ B) (hBQ : B ^ 2 ≤ (n : K) * Q)
    (hbeta : (1 / 2) * (1 + u) ^ 3 * ((a + (2 * u + u ^ 2) + (1 + u) ^ 2 * (2 * a + a ^ 2) * (n : K)) * Q) < prior.beta) :
    0 < (ngPosteriorR r prior m s q 1).beta := by
  have hmc : (1 : K) ≤ (m : K) := by exact_mod_cast hm
  have hm0 : (0 : K) < (m : K) := by linarith
  set c := (a + (2 * u + u ^ 2) + (1 + u) ^ 2 * (2 * a + a ^ 2) * (n : K)) * Q with hc
  have hQ0 : 0 ≤ Q := hQ2.trans hQ
  have hn0 : (0 : K) ≤ (n : K) := Nat.cast_nonneg n
  have hc0 : 0 ≤ c := by rw [hc]; positivity
  have hx : 0 ≤ |S| := abs_nonneg S
  -- the mean square
  have hsq : s * s ≤ (m : K) * Q2 + (2 * a + a ^ 2) * B ^ 2 := by
    have h1 : s * s = |s| ^ 2 := by rw [sq_abs]; ring
    have h2 : |s| ^ 2 ≤ (|S| + a * B) ^ 2 := pow_le_pow_left₀ (abs_nonneg s) hs 2
    have h3 : a * (|S| * B) ≤ a * (B * B) := mul_le_mul_of_nonneg_left (mul_le_mul_of_nonneg_right hSB hB) ha
    rw [h1]
    nlinarith
  have hms : r (r (s * s) / (m : K)) ≤ (1 + u) ^ 2 * (Q2 + (2 * a + a ^ 2) * ((n : K) * Q)) := by
    have h1 : 0 ≤ s * s := mul_self_nonneg s
    have h2 := hr.le h1
    have h3 : 0 ≤ r (s * s) / (m : K) := div_nonneg (hr.nonneg hu1 h1) hm0.le
    have h4 := hr.le h3
    have h5 : r (s * s) / (m : K) ≤ (1 + u) * (Q2 + (2 * a + a ^ 2) * ((n : K) * Q)) := by
      rw [div_le_iff₀ hm0]
      have h6 : (2 * a + a ^ 2) * B ^ 2 ≤ (2 * a + a ^ 2) * ((n : K) * Q) := mul_le_mul_of_nonneg_left hBQ (by positivity)
      have h7 : (2 * a + a ^ 2) * ((n : K) * Q) ≤ (2 * a + a ^ 2) * ((n : K) * Q) * (m : K) :=
        le_mul_of_one_le_right (by positivity) hmc
      have h8 : (1 + u) * (s * s) ≤ (1 + u) * ((m : K) * Q2 + (2 * a + a ^ 2) * ((n : K) * Q) * (m : K)) :=
        mul_le_mul_of_nonneg_left (by linarith) (by linarith)
      calc r (s * s) ≤ (1 + u) * (s * s) := h2
        _ ≤ _ := h8
        _ = _ := by ring
    calc r (r (s * s) / (m : K)) ≤ (1 + u) * (r (s * s) / (m : K)) := h4
      _ ≤ (1 + u) * ((1 + u) * (Q2 + (2 * a + a ^ 2) * ((n : K) * Q))) := mul_le_mul_of_nonneg_left h5 (by linarith)
      _ = _ := by ring
  have ht : -c ≤ q - r (r (s * s) / (m : K)) := by
    have h1 : (2 * u + u ^ 2) * Q2 ≤ (2 * u + u ^ 2) * Q := mul_le_mul_of_nonneg_left hQ (by positivity)
    rw [hc]
    have e : (1 + u) ^ 2 * (Q2 + (2 * a + a ^ 2) * ((n : K) * Q)) =
      Q2 + (2 * u + u ^ 2) * Q2 + (1 + u) ^ 2 * (2 * a + a ^ 2) * (n : K) * Q := by ring
    rw [e] at hms
    linarith
  have h1 := hr.ge_neg hu hu1 hc0 ht
  have h2 : -((1 / 2) * (1 + u) * ((1 + u) * c)) ≤ r ((1 / 2) * 1) * r (q - r (r (s * s) / (m : K))) := by
    have g1 : 0 ≤ r ((1 / 2) * 1) := hr.nonneg hu1 (by norm_num)
    have g2 : r ((1 / 2) * 1) ≤ (1 + u) * ((1 / 2) * 1) := hr.le (by norm_num)
    have g3 : 0 ≤ (1 + u) * c := by positivity
    nlinarith
  have h3 := hr.ge_neg hu hu1 (by positivity) h2
  have h4 : 0 < r (prior.beta + r (r ((1 / 2) * 1) * r (q - r (r (s * s) / (m : K))))) := by
    apply hr.pos hu1
    have e : (1 + u) * ((1 / 2) * (1 + u) * ((1 + u) * c)) = (1 / 2) * (1 + u) ^ 3 * c := by ring
    rw [e] at h3
    linarith
  have h5 : 0 ≤ r (r (r (r ((1 / 2) * prior.kappa) * r ((m : K) * 1)) * r (r (r (s / (m : K)) - prior.mu) *
      r (r (s / (m : K)) - prior.mu))) / r (prior.kappa + (m : K))) := by
    apply hr.nonneg hu1
    apply div_nonneg
    · apply hr.nonneg hu1
      apply mul_nonneg
      · apply hr.nonneg hu1
        exact mul_nonneg (hr.nonneg hu1 (by positivity)) (hr.nonneg hu1 (by positivity))
      · exact hr.nonneg hu1 (mul_self_nonneg _)
    · exact hr.nonneg hu1 (by positivity)
  exact hr.pos hu1 (by linarith)

/-- The condition on `beta` in a simple form. -/
theorem beta_condition (hu : 0 ≤ u) {n : Nat} (hn : 0 < n) (hnu : 100 * ((n : K) * u) ≤ 1) {Q β : K} (hQ : 0 ≤ Q)
    (hβ : 7 * ((n : K) ^ 2 * u) * Q < β) :
    let a := (1 + 2 * ((1 + u) ^ n - 1)) * (1 + u) - 1
    0 ≤ a ∧ (1 + u) ^ n - 1 ≤ a ∧
    (1 / 2) * (1 + u) ^ 3 * ((a + (2 * u + u ^ 2) + (1 + u) ^ 2 * (2 * a + a ^ 2) * (n : K)) * Q) < β := by
  intro a
  have hn1 : (1 : K) ≤ (n : K) := by exact_mod_cast hn
  set h := (n : K) * u with hh
  have hh0 : 0 ≤ h := by positivity
  have huh : u ≤ h := le_mul_of_one_le_left hu hn1
  have h100 : h ≤ 1 / 100 := by linarith
  set g := (1 + u) ^ n - 1 with hg
  have hg0 : 0 ≤ g := by linarith [one_le_pow_u hu n]
  have hg1 : g ≤ 102 / 100 * h := by
    have h1 : 1 + (n : K) * (-u) ≤ (1 + -u) ^ n := one_add_mul_le_pow (by linarith) n
    have h2 : (1 + -u) ^ n * (1 + u) ^ n ≤ 1 := by
      rw [← mul_pow]
      exact pow_le_one₀ (by nlinarith) (by nlinarith)
    have h3 : (1 - h) * (1 + g) ≤ 1 := by
      have : (1 + (n : K) * (-u)) * (1 + u) ^ n ≤ (1 + -u) ^ n * (1 + u) ^ n :=
        mul_le_mul_of_nonneg_right h1 (by positivity)
      have e : (1 - h) * (1 + g) = (1 + (n : K) * (-u)) * (1 + u) ^ n := by rw [hg, hh]; ring
      rw [e]
      exact this.trans h2
    have h4 : (1 - 1 / 100) * g ≤ (1 - h) * g := mul_le_mul_of_nonneg_right (by linarith) hg0
    linarith
  have ha : a = u + 2 * g + 2 * g * u := by simp only [a]; ring
  have ha0 : 0 ≤ a := by rw [ha]; positivity
  have hgu : g * u ≤ g * (1 / 100) := mul_le_mul_of_nonneg_left (by linarith) hg0
  have ha1 : a ≤ 31 / 10 * h := by rw [ha]; linarith
  refine ⟨ha0, by rw [ha]; nlinarith [mul_nonneg hg0 hu], ?_⟩
  have hu2 : u ^ 2 ≤ u * (1 / 100) := by rw [pow_two]; exact mul_le_mul_of_nonneg_left (by linarith) hu
  have hsq : a ^ 2 ≤ a * (31 / 1000) := by rw [pow_two]; exact mul_le_mul_of_nonneg_left (by linarith) ha0
  have w2 : (1 + u) ^ 2 ≤ 103 / 100 := by nlinarith
  have w3 : (1 + u) ^ 3 ≤ 105 / 100 := by
    have : (1 + u) ^ 3 = (1 + u) ^ 2 * (1 + u) := by ring
    rw [this]
    have : (1 + u) ^ 2 * (1 + u) ≤ 103 / 100 * (1 + u) := mul_le_mul_of_nonneg_right w2 (by linarith)
    linarith
  have hx : (1 + u) ^ 2 * (2 * a + a ^ 2) ≤ 66 / 10 * h := by
    have h1 : 2 * a + a ^ 2 ≤ 64 / 10 * h := by linarith
    have h2 : (1 + u) ^ 2 * (2 * a + a ^ 2) ≤ 103 / 100 * (64 / 10 * h) :=
      mul_le_mul w2 h1 (by positivity) (by norm_num)
    linarith
  have hnh : h ≤ h * (n : K) := le_mul_of_one_le_right hh0 hn1
  have hc : a + (2 * u + u ^ 2) + (1 + u) ^ 2 * (2 * a + a ^ 2) * (n : K) ≤ 118 / 10 * (h * (n : K)) := by
    have h1 := mul_le_mul_of_nonneg_right hx (show (0 : K) ≤ (n : K) by linarith)
    linarith
  have hc0 : 0 ≤ a + (2 * u + u ^ 2) + (1 + u) ^ 2 * (2 * a + a ^ 2) * (n : K) := by positivity
  refine lt_of_le_of_lt ?_ hβ
  have e : (n : K) ^ 2 * u = h * (n : K) := by rw [hh]; ring
  rw [e]
  have h1 : (1 / 2) * (1 + u) ^ 3 * (a + (2 * u + u ^ 2) + (1 + u) ^ 2 * (2 * a + a ^ 2) * (n : K)) ≤
      525 / 1000 * (118 / 10 * (h * (n : K))) := mul_le_mul (by linarith) hc hc0 (by norm_num)
  have h2 : (0 : K) ≤ h * (n : K) := by positivity
  have h3 : (1 / 2) * (1 + u) ^ 3 * (a + (2 * u + u ^ 2) + (1 + u) ^ 2 * (2 * a + a ^ 2) * (n : K)) ≤ 7 * (h * (n : K)) := by
    linarith
  calc _ = (1 / 2) * (1 + u) ^ 3 * (a + (2 * u + u ^ 2) + (1 + u) ^ 2 * (2 * a + a ^ 2) * (n : K)) * Q := by ring
    _ ≤ _ := mul_le_mul_of_nonneg_right h3 hQ

end
end BT
