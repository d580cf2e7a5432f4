import Verif.Model.Rounding
import Verif.Spec.Rounding
import Mathlib.Algebra.Order.Floor.Ring
import Mathlib.Tactic.Linarith
import Mathlib.Tactic.Ring
import Mathlib.Tactic.FieldSimp
import Mathlib.Tactic.Positivity

/-!
# Rounding to nearest
-/

namespace BT
open Spec

set_option linter.unusedSectionVars false

section
variable {K : Type} [Field K] [LinearOrder K] [IsStrictOrderedRing K] {F : K → Prop} {rnd : K → K}

theorem Spec.RoundsTo.fixed (h : RoundsTo F rnd) {x : K} (hx : F x) : rnd x = x := by
  have := h.near x x hx
  rw [sub_self, abs_zero] at this
  have := abs_nonpos_iff.1 this
  linarith

theorem Spec.RoundsTo.mono (h : RoundsTo F rnd) {x y : K} (hxy : x ≤ y) : rnd x ≤ rnd y := by
  rcases hxy.lt_or_eq with hlt | rfl
  · by_contra hc
    have hc := not_le.1 hc
    have h1 := h.near x (rnd y) (h.mem y)
    have h2 := h.near y (rnd x) (h.mem x)
    rcases abs_cases (rnd x - x) with ⟨e1, _⟩ | ⟨e1, _⟩ <;>
    rcases abs_cases (rnd y - x) with ⟨e2, _⟩ | ⟨e2, _⟩ <;>
    rcases abs_cases (rnd y - y) with ⟨e3, _⟩ | ⟨e3, _⟩ <;>
    rcases abs_cases (rnd x - y) with ⟨e4, _⟩ | ⟨e4, _⟩ <;>
    rw [e1, e2] at h1 <;> rw [e3, e4] at h2 <;> linarith
  · exact le_refl _

/-- The product with one half is exact. -/
theorem Spec.RoundsTo.mid_eq (h : RoundsTo F rnd) (a b : K) :
    (roundOps rnd).mid a b = (1 / 2) * rnd (a + b) := h.fixed (h.half _ (h.mem _))

theorem Spec.RoundsTo.mid_between (h : RoundsTo F rnd) {a b : K} (ha : F a) (hb : F b) (hab : a ≤ b) :
    a ≤ (roundOps rnd).mid a b ∧ (roundOps rnd).mid a b ≤ b := by
  rw [h.mid_eq]
  have h1 := h.mono (show 2 * a ≤ a + b by linarith)
  have h2 := h.mono (show a + b ≤ 2 * b by linarith)
  rw [h.fixed (h.double a ha)] at h1
  rw [h.fixed (h.double b hb)] at h2
  constructor <;> linarith

/-- If the midpoint falls on the lower value, the two values are neighbours in `F`. -/
theorem Spec.RoundsTo.adjacent (h : RoundsTo F rnd) {a b : K}
    (hm : (roundOps rnd).mid a b = a) (f : K) (hf : F f) : ¬ (a < f ∧ f < b) := by
  rintro ⟨h1, h2⟩
  rw [h.mid_eq] at hm
  have hn := h.near (a + b) (2 * f) (h.double f hf)
  have e : rnd (a + b) = 2 * a := by linarith
  rw [e] at hn
  have : |2 * a - (a + b)| = b - a := by rw [abs_of_neg (by linarith)]; ring
  rw [this] at hn
  have : |2 * f - (a + b)| < b - a := by rw [abs_lt]; constructor <;> linarith
  linarith

variable [FloorRing K]

theorem roundEven_near (x : K) (z : Int) : |(roundEven x : K) - x| ≤ |(z : K) - x| := by
  have f1 := Int.floor_le x
  have f2 := Int.lt_floor_add_one x
  have hz : (z : K) ≤ (⌊x⌋ : K) ∨ (⌊x⌋ : K) + 1 ≤ (z : K) := by
    rcases le_or_gt z ⌊x⌋ with h | h
    · left; exact_mod_cast h
    · right; exact_mod_cast h
  unfold roundEven
  split
  · rename_i h
    rw [abs_of_nonpos (by linarith)]
    rcases hz with hz | hz
    · rw [abs_of_nonpos (by linarith)]; linarith
    · rw [abs_of_nonneg (by linarith)]; linarith
  · split
    · rename_i h _ h'
      push_cast
      rw [abs_of_nonneg (by linarith)]
      rcases hz with hz | hz
      · rw [abs_of_nonpos (by linarith)]; linarith
      · rw [abs_of_nonneg (by linarith)]; linarith
    · rename_i h h'
      split
      · rw [abs_of_nonpos (by linarith)]
        rcases hz with hz | hz
        · rw [abs_of_nonpos (by linarith)]; linarith
        · rw [abs_of_nonneg (by linarith)]; linarith
      · push_cast
        rw [abs_of_nonneg (by linarith)]
        rcases hz with hz | hz
        · rw [abs_of_nonpos (by linarith)]; linarith
        · rw [abs_of_nonneg (by linarith)]; linarith

theorem roundEven_le {x : K} {z : Int} (h : x ≤ z) : roundEven x ≤ z := by
  have f1 := Int.floor_le x
  have hf : ⌊x⌋ ≤ z := by exact_mod_cast f1.trans h
  unfold roundEven
  split
  · exact hf
  · have : ⌊x⌋ < z := by
      rcases hf.lt_or_eq with g | g
      · exact g
      · rename_i h'
        rw [← g] at h
        exact absurd (by linarith : x - (⌊x⌋ : K) < 1 / 2) h'
    split
    · omega
    · split <;> omega

theorem le_roundEven {x : K} {z : Int} (h : (z : K) ≤ x) : z ≤ roundEven x := by
  have hf : z ≤ ⌊x⌋ := Int.le_floor.2 h
  unfold roundEven
  split
  · exact hf
  · split
    · omega
    · split <;> omega

theorem rndFloat_eq {p : Nat} {x : K} {e : Int} (h1 : (2 : K) ^ e ≤ |x|) (h2 : |x| < 2 ^ (e + 1)) :
    rndFloat p x = (roundEven (x / 2 ^ (e + 1 - p)) : K) * 2 ^ (e + 1 - p) := by
  have hpos : 0 < |x| := lt_of_lt_of_le (zpow_pos (by norm_num) _) h1
  have a : e ≤ Int.log 2 |x| := (Int.zpow_le_iff_le_log (by norm_num) hpos).1 (by exact_mod_cast h1)
  have b : Int.log 2 |x| < e + 1 := (Int.lt_zpow_iff_log_lt (by norm_num) hpos).1 (by exact_mod_cast h2)
  have : Int.log 2 |x| = e := by omega
  unfold rndFloat
  rw [this]

theorem rndFloat_zero (p : Nat) : rndFloat p (0 : K) = 0 := by
  unfold rndFloat
  simp [roundEven]

theorem log2_bounds {x : K} (hx : x ≠ 0) :
    (2 : K) ^ Int.log 2 |x| ≤ |x| ∧ |x| < 2 ^ (Int.log 2 |x| + 1) := by
  have hpos : 0 < |x| := abs_pos.2 hx
  have h1 := Int.zpow_log_le_self (b := 2) (by norm_num) hpos
  have h2 := Int.lt_zpow_succ_log_self (b := 2) (by norm_num) |x|
  exact ⟨by exact_mod_cast h1, by exact_mod_cast h2⟩

/-- Round-to-nearest-even with `p ≥ 1` digits rounds to the nearest float. -/
theorem rndFloat_rounds (p : Nat) (hp : 0 < p) : RoundsTo (IsFloat p) (rndFloat p : K → K) := by
  have two : (2 : K) ≠ 0 := by norm_num
  -- the decisive case
  have main : ∀ (x : K) (e : Int), (2 : K) ^ e ≤ |x| → |x| < 2 ^ (e + 1) →
      IsFloat p (rndFloat p x) ∧ (∀ f, IsFloat p f → |rndFloat p x - x| ≤ |f - x|) ∧ rndFloat p x ≠ 0 := by
    intro x e h1 h2
    rw [rndFloat_eq h1 h2]
    set u : K := 2 ^ (e + 1 - p) with hu
    have upos : 0 < u := zpow_pos (by norm_num) _
    have hdiv : |x / u| = |x| / u := by rw [abs_div, abs_of_pos upos]
    have e1 : (2 : K) ^ (e + 1) / u = ((2 ^ p : Int) : K) := by
      rw [hu, ← zpow_sub₀ two]
      push_cast
      rw [← zpow_natCast]
      congr 1
      omega
    have e0 : (2 : K) ^ e / u = ((2 ^ (p - 1) : Int) : K) := by
      rw [hu, ← zpow_sub₀ two]
      push_cast
      rw [← zpow_natCast]
      congr 1
      omega
    have g2 : |x / u| < ((2 ^ p : Int) : K) := by
      rw [hdiv, ← e1]; exact (div_lt_div_iff_of_pos_right upos).2 h2
    have g1 : ((2 ^ (p - 1) : Int) : K) ≤ |x / u| := by
      rw [hdiv, ← e0]; exact (div_le_div_iff_of_pos_right upos).2 h1
    have hm : |roundEven (x / u)| ≤ 2 ^ p := by
      rw [abs_le]
      have := abs_le.1 g2.le
      exact ⟨le_roundEven (by push_cast at this ⊢; exact this.1), roundEven_le (by exact this.2)⟩
    have near : ∀ z : Int, |(roundEven (x / u) : K) * u - x| ≤ |(z : K) * u - x| := by
      intro z
      have := roundEven_near (x / u) z
      have s : ∀ w : K, |w * u - x| = |w - x / u| * u := by
        intro w
        rw [← abs_of_pos upos, ← abs_mul, abs_of_pos upos, sub_mul, div_mul_cancel₀ _ upos.ne']
      rw [s, s]
      exact mul_le_mul_of_nonneg_right this upos.le
    refine ⟨⟨_, _, hm, rfl⟩, ?_, ?_⟩
    · rintro f ⟨m, k, hmk, rfl⟩
      rcases le_or_gt (e + 1 - p) k with hk | hk
      · -- a multiple of the unit
        have : (m : K) * 2 ^ k = ((m * 2 ^ (k - (e + 1 - p)).toNat : Int) : K) * u := by
          push_cast
          rw [hu, mul_assoc, ← zpow_natCast, Int.toNat_of_nonneg (by omega), ← zpow_add₀ two]
          congr 2
          omega
        rw [this]
        exact near _
      · -- at most `2^e` in absolute value
        have hf : |(m : K) * 2 ^ k| ≤ 2 ^ e := by
          rw [abs_mul, abs_of_pos (show (0 : K) < 2 ^ k from zpow_pos (by norm_num) _)]
          have : |(m : K)| ≤ 2 ^ (p : Int) := by
            rw [zpow_natCast]; exact_mod_cast hmk
          calc |(m : K)| * 2 ^ k ≤ 2 ^ (p : Int) * 2 ^ k := mul_le_mul_of_nonneg_right this (zpow_pos (by norm_num) _).le
            _ = 2 ^ ((p : Int) + k) := (zpow_add₀ two _ _).symm
            _ ≤ 2 ^ e := zpow_le_zpow_right₀ (by norm_num) (by omega)
        rcases abs_cases x with ⟨ex, hx⟩ | ⟨ex, hx⟩
        · have n1 := near (2 ^ (p - 1))
          rw [show ((2 ^ (p - 1) : Int) : K) * u = 2 ^ e by rw [← e0, div_mul_cancel₀ _ upos.ne']] at n1
          refine n1.trans ?_
          have := (abs_le.1 hf).2
          rw [abs_of_nonpos (by linarith), abs_of_nonpos (by linarith)]
          linarith
        · have n1 := near (-2 ^ (p - 1))
          rw [show ((-2 ^ (p - 1) : Int) : K) * u = -2 ^ e by
            rw [show ((-2 ^ (p - 1) : Int) : K) = -((2 ^ (p - 1) : Int) : K) by push_cast; ring, ← e0, neg_mul,
              div_mul_cancel₀ _ upos.ne']] at n1
          refine n1.trans ?_
          have := (abs_le.1 hf).1
          rw [abs_of_nonneg (by linarith), abs_of_nonneg (by linarith)]
          linarith
    · apply mul_ne_zero _ upos.ne'
      have hpos : (0 : Int) < 2 ^ (p - 1) := by positivity
      rcases abs_cases (x / u) with ⟨ex, _⟩ | ⟨ex, _⟩
      · have : (2 ^ (p - 1) : Int) ≤ roundEven (x / u) := le_roundEven (by rw [← ex]; exact g1)
        exact_mod_cast (by omega : roundEven (x / u) ≠ 0)
      · have : roundEven (x / u) ≤ -(2 ^ (p - 1) : Int) := roundEven_le (by push_cast at g1 ⊢; linarith)
        exact_mod_cast (by omega : roundEven (x / u) ≠ 0)
  have all : ∀ x : K, IsFloat p (rndFloat p x) ∧ (∀ f, IsFloat p f → |rndFloat p x - x| ≤ |f - x|) ∧
      (x ≠ 0 → rndFloat p x ≠ 0) := by
    intro x
    by_cases hx : x = 0
    · subst hx
      rw [rndFloat_zero]
      exact ⟨⟨0, 0, by simp, by simp⟩, fun f _ => by simp, fun h => absurd rfl h⟩
    · obtain ⟨a, b⟩ := log2_bounds hx
      obtain ⟨h1, h2, h3⟩ := main x _ a b
      exact ⟨h1, h2, fun _ => h3⟩
  refine ⟨fun x => (all x).1, fun x => (all x).2.1, fun x => (all x).2.2, ?_, ?_⟩
  · rintro _ ⟨m, e, h, rfl⟩
    exact ⟨m, e + 1, h, by rw [zpow_add_one₀ two]; ring⟩
  · rintro _ ⟨m, e, h, rfl⟩
    exact ⟨m, e - 1, h, by rw [zpow_sub_one₀ two]; ring⟩

end

end BT
