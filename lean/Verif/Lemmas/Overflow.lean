import Verif.Spec.Overflow
import Verif.Lemmas.Rounding

/-!
# float64 is a floating-point format
-/

namespace BT
open Spec

set_option linter.unusedSectionVars false

section
variable {K : Type} [Field K] [LinearOrder K] [IsStrictOrderedRing K] {F : K → Prop} {rnd : K → K}

theorem Spec.FloatFormat.fixed (h : FloatFormat F rnd) {x : K} (hx : F x) : rnd x = x := by
  have := h.near x x hx
  rw [sub_self, abs_zero] at this
  have := abs_nonpos_iff.1 this
  linarith

theorem Spec.FloatFormat.mono (h : FloatFormat F rnd) {x y : K} (hxy : x ≤ y) : rnd x ≤ rnd y := by
  rcases hxy.lt_or_eq with hlt | rfl
  · by_contra hc
    have hc := not_le.1 hc
    have h1 := h.near x (rnd y) (h.mem y)
    have h2 := h.near y (rnd x) (h.mem x)
    rcases abs_cases (rnd x - x) with ⟨e1, _⟩ | ⟨e1, _⟩ <;>
    rcases abs_cases (rnd y - x) with ⟨e2, _⟩ | ⟨e2, _⟩ <;>
    rcases abs_cases (rnd y - y) with ⟨e3, _⟩ | ⟨e3, _⟩ <;>
    rcases abs_cases (rnd x - y) with ⟨e4, _⟩ | ⟨e4, _⟩ <;>
    rw [e1, e2] at h1 <;> rw [e3, e4] at h2 <;> linarith
  · exact le_refl _

theorem Spec.FloatFormat.between (h : FloatFormat F rnd) {a b : K} (ha : F a) (hb : F b) (hab : a ≤ b) :
    (a ≤ (1 / 2) * rnd (a + b) ∧ (1 / 2) * rnd (a + b) ≤ b) ∧
    a ≤ rnd ((1 / 2) * rnd (a + b)) ∧ rnd ((1 / 2) * rnd (a + b)) ≤ b := by
  have h1 := h.mono (show 2 * a ≤ a + b by linarith)
  have h2 := h.mono (show a + b ≤ 2 * b by linarith)
  rw [h.fixed (h.double a ha)] at h1
  rw [h.fixed (h.double b hb)] at h2
  have g1 : a ≤ (1 / 2) * rnd (a + b) := by linarith
  have g2 : (1 / 2) * rnd (a + b) ≤ b := by linarith
  have k1 := h.mono g1
  have k2 := h.mono g2
  rw [h.fixed ha] at k1
  rw [h.fixed hb] at k2
  exact ⟨⟨g1, g2⟩, k1, k2⟩

/-- If the midpoint falls on the lower value, the two values are neighbours. -/
theorem Spec.FloatFormat.adjacent (h : FloatFormat F rnd) {a b : K} (ha : F a) (hb : F b)
    (hm : rnd ((1 / 2) * rnd (a + b)) = a) (f : K) (hf : F f) : ¬ (a < f ∧ f < b) := by
  rintro ⟨h1, h2⟩
  rcases h.half a b ha hb with hh | hh
  · rw [h.fixed hh] at hm
    have hn := h.near (a + b) (2 * f) (h.double f hf)
    have e : rnd (a + b) = 2 * a := by linarith
    rw [e] at hn
    have : |2 * a - (a + b)| = b - a := by rw [abs_of_neg (by linarith)]; ring
    rw [this] at hn
    have : |2 * f - (a + b)| < b - a := by rw [abs_lt]; constructor <;> linarith
    linarith
  · rw [hh] at hm
    have hn := h.near ((1 / 2) * (a + b)) f hf
    rw [hm] at hn
    have : |a - (1 / 2) * (a + b)| = (1 / 2) * (b - a) := by rw [abs_of_neg (by linarith)]; ring
    rw [this] at hn
    have : |f - (1 / 2) * (a + b)| < (1 / 2) * (b - a) := by rw [abs_lt]; constructor <;> linarith
    linarith

variable [FloorRing K]

theorem Spec.IsFloat64.multiple {x : K} (h : IsFloat64 x) : ∃ z : Int, x = (z : K) * 2 ^ (-1074 : Int) := by
  obtain ⟨m, e, -, he, rfl⟩ := h
  refine ⟨m * 2 ^ (e + 1074).toNat, ?_⟩
  push_cast
  rw [mul_assoc, ← zpow_natCast, Int.toNat_of_nonneg (by omega), ← zpow_add₀ (by norm_num : (2 : K) ≠ 0)]
  congr 2
  omega

theorem Spec.IsFloat64.isFloat {x : K} (h : IsFloat64 x) : IsFloat 53 x := by
  obtain ⟨m, e, hm, -, rfl⟩ := h
  exact ⟨m, e, hm, rfl⟩

theorem roundEven_int (z : Int) : roundEven (z : K) = z :=
  le_antisymm (roundEven_le le_rfl) (le_roundEven le_rfl)

theorem rnd64_multiple {x : K} (hs : |x| < 2 ^ (-1021 : Int)) {z : Int} (hz : x = (z : K) * 2 ^ (-1074 : Int)) :
    rnd64 x = x := by
  have u : (2 : K) ^ (-1074 : Int) ≠ 0 := zpow_ne_zero _ (by norm_num)
  unfold rnd64
  rw [if_pos hs, hz, mul_div_cancel_right₀ _ u, roundEven_int]

/-- Normal numbers: the unit of the last place is at least `2^-1073`. -/
theorem rnd64_normal {x : K} (hs : ¬ |x| < 2 ^ (-1021 : Int)) :
    ∃ m e : Int, |m| ≤ 2 ^ 53 ∧ -1073 ≤ e ∧ rndFloat 53 x = (m : K) * 2 ^ e := by
  have hx : x ≠ 0 := by
    rintro rfl
    exact hs (by rw [abs_zero]; exact zpow_pos (by norm_num) _)
  obtain ⟨h1, h2⟩ := log2_bounds hx
  have hlog : -1021 ≤ Int.log 2 |x| := by
    have : (2 : K) ^ (-1021 : Int) < 2 ^ (Int.log 2 |x| + 1) := lt_of_le_of_lt (not_lt.1 hs) h2
    have := (zpow_lt_zpow_iff_right₀ (by norm_num : (1 : K) < 2)).1 this
    omega
  refine ⟨roundEven (x / 2 ^ (Int.log 2 |x| + 1 - (53 : Nat))), Int.log 2 |x| + 1 - (53 : Nat), ?_, by omega, ?_⟩
  · have upos : (0 : K) < 2 ^ (Int.log 2 |x| + 1 - (53 : Nat)) := zpow_pos (by norm_num) _
    have g : |x / 2 ^ (Int.log 2 |x| + 1 - (53 : Nat))| ≤ ((2 ^ 53 : Int) : K) := by
      rw [abs_div, abs_of_pos upos, div_le_iff₀ upos]
      rw [Int.cast_pow, Int.cast_ofNat, ← zpow_natCast, ← zpow_add₀ (by norm_num : (2 : K) ≠ 0)]
      refine h2.le.trans (le_of_eq ?_)
      congr 1
      push_cast
      ring
    rw [_root_.abs_le] at g ⊢
    exact ⟨le_roundEven (by push_cast at g ⊢; exact g.1), roundEven_le g.2⟩
  · rfl

/-- float64 with gradual underflow is a floating-point format. -/
theorem float64_format : FloatFormat (IsFloat64 : K → Prop) rnd64 := by
  have two : (2 : K) ≠ 0 := by norm_num
  have upos : (0 : K) < 2 ^ (-1074 : Int) := zpow_pos (by norm_num) _
  have hf := rndFloat_rounds (K := K) 53 (by decide)
  have bound : ∀ x : K, |x| < 2 ^ (-1021 : Int) → |x / 2 ^ (-1074 : Int)| ≤ ((2 ^ 53 : Int) : K) := by
    intro x hs
    rw [abs_div, abs_of_pos upos, div_le_iff₀ upos]
    rw [Int.cast_pow, Int.cast_ofNat, ← zpow_natCast, ← zpow_add₀ two]
    exact hs.le
  refine ⟨⟨0, 0, by simp, by norm_num, by simp⟩, fun x => ?_, fun x f hF => ?_, fun a b ha hb hab => ?_, ?_, fun a b ha hb => ?_⟩
  · by_cases hs : |x| < 2 ^ (-1021 : Int)
    · have g := bound x hs
      refine ⟨roundEven (x / 2 ^ (-1074 : Int)), -1074, ?_, le_rfl, by unfold rnd64; rw [if_pos hs]⟩
      rw [_root_.abs_le] at g ⊢
      exact ⟨le_roundEven (by push_cast at g ⊢; exact g.1), roundEven_le g.2⟩
    · obtain ⟨m, e, hm, he, h⟩ := rnd64_normal hs
      exact ⟨m, e, hm, by omega, by unfold rnd64; rw [if_neg hs, h]⟩
  · by_cases hs : |x| < 2 ^ (-1021 : Int)
    · obtain ⟨z, rfl⟩ := hF.multiple
      unfold rnd64
      rw [if_pos hs]
      have := roundEven_near (x / 2 ^ (-1074 : Int)) z
      have s : ∀ w : K, |w * 2 ^ (-1074 : Int) - x| = |w - x / 2 ^ (-1074 : Int)| * 2 ^ (-1074 : Int) := by
        intro w
        rw [← abs_of_pos upos, ← abs_mul, abs_of_pos upos, sub_mul, div_mul_cancel₀ _ upos.ne']
      rw [s, s]
      exact mul_le_mul_of_nonneg_right this upos.le
    · unfold rnd64
      rw [if_neg hs]
      exact hf.near x f hF.isFloat
  · by_cases hs : |b - a| < 2 ^ (-1021 : Int)
    · obtain ⟨z, rfl⟩ := ha.multiple
      obtain ⟨w, rfl⟩ := hb.multiple
      rw [rnd64_multiple hs (z := w - z) (by push_cast; ring)]
      exact sub_ne_zero.2 (Ne.symm hab)
    · unfold rnd64
      rw [if_neg hs]
      exact hf.ne_zero _ (sub_ne_zero.2 (Ne.symm hab))
  · rintro _ ⟨m, e, h, he, rfl⟩
    exact ⟨m, e + 1, h, by omega, by rw [zpow_add_one₀ two]; ring⟩
  · by_cases hs : |a + b| < 2 ^ (-1021 : Int)
    · obtain ⟨z, rfl⟩ := ha.multiple
      obtain ⟨w, rfl⟩ := hb.multiple
      exact .inr (rnd64_multiple hs (z := z + w) (by push_cast; ring))
    · obtain ⟨m, e, hm, he, h⟩ := rnd64_normal hs
      refine .inl ⟨m, e - 1, hm, by omega, ?_⟩
      unfold rnd64
      rw [if_neg hs, h, zpow_sub_one₀ two]
      ring

end
end BT
