import Verif.Lemmas.XF
import Verif.Lemmas.PerpFit
import Verif.Lemmas.Built
import Verif.Model.HyperX
import Verif.Props.Regression

/-!
# Regression scores of targets with non-finite entries
-/

set_option linter.unusedSectionVars false

namespace BT
open Spec

namespace XF
variable {K : Type} [Field K] [LinearOrder K] [IsStrictOrderedRing K]

theorem sq_nonFinite {v : XF K} (h : ¬ IsFinite v) : pow v 2 = .nan ∨ pow v 2 = .pinf := by
  rcases v with _ | _ | v | _
  · left; rw [pow_two']; rfl
  · right; rw [pow_two']; rfl
  · exact absurd ⟨v, rfl⟩ h
  · right; rw [pow_two']; rfl

theorem sum_nan {l : List (XF K)} (h : .nan ∈ l) : l.sum = .nan := by
  rw [sum_nonFinite l ⟨_, h, by simp [IsFinite]⟩]
  simp [nonFiniteSum, h]

theorem sq_sum {ys : List (XF K)} (h : ∃ v ∈ ys, ¬ IsFinite v) (hn : .nan ∉ ys) :
    (ys.map fun v => pow v 2).sum = .pinf := by
  obtain ⟨v, hv, hf⟩ := h
  have hv2 : pow v 2 = .pinf := by
    rcases v with _ | _ | v | _
    · exact absurd hv hn
    · rw [pow_two']; rfl
    · exact absurd ⟨v, rfl⟩ hf
    · rw [pow_two']; rfl
  have hp : XF.pinf ∈ ys.map fun v => pow v 2 := by rw [← hv2]; exact List.mem_map.2 ⟨v, hv, rfl⟩
  have h1 : XF.nan ∉ ys.map fun v => pow v 2 := by
    intro hm
    obtain ⟨w, hw, e⟩ := List.mem_map.1 hm
    rcases w with _ | _ | w | _
    · exact hn hw
    · rw [pow_two'] at e; cases e
    · rw [pow_two'] at e; cases e
    · rw [pow_two'] at e; cases e
  have h2 : XF.ninf ∉ ys.map fun v => pow v 2 := by
    intro hm
    obtain ⟨w, hw, e⟩ := List.mem_map.1 hm
    rcases w with _ | _ | w | _
    · rw [pow_two'] at e; cases e
    · rw [pow_two'] at e; cases e
    · rw [pow_two'] at e; cases e
    · rw [pow_two'] at e; cases e
  rw [sum_nonFinite _ ⟨_, hp, by simp [IsFinite]⟩]
  simp [nonFiniteSum, h1, h2, hp]

/-- The sum of squared deviations of targets with a non-finite entry is NaN: `inf - inf` if none of them is NaN. -/
theorem deviation_nan {ys : List (XF K)} (h : ∃ v ∈ ys, ¬ IsFinite v) (n : Nat) :
    (ys.map fun v => pow v 2).sum - pow ys.sum 2 / nat n = .nan := by
  by_cases hn : XF.nan ∈ ys
  · rw [sum_nan hn, show (ys.map fun v => pow v 2).sum = .nan from
      sum_nan (List.mem_map.2 ⟨_, hn, by rw [pow_two']; rfl⟩)]
    simp
  · rw [sq_sum h hn, sum_nonFinite ys h]
    have h0 : (0 : K) ≤ (n : K) := Nat.cast_nonneg n
    unfold nonFiniteSum nat
    split
    · rw [pow_two']; simp
    · split
      · rw [pow_two']; simp [mul_def, mul, div_def, div, h0, sub_def, neg, add]
      · rw [pow_two']; simp [mul_def, mul, div_def, div, h0, sub_def, neg, add]

theorem mul_finite {a : K} (ha : 0 < a) {v : XF K} : fin a * v = match v with
    | .fin b => .fin (a * b)
    | v => v := by
  rcases v with _ | _ | v | _
  · rfl
  · simp [mul_def, mul, signed, ha.ne', ha.le]
  · rfl
  · simp [mul_def, mul, signed, ha.ne', ha]

theorem div_finite {a : K} (ha : 0 < a) {v : XF K} (hv : ¬ IsFinite v) : v / fin a = v := by
  rcases v with _ | _ | v | _
  · rfl
  · simp [div_def, div, ha.le]
  · exact absurd ⟨v, rfl⟩ hv
  · simp [div_def, div, ha.le]

theorem mul_finite' {a : K} (ha : 0 < a) {v : XF K} (hv : ¬ IsFinite v) : fin a * v = v := by
  rw [mul_finite ha]
  rcases v with _ | _ | v | _
  · rfl
  · rfl
  · exact absurd ⟨v, rfl⟩ hv
  · rfl

theorem add_finite {a : K} {v : XF K} (hv : ¬ IsFinite v) : fin a + v = v := by
  rcases v with _ | _ | v | _
  · rfl
  · rfl
  · exact absurd ⟨v, rfl⟩ hv
  · rfl

theorem div_nonFinite {v w : XF K} (hv : ¬ IsFinite v) : ¬ IsFinite (v / w) := by
  rcases v with _ | _ | v | _ <;> rcases w with _ | _ | w | _ <;> simp [div_def, div, IsFinite] at hv ⊢ <;>
    split <;> simp

theorem nonFiniteSum_nonFinite (l : List (XF K)) : ¬ IsFinite (nonFiniteSum l) := by
  unfold nonFiniteSum
  split
  · simp [IsFinite]
  · split <;> simp [IsFinite]

end XF

section
variable {K : Type} [Field K] [LinearOrder K] [IsStrictOrderedRing K]

theorem ngPosteriorX_beta (prior : NG (XF K)) {ys : List (XF K)} (h : ∃ v ∈ ys, ¬ IsFinite v) (n : Nat)
    (delta : XF K) :
    (ngPosteriorX prior n ys.sum (ys.map fun v => XF.pow v 2).sum delta).beta = .nan := by
  unfold ngPosteriorX
  simp only [XF.deviation_nan h n]
  simp

theorem ngLogPDataX_nan (F : XFns K) (hF : F.log .nan = .nan) (prior : NG (XF K)) (a k : XF K) (n : Nat) :
    ngLogPDataX F prior a .nan k n = .nan := by
  unfold ngLogPDataX
  simp [hF]

/-- The likelihood without a split is NaN. -/
theorem regLogNoSplitX_nan (F : XFns K) (hF : F.log .nan = .nan) (pp : XF K) (lv : Nat) {ys : List (XF K)}
    (h : ∃ v ∈ ys, ¬ IsFinite v) (prior : NG (XF K)) : regLogNoSplitX F pp lv ys prior = .nan := by
  unfold regLogNoSplitX
  simp only [ngPosteriorX_beta prior h ys.length 1, ngLogPDataX_nan F hF]
  simp

/-- The likelihood of every split is NaN: one of the sides has the non-finite target. -/
theorem regLogSplitX_nan (F : XFns K) (hF : F.log .nan = .nan) (pp : XF K) (lv : Nat) {y : List (XF K)}
    (h : ∃ v ∈ y, ¬ IsFinite v) (prior : NG (XF K)) (nd : Nat) (si : List Nat)
    (hsi : ∀ k ∈ si, 1 ≤ k ∧ k < y.length) (hp : si.Pairwise (· < ·)) :
    regLogSplitX F pp lv y prior nd si = si.map fun _ => .nan := by
  unfold regLogSplitX
  simp only
  apply List.ext_getElem
  · simp
  · intro j h1 h2
    have hj : j < si.length := by simpa using h2
    have hk := hsi si[j] (List.getElem_mem hj)
    simp only [List.getElem_map, List.getElem_range, gather_shortcut _ _ _ si hsi hp j hj]
    set k := si[j] with hkdef
    have s1 : (cumsum y).dropLast[k - 1]? = some (y.take k).sum := by
      rw [List.getElem?_dropLast, if_pos (by rw [cumsum_length]; omega), cumsum_get _ _ (by omega),
        Nat.sub_add_cancel hk.1]
    have q1 : (cumsum (y.dropLast.map fun v => XF.pow v 2))[k - 1]? =
        some ((y.take k).map fun v => XF.pow v 2).sum := by
      rw [cumsum_get _ _ (by simp; omega), Nat.sub_add_cancel hk.1, ← List.map_take,
        List.dropLast_eq_take, List.take_take, min_eq_left (by omega)]
    simp only [List.getD_eq_getElem?_getD, List.getElem?_map, s1, q1, Option.map_some,
      Option.getD_some]
    by_cases ht : ∃ v ∈ y.take k, ¬ IsFinite v
    · rw [ngPosteriorX_beta prior ht, ngLogPDataX_nan F hF]
      simp
    · have hfin : ∀ v ∈ y.take k, IsFinite v := by
        intro v hv
        by_contra hc
        exact ht ⟨v, hv, hc⟩
      have hd : ∃ v ∈ y.drop k, ¬ IsFinite v := by
        obtain ⟨v, hv, hf⟩ := h
        rw [← List.take_append_drop k y] at hv
        rcases List.mem_append.1 hv with hv | hv
        · exact absurd (hfin v hv) hf
        · exact ⟨v, hv, hf⟩
      have hsq : ∀ v ∈ (y.take k).map fun v => XF.pow v 2, IsFinite v := by
        intro w hw
        obtain ⟨v, hv, rfl⟩ := List.mem_map.1 hw
        obtain ⟨a, rfl⟩ := hfin v hv
        exact ⟨a ^ 2, XF.fin_pow a 2⟩
      obtain ⟨s, hs⟩ := XF.isFinite_sum.2 hfin
      obtain ⟨q, hq⟩ := XF.isFinite_sum.2 hsq
      have cancel : ∀ (a : K) (b : XF K), ¬ IsFinite b → (XF.fin a + b) - XF.fin a = b := by
        intro a b hb
        rcases b with _ | _ | b | _
        · rfl
        · rfl
        · exact absurd ⟨b, rfl⟩ hb
        · rfl
      have es : y.sum - (y.take k).sum = (y.drop k).sum := by
        conv_lhs => rw [← List.take_append_drop k y]
        rw [List.sum_append, List.take_append_drop, hs]
        exact cancel s _ (by rw [XF.sum_nonFinite _ hd]; exact XF.nonFiniteSum_nonFinite _)
      have eq : (y.map fun v => XF.pow v 2).sum - ((y.take k).map fun v => XF.pow v 2).sum =
          ((y.drop k).map fun v => XF.pow v 2).sum := by
        conv_lhs => rw [← List.take_append_drop k y]
        rw [List.map_append, List.sum_append, List.take_append_drop, hq]
        refine cancel q _ ?_
        obtain ⟨v, hv, hf⟩ := hd
        rw [XF.isFinite_sum]
        intro hc
        obtain ⟨a, ha⟩ := hc _ (List.mem_map.2 ⟨v, hv, rfl⟩)
        rcases XF.sq_nonFinite hf with e | e <;> rw [e] at ha <;> cases ha
      rw [es, eq, ngPosteriorX_beta prior hd, ngLogPDataX_nan F hF]
      simp

/-- The posterior mean is not a number. -/
theorem regPosteriorX_mu (prior : NG (XF K)) {ys : List (XF K)} (h : ∃ v ∈ ys, ¬ IsFinite v) :
    ¬ IsFinite (regPosteriorX ys prior 1).mu := by
  have h1 : (1 : XF K) ≠ 0 := fun h => one_ne_zero (XF.fin.inj h)
  have hlen : 0 < ys.length := by obtain ⟨v, hv, -⟩ := h; exact List.length_pos_of_mem hv
  have hn : (0 : K) < (ys.length : K) := Nat.cast_pos.2 hlen
  unfold regPosteriorX ngPosteriorX
  rw [if_neg h1]
  apply XF.div_nonFinite
  rw [XF.isFinite_add]
  rintro ⟨-, hf⟩
  have hs : ¬ IsFinite ys.sum := by rw [XF.sum_nonFinite ys h]; exact XF.nonFiniteSum_nonFinite _
  have : XF.nat ys.length * 1 * ys.sum / XF.nat ys.length = ys.sum := by
    rw [XF.one_def, XF.nat, XF.fin_mul, mul_one, XF.mul_finite' hn hs, XF.div_finite hn hs]
  rw [this] at hf
  exact hs hf

/-- With a finite prior the posterior mean is the sum of the targets. -/
theorem regPosteriorX_mu_eq (m k : K) (a b : XF K) {ys : List (XF K)} (h : ∃ v ∈ ys, ¬ IsFinite v)
    (hk : 0 < k + (ys.length : K)) :
    (regPosteriorX ys ⟨.fin m, .fin k, a, b⟩ 1).mu = nonFiniteSum ys := by
  have h1 : (1 : XF K) ≠ 0 := fun h => one_ne_zero (XF.fin.inj h)
  have hlen : 0 < ys.length := by obtain ⟨v, hv, -⟩ := h; exact List.length_pos_of_mem hv
  have hn : (0 : K) < (ys.length : K) := Nat.cast_pos.2 hlen
  have hs : ¬ IsFinite ys.sum := by rw [XF.sum_nonFinite ys h]; exact XF.nonFiniteSum_nonFinite _
  unfold regPosteriorX ngPosteriorX
  rw [if_neg h1]
  have : XF.nat ys.length * 1 * ys.sum / XF.nat ys.length = ys.sum := by
    rw [XF.one_def, XF.nat, XF.fin_mul, mul_one, XF.mul_finite' hn hs, XF.div_finite hn hs]
  simp only [this]
  rw [XF.one_def, XF.nat, XF.fin_mul, XF.fin_mul, mul_one, XF.fin_add, XF.add_finite hs, XF.div_finite hk hs,
    XF.sum_nonFinite ys h]

theorem regPosteriorX_beta (prior : NG (XF K)) {ys : List (XF K)} (h : ∃ v ∈ ys, ¬ IsFinite v) :
    (regPosteriorX ys prior 1).beta = .nan := by
  have h1 : (1 : XF K) ≠ 0 := fun h => one_ne_zero (XF.fin.inj h)
  unfold regPosteriorX
  rw [if_neg h1]
  exact ngPosteriorX_beta prior h _ _

end

end BT
