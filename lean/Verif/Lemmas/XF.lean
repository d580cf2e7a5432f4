import Mathlib.Algebra.BigOperators.Group.List.Basic
import Mathlib.Algebra.Order.Ring.Abs
import Mathlib.Tactic.Ring
import Verif.Spec.XTarget

/-!
# Arithmetic of float64 values up to rounding
-/

set_option linter.unusedSectionVars false

namespace BT
open Spec

namespace XF
variable {K : Type} [Field K] [LinearOrder K]

theorem add_def (a b : XF K) : a + b = add a b := rfl
theorem mul_def (a b : XF K) : a * b = mul a b := rfl
theorem div_def (a b : XF K) : a / b = div a b := rfl
theorem neg_def (a : XF K) : -a = neg a := rfl
theorem sub_def (a b : XF K) : a - b = add a (neg b) := rfl
theorem zero_def : (0 : XF K) = fin 0 := rfl
theorem one_def : (1 : XF K) = fin 1 := rfl
theorem lt_def (a b : XF K) : a < b ↔ lt a b = true := Iff.rfl
theorem le_def (a b : XF K) : a ≤ b ↔ ge b a = true := Iff.rfl

/-- Exact sums do not depend on the order, also with NaN and infinities. -/
instance : AddCommMonoid (XF K) where
  add := (· + ·)
  zero := 0
  add_assoc a b c := by
    rcases a with _ | _ | a | _ <;> rcases b with _ | _ | b | _ <;> rcases c with _ | _ | c | _ <;>
      simp [add_def, add, add_assoc]
  zero_add a := by rcases a with _ | _ | a | _ <;> simp [add_def, zero_def, add]
  add_zero a := by rcases a with _ | _ | a | _ <;> simp [add_def, zero_def, add]
  add_comm a b := by
    rcases a with _ | _ | a | _ <;> rcases b with _ | _ | b | _ <;> simp [add_def, add, add_comm]
  nsmul := nsmulRec

@[simp] theorem nan_add (a : XF K) : nan + a = nan := by rcases a with _ | _ | a | _ <;> rfl
@[simp] theorem add_nan (a : XF K) : a + nan = nan := by rcases a with _ | _ | a | _ <;> rfl
@[simp] theorem nan_mul (a : XF K) : nan * a = nan := by rcases a with _ | _ | a | _ <;> rfl
@[simp] theorem mul_nan (a : XF K) : a * nan = nan := by rcases a with _ | _ | a | _ <;> rfl
@[simp] theorem nan_div (a : XF K) : nan / a = nan := by rcases a with _ | _ | a | _ <;> rfl
@[simp] theorem div_nan (a : XF K) : a / nan = nan := by rcases a with _ | _ | a | _ <;> rfl
@[simp] theorem nan_sub (a : XF K) : nan - a = nan := by rcases a with _ | _ | a | _ <;> rfl
@[simp] theorem sub_nan (a : XF K) : a - nan = nan := by rcases a with _ | _ | a | _ <;> rfl
@[simp] theorem not_nan_lt (a : XF K) : ¬ (nan < a) := by rcases a with _ | _ | a | _ <;> simp [lt_def, lt]
@[simp] theorem not_nan_le (a : XF K) : ¬ (nan ≤ a) := by rcases a with _ | _ | a | _ <;> simp [le_def, ge]

@[simp] theorem fin_add (a b : K) : (fin a + fin b : XF K) = fin (a + b) := rfl
@[simp] theorem fin_mul (a b : K) : (fin a * fin b : XF K) = fin (a * b) := rfl
@[simp] theorem fin_sub (a b : K) : (fin a - fin b : XF K) = fin (a - b) := by
  show fin (a + -b) = fin (a - b); rw [sub_eq_add_neg]
theorem fin_div (a : K) {b : K} (hb : b ≠ 0) : (fin a / fin b : XF K) = fin (a / b) := by
  simp [div_def, div, hb]

theorem pow_two' (a : XF K) : pow a 2 = a * a := by simp [pow]

theorem fin_pow (a : K) (n : Nat) : pow (fin a) n = fin (a ^ n) := by
  induction n with
  | zero => simp [pow, one_def]
  | succ n ih =>
    cases n with
    | zero => simp [pow]
    | succ n => rw [pow, ih, fin_mul, ← pow_succ]

theorem sum_fin (l : List K) : (l.map fin).sum = (fin l.sum : XF K) := by
  induction l with
  | nil => rfl
  | cons a l ih => simp [ih]

theorem isFinite_add {a b : XF K} : IsFinite (a + b) ↔ IsFinite a ∧ IsFinite b := by
  rcases a with _ | _ | a | _ <;> rcases b with _ | _ | b | _ <;> simp [add_def, add, IsFinite]

theorem isFinite_sum {l : List (XF K)} : IsFinite l.sum ↔ ∀ v ∈ l, IsFinite v := by
  induction l with
  | nil => simp [IsFinite, zero_def]
  | cons a l ih => simp [isFinite_add, ih]

/-- The sum of a list with a non-finite entry. -/
theorem sum_nonFinite (l : List (XF K)) (h : ∃ v ∈ l, ¬ IsFinite v) : l.sum = nonFiniteSum l := by
  have key : ∀ l : List (XF K), (∃ v ∈ l, ¬ IsFinite v) → l.sum = nonFiniteSum l := by
    intro l
    induction l with
    | nil => simp
    | cons a l ih =>
      intro h
      rw [List.sum_cons]
      by_cases hl : ∃ v ∈ l, ¬ IsFinite v
      · rw [ih hl]
        unfold nonFiniteSum
        simp only [List.mem_cons]
        have hex : .nan ∈ l ∨ .pinf ∈ l ∨ .ninf ∈ l := by
          obtain ⟨v, hv, hf⟩ := hl
          rcases v with _ | _ | v | _
          · exact .inl hv
          · exact .inr (.inr hv)
          · exact absurd ⟨v, rfl⟩ hf
          · exact .inr (.inl hv)
        rcases a with _ | _ | a | _ <;> by_cases h1 : XF.nan ∈ l <;> by_cases h2 : XF.pinf ∈ l <;>
          by_cases h3 : XF.ninf ∈ l <;> simp_all [add_def, add]
      · have hfin : ∀ v ∈ l, IsFinite v := by
          intro v hv
          by_contra hc
          exact hl ⟨v, hv, hc⟩
        obtain ⟨s, hs⟩ := isFinite_sum.2 hfin
        have h1 : XF.nan ∉ l := fun hm => by obtain ⟨a, ha⟩ := hfin _ hm; cases ha
        have h2 : XF.pinf ∉ l := fun hm => by obtain ⟨a, ha⟩ := hfin _ hm; cases ha
        have h3 : XF.ninf ∉ l := fun hm => by obtain ⟨a, ha⟩ := hfin _ hm; cases ha
        rw [hs]
        have ha : ¬ IsFinite a := by
          obtain ⟨v, hv, hf⟩ := h
          rcases List.mem_cons.1 hv with rfl | hv
          · exact hf
          · exact absurd (hfin v hv) hf
        unfold nonFiniteSum
        rcases a with _ | _ | a | _
        · simp
        · simp [add_def, add, h1, h2, h3]
        · exact absurd ⟨a, rfl⟩ ha
        · simp [add_def, add, h1, h2, h3]
  exact key l h

end XF

end BT
