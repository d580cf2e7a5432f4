import Verif.Model.XF
import Verif.Spec.Perp
import Mathlib.Algebra.Order.Field.Basic
import Mathlib.Algebra.Order.AbsoluteValue.Basic
import Mathlib.Data.List.FinRange
import Mathlib.Tactic.Linarith
import Mathlib.Tactic.Ring

/-!
# Exact and IEEE-like feature values satisfy the laws used by the fit; an argsort exists
-/

namespace BT
open Spec

section
variable {K : Type} [Field K] [LinearOrder K] [IsStrictOrderedRing K]

theorem exact_gap_lt {prec a b : K} (hp : 0 ≤ prec) (hab : a ≤ b) (h : prec < |b - a|) : a < b := by
  rcases hab.lt_or_eq with h' | h'
  · exact h'
  · subst h'; simp at h; exact absurd h (not_lt.2 hp)

/-- Exact arithmetic is lawful for every non-negative precision. -/
theorem exact_lawful {prec : K} (hp : 0 ≤ prec) : LawfulOps (exactOps K) (fun _ => True) prec where
  le_trans a b c _ _ _ h1 h2 := by
    simp only [exactOps, decide_eq_true_eq] at *
    exact h1.trans h2
  le_total a b _ _ := by
    simp only [exactOps, decide_eq_true_eq]
    exact le_total a b
  le_antisymm a b _ _ h1 h2 := by
    simp only [exactOps, decide_eq_true_eq] at *
    exact le_antisymm h1 h2
  below a b x _ _ _ hab hg hx := by
    simp only [exactOps, decide_eq_true_eq, decide_eq_false_iff_not] at *
    have := exact_gap_lt hp hab hg
    constructor
    · linarith
    · intro h; linarith
  above a b x _ _ _ hab hg hx := by
    simp only [exactOps, decide_eq_true_eq, decide_eq_false_iff_not] at *
    have := exact_gap_lt hp hab hg
    constructor
    · intro h; linarith
    · linarith

/-- A finite value. -/
def XF.IsFin (v : XF K) : Prop := ∃ x, v = .fin x

/-- IEEE-like values are lawful as long as the data is finite. -/
theorem xf_lawful {prec : K} (hp : 0 ≤ prec) : LawfulOps (xfOps K) XF.IsFin prec where
  le_trans := by
    rintro _ _ _ ⟨a, rfl⟩ ⟨b, rfl⟩ ⟨c, rfl⟩ h1 h2
    simp only [xfOps, XF.sortLe, decide_eq_true_eq] at *
    exact h1.trans h2
  le_total := by
    rintro _ _ ⟨a, rfl⟩ ⟨b, rfl⟩
    simp only [xfOps, XF.sortLe, decide_eq_true_eq]
    exact le_total a b
  le_antisymm := by
    rintro _ _ ⟨a, rfl⟩ ⟨b, rfl⟩ h1 h2
    simp only [xfOps, XF.sortLe, decide_eq_true_eq] at *
    rw [le_antisymm h1 h2]
  below := by
    rintro _ _ _ ⟨a, rfl⟩ ⟨b, rfl⟩ ⟨x, rfl⟩ hab hg hx
    simp only [xfOps, XF.sortLe, XF.lt, XF.ge, XF.half, XF.add, XF.neg, XF.absGt, decide_eq_true_eq,
      decide_eq_false_iff_not] at *
    have := exact_gap_lt hp hab (by rw [sub_eq_add_neg]; exact hg)
    constructor
    · linarith
    · intro h; linarith
  above := by
    rintro _ _ _ ⟨a, rfl⟩ ⟨b, rfl⟩ ⟨x, rfl⟩ hab hg hx
    simp only [xfOps, XF.sortLe, XF.lt, XF.ge, XF.half, XF.add, XF.neg, XF.absGt, decide_eq_true_eq,
      decide_eq_false_iff_not] at *
    have := exact_gap_lt hp hab (by rw [sub_eq_add_neg]; exact hg)
    constructor
    · intro h; linarith
    · linarith

end

/-- A stable argsort (what `np.argsort(kind='stable')` computes); shows that the contract `IsArgsort`
can be met. -/
def stableArgsort {V : Type} (le : V → V → Bool) (xs : List V) : List Nat :=
  ((List.finRange xs.length).mergeSort fun i j => le xs[i] xs[j]).map Fin.val

theorem stableArgsort_spec {V K : Type} {o : XOps V K} {ok : V → Prop} {prec : K}
    (ho : LawfulOps o ok prec) : IsArgsort o.le ok (stableArgsort o.le) where
  perm xs _ := by
    unfold stableArgsort
    refine ((List.mergeSort_perm _ _).map Fin.val).trans ?_
    rw [List.map_coe_finRange_eq_range]
  sorted xs hok := by
    unfold stableArgsort
    rw [List.pairwise_map]
    have hm : ∀ i : Fin xs.length, ok xs[i] := fun i => hok _ (List.getElem_mem _)
    refine List.Pairwise.imp (R := fun (i j : Fin xs.length) => o.le xs[i] xs[j] = true) ?_
      (List.pairwise_mergeSort (le := fun (i j : Fin xs.length) => o.le xs[i] xs[j])
        (fun a b c h1 h2 => ho.le_trans _ _ _ (hm a) (hm b) (hm c) h1 h2)
        (fun a b => by simpa using ho.le_total _ _ (hm a) (hm b)) _)
    intro i j h a b ha hb
    have e1 : xs[i] = a := by simpa using ha
    have e2 : xs[j] = b := by simpa using hb
    rw [← e1, ← e2]; exact h

end BT
