import Verif.Spec.Prob
import Verif.Lemmas.Target
import Verif.Lemmas.Fit
import Verif.Lemmas.Ops
import Mathlib.Algebra.Order.Ring.Rat
import Mathlib.Algebra.Field.Rat

/-!
# A concrete training set used by the non-vacuity examples
-/

namespace BT
open Spec

theorem dirMult_perm {K : Type} [Field K] [LinearOrder K] (prior : List K) {a b : List K}
    (h : a.Perm b) : dirMult prior a = dirMult prior b := by
  unfold dirMult
  simp only [count_perm h]

theorem prob_lawful (K : Type) [Field K] [LinearOrder K] :
    LawfulTarget (probTarget K) (probPair (K := K)) where
  getPrior_some _ _ _ := rfl
  posterior_perm y y' prior delta h := (cls_lawful ⟨id, id, fun _ b => b, 0⟩).posterior_perm y y' prior delta h
  noSplit_perm pp lv y y' prior h := by
    show (1 - pp ^ (lv + 1)) * dirMult prior y = (1 - pp ^ (lv + 1)) * dirMult prior y'
    rw [dirMult_perm prior h]
  pair_perm pp lv prior nd ns a a' b b' ha hb := by
    unfold probPair
    rw [dirMult_perm prior ha, dirMult_perm prior hb]
  logSplit_eq pp lv y prior nd si _ _ := rfl

/-- Insertion of a position into a sorted list of positions. -/
def insPos {V : Type} (le : V → V → Bool) (xs : List V) (i : Nat) : List Nat → List Nat
  | [] => [i]
  | j :: js =>
    match xs[i]?, xs[j]? with
    | some a, some b => if le a b then i :: j :: js else j :: insPos le xs i js
    | _, _ => i :: j :: js

/-- Insertion argsort; structurally recursive, so the kernel can evaluate it. -/
def insArgsort {V : Type} (le : V → V → Bool) (xs : List V) : List Nat :=
  (List.range xs.length).foldr (insPos le xs) []

theorem insPos_perm {V : Type} (le : V → V → Bool) (xs : List V) (i : Nat) (l : List Nat) :
    (insPos le xs i l).Perm (i :: l) := by
  induction l with
  | nil => exact List.Perm.refl _
  | cons j js ih =>
    unfold insPos
    split
    · split
      · exact List.Perm.refl _
      · exact (List.Perm.cons j ih).trans (List.Perm.swap i j js)
    · exact List.Perm.refl _

theorem insArgsort_spec {V K : Type} {o : XOps V K} {ok : V → Prop} {prec : K}
    (ho : LawfulOps o ok prec) : IsArgsort o.le ok (insArgsort o.le) where
  perm xs _ := by
    unfold insArgsort
    induction (List.range xs.length) with
    | nil => exact List.Perm.refl _
    | cons a l ih => exact (insPos_perm _ _ _ _).trans (List.Perm.cons a ih)
  sorted xs hok := by
    unfold insArgsort
    have hr : ∀ i ∈ List.range xs.length, i < xs.length := fun i hi => List.mem_range.1 hi
    generalize List.range xs.length = l at hr
    have hfold : ∀ l : List Nat, (List.foldr (insPos o.le xs) [] l).Perm l := by
      intro l
      induction l with
      | nil => exact List.Perm.refl _
      | cons a l ih => exact (insPos_perm _ _ _ _).trans (List.Perm.cons a ih)
    induction l with
    | nil => exact List.Pairwise.nil
    | cons i l ih =>
      have hi : i < xs.length := hr i (by simp)
      have hs := ih fun j hj => hr j (by simp [hj])
      have hin : ∀ j ∈ List.foldr (insPos o.le xs) [] l, j < xs.length := fun j hj =>
        hr j (by simp [(hfold l).mem_iff.1 hj])
      rw [List.foldr_cons]
      revert hs hin
      generalize List.foldr (insPos o.le xs) [] l = m
      intro hs hin
      induction m with
      | nil => exact List.pairwise_singleton _ _
      | cons j js ihm =>
        have hj : j < xs.length := hin j (by simp)
        have hokv : ∀ k (hk : k < xs.length), ok xs[k] := fun k hk => hok _ (List.getElem_mem _)
        rw [List.pairwise_cons] at hs
        unfold insPos
        rw [List.getElem?_eq_getElem hi, List.getElem?_eq_getElem hj]
        simp only
        split
        · next hle =>
          refine List.pairwise_cons.2 ⟨?_, List.pairwise_cons.2 hs⟩
          intro k hk a b ha hb
          have ea : xs[i] = a := by simpa [hi] using ha
          rcases List.mem_cons.1 hk with rfl | hk
          · have eb : xs[k] = b := by simpa [hj] using hb
            rw [← ea, ← eb]; exact hle
          · have hk' := hin k (by simp [hk])
            have eb : xs[k] = b := by simpa [hk'] using hb
            rw [← ea, ← eb]
            exact ho.le_trans _ _ _ (hokv i hi) (hokv j hj) (hokv k hk') hle
              (hs.1 k hk _ _ (by simp) (by simp))
        · next hle =>
          refine List.pairwise_cons.2 ⟨?_, ihm hs.2 fun k hk => hin k (by simp [hk])⟩
          intro k hk a b ha hb
          have ea : xs[j] = a := by simpa [hj] using ha
          rcases List.mem_cons.1 ((insPos_perm _ _ _ _).mem_iff.1 hk) with rfl | hk
          · have eb : xs[k] = b := by simpa [hi] using hb
            rw [← ea, ← eb]
            rcases ho.le_total _ _ (hokv k hi) (hokv j hj) with h | h
            · exact absurd h hle
            · exact h
          · exact hs.1 k hk a b ha hb

/-- Matrix and vector from lists. -/
def matOf {V : Type} (d : V) (rows : List (List V)) : Nat → Nat → V := fun i j => (rows.getD i []).getD j d
def vecOf {K : Type} (d : K) (ys : List K) : Nat → K := fun i => ys.getD i d

/-- Sample: two features, twelve rows, two classes; needs two splits.  Feature 1 is constant. -/
def sampleX : Nat → Nat → ℚ := matOf 0
  [[0, 7], [1, 7], [2, 7], [3, 7], [4, 7], [5, 7], [0, 7], [1, 7], [2, 7], [3, 7], [4, 7], [5, 7]]
def sampleY : Nat → ℚ := vecOf 0 [0, 0, 1, 1, 0, 0, 0, 0, 1, 1, 0, 0]
def sampleHp : Hyper ℚ := ⟨9 / 10, 0, false, 0⟩

/-- The sample's context. -/
def sampleCtx : Ctx ℚ ℚ (List ℚ) ℚ (List ℚ) where
  o := exactOps ℚ
  T := probTarget ℚ
  pair := probPair
  hp := sampleHp
  X := sampleX
  y := sampleY
  nDim := 2
  names := ["a", "b"]

/-- Fit of the sample. -/
def sampleFit : Except Err (PNode ℚ ℚ ℚ (List ℚ)) :=
  fitIn sampleCtx (insArgsort (exactOps ℚ).le) (some [1, 1]) 12

/-- The fitted sample tree, three leaves. -/
def sampleTree : PNode ℚ ℚ ℚ (List ℚ) :=
  .split ⟨sampleHp, some [1, 1], 0, some 2, 12, [9, 5]⟩ ⟨0, "a", 3 / 2⟩ (1 / 64350) (1 / 35000)
    (.leaf ⟨sampleHp, some [1, 1], 1, none, 4, [5, 1]⟩)
    (.split ⟨sampleHp, some [1, 1], 1, some 2, 8, [5, 5]⟩ ⟨0, "a", 7 / 2⟩ (19 / 63000) (27 / 5000)
      (.leaf ⟨sampleHp, some [1, 1], 2, none, 4, [1, 5]⟩)
      (.leaf ⟨sampleHp, some [1, 1], 2, none, 4, [5, 1]⟩))

instance {ε α : Type} [DecidableEq ε] [DecidableEq α] : DecidableEq (Except ε α)
  | .ok a, .ok b => if h : a = b then isTrue (h ▸ rfl) else isFalse fun e => h (Except.ok.inj e)
  | .error a, .error b => if h : a = b then isTrue (h ▸ rfl) else isFalse fun e => h (Except.error.inj e)
  | .ok _, .error _ => isFalse (by simp)
  | .error _, .ok _ => isFalse (by simp)

theorem sampleFit_eq : sampleFit = .ok sampleTree := by decide +kernel

theorem sample_valid : Valid (fun _ => True) sampleCtx (insArgsort (exactOps ℚ).le) 12 where
  ops := exact_lawful (le_refl 0)
  target := prob_lawful ℚ
  sort := insArgsort_spec (exact_lawful (le_refl (0 : ℚ)))
  dims := by decide
  rows := by decide
  vals _ _ _ _ := trivial

end BT
