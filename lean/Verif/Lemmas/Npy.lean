import Verif.Model.Tree
import Mathlib.Data.List.Basic
import Mathlib.Data.List.Nodup
import Mathlib.Data.List.Perm.Basic

/-! Lemmas about the numpy helpers. -/

namespace BT

theorem npWhere_nil : npWhere [] = [] := rfl

theorem npWhere_cons (b : Bool) (bs : List Bool) :
    npWhere (b :: bs) = (if b then [0] else []) ++ (npWhere bs).map Nat.succ := by
  unfold npWhere
  rw [List.length_cons, List.range_succ_eq_map, List.filter_cons, List.filter_map]
  have : ((fun i => (b :: bs).getD i false) ∘ Nat.succ) = fun i => bs.getD i false := by
    funext i; simp
  rw [this]
  cases b <;> simp

theorem mem_npWhere {bs : List Bool} {i : Nat} : i ∈ npWhere bs ↔ bs[i]? = some true := by
  unfold npWhere
  simp only [List.mem_filter, List.mem_range, List.getD_eq_getElem?_getD]
  constructor
  · rintro ⟨h, h2⟩
    rw [List.getElem?_eq_getElem h] at h2 ⊢
    simpa using h2
  · intro h
    have hl : i < bs.length := by
      by_contra hc
      rw [List.getElem?_eq_none (by omega)] at h
      cases h
    exact ⟨hl, by simp [h]⟩

theorem npWhere_lt {bs : List Bool} {i : Nat} (h : i ∈ npWhere bs) : i < bs.length := by
  unfold npWhere at h
  simp only [List.mem_filter, List.mem_range] at h
  exact h.1

theorem npWhere_nodup (bs : List Bool) : (npWhere bs).Nodup :=
  List.Nodup.filter _ List.nodup_range

theorem take1_npWhere (l : List Nat) (f : Nat → Bool) :
    take1 l (npWhere (l.map f)) = l.filter f := by
  induction l with
  | nil => rfl
  | cons a l ih =>
    rw [List.map_cons, npWhere_cons]
    unfold take1 at ih ⊢
    rw [List.map_append, List.map_map]
    have : ((fun j => (a :: l).getD j 0) ∘ Nat.succ) = fun j => l.getD j 0 := by
      funext i; simp
    rw [this, ih, List.filter_cons]
    cases f a <;> simp

theorem npWhere_map_length {α : Type} (l : List α) (f : α → Bool) :
    (npWhere (l.map f)).length = (l.filter f).length := by
  induction l with
  | nil => rfl
  | cons a l ih =>
    rw [List.map_cons, npWhere_cons, List.filter_cons]
    cases f a <;> simp [ih]

/-- first-maximum specification -/
theorem argmaxAux_spec {S : Type} [LinearOrder S] (x : S) (xs : List S) :
    (x :: xs)[(argmaxAux x xs).1]? = some (argmaxAux x xs).2 ∧
    (∀ y ∈ x :: xs, y ≤ (argmaxAux x xs).2) ∧
    (∀ j, j < (argmaxAux x xs).1 → ∀ y, (x :: xs)[j]? = some y → y < (argmaxAux x xs).2) := by
  induction xs generalizing x with
  | nil => simp [argmaxAux]
  | cons a l ih =>
    obtain ⟨h1, h2, h3⟩ := ih a
    simp only [argmaxAux]
    split
    · next hlt =>
      refine ⟨by simpa using h1, ?_, ?_⟩
      · intro y hy
        rcases List.mem_cons.1 hy with rfl | hy
        · exact hlt.le
        · exact h2 y hy
      · intro j hj y hy
        cases j with
        | zero => simp at hy; subst hy; exact hlt
        | succ j => exact h3 j (by simpa using hj) y (by simpa using hy)
    · next hge =>
      refine ⟨by simp, ?_, by simp⟩
      intro y hy
      rcases List.mem_cons.1 hy with rfl | hy
      · exact le_rfl
      · exact (h2 y hy).trans (not_lt.1 hge)

theorem argmax_spec {S : Type} [LinearOrder S] {l : List S} (h : l ≠ []) :
    ∃ v, l[argmax l]? = some v ∧ (∀ y ∈ l, y ≤ v) ∧
      ∀ j, j < argmax l → ∀ y, l[j]? = some y → y < v := by
  cases l with
  | nil => exact absurd rfl h
  | cons x xs => exact ⟨_, argmaxAux_spec x xs⟩

theorem argmax_lt {S : Type} [LinearOrder S] {l : List S} (h : l ≠ []) : argmax l < l.length := by
  obtain ⟨v, hv, _⟩ := argmax_spec h
  exact (List.getElem?_eq_some_iff.1 hv).1

/-- The first maximum is characterised by its value and minimality. -/
theorem argmax_unique {S : Type} [LinearOrder S] {l : List S} {i : Nat} {v : S}
    (h1 : l[i]? = some v) (h2 : ∀ y ∈ l, y ≤ v)
    (h3 : ∀ j, j < i → ∀ y, l[j]? = some y → y < v) : argmax l = i := by
  have hne : l ≠ [] := by rintro rfl; simp at h1
  obtain ⟨w, hw, hw2, hw3⟩ := argmax_spec hne
  have e : v = w := le_antisymm (hw2 v (List.mem_of_getElem? h1)) (h2 w (List.mem_of_getElem? hw))
  subst e
  rcases lt_trichotomy (argmax l) i with hlt | heq | hgt
  · exact absurd (h3 _ hlt _ hw) (lt_irrefl _)
  · exact heq
  · exact absurd (hw3 _ hgt _ h1) (lt_irrefl _)

theorem distinct_mem {α : Type} [DecidableEq α] {l : List α} {a : α} : a ∈ distinct l ↔ a ∈ l := by
  induction l with
  | nil => simp [distinct]
  | cons x xs ih =>
    unfold distinct
    split
    · next h => rw [ih, List.mem_cons]; constructor
                · exact Or.inr
                · rintro (rfl | h2)
                  · exact h
                  · exact h2
    · simp [ih]

theorem distinct_nodup {α : Type} [DecidableEq α] (l : List α) : (distinct l).Nodup := by
  induction l with
  | nil => simp [distinct]
  | cons x xs ih =>
    unfold distinct
    split
    · exact ih
    · next h => exact List.nodup_cons.2 ⟨fun hm => h (distinct_mem.1 hm), ih⟩

theorem distinct_perm {α : Type} [DecidableEq α] {l l' : List α} (h : l.Perm l') :
    (distinct l).Perm (distinct l') :=
  (List.perm_ext_iff_of_nodup (distinct_nodup l) (distinct_nodup l')).2 fun a => by
    rw [distinct_mem, distinct_mem, h.mem_iff]

/-- More than one distinct value iff two entries differ. -/
theorem one_lt_distinct {α : Type} [DecidableEq α] {l : List α} :
    1 < (distinct l).length ↔ ∃ a ∈ l, ∃ b ∈ l, a ≠ b := by
  constructor
  · intro h
    match hd : distinct l, h with
    | a :: b :: r, _ =>
      have hn := distinct_nodup l
      rw [hd] at hn
      refine ⟨a, distinct_mem.1 (hd ▸ by simp), b, distinct_mem.1 (hd ▸ by simp), ?_⟩
      rintro rfl
      simp at hn
  · rintro ⟨a, ha, b, hb, hab⟩
    by_contra hc
    have ha' := distinct_mem.2 ha
    have hb' := distinct_mem.2 hb
    match hd : distinct l with
    | [] => rw [hd] at ha'; simp at ha'
    | [c] => rw [hd] at ha' hb'; simp at ha' hb'; exact hab (ha'.trans hb'.symm)
    | _ :: _ :: _ => rw [hd] at hc; simp at hc

end BT
