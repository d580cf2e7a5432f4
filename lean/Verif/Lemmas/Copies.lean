import Verif.Spec.Copies
import Verif.Spec.Closed
import Verif.Lemmas.MaxLikList

/-!
# Lemmas on repeated data sets
-/

namespace BT
open Spec

section
variable {α β : Type}

theorem copies_zero (l : List α) : copies 0 l = [] := rfl

theorem copies_succ (k : Nat) (l : List α) : copies (k + 1) l = l ++ copies k l := by
  unfold copies
  rw [List.replicate_succ, List.flatten_cons]

theorem copies_succ' (k : Nat) (l : List α) : copies (k + 1) l = copies k l ++ l := by
  unfold copies
  rw [List.replicate_succ', List.flatten_append]
  simp

theorem map_copies (f : α → β) (k : Nat) (l : List α) : (copies k l).map f = copies k (l.map f) := by
  induction k with
  | zero => rfl
  | succ k ih => rw [copies_succ, copies_succ, List.map_append, ih]

theorem filter_copies (f : α → Bool) (k : Nat) (l : List α) : (copies k l).filter f = copies k (l.filter f) := by
  induction k with
  | zero => rfl
  | succ k ih => rw [copies_succ, copies_succ, List.filter_append, ih]

theorem length_copies (k : Nat) (l : List α) : (copies k l).length = k * l.length := by
  induction k with
  | zero => simp [copies_zero]
  | succ k ih => rw [copies_succ, List.length_append, ih]; ring

theorem mem_copies {k : Nat} (hk : 0 < k) {l : List α} {a : α} : a ∈ copies k l ↔ a ∈ l := by
  unfold copies
  rw [List.mem_flatten]
  constructor
  · rintro ⟨l', h1, h2⟩
    rw [List.eq_of_mem_replicate h1] at h2
    exact h2
  · exact fun h => ⟨l, List.mem_replicate.2 ⟨hk.ne', rfl⟩, h⟩

theorem count_copies (k : Nat) (ys : List ℝ) (i : Nat) : count (copies k ys) i = k * count ys i := by
  unfold count
  rw [filter_copies, length_copies]

theorem range_mod (k n : Nat) : (List.range (k * n)).map (· % n) = copies k (List.range n) := by
  induction k with
  | zero => simp [copies_zero]
  | succ k ih =>
    rw [Nat.succ_mul, List.range_add, List.map_append, ih, copies_succ', List.map_map]
    congr 1
    conv_rhs => rw [← List.map_id (List.range n)]
    refine List.map_congr_left fun i hi => ?_
    simp [Nat.mod_eq_of_lt (List.mem_range.1 hi)]

theorem filter_repeated (k n : Nat) (f : Nat → Bool) :
    ((List.range (k * n)).filter (repeated n f)).map (· % n) = copies k ((List.range n).filter f) := by
  rw [← filter_copies, ← range_mod, List.filter_map]
  rfl

/-- The rows of a node, counted in the original data set. -/
theorem rowsAt_repeated {K S P : Type} [LT K] [DecidableLT K] (X : Nat → Nat → K) (t : PNode K S K P) (k n : Nat)
    (addr : List Bool) :
    (rowsAt (repeated n X) t (k * n) addr).map (· % n) = copies k (rowsAt X t n addr) :=
  filter_repeated k n fun i => follows t addr (X i)

theorem map_repeated {k n : Nat} {R' R : List Nat} (h : R'.map (· % n) = copies k R) (y : Nat → β) :
    R'.map (repeated n y) = copies k (R.map y) := by
  rw [← map_copies, ← h, List.map_map]
  rfl

theorem filter_map_repeated {k n : Nat} {R' R : List Nat} (h : R'.map (· % n) = copies k R) (f : Nat → Bool) :
    (R'.filter (repeated n f)).map (· % n) = copies k (R.filter f) := by
  rw [← filter_copies, ← h, List.filter_map]
  rfl

end

section
variable {K : Type} [Field K] [LinearOrder K]

theorem forall_repeated {k n : Nat} (hk : 0 < k) {R' R : List Nat} (h : R'.map (· % n) = copies k R)
    (Q : Nat → Prop) : (∀ i ∈ R', Q (i % n)) ↔ ∀ i ∈ R, Q i := by
  have : ∀ j, (∃ i ∈ R', i % n = j) ↔ j ∈ R := fun j => by
    rw [← mem_copies hk, ← h, List.mem_map]
  constructor
  · intro hq j hj
    obtain ⟨i, hi, rfl⟩ := (this j).2 hj
    exact hq i hi
  · intro hq i hi
    exact hq _ ((this _).1 ⟨i, hi, rfl⟩)

theorem exists_repeated {k n : Nat} (hk : 0 < k) {R' R : List Nat} (h : R'.map (· % n) = copies k R)
    (Q : Nat → Prop) : (∃ i ∈ R', Q (i % n)) ↔ ∃ i ∈ R, Q i := by
  have := forall_repeated hk h fun i => ¬ Q i
  constructor
  · rintro ⟨i, hi, hq⟩
    by_contra hne
    push Not at hne
    exact this.2 hne i hi hq
  · rintro ⟨i, hi, hq⟩
    by_contra hne
    push Not at hne
    exact this.1 hne i hi hq

theorem isCut_repeated {k n : Nat} (hk : 0 < k) {R' R : List Nat} (h : R'.map (· % n) = copies k R) (prec : K)
    (X : Nat → Nat → K) (d : Nat) (a b : K) : IsCut prec (repeated n X) R' d a b ↔ IsCut prec X R d a b := by
  unfold IsCut repeated
  rw [exists_repeated hk h fun i => X i d = a, exists_repeated hk h fun i => X i d = b,
    forall_repeated hk h fun i => X i d ≤ a ∨ b ≤ X i d]

theorem cutCount_repeated {k n : Nat} (hk : 0 < k) {R' R : List Nat} (h : R'.map (· % n) = copies k R) (prec : K)
    (X : Nat → Nat → K) (d : Nat) : cutCount prec (repeated n X) R' d = cutCount prec X R d := by
  unfold cutCount
  have e : (fun b : K => decide ((∃ i ∈ R', repeated n X i d < b) ∧ ∀ i ∈ R', repeated n X i d < b →
      prec < b - repeated n X i d)) =
      fun b => decide ((∃ i ∈ R, X i d < b) ∧ ∀ i ∈ R, X i d < b → prec < b - X i d) := by
    funext b
    rw [decide_eq_decide]
    unfold repeated
    rw [exists_repeated hk h fun i => X i d < b, forall_repeated hk h fun i => X i d < b → prec < b - X i d]
  rw [e]
  apply List.Perm.length_eq
  apply List.Perm.filter
  refine (List.perm_ext_iff_of_nodup (List.nodup_dedup _) (List.nodup_dedup _)).2 fun v => ?_
  rw [List.mem_dedup, List.mem_dedup, List.mem_map, List.mem_map]
  exact exists_repeated hk h fun i => X i d = v

end

theorem maxLogLik_copies (m k : Nat) (ys : List ℝ) : maxLogLik m (copies k ys) = k * maxLogLik m ys := by
  unfold maxLogLik labelLogLik
  rw [Finset.mul_sum]
  refine Finset.sum_congr rfl fun j _ => ?_
  rw [count_copies]
  push_cast
  rcases Nat.eq_zero_or_pos k with rfl | hk
  · simp
  have hk0 : (k : ℝ) ≠ 0 := by exact_mod_cast hk.ne'
  have : frequencies m (copies k ys) j = frequencies m ys j := by
    unfold frequencies
    rw [count_copies, length_copies]
    push_cast
    rw [mul_div_mul_left _ _ hk0]
  rw [this]
  ring

theorem copies_append_perm {α : Type} (k : Nat) (A B : List α) :
    (copies k A ++ copies k B).Perm (copies k (A ++ B)) := by
  induction k with
  | zero => exact List.Perm.refl _
  | succ k ih =>
    rw [copies_succ, copies_succ, copies_succ]
    calc (A ++ copies k A ++ (B ++ copies k B)).Perm (A ++ (B ++ (copies k A ++ copies k B))) := by
          rw [List.append_assoc]
          apply List.Perm.append_left
          rw [← List.append_assoc, ← List.append_assoc]
          exact List.perm_append_comm.append_right _
      _ |>.Perm (A ++ (B ++ copies k (A ++ B))) := (ih.append_left B).append_left A
      _ = _ := by rw [List.append_assoc]

/-- A bound for the slack of repeated labels. -/
theorem slack_copies_le {p : List ℝ} (h : ProperDirichlet p) {ys : List ℝ} {n : Nat} (hn : ys.length ≤ n) (k : Nat) :
    slack p (copies k ys) ≤
      ∑ j : Fin p.length, Real.log (1 + (k * n : ℝ) / p[j]) + p.sum * Real.log (1 + (k * n : ℝ)) := by
  unfold slack
  have hS := sum_pos_of_pos h.1 h.2
  have hlen : ((copies k ys).length : ℝ) ≤ k * n := by
    rw [length_copies]
    exact_mod_cast Nat.mul_le_mul_left k hn
  apply add_le_add
  · apply Finset.sum_le_sum
    intro j _
    have hp : 0 < p[j] := h.2 _ (List.getElem_mem _)
    apply Real.log_le_log (by positivity)
    have hc : (count (copies k ys) j : ℝ) ≤ k * n := le_trans (by
      exact_mod_cast List.length_filter_le _ _) hlen
    have := div_le_div_of_nonneg_right hc hp.le
    linarith
  · apply mul_le_mul_of_nonneg_left _ hS.le
    apply Real.log_le_log (by positivity)
    linarith

end BT
