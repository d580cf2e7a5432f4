import Verif.Spec.Prune
import Verif.Lemmas.At

/-!
# Pruning equals the bottom-up merge
-/

namespace BT
open Spec

section
variable {Sp S K P Row : Type}

theorem updateNLeaves_eq (t : Node Sp S K P) (k : Nat) : t.updateNLeaves k = k + leaves t := by
  induction t generalizing k with
  | leaf i => rfl
  | split i sp l b c1 c2 h1 h2 =>
    simp only [Node.updateNLeaves, leaves, h1, h2]; omega

theorem getNLeaves_eq (t : Node Sp S K P) : t.getNLeaves = leaves t := by
  simp [Node.getNLeaves, updateNLeaves_eq]

theorem leaves_pos (t : Node Sp S K P) : 0 < leaves t := by
  induction t with
  | leaf i => simp [leaves]
  | split i sp l b c1 c2 h1 h2 => simp only [leaves]; omega

theorem size_eq (t : Node Sp S K P) : t.size + 1 = 2 * leaves t := by
  induction t with
  | leaf i => simp [Node.size, leaves]
  | split i sp l b c1 c2 h1 h2 => simp only [Node.size, leaves]; omega

end

section
variable {Sp S K P Row O : Type} [DecidableEq O] (pred : P → O)

/-- Case analysis of the merge at a split. -/
theorem merge_split (i : Info K P) (sp : Sp) (l b : S) (c1 c2 : Node Sp S K P) :
    (∃ j1 j2, merge pred c1 = .leaf j1 ∧ merge pred c2 = .leaf j2 ∧
      pred j1.posterior = pred j2.posterior ∧ merge pred (.split i sp l b c1 c2) = .leaf i) ∨
    ((∀ j1 j2, merge pred c1 = .leaf j1 → merge pred c2 = .leaf j2 →
      pred j1.posterior ≠ pred j2.posterior) ∧
      merge pred (.split i sp l b c1 c2) = .split i sp l b (merge pred c1) (merge pred c2)) := by
  rw [merge]
  cases h1 : merge pred c1 with
  | leaf j1 =>
    cases h2 : merge pred c2 with
    | leaf j2 =>
      by_cases h : pred j1.posterior = pred j2.posterior
      · left; exact ⟨j1, j2, rfl, rfl, h, by simp [h]⟩
      · right
        refine ⟨?_, by simp [h]⟩
        intro a1 a2 e1 e2
        cases e1; cases e2; exact h
    | split => right; exact ⟨(by intro a1 a2 e1 e2; cases e2), rfl⟩
  | split => right; exact ⟨(by intro a1 a2 e1; cases e1), rfl⟩

theorem merge_info (t : Node Sp S K P) : (merge pred t).info = t.info := by
  cases t with
  | leaf i => rfl
  | split i sp l b c1 c2 =>
    rcases merge_split pred i sp l b c1 c2 with ⟨_, _, _, _, _, h⟩ | ⟨_, h⟩ <;> rw [h] <;> rfl

theorem merge_leaves_le (t : Node Sp S K P) : leaves (merge pred t) ≤ leaves t := by
  induction t with
  | leaf i => exact le_refl _
  | split i sp l b c1 c2 ih1 ih2 =>
    have := leaves_pos c1
    have := leaves_pos c2
    rcases merge_split pred i sp l b c1 c2 with ⟨_, _, _, _, _, h⟩ | ⟨_, h⟩ <;> rw [h]
    · simp only [leaves]; omega
    · simp only [leaves]; omega

theorem merge_eq_of_leaves (t : Node Sp S K P) (h : leaves (merge pred t) = leaves t) :
    merge pred t = t := by
  induction t with
  | leaf i => rfl
  | split i sp l b c1 c2 ih1 ih2 =>
    have p1 := leaves_pos c1
    have p2 := leaves_pos c2
    rcases merge_split pred i sp l b c1 c2 with ⟨_, _, _, _, _, e⟩ | ⟨_, e⟩ <;> rw [e] at h ⊢
    · simp only [leaves] at h; omega
    · simp only [leaves] at h
      have := merge_leaves_le pred c1
      have := merge_leaves_le pred c2
      rw [ih1 (by omega), ih2 (by omega)]

theorem merge_idem (t : Node Sp S K P) : merge pred (merge pred t) = merge pred t := by
  induction t with
  | leaf i => rfl
  | split i sp l b c1 c2 ih1 ih2 =>
    rcases merge_split pred i sp l b c1 c2 with ⟨_, _, _, _, _, e⟩ | ⟨hn, e⟩ <;> rw [e]
    · rfl
    · rcases merge_split pred i sp l b (merge pred c1) (merge pred c2) with
        ⟨j1, j2, e1, e2, h, _⟩ | ⟨_, e'⟩
      · rw [ih1] at e1; rw [ih2] at e2
        exact absurd h (hn _ _ e1 e2)
      · rw [e', ih1, ih2]

theorem merge_split_merge (i : Info K P) (sp : Sp) (l b : S) (c1 c2 : Node Sp S K P) :
    merge pred (.split i sp l b (merge pred c1) (merge pred c2)) = merge pred (.split i sp l b c1 c2) := by
  rw [merge, merge, merge_idem, merge_idem]

theorem pruneFuel_eq (fuel : Nat) (t : Node Sp S K P) (h : t.size ≤ fuel) :
    pruneFuel pred fuel t = .ok (merge pred t) := by
  induction fuel generalizing t with
  | zero => cases t <;> simp [Node.size] at h
  | succ fuel ih =>
    cases t with
    | leaf i => rfl
    | split i sp l b c1 c2 =>
      have hsz := h
      simp only [Node.size] at hsz
      have p1 : 0 < c1.size := by cases c1 <;> simp [Node.size]
      have p2 : 0 < c2.size := by cases c2 <;> simp [Node.size]
      unfold pruneFuel
      by_cases hl : (c1.isLeaf && c2.isLeaf) = true
      · cases c1 with
        | split => simp [Node.isLeaf] at hl
        | leaf j1 =>
          cases c2 with
          | split => simp [Node.isLeaf] at hl
          | leaf j2 =>
            simp only [Node.isLeaf, Bool.and_self, if_true, Node.info]
            by_cases hp : pred j1.posterior = pred j2.posterior
            · simp only [hp, if_true, pure_bind]
              have hn : (Node.split i sp l b (.leaf j1) (.leaf j2) : Node Sp S K P).getNLeaves ≠
                  (Node.leaf i : Node Sp S K P).getNLeaves := by
                simp [getNLeaves_eq, leaves]
              rw [if_pos (Or.inr hn), ih _ (by simp only [Node.size] at *; omega)]
              simp [merge, hp]
            · simp [hp, merge]; rfl
      · rw [if_neg hl, ih c1 (by omega), ih c2 (by omega)]
        simp only [bind, Except.bind, pure, Except.pure]
        by_cases hch : (Node.split i sp l b c1 c2).getDepth ≠
              (Node.split i sp l b (merge pred c1) (merge pred c2)).getDepth ∨
            (Node.split i sp l b c1 c2).getNLeaves ≠
              (Node.split i sp l b (merge pred c1) (merge pred c2)).getNLeaves
        · rw [if_pos hch]
          have hlt : leaves (merge pred c1) + leaves (merge pred c2) < leaves c1 + leaves c2 := by
            have q1 := merge_leaves_le pred c1
            have q2 := merge_leaves_le pred c2
            by_contra hc
            have e1 := merge_eq_of_leaves pred c1 (by omega)
            have e2 := merge_eq_of_leaves pred c2 (by omega)
            rw [e1, e2] at hch
            simp at hch
          rw [ih, merge_split_merge]
          have := size_eq (merge pred c1)
          have := size_eq (merge pred c2)
          have := size_eq c1
          have := size_eq c2
          simp only [Node.size]; omega
        · rw [if_neg hch]
          push Not at hch
          simp only [getNLeaves_eq, leaves] at hch
          have q1 := merge_leaves_le pred c1
          have q2 := merge_leaves_le pred c2
          have e1 := merge_eq_of_leaves pred c1 (by omega)
          have e2 := merge_eq_of_leaves pred c2 (by omega)
          rcases merge_split pred i sp l b c1 c2 with ⟨j1, j2, m1, m2, _, e⟩ | ⟨_, e⟩
          · rw [e1] at m1; rw [e2] at m2
            subst m1; subst m2
            simp [Node.isLeaf] at hl
          · rw [e]

/-- Pruning is the bottom-up merge. -/
theorem prune_eq (t : Node Sp S K P) : prune pred t = .ok (merge pred t) :=
  pruneFuel_eq pred _ t (le_refl _)

theorem nodeAt_merge (t : Node Sp S K P) (addr : List Bool) (u : Node Sp S K P)
    (h : nodeAt (merge pred t) addr = some u) :
    ∃ u0, nodeAt t addr = some u0 ∧ u = merge pred u0 := by
  induction t generalizing addr with
  | leaf i => exact ⟨.leaf i, by
      cases addr with
      | nil => rfl
      | cons => simp [merge, nodeAt] at h, by
      cases addr with
      | nil => simpa [merge, nodeAt] using h.symm
      | cons => simp [merge, nodeAt] at h⟩
  | split i sp l b c1 c2 ih1 ih2 =>
    cases addr with
    | nil => simp only [nodeAt, Option.some.injEq] at h; exact ⟨_, rfl, h.symm⟩
    | cons a as =>
      rcases merge_split pred i sp l b c1 c2 with ⟨_, _, _, _, _, e⟩ | ⟨hn, e⟩ <;> rw [e] at h
      · simp [nodeAt] at h
      · cases a
        · simp only [nodeAt, Bool.false_eq_true, if_false] at h ⊢; exact ih1 _ h
        · simp only [nodeAt, if_true] at h ⊢; exact ih2 _ h

theorem passes_merge (rt : Router Sp Row) (t : Node Sp S K P) (addr : List Bool) (u : Node Sp S K P)
    (h : nodeAt (merge pred t) addr = some u) (x : Row) :
    passes rt (merge pred t) addr x = passes rt t addr x := by
  induction t generalizing addr with
  | leaf i => rfl
  | split i sp l b c1 c2 ih1 ih2 =>
    cases addr with
    | nil => simp [passes]
    | cons a as =>
      rcases merge_split pred i sp l b c1 c2 with ⟨_, _, _, _, _, e⟩ | ⟨hn, e⟩ <;> rw [e] at h ⊢
      · simp [nodeAt] at h
      · cases a
        · simp only [nodeAt, Bool.false_eq_true, if_false] at h
          simp only [passes, ih1 _ h]; simp
        · simp only [nodeAt, if_true] at h
          simp only [passes, ih2 _ h]; simp

theorem merge_fullyPruned (t : Node Sp S K P) : FullyPruned pred (merge pred t) := by
  intro addr i sp l b j1 j2 h hp
  obtain ⟨u0, -, e⟩ := nodeAt_merge pred t addr _ h
  have e2 := merge_idem pred u0
  rw [← e] at e2
  simp [merge, hp] at e2

theorem merge_eq_self_iff (t : Node Sp S K P) : merge pred t = t ↔ FullyPruned pred t := by
  constructor
  · intro h; rw [← h]; exact merge_fullyPruned pred t
  · intro h
    induction t with
    | leaf i => rfl
    | split i sp l b c1 c2 ih1 ih2 =>
      have e1 : merge pred c1 = c1 := ih1 fun addr i sp l b j1 j2 hn =>
        h (false :: addr) i sp l b j1 j2 (by simpa [nodeAt] using hn)
      have e2 : merge pred c2 = c2 := ih2 fun addr i sp l b j1 j2 hn =>
        h (true :: addr) i sp l b j1 j2 (by simpa [nodeAt] using hn)
      rcases merge_split pred i sp l b c1 c2 with ⟨j1, j2, m1, m2, hp, e⟩ | ⟨hn, e⟩
      · rw [e1] at m1; rw [e2] at m2; subst m1; subst m2
        exact absurd hp (h [] i sp l b j1 j2 rfl)
      · rw [e, e1, e2]

end

/-- `t` arises from `t0` by cutting off subtrees: every node of `t` sits at the same place in `t0`,
with the same attributes, the same rows passing, and the same split if it still has one. -/
structure CutOff {Sp S K P : Type} (t t0 : Node Sp S K P) : Prop where
  node : ∀ addr u, nodeAt t addr = some u → ∃ u0, nodeAt t0 addr = some u0 ∧ u.info = u0.info ∧
    ∀ i sp l b c1 c2, u = .split i sp l b c1 c2 → ∃ d1 d2, u0 = .split i sp l b d1 d2
  passes : ∀ {Row : Type} (rt : Router Sp Row) addr u, nodeAt t addr = some u →
    ∀ x, passes rt t addr x = passes rt t0 addr x

theorem CutOff.refl {Sp S K P : Type} (t : Node Sp S K P) : CutOff t t where
  node _ u h := ⟨u, h, rfl, fun _ _ _ _ c1 c2 e => ⟨c1, c2, e⟩⟩
  passes _ _ _ _ _ := rfl

theorem CutOff.merge {Sp S K P O : Type} [DecidableEq O] (pred : P → O) (t : Node Sp S K P) :
    CutOff (merge pred t) t where
  node addr u h := by
    obtain ⟨u0, h0, rfl⟩ := nodeAt_merge pred t addr u h
    refine ⟨u0, h0, merge_info pred u0, ?_⟩
    intro i sp l b c1 c2 e
    cases u0 with
    | leaf j => simp [Spec.merge] at e
    | split j sp' l' b' d1 d2 =>
      rcases merge_split pred j sp' l' b' d1 d2 with ⟨_, _, _, _, _, e'⟩ | ⟨_, e'⟩ <;> rw [e'] at e
      · cases e
      · cases e; exact ⟨d1, d2, rfl⟩
  passes rt addr u h x := passes_merge pred rt t addr u h x

/-- Every fitted tree, pruned or not, is a cut-off greedy tree. -/
theorem fit_cutOff {V K P S O : Type} [LinearOrder S] [DecidableEq K] [Zero K] [One K]
    {ok : V → Prop} {c : Ctx V K P S O} {argsort : List V → List Nat} {n : Nat}
    (hv : Valid ok c argsort n) {prior : Option P} {t : PNode V S K P}
    (h : fitIn c argsort prior n = .ok t) :
    ∃ t0, Built c none prior 0 (List.range n) t0 ∧ CutOff t t0 ∧
      (c.hp.prune = false → t = t0) ∧ (c.hp.prune = true → t = Spec.merge c.T.predictLeaf t0) := by
  cases hp : c.hp.prune with
  | false => exact ⟨t, fit_built hv hp h, CutOff.refl t, fun _ => rfl, by simp⟩
  | true =>
    obtain ⟨t0, hb, e⟩ := fit_pruned hv hp h
    rw [prune_eq] at e
    cases e
    exact ⟨t0, hb, CutOff.merge _ _, by simp, fun _ => rfl⟩

end BT
