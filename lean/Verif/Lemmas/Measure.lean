import Verif.Spec.Routed
import Verif.Lemmas.Walk

/-!
# Depth, leaves and leaf sizes
-/

namespace BT
open Spec

section
variable {Sp S K P : Type}

/-- Every node's level is its depth plus `lv`. -/
def Levelled (lv : Nat) (t : Node Sp S K P) : Prop :=
  ∀ addr u, nodeAt t addr = some u → u.info.level = lv + addr.length

theorem Levelled.child1 {lv : Nat} {i : Info K P} {sp : Sp} {l b : S} {c1 c2 : Node Sp S K P}
    (h : Levelled lv (.split i sp l b c1 c2)) : Levelled (lv + 1) c1 := by
  intro addr u hu
  have := h (false :: addr) u (by simpa [nodeAt] using hu)
  rw [this, List.length_cons]; omega

theorem Levelled.child2 {lv : Nat} {i : Info K P} {sp : Sp} {l b : S} {c1 c2 : Node Sp S K P}
    (h : Levelled lv (.split i sp l b c1 c2)) : Levelled (lv + 1) c2 := by
  intro addr u hu
  have := h (true :: addr) u (by simpa [nodeAt] using hu)
  rw [this, List.length_cons]; omega

theorem updateDepth_eq {lv : Nat} {t : Node Sp S K P} (h : Levelled lv t) (d : Nat) :
    t.updateDepth d = max d (lv + height t) := by
  induction t generalizing lv d with
  | leaf i =>
    have := h [] (.leaf i) (nodeAt_nil _)
    simp only [Node.info, List.length_nil] at this
    simp [Node.updateDepth, height, this]
  | split i sp l b c1 c2 ih1 ih2 =>
    rw [Node.updateDepth, ih1 h.child1, ih2 h.child2]
    simp only [height]
    omega

theorem getDepth_eq {t : Node Sp S K P} (h : Levelled 0 t) : t.getDepth = height t := by
  rw [Node.getDepth, updateDepth_eq h]; simp

theorem height_lt_leaves (t : Node Sp S K P) : height t + 1 ≤ leaves t := by
  induction t with
  | leaf i => simp [height, leaves]
  | split i sp l b c1 c2 ih1 ih2 => simp only [height, leaves]; omega

theorem leaves_le_pow (t : Node Sp S K P) : leaves t ≤ 2 ^ height t := by
  induction t with
  | leaf i => simp [height, leaves]
  | split i sp l b c1 c2 ih1 ih2 =>
    simp only [height, leaves, pow_succ]
    have h1 : 2 ^ height c1 ≤ 2 ^ max (height c1) (height c2) :=
      Nat.pow_le_pow_right (by decide) (le_max_left _ _)
    have h2 : 2 ^ height c2 ≤ 2 ^ max (height c1) (height c2) :=
      Nat.pow_le_pow_right (by decide) (le_max_right _ _)
    omega

theorem leafSizes_length (t : Node Sp S K P) : (leafSizes t).length = leaves t := by
  induction t with
  | leaf i => rfl
  | split i sp l b c1 c2 ih1 ih2 => simp [leafSizes, leaves, ih1, ih2]

theorem leafSizes_sum {t : Node Sp S K P}
    (h : ∀ addr i sp l b c1 c2, nodeAt t addr = some (.split i sp l b c1 c2) →
      i.nData = c1.info.nData + c2.info.nData) : (leafSizes t).sum = t.info.nData := by
  induction t with
  | leaf i => simp [leafSizes, Node.info]
  | split i sp l b c1 c2 ih1 ih2 =>
    rw [leafSizes, List.sum_append, ih1 fun a j s p q e1 e2 he =>
        h (false :: a) j s p q e1 e2 (by simpa [nodeAt] using he),
      ih2 fun a j s p q e1 e2 he => h (true :: a) j s p q e1 e2 (by simpa [nodeAt] using he)]
    exact (h [] i sp l b c1 c2 (nodeAt_nil _)).symm

theorem mem_leafSizes {t : Node Sp S K P} {k : Nat} :
    k ∈ leafSizes t ↔ ∃ addr i, nodeAt t addr = some (.leaf i) ∧ i.nData = k := by
  induction t with
  | leaf i =>
    constructor
    · intro h
      exact ⟨[], i, nodeAt_nil _, by simpa [leafSizes, eq_comm] using h⟩
    · rintro ⟨addr, j, h, rfl⟩
      cases addr with
      | nil => rw [nodeAt_nil] at h; cases h; simp [leafSizes]
      | cons b bs => simp [nodeAt] at h
  | split i sp l b c1 c2 ih1 ih2 =>
    rw [leafSizes, List.mem_append, ih1, ih2]
    constructor
    · rintro (⟨a, j, h, e⟩ | ⟨a, j, h, e⟩)
      · exact ⟨false :: a, j, by simpa [nodeAt] using h, e⟩
      · exact ⟨true :: a, j, by simpa [nodeAt] using h, e⟩
    · rintro ⟨a, j, h, e⟩
      cases a with
      | nil => rw [nodeAt_nil] at h; cases h
      | cons q a =>
        cases q with
        | false => exact .inl ⟨a, j, by simpa [nodeAt] using h, e⟩
        | true => exact .inr ⟨a, j, by simpa [nodeAt] using h, e⟩

theorem length_le_sum {l : List Nat} (h : ∀ k ∈ l, 0 < k) : l.length ≤ l.sum := by
  induction l with
  | nil => simp
  | cons a l ih =>
    have := h a (by simp)
    have := ih fun k hk => h k (by simp [hk])
    simp only [List.length_cons, List.sum_cons]; omega

end

end BT
