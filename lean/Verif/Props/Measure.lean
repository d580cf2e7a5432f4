import Verif.Props.Prune
import Verif.Spec.Importance

/-!
# Depth, leaves and feature importance: C25, C26, C18
-/

namespace BT
open Spec

section
variable {Sp S K P : Type}

theorem splits_length (t : Node Sp S K P) : (splits t).length + 1 = leaves t := by
  induction t with
  | leaf i => rfl
  | split i sp l b c1 c2 ih1 ih2 => simp only [splits, List.length_cons, List.length_append, leaves]; omega

theorem mem_splits {t : Node Sp S K P} {s : Sp × S × S} :
    s ∈ splits t ↔ ∃ addr i c1 c2, nodeAt t addr = some (.split i s.1 s.2.1 s.2.2 c1 c2) := by
  induction t with
  | leaf i =>
    constructor
    · intro h; simp [splits] at h
    · rintro ⟨a, j, c1, c2, h⟩
      cases a <;> simp [nodeAt] at h
  | split i sp l b c1 c2 ih1 ih2 =>
    rw [splits, List.mem_cons, List.mem_append, ih1, ih2]
    constructor
    · rintro (rfl | ⟨a, j, d1, d2, h⟩ | ⟨a, j, d1, d2, h⟩)
      · exact ⟨[], i, c1, c2, nodeAt_nil _⟩
      · exact ⟨false :: a, j, d1, d2, by simpa [nodeAt] using h⟩
      · exact ⟨true :: a, j, d1, d2, by simpa [nodeAt] using h⟩
    · rintro ⟨a, j, d1, d2, h⟩
      cases a with
      | nil =>
        rw [nodeAt_nil] at h
        simp only [Option.some.injEq, Node.split.injEq] at h
        exact .inl (by rw [h.2.1, h.2.2.1, h.2.2.2.1])
      | cons q a =>
        cases q with
        | false => exact .inr (.inl ⟨a, j, d1, d2, by simpa [nodeAt] using h⟩)
        | true => exact .inr (.inr ⟨a, j, d1, d2, by simpa [nodeAt] using h⟩)

end

section
variable {V K P S O : Type} [LinearOrder S] [DecidableEq K] [Zero K] [One K] {ok : V → Prop}
  {c : Ctx V K P S O} {argsort : List V → List Nat} {n : Nat} {prior : Option P} {t : PNode V S K P}

/-- C25: on a fitted tree `get_n_leaves()` counts the leaves, `get_depth()` is the length of the longest
path from the root, the number of leaves is at most `2 ** depth` and exceeds the number of splits by
one. -/
theorem C25_depth_leaves (hv : Valid ok c argsort n) (hn : 0 < n) (h : fitIn c argsort prior n = .ok t) :
    t.getNLeaves = leaves t ∧ t.getDepth = height t ∧ t.getNLeaves ≤ 2 ^ t.getDepth ∧
    (splits t).length + 1 = t.getNLeaves ∧ (t.isLeaf = true ↔ t.getDepth = 0) := by
  rw [getNLeaves_eq, getDepth_eq (fit_levelled hv hn h)]
  refine ⟨rfl, rfl, leaves_le_pow t, splits_length t, ?_⟩
  cases t <;> simp [Node.isLeaf, height]

/-- C25 for an inner node of a fitted tree at depth `k`: `get_depth()` does not count from the node itself
but from the root of the tree. -/
theorem C25_subtree_depth (hv : Valid ok c argsort n) (hn : 0 < n) (h : fitIn c argsort prior n = .ok t)
    (addr : List Bool) (u : PNode V S K P) (hu : nodeAt t addr = some u) :
    u.getNLeaves = leaves u ∧ u.getDepth = addr.length + height u := by
  refine ⟨getNLeaves_eq u, ?_⟩
  have : Levelled addr.length u := by
    intro a w hw
    have := fit_levelled hv hn h (addr ++ a) w (by rw [nodeAt_append, hu]; exact hw)
    rw [this, List.length_append]; omega
  rw [Node.getDepth, updateDepth_eq this]; omega

end

section
variable {V K P O : Type} [Field K] [LinearOrder K] [IsStrictOrderedRing K]

omit [LinearOrder K] [IsStrictOrderedRing K] in
theorem addAt_get (fi : List K) (d e : Nat) (g : K) :
    (addAt fi d g)[e]? = (fi[e]?).map fun a => a + (if d = e then g else 0) := by
  unfold addAt
  rw [List.getElem?_modify]
  by_cases h : d = e <;> simp [h]

omit [LinearOrder K] [IsStrictOrderedRing K] in
theorem updateImportance_get (t : PNode V K K P) (fi : List K) (d : Nat) :
    (perpUpdateImportance t fi)[d]? = (fi[d]?).map fun a => a + gainOn d (splits t) := by
  induction t generalizing fi with
  | leaf i => simp [perpUpdateImportance, splits, gainOn, gain]
  | split i sp l b c1 c2 ih1 ih2 =>
    rw [perpUpdateImportance, ih2, ih1, addAt_get, Option.map_map, Option.map_map]
    congr 1
    funext a
    simp only [Function.comp, splits, gainOn, gain, List.filter_cons, List.filter_append]
    by_cases h : sp.dim = d <;> simp [h] <;> ring

omit [LinearOrder K] [IsStrictOrderedRing K] in
theorem importanceRaw_get (t : PNode V K K P) (nd d : Nat) :
    (perpImportanceRaw nd t)[d]? = if d < nd then some (gainOn d (splits t)) else none := by
  unfold perpImportanceRaw
  rw [updateImportance_get, List.getElem?_replicate]
  split <;> simp

omit [LinearOrder K] [IsStrictOrderedRing K] in
theorem importanceRaw_length (t : PNode V K K P) (nd : Nat) : (perpImportanceRaw nd t).length = nd := by
  apply le_antisymm
  · by_contra h
    have h1 := importanceRaw_get t nd nd
    rw [List.getElem?_eq_getElem (by omega)] at h1
    simp at h1
  · by_contra h
    have h1 := importanceRaw_get t nd (perpImportanceRaw nd t).length
    rw [List.getElem?_eq_none (le_refl _), if_pos (by omega)] at h1
    cases h1

omit [LinearOrder K] [IsStrictOrderedRing K] in
theorem importanceRaw_eq (t : PNode V K K P) (nd : Nat) :
    perpImportanceRaw nd t = (List.range nd).map fun d => gainOn d (splits t) := by
  apply List.ext_getElem?
  intro d
  rw [importanceRaw_get, List.getElem?_map]
  by_cases h : d < nd
  · rw [if_pos h, List.getElem?_range h]; rfl
  · rw [if_neg h, List.getElem?_eq_none (by simpa using h)]; rfl

omit [LinearOrder K] [IsStrictOrderedRing K] in
theorem sum_range_ite (k nd : Nat) (v : K) :
    ((List.range nd).map fun d => if k = d then v else 0).sum = if k < nd then v else 0 := by
  induction nd with
  | zero => simp
  | succ nd ih =>
    rw [List.range_succ, List.map_append, List.sum_append, ih]
    simp only [List.map_cons, List.map_nil, List.sum_cons, List.sum_nil, add_zero]
    rcases Nat.lt_trichotomy k nd with h | h | h
    · rw [if_pos h, if_neg (by omega), if_pos (by omega), add_zero]
    · rw [if_neg (by omega), if_pos h, if_pos (by omega), zero_add]
    · rw [if_neg (by omega), if_neg (by omega), if_neg (by omega), add_zero]

omit [LinearOrder K] [IsStrictOrderedRing K] in
theorem sum_gainOn (nd : Nat) (l : List (PSplit V × K × K)) (h : ∀ s ∈ l, s.1.dim < nd) :
    ((List.range nd).map fun d => gainOn d l).sum = gain l := by
  induction l with
  | nil => simp [gainOn, gain]
  | cons s l ih =>
    have e : ∀ d, gainOn d (s :: l) = (if s.1.dim = d then s.2.2 - s.2.1 else 0) + gainOn d l := by
      intro d
      simp only [gainOn, gain, List.filter_cons]
      by_cases hd : s.1.dim = d <;> simp [hd]
    simp only [e]
    rw [List.sum_map_add, ih fun x hx => h x (by simp [hx]), sum_range_ite, if_pos (h s (by simp))]
    simp [gain]

theorem gain_nonneg {l : List (PSplit V × K × K)} (h : ∀ s ∈ l, s.2.1 < s.2.2) : 0 ≤ gain l := by
  unfold gain
  apply List.sum_nonneg
  intro x hx
  obtain ⟨s, hs, rfl⟩ := List.mem_map.1 hx
  linarith [h s hs]

theorem gain_pos {l : List (PSplit V × K × K)} (h : ∀ s ∈ l, s.2.1 < s.2.2) (hne : l ≠ []) : 0 < gain l := by
  cases l with
  | nil => exact absurd rfl hne
  | cons s l =>
    have h1 := h s (by simp)
    have h2 := gain_nonneg (l := l) fun x hx => h x (by simp [hx])
    have : gain (s :: l) = (s.2.2 - s.2.1) + gain l := by simp [gain]
    rw [this]; linarith

variable {ok : V → Prop} {c : Ctx V K P K O} {argsort : List V → List Nat} {n : Nat} {prior : Option P}
  {t : PNode V K K P}

omit [IsStrictOrderedRing K] in
theorem fit_splits (hv : Valid ok c argsort n) (h : fitIn c argsort prior n = .ok t)
    (s : PSplit V × K × K) (hs : s ∈ splits t) : s.1.dim < c.nDim ∧ s.2.1 < s.2.2 := by
  obtain ⟨addr, i, c1, c2, hu⟩ := mem_splits.1 hs
  obtain ⟨-, h1, h2, -⟩ := C13_greedy_optimal hv h addr i s.1 s.2.1 s.2.2 c1 c2 hu
  exact ⟨h2, h1⟩

/-- C26: the root knows `n_features`, and `feature_importance()` has that many entries.  With at least one
split, entry `d` is the share of the total log-likelihood gain that splits on `d` have, the entries are
non-negative and sum to 1.  Without a split they are all NaN (`none`). -/
theorem C26_importance (hv : Valid ok c argsort n) (h : fitIn c argsort prior n = .ok t) :
    t.info.nDim = some c.nDim ∧ (perpFeatureImportance c.nDim t).length = c.nDim ∧
    (splits t = [] → ∀ v ∈ perpFeatureImportance c.nDim t, v = none) ∧
    (splits t ≠ [] → 0 < gain (splits t) ∧ ∃ w : List K,
      perpFeatureImportance c.nDim t = w.map some ∧ w.sum = 1 ∧ (∀ v ∈ w, 0 ≤ v ∧ v ≤ 1) ∧
      ∀ d < c.nDim, w[d]? = some (gainOn d (splits t) / gain (splits t))) := by
  have hsp := fit_splits hv h
  have hraw := importanceRaw_eq t c.nDim
  have hsum : (perpImportanceRaw c.nDim t).sum = gain (splits t) := by
    rw [hraw, sum_gainOn _ _ fun s hs => (hsp s hs).1]
  refine ⟨?_, ?_, ?_, ?_⟩
  · obtain ⟨p1, p2, w, hW, ew, -, -, hnil, -⟩ := fit_node hv h (addr := []) (nodeAt_nil _)
    obtain ⟨rfl, rfl⟩ := hnil rfl
    rw [ew]
    cases hW <;> rfl
  · unfold perpFeatureImportance normalizeImportance
    rw [List.length_map, importanceRaw_length]
  · intro h0 v hv'
    unfold perpFeatureImportance normalizeImportance at hv'
    rw [hsum, h0] at hv'
    obtain ⟨a, -, rfl⟩ := List.mem_map.1 hv'
    simp [gain]
  · intro hne
    have hpos := gain_pos (fun s hs => (hsp s hs).2) hne
    refine ⟨hpos, (List.range c.nDim).map fun d => gainOn d (splits t) / gain (splits t), ?_, ?_, ?_, ?_⟩
    · unfold perpFeatureImportance normalizeImportance
      rw [hsum, hraw, List.map_map, List.map_map]
      apply List.map_congr_left
      intro d _
      simp [hpos.ne']
    · have : ((List.range c.nDim).map fun d => gainOn d (splits t) / gain (splits t)).sum =
          ((List.range c.nDim).map fun d => gainOn d (splits t)).sum / gain (splits t) := by
        rw [div_eq_mul_inv, ← List.sum_map_mul_right]
        simp only [div_eq_mul_inv]
      rw [this, sum_gainOn _ _ fun s hs => (hsp s hs).1, div_self hpos.ne']
    · intro v hv'
      obtain ⟨d, hd, rfl⟩ := List.mem_map.1 hv'
      have hsplit : gain (splits t) = gainOn d (splits t) +
          gain ((splits t).filter fun s => !decide (s.1.dim = d)) := by
        unfold gainOn gain
        generalize splits t = L
        induction L with
        | nil => simp
        | cons s L ih => by_cases hs : s.1.dim = d <;> simp [hs] at ih ⊢ <;> rw [ih] <;> ring
      have g1 : 0 ≤ gainOn d (splits t) := gain_nonneg fun s hs => (hsp s (List.mem_filter.1 hs).1).2
      have g2 := gain_nonneg (l := (splits t).filter fun s => !decide (s.1.dim = d))
        fun s hs => (hsp s (List.mem_filter.1 hs).1).2
      exact ⟨div_nonneg g1 hpos.le, (div_le_one hpos).2 (by linarith)⟩
    · intro d hd
      simp [List.getElem?_range hd]

/-- C18: a feature that is constant in the training data has importance 0 (in a tree with a split). -/
theorem C18_constant_importance (hv : Valid ok c argsort n) (h : fitIn c argsort prior n = .ok t)
    (d : Nat) (hd : d < c.nDim) (hconst : ∀ i < n, ∀ j < n, c.X i d = c.X j d) (hne : splits t ≠ []) :
    (perpFeatureImportance c.nDim t)[d]? = some (some 0) := by
  obtain ⟨-, -, -, h4⟩ := C26_importance hv h
  obtain ⟨-, w, hw, -, -, hget⟩ := h4 hne
  rw [hw, List.getElem?_map, hget d hd]
  have : gainOn d (splits t) = 0 := by
    have e : (splits t).filter (fun s => decide (s.1.dim = d)) = [] := by
      rw [List.filter_eq_nil_iff]
      intro s hs
      obtain ⟨addr, i, c1, c2, hu⟩ := mem_splits.1 hs
      simpa using C18_constant_unused hv h d hconst addr i s.1 s.2.1 s.2.2 c1 c2 hu
    unfold gainOn
    rw [e]; rfl
  rw [this]; simp

end

/-- C25 and C26 apply to a fit with two splits and three leaves; the constant second feature has
importance 0, hence the first has importance 1. -/
example : (castTree sampleHp sampleTree).getNLeaves = 3 ∧ (castTree sampleHp sampleTree).getDepth = 2 ∧
    (perpFeatureImportance 2 (castTree sampleHp sampleTree))[1]? = some (some 0) ∧
    (perpFeatureImportance 2 (castTree sampleHp sampleTree))[0]? = some (some 1) := by
  have hv := sampleReal_valid
  have hf := sampleReal_fit
  obtain ⟨h1, h2, -⟩ := C25_depth_leaves hv (by decide) hf
  have hne : splits (castTree sampleHp sampleTree) ≠ [] := by simp [castTree, sampleTree, mapTree, splits]
  have h1' := C18_constant_importance hv hf 1 (by decide)
    (by
      have : ∀ i < 12, ∀ j < 12, sampleCtx.X i 1 = sampleCtx.X j 1 := by decide +kernel
      intro i hi j hj
      show ((sampleCtx.X i 1 : ℚ) : ℝ) = ((sampleCtx.X j 1 : ℚ) : ℝ)
      rw [this i hi j hj]) hne
  refine ⟨h1, h2, h1', ?_⟩
  obtain ⟨-, -, -, h4⟩ := C26_importance hv hf
  obtain ⟨-, w, hw, hs, -, hget⟩ := h4 hne
  have e0 := hget 0 (by decide)
  have e1 := hget 1 (by decide)
  have hlen : w.length = 2 := by
    have := (C26_importance hv hf).2.1
    rw [hw, List.length_map] at this; exact this
  have h1'' : (perpFeatureImportance (castCtx sampleCtx).nDim (castTree sampleHp sampleTree))[1]? =
      some (some 0) := h1'
  show (perpFeatureImportance (castCtx sampleCtx).nDim (castTree sampleHp sampleTree))[0]? = _
  rw [hw] at h1'' ⊢
  match w, hlen with
  | [a, b], _ =>
    simp at h1'' hs ⊢
    linarith

end BT
