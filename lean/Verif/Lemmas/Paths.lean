import Verif.Lemmas.Walk
import Verif.Lemmas.Npy

/-!
# `prediction_paths`: what the recursion computes
-/

namespace BT
open Spec

section
variable {α : Type}

theorem appendAll_getElem? (idx : List Nat) (hn : idx.Nodup) (step : α) (paths : List (List α)) (j : Nat) :
    (appendAll idx step paths)[j]? =
      if j ∈ idx then paths[j]?.map (· ++ [step]) else paths[j]? := by
  induction idx generalizing paths with
  | nil => simp [appendAll]
  | cons a idx ih =>
    rw [List.nodup_cons] at hn
    have : appendAll (a :: idx) step paths = appendAll idx step (paths.modify a (· ++ [step])) := rfl
    rw [this, ih hn.2, List.getElem?_modify]
    by_cases hj : j = a
    · subst hj
      simp [hn.1]
    · have : ¬ a = j := fun h => hj h.symm
      simp [hj, this]

theorem appendAll_length (idx : List Nat) (step : α) (paths : List (List α)) :
    (appendAll idx step paths).length = paths.length := by
  induction idx generalizing paths with
  | nil => rfl
  | cons a idx ih =>
    have : appendAll (a :: idx) step paths = appendAll idx step (paths.modify a (· ++ [step])) := rfl
    rw [this, ih, List.length_modify]

theorem writeBack_length (idx : List Nat) (sub paths : List α) :
    (writeBack idx sub paths).length = paths.length := by
  induction idx generalizing sub paths with
  | nil => rfl
  | cons a idx ih =>
    cases sub with
    | nil => rfl
    | cons s sub =>
      have : writeBack (a :: idx) (s :: sub) paths = writeBack idx sub (paths.set a s) := rfl
      rw [this, ih, List.length_set]

theorem writeBack_notMem (idx : List Nat) (sub paths : List α) (j : Nat) (hj : j ∉ idx) :
    (writeBack idx sub paths)[j]? = paths[j]? := by
  induction idx generalizing sub paths with
  | nil => rfl
  | cons a idx ih =>
    cases sub with
    | nil => rfl
    | cons s sub =>
      have : writeBack (a :: idx) (s :: sub) paths = writeBack idx sub (paths.set a s) := rfl
      rw [List.mem_cons, not_or] at hj
      rw [this, ih _ _ hj.2, List.getElem?_set_ne (fun h => hj.1 h.symm)]

theorem writeBack_mem (idx : List Nat) (hn : idx.Nodup) (sub paths : List α) (k j : Nat)
    (hk : idx[k]? = some j) (hlen : sub.length = idx.length) (hj : j < paths.length) :
    (writeBack idx sub paths)[j]? = sub[k]? := by
  induction idx generalizing sub paths k with
  | nil => simp at hk
  | cons a idx ih =>
    cases sub with
    | nil => simp at hlen
    | cons s sub =>
      have : writeBack (a :: idx) (s :: sub) paths = writeBack idx sub (paths.set a s) := rfl
      rw [List.nodup_cons] at hn
      rw [this]
      cases k with
      | zero =>
        obtain rfl : a = j := by simpa using hk
        rw [writeBack_notMem _ _ _ _ hn.1, List.getElem?_set_self hj]
        rfl
      | succ k =>
        rw [ih hn.2 sub _ k (by simpa using hk) (by simpa using hlen) (by simpa using hj)]
        rfl

end

section
variable {V S K P : Type} {o : XOps V K} {X : Nat → Nat → V}

/-- The recursion works at a node for the row numbers `idx`: it appends to each path the walk of the
corresponding row. -/
def PathsOk (o : XOps V K) (X : Nat → Nat → V) (t : PNode V S K P) (idx : List Nat) : Prop :=
  ∀ paths : List (List (PathStep V)), paths.length = idx.length →
    (updatePaths o X t idx paths).length = idx.length ∧
    ∀ (k i : Nat) (p : List (PathStep V)), idx[k]? = some i → paths[k]? = some p →
      (updatePaths o X t idx paths)[k]? = some (p ++ path o t (X i))

theorem pathsOk_leaf (i : Info K P) (idx : List Nat) : PathsOk o X (.leaf i : PNode V S K P) idx := by
  intro paths hlen
  refine ⟨by simpa [updatePaths] using hlen, fun k i p _ hp => ?_⟩
  simpa [updatePaths, path] using hp

/-- Correctness at a split. -/
theorem pathsOk_split (hex : Exclusive (perpRouter o)) (i : Info K P) (sp : PSplit V) (l b : S)
    (c1 c2 : PNode V S K P) (idx : List Nat)
    (h1 : c1.isLeaf = false → PathsOk o X c1 (npWhere (idx.map fun i => o.lt (X i sp.dim) sp.value)))
    (h2 : c2.isLeaf = false → PathsOk o X c2 (npWhere (idx.map fun i => o.ge (X i sp.dim) sp.value)))
    (hpos : ∀ k i, idx[k]? = some i → (path o c1 (X k) = path o c1 (X i)) ∧
      path o c2 (X k) = path o c2 (X i)) :
    PathsOk o X (.split i sp l b c1 c2) idx := by
  intro paths hlen
  set r1 := npWhere (idx.map fun i => o.lt (X i sp.dim) sp.value) with hr1
  set r2 := npWhere (idx.map fun i => o.ge (X i sp.dim) sp.value) with hr2
  have n1 : r1.Nodup := npWhere_nodup _
  have n2 : r2.Nodup := npWhere_nodup _
  have m1 : ∀ j, j ∈ r1 ↔ ∃ i, idx[j]? = some i ∧ o.lt (X i sp.dim) sp.value = true := by
    intro j
    rw [hr1, mem_npWhere, List.getElem?_map, Option.map_eq_some_iff]
  have m2 : ∀ j, j ∈ r2 ↔ ∃ i, idx[j]? = some i ∧ o.ge (X i sp.dim) sp.value = true := by
    intro j
    rw [hr2, mem_npWhere, List.getElem?_map, Option.map_eq_some_iff]
  have disj : ∀ j, j ∈ r1 → j ∉ r2 := by
    intro j hj hj'
    obtain ⟨i, e, g⟩ := (m1 j).1 hj
    obtain ⟨i', e', g'⟩ := (m2 j).1 hj'
    rw [e] at e'; cases e'
    exact hex sp (X i) ⟨g, g'⟩
  have lt1 : ∀ j ∈ r1, j < paths.length := by
    intro j hj
    have := npWhere_lt hj
    rw [hlen]; simpa using this
  have lt2 : ∀ j ∈ r2, j < paths.length := by
    intro j hj
    have := npWhere_lt hj
    rw [hlen]; simpa using this
  let s1 : PathStep V := ⟨sp.dim, sp.name, sp.value, false⟩
  let s2 : PathStep V := ⟨sp.dim, sp.name, sp.value, true⟩
  -- the code interleaves: append 1, append 2, recurse 1, recurse 2
  let pa := if r1.length > 0 then appendAll r1 s1 paths else paths
  let pb := if r2.length > 0 then appendAll r2 s2 pa else pa
  let pc := if r1.length > 0 && !c1.isLeaf then
      writeBack r1 (updatePaths o X c1 r1 (r1.map fun i => pb.getD i [])) pb else pb
  let pd := if r2.length > 0 && !c2.isLeaf then
      writeBack r2 (updatePaths o X c2 r2 (r2.map fun i => pc.getD i [])) pc else pc
  have hup : updatePaths o X (.split i sp l b c1 c2) idx paths = pd := rfl
  have hpa : pa = appendAll r1 s1 paths := by
    show (if r1.length > 0 then appendAll r1 s1 paths else paths) = _
    split
    · rfl
    · next h =>
      have : r1 = [] := by simpa using h
      rw [this]; rfl
  have hpb : pb = appendAll r2 s2 pa := by
    show (if r2.length > 0 then appendAll r2 s2 pa else pa) = _
    split
    · rfl
    · next h =>
      have : r2 = [] := by simpa using h
      rw [this]; rfl
  have la : pa.length = paths.length := by rw [hpa, appendAll_length]
  have lb : pb.length = paths.length := by rw [hpb, appendAll_length, la]
  have vb1 : ∀ j ∈ r1, ∀ p, paths[j]? = some p → pb[j]? = some (p ++ [s1]) := by
    intro j hj p hp
    rw [hpb, appendAll_getElem? _ n2, if_neg (disj j hj), hpa, appendAll_getElem? _ n1, if_pos hj, hp]
    rfl
  have vb2 : ∀ j ∈ r2, ∀ p, paths[j]? = some p → pb[j]? = some (p ++ [s2]) := by
    intro j hj p hp
    rw [hpb, appendAll_getElem? _ n2, if_pos hj, hpa, appendAll_getElem? _ n1,
      if_neg (fun h => disj j h hj), hp]
    rfl
  have vb0 : ∀ j, j ∉ r1 → j ∉ r2 → pb[j]? = paths[j]? := by
    intro j h1 h2
    rw [hpb, appendAll_getElem? _ n2, if_neg h2, hpa, appendAll_getElem? _ n1, if_neg h1]
  -- a recursion writes the right values
  have recur : ∀ (c : PNode V S K P) (r : List Nat) (hn : r.Nodup) (pp : List (List (PathStep V)))
      (hlt : ∀ j ∈ r, j < pp.length) (hc : c.isLeaf = false → PathsOk o X c r),
      (if r.length > 0 && !c.isLeaf then
        writeBack r (updatePaths o X c r (r.map fun i => pp.getD i [])) pp else pp).length = pp.length ∧
      (∀ j, j ∉ r → (if r.length > 0 && !c.isLeaf then
        writeBack r (updatePaths o X c r (r.map fun i => pp.getD i [])) pp else pp)[j]? = pp[j]?) ∧
      (∀ j ∈ r, ∀ p, pp[j]? = some p → (if r.length > 0 && !c.isLeaf then
        writeBack r (updatePaths o X c r (r.map fun i => pp.getD i [])) pp else pp)[j]? =
          some (p ++ path o c (X j))) := by
    intro c r hn pp hlt hc
    by_cases hg : r.length > 0 ∧ c.isLeaf = false
    · rw [if_pos (by simp [hg.2]; simpa using hg.1)]
      obtain ⟨hl, hk⟩ := hc hg.2 (r.map fun i => pp.getD i []) (by simp)
      refine ⟨writeBack_length _ _ _, fun j hj => writeBack_notMem _ _ _ _ hj, ?_⟩
      intro j hj p hp
      obtain ⟨k, hkj⟩ := List.getElem?_of_mem hj
      rw [writeBack_mem r hn _ _ k j hkj (by rw [hl]) (hlt j hj)]
      refine hk k j p hkj ?_
      rw [List.getElem?_map, hkj, Option.map_some, List.getD_eq_getElem?_getD, hp]
      rfl
    · rw [if_neg (by intro h; apply hg; simpa using h)]
      refine ⟨rfl, fun _ _ => rfl, ?_⟩
      intro j hj p hp
      have hleaf : c.isLeaf = true := by
        by_contra h
        exact hg ⟨List.length_pos_of_mem hj, by simpa using h⟩
      cases c with
      | leaf i => simpa [path] using hp
      | split => cases hleaf
  obtain ⟨lc, c0, cv⟩ := recur c1 r1 n1 pb (fun j hj => by rw [lb]; exact lt1 j hj) h1
  obtain ⟨ld, d0, dv⟩ := recur c2 r2 n2 pc (fun j hj => by
    show j < (if r1.length > 0 && !c1.isLeaf then _ else pb).length
    rw [lc, lb]; exact lt2 j hj) h2
  refine ⟨by rw [hup]; show List.length (if r2.length > 0 && !c2.isLeaf then _ else pc) = _
             rw [ld]; show List.length (if r1.length > 0 && !c1.isLeaf then _ else pb) = _
             rw [lc, lb, hlen], ?_⟩
  intro k i' p hk hp
  rw [hup]
  obtain ⟨e1, e2⟩ := hpos k i' hk
  by_cases g1 : o.lt (X i' sp.dim) sp.value = true
  · have hj1 : k ∈ r1 := (m1 k).2 ⟨i', hk, g1⟩
    have hd := d0 k (disj k hj1)
    have hcv := cv k hj1 _ (vb1 k hj1 p hp)
    show pd[k]? = _
    rw [show pd[k]? = pc[k]? from hd, show pc[k]? = _ from hcv, e1]
    simp [path, g1, s1]
  · by_cases g2 : o.ge (X i' sp.dim) sp.value = true
    · have hj2 : k ∈ r2 := (m2 k).2 ⟨i', hk, g2⟩
      have hj1 : k ∉ r1 := fun h => disj k h hj2
      have hcv := c0 k hj1
      have hdv := dv k hj2 (p ++ [s2]) (by
        rw [show pc[k]? = pb[k]? from hcv]; exact vb2 k hj2 p hp)
      rw [show pd[k]? = _ from hdv, e2]
      simp [path, g1, g2, s2]
    · have hj1 : k ∉ r1 := by
        intro h
        obtain ⟨i2, e, g⟩ := (m1 k).1 h
        rw [hk] at e; cases e
        exact g1 g
      have hj2 : k ∉ r2 := by
        intro h
        obtain ⟨i2, e, g⟩ := (m2 k).1 h
        rw [hk] at e; cases e
        exact g2 g
      rw [show pd[k]? = pc[k]? from d0 k hj2, show pc[k]? = pb[k]? from c0 k hj1, vb0 k hj1 hj2, hp]
      simp [path, g1, g2]

theorem height_zero {t : PNode V S K P} (h : height t = 0) : ∃ i, t = .leaf i := by
  cases t with
  | leaf i => exact ⟨i, rfl⟩
  | split => simp [height] at h

theorem pathsOk_height1 (hex : Exclusive (perpRouter o)) (t : PNode V S K P) (h : height t ≤ 1)
    (idx : List Nat) : PathsOk o X t idx := by
  cases t with
  | leaf i => exact pathsOk_leaf i idx
  | split i sp l b c1 c2 =>
    simp only [height] at h
    obtain ⟨i1, rfl⟩ := height_zero (t := c1) (by omega)
    obtain ⟨i2, rfl⟩ := height_zero (t := c2) (by omega)
    refine pathsOk_split hex i sp l b _ _ idx (fun _ => pathsOk_leaf _ _) (fun _ => pathsOk_leaf _ _) ?_
    intro k i _
    exact ⟨rfl, rfl⟩

theorem pathsOk_height2 (hex : Exclusive (perpRouter o)) (t : PNode V S K P) (h : height t ≤ 2)
    (m : Nat) : PathsOk o X t (List.range m) := by
  cases t with
  | leaf i => exact pathsOk_leaf i _
  | split i sp l b c1 c2 =>
    simp only [height] at h
    refine pathsOk_split hex i sp l b _ _ _ (fun _ => pathsOk_height1 hex c1 (by omega) _)
      (fun _ => pathsOk_height1 hex c2 (by omega) _) ?_
    intro k i hk
    obtain ⟨_, rfl⟩ := List.getElem?_eq_some_iff.1 hk
    simp

theorem pathsOk_nil (t : PNode V S K P) : PathsOk o X t [] := by
  intro paths hlen
  have : paths = [] := by simpa using hlen
  subst this
  refine ⟨?_, fun k i p hk => by simp at hk⟩
  cases t with
  | leaf i => rfl
  | split i sp l b c1 c2 => rfl

theorem pathsOk_single (hex : Exclusive (perpRouter o)) (t : PNode V S K P) : PathsOk o X t [0] := by
  induction t with
  | leaf i => exact pathsOk_leaf i _
  | split i sp l b c1 c2 ih1 ih2 =>
    have : ∀ g : Bool, npWhere [g] = [] ∨ npWhere [g] = [0] := by decide
    refine pathsOk_split hex i sp l b _ _ _ (fun _ => ?_) (fun _ => ?_) ?_
    · rcases this (o.lt (X 0 sp.dim) sp.value) with h | h
      · rw [List.map_singleton, h]; exact pathsOk_nil c1
      · rw [List.map_singleton, h]; exact ih1
    · rcases this (o.ge (X 0 sp.dim) sp.value) with h | h
      · rw [List.map_singleton, h]; exact pathsOk_nil c2
      · rw [List.map_singleton, h]; exact ih2
    · intro k i hk
      cases k with
      | zero => obtain rfl : 0 = i := by simpa using hk
                exact ⟨rfl, rfl⟩
      | succ k => simp at hk

end

end BT
