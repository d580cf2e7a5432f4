import Verif.Lemmas.Paths
import Verif.Spec.Paths

/-!
# `prediction_paths` row by row
-/

namespace BT
open Spec

section
variable {V S K P : Type} {o : XOps V K} {X : Nat → Nat → V}

theorem npWhere_places (l : List Nat) (f : Nat → Bool) : npWhere (l.map f) = places l f := by
  unfold npWhere places
  rw [List.length_map]
  apply List.filter_congr
  intro j hj
  have hj := List.mem_range.1 hj
  rw [List.getD_eq_getElem?_getD, List.getD_eq_getElem?_getD, List.getElem?_map, List.getElem?_eq_getElem hj]
  rfl

/-- The recursion appends the reported decisions. -/
def PathsAre (o : XOps V K) (X : Nat → Nat → V) (t : PNode V S K P) (idx : List Nat) : Prop :=
  ∀ paths : List (List (PathStep V)), paths.length = idx.length →
    (updatePaths o X t idx paths).length = idx.length ∧
    ∀ (k : Nat) (p : List (PathStep V)), k < idx.length → paths[k]? = some p →
      (updatePaths o X t idx paths)[k]? = some (p ++ reported o X t idx k)

theorem pathsAre_split (hex : Exclusive (perpRouter o)) (i : Info K P) (sp : PSplit V) (l b : S)
    (c1 c2 : PNode V S K P) (idx : List Nat)
    (h1 : c1.isLeaf = false → PathsAre o X c1 (npWhere (idx.map fun i => o.lt (X i sp.dim) sp.value)))
    (h2 : c2.isLeaf = false → PathsAre o X c2 (npWhere (idx.map fun i => o.ge (X i sp.dim) sp.value))) :
    PathsAre o X (.split i sp l b c1 c2) idx := by
  intro paths hlen
  set r1 := npWhere (idx.map fun i => o.lt (X i sp.dim) sp.value) with hr1
  set r2 := npWhere (idx.map fun i => o.ge (X i sp.dim) sp.value) with hr2
  have n1 : r1.Nodup := npWhere_nodup _
  have n2 : r2.Nodup := npWhere_nodup _
  have m1 : ∀ j, j ∈ r1 ↔ ∃ i, idx[j]? = some i ∧ o.lt (X i sp.dim) sp.value = true := by
    intro j
    rw [hr1, mem_npWhere, List.getElem?_map, Option.map_eq_some_iff]
  have m2 : ∀ j, j ∈ r2 ↔ ∃ i, idx[j]? = some i ∧ o.ge (X i sp.dim) sp.value = true := by
    intro j
    rw [hr2, mem_npWhere, List.getElem?_map, Option.map_eq_some_iff]
  have disj : ∀ j, j ∈ r1 → j ∉ r2 := by
    intro j hj hj'
    obtain ⟨i, e, g⟩ := (m1 j).1 hj
    obtain ⟨i', e', g'⟩ := (m2 j).1 hj'
    rw [e] at e'; cases e'
    exact hex sp (X i) ⟨g, g'⟩
  have lt1 : ∀ j ∈ r1, j < paths.length := by
    intro j hj
    have := npWhere_lt hj
    rw [hlen]; simpa using this
  have lt2 : ∀ j ∈ r2, j < paths.length := by
    intro j hj
    have := npWhere_lt hj
    rw [hlen]; simpa using this
  let s1 : PathStep V := ⟨sp.dim, sp.name, sp.value, false⟩
  let s2 : PathStep V := ⟨sp.dim, sp.name, sp.value, true⟩
  -- the code interleaves: append 1, append 2, recurse 1, recurse 2
  let pa := if r1.length > 0 then appendAll r1 s1 paths else paths
  let pb := if r2.length > 0 then appendAll r2 s2 pa else pa
  let pc := if r1.length > 0 && !c1.isLeaf then
      writeBack r1 (updatePaths o X c1 r1 (r1.map fun i => pb.getD i [])) pb else pb
  let pd := if r2.length > 0 && !c2.isLeaf then
      writeBack r2 (updatePaths o X c2 r2 (r2.map fun i => pc.getD i [])) pc else pc
  have hup : updatePaths o X (.split i sp l b c1 c2) idx paths = pd := rfl
  have hpa : pa = appendAll r1 s1 paths := by
    show (if r1.length > 0 then appendAll r1 s1 paths else paths) = _
    split
    · rfl
    · next h =>
      have : r1 = [] := by simpa using h
      rw [this]; rfl
  have hpb : pb = appendAll r2 s2 pa := by
    show (if r2.length > 0 then appendAll r2 s2 pa else pa) = _
    split
    · rfl
    · next h =>
      have : r2 = [] := by simpa using h
      rw [this]; rfl
  have la : pa.length = paths.length := by rw [hpa, appendAll_length]
  have lb : pb.length = paths.length := by rw [hpb, appendAll_length, la]
  have vb1 : ∀ j ∈ r1, ∀ p, paths[j]? = some p → pb[j]? = some (p ++ [s1]) := by
    intro j hj p hp
    rw [hpb, appendAll_getElem? _ n2, if_neg (disj j hj), hpa, appendAll_getElem? _ n1, if_pos hj, hp]
    rfl
  have vb2 : ∀ j ∈ r2, ∀ p, paths[j]? = some p → pb[j]? = some (p ++ [s2]) := by
    intro j hj p hp
    rw [hpb, appendAll_getElem? _ n2, if_pos hj, hpa, appendAll_getElem? _ n1,
      if_neg (fun h => disj j h hj), hp]
    rfl
  have vb0 : ∀ j, j ∉ r1 → j ∉ r2 → pb[j]? = paths[j]? := by
    intro j h1 h2
    rw [hpb, appendAll_getElem? _ n2, if_neg h2, hpa, appendAll_getElem? _ n1, if_neg h1]
  -- a recursion writes the right values
  have recur : ∀ (c : PNode V S K P) (r : List Nat) (hn : r.Nodup) (pp : List (List (PathStep V)))
      (hlt : ∀ j ∈ r, j < pp.length) (hc : c.isLeaf = false → PathsAre o X c r),
      (if r.length > 0 && !c.isLeaf then
        writeBack r (updatePaths o X c r (r.map fun i => pp.getD i [])) pp else pp).length = pp.length ∧
      (∀ j, j ∉ r → (if r.length > 0 && !c.isLeaf then
        writeBack r (updatePaths o X c r (r.map fun i => pp.getD i [])) pp else pp)[j]? = pp[j]?) ∧
      (∀ j ∈ r, ∀ p, pp[j]? = some p → (if r.length > 0 && !c.isLeaf then
        writeBack r (updatePaths o X c r (r.map fun i => pp.getD i [])) pp else pp)[j]? =
          some (p ++ reported o X c r (r.idxOf j))) := by
    intro c r hn pp hlt hc
    by_cases hg : r.length > 0 ∧ c.isLeaf = false
    · rw [if_pos (by simp [hg.2]; simpa using hg.1)]
      obtain ⟨hl, hk⟩ := hc hg.2 (r.map fun i => pp.getD i []) (by simp)
      refine ⟨writeBack_length _ _ _, fun j hj => writeBack_notMem _ _ _ _ hj, ?_⟩
      intro j hj p hp
      obtain ⟨k, hkj⟩ := List.getElem?_of_mem hj
      rw [writeBack_mem r hn _ _ k j hkj (by rw [hl]) (hlt j hj)]
      have hidx : r.idxOf j = k := by
        obtain ⟨hkl, rfl⟩ := List.getElem?_eq_some_iff.1 hkj
        exact hn.idxOf_getElem k hkl
      rw [hidx]
      refine hk k p (List.getElem?_eq_some_iff.1 hkj).1 ?_
      rw [List.getElem?_map, hkj, Option.map_some, List.getD_eq_getElem?_getD, hp]
      rfl
    · rw [if_neg (by intro h; apply hg; simpa using h)]
      refine ⟨rfl, fun _ _ => rfl, ?_⟩
      intro j hj p hp
      have hleaf : c.isLeaf = true := by
        by_contra h
        exact hg ⟨List.length_pos_of_mem hj, by simpa using h⟩
      cases c with
      | leaf i => simpa [reported] using hp
      | split => cases hleaf
  obtain ⟨lc, c0, cv⟩ := recur c1 r1 n1 pb (fun j hj => by rw [lb]; exact lt1 j hj) h1
  obtain ⟨ld, d0, dv⟩ := recur c2 r2 n2 pc (fun j hj => by
    show j < (if r1.length > 0 && !c1.isLeaf then _ else pb).length
    rw [lc, lb]; exact lt2 j hj) h2
  refine ⟨by rw [hup]; show List.length (if r2.length > 0 && !c2.isLeaf then _ else pc) = _
             rw [ld]; show List.length (if r1.length > 0 && !c1.isLeaf then _ else pb) = _
             rw [lc, lb, hlen], ?_⟩
  intro k p hkl hp
  rw [hup]
  obtain ⟨i', hk⟩ : ∃ i', idx[k]? = some i' := ⟨_, List.getElem?_eq_getElem hkl⟩
  have hgd : idx.getD k 0 = i' := by rw [List.getD_eq_getElem?_getD, hk]; rfl
  by_cases g1 : o.lt (X i' sp.dim) sp.value = true
  · have hj1 : k ∈ r1 := (m1 k).2 ⟨i', hk, g1⟩
    have hd := d0 k (disj k hj1)
    have hcv := cv k hj1 _ (vb1 k hj1 p hp)
    show pd[k]? = _
    rw [show pd[k]? = pc[k]? from hd, show pc[k]? = _ from hcv]
    rw [reported]
    simp only [hgd, g1, if_true, ← npWhere_places, ← hr1]
    simp [s1]
  · by_cases g2 : o.ge (X i' sp.dim) sp.value = true
    · have hj2 : k ∈ r2 := (m2 k).2 ⟨i', hk, g2⟩
      have hj1 : k ∉ r1 := fun h => disj k h hj2
      have hcv := c0 k hj1
      have hdv := dv k hj2 (p ++ [s2]) (by
        rw [show pc[k]? = pb[k]? from hcv]; exact vb2 k hj2 p hp)
      rw [show pd[k]? = _ from hdv]
      rw [reported]
      simp only [hgd, g1, g2, if_true, if_false, ← npWhere_places, ← hr2, Bool.false_eq_true]
      simp [s2]
    · have hj1 : k ∉ r1 := by
        intro h
        obtain ⟨i2, e, g⟩ := (m1 k).1 h
        rw [hk] at e; cases e
        exact g1 g
      have hj2 : k ∉ r2 := by
        intro h
        obtain ⟨i2, e, g⟩ := (m2 k).1 h
        rw [hk] at e; cases e
        exact g2 g
      rw [show pd[k]? = pc[k]? from d0 k hj2, show pc[k]? = pb[k]? from c0 k hj1, vb0 k hj1 hj2, hp]
      rw [reported]
      simp only [hgd, g1, g2, if_false, Bool.false_eq_true, List.append_nil]

theorem pathsAre (hex : Exclusive (perpRouter o)) (t : PNode V S K P) (idx : List Nat) : PathsAre o X t idx := by
  induction t generalizing idx with
  | leaf i =>
    intro paths hlen
    refine ⟨by simpa [updatePaths] using hlen, fun k p _ hp => ?_⟩
    simpa [updatePaths, reported] using hp
  | split i sp l b c1 c2 ih1 ih2 => exact pathsAre_split hex i sp l b c1 c2 idx (fun _ => ih1 _) fun _ => ih2 _

theorem mem_places {l : List Nat} {p : Nat → Bool} {j : Nat} : j ∈ places l p ↔ j < l.length ∧ p (l.getD j 0) = true := by
  simp [places]

theorem places_getD_idxOf {l : List Nat} {p : Nat → Bool} {k : Nat} (hk : k ∈ places l p) :
    (places l p).getD ((places l p).idxOf k) 0 = k := by
  have h := List.idxOf_lt_length_of_mem hk
  rw [List.getD_eq_getElem?_getD, List.getElem?_eq_getElem h, List.getElem_idxOf h]
  rfl

/-- Along the reported decisions one gets to a node, and stops there only because it is a leaf or because the row that
decides there goes to neither child. -/
theorem reported_decisions (t : PNode V S K P) (rows : List Nat) (k : Nat) :
    ∃ addr u, nodeAt t addr = some u ∧ reported o X t rows k = decisions t addr ∧
      (u.isLeaf = true ∨ ∃ i sp l s c1 c2 r, u = .split i sp l s c1 c2 ∧ o.lt (X r sp.dim) sp.value = false ∧
        o.ge (X r sp.dim) sp.value = false) := by
  induction t generalizing rows k with
  | leaf i => exact ⟨[], _, nodeAt_nil _, rfl, .inl rfl⟩
  | split i sp l s c1 c2 ih1 ih2 =>
    rw [reported]
    by_cases h1 : o.lt (X (rows.getD k 0) sp.dim) sp.value = true
    · obtain ⟨addr, u, hn, hr, hu⟩ := ih1 (places rows fun i => o.lt (X i sp.dim) sp.value)
        ((places rows fun i => o.lt (X i sp.dim) sp.value).idxOf k)
      refine ⟨false :: addr, u, by simpa [nodeAt] using hn, ?_, hu⟩
      simp only [if_pos h1, decisions, hr, Bool.false_eq_true, if_false]
    · by_cases h2 : o.ge (X (rows.getD k 0) sp.dim) sp.value = true
      · obtain ⟨addr, u, hn, hr, hu⟩ := ih2 (places rows fun i => o.ge (X i sp.dim) sp.value)
          ((places rows fun i => o.ge (X i sp.dim) sp.value).idxOf k)
        refine ⟨true :: addr, u, by simpa [nodeAt] using hn, ?_, hu⟩
        simp only [if_neg h1, if_pos h2, decisions, hr, if_true]
      · refine ⟨[], _, nodeAt_nil _, ?_, .inr ⟨i, sp, l, s, c1, c2, _, rfl, by simpa using h1, by simpa using h2⟩⟩
        simp only [if_neg h1, if_neg h2, decisions]

/-- One step of a report is right if the row stands at its place. -/
theorem reported_take (t : PNode V S K P) (rows : List Nat) (k : Nat) :
    (reported o X t rows k).take 1 = (path o t (X (rows.getD k 0))).take 1 := by
  cases t with
  | leaf i => rfl
  | split i sp l s c1 c2 =>
    simp only [reported, path]
    split
    · simp
    · split <;> simp

theorem reported_take2 (t : PNode V S K P) (m k : Nat) (hk : k < m) :
    (reported o X t (List.range m) k).take 2 = (path o t (X k)).take 2 := by
  have hr : (List.range m).getD k 0 = k := by simp [List.getD_eq_getElem?_getD, hk]
  cases t with
  | leaf i => rfl
  | split i sp l s c1 c2 =>
    simp only [reported, path, hr]
    split
    · next h =>
      rw [List.take_succ_cons, List.take_succ_cons, reported_take,
        places_getD_idxOf (mem_places.2 ⟨by simpa using hk, by rw [hr]; exact h⟩)]
    · split
      · next h =>
        rw [List.take_succ_cons, List.take_succ_cons, reported_take,
          places_getD_idxOf (mem_places.2 ⟨by simpa using hk, by rw [hr]; exact h⟩)]
      · rfl

/-- A batch whose rows all take the same decisions. -/
theorem reported_same (t : PNode V S K P) (m : Nat) (rows : List Nat) (x : Nat → V)
    (hm : ∀ i < m, path o t (X i) = path o t x) (hlen : rows.length ≤ m) (hrows : ∀ i ∈ rows, i < m) (k : Nat)
    (hk : k < rows.length) : reported o X t rows k = path o t x := by
  induction t generalizing rows k with
  | leaf i => rfl
  | split i sp l s c1 c2 ih1 ih2 =>
    have hr : rows.getD k 0 < m := by
      rw [List.getD_eq_getElem?_getD, List.getElem?_eq_getElem hk]
      exact hrows _ (List.getElem_mem hk)
    have hpl : ∀ p : Nat → Bool, (places rows p).length ≤ m ∧ ∀ i ∈ places rows p, i < m := by
      intro p
      refine ⟨((List.length_filter_le _ _).trans (by simp)).trans hlen, fun i hi => ?_⟩
      exact (mem_places.1 hi).1.trans_le hlen
    have hrep := hm _ hr
    rw [reported]
    by_cases h1 : o.lt (x sp.dim) sp.value = true
    · have hall : ∀ i < m, o.lt (X i sp.dim) sp.value = true ∧ path o c1 (X i) = path o c1 x := by
        intro i hi
        have := hm i hi
        simp only [path, h1, if_true] at this
        by_cases g : o.lt (X i sp.dim) sp.value = true
        · rw [if_pos g] at this
          exact ⟨g, List.cons.inj this |>.2⟩
        · rw [if_neg g] at this
          split at this <;> simp at this
      have hin : k ∈ places rows fun i => o.lt (X i sp.dim) sp.value := mem_places.2 ⟨hk, (hall _ hr).1⟩
      simp only [(hall _ hr).1, if_true, path, h1]
      rw [ih1 _ (fun i hi => (hall i hi).2) (hpl _).1 (hpl _).2 _ (List.idxOf_lt_length_of_mem hin)]
    · by_cases h2 : o.ge (x sp.dim) sp.value = true
      · have hall : ∀ i < m, ¬ o.lt (X i sp.dim) sp.value = true ∧ o.ge (X i sp.dim) sp.value = true ∧
            path o c2 (X i) = path o c2 x := by
          intro i hi
          have := hm i hi
          simp only [path, h1, h2, if_true, if_false, Bool.false_eq_true] at this
          by_cases g : o.lt (X i sp.dim) sp.value = true
          · rw [if_pos g] at this
            simp at this
          · rw [if_neg g] at this
            by_cases g2 : o.ge (X i sp.dim) sp.value = true
            · rw [if_pos g2] at this
              exact ⟨g, g2, List.cons.inj this |>.2⟩
            · rw [if_neg g2] at this
              simp at this
        have hin : k ∈ places rows fun i => o.ge (X i sp.dim) sp.value := mem_places.2 ⟨hk, (hall _ hr).2.1⟩
        simp only [(hall _ hr).1, (hall _ hr).2.1, if_true, if_false, path, h1, h2, Bool.false_eq_true]
        rw [ih2 _ (fun i hi => (hall i hi).2.2) (hpl _).1 (hpl _).2 _ (List.idxOf_lt_length_of_mem hin)]
      · simp only [path, h1, h2, if_false, Bool.false_eq_true] at hrep
        split at hrep
        · simp at hrep
        · next g1 =>
          split at hrep
          · simp at hrep
          · next g2 => simp only [g1, g2, path, h1, h2, if_false, Bool.false_eq_true]

end

end BT
