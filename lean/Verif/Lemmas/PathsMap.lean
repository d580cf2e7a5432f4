import Verif.Lemmas.Paths
import Verif.Lemmas.RealSample

/-!
# `prediction_paths` commutes with an order-preserving change of feature values
-/

namespace BT
open Spec

section
variable {V V' K K' S S' P P' : Type}

/-- Image of a path step. -/
def mapStep (fV : Nat → V → V') (s : PathStep V) : PathStep V' := ⟨s.dim, s.name, fV s.dim s.value, s.right⟩

theorem appendAll_map {α β : Type} (f : α → β) (idx : List Nat) (step : α) (paths : List (List α)) :
    appendAll idx (f step) (paths.map (List.map f)) = (appendAll idx step paths).map (List.map f) := by
  induction idx generalizing paths with
  | nil => rfl
  | cons a idx ih =>
    have h1 : appendAll (a :: idx) (f step) (paths.map (List.map f)) =
      appendAll idx (f step) ((paths.map (List.map f)).modify a (· ++ [f step])) := rfl
    have h2 : appendAll (a :: idx) step paths = appendAll idx step (paths.modify a (· ++ [step])) := rfl
    rw [h1, h2, ← ih]
    congr 1
    apply List.ext_getElem?
    intro j
    simp only [List.getElem?_modify, List.getElem?_map]
    cases paths[j]? <;> simp
    split <;> simp

theorem writeBack_map {α β : Type} (f : α → β) (idx : List Nat) (sub paths : List α) :
    writeBack idx (sub.map f) (paths.map f) = (writeBack idx sub paths).map f := by
  induction idx generalizing sub paths with
  | nil => rfl
  | cons a idx ih =>
    cases sub with
    | nil => rfl
    | cons s sub =>
      have h1 : writeBack (a :: idx) ((s :: sub).map f) (paths.map f) =
        writeBack idx (sub.map f) ((paths.map f).set a (f s)) := rfl
      have h2 : writeBack (a :: idx) (s :: sub) paths = writeBack idx sub (paths.set a s) := rfl
      rw [h1, h2, ← ih, List.map_set]

theorem mapTree_isLeaf (hp' : Hyper K') (fV : Nat → V → V') (fP : P → P') (fS : S → S') (t : PNode V S K P) :
    (mapTree hp' fV fP fS t).isLeaf = t.isLeaf := by
  cases t <;> rfl

theorem updatePaths_map {o : XOps V K} {o' : XOps V' K'} (hp' : Hyper K') (fV : Nat → V → V') (fP : P → P')
    (fS : S → S') (hlt : ∀ d a v, o'.lt (fV d a) (fV d v) = o.lt a v)
    (hge : ∀ d a v, o'.ge (fV d a) (fV d v) = o.ge a v) (X : Nat → Nat → V) (t : PNode V S K P)
    (idx : List Nat) (paths : List (List (PathStep V))) :
    updatePaths o' (fun i d => fV d (X i d)) (mapTree hp' fV fP fS t) idx
      (paths.map (List.map (mapStep fV))) = (updatePaths o X t idx paths).map (List.map (mapStep fV)) := by
  induction t generalizing idx paths with
  | leaf i => rfl
  | split i sp l b c1 c2 ih1 ih2 =>
    have r : childIndices (perpRouter o') ⟨sp.dim, sp.name, fV sp.dim sp.value⟩ (fun i d => fV d (X i d)) idx =
        childIndices (perpRouter o) sp X idx := by
      simp only [childIndices, perpRouter, hlt, hge]
    simp only [mapTree, updatePaths, r, mapTree_isLeaf]
    generalize childIndices (perpRouter o) sp X idx = r
    have s1 : (⟨sp.dim, sp.name, fV sp.dim sp.value, false⟩ : PathStep V') =
      mapStep fV ⟨sp.dim, sp.name, sp.value, false⟩ := rfl
    have s2 : (⟨sp.dim, sp.name, fV sp.dim sp.value, true⟩ : PathStep V') =
      mapStep fV ⟨sp.dim, sp.name, sp.value, true⟩ := rfl
    have getD : ∀ (ps : List (List (PathStep V))) (q : List Nat),
        (q.map fun i => (ps.map (List.map (mapStep fV))).getD i []) =
          (q.map fun i => ps.getD i []).map (List.map (mapStep fV)) := by
      intro ps q
      rw [List.map_map]
      apply List.map_congr_left
      intro i _
      simp only [List.getD_eq_getElem?_getD, List.getElem?_map, Function.comp]
      cases ps[i]? <;> rfl
    have ifm : ∀ (p : Prop) [Decidable p] (a b : List (List (PathStep V))),
        (if p then a.map (List.map (mapStep fV)) else b.map (List.map (mapStep fV))) =
          (if p then a else b).map (List.map (mapStep fV)) := by
      intro p _ a b; split <;> rfl
    simp only [s1, s2, appendAll_map, ifm, getD, ih1, ih2, writeBack_map]

theorem predictionPaths_map {o : XOps V K} {o' : XOps V' K'} (hp' : Hyper K') (fV : Nat → V → V')
    (fP : P → P') (fS : S → S') (hlt : ∀ d a v, o'.lt (fV d a) (fV d v) = o.lt a v)
    (hge : ∀ d a v, o'.ge (fV d a) (fV d v) = o.ge a v) (X : Nat → Nat → V) (m : Nat) (t : PNode V S K P) :
    predictionPaths o' (fun i d => fV d (X i d)) m (mapTree hp' fV fP fS t) =
      (predictionPaths o X m t).map (List.map (mapStep fV)) := by
  unfold predictionPaths
  rw [← updatePaths_map hp' fV fP fS hlt hge, List.map_replicate]
  rfl

theorem path_map {o : XOps V K} {o' : XOps V' K'} (hp' : Hyper K') (fV : Nat → V → V') (fP : P → P')
    (fS : S → S') (hlt : ∀ d a v, o'.lt (fV d a) (fV d v) = o.lt a v)
    (hge : ∀ d a v, o'.ge (fV d a) (fV d v) = o.ge a v) (x : Nat → V) (t : PNode V S K P) :
    path o' (mapTree hp' fV fP fS t) (fun d => fV d (x d)) = (path o t x).map (mapStep fV) := by
  induction t with
  | leaf i => rfl
  | split i sp l b c1 c2 ih1 ih2 =>
    simp only [mapTree, path, hlt, hge, ih1, ih2]
    split
    · rfl
    · split <;> rfl

end

end BT
