import Verif.Lemmas.PathsMap
import Verif.Lemmas.PathsExact

/-!
# C04: `prediction_paths`

The property is false of the code: from the third level of splits on, positions inside a sub-batch are
used as row numbers of the whole batch.  `C04_refuted` gives a fitted tree and a batch; the partial
theorem covers single rows and trees with at most two levels of splits.
-/

namespace BT
open Spec

/-- C04, what does hold: `prediction_paths(X)[i]` is the list of decisions of row `i` if the batch has
a single row, or if the tree has at most two levels of splits.  Missing from the full statement: batches
of several rows with deeper trees, where it is false (`C04_refuted`). -/
theorem C04_paths_partial {V S K P : Type} (o : XOps V K) (hex : Exclusive (perpRouter o))
    (t : PNode V S K P) (X : Nat → Nat → V) (m : Nat) (h : m = 1 ∨ height t ≤ 2) :
    (predictionPaths o X m t).length = m ∧
      ∀ i < m, (predictionPaths o X m t)[i]? = some (path o t (X i)) := by
  have hok : PathsOk o X t (List.range m) := by
    rcases h with rfl | h
    · exact pathsOk_single hex t
    · exact pathsOk_height2 hex t h m
  obtain ⟨h1, h2⟩ := hok (List.replicate m []) (by simp)
  refine ⟨by rw [predictionPaths, h1, List.length_range], fun i hi => ?_⟩
  rw [predictionPaths, h2 i i [] (by simp [hi]) (by simp [hi]), List.nil_append]

/-- What `prediction_paths` returns for every tree and batch, row by row (`Spec.reported`): a row decides at the root and at
depth 1; below, the row whose number is its place in the list of a node higher up decides. -/
theorem C04_exact {V S K P : Type} (o : XOps V K) (hex : Exclusive (perpRouter o)) (t : PNode V S K P) (X : Nat → Nat → V)
    (m : Nat) : (predictionPaths o X m t).length = m ∧
      ∀ i < m, (predictionPaths o X m t)[i]? = some (reported o X t (List.range m) i) := by
  obtain ⟨h1, h2⟩ := pathsAre hex t (X := X) (List.range m) (List.replicate m []) (by simp)
  refine ⟨by rw [predictionPaths, h1, List.length_range], fun i hi => ?_⟩
  rw [predictionPaths, h2 i [] (by simpa using hi) (by simp [hi]), List.nil_append]

/-- C04, what holds for all trees and batches: the first two decisions reported for a row are its own. -/
theorem C04_first_two_partial {V S K P : Type} (o : XOps V K) (hex : Exclusive (perpRouter o)) (t : PNode V S K P)
    (X : Nat → Nat → V) (m : Nat) (i : Nat) (hi : i < m) :
    ∃ p, (predictionPaths o X m t)[i]? = some p ∧ p.take 2 = (path o t (X i)).take 2 :=
  ⟨_, (C04_exact o hex t X m).2 i hi, reported_take2 t m i hi⟩

/-- And every reported path leads from the root to a leaf, if every value goes to one of the sides. -/
theorem C04_chain_partial {V S K P : Type} (o : XOps V K) (hex : Exclusive (perpRouter o))
    (htot : ∀ a v, o.lt a v = true ∨ o.ge a v = true) (t : PNode V S K P) (X : Nat → Nat → V) (m : Nat) (i : Nat) (hi : i < m) :
    ∃ addr info, nodeAt t addr = some (.leaf info) ∧ (predictionPaths o X m t)[i]? = some (decisions t addr) := by
  obtain ⟨addr, u, hn, hr, hu⟩ := reported_decisions (o := o) (X := X) t (List.range m) i
  rcases hu with hu | ⟨j, sp, l, s, c1, c2, r, rfl, h1, h2⟩
  · cases u with
    | leaf info => exact ⟨addr, info, hn, by rw [(C04_exact o hex t X m).2 i hi, hr]⟩
    | split => cases hu
  · rcases htot (X r sp.dim) sp.value with h | h
    · rw [h] at h1; cases h1
    · rw [h] at h2; cases h2

/-- And batches whose rows all take the same decisions are reported right, for trees of any depth. -/
theorem C04_same_partial {V S K P : Type} (o : XOps V K) (hex : Exclusive (perpRouter o)) (t : PNode V S K P)
    (X : Nat → Nat → V) (m : Nat) (hm : ∀ i < m, path o t (X i) = path o t (X 0)) (i : Nat) (hi : i < m) :
    (predictionPaths o X m t)[i]? = some (path o t (X i)) := by
  rw [(C04_exact o hex t X m).2 i hi, hm i hi,
    reported_same t m (List.range m) (X 0) hm (by simp) (fun j hj => List.mem_range.1 hj) i (by simpa using hi)]

/-- Training data whose tree is a chain of three splits: blocks of labels 0, 1, 0, 1. -/
def deepCtx : Ctx ℚ ℚ (List ℚ) ℚ (List ℚ) where
  o := exactOps ℚ
  T := probTarget ℚ
  pair := probPair
  hp := sampleHp
  X := matOf 0 [[0], [1], [2], [3], [4], [5], [6], [7], [0], [1], [2], [3], [4], [5], [6], [7]]
  y := vecOf 0 [0, 0, 1, 1, 0, 0, 1, 1, 0, 0, 1, 1, 0, 0, 1, 1]
  nDim := 1
  names := ["x0"]

/-- Query batch. -/
def deepQuery : Nat → Nat → ℚ := matOf 0 [[0], [2], [4], [7]]

/-- Its fitted tree. -/
def deepTree : PNode ℚ ℚ ℚ (List ℚ) :=
  ((fitIn deepCtx (insArgsort (exactOps ℚ).le) (some [1, 1]) 16).toOption).getD
    (.leaf ⟨sampleHp, none, 0, none, 0, []⟩)

theorem deepFit : fitIn deepCtx (insArgsort (exactOps ℚ).le) (some [1, 1]) 16 = .ok deepTree := by
  decide +kernel

/-- The code reports that the last row went left at the third split. -/
theorem deepPaths : (predictionPaths (exactOps ℚ) deepQuery 4 deepTree)[3]? =
      some [⟨0, "x0", 3 / 2, true⟩, ⟨0, "x0", 7 / 2, true⟩, ⟨0, "x0", 11 / 2, false⟩] ∧
    path (exactOps ℚ) deepTree (deepQuery 3) =
      [⟨0, "x0", 3 / 2, true⟩, ⟨0, "x0", 7 / 2, true⟩, ⟨0, "x0", 11 / 2, true⟩] := by
  decide +kernel

/-- C04 is false: there is a (real-valued, log-gamma scored) classification fit and a batch of four
rows for which `prediction_paths` reports a decision the row does not take. -/
theorem C04_refuted : ∃ (c : Ctx ℝ ℝ (List ℝ) ℝ (List ℝ)) (prior : List ℝ) (n : Nat) (t : PNode ℝ ℝ ℝ (List ℝ))
    (X : Nat → Nat → ℝ), c.o = exactOps ℝ ∧ c.T = clsTarget realFns ∧
    Valid (fun _ => True) c realSort n ∧ fitIn c realSort (some prior) n = .ok t ∧
    ∃ i < 4, (predictionPaths (exactOps ℝ) X 4 t)[i]? ≠ some (path (exactOps ℝ) t (X i)) := by
  refine ⟨castCtx deepCtx, castL [1, 1], 16, castTree sampleHp deepTree, fun i d => (deepQuery i d : ℝ),
    rfl, rfl, castCtx_valid (by decide) (by decide) (le_refl _) realSort_spec,
    cast_fit deepFit rfl rfl rfl (by decide) (by decide) (by decide) (le_refl _) (by decide +kernel)
      (by decide +kernel) (le_refl _) ⟨by simp, by decide +kernel⟩ realSort_spec, 3, by decide, ?_⟩
  have hlt : ∀ (d : Nat) (a v : ℚ), (exactOps ℝ).lt (a : ℝ) (v : ℝ) = (exactOps ℚ).lt a v := by
    intro d a v; simp [exactOps]
  have hge : ∀ (d : Nat) (a v : ℚ), (exactOps ℝ).ge (a : ℝ) (v : ℝ) = (exactOps ℚ).ge a v := by
    intro d a v; simp [exactOps]
  have e1 := predictionPaths_map (o := exactOps ℚ) (o' := exactOps ℝ) (castHp sampleHp)
    (fun _ (v : ℚ) => (v : ℝ)) castL (fun (s : ℚ) => Real.log (s : ℝ)) hlt hge deepQuery 4 deepTree
  have e2 := path_map (o := exactOps ℚ) (o' := exactOps ℝ) (castHp sampleHp)
    (fun _ (v : ℚ) => (v : ℝ)) castL (fun (s : ℚ) => Real.log (s : ℝ)) hlt hge (deepQuery 3) deepTree
  unfold castTree
  rw [e1, e2, List.getElem?_map, deepPaths.1, deepPaths.2]
  simp [mapStep]

/-- The partial theorem covers trees with several splits and batches of several rows. -/
example : height sampleTree = 2 ∧
    (predictionPaths (exactOps ℚ) (matOf 0 [[5, 0], [0, 0], [3, 0]]) 3 sampleTree)[0]? =
      some [⟨0, "a", 3 / 2, true⟩, ⟨0, "a", 7 / 2, true⟩] := by
  decide +kernel

/-- The chain theorem on the refuting batch: the reported path of the last row leads to a leaf, not its own. -/
example : nodeAt deepTree [true, true, false] ≠ none ∧
    (predictionPaths (exactOps ℚ) deepQuery 4 deepTree)[3]? = some (decisions deepTree [true, true, false]) := by
  decide +kernel

/-- Three different rows that take the same three decisions. -/
example : (∀ i < 3, path (exactOps ℚ) deepTree (matOf 0 [[6], [7], [9]] i) = path (exactOps ℚ) deepTree (matOf 0 [[6], [7], [9]] 0)) ∧
    (path (exactOps ℚ) deepTree (matOf 0 [[6], [7], [9]] 0)).length = 3 := by
  decide +kernel

end BT
