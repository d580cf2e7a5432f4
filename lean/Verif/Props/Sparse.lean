import Verif.Spec.Sparse
import Verif.Lemmas.Sample
import Verif.Spec.Perp
import Mathlib.Algebra.BigOperators.Group.List.Basic
import Mathlib.Data.Rat.Defs

/-!
# C44: sparse and dense inputs are equivalent (perpendicular trees)
-/

namespace BT
open Spec

section
variable {V K P S O : Type} [AddMonoid V]

omit [AddMonoid V] in
theorem oneD_toArray (m : Nat) (l : List V) (h : l.length = m) : oneD (toArray ⟨[m, 1], l⟩) = .ok l := by
  unfold toArray oneD
  by_cases hm : m = 1
  · subst hm; simp
  · have : ¬ ([m, 1] = [1, 1]) := by simpa using hm
    rw [if_neg this]
    simp [hm]

/-- C44, column extraction: `_to_array` of an extracted column is the 1-D array of its entries, for any
number of rows – also for a single one, where `squeeze` alone would give a 0-D array. -/
theorem C44_column (m : Csc V) (indices : List Nat) (d : Nat) :
    toArray (m.gather indices d) = ⟨[indices.length], indices.map fun i => m.item i d⟩ := by
  unfold toArray Csc.gather Csc.item
  by_cases hm : indices.length = 1
  · simp [hm]
  · have : ¬ ([indices.length, 1] = [1, 1]) := by simpa using hm
    rw [if_neg this]
    simp [hm]

theorem oneD_gather (m : Csc V) (indices : List Nat) (d : Nat) :
    oneD (toArray (m.gather indices d)) = .ok (indices.map fun i => m.item i d) := by
  rw [C44_column]; rfl

theorem stored_toCsc (m : Csr V) (i d : Nat) :
    stored (m.toCsc.col d) i = if i < m.nRows then stored (m.row i) d else 0 := by
  unfold stored Csr.toCsc
  simp only [List.filter_flatMap, List.map_flatMap]
  have key : ∀ j, ((colEntries d j (m.row j)).filter fun e => e.1 = i).map Prod.snd =
      if j = i then ((m.row i).filter fun e => e.1 = d).map Prod.snd else [] := by
    intro j
    unfold colEntries
    rw [List.filter_map, List.map_map]
    by_cases hj : j = i
    · subst hj
      simp only [if_true, Function.comp_def]
      simp
    · simp only [Function.comp_def, hj, decide_false, List.filter_false, List.map_nil, if_false]
  simp only [key]
  have : ∀ n, ((List.range n).flatMap fun j =>
      if j = i then ((m.row i).filter fun e => e.1 = d).map Prod.snd else []) =
      if i < n then ((m.row i).filter fun e => e.1 = d).map Prod.snd else [] := by
    intro n
    induction n with
    | zero => simp
    | succ n ih =>
      rw [List.range_succ, List.flatMap_append, ih]
      by_cases h : i < n
      · have h1 : n ≠ i := by omega
        have h2 : i < n + 1 := by omega
        simp [h, h1, h2]
      · by_cases e : n = i
        · subst e; simp
        · have h2 : ¬ i < n + 1 := by omega
          simp [h, e, h2]
  rw [this]
  split <;> simp

/-- The entries after the conversion to CSC are those of the matrix. -/
theorem item_toCsc (X : SpMat V) : X.toCsc.item = denseEntry X := by
  funext i d
  cases X with
  | csr m => exact stored_toCsc m i d
  | csc m => rfl

omit [AddMonoid V] in
theorem toCsc_nRows (X : SpMat V) : X.toCsc.nRows = X.dims.1 := by cases X <;> rfl

section fit
variable [LinearOrder S] [DecidableEq K] [Zero K] [One K]

theorem sortMatrixS_eq (argsort : List V → List Nat) (m : Csc V) (nDim : Nat) :
    sortMatrixS argsort m m.nRows nDim = .ok (sortMatrix argsort m.item m.nRows nDim) := by
  unfold sortMatrixS sortMatrix
  have : ∀ l : List Nat, (l.mapM fun dim =>
      match oneD (toArray (m.column dim)) with
      | .error e => (.error e : Except Err (List Nat))
      | .ok xs => .ok (castIndices m.nRows (argsort xs))) =
      .ok (l.map fun dim => castIndices m.nRows (argsort ((List.range m.nRows).map fun i => m.item i dim))) := by
    intro l
    induction l with
    | nil => rfl
    | cons a l ih =>
      rw [List.mapM_cons, ih]
      unfold Csc.column
      rw [oneD_gather]
      rfl
  exact this _

omit [DecidableEq K] [Zero K] [One K] in
theorem searchDimS_eq (o : XOps V K) (T : Target K P S O) (hp : Hyper K) (level : Nat)
    (m : Csc V) (y : Nat → K) (nDim : Nat) (prior : P) (sid : List (List Nat)) (b : Best S) (dim : Nat) :
    searchDimS o T hp level m y nDim prior sid b dim =
      .ok (searchDim o T hp level m.item y nDim prior sid b dim) := by
  unfold searchDimS searchDim
  dsimp only
  rw [oneD_gather]
  dsimp only
  split
  · rfl
  · cases (T.logSplit hp.partitionPrior level (List.map y (sid.getD dim [])) prior nDim
      (splitIndices o hp.splitPrecision (List.map (fun i => m.item i dim) (sid.getD dim []))))[argmax
        (T.logSplit hp.partitionPrior level (List.map y (sid.getD dim [])) prior nDim
          (splitIndices o hp.splitPrecision (List.map (fun i => m.item i dim) (sid.getD dim []))))]? with
    | none => rfl
    | some s =>
      cases (splitIndices o hp.splitPrecision (List.map (fun i => m.item i dim) (sid.getD dim [])))[argmax
        (T.logSplit hp.partitionPrior level (List.map y (sid.getD dim [])) prior nDim
          (splitIndices o hp.splitPrecision (List.map (fun i => m.item i dim) (sid.getD dim []))))]? with
      | none => rfl
      | some k => dsimp only; split <;> rfl

theorem foldlM_ok {α β : Type} (f : β → α → β) (l : List α) (b : β) :
    l.foldlM (fun b a => (.ok (f b a) : Except Err β)) b = .ok (l.foldl f b) := by
  induction l generalizing b with
  | nil => rfl
  | cons a l ih => rw [List.foldlM_cons]; exact ih _

theorem perpFitS_eq (o : XOps V K) (T : Target K P S O) (hp : Hyper K) (m : Csc V) (y : Nat → K)
    (nDim : Nat) (names : List String) (fuel : Nat) (pa : Option P) (lv : Nat) (sid : List (List Nat)) :
    perpFitS o T hp m y nDim names fuel pa lv sid =
      perpFit o T hp m.item y nDim names fuel pa lv sid := by
  induction fuel generalizing pa lv sid with
  | zero => rfl
  | succ fuel ih =>
    unfold perpFitS perpFit
    cases sid with
    | nil => rfl
    | cons row0 rest =>
      dsimp only
      have : searchDimS o T hp lv m y nDim (T.getPrior pa (shape1 (row0 :: rest)) nDim) (row0 :: rest) =
          fun b dim => .ok (searchDim o T hp lv m.item y nDim (T.getPrior pa (shape1 (row0 :: rest)) nDim)
            (row0 :: rest) b dim) := by
        funext b dim
        exact searchDimS_eq ..
      rw [this, foldlM_ok]
      simp only [ih]
      generalize List.foldl _ _ _ = best
      cases hb : best.split with
      | none => rfl
      | some dk =>
        dsimp only
        cases names[dk.1]? with
        | none => rfl
        | some name =>
          cases (List.take dk.2 ((row0 :: rest).getD dk.1 [])).getLast? with
          | none => rfl
          | some last1 =>
            cases (List.drop dk.2 ((row0 :: rest).getD dk.1 [])).head? with
            | none => rfl
            | some first2 => rfl

/-- C44, fit: on a CSR or CSC matrix `fit` gives the model (or exception) it gives on the dense matrix
with the same entries. -/
theorem C44_fit (o : XOps V K) (T : Target K P S O) (argsort : List V → List Nat) (hp : Hyper K)
    (prior : Option P) (X : SpMat V) (y : Nat → K) (names : List String) :
    perpFitRootS o T argsort hp prior X y names =
      perpFitRoot o T argsort hp prior (denseEntry X) y X.dims.1 X.dims.2 names := by
  unfold perpFitRootS perpFitRoot
  rw [← toCsc_nRows, sortMatrixS_eq, item_toCsc]
  dsimp only
  rw [perpFitS_eq, item_toCsc]
  cases perpFit o T hp (denseEntry X) y X.dims.2 names (X.toCsc.nRows + 1) prior 0
      (sortMatrix argsort (denseEntry X) X.toCsc.nRows X.dims.2) with
  | error e => rfl
  | ok t => rfl

end fit

theorem childIndicesS_eq (o : XOps V K) (sp : PSplit V) (m : Csc V) (indices : List Nat) :
    childIndicesS o sp m indices = .ok (childIndices (perpRouter o) sp m.item indices) := by
  unfold childIndicesS
  rw [oneD_gather]
  simp only [childIndices, perpRouter, List.map_map, Function.comp_def]

theorem predictIntoS_eq {Q : Type} (o : XOps V K) (val : Info K P → Q) (m : Csc V) (t : PNode V S K P)
    (indices : List Nat) (q : List Q) :
    predictIntoS o val m t indices q = .ok (predictInto (perpRouter o) val m.item t indices q) := by
  induction t generalizing indices q with
  | leaf i => rfl
  | split i sp l b c1 c2 ih1 ih2 =>
    rw [predictIntoS, predictInto, childIndicesS_eq]
    dsimp only
    simp only [ih1, ih2]
    by_cases h1 : (childIndices (perpRouter o) sp m.item indices).1.length > 0
    · by_cases h2 : (childIndices (perpRouter o) sp m.item indices).2.length > 0 <;> simp [h1, h2]
    · by_cases h2 : (childIndices (perpRouter o) sp m.item indices).2.length > 0 <;> simp [h1, h2]

/-- C44, predictions: every prediction method (`val` selects the class or value, the posterior mean or the
raw leaf data) gives on a sparse matrix the result for the dense matrix with the same entries. -/
theorem C44_predict {Q : Type} (o : XOps V K) (val : Info K P → Q) (init : Q) (X : SpMat V)
    (t : PNode V S K P) :
    predictRowsS o val init X t = .ok (predictRows (perpRouter o) val init (denseEntry X) X.dims.1 t) := by
  unfold predictRowsS predictRows
  rw [predictIntoS_eq, item_toCsc]

theorem updatePathsS_eq (o : XOps V K) (m : Csc V) (t : PNode V S K P) (indices : List Nat)
    (paths : List (List (PathStep V))) :
    updatePathsS o m t indices paths = .ok (updatePaths o m.item t indices paths) := by
  induction t generalizing indices paths with
  | leaf i => rfl
  | split i sp l b c1 c2 ih1 ih2 =>
    rw [updatePathsS, updatePaths, childIndicesS_eq]
    dsimp only
    simp only [ih1, ih2, Except.map]
    split
    · rename_i e h
      split at h <;> simp at h
    · rename_i e h
      split at h
      · rename_i h1
        rw [if_pos h1]
        injection h with h
        rw [h]
        split <;> rfl
      · rename_i h1
        rw [if_neg h1]
        injection h with h
        rw [h]
        split <;> rfl

/-- C44, prediction paths. -/
theorem C44_paths (o : XOps V K) (X : SpMat V) (t : PNode V S K P) :
    predictionPathsS o X t = .ok (predictionPaths o (denseEntry X) X.dims.1 t) := by
  unfold predictionPathsS predictionPaths
  rw [updatePathsS_eq, item_toCsc]

end

/-- A 4 × 2 CSR matrix with missing cells, a stored zero and a cell stored in two parts. -/
def sampleCsr : Csr ℚ where
  nRows := 4
  nCols := 2
  row i := [[(1, 1)], [(1, 5), (0, 0)], [(0, 3)], [(0, 1), (1, 2), (0, 3)]].getD i []

/-- Fit and prediction on it: the classes 0, 0, 1, 1 are split at 3/2 in the first column. -/
example : (denseEntry (.csr sampleCsr) 3 0 = 4) ∧
    (perpFitRootS (exactOps ℚ) (probTarget ℚ) (insArgsort (exactOps ℚ).le) ⟨9 / 10, 0, false, 0⟩
        (some [1, 1]) (.csr sampleCsr) (fun i => [0, 0, 1, 1].getD i 0) ["a", "b"]).toOption.map
      (fun t => (t.isLeaf, (predictRowsS (exactOps ℚ) (fun i => (probTarget ℚ).predictLeaf i.posterior) 0
        (.csr sampleCsr) t).toOption)) = some (false, some [0, 0, 1, 1]) := by
  decide +kernel

/-- A single row: `_to_array` gives a 1-D array of length one. -/
example : toArray (sampleCsr.toCsc.gather [3] 0) = ⟨[1], [4]⟩ := by decide +kernel

end BT
