import Verif.Model.Target

/-!
# `BasePerpendicularTree` (base_perpendicular.py)

The training matrix is `X : Nat → Nat → V` (row, column) with `n` rows and `nDim` columns, the targets
are `y : Nat → K`; all row numbers used come from sort indices, which are `< n`.
(The listing of base_perpendicular.py is cited by its own line numbers.)
-/

namespace BT

/-- Split attributes of a perpendicular node: `split_dimension_`, `split_feature_name_`,
`split_value_` (base_perpendicular.py:144-149). -/
structure PSplit (V : Type) where
  dim : Nat
  name : String
  value : V
  deriving DecidableEq, Repr

/-- A fitted perpendicular tree. -/
abbrev PNode (V S K P : Type) := Node (PSplit V) S K P

/-- `_compute_child1_and_child2_indices` (base_perpendicular.py:191-199). -/
def perpRouter {V K : Type} (o : XOps V K) : Router (PSplit V) (Nat → V) where
  goes1 sp x := o.lt (x sp.dim) sp.value
  goes2 sp x := o.ge (x sp.dim) sp.value

/-- Bit width of the unsigned dtype chosen for the sort indices (base_perpendicular.py:92). -/
def sortIndexBits (nData : Nat) : Nat :=
  if nData < 1 <<< 16 then 16 else if nData < 1 <<< 32 then 32 else 64

/-- Storing `np.argsort(X_dim)` into the array of that dtype (base_perpendicular.py:93, 99). -/
def castIndices (nData : Nat) (idx : List Nat) : List Nat :=
  idx.map fun i => i % 2 ^ sortIndexBits nData

/-- The initial `sort_indices_by_dim` (base_perpendicular.py:90-99); `argsort` is numpy's. -/
def sortMatrix {V : Type} (argsort : List V → List Nat) (X : Nat → Nat → V) (n nDim : Nat) :
    List (List Nat) :=
  (List.range nDim).map fun dim =>
    castIndices n (argsort ((List.range n).map fun i => X i dim))

section fit
variable {V K P S O : Type}

/-- `split_indices` (base_perpendicular.py:116). -/
def splitIndices (o : XOps V K) (prec : K) (xs : List V) : List Nat :=
  (npWhere ((xs.zip xs.tail).map fun p => o.gap prec p.1 p.2)).map (1 + ·)

/-- State of the search for the best split: `best_log_p_data_split` and
(`best_split_dimension`, `best_split_index`), `none` standing for the initial `-1`s
(base_perpendicular.py:105-109). -/
structure Best (S : Type) where
  score : S
  split : Option (Nat × Nat)
  deriving DecidableEq, Repr

/-- One iteration of the loop over dimensions (base_perpendicular.py:110-130). -/
def searchDim [LT S] [DecidableLT S] (o : XOps V K) (T : Target K P S O) (hp : Hyper K) (level : Nat)
    (X : Nat → Nat → V) (y : Nat → K) (nDim : Nat) (prior : P) (sid : List (List Nat))
    (b : Best S) (dim : Nat) : Best S :=
  let sortIdx := sid.getD dim []
  let xs := sortIdx.map fun i => X i dim
  let si := splitIndices o hp.splitPrecision xs
  if si.length = 0 then b
  else
    let scores := T.logSplit hp.partitionPrior level (sortIdx.map y) prior nDim si
    let iMax := argmax scores
    match scores[iMax]?, si[iMax]? with
    | some s, some k => if b.score < s then ⟨s, some (dim, k)⟩ else b
    | _, _ => b

/-- The child objects' attributes as passed to the constructor
`child_type(partition_prior, prior, delta, prune, split_precision, level)`
(base_perpendicular.py:153-156, classification.py:182, regression.py:202). -/
def mkChildInfo (partitionPrior : K) (prior : P) (delta : K) (prune : Bool) (splitPrecision : K)
    (level : Nat) (nData : Nat) (posterior : P) : Info K P :=
  { hp := ⟨partitionPrior, delta, prune, splitPrecision⟩, prior := some prior, level := level,
    nDim := none, nData := nData, posterior := posterior }

/-- `sort_indices_by_dim[np.isin(sort_indices_by_dim, indices)].reshape(n_dim, -1)`
(base_perpendicular.py:164-165). -/
def restrictSid (nDim : Nat) (sid : List (List Nat)) (indices : List Nat) : List (List Nat) :=
  reshape nDim (sid.flatten.filter fun i => decide (i ∈ indices))

/-- `sort_indices_by_dim.shape[1]`. -/
def shape1 (sid : List (List Nat)) : Nat := (sid.headD []).length

/-- `_fit` (base_perpendicular.py:76-189) for a node whose sort indices are given; `fuel` bounds the
recursion depth.  At the root `n_data = X.shape[0]`, which is also the width of the sort matrix.
Verbose printing and the dense/sparse conversion are not modelled here. -/
def perpFit [LT S] [DecidableLT S] [DecidableEq K] [Zero K] [One K]
    (o : XOps V K) (T : Target K P S O) (hp : Hyper K)
    (X : Nat → Nat → V) (y : Nat → K) (nDim : Nat) (names : List String) :
    Nat → Option P → Nat → List (List Nat) → Except Err (PNode V S K P)
  | 0, _, _, _ => .error .noTermination
  | fuel + 1, priorAttr, level, sid =>
    match sid with
    | [] => .error .indexError           -- `sort_indices_by_dim[0]` with n_dim = 0
    | row0 :: _ =>
      let nData := shape1 sid
      let prior := T.getPrior priorAttr nData nDim
      let yAny := row0.map y
      let logNoSplit := T.logNoSplit hp.partitionPrior level yAny prior
      let best := (List.range nDim).foldl
        (searchDim o T hp level X y nDim prior sid) ⟨logNoSplit, none⟩
      let info : Info K P :=
        { hp := hp, prior := priorAttr, level := level, nDim := some nDim, nData := nData,
          posterior := T.posterior yAny prior 1 }
      match best.split with
      | none => .ok (.leaf info)
      | some (dim, k) =>
        let indices1 := (sid.getD dim []).take k
        let indices2 := (sid.getD dim []).drop k
        let prior1 := if hp.delta ≠ 0 then T.posterior (indices1.map y) prior hp.delta else prior
        let prior2 := if hp.delta ≠ 0 then T.posterior (indices2.map y) prior hp.delta else prior
        match names[dim]?, indices1.getLast?, indices2.head? with
        | some name, some last1, some first2 =>
          let value := o.mid (X last1 dim) (X first2 dim)
          let sid1 := restrictSid nDim sid indices1
          let sid2 := restrictSid nDim sid indices2
          let y1 := indices1.map y
          let y2 := indices2.map y
          let child1 : Except Err (PNode V S K P) :=
            if shape1 sid1 > 1 ∧ (distinct y1).length > 1 then
              perpFit o T hp X y nDim names fuel (some prior1) (level + 1) sid1
            else
              .ok (.leaf (mkChildInfo hp.partitionPrior prior1 hp.delta hp.prune hp.splitPrecision
                (level + 1) (shape1 sid1) (T.posterior y1 prior 1)))
          let child2 : Except Err (PNode V S K P) :=
            if shape1 sid2 > 1 ∧ (distinct y2).length > 1 then
              perpFit o T hp X y nDim names fuel (some prior2) (level + 1) sid2
            else
              .ok (.leaf (mkChildInfo hp.partitionPrior prior2 hp.delta hp.prune hp.splitPrecision
                (level + 1) (shape1 sid2) (T.posterior y2 prior 1)))
          match child1 with
          | .error e => .error e
          | .ok c1 =>
            match child2 with
            | .error e => .error e
            | .ok c2 => .ok (.split info ⟨dim, name, value⟩ logNoSplit best.score c1 c2)
        | _, _, _ => .error .indexError   -- `feature_names[dim]`, `indices1[-1]`, `indices2[0]`

/-- `_fit(X, y, verbose, feature_names, 'root')` of a fresh model followed by the optional pruning of
`fit` (base.py:69-72).  The fuel `n + 1` is enough: theorem `C12_fit_terminates`. -/
def perpFitRoot [LT S] [DecidableLT S] [DecidableEq K] [Zero K] [One K]
    (o : XOps V K) (T : Target K P S O) (argsort : List V → List Nat) (hp : Hyper K)
    (prior : Option P) (X : Nat → Nat → V) (y : Nat → K) (n nDim : Nat) (names : List String) :
    Except Err (PNode V S K P) := do
  let t ← perpFit o T hp X y nDim names (n + 1) prior 0 (sortMatrix argsort X n nDim)
  if hp.prune then prune T.predictLeaf t else pure t

end fit

section paths
variable {V S K P : Type}

/-- A step of a prediction path (base_perpendicular.py:55, 60). -/
structure PathStep (V : Type) where
  dim : Nat
  name : String
  value : V
  right : Bool
  deriving DecidableEq, Repr

/-- The loop `for i in idx: paths[i].append(step)` (base_perpendicular.py:56-57). -/
def appendAll {α : Type} (idx : List Nat) (step : α) (paths : List (List α)) : List (List α) :=
  idx.foldl (fun ps i => ps.modify i (· ++ [step])) paths

/-- Writing back the (aliased) path objects `paths1 = [paths[i] for i in idx]` after the recursive
call has appended to them (base_perpendicular.py:65-66). -/
def writeBack {α : Type} (idx : List Nat) (sub paths : List α) : List α :=
  (idx.zip sub).foldl (fun ps p => ps.set p.1 p.2) paths

/-- `_update_prediction_paths(X, indices, paths)` (base_perpendicular.py:45-70).  `paths` is a list of
mutable lists, modelled by returning the updated lists.  As in the code, the recursive calls pass the
positions `indices1` (relative to `indices`) as row numbers. -/
def updatePaths (o : XOps V K) (X : Nat → Nat → V) :
    PNode V S K P → List Nat → List (List (PathStep V)) → List (List (PathStep V))
  | .leaf _, _, paths => paths
  | .split _ sp _ _ c1 c2, indices, paths =>
    let r := childIndices (perpRouter o) sp X indices
    let paths := if r.1.length > 0 then
      appendAll r.1 (⟨sp.dim, sp.name, sp.value, false⟩ : PathStep V) paths else paths
    let paths := if r.2.length > 0 then
      appendAll r.2 (⟨sp.dim, sp.name, sp.value, true⟩ : PathStep V) paths else paths
    let paths := if r.1.length > 0 && !c1.isLeaf then
      writeBack r.1 (updatePaths o X c1 r.1 (r.1.map fun i => paths.getD i [])) paths else paths
    if r.2.length > 0 && !c2.isLeaf then
      writeBack r.2 (updatePaths o X c2 r.2 (r.2.map fun i => paths.getD i [])) paths else paths

/-- `prediction_paths(X)` after input checks (base_perpendicular.py:40-43). -/
def predictionPaths (o : XOps V K) (X : Nat → Nat → V) (m : Nat) (t : PNode V S K P) :
    List (List (PathStep V)) :=
  updatePaths o X t (List.range m) (List.replicate m [])

end paths

section importance
variable {V K P : Type} [Field K]

/-- `feature_importance[dim] += gain`. -/
def addAt (fi : List K) (dim : Nat) (gain : K) : List K := fi.modify dim (· + gain)

/-- `_update_feature_importance` (base_perpendicular.py:205-213). -/
def perpUpdateImportance : PNode V K K P → List K → List K
  | .leaf _, fi => fi
  | .split _ sp l b c1 c2, fi =>
    perpUpdateImportance c2 (perpUpdateImportance c1 (addAt fi sp.dim (b - l)))

/-- `feature_importance()` (base.py:104-123) before normalisation. -/
def perpImportanceRaw (nDim : Nat) (t : PNode V K K P) : List K :=
  perpUpdateImportance t (List.replicate nDim 0)

/-- Normalisation `fi /= fi.sum()` (base.py:121); `none` entries are NaN, produced by `0/0`. -/
def normalizeImportance [DecidableEq K] (fi : List K) : List (Option K) :=
  fi.map fun v => if fi.sum = 0 then none else some (v / fi.sum)

/-- `feature_importance()` of a perpendicular tree (base.py:104-123).  If the sum is zero every entry
is zero (gains are positive), so `0/0 = NaN` in each position. -/
def perpFeatureImportance [DecidableEq K] (nDim : Nat) (t : PNode V K K P) : List (Option K) :=
  normalizeImportance (perpImportanceRaw nDim t)

end importance

end BT
