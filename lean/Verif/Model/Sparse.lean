import Verif.Model.Perp
import Verif.Model.Predict

/-!
# Sparse data matrices in the perpendicular tree

CSR and CSC matrices are given by the stored entries of each row or column (the slices
`indices[indptr[i]:indptr[i+1]]`, `data[indptr[i]:indptr[i+1]]`).  Repeated indices within a slice add
up, as in scipy.  The code converts CSR to CSC at every entry point (base_perpendicular.py:84-86,
48-50, base.py:134-136) and turns each extracted column into a 1-D array with `_to_array`.
-/

namespace BT

/-- A compressed sparse row matrix: stored `(column, value)` pairs per row. -/
structure Csr (V : Type) where
  nRows : Nat
  nCols : Nat
  row : Nat → List (Nat × V)

/-- A compressed sparse column matrix: stored `(row, value)` pairs per column. -/
structure Csc (V : Type) where
  nRows : Nat
  nCols : Nat
  col : Nat → List (Nat × V)

/-- The sum of the stored values with index `i`. -/
def stored {V : Type} [AddMonoid V] (l : List (Nat × V)) (i : Nat) : V :=
  ((l.filter fun e => e.1 = i).map Prod.snd).sum

/-- The stored pairs of column `d`, labelled with their row. -/
def colEntries {V : Type} (d i : Nat) (l : List (Nat × V)) : List (Nat × V) :=
  (l.filter fun e => e.1 = d).map fun e => (i, e.2)

/-- `csc_matrix(X)` of a CSR matrix: column by column, the entries in row order. -/
def Csr.toCsc {V : Type} (m : Csr V) : Csc V where
  nRows := m.nRows
  nCols := m.nCols
  col d := (List.range m.nRows).flatMap fun i => colEntries d i (m.row i)

/-- A numpy array by shape and flat content. -/
structure Nd (V : Type) where
  shape : List Nat
  data : List V
  deriving DecidableEq, Repr

section
variable {V K P S O : Type} [AddMonoid V]

/-- `X[i, dim]` (base_perpendicular.py:147-148). -/
def Csc.item (m : Csc V) (i d : Nat) : V := stored (m.col d) i

/-- `X[indices, dim].toarray()`: a single column (base_perpendicular.py:112, 192). -/
def Csc.gather (m : Csc V) (indices : List Nat) (d : Nat) : Nd V :=
  ⟨[indices.length, 1], indices.map fun i => stored (m.col d) i⟩

/-- `X[:, dim].toarray()` (base_perpendicular.py:95). -/
def Csc.column (m : Csc V) (d : Nat) : Nd V := m.gather (List.range m.nRows) d

omit [AddMonoid V] in
/-- `_to_array` after `toarray()` (base_perpendicular.py:220-223). -/
def toArray (a : Nd V) : Nd V :=
  if a.shape = [1, 1] then ⟨[1], a.data⟩ else ⟨a.shape.filter (· ≠ 1), a.data⟩

omit [AddMonoid V] in
/-- Using an array as a 1-D array: `np.argsort`, `np.diff` and `np.where` on anything else do not give
what the code needs (for a 0-D array they raise). -/
def oneD (a : Nd V) : Except Err (List V) :=
  if a.shape.length = 1 then .ok a.data else .error .valueError

/-- `sort_indices_by_dim[dim] = np.argsort(X_dim)` for all dimensions (base_perpendicular.py:90-99). -/
def sortMatrixS (argsort : List V → List Nat) (m : Csc V) (n nDim : Nat) :
    Except Err (List (List Nat)) :=
  (List.range nDim).mapM fun dim =>
    match oneD (toArray (m.column dim)) with
    | .error e => .error e
    | .ok xs => .ok (castIndices n (argsort xs))

/-- One iteration of the loop over dimensions (base_perpendicular.py:110-130). -/
def searchDimS [LT S] [DecidableLT S] (o : XOps V K) (T : Target K P S O) (hp : Hyper K) (level : Nat)
    (m : Csc V) (y : Nat → K) (nDim : Nat) (prior : P) (sid : List (List Nat))
    (b : Best S) (dim : Nat) : Except Err (Best S) :=
  let sortIdx := sid.getD dim []
  match oneD (toArray (m.gather sortIdx dim)) with
  | .error e => .error e
  | .ok xs =>
    let si := splitIndices o hp.splitPrecision xs
    if si.length = 0 then .ok b
    else
      let scores := T.logSplit hp.partitionPrior level (sortIdx.map y) prior nDim si
      let iMax := argmax scores
      match scores[iMax]?, si[iMax]? with
      | some s, some k => if b.score < s then .ok ⟨s, some (dim, k)⟩ else .ok b
      | _, _ => .ok b

/-- `_fit` on a CSC matrix (base_perpendicular.py:76-189). -/
def perpFitS [LT S] [DecidableLT S] [DecidableEq K] [Zero K] [One K]
    (o : XOps V K) (T : Target K P S O) (hp : Hyper K)
    (m : Csc V) (y : Nat → K) (nDim : Nat) (names : List String) :
    Nat → Option P → Nat → List (List Nat) → Except Err (PNode V S K P)
  | 0, _, _, _ => .error .noTermination
  | fuel + 1, priorAttr, level, sid =>
    match sid with
    | [] => .error .indexError
    | row0 :: _ =>
      let nData := shape1 sid
      let prior := T.getPrior priorAttr nData nDim
      let yAny := row0.map y
      let logNoSplit := T.logNoSplit hp.partitionPrior level yAny prior
      match (List.range nDim).foldlM (searchDimS o T hp level m y nDim prior sid)
          (⟨logNoSplit, none⟩ : Best S) with
      | .error e => .error e
      | .ok best =>
        let info : Info K P :=
          { hp := hp, prior := priorAttr, level := level, nDim := some nDim, nData := nData,
            posterior := T.posterior yAny prior 1 }
        match best.split with
        | none => .ok (.leaf info)
        | some (dim, k) =>
          let indices1 := (sid.getD dim []).take k
          let indices2 := (sid.getD dim []).drop k
          let prior1 := if hp.delta ≠ 0 then T.posterior (indices1.map y) prior hp.delta else prior
          let prior2 := if hp.delta ≠ 0 then T.posterior (indices2.map y) prior hp.delta else prior
          match names[dim]?, indices1.getLast?, indices2.head? with
          | some name, some last1, some first2 =>
            let value := o.mid (m.item last1 dim) (m.item first2 dim)
            let sid1 := restrictSid nDim sid indices1
            let sid2 := restrictSid nDim sid indices2
            let y1 := indices1.map y
            let y2 := indices2.map y
            let child1 : Except Err (PNode V S K P) :=
              if shape1 sid1 > 1 ∧ (distinct y1).length > 1 then
                perpFitS o T hp m y nDim names fuel (some prior1) (level + 1) sid1
              else
                .ok (.leaf (mkChildInfo hp.partitionPrior prior1 hp.delta hp.prune hp.splitPrecision
                  (level + 1) (shape1 sid1) (T.posterior y1 prior 1)))
            let child2 : Except Err (PNode V S K P) :=
              if shape1 sid2 > 1 ∧ (distinct y2).length > 1 then
                perpFitS o T hp m y nDim names fuel (some prior2) (level + 1) sid2
              else
                .ok (.leaf (mkChildInfo hp.partitionPrior prior2 hp.delta hp.prune hp.splitPrecision
                  (level + 1) (shape1 sid2) (T.posterior y2 prior 1)))
            match child1 with
            | .error e => .error e
            | .ok c1 =>
              match child2 with
              | .error e => .error e
              | .ok c2 => .ok (.split info ⟨dim, name, value⟩ logNoSplit best.score c1 c2)
          | _, _, _ => .error .indexError

/-- A sparse data matrix of one of the two supported formats. -/
inductive SpMat (V : Type) where
  | csr (m : Csr V)
  | csc (m : Csc V)

omit [AddMonoid V] in
/-- Conversion at the entry points (base_perpendicular.py:84-86, 48-50, base.py:134-136). -/
def SpMat.toCsc : SpMat V → Csc V
  | .csr m => m.toCsc
  | .csc m => m

omit [AddMonoid V] in
/-- `X.shape`. -/
def SpMat.dims : SpMat V → Nat × Nat
  | .csr m => (m.nRows, m.nCols)
  | .csc m => (m.nRows, m.nCols)

/-- `fit` on a sparse matrix after validation: `_fit` at the root and pruning (base.py:69-72). -/
def perpFitRootS [LT S] [DecidableLT S] [DecidableEq K] [Zero K] [One K]
    (o : XOps V K) (T : Target K P S O) (argsort : List V → List Nat) (hp : Hyper K)
    (prior : Option P) (X : SpMat V) (y : Nat → K) (names : List String) :
    Except Err (PNode V S K P) :=
  match sortMatrixS argsort X.toCsc X.dims.1 X.dims.2 with
  | .error e => .error e
  | .ok sid =>
    match perpFitS o T hp X.toCsc y X.dims.2 names (X.dims.1 + 1) prior 0 sid with
    | .error e => .error e
    | .ok t => if hp.prune then prune T.predictLeaf t else .ok t

/-- `_compute_child1_and_child2_indices` on a CSC matrix (base_perpendicular.py:191-199). -/
def childIndicesS (o : XOps V K) (sp : PSplit V) (m : Csc V) (indices : List Nat) :
    Except Err (List Nat × List Nat) :=
  match oneD (toArray (m.gather indices sp.dim)) with
  | .error e => .error e
  | .ok xs => .ok (npWhere (xs.map fun x => o.lt x sp.value), npWhere (xs.map fun x => o.ge x sp.value))

/-- `_predict` on a CSC matrix (base.py:125-145). -/
def predictIntoS {Q : Type} (o : XOps V K) (val : Info K P → Q) (m : Csc V) :
    PNode V S K P → List Nat → List Q → Except Err (List Q)
  | .leaf i, indices, y => .ok (writeAll indices (val i) y)
  | .split _ sp _ _ c1 c2, indices, y =>
    match childIndicesS o sp m indices with
    | .error e => .error e
    | .ok r =>
      match (if r.1.length > 0 then predictIntoS o val m c1 (take1 indices r.1) y else .ok y) with
      | .error e => .error e
      | .ok y => if r.2.length > 0 then predictIntoS o val m c2 (take1 indices r.2) y else .ok y

/-- `predict`, `predict_proba` and `_get_raw_leaf_data` on a sparse matrix (base.py:98-102, 189-193,
classification.py:43-46). -/
def predictRowsS {Q : Type} (o : XOps V K) (val : Info K P → Q) (init : Q) (X : SpMat V)
    (t : PNode V S K P) : Except Err (List Q) :=
  predictIntoS o val X.toCsc t (List.range X.dims.1) (List.replicate X.dims.1 init)

/-- `_update_prediction_paths` on a CSC matrix (base_perpendicular.py:45-70). -/
def updatePathsS (o : XOps V K) (m : Csc V) :
    PNode V S K P → List Nat → List (List (PathStep V)) → Except Err (List (List (PathStep V)))
  | .leaf _, _, paths => .ok paths
  | .split _ sp _ _ c1 c2, indices, paths =>
    match childIndicesS o sp m indices with
    | .error e => .error e
    | .ok r =>
      let paths := if r.1.length > 0 then
        appendAll r.1 (⟨sp.dim, sp.name, sp.value, false⟩ : PathStep V) paths else paths
      let paths := if r.2.length > 0 then
        appendAll r.2 (⟨sp.dim, sp.name, sp.value, true⟩ : PathStep V) paths else paths
      match (if r.1.length > 0 && !c1.isLeaf then
          (updatePathsS o m c1 r.1 (r.1.map fun i => paths.getD i [])).map fun sub =>
            writeBack r.1 sub paths
        else .ok paths) with
      | .error e => .error e
      | .ok paths =>
        if r.2.length > 0 && !c2.isLeaf then
          (updatePathsS o m c2 r.2 (r.2.map fun i => paths.getD i [])).map fun sub =>
            writeBack r.2 sub paths
        else .ok paths

/-- `prediction_paths` on a sparse matrix (base_perpendicular.py:40-43). -/
def predictionPathsS (o : XOps V K) (X : SpMat V) (t : PNode V S K P) :
    Except Err (List (List (PathStep V))) :=
  updatePathsS o X.toCsc t (List.range X.dims.1) (List.replicate X.dims.1 [])

end

end BT
