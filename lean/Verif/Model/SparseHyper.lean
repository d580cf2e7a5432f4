import Verif.Model.Hyper
import Verif.Model.Sparse

/-!
# Sparse data matrices in the hyperplane tree

CSR matrices are converted to CSC at the root (base_hyperplane.py:31-34, base.py:134-136).  Unlike the
model of the dense case, the recursion passes sub-matrices and sub-vectors (`X[indices1]`, `y[indices1]`),
as the code does.
-/

namespace BT

section
variable {K P S O : Type} [Field K] [LinearOrder K]

/-- `X @ v` for a CSC matrix: scipy walks over the columns and adds each stored entry times `v[j]` to the
result (hyperplane_optimization.py:51, base_hyperplane.py:63, 124). -/
def Csc.matvec (m : Csc K) (v : List K) : Except Err (List K) :=
  if v.length ≠ m.nCols then .error .valueError
  else .ok ((List.range m.nCols).foldl
    (fun ys j => (m.col j).foldl (fun ys e => addAt ys e.1 (e.2 * v.getD j 0)) ys)
    (List.replicate m.nRows 0))

/-- `X[idx]` for a CSC matrix and an array of row numbers: each stored entry is copied to the positions at
which its row is selected (base_hyperplane.py:77-78, 124). -/
def Csc.takeRows (m : Csc K) (idx : List Nat) : Csc K where
  nRows := idx.length
  nCols := m.nCols
  col d := (m.col d).flatMap fun e =>
    (npWhere (idx.map fun i => decide (i = e.1))).map fun k => (k, e.2)

/-- `X[i].toarray()[0]` (hyperplane_optimization.py:66-70, 193-197). -/
def Csc.rowArray (m : Csc K) (i : Nat) : List K :=
  (List.range m.nCols).map fun d => stored ((m.takeRows [i]).col d) 0

/-- The attributes of a `HyperplaneOptimizationFunction` on sparse data (hyperplane_optimization.py:17-24). -/
structure SProb (K P S : Type) where
  X : Csc K
  y : List K
  prior : P
  partitionPrior : K
  level : Nat
  noSplit : S
  hypercube : Bool
  prec : K

/-- What an optimizer reads from the object: the shape, rows converted by `X[i].toarray()[0]`, and targets
(hyperplane_optimization.py:160-203, 221-222, 243-244, 301-302, 357-358). -/
def SProb.view (q : SProb K P S) : HProb K P S where
  X i d := (q.X.rowArray i).getD d 0
  y i := q.y.getD i 0
  nDim := q.X.nCols
  rows := List.range q.X.nRows
  prior := q.prior
  partitionPrior := q.partitionPrior
  level := q.level
  noSplit := q.noSplit
  hypercube := q.hypercube
  prec := q.prec

/-- `compute` on sparse data (hyperplane_optimization.py:33-88). -/
def sCompute [Neg S] [LT S] [LE S] [DecidableLT S] [DecidableLE S] (A : HArith K) (T : Target K P S O)
    (q : SProb K P S) (st : HState S K) (r : RawVec K) : Except Err (HState S K × S) :=
  let st := { st with evals := st.evals + 1 }
  let r' : Except Err (RawVec K) :=
    if q.hypercube then
      match A.sphere r.v with
      | .error e => .error e
      | .ok w => .ok ⟨false, w⟩
    else .ok r
  match r' with
  | .error e => .error e
  | .ok r' =>
    match normalizeVec A r' with
    | .error e => .error e
    | .ok normal =>
      match q.X.matvec normal with
      | .error e => .error e
      | .ok projections =>
        let sortIdx := A.argsort projections
        let si := splitIndices (exactOps K) q.prec projections
        if si.length = 0 then .ok (st, -q.noSplit)
        else
          let ySorted := sortIdx.map fun j => q.y.getD j 0
          let scores := T.logSplit q.partitionPrior q.level ySorted q.prior q.X.nCols si
          let iMax := argmax scores
          match scores[iMax]?, si[iMax]? with
          | some s, some k =>
            if st.bestScore ≤ s then
              match sortIdx[k - 1]?, sortIdx[k]? with
              | some a, some b =>
                let origin := List.zipWith (fun u v => (1 / 2) * (u + v)) (q.X.rowArray a) (q.X.rowArray b)
                let dist := (projections.map fun p => |p - dot normal origin|).sum
                let accept := if st.bestScore < s then true else decide (st.bestDist < dist)
                if accept then
                  .ok ({ st with bestScore := s, bestDist := dist, best := some ⟨normal, origin⟩ }, -s)
                else .ok (st, -s)
              | _, _ => .error .indexError
            else .ok (st, -s)
          | _, _ => .error .indexError

/-- Running `optimizer.solve(optimization_function)` on sparse data (base_hyperplane.py:54). -/
def sSolve [Neg S] [LT S] [LE S] [DecidableLT S] [DecidableLE S] (A : HArith K) (T : Target K P S O)
    (q : SProb K P S) (strat : Strategy K S) :
    Nat → List (RawVec K × S) → HState S K → Except Err (HState S K)
  | 0, _, _ => .error .noTermination
  | budget + 1, hist, st =>
    match strat hist with
    | .stop => .ok st
    | .raise e => .error e
    | .eval r =>
      match sCompute A T q st r with
      | .error e => .error e
      | .ok (st', val) => sSolve A T q strat budget ((r, val) :: hist) st'

/-- Library functions, target, parameters and optimizer of a hyperplane model. -/
structure HEnv (K P S O : Type) where
  A : HArith K
  T : Target K P S O
  hp : Hyper K
  opt : Optimizer K P S
  /-- bound on the number of interactions of one `solve` -/
  budget : Nat

/-- The model applied to dense data. -/
def HEnv.on (c : HEnv K P S O) (X : Nat → Nat → K) (y : Nat → K) (nDim : Nat) : HCtx K P S O :=
  ⟨c.A, c.T, c.hp, c.opt, c.budget, X, y, nDim⟩

/-- `_fit` on a CSC matrix (base_hyperplane.py:22-121). -/
def hFitS [Neg S] [LT S] [LE S] [DecidableLT S] [DecidableLE S] (c : HEnv K P S O) :
    Nat → Option P → Nat → Csc K → List K → Except Err (HNode S K P)
  | 0, _, _, _, _ => .error .noTermination
  | fuel + 1, priorAttr, level, X, y =>
    let nData := X.nRows
    let nDim := X.nCols
    let prior := c.T.getPrior priorAttr nData nDim
    let noSplit := c.T.logNoSplit c.hp.partitionPrior level y prior
    let q : SProb K P S :=
      ⟨X, y, prior, c.hp.partitionPrior, level, noSplit, c.opt.hypercube, c.hp.splitPrecision⟩
    match sSolve c.A c.T q (c.opt.solve q.view) c.budget [] ⟨0, noSplit, 0, none⟩ with
    | .error e => .error e
    | .ok st =>
      let info : Info K P :=
        { hp := c.hp, prior := priorAttr, level := level, nDim := some nDim, nData := nData,
          posterior := c.T.posterior y prior 1 }
      match st.best with
      | none => .ok (.leaf info)
      | some sp =>
        match X.matvec sp.normal with
        | .error e => .error e
        | .ok xn =>
          let projections := xn.map fun p => p - dot sp.normal sp.origin
          let indices1 := npWhere (projections.map fun p => decide (p < 0))
          let indices2 := npWhere (projections.map fun p => decide (0 ≤ p))
          if indices1.length > 0 ∧ indices2.length > 0 then
            let X1 := X.takeRows indices1
            let X2 := X.takeRows indices2
            let y1 := indices1.map fun i => y.getD i 0
            let y2 := indices2.map fun i => y.getD i 0
            let prior1 := c.T.posterior y1 prior 0
            let prior2 := c.T.posterior y2 prior 0
            let child1 : Except Err (HNode S K P) :=
              if X1.nRows > 1 ∧ (distinct y1).length > 1 then hFitS c fuel (some prior1) (level + 1) X1 y1
              else .ok (.leaf ⟨c.hp, some prior1, level + 1, none, X1.nRows, c.T.posterior y1 prior 1⟩)
            let child2 : Except Err (HNode S K P) :=
              if X2.nRows > 1 ∧ (distinct y2).length > 1 then hFitS c fuel (some prior2) (level + 1) X2 y2
              else .ok (.leaf ⟨c.hp, some prior2, level + 1, none, X2.nRows, c.T.posterior y2 prior 1⟩)
            match child1 with
            | .error e => .error e
            | .ok c1 =>
              match child2 with
              | .error e => .error e
              | .ok c2 => .ok (.split info sp noSplit st.bestScore c1 c2)
          else .ok (.leaf info)

/-- `fit` of a fresh hyperplane model on sparse data after input checks (base.py:69-72). -/
def hFitRootS [Neg S] [LT S] [LE S] [DecidableLT S] [DecidableLE S] (c : HEnv K P S O) (prior : Option P)
    (X : SpMat K) (y : List K) : Except Err (HNode S K P) :=
  match hFitS c (X.dims.1 + 1) prior 0 X.toCsc y with
  | .error e => .error e
  | .ok t => if c.hp.prune then prune c.T.predictLeaf t else .ok t

/-- `_compute_child1_and_child2_indices` on a CSC matrix (base_hyperplane.py:123-128). -/
def hChildIndicesS (sp : HSplit K) (m : Csc K) (indices : List Nat) : Except Err (List Nat × List Nat) :=
  match (m.takeRows indices).matvec sp.normal with
  | .error e => .error e
  | .ok xn =>
    let projections := xn.map fun p => p - dot sp.normal sp.origin
    .ok (npWhere (projections.map fun p => decide (p < 0)), npWhere (projections.map fun p => decide (0 ≤ p)))

/-- `_predict` on a CSC matrix (base.py:125-145). -/
def hPredictIntoS {Q : Type} (val : Info K P → Q) (m : Csc K) :
    HNode S K P → List Nat → List Q → Except Err (List Q)
  | .leaf i, indices, y => .ok (writeAll indices (val i) y)
  | .split _ sp _ _ c1 c2, indices, y =>
    match hChildIndicesS sp m indices with
    | .error e => .error e
    | .ok r =>
      match (if r.1.length > 0 then hPredictIntoS val m c1 (take1 indices r.1) y else .ok y) with
      | .error e => .error e
      | .ok y => if r.2.length > 0 then hPredictIntoS val m c2 (take1 indices r.2) y else .ok y

/-- `predict`, `predict_proba` and `_get_raw_leaf_data` on a sparse matrix (base.py:98-102, 189-193,
classification.py:43-46). -/
def hPredictRowsS {Q : Type} (val : Info K P → Q) (init : Q) (X : SpMat K) (t : HNode S K P) :
    Except Err (List Q) :=
  hPredictIntoS val X.toCsc t (List.range X.dims.1) (List.replicate X.dims.1 init)

end

end BT
