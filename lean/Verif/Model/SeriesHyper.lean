import Verif.Model.Series
import Verif.Model.Hyper

/-!
# Hyperplane trees with a pandas `Series` as target

The matrix of a node is indexed by position, its target by label: a node has the rows `rows` of the training
matrix, and the Series `ys` of the same length.  The functions follow the same lines of code as
`Model/Hyper.lean`; a Series of one element is not covered (`squeeze` turns it into a number, base.py:58).
-/

namespace BT

section
variable {K P S O : Type} [Field K] [LinearOrder K] [Neg S] [LT S] [LE S] [DecidableLT S] [DecidableLE S]

/-- `compute` (hyperplane_optimization.py:33-88) with `self.y` the Series `ys`: `self.y[sort_indices]` and
`log_p_data_split[i_max]` are by label, `argmax` and `split_indices[i_max]` by position. -/
def hComputeSer (A : HArith K) (T : SerTarget K P S O) (q : HProb K P S) (ys : Ser K) (st : HState S K)
    (r : RawVec K) : Except Err (HState S K × S) :=
  let st := { st with evals := st.evals + 1 }
  match hNormal A q r with
  | .error e => .error e
  | .ok normal =>
    let sortIdx := A.argsort (hProj q normal)
    let si := hSplitIndices q normal
    if si.length = 0 then .ok (st, -q.noSplit)
    else
      match ys.locs sortIdx with
      | .error e => .error e
      | .ok ySorted =>
        match T.logSplit q.partitionPrior q.level ySorted q.prior q.nDim si with
        | .error e => .error e
        | .ok scores =>
          let iMax := argmax scores.vals
          match scores.loc iMax with
          | .error e => .error e
          | .ok s =>
            if st.bestScore ≤ s then
              match si[iMax]? with
              | none => .error .indexError
              | some k =>
                match sortIdx[k - 1]?, sortIdx[k]? with
                | some a, some b =>
                  let sp : HSplit K := ⟨normal, hOrigin q a b⟩
                  let dist := hDist q sp
                  let accept := if st.bestScore < s then true else decide (st.bestDist < dist)
                  if accept then .ok ({ st with bestScore := s, bestDist := dist, best := some sp }, -s)
                  else .ok (st, -s)
                | _, _ => .error .indexError
            else .ok (st, -s)

/-- `optimizer.solve(optimization_function)` (base_hyperplane.py:54). -/
def hSolveSer (A : HArith K) (T : SerTarget K P S O) (q : HProb K P S) (ys : Ser K) (strat : Strategy K S) :
    Nat → List (RawVec K × S) → HState S K → Except Err (HState S K)
  | 0, _, _ => .error .noTermination
  | budget + 1, hist, st =>
    match strat hist with
    | .stop => .ok st
    | .raise e => .error e
    | .eval r =>
      match hComputeSer A T q ys st r with
      | .error e => .error e
      | .ok (st', val) => hSolveSer A T q ys strat budget ((r, val) :: hist) st'

/-- Everything a hyperplane fit to a Series depends on besides the node. -/
structure HCtxSer (K P S O : Type) where
  A : HArith K
  T : SerTarget K P S O
  hp : Hyper K
  opt : Optimizer K P S
  budget : Nat
  X : Nat → Nat → K
  nDim : Nat

/-- The optimization function object (base_hyperplane.py:36, 44-51).  Optimizers see the target by position. -/
def hProblemSer (c : HCtxSer K P S O) (prior : P) (level : Nat) (rows : List Nat) (ys : Ser K) : HProb K P S where
  X := c.X
  y := fun i => ys.vals.getD (rows.idxOf i) 0
  nDim := c.nDim
  rows := rows
  prior := prior
  partitionPrior := c.hp.partitionPrior
  level := level
  noSplit := c.T.base.logNoSplit c.hp.partitionPrior level ys.vals prior
  hypercube := c.opt.hypercube
  prec := c.hp.splitPrecision

/-- `_fit` (base_hyperplane.py:22-121): `X[indices1]` is by position (ibid. 76-77), `y[indices1]` by label
(ibid. 78-79). -/
def hFitSer (c : HCtxSer K P S O) :
    Nat → Option P → Nat → List Nat → Ser K → Except Err (HNode S K P)
  | 0, _, _, _, _ => .error .noTermination
  | fuel + 1, priorAttr, level, rows, ys =>
    let prior := c.T.base.getPrior priorAttr rows.length c.nDim
    let q := hProblemSer c prior level rows ys
    match hSolveSer c.A c.T q ys (c.opt.solve q) c.budget [] (hInit q) with
    | .error e => .error e
    | .ok st =>
      let info : Info K P :=
        { hp := c.hp, prior := priorAttr, level := level, nDim := some c.nDim, nData := rows.length,
          posterior := c.T.base.posterior ys.vals prior 1 }
      match st.best with
      | none => .ok (.leaf info)
      | some sp =>
        let indices1 := (List.range rows.length).filter fun j => hyperRouter.goes1 sp (c.X (rows.getD j 0))
        let indices2 := (List.range rows.length).filter fun j => hyperRouter.goes2 sp (c.X (rows.getD j 0))
        if indices1.length > 0 ∧ indices2.length > 0 then
          let rows1 := indices1.map fun j => rows.getD j 0
          let rows2 := indices2.map fun j => rows.getD j 0
          match ys.locs indices1 with
          | .error e => .error e
          | .ok y1 =>
            match ys.locs indices2 with
            | .error e => .error e
            | .ok y2 =>
              let prior1 := c.T.base.posterior y1.vals prior 0
              let prior2 := c.T.base.posterior y2.vals prior 0
              let childInfo (pr : P) (m : Nat) (post : P) : Info K P :=
                { hp := c.hp, prior := some pr, level := level + 1, nDim := none, nData := m, posterior := post }
              let child1 : Except Err (HNode S K P) :=
                if rows1.length > 1 ∧ (distinct y1.vals).length > 1 then
                  hFitSer c fuel (some prior1) (level + 1) rows1 y1
                else .ok (.leaf (childInfo prior1 rows1.length (c.T.base.posterior y1.vals prior 1)))
              let child2 : Except Err (HNode S K P) :=
                if rows2.length > 1 ∧ (distinct y2.vals).length > 1 then
                  hFitSer c fuel (some prior2) (level + 1) rows2 y2
                else .ok (.leaf (childInfo prior2 rows2.length (c.T.base.posterior y2.vals prior 1)))
              match child1 with
              | .error e => .error e
              | .ok c1 =>
                match child2 with
                | .error e => .error e
                | .ok c2 => .ok (.split info sp q.noSplit st.bestScore c1 c2)
        else .ok (.leaf info)

/-- `fit` with a Series `ys` of two or more elements, after validation (base.py:69-72). -/
def hFitRootSer [DecidableEq O] (c : HCtxSer K P S O) (prior : Option P) (ys : Ser K) : Except Err (HNode S K P) :=
  match hFitSer c (ys.length + 1) prior 0 (List.range ys.length) ys with
  | .error e => .error e
  | .ok t => if c.hp.prune then prune c.T.base.predictLeaf t else .ok t

end

end BT
