import Verif.Model.Hyper
import Verif.Model.XTarget

/-!
# Hyperplane trees on features with NaN and infinite values

`fit` does not look for NaN or infinite entries of `X`.  `Model/Hyper.lean` restated for feature values `XF K`; normals are
finite (`np.nan_to_num`, hyperplane_optimization.py:40).  The type `Y` of targets is separate from the type of
features.  On finite features the functions agree with `Model/Hyper.lean` (`Props/HyperX.lean`, `C93_finite`).
-/

namespace BT

/-- Split attributes (base_hyperplane.py:89-90); the origin may contain NaN or infinite entries. -/
structure XSplit (K : Type) where
  normal : List K
  origin : List (XF K)
  deriving DecidableEq, Repr

section
variable {K Y P S O : Type} [Field K] [LinearOrder K]

/-- Scalar product of a vector of floats with a finite one. -/
def xDot (a : List (XF K)) (b : List K) : XF K := (List.zipWith (fun u v => u * XF.fin v) a b).sum

/-- A row of the matrix as a vector. -/
def xRowVec (nDim : Nat) (x : Nat → XF K) : List (XF K) := (List.range nDim).map x

/-- `X[i] @ normal - np.dot(normal, origin)` (base_hyperplane.py:63-64, 124). -/
def xDistance (sp : XSplit K) (x : Nat → XF K) : XF K :=
  xDot (xRowVec sp.normal.length x) sp.normal - xDot sp.origin sp.normal

/-- `_compute_child1_and_child2_indices` (base_hyperplane.py:123-128). -/
def xRouter : Router (XSplit K) (Nat → XF K) where
  goes1 sp x := XF.lt (xDistance sp x) 0
  goes2 sp x := XF.ge (xDistance sp x) 0

/-- The fixed attributes of a `HyperplaneOptimizationFunction` (hyperplane_optimization.py:17-24). -/
structure XProb (K Y P S : Type) where
  X : Nat → Nat → XF K
  y : Nat → Y
  nDim : Nat
  rows : List Nat
  prior : P
  partitionPrior : Y
  level : Nat
  noSplit : S
  hypercube : Bool
  prec : K

/-- The results of the optimization (hyperplane_optimization.py:26-31). -/
structure XState (S K : Type) where
  evals : Nat
  bestScore : S
  bestDist : XF K
  best : Option (XSplit K)
  deriving DecidableEq, Repr

/-- `__init__` (hyperplane_optimization.py:26-31). -/
def xInit (q : XProb K Y P S) : XState S K := ⟨0, q.noSplit, 0, none⟩

/-- The unit normal (hyperplane_optimization.py:36-44) and the dimension check of `self.X @ hyperplane_normal`
(ibid. 51). -/
def xNormal (A : HArith K) (hypercube : Bool) (nDim : Nat) (r : RawVec K) : Except Err (List K) :=
  let r' : Except Err (RawVec K) :=
    if hypercube then
      match A.sphere r.v with
      | .error e => .error e
      | .ok w => .ok ⟨false, w⟩
    else .ok r
  match r' with
  | .error e => .error e
  | .ok r' =>
    match normalizeVec A r' with
    | .error e => .error e
    | .ok normal => if normal.length ≠ nDim then .error .valueError else .ok normal

/-- `projections` (hyperplane_optimization.py:51). -/
def xProj (q : XProb K Y P S) (normal : List K) : List (XF K) :=
  q.rows.map fun i => xDot (xRowVec q.nDim (q.X i)) normal

/-- `split_indices` (hyperplane_optimization.py:53): differences of unsorted neighbours. -/
def xSplitIndices (q : XProb K Y P S) (normal : List K) : List Nat :=
  splitIndices (xfOps K) q.prec (xProj q normal)

/-- `hyperplane_origin` (hyperplane_optimization.py:66-72). -/
def xOrigin (q : XProb K Y P S) (a b : Nat) : List (XF K) :=
  List.zipWith (fun u v => XF.half (u + v)) (xRowVec q.nDim (q.X (q.rows.getD a 0)))
    (xRowVec q.nDim (q.X (q.rows.getD b 0)))

/-- `abs(a)`. -/
def XF.abs : XF K → XF K
  | .fin a => .fin |a|
  | .ninf => .pinf
  | a => a

/-- `cumulative_distances` (hyperplane_optimization.py:73-74). -/
def xDist (q : XProb K Y P S) (sp : XSplit K) : XF K :=
  ((xProj q sp.normal).map fun p => XF.abs (p - xDot sp.origin sp.normal)).sum

/-- `compute` (hyperplane_optimization.py:33-88); `argsort` is numpy's. -/
def xCompute [Neg S] [LT S] [LE S] [DecidableLT S] [DecidableLE S] (A : HArith K) (argsort : List (XF K) → List Nat)
    (T : Target Y P S O) (q : XProb K Y P S) (st : XState S K) (r : RawVec K) : Except Err (XState S K × S) :=
  let st := { st with evals := st.evals + 1 }
  match xNormal A q.hypercube q.nDim r with
  | .error e => .error e
  | .ok normal =>
    let sortIdx := argsort (xProj q normal)
    let si := xSplitIndices q normal
    if si.length = 0 then .ok (st, -q.noSplit)
    else
      let ySorted := sortIdx.map fun j => q.y (q.rows.getD j 0)
      let scores := T.logSplit q.partitionPrior q.level ySorted q.prior q.nDim si
      let iMax := argmax scores
      match scores[iMax]?, si[iMax]? with
      | some s, some k =>
        if st.bestScore ≤ s then
          match sortIdx[k - 1]?, sortIdx[k]? with
          | some a, some b =>
            let sp : XSplit K := ⟨normal, xOrigin q a b⟩
            let dist := xDist q sp
            let accept := if st.bestScore < s then true else XF.lt st.bestDist dist
            if accept then .ok ({ st with bestScore := s, bestDist := dist, best := some sp }, -s)
            else .ok (st, -s)
          | _, _ => .error .indexError
        else .ok (st, -s)
      | _, _ => .error .indexError

/-- Running `optimizer.solve(optimization_function)` (base_hyperplane.py:54). -/
def xSolve [Neg S] [LT S] [LE S] [DecidableLT S] [DecidableLE S] (A : HArith K) (argsort : List (XF K) → List Nat)
    (T : Target Y P S O) (q : XProb K Y P S) (strat : Strategy K S) :
    Nat → List (RawVec K × S) → XState S K → Except Err (XState S K)
  | 0, _, _ => .error .noTermination
  | budget + 1, hist, st =>
    match strat hist with
    | .stop => .ok st
    | .raise e => .error e
    | .eval r =>
      match xCompute A argsort T q st r with
      | .error e => .error e
      | .ok (st', val) => xSolve A argsort T q strat budget ((r, val) :: hist) st'

/-- Everything a fit depends on besides the node. -/
structure XCtx (K Y P S O : Type) where
  A : HArith K
  /-- `np.argsort` (hyperplane_optimization.py:52) -/
  argsort : List (XF K) → List Nat
  T : Target Y P S O
  hp : Hyper Y
  /-- `split_precision` as compared with differences of projections -/
  prec : K
  /-- `optimizer.search_space_is_unit_hypercube` -/
  hypercube : Bool
  /-- `optimizer.solve` -/
  solve : XProb K Y P S → Strategy K S
  budget : Nat
  X : Nat → Nat → XF K
  y : Nat → Y
  nDim : Nat

/-- The optimization function object created in `_fit` (base_hyperplane.py:36, 44-51). -/
def xProblem (c : XCtx K Y P S O) (prior : P) (level : Nat) (rows : List Nat) : XProb K Y P S where
  X := c.X
  y := c.y
  nDim := c.nDim
  rows := rows
  prior := prior
  partitionPrior := c.hp.partitionPrior
  level := level
  noSplit := c.T.logNoSplit c.hp.partitionPrior level (rows.map c.y) prior
  hypercube := c.hypercube
  prec := c.prec

/-- Attributes of a child that is not fitted (base_hyperplane.py:95-98, 109-110, 115-116). -/
def xChildInfo (c : XCtx K Y P S O) (prior : P) (level nData : Nat) (posterior : P) : Info Y P :=
  { hp := c.hp, prior := some prior, level := level, nDim := none, nData := nData, posterior := posterior }

/-- `_fit` (base_hyperplane.py:22-121).  `delta=0` and `delta=1` of `_compute_posterior` are `Zero`, `One` of the
targets; `np.unique` compares with decidable equality (it matters only whether there is more than one value). -/
def xFit [Neg S] [LT S] [LE S] [DecidableLT S] [DecidableLE S] [DecidableEq Y] [Zero Y] [One Y] (c : XCtx K Y P S O) :
    Nat → Option P → Nat → List Nat → Except Err (Node (XSplit K) S Y P)
  | 0, _, _, _ => .error .noTermination
  | fuel + 1, priorAttr, level, rows =>
    let prior := c.T.getPrior priorAttr rows.length c.nDim
    let q := xProblem c prior level rows
    match xSolve c.A c.argsort c.T q (c.solve q) c.budget [] (xInit q) with
    | .error e => .error e
    | .ok st =>
      let info : Info Y P :=
        { hp := c.hp, prior := priorAttr, level := level, nDim := some c.nDim, nData := rows.length,
          posterior := c.T.posterior (rows.map c.y) prior 1 }
      match st.best with
      | none => .ok (.leaf info)
      | some sp =>
        let indices1 := rows.filter fun i => xRouter.goes1 sp (c.X i)
        let indices2 := rows.filter fun i => xRouter.goes2 sp (c.X i)
        if indices1.length > 0 ∧ indices2.length > 0 then
          let y1 := indices1.map c.y
          let y2 := indices2.map c.y
          let prior1 := c.T.posterior y1 prior 0
          let prior2 := c.T.posterior y2 prior 0
          let child1 : Except Err (Node (XSplit K) S Y P) :=
            if indices1.length > 1 ∧ (distinct y1).length > 1 then
              xFit c fuel (some prior1) (level + 1) indices1
            else .ok (.leaf (xChildInfo c prior1 (level + 1) indices1.length (c.T.posterior y1 prior 1)))
          let child2 : Except Err (Node (XSplit K) S Y P) :=
            if indices2.length > 1 ∧ (distinct y2).length > 1 then
              xFit c fuel (some prior2) (level + 1) indices2
            else .ok (.leaf (xChildInfo c prior2 (level + 1) indices2.length (c.T.posterior y2 prior 1)))
          match child1 with
          | .error e => .error e
          | .ok c1 =>
            match child2 with
            | .error e => .error e
            | .ok c2 => .ok (.split info sp q.noSplit st.bestScore c1 c2)
        else .ok (.leaf info)

/-- `fit` of a fresh hyperplane model after input checks (base.py:69-72). -/
def xFitRoot [Neg S] [LT S] [LE S] [DecidableLT S] [DecidableLE S] [DecidableEq Y] [Zero Y] [One Y]
    (c : XCtx K Y P S O) (prior : Option P) (n : Nat) : Except Err (Node (XSplit K) S Y P) :=
  match xFit c (n + 1) prior 0 (List.range n) with
  | .error e => .error e
  | .ok t => if c.hp.prune then prune c.T.predictLeaf t else .ok t

end

end BT
