import Verif.Model.Perp
import Verif.Model.XF

/-!
# `BaseHyperplaneTree` and `HyperplaneOptimizationFunction`
(base_hyperplane.py, hyperplane_optimization.py)

Arithmetic on features is exact in an ordered field `K`; the Euclidean norm, numpy's `argsort`, the
largest float (`np.nan_to_num`) and `hypercube_to_hypersphere_surface` are parameters (`HArith`), the last
one is modelled in `Model/Sphere.lean`.  The training matrix is `X : Nat → Nat → K` (row, column); a node
works on the list `rows` of its row numbers (the code passes the sub-matrix `X[indices]`).
-/

namespace BT

/-- A vector handed to `compute` by an optimizer: dtype kind and entries. -/
structure RawVec (K : Type) where
  isInt : Bool
  v : List (XF K)
  deriving DecidableEq, Repr

/-- Split attributes of a hyperplane node (base_hyperplane.py:89-90). -/
structure HSplit (K : Type) where
  normal : List K
  origin : List K
  deriving DecidableEq, Repr

/-- A fitted hyperplane tree. -/
abbrev HNode (S K P : Type) := Node (HSplit K) S K P

/-- Library functions used by the hyperplane code. -/
structure HArith (K : Type) where
  /-- `np.linalg.norm` of a vector (hyperplane_optimization.py:44) -/
  norm : List K → K
  /-- the largest float, substituted for infinities by `np.nan_to_num` (hyperplane_optimization.py:40) -/
  big : K
  /-- `hypercube_to_hypersphere_surface(v, half_hypersphere=True)` (hyperplane_optimization.py:37) -/
  sphere : List (XF K) → Except Err (List (XF K))
  /-- `np.argsort` (hyperplane_optimization.py:52) -/
  argsort : List K → List Nat

section
variable {K P S O : Type} [Field K] [LinearOrder K]

/-- Scalar product. -/
def dot (a b : List K) : K := (List.zipWith (· * ·) a b).sum

/-- A row of the matrix as a vector. -/
def rowVec (nDim : Nat) (x : Nat → K) : List K := (List.range nDim).map x

/-- `X[i] @ normal - np.dot(normal, origin)` (base_hyperplane.py:63-64, 124). -/
def signedDistance (sp : HSplit K) (x : Nat → K) : K :=
  dot (rowVec sp.normal.length x) sp.normal - dot sp.normal sp.origin

/-- `_compute_child1_and_child2_indices` (base_hyperplane.py:123-128). -/
def hyperRouter : Router (HSplit K) (Nat → K) where
  goes1 sp x := decide (signedDistance sp x < 0)
  goes2 sp x := decide (0 ≤ signedDistance sp x)

/-- `np.nan_to_num` of one entry (hyperplane_optimization.py:40). -/
def nanToNum (big : K) : XF K → K
  | .nan => 0
  | .ninf => -big
  | .fin x => x
  | .pinf => big

/-- Special cases and normalisation (hyperplane_optimization.py:40-44).  `hyperplane_normal[0] = 1` fails
on an empty vector, the in-place division on an integer array. -/
def normalizeVec (A : HArith K) (r : RawVec K) : Except Err (List K) :=
  let v := r.v.map (nanToNum A.big)
  if v = [] then .error .indexError
  else
    let v := if v.all (fun a => decide (a = 0)) then v.set 0 1 else v
    if r.isInt then .error .typeError
    else .ok (v.map (· / A.norm v))

/-- The attributes of a `HyperplaneOptimizationFunction` that never change
(hyperplane_optimization.py:17-24), with `partition_prior` and `level` of the tree whose
`_compute_log_p_data_split` it calls. -/
structure HProb (K P S : Type) where
  X : Nat → Nat → K
  y : Nat → K
  nDim : Nat
  rows : List Nat
  prior : P
  partitionPrior : K
  level : Nat
  noSplit : S
  hypercube : Bool
  prec : K

/-- The results of the optimization (hyperplane_optimization.py:26-31). -/
structure HState (S K : Type) where
  evals : Nat
  bestScore : S
  bestDist : K
  best : Option (HSplit K)
  deriving DecidableEq, Repr

/-- `__init__` (hyperplane_optimization.py:26-31). -/
def hInit (q : HProb K P S) : HState S K := ⟨0, q.noSplit, 0, none⟩

/-- The unit normal for an input vector (hyperplane_optimization.py:36-44) and the dimension check of
`self.X @ hyperplane_normal` (ibid. 51). -/
def hNormal (A : HArith K) (q : HProb K P S) (r : RawVec K) : Except Err (List K) :=
  let r' : Except Err (RawVec K) :=
    if q.hypercube then
      match A.sphere r.v with
      | .error e => .error e
      | .ok w => .ok ⟨false, w⟩
    else .ok r
  match r' with
  | .error e => .error e
  | .ok r' =>
    match normalizeVec A r' with
    | .error e => .error e
    | .ok normal => if normal.length ≠ q.nDim then .error .valueError else .ok normal

/-- `projections` (hyperplane_optimization.py:51). -/
def hProj (q : HProb K P S) (normal : List K) : List K :=
  q.rows.map fun i => dot (rowVec q.nDim (q.X i)) normal

/-- `split_indices` (hyperplane_optimization.py:53): differences of *unsorted* neighbours. -/
def hSplitIndices (q : HProb K P S) (normal : List K) : List Nat :=
  splitIndices (exactOps K) q.prec (hProj q normal)

/-- `hyperplane_origin` (hyperplane_optimization.py:66-72) for sort positions `a`, `b`. -/
def hOrigin (q : HProb K P S) (a b : Nat) : List K :=
  List.zipWith (fun u v => (1 / 2) * (u + v)) (rowVec q.nDim (q.X (q.rows.getD a 0)))
    (rowVec q.nDim (q.X (q.rows.getD b 0)))

/-- `cumulative_distances` (hyperplane_optimization.py:73-74). -/
def hDist (q : HProb K P S) (sp : HSplit K) : K :=
  ((hProj q sp.normal).map fun p => |p - dot sp.normal sp.origin|).sum

/-- `compute` (hyperplane_optimization.py:33-88).  Returns the new state and the returned value. -/
def hCompute [Neg S] [LT S] [LE S] [DecidableLT S] [DecidableLE S] (A : HArith K) (T : Target K P S O)
    (q : HProb K P S) (st : HState S K) (r : RawVec K) : Except Err (HState S K × S) :=
  let st := { st with evals := st.evals + 1 }
  match hNormal A q r with
  | .error e => .error e
  | .ok normal =>
    let sortIdx := A.argsort (hProj q normal)
    let si := hSplitIndices q normal
    if si.length = 0 then .ok (st, -q.noSplit)
    else
      let ySorted := sortIdx.map fun j => q.y (q.rows.getD j 0)
      let scores := T.logSplit q.partitionPrior q.level ySorted q.prior q.nDim si
      let iMax := argmax scores
      match scores[iMax]?, si[iMax]? with
      | some s, some k =>
        if st.bestScore ≤ s then
          match sortIdx[k - 1]?, sortIdx[k]? with
          | some a, some b =>
            let sp : HSplit K := ⟨normal, hOrigin q a b⟩
            let dist := hDist q sp
            let accept := if st.bestScore < s then true else decide (st.bestDist < dist)
            if accept then .ok ({ st with bestScore := s, bestDist := dist, best := some sp }, -s)
            else .ok (st, -s)
          | _, _ => .error .indexError
        else .ok (st, -s)
      | _, _ => .error .indexError

/-- What an optimizer does next, knowing the vectors it has tried and the values returned so far
(latest first): evaluate another vector, stop, or raise an exception. -/
inductive Step (K : Type) where
  | eval (r : RawVec K)
  | stop
  | raise (e : Err)

/-- `HyperplaneOptimizer.solve` as an adaptive strategy (hyperplane_optimization.py:109-111).  Every
deterministic (seeded) optimizer is of this form. -/
abbrev Strategy (K S : Type) := List (RawVec K × S) → Step K

/-- Running `optimizer.solve(optimization_function)` (base_hyperplane.py:54) for at most `budget`
interactions. -/
def hSolve [Neg S] [LT S] [LE S] [DecidableLT S] [DecidableLE S] (A : HArith K) (T : Target K P S O)
    (q : HProb K P S) (strat : Strategy K S) :
    Nat → List (RawVec K × S) → HState S K → Except Err (HState S K)
  | 0, _, _ => .error .noTermination
  | budget + 1, hist, st =>
    match strat hist with
    | .stop => .ok st
    | .raise e => .error e
    | .eval r =>
      match hCompute A T q st r with
      | .error e => .error e
      | .ok (st', val) => hSolve A T q strat budget ((r, val) :: hist) st'

/-- An optimizer: the flag `search_space_is_unit_hypercube` and `solve` (hyperplane_optimization.py:101-111);
`solve` sees the whole optimization function object. -/
structure Optimizer (K P S : Type) where
  hypercube : Bool
  solve : HProb K P S → Strategy K S

/-- Everything a hyperplane fit depends on besides the node. -/
structure HCtx (K P S O : Type) where
  A : HArith K
  T : Target K P S O
  hp : Hyper K
  opt : Optimizer K P S
  /-- bound on the number of interactions of one `solve` -/
  budget : Nat
  X : Nat → Nat → K
  y : Nat → K
  nDim : Nat

/-- The optimization function object created in `_fit` (base_hyperplane.py:36, 44-51). -/
def hProblem (c : HCtx K P S O) (prior : P) (level : Nat) (rows : List Nat) : HProb K P S where
  X := c.X
  y := c.y
  nDim := c.nDim
  rows := rows
  prior := prior
  partitionPrior := c.hp.partitionPrior
  level := level
  noSplit := c.T.logNoSplit c.hp.partitionPrior level (rows.map c.y) prior
  hypercube := c.opt.hypercube
  prec := c.hp.splitPrecision

/-- Attributes of a child that is not fitted (base_hyperplane.py:95-98, 109-110, 115-116). -/
def hChildInfo (c : HCtx K P S O) (prior : P) (level nData : Nat) (posterior : P) : Info K P :=
  { hp := c.hp, prior := some prior, level := level, nDim := none, nData := nData, posterior := posterior }

/-- `_fit` (base_hyperplane.py:22-121) of the node with rows `rows`; `fuel` bounds the recursion depth.
The attribute `optimization_function` (ibid. 56) is not kept. -/
def hFit [Neg S] [LT S] [LE S] [DecidableLT S] [DecidableLE S] (c : HCtx K P S O) :
    Nat → Option P → Nat → List Nat → Except Err (HNode S K P)
  | 0, _, _, _ => .error .noTermination
  | fuel + 1, priorAttr, level, rows =>
    let prior := c.T.getPrior priorAttr rows.length c.nDim
    let q := hProblem c prior level rows
    match hSolve c.A c.T q (c.opt.solve q) c.budget [] (hInit q) with
    | .error e => .error e
    | .ok st =>
      let info : Info K P :=
        { hp := c.hp, prior := priorAttr, level := level, nDim := some c.nDim, nData := rows.length,
          posterior := c.T.posterior (rows.map c.y) prior 1 }
      match st.best with
      | none => .ok (.leaf info)
      | some sp =>
        let indices1 := rows.filter fun i => hyperRouter.goes1 sp (c.X i)
        let indices2 := rows.filter fun i => hyperRouter.goes2 sp (c.X i)
        if indices1.length > 0 ∧ indices2.length > 0 then
          let y1 := indices1.map c.y
          let y2 := indices2.map c.y
          let prior1 := c.T.posterior y1 prior 0
          let prior2 := c.T.posterior y2 prior 0
          let child1 : Except Err (HNode S K P) :=
            if indices1.length > 1 ∧ (distinct y1).length > 1 then
              hFit c fuel (some prior1) (level + 1) indices1
            else .ok (.leaf (hChildInfo c prior1 (level + 1) indices1.length (c.T.posterior y1 prior 1)))
          let child2 : Except Err (HNode S K P) :=
            if indices2.length > 1 ∧ (distinct y2).length > 1 then
              hFit c fuel (some prior2) (level + 1) indices2
            else .ok (.leaf (hChildInfo c prior2 (level + 1) indices2.length (c.T.posterior y2 prior 1)))
          match child1 with
          | .error e => .error e
          | .ok c1 =>
            match child2 with
            | .error e => .error e
            | .ok c2 => .ok (.split info sp q.noSplit st.bestScore c1 c2)
        else .ok (.leaf info)

/-- `fit` of a fresh hyperplane model after input checks (base.py:69-72). -/
def hFitRoot [Neg S] [LT S] [LE S] [DecidableLT S] [DecidableLE S] (c : HCtx K P S O) (prior : Option P)
    (n : Nat) : Except Err (HNode S K P) :=
  match hFit c (n + 1) prior 0 (List.range n) with
  | .error e => .error e
  | .ok t => if c.hp.prune then prune c.T.predictLeaf t else .ok t

end

section importance
variable {K P : Type} [Field K] [LinearOrder K]

/-- `_update_feature_importance` (base_hyperplane.py:143-156). -/
def hyperUpdateImportance : HNode K K P → List K → List K
  | .leaf _, fi => fi
  | .split _ sp l b c1 c2, fi =>
    hyperUpdateImportance c2 (hyperUpdateImportance c1
      (List.zipWith (fun f v => f + (b - l) * |v|) fi sp.normal))

/-- `feature_importance()` of a hyperplane tree (base_hyperplane.py:134-141). -/
def hyperFeatureImportance (nDim : Nat) (t : HNode K K P) : List (Option K) :=
  normalizeImportance (hyperUpdateImportance t (List.replicate nDim 0))

end importance

end BT
