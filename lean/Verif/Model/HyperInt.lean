import Verif.Model.Hyper
import Verif.Model.IntTy

/-!
# Hyperplane trees on integer data matrices

`_ensure_float64` returns integer matrices unchanged (base.py:227-231).  Of the operations of a hyperplane fit on
them, the products with the (float) normal give floats and are exact; only the sum in
`0.5 * (p1 + p2)` (hyperplane_optimization.py:72) is taken in the integer dtype, where it wraps around.  Products with a
normal and halves are exact for up to 32 bits; for int64 and uint64 the conversion may round, which is not modelled.
-/

namespace BT

section
variable {K P S O : Type} [Field K] [LinearOrder K]

/-- `hyperplane_origin` (hyperplane_optimization.py:66-72) on the integer matrix `Z`. -/
def hOriginI (ty : IntTy) (Z : Nat → Nat → Int) (q : HProb K P S) (a b : Nat) : List K :=
  List.zipWith (fun u v : Int => (1 / 2) * ((ty.wrap (u + v) : Int) : K))
    ((List.range q.nDim).map (Z (q.rows.getD a 0))) ((List.range q.nDim).map (Z (q.rows.getD b 0)))

/-- `compute` (hyperplane_optimization.py:33-88) on an integer matrix; `q.X` holds the same numbers as floats. -/
def hComputeI [Neg S] [LT S] [LE S] [DecidableLT S] [DecidableLE S] (ty : IntTy) (Z : Nat → Nat → Int) (A : HArith K)
    (T : Target K P S O) (q : HProb K P S) (st : HState S K) (r : RawVec K) : Except Err (HState S K × S) :=
  let st := { st with evals := st.evals + 1 }
  match hNormal A q r with
  | .error e => .error e
  | .ok normal =>
    let sortIdx := A.argsort (hProj q normal)
    let si := hSplitIndices q normal
    if si.length = 0 then .ok (st, -q.noSplit)
    else
      let ySorted := sortIdx.map fun j => q.y (q.rows.getD j 0)
      let scores := T.logSplit q.partitionPrior q.level ySorted q.prior q.nDim si
      let iMax := argmax scores
      match scores[iMax]?, si[iMax]? with
      | some s, some k =>
        if st.bestScore ≤ s then
          match sortIdx[k - 1]?, sortIdx[k]? with
          | some a, some b =>
            let sp : HSplit K := ⟨normal, hOriginI ty Z q a b⟩
            let dist := hDist q sp
            let accept := if st.bestScore < s then true else decide (st.bestDist < dist)
            if accept then .ok ({ st with bestScore := s, bestDist := dist, best := some sp }, -s)
            else .ok (st, -s)
          | _, _ => .error .indexError
        else .ok (st, -s)
      | _, _ => .error .indexError

/-- Running `optimizer.solve(optimization_function)` (base_hyperplane.py:54) on an integer matrix. -/
def hSolveI [Neg S] [LT S] [LE S] [DecidableLT S] [DecidableLE S] (ty : IntTy) (Z : Nat → Nat → Int) (A : HArith K)
    (T : Target K P S O) (q : HProb K P S) (strat : Strategy K S) :
    Nat → List (RawVec K × S) → HState S K → Except Err (HState S K)
  | 0, _, _ => .error .noTermination
  | budget + 1, hist, st =>
    match strat hist with
    | .stop => .ok st
    | .raise e => .error e
    | .eval r =>
      match hComputeI ty Z A T q st r with
      | .error e => .error e
      | .ok (st', val) => hSolveI ty Z A T q strat budget ((r, val) :: hist) st'

/-- The same numbers as floats. -/
def asFloat (Z : Nat → Nat → Int) (c : HCtx K P S O) : HCtx K P S O := { c with X := fun i d => (Z i d : K) }

/-- `_fit` (base_hyperplane.py:22-121) on the integer matrix `Z` (`c.X` is not used). -/
def hFitI [Neg S] [LT S] [LE S] [DecidableLT S] [DecidableLE S] (ty : IntTy) (Z : Nat → Nat → Int) (c : HCtx K P S O) :
    Nat → Option P → Nat → List Nat → Except Err (HNode S K P)
  | 0, _, _, _ => .error .noTermination
  | fuel + 1, priorAttr, level, rows =>
    let prior := c.T.getPrior priorAttr rows.length c.nDim
    let q := hProblem (asFloat Z c) prior level rows
    match hSolveI ty Z c.A c.T q (c.opt.solve q) c.budget [] (hInit q) with
    | .error e => .error e
    | .ok st =>
      let info : Info K P :=
        { hp := c.hp, prior := priorAttr, level := level, nDim := some c.nDim, nData := rows.length,
          posterior := c.T.posterior (rows.map c.y) prior 1 }
      match st.best with
      | none => .ok (.leaf info)
      | some sp =>
        let indices1 := rows.filter fun i => hyperRouter.goes1 sp fun d => (Z i d : K)
        let indices2 := rows.filter fun i => hyperRouter.goes2 sp fun d => (Z i d : K)
        if indices1.length > 0 ∧ indices2.length > 0 then
          let y1 := indices1.map c.y
          let y2 := indices2.map c.y
          let prior1 := c.T.posterior y1 prior 0
          let prior2 := c.T.posterior y2 prior 0
          let child1 : Except Err (HNode S K P) :=
            if indices1.length > 1 ∧ (distinct y1).length > 1 then
              hFitI ty Z c fuel (some prior1) (level + 1) indices1
            else .ok (.leaf (hChildInfo c prior1 (level + 1) indices1.length (c.T.posterior y1 prior 1)))
          let child2 : Except Err (HNode S K P) :=
            if indices2.length > 1 ∧ (distinct y2).length > 1 then
              hFitI ty Z c fuel (some prior2) (level + 1) indices2
            else .ok (.leaf (hChildInfo c prior2 (level + 1) indices2.length (c.T.posterior y2 prior 1)))
          match child1 with
          | .error e => .error e
          | .ok c1 =>
            match child2 with
            | .error e => .error e
            | .ok c2 => .ok (.split info sp q.noSplit st.bestScore c1 c2)
        else .ok (.leaf info)

/-- `fit` of a fresh hyperplane model on an integer matrix after input checks (base.py:69-72). -/
def hFitRootI [Neg S] [LT S] [LE S] [DecidableLT S] [DecidableLE S] (ty : IntTy) (Z : Nat → Nat → Int)
    (c : HCtx K P S O) (prior : Option P) (n : Nat) : Except Err (HNode S K P) :=
  match hFitI ty Z c (n + 1) prior 0 (List.range n) with
  | .error e => .error e
  | .ok t => if c.hp.prune then prune c.T.predictLeaf t else .ok t

end

end BT
