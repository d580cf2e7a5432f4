import Verif.Model.Perp
import Verif.Model.Hyper
import Verif.Model.Version

/-!
# `fit(..., verbose=True)`: what is printed

The fits of `Model/Perp.lean` and `Model/Hyper.lean` with the lines printed so far as a second result; a fit that
raises an exception has printed them too. Sparse matrices are not treated separately.
-/

namespace BT
namespace Verbose
open Version (Text decText)

/-- `'{:10}'.format(n)`: right aligned in at least 10 characters. -/
def pad10 (n : Nat) : Text := List.replicate (10 - (decText n).length) ' ' ++ decText n

/-- `'Training level {} {} with {:10} data points'` (base_perpendicular.py:80-81, base_hyperplane.py:28-29). -/
def line (level : Nat) (side : Text) (nData : Nat) : Text :=
  "Training level ".toList ++ (decText level ++ (" ".toList ++ (side ++ (" with ".toList ++ (pad10 nData ++
    " data points".toList)))))

/-- What a call prints, and its result. -/
abbrev Out (α : Type) := List Text × Except Err α

section
variable {V K P S O : Type}

/-- `_fit` (base_perpendicular.py:76-189) with its output. `nData` is `X.shape[0]` for the root and
`sort_indices_by_dim.shape[1]` for children (ibid. 77). -/
def perpFitV [LT S] [DecidableLT S] [DecidableEq K] [Zero K] [One K] (verbose : Bool)
    (o : XOps V K) (T : Target K P S O) (hp : Hyper K)
    (X : Nat → Nat → V) (y : Nat → K) (nDim : Nat) (names : List String) :
    Nat → Text → Nat → Option P → Nat → List (List Nat) → Out (PNode V S K P)
  | 0, _, _, _, _, _ => ([], .error .noTermination)
  | fuel + 1, side, nData, priorAttr, level, sid =>
    let out : List Text := if verbose then [line level side nData] else []
    match sid with
    | [] => (out, .error .indexError)
    | row0 :: _ =>
      let nData := shape1 sid
      let prior := T.getPrior priorAttr nData nDim
      let yAny := row0.map y
      let logNoSplit := T.logNoSplit hp.partitionPrior level yAny prior
      let best := (List.range nDim).foldl
        (searchDim o T hp level X y nDim prior sid) ⟨logNoSplit, none⟩
      let info : Info K P :=
        { hp := hp, prior := priorAttr, level := level, nDim := some nDim, nData := nData,
          posterior := T.posterior yAny prior 1 }
      match best.split with
      | none => (out, .ok (.leaf info))
      | some (dim, k) =>
        let indices1 := (sid.getD dim []).take k
        let indices2 := (sid.getD dim []).drop k
        let prior1 := if hp.delta ≠ 0 then T.posterior (indices1.map y) prior hp.delta else prior
        let prior2 := if hp.delta ≠ 0 then T.posterior (indices2.map y) prior hp.delta else prior
        match names[dim]?, indices1.getLast?, indices2.head? with
        | some name, some last1, some first2 =>
          let value := o.mid (X last1 dim) (X first2 dim)
          let sid1 := restrictSid nDim sid indices1
          let sid2 := restrictSid nDim sid indices2
          let y1 := indices1.map y
          let y2 := indices2.map y
          let child1 : Out (PNode V S K P) :=
            if shape1 sid1 > 1 ∧ (distinct y1).length > 1 then
              perpFitV verbose o T hp X y nDim names fuel "LHS".toList (shape1 sid1) (some prior1) (level + 1) sid1
            else
              ([], .ok (.leaf (mkChildInfo hp.partitionPrior prior1 hp.delta hp.prune hp.splitPrecision
                (level + 1) (shape1 sid1) (T.posterior y1 prior 1))))
          let child2 : Out (PNode V S K P) :=
            if shape1 sid2 > 1 ∧ (distinct y2).length > 1 then
              perpFitV verbose o T hp X y nDim names fuel "RHS".toList (shape1 sid2) (some prior2) (level + 1) sid2
            else
              ([], .ok (.leaf (mkChildInfo hp.partitionPrior prior2 hp.delta hp.prune hp.splitPrecision
                (level + 1) (shape1 sid2) (T.posterior y2 prior 1))))
          match child1 with
          | (o1, .error e) => (out ++ o1, .error e)
          | (o1, .ok c1) =>
            match child2 with
            | (o2, .error e) => (out ++ o1 ++ o2, .error e)
            | (o2, .ok c2) => (out ++ o1 ++ o2, .ok (.split info ⟨dim, name, value⟩ logNoSplit best.score c1 c2))
        | _, _, _ => (out, .error .indexError)

/-- `fit` of a fresh perpendicular tree after the input checks, with its output (base.py:69-72). -/
def perpFitRootV [LT S] [DecidableLT S] [DecidableEq K] [Zero K] [One K] (verbose : Bool)
    (o : XOps V K) (T : Target K P S O) (argsort : List V → List Nat) (hp : Hyper K)
    (prior : Option P) (X : Nat → Nat → V) (y : Nat → K) (n nDim : Nat) (names : List String) :
    Out (PNode V S K P) :=
  match perpFitV verbose o T hp X y nDim names (n + 1) "root".toList n prior 0 (sortMatrix argsort X n nDim) with
  | (out, .error e) => (out, .error e)
  | (out, .ok t) => (out, if hp.prune then prune T.predictLeaf t else .ok t)

end

section
variable {K P S O : Type} [Field K] [LinearOrder K]

/-- `_fit` (base_hyperplane.py:22-121) with its output. -/
def hFitV [Neg S] [LT S] [LE S] [DecidableLT S] [DecidableLE S] (verbose : Bool) (c : HCtx K P S O) :
    Nat → Text → Option P → Nat → List Nat → Out (HNode S K P)
  | 0, _, _, _, _ => ([], .error .noTermination)
  | fuel + 1, side, priorAttr, level, rows =>
    let prior := c.T.getPrior priorAttr rows.length c.nDim
    let out : List Text := if verbose then [line level side rows.length] else []
    let q := hProblem c prior level rows
    match hSolve c.A c.T q (c.opt.solve q) c.budget [] (hInit q) with
    | .error e => (out, .error e)
    | .ok st =>
      let info : Info K P :=
        { hp := c.hp, prior := priorAttr, level := level, nDim := some c.nDim, nData := rows.length,
          posterior := c.T.posterior (rows.map c.y) prior 1 }
      match st.best with
      | none => (out, .ok (.leaf info))
      | some sp =>
        let indices1 := rows.filter fun i => hyperRouter.goes1 sp (c.X i)
        let indices2 := rows.filter fun i => hyperRouter.goes2 sp (c.X i)
        if indices1.length > 0 ∧ indices2.length > 0 then
          let y1 := indices1.map c.y
          let y2 := indices2.map c.y
          let prior1 := c.T.posterior y1 prior 0
          let prior2 := c.T.posterior y2 prior 0
          let child1 : Out (HNode S K P) :=
            if indices1.length > 1 ∧ (distinct y1).length > 1 then
              hFitV verbose c fuel "back ".toList (some prior1) (level + 1) indices1
            else ([], .ok (.leaf (hChildInfo c prior1 (level + 1) indices1.length (c.T.posterior y1 prior 1))))
          let child2 : Out (HNode S K P) :=
            if indices2.length > 1 ∧ (distinct y2).length > 1 then
              hFitV verbose c fuel "front".toList (some prior2) (level + 1) indices2
            else ([], .ok (.leaf (hChildInfo c prior2 (level + 1) indices2.length (c.T.posterior y2 prior 1))))
          match child1 with
          | (o1, .error e) => (out ++ o1, .error e)
          | (o1, .ok c1) =>
            match child2 with
            | (o2, .error e) => (out ++ o1 ++ o2, .error e)
            | (o2, .ok c2) => (out ++ o1 ++ o2, .ok (.split info sp q.noSplit st.bestScore c1 c2))
        else (out, .ok (.leaf info))

/-- `fit` of a fresh hyperplane tree after the input checks, with its output (base.py:69-72). -/
def hFitRootV [Neg S] [LT S] [LE S] [DecidableLT S] [DecidableLE S] (verbose : Bool) (c : HCtx K P S O)
    (prior : Option P) (n : Nat) : Out (HNode S K P) :=
  match hFitV verbose c (n + 1) "root".toList prior 0 (List.range n) with
  | (out, .error e) => (out, .error e)
  | (out, .ok t) => (out, if c.hp.prune then prune c.T.predictLeaf t else .ok t)

end
end Verbose
end BT
