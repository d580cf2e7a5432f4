import Verif.Model.Perp
import Verif.Model.Hyper

/-!
# Models constructed with a `level`

The constructors take a `level` (classification.py:182, 262; regression.py:202, 279), which `_fit` uses when children are
created (base_perpendicular.py:153-156, base_hyperplane.py:95-98).  `perpFitRoot` and `hFitRoot` are the case `level = 0`.
-/

namespace BT

/-- `fit` of a fresh perpendicular model with the given `prior` and `level` after input checks (base.py:69-72). -/
def perpFitFrom {V K P S O : Type} [LT S] [DecidableLT S] [DecidableEq K] [Zero K] [One K]
    (o : XOps V K) (T : Target K P S O) (argsort : List V → List Nat) (hp : Hyper K)
    (prior : Option P) (level : Nat) (X : Nat → Nat → V) (y : Nat → K) (n nDim : Nat) (names : List String) :
    Except Err (PNode V S K P) := do
  let t ← perpFit o T hp X y nDim names (n + 1) prior level (sortMatrix argsort X n nDim)
  if hp.prune then prune T.predictLeaf t else pure t

/-- `fit` of a fresh hyperplane model with the given `prior` and `level` after input checks (base.py:69-72). -/
def hFitFrom {K P S O : Type} [Field K] [LinearOrder K] [Neg S] [LT S] [LE S] [DecidableLT S] [DecidableLE S]
    (c : HCtx K P S O) (prior : Option P) (level n : Nat) : Except Err (HNode S K P) := do
  let t ← hFit c (n + 1) prior level (List.range n)
  if c.hp.prune then prune c.T.predictLeaf t else pure t

end BT
