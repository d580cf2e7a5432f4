import Verif.Model.Target

/-!
# The public prediction methods, after their input checks

The input checks (base.py:94-96 etc.) are modelled in `Model/Api.lean`.
-/

namespace BT
variable {Sp S K P O Row : Type}

/-- `predict(X)` for the `m` rows of `X` (base.py:98-102): the result array starts as zeros. -/
def predict [Zero K] (rt : Router Sp Row) (T : Target K P S O) (t : Node Sp S K P)
    (X : Nat → Row) (m : Nat) : List K :=
  predictRows rt (fun i => T.predictLeaf i.posterior) 0 X m t

/-- `predict_proba(X)` (classification.py:43-46): the result list starts as `None`s. -/
def predictProba (rt : Router Sp Row) (T : Target K P S O) (t : Node Sp S K P)
    (X : Nat → Row) (m : Nat) : List (Option O) :=
  predictRows rt (fun i => some (T.posteriorMean i.posterior)) none X m t

/-- `_get_raw_leaf_data(X)` (base.py:189-193, classification.py:114-116, regression.py:122-124): the
leaf's prior attribute and posterior. -/
def rawLeafData (rt : Router Sp Row) (t : Node Sp S K P) (X : Nat → Row) (m : Nat) :
    List (Option (Option P × P)) :=
  predictRows rt (fun i => some (i.prior, i.posterior)) none X m t

end BT
