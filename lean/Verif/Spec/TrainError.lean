import Verif.Model.Basic

/-!
# Specification: errors on the training rows
-/

namespace BT.Spec

/-- Number of rows whose prediction equals their target. -/
def correct {K : Type} [DecidableEq K] (yhat : List K) (y : Nat → K) (n : Nat) : Nat :=
  ((List.range n).filter fun i => yhat[i]? = some (y i)).length

/-- Number of rows with target `c`: what predicting `c` everywhere gets right. -/
def members {K : Type} [DecidableEq K] (y : Nat → K) (n : Nat) (c : K) : Nat :=
  ((List.range n).filter fun i => y i = c).length

/-- Sum of squared errors of the predictions. -/
def squaredError {K : Type} [Field K] (yhat : List K) (y : Nat → K) (n : Nat) : K :=
  ((List.range n).map fun i => (y i - yhat.getD i 0) ^ 2).sum

/-- Sum of squared errors of predicting `m` everywhere. -/
def constantError {K : Type} [Field K] (m : K) (y : Nat → K) (n : Nat) : K :=
  ((List.range n).map fun i => (y i - m) ^ 2).sum

end BT.Spec
