import Mathlib.Order.Defs.LinearOrder
import Mathlib.Algebra.Field.Defs
import Mathlib.Algebra.Order.Ring.Defs
import Mathlib.Algebra.Order.Field.Basic

/-!
# Basic vocabulary: exceptions, numpy helpers, special functions, feature values

All paths are relative to `/repo/bayesian_decision_tree`.
-/

namespace BT

/-- Python exceptions raised by the modelled code.  `noTermination` is not a Python exception: it is
what a fuelled model function returns when its fuel is used up (a run that has not finished). -/
inductive Err where
  | valueError
  | typeError
  | indexError
  | keyError
  | assertionError
  | attributeError
  /-- `np.AxisError` (a subclass of `ValueError` and `IndexError`) -/
  | axisError
  | noTermination
  deriving DecidableEq, Repr

/-- Special functions used by the likelihoods: `np.log`, `scipy.special.gammaln`,
`scipy.special.betaln` (utils.py:4, regression.py:8) and the constant `np.pi` (regression.py:116).
They are parameters; the real-number instance is `realFns`. -/
structure Fns (K : Type) where
  log : K → K
  gammaln : K → K
  betaln : K → K → K
  pi : K

/-- The operations the perpendicular tree performs on feature values of type `V`.
`K` is the type of `split_precision`. -/
structure XOps (V K : Type) where
  /-- order in which `np.argsort` sorts (base_perpendicular.py:99) -/
  le : V → V → Bool
  /-- `X_split < self.split_value_` (base_perpendicular.py:196) -/
  lt : V → V → Bool
  /-- `X_split >= self.split_value_` (base_perpendicular.py:197) -/
  ge : V → V → Bool
  /-- `gap prec a b` is `np.abs(b - a) > prec` (base_perpendicular.py:116) -/
  gap : K → V → V → Bool
  /-- `mid a b` is `0.5 * (a + b)` (base_perpendicular.py:146-149) -/
  mid : V → V → V

/-- Exact arithmetic in an ordered field. -/
def exactOps (K : Type) [Field K] [LinearOrder K] : XOps K K where
  le a b := decide (a ≤ b)
  lt x v := decide (x < v)
  ge x v := decide (v ≤ x)
  gap prec a b := decide (prec < |b - a|)
  mid a b := (1 / 2) * (a + b)

/-- `np.where(bs)[0]`: positions of the true entries, ascending. -/
def npWhere (bs : List Bool) : List Nat :=
  (List.range bs.length).filter fun i => bs.getD i false

/-- Position and value of the first maximum of `x :: xs`. -/
def argmaxAux {S : Type} [LT S] [DecidableLT S] : S → List S → Nat × S
  | x, [] => (0, x)
  | x, y :: ys =>
    let r := argmaxAux y ys
    if x < r.2 then (r.1 + 1, r.2) else (0, x)

/-- `l.argmax()` / `np.argmax(l)`: index of the first maximal entry.  numpy raises `ValueError` on an
empty array; the code never calls it on one (base_perpendicular.py:117-119 guards, a prior has at
least one class), and the model returns 0 there. -/
def argmax {S : Type} [LT S] [DecidableLT S] : List S → Nat
  | [] => 0
  | x :: xs => (argmaxAux x xs).1

/-- `np.cumsum` with accumulator. -/
def cumsumFrom {α : Type} [Add α] : α → List α → List α
  | _, [] => []
  | a, x :: xs => (a + x) :: cumsumFrom (a + x) xs

/-- `l.cumsum()`. -/
def cumsum {α : Type} [Add α] [Zero α] (l : List α) : List α := cumsumFrom 0 l

/-- `l.reshape(rows, -1)` of a flat array: `rows` consecutive chunks of equal width.  (numpy raises
`ValueError` if `rows` does not divide the size; the model truncates.  `Lemmas/PerpFit.lean` proves
that the flat arrays reshaped by the fit always consist of `n_dim` blocks of equal width.) -/
def reshape {α : Type} (rows : Nat) (l : List α) : List (List α) :=
  let w := l.length / rows
  (List.range rows).map fun r => (l.drop (r * w)).take w

/-- `np.unique(l)` as far as its length is used: the distinct values. -/
def distinct {α : Type} [DecidableEq α] : List α → List α
  | [] => []
  | x :: xs => if x ∈ xs then distinct xs else x :: distinct xs

end BT
