import Verif.Model.Api

/-!
# Specification vocabulary for the public methods
-/

namespace BT.Spec

section
variable {E V E' K : Type}

/-- The shape a feature argument has as a matrix: data frames have their own shape, anything else of
dimension one is a single row, a number is a 1 x 1 matrix. -/
def matrixShape : XInput E V → Option (List Nat)
  | .frame _ v => some v.shape
  | .scalar _ => some [1, 1]
  | .list a => some (rowShape a.shape)
  | .array a => some (rowShape a.shape)
  | .sparse a => some (rowShape a.shape)
  | .other => none
where
  rowShape : List Nat → List Nat
    | [n] => [1, n]
    | s => s

/-- The entries need no conversion. -/
def xNative : XInput E V → Prop
  | .frame _ (.native _) => True
  | .scalar (.native _) => True
  | .list (.native _) => True
  | .array (.native _) => True
  | .sparse _ => True
  | _ => False

/-- The target needs no conversion and has the given shape (before squeezing) and entries. -/
def yNative (shape : List Nat) (data : List K) : YInput E' K → Prop
  | .list (.native a) => a.shape = shape ∧ a.data = data
  | .array (.native a) => a.shape = shape ∧ a.data = data
  | _ => False

/-- Axes longer than one. -/
def longAxes (shape : List Nat) : List Nat := shape.filter (· ≠ 1)

end

/-- The values of `l` are exactly `0, ..., k - 1`. -/
def ClassesExactly {K : Type} [NatCast K] (k : Nat) (l : List K) : Prop :=
  ∀ v, v ∈ l ↔ ∃ i < k, v = (i : K)

end BT.Spec
