import Verif.Spec.Closed
import Mathlib.Data.Real.Basic

/-!
# How much a training row counts with `delta`
-/

namespace BT
namespace Spec

section
variable {K S P : Type} [LT K] [DecidableLT K]

/-- How many of the first `m` decisions on the way to the node a row makes in the same way, up to its first different
one. -/
def sharedDecisions (t : PNode K S K P) (addr : List Bool) (m : Nat) (x : Nat → K) : Nat :=
  ((List.range m).filter fun j => follows t (addr.take (j + 1)) x).length

end

/-- The weight of a training row `x` at a node: 1 if it belongs to the node, and `delta` for every shared decision. -/
noncomputable def rowWeight {S P : Type} (delta : ℝ) (t : PNode ℝ S ℝ P) (addr : List Bool) (m : Nat) (x : Nat → ℝ) : ℝ :=
  (if follows t addr x then 1 else 0) + delta * (sharedDecisions t addr m x : ℝ)

open Classical in
/-- The number of decisions that count: all, but without the last one if all targets in the node are equal. -/
noncomputable def counted {S P : Type} (X : Nat → Nat → ℝ) (y : Nat → ℝ) (t : PNode ℝ S ℝ P) (n : Nat)
    (addr : List Bool) : Nat :=
  if ∃ i ∈ rowsAt X t n addr, ∃ j ∈ rowsAt X t n addr, y i ≠ y j then addr.length else addr.length - 1

end Spec
end BT
