import Verif.Spec.Walk
import Verif.Model.HyperX

/-!
# Specification: rows with NaN and infinite feature values and hyperplanes
-/

namespace BT.Spec

section
variable {K : Type} [Zero K] [LT K]

/-- The row lies infinitely far in the direction of the normal `w`, or against it. -/
def FarAlong (w : List K) (x : Nat → XF K) : Prop :=
  ∃ j v, w[j]? = some v ∧ (x j = .pinf ∧ 0 < v ∨ x j = .ninf ∧ v < 0)

def FarAgainst (w : List K) (x : Nat → XF K) : Prop :=
  ∃ j v, w[j]? = some v ∧ (x j = .ninf ∧ 0 < v ∨ x j = .pinf ∧ v < 0)

/-- The side of a hyperplane with normal `w` on which a row lies is not determined: the row has a NaN, or an infinite value
for a feature of weight 0, or it lies infinitely far in both directions. -/
def Undetermined (w : List K) (x : Nat → XF K) : Prop :=
  (∃ j < w.length, x j = .nan) ∨ (∃ j, w[j]? = some 0 ∧ (x j = .pinf ∨ x j = .ninf)) ∨
    (FarAlong w x ∧ FarAgainst w x)

end

/-- The training rows (of `n`) whose descent passes through the node at an address. -/
def routedRows {Sp S K P Row : Type} (rt : Router Sp Row) (X : Nat → Row) (t : Node Sp S K P) (n : Nat) (addr : List Bool) :
    List Nat :=
  (List.range n).filter fun i => passes rt t addr (X i)

end BT.Spec
