import Verif.Spec.Walk

/-!
# Specification: the split stored at an address, and relabelled class vectors
-/

namespace BT.Spec
variable {Sp S K P : Type}

/-- The split attributes of the node at an address; `none` if there is no node or it is a leaf. -/
def splitAt : Node Sp S K P → List Bool → Option Sp
  | .leaf _, _ => none
  | .split _ sp _ _ _ _, [] => some sp
  | .split _ _ _ _ c1 c2, b :: bs => if b then splitAt c2 bs else splitAt c1 bs

/-- `p'` is `p` with class `j` renamed `σ j`. -/
def Relabelled {α : Type} {k : Nat} (σ : Equiv.Perm (Fin k)) (p p' : List α) : Prop :=
  p.length = k ∧ p'.length = k ∧ ∀ j : Fin k, p'[(σ j : Nat)]? = p[(j : Nat)]?

/-- The largest entry occurs only once. -/
def UniqueMax {α : Type} [LE α] (p : List α) : Prop :=
  ∃ (i : Nat) (v : α), p[i]? = some v ∧ ∀ (j : Nat) (w : α), p[j]? = some w → v ≤ w → j = i

end BT.Spec
