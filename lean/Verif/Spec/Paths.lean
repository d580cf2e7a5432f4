import Verif.Spec.Walk

/-!
# Specification: what `prediction_paths` reports row by row
-/

namespace BT.Spec
variable {V S K P : Type}

/-- The positions in a list at which the entry has a property. -/
def places (l : List Nat) (p : Nat → Bool) : List Nat := (List.range l.length).filter fun j => p (l.getD j 0)

/-- The decisions reported for the row at place `k` of the list `rows` that has arrived at a node.  Row `rows[k]` decides
where to go; in the list for the child it has been replaced by its place `k`, which decides there. -/
def reported (o : XOps V K) (X : Nat → Nat → V) : PNode V S K P → List Nat → Nat → List (PathStep V)
  | .leaf _, _, _ => []
  | .split _ sp _ _ c1 c2, rows, k =>
    let left := places rows fun i => o.lt (X i sp.dim) sp.value
    let right := places rows fun i => o.ge (X i sp.dim) sp.value
    if o.lt (X (rows.getD k 0) sp.dim) sp.value then
      ⟨sp.dim, sp.name, sp.value, false⟩ :: reported o X c1 left (left.idxOf k)
    else if o.ge (X (rows.getD k 0) sp.dim) sp.value then
      ⟨sp.dim, sp.name, sp.value, true⟩ :: reported o X c2 right (right.idxOf k)
    else []

/-- The decisions on the way to a node. -/
def decisions : PNode V S K P → List Bool → List (PathStep V)
  | .leaf _, _ => []
  | .split _ _ _ _ _ _, [] => []
  | .split _ sp _ _ c1 c2, b :: bs => ⟨sp.dim, sp.name, sp.value, b⟩ :: decisions (if b then c2 else c1) bs

end BT.Spec
