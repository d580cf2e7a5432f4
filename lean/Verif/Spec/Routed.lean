import Verif.Spec.Perp
import Verif.Spec.Walk

/-!
# Training rows routed to a node
-/

namespace BT.Spec

/-- Training rows (of `n`) that prediction routes through the node at an address. -/
def routed {V K P S O : Type} (c : Ctx V K P S O) (t : PNode V S K P) (n : Nat) (addr : List Bool) :
    List Nat :=
  (List.range n).filter fun i => passes (perpRouter c.o) t addr (c.X i)

/-- The `n_data_` of the leaves, left to right. -/
def leafSizes {Sp S K P : Type} : Node Sp S K P → List Nat
  | .leaf i => [i.nData]
  | .split _ _ _ _ c1 c2 => leafSizes c1 ++ leafSizes c2

end BT.Spec
