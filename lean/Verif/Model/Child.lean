import Verif.Model.Api

/-!
# The children of a model as models

`child1_` and `child2_` of a fitted model are objects of the same class (base_perpendicular.py:153-156,
base_hyperplane.py:95-98), with the same public methods.
-/

namespace BT
variable {A S K P : Type}

/-- `model.child1_` or `model.child2_` (assigned in base_perpendicular.py:153-156, base_hyperplane.py:95-98;
`None` after `_erase_split_info_base`, base.py:292-296). -/
def Obj.child : Obj A S K P → Bool → Obj A S K P
  | .absent, _ => .absent
  | .mk _ _ _ _ c1 c2, b => if b then c2 else c1

/-- `model.child2_.child1_…` along an address. -/
def Obj.at (o : Obj A S K P) (addr : List Bool) : Obj A S K P := addr.foldl Obj.child o

end BT
