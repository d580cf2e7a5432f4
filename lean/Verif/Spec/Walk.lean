import Verif.Model.Tree
import Verif.Model.Perp
import Verif.Model.XF

/-!
# Specification: the decision walk of one row

Independent of index lists and result arrays: a row goes to child 1 if the first test of the split
accepts it, else to child 2 if the second test does, else nowhere.
-/

namespace BT.Spec
variable {Sp S K P Row : Type}

/-- Attributes of the leaf reached by a single row; `none` if some split rejects it on both sides. -/
def walk (rt : Router Sp Row) : Node Sp S K P → Row → Option (Info K P)
  | .leaf i, _ => some i
  | .split _ sp _ _ c1 c2, x =>
    if rt.goes1 sp x then walk rt c1 x
    else if rt.goes2 sp x then walk rt c2 x
    else none

/-- The decisions taken on the walk of one row of a perpendicular tree. -/
def path {V : Type} (o : XOps V K) : PNode V S K P → (Nat → V) → List (PathStep V)
  | .leaf _, _ => []
  | .split _ sp _ _ c1 c2, x =>
    if o.lt (x sp.dim) sp.value then ⟨sp.dim, sp.name, sp.value, false⟩ :: path o c1 x
    else if o.ge (x sp.dim) sp.value then ⟨sp.dim, sp.name, sp.value, true⟩ :: path o c2 x
    else []

/-- The node at an address: `false` = child 1, `true` = child 2. -/
def nodeAt : Node Sp S K P → List Bool → Option (Node Sp S K P)
  | t, [] => some t
  | .leaf _, _ :: _ => none
  | .split _ _ _ _ c1 c2, b :: bs => if b then nodeAt c2 bs else nodeAt c1 bs

/-- A row's walk passes through the node at the address. -/
def passes (rt : Router Sp Row) : Node Sp S K P → List Bool → Row → Bool
  | _, [], _ => true
  | .leaf _, _ :: _, _ => false
  | .split _ sp _ _ c1 c2, b :: bs, x =>
    if rt.goes1 sp x then !b && passes rt c1 bs x
    else if rt.goes2 sp x then b && passes rt c2 bs x
    else false

/-- Number of leaves. -/
def leaves : Node Sp S K P → Nat
  | .leaf _ => 1
  | .split _ _ _ _ c1 c2 => leaves c1 + leaves c2

/-- Height. -/
def height : Node Sp S K P → Nat
  | .leaf _ => 0
  | .split _ _ _ _ c1 c2 => max (height c1) (height c2) + 1

/-- No row is accepted by both tests of a split. -/
def Exclusive (rt : Router Sp Row) : Prop := ∀ sp x, ¬ (rt.goes1 sp x = true ∧ rt.goes2 sp x = true)

/-- The leaf a row descends to, with exact comparisons: left if `x < value`, right otherwise. -/
def descend {K' : Type} [LT K'] [DecidableLT K'] : PNode K' S K P → (Nat → K') → Info K P
  | .leaf i, _ => i
  | .split _ sp _ _ c1 c2, x => if x sp.dim < sp.value then descend c1 x else descend c2 x

/-- The walk of a row meets a split whose feature is NaN in that row. -/
def hitsNaN [Field K] [LinearOrder K] : PNode (XF K) S K P → (Nat → XF K) → Prop
  | .leaf _, _ => False
  | .split _ sp _ _ c1 c2, x =>
    if x sp.dim = .nan then True else if XF.lt (x sp.dim) sp.value then hitsNaN c1 x else hitsNaN c2 x

/-- Dimensions tested on the walk of a row. -/
def tested {V : Type} (o : XOps V K) : PNode V S K P → (Nat → V) → List Nat
  | .leaf _, _ => []
  | .split _ sp _ _ c1 c2, x =>
    sp.dim :: (if o.lt (x sp.dim) sp.value then tested o c1 x
      else if o.ge (x sp.dim) sp.value then tested o c2 x else [])

/-- An axis-parallel box `lo ≤ x < hi`; `none` stands for an infinite bound. -/
def inBox {K' : Type} [LT K'] [LE K'] (lo hi : Nat → Option K') (x : Nat → K') : Prop :=
  ∀ d, (∀ a, lo d = some a → a ≤ x d) ∧ (∀ b, hi d = some b → x d < b)

end BT.Spec
