import Verif.Model.XF
import Verif.Spec.Routed

/-!
# Specification: training rows with NaN and infinite feature values
-/

namespace BT.Spec

section
variable {K P S : Type} [Field K] [LinearOrder K]

/-- Which training rows a split with threshold `v` puts on the left: those below `v`.  If `v` is `-inf` or NaN, as happens
for the cut next to `-inf`, those equal to `-inf`.  All others, NaN included, are on the right. -/
def trainedLeft (v x : XF K) : Bool :=
  if v = .ninf ∨ v = .nan then decide (x = .ninf) else XF.lt x v

/-- The training rows (of `n`) of the node at an address. -/
def trainedAt (X : Nat → Nat → XF K) (t : PNode (XF K) S K P) (n : Nat) (addr : List Bool) : List Nat :=
  (List.range n).filter fun i => passes
    ⟨fun sp x => trainedLeft sp.value (x sp.dim), fun sp x => !trainedLeft sp.value (x sp.dim)⟩ t addr (X i)

/-- The training rows (of `n`) which prediction routes to the node at an address: `x < v` goes left, `x >= v` right. -/
def predictedAt (X : Nat → Nat → XF K) (t : PNode (XF K) S K P) (n : Nat) (addr : List Bool) : List Nat :=
  (List.range n).filter fun i => passes
    ⟨fun sp x => XF.lt (x sp.dim) sp.value, fun sp x => XF.ge (x sp.dim) sp.value⟩ t addr (X i)

/-- No split above the address is on a feature where the row has NaN. -/
def NoNaNAbove (t : PNode (XF K) S K P) (addr : List Bool) (x : Nat → XF K) : Prop :=
  ∀ p b q, addr = p ++ b :: q → ∀ i sp l s c1 c2, nodeAt t p = some (.split i sp l s c1 c2) → x sp.dim ≠ .nan

end

end BT.Spec
