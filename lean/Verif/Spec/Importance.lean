import Verif.Spec.Walk
import Mathlib.Algebra.BigOperators.Group.List.Basic

/-!
# Splits of a tree and their gains
-/

namespace BT.Spec

/-- Split nodes in depth-first order: split, log-likelihood without and with it. -/
def splits {Sp S K P : Type} : Node Sp S K P → List (Sp × S × S)
  | .leaf _ => []
  | .split _ sp l b c1 c2 => (sp, l, b) :: (splits c1 ++ splits c2)

/-- Total gain in log-likelihood of a list of splits. -/
def gain {Sp K : Type} [Field K] (l : List (Sp × K × K)) : K := (l.map fun s => s.2.2 - s.2.1).sum

/-- Total gain of the splits on dimension `d`. -/
def gainOn {V K : Type} [Field K] (d : Nat) (l : List (PSplit V × K × K)) : K :=
  gain (l.filter fun s => s.1.dim = d)

end BT.Spec
