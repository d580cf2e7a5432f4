import Verif.Model.Tree
import Verif.Model.Target

/-!
# Specification: the default prior of regression trees
-/

namespace BT.Spec

/-- The Normal-gamma prior documented as default: mean 0, as strong as `max(1, ⌊n/100⌋)` observations, with
precision 1. -/
def defaultNG {K : Type} [Field K] (n : Nat) : NG K :=
  let strength : K := ((if n < 200 then 1 else n / 100 : Nat) : K)
  { mu := 0, kappa := strength, alpha := strength / 2, beta := strength / 2 }

/-- The tree with another `prior` attribute at the root and no other change. -/
def withRootPrior {Sp S K P : Type} (prior : Option P) : Node Sp S K P → Node Sp S K P
  | .leaf i => .leaf { i with prior := prior }
  | .split i sp l b c1 c2 => .split { i with prior := prior } sp l b c1 c2

end BT.Spec
