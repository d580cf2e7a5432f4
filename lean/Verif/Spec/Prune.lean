import Verif.Spec.Walk

/-!
# Specification of pruning: one bottom-up merge
-/

namespace BT.Spec
variable {Sp S K P O : Type} [DecidableEq O]

/-- Merge bottom-up: a node both of whose (already merged) children are leaves with the same
prediction becomes a leaf that keeps its own attributes. -/
def merge (pred : P → O) : Node Sp S K P → Node Sp S K P
  | .leaf i => .leaf i
  | .split i sp l b c1 c2 =>
    match merge pred c1, merge pred c2 with
    | .leaf j1, .leaf j2 =>
      if pred j1.posterior = pred j2.posterior then .leaf i else .split i sp l b (.leaf j1) (.leaf j2)
    | d1, d2 => .split i sp l b d1 d2

/-- No split has two leaf children with equal predictions. -/
def FullyPruned (pred : P → O) (t : Node Sp S K P) : Prop :=
  ∀ addr i sp l b j1 j2, nodeAt t addr = some (.split i sp l b (.leaf j1) (.leaf j2)) →
    pred j1.posterior ≠ pred j2.posterior

end BT.Spec
