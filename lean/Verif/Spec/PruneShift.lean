import Verif.Spec.Target

/-!
# Specification: how a prediction may differ from another one
-/

namespace BT.Spec

section
variable {K : Type} [Field K] [LinearOrder K]

/-- The class `a` is the class `b`, or one with a strictly smaller prior. -/
def LowerPrior (p : List K) (a b : K) : Prop :=
  a = b ∨ ∃ (k k' : Nat) (q q' : K), a = k ∧ b = k' ∧ p[k]? = some q ∧ p[k']? = some q' ∧ q < q'

/-- The value `a` is `b`, or further away from `mu` on the same side. -/
def Away (mu a b : K) : Prop := a = b ∨ (mu < b ∧ b < a) ∨ (a < b ∧ b < mu)

end
end BT.Spec
