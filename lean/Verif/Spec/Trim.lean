import Verif.Spec.Perp
import Verif.Spec.Walk

/-!
# Specification: trees that are cut back
-/

namespace BT.Spec

section
variable {V S K P : Type}

/-- Two nodes hold the same statistics: prior, level, `n_data_` and `posterior_`. -/
def SameStats (i i' : Info K P) : Prop :=
  i.prior = i'.prior ∧ i.level = i'.level ∧ i.nData = i'.nData ∧ i.posterior = i'.posterior

/-- `t` is `t'` cut back: every node of `t` is in `t'`, at the same place and with the same statistics, and
every split of `t` is made in `t'` as well, where `same` says what counts as the same split. -/
def CutBack {Sp : Type} (same : Sp → Sp → Prop) (t t' : Node Sp S K P) : Prop :=
  ∀ addr u, nodeAt t addr = some u → ∃ u', nodeAt t' addr = some u' ∧ SameStats u.info u'.info ∧
    ∀ i sp l b c1 c2, u = .split i sp l b c1 c2 → ∃ i' sp' l' b' c1' c2', u' = .split i' sp' l' b' c1' c2' ∧
      same sp sp'

/-- The same threshold on the same feature; feature `d` of the second split is called `ι d` in the first. -/
def SameCut (ι : Nat → Nat) (sp sp' : PSplit V) : Prop :=
  sp.dim = ι sp'.dim ∧ sp.name = sp'.name ∧ sp.value = sp'.value

/-- Column `d` says nothing that an earlier column does not say: it is constant over the rows, or repeats an
earlier column. -/
def Redundant (X : Nat → Nat → V) (n d : Nat) : Prop :=
  (∀ i < n, ∀ j < n, X i d = X j d) ∨ ∃ d0 < d, ∀ i < n, X i d = X i d0

end

end BT.Spec
