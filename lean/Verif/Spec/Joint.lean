import Verif.Spec.Closed
import Verif.Spec.HyperClosed
import Mathlib.Data.Real.Basic

/-!
# Specification: probabilities of whole trees

`E R` stands for the probability (density) of the targets of the rows `R` if one distribution, drawn from
the prior, generates all of them.
-/

namespace BT.Spec

section
variable {P : Type} (E : List Nat → ℝ) (X : Nat → Nat → ℝ)

/-- Probability of the targets of the rows `R` given the tree: each leaf has its own distribution. -/
noncomputable def leavesEvidence : PNode ℝ ℝ ℝ P → List Nat → ℝ
  | .leaf _, R => E R
  | .split _ sp _ _ c1 c2, R =>
    leavesEvidence c1 (R.filter fun i => X i sp.dim < sp.value) *
      leavesEvidence c2 (R.filter fun i => sp.value ≤ X i sp.dim)

/-- Joint probability of the tree and the targets of the rows `R` it is grown on: a node at level `lv` is
split with probability `partition_prior ** (lv + 1)`, at a cut drawn uniformly, first the feature and then
one of its cuts. -/
noncomputable def treeProbability (hp : Hyper ℝ) (nDim : Nat) : Nat → PNode ℝ ℝ ℝ P → List Nat → ℝ
  | lv, .leaf _, R => (1 - hp.partitionPrior ^ (lv + 1)) * E R
  | lv, .split _ sp _ _ c1 c2, R =>
    hp.partitionPrior ^ (lv + 1) / ((cutCount hp.splitPrecision X R sp.dim : ℝ) * (nDim : ℝ)) *
      treeProbability hp nDim (lv + 1) c1 (R.filter fun i => X i sp.dim < sp.value) *
      treeProbability hp nDim (lv + 1) c2 (R.filter fun i => sp.value ≤ X i sp.dim)

/-- Probability that none of the nodes of the tree would be split, if they were all offered. -/
noncomputable def stayAll (pp : ℝ) : Nat → PNode ℝ ℝ ℝ P → ℝ
  | lv, .leaf _ => 1 - pp ^ (lv + 1)
  | lv, .split _ _ _ _ c1 c2 => (1 - pp ^ (lv + 1)) * stayAll pp (lv + 1) c1 * stayAll pp (lv + 1) c2

/-- Probability of the targets of the rows `R` given a hyperplane tree. -/
noncomputable def hLeavesEvidence : HNode ℝ ℝ P → List Nat → ℝ
  | .leaf _, R => E R
  | .split _ sp _ _ c1 c2, R =>
    hLeavesEvidence c1 (R.filter fun i => planeSide sp.normal sp.origin (X i) < 0) *
      hLeavesEvidence c2 (R.filter fun i => 0 ≤ planeSide sp.normal sp.origin (X i))

/-- No row of a node lies on its plane, at every split of the tree. -/
def Separates : HNode ℝ ℝ P → List Nat → Prop
  | .leaf _, _ => True
  | .split _ sp _ _ c1 c2, R =>
    (∀ i ∈ R, planeSide sp.normal sp.origin (X i) ≠ 0) ∧
      Separates c1 (R.filter fun i => planeSide sp.normal sp.origin (X i) < 0) ∧
      Separates c2 (R.filter fun i => 0 ≤ planeSide sp.normal sp.origin (X i))

end

end BT.Spec
