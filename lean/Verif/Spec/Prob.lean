import Verif.Spec.Target

/-!
# Exact Dirichlet-multinomial scores

The same target model as classification, with probabilities in place of log-probabilities and rising
factorials in place of Gamma functions: everything stays rational for rational parameters.
-/

namespace BT.Spec

section
variable {K : Type} [Field K] [LinearOrder K]

/-- `a (a+1) ⋯ (a+n-1)`. -/
def rising (a : K) : Nat → K
  | 0 => 1
  | n + 1 => rising a n * (a + (n : K))

/-- Dirichlet-multinomial probability of a label sequence. -/
def dirMult (prior : List K) (ys : List K) : K :=
  (prior.mapIdx fun i a => rising a (count ys i)).prod
    / rising prior.sum ((List.range prior.length).map fun i => count ys i).sum

/-- Probability score of one split. -/
def probPair : PairScore K (List K) K := fun pp lv prior nd ns a b =>
  pp ^ (lv + 1) / ((ns : K) * (nd : K)) * dirMult prior a * dirMult prior b

/-- Classification with exact probabilities as scores. -/
def probTarget (K : Type) [Field K] [LinearOrder K] : Target K (List K) K (List K) where
  getPrior := clsGetPrior
  logNoSplit pp lv y prior := (1 - pp ^ (lv + 1)) * dirMult prior y
  logSplit pp lv y prior nd si :=
    si.map fun k => probPair pp lv prior nd si.length (y.take k) (y.drop k)
  posterior := clsPosterior
  predictLeaf := clsPredictLeaf
  posteriorMean := clsPosteriorMean

end

end BT.Spec
