import Verif.Spec.Target
import Verif.Model.Target
import Verif.Spec.Walk

/-!
# Specification of fitted perpendicular trees, in closed form

Nothing here mentions comparison records, routers, sort indices or contexts: rows are routed by `<`,
candidate cuts are pairs of neighbouring observed values, scores are written out.
-/

namespace BT.Spec

/-- The node at the address is reached by a row that goes to child 1 if `x[dim] < value` and to child 2
otherwise. -/
def follows {K S P : Type} [LT K] [DecidableLT K] : PNode K S K P → List Bool → (Nat → K) → Bool
  | _, [], _ => true
  | .leaf _, _ :: _, _ => false
  | .split _ sp _ _ c1 c2, b :: bs, x =>
    if x sp.dim < sp.value then !b && follows c1 bs x else b && follows c2 bs x

/-- The rows among the first `n` that reach the node at the address. -/
def rowsAt {K S P : Type} [LT K] [DecidableLT K] (X : Nat → Nat → K) (t : PNode K S K P) (n : Nat)
    (addr : List Bool) : List Nat :=
  (List.range n).filter fun i => follows t addr (X i)

section
variable {K : Type} [Field K] [LinearOrder K]

/-- `a` and `b` are observed values of feature `d`, further apart than `prec`, with nothing observed in
between. -/
def IsCut (prec : K) (X : Nat → Nat → K) (R : List Nat) (d : Nat) (a b : K) : Prop :=
  (∃ i ∈ R, X i d = a) ∧ (∃ j ∈ R, X j d = b) ∧ a < b ∧ prec < b - a ∧ ∀ i ∈ R, X i d ≤ a ∨ b ≤ X i d

/-- Number of cuts along `d`: distinct observed values which have a smaller observed value, all smaller
ones being further away than `prec`. -/
def cutCount (prec : K) (X : Nat → Nat → K) (R : List Nat) (d : Nat) : Nat :=
  ((R.map fun i => X i d).dedup.filter fun b =>
    decide ((∃ i ∈ R, X i d < b) ∧ ∀ i ∈ R, X i d < b → prec < b - X i d)).length

/-- Score of cutting the rows `R` along `d` directly above `a`, at level `lv` under prior `p`: prior
probability of this cut, shared among the cuts of the dimension and among the dimensions, times the
marginal likelihoods `ml` of the targets on both sides. -/
def perpCutScore {P : Type} (F : Fns K) (ml : P → List K → K) (hp : Hyper K) (X : Nat → Nat → K) (y : Nat → K)
    (nDim : Nat) (p : P) (lv : Nat) (R : List Nat) (d : Nat) (a : K) : K :=
  F.log (hp.partitionPrior ^ (lv + 1) / ((cutCount hp.splitPrecision X R d : K) * (nDim : K)))
    + ml p ((R.filter fun i => X i d ≤ a).map y) + ml p ((R.filter fun i => a < X i d).map y)

/-- Score of not cutting. -/
def stayScore {P : Type} (F : Fns K) (ml : P → List K → K) (hp : Hyper K) (y : Nat → K) (p : P) (lv : Nat)
    (R : List Nat) : K :=
  F.log (1 - hp.partitionPrior ^ (lv + 1)) + ml p (R.map y)

/-- The two target models of the code with their textbook marginal likelihood and conjugate update. -/
inductive CodeTarget [IsStrictOrderedRing K] (F : Fns K) : {P O : Type} → Target K P K O → (P → List K → K) →
    (P → List K → P) → Prop
  | classification : CodeTarget F (clsTarget F) (dirichletMarginal F) dirichletPosterior
  | regression : CodeTarget F (regTarget F) (ngMarginal F) ngPosterior

end

end BT.Spec
