import Verif.Spec.Hyper
import Verif.Spec.Image

/-!
# Specification: hyperplane trees under similarity maps of the features
-/

namespace BT.Spec

section
variable {K P P' S S' : Type} [Field K]

/-- The point `x` scaled by `a` and moved by `t`. -/
def moved (a : K) (t : Nat → K) (x : Nat → K) : Nat → K := fun d => a * x d + t d

/-- The plane moved with the points: same normal, moved origin. -/
def movedSplit (a : K) (t : Nat → K) (sp : HSplit K) : HSplit K :=
  ⟨sp.normal, sp.origin.mapIdx fun d v => a * v + t d⟩

/-- The tree with all its planes moved, priors mapped by `fP` and scores of nodes with `k` rows by `fS k`. -/
def movedTree (hp' : Hyper K) (a : K) (t : Nat → K) (fP : P → P') (fS : Nat → S → S') :
    HNode S K P → HNode S' K P'
  | .leaf i => .leaf (imageInfo hp' fP i)
  | .split i sp l b c1 c2 => .split (imageInfo hp' fP i) (movedSplit a t sp) (fS i.nData l) (fS i.nData b)
      (movedTree hp' a t fP fS c1) (movedTree hp' a t fP fS c2)

end

end BT.Spec
