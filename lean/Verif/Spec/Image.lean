import Verif.Spec.Perp
import Verif.Spec.Routed
import Verif.Spec.Walk

/-!
# Specification: trees that correspond to each other under a change of the data
-/

namespace BT.Spec

section
variable {V V' K K' P P' S S' O : Type}

/-- Node attributes under a map of priors, with other hyper-parameters. -/
def imageInfo (hp' : Hyper K') (fP : P → P') (i : Info K P) : Info K' P' :=
  { hp := hp', prior := i.prior.map fP, level := i.level, nDim := i.nDim, nData := i.nData,
    posterior := fP i.posterior }

/-- `t'` has the shape of `t`.  Feature `d < nD` is called `τ d`, its values are mapped by `fV d`, priors by `fP`,
scores of a node with `k` rows by `fS k`; thresholds are midpoints of corresponding values. -/
inductive Image (o : XOps V K) (o' : XOps V' K') (ok : V → Prop) (hp' : Hyper K') (nD : Nat)
    (τ : Nat → Nat) (fV : Nat → V → V') (fP : P → P') (fS : Nat → S → S') : PNode V S K P → PNode V' S' K' P' → Prop
  | leaf (i : Info K P) : Image o o' ok hp' nD τ fV fP fS (.leaf i) (.leaf (imageInfo hp' fP i))
  | split (i : Info K P) (d : Nat) (name : String) (a b : V) (l s : S) (c1 c2 : PNode V S K P)
      (c1' c2' : PNode V' S' K' P') (hd : d < nD) (oka : ok a) (okb : ok b) (hle : o.le a b = true)
      (h1 : Image o o' ok hp' nD τ fV fP fS c1 c1') (h2 : Image o o' ok hp' nD τ fV fP fS c2 c2') :
      Image o o' ok hp' nD τ fV fP fS (.split i ⟨d, name, o.mid a b⟩ l s c1 c2)
        (.split (imageInfo hp' fP i) ⟨τ d, name, o'.mid (fV d a) (fV d b)⟩ (fS i.nData l) (fS i.nData s) c1' c2')

/-- At no split does another feature offer a cut with the same score. -/
def NoTies [LT S] (c : Ctx V K P S O) (lv : Nat) (R : List Nat) (t : PNode V S K P) : Prop :=
  ∀ addr i sp l b c1 c2, nodeAt t addr = some (.split i sp l b c1 c2) →
    let R' := R.filter fun r => passes (perpRouter c.o) t addr (c.X r)
    ∀ d < c.nDim, d ≠ sp.dim → ∀ cut ∈ cuts c.o c.hp.splitPrecision c.X R' d,
      c.score i.prior (lv + addr.length) R' d cut < b

end

end BT.Spec
