import Verif.Model.Sparse

/-!
# The dense matrix with the entries of a sparse one
-/

namespace BT.Spec
variable {V : Type} [AddMonoid V]

/-- `X.toarray()[i, d]`: stored values of the same cell add up, missing ones are zero. -/
def denseEntry : SpMat V → Nat → Nat → V
  | .csr m, i, d => if i < m.nRows then (((m.row i).filter fun e => e.1 = d).map Prod.snd).sum else 0
  | .csc m, i, d => (((m.col d).filter fun e => e.1 = i).map Prod.snd).sum

end BT.Spec
