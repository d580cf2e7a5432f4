import Verif.Model.Api
import Verif.Spec.Walk

/-!
# Specification: the answers of a model that holds a given tree
-/

namespace BT.Spec

section
variable {E V E' K P S O A Sp : Type} [Inhabited V] [Field K] [DecidableEq K]

/-- The number for one row: that of the leaf where the row ends, 0 if it is rejected on the way. -/
def valueAt (rt : Router Sp (Nat → V)) (T : Target K P S O) (t : Node Sp S K P) (x : Nat → V) : K :=
  match walk rt t x with
  | some l => T.predictLeaf l.posterior
  | none => 0

/-- The mean for one row. -/
def meanAt (rt : Router Sp (Nat → V)) (T : Target K P S O) (t : Node Sp S K P) (x : Nat → V) : Option O :=
  (walk rt t x).map fun l => T.posteriorMean l.posterior

/-- Prior and posterior for one row. -/
def rawAt (rt : Router Sp (Nat → V)) (t : Node Sp S K P) (x : Nat → V) : Option (Option P × P) :=
  (walk rt t x).map fun l => (l.prior, l.posterior)

/-- The model `m` answers as the tree `t` on `cols` features does: row by row, for every argument that can be read as a
matrix with `cols` columns. -/
structure AnswersAs (k : Kit E V E' K P S O A Sp) (m : Obj A S K P) (t : Node Sp S K P) (cols : Nat) : Prop where
  depth : ask k m .depth = .ok (.number (height t))
  nLeaves : ask k m .nLeaves = .ok (.number (leaves t))
  predict : ∀ Z q nz, normalize k.obX Z none = .ok (q, nz) → q.cols = cols →
    ask k m (.predict Z) = .ok (.values ((List.range q.rows).map fun i => valueAt k.router k.T t (q.mat i)))
  proba : ∀ Z q nz, normalize k.obX Z none = .ok (q, nz) → q.cols = cols →
    ask k m (.predictProba Z) = .ok (.means ((List.range q.rows).map fun i => meanAt k.router k.T t (q.mat i)))
  raw : ∀ Z q nz, normalize k.obX Z none = .ok (q, nz) → q.cols = cols →
    ask k m (.rawLeafData Z) = .ok (.raw ((List.range q.rows).map fun i => rawAt k.router t (q.mat i)))
  columns : ∀ Z q nz, normalize k.obX Z none = .ok (q, nz) → q.cols ≠ cols →
    ask k m (.predict Z) = .error .valueError ∧ ask k m (.predictProba Z) = .error .valueError ∧
    ask k m (.rawLeafData Z) = .error .valueError
  unreadable : ∀ Z e, normalize k.obX Z none = .error e →
    ask k m (.predict Z) = .error e ∧ ask k m (.predictProba Z) = .error e ∧ ask k m (.rawLeafData Z) = .error e

end

end BT.Spec
