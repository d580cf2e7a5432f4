import Verif.Spec.Hyper
import Verif.Spec.Closed
import Verif.Model.Sphere

/-!
# Specification of fitted hyperplane trees, in closed form

Real numbers, no routers and no library records: rows are routed by the sign of `Σ (x_j - o_j) w_j`, normals
are described by their direction and their length, scores are written out.
-/

namespace BT.Spec

/-- Side of a row: `Σ_j w_j (x_j - o_j)`. -/
noncomputable def planeSide (w o : List ℝ) (x : Nat → ℝ) : ℝ :=
  ((List.range w.length).map fun j => w.getD j 0 * (x j - o.getD j 0)).sum

/-- The node at the address is reached by a row that goes to child 1 if it is strictly below the plane and
to child 2 otherwise. -/
noncomputable def descends {S P : Type} : HNode S ℝ P → List Bool → (Nat → ℝ) → Bool
  | _, [], _ => true
  | .leaf _, _ :: _, _ => false
  | .split _ sp _ _ c1 c2, b :: bs, x =>
    if planeSide sp.normal sp.origin x < 0 then !b && descends c1 bs x else b && descends c2 bs x

/-- The rows among the first `n` that reach the node at the address. -/
noncomputable def hRowsAt {S P : Type} (X : Nat → Nat → ℝ) (t : HNode S ℝ P) (n : Nat) (addr : List Bool) :
    List Nat :=
  (List.range n).filter fun i => descends t addr (X i)

/-- The finite number standing for an entry: NaN is 0, infinities are the largest float64. -/
noncomputable def finite : XF ℝ → ℝ
  | .nan => 0
  | .ninf => -(2 ^ 1024 - 2 ^ 971)
  | .fin x => x
  | .pinf => 2 ^ 1024 - 2 ^ 971

/-- `w` is the unit vector in the direction of the raw vector `v`; the first axis if `v` has no direction. -/
def IsDirection (v : List (XF ℝ)) (w : List ℝ) : Prop :=
  w.length = v.length ∧ (w.map fun a => a ^ 2).sum = 1 ∧
    ((∃ r : ℝ, 0 < r ∧ v.map finite = w.map (r * ·)) ∨
      (∀ x ∈ v, finite x = 0) ∧ ∀ j < w.length, w[j]? = some (if j = 0 then 1 else 0))

/-- The three library functions: Euclidean norm, largest float64, and a sorting routine that sorts. -/
structure Euclidean (A : HArith ℝ) : Prop where
  norm : ∀ v, A.norm v = Real.sqrt (v.map fun a => a ^ 2).sum
  big : A.big = 2 ^ 1024 - 2 ^ 971
  sort : ∀ xs, (A.argsort xs).Perm (List.range xs.length) ∧
    (A.argsort xs).Pairwise fun i j => ∀ a b, xs[i]? = some a → xs[j]? = some b → a ≤ b

/-- The rows `R` in ascending order of their coordinate along `w`. -/
def IsSweep (X : Nat → Nat → ℝ) (R : List Nat) (w : List ℝ) (order : List Nat) : Prop :=
  order.Perm R ∧ order.Pairwise fun i j => along w (X i) ≤ along w (X j)

/-- Position `k` is considered: the coordinates of the rows number `k-1` and `k` *in the order of the data*
differ by more than the precision. -/
def Considered (prec : ℝ) (X : Nat → Nat → ℝ) (R : List Nat) (w : List ℝ) (k : Nat) : Prop :=
  ∃ i j, 1 ≤ k ∧ R[k - 1]? = some i ∧ R[k]? = some j ∧ prec < |along w (X j) - along w (X i)|

/-- Number of positions considered. -/
noncomputable def consideredCount (prec : ℝ) (X : Nat → Nat → ℝ) (R : List Nat) (w : List ℝ) : Nat :=
  ((R.zip R.tail).filter fun c => decide (prec < |along w (X c.2) - along w (X c.1)|)).length

/-- Score of the partition of the rows into the first `k` and the remaining ones of `order`. -/
noncomputable def sweepScore {P : Type} (F : Fns ℝ) (ml : P → List ℝ → ℝ) (q : HProb ℝ P ℝ) (w : List ℝ)
    (order : List Nat) (k : Nat) : ℝ :=
  F.log (q.partitionPrior ^ (q.level + 1) /
      ((consideredCount q.prec q.X q.rows w : ℝ) * (q.nDim : ℝ)))
    + ml q.prior ((order.take k).map q.y) + ml q.prior ((order.drop k).map q.y)

/-- The plane `sp` with score `s` is the best along its normal: the first best position considered, and
the plane through the point halfway between the two rows next to it. -/
def BestAlong {P : Type} (F : Fns ℝ) (ml : P → List ℝ → ℝ) (q : HProb ℝ P ℝ) (s : ℝ) (sp : HSplit ℝ) : Prop :=
  ∃ order k i j, IsSweep q.X q.rows sp.normal order ∧ Considered q.prec q.X q.rows sp.normal k ∧
    s = sweepScore F ml q sp.normal order k ∧
    (∀ k', Considered q.prec q.X q.rows sp.normal k' → sweepScore F ml q sp.normal order k' ≤ s) ∧
    (∀ k', Considered q.prec q.X q.rows sp.normal k' → k' < k → sweepScore F ml q sp.normal order k' < s) ∧
    order[k - 1]? = some i ∧ order[k]? = some j ∧
    sp.origin = (List.range q.nDim).map fun d => (q.X i d + q.X j d) / 2

/-- Sum of the distances of the rows to the plane. -/
noncomputable def clearance {P : Type} (q : HProb ℝ P ℝ) (sp : HSplit ℝ) : ℝ :=
  (q.rows.map fun i => |planeSide sp.normal sp.origin (q.X i)|).sum

end BT.Spec
