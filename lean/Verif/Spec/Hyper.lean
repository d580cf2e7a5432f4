import Verif.Model.Hyper
import Verif.Spec.Perp
import Verif.Spec.Walk

/-!
# Specification of the hyperplane search

Coordinates are summed by index, candidates and scores are described position by position; no search
state.
-/

namespace BT.Spec

section
variable {K P S O : Type} [Field K] [LinearOrder K]

/-- Coordinate of the point `x` along the direction `w`. -/
def along (w : List K) (x : Nat → K) : K := ((List.range w.length).map fun j => x j * w.getD j 0).sum

/-- A vector as a point. -/
def point (o : List K) : Nat → K := fun j => o.getD j 0

/-- Signed elevation of `x` over the plane through `origin` orthogonal to `normal`. -/
def elevation (sp : HSplit K) (x : Nat → K) : K := along sp.normal x - along sp.normal (point sp.origin)

/-- Sum of the (unnormalised) distances of a node's rows to a plane. -/
def totalDist (q : HProb K P S) (sp : HSplit K) : K := (q.rows.map fun i => |elevation sp (q.X i)|).sum

/-- The rows of the node in the order of their coordinate along `w`. -/
def byCoordinate (argsort : List K → List Nat) (q : HProb K P S) (w : List K) : List Nat :=
  (argsort (q.rows.map fun i => along w (q.X i))).map fun j => q.rows.getD j 0

/-- Positions at which consecutive rows — in *data* order — differ by more than the precision. -/
def jumps (q : HProb K P S) (w : List K) : List Nat :=
  (List.range q.rows.length).filter fun k =>
    decide (1 ≤ k ∧ q.prec < |along w (q.X (q.rows.getD k 0)) - along w (q.X (q.rows.getD (k - 1) 0))|)

/-- Score of cutting the sorted rows at position `k`. -/
def cutScore (argsort : List K → List Nat) (pair : PairScore K P S) (q : HProb K P S) (w : List K)
    (k : Nat) : S :=
  pair q.partitionPrior q.level q.prior q.nDim (jumps q w).length
    (((byCoordinate argsort q w).take k).map q.y) (((byCoordinate argsort q w).drop k).map q.y)

/-- The point halfway between two rows. -/
def halfway (q : HProb K P S) (i j : Nat) : List K :=
  (List.range q.nDim).map fun d => (q.X i d + q.X j d) / 2

/-- Evaluating the vector `r` yields the score `s` and the plane `sp`: the first best position along the
normalised direction and the plane halfway between the two rows next to it. -/
structure Outcome [LinearOrder S] (A : HArith K) (pair : PairScore K P S) (q : HProb K P S) (r : RawVec K)
    (s : S) (sp : HSplit K) : Prop where
  normal : hNormal A q r = .ok sp.normal
  cut : ∃ k ∈ jumps q sp.normal, s = cutScore A.argsort pair q sp.normal k ∧
    (∀ k' ∈ jumps q sp.normal, cutScore A.argsort pair q sp.normal k' ≤ s) ∧
    (∀ k' ∈ jumps q sp.normal, k' < k → cutScore A.argsort pair q sp.normal k' < s) ∧
    ∃ i j, (byCoordinate A.argsort q sp.normal)[k - 1]? = some i ∧
      (byCoordinate A.argsort q sp.normal)[k]? = some j ∧ sp.origin = halfway q i j

/-- The run of a strategy: the vectors evaluated so far, oldest first, with the returned values. -/
def Follows (strat : Strategy K S) (vs : List (RawVec K × S)) : Prop :=
  ∀ m, (∀ r s, vs[m]? = some (r, s) → strat (vs.take m).reverse = .eval r) ∧
    (m = vs.length → strat vs.reverse = .stop)

/-- What the search state says after evaluating the vectors `rs`. -/
structure Searched [LinearOrder S] (A : HArith K) (pair : PairScore K P S) (q : HProb K P S)
    (rs : List (RawVec K)) (st : HState S K) : Prop where
  evals : st.evals = rs.length
  base : q.noSplit ≤ st.bestScore
  dist : 0 ≤ st.bestDist
  upper : ∀ r ∈ rs, ∀ s sp, Outcome A pair q r s sp → s ≤ st.bestScore ∧
    (s = st.bestScore → totalDist q sp ≤ st.bestDist)
  none : st.best = none → st.bestScore = q.noSplit ∧ st.bestDist = 0
  some : ∀ sp, st.best = some sp → ∃ pre r post, rs = pre ++ r :: post ∧
    Outcome A pair q r st.bestScore sp ∧ st.bestDist = totalDist q sp ∧
    (st.bestScore = q.noSplit → 0 < st.bestDist) ∧
    ∀ r' ∈ pre, ∀ sp', Outcome A pair q r' st.bestScore sp' → totalDist q sp' < st.bestDist

/-- Effective prior of a node. -/
def hPrior (c : HCtx K P S O) (pa : Option P) (R : List Nat) : P := c.T.getPrior pa R.length c.nDim

/-- The optimizer, run on the rows `R`, ended in the state `st`. -/
def SearchEnds [LinearOrder S] (c : HCtx K P S O) (pair : PairScore K P S) (pa : Option P) (lv : Nat)
    (R : List Nat) (st : HState S K) : Prop :=
  ∃ vs, Follows (c.opt.solve (hProblem c (hPrior c pa R) lv R)) vs ∧
    Searched c.A pair (hProblem c (hPrior c pa R) lv R) (vs.map Prod.fst) st

/-- More than one row and two different targets. -/
def HDivisible (c : HCtx K P S O) (R : List Nat) : Prop := 1 < R.length ∧ ∃ i ∈ R, ∃ j ∈ R, c.y i ≠ c.y j

/-- Rows strictly below, and not below, a plane. -/
def below (c : HCtx K P S O) (R : List Nat) (sp : HSplit K) : List Nat :=
  R.filter fun i => decide (elevation sp (c.X i) < 0)
def above (c : HCtx K P S O) (R : List Nat) (sp : HSplit K) : List Nat :=
  R.filter fun i => decide (0 ≤ elevation sp (c.X i))

/-- Attributes of a node whose `_fit` ran. -/
def hFitInfo (c : HCtx K P S O) (pa : Option P) (lv : Nat) (R : List Nat) : Info K P :=
  { hp := c.hp, prior := pa, level := lv, nDim := some c.nDim, nData := R.length,
    posterior := c.T.posterior (R.map c.y) (hPrior c pa R) 1 }

/-- Attributes of a child with nothing to split; `par` is the parent's effective prior. -/
def hDirectInfo (c : HCtx K P S O) (par pa : P) (lv : Nat) (R : List Nat) : Info K P :=
  { hp := c.hp, prior := some pa, level := lv, nDim := none, nData := R.length,
    posterior := c.T.posterior (R.map c.y) par 1 }

/-- `HBuilt c pair par pa lv R t`: `t` is a correct hyperplane tree for the rows `R`. -/
inductive HBuilt [LinearOrder S] (c : HCtx K P S O) (pair : PairScore K P S) :
    Option P → Option P → Nat → List Nat → HNode S K P → Prop
  | direct (par pa : P) (lv : Nat) (R : List Nat) (hsmall : ¬ HDivisible c R) :
      HBuilt c pair (some par) (some pa) lv R (.leaf (hDirectInfo c par pa lv R))
  | stay (par pa : Option P) (lv : Nat) (R : List Nat) (st : HState S K)
      (hdiv : par.isSome → HDivisible c R) (hst : SearchEnds c pair pa lv R st)
      (hno : ∀ sp, st.best = some sp → below c R sp = [] ∨ above c R sp = []) :
      HBuilt c pair par pa lv R (.leaf (hFitInfo c pa lv R))
  | split (par pa : Option P) (lv : Nat) (R : List Nat) (st : HState S K) (sp : HSplit K)
      (c1 c2 : HNode S K P)
      (hdiv : par.isSome → HDivisible c R) (hst : SearchEnds c pair pa lv R st)
      (hbest : st.best = some sp) (hne1 : below c R sp ≠ []) (hne2 : above c R sp ≠ [])
      (h1 : HBuilt c pair (some (hPrior c pa R))
        (some (c.T.posterior ((below c R sp).map c.y) (hPrior c pa R) 0)) (lv + 1) (below c R sp) c1)
      (h2 : HBuilt c pair (some (hPrior c pa R))
        (some (c.T.posterior ((above c R sp).map c.y) (hPrior c pa R) 0)) (lv + 1) (above c R sp) c2) :
      HBuilt c pair par pa lv R (.split (hFitInfo c pa lv R) sp
        (c.T.logNoSplit c.hp.partitionPrior lv (R.map c.y) (hPrior c pa R)) st.bestScore c1 c2)

/-- Training rows (of `n`) that prediction routes through the node at an address. -/
def hRouted (c : HCtx K P S O) (t : HNode S K P) (n : Nat) (addr : List Bool) : List Nat :=
  (List.range n).filter fun i => passes hyperRouter t addr (c.X i)

end

end BT.Spec
