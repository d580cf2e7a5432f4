import Verif.Model.Perp

/-!
# Specification of a greedy Bayesian tree

No sort indices, no search loop: a node is described by the list `R` of its training rows.  Candidate
cuts are adjacent values of the sorted column, a cut is scored by a function of the two target lists
only, and `Built` says which trees are correct greedy trees.
-/

namespace BT.Spec

/-- The contract of `np.argsort`: a permutation of the positions which sorts the values.
`ok` are the values the contract is needed for. -/
structure IsArgsort {V : Type} (le : V → V → Bool) (ok : V → Prop) (argsort : List V → List Nat) :
    Prop where
  perm : ∀ xs, (∀ x ∈ xs, ok x) → (argsort xs).Perm (List.range xs.length)
  sorted : ∀ xs, (∀ x ∈ xs, ok x) → (argsort xs).Pairwise fun i j =>
    ∀ a b, xs[i]? = some a → xs[j]? = some b → le a b = true

/-- What the fit needs from arithmetic on feature values (on the values satisfying `ok`, for
`split_precision = prec`): values are linearly ordered and the midpoint of two separated neighbours
separates everything below from everything above. -/
structure LawfulOps {V K : Type} (o : XOps V K) (ok : V → Prop) (prec : K) : Prop where
  le_trans : ∀ a b c, ok a → ok b → ok c → o.le a b = true → o.le b c = true → o.le a c = true
  le_total : ∀ a b, ok a → ok b → o.le a b = true ∨ o.le b a = true
  le_antisymm : ∀ a b, ok a → ok b → o.le a b = true → o.le b a = true → a = b
  below : ∀ a b x, ok a → ok b → ok x → o.le a b = true → o.gap prec a b = true → o.le x a = true →
    o.lt x (o.mid a b) = true ∧ o.ge x (o.mid a b) = false
  above : ∀ a b x, ok a → ok b → ok x → o.le a b = true → o.gap prec a b = true → o.le b x = true →
    o.lt x (o.mid a b) = false ∧ o.ge x (o.mid a b) = true

/-- Score of a split as a function of the targets on both sides:
`pair partition_prior level prior n_dim n_splits left right`. -/
abbrev PairScore (K P S : Type) := K → Nat → P → Nat → Nat → List K → List K → S

/-- What the fit needs from the target model: a given prior is used, nothing depends on the order of
targets, and the vectorised split scores are the pair scores of the two sides at each candidate position. -/
structure LawfulTarget {K P S O : Type} (T : Target K P S O) (pair : PairScore K P S) : Prop where
  getPrior_some : ∀ p n d, T.getPrior (some p) n d = p
  posterior_perm : ∀ y y' prior delta, y.Perm y' → T.posterior y prior delta = T.posterior y' prior delta
  noSplit_perm : ∀ pp lv y y' prior, y.Perm y' → T.logNoSplit pp lv y prior = T.logNoSplit pp lv y' prior
  pair_perm : ∀ pp lv prior nd ns a a' b b', a.Perm a' → b.Perm b' →
    pair pp lv prior nd ns a b = pair pp lv prior nd ns a' b'
  logSplit_eq : ∀ pp lv y prior nd (si : List Nat), (∀ k ∈ si, 1 ≤ k ∧ k < y.length) →
    si.Pairwise (· < ·) →
    T.logSplit pp lv y prior nd si = si.map fun k => pair pp lv prior nd si.length (y.take k) (y.drop k)

section
variable {V K P S O : Type}

/-- Values of feature `d` over the rows `R`, ascending. -/
def column (o : XOps V K) (X : Nat → Nat → V) (R : List Nat) (d : Nat) : List V :=
  (R.map fun i => X i d).mergeSort o.le

/-- Candidate cuts along `d`: neighbouring values further apart than the precision, ascending. -/
def cuts (o : XOps V K) (prec : K) (X : Nat → Nat → V) (R : List Nat) (d : Nat) : List (V × V) :=
  let vs := column o X R d
  (vs.zip vs.tail).filter fun c => o.gap prec c.1 c.2

/-- The context in which a tree is built. -/
structure Ctx (V K P S O : Type) where
  o : XOps V K
  T : Target K P S O
  pair : PairScore K P S
  hp : Hyper K
  X : Nat → Nat → V
  y : Nat → K
  nDim : Nat
  names : List String

namespace Ctx
variable (c : Ctx V K P S O)

/-- The effective prior of a node with prior attribute `pa` and rows `R`. -/
def prior (pa : Option P) (R : List Nat) : P := c.T.getPrior pa R.length c.nDim

/-- Targets of rows. -/
def ys (R : List Nat) : List K := R.map c.y

/-- Log-likelihood of not splitting. -/
def noSplit (pa : Option P) (lv : Nat) (R : List Nat) : S :=
  c.T.logNoSplit c.hp.partitionPrior lv (c.ys R) (c.prior pa R)

/-- Log-likelihood of cutting dimension `d` between the neighbouring values `cut.1` and `cut.2`. -/
def score (pa : Option P) (lv : Nat) (R : List Nat) (d : Nat) (cut : V × V) : S :=
  c.pair c.hp.partitionPrior lv (c.prior pa R) c.nDim (cuts c.o c.hp.splitPrecision c.X R d).length
    (c.ys (R.filter fun i => c.o.le (c.X i d) cut.1))
    (c.ys (R.filter fun i => !c.o.le (c.X i d) cut.1))

/-- Attributes of a node whose rows are `R` and whose own `_fit` ran. -/
def fitInfo [One K] (pa : Option P) (lv : Nat) (R : List Nat) : Info K P :=
  { hp := c.hp, prior := pa, level := lv, nDim := some c.nDim, nData := R.length,
    posterior := c.T.posterior (c.ys R) (c.prior pa R) 1 }

/-- Attributes of a child that was not worth fitting: its posterior is computed from the *parent's*
effective prior `par`. -/
def directInfo [One K] (par pa : P) (lv : Nat) (R : List Nat) : Info K P :=
  { hp := c.hp, prior := some pa, level := lv, nDim := none, nData := R.length,
    posterior := c.T.posterior (c.ys R) par 1 }

/-- The prior attribute handed to a child with rows `R'`. -/
def childPrior [DecidableEq K] [Zero K] (prior : P) (R' : List Nat) : P :=
  if c.hp.delta ≠ 0 then c.T.posterior (c.ys R') prior c.hp.delta else prior

/-- Rows of the two children, by the comparisons that prediction uses. -/
def rows1 (R : List Nat) (d : Nat) (v : V) : List Nat := R.filter fun i => c.o.lt (c.X i d) v
def rows2 (R : List Nat) (d : Nat) (v : V) : List Nat := R.filter fun i => c.o.ge (c.X i d) v

/-- A node is worth fitting: more than one row and two different targets. -/
def Divisible (R : List Nat) : Prop := 1 < R.length ∧ ∃ i ∈ R, ∃ j ∈ R, c.y i ≠ c.y j

end Ctx

/-- `Built c par pa lv R t`: `t` is a correct greedy tree for rows `R`, with prior attribute `pa` at
level `lv`; `par` is the effective prior of the parent (`none` at the root). -/
inductive Built [LinearOrder S] [DecidableEq K] [Zero K] [One K] (c : Ctx V K P S O) :
    Option P → Option P → Nat → List Nat → PNode V S K P → Prop
  /-- a child with nothing left to split -/
  | direct (par pa : P) (lv : Nat) (R : List Nat) (hsmall : ¬ c.Divisible R) :
      Built c (some par) (some pa) lv R (.leaf (c.directInfo par pa lv R))
  /-- no cut beats not splitting -/
  | stay (par pa : Option P) (lv : Nat) (R : List Nat)
      (hdiv : par.isSome → c.Divisible R)
      (hno : ∀ d < c.nDim, ∀ cut ∈ cuts c.o c.hp.splitPrecision c.X R d,
        c.score pa lv R d cut ≤ c.noSplit pa lv R) :
      Built c par pa lv R (.leaf (c.fitInfo pa lv R))
  /-- the best cut, which beats not splitting -/
  | split (par pa : Option P) (lv : Nat) (R : List Nat) (d : Nat) (cut : V × V) (name : String)
      (c1 c2 : PNode V S K P)
      (hdiv : par.isSome → c.Divisible R)
      (hd : d < c.nDim)
      (hcut : cut ∈ cuts c.o c.hp.splitPrecision c.X R d)
      (hgain : c.noSplit pa lv R < c.score pa lv R d cut)
      (hmax : ∀ d' < c.nDim, ∀ cut' ∈ cuts c.o c.hp.splitPrecision c.X R d',
        c.score pa lv R d' cut' ≤ c.score pa lv R d cut)
      (hfirstDim : ∀ d' < d, ∀ cut' ∈ cuts c.o c.hp.splitPrecision c.X R d',
        c.score pa lv R d' cut' < c.score pa lv R d cut)
      (hfirstCut : ∀ cut' ∈ cuts c.o c.hp.splitPrecision c.X R d, c.o.le cut.1 cut'.1 = false →
        c.score pa lv R d cut' < c.score pa lv R d cut)
      (hname : c.names[d]? = some name)
      (h1 : Built c (some (c.prior pa R))
        (some (c.childPrior (c.prior pa R) (c.rows1 R d (c.o.mid cut.1 cut.2)))) (lv + 1)
        (c.rows1 R d (c.o.mid cut.1 cut.2)) c1)
      (h2 : Built c (some (c.prior pa R))
        (some (c.childPrior (c.prior pa R) (c.rows2 R d (c.o.mid cut.1 cut.2)))) (lv + 1)
        (c.rows2 R d (c.o.mid cut.1 cut.2)) c2) :
      Built c par pa lv R
        (.split (c.fitInfo pa lv R) ⟨d, name, c.o.mid cut.1 cut.2⟩ (c.noSplit pa lv R)
          (c.score pa lv R d cut) c1 c2)

/-- A valid training situation: `n` rows with values the arithmetic can handle, at least one feature,
an `argsort` fulfilling its contract, and a row count the index dtypes can represent. -/
structure Valid (ok : V → Prop) (c : Ctx V K P S O) (argsort : List V → List Nat) (n : Nat) : Prop where
  ops : LawfulOps c.o ok c.hp.splitPrecision
  target : LawfulTarget c.T c.pair
  sort : IsArgsort c.o.le ok argsort
  dims : 0 < c.nDim
  rows : n ≤ 2 ^ 64
  vals : ∀ i < n, ∀ d < c.nDim, ok (c.X i d)

/-- `fit` in a context: `_fit` at the root, then pruning if requested. -/
def fitIn [LT S] [DecidableLT S] [DecidableEq K] [Zero K] [One K] (c : Ctx V K P S O)
    (argsort : List V → List Nat) (prior : Option P) (n : Nat) : Except Err (PNode V S K P) :=
  perpFitRoot c.o c.T argsort c.hp prior c.X c.y n c.nDim c.names

end

end BT.Spec
