import Verif.Spec.Closed

/-!
# Specification: scores that are computed with errors

In floating-point arithmetic the scores of `_fit` carry rounding errors, and sums over the same targets in a
different order differ.  `Computed` says by how much the computed scores may be wrong.
-/

namespace BT.Spec

/-- A non-empty list of different training rows. -/
def RowList (n : Nat) (L : List Nat) : Prop := L ≠ [] ∧ L.Nodup ∧ ∀ i ∈ L, i < n

section
variable {K P O : Type} [Field K] [LinearOrder K]

/-- The model `T'` computes, for the targets of training rows in any order, the score of not cutting and the
scores of all cuts up to an error of `ε`; `prior` is used as given. -/
structure Computed (F : Fns K) (ml : P → List K → K) (hp : Hyper K) (y : Nat → K) (n nDim : Nat) (prior : P) (ε : K)
    (T' : Target K P K O) : Prop where
  given : ∀ m, T'.getPrior (some prior) m nDim = prior
  stay : ∀ lv L, lv < n → RowList n L →
    |T'.logNoSplit hp.partitionPrior lv (L.map y) prior
      - (F.log (1 - hp.partitionPrior ^ (lv + 1)) + ml prior (L.map y))| ≤ ε
  len : ∀ lv L si, RowList n L → (∀ k ∈ si, 1 ≤ k ∧ k < L.length) → si.Pairwise (· < ·) →
    (T'.logSplit hp.partitionPrior lv (L.map y) prior nDim si).length = si.length
  split : ∀ lv L si, lv < n → RowList n L → (∀ k ∈ si, 1 ≤ k ∧ k < L.length) → si.Pairwise (· < ·) →
    ∀ (i k : Nat) (s : K), si[i]? = some k →
    (T'.logSplit hp.partitionPrior lv (L.map y) prior nDim si)[i]? = some s →
    |s - (F.log (hp.partitionPrior ^ (lv + 1) / ((si.length : K) * (nDim : K)))
      + ml prior ((L.take k).map y) + ml prior ((L.drop k).map y))| ≤ ε

/-- All decisions of the (unpruned) tree are clear by more than `2 ε`: every split beats not splitting and all
other cuts, and every leaf that was considered for splitting beats all cuts. -/
def Clear (F : Fns K) (ml : P → List K → K) (hp : Hyper K) (X : Nat → Nat → K) (y : Nat → K) (n nDim : Nat)
    (prior : P) (ε : K) (t : PNode K K K P) : Prop :=
  (∀ addr i, nodeAt t addr = some (.leaf i) →
    (addr = [] ∨ ∃ j ∈ rowsAt X t n addr, ∃ k ∈ rowsAt X t n addr, y j ≠ y k) →
    ∀ d < nDim, ∀ a c, IsCut hp.splitPrecision X (rowsAt X t n addr) d a c →
      perpCutScore F ml hp X y nDim prior addr.length (rowsAt X t n addr) d a + 2 * ε
        ≤ stayScore F ml hp y prior addr.length (rowsAt X t n addr)) ∧
  (∀ addr i sp l b c1 c2, nodeAt t addr = some (.split i sp l b c1 c2) →
    l + 2 * ε < b ∧
    ∀ d < nDim, ∀ a c, IsCut hp.splitPrecision X (rowsAt X t n addr) d a c →
      ¬ (d = sp.dim ∧ (a + c) / 2 = sp.value) →
      perpCutScore F ml hp X y nDim prior addr.length (rowsAt X t n addr) d a + 2 * ε < b)

end

/-- The same tree up to the numbers computed from targets: the same splits, levels, sizes and priors;
likelihoods differ by at most `ε`, and posteriors are related by `Q`. -/
inductive Alike {Sp K P : Type} [Field K] [LinearOrder K] (ε : K) (Q : P → P → Prop) :
    Node Sp K K P → Node Sp K K P → Prop
  | leaf (i i' : Info K P) (hl : i'.level = i.level) (hn : i'.nData = i.nData) (hp : i'.prior = i.prior)
      (hq : Q i.posterior i'.posterior) : Alike ε Q (.leaf i) (.leaf i')
  | split (i i' : Info K P) (sp : Sp) (l b l' b' : K) (c1 c2 c1' c2' : Node Sp K K P)
      (hl : i'.level = i.level) (hn : i'.nData = i.nData) (hp : i'.prior = i.prior)
      (hq : Q i.posterior i'.posterior) (hll : |l' - l| ≤ ε) (hbb : |b' - b| ≤ ε)
      (h1 : Alike ε Q c1 c1') (h2 : Alike ε Q c2 c2') : Alike ε Q (.split i sp l b c1 c2) (.split i' sp l' b' c1' c2')

end BT.Spec
