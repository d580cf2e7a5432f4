import Verif.Lemmas.Closed
import Verif.Props.Measure

/-!
# The properties of perpendicular fits in closed form

The theorems of `Props/Fit`, `Props/Greedy`, `Props/Prune` and `Props/Measure` hold for any arithmetic and
any target model fulfilling a contract.  Here they are stated for the two models of the code in exact
arithmetic, with all comparisons, thresholds and scores written out, so that no contract is left to be
checked except that of `np.argsort`.
-/

namespace BT
open Spec

set_option linter.unusedSectionVars false

section
variable {K : Type} [Field K] [LinearOrder K] [IsStrictOrderedRing K]

/-- What is assumed of a training situation: a non-negative precision, at least one row and one feature, a
row count below `2 ** 64`, and a sorting routine that sorts. -/
structure Training (hp : Hyper K) (argsort : List K → List Nat) (n nDim : Nat) : Prop where
  precision : 0 ≤ hp.splitPrecision
  sort : ∀ xs, (argsort xs).Perm (List.range xs.length) ∧
    (argsort xs).Pairwise fun i j => ∀ a b, xs[i]? = some a → xs[j]? = some b → a ≤ b
  someRow : 0 < n
  rows : n ≤ 2 ^ 64
  dims : 0 < nDim

theorem Training.isArgsort {hp : Hyper K} {argsort : List K → List Nat} {n nDim : Nat}
    (h : Training hp argsort n nDim) : IsArgsort (exactOps K).le (fun _ => True) argsort :=
  ⟨fun xs _ => (h.sort xs).1, fun xs _ => (h.sort xs).2.imp fun h' a b ha hb => by
    simpa [exactOps] using h' a b ha hb⟩

variable {F : Fns K} {P O : Type} {T : Target K P K O} {ml : P → List K → K} {post : P → List K → P}
  {hp : Hyper K} {argsort : List K → List Nat} {X : Nat → Nat → K} {y : Nat → K} {n nDim : Nat}
  {names : List String} {prior : P} {t : PNode K K K P}

/-- The pair score of a model with marginal likelihood `ml`. -/
abbrev mlPair (F : Fns K) (ml : P → List K → K) : PairScore K P K := fun pp lv p nd ns a b =>
  F.log (pp ^ (lv + 1) / ((ns : K) * (nd : K))) + ml p a + ml p b

theorem Training.valid (hT : CodeTarget F T ml post) (h : Training hp argsort n nDim) :
    Valid (fun _ => True) (exactCtx T (mlPair F ml) hp X y nDim names) argsort n :=
  ⟨exact_lawful h.precision, hT.textbook.lawful, h.isArgsort, h.dims, h.rows, fun _ _ _ _ => trivial⟩

/-- C08 in closed form: `n_data_` is the number of training rows that reach the node. -/
theorem C08_closed (hT : CodeTarget F T ml post) (hr : Training hp argsort n nDim)
    (h : perpFitRoot (exactOps K) T argsort hp (some prior) X y n nDim names = .ok t)
    (addr : List Bool) (u : PNode K K K P) (hu : nodeAt t addr = some u) :
    u.info.nData = (rowsAt X t n addr).length := by
  rw [← routed_eq T (mlPair F ml) hp X y nDim names]
  exact C08_rows_routed_back (hr.valid hT) h addr u hu

theorem rowsAt_ne_nil (hT : CodeTarget F T ml post) (hr : Training hp argsort n nDim)
    (h : perpFitRoot (exactOps K) T argsort hp (some prior) X y n nDim names = .ok t)
    {addr : List Bool} {u : PNode K K K P} (hu : nodeAt t addr = some u) : rowsAt X t n addr ≠ [] := by
  intro h0
  have hpos := (fit_inv (c := exactCtx T (mlPair F ml) hp X y nDim names) (hr.valid hT) hr.someRow h
    (fun _ => True) trivial (fun _ _ _ _ _ => trivial) (fun _ _ _ _ _ _ => trivial) addr u hu).2.2.2.2
  rw [C08_closed hT hr h addr u hu, h0] at hpos
  exact absurd hpos (lt_irrefl _)

theorem prior_some (hT : CodeTarget F T ml post) (hr : Training hp argsort n nDim)
    (h : perpFitRoot (exactOps K) T argsort hp (some prior) X y n nDim names = .ok t)
    {addr : List Bool} {u : PNode K K K P} (hu : nodeAt t addr = some u) : ∃ p, u.info.prior = some p := by
  obtain ⟨par', pa', u0, hB, e, -, -, hs, -⟩ :=
    fit_nodeInv (c := exactCtx T (mlPair F ml) hp X y nDim names) (hr.valid hT) h
      (fun _ pa _ => ∃ p, pa = some p) (fun _ _ _ _ _ _ => ⟨_, rfl⟩) ⟨prior, rfl⟩ hu
  obtain ⟨p, hp'⟩ := hs
  refine ⟨p, ?_⟩
  rw [e, ← hp']
  cases hB <;> rfl

/-- C09 in closed form: with `delta = 0` the posterior of every node is the textbook update of the root's
prior with the targets of the rows that reach the node. -/
theorem C09_closed (hT : CodeTarget F T ml post) (hr : Training hp argsort n nDim) (hδ : hp.delta = 0)
    (h : perpFitRoot (exactOps K) T argsort hp (some prior) X y n nDim names = .ok t)
    (addr : List Bool) (u : PNode K K K P) (hu : nodeAt t addr = some u) :
    u.info.posterior = post prior ((rowsAt X t n addr).map y) := by
  have e := C09_posteriors (c := exactCtx T (mlPair F ml) hp X y nDim names) (hr.valid hT) h hδ addr u hu
  rw [e, routed_eq, hT.textbook.prior]
  exact hT.textbook.post _ _ (by simpa [Ctx.ys] using rowsAt_ne_nil hT hr h hu)

/-- C11 in closed form: the sizes of the children add up to the size of their parent, the leaf sizes add
up to the number of rows, nothing is empty, and there are at most `n` leaves on at most `n - 1` levels. -/
theorem C11_closed (hT : CodeTarget F T ml post) (hr : Training hp argsort n nDim)
    (h : perpFitRoot (exactOps K) T argsort hp (some prior) X y n nDim names = .ok t) :
    (∀ addr i sp l b c1 c2, nodeAt t addr = some (.split i sp l b c1 c2) →
      i.nData = c1.info.nData + c2.info.nData ∧ 0 < c1.info.nData ∧ 0 < c2.info.nData) ∧
    (leafSizes t).sum = n ∧ (∀ k ∈ leafSizes t, 0 < k) ∧ t.getNLeaves ≤ n ∧ t.getDepth ≤ n - 1 :=
  C11_leaf_sizes (c := exactCtx T (mlPair F ml) hp X y nDim names) (hr.valid hT) hr.someRow h

/-- C12 in closed form: `fit` returns a tree if there is a name for every feature. -/
theorem C12_closed (hT : CodeTarget F T ml post) (hr : Training hp argsort n nDim) (X : Nat → Nat → K)
    (y : Nat → K) (prior : Option P) (hnames : nDim ≤ names.length) :
    ∃ t, perpFitRoot (exactOps K) T argsort hp prior X y n nDim names = .ok t :=
  C12_fit_terminates (c := exactCtx T (mlPair F ml) hp X y nDim names) (hr.valid hT) prior hnames

theorem score_closed (hT : CodeTarget F T ml post) (hr : Training hp argsort n nDim) {p : P} (lv : Nat)
    (R : List Nat) (d : Nat) (cut : K × K) :
    (exactCtx T (mlPair F ml) hp X y nDim names).score (some p) lv R d cut =
      perpCutScore F ml hp X y nDim p lv R d cut.1 := by
  unfold Ctx.score perpCutScore Ctx.prior
  rw [cutCount_eq hr.precision, hT.textbook.prior]
  have e1 : (R.filter fun i => (exactOps K).le (X i d) cut.1) = R.filter fun i => decide (X i d ≤ cut.1) := rfl
  have e2 : (R.filter fun i => !(exactOps K).le (X i d) cut.1) = R.filter fun i => decide (cut.1 < X i d) :=
    List.filter_congr fun i _ => by
      show (!decide (X i d ≤ cut.1)) = _
      rw [← decide_not]
      simp only [not_le]
  show _ + ml p (List.map y _) + ml p (List.map y _) = _
  rw [e1, e2]

theorem stay_closed (hT : CodeTarget F T ml post) {p : P} (lv : Nat) {R : List Nat} (hR : R ≠ []) :
    (exactCtx T (mlPair F ml) hp X y nDim names).noSplit (some p) lv R = stayScore F ml hp y p lv R := by
  unfold Ctx.noSplit stayScore Ctx.prior
  rw [hT.textbook.prior]
  exact hT.textbook.stay _ _ _ _ (by simpa [Ctx.ys] using hR)

/-- C13 in closed form: a split node with rows `R` and prior `p` stores the score `l` of not cutting and
the score `b` of the best cut between neighbouring values of `R` over all dimensions; `b` is the score of
the two sides of the stored threshold, which is the midpoint of a cut; `b` beats `l`, and is beaten or
equalled by no cut in a lower dimension nor at a lower threshold of the same dimension. -/
theorem C13_closed (hT : CodeTarget F T ml post) (hr : Training hp argsort n nDim)
    (h : perpFitRoot (exactOps K) T argsort hp (some prior) X y n nDim names = .ok t)
    (addr : List Bool) (i : Info K P) (sp : PSplit K) (l b : K) (c1 c2 : PNode K K K P)
    (hu : nodeAt t addr = some (.split i sp l b c1 c2)) :
    let R := rowsAt X t n addr
    ∃ p, i.prior = some p ∧ l = stayScore F ml hp y p addr.length R ∧ l < b ∧ sp.dim < nDim ∧
      (∃ a c, IsCut hp.splitPrecision X R sp.dim a c ∧ sp.value = (a + c) / 2 ∧
        b = perpCutScore F ml hp X y nDim p addr.length R sp.dim a) ∧
      ∀ d < nDim, ∀ a c, IsCut hp.splitPrecision X R d a c →
        perpCutScore F ml hp X y nDim p addr.length R d a ≤ b ∧
        (d < sp.dim → perpCutScore F ml hp X y nDim p addr.length R d a < b) ∧
        (d = sp.dim → (a + c) / 2 < sp.value → perpCutScore F ml hp X y nDim p addr.length R d a < b) := by
  intro R
  have hv := hr.valid hT (X := X) (y := y) (names := names)
  obtain ⟨g1, g2, g3, ⟨cut, hc, hval, hb, hfirst⟩, g5, g6⟩ := C13_greedy_optimal hv h addr i sp l b c1 c2 hu
  obtain ⟨p, hpr⟩ := prior_some hT hr h hu
  have hpr : i.prior = some p := hpr
  have hlv : i.level = addr.length := (C19_hyper hv hr.someRow h addr _ hu).2
  rw [routed_eq, hpr, hlv] at g1 hb hfirst g5 g6
  rw [routed_eq] at hc
  rw [stay_closed hT _ (rowsAt_ne_nil hT hr h hu)] at g1
  have hcut := (isCut_iff hr.precision X _ _ cut).1 hc
  have hm : sp.value = (cut.1 + cut.2) / 2 := by
    rw [hval]; show (1 / 2) * (cut.1 + cut.2) = _; ring
  refine ⟨p, hpr, g1, g2, g3, ⟨cut.1, cut.2, hcut, hm, ?_⟩, fun d hd a c hac => ⟨?_, fun hlt => ?_, ?_⟩⟩
  · rw [hb]; exact score_closed hT hr _ _ _ cut
  · have := g5 d hd (a, c) ((isCut_iff hr.precision X R d (a, c)).2 hac)
    rwa [score_closed hT hr] at this
  · have := g6 d hlt (a, c) ((isCut_iff hr.precision X R d (a, c)).2 hac)
    rwa [score_closed hT hr] at this
  · rintro rfl hlt
    have hle : ¬ cut.1 ≤ a := by
      intro hle
      rw [hm] at hlt
      obtain ⟨⟨i1, hi1, e1⟩, ⟨j1, hj1, f1⟩, hab, -, hadj⟩ := hcut
      obtain ⟨⟨i2, hi2, e2⟩, ⟨j2, hj2, f2⟩, hab2, -, hadj2⟩ := hac
      rcases hadj j2 hj2 with h' | h'
      · rw [f2] at h'; exact absurd (lt_of_le_of_lt hle hab2) (not_lt.2 h')
      · rw [f2] at h'; linarith
    have := hfirst (a, c) ((isCut_iff hr.precision X R sp.dim (a, c)).2 hac) (by
      show decide (cut.1 ≤ a) = false
      simpa using hle)
    rwa [score_closed hT hr] at this

/-- C13, C17: the sides of the stored threshold are the rows of the children. -/
theorem C13_closed_children (hT : CodeTarget F T ml post) (hr : Training hp argsort n nDim)
    (h : perpFitRoot (exactOps K) T argsort hp (some prior) X y n nDim names = .ok t)
    (addr : List Bool) (i : Info K P) (sp : PSplit K) (l b : K) (c1 c2 : PNode K K K P)
    (hu : nodeAt t addr = some (.split i sp l b c1 c2)) :
    rowsAt X t n (addr ++ [false]) = ((rowsAt X t n addr).filter fun j => X j sp.dim < sp.value) ∧
    rowsAt X t n (addr ++ [true]) = ((rowsAt X t n addr).filter fun j => sp.value ≤ X j sp.dim) := by
  have hv := hr.valid hT (X := X) (y := y) (names := names)
  obtain ⟨h1, h2, -⟩ := routed_append hv h hu
  rw [routed_eq, routed_eq] at h1 h2
  exact ⟨h1, h2⟩

/-- C14 in closed form: a leaf of an unpruned tree has one row, or one common target, or no cut has a
higher score than not cutting. -/
theorem C14_closed (hT : CodeTarget F T ml post) (hr : Training hp argsort n nDim) (hpr : hp.prune = false)
    (h : perpFitRoot (exactOps K) T argsort hp (some prior) X y n nDim names = .ok t)
    (addr : List Bool) (i : Info K P) (hu : nodeAt t addr = some (.leaf i)) :
    let R := rowsAt X t n addr
    R.length = 1 ∨ (∀ j ∈ R, ∀ k ∈ R, y j = y k) ∨
    ∃ p, i.prior = some p ∧ ∀ d < nDim, ∀ a c, IsCut hp.splitPrecision X R d a c →
      perpCutScore F ml hp X y nDim p addr.length R d a ≤ stayScore F ml hp y p addr.length R := by
  intro R
  have hv := hr.valid hT (X := X) (y := y) (names := names)
  have hne := rowsAt_ne_nil hT hr h hu
  have g := C14_unsplit_justified hv hpr h addr i hu
  have hlv : i.level = addr.length := (C19_hyper hv hr.someRow h addr _ hu).2
  obtain ⟨p, hp'⟩ := prior_some hT hr h hu
  have hp' : i.prior = some p := hp'
  rw [routed_eq, hp', hlv] at g
  dsimp only at g
  rw [stay_closed hT _ hne] at g
  rcases g with g | g | g
  · exact .inl (le_antisymm g (List.length_pos_iff.2 hne))
  · exact .inr (.inl g)
  · refine .inr (.inr ⟨p, hp', fun d hd a c hac => ?_⟩)
    have := g d hd (a, c) ((isCut_iff hr.precision X R d (a, c)).2 hac)
    rwa [score_closed hT hr] at this

/-- C15 in closed form: the result does not depend on the sorting routine. -/
theorem C15_closed (hT : CodeTarget F T ml post) {argsort' : List K → List Nat}
    (hr : Training hp argsort n nDim) (hr' : Training hp argsort' n nDim) (prior : Option P) :
    perpFitRoot (exactOps K) T argsort hp prior X y n nDim names =
      perpFitRoot (exactOps K) T argsort' hp prior X y n nDim names :=
  C15_ties (c := exactCtx T (mlPair F ml) hp X y nDim names) (hr.valid hT) hr'.isArgsort prior

/-- C16 in closed form: permuting the rows does not change the result. -/
theorem C16_closed (hT : CodeTarget F T ml post) (hr : Training hp argsort n nDim) (σ : Nat → Nat)
    (hσ : ((List.range n).map σ).Perm (List.range n)) (prior : Option P) :
    perpFitRoot (exactOps K) T argsort hp prior (fun i => X (σ i)) (fun i => y (σ i)) n nDim names =
      perpFitRoot (exactOps K) T argsort hp prior X y n nDim names :=
  C16_row_order (c := exactCtx T (mlPair F ml) hp X y nDim names) (hr.valid hT) σ hσ prior

/-- C18 in closed form: a constant feature is never split on and has importance 0. -/
theorem C18_closed (hT : CodeTarget F T ml post) (hr : Training hp argsort n nDim)
    (h : perpFitRoot (exactOps K) T argsort hp (some prior) X y n nDim names = .ok t)
    (d : Nat) (hd : d < nDim) (hconst : ∀ i < n, ∀ j < n, X i d = X j d) :
    (∀ addr i sp l b c1 c2, nodeAt t addr = some (.split i sp l b c1 c2) → sp.dim ≠ d) ∧
    (t.isLeaf = false → (perpFeatureImportance nDim t)[d]? = some (some 0)) := by
  have hv := hr.valid hT (X := X) (y := y) (names := names)
  refine ⟨fun addr i sp l b c1 c2 hu => C18_constant_unused hv h d hconst addr i sp l b c1 c2 hu, fun hl =>
    C18_constant_importance hv h d hd hconst ?_⟩
  cases t with
  | leaf i => cases hl
  | split i sp l b c1 c2 => simp [splits]

/-- C19, C45 in closed form: every node has the constructor parameters and its depth as level, and a
split's feature name is the name at its dimension. -/
theorem C19_closed (hT : CodeTarget F T ml post) (hr : Training hp argsort n nDim)
    (h : perpFitRoot (exactOps K) T argsort hp (some prior) X y n nDim names = .ok t)
    (addr : List Bool) (u : PNode K K K P) (hu : nodeAt t addr = some u) :
    u.info.hp = hp ∧ u.info.level = addr.length ∧
    ∀ i sp l b c1 c2, u = .split i sp l b c1 c2 → names[sp.dim]? = some sp.name := by
  have hv := hr.valid hT (X := X) (y := y) (names := names)
  refine ⟨(C19_hyper hv hr.someRow h addr u hu).1, (C19_hyper hv hr.someRow h addr u hu).2, ?_⟩
  rintro i sp l b c1 c2 rfl
  exact C45_feature_names hv h addr i sp l b c1 c2 hu

/-- C21 in closed form: with `prune=True` no split is left whose children are leaves with the same
prediction, and pruning again changes nothing. -/
theorem C21_closed [DecidableEq O] (hT : CodeTarget F T ml post) (hr : Training hp argsort n nDim)
    (hpr : hp.prune = true)
    (h : perpFitRoot (exactOps K) T argsort hp (some prior) X y n nDim names = .ok t) :
    FullyPruned T.predictLeaf t ∧ prune T.predictLeaf t = .ok t :=
  C21_fit_fullyPruned (c := exactCtx T (mlPair F ml) hp X y nDim names) (hr.valid hT) hpr h

/-- C24 in closed form: every node of the pruned tree is a node of the unpruned tree, with the same rows
and statistics. -/
theorem C24_closed (hT : CodeTarget F T ml post) (hr : Training hp argsort n nDim) {t0 t1 : PNode K K K P}
    (h0 : perpFitRoot (exactOps K) T argsort { hp with prune := false } (some prior) X y n nDim names = .ok t0)
    (h1 : perpFitRoot (exactOps K) T argsort { hp with prune := true } (some prior) X y n nDim names = .ok t1)
    (addr : List Bool) (u : PNode K K K P) (hu : nodeAt t1 addr = some u) :
    ∃ u0, nodeAt t0 addr = some u0 ∧ rowsAt X t1 n addr = rowsAt X t0 n addr ∧
      u.info.nData = (rowsAt X t0 n addr).length ∧ u.info.nData = u0.info.nData ∧
      u.info.posterior = u0.info.posterior ∧ u.info.prior = u0.info.prior ∧ u.info.level = u0.info.level := by
  obtain ⟨u0, hu0, e1, e2, e3, e4, e5, e6, -⟩ :=
    C24_pruned_nodes (c := exactCtx T (mlPair F ml) hp X y nDim names) (hr.valid hT) hr.someRow h0 h1 addr u hu
  rw [routed_eq] at e5 e6
  rw [routed_eq] at e5
  exact ⟨u0, hu0, e5, e6, e1, e2, e3, e4⟩

/-- C25 in closed form: `get_n_leaves()` and `get_depth()` are the number of leaves and the height. -/
theorem C25_closed (hT : CodeTarget F T ml post) (hr : Training hp argsort n nDim)
    (h : perpFitRoot (exactOps K) T argsort hp (some prior) X y n nDim names = .ok t) :
    t.getNLeaves = leaves t ∧ t.getDepth = height t ∧ t.getNLeaves ≤ 2 ^ t.getDepth := by
  obtain ⟨h1, h2, h3, -⟩ := C25_depth_leaves (c := exactCtx T (mlPair F ml) hp X y nDim names) (hr.valid hT)
    hr.someRow h
  exact ⟨h1, h2, h3⟩

/-- C26 in closed form: the importances are the shares of the log-likelihood gains. -/
theorem C26_closed (hT : CodeTarget F T ml post) (hr : Training hp argsort n nDim)
    (h : perpFitRoot (exactOps K) T argsort hp (some prior) X y n nDim names = .ok t) :
    (perpFeatureImportance nDim t).length = nDim ∧
    (t.isLeaf = true → ∀ v ∈ perpFeatureImportance nDim t, v = none) ∧
    (t.isLeaf = false → 0 < gain (splits t) ∧ ∃ w : List K,
      perpFeatureImportance nDim t = w.map some ∧ w.sum = 1 ∧ (∀ v ∈ w, 0 ≤ v ∧ v ≤ 1) ∧
      ∀ d < nDim, w[d]? = some (gainOn d (splits t) / gain (splits t))) := by
  obtain ⟨-, h2, h3, h4⟩ := C26_importance (c := exactCtx T (mlPair F ml) hp X y nDim names) (hr.valid hT) h
  refine ⟨h2, fun hl => h3 ?_, fun hl => h4 ?_⟩
  · cases t with
    | leaf i => rfl
    | split i sp l b c1 c2 => cases hl
  · cases t with
    | leaf i => cases hl
    | split i sp l b c1 c2 => simp [splits]

end

theorem realSort_sorts (xs : List ℝ) : (realSort xs).Perm (List.range xs.length) ∧
    (realSort xs).Pairwise fun i j => ∀ a b, xs[i]? = some a → xs[j]? = some b → a ≤ b :=
  ⟨realSort_spec.perm xs fun _ _ => trivial, (realSort_spec.sorted xs fun _ _ => trivial).imp
    fun h a b ha hb => by simpa [exactOps] using h a b ha hb⟩

/-- The closed theorems apply to a classification fit with two splits. -/
example : let R := rowsAt (castCtx sampleCtx).X (castTree sampleHp sampleTree) 12 []
    ∃ a c : ℝ, ((3 / 2 : ℚ) : ℝ) = (a + c) / 2 ∧ IsCut 0 (castCtx sampleCtx).X R 0 a c ∧
      stayScore realFns (dirichletMarginal realFns) (castHp sampleHp) (castCtx sampleCtx).y (castL [1, 1]) 0 R <
        perpCutScore realFns (dirichletMarginal realFns) (castHp sampleHp) (castCtx sampleCtx).X
          (castCtx sampleCtx).y 2 (castL [1, 1]) 0 R 0 a := by
  intro R
  have hr : Training (castHp sampleHp) realSort 12 2 :=
    ⟨by simp [castHp, sampleHp], realSort_sorts, by decide, by decide, by decide⟩
  obtain ⟨p, hp, hl, hlt, -, ⟨a, c, hc, hv, hb⟩, -⟩ :=
    C13_closed (CodeTarget.classification (F := realFns)) hr sampleReal_fit [] _ _ _ _ _ _ (nodeAt_nil _)
  have hp' : p = castL [1, 1] := (Option.some.inj hp).symm
  subst hp'
  refine ⟨a, c, hv, ?_, ?_⟩
  · have e : (castHp sampleHp).splitPrecision = 0 := by simp [castHp, sampleHp]
    rw [e] at hc
    exact hc
  · rw [hl, hb] at hlt
    exact hlt

/-- They also apply to a regression fit over the reals that splits. -/
example (p : NG ℝ) : ∃ a c : ℝ, (1 : ℝ) / 2 * (0 + 1) = (a + c) / 2 ∧
    IsCut 0 (regCtx2 p 3 4 0 false).X (rowsAt (regCtx2 p 3 4 0 false).X (regTree2 p 3 4 0 false) 2 []) 0 a c := by
  have hr : Training (regCtx2 p 3 4 0 false).hp realSort 2 1 :=
    ⟨le_refl _, realSort_sorts, by decide, by decide, by decide⟩
  obtain ⟨-, -, -, -, -, ⟨a, c, hc, hv, -⟩, -⟩ := C13_closed (CodeTarget.regression (F := realFns)) hr
    (regTree2_fit p 3 4 0) [] _ _ _ _ _ _ (nodeAt_nil _)
  exact ⟨a, c, hv, hc⟩

end BT
