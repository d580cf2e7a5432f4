import Verif.Spec.TrainError
import Verif.Props.DefaultPrior
import Verif.Props.HyperClosed

/-!
# Errors on the training rows: C107, C108
-/

namespace BT
open Spec

set_option linter.unusedSectionVars false

/-- Every row is accepted by one of the two tests of a split. -/
def RoutesAll {Sp Row : Type} (rt : Router Sp Row) : Prop :=
  ∀ sp x, rt.goes1 sp x = true ∨ rt.goes2 sp x = true

theorem perp_routesAll {K : Type} [Field K] [LinearOrder K] : RoutesAll (perpRouter (exactOps K)) := by
  intro sp x
  simp only [perpRouter, exactOps, decide_eq_true_eq]
  exact lt_or_ge _ _

theorem hyper_routesAll : RoutesAll (hyperRouter (K := ℝ)) := by
  intro sp x
  simp only [hyperRouter, decide_eq_true_eq]
  exact lt_or_ge _ _

section
variable {Sp S K P O Row M : Type} [AddCommGroup M]

/-- Sum over the rows of a quantity of their leaf. -/
def leafSum (rt : Router Sp Row) (t : Node Sp S K P) (X : Nat → Row) (g : Info K P → Nat → M) (R : List Nat) : M :=
  (R.map fun r => match walk rt t (X r) with
    | some l => g l r
    | none => 0).sum

theorem sum_partition (p : Nat → Bool) (h : Nat → M) (R : List Nat) :
    (R.map h).sum = ((R.filter p).map h).sum + ((R.filter fun r => !p r).map h).sum := by
  induction R with
  | nil => simp
  | cons r R ih =>
    cases hp : p r <;> simp [hp, ih, add_assoc, add_left_comm]

/-- A bound that holds leaf by leaf holds for all rows together. -/
theorem leafSum_le [PartialOrder M] [IsOrderedAddMonoid M] (rt : Router Sp Row) (hall : RoutesAll rt)
    (t : Node Sp S K P) (X : Nat → Row) (g : Info K P → Nat → M) (h : Nat → M) (pen : M) (R : List Nat)
    (hl : ∀ addr i, nodeAt t addr = some (.leaf i) →
      ((R.filter fun r => passes rt t addr (X r)).map h).sum ≤
        ((R.filter fun r => passes rt t addr (X r)).map (g i)).sum + pen) :
    (R.map h).sum ≤ leafSum rt t X g R + leaves t • pen := by
  induction t generalizing R with
  | leaf i =>
    have := hl [] i rfl
    simpa [passes, leafSum, walk, leaves] using this
  | split i sp l b c1 c2 ih1 ih2 =>
    have e1 := ih1 (R.filter fun r => rt.goes1 sp (X r)) fun addr j hj => by
      have := hl (false :: addr) j (by simpa [nodeAt] using hj)
      rw [List.filter_filter]
      have e : ∀ r, passes rt (.split i sp l b c1 c2) (false :: addr) (X r) =
          (passes rt c1 addr (X r) && rt.goes1 sp (X r)) := by
        intro r
        cases h1 : rt.goes1 sp (X r) <;> simp [passes, h1]
      simpa only [e] using this
    have e2 := ih2 (R.filter fun r => !rt.goes1 sp (X r)) fun addr j hj => by
      have := hl (true :: addr) j (by simpa [nodeAt] using hj)
      rw [List.filter_filter]
      have e : ∀ r, passes rt (.split i sp l b c1 c2) (true :: addr) (X r) =
          (passes rt c2 addr (X r) && !rt.goes1 sp (X r)) := by
        intro r
        cases h1 : rt.goes1 sp (X r) with
        | true => simp [passes, h1]
        | false =>
          have h2 := (hall sp (X r)).resolve_left (by simp [h1])
          simp [passes, h1, h2]
      simpa only [e] using this
    have s1 : leafSum rt (.split i sp l b c1 c2) X g (R.filter fun r => rt.goes1 sp (X r)) =
        leafSum rt c1 X g (R.filter fun r => rt.goes1 sp (X r)) := by
      unfold leafSum
      congr 1
      refine List.map_congr_left fun r hr => ?_
      have h1 : rt.goes1 sp (X r) = true := by simpa using (List.mem_filter.1 hr).2
      simp [walk, h1]
    have s2 : leafSum rt (.split i sp l b c1 c2) X g (R.filter fun r => !rt.goes1 sp (X r)) =
        leafSum rt c2 X g (R.filter fun r => !rt.goes1 sp (X r)) := by
      unfold leafSum
      congr 1
      refine List.map_congr_left fun r hr => ?_
      have h1 : rt.goes1 sp (X r) = false := by simpa using (List.mem_filter.1 hr).2
      have h2 := (hall sp (X r)).resolve_left (by simp [h1])
      simp [walk, h1, h2]
    have s : leafSum rt (.split i sp l b c1 c2) X g R =
        leafSum rt c1 X g (R.filter fun r => rt.goes1 sp (X r)) +
          leafSum rt c2 X g (R.filter fun r => !rt.goes1 sp (X r)) := by
      rw [← s1, ← s2]
      exact sum_partition _ _ _
    rw [sum_partition (fun r => rt.goes1 sp (X r)) h R, s, leaves, add_smul]
    calc _ ≤ _ := add_le_add e1 e2
      _ = _ := by abel

theorem length_filter_eq_sum (p : Nat → Prop) [DecidablePred p] (R : List Nat) :
    ((R.filter fun r => decide (p r)).length : ℤ) = (R.map fun r => if p r then (1 : ℤ) else 0).sum := by
  induction R with
  | nil => rfl
  | cons r R ih =>
    by_cases h : p r <;> simp [h, ← ih, add_comm]

end

section
variable {K : Type} [Field K] [LinearOrder K] [IsStrictOrderedRing K]

/-- The first largest entry of the Dirichlet posterior has at least as many members as any class with the
largest prior weight. -/
theorem leaf_majority {prior : List K} {ys : List K} {j : Nat} {a : K} (hj : prior[j]? = some a)
    (hmax : ∀ b ∈ prior, b ≤ a) : count ys j ≤ count ys (argmax (dirichletPosterior prior ys)) := by
  have hne : dirichletPosterior prior ys ≠ [] := by
    intro h0
    have : (dirichletPosterior prior ys).length = 0 := by rw [h0]; rfl
    rw [dirichletPosterior, List.length_mapIdx] at this
    rw [List.length_eq_zero_iff.1 this] at hj
    cases hj
  obtain ⟨v, hv, hle, -⟩ := argmax_spec hne
  generalize argmax (dirichletPosterior prior ys) = k at hv ⊢
  have h1 := hle (a + (count ys j : K)) (List.mem_of_getElem? (i := j) (by
    rw [dirichletPosterior, List.getElem?_mapIdx, hj]; rfl))
  rw [dirichletPosterior, List.getElem?_mapIdx] at hv
  cases hb : prior[k]? with
  | none => rw [hb] at hv; cases hv
  | some b =>
    rw [hb] at hv
    obtain rfl : b + (count ys k : K) = v := by simpa using hv
    have h2 := hmax b (List.mem_of_getElem? hb)
    have : (count ys j : K) ≤ (count ys k : K) := by linarith
    exact_mod_cast this

theorem count_map (y : Nat → K) (R : List Nat) (k : Nat) :
    count (R.map y) k = (R.filter fun r => decide (y r = (k : K))).length := by
  rw [count, List.filter_map, List.length_map]
  rfl

/-- Classification, any routing: if every leaf carries the Dirichlet posterior of its rows. -/
theorem correct_ge {Sp S Row : Type} (rt : Router Sp Row) (hex : Exclusive rt) (hall : RoutesAll rt)
    (t : Node Sp S K (List K)) (X : Nat → Row) (y : Nat → K) (n : Nat) (prior : List K)
    (hpost : ∀ addr i, nodeAt t addr = some (.leaf i) →
      i.posterior = dirichletPosterior prior
        (((List.range n).filter fun r => passes rt t addr (X r)).map y))
    {T : Target K (List K) S (List K)} (hT : T.predictLeaf = clsPredictLeaf)
    {j : Nat} {a : K} (hj : prior[j]? = some a) (hmax : ∀ b ∈ prior, b ≤ a) :
    members y n (j : K) ≤ correct (predict rt T t X n) y n := by
  have key := leafSum_le (M := ℤ) rt hall t X
    (fun i r => if y r = clsPredictLeaf i.posterior then 1 else 0) (fun r => if y r = (j : K) then 1 else 0) 0
    (List.range n) fun addr i hi => by
      rw [← length_filter_eq_sum (fun r => y r = (j : K)), ← length_filter_eq_sum
        (fun r => y r = clsPredictLeaf i.posterior), add_zero, ← count_map, hpost addr i hi]
      unfold clsPredictLeaf
      rw [← count_map]
      exact_mod_cast leaf_majority hj hmax
  rw [smul_zero, add_zero, ← length_filter_eq_sum (fun r => y r = (j : K))] at key
  have e : leafSum (M := ℤ) rt t X (fun i r => if y r = clsPredictLeaf i.posterior then 1 else 0) (List.range n) ≤
      (correct (predict rt T t X n) y n : ℤ) := by
    unfold correct leafSum
    rw [length_filter_eq_sum (fun i => (predict rt T t X n)[i]? = some (y i))]
    refine List.sum_le_sum fun r hr => ?_
    rw [(C01_predict_is_walk rt hex T t X n).2 r (List.mem_range.1 hr)]
    cases walk rt t (X r) with
    | none => simp only; split <;> simp
    | some l => simp only [hT, Option.some.injEq, eq_comm (a := y r)]; exact le_refl _
  have := key.trans e
  unfold members
  exact_mod_cast this

theorem sum_sq_sub (m : K) (ys : List K) :
    (ys.map fun v => (v - m) ^ 2).sum = (ys.map fun v => v ^ 2).sum - 2 * m * ys.sum + ys.length * m ^ 2 := by
  induction ys with
  | nil => simp
  | cons v ys ih => simp only [List.map_cons, List.sum_cons, ih, List.length_cons]; push_cast; ring

/-- The posterior mean minimises the squared error plus `κ` times the squared distance to the prior mean. -/
theorem leaf_ridge {p : NG K} (hk : 0 ≤ p.kappa) {ys : List K} (hne : ys ≠ []) (m : K) :
    (ys.map fun v => (v - (Spec.ngPosterior p ys).mu) ^ 2).sum + p.kappa * ((Spec.ngPosterior p ys).mu - p.mu) ^ 2 +
        (p.kappa + ys.length) * (m - (Spec.ngPosterior p ys).mu) ^ 2 =
      (ys.map fun v => (v - m) ^ 2).sum + p.kappa * (m - p.mu) ^ 2 := by
  have hlen : (0 : K) < ys.length := by exact_mod_cast List.length_pos_of_ne_nil hne
  have hpos : 0 < p.kappa + ys.length := by linarith
  have hmu : (p.kappa + ys.length) * (Spec.ngPosterior p ys).mu = p.kappa * p.mu + ys.sum := by
    simp only [Spec.ngPosterior, mean]
    field_simp
  rw [sum_sq_sub, sum_sq_sub]
  generalize (Spec.ngPosterior p ys).mu = q at *
  linear_combination (2 * (q - m)) * hmu

theorem sum_neg_map (f : Nat → K) (R : List Nat) : (R.map fun r => -f r).sum = -(R.map f).sum := by
  induction R with
  | nil => simp
  | cons r R ih => simp only [List.map_cons, List.sum_cons, ih]; ring

theorem sum_neg_sq (y : Nat → K) (q : K) (R : List Nat) :
    (R.map fun r => -(y r - q) ^ 2).sum = -((R.map y).map fun v => (v - q) ^ 2).sum := by
  rw [List.map_map]
  exact sum_neg_map _ R

theorem walk_some {Sp S K P Row : Type} {rt : Router Sp Row} (hall : RoutesAll rt) (t : Node Sp S K P) (x : Row) :
    ∃ l, walk rt t x = some l := by
  induction t with
  | leaf i => exact ⟨i, rfl⟩
  | split i sp l b c1 c2 ih1 ih2 =>
    simp only [walk]
    by_cases h1 : rt.goes1 sp x = true
    · simpa only [h1, if_true] using ih1
    · rw [if_neg h1, if_pos ((hall sp x).resolve_left h1)]
      exact ih2

/-- Regression, any routing: if every leaf has rows and carries the posterior of its rows. -/
theorem squared_le {Sp S Row : Type} (rt : Router Sp Row) (hex : Exclusive rt) (hall : RoutesAll rt)
    (t : Node Sp S K (NG K)) (X : Nat → Row) (y : Nat → K) (n : Nat) (p : NG K) (hk : 0 ≤ p.kappa)
    (hpost : ∀ addr i, nodeAt t addr = some (.leaf i) →
      ((List.range n).filter fun r => passes rt t addr (X r)) ≠ [] ∧
      i.posterior = Spec.ngPosterior p (((List.range n).filter fun r => passes rt t addr (X r)).map y))
    {T : Target K (NG K) S K} (hT : T.predictLeaf = fun p => p.mu) (m : K) :
    squaredError (predict rt T t X n) y n ≤ constantError m y n + leaves t * (p.kappa * (m - p.mu) ^ 2) := by
  have key := leafSum_le (M := K) rt hall t X (fun i r => -(y r - i.posterior.mu) ^ 2)
    (fun r => -(y r - m) ^ 2) (p.kappa * (m - p.mu) ^ 2) (List.range n) fun addr i hi => by
      obtain ⟨hne, hp⟩ := hpost addr i hi
      rw [hp]
      generalize (List.range n).filter (fun r => passes rt t addr (X r)) = R at hne ⊢
      have e := leaf_ridge hk (ys := R.map y) (by simpa using hne) m
      rw [sum_neg_sq, sum_neg_sq]
      have h2 : 0 ≤ p.kappa * ((Spec.ngPosterior p (R.map y)).mu - p.mu) ^ 2 := mul_nonneg hk (sq_nonneg _)
      have h3 : 0 ≤ (p.kappa + (R.map y).length) * (m - (Spec.ngPosterior p (R.map y)).mu) ^ 2 :=
        mul_nonneg (add_nonneg hk (Nat.cast_nonneg _)) (sq_nonneg _)
      linarith
  have e : leafSum (M := K) rt t X (fun i r => -(y r - i.posterior.mu) ^ 2) (List.range n) =
      -squaredError (predict rt T t X n) y n := by
    unfold squaredError leafSum
    rw [← sum_neg_map]
    congr 1
    refine List.map_congr_left fun r hr => ?_
    obtain ⟨l, hl⟩ := walk_some hall t (X r)
    rw [List.getD_eq_getElem?_getD, (C01_predict_is_walk rt hex T t X n).2 r (List.mem_range.1 hr), hl]
    simp [hT]
  have e' : ((List.range n).map fun r => -(y r - m) ^ 2).sum = -constantError m y n := by
    unfold constantError
    rw [← sum_neg_map]
  rw [e, e', nsmul_eq_mul] at key
  linarith

end

section
variable {K : Type} [Field K] [LinearOrder K] [IsStrictOrderedRing K] {F : Fns K}
  {hp : Hyper K} {argsort : List K → List Nat} {X : Nat → Nat → K} {y : Nat → K} {n nDim : Nat}
  {names : List String}

theorem follows_eq {S P : Type} (t : PNode K S K P) (addr : List Bool) (x : Nat → K) :
    follows t addr x = passes (perpRouter (exactOps K)) t addr x := by
  induction addr generalizing t with
  | nil => cases t <;> rfl
  | cons b bs ih =>
    cases t with
    | leaf i => rfl
    | split i sp l s c1 c2 =>
      simp only [follows, passes, perpRouter, exactOps, ih, decide_eq_true_eq]
      by_cases h : x sp.dim < sp.value
      · rw [if_pos h, if_pos h]
      · rw [if_neg h, if_neg h, if_pos (not_lt.1 h)]

theorem getPrior_getD (prior : Option (NG K)) (n d : Nat) : regGetPrior prior n d = prior.getD (defaultNG n) := by
  cases prior with
  | some p => rfl
  | none => exact regGetPrior_default n d

/-- C107: with `delta = 0`, a perpendicular classification tree gets at least as many training rows right as
predicting, everywhere, a class with the largest prior weight (every class, if the prior is symmetric). -/
theorem C107_perpendicular {prior : List K} {t : PNode K K K (List K)} (hr : Training hp argsort n nDim)
    (hδ : hp.delta = 0)
    (h : perpFitRoot (exactOps K) (clsTarget F) argsort hp (some prior) X y n nDim names = .ok t)
    {j : Nat} {a : K} (hj : prior[j]? = some a) (hmax : ∀ b ∈ prior, b ≤ a) :
    members y n (j : K) ≤ correct (predict (perpRouter (exactOps K)) (clsTarget F) t X n) y n := by
  refine correct_ge _ exact_exclusive perp_routesAll t X y n prior (fun addr i hi => ?_) rfl hj hmax
  have := C09_closed (CodeTarget.classification (F := F)) hr hδ h addr _ hi
  simp only [← follows_eq]
  exact this

/-- C108: with `delta = 0`, the training error of a perpendicular regression tree is at most that of any
constant prediction `m`, plus `κ (m - μ)²` for every leaf. -/
theorem C108_perpendicular {prior : Option (NG K)} {t : PNode K K K (NG K)} (hr : Training hp argsort n nDim)
    (hδ : hp.delta = 0)
    (h : perpFitRoot (exactOps K) (regTarget F) argsort hp prior X y n nDim names = .ok t)
    {p : NG K} (hp0 : p = prior.getD (defaultNG n)) (hk : 0 ≤ p.kappa) (m : K) :
    squaredError (predict (perpRouter (exactOps K)) (regTarget F) t X n) y n ≤
      constantError m y n + leaves t * (p.kappa * (m - p.mu) ^ 2) := by
  have hv := hr.valid (X := X) (y := y) (names := names) (CodeTarget.regression (F := F))
  refine squared_le _ exact_exclusive perp_routesAll t X y n p hk (fun addr i hi => ?_) rfl m
  have hpos : 0 < (Node.leaf (Sp := PSplit K) (S := K) i).info.nData :=
    (fit_inv hv hr.someRow h (fun _ => True) trivial (fun _ _ _ _ _ => trivial)
      (fun _ _ _ _ _ _ => trivial) addr _ hi).2.2.2.2
  have hrow := C08_rows_routed_back hv h addr _ hi
  have hpost := C09_regression (F := F) rfl hr.someRow hv h hδ addr _ hi
  rw [getPrior_getD, ← hp0] at hpost
  refine ⟨fun h0 => ?_, hpost⟩
  rw [hrow] at hpos
  exact absurd (List.length_eq_zero_iff.2 h0) (Nat.pos_iff_ne_zero.1 hpos)

/-- C108: in particular it is at most that of predicting the prior mean. -/
theorem C108_prior_mean {prior : Option (NG K)} {t : PNode K K K (NG K)} (hr : Training hp argsort n nDim)
    (hδ : hp.delta = 0)
    (h : perpFitRoot (exactOps K) (regTarget F) argsort hp prior X y n nDim names = .ok t)
    {p : NG K} (hp0 : p = prior.getD (defaultNG n)) (hk : 0 ≤ p.kappa) :
    squaredError (predict (perpRouter (exactOps K)) (regTarget F) t X n) y n ≤ constantError p.mu y n := by
  simpa using C108_perpendicular hr hδ h hp0 hk p.mu

end

section
variable {F : Fns ℝ} {n : Nat}

/-- C107 for hyperplane trees, whatever the search and `delta`. -/
theorem C107_hyperplane {c : HCtx ℝ (List ℝ) ℝ (List ℝ)} (hT : c.T = clsTarget F) (hA : Euclidean c.A) (hn : 0 < n)
    {prior : List ℝ} {t : HNode ℝ ℝ (List ℝ)} (h : hFitRoot c (some prior) n = .ok t)
    {j : Nat} {a : ℝ} (hj : prior[j]? = some a) (hmax : ∀ b ∈ prior, b ≤ a) :
    members c.y n (j : ℝ) ≤ correct (predict hyperRouter c.T t c.X n) c.y n := by
  refine correct_ge _ hyper_exclusive hyper_routesAll t c.X c.y n prior (fun addr i hi => ?_) (by rw [hT]; rfl) hj hmax
  have hT' : CodeTarget F c.T (dirichletMarginal F) dirichletPosterior := by rw [hT]; exact .classification
  have := (C49_closed hT' hA hn h addr _ hi).2.2
  rw [hRowsAt_eq] at this
  exact this

/-- C108 for hyperplane trees, whatever the search and `delta`. -/
theorem C108_hyperplane {c : HCtx ℝ (NG ℝ) ℝ ℝ} (hT : c.T = regTarget F) (hA : Euclidean c.A) (hn : 0 < n)
    {prior : Option (NG ℝ)} {t : HNode ℝ ℝ (NG ℝ)} (h : hFitRoot c prior n = .ok t)
    {p : NG ℝ} (hp0 : p = prior.getD (defaultNG n)) (hk : 0 ≤ p.kappa) (m : ℝ) :
    squaredError (predict hyperRouter c.T t c.X n) c.y n ≤
      constantError m c.y n + leaves t * (p.kappa * (m - p.mu) ^ 2) := by
  have hT' : CodeTarget F c.T (ngMarginal F) Spec.ngPosterior := by rw [hT]; exact .regression
  obtain ⟨t0, h0, hpred, hleaves⟩ : ∃ t0, hFitRoot c (some p) n = .ok t0 ∧
      predict hyperRouter c.T t0 c.X n = predict hyperRouter c.T t c.X n ∧ leaves t0 = leaves t := by
    cases prior with
    | some q => subst hp0; exact ⟨t, h, rfl, rfl⟩
    | none =>
      rw [C76_regression_hyperplane c hT] at h
      subst hp0
      cases h0 : hFitRoot c (some (defaultNG n)) n with
      | error e => rw [h0] at h; cases h
      | ok t0 =>
        rw [h0] at h
        obtain rfl : withRootPrior none t0 = t := by simpa [Except.map] using h
        exact ⟨t0, h0, (predict_withRootPrior _ hyper_exclusive c.T none t0 c.X n).symm, by cases t0 <;> rfl⟩
  rw [← hpred, ← hleaves]
  refine squared_le _ hyper_exclusive hyper_routesAll t0 c.X c.y n p hk (fun addr i hi => ?_) (by rw [hT]; rfl) m
  have h1 := (C49_closed hT' hA hn h0 addr _ hi).2.2
  have h2 := hRowsAt_ne_nil hT' hA hn h0 hi
  rw [hRowsAt_eq] at h1 h2
  exact ⟨h2, h1⟩

end

/-! ## The hypotheses matter -/

/-- Nothing separates rows with equal features. -/
theorem constant_leaf {P O : Type} {T : Target ℝ P ℝ O} {ml : P → List ℝ → ℝ} {post : P → List ℝ → P}
    (hT : CodeTarget realFns T ml post) {hp : Hyper ℝ} (y : Nat → ℝ) {n nDim : Nat} {names : List String}
    {prior : P} (hr : Training hp realSort n nDim) (hnames : names.length = nDim) (hδ : hp.delta = 0) :
    ∃ i, perpFitRoot (exactOps ℝ) T realSort hp (some prior) (fun _ _ => 0) y n nDim names = .ok (.leaf i) ∧
      i.posterior = post prior ((List.range n).map y) := by
  obtain ⟨t, ht⟩ := C12_closed hT hr (fun _ _ => 0) y (some prior) (names := names) hnames.ge
  cases t with
  | split i sp l b c1 c2 =>
    obtain ⟨-, -, -, -, -, ⟨a, c, ⟨⟨_, -, h1⟩, ⟨_, -, h2⟩, h3, -⟩, -⟩, -⟩ :=
      C13_closed hT hr ht [] _ _ _ _ _ _ (nodeAt_nil _)
    rw [← h1, ← h2] at h3
    exact absurd h3 (lt_irrefl _)
  | leaf i =>
    refine ⟨i, ht, ?_⟩
    have := C09_closed hT hr hδ ht [] _ (nodeAt_nil _)
    simpa [rowsAt, follows, Node.info] using this

/-- Without the condition on the class, C107 is false: a prior that favours class 0 makes the tree miss the
only training row. -/
theorem C107_prior_needed : ∃ (y : Nat → ℝ) (t : PNode ℝ ℝ ℝ (List ℝ)),
    perpFitRoot (exactOps ℝ) (clsTarget realFns) realSort ⟨1 / 2, 0, true, 0⟩ (some [3, 1]) (fun _ _ => 0) y 1 1 ["x"]
      = .ok t ∧
    correct (predict (perpRouter (exactOps ℝ)) (clsTarget realFns) t (fun _ _ => 0) 1) y 1 < members y 1 1 := by
  obtain ⟨i, h1, h2⟩ := constant_leaf (CodeTarget.classification (F := realFns)) (fun _ => 1) (n := 1) (nDim := 1)
    (hp := ⟨1 / 2, 0, true, 0⟩) (names := ["x"]) (prior := [3, 1])
    ⟨le_refl _, realSort_sorts, by decide, by decide, by decide⟩ rfl rfl
  refine ⟨fun _ => 1, _, h1, ?_⟩
  have e : argmax i.posterior = 0 := by
    rw [h2]
    simp [dirichletPosterior, count, argmax, argmaxAux]
    norm_num
  have : (predict (perpRouter (exactOps ℝ)) (clsTarget realFns) (.leaf i) (fun _ _ => 0) 1)[0]? = some 0 := by
    rw [C01_predict_descends _ _ _ _ _ Nat.one_pos]
    simp [descend, clsTarget, clsPredictLeaf, e]
  simp [correct, members, this]

/-- Against the mean of the targets, C108 is false: the training error of a regression tree without prior can
exceed that of the constant prediction `mean(y)`, i.e. the training R² can be negative. -/
theorem C108_mean_not_beaten : ∃ (y : Nat → ℝ) (t : PNode ℝ ℝ ℝ (NG ℝ)),
    perpFitRoot (exactOps ℝ) (regTarget realFns) realSort ⟨1 / 2, 0, true, 0⟩ none (fun _ _ => 0) y 2 1 ["x"]
      = .ok t ∧
    constantError (mean ((List.range 2).map y)) y 2 <
      squaredError (predict (perpRouter (exactOps ℝ)) (regTarget realFns) t (fun _ _ => 0) 2) y 2 := by
  have hr : Training (⟨1 / 2, 0, true, 0⟩ : Hyper ℝ) realSort 2 1 :=
    ⟨le_refl _, realSort_sorts, by decide, by decide, by decide⟩
  obtain ⟨i, h1, h2⟩ := constant_leaf (CodeTarget.regression (F := realFns)) (fun _ => 1) (names := ["x"])
    (prior := defaultNG 2) hr rfl rfl
  refine ⟨fun _ => 1, withRootPrior none (.leaf i), by rw [C76_regression hr, h1]; rfl, ?_⟩
  rw [predict_withRootPrior _ exact_exclusive]
  have e : i.posterior.mu = 2 / 3 := by
    rw [h2]
    simp [Spec.ngPosterior, defaultNG, mean, List.range, List.range.loop]
    norm_num
  have hp : ∀ k < 2, (predict (perpRouter (exactOps ℝ)) (regTarget realFns) (.leaf i) (fun _ _ => 0) 2)[k]? =
      some (2 / 3) := by
    intro k hk
    rw [C01_predict_descends _ _ _ _ _ hk]
    simp [descend, regTarget, e]
  simp only [squaredError, constantError, mean, List.range, List.range.loop, List.map_cons, List.map_nil,
    List.getD_eq_getElem?_getD, hp 0 (by decide), hp 1 (by decide)]
  norm_num

/-! ## The hypotheses are satisfiable -/

/-- The classification fit with two splits: every constant prediction is matched. -/
example (j : Nat) (hj : j < 2) : members (castCtx sampleCtx).y 12 (j : ℝ) ≤
    correct (predict (perpRouter (exactOps ℝ)) (clsTarget realFns) (castTree sampleHp sampleTree)
      (castCtx sampleCtx).X 12) (castCtx sampleCtx).y 12 := by
  have hr : Training (castHp sampleHp) realSort 12 2 :=
    ⟨by simp [castHp, sampleHp], realSort_sorts, by decide, by decide, by decide⟩
  refine C107_perpendicular hr (by simp [castHp, sampleHp]) sampleReal_fit (prior := castL [1, 1]) (a := 1) ?_ ?_
  · interval_cases j <;> simp [castL]
  · simp [castL]

/-- The oblique classification fit with two splits. -/
example (j : Nat) (hj : j < 2) : members (hSampleReal 0).y 9 (j : ℝ) ≤
    correct (predict hyperRouter (hSampleReal 0).T (castHTree (hSampleHp 0) (hSampleTree 0)) (hSampleReal 0).X 9)
      (hSampleReal 0).y 9 := by
  refine C107_hyperplane (F := realFns) (c := hSampleReal 0) rfl realArith_euclidean (by decide) hSampleReal_fit
    (a := 1) ?_ ?_
  · interval_cases j <;> simp [castL]
  · simp [castL]

/-- A regression fit that splits: the error is at most that of the prior mean. -/
example (p : NG ℝ) (hk : 0 ≤ p.kappa) : squaredError (predict (perpRouter (exactOps ℝ)) (regTarget realFns)
      (regTree2 p 3 4 0 false) (regCtx2 p 3 4 0 false).X 2) (regCtx2 p 3 4 0 false).y 2 ≤
    constantError p.mu (regCtx2 p 3 4 0 false).y 2 :=
  C108_prior_mean (F := realFns) (hp := (regCtx2 p 3 4 0 false).hp) (nDim := 1) (argsort := realSort)
    ⟨le_refl _, realSort_sorts, by decide, by decide, by decide⟩ rfl (regTree2_fit p 3 4 0) rfl hk

end BT
