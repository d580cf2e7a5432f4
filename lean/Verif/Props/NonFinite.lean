import Verif.Lemmas.NonFinite
import Verif.Props.Closed
import Verif.Lemmas.Cast

/-!
# C87: training data with NaN or infinite feature values

`fit` does not reject them.  It divides the rows of a node by their position in the sorted column, NaN last, and `predict`
routes them by comparing with the threshold, so that both may disagree.
-/

set_option linter.unusedSectionVars false

namespace BT
open Spec

section
variable {K P O : Type} [Field K] [LinearOrder K] [IsStrictOrderedRing K] {F : Fns K} {T : Target K P K O}
  {ml : P → List K → K} {post : P → List K → P} {hp : Hyper K} {argsort : List (XF K) → List Nat} {prior : Option P}
  {X : Nat → Nat → XF K} {y : Nat → K} {n nDim : Nat} {names : List String} {t : PNode (XF K) K K P}

/-- What is assumed of the training data, whose feature values are arbitrary. -/
structure AnyTraining (hp : Hyper K) (argsort : List (XF K) → List Nat) (n nDim : Nat) : Prop where
  precision : 0 ≤ hp.splitPrecision
  sort : ∀ xs, (argsort xs).Perm (List.range xs.length) ∧
    (argsort xs).Pairwise fun i j => ∀ a b, xs[i]? = some a → xs[j]? = some b → XF.sortLe a b = true
  rows : n ≤ 2 ^ 64
  dims : 0 < nDim

/-- The training situation with the comparisons of `trainedLeft`. -/
def anyCtx (T : Target K P K O) (pair : PairScore K P K) (hp : Hyper K) (X : Nat → Nat → XF K) (y : Nat → K)
    (nDim : Nat) (names : List String) : Ctx (XF K) K P K O where
  o := sideOps K
  T := T
  pair := pair
  hp := hp
  X := X
  y := y
  nDim := nDim
  names := names

theorem AnyTraining.valid (hT : CodeTarget F T ml post) (h : AnyTraining hp argsort n nDim) :
    Valid (fun _ => True) (anyCtx T (mlPair F ml) hp X y nDim names) argsort n :=
  ⟨side_lawful h.precision, hT.textbook.lawful, ⟨fun xs _ => (h.sort xs).1, fun xs _ => (h.sort xs).2⟩, h.dims, h.rows,
    fun _ _ _ _ => trivial⟩

theorem anyFit (pair : PairScore K P K) : fitIn (anyCtx T pair hp X y nDim names) argsort prior n =
    perpFitRoot (xfOps K) T argsort hp prior X y n nDim names :=
  perpFitRoot_ops (o := xfOps K) (o' := sideOps K) rfl rfl T argsort hp prior X y n nDim names

/-- `fit` returns a tree whatever the feature values. -/
theorem C87_terminates (hT : CodeTarget F T ml post) (hr : AnyTraining hp argsort n nDim) (hn : nDim ≤ names.length) :
    ∃ t, perpFitRoot (xfOps K) T argsort hp prior X y n nDim names = .ok t := by
  obtain ⟨t, ht⟩ := C12_fit_terminates (hr.valid hT (X := X) (y := y) (names := names)) prior hn
  exact ⟨t, by rw [← anyFit]; exact ht⟩

/-- Which rows a node was trained on, whatever the feature values: `n_data_` is the number of rows on its side of the
thresholds above it in the sense of `trainedLeft`. -/
theorem C87_trained (hT : CodeTarget F T ml post) (hr : AnyTraining hp argsort n nDim)
    (h : perpFitRoot (xfOps K) T argsort hp prior X y n nDim names = .ok t)
    (addr : List Bool) (u : PNode (XF K) K K P) (hu : nodeAt t addr = some u) :
    u.info.nData = (trainedAt X t n addr).length := by
  rw [← anyFit (mlPair F ml)] at h
  exact C08_rows_routed_back (hr.valid hT) h addr u hu

/-- With `delta = 0` the posterior of a node is that of the targets of these rows. -/
theorem C87_posterior (hT : CodeTarget F T ml post) (hr : AnyTraining hp argsort n nDim) (hδ : hp.delta = 0) (p : P)
    (h : perpFitRoot (xfOps K) T argsort hp (some p) X y n nDim names = .ok t)
    (addr : List Bool) (u : PNode (XF K) K K P) (hu : nodeAt t addr = some u) :
    u.info.posterior = T.posterior ((trainedAt X t n addr).map y) p 1 := by
  rw [← anyFit (mlPair F ml)] at h
  have := C09_posteriors (hr.valid hT) h hδ addr u hu
  rw [(hr.valid hT (X := X) (y := y) (names := names)).target.getPrior_some] at this
  exact this

/-- Thresholds: without `-inf` in the data they are numbers or `+inf`. -/
theorem C87_thresholds (hT : CodeTarget F T ml post) (hr : AnyTraining hp argsort n nDim)
    (hX : ∀ i < n, ∀ d < nDim, X i d ≠ .ninf)
    (h : perpFitRoot (xfOps K) T argsort hp prior X y n nDim names = .ok t)
    (addr : List Bool) (i : Info K P) (sp : PSplit (XF K)) (l s : K) (c1 c2 : PNode (XF K) K K P)
    (hu : nodeAt t addr = some (.split i sp l s c1 c2)) : sp.value ≠ .ninf ∧ sp.value ≠ .nan := by
  rw [← anyFit (mlPair F ml)] at h
  have hv := hr.valid hT (X := X) (y := y) (names := names)
  obtain ⟨par', pa', u0, hB, -, hs, -⟩ := fit_node hv h hu
  obtain ⟨d1, d2, rfl, -⟩ := hs _ _ _ _ _ _ rfl
  cases hB with
  | split _ _ _ _ d cut name _ _ hdv hd hcut hgain hmax hfd hfc hname h1 h2 =>
    obtain ⟨⟨r, hr', e⟩, -, -, -, hle, -, hg, -⟩ := cut_values hv.ops (fun _ _ => trivial) hcut
    have hlt : r < n := List.mem_range.1 (List.mem_filter.1 hr').1
    show (xfOps K).mid cut.1 cut.2 ≠ _ ∧ (xfOps K).mid cut.1 cut.2 ≠ _
    rcases xf_gap hr.precision hle hg with ⟨x, y, -, -, -, e'⟩ | ⟨x, -, -, e'⟩ | ⟨y, e', -⟩ | ⟨e', -⟩
    · rw [e']; simp
    · rw [e']; simp
    · exact absurd (e.trans e') (hX r hlt d hd)
    · exact absurd (e.trans e') (hX r hlt d hd)

theorem passes_nan {t : PNode (XF K) K K P} (ht : ∀ addr i sp l s c1 c2, nodeAt t addr = some (.split i sp l s c1 c2) →
    sp.value ≠ XF.ninf ∧ sp.value ≠ XF.nan) (addr : List Bool) (x : Nat → XF K) :
    passes (⟨fun sp x => XF.lt (x sp.dim) sp.value, fun sp x => XF.ge (x sp.dim) sp.value⟩ :
      Router (PSplit (XF K)) (Nat → XF K)) t addr x = true ↔
    passes (⟨fun sp x => trainedLeft sp.value (x sp.dim), fun sp x => !trainedLeft sp.value (x sp.dim)⟩ :
      Router (PSplit (XF K)) (Nat → XF K)) t addr x = true ∧ NoNaNAbove t addr x := by
  induction t generalizing addr with
  | leaf i =>
    cases addr with
    | nil =>
      rw [passes, passes]
      exact ⟨fun _ => ⟨rfl, fun p b q h => absurd h (by simp)⟩, fun _ => rfl⟩
    | cons b bs =>
      rw [passes, passes]
      simp
  | split i sp l s c1 c2 ih1 ih2 =>
    cases addr with
    | nil =>
      rw [passes, passes]
      exact ⟨fun _ => ⟨rfl, fun p b q h => absurd h (by simp)⟩, fun _ => rfl⟩
    | cons b bs =>
      have ih1 := ih1 fun addr i sp l b c1 c2 h => ht (false :: addr) i sp l b c1 c2 (by simpa [nodeAt] using h)
      have ih2 := ih2 fun addr i sp l b c1 c2 h => ht (true :: addr) i sp l b c1 c2 (by simpa [nodeAt] using h)
      obtain ⟨v1, v2⟩ := ht [] i sp l s c1 c2 rfl
      have hno : NoNaNAbove (.split i sp l s c1 c2) (b :: bs) x ↔
          x sp.dim ≠ .nan ∧ NoNaNAbove (if b then c2 else c1) bs x := by
        constructor
        · intro h
          refine ⟨h [] b bs rfl i sp l s c1 c2 rfl, fun p b' q e i' sp' l' s' d1 d2 hu => ?_⟩
          refine h (b :: p) b' q (by rw [e]; rfl) i' sp' l' s' d1 d2 ?_
          cases b <;> simpa [nodeAt] using hu
        · rintro ⟨h0, h⟩ p b' q e i' sp' l' s' d1 d2 hu
          cases p with
          | nil =>
            rw [nodeAt, Option.some.injEq] at hu
            cases hu
            exact h0
          | cons b'' p =>
            rw [List.cons_append, List.cons.injEq] at e
            obtain ⟨rfl, e⟩ := e
            refine h p b' q e i' sp' l' s' d1 d2 ?_
            cases b <;> simpa [nodeAt] using hu
      rw [hno]
      by_cases hx : x sp.dim = .nan
      · obtain ⟨g1, g2⟩ := (router_agrees v1 v2 (x sp.dim)).2 hx
        simp only [passes, g1, g2]
        simp [hx]
      · obtain ⟨g1, g2⟩ := (router_agrees v1 v2 (x sp.dim)).1 hx
        rcases Bool.eq_false_or_eq_true (trainedLeft sp.value (x sp.dim)) with hl | hl <;> rw [hl] at g1 g2 <;>
          cases b <;> simp [passes, g1, g2, hl, hx, ih1, ih2]

/-- Without `-inf` in the training data, `predict` routes to a node exactly those of its training rows which have no NaN
in a feature split above it. -/
theorem C87_missing_partial (hT : CodeTarget F T ml post) (hr : AnyTraining hp argsort n nDim)
    (hX : ∀ i < n, ∀ d < nDim, X i d ≠ .ninf)
    (h : perpFitRoot (xfOps K) T argsort hp prior X y n nDim names = .ok t) (addr : List Bool) (r : Nat) :
    r ∈ predictedAt X t n addr ↔ r ∈ trainedAt X t n addr ∧ NoNaNAbove t addr (X r) := by
  unfold predictedAt trainedAt
  rw [List.mem_filter, List.mem_filter, passes_nan (C87_thresholds hT hr hX h), and_assoc]

/-- With numbers and `+inf` only, `n_data_` is the number of training rows which `predict` routes to the node. -/
theorem C87_infinite_partial (hT : CodeTarget F T ml post) (hr : AnyTraining hp argsort n nDim)
    (hX : ∀ i < n, ∀ d < nDim, X i d ≠ .ninf) (hnan : ∀ i < n, ∀ d < nDim, X i d ≠ .nan)
    (h : perpFitRoot (xfOps K) T argsort hp prior X y n nDim names = .ok t)
    (addr : List Bool) (u : PNode (XF K) K K P) (hu : nodeAt t addr = some u) :
    u.info.nData = (predictedAt X t n addr).length := by
  rw [C87_trained hT hr h addr u hu]
  congr 1
  unfold predictedAt trainedAt
  refine List.filter_congr fun r hr' => Bool.eq_iff_iff.2 ?_
  rw [passes_nan (C87_thresholds hT hr hX h)]
  refine ⟨fun h0 => ⟨h0, fun p b q e i sp l s c1 c2 hp => ?_⟩, fun h0 => h0.1⟩
  refine hnan r (List.mem_range.1 hr') sp.dim ?_
  have h' := h
  rw [← anyFit (mlPair F ml)] at h'
  obtain ⟨par', pa', u0, hB, -, hs, -⟩ := fit_node (hr.valid hT) h' hp
  obtain ⟨d1, d2, rfl, -⟩ := hs _ _ _ _ _ _ rfl
  cases hB with
  | split _ _ _ _ d cut name _ _ hdv hd => exact hd

/-- Missing values cost rows only: in general no more rows are routed to a node than it was trained on. -/
theorem C87_fewer_partial (hT : CodeTarget F T ml post) (hr : AnyTraining hp argsort n nDim)
    (hX : ∀ i < n, ∀ d < nDim, X i d ≠ .ninf)
    (h : perpFitRoot (xfOps K) T argsort hp prior X y n nDim names = .ok t)
    (addr : List Bool) (u : PNode (XF K) K K P) (hu : nodeAt t addr = some u) :
    (predictedAt X t n addr).length ≤ u.info.nData := by
  rw [C87_trained hT hr h addr u hu]
  unfold predictedAt trainedAt
  refine (List.monotone_filter_right _ fun r hr' => ?_).length_le
  exact ((passes_nan (C87_thresholds hT hr hX h) addr (X r)).1 hr').1

end

section witness

def oddHp : Hyper ℚ := ⟨9 / 10, 0, false, 0⟩

/-- Eight rows with one feature, the first four of class 0. -/
def oddCtx (col : List (XF ℚ)) : Ctx (XF ℚ) ℚ (List ℚ) ℚ (List ℚ) where
  o := sideOps ℚ
  T := probTarget ℚ
  pair := probPair
  hp := oddHp
  X := fun i _ => col.getD i (.fin 0)
  y := fun i => if i < 4 then 0 else 1
  nDim := 1
  names := ["a"]

def oddTree (col : List (XF ℚ)) : PNode (XF ℚ) ℚ ℚ (List ℚ) :=
  ((fitIn (oddCtx col) (insArgsort (sideOps ℚ).le) (some [1, 1]) 8).toOption).getD
    (.leaf ⟨oddHp, none, 0, none, 0, []⟩)

/-- Numbers and one NaN; `-inf` and numbers; `-inf` and `+inf`. -/
def oddNaN : List (XF ℚ) := [.fin 0, .fin 0, .fin 0, .fin 0, .fin 1, .fin 1, .fin 1, .nan]
def oddLow : List (XF ℚ) := [.ninf, .ninf, .ninf, .ninf, .fin 1, .fin 1, .fin 1, .fin 1]
def oddBoth : List (XF ℚ) := [.ninf, .ninf, .ninf, .ninf, .pinf, .pinf, .pinf, .pinf]
/-- Numbers and `+inf`. -/
def oddHigh : List (XF ℚ) := [.fin 0, .fin 0, .fin 0, .fin 0, .pinf, .pinf, .pinf, .pinf]

/-- A node of the tree over the reals: its size and the number of rows routed to it. -/
def HasNode (col : List (XF ℚ)) (addr : List Bool) (trained predicted : Nat) : Prop :=
  fitIn (oddCtx col) (insArgsort (sideOps ℚ).le) (some [1, 1]) 8 = .ok (oddTree col) ∧
  (nodeAt (oddTree col) addr).map (fun u => u.info.nData) = some trained ∧
  (predictedAt (oddCtx col).X (oddTree col) 8 addr).length = predicted

instance (col : List (XF ℚ)) (addr : List Bool) (a b : Nat) : Decidable (HasNode col addr a b) := by
  unfold HasNode; infer_instance

theorem predictedAt_cast (hp : Hyper ℚ) (X : Nat → Nat → XF ℚ) (t : PNode (XF ℚ) ℚ ℚ (List ℚ)) (n : Nat)
    (addr : List Bool) :
    predictedAt (fun i d => castXF (X i d)) (castXTree hp t) n addr = predictedAt X t n addr := by
  unfold predictedAt
  refine List.filter_congr fun r _ => ?_
  exact passes_map (o := xfOps ℚ) (o' := xfOps ℝ) (castHp hp) (fun _ v => castXF v) castL
    (fun (s : ℚ) => Real.log (s : ℝ))
    (fun d a v => by
      show XF.lt (castXF a) (castXF v) = XF.lt a v
      cases a <;> cases v <;> simp [castXF, XF.lt])
    (fun d a v => by
      show XF.ge (castXF a) (castXF v) = XF.ge a v
      cases a <;> cases v <;> simp [castXF, XF.ge]) (X r) t addr

theorem oddReal {col : List (XF ℚ)} {addr : List Bool} {a b : Nat} (h : HasNode col addr a b)
    {argsort : List (XF ℝ) → List Nat} (hr : AnyTraining (castHp oddHp) argsort 8 1) :
    ∃ t, perpFitRoot (xfOps ℝ) (clsTarget realFns) argsort (castHp oddHp) (some (castL [1, 1]))
        (fun i _ => castXF (col.getD i (.fin 0))) (fun i => if i < 4 then 0 else 1) 8 1 ["a"] = .ok t ∧
      ∃ u, nodeAt t addr = some u ∧ u.info.nData = a ∧
        (predictedAt (fun i _ => castXF (col.getD i (.fin 0))) t 8 addr).length = b := by
  obtain ⟨h1, h2, h3⟩ := h
  have hf := castX_fit h1 rfl rfl rfl (by show 0 < 1; decide) (by decide) (by decide) (le_refl _)
    (by show (0 : ℚ) < 9 / 10; decide +kernel) (by show (9 / 10 : ℚ) < 1; decide +kernel) (le_refl _)
    ⟨by simp, by decide +kernel⟩ (argsort := argsort)
    ⟨fun xs _ => (hr.sort xs).1, fun xs _ => (hr.sort xs).2⟩
  refine ⟨castXTree oddHp (oddTree col), ?_, ?_⟩
  · have hy : (fun i => if i < 4 then 0 else 1 : Nat → ℝ) = (castXCtx (oddCtx col)).y := by
      funext i
      show _ = ((if i < 4 then 0 else 1 : ℚ) : ℝ)
      split <;> simp
    rw [hy, ← perpFitRoot_ops (o := xfOps ℝ) (o' := sideOps ℝ) rfl rfl]
    exact hf
  · cases hu : nodeAt (oddTree col) addr with
    | none => rw [hu] at h2; cases h2
    | some u =>
      rw [hu] at h2
      have hm : nodeAt (castXTree oddHp (oddTree col)) addr = some (castXTree oddHp u) := by
        unfold castXTree
        rw [nodeAt_map, hu]
        rfl
      refine ⟨_, hm, ?_, ?_⟩
      · have : (castXTree oddHp u).info.nData = u.info.nData := by cases u <;> rfl
        rw [this]
        exact Option.some.inj h2
      · rw [← h3]
        exact congrArg List.length (predictedAt_cast oddHp (oddCtx col).X (oddTree col) 8 addr)

theorem oddNaN_node : HasNode oddNaN [true] 4 3 := by decide +kernel
theorem oddLow_node : HasNode oddLow [false] 4 0 ∧ HasNode oddLow [true] 4 8 := by decide +kernel
theorem oddBoth_node : HasNode oddBoth [false] 4 0 ∧ HasNode oddBoth [true] 4 0 := by decide +kernel

/-- C87 is false in general.  A row with NaN counts in `n_data_` of a node it is not routed to; rows with
`-inf` are trained left and predicted right; between `-inf` and `+inf` the threshold is NaN and no row is routed at all. -/
theorem C87_refuted {argsort : List (XF ℝ) → List Nat} (hr : AnyTraining (castHp oddHp) argsort 8 1) :
    ∀ kind ∈ [([XF.nan], oddNaN), ([XF.ninf], oddLow), ([XF.ninf, XF.pinf], oddBoth)],
      (∀ v ∈ kind.2, v ∈ kind.1 ∨ ∃ q, v = .fin q) ∧
      ∃ t addr u, perpFitRoot (xfOps ℝ) (clsTarget realFns) argsort (castHp oddHp) (some (castL [1, 1]))
        (fun i _ => castXF (kind.2.getD i (.fin 0))) (fun i => if i < 4 then 0 else 1) 8 1 ["a"] = .ok t ∧
        nodeAt t addr = some u ∧
        u.info.nData ≠ (predictedAt (fun i _ => castXF (kind.2.getD i (.fin 0))) t 8 addr).length := by
  intro kind hk
  simp only [List.mem_cons, List.not_mem_nil, or_false] at hk
  rcases hk with rfl | rfl | rfl
  · obtain ⟨t, ht, u, hu, e1, e2⟩ := oddReal oddNaN_node hr
    exact ⟨by simp [oddNaN], t, _, u, ht, hu, by rw [e1, e2]; decide⟩
  · obtain ⟨t, ht, u, hu, e1, e2⟩ := oddReal oddLow_node.1 hr
    exact ⟨by simp [oddLow], t, _, u, ht, hu, by rw [e1, e2]; decide⟩
  · obtain ⟨t, ht, u, hu, e1, e2⟩ := oddReal oddBoth_node.1 hr
    exact ⟨by simp [oddBoth], t, _, u, ht, hu, by rw [e1, e2]; decide⟩

/-- The hypotheses can be met, and a tree with `+inf` in its training data splits. -/
example : AnyTraining (castHp oddHp) (stableArgsort (sideOps ℝ).le) 8 1 where
  precision := by show (0 : ℝ) ≤ ((0 : ℚ) : ℝ); simp
  sort xs := by
    have h := stableArgsort_spec (o := sideOps ℝ) (side_lawful (le_refl (0 : ℝ)))
    exact ⟨h.perm xs fun _ _ => trivial, h.sorted xs fun _ _ => trivial⟩
  rows := by decide
  dims := by decide
example : HasNode oddHigh [false] 4 4 ∧ HasNode oddHigh [true] 4 4 := by decide +kernel

end witness

end BT
