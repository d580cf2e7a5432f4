import Verif.Props.Regression
import Verif.Props.Predict

/-!
# Properties of pruning: C21 – C24
-/

namespace BT
open Spec

/-! ## C21 -/

section
variable {Sp S K P O : Type} [DecidableEq O]

/-- C21: `_prune` returns for every tree, with the result of one bottom-up merge; in the result no split
has two leaf children with equal predictions, and pruning it again changes nothing. -/
theorem C21_prune (pred : P → O) (t : Node Sp S K P) :
    prune pred t = .ok (merge pred t) ∧ FullyPruned pred (merge pred t) ∧
    prune pred (merge pred t) = .ok (merge pred t) := by
  refine ⟨prune_eq pred t, merge_fullyPruned pred t, ?_⟩
  rw [prune_eq, merge_idem]

/-- C21: the number of recursive calls never matters: any fuel of at least the number of nodes gives the
same result. -/
theorem C21_fuel (pred : P → O) (t : Node Sp S K P) (fuel : Nat) (h : t.size ≤ fuel) :
    pruneFuel pred fuel t = .ok (merge pred t) := pruneFuel_eq pred fuel t h

end

section
variable {V K P S O : Type} [LinearOrder S] [DecidableEq K] [Zero K] [One K] {ok : V → Prop}
  {c : Ctx V K P S O} {argsort : List V → List Nat} {n : Nat} {prior : Option P} {t : PNode V S K P}

/-- The same training problem with another `prune` flag. -/
def withPrune (c : Ctx V K P S O) (b : Bool) : Ctx V K P S O :=
  { c with hp := { c.hp with prune := b } }

omit [LinearOrder S] [DecidableEq K] [Zero K] [One K] in
theorem withPrune_valid (hv : Valid ok c argsort n) (b : Bool) : Valid ok (withPrune c b) argsort n :=
  ⟨hv.ops, hv.target, hv.sort, hv.dims, hv.rows, hv.vals⟩

/-- The tree with other constructor parameters recorded in its nodes. -/
def setHp (hp : Hyper K) (t : PNode V S K P) : PNode V S K P := mapTree hp (fun _ => id) id id t

/-- The `prune` flag does not influence the tree that is built. -/
theorem built_withPrune (hv : Valid ok c argsort n) (hn : 0 < n) (b : Bool) {t0 : PNode V S K P}
    (hb : Built c none prior 0 (List.range n) t0) :
    Built (withPrune c b) none prior 0 (List.range n) (setHp (withPrune c b).hp t0) := by
  have hs : Sim ok c (withPrune c b) n (fun _ => id) id id id (fun _ => True)
      (fun _ => True) (fun _ => True) :=
    { nDim := rfl
      names := rfl
      X := fun _ _ _ _ => rfl
      y := fun _ _ => rfl
      le := fun _ _ _ _ _ => rfl
      gap := fun _ _ _ _ _ _ => rfl
      mid := fun _ _ _ _ _ => rfl
      lt := fun _ _ _ _ => rfl
      ge := fun _ _ _ _ => rfl
      okTarget := fun _ _ => trivial
      inj := fun _ _ _ _ e => e
      delta := Iff.rfl
      posterior1 := fun ys p _ _ _ => by simp [withPrune]
      posteriorD := fun _ ys p _ _ _ => by simp [withPrune]
      noSplit := fun lv ys p _ _ _ => by simp [withPrune]
      pair := fun lv p ns a b _ _ _ _ _ _ => by simp [withPrune]
      mono := fun _ _ _ _ => Iff.rfl }
  exact Built.sim hs hv.ops hv.target hv.target hv.vals (par' := none) (pa' := prior) hb
    (fun i hi => List.mem_range.1 hi) (by simp; omega) rfl (by simp) rfl trivial (by simp)

/-- C21: fit with `prune=True` is the bottom-up merge of the fit with `prune=False`. -/
theorem C21_fit (hv : Valid ok c argsort n) (hn : 0 < n) {t0 : PNode V S K P}
    (h : fitIn (withPrune c false) argsort prior n = .ok t0) :
    fitIn (withPrune c true) argsort prior n =
      .ok (merge c.T.predictLeaf (setHp (withPrune c true).hp t0)) := by
  have hb := fit_built (withPrune_valid hv false) rfl h
  have := fit_of_built (withPrune_valid hv true) (built_withPrune (withPrune_valid hv false) hn true hb)
  rw [this]
  rfl

/-- C21: a tree fitted with `prune=True` is fully pruned. -/
theorem C21_fit_fullyPruned (hv : Valid ok c argsort n) (hp : c.hp.prune = true)
    (h : fitIn c argsort prior n = .ok t) :
    FullyPruned c.T.predictLeaf t ∧ prune c.T.predictLeaf t = .ok t := by
  obtain ⟨t0, -, -, -, h1⟩ := fit_cutOff hv h
  rw [h1 hp]
  exact ⟨merge_fullyPruned _ t0, by rw [prune_eq, merge_idem]⟩

end

/-- C21 on a tree where pruning really merges twice: all leaves predict class 0. -/
example : let leaf : List ℚ → PNode ℚ ℚ ℚ (List ℚ) := fun p => .leaf ⟨sampleHp, none, 0, none, 1, p⟩
    let i : Info ℚ (List ℚ) := ⟨sampleHp, none, 0, none, 1, [5, 1]⟩
    prune clsPredictLeaf (.split i ⟨0, "a", 1⟩ 0 1 (leaf [2, 1]) (.split i ⟨0, "a", 2⟩ 0 1 (leaf [3, 1]) (leaf [4, 1])))
      = .ok (leaf [5, 1]) := by
  decide +kernel

/-! ## Pruning and predictions -/

section
variable {Sp S K P Row O : Type} [DecidableEq O]

/-- If a node predicts what its children predict whenever these agree, merging changes no prediction. -/
theorem merge_walk (rt : Router Sp Row) (pred : P → O) (t : Node Sp S K P)
    (h : ∀ addr i sp l b c1 c2, nodeAt t addr = some (.split i sp l b c1 c2) →
      pred c1.info.posterior = pred c2.info.posterior → pred i.posterior = pred c1.info.posterior)
    (x : Row) (j : Info K P) (hw : walk rt t x = some j) :
    ∃ j', walk rt (merge pred t) x = some j' ∧ pred j'.posterior = pred j.posterior := by
  induction t with
  | leaf i => exact ⟨j, hw, rfl⟩
  | split i sp l b c1 c2 ih1 ih2 =>
    have i1 := ih1 fun a i sp l b e1 e2 he => h (false :: a) i sp l b e1 e2 (by simpa [nodeAt] using he)
    have i2 := ih2 fun a i sp l b e1 e2 he => h (true :: a) i sp l b e1 e2 (by simpa [nodeAt] using he)
    rcases merge_split pred i sp l b c1 c2 with ⟨j1, j2, e1, e2, he, e⟩ | ⟨-, e⟩ <;> rw [e]
    · refine ⟨i, rfl, ?_⟩
      have m1 := merge_info pred c1
      have m2 := merge_info pred c2
      rw [e1] at m1 i1; rw [e2] at m2 i2
      have hi := h [] i sp l b c1 c2 (nodeAt_nil _) (by rw [← m1, ← m2]; exact he)
      rw [← m1] at hi
      simp only [walk] at hw
      split at hw
      · obtain ⟨j', h1, h2⟩ := i1 hw
        have : j' = j1 := (Option.some.inj h1).symm
        rw [← h2, this]; exact hi
      · split at hw
        · obtain ⟨j', h1, h2⟩ := i2 hw
          have : j' = j2 := (Option.some.inj h1).symm
          rw [← h2, this, ← he]; exact hi
        · cases hw
    · simp only [walk] at hw ⊢
      split at hw
      · next g => rw [if_pos g]; exact i1 hw
      · next g =>
        rw [if_neg g]
        split at hw
        · next g2 => rw [if_pos g2]; exact i2 hw
        · cases hw

end

/-! ## C22 -/

section
variable {K : Type} [Field K] [LinearOrder K] [IsStrictOrderedRing K]

/-- Adding two vectors with the same first maximum (up to a constant) keeps the first maximum. -/
theorem argmax_add {l1 l2 l : List K} {a : K} (hne : l1 ≠ []) (h12 : l2.length = l1.length)
    (h1l : l.length = l1.length)
    (hl : ∀ (k : Nat) (x y : K), l1[k]? = some x → l2[k]? = some y → l[k]? = some (x + y - a))
    (h : argmax l1 = argmax l2) : argmax l = argmax l1 := by
  obtain ⟨v1, e1, m1, f1⟩ := argmax_spec hne
  obtain ⟨v2, e2, m2, f2⟩ := argmax_spec (l := l2) (by
    intro h0; rw [h0] at h12; exact hne (List.eq_nil_of_length_eq_zero h12.symm))
  rw [← h] at e2 f2
  have get : ∀ (k : Nat) (z : K), l[k]? = some z → ∃ x y, l1[k]? = some x ∧ l2[k]? = some y ∧ z = x + y - a := by
    intro k z hz
    have hk : k < l.length := (List.getElem?_eq_some_iff.1 hz).1
    have g1 : l1[k]? = some l1[k] := List.getElem?_eq_getElem (by omega)
    have g2 : l2[k]? = some l2[k] := List.getElem?_eq_getElem (by omega)
    refine ⟨_, _, g1, g2, ?_⟩
    rw [hl k _ _ g1 g2] at hz
    exact (Option.some.inj hz).symm
  refine argmax_unique (hl _ _ _ e1 e2) ?_ ?_
  · intro z hz
    obtain ⟨k, hk⟩ := List.getElem?_of_mem hz
    obtain ⟨x, y, g1, g2, rfl⟩ := get k z hk
    have := m1 x (List.mem_of_getElem? g1)
    have := m2 y (List.mem_of_getElem? g2)
    linarith
  · intro k hk z hz
    obtain ⟨x, y, g1, g2, rfl⟩ := get k z hz
    have := f1 k hk x g1
    have := f2 k hk y g2
    linarith

variable {P S O : Type} {ok : K → Prop} {F : Fns K}

/-- A split node of a classification tree with a constant prior and `delta = 0` predicts what its
children predict whenever these agree. -/
theorem C22_node {V : Type} {ok : V → Prop} {c : Ctx V K (List K) K (List K)} (hT : c.T = clsTarget F)
    {argsort : List V → List Nat} {n k : Nat} {a : K} (hk : 0 < k) {t : PNode V K K (List K)}
    (hv : Valid ok c argsort n) (h : fitIn c argsort (some (List.replicate k a)) n = .ok t)
    (hδ : c.hp.delta = 0) (addr : List Bool) (i : Info K (List K)) (sp : PSplit V) (l b : K)
    (c1 c2 : PNode V K K (List K)) (hu : nodeAt t addr = some (.split i sp l b c1 c2))
    (he : clsPredictLeaf c1.info.posterior = clsPredictLeaf c2.info.posterior) :
    clsPredictLeaf i.posterior = clsPredictLeaf c1.info.posterior := by
  have h1 : nodeAt t (addr ++ [false]) = some c1 := by rw [nodeAt_append, hu]; simp [nodeAt]
  have h2 : nodeAt t (addr ++ [true]) = some c2 := by rw [nodeAt_append, hu]; simp [nodeAt]
  obtain ⟨r1, r2, hr⟩ := routed_append hv h hu
  obtain ⟨n0, p0⟩ := C09_classification hT hv h hδ addr _ hu
  obtain ⟨n1, p1⟩ := C09_classification hT hv h hδ _ _ h1
  obtain ⟨n2, p2⟩ := C09_classification hT hv h hδ _ _ h2
  simp only [Node.info] at n0 p0
  rw [List.length_replicate] at n0 n1 n2
  have he' : argmax c1.info.posterior = argmax c2.info.posterior := by
    unfold clsPredictLeaf at he; exact_mod_cast he
  unfold clsPredictLeaf
  refine congrArg Nat.cast (argmax_add (a := a) ?_ (n2.trans n1.symm) (n0.trans n1.symm) ?_ he')
  · intro h0; rw [h0] at n1; simp at n1; omega
  · intro j x y hx hy
    have hj : j < (List.replicate k a).length := by
      rw [List.length_replicate, ← n1]; exact (List.getElem?_eq_some_iff.1 hx).1
    rw [p0 j hj]
    have ex := Option.some.inj (hx.symm.trans (p1 j hj))
    have ey := Option.some.inj (hy.symm.trans (p2 j hj))
    rw [ex, ey, r1, r2, List.filter_congr hr]
    have key : ∀ L : List Nat, (L.filter fun m => c.y m = (j : K)).length =
        ((L.filter fun m => c.o.lt (c.X m sp.dim) sp.value).filter fun m => c.y m = (j : K)).length +
        ((L.filter fun m => !c.o.lt (c.X m sp.dim) sp.value).filter fun m => c.y m = (j : K)).length := by
      intro L
      induction L with
      | nil => rfl
      | cons m L ih =>
        cases hl : c.o.lt (c.X m sp.dim) sp.value <;> by_cases hy : c.y m = (j : K) <;>
          simp [hl, hy, -List.filter_filter] <;> omega
    rw [key (routed c t n addr)]
    simp only [List.getElem_replicate, Option.some.injEq]
    push_cast
    ring

omit [Field K] [LinearOrder K] [IsStrictOrderedRing K] in
theorem walk_setHp {V S P : Type} (o : XOps V K) (hp : Hyper K) (t : PNode V S K P) (x : Nat → V) :
    walk (perpRouter o) (setHp hp t) x = (walk (perpRouter o) t x).map (mapInfo hp id) :=
  walk_map (o := o) (o' := o) hp (fun _ => id) id id (fun _ _ _ => rfl) (fun _ _ _ => rfl) x t

omit [Field K] [LinearOrder K] [IsStrictOrderedRing K] in
theorem nodeAt_setHp {V S P : Type} (hp : Hyper K) (t : PNode V S K P) (addr : List Bool) :
    nodeAt (setHp hp t) addr = (nodeAt t addr).map (setHp hp) :=
  nodeAt_map hp (fun _ => id) id id t addr

omit [Field K] [LinearOrder K] [IsStrictOrderedRing K] in
theorem setHp_post {V S P : Type} (hp : Hyper K) (t : PNode V S K P) :
    (setHp hp t).info.posterior = t.info.posterior := by cases t <;> rfl

omit [IsStrictOrderedRing K] in
/-- Pruned and unpruned fit give the same predictions if every split node of the unpruned tree predicts
what its children predict whenever these agree. -/
theorem prune_same_predictions {S P O : Type} [LinearOrder S] {c : Ctx K K P S O} (ho : c.o = exactOps K)
    {argsort : List K → List Nat} {n : Nat} {prior : Option P} {t0 t1 : PNode K S K P}
    (hn : 0 < n) (hv : Valid (fun _ => True) c argsort n)
    (h0 : fitIn (withPrune c false) argsort prior n = .ok t0)
    (h1 : fitIn (withPrune c true) argsort prior n = .ok t1)
    (hc : ∀ addr i sp l b c1 c2, nodeAt t0 addr = some (.split i sp l b c1 c2) →
      c.T.predictLeaf c1.info.posterior = c.T.predictLeaf c2.info.posterior →
      c.T.predictLeaf i.posterior = c.T.predictLeaf c1.info.posterior)
    (X : Nat → Nat → K) (m : Nat) :
    predict (perpRouter c.o) c.T t1 X m = predict (perpRouter c.o) c.T t0 X m := by
  rw [C21_fit hv hn h0] at h1
  have e1 : merge c.T.predictLeaf (setHp (withPrune c true).hp t0) = t1 := Except.ok.inj h1
  rw [ho]
  have l0 := C01_predict_is_walk (perpRouter (exactOps K)) exact_exclusive c.T t0 X m
  have l1 := C01_predict_is_walk (perpRouter (exactOps K)) exact_exclusive c.T t1 X m
  apply List.ext_getElem?
  intro i
  by_cases hi : i < m
  · rw [l0.2 i hi, l1.2 i hi]
    obtain ⟨j, hj⟩ := walk_total (perpRouter (exactOps K)) (X i) (fun sp => exact_complementary sp (X i)) t0
    have hj' := walk_setHp (exactOps K) (withPrune c true).hp t0 (X i)
    rw [hj] at hj'
    obtain ⟨j', g1, g2⟩ := merge_walk (perpRouter (exactOps K)) c.T.predictLeaf
      (setHp (withPrune c true).hp t0) (by
        intro addr i sp l b d1 d2 hd he
        rw [nodeAt_setHp] at hd
        cases hu : nodeAt t0 addr with
        | none => rw [hu] at hd; cases hd
        | some u =>
          rw [hu] at hd
          cases u with
          | leaf j => cases hd
          | split i' sp' l' b' c1 c2 =>
            have hd := Option.some.inj hd
            simp only [setHp, mapTree, Node.split.injEq] at hd
            obtain ⟨rfl, -, -, -, rfl, rfl⟩ := hd
            have s1 := setHp_post (withPrune c true).hp c1
            have s2 := setHp_post (withPrune c true).hp c2
            unfold setHp at s1 s2
            rw [s1, s2] at he
            rw [s1]
            exact hc addr i' sp' l' b' c1 c2 hu he) (X i) _ hj'
    rw [← e1, g1, hj]
    exact congrArg some g2
  · rw [List.getElem?_eq_none (by rw [l1.1]; omega), List.getElem?_eq_none (by rw [l0.1]; omega)]

/-- C22, what does hold: with a constant prior and `delta = 0` the pruned and the unpruned tree predict
the same classes for every batch.  Missing from the full statement: other priors, where it is false
(`C22_refuted`), and `delta ≠ 0`, where it is false too (`C22_refuted_delta`). -/
theorem C22_prune_classes_partial {c : Ctx K K (List K) K (List K)} (ho : c.o = exactOps K)
    (hT : c.T = clsTarget F) {argsort : List K → List Nat} {n k : Nat} {a : K} (hk : 0 < k) (hn : 0 < n)
    {t0 t1 : PNode K K K (List K)} (hv : Valid (fun _ => True) c argsort n) (hδ : c.hp.delta = 0)
    (h0 : fitIn (withPrune c false) argsort (some (List.replicate k a)) n = .ok t0)
    (h1 : fitIn (withPrune c true) argsort (some (List.replicate k a)) n = .ok t1)
    (X : Nat → Nat → K) (m : Nat) :
    predict (perpRouter c.o) c.T t1 X m = predict (perpRouter c.o) c.T t0 X m := by
  refine prune_same_predictions ho hn hv h0 h1 ?_ X m
  rw [hT]
  intro addr i sp l b c1 c2 hu he
  exact C22_node (c := withPrune c false) hT hk (withPrune_valid hv false) h0 hδ addr i sp l b c1 c2 hu he

end

/-- One feature, rows given by (value, class). -/
def oneCtx (rows : List (ℚ × ℚ)) (pp δ : ℚ) (prune : Bool) : Ctx ℚ ℚ (List ℚ) ℚ (List ℚ) where
  o := exactOps ℚ
  T := probTarget ℚ
  pair := probPair
  hp := ⟨pp, δ, prune, 0⟩
  X := fun i _ => (rows.getD i (0, 0)).1
  y := fun i => (rows.getD i (0, 0)).2
  nDim := 1
  names := ["x0"]

/-- The tree fitted to it. -/
def oneTree (rows : List (ℚ × ℚ)) (pp δ : ℚ) (prior : List ℚ) (prune : Bool) : PNode ℚ ℚ ℚ (List ℚ) :=
  ((fitIn (oneCtx rows pp δ prune) (insArgsort (exactOps ℚ).le) (some prior) rows.length).toOption).getD
    (.leaf ⟨sampleHp, none, 0, none, 0, []⟩)

/-- Asymmetric prior: eight rows of class 1 at 0; two rows of class 0 and six of class 1 at 1. -/
def asymRows : List (ℚ × ℚ) :=
  [(0, 1), (0, 1), (0, 1), (0, 1), (0, 1), (0, 1), (0, 1), (0, 1),
   (1, 0), (1, 0), (1, 1), (1, 1), (1, 1), (1, 1), (1, 1), (1, 1)]

/-- Constant prior, `delta = 5`. -/
def deltaRows : List (ℚ × ℚ) :=
  [(0, 1), (0, 1), (0, 1), (1, 0), (1, 0), (1, 0), (1, 0), (1, 0),
   (2, 0), (2, 0), (2, 1), (2, 1), (2, 1), (3, 0), (3, 1), (3, 1)]

theorem asym_fit (b : Bool) : fitIn (oneCtx asymRows (99 / 100) 0 b) (insArgsort (exactOps ℚ).le)
    (some [10, 1]) 16 = .ok (oneTree asymRows (99 / 100) 0 [10, 1] b) := by
  cases b <;> decide +kernel

theorem asym_predict (b : Bool) : predict (perpRouter (exactOps ℚ)) (probTarget ℚ)
    (oneTree asymRows (99 / 100) 0 [10, 1] b) (fun _ _ => 0) 1 = [if b then 1 else 0] := by
  cases b <;> decide +kernel

theorem delta_fit (b : Bool) : fitIn (oneCtx deltaRows (99 / 100) 5 b) (insArgsort (exactOps ℚ).le)
    (some [1, 1]) 16 = .ok (oneTree deltaRows (99 / 100) 5 [1, 1] b) := by
  cases b <;> decide +kernel

theorem delta_predict (b : Bool) : predict (perpRouter (exactOps ℚ)) (probTarget ℚ)
    (oneTree deltaRows (99 / 100) 5 [1, 1] b) (fun _ _ => 2) 1 = [if b then 0 else 1] := by
  cases b <;> decide +kernel

theorem castCtx_withPrune (rows : List (ℚ × ℚ)) (pp δ : ℚ) (b : Bool) :
    withPrune (castCtx (oneCtx rows pp δ false)) b = castCtx (oneCtx rows pp δ b) := rfl

/-- C22 is false: with the prior `[10, 1]` and `delta = 0` pruning changes a predicted class. -/
theorem C22_refuted : ∃ (c : Ctx ℝ ℝ (List ℝ) ℝ (List ℝ)) (prior : List ℝ) (n : Nat)
    (t0 t1 : PNode ℝ ℝ ℝ (List ℝ)) (X : Nat → Nat → ℝ),
    c.o = exactOps ℝ ∧ c.T = clsTarget realFns ∧ c.hp.delta = 0 ∧ (∀ a ∈ prior, 0 < a) ∧
    Valid (fun _ => True) c realSort n ∧
    fitIn (withPrune c false) realSort (some prior) n = .ok t0 ∧
    fitIn (withPrune c true) realSort (some prior) n = .ok t1 ∧
    predict (perpRouter c.o) c.T t0 X 1 = [0] ∧ predict (perpRouter c.o) c.T t1 X 1 = [1] := by
  have fitb : ∀ b, fitIn (withPrune (castCtx (oneCtx asymRows (99 / 100) 0 false)) b) realSort
      (some (castL [10, 1])) 16 = .ok (castTree (oneCtx asymRows (99 / 100) 0 b).hp
        (oneTree asymRows (99 / 100) 0 [10, 1] b)) := by
    intro b
    rw [castCtx_withPrune]
    exact cast_fit (asym_fit b) rfl rfl rfl Nat.zero_lt_one (by decide) (by decide) (le_refl _)
      (by show (0 : ℚ) < 99 / 100; decide +kernel) (by show (99 / 100 : ℚ) < 1; decide +kernel) (le_refl _)
      ⟨by simp, by decide +kernel⟩ realSort_spec
  have pr : ∀ b, predict (perpRouter (exactOps ℝ)) (clsTarget realFns) (castTree
      (oneCtx asymRows (99 / 100) 0 b).hp (oneTree asymRows (99 / 100) 0 [10, 1] b)) (fun _ _ => ((0 : ℚ) : ℝ)) 1
      = [if b then 1 else 0] := by
    intro b
    have := predict_cast (oneCtx asymRows (99 / 100) 0 b).hp (oneTree asymRows (99 / 100) 0 [10, 1] b)
      (fun _ _ => 0) 1
    rw [asym_predict] at this
    rw [this]
    cases b <;> simp [castL]
  refine ⟨castCtx (oneCtx asymRows (99 / 100) 0 false), castL [10, 1], 16, _, _, fun _ _ => ((0 : ℚ) : ℝ),
    rfl, rfl, ?_, ?_, castCtx_valid (by decide) (by decide) (le_refl _) realSort_spec, fitb false, fitb true,
    pr false, pr true⟩
  · show ((0 : ℚ) : ℝ) = 0
    simp
  · simp [castL]

/-- C22 is false with `delta ≠ 0` as well, even for the constant prior `[1, 1]`. -/
theorem C22_refuted_delta : ∃ (c : Ctx ℝ ℝ (List ℝ) ℝ (List ℝ)) (prior : List ℝ) (n : Nat)
    (t0 t1 : PNode ℝ ℝ ℝ (List ℝ)) (X : Nat → Nat → ℝ),
    c.o = exactOps ℝ ∧ c.T = clsTarget realFns ∧ 0 < c.hp.delta ∧ prior = [1, 1] ∧
    Valid (fun _ => True) c realSort n ∧
    fitIn (withPrune c false) realSort (some prior) n = .ok t0 ∧
    fitIn (withPrune c true) realSort (some prior) n = .ok t1 ∧
    predict (perpRouter c.o) c.T t0 X 1 = [1] ∧ predict (perpRouter c.o) c.T t1 X 1 = [0] := by
  have fitb : ∀ b, fitIn (withPrune (castCtx (oneCtx deltaRows (99 / 100) 5 false)) b) realSort
      (some (castL [1, 1])) 16 = .ok (castTree (oneCtx deltaRows (99 / 100) 5 b).hp
        (oneTree deltaRows (99 / 100) 5 [1, 1] b)) := by
    intro b
    rw [castCtx_withPrune]
    exact cast_fit (delta_fit b) rfl rfl rfl Nat.zero_lt_one (by decide) (by decide) (le_refl _)
      (by show (0 : ℚ) < 99 / 100; decide +kernel) (by show (99 / 100 : ℚ) < 1; decide +kernel)
      (by show (0 : ℚ) ≤ 5; decide +kernel)
      ⟨by simp, by decide +kernel⟩ realSort_spec
  have pr : ∀ b, predict (perpRouter (exactOps ℝ)) (clsTarget realFns) (castTree
      (oneCtx deltaRows (99 / 100) 5 b).hp (oneTree deltaRows (99 / 100) 5 [1, 1] b)) (fun _ _ => ((2 : ℚ) : ℝ)) 1
      = [if b then 0 else 1] := by
    intro b
    have := predict_cast (oneCtx deltaRows (99 / 100) 5 b).hp (oneTree deltaRows (99 / 100) 5 [1, 1] b)
      (fun _ _ => 2) 1
    rw [delta_predict] at this
    rw [this]
    cases b <;> simp [castL]
  refine ⟨castCtx (oneCtx deltaRows (99 / 100) 5 false), castL [1, 1], 16, _, _, fun _ _ => ((2 : ℚ) : ℝ),
    rfl, rfl, ?_, by simp [castL], castCtx_valid (by decide) (by decide) (le_refl _) realSort_spec, fitb false,
    fitb true, pr false, pr true⟩
  show (0 : ℝ) < ((5 : ℚ) : ℝ)
  norm_num

/-- C22 (partial) where pruning really merges: all twelve targets of the sample replaced by class 0
except one, with the prior `[1, 1]`. -/
def mergeRows : List (ℚ × ℚ) := [(0, 0), (0, 0), (0, 0), (0, 0), (1, 0), (1, 0), (1, 1)]

theorem merge_fits : (oneTree mergeRows (99 / 100) 0 [1, 1] false).size = 3 ∧
    (oneTree mergeRows (99 / 100) 0 [1, 1] true).size = 1 ∧
    ∀ b, fitIn (oneCtx mergeRows (99 / 100) 0 b) (insArgsort (exactOps ℚ).le) (some [1, 1]) 7 =
      .ok (oneTree mergeRows (99 / 100) 0 [1, 1] b) := by
  decide +kernel

/-- C22 (partial) on a fit where pruning merges the only split. -/
example (X : Nat → Nat → ℝ) (m : Nat) :
    predict (perpRouter (exactOps ℝ)) (clsTarget realFns)
      (castTree (oneCtx mergeRows (99 / 100) 0 true).hp (oneTree mergeRows (99 / 100) 0 [1, 1] true)) X m =
    predict (perpRouter (exactOps ℝ)) (clsTarget realFns)
      (castTree (oneCtx mergeRows (99 / 100) 0 false).hp (oneTree mergeRows (99 / 100) 0 [1, 1] false)) X m := by
  have fitb : ∀ b, fitIn (withPrune (castCtx (oneCtx mergeRows (99 / 100) 0 false)) b) realSort
      (some (castL [1, 1])) 7 = .ok (castTree (oneCtx mergeRows (99 / 100) 0 b).hp
        (oneTree mergeRows (99 / 100) 0 [1, 1] b)) := by
    intro b
    rw [castCtx_withPrune]
    exact cast_fit (merge_fits.2.2 b) rfl rfl rfl Nat.zero_lt_one (by decide) (by decide) (le_refl _)
      (by show (0 : ℚ) < 99 / 100; decide +kernel) (by show (99 / 100 : ℚ) < 1; decide +kernel) (le_refl _)
      ⟨by simp, by decide +kernel⟩ realSort_spec
  have e : castL [1, 1] = List.replicate 2 1 := by simp [castL]
  rw [e] at fitb
  exact C22_prune_classes_partial (c := castCtx (oneCtx mergeRows (99 / 100) 0 false)) rfl rfl (by decide)
    (by decide) (castCtx_valid (by decide) (by decide) (le_refl _) realSort_spec)
    (by show ((0 : ℚ) : ℝ) = 0; simp) (fitb false) (fitb true) X m

/-! ## C23 -/

section
variable {K : Type} [Field K] [LinearOrder K] [IsStrictOrderedRing K]

/-- C23, the exact effect: with `delta = 0`, if both children of a node predict `m`, the node itself
predicts `m + κ (m - μ) / (κ + N)`, where `μ`, `κ` are the prior mean and its weight and `N` the number of
training rows of the node. -/
theorem C23_merged_mean {V : Type} {ok : V → Prop} {F : Fns K} {c : Ctx V K (NG K) K K}
    (hT : c.T = regTarget F) {argsort : List V → List Nat} {n : Nat} (hn : 0 < n) {prior : Option (NG K)}
    {t : PNode V K K (NG K)} (hv : Valid ok c argsort n) (h : fitIn c argsort prior n = .ok t)
    (hδ : c.hp.delta = 0) (hκ : 0 < (regGetPrior prior n c.nDim).kappa)
    (addr : List Bool) (i : Info K (NG K)) (sp : PSplit V) (l b : K) (c1 c2 : PNode V K K (NG K))
    (hu : nodeAt t addr = some (.split i sp l b c1 c2)) (m : K)
    (e1 : c1.info.posterior.mu = m) (e2 : c2.info.posterior.mu = m) :
    i.posterior.mu = m + (regGetPrior prior n c.nDim).kappa * (m - (regGetPrior prior n c.nDim).mu) /
      ((regGetPrior prior n c.nDim).kappa + (i.nData : K)) := by
  have h1 : nodeAt t (addr ++ [false]) = some c1 := by rw [nodeAt_append, hu]; simp [nodeAt]
  have h2 : nodeAt t (addr ++ [true]) = some c2 := by rw [nodeAt_append, hu]; simp [nodeAt]
  obtain ⟨r1, r2, hr⟩ := routed_append hv h hu
  have p0 := C09_regression hT hn hv h hδ addr _ hu
  have p1 := C09_regression hT hn hv h hδ _ _ h1
  have p2 := C09_regression hT hn hv h hδ _ _ h2
  have hnd := C08_rows_routed_back hv h addr _ hu
  simp only [Node.info] at p0 hnd
  rw [p1] at e1
  rw [p2] at e2
  rw [p0, hnd]
  generalize regGetPrior prior n c.nDim = p at hκ e1 e2 ⊢
  rw [r1] at e1
  rw [r2, List.filter_congr hr] at e2
  clear p0 p1 p2 r1 r2 hr hnd
  have key : ∀ ys : List K, (Spec.ngPosterior p ys).mu = (p.kappa * p.mu + ys.sum) / (p.kappa + (ys.length : K)) := by
    intro ys
    show (p.kappa * p.mu + (ys.length : K) * (ys.sum / (ys.length : K))) / _ = _
    by_cases h0 : ys.length = 0
    · rw [List.length_eq_zero_iff.1 h0]; simp
    · have : (ys.length : K) ≠ 0 := by exact_mod_cast h0
      rw [mul_div_cancel₀ _ this]
  rw [key] at e1 e2 ⊢
  have split : ∀ L : List Nat, (c.ys L).sum = (c.ys (L.filter fun m => c.o.lt (c.X m sp.dim) sp.value)).sum +
      (c.ys (L.filter fun m => !c.o.lt (c.X m sp.dim) sp.value)).sum ∧
      ((c.ys L).length : K) = ((c.ys (L.filter fun m => c.o.lt (c.X m sp.dim) sp.value)).length : K) +
      ((c.ys (L.filter fun m => !c.o.lt (c.X m sp.dim) sp.value)).length : K) := by
    intro L
    unfold Ctx.ys
    induction L with
    | nil => simp
    | cons m L ih =>
      cases hl : c.o.lt (c.X m sp.dim) sp.value <;> simp [hl, ih.1] <;> simp at ih <;>
        rw [ih.2] <;> constructor <;> ring
  obtain ⟨s1, s2⟩ := split (routed c t n addr)
  have hl : ((routed c t n addr).length : K) = ((c.ys (routed c t n addr)).length : K) := by simp [Ctx.ys]
  rw [hl, s1, s2]
  generalize (c.ys ((routed c t n addr).filter fun m => c.o.lt (c.X m sp.dim) sp.value)) = A at e1 ⊢
  generalize (c.ys ((routed c t n addr).filter fun m => !c.o.lt (c.X m sp.dim) sp.value)) = B at e2 ⊢
  have hA : (0 : K) ≤ (A.length : K) := Nat.cast_nonneg _
  have hB : (0 : K) ≤ (B.length : K) := Nat.cast_nonneg _
  rw [div_eq_iff (by linarith : p.kappa + (A.length : K) ≠ 0) ] at e1
  rw [div_eq_iff (by linarith)] at e2
  have hne : p.kappa + ((A.length : K) + (B.length : K)) ≠ 0 := by linarith
  field_simp
  linarith

/-- C23, what does hold: with `delta = 0` pruning leaves all predictions of a regression tree unchanged
if siblings only ever agree on the prior mean (in particular if no siblings agree).  Missing from the full
statement: siblings that agree on another value (`C23_refuted`); the size of the change is
`C23_merged_mean`. -/
theorem C23_prune_means_partial {F : Fns K} {c : Ctx K K (NG K) K K} (ho : c.o = exactOps K)
    (hT : c.T = regTarget F) {argsort : List K → List Nat} {n : Nat} (hn : 0 < n) {prior : Option (NG K)}
    {t0 t1 : PNode K K K (NG K)} (hv : Valid (fun _ => True) c argsort n) (hδ : c.hp.delta = 0)
    (hκ : 0 < (regGetPrior prior n c.nDim).kappa)
    (h0 : fitIn (withPrune c false) argsort prior n = .ok t0)
    (h1 : fitIn (withPrune c true) argsort prior n = .ok t1)
    (hag : ∀ addr i sp l b c1 c2, nodeAt t0 addr = some (.split i sp l b c1 c2) →
      c1.info.posterior.mu = c2.info.posterior.mu →
      c1.info.posterior.mu = (regGetPrior prior n c.nDim).mu)
    (X : Nat → Nat → K) (m : Nat) :
    predict (perpRouter c.o) c.T t1 X m = predict (perpRouter c.o) c.T t0 X m := by
  refine prune_same_predictions ho hn hv h0 h1 ?_ X m
  rw [hT]
  intro addr i sp l b c1 c2 hu he
  have hm := C23_merged_mean (c := withPrune c false) hT hn (withPrune_valid hv false) h0 hδ hκ addr i sp l b
    c1 c2 hu _ rfl he.symm
  show i.posterior.mu = c1.info.posterior.mu
  rw [hm, hag addr i sp l b c1 c2 hu he]
  simp only [withPrune]
  ring

end

theorem merge_setHp_two {V K P S O : Type} [DecidableEq O] (pred : P → O) (hp : Hyper K) (i : Info K P)
    (sp : PSplit V) (l b : S) (j1 j2 : Info K P) (h : pred j1.posterior = pred j2.posterior) :
    merge pred (setHp hp (.split i sp l b (.leaf j1) (.leaf j2))) = .leaf (mapInfo hp id i) := by
  unfold setHp
  simp only [mapTree, merge]
  rw [if_pos]
  exact h

theorem merge_regTree2 (p : NG ℝ) (a b δ : ℝ) (pr : Bool) (hp : Hyper ℝ)
    (h : ((regCtx2 p a b δ pr).directInfo p ((regCtx2 p a b δ pr).childPrior p [0]) 1 [0]).posterior.mu =
      ((regCtx2 p a b δ pr).directInfo p ((regCtx2 p a b δ pr).childPrior p [1]) 1 [1]).posterior.mu) :
    merge (regTarget realFns).predictLeaf (setHp hp (regTree2 p a b δ pr)) =
      .leaf (mapInfo hp id ((regCtx2 p a b δ pr).fitInfo (some p) 0 [0, 1])) :=
  merge_setHp_two (regTarget realFns).predictLeaf hp _ _ _ _ _ _ h

theorem predict_one (t : PNode ℝ ℝ ℝ (NG ℝ)) (X : Nat → Nat → ℝ) (v : ℝ) (l : Info ℝ (NG ℝ))
    (hw : walk (perpRouter (exactOps ℝ)) t (X 0) = some l) (hl : l.posterior.mu = v) :
    predict (perpRouter (exactOps ℝ)) (regTarget realFns) t X 1 = [v] := by
  have h := C01_predict_is_walk (perpRouter (exactOps ℝ)) exact_exclusive (regTarget realFns) t X 1
  have h0 := h.2 0 Nat.zero_lt_one
  rw [hw] at h0
  apply List.ext_getElem?
  intro i
  cases i with
  | zero => rw [h0]; exact congrArg some hl
  | succ i =>
    rw [List.getElem?_eq_none (by rw [h.1]; omega)]
    rfl

theorem regTree2_prune (p : NG ℝ) (a b v w : ℝ)
    (m1 : (regPosterior [a] p 1).mu = v) (m2 : (regPosterior [b] p 1).mu = v)
    (m0 : (regPosterior [a, b] p 1).mu = w) : ∃ t1,
    fitIn (withPrune (regCtx2 p a b 0 false) true) realSort (some p) 2 = .ok t1 ∧
    predict (perpRouter (exactOps ℝ)) (regTarget realFns) (regTree2 p a b 0 false) (fun _ _ => 0) 1 = [v] ∧
    predict (perpRouter (exactOps ℝ)) (regTarget realFns) t1 (fun _ _ => 0) 1 = [w] := by
  have hf := regTree2_fit p a b 0
  have hf1 := C21_fit (c := regCtx2 p a b 0 false) (regCtx2_valid p a b 0 false) (by decide) hf
  have e1 : ((regCtx2 p a b 0 false).directInfo p ((regCtx2 p a b 0 false).childPrior p [0]) 1 [0]).posterior
      = regPosterior [a] p 1 := rfl
  have e2 : ((regCtx2 p a b 0 false).directInfo p ((regCtx2 p a b 0 false).childPrior p [1]) 1 [1]).posterior
      = regPosterior [b] p 1 := rfl
  have e0 : ((regCtx2 p a b 0 false).fitInfo (some p) 0 [0, 1]).posterior = regPosterior [a, b] p 1 := rfl
  refine ⟨_, hf1, ?_, ?_⟩
  · refine predict_one _ _ _ ((regCtx2 p a b 0 false).directInfo p
      ((regCtx2 p a b 0 false).childPrior p [0]) 1 [0]) ?_ (by rw [e1, m1])
    unfold regTree2
    simp [walk, perpRouter, exactOps]
  · refine predict_one _ _ _ (mapInfo (withPrune (regCtx2 p a b 0 false) true).hp id
      ((regCtx2 p a b 0 false).fitInfo (some p) 0 [0, 1])) ?_ (by rw [← m0, ← e0]; rfl)
    rw [show (regCtx2 p a b 0 false).T = regTarget realFns from rfl,
      merge_regTree2 p a b 0 false _ (by rw [e1, e2, m1, m2])]
    rfl

/-- C23 is false: two rows with target 1 and the prior `mu = 0, kappa = 1`; both leaves predict `1/2`, the
pruned tree predicts `2/3`. -/
theorem C23_refuted : ∃ (c : Ctx ℝ ℝ (NG ℝ) ℝ ℝ) (prior : NG ℝ) (n : Nat)
    (t0 t1 : PNode ℝ ℝ ℝ (NG ℝ)) (X : Nat → Nat → ℝ),
    c.o = exactOps ℝ ∧ c.T = regTarget realFns ∧ c.hp.delta = 0 ∧ NGProper prior ∧
    Valid (fun _ => True) c realSort n ∧
    fitIn (withPrune c false) realSort (some prior) n = .ok t0 ∧
    fitIn (withPrune c true) realSort (some prior) n = .ok t1 ∧
    predict (perpRouter c.o) c.T t0 X 1 = [1 / 2] ∧ predict (perpRouter c.o) c.T t1 X 1 = [2 / 3] := by
  obtain ⟨t1, h1, p0, p1⟩ := regTree2_prune ⟨0, 1, 1, 1⟩ 1 1 (1 / 2) (2 / 3)
    (by norm_num [regPosterior, BT.ngPosterior]) (by norm_num [regPosterior, BT.ngPosterior])
    (by norm_num [regPosterior, BT.ngPosterior])
  exact ⟨regCtx2 ⟨0, 1, 1, 1⟩ 1 1 0 false, ⟨0, 1, 1, 1⟩, 2, _, t1, fun _ _ => 0, rfl, rfl, rfl,
    by norm_num [NGProper], regCtx2_valid _ 1 1 0 false, regTree2_fit _ 1 1 0, h1, p0, p1⟩

/-- The hypotheses of C23 (partial) hold for two rows with different targets and any proper prior. -/
example (p : NG ℝ) (a b : ℝ) (hab : a ≠ b) (hκ : 0 < p.kappa) (X : Nat → Nat → ℝ) (m : Nat)
    (t1 : PNode ℝ ℝ ℝ (NG ℝ))
    (h1 : fitIn (withPrune (regCtx2 p a b 0 false) true) realSort (some p) 2 = .ok t1) :
    predict (perpRouter (exactOps ℝ)) (regTarget realFns) t1 X m =
      predict (perpRouter (exactOps ℝ)) (regTarget realFns) (regTree2 p a b 0 false) X m := by
  refine C23_prune_means_partial (c := regCtx2 p a b 0 false) rfl rfl (by decide) (regCtx2_valid p a b 0 false) rfl
    (prior := some p) hκ (regTree2_fit p a b 0) h1 ?_ X m
  intro addr i sp l b' c1 c2 hu he
  exfalso
  unfold regTree2 at hu
  cases addr with
  | nil =>
    rw [nodeAt_nil] at hu
    obtain ⟨-, -, -, -, rfl, rfl⟩ := by simpa using hu
    have he : (regPosterior [if 0 = 0 then a else b] p 1).mu = (regPosterior [if 1 = 0 then a else b] p 1).mu := he
    simp [regPosterior, BT.ngPosterior] at he
    rw [div_left_inj' (by linarith)] at he
    exact hab (by linarith)
  | cons x addr => cases x <;> cases addr <;> simp [nodeAt] at hu

/-! ## C24 -/

section
variable {V K P S O : Type} [LinearOrder S] [DecidableEq K] [Zero K] [One K] {ok : V → Prop}
  {c : Ctx V K P S O} {argsort : List V → List Nat} {n : Nat} {prior : Option P}

/-- C24: every node of the tree fitted with `prune=True` is the node of the unpruned tree at the same
place, with the same statistics and the same training rows; its split is the old one or, if it was
pruned, gone together with all that was below. -/
theorem C24_pruned_nodes (hv : Valid ok c argsort n) (hn : 0 < n) {t0 t1 : PNode V S K P}
    (h0 : fitIn (withPrune c false) argsort prior n = .ok t0)
    (h1 : fitIn (withPrune c true) argsort prior n = .ok t1)
    (addr : List Bool) (u : PNode V S K P) (hu : nodeAt t1 addr = some u) :
    ∃ u0, nodeAt t0 addr = some u0 ∧
      u.info.nData = u0.info.nData ∧ u.info.posterior = u0.info.posterior ∧
      u.info.prior = u0.info.prior ∧ u.info.level = u0.info.level ∧
      routed c t1 n addr = routed c t0 n addr ∧ u.info.nData = (routed c t0 n addr).length ∧
      ((∃ i, u = .leaf i) ∨ ∃ i i0 sp l b c1 c2 d1 d2, u = .split i sp l b c1 c2 ∧ u0 = .split i0 sp l b d1 d2) := by
  have e1 := (C21_fit hv hn h0).symm.trans h1
  have e1 := Except.ok.inj e1
  have hc : CutOff t1 (setHp (withPrune c true).hp t0) := by rw [← e1]; exact CutOff.merge _ _
  obtain ⟨w, hw, hi, hs⟩ := hc.node addr u hu
  unfold setHp at hw
  rw [nodeAt_map] at hw
  cases hu0 : nodeAt t0 addr with
  | none => rw [hu0] at hw; cases hw
  | some u0 =>
    rw [hu0] at hw
    have hw := Option.some.inj hw
    have ei : u.info = mapInfo (withPrune c true).hp id u0.info := by
      rw [hi, ← hw]; cases u0 <;> rfl
    have er : routed c t1 n addr = routed c t0 n addr := by
      unfold routed
      refine List.filter_congr fun i _ => ?_
      rw [hc.passes _ addr u hu]
      exact passes_map (o := c.o) (o' := c.o) (withPrune c true).hp (fun _ => id) id id (fun _ _ _ => rfl)
        (fun _ _ _ => rfl) (c.X i) t0 addr
    have hnd := C08_rows_routed_back (withPrune_valid hv true) h1 addr u hu
    refine ⟨u0, rfl, ?_, ?_, ?_, ?_, er, ?_, ?_⟩
    · rw [ei]; rfl
    · rw [ei]; rfl
    · rw [ei]; simp [mapInfo]
    · rw [ei]; rfl
    · rw [← er]; exact hnd
    · cases u with
      | leaf i => exact .inl ⟨i, rfl⟩
      | split i sp l b c1 c2 =>
        right
        obtain ⟨d1, d2, hd⟩ := hs _ _ _ _ _ _ rfl
        rw [hd] at hw
        cases u0 with
        | leaf j => cases hw
        | split j sp' l' b' e1 e2 =>
          simp only [mapTree, Node.split.injEq, id] at hw
          obtain ⟨-, rfl, rfl, rfl, -, -⟩ := hw
          exact ⟨_, _, _, _, _, _, _, _, _, rfl, rfl⟩

/-- C24: in a pruned tree (as in any fitted one) a node that was fitted recursively has the posterior of
its own effective prior and the targets of exactly the training rows routed to it; with `delta = 0` every
node has the posterior of the root's prior and those targets. -/
theorem C24_statistics (hv : Valid ok c argsort n) {t : PNode V S K P}
    (h : fitIn c argsort prior n = .ok t) (addr : List Bool) (u : PNode V S K P)
    (hu : nodeAt t addr = some u) :
    u.info.nData = (routed c t n addr).length ∧
    (u.info.nDim.isSome → u.info.posterior =
      c.T.posterior (c.ys (routed c t n addr)) (c.T.getPrior u.info.prior u.info.nData c.nDim) 1) ∧
    (∀ i, nodeAt t addr = some (.leaf i) → i.nDim = none →
      ∃ parent bit j sp l b c1 c2, addr = parent ++ [bit] ∧
        nodeAt t parent = some (.split j sp l b c1 c2) ∧
        i.posterior = c.T.posterior (c.ys (routed c t n addr)) (c.T.getPrior j.prior j.nData c.nDim) 1) ∧
    (c.hp.delta = 0 → u.info.posterior =
      c.T.posterior (c.ys (routed c t n addr)) (c.T.getPrior prior n c.nDim) 1) := by
  refine ⟨C08_rows_routed_back hv h addr u hu, fun hs => ?_, fun i hi hs =>
    (C10_leaf_update_partial hv h addr i hi).2 hs, fun hδ => C09_posteriors hv h hδ addr u hu⟩
  obtain ⟨par', pa', u0, hB, e, -⟩ := fit_node hv h hu
  rw [e] at hs ⊢
  cases hB with
  | direct => cases hs
  | stay => rfl
  | split => rfl

end

/-- C24 on a fit whose only split is pruned: the root keeps its statistics. -/
example : ∃ u0, nodeAt (oneTree mergeRows (99 / 100) 0 [1, 1] false) [] = some u0 ∧
    (oneTree mergeRows (99 / 100) 0 [1, 1] true).info.nData = 7 ∧
    (oneTree mergeRows (99 / 100) 0 [1, 1] true).info.posterior = u0.info.posterior := by
  have hv : Valid (fun _ => True) (oneCtx mergeRows (99 / 100) 0 false) (insArgsort (exactOps ℚ).le) 7 :=
    ⟨exact_lawful (le_refl 0), prob_lawful ℚ, insArgsort_spec (exact_lawful (le_refl (0 : ℚ))), by decide,
      by decide, fun _ _ _ _ => trivial⟩
  obtain ⟨u0, h0, -, h2, -, -, -, -, -⟩ := C24_pruned_nodes hv (by decide) (merge_fits.2.2 false)
    (merge_fits.2.2 true) [] _ (nodeAt_nil _)
  exact ⟨u0, h0, by decide +kernel, h2⟩

end BT
