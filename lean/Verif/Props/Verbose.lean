import Verif.Spec.Verbose
import Verif.Props.Closed
import Verif.Props.HyperShape
import Verif.Props.Version

/-!
# `fit(..., verbose=True)`: C122
-/

namespace BT
open Spec Verbose
open Version (Text decText decText_num decText_inj)

set_option linter.unusedSectionVars false

section printed
variable {Sp V S K P O : Type}

/-- The lines for the nodes of a tree whose `_fit` ran. -/
def linesOf (side1 side2 : Text) : Text → Node Sp S K P → List Text
  | side, .leaf i => if i.nDim.isSome then [line i.level side i.nData] else []
  | side, .split i _ _ _ c1 c2 =>
    line i.level side i.nData :: (linesOf side1 side2 side1 c1 ++ linesOf side1 side2 side2 c2)

/-- What is known of an output `a` and the result `r` of the fit that does not print. -/
structure Faithful (H : Prop) (v : Bool) (side1 side2 side : Text) (a : Out (Node Sp S K P)) (r : Except Err (Node Sp S K P)) : Prop where
  same : a.2 = r
  quiet : v = false → a.1 = []
  lines : H → v = true → ∀ t, r = .ok t → a.1 = linesOf side1 side2 side t

theorem Faithful.ite {H : Prop} {v : Bool} {s1 s2 side : Text} {a : Out (Node Sp S K P)} {r : Except Err (Node Sp S K P)} {p : Prop}
    [Decidable p] {i : Info K P} (h : Faithful H v s1 s2 side a r) (hi : i.nDim = none) :
    Faithful H v s1 s2 side (if p then a else ([], .ok (.leaf i))) (if p then r else .ok (.leaf i)) := by
  split
  · exact h
  · refine ⟨rfl, fun _ => rfl, fun _ _ t ht => ?_⟩
    cases ht
    simp [linesOf, hi]

theorem Faithful.join {H : Prop} {v : Bool} {s1 s2 side : Text} {a b A : Out (Node Sp S K P)}
    {ra rb R : Except Err (Node Sp S K P)} (ha : Faithful H v s1 s2 s1 a ra) (hb : Faithful H v s1 s2 s2 b rb)
    (i : Info K P) (sp : Sp) (l s : S) {m : Nat} (hm : H → m = i.nData)
    (hA1 : ∀ o1 e, a = (o1, .error e) → A = ((if v then [line i.level side m] else []) ++ o1, .error e))
    (hA2 : ∀ o1 c1 o2 e, a = (o1, .ok c1) → b = (o2, .error e) →
      A = ((if v then [line i.level side m] else []) ++ o1 ++ o2, .error e))
    (hA3 : ∀ o1 c1 o2 c2, a = (o1, .ok c1) → b = (o2, .ok c2) →
      A = ((if v then [line i.level side m] else []) ++ o1 ++ o2, .ok (.split i sp l s c1 c2)))
    (hR1 : ∀ e, ra = .error e → R = .error e) (hR2 : ∀ c1 e, ra = .ok c1 → rb = .error e → R = .error e)
    (hR3 : ∀ c1 c2, ra = .ok c1 → rb = .ok c2 → R = .ok (.split i sp l s c1 c2)) :
    Faithful H v s1 s2 side A R := by
  obtain ⟨o1, ra'⟩ := a
  obtain ⟨o2, rb'⟩ := b
  obtain ⟨h1, h2, h3⟩ := ha
  obtain ⟨g1, g2, g3⟩ := hb
  simp only at h1 h2 g1 g2 h3 g3
  subst h1 g1
  cases ra' with
  | error e =>
    rw [hA1 _ _ rfl, hR1 _ rfl]
    exact ⟨rfl, fun hv => by simp [hv, h2 hv], fun _ _ t ht => by cases ht⟩
  | ok c1 =>
    cases rb' with
    | error e =>
      rw [hA2 _ _ _ _ rfl rfl, hR2 _ _ rfl rfl]
      exact ⟨rfl, fun hv => by simp [hv, h2 hv, g2 hv], fun _ _ t ht => by cases ht⟩
    | ok c2 =>
      rw [hA3 _ _ _ _ rfl rfl, hR3 _ _ rfl rfl]
      refine ⟨rfl, fun hv => by simp [hv, h2 hv, g2 hv], fun hH hv t ht => ?_⟩
      cases ht
      simp [hv, linesOf, h3 hH hv c1 rfl, g3 hH hv c2 rfl, hm hH]

section perp
variable [LT S] [DecidableLT S] [DecidableEq K] [Zero K] [One K] {o : XOps V K} {T : Target K P S O} {hp : Hyper K}
  {X : Nat → Nat → V} {y : Nat → K} {nDim : Nat} {names : List String}

theorem perpFitV_faithful {H : Prop} (v : Bool) (fuel : Nat) (side : Text) (m : Nat) (pa : Option P) (lv : Nat)
    (sid : List (List Nat)) (hm : H → sid ≠ [] → m = shape1 sid) :
    Faithful H v "LHS".toList "RHS".toList side (perpFitV v o T hp X y nDim names fuel side m pa lv sid)
      (perpFit o T hp X y nDim names fuel pa lv sid) := by
  induction fuel generalizing side m pa lv sid with
  | zero => exact ⟨rfl, fun _ => rfl, fun _ _ t ht => by cases ht⟩
  | succ fuel ih =>
    cases sid with
    | nil => exact ⟨rfl, fun hv => by simp [perpFitV, hv], fun _ _ t ht => by cases ht⟩
    | cons row0 rest =>
      unfold perpFitV perpFit
      simp only
      generalize (List.foldl (searchDim o T hp lv X y nDim (T.getPrior pa (shape1 (row0 :: rest)) nDim) (row0 :: rest))
        ⟨T.logNoSplit hp.partitionPrior lv (row0.map y) (T.getPrior pa (shape1 (row0 :: rest)) nDim), none⟩
        (List.range nDim)) = best
      rcases best with ⟨score, _ | ⟨dim, k⟩⟩
      · refine ⟨rfl, fun hv => by simp [hv], fun hH hv t ht => ?_⟩
        cases ht
        simp [hv, linesOf, hm hH]
      · simp only
        generalize names[dim]? = nm
        generalize (List.take k ((row0 :: rest).getD dim [])).getLast? = la
        generalize (List.drop k ((row0 :: rest).getD dim [])).head? = fi
        rcases nm with _ | name
        · exact ⟨rfl, fun hv => by simp [hv], fun _ _ t ht => by cases ht⟩
        rcases la with _ | last1
        · exact ⟨rfl, fun hv => by simp [hv], fun _ _ t ht => by cases ht⟩
        rcases fi with _ | first2
        · exact ⟨rfl, fun hv => by simp [hv], fun _ _ t ht => by cases ht⟩
        have key : ∀ (sd : Text) (ix : List Nat), Faithful H v "LHS".toList "RHS".toList sd _ _ := fun sd ix =>
          Faithful.ite
            (p := shape1 (restrictSid nDim (row0 :: rest) ix) > 1 ∧ (distinct (ix.map y)).length > 1)
            (i := mkChildInfo hp.partitionPrior
              (if hp.delta ≠ 0 then T.posterior (ix.map y) (T.getPrior pa (shape1 (row0 :: rest)) nDim) hp.delta
                else T.getPrior pa (shape1 (row0 :: rest)) nDim) hp.delta hp.prune hp.splitPrecision (lv + 1)
              (shape1 (restrictSid nDim (row0 :: rest) ix))
              (T.posterior (ix.map y) (T.getPrior pa (shape1 (row0 :: rest)) nDim) 1))
            (ih sd (shape1 (restrictSid nDim (row0 :: rest) ix))
              (some (if hp.delta ≠ 0 then T.posterior (ix.map y) (T.getPrior pa (shape1 (row0 :: rest)) nDim) hp.delta
                else T.getPrior pa (shape1 (row0 :: rest)) nDim)) (lv + 1) (restrictSid nDim (row0 :: rest) ix)
              fun _ _ => rfl) rfl
        dsimp only
        exact Faithful.join (key "LHS".toList (List.take k ((row0 :: rest).getD dim [])))
          (key "RHS".toList (List.drop k ((row0 :: rest).getD dim [])))
          ⟨hp, pa, lv, some nDim, shape1 (row0 :: rest), T.posterior (row0.map y) (T.getPrior pa (shape1 (row0 :: rest)) nDim) 1⟩
          ⟨dim, name, o.mid (X last1 dim) (X first2 dim)⟩ _ _ (fun hH => hm hH (by simp))
          (fun o1 e h => by rw [h]) (fun o1 c1 o2 e h g => by rw [h, g]) (fun o1 c1 o2 c2 h g => by rw [h, g])
          (fun e h => by rw [h]) (fun c1 e h g => by rw [h, g]) (fun c1 c2 h g => by rw [h, g])

end perp

section hyper
variable [Field K] [LinearOrder K] [Neg S] [LT S] [LE S] [DecidableLT S] [DecidableLE S] {c : HCtx K P S O}

theorem hFitV_faithful (v : Bool) (fuel : Nat) (side : Text) (pa : Option P) (lv : Nat) (rows : List Nat) :
    Faithful True v "back ".toList "front".toList side (hFitV v c fuel side pa lv rows) (hFit c fuel pa lv rows) := by
  induction fuel generalizing side pa lv rows with
  | zero => exact ⟨rfl, fun _ => rfl, fun _ _ t ht => by cases ht⟩
  | succ fuel ih =>
    unfold hFitV hFit
    simp only
    generalize hSolve c.A c.T (hProblem c (c.T.getPrior pa rows.length c.nDim) lv rows)
      (c.opt.solve (hProblem c (c.T.getPrior pa rows.length c.nDim) lv rows)) c.budget []
      (hInit (hProblem c (c.T.getPrior pa rows.length c.nDim) lv rows)) = r
    rcases r with e | ⟨ev, bs, bd, _ | sp⟩
    · exact ⟨rfl, fun hv => by simp [hv], fun _ _ t ht => by cases ht⟩
    · refine ⟨rfl, fun hv => by simp [hv], fun hH hv t ht => ?_⟩
      cases ht
      simp [hv, linesOf]
    · simp only
      split
      · have key : ∀ (sd : Text) (ix : List Nat), Faithful True v "back ".toList "front".toList sd _ _ := fun sd ix =>
          Faithful.ite (p := ix.length > 1 ∧ (distinct (ix.map c.y)).length > 1)
            (i := hChildInfo c (c.T.posterior (ix.map c.y) (c.T.getPrior pa rows.length c.nDim) 0) (lv + 1) ix.length
              (c.T.posterior (ix.map c.y) (c.T.getPrior pa rows.length c.nDim) 1))
            (ih sd (some (c.T.posterior (ix.map c.y) (c.T.getPrior pa rows.length c.nDim) 0)) (lv + 1) ix) rfl
        exact Faithful.join (key "back ".toList (rows.filter fun i => hyperRouter.goes1 sp (c.X i)))
          (key "front".toList (rows.filter fun i => hyperRouter.goes2 sp (c.X i)))
          ⟨c.hp, pa, lv, some c.nDim, rows.length, c.T.posterior (rows.map c.y) (c.T.getPrior pa rows.length c.nDim) 1⟩
          sp _ _ (fun _ => rfl)
          (fun o1 e h => by rw [h]) (fun o1 c1 o2 e h g => by rw [h, g]) (fun o1 c1 o2 c2 h g => by rw [h, g])
          (fun e h => by rw [h]) (fun c1 e h g => by rw [h, g]) (fun c1 c2 h g => by rw [h, g])
      · refine ⟨rfl, fun hv => by simp [hv], fun hH hv t ht => ?_⟩
        cases ht
        simp [hv, linesOf]

end hyper
end printed

/-! ## Perpendicular trees -/

section perp
variable {K : Type} [Field K] [LinearOrder K] [IsStrictOrderedRing K] {F : Fns K} {P O : Type}
  {T : Target K P K O} {ml : P → List K → K} {post : P → List K → P} {hp : Hyper K}
  {argsort : List K → List Nat} {X : Nat → Nat → K} {y : Nat → K} {n nDim : Nat} {names : List String}
  {prior : Option P} {t : PNode K K K P}

theorem mixed_length {y : Nat → K} {R : List Nat} (h : Mixed y R) : 1 < R.length := by
  obtain ⟨i, hi, j, hj, hne⟩ := h
  match R, hi, hj with
  | [a], hi, hj => simp at hi hj; subst hi hj; exact absurd rfl hne
  | a :: b :: l, _, _ => simp

theorem built_lines {c : Ctx K K P K O} {ok : K → Prop} (ho : LawfulOps c.o ok c.hp.splitPrecision) {par pa : Option P}
    {lv : Nat} {R : List Nat} {t : PNode K K K P} (hb : Built c par pa lv R t) (hlv : par = none ↔ lv = 0)
    (hok : ∀ i ∈ R, ∀ d < c.nDim, ok (c.X i d)) (side : Text) :
    linesOf "LHS".toList "RHS".toList side t =
      report "LHS".toList "RHS".toList (fun sp i => c.o.lt (c.X i sp.dim) sp.value) c.y side lv R t := by
  induction hb generalizing side with
  | direct par pa lv R hsmall =>
    have h1 : ¬ (lv = 0 ∨ Mixed c.y R) := by
      rintro (h | h)
      · exact absurd (hlv.2 h) (by simp)
      · exact hsmall ⟨mixed_length h, h⟩
    simp [linesOf, report, h1, Ctx.directInfo]
  | stay par pa lv R hdiv hno =>
    have h1 : lv = 0 ∨ Mixed c.y R := by
      cases par with
      | none => exact .inl (hlv.1 rfl)
      | some p => exact .inr (hdiv rfl).2
    simp [linesOf, report, h1, Ctx.fitInfo]
  | split par pa lv R d cut name c1 c2 hdiv hd hcut hgain hmax hf1 hf2 hname h1 h2 ih1 ih2 =>
    rw [linesOf, report, ih1 (by simp) fun i hi => hok i (List.mem_filter.1 hi).1,
      ih2 (by simp) fun i hi => hok i (List.mem_filter.1 hi).1, rows_routed ho (fun i hi => hok i hi d hd) hcut]
    rfl

/-- C122: printing does not change the result of `fit`, not even whether and with what exception it fails; without
`verbose` nothing is printed. -/
theorem C122_same {V K P S O : Type} [LT S] [DecidableLT S] [DecidableEq K] [Zero K] [One K] (v : Bool) (o : XOps V K)
    (T : Target K P S O) (argsort : List V → List Nat) (hp : Hyper K) (prior : Option P) (X : Nat → Nat → V)
    (y : Nat → K) (n nDim : Nat) (names : List String) :
    (perpFitRootV v o T argsort hp prior X y n nDim names).2 = perpFitRoot o T argsort hp prior X y n nDim names ∧
    (v = false → (perpFitRootV v o T argsort hp prior X y n nDim names).1 = []) := by
  have h := perpFitV_faithful (H := False) (o := o) (T := T) (hp := hp) (X := X) (y := y) (nDim := nDim) (names := names)
    v (n + 1) "root".toList n prior 0 (sortMatrix argsort X n nDim) (fun h => h.elim)
  unfold perpFitRootV perpFitRoot
  obtain ⟨h1, h2, -⟩ := h
  rcases hp' : perpFitV v o T hp X y nDim names (n + 1) "root".toList n prior 0 (sortMatrix argsort X n nDim) with ⟨out, e | t⟩ <;>
    rw [hp'] at h1 h2 <;> rw [← h1] <;> exact ⟨rfl, h2⟩

theorem report_setHp {hp' : Hyper K} (s1 s2 : Text) (first : PSplit K → Nat → Bool) (y : Nat → K) (side : Text) (lv : Nat)
    (R : List Nat) (t : PNode K K K P) :
    report s1 s2 first y side lv R (setHp hp' t) = report s1 s2 first y side lv R t := by
  induction t generalizing side lv R with
  | leaf i => rfl
  | split i sp l b c1 c2 ih1 ih2 =>
    have e1 := ih1 s1 (lv + 1) (R.filter (first sp))
    have e2 := ih2 s2 (lv + 1) (R.filter fun i => !first sp i)
    simp only [setHp] at e1 e2
    simp [setHp, mapTree, report, e1, e2]

theorem printed (hT : CodeTarget F T ml post) (hr : Training hp argsort n nDim)
    (hb : Built (exactCtx T (mlPair F ml) hp X y nDim names) none prior 0 (List.range n) t) :
    (perpFitRootV true (exactOps K) T argsort hp prior X y n nDim names).1 =
      linesOf "LHS".toList "RHS".toList "root".toList t := by
  have hw : Valid (fun _ => True) (exactCtx T (mlPair F ml) hp X y nDim names) argsort n := hr.valid hT
  have hg := sortMatrix_good hw.sort X n nDim hw.vals hr.rows
  have hfit := perpFit_complete _ hw.ops hw.target hw.dims none prior 0 _ _ hb (by simp) (n + 1)
    (by simp) _ hg (fun i hi => hw.vals i (List.mem_range.1 hi))
  rw [← (perpFitV_faithful (H := True) (o := exactOps K) (T := T) (hp := hp) (X := X) (y := y) (nDim := nDim)
    (names := names) true (n + 1) "root".toList n prior 0 (sortMatrix argsort X n nDim)
    (fun _ _ => by rw [hg.shape1 hr.dims]; simp)).lines trivial rfl _ hfit]
  unfold perpFitRootV
  rcases perpFitV true (exactOps K) T hp X y nDim names (n + 1) "root".toList n prior 0
    (sortMatrix argsort X n nDim) with ⟨out, e | t⟩ <;> rfl

/-- C122: what `fit` prints with `verbose=True`: one line for the root and for each node whose rows have different targets,
each node before its children, with level, side and number of rows in the tree that `fit` builds before pruning. -/
theorem C122_perpendicular (hT : CodeTarget F T ml post) (hr : Training hp argsort n nDim)
    (h : perpFitRoot (exactOps K) T argsort { hp with prune := false } prior X y n nDim names = .ok t) :
    (perpFitRootV true (exactOps K) T argsort hp prior X y n nDim names).1 =
      report "LHS".toList "RHS".toList (fun sp i => decide (X i sp.dim < sp.value)) y "root".toList 0 (List.range n) t := by
  have hv : Valid (fun _ => True) (withPrune (exactCtx T (mlPair F ml) hp X y nDim names) false) argsort n :=
    withPrune_valid (hr.valid hT) false
  have hw : Valid (fun _ => True) (exactCtx T (mlPair F ml) hp X y nDim names) argsort n := hr.valid hT
  have hb := built_withPrune hv hr.someRow hp.prune (fit_built hv rfl h)
  have hb : Built (exactCtx T (mlPair F ml) hp X y nDim names) none prior 0 (List.range n) (setHp hp t) := hb
  rw [printed hT hr hb, built_lines hw.ops hb (by simp) (fun _ _ _ _ => trivial), report_setHp]
  rfl

theorem built_count {c : Ctx K K P K O} {ok : K → Prop} (ho : LawfulOps c.o ok c.hp.splitPrecision) {par pa : Option P}
    {lv : Nat} {R : List Nat} {t : PNode K K K P} (hb : Built c par pa lv R t)
    (hok : ∀ i ∈ R, ∀ d < c.nDim, ok (c.X i d)) (side : Text) :
    (linesOf "LHS".toList "RHS".toList side t).length ≤ max 1 (R.length - 1) ∧
    (par.isSome → (linesOf "LHS".toList "RHS".toList side t).length ≤ R.length - 1) ∧
    (par = none → 1 ≤ (linesOf "LHS".toList "RHS".toList side t).length) := by
  induction hb generalizing side with
  | direct par pa lv R hsmall => simp [linesOf, Ctx.directInfo]
  | stay par pa lv R hdiv hno =>
    refine ⟨by simp [linesOf, Ctx.fitInfo], fun h => ?_, fun h => by simp [linesOf, Ctx.fitInfo]⟩
    have := (hdiv h).1
    simp only [linesOf, Ctx.fitInfo, Option.isSome_some, if_true, List.length_singleton]
    omega
  | split par pa lv R d cut name c1 c2 hdiv hd hcut hgain hmax hf1 hf2 hname h1 h2 ih1 ih2 =>
    have hokd : ∀ i ∈ R, ok (c.X i d) := fun i hi => hok i hi d hd
    obtain ⟨⟨i, hi, ei⟩, ⟨j, hj, ej⟩, ok1, ok2, hle, hnle, hg, -⟩ := cut_values ho hokd hcut
    have i1 := (ih1 (fun i hi => hok i (List.mem_filter.1 hi).1) "LHS".toList).2.1 rfl
    have i2 := (ih2 (fun i hi => hok i (List.mem_filter.1 hi).1) "RHS".toList).2.1 rfl
    have hlen : (c.rows1 R d (c.o.mid cut.1 cut.2)).length + (c.rows2 R d (c.o.mid cut.1 cut.2)).length = R.length := by
      rw [rows_routed ho hokd hcut]
      exact List.length_eq_length_filter_add _ |>.symm
    have hn1 : c.rows1 R d (c.o.mid cut.1 cut.2) ≠ [] := by
      refine List.ne_nil_of_mem (a := i) (List.mem_filter.2 ⟨hi, ?_⟩)
      rw [ei]
      exact (ho.below _ _ _ ok1 ok2 ok1 hle hg ((ho.le_total _ _ ok1 ok1).elim id id)).1
    have hn2 : c.rows2 R d (c.o.mid cut.1 cut.2) ≠ [] := by
      refine List.ne_nil_of_mem (a := j) (List.mem_filter.2 ⟨hj, ?_⟩)
      rw [ej]
      exact (ho.above _ _ _ ok1 ok2 ok2 hle hg ((ho.le_total _ _ ok2 ok2).elim id id)).2
    have l1 := List.length_pos_of_ne_nil hn1
    have l2 := List.length_pos_of_ne_nil hn2
    simp only [linesOf, List.length_cons, List.length_append]
    omega

/-- C122: the number of lines, which is the number of searches for a split, is at least one and, with two rows or more, at
most one less than the number of rows. -/
theorem C122_count (hT : CodeTarget F T ml post) (hr : Training hp argsort n nDim)
    (h : perpFitRoot (exactOps K) T argsort hp prior X y n nDim names = .ok t) :
    1 ≤ (perpFitRootV true (exactOps K) T argsort hp prior X y n nDim names).1.length ∧
    (perpFitRootV true (exactOps K) T argsort hp prior X y n nDim names).1.length ≤ max 1 (n - 1) := by
  have hw : Valid (fun _ => True) (exactCtx T (mlPair F ml) hp X y nDim names) argsort n := hr.valid hT
  obtain ⟨t0, hb, -⟩ := fit_cutOff hw h
  rw [printed hT hr hb]
  have := built_count hw.ops hb (fun _ _ _ _ => trivial) "root".toList
  exact ⟨this.2.2 rfl, by rw [List.length_range] at this; exact this.1⟩

end perp

/-! ## Hyperplane trees -/

section hyper

/-- C122 for hyperplane trees: printing does not change the result, and without `verbose` nothing is printed. -/
theorem C122_hyper_same {K P S O : Type} [Field K] [LinearOrder K] [Neg S] [LT S] [LE S] [DecidableLT S] [DecidableLE S]
    (v : Bool) (c : HCtx K P S O) (prior : Option P) (n : Nat) :
    (hFitRootV v c prior n).2 = hFitRoot c prior n ∧ (v = false → (hFitRootV v c prior n).1 = []) := by
  obtain ⟨h1, h2, -⟩ := hFitV_faithful (c := c) v (n + 1) "root".toList prior 0 (List.range n)
  unfold hFitRootV hFitRoot
  rcases hp' : hFitV v c (n + 1) "root".toList prior 0 (List.range n) with ⟨out, e | t⟩ <;>
    rw [hp'] at h1 h2 <;> rw [← h1] <;> exact ⟨rfl, h2⟩

variable {K P S O : Type} [Field K] [LinearOrder K] [IsStrictOrderedRing K] [LinearOrder S] [Neg S]
  {c : HCtx K P S O} {pair : PairScore K P S} {n : Nat} {prior : Option P} {t : HNode S K P}

theorem hbuilt_lines {par pa : Option P} {lv : Nat} {R : List Nat} {t : HNode S K P} (hb : HBuilt c pair par pa lv R t)
    (hlv : par = none ↔ lv = 0) (side : Text) :
    linesOf "back ".toList "front".toList side t =
      report "back ".toList "front".toList (fun sp i => decide (elevation sp (c.X i) < 0)) c.y side lv R t := by
  induction hb generalizing side with
  | direct par pa lv R hsmall =>
    have h1 : ¬ (lv = 0 ∨ Mixed c.y R) := by
      rintro (h | h)
      · exact absurd (hlv.2 h) (by simp)
      · exact hsmall ⟨mixed_length h, h⟩
    simp [linesOf, report, h1, hDirectInfo]
  | stay par pa lv R st hdiv hst hno =>
    have h1 : lv = 0 ∨ Mixed c.y R := by
      cases par with
      | none => exact .inl (hlv.1 rfl)
      | some p => exact .inr (hdiv rfl).2
    simp [linesOf, report, h1, hFitInfo]
  | split par pa lv R st sp c1 c2 hdiv hst hbest hne1 hne2 h1 h2 ih1 ih2 =>
    rw [linesOf, report, ih1 (by simp), ih2 (by simp)]
    have : above c R sp = R.filter fun i => !decide (elevation sp (c.X i) < 0) := by
      unfold above
      exact List.filter_congr fun i _ => by rw [← decide_not]; simp
    rw [this]
    rfl

theorem hbuilt_count {par pa : Option P} {lv : Nat} {R : List Nat} {t : HNode S K P} (hb : HBuilt c pair par pa lv R t)
    (side : Text) :
    (linesOf "back ".toList "front".toList side t).length ≤ max 1 (R.length - 1) ∧
    (par.isSome → (linesOf "back ".toList "front".toList side t).length ≤ R.length - 1) ∧
    (par = none → 1 ≤ (linesOf "back ".toList "front".toList side t).length) := by
  induction hb generalizing side with
  | direct par pa lv R hsmall => simp [linesOf, hDirectInfo]
  | stay par pa lv R st hdiv hst hno =>
    refine ⟨by simp [linesOf, hFitInfo], fun h => ?_, fun h => by simp [linesOf, hFitInfo]⟩
    have := (hdiv h).1
    simp only [linesOf, hFitInfo, Option.isSome_some, if_true, List.length_singleton]
    omega
  | split par pa lv R st sp c1 c2 hdiv hst hbest hne1 hne2 h1 h2 ih1 ih2 =>
    have i1 := (ih1 "back ".toList).2.1 rfl
    have i2 := (ih2 "front".toList).2.1 rfl
    have hlen : (below c R sp).length + (above c R sp).length = R.length := by
      have : above c R sp = R.filter fun i => !decide (elevation sp (c.X i) < 0) := by
        unfold above
        exact List.filter_congr fun i _ => by rw [← decide_not]; simp
      rw [this]
      exact List.length_eq_length_filter_add _ |>.symm
    have l1 := List.length_pos_of_ne_nil hne1
    have l2 := List.length_pos_of_ne_nil hne2
    simp only [linesOf, List.length_cons, List.length_append]
    omega

theorem report_withHyper {hp' : Hyper K} (s1 s2 : Text) (first : HSplit K → Nat → Bool) (y : Nat → K) (side : Text) (lv : Nat)
    (R : List Nat) (t : HNode S K P) :
    report s1 s2 first y side lv R (withHyper hp' t) = report s1 s2 first y side lv R t := by
  induction t generalizing side lv R with
  | leaf i => rfl
  | split i sp l b c1 c2 ih1 ih2 =>
    have e1 := ih1 s1 (lv + 1) (R.filter (first sp))
    have e2 := ih2 s2 (lv + 1) (R.filter fun i => !first sp i)
    simp only [withHyper] at e1 e2
    simp [withHyper, mapNode, report, e1, e2]

theorem hprinted (h : hFit c (n + 1) prior 0 (List.range n) = .ok t) :
    (hFitRootV true c prior n).1 = linesOf "back ".toList "front".toList "root".toList t := by
  rw [← (hFitV_faithful (c := c) true (n + 1) "root".toList prior 0 (List.range n)).lines trivial rfl t h]
  unfold hFitRootV
  rcases hFitV true c (n + 1) "root".toList prior 0 (List.range n) with ⟨out, e | t⟩ <;> rfl

/-- C122 for hyperplane trees: the lines printed, in terms of the tree before pruning, and their number. -/
theorem C122_hyperplane (hT : LawfulTarget c.T pair) (hs : IsArgsort (exactOps K).le (fun _ => True) c.A.argsort)
    (h : hFitRoot { c with hp := { c.hp with prune := false } } prior n = .ok t) :
    (hFitRootV true c prior n).1 = report "back ".toList "front".toList (fun sp i => decide (elevation sp (c.X i) < 0)) c.y
      "root".toList 0 (List.range n) t ∧
    1 ≤ (hFitRootV true c prior n).1.length ∧ (hFitRootV true c prior n).1.length ≤ max 1 (n - 1) := by
  have h0 : hFit (hWithPrune c false) (n + 1) prior 0 (List.range n) = .ok t := by
    unfold hFitRoot at h
    split at h
    · cases h
    · next t0 ht0 => exact ht0.trans h
  have h1 : hFit c (n + 1) prior 0 (List.range n) = .ok (withHyper c.hp t) := by
    have := hWithPrune_fit (hWithPrune c false) c.hp.prune (n + 1) prior 0 (List.range n)
    rw [h0] at this
    exact this
  have hb : HBuilt c pair none prior 0 (List.range n) (withHyper c.hp t) := hFit_built hT hs (by simp) h1
  rw [hprinted h1]
  have := hbuilt_count hb "root".toList
  refine ⟨?_, this.2.2 rfl, by simpa using this.1⟩
  rw [hbuilt_lines hb (by simp), report_withHyper]

end hyper

/-! ## Reading the lines -/

theorem pad10_drop (n : Nat) : (pad10 n).dropWhile (· == ' ') = decText n := by
  unfold pad10
  have h : ∀ k, (List.replicate k ' ' ++ decText n).dropWhile (· == ' ') = decText n := by
    intro k
    induction k with
    | zero =>
      cases hd : decText n with
      | nil => rfl
      | cons ch l =>
        have : ch.isDigit := (decText_num n).2 ch (by rw [hd]; exact List.mem_cons_self)
        have hne : ch ≠ ' ' := by rintro rfl; exact absurd this (by decide)
        simp [hne]
    | succ k ih => simpa [List.replicate_succ] using ih
  exact h _

theorem digits_split {a a' b b' : Text} (ha : ∀ ch ∈ a, ch.isDigit) (ha' : ∀ ch ∈ a', ch.isDigit)
    (h : a ++ ' ' :: b = a' ++ ' ' :: b') : a = a' ∧ b = b' := by
  induction a generalizing a' with
  | nil =>
    cases a' with
    | nil => simpa using h
    | cons ch l =>
      rw [List.nil_append, List.cons_append, List.cons.injEq] at h
      have := ha' ch List.mem_cons_self
      rw [← h.1] at this
      exact absurd this (by decide)
  | cons ch l ih =>
    cases a' with
    | nil =>
      rw [List.nil_append, List.cons_append, List.cons.injEq] at h
      have := ha ch List.mem_cons_self
      rw [h.1] at this
      exact absurd this (by decide)
    | cons ch' l' =>
      rw [List.cons_append, List.cons_append, List.cons.injEq] at h
      obtain ⟨e1, e2⟩ := ih (fun c hc => ha c (List.mem_cons_of_mem _ hc)) (fun c hc => ha' c (List.mem_cons_of_mem _ hc)) h.2
      exact ⟨by rw [h.1, e1], e2⟩

/-- C122: a line tells the level, the side and the number of rows. -/
theorem C122_readable {lv lv' m m' : Nat} {side side' : Text}
    (hs : side ∈ ["root".toList, "LHS".toList, "RHS".toList, "back ".toList, "front".toList])
    (hs' : side' ∈ ["root".toList, "LHS".toList, "RHS".toList, "back ".toList, "front".toList])
    (h : line lv side m = line lv' side' m') : lv = lv' ∧ side = side' ∧ m = m' := by
  unfold line at h
  have h := List.append_cancel_left h
  obtain ⟨h1, h2⟩ := digits_split (b := side ++ (" with ".toList ++ (pad10 m ++ " data points".toList)))
    (b' := side' ++ (" with ".toList ++ (pad10 m' ++ " data points".toList))) (decText_num lv).2 (decText_num lv').2 h
  have hside : side = side' := by
    fin_cases hs <;> fin_cases hs' <;> first | rfl | exact absurd h2 (by simp)
  subst hside
  have h3 := List.append_cancel_right (List.append_cancel_left (List.append_cancel_left h2))
  exact ⟨decText_inj h1, rfl, decText_inj (by rw [← pad10_drop m, h3, pad10_drop])⟩

/-- C122: the text of a line, with the number of rows right aligned in at least ten characters. -/
theorem C122_text (lv m : Nat) (side : Text) : ∃ k,
    line lv side m = "Training level ".toList ++ (toString lv).toList ++ " ".toList ++ side ++ " with ".toList ++
      List.replicate k ' ' ++ (toString m).toList ++ " data points".toList ∧
    k + (toString m).toList.length = max 10 (toString m).toList.length := by
  have h : ∀ n : Nat, (toString n).toList = decText n := fun n => by
    rw [show toString n = Nat.repr n from rfl]
    unfold Nat.repr decText
    exact String.toList_ofList
  rw [h, h]
  generalize hd : (decText m).length = d
  refine ⟨10 - d, ?_, by omega⟩
  unfold line pad10
  rw [hd]
  simp only [List.append_assoc]

/-- C122 on a classification fit of twelve rows with two splits: two of the five nodes were searched for splits. -/
example : (perpFitRootV true (exactOps ℝ) (clsTarget realFns) realSort (castHp sampleHp) (some (castL [1, 1]))
    (castCtx sampleCtx).X (castCtx sampleCtx).y 12 2 ["a", "b"]).1.map String.ofList =
      ["Training level 0 root with         12 data points", "Training level 1 RHS with          8 data points"] := by
  have hr : Training (castHp sampleHp) realSort 12 2 :=
    ⟨by simp [castHp, sampleHp], realSort_sorts, by decide, by decide, by decide⟩
  have hb := fit_built (hr.valid (CodeTarget.classification (F := realFns))) (by simp [castHp, sampleHp]) sampleReal_fit
  refine (congrArg (List.map String.ofList) (printed (CodeTarget.classification (F := realFns)) hr hb)).trans ?_
  simp only [castTree, sampleTree, mapTree, linesOf, mapInfo]
  decide +kernel

/-- C122 on a hyperplane regression fit of two rows that is split: only the root was searched. -/
example : (hFitRootV true (hReg2 ⟨0, 1, 1, 1⟩ 0 1) (some ⟨0, 1, 1, 1⟩) 2).1.length = 1 := by
  obtain ⟨i, i1, i2, l, s, hfit⟩ := hReg2_fit ⟨0, 1, 1, 1⟩ 0 1
  obtain ⟨-, h1, h2⟩ := C122_hyperplane (c := hReg2 ⟨0, 1, 1, 1⟩ 0 1) (CodeTarget.regression (F := realFns)).textbook.lawful
    realArith_euclidean.isArgsort hfit
  exact le_antisymm h2 h1

/-- C122 with all sides in use. -/
example : line 11 "front".toList 7 ≠ line 1 "front".toList 17 := fun h =>
  absurd (C122_readable (by simp) (by simp) h).1 (by decide)

end BT
