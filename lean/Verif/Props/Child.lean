import Verif.Model.Child
import Verif.Props.Object
import Verif.Props.Subtree

/-!
# C86: the nodes of a fitted tree as models
-/

set_option linter.unusedSectionVars false

namespace BT
open Spec

section
variable {A Sp S K P O Row : Type}

theorem at_ofNode (erased : A) (attr : Sp → A) (t : Node Sp S K P) (addr : List Bool) (u : Node Sp S K P)
    (hu : nodeAt t addr = some u) : (Obj.ofNode erased attr t).at addr = Obj.ofNode erased attr u := by
  induction addr generalizing t with
  | nil =>
    rw [nodeAt, Option.some.injEq] at hu
    rw [hu]
    rfl
  | cons b addr ih =>
    cases t with
    | leaf i => cases hu
    | split i sp l b' c1 c2 =>
      cases b with
      | false => exact ih c1 hu
      | true => exact ih c2 hu

theorem walk_sub (rt : Router Sp Row) (t : Node Sp S K P) (x : Row) (addr : List Bool) (u : Node Sp S K P)
    (hu : nodeAt t addr = some u) (hp : passes rt t addr x = true) : walk rt t x = walk rt u x := by
  induction addr generalizing t with
  | nil =>
    rw [nodeAt, Option.some.injEq] at hu
    rw [hu]
  | cons b addr ih =>
    cases t with
    | leaf i => cases hu
    | split i sp l b' c1 c2 =>
      rw [passes] at hp
      rw [walk]
      by_cases h1 : rt.goes1 sp x = true
      · rw [if_pos h1] at hp ⊢
        cases b with
        | true => simp at hp
        | false => exact ih c1 hu (by simpa using hp)
      · rw [if_neg h1] at hp ⊢
        by_cases h2 : rt.goes2 sp x = true
        · rw [if_pos h2] at hp ⊢
          cases b with
          | false => simp at hp
          | true => exact ih c2 hu (by simpa using hp)
        · rw [if_neg h2] at hp
          cases hp

end

section answers
variable {E V E' K P S O A Sp : Type} [Inhabited V] [Field K] [DecidableEq K]
  {k : Kit E V E' K P S O A Sp} {attr : Sp → A}
  {fit : NArr V → NArr K → List String → Hyper K → Option P → Nat → Except Err (Node Sp S K P)}

/-- C86, what does hold: a node that was fitted itself (it has the attribute `n_dim_`) answers prediction queries like
the whole model, for all rows of the query whose walk passes through the node.
Missing: nodes that were not fitted, for which the claim is false (`C86_unusable`, `C86_refuted`). -/
theorem C86_agrees_partial (hk : LawfulKit k attr fit) (hex : Exclusive k.router) (t : Node Sp S K P)
    {X : XInput E V} {x : NArr V} {ns : List String} (hX : normalize k.obX X none = .ok (x, ns))
    (hd : t.info.nDim = some x.cols) (addr : List Bool) (u : Node Sp S K P) (hu : nodeAt t addr = some u)
    (hdu : u.info.nDim = some x.cols) :
    let model := Obj.ofNode k.erased attr t
    let node := model.at addr
    ∃ (v v' : List K) (m m' : List (Option O)),
      ask k model (.predict X) = .ok (.values v) ∧ ask k node (.predict X) = .ok (.values v') ∧
      ask k model (.predictProba X) = .ok (.means m) ∧ ask k node (.predictProba X) = .ok (.means m') ∧
      v'.length = v.length ∧ m'.length = m.length ∧
      ∀ i < x.rows, passes k.router t addr (x.mat i) = true → v'[i]? = v[i]? ∧ m'[i]? = m[i]? := by
  intro model node
  have hn : node = Obj.ofNode k.erased attr u := at_ofNode _ _ _ _ _ hu
  obtain ⟨a1, a2, -⟩ := ask_ofNode hk t hX hd
  obtain ⟨b1, b2, -⟩ := ask_ofNode hk u hX hdu
  refine ⟨_, _, _, _, a1, by rw [hn]; exact b1, a2, by rw [hn]; exact b2, ?_, ?_, ?_⟩
  · simp [predict, predictRows_length]
  · simp [predictProba, predictRows_length]
  · intro i hi hp
    have hw := walk_sub k.router t (x.mat i) addr u hu hp
    unfold predict predictProba
    rw [predictRows_getElem? _ hex _ _ _ _ _ _ hi, predictRows_getElem? _ hex _ _ _ _ _ _ hi,
      predictRows_getElem? _ hex _ _ _ _ _ _ hi, predictRows_getElem? _ hex _ _ _ _ _ _ hi, hw]
    exact ⟨rfl, rfl⟩

/-- A node without `n_dim_`: every prediction method raises `AttributeError` on every argument that can be normalised,
and so does `feature_importance()`, although `is_fitted()` is `True` and `get_depth()` and `get_n_leaves()` work. -/
theorem C86_unusable (hk : LawfulKit k attr fit) (t : Node Sp S K P) (addr : List Bool) (u : Node Sp S K P)
    (hu : nodeAt t addr = some u) (hdu : u.info.nDim = none) :
    let node := (Obj.ofNode k.erased attr t).at addr
    node.isFitted = true ∧
    (∀ (q : Query E V) (X : XInput E V) (x : NArr V) (ns : List String), q.predicts = some X →
      (k.paths.isSome ∨ ∀ X, q ≠ .paths X) → normalize k.obX X none = .ok (x, ns) →
      ask k node q = .error .attributeError) ∧
    ask k node .featureImportance = .error .attributeError ∧
    ask k node .depth = .ok (.number u.getDepth) ∧ ask k node .nLeaves = .ok (.number u.getNLeaves) := by
  intro node
  have hn : node = Obj.ofNode k.erased attr u := at_ofNode _ _ _ _ _ hu
  have hf : node.isFitted = true := by rw [hn]; exact ofNode_isFitted u
  have hD : node.nDim = none := by rw [hn, ofNode_nDim, hdu]
  refine ⟨hf, fun q X x ns hq hp hX => ?_, ?_, ?_, ?_⟩
  · refine ask_checked hq hp ?_
    unfold checkedX
    rw [hX]
    dsimp only
    unfold ensureIsFitted
    rw [hf, hD]
    rfl
  · unfold ask ensureIsFitted
    dsimp only
    rw [hf, hD]
    rfl
  · rw [hn]
    unfold ask
    dsimp only
    rw [ofNode_depth hk.view]
    rfl
  · rw [hn]
    unfold ask
    dsimp only
    rw [ofNode_nLeaves hk.view]
    rfl

end answers

section
variable {K P O : Type} [Field K] [LinearOrder K] [IsStrictOrderedRing K] {F : Fns K} {T : Target K P K O}
  {ml : P → List K → K} {post : P → List K → P} {hp : Hyper K} {argsort : List K → List Nat} {X : Nat → Nat → K}
  {y : Nat → K} {n nDim : Nat} {names : List String}

/-- Which nodes of a fitted perpendicular tree have `n_dim_`: the root and the nodes with two different targets. -/
theorem C86_which (hT : CodeTarget F T ml post) (hr : Training hp argsort n nDim) {prior : Option P}
    {t : PNode K K K P} (h : perpFitRoot (exactOps K) T argsort hp prior X y n nDim names = .ok t)
    (addr : List Bool) (u : PNode K K K P) (hu : nodeAt t addr = some u) :
    let R := rowsAt X t n addr
    (u.info.nDim = some nDim ∧ (addr = [] ∨ ∃ i ∈ R, ∃ j ∈ R, y i ≠ y j)) ∨
    (u.info.nDim = none ∧ addr ≠ [] ∧ ∀ i ∈ R, ∀ j ∈ R, y i = y j) := by
  intro R
  obtain ⟨par, pa, u0, hB, hi, -, -, hnil, hsome⟩ :=
    fit_node (c := exactCtx T (mlPair F ml) hp X y nDim names) (hr.valid hT) h hu
  have hR : ((List.range n).filter fun i => passes (perpRouter (exactOps K)) t addr (X i)) = R :=
    routed_eq T (mlPair F ml) hp X y nDim names t n addr
  rw [show ((List.range n).filter fun i => passes (perpRouter (exactCtx T (mlPair F ml) hp X y nDim names).o) t addr
    ((exactCtx T (mlPair F ml) hp X y nDim names).X i)) = R from hR] at hB
  rw [hi]
  have hd : par.isSome → (exactCtx T (mlPair F ml) hp X y nDim names).Divisible R →
      ∃ i ∈ R, ∃ j ∈ R, y i ≠ y j := fun _ h => h.2
  have hroot : addr = [] ∨ par.isSome := by
    by_cases h0 : addr = []
    · exact .inl h0
    · exact .inr (hsome h0).1
  cases hB with
  | direct par pa _ _ hsmall =>
    refine .inr ⟨rfl, fun h0 => (by have := (hnil h0).1; cases this), fun i hi j hj => ?_⟩
    by_contra hij
    exact hsmall ⟨two_le_of_ne hi hj fun e => hij (congrArg _ e), i, hi, j, hj, hij⟩
  | stay _ _ _ _ hdiv => exact .inl ⟨rfl, hroot.imp_right fun hp => (hdiv hp).2⟩
  | split _ _ _ _ _ _ _ _ _ hdiv => exact .inl ⟨rfl, hroot.imp_right fun hp => (hdiv hp).2⟩

end

section
variable {K P S O : Type} [Field K] [LinearOrder K] [IsStrictOrderedRing K] [LinearOrder S] [Neg S]
  {c : HCtx K P S O}

theorem hFit_nDim {fuel : Nat} {pa : Option P} {lv : Nat} {R : List Nat} {t : HNode S K P}
    (h : hFit c fuel pa lv R = .ok t) (addr : List Bool) (u : HNode S K P) (hu : nodeAt t addr = some u) :
    (u.info.nDim = some c.nDim ∧
      (addr = [] ∨ HDivisible c (R.filter fun i => passes hyperRouter t addr (c.X i)))) ∨
    (u.info.nDim = none ∧ addr ≠ [] ∧ ¬ HDivisible c (R.filter fun i => passes hyperRouter t addr (c.X i))) := by
  induction addr generalizing fuel pa lv R t with
  | nil =>
    rw [nodeAt, Option.some.injEq] at hu
    subst hu
    refine .inl ⟨?_, .inl rfl⟩
    cases fuel with
    | zero => cases h
    | succ fuel =>
      obtain ⟨st, -, hc⟩ := hFit_step h
      rcases hc with ⟨rfl, -⟩ | ⟨sp, c1, c2, -, -, -, rfl, -⟩ <;> rfl
  | cons b addr ih =>
    cases fuel with
    | zero => cases h
    | succ fuel =>
    obtain ⟨st, -, hc⟩ := hFit_step h
    rcases hc with ⟨rfl, -⟩ | ⟨sp, c1, c2, -, hne1, hne2, rfl, hch⟩
    · cases b <;> cases hu
    · have key : ∀ (R' F : List Nat) (d : HNode S K P), nodeAt d addr = some u →
          F = R'.filter (fun i => passes hyperRouter d addr (c.X i)) →
          ((HDivisible c R' ∧ hFit c fuel (some (c.T.posterior (R'.map c.y) (hPrior c pa R) 0)) (lv + 1) R' = .ok d) ∨
              (¬ HDivisible c R' ∧ d = .leaf (hDirectInfo c (hPrior c pa R)
                (c.T.posterior (R'.map c.y) (hPrior c pa R) 0) (lv + 1) R'))) →
          (u.info.nDim = some c.nDim ∧ (b :: addr = [] ∨ HDivisible c F)) ∨
            (u.info.nDim = none ∧ b :: addr ≠ [] ∧ ¬ HDivisible c F) := by
        rintro R' F d hn rfl hor
        rcases hor with ⟨hdR, hfit⟩ | ⟨hnd, rfl⟩
        · rcases ih hfit hn with ⟨h1, h2⟩ | ⟨h1, -, h2⟩
          · refine .inl ⟨h1, .inr ?_⟩
            rcases h2 with rfl | h2
            · simpa [passes] using hdR
            · exact h2
          · exact .inr ⟨h1, by simp, h2⟩
        · cases addr with
          | nil =>
            rw [nodeAt, Option.some.injEq] at hn
            subst hn
            exact .inr ⟨rfl, by simp, by simpa [passes] using hnd⟩
          | cons b' addr => cases b' <;> cases hn
      cases b with
      | false =>
        refine key (below c R sp) _ c1 hu ?_ (hch false)
        rw [← below_eq, List.filter_filter]
        refine List.filter_congr fun i _ => ?_
        simp [passes, Bool.and_comm]
      | true =>
        refine key (above c R sp) _ c2 hu ?_ (hch true)
        rw [← above_eq, List.filter_filter]
        refine List.filter_congr fun i _ => ?_
        simp [passes, hyper_complementary, Bool.and_comm]

end

/-- Which nodes of a fitted hyperplane tree have `n_dim_`. -/
theorem C86_which_hyper {P O : Type} {c : HCtx ℝ P ℝ O} {prior : Option P} {n : Nat} {t : HNode ℝ ℝ P}
    (h : hFitRoot c prior n = .ok t) (addr : List Bool) (u : HNode ℝ ℝ P) (hu : nodeAt t addr = some u) :
    let R := hRowsAt c.X t n addr
    (u.info.nDim = some c.nDim ∧ (addr = [] ∨ ∃ i ∈ R, ∃ j ∈ R, c.y i ≠ c.y j)) ∨
    (u.info.nDim = none ∧ addr ≠ [] ∧ ∀ i ∈ R, ∀ j ∈ R, c.y i = c.y j) := by
  intro R
  unfold hFitRoot at h
  cases h0 : hFit c (n + 1) prior 0 (List.range n) with
  | error e => rw [h0] at h; cases h
  | ok t0 =>
    rw [h0] at h
    have ht : t = if c.hp.prune then Spec.merge c.T.predictLeaf t0 else t0 := by
      cases hpr : c.hp.prune with
      | false =>
        simp only [hpr] at h
        cases h
        rfl
      | true =>
        simp only [hpr] at h
        have h' : prune c.T.predictLeaf t0 = .ok t := h
        rw [prune_eq] at h'
        cases h'
        rfl
    subst ht
    obtain ⟨u0, hu0, -, hinfo, hpass⟩ := nodeAt_pruned hu
    have hR : ((List.range n).filter fun i => passes hyperRouter t0 addr (c.X i)) = R := by
      rw [show R = hRouted c (if c.hp.prune then Spec.merge c.T.predictLeaf t0 else t0) n addr from hRowsAt_eq ..]
      exact List.filter_congr fun i _ => (hpass hyperRouter (c.X i)).symm
    have := hFit_nDim h0 addr u0 hu0
    rw [hR] at this
    rw [hinfo]
    rcases this with ⟨h1, h2⟩ | ⟨h1, h2, h3⟩
    · exact .inl ⟨h1, h2.imp_right fun h => h.2⟩
    · refine .inr ⟨h1, h2, fun i hi j hj => ?_⟩
      by_contra hij
      exact h3 ⟨two_le_of_ne hi hj fun e => hij (congrArg _ e), i, hi, j, hj, hij⟩

/-! ## A child that cannot predict -/

theorem lifeChild : nodeAt (lifeTree lifeX1) [false] = some (.leaf ⟨lifeHp, some [1, 1], 1, none, 4, [5, 1]⟩) := by
  decide +kernel

/-- C86 is false of the code: a model is fitted and predicts; the walk of the query row goes to `child1_`, but
`child1_.predict` raises `AttributeError` for it. -/
theorem C86_refuted (obX obY : ObjOps Unit ℝ) (fmt : Fmt (PSplit ℝ) (List ℝ)) :
    let k := lifeKit obX obY fmt
    let new := Obj.fresh .erased (castHp lifeHp) (some (castL [1, 1])) 0
    let fit1 := fitCall k new (.array (.native (castArr lifeX1))) (.array (.native (castArr lifeY)))
      (some ["a", "b"])
    let q := Query.predict (.array (.native (castArr lifeQ)))
    fit1.2 = none ∧ ask k fit1.1 q = .ok (.values [0]) ∧
    (fit1.1.child false).isFitted = true ∧ ask k (fit1.1.child false) q = .error .attributeError := by
  intro k new fit1 q
  obtain ⟨h1, -, h2, -⟩ := C39_refuted obX obY fmt
  have hk : LawfulKit k PAttr.ofSplit (perpTree (exactOps ℝ) (clsTarget realFns) realSort) :=
    perpKit_lawful obX obY clsCheckTarget (exactOps ℝ) (clsTarget realFns) realSort fmt
  have hf : fit1 = (perpObj (castTree lifeHp (lifeTree lifeX1)), none) :=
    fitCall_ok hk (lifeValidate obX obY fmt lifeX1 rfl ["a", "b"]) (lifePerpTree lifeX1 rfl lifeFit1)
  have hX : normalize k.obX (.array (.native (castArr lifeQ))) none = .ok (castArr lifeQ, defaultNames 2) := rfl
  obtain ⟨u, hu, hd⟩ : ∃ u, nodeAt (castTree lifeHp (lifeTree lifeX1)) [false] = some u ∧ u.info.nDim = none := by
    have hc := lifeChild
    generalize lifeTree lifeX1 = t at hc
    cases t with
    | leaf i => cases hc
    | split i sp l b c1 c2 =>
      have e : c1 = .leaf ⟨lifeHp, some [1, 1], 1, none, 4, [5, 1]⟩ := by
        simpa [nodeAt] using hc
      subst e
      exact ⟨_, nodeAt_nil _, rfl⟩
  obtain ⟨g1, g2, -⟩ := C86_unusable hk _ [false] u hu hd
  have hat : fit1.1.child false = (Obj.ofNode k.erased PAttr.ofSplit (castTree lifeHp (lifeTree lifeX1))).at [false] := by
    rw [hf]
    rfl
  refine ⟨h1, h2, ?_, ?_⟩
  · rw [hat]; exact g1
  · rw [hat]
    exact g2 q _ _ _ rfl (.inr fun _ => by simp [q]) hX

/-- The right child of the sample's root was fitted itself and predicts like the whole tree. -/
example (obX : ObjOps Unit ℝ) (obY : ObjOps Unit ℝ) (fmt : Fmt (PSplit ℝ) (List ℝ)) (v : ℝ) (hv : (3 / 2 : ℝ) ≤ v) :
    let k := perpKit obX obY clsCheckTarget (exactOps ℝ) (clsTarget realFns) realSort fmt
    let model := Obj.ofNode k.erased PAttr.ofSplit (castTree sampleHp sampleTree)
    let X : XInput Unit ℝ := .array (.native ⟨[1, 2], .float64, [v, 7]⟩)
    ∃ w w', ask k model (.predict X) = .ok (.values w) ∧ ask k (model.at [true]) (.predict X) = .ok (.values w') ∧
      w'[0]? = w[0]? := by
  intro k model X
  have hk : LawfulKit k PAttr.ofSplit (perpTree (exactOps ℝ) (clsTarget realFns) realSort) :=
    perpKit_lawful obX obY clsCheckTarget (exactOps ℝ) (clsTarget realFns) realSort fmt
  obtain ⟨w, w', m, m', h1, h2, -, -, -, -, h⟩ := C86_agrees_partial hk exact_exclusive (castTree sampleHp sampleTree)
    (X := X) (x := ⟨[1, 2], .float64, [v, 7]⟩) (ns := defaultNames 2) rfl rfl [true] _ rfl rfl
  refine ⟨w, w', h1, h2, (h 0 Nat.one_pos ?_).1⟩
  show (if decide (v < ((3 / 2 : ℚ) : ℝ)) = true then _ else _) = true
  rw [if_neg (by simpa using hv)]
  show (if decide (((3 / 2 : ℚ) : ℝ) ≤ v) = true then _ else _) = true
  rw [if_pos (by simpa using hv)]
  rfl

end BT
