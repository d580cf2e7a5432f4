import Verif.Model.Object
import Verif.Lemmas.Prune

/-!
# Model objects: a successful fit leaves exactly the object of the fitted tree
-/

namespace BT
open Spec

section generic
variable {A Sp S K P O Row : Type} {view : A → Option Sp} {erased : A} {attr : Sp → A}

/-- `view` inverts the two ways split attributes are written. -/
structure LawfulView (view : A → Option Sp) (erased : A) (attr : Sp → A) : Prop where
  erased : view erased = none
  attr : ∀ sp, view (attr sp) = some sp

theorem pattr_lawful {V : Type} : LawfulView (A := PAttr V) PAttr.view .erased .ofSplit :=
  ⟨rfl, fun _ => rfl⟩

theorem hattr_lawful {K : Type} : LawfulView (A := Option (HSplit K)) id none some :=
  ⟨rfl, fun _ => rfl⟩

theorem ofNode_isAbsent (t : Node Sp S K P) : (Obj.ofNode erased attr t).isAbsent = false := by
  cases t <;> rfl

theorem ofNode_size (t : Node Sp S K P) : (Obj.ofNode erased attr t).size = t.size := by
  induction t with
  | leaf i => simp [Obj.ofNode, Obj.size, Node.size]
  | split i sp l b c1 c2 h1 h2 => simp [Obj.ofNode, Obj.size, Node.size, h1, h2]

theorem ofNode_isLeaf (hv : LawfulView view erased attr) (t : Node Sp S K P) :
    (Obj.ofNode erased attr t).isLeaf view = .ok t.isLeaf := by
  cases t with
  | leaf i => simp [Obj.ofNode, Obj.isLeaf, hv.erased, Node.isLeaf]
  | split i sp l b c1 c2 => simp [Obj.ofNode, Obj.isLeaf, hv.attr, Node.isLeaf]

theorem ofNode_isFitted (t : Node Sp S K P) : (Obj.ofNode erased attr t).isFitted = true := by
  cases t <;> rfl

theorem ofNode_nDim (t : Node Sp S K P) : (Obj.ofNode erased attr t).nDim = t.info.nDim := by
  cases t <;> rfl

theorem ofNode_depth (hv : LawfulView view erased attr) (t : Node Sp S K P) (d : Nat) :
    (Obj.ofNode erased attr t).updateDepth view d = .ok (t.updateDepth d) := by
  induction t generalizing d with
  | leaf i => simp [Obj.ofNode, Obj.updateDepth, hv.erased, Node.updateDepth]
  | split i sp l b c1 c2 h1 h2 =>
    simp only [Obj.ofNode, Obj.updateDepth, hv.attr, Node.updateDepth, ofNode_isAbsent, Bool.false_eq_true,
      if_false, h1, h2]

theorem ofNode_nLeaves (hv : LawfulView view erased attr) (t : Node Sp S K P) (d : Nat) :
    (Obj.ofNode erased attr t).updateNLeaves view d = .ok (t.updateNLeaves d) := by
  induction t generalizing d with
  | leaf i => simp [Obj.ofNode, Obj.updateNLeaves, hv.erased, Node.updateNLeaves]
  | split i sp l b c1 c2 h1 h2 =>
    simp only [Obj.ofNode, Obj.updateNLeaves, hv.attr, Node.updateNLeaves, ofNode_isAbsent, Bool.false_eq_true,
      if_false, h1, h2]

theorem ofNode_predictInto (hv : LawfulView view erased attr) (rt : Router Sp Row)
    (val : Option P → P → O) (X : Nat → Row) (t : Node Sp S K P) (idx : List Nat) (y : List O) :
    (Obj.ofNode erased attr t).predictInto view rt val X idx y =
      .ok (predictInto rt (fun i => val i.prior i.posterior) X t idx y) := by
  induction t generalizing idx y with
  | leaf i => simp [Obj.ofNode, Obj.predictInto, hv.erased, predictInto]
  | split i sp l b c1 c2 h1 h2 =>
    simp only [Obj.ofNode, Obj.predictInto, hv.attr, predictInto]
    by_cases e1 : (childIndices rt sp X idx).1.length > 0
    · rw [if_pos e1, if_pos e1, h1]
      by_cases e2 : (childIndices rt sp X idx).2.length > 0
      · simp only [if_pos e2, h2]
      · simp only [if_neg e2]
    · rw [if_neg e1, if_neg e1]
      by_cases e2 : (childIndices rt sp X idx).2.length > 0
      · simp only [if_pos e2, h2]
      · simp only [if_neg e2]

theorem ofNode_predictLeaf (pred : P → O) (t : Node Sp S K P) :
    (Obj.ofNode erased attr t).predictLeaf pred = .ok (pred t.info.posterior) := by
  cases t <;> rfl

theorem ofNode_erase (i : Info K P) (sp : Sp) (l b : S) (c1 c2 : Node Sp S K P) :
    (Obj.ofNode erased attr (.split i sp l b c1 c2)).erase erased = Obj.ofNode erased attr (.leaf i) := rfl

theorem ofNode_prune [DecidableEq O] (hv : LawfulView view erased attr) (pred : P → O) (fuel : Nat)
    (t : Node Sp S K P) :
    (Obj.ofNode erased attr t).pruneFuel view erased pred fuel =
      (pruneFuel pred fuel t).map (Obj.ofNode erased attr) := by
  induction fuel generalizing t with
  | zero => simp [Obj.pruneFuel, pruneFuel, Except.map]
  | succ fuel ih =>
    cases t with
    | leaf i =>
      simp [Obj.ofNode, Obj.pruneFuel, pruneFuel, Except.map, Obj.isLeaf, hv.erased, bind, Except.bind, pure,
        Except.pure]
    | split i sp l b c1 c2 =>
      have hself : ∀ c1' c2', Obj.ofNode erased attr (.split i sp l b c1' c2') =
        .mk i.hp i.prior i.level ⟨attr sp, some l, some b, i.nDim, some i.nData, some i.posterior⟩
          (Obj.ofNode erased attr c1') (Obj.ofNode erased attr c2') := fun _ _ => rfl
      have hnl : (Node.split i sp l b c1 c2).isLeaf = false := rfl
      rw [hself, Obj.pruneFuel]
      simp only [← hself, ofNode_isLeaf hv, ofNode_depth hv, ofNode_nLeaves hv, ofNode_predictLeaf,
        bind, Except.bind, hnl, ih]
      rw [pruneFuel]
      simp only [bind, Except.bind, pure, Except.pure, Bool.false_eq_true, if_false, ofNode_erase]
      have fin : ∀ (t' : Node Sp S K P) (d n : Nat),
          (if d ≠ t'.updateDepth 0 then (pruneFuel pred fuel t').map (Obj.ofNode erased attr)
            else if n ≠ t'.updateNLeaves 0 then (pruneFuel pred fuel t').map (Obj.ofNode erased attr)
            else .ok (Obj.ofNode erased attr t')) =
          Except.map (Obj.ofNode erased attr)
            (if d ≠ t'.getDepth ∨ n ≠ t'.getNLeaves then pruneFuel pred fuel t' else .ok t') := by
        intro t' d n
        rw [show t'.updateDepth 0 = t'.getDepth from rfl, show t'.updateNLeaves 0 = t'.getNLeaves from rfl]
        by_cases e1 : d ≠ t'.getDepth
        · rw [if_pos e1, if_pos (Or.inl e1)]
        · rw [if_neg e1]
          by_cases e2 : n ≠ t'.getNLeaves
          · simp only [if_pos e2, if_pos (Or.inr e2)]
          · simp only [if_neg e2, if_neg (fun h : _ ∨ _ => h.elim e1 e2), Except.map]
      cases h1 : c1.isLeaf with
      | true =>
        cases h2 : c2.isLeaf with
        | true =>
          simp only [if_true, Bool.and_self]
          by_cases e : pred c1.info.posterior = pred c2.info.posterior
          · simp only [if_pos e]
            simp only [ofNode_depth hv, ofNode_nLeaves hv, ih]
            exact fin _ _ _
          · simp only [if_neg e]
            simp only [ofNode_depth hv, ofNode_nLeaves hv, ih]
            exact fin _ _ _
        | false =>
          simp only [if_true, Bool.and_false, Bool.false_eq_true, if_false]
          cases pruneFuel pred fuel c1 with
          | error e => rfl
          | ok c1' =>
            simp only [Except.map]
            cases pruneFuel pred fuel c2 with
            | error e => rfl
            | ok c2' =>
              simp only [Except.map, ← hself, ofNode_depth hv, ofNode_nLeaves hv, ih]
              exact fin _ _ _
      | false =>
        simp only [Bool.false_and, Bool.false_eq_true, if_false]
        cases pruneFuel pred fuel c1 with
        | error e => rfl
        | ok c1' =>
          simp only [Except.map]
          cases pruneFuel pred fuel c2 with
          | error e => rfl
          | ok c2' =>
            simp only [Except.map, ← hself, ofNode_depth hv, ofNode_nLeaves hv, ih]
            exact fin _ _ _

end generic

section perp
variable {V K P S O : Type}

/-- The object of a fitted perpendicular tree. -/
abbrev perpObj (t : PNode V S K P) : PObj V S K P := Obj.ofNode .erased PAttr.ofSplit t

theorem perpObj_view (i : Info K P) (sp : PSplit V) (l b : S) (c1 c2 : PNode V S K P) :
    perpObj (.split i sp l b c1 c2) =
      .mk i.hp i.prior i.level ⟨PAttr.ofSplit sp, some l, some b, i.nDim, some i.nData, some i.posterior⟩
        (perpObj c1) (perpObj c2) := rfl

theorem perpObj_paths (o : XOps V K) (X : Nat → Nat → V) (t : PNode V S K P) (idx : List Nat)
    (paths : List (List (PathStep V))) :
    updatePathsObj o X (perpObj t) idx paths = .ok (updatePaths o X t idx paths) := by
  induction t generalizing idx paths with
  | leaf i => rfl
  | split i sp l b c1 c2 h1 h2 =>
    rw [perpObj_view, updatePathsObj]
    simp only [pattr_lawful.attr, ofNode_isLeaf pattr_lawful, updatePaths, h1, h2]
    generalize childIndices (perpRouter o) sp X idx = r
    by_cases g1 : r.1.length > 0 <;> by_cases g2 : r.2.length > 0 <;> cases c1.isLeaf <;> cases c2.isLeaf <;>
      simp [g1, g2, Except.map]

theorem perpObj_importance [Field K] (t : PNode V K K P) (fi : List K) :
    perpUpdateImportanceObj (perpObj t) fi = .ok (perpUpdateImportance t fi) := by
  induction t generalizing fi with
  | leaf i => rfl
  | split i sp l b c1 c2 h1 h2 =>
    rw [perpObj_view, perpUpdateImportanceObj]
    simp only [pattr_lawful.attr, ofNode_isAbsent, Bool.false_eq_true, if_false, h1, h2, perpUpdateImportance]

variable [LT S] [DecidableLT S] [DecidableEq K] [Zero K] [One K]

/-- `_fit` on an object, whatever its attributes and children were: if the tree model succeeds, the
object becomes the fitted tree; if it fails, the same exception is raised. -/
theorem perpFitObj_spec (o : XOps V K) (T : Target K P S O) (hp : Hyper K) (X : Nat → Nat → V) (y : Nat → K)
    (nDim : Nat) (names : List String) (fuel : Nat) :
    ∀ (prior : Option P) (level : Nat) (sid : List (List Nat)) (a : Attrs (PAttr V) S P)
      (c1 c2 : PObj V S K P),
    (∀ t, perpFit o T hp X y nDim names fuel prior level sid = .ok t →
      perpFitObj o T X y nDim names fuel (.mk hp prior level a c1 c2) sid = (perpObj t, none)) ∧
    (∀ e, perpFit o T hp X y nDim names fuel prior level sid = .error e →
      (perpFitObj o T X y nDim names fuel (.mk hp prior level a c1 c2) sid).2 = some e) := by
  induction fuel with
  | zero =>
    intro prior level sid a c1 c2
    refine ⟨fun t h => ?_, fun e h => ?_⟩
    · simp [perpFit] at h
    · simp [perpFit] at h
      simp [perpFitObj, h]
  | succ fuel ih =>
    intro prior level sid a c1 c2
    cases sid with
    | nil => simp [perpFit, perpFitObj]
    | cons row0 rest =>
      rw [perpFit, perpFitObj]
      dsimp only
      generalize (List.range nDim).foldl _ _ = best
      cases hb : best.split with
      | none =>
        refine ⟨fun t h => ?_, fun e h => by simp at h⟩
        simp only [Except.ok.injEq] at h
        subst h
        rfl
      | some dk =>
        obtain ⟨dim, k⟩ := dk
        dsimp only
        cases hn : names[dim]? with
        | none => simp
        | some name =>
          dsimp only
          cases hl : (List.take k ((row0 :: rest).getD dim [])).getLast? with
          | none => simp
          | some last1 =>
            cases hf : (List.drop k ((row0 :: rest).getD dim [])).head? with
            | none => simp
            | some first2 =>
              dsimp only [Obj.fresh]
              have key : ∀ (cond : Prop) [Decidable cond] (q : P) (s : List (List Nat)) (nd : Nat) (post : P),
                  (∀ t, (if cond then perpFit o T hp X y nDim names fuel (some q) (level + 1) s
                      else .ok (.leaf (mkChildInfo hp.partitionPrior q hp.delta hp.prune hp.splitPrecision
                        (level + 1) nd post))) = .ok t →
                    (if cond then perpFitObj o T X y nDim names fuel
                      (.mk hp (some q) (level + 1) ⟨.erased, none, none, none, none, none⟩ .absent .absent) s
                      else (directChild .erased hp q (level + 1) nd post, none)) = (perpObj t, none)) ∧
                  (∀ e, (if cond then perpFit o T hp X y nDim names fuel (some q) (level + 1) s
                      else .ok (.leaf (mkChildInfo hp.partitionPrior q hp.delta hp.prune hp.splitPrecision
                        (level + 1) nd post))) = .error e →
                    (if cond then perpFitObj o T X y nDim names fuel
                      (.mk hp (some q) (level + 1) ⟨.erased, none, none, none, none, none⟩ .absent .absent) s
                      else (directChild .erased hp q (level + 1) nd post, none)).2 = some e) := by
                intro cond _ q s nd post
                by_cases hc : cond
                · simp only [if_pos hc]
                  exact ih (some q) (level + 1) s _ _ _
                · simp only [if_neg hc]
                  refine ⟨fun t h => ?_, fun e h => by cases h⟩
                  cases h
                  rfl
              generalize hp1 : (if hp.delta ≠ 0 then _ else _) = prior1
              generalize hp2 : (if hp.delta ≠ 0 then _ else _) = prior2
              generalize hs1 : restrictSid nDim (row0 :: rest) (List.take k ((row0 :: rest).getD dim [])) = sid1
              generalize hs2 : restrictSid nDim (row0 :: rest) (List.drop k ((row0 :: rest).getD dim [])) = sid2
              generalize hy1 : List.map y (List.take k ((row0 :: rest).getD dim [])) = y1
              generalize hy2 : List.map y (List.drop k ((row0 :: rest).getD dim [])) = y2
              generalize hpr : T.getPrior prior (shape1 (row0 :: rest)) nDim = pr
              have k1 := key (shape1 sid1 > 1 ∧ (distinct y1).length > 1) prior1 sid1 (shape1 sid1)
                (T.posterior y1 pr 1)
              have k2 := key (shape1 sid2 > 1 ∧ (distinct y2).length > 1) prior2 sid2 (shape1 sid2)
                (T.posterior y2 pr 1)
              generalize hm1 : (if shape1 sid1 > 1 ∧ (distinct y1).length > 1 then
                  perpFit o T hp X y nDim names fuel (some prior1) (level + 1) sid1 else _) = m1 at *
              generalize hm2 : (if shape1 sid2 > 1 ∧ (distinct y2).length > 1 then
                  perpFit o T hp X y nDim names fuel (some prior2) (level + 1) sid2 else _) = m2 at *
              cases m1 with
              | error e1 =>
                refine ⟨fun t h => (by cases h), fun e h => ?_⟩
                cases h
                have := k1.2 e1 rfl
                rw [this]
              | ok t1 =>
                have e1 := k1.1 t1 rfl
                rw [e1]
                dsimp only
                cases m2 with
                | error e2 =>
                  refine ⟨fun t h => (by cases h), fun e h => ?_⟩
                  cases h
                  have := k2.2 e2 rfl
                  rw [this]
                | ok t2 =>
                  have e2 := k2.1 t2 rfl
                  rw [e2]
                  refine ⟨fun t h => ?_, fun e h => (by cases h)⟩
                  cases h
                  rfl

end perp

section hyper
variable {K P S O : Type} [Field K] [LinearOrder K]

theorem hyperObj_importance (t : HNode K K P) (fi : List K) :
    hyperUpdateImportanceObj (Obj.ofNode none some t) fi = .ok (hyperUpdateImportance t fi) := by
  induction t generalizing fi with
  | leaf i => rfl
  | split i sp l b c1 c2 h1 h2 =>
    rw [Obj.ofNode, hyperUpdateImportanceObj]
    simp only [ofNode_isAbsent, Bool.false_eq_true, if_false, h1, h2, hyperUpdateImportance]

variable [Neg S] [LT S] [LE S] [DecidableLT S] [DecidableLE S]

/-- The object of a fitted hyperplane tree. -/
abbrev hyperObj (t : HNode S K P) : HObj S K P := Obj.ofNode none some t

theorem hFitObj_spec (c : HCtx K P S O) (fuel : Nat) :
    ∀ (prior : Option P) (level : Nat) (rows : List Nat) (a : Attrs (Option (HSplit K)) S P)
      (c1 c2 : HObj S K P),
    (∀ t, hFit c fuel prior level rows = .ok t →
      hFitObj c fuel (.mk c.hp prior level a c1 c2) rows = (hyperObj t, none)) ∧
    (∀ e, hFit c fuel prior level rows = .error e →
      (hFitObj c fuel (.mk c.hp prior level a c1 c2) rows).2 = some e) := by
  induction fuel with
  | zero =>
    intro prior level rows a c1 c2
    refine ⟨fun t h => ?_, fun e h => ?_⟩
    · simp [hFit] at h
    · simp [hFit] at h
      simp [hFitObj, h]
  | succ fuel ih =>
    intro prior level rows a c1 c2
    rw [hFit, hFitObj]
    dsimp only
    generalize hso : hSolve c.A c.T _ _ _ _ _ = so
    cases so with
    | error e =>
      refine ⟨fun t h => (by cases h), fun e' h => ?_⟩
      cases h
      rfl
    | ok st =>
      dsimp only
      cases hb : st.best with
      | none =>
        refine ⟨fun t h => ?_, fun e h => (by cases h)⟩
        cases h
        rfl
      | some sp =>
        dsimp only
        generalize hi1 : List.filter (fun i => hyperRouter.goes1 sp (c.X i)) rows = i1
        generalize hi2 : List.filter (fun i => hyperRouter.goes2 sp (c.X i)) rows = i2
        by_cases hc : i1.length > 0 ∧ i2.length > 0
        · rw [if_pos hc, if_pos hc]
          dsimp only [Obj.fresh]
          have key : ∀ (q : P) (rs : List Nat) (post : P) (ys : List K),
              (∀ t, (if rs.length > 1 ∧ (distinct ys).length > 1 then hFit c fuel (some q) (level + 1) rs
                  else .ok (.leaf (hChildInfo c q (level + 1) rs.length post))) = .ok t →
                (if rs.length > 1 ∧ (distinct ys).length > 1 then hFitObj c fuel
                  (.mk c.hp (some q) (level + 1) ⟨none, none, none, none, none, none⟩ .absent .absent) rs
                  else (directChild none c.hp q (level + 1) rs.length post, none)) = (hyperObj t, none)) ∧
              (∀ e, (if rs.length > 1 ∧ (distinct ys).length > 1 then hFit c fuel (some q) (level + 1) rs
                  else .ok (.leaf (hChildInfo c q (level + 1) rs.length post))) = .error e →
                (if rs.length > 1 ∧ (distinct ys).length > 1 then hFitObj c fuel
                  (.mk c.hp (some q) (level + 1) ⟨none, none, none, none, none, none⟩ .absent .absent) rs
                  else (directChild none c.hp q (level + 1) rs.length post, none)).2 = some e) := by
            intro q rs post ys
            by_cases hd : rs.length > 1 ∧ (distinct ys).length > 1
            · simp only [if_pos hd]
              exact ih (some q) (level + 1) rs _ _ _
            · simp only [if_neg hd]
              refine ⟨fun t h => ?_, fun e h => (by cases h)⟩
              cases h
              rfl
          have k1 := key (c.T.posterior (i1.map c.y) (c.T.getPrior prior rows.length c.nDim) 0) i1
            (c.T.posterior (i1.map c.y) (c.T.getPrior prior rows.length c.nDim) 1) (i1.map c.y)
          have k2 := key (c.T.posterior (i2.map c.y) (c.T.getPrior prior rows.length c.nDim) 0) i2
            (c.T.posterior (i2.map c.y) (c.T.getPrior prior rows.length c.nDim) 1) (i2.map c.y)
          generalize hm1 : (if i1.length > 1 ∧ (distinct (i1.map c.y)).length > 1 then
              hFit c fuel _ (level + 1) i1 else _) = m1 at *
          generalize hm2 : (if i2.length > 1 ∧ (distinct (i2.map c.y)).length > 1 then
              hFit c fuel _ (level + 1) i2 else _) = m2 at *
          cases m1 with
          | error e1 =>
            refine ⟨fun t h => (by cases h), fun e h => ?_⟩
            cases h
            have := k1.2 e1 rfl
            rw [this]
          | ok t1 =>
            have e1 := k1.1 t1 rfl
            rw [e1]
            dsimp only
            cases m2 with
            | error e2 =>
              refine ⟨fun t h => (by cases h), fun e h => ?_⟩
              cases h
              have := k2.2 e2 rfl
              rw [this]
            | ok t2 =>
              have e2 := k2.1 t2 rfl
              rw [e2]
              refine ⟨fun t h => ?_, fun e h => (by cases h)⟩
              cases h
              rfl
        · rw [if_neg hc, if_neg hc]
          refine ⟨fun t h => ?_, fun e h => (by cases h)⟩
          cases h
          rfl

end hyper

end BT
