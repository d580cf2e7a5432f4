import Verif.Model.Api
import Verif.Lemmas.Object
import Verif.Props.Greedy

/-!
# Lemmas about the public methods
-/

namespace BT
open Spec

section convert
variable {E V : Type}

theorem convertAll_ok (ob : ObjOps E V) (d : List E) (vs : List V) :
    convertAll ob d = .ok vs ↔ List.Forall₂ (fun e v => ob.toFloat e = .ok v) d vs := by
  induction d generalizing vs with
  | nil => cases vs <;> simp [convertAll]
  | cons e es ih =>
    rw [convertAll]
    cases he : ob.toFloat e with
    | error err => cases vs <;> simp [he]
    | ok v =>
      cases hr : convertAll ob es with
      | error err =>
        dsimp only
        refine ⟨fun h => (by cases h), fun h => ?_⟩
        cases h with
        | cons h1 h2 => rw [(ih _).2 h2] at hr; cases hr
      | ok ws =>
        dsimp only
        constructor
        · intro h; cases h
          exact .cons he ((ih _).1 hr)
        · intro h
          cases h with
          | cons h1 h2 =>
            rw [he] at h1; cases h1
            rw [(ih _).2 h2] at hr; cases hr; rfl

theorem convertAll_error (ob : ObjOps E V) (d : List E) (err : Err) :
    convertAll ob d = .error err ↔
      ∃ pre e post, d = pre ++ e :: post ∧ ob.toFloat e = .error err ∧ ∀ a ∈ pre, ∃ v, ob.toFloat a = .ok v := by
  induction d with
  | nil => simp [convertAll]
  | cons x xs ih =>
    rw [convertAll]
    cases hx : ob.toFloat x with
    | error err' =>
      dsimp only
      constructor
      · intro h; cases h
        exact ⟨[], x, xs, rfl, hx, by simp⟩
      · rintro ⟨pre, e, post, h1, h2, h3⟩
        cases pre with
        | nil => simp only [List.nil_append, List.cons.injEq] at h1; rw [← h1.1, hx] at h2; cases h2; rfl
        | cons p ps =>
          simp only [List.cons_append, List.cons.injEq] at h1
          obtain ⟨v, hv⟩ := h3 p (by simp)
          rw [← h1.1, hx] at hv; cases hv
    | ok v =>
      dsimp only
      constructor
      · intro h
        cases hr : convertAll ob xs with
        | ok ws => rw [hr] at h; cases h
        | error e2 =>
          rw [hr] at h
          cases h
          obtain ⟨pre, e, post, h1, h2, h3⟩ := ih.1 hr
          refine ⟨x :: pre, e, post, by rw [h1]; rfl, h2, fun a ha => ?_⟩
          rcases List.mem_cons.1 ha with rfl | ha
          · exact ⟨v, hx⟩
          · exact h3 a ha
      · rintro ⟨pre, e, post, h1, h2, h3⟩
        cases pre with
        | nil => simp only [List.nil_append, List.cons.injEq] at h1; rw [← h1.1, hx] at h2; cases h2
        | cons p ps =>
          simp only [List.cons_append, List.cons.injEq] at h1
          rw [ih.2 ⟨ps, e, post, h1.2, h2, fun a ha => h3 a (by simp [ha])⟩]

theorem zip_same_iff (ob : ObjOps E V) (d : List E) (vs : List V)
    (h : List.Forall₂ (fun e v => ob.toFloat e = .ok v) d vs) :
    (List.zipWith ob.same d vs).all id = true ↔
      List.Forall₂ (fun e v => ob.toFloat e = .ok v ∧ ob.same e v = true) d vs := by
  induction h with
  | nil => simp
  | cons h1 h2 ih => simp [ih, h1]

end convert

section calls
variable {E V E' K P S O A Sp : Type}

/-- Constructor arguments of an object. -/
def Obj.params : Obj A S K P → Option (Hyper K × Option P × Nat)
  | .absent => none
  | .mk hp prior level _ _ _ => some (hp, prior, level)

/-- What is used about `_fit` of a class: `fit hp prior level` is its result as a fitted tree or an
exception.  A failing fit does not change the parameters, `n_dim_` or whether the object is fitted. -/
structure LawfulCore (core : Obj A S K P → Obj A S K P × Option Err) (erased : A) (attr : Sp → A)
    (fit : Hyper K → Option P → Nat → Except Err (Node Sp S K P)) : Prop where
  ok : ∀ hp prior level a c1 c2 t, fit hp prior level = .ok t →
    core (.mk hp prior level a c1 c2) = (Obj.ofNode erased attr t, none)
  err : ∀ hp prior level a c1 c2 e, fit hp prior level = .error e →
    (core (.mk hp prior level a c1 c2)).2 = some e
  info : ∀ hp prior level t, fit hp prior level = .ok t →
    t.info.hp = hp ∧ t.info.prior = prior ∧ t.info.level = level ∧ t.info.nDim.isSome
  keep : ∀ o, (core o).2 ≠ none → (core o).1.isFitted = o.isFitted ∧ (core o).1.nDim = o.nDim ∧
    (core o).1.params = o.params

theorem perpFitObj_error [LT S] [DecidableLT S] [DecidableEq K] [Zero K] [One K]
    (o : XOps V K) (T : Target K P S O) (X : Nat → Nat → V) (y : Nat → K) (nDim : Nat) (names : List String)
    (fuel : Nat) (self : PObj V S K P) (sid : List (List Nat))
    (h : (perpFitObj o T X y nDim names fuel self sid).2 ≠ none) :
    (perpFitObj o T X y nDim names fuel self sid).1.isFitted = self.isFitted ∧
    (perpFitObj o T X y nDim names fuel self sid).1.nDim = self.nDim ∧
    (perpFitObj o T X y nDim names fuel self sid).1.params = self.params := by
  suffices key : ∀ Q : PObj V S K P × Option Err → Prop, (∀ x, Q (x, none)) →
      (∀ x e, x.isFitted = self.isFitted ∧ x.nDim = self.nDim ∧ x.params = self.params → Q (x, some e)) →
      Q (perpFitObj o T X y nDim names fuel self sid) from
    key (fun r => r.2 ≠ none → r.1.isFitted = self.isFitted ∧ r.1.nDim = self.nDim ∧ r.1.params = self.params)
      (fun _ h => absurd rfl h) (fun _ _ h _ => h) h
  intro Q hn he
  cases fuel with
  | zero => exact he _ _ ⟨rfl, rfl, rfl⟩
  | succ fuel =>
    cases self with
    | absent => exact he _ _ ⟨rfl, rfl, rfl⟩
    | mk hp prior level a c1 c2 =>
      cases sid with
      | nil => exact he _ _ ⟨rfl, rfl, rfl⟩
      | cons row0 rest =>
        rw [perpFitObj]
        dsimp only
        split
        · exact hn _
        · split
          · exact he _ _ ⟨rfl, rfl, rfl⟩
          · split
            · split
              · exact he _ _ ⟨rfl, rfl, rfl⟩
              · split
                · exact he _ _ ⟨rfl, rfl, rfl⟩
                · exact hn _
            · exact he _ _ ⟨rfl, rfl, rfl⟩

theorem perpFit_nDim [LT S] [DecidableLT S] [DecidableEq K] [Zero K] [One K]
    (o : XOps V K) (T : Target K P S O) (hp : Hyper K) (X : Nat → Nat → V) (y : Nat → K) (nDim : Nat)
    (names : List String) (fuel : Nat) (prior : Option P) (level : Nat) (sid : List (List Nat))
    (t : PNode V S K P) (h : perpFit o T hp X y nDim names fuel prior level sid = .ok t) :
    t.info.nDim = some nDim ∧ t.info.hp = hp ∧ t.info.prior = prior ∧ t.info.level = level := by
  cases fuel with
  | zero => simp [perpFit] at h
  | succ fuel =>
    cases sid with
    | nil => simp [perpFit] at h
    | cons row0 rest =>
      rw [perpFit] at h
      dsimp only at h
      split at h
      · cases h; exact ⟨rfl, rfl, rfl, rfl⟩
      · split at h
        · split at h
          · cases h
          · split at h
            · cases h
            · cases h; exact ⟨rfl, rfl, rfl, rfl⟩
        · cases h

theorem perpFitObj_lawful [LT S] [DecidableLT S] [DecidableEq K] [Zero K] [One K]
    (o : XOps V K) (T : Target K P S O) (X : Nat → Nat → V) (y : Nat → K) (nDim : Nat) (names : List String)
    (fuel : Nat) (sid : List (List Nat)) :
    LawfulCore (fun self => perpFitObj o T X y nDim names fuel self sid) PAttr.erased PAttr.ofSplit
      (fun hp prior level => perpFit o T hp X y nDim names fuel prior level sid) where
  ok hp prior level a c1 c2 t h := (perpFitObj_spec o T hp X y nDim names fuel prior level sid a c1 c2).1 t h
  err hp prior level a c1 c2 e h := (perpFitObj_spec o T hp X y nDim names fuel prior level sid a c1 c2).2 e h
  info hp prior level t h := by
    obtain ⟨h1, h2, h3, h4⟩ := perpFit_nDim o T hp X y nDim names fuel prior level sid t h
    exact ⟨h2, h3, h4, by rw [h1]; rfl⟩
  keep self h := perpFitObj_error o T X y nDim names fuel self sid h

theorem hFitObj_error [Field K] [LinearOrder K] [Neg S] [LT S] [LE S] [DecidableLT S] [DecidableLE S]
    (c : HCtx K P S O) (fuel : Nat) (self : HObj S K P) (rows : List Nat)
    (h : (hFitObj c fuel self rows).2 ≠ none) :
    (hFitObj c fuel self rows).1.isFitted = self.isFitted ∧
    (hFitObj c fuel self rows).1.nDim = self.nDim ∧ (hFitObj c fuel self rows).1.params = self.params := by
  suffices key : ∀ Q : HObj S K P × Option Err → Prop, (∀ x, Q (x, none)) →
      (∀ x e, x.isFitted = self.isFitted ∧ x.nDim = self.nDim ∧ x.params = self.params → Q (x, some e)) →
      Q (hFitObj c fuel self rows) from
    key (fun r => r.2 ≠ none → r.1.isFitted = self.isFitted ∧ r.1.nDim = self.nDim ∧ r.1.params = self.params)
      (fun _ h => absurd rfl h) (fun _ _ h _ => h) h
  intro Q hn he
  cases fuel with
  | zero => exact he _ _ ⟨rfl, rfl, rfl⟩
  | succ fuel =>
    cases self with
    | absent => exact he _ _ ⟨rfl, rfl, rfl⟩
    | mk hp prior level a c1 c2 =>
      rw [hFitObj]
      dsimp only
      split
      · exact he _ _ ⟨rfl, rfl, rfl⟩
      · split
        · exact hn _
        · split
          · split
            · exact he _ _ ⟨rfl, rfl, rfl⟩
            · split
              · exact he _ _ ⟨rfl, rfl, rfl⟩
              · exact hn _
          · exact hn _

theorem hFit_info [Field K] [LinearOrder K] [Neg S] [LT S] [LE S] [DecidableLT S] [DecidableLE S]
    (c : HCtx K P S O) (fuel : Nat) (prior : Option P) (level : Nat) (rows : List Nat) (t : HNode S K P)
    (h : hFit c fuel prior level rows = .ok t) :
    t.info.hp = c.hp ∧ t.info.prior = prior ∧ t.info.level = level ∧ t.info.nDim = some c.nDim := by
  cases fuel with
  | zero => simp [hFit] at h
  | succ fuel =>
    rw [hFit] at h
    dsimp only at h
    split at h
    · cases h
    · split at h
      · cases h; exact ⟨rfl, rfl, rfl, rfl⟩
      · split at h
        · split at h
          · cases h
          · split at h
            · cases h
            · cases h; exact ⟨rfl, rfl, rfl, rfl⟩
        · cases h; exact ⟨rfl, rfl, rfl, rfl⟩

theorem hyperCore_lawful [Field K] [LinearOrder K] [Inhabited K] [Neg S] [LT S] [LE S] [DecidableLT S]
    [DecidableLE S] (ar : HArith K) (T : Target K P S O) (opt : Optimizer K P S) (budget : Nat) (X : NArr K)
    (y : NArr K) (names : List String) :
    LawfulCore (hyperCore ar T opt budget X y names) none some
      (fun hp prior level => hFit ⟨ar, T, hp, opt, budget, X.mat, y.vec, X.cols⟩ (X.rows + 1) prior level
        (List.range X.rows)) where
  ok hp prior level a c1 c2 t h := (hFitObj_spec ⟨ar, T, hp, opt, budget, X.mat, y.vec, X.cols⟩ (X.rows + 1)
    prior level (List.range X.rows) a c1 c2).1 t h
  err hp prior level a c1 c2 e h := (hFitObj_spec ⟨ar, T, hp, opt, budget, X.mat, y.vec, X.cols⟩ (X.rows + 1)
    prior level (List.range X.rows) a c1 c2).2 e h
  info hp prior level t h := by
    obtain ⟨h1, h2, h3, h4⟩ := hFit_info _ _ _ _ _ _ h
    exact ⟨h1, h2, h3, by rw [h4]; rfl⟩
  keep self h := by
    cases self with
    | absent => exact ⟨rfl, rfl, rfl⟩
    | mk hp prior level a c1 c2 => exact hFitObj_error _ _ _ _ h

/-- A class whose `_fit` is lawful. -/
structure LawfulKit (k : Kit E V E' K P S O A Sp) (attr : Sp → A)
    (fit : NArr V → NArr K → List String → Hyper K → Option P → Nat → Except Err (Node Sp S K P)) : Prop where
  core : ∀ X y names, LawfulCore (k.core X y names) k.erased attr (fit X y names)
  view : LawfulView k.view k.erased attr

/-- The fitted tree before pruning of a perpendicular class. -/
def perpTree [LT S] [DecidableLT S] [DecidableEq K] [Zero K] [One K] [Inhabited V] [Inhabited K]
    (o : XOps V K) (T : Target K P S O) (argsort : List V → List Nat) (X : NArr V) (y : NArr K)
    (names : List String) (hp : Hyper K) (prior : Option P) (level : Nat) : Except Err (PNode V S K P) :=
  perpFit o T hp X.mat y.vec X.cols names (X.rows + 1) prior level (sortMatrix argsort X.mat X.rows X.cols)

/-- The fitted tree before pruning of a hyperplane class. -/
def hyperTree [Field K] [LinearOrder K] [Inhabited K] [Neg S] [LT S] [LE S] [DecidableLT S]
    [DecidableLE S] (ar : HArith K) (T : Target K P S O) (opt : Optimizer K P S) (budget : Nat) (X : NArr K)
    (y : NArr K) (_names : List String) (hp : Hyper K) (prior : Option P) (level : Nat) :
    Except Err (HNode S K P) :=
  hFit ⟨ar, T, hp, opt, budget, X.mat, y.vec, X.cols⟩ (X.rows + 1) prior level (List.range X.rows)

theorem perpKit_lawful [Field K] [LinearOrder K] [Inhabited V] [Inhabited K] (obX : ObjOps E V)
    (obY : ObjOps E' K) (check : Option P → NArr K → Except Err Unit) (o : XOps V K) (T : Target K P K O)
    (argsort : List V → List Nat) (fmt : Fmt (PSplit V) P) :
    LawfulKit (perpKit obX obY check o T argsort fmt) PAttr.ofSplit (perpTree o T argsort) where
  core X y names := perpFitObj_lawful o T X.mat y.vec X.cols names (X.rows + 1) _
  view := pattr_lawful

theorem hyperKit_lawful [Field K] [LinearOrder K] [Inhabited K] (obX : ObjOps E K) (obY : ObjOps E' K)
    (check : Option P → NArr K → Except Err Unit) (ar : HArith K) (T : Target K P K O)
    (opt : Optimizer K P K) (budget : Nat) (fmt : Fmt (HSplit K) P) :
    LawfulKit (hyperKit obX obY check ar T opt budget fmt) some (hyperTree ar T opt budget) where
  core X y names := hyperCore_lawful ar T opt budget X y names
  view := hattr_lawful

section kit
variable [DecidableEq K] {k : Kit E V E' K P S O A Sp} {attr : Sp → A}
  {fit : NArr V → NArr K → List String → Hyper K → Option P → Nat → Except Err (Node Sp S K P)}

/-- `if self.prune: self._prune()`. -/
def pruned (pred : P → K) (hp : Hyper K) (t : Node Sp S K P) : Node Sp S K P :=
  if hp.prune then merge pred t else t

omit [DecidableEq K] in
theorem ofNode_pruneFlag (erased : A) (t : Node Sp S K P) :
    (Obj.ofNode erased attr t).pruneFlag = t.info.hp.prune := by
  cases t <;> rfl

omit [DecidableEq K] in
theorem ofNode_params (erased : A) (t : Node Sp S K P) :
    (Obj.ofNode erased attr t).params = some (t.info.hp, t.info.prior, t.info.level) := by
  cases t <;> rfl

theorem pruned_info (pred : P → K) (hp : Hyper K) (t : Node Sp S K P) : (pruned pred hp t).info = t.info := by
  unfold pruned; split
  · exact merge_info pred t
  · rfl

theorem fitCall_ok (hk : LawfulKit k attr fit) {X : XInput E V} {y : YInput E' K} {names : Option (List String)}
    {x : NArr V} {z : NArr K} {ns : List String} {hp : Hyper K} {prior : Option P} {level : Nat}
    {a : Attrs A S P} {c1 c2 : Obj A S K P} {t : Node Sp S K P}
    (hval : validate k prior X y names = .ok (x, z, ns)) (ht : fit x z ns hp prior level = .ok t) :
    fitCall k (.mk hp prior level a c1 c2) X y names =
      (Obj.ofNode k.erased attr (pruned k.T.predictLeaf hp t), none) := by
  have hi := (hk.core x z ns).info hp prior level t ht
  unfold fitCall
  rw [show (Obj.mk hp prior level a c1 c2).prior = prior from rfl, hval]
  dsimp only
  rw [(hk.core x z ns).ok hp prior level a c1 c2 t ht]
  dsimp only
  rw [ofNode_pruneFlag, hi.1, pruned]
  split
  · rw [ofNode_size, ofNode_prune hk.view, show pruneFuel k.T.predictLeaf t.size t = prune k.T.predictLeaf t from rfl,
      prune_eq]
    rfl
  · rfl

theorem fitCall_error (hk : LawfulKit k attr fit) {X : XInput E V} {y : YInput E' K}
    {names : Option (List String)} {x : NArr V} {z : NArr K} {ns : List String} {hp : Hyper K}
    {prior : Option P} {level : Nat} {a : Attrs A S P} {c1 c2 : Obj A S K P} {e : Err}
    (hval : validate k prior X y names = .ok (x, z, ns)) (he : fit x z ns hp prior level = .error e) :
    fitCall k (.mk hp prior level a c1 c2) X y names =
      ((k.core x z ns (.mk hp prior level a c1 c2)).1, some e) := by
  unfold fitCall
  rw [show (Obj.mk hp prior level a c1 c2).prior = prior from rfl, hval]
  dsimp only
  rw [(hk.core x z ns).err hp prior level a c1 c2 e he]

theorem fitCall_invalid {X : XInput E V} {y : YInput E' K} {names : Option (List String)}
    {self : Obj A S K P} {e : Err} (hval : validate k self.prior X y names = .error e) :
    fitCall k self X y names = (self, some e) := by
  unfold fitCall
  rw [hval]

/-- A failing fit keeps the parameters, `n_dim_` and the fitted status. -/
theorem fitCall_keep (hk : LawfulKit k attr fit) {hp : Hyper K} {prior : Option P} {level : Nat}
    {a : Attrs A S P} {c1 c2 : Obj A S K P} {X : XInput E V} {y : YInput E' K}
    {names : Option (List String)}
    (h : (fitCall k (.mk hp prior level a c1 c2) X y names).2 ≠ none) :
    (fitCall k (.mk hp prior level a c1 c2) X y names).1.isFitted = a.posterior.isSome ∧
    (fitCall k (.mk hp prior level a c1 c2) X y names).1.nDim = a.nDim ∧
    (fitCall k (.mk hp prior level a c1 c2) X y names).1.params = some (hp, prior, level) := by
  cases hval : validate k prior X y names with
  | error e =>
    rw [fitCall_invalid (self := .mk hp prior level a c1 c2) hval]
    exact ⟨rfl, rfl, rfl⟩
  | ok r =>
    obtain ⟨x, z, ns⟩ := r
    cases hf : fit x z ns hp prior level with
    | error e =>
      rw [fitCall_error hk hval hf]
      have := (hk.core x z ns).keep (.mk hp prior level a c1 c2)
        (by rw [(hk.core x z ns).err hp prior level a c1 c2 e hf]; simp)
      exact this
    | ok t => rw [fitCall_ok hk hval hf] at h; exact absurd rfl h

/-- Success and the new state depend on the parameters and the data only. -/
theorem fitCall_forget (hk : LawfulKit k attr fit) {hp : Hyper K} {prior : Option P} {level : Nat}
    {a a' : Attrs A S P} {c1 c2 c1' c2' : Obj A S K P} {X : XInput E V} {y : YInput E' K}
    {names : Option (List String)} :
    (fitCall k (.mk hp prior level a c1 c2) X y names).2 =
      (fitCall k (.mk hp prior level a' c1' c2') X y names).2 ∧
    ((fitCall k (.mk hp prior level a c1 c2) X y names).2 = none →
      fitCall k (.mk hp prior level a c1 c2) X y names = fitCall k (.mk hp prior level a' c1' c2') X y names) := by
  cases hval : validate k prior X y names with
  | error e =>
    rw [fitCall_invalid (self := .mk hp prior level a c1 c2) hval,
      fitCall_invalid (self := .mk hp prior level a' c1' c2') hval]
    exact ⟨rfl, fun h => by cases h⟩
  | ok r =>
    obtain ⟨x, z, ns⟩ := r
    cases hf : fit x z ns hp prior level with
    | error e =>
      rw [fitCall_error hk hval hf, fitCall_error hk hval hf]
      exact ⟨rfl, fun h => by cases h⟩
    | ok t => rw [fitCall_ok hk hval hf, fitCall_ok hk hval hf]; exact ⟨rfl, fun _ => rfl⟩

/-- Any fit keeps the parameters. -/
theorem fitCall_params (hk : LawfulKit k attr fit) {hp : Hyper K} {prior : Option P} {level : Nat}
    {a : Attrs A S P} {c1 c2 : Obj A S K P} {X : XInput E V} {y : YInput E' K}
    {names : Option (List String)} :
    (fitCall k (.mk hp prior level a c1 c2) X y names).1.params = some (hp, prior, level) := by
  by_cases h : (fitCall k (.mk hp prior level a c1 c2) X y names).2 = none
  · cases hval : validate k prior X y names with
    | error e => rw [fitCall_invalid (self := .mk hp prior level a c1 c2) hval]; rfl
    | ok r =>
      obtain ⟨x, z, ns⟩ := r
      cases hf : fit x z ns hp prior level with
      | error e => rw [fitCall_error hk hval hf] at h; cases h
      | ok t =>
        rw [fitCall_ok hk hval hf]
        obtain ⟨h1, h2, h3, -⟩ := (hk.core x z ns).info hp prior level t hf
        rw [ofNode_params, pruned_info, h1, h2, h3]
  · exact (fitCall_keep hk h).2.2

end kit

end calls

end BT
