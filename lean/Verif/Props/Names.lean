import Verif.Props.Object

/-!
# C45: the names of the split features, from the arguments of `fit`; C36: the other methods of an unfitted model
-/

set_option linter.unusedSectionVars false

namespace BT
open Spec

section
variable {E V E' K P O : Type} [Inhabited V] [Field K] [LinearOrder K] [Inhabited K]

/-- Where the feature names come from. -/
theorem normalize_names (ob : ObjOps E V) {X : XInput E V} {names : Option (List String)} {x : NArr V}
    {ns : List String} (h : normalize ob X names = .ok (x, ns)) :
    (∀ l, names = some l → ns = l) ∧
    (names = none → ∀ cols v, X = .frame cols v → ns = cols) ∧
    (names = none → (∀ cols v, X ≠ .frame cols v) → ns = (List.range x.cols).map fun i => "x" ++ toString i) := by
  obtain ⟨a, e1, e2⟩ : ∃ a, toArrayAndNames X names = .ok (a, ns) ∧ ensureFloat64 ob a = .ok x := by
    unfold normalize at h
    split at h
    · cases h
    · next a ns' ha =>
      split at h
      · cases h
      · next w hw =>
        split at h
        · cases h
        · cases h
          exact ⟨a, ha, hw⟩
  have key : ∀ b : Arr E V, toArrayAndNames X names = expandAndName b names →
      (∀ l, names = some l → ns = l) ∧
        (names = none → ns = (List.range x.cols).map fun i => "x" ++ toString i) := by
    intro b hb
    rw [hb] at e1
    unfold expandAndName at e1
    cases names with
    | some l =>
      cases e1
      exact ⟨fun l hl => Option.some.inj hl, fun h0 => (by cases h0)⟩
    | none =>
      dsimp only at e1
      split at e1
      · cases e1
      · next m hm =>
        cases e1
        refine ⟨fun l hl => (by cases hl), fun _ => ?_⟩
        unfold defaultNames NArr.cols
        rw [ensureFloat64_shape ob _ x e2, List.getD_eq_getElem?_getD, hm]
        rfl
  cases X with
  | frame cols v =>
    unfold toArrayAndNames at e1
    cases names with
    | some l =>
      cases e1
      exact ⟨fun l hl => Option.some.inj hl, fun h0 => (by cases h0), fun h0 => (by cases h0)⟩
    | none =>
      cases e1
      exact ⟨fun l hl => by (cases hl), fun _ cols' v' hc => by (cases hc; rfl), fun _ hno => absurd rfl (hno _ _)⟩
  | list b => exact ⟨(key b rfl).1, fun _ _ _ hc => by (cases hc), fun h0 _ => (key b rfl).2 h0⟩
  | scalar b => exact ⟨(key _ rfl).1, fun _ _ _ hc => by (cases hc), fun h0 _ => (key _ rfl).2 h0⟩
  | array b => exact ⟨(key b rfl).1, fun _ _ _ hc => by (cases hc), fun h0 _ => (key b rfl).2 h0⟩
  | sparse b => exact ⟨(key _ rfl).1, fun _ _ _ hc => by (cases hc), fun h0 _ => (key _ rfl).2 h0⟩
  | other => cases e1

/-- C45 from the arguments of `fit`: the tree of a fitted perpendicular model names the feature of each split by the entry
of `feature_names`, else by the column name of the data frame, else by `x` and the number of the feature. -/
theorem C45_names {obX : ObjOps E V} {obY : ObjOps E' K} {check : Option P → NArr K → Except Err Unit}
    {o : XOps V K} {T : Target K P K O} {pair : PairScore K P K} {argsort : List V → List Nat}
    {fmt : Fmt (PSplit V) P} {ok : V → Prop} {hp : Hyper K} {prior : Option P} {a : Attrs (PAttr V) K P}
    {c1 c2 m : PObj V K K P} {X : XInput E V} {y : YInput E' K} {names : Option (List String)}
    (hops : LawfulOps o ok hp.splitPrecision) (hT : LawfulTarget T pair) (hs : IsArgsort o.le ok argsort)
    (hX : ∀ x ns, normalize obX X names = .ok (x, ns) → 0 < x.cols ∧ x.rows ≤ 2 ^ 64 ∧ x.cols ≤ ns.length ∧
      ∀ i < x.rows, ∀ d < x.cols, ok (x.mat i d))
    (h : fitCall (perpKit obX obY check o T argsort fmt) (.mk hp prior 0 a c1 c2) X y names = (m, none)) :
    ∃ t, m = perpObj t ∧ ∀ addr i sp l b d1 d2, nodeAt t addr = some (.split i sp l b d1 d2) →
      (∀ ns, names = some ns → ns[sp.dim]? = some sp.name) ∧
      (names = none → ∀ cols v, X = .frame cols v → cols[sp.dim]? = some sp.name) ∧
      (names = none → (∀ cols v, X ≠ .frame cols v) → sp.name = "x" ++ toString sp.dim) := by
  cases hval : validate (perpKit obX obY check o T argsort fmt) prior X y names with
  | error e =>
    rw [fitCall_invalid (self := .mk hp prior 0 a c1 c2) hval] at h
    cases h
  | ok r =>
    obtain ⟨x, z, ns⟩ := r
    obtain ⟨h1, h2, h3, h4⟩ := validate_ok hval
    obtain ⟨g0, g1, g2, g3⟩ := hX x ns h3
    have hv : Valid ok (apiCtx o T pair hp x z ns) argsort x.rows := ⟨hops, hT, hs, g0, g1, g3⟩
    obtain ⟨t, ht, e⟩ := perp_accepts (fmt := fmt) (a := a) (c1 := c1) (c2 := c2) (prior := prior)
      (pair := pair) (obX := obX) (obY := obY) (check := check) h3 h1 h2 h4 g2 (ok := ok) hv
    rw [e] at h
    cases h
    refine ⟨t, rfl, fun addr i sp l b d1 d2 hu => ?_⟩
    have hn : ns[sp.dim]? = some sp.name := C45_feature_names hv ht addr i sp l b d1 d2 hu
    obtain ⟨n1, n2, n3⟩ := normalize_names obX h3
    refine ⟨fun l hl => by rw [← n1 l hl]; exact hn, fun h0 cols v hc => by rw [← n2 h0 cols v hc]; exact hn,
      fun h0 hno => ?_⟩
    rw [n3 h0 hno, List.getElem?_map] at hn
    cases hr : (List.range x.cols)[sp.dim]? with
    | none => rw [hr] at hn; cases hn
    | some j =>
      rw [hr] at hn
      have : j = sp.dim := by
        obtain ⟨hlt, hj⟩ := List.getElem?_eq_some_iff.1 hr
        rw [← hj, List.getElem_range]
      rw [← this]
      exact (Option.some.inj hn).symm

/-- C36 for the methods without samples: on an unfitted model `is_leaf`, `feature_importance`, `get_depth` and
`get_n_leaves` raise `ValueError`, and `str` gives the text for unfitted models. -/
theorem C36_unfitted_others {S A Sp : Type} (k : Kit E V E' K P S O A Sp) (hp : Hyper K) (prior : Option P) (level : Nat)
    (a : Attrs A S P) (c1 c2 : Obj A S K P) (hf : a.posterior = none) :
    let self : Obj A S K P := .mk hp prior level a c1 c2
    self.isLeaf k.view = .error .valueError ∧ ask k self .featureImportance = .error .valueError ∧
    ask k self .depth = .error .valueError ∧ ask k self .nLeaves = .error .valueError ∧
    ask k self .str = .ok (.text "Unfitted model") := by
  intro self
  have h0 : self.isFitted = false := by show a.posterior.isSome = false; rw [hf]; rfl
  refine ⟨?_, ?_, ?_, ?_, ?_⟩
  · show Obj.isLeaf k.view (.mk hp prior level a c1 c2) = _
    rw [Obj.isLeaf, hf]
  · show (match ensureIsFitted self none with | .error e => _ | .ok () => _) = _
    unfold ensureIsFitted
    rw [h0]
    rfl
  · show (Obj.updateDepth k.view (.mk hp prior level a c1 c2) 0).map _ = _
    rw [Obj.updateDepth, hf]
    rfl
  · show (Obj.updateNLeaves k.view (.mk hp prior level a c1 c2) 0).map _ = _
    rw [Obj.updateNLeaves, hf]
    rfl
  · show (str k.fmt k.view self).map _ = _
    unfold str
    rw [h0]
    rfl

end

/-- A fit without feature names, whose root splits feature `x0`. -/
example : (fitCall lifeKitQ lifeNew (lifeData lifeX1) lifeTarget none).2 = none ∧
    (match (fitCall lifeKitQ lifeNew (lifeData lifeX1) lifeTarget none).1 with
      | .mk _ _ _ a _ _ => decide (a.split.name = some "x0" ∧ a.split.dim = 0)
      | .absent => false) = true := by decide +kernel
example : ∃ hp prior level a c1 c2, lifeNew = .mk hp prior level a c1 c2 ∧ a.posterior = none :=
  ⟨_, _, _, _, _, _, rfl, rfl⟩

end BT
