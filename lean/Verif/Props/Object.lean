import Verif.Props.Api
import Verif.Props.Hyper

/-!
# Properties of model objects over their life time: C36, C38, C39, C40
-/

set_option linter.unusedSectionVars false

namespace BT
open Spec

section answers
variable {E V E' K P S O A Sp : Type} [Inhabited V] [Field K] [DecidableEq K]
  {k : Kit E V E' K P S O A Sp} {attr : Sp → A}
  {fit : NArr V → NArr K → List String → Hyper K → Option P → Nat → Except Err (Node Sp S K P)}

theorem checkedX_ok {self : Obj A S K P} {X : XInput E V} {x : NArr V} {ns : List String}
    (hX : normalize k.obX X none = .ok (x, ns)) (hf : self.isFitted = true) (hd : self.nDim = some x.cols) :
    checkedX k self X = .ok x := by
  unfold checkedX
  rw [hX]
  dsimp only
  unfold ensureIsFitted
  rw [hf]
  simp [hd]

/-- Queries on the object of a fitted tree are the corresponding functions of the tree. -/
theorem ask_ofNode (hk : LawfulKit k attr fit) (t : Node Sp S K P) {X : XInput E V} {x : NArr V}
    {ns : List String} (hX : normalize k.obX X none = .ok (x, ns)) (hd : t.info.nDim = some x.cols) :
    ask k (Obj.ofNode k.erased attr t) (.predict X) = .ok (.values (predict k.router k.T t x.mat x.rows)) ∧
    ask k (Obj.ofNode k.erased attr t) (.predictProba X) =
      .ok (.means (predictProba k.router k.T t x.mat x.rows)) ∧
    ask k (Obj.ofNode k.erased attr t) (.rawLeafData X) = .ok (.raw (rawLeafData k.router t x.mat x.rows)) ∧
    ask k (Obj.ofNode k.erased attr t) .depth = .ok (.number t.getDepth) ∧
    ask k (Obj.ofNode k.erased attr t) .nLeaves = .ok (.number t.getNLeaves) := by
  have hc : checkedX k (Obj.ofNode k.erased attr t) X = .ok x :=
    checkedX_ok hX (ofNode_isFitted t) (by rw [ofNode_nDim, hd])
  refine ⟨?_, ?_, ?_, ?_, ?_⟩
  · unfold ask predictCall
    dsimp only
    rw [hc]
    dsimp only
    rw [ofNode_predictInto hk.view]
    rfl
  · unfold ask predictCall
    dsimp only
    rw [hc]
    dsimp only
    rw [ofNode_predictInto hk.view]
    rfl
  · unfold ask predictCall
    dsimp only
    rw [hc]
    dsimp only
    rw [ofNode_predictInto hk.view]
    rfl
  · unfold ask
    dsimp only
    rw [ofNode_depth hk.view]
    rfl
  · unfold ask
    dsimp only
    rw [ofNode_nLeaves hk.view]
    rfl

/-- The prediction methods. -/
def Query.predicts : Query E V → Option (XInput E V)
  | .predict X => some X
  | .predictProba X => some X
  | .rawLeafData X => some X
  | .paths X => some X
  | _ => none

theorem ask_checked {self : Obj A S K P} {q : Query E V} {X : XInput E V} (hq : q.predicts = some X)
    (hp : k.paths.isSome ∨ ∀ X, q ≠ .paths X) {e : Err} (h : checkedX k self X = .error e) :
    ask k self q = .error e := by
  cases q with
  | predict X' => cases hq; unfold ask predictCall; dsimp only; rw [h]; rfl
  | predictProba X' => cases hq; unfold ask predictCall; dsimp only; rw [h]; rfl
  | rawLeafData X' => cases hq; unfold ask predictCall; dsimp only; rw [h]; rfl
  | paths X' =>
    cases hq
    rcases hp with hp | hp
    · obtain ⟨f, hf⟩ := Option.isSome_iff_exists.1 hp
      unfold ask
      dsimp only
      rw [hf]
      dsimp only
      rw [h]
    · exact absurd rfl (hp X)
  | featureImportance => cases hq
  | depth => cases hq
  | nLeaves => cases hq
  | str => cases hq

/-- C36 (unfitted), what does hold: on a model without a successful fit every prediction method raises
`ValueError` for every argument that can be normalised.  Missing from the full statement: arguments that
fail before the check, see `C36_refuted`. -/
theorem C36_unfitted_partial {self : Obj A S K P} (hf : self.isFitted = false) {q : Query E V}
    {X : XInput E V} (hq : q.predicts = some X) (hp : k.paths.isSome ∨ ∀ X, q ≠ .paths X) {x : NArr V}
    {ns : List String} (hX : normalize k.obX X none = .ok (x, ns)) : ask k self q = .error .valueError := by
  refine ask_checked hq hp ?_
  unfold checkedX
  rw [hX]
  dsimp only
  unfold ensureIsFitted
  rw [hf]
  rfl

/-- C36 (unfitted): whatever the argument, an unfitted model never returns predictions. -/
theorem C36_unfitted_fails {self : Obj A S K P} (hf : self.isFitted = false) {q : Query E V} {X : XInput E V}
    (hq : q.predicts = some X) (hp : k.paths.isSome ∨ ∀ X, q ≠ .paths X) : ∃ e, ask k self q = .error e := by
  cases hX : normalize k.obX X none with
  | error e => exact ⟨e, ask_checked hq hp (by unfold checkedX; rw [hX])⟩
  | ok r => exact ⟨_, C36_unfitted_partial hf hq hp (x := r.1) (ns := r.2) (by rw [hX])⟩

/-- C36 (columns): a fitted model raises `ValueError` for a matrix with another number of columns than the
training data. -/
theorem C36_columns {self : Obj A S K P} (hf : self.isFitted = true) {d : Nat} (hd : self.nDim = some d)
    {q : Query E V} {X : XInput E V} (hq : q.predicts = some X) (hp : k.paths.isSome ∨ ∀ X, q ≠ .paths X)
    {x : NArr V} {ns : List String} (hX : normalize k.obX X none = .ok (x, ns)) (hne : x.cols ≠ d) :
    ask k self q = .error .valueError := by
  refine ask_checked hq hp ?_
  unfold checkedX
  rw [hX]
  dsimp only
  unfold ensureIsFitted
  rw [hf, hd]
  simp [hne]

theorem expandRow_one (a : Arr E V) (n : Nat) (ha : a.shape = [n]) :
    expandRow a = expandRow (a.withShape [1, n]) := by
  unfold expandRow
  rw [ha]
  cases a <;> rfl

/-- C36 (one sample): a 1-D array or list of length `n` is the same argument as the `1 x n` matrix. -/
theorem C36_one_sample (ob : ObjOps E V) (a : Arr E V) (n : Nat) (ha : a.shape = [n])
    (names : Option (List String)) :
    normalize ob (.array a) names = normalize ob (.array (a.withShape [1, n])) names ∧
    normalize ob (.list a) names = normalize ob (.list (a.withShape [1, n])) names := by
  unfold normalize toArrayAndNames expandAndName
  dsimp only
  rw [expandRow_one a n ha]
  exact ⟨rfl, rfl⟩

/-- C36 (one sample): a fitted tree with `n` features predicts one value for it, that of the matrix whose
row 0 it is. -/
theorem C36_one_sample_value (hk : LawfulKit k attr fit) (t : Node Sp S K P) (dt : DType) (data : List V) (n : Nat)
    (hd : t.info.nDim = some n) :
    ask k (Obj.ofNode k.erased attr t) (.predict (.array (.native ⟨[n], dt, data⟩))) =
      .ok (.values (predict k.router k.T t (fun i j => data.getD (i * n + j) default) 1)) := by
  have hX : normalize k.obX (.array (.native ⟨[n], dt, data⟩)) none =
      .ok (⟨[1, n], dt, data⟩, defaultNames n) := rfl
  rw [(ask_ofNode hk t hX hd).1]
  rfl

/-- C36 is false as stated: `predict` of a 0-dimensional array raises `IndexError`, on unfitted and fitted
models alike. -/
theorem C36_refuted (self : Obj A S K P) (a : Arr E V) (ha : a.shape = []) :
    ask k self (.predict (.array a)) = .error .indexError := by
  refine ask_checked rfl (.inr (by intro X h; cases h)) ?_
  simp [checkedX, normalize, toArrayAndNames, expandAndName, expandRow, ha]

/-- No fit in the history succeeded. -/
def NoFit (k : Kit E V E' K P S O A Sp) : Obj A S K P → List (Call E V E' K) → Prop
  | _, [] => True
  | self, .query _ :: cs => NoFit k self cs
  | self, .fit X y names :: cs =>
    (fitCall k self X y names).2 ≠ none ∧ NoFit k (fitCall k self X y names).1 cs

theorem noFit_unfitted (hk : LawfulKit k attr fit) (cs : List (Call E V E' K)) :
    ∀ self : Obj A S K P, self.params.isSome → self.isFitted = false → NoFit k self cs →
      (runCalls k self cs).1.isFitted = false := by
  induction cs with
  | nil => intro self _ h _; exact h
  | cons c cs ih =>
    intro self hp h hn
    cases c with
    | query q => exact ih self hp h hn
    | fit X y names =>
      cases self with
      | absent => cases hp
      | mk hp' prior level a c1 c2 =>
        obtain ⟨h1, -, h3⟩ := fitCall_keep hk hn.1
        exact ih (fitCall k (.mk hp' prior level a c1 c2) X y names).1 (by rw [h3]; rfl) (by rw [h1]; exact h) hn.2

/-- C36 (unfitted, histories), what does hold: after any history of queries and failed fits on a new
model, prediction methods raise `ValueError` for every argument that can be normalised. -/
theorem C36_history_partial (hk : LawfulKit k attr fit) (hp : Hyper K) (prior : Option P) (level : Nat)
    (cs : List (Call E V E' K)) (hn : NoFit k (.fresh k.erased hp prior level) cs) {q : Query E V}
    {X : XInput E V} (hq : q.predicts = some X) (hpt : k.paths.isSome ∨ ∀ X, q ≠ .paths X) {x : NArr V}
    {ns : List String} (hX : normalize k.obX X none = .ok (x, ns)) :
    ask k (runCalls k (.fresh k.erased hp prior level) cs).1 q = .error .valueError :=
  C36_unfitted_partial (noFit_unfitted hk cs _ rfl rfl hn) hq hpt hX

theorem runCalls_params (hk : LawfulKit k attr fit) (cs : List (Call E V E' K)) :
    ∀ self : Obj A S K P, self.params.isSome → (runCalls k self cs).1.params = self.params := by
  induction cs with
  | nil => intro self _; rfl
  | cons c cs ih =>
    intro self hs
    cases c with
    | query q => exact ih self hs
    | fit X y names =>
      cases self with
      | absent => cases hs
      | mk hp' prior level a c1 c2 =>
        have h := fitCall_params hk (hp := hp') (prior := prior) (level := level) (a := a) (c1 := c1) (c2 := c2)
          (X := X) (y := y) (names := names)
        have := ih (fitCall k (.mk hp' prior level a c1 c2) X y names).1 (by rw [h]; rfl)
        rw [h] at this
        exact this

/-- C38: after any history of calls on a new model, a further `fit` succeeds or raises exactly as on a new
model with the same parameters, and if it succeeds the model is the same object as the new model fitted to
the same data; all later calls therefore return the same. -/
theorem C38_refit (hk : LawfulKit k attr fit) (hp : Hyper K) (prior : Option P) (level : Nat)
    (cs : List (Call E V E' K)) (X : XInput E V) (y : YInput E' K) (names : Option (List String)) :
    let used := (runCalls k (.fresh k.erased hp prior level) cs).1
    let new : Obj A S K P := .fresh k.erased hp prior level
    (fitCall k used X y names).2 = (fitCall k new X y names).2 ∧
    ((fitCall k used X y names).2 = none → fitCall k used X y names = fitCall k new X y names ∧
      ∀ later, runCalls k (fitCall k used X y names).1 later = runCalls k (fitCall k new X y names).1 later) := by
  dsimp only
  have hpar := runCalls_params hk cs (.fresh k.erased hp prior level) rfl
  cases hu : (runCalls k (.fresh k.erased hp prior level) cs).1 with
  | absent => rw [hu] at hpar; cases hpar
  | mk hp' prior' level' a c1 c2 =>
    rw [hu] at hpar
    simp only [Obj.params, Obj.fresh, Option.some.injEq, Prod.mk.injEq] at hpar
    obtain ⟨rfl, rfl, rfl⟩ := hpar
    unfold Obj.fresh
    have h := fitCall_forget hk (hp := hp') (prior := prior') (level := level') (a := a) (c1 := c1) (c2 := c2)
      (a' := ⟨k.erased, none, none, none, none, none⟩) (c1' := .absent) (c2' := .absent) (X := X) (y := y)
      (names := names)
    refine ⟨h.1, fun hn => ⟨h.2 hn, fun later => by rw [h.2 hn]⟩⟩

/-- C38: the parameters themselves are never changed. -/
theorem C38_params (hk : LawfulKit k attr fit) (self : Obj A S K P) (hs : self.params.isSome)
    (cs : List (Call E V E' K)) : (runCalls k self cs).1.params = self.params :=
  runCalls_params hk cs self hs

/-- C40: a query leaves the model as it is. -/
theorem C40_query (self : Obj A S K P) (q : Query E V) :
    (step k self (.query q)).1 = self := rfl

/-- Is the call a `fit`? -/
def Call.isFit : Call E V E' K → Bool
  | .fit _ _ _ => true
  | .query _ => false

/-- C40: the model after a history is determined by the fits alone. -/
theorem C40_state (self : Obj A S K P) (cs : List (Call E V E' K)) :
    (runCalls k self cs).1 = (runCalls k self (cs.filter Call.isFit)).1 := by
  induction cs generalizing self with
  | nil => rfl
  | cons c cs ih =>
    cases c with
    | query q =>
      rw [List.filter_cons_of_neg (by simp [Call.isFit])]
      exact ih self
    | fit X y names =>
      rw [List.filter_cons_of_pos (by simp [Call.isFit])]
      exact ih _

/-- C40: in any interleaving, a query returns what it returns on the model with the preceding fits only. -/
theorem C40_answers (self : Obj A S K P) (cs : List (Call E V E' K)) (i : Nat) (q : Query E V)
    (hi : cs[i]? = some (.query q)) :
    (runCalls k self cs).2[i]? =
      some ((ask k (runCalls k self ((cs.take i).filter Call.isFit)).1 q).map some) := by
  induction cs generalizing self i with
  | nil => cases hi
  | cons c cs ih =>
    cases i with
    | zero =>
      simp only [List.getElem?_cons_zero, Option.some.injEq] at hi
      subst hi
      rfl
    | succ i =>
      simp only [List.getElem?_cons_succ] at hi
      rw [List.take_succ_cons]
      cases c with
      | query q' =>
        rw [List.filter_cons_of_neg (by simp [Call.isFit])]
        exact ih self i hi
      | fit X y names =>
        rw [List.filter_cons_of_pos (by simp [Call.isFit])]
        exact ih _ i hi

/-- C40: two equal queries without a fit between them return the same. -/
theorem C40_repeat (self : Obj A S K P) (cs : List (Call E V E' K)) (i j : Nat) (q : Query E V) (hij : i ≤ j)
    (hi : cs[i]? = some (.query q)) (hj : cs[j]? = some (.query q))
    (hbetween : ∀ l X y names, i ≤ l → l < j → cs[l]? ≠ some (.fit X y names)) :
    (runCalls k self cs).2[i]? = (runCalls k self cs).2[j]? := by
  rw [C40_answers self cs i q hi, C40_answers self cs j q hj]
  have : (cs.take j).filter Call.isFit = (cs.take i).filter Call.isFit := by
    obtain ⟨d, rfl⟩ := Nat.exists_eq_add_of_le hij
    rw [List.take_add, List.filter_append]
    have : ((cs.drop i).take d).filter Call.isFit = [] := by
      rw [List.filter_eq_nil_iff]
      intro c hc
      obtain ⟨l, hl, rfl⟩ := List.getElem_of_mem hc
      have hld : l < d := by
        have := List.length_take_le d (cs.drop i)
        omega
      intro hfit
      have hget : cs[i + l]? = some ((cs.drop i).take d)[l] := by
        rw [List.getElem_take, List.getElem_drop, List.getElem?_eq_getElem]
      cases hcase : ((cs.drop i).take d)[l] with
      | query q' => rw [hcase] at hfit; cases hfit
      | fit X y names =>
        rw [hcase] at hget
        exact hbetween (i + l) X y names (by omega) (by omega) hget
    rw [this, List.append_nil]
  rw [this]

/-- C39 (validation), what does hold: if validation fails, the model is unchanged. -/
theorem C39_validation_partial {self : Obj A S K P} {X : XInput E V} {y : YInput E' K}
    {names : Option (List String)} {e : Err} (h : validate k self.prior X y names = .error e) :
    fitCall k self X y names = (self, some e) := fitCall_invalid h

end answers

/-- The split dimension of the root. -/
def rootDim {V S K P : Type} : PNode V S K P → Option Nat
  | .leaf _ => none
  | .split _ sp _ _ _ _ => some sp.dim

/-- The tree with another split dimension at the root. -/
def setRootDim {V S K P : Type} (d : Nat) : PNode V S K P → PNode V S K P
  | .leaf i => .leaf i
  | .split i sp l b c1 c2 => .split i { sp with dim := d } l b c1 c2

section c39
variable {E V E' K P O : Type} [Field K] [LinearOrder K] [Inhabited V] [Inhabited K]

theorem validate_ok {S A Sp : Type} {k : Kit E V E' K P S O A Sp} {prior : Option P} {X : XInput E V}
    {y : YInput E' K} {names : Option (List String)} {x : NArr V} {z : NArr K} {ns : List String}
    (h : validate k prior X y names = .ok (x, z, ns)) :
    normalizeTarget k.obY y = .ok z ∧ k.check prior z = .ok () ∧ normalize k.obX X names = .ok (x, ns) ∧
      x.rows = z.rows := by
  unfold validate at h
  cases hy : normalizeTarget k.obY y with
  | error e => rw [hy] at h; cases h
  | ok z' =>
    rw [hy] at h
    dsimp only at h
    cases hc : k.check prior z' with
    | error e => rw [hc] at h; cases h
    | ok u =>
      rw [hc] at h
      dsimp only at h
      cases hX : normalize k.obX X names with
      | error e => rw [hX] at h; cases h
      | ok r =>
        obtain ⟨x', ns'⟩ := r
        rw [hX] at h
        dsimp only at h
        split at h
        · cases h
        · next hr =>
          cases h
          exact ⟨rfl, hc, rfl, by simpa using hr⟩

/-- C39 for perpendicular trees, what does hold: if there are at least as many feature names as columns, a
`fit` that raises leaves the model exactly as it was.  Missing from the full statement: fewer feature
names than columns (`C39_refuted`). -/
theorem C39_perp_partial {obX : ObjOps E V} {obY : ObjOps E' K} {check : Option P → NArr K → Except Err Unit}
    {o : XOps V K} {T : Target K P K O} {pair : PairScore K P K} {argsort : List V → List Nat}
    {fmt : Fmt (PSplit V) P} {ok : V → Prop} {hp : Hyper K} {prior : Option P} {a : Attrs (PAttr V) K P}
    {c1 c2 : PObj V K K P} {X : XInput E V} {y : YInput E' K} {names : Option (List String)}
    (hops : LawfulOps o ok hp.splitPrecision) (hT : LawfulTarget T pair) (hs : IsArgsort o.le ok argsort)
    (hX : ∀ x ns, normalize obX X names = .ok (x, ns) → x.rows ≤ 2 ^ 64 ∧ x.cols ≤ ns.length ∧
      ∀ i < x.rows, ∀ d < x.cols, ok (x.mat i d))
    (h : (fitCall (perpKit obX obY check o T argsort fmt) (.mk hp prior 0 a c1 c2) X y names).2 ≠ none) :
    (fitCall (perpKit obX obY check o T argsort fmt) (.mk hp prior 0 a c1 c2) X y names).1 =
      .mk hp prior 0 a c1 c2 := by
  cases hval : validate (perpKit obX obY check o T argsort fmt) prior X y names with
  | error e => rw [fitCall_invalid (self := .mk hp prior 0 a c1 c2) hval]
  | ok r =>
    obtain ⟨x, z, ns⟩ := r
    obtain ⟨h1, h2, h3, h4⟩ := validate_ok hval
    obtain ⟨g1, g2, g3⟩ := hX x ns h3
    by_cases hd : 0 < x.cols
    · exfalso
      obtain ⟨t, -, ht⟩ := perp_accepts (fmt := fmt) (a := a) (c1 := c1) (c2 := c2) (prior := prior)
        (pair := pair) (obX := obX) (obY := obY) (check := check) h3 h1 h2 h4 g2 (ok := ok) ⟨hops, hT, hs, hd, g1, g3⟩
      rw [ht] at h
      exact h rfl
    · have hz : x.cols = 0 := by omega
      unfold fitCall
      rw [show (Obj.mk hp prior 0 a c1 c2).prior = prior from rfl, hval]
      dsimp only
      have : (perpKit obX obY check o T argsort fmt).core x z ns (.mk hp prior 0 a c1 c2) =
          (.mk hp prior 0 a c1 c2, some .indexError) := by
        show perpFitObj o T x.mat z.vec x.cols ns (x.rows + 1) _ (sortMatrix argsort x.mat x.rows x.cols) = _
        rw [hz]
        rfl
      rw [this]

/-- C39 for perpendicular trees with generated feature names: a `fit` without `feature_names` that raises
leaves the model exactly as it was. -/
theorem C39_default_names {obX : ObjOps E V} {obY : ObjOps E' K}
    {check : Option P → NArr K → Except Err Unit}
    {o : XOps V K} {T : Target K P K O} {pair : PairScore K P K} {argsort : List V → List Nat}
    {fmt : Fmt (PSplit V) P} {ok : V → Prop} {hp : Hyper K} {prior : Option P} {a : Attrs (PAttr V) K P}
    {c1 c2 : PObj V K K P} {X : XInput E V} {y : YInput E' K}
    (hops : LawfulOps o ok hp.splitPrecision) (hT : LawfulTarget T pair) (hs : IsArgsort o.le ok argsort)
    (hf : ∀ cols v, X = .frame cols v → v.shape[1]? = some cols.length)
    (hX : ∀ x ns, normalize obX X none = .ok (x, ns) → x.rows ≤ 2 ^ 64 ∧
      ∀ i < x.rows, ∀ d < x.cols, ok (x.mat i d))
    (h : (fitCall (perpKit obX obY check o T argsort fmt) (.mk hp prior 0 a c1 c2) X y none).2 ≠ none) :
    (fitCall (perpKit obX obY check o T argsort fmt) (.mk hp prior 0 a c1 c2) X y none).1 =
      .mk hp prior 0 a c1 c2 :=
  C39_perp_partial hops hT hs (fun x ns hx => ⟨(hX x ns hx).1, (normalize_names_length obX hx hf).ge,
    (hX x ns hx).2⟩) h

/-- The search does not depend on the feature names. -/
theorem perpFitObj_short {S : Type} [LT S] [DecidableLT S] (o : XOps V K) (T : Target K P S O)
    (X : Nat → Nat → V) (y : Nat → K) (nDim : Nat) (names names' : List String) (fuel : Nat) (hp : Hyper K)
    (prior : Option P) (level : Nat) (a : Attrs (PAttr V) S P) (c1 c2 : PObj V S K P) (sid : List (List Nat))
    {i : Info K P} {sp : PSplit V} {l b : S} {d1 d2 : PNode V S K P}
    (h : perpFit o T hp X y nDim names' fuel prior level sid = .ok (.split i sp l b d1 d2))
    (hn : names[sp.dim]? = none) :
    perpFitObj o T X y nDim names fuel (.mk hp prior level a c1 c2) sid =
      (.mk hp prior level { a with split := { a.split with dim := (sp.dim : Int) } } c1 c2,
        some .indexError) := by
  cases fuel with
  | zero => simp [perpFit] at h
  | succ fuel =>
    cases sid with
    | nil => simp [perpFit] at h
    | cons row0 rest =>
      rw [perpFit] at h
      rw [perpFitObj]
      dsimp only at h ⊢
      generalize (List.range nDim).foldl _ _ = best at h ⊢
      obtain ⟨score, _ | ⟨dim, k⟩⟩ := best
      · cases h
      · dsimp only at h ⊢
        have hdim : dim = sp.dim := by
          split at h
          · split at h
            · cases h
            · split at h
              · cases h
              · cases h; rfl
          · cases h
        subst hdim
        rw [hn]

/-- C39 is false: if `fit` is given fewer feature names than columns and the best split is on a column
without name, it raises `IndexError` after the split dimension of the model has been overwritten: the
model then splits at the old threshold of the new dimension. -/
theorem C39_corrupts {obX : ObjOps E V} {obY : ObjOps E' K} {check : Option P → NArr K → Except Err Unit}
    {o : XOps V K} {T : Target K P K O} {argsort : List V → List Nat}
    {fmt : Fmt (PSplit V) P} {hp : Hyper K} {prior : Option P} {level : Nat} {a : Attrs (PAttr V) K P}
    {c1 c2 : PObj V K K P} {X : XInput E V} {y : YInput E' K} {names : Option (List String)} {x : NArr V}
    {z : NArr K} {ns names' : List String}
    (hval : validate (perpKit obX obY check o T argsort fmt) prior X y names = .ok (x, z, ns))
    {i : Info K P} {sp : PSplit V} {l b : K} {d1 d2 : PNode V K K P}
    (h : perpTree o T argsort x z names' hp prior level = .ok (.split i sp l b d1 d2))
    (hn : ns[sp.dim]? = none) :
    fitCall (perpKit obX obY check o T argsort fmt) (.mk hp prior level a c1 c2) X y names =
      (.mk hp prior level { a with split := { a.split with dim := (sp.dim : Int) } } c1 c2,
        some .indexError) := by
  have hcore := perpFitObj_short o T x.mat z.vec x.cols ns names' (x.rows + 1) hp prior level a c1 c2
    (sortMatrix argsort x.mat x.rows x.cols) h hn
  unfold fitCall
  rw [show (Obj.mk hp prior level a c1 c2).prior = prior from rfl, hval]
  dsimp only
  rw [show (perpKit obX obY check o T argsort fmt).core x z ns (.mk hp prior level a c1 c2) =
    _ from hcore]

/-- The same for the object of a fitted tree: only the split dimension of the root changes. -/
theorem C39_corrupts_tree {obX : ObjOps E V} {obY : ObjOps E' K}
    {check : Option P → NArr K → Except Err Unit}
    {o : XOps V K} {T : Target K P K O} {argsort : List V → List Nat}
    {fmt : Fmt (PSplit V) P} {X : XInput E V} {y : YInput E' K} {names : Option (List String)} {x : NArr V}
    {z : NArr K} {ns names' : List String} {t u : PNode V K K P} {d0 d : Nat} (ht : rootDim t = some d0)
    (hval : validate (perpKit obX obY check o T argsort fmt) t.info.prior X y names = .ok (x, z, ns))
    (hu : perpTree o T argsort x z names' t.info.hp t.info.prior t.info.level = .ok u)
    (hd : rootDim u = some d) (hn : ns[d]? = none) :
    fitCall (perpKit obX obY check o T argsort fmt) (perpObj t) X y names =
      (perpObj (setRootDim d t), some .indexError) := by
  cases t with
  | leaf i => cases ht
  | split i sp l b c1 c2 =>
    cases u with
    | leaf j => cases hd
    | split j sp' l' b' d1 d2 =>
      cases hd
      have := C39_corrupts (hp := i.hp) (level := i.level)
        (a := ⟨PAttr.ofSplit sp, some l, some b, i.nDim, some i.nData, some i.posterior⟩) (c1 := perpObj c1)
        (c2 := perpObj c2) hval hu hn
      exact this

end c39

section c39hyper
variable {E E' K P O : Type} [Field K] [LinearOrder K] [IsStrictOrderedRing K] [Inhabited K]

/-- If the search at the root returns, a failing fit failed in a search on fewer rows. -/
theorem hFit_total_strict {S : Type} [Neg S] [LinearOrder S] {c : HCtx K P S O} {fuel : Nat} {pa : Option P}
    {lv : Nat} {R : List Nat} (hfuel : R.length < fuel) {e : Err} (h : hFit c fuel pa lv R = .error e)
    {st : HState S K} (hst : hSolve c.A c.T (hProblem c (c.T.getPrior pa R.length c.nDim) lv R)
      (c.opt.solve (hProblem c (c.T.getPrior pa R.length c.nDim) lv R)) c.budget []
      (hInit (hProblem c (c.T.getPrior pa R.length c.nDim) lv R)) = .ok st) :
    ∃ prior lv' R', R'.Sublist R ∧ R'.length < R.length ∧
      hSolve c.A c.T (hProblem c prior lv' R') (c.opt.solve (hProblem c prior lv' R')) c.budget []
        (hInit (hProblem c prior lv' R')) = .error e := by
  cases fuel with
  | zero => omega
  | succ fuel =>
    unfold hFit at h
    dsimp only at h
    rw [hst] at h
    simp only [below_eq, above_eq, hDivisible_iff] at h
    split at h
    · cases h
    · next sp hb =>
      have hlenR := above_below_length (c := c) R sp
      split at h
      · next hlen =>
        split at h
        · next e' he =>
          cases h
          split at he
          · obtain ⟨p, l, R', hsub, hR'⟩ := hFit_total (by omega) he
            exact ⟨p, l, R', hsub.trans List.filter_sublist, by have := hsub.length_le; omega, hR'⟩
          · cases he
        · split at h
          · next e' he =>
            cases h
            split at he
            · obtain ⟨p, l, R', hsub, hR'⟩ := hFit_total (by omega) he
              exact ⟨p, l, R', hsub.trans List.filter_sublist, by have := hsub.length_le; omega, hR'⟩
            · cases he
          · cases h
      · cases h

/-- C39 for hyperplane trees, what does hold: if `fit` raises, the model is exactly as before unless the
optimizer raised the exception on a node below the root (on fewer rows than the training data). -/
theorem C39_hyper_partial {obX : ObjOps E K} {obY : ObjOps E' K}
    {check : Option P → NArr K → Except Err Unit} {ar : HArith K} {T : Target K P K O} {opt : Optimizer K P K}
    {budget : Nat} {fmt : Fmt (HSplit K) P} {hp : Hyper K} {prior : Option P} {level : Nat}
    {a : Attrs (Option (HSplit K)) K P} {c1 c2 : HObj K K P} {X : XInput E K} {y : YInput E' K}
    {names : Option (List String)} {e : Err}
    (h : (fitCall (hyperKit obX obY check ar T opt budget fmt) (.mk hp prior level a c1 c2) X y names).2 =
      some e) :
    (fitCall (hyperKit obX obY check ar T opt budget fmt) (.mk hp prior level a c1 c2) X y names).1 =
      .mk hp prior level a c1 c2 ∨
    ∃ x z ns, validate (hyperKit obX obY check ar T opt budget fmt) prior X y names = .ok (x, z, ns) ∧
      ∃ pr lv R, R.Sublist (List.range x.rows) ∧ R.length < x.rows ∧
        let q := hProblem ⟨ar, T, hp, opt, budget, x.mat, z.vec, x.cols⟩ pr lv R
        hSolve ar T q (opt.solve q) budget [] (hInit q) = .error e := by
  cases hval : validate (hyperKit obX obY check ar T opt budget fmt) prior X y names with
  | error e' =>
    left
    rw [fitCall_invalid (self := .mk hp prior level a c1 c2) hval]
  | ok r =>
    obtain ⟨x, z, ns⟩ := r
    have hk := hyperKit_lawful obX obY check ar T opt budget fmt
    cases hf : hyperTree ar T opt budget x z ns hp prior level with
    | ok t => rw [fitCall_ok hk hval hf] at h; cases h
    | error e' =>
      rw [fitCall_error hk hval hf] at h ⊢
      cases h
      let c : HCtx K P K O := ⟨ar, T, hp, opt, budget, x.mat, z.vec, x.cols⟩
      let q := hProblem c (T.getPrior prior (List.range x.rows).length x.cols) level (List.range x.rows)
      cases hs : hSolve ar T q (opt.solve q) budget [] (hInit q) with
      | error e'' =>
        left
        show (hFitObj c (x.rows + 1) (.mk hp prior level a c1 c2) (List.range x.rows)).1 = _
        rw [hFitObj]
        dsimp only
        rw [show hSolve c.A c.T (hProblem { c with hp := hp } (c.T.getPrior prior (List.range x.rows).length
          c.nDim) level (List.range x.rows)) (c.opt.solve (hProblem { c with hp := hp } (c.T.getPrior prior
          (List.range x.rows).length c.nDim) level (List.range x.rows))) c.budget []
          (hInit (hProblem { c with hp := hp } (c.T.getPrior prior (List.range x.rows).length c.nDim) level
          (List.range x.rows))) = .error e'' from hs]
      | ok st =>
        right
        obtain ⟨pr, lv, R, h1, h2, h3⟩ := hFit_total_strict (c := c) (R := List.range x.rows) (by simp) hf hs
        exact ⟨x, z, ns, rfl, pr, lv, R, h1, by simpa using h2, h3⟩

end c39hyper

/-! The refutation of C39 on a concrete model: eight rows with two features, first the class is feature 0,
then the class is feature 1 and only one feature name is given. -/

section witness

/-- A rational array as a real one. -/
noncomputable def castArr (a : NArr ℚ) : NArr ℝ := ⟨a.shape, a.dt, castL a.data⟩

theorem castL_getDefault (l : List ℚ) (i : Nat) : (castL l).getD i default = ((l.getD i default : ℚ) : ℝ) := by
  unfold castL
  rw [List.getD_eq_getElem?_getD, List.getD_eq_getElem?_getD, List.getElem?_map]
  cases l[i]? with
  | none => show (0 : ℝ) = ((0 : ℚ) : ℝ); simp
  | some v => rfl

theorem castArr_mat (a : NArr ℚ) : (castArr a).mat = fun i j => ((a.mat i j : ℚ) : ℝ) := by
  funext i j
  exact castL_getDefault _ _

theorem castArr_vec (a : NArr ℚ) : (castArr a).vec = fun i => ((a.vec i : ℚ) : ℝ) := by
  funext i
  exact castL_getDefault _ _

theorem apiCtx_cast (hp : Hyper ℚ) (x z : NArr ℚ) (ns : List String) :
    apiCtx (exactOps ℝ) (clsTarget realFns) (clsPair realFns) (castHp hp) (castArr x) (castArr z) ns =
      castCtx (apiCtx (exactOps ℚ) (probTarget ℚ) probPair hp x z ns) := by
  unfold apiCtx castCtx
  rw [castArr_mat, castArr_vec]
  rfl

def lifeHp : Hyper ℚ := ⟨9 / 10, 0, false, 0⟩
def lifeX1 : NArr ℚ := ⟨[8, 2], .float64, [0, 0, 0, 0, 0, 0, 0, 0, 1, 0, 1, 0, 1, 0, 1, 0]⟩
def lifeX2 : NArr ℚ := ⟨[8, 2], .float64, [0, 0, 0, 0, 0, 0, 0, 0, 0, 1, 0, 1, 0, 1, 0, 1]⟩
def lifeY : NArr ℚ := ⟨[8], .float64, [0, 0, 0, 0, 1, 1, 1, 1]⟩
def lifeQ : NArr ℚ := ⟨[1, 2], .float64, [0, 1]⟩

def lifeCtx (x : NArr ℚ) : Ctx ℚ ℚ (List ℚ) ℚ (List ℚ) :=
  apiCtx (exactOps ℚ) (probTarget ℚ) probPair lifeHp x lifeY ["a", "b"]

def lifeTree (x : NArr ℚ) : PNode ℚ ℚ ℚ (List ℚ) :=
  ((fitIn (lifeCtx x) (insArgsort (exactOps ℚ).le) (some [1, 1]) 8).toOption).getD
    (.leaf ⟨lifeHp, none, 0, none, 0, []⟩)

theorem lifeFit1 : fitIn (lifeCtx lifeX1) (insArgsort (exactOps ℚ).le) (some [1, 1]) 8 =
    .ok (lifeTree lifeX1) := by decide +kernel
theorem lifeFit2 : fitIn (lifeCtx lifeX2) (insArgsort (exactOps ℚ).le) (some [1, 1]) 8 =
    .ok (lifeTree lifeX2) := by decide +kernel

theorem lifeDim : rootDim (lifeTree lifeX1) = some 0 ∧ rootDim (lifeTree lifeX2) = some 1 := by decide +kernel

theorem lifePredict :
    predict (perpRouter (exactOps ℚ)) (probTarget ℚ) (lifeTree lifeX1) lifeQ.mat 1 = [0] ∧
    predict (perpRouter (exactOps ℚ)) (probTarget ℚ) (setRootDim 1 (lifeTree lifeX1)) lifeQ.mat 1 = [1] := by
  decide +kernel

theorem lifeNDim : (lifeTree lifeX1).info.nDim = some 2 ∧ (lifeTree lifeX1).info.hp = lifeHp ∧
    (lifeTree lifeX1).info.prior = some [1, 1] ∧ (lifeTree lifeX1).info.level = 0 := by
  decide +kernel

theorem lifeReal (x : NArr ℚ) (hx : fitIn (lifeCtx x) (insArgsort (exactOps ℚ).le) (some [1, 1]) 8 =
    .ok (lifeTree x)) (hc : 0 < x.cols) :
    fitIn (castCtx (lifeCtx x)) realSort (some (castL [1, 1])) 8 = .ok (castTree lifeHp (lifeTree x)) :=
  cast_fit hx rfl rfl rfl hc (by decide) (by decide) (le_refl _)
    (by show (0 : ℚ) < 9 / 10; decide +kernel) (by show (9 / 10 : ℚ) < 1; decide +kernel) (le_refl _)
    ⟨by simp, by decide +kernel⟩ realSort_spec

theorem lifeClasses : ClassesExactly 2 (castL lifeY.data) := by
  intro v
  constructor
  · intro h
    simp only [castL, lifeY, List.map_cons, List.map_nil, List.mem_cons, List.not_mem_nil, or_false] at h
    rcases h with h | h | h | h | h | h | h | h <;> rw [h]
    exacts [⟨0, by omega, by simp⟩, ⟨0, by omega, by simp⟩, ⟨0, by omega, by simp⟩, ⟨0, by omega, by simp⟩,
      ⟨1, by omega, by simp⟩, ⟨1, by omega, by simp⟩, ⟨1, by omega, by simp⟩, ⟨1, by omega, by simp⟩]
  · rintro ⟨i, hi, rfl⟩
    interval_cases i <;> simp [castL, lifeY]

/-- The model of the example: a classification tree over the reals. -/
noncomputable def lifeKit (obX obY : ObjOps Unit ℝ) (fmt : Fmt (PSplit ℝ) (List ℝ)) :=
  perpKit obX obY clsCheckTarget (exactOps ℝ) (clsTarget realFns) realSort fmt

theorem lifeValidate (obX obY : ObjOps Unit ℝ) (fmt : Fmt (PSplit ℝ) (List ℝ)) (x : NArr ℚ)
    (hx : x.shape = [8, 2]) (ns : List String) :
    validate (lifeKit obX obY fmt) (some (castL [1, 1])) (.array (.native (castArr x)))
      (.array (.native (castArr lifeY))) (some ns) = .ok (castArr x, castArr lifeY, ns) := by
  have hy : normalizeTarget obY (.array (.native (castArr lifeY))) = .ok (castArr lifeY) := by
    show Except.ok _ = _
    congr 1
  have hc : clsCheckTarget (some (castL [1, 1])) (castArr lifeY) = .ok () :=
    (C33_check (castL [1, 1]) (by simp [castL]) (castArr lifeY)).1.2 ⟨rfl, lifeClasses⟩
  have hX : normalize obX (.array (.native (castArr x))) (some ns) = .ok (castArr x, ns) := by
    obtain ⟨sh, dt, data⟩ := x
    subst hx
    rfl
  unfold validate lifeKit perpKit
  dsimp only
  rw [hy]
  dsimp only
  rw [hc]
  dsimp only
  rw [hX]
  dsimp only
  rw [if_neg]
  unfold NArr.rows castArr
  rw [hx]
  simp [lifeY]

theorem lifePerpTree (x : NArr ℚ) (hs : x.shape = [8, 2])
    (hx : fitIn (lifeCtx x) (insArgsort (exactOps ℚ).le) (some [1, 1]) 8 = .ok (lifeTree x)) :
    perpTree (exactOps ℝ) (clsTarget realFns) realSort (castArr x) (castArr lifeY) ["a", "b"] (castHp lifeHp)
      (some (castL [1, 1])) 0 = .ok (castTree lifeHp (lifeTree x)) := by
  have h := lifeReal x hx (by unfold NArr.cols; rw [hs]; decide)
  rw [lifeCtx, ← apiCtx_cast] at h
  have hr : (castArr x).rows = 8 := by unfold NArr.rows castArr; rw [hs]; rfl
  have h2 := (perpTree_fitIn (exactOps ℝ) (clsTarget realFns) (clsPair realFns) realSort (castHp lifeHp)
    (some (castL [1, 1])) (castArr x) (castArr lifeY) ["a", "b"] (castTree lifeHp (lifeTree x))).1
    (by rw [hr]; exact h)
  obtain ⟨t0, h0, e⟩ := h2
  rw [h0, e]
  rfl

theorem rootDim_castTree (hp : Hyper ℚ) (t : PNode ℚ ℚ ℚ (List ℚ)) : rootDim (castTree hp t) = rootDim t := by
  cases t <;> rfl

theorem setRootDim_castTree (hp : Hyper ℚ) (d : Nat) (t : PNode ℚ ℚ ℚ (List ℚ)) :
    setRootDim d (castTree hp t) = castTree hp (setRootDim d t) := by
  cases t <;> rfl

theorem setRootDim_info {V S K P : Type} (d : Nat) (t : PNode V S K P) : (setRootDim d t).info = t.info := by
  cases t <;> rfl

theorem castTree_info (hp : Hyper ℚ) (t : PNode ℚ ℚ ℚ (List ℚ)) :
    (castTree hp t).info = mapInfo (castHp hp) castL t.info := by
  cases t <;> rfl

/-- C39 is false: a successful fit, a second fit that raises because a feature name is missing, and a
prediction that differs before and after the failure. -/
theorem C39_refuted (obX obY : ObjOps Unit ℝ) (fmt : Fmt (PSplit ℝ) (List ℝ)) :
    let k := lifeKit obX obY fmt
    let new := Obj.fresh .erased (castHp lifeHp) (some (castL [1, 1])) 0
    let fit1 := fitCall k new (.array (.native (castArr lifeX1))) (.array (.native (castArr lifeY)))
      (some ["a", "b"])
    let fit2 := fitCall k fit1.1 (.array (.native (castArr lifeX2))) (.array (.native (castArr lifeY)))
      (some ["a"])
    let q := Query.predict (.array (.native (castArr lifeQ)))
    fit1.2 = none ∧ fit2.2 = some .indexError ∧
    ask k fit1.1 q = .ok (.values [0]) ∧ ask k fit2.1 q = .ok (.values [1]) := by
  intro k new fit1 fit2 q
  have hk : LawfulKit k PAttr.ofSplit (perpTree (exactOps ℝ) (clsTarget realFns) realSort) :=
    perpKit_lawful obX obY clsCheckTarget (exactOps ℝ) (clsTarget realFns) realSort fmt
  have h1 : fit1 = (perpObj (castTree lifeHp (lifeTree lifeX1)), none) :=
    fitCall_ok hk (lifeValidate obX obY fmt lifeX1 rfl ["a", "b"]) (lifePerpTree lifeX1 rfl lifeFit1)
  have e1 : fit1.1 = perpObj (castTree lifeHp (lifeTree lifeX1)) := by rw [h1]
  have hinfo : (castTree lifeHp (lifeTree lifeX1)).info = mapInfo (castHp lifeHp) castL (lifeTree lifeX1).info :=
    castTree_info _ _
  obtain ⟨g1, g2, g3, g4⟩ := lifeNDim
  have i1 : (castTree lifeHp (lifeTree lifeX1)).info.hp = castHp lifeHp := by rw [hinfo]; rfl
  have i2 : (castTree lifeHp (lifeTree lifeX1)).info.prior = some (castL [1, 1]) := by
    rw [hinfo]; show (lifeTree lifeX1).info.prior.map castL = _; rw [g3]; rfl
  have i3 : (castTree lifeHp (lifeTree lifeX1)).info.level = 0 := by rw [hinfo]; exact g4
  have i4 : (castTree lifeHp (lifeTree lifeX1)).info.nDim = some 2 := by rw [hinfo]; exact g1
  have e2 : fit2 = (perpObj (setRootDim 1 (castTree lifeHp (lifeTree lifeX1))), some .indexError) := by
    show fitCall k fit1.1 _ _ _ = _
    rw [e1]
    refine C39_corrupts_tree (d0 := 0) (d := 1) (x := castArr lifeX2) (z := castArr lifeY) (ns := ["a"])
      (names' := ["a", "b"]) (u := castTree lifeHp (lifeTree lifeX2))
      (by rw [rootDim_castTree]; exact lifeDim.1) ?_ ?_
      (by rw [rootDim_castTree]; exact lifeDim.2) rfl
    · rw [i2]; exact lifeValidate obX obY fmt lifeX2 rfl ["a"]
    · rw [i1, i2, i3]; exact lifePerpTree lifeX2 rfl lifeFit2
  have hX : normalize k.obX (.array (.native (castArr lifeQ))) none = .ok (castArr lifeQ, defaultNames 2) := rfl
  refine ⟨by rw [h1], by rw [e2], ?_, ?_⟩
  · rw [e1]
    refine (ask_ofNode hk _ hX i4).1.trans ?_
    rw [castArr_mat]
    refine congrArg (fun l => Except.ok (Answer.values l)) ((predict_cast lifeHp _ _ _).trans ?_)
    rw [show (castArr lifeQ).rows = 1 from rfl, lifePredict.1]
    simp [castL]
  · rw [e2]
    refine (ask_ofNode hk _ hX ?_).1.trans ?_
    · rw [setRootDim_info]; exact i4
    · rw [castArr_mat, setRootDim_castTree]
      refine congrArg (fun l => Except.ok (Answer.values l)) ((predict_cast lifeHp _ _ _).trans ?_)
      rw [show (castArr lifeQ).rows = 1 from rfl, lifePredict.2]
      simp [castL]

/-- The same classes with rational probability scores, to evaluate histories. -/
def lifeKitQ : Kit Unit ℚ Unit ℚ (List ℚ) ℚ (List ℚ) (PAttr ℚ) (PSplit ℚ) :=
  perpKit ⟨fun _ => .error .typeError, fun _ _ => false⟩ ⟨fun _ => .error .typeError, fun _ _ => false⟩
    clsCheckTarget (exactOps ℚ) (probTarget ℚ) (insArgsort (exactOps ℚ).le)
    (perpFmt (fun _ => "v") (fun _ => "0") (fun _ => "p") false)

def lifeNew : PObj ℚ ℚ ℚ (List ℚ) := .fresh .erased lifeHp (some [1, 1]) 0
def lifeData (x : NArr ℚ) : XInput Unit ℚ := .array (.native x)
def lifeTarget : YInput Unit ℚ := .array (.native lifeY)
def lifeAsk : Query Unit ℚ := .predict (lifeData lifeQ)
/-- The same sample as a 1-D array. -/
def lifeAsk1 : Query Unit ℚ := .predict (.array (.native ⟨[2], .float64, [0, 1]⟩))
/-- A sample with three features. -/
def lifeAsk3 : Query Unit ℚ := .predict (.array (.native ⟨[3], .float64, [0, 1, 2]⟩))

/-- Queries before, between and after fits, a failing fit and a refit. -/
def lifeCalls : List (Call Unit ℚ Unit ℚ) :=
  [.query lifeAsk, .fit (lifeData lifeX1) lifeTarget (some ["a", "b"]), .query lifeAsk, .query lifeAsk1,
    .query lifeAsk3, .query .nLeaves, .query lifeAsk, .fit (lifeData lifeX2) lifeTarget (some ["a"]),
    .query lifeAsk, .fit (lifeData lifeX2) lifeTarget (some ["a", "b"]), .query lifeAsk]

example : (runCalls lifeKitQ lifeNew lifeCalls).2 =
    [.error .valueError, .ok none, .ok (some (.values [0])), .ok (some (.values [0])), .error .valueError,
      .ok (some (.number 2)), .ok (some (.values [0])), .error .indexError, .ok (some (.values [1])),
      .ok none, .ok (some (.values [1]))] := by decide +kernel

example : (fitCall lifeKitQ (runCalls lifeKitQ lifeNew lifeCalls).1 (lifeData lifeX1) lifeTarget
    (some ["a", "b"])).2 = none := by decide +kernel
example : (runCalls lifeKitQ lifeNew lifeCalls).1 ≠ lifeNew := by decide +kernel
example : NoFit lifeKitQ lifeNew [.query lifeAsk, .fit (lifeData lifeX2) lifeTarget (some ["a"])] := by
  refine ⟨?_, trivial⟩
  decide +kernel
example : LawfulKit lifeKitQ PAttr.ofSplit
    (perpTree (exactOps ℚ) (probTarget ℚ) (insArgsort (exactOps ℚ).le)) := perpKit_lawful _ _ _ _ _ _ _
/-- Hypotheses of `C39_perp_partial`: a fit that raises although there are enough names (wrong rows). -/
example : (fitCall lifeKitQ lifeNew (lifeData lifeQ) lifeTarget (some ["a", "b"])) =
    (lifeNew, some .valueError) := by decide +kernel
/-- Default prior (C34) and one sample (C35). -/
example : (fitCall lifeKitQ (.fresh .erased lifeHp none 0) (lifeData lifeX1) lifeTarget none).2 =
    some .typeError := by decide +kernel
example : (fitCall lifeKitQ lifeNew (lifeData lifeQ) (.array (.native ⟨[1], .int64, [0]⟩)) none).2 =
    some .valueError := by decide +kernel

end witness

end BT
