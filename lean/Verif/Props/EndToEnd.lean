import Verif.Spec.Answers
import Verif.Props.Object
import Verif.Props.Str
import Verif.Props.HyperShape

/-!
# The public interface end to end: C91

From a successful `fit` call on a model with any history to the answers of all queries.
-/

set_option linter.unusedSectionVars false

namespace BT
open Spec

section generic
variable {E V E' K P S O A Sp : Type} [Inhabited V] [Field K] [DecidableEq K]
  {k : Kit E V E' K P S O A Sp} {attr : Sp → A}
  {fit : NArr V → NArr K → List String → Hyper K → Option P → Nat → Except Err (Node Sp S K P)}

/-- What a successful `fit` call has done. -/
theorem fitCall_tree (hk : LawfulKit k attr fit) (hp : Hyper K) (prior : Option P) (level : Nat)
    (cs : List (Call E V E' K)) (X : XInput E V) (y : YInput E' K) (names : Option (List String))
    (h : (fitCall k (runCalls k (.fresh k.erased hp prior level) cs).1 X y names).2 = none) :
    ∃ x z ns t0, normalizeTarget k.obY y = .ok z ∧ k.check prior z = .ok () ∧ normalize k.obX X names = .ok (x, ns) ∧
      x.rows = z.rows ∧ fit x z ns hp prior level = .ok t0 ∧
      (fitCall k (runCalls k (.fresh k.erased hp prior level) cs).1 X y names).1 =
        Obj.ofNode k.erased attr (pruned k.T.predictLeaf hp t0) := by
  have hpar := runCalls_params hk cs (.fresh k.erased hp prior level) rfl
  cases hu : (runCalls k (.fresh k.erased hp prior level) cs).1 with
  | absent => rw [hu] at hpar; cases hpar
  | mk hp' prior' level' a c1 c2 =>
    rw [hu] at hpar h
    simp only [Obj.params, Obj.fresh, Option.some.injEq, Prod.mk.injEq] at hpar
    obtain ⟨rfl, rfl, rfl⟩ := hpar
    cases hval : validate k prior' X y names with
    | error e =>
      rw [fitCall_invalid (self := .mk hp' prior' level' a c1 c2) hval] at h
      cases h
    | ok r =>
      obtain ⟨x, z, ns⟩ := r
      cases hf : fit x z ns hp' prior' level' with
      | error e => rw [fitCall_error hk hval hf] at h; cases h
      | ok t0 =>
        have e := fitCall_ok hk (a := a) (c1 := c1) (c2 := c2) hval hf
        unfold validate at hval
        split at hval
        · cases hval
        · next z' hz =>
          split at hval
          · cases hval
          · next hc =>
            split at hval
            · cases hval
            · next x' ns' hx =>
              split at hval
              · cases hval
              · next hr =>
                cases hval
                exact ⟨x, z, ns, t0, hz, hc, hx, not_not.1 hr, hf, by rw [e]⟩

theorem list_ext_range {β : Type} {l : List β} {m : Nat} (f : Nat → β) (hl : l.length = m)
    (h : ∀ i < m, l[i]? = some (f i)) : l = (List.range m).map f := by
  apply List.ext_getElem?
  intro i
  by_cases hi : i < m
  · rw [h i hi, List.getElem?_map, List.getElem?_range hi]
    rfl
  · rw [List.getElem?_eq_none (by omega), List.getElem?_eq_none (by simp; omega)]

/-- The object of a tree answers as the tree. -/
theorem ofNode_answers (hk : LawfulKit k attr fit) (hex : Exclusive k.router) (t : Node Sp S K P) {cols : Nat}
    (hd : t.info.nDim = some cols) (hl : Levelled 0 t) : AnswersAs k (Obj.ofNode k.erased attr t) t cols := by
  refine ⟨?_, ?_, ?_, ?_, ?_, ?_, ?_⟩
  · show (Obj.updateDepth k.view _ 0).map Answer.number = _
    rw [ofNode_depth hk.view]
    show Except.ok (Answer.number t.getDepth) = _
    rw [getDepth_eq hl]
  · show (Obj.updateNLeaves k.view _ 0).map Answer.number = _
    rw [ofNode_nLeaves hk.view]
    show Except.ok (Answer.number t.getNLeaves) = _
    rw [getNLeaves_eq]
  · intro Z q nz hZ hc
    rw [(ask_ofNode hk t hZ (by rw [hd, hc])).1]
    congr 2
    refine list_ext_range _ (by simp [predict, predictRows_length]) fun i hi => ?_
    unfold predict
    rw [predictRows_getElem? _ hex _ _ _ _ _ _ hi]
    rfl
  · intro Z q nz hZ hc
    rw [(ask_ofNode hk t hZ (by rw [hd, hc])).2.1]
    congr 2
    refine list_ext_range _ (by simp [predictProba, predictRows_length]) fun i hi => ?_
    unfold predictProba meanAt
    rw [predictRows_getElem? _ hex _ _ _ _ _ _ hi]
    cases walk k.router t (q.mat i) <;> rfl
  · intro Z q nz hZ hc
    rw [(ask_ofNode hk t hZ (by rw [hd, hc])).2.2.1]
    congr 2
    refine list_ext_range _ (by simp [rawLeafData, predictRows_length]) fun i hi => ?_
    unfold rawLeafData rawAt
    rw [predictRows_getElem? _ hex _ _ _ _ _ _ hi]
    cases walk k.router t (q.mat i) <;> rfl
  · intro Z q nz hZ hc
    have := fun (qu : Query E V) (hq : qu.predicts = some Z) (hp : ∀ X, qu ≠ .paths X) =>
      C36_columns (k := k) (self := Obj.ofNode k.erased attr t) (ofNode_isFitted t) (by rw [ofNode_nDim, hd]) hq
        (.inr hp) hZ hc
    exact ⟨this (.predict Z) rfl (by simp), this (.predictProba Z) rfl (by simp), this (.rawLeafData Z) rfl (by simp)⟩
  · intro Z e hZ
    have hc : checkedX k (Obj.ofNode k.erased attr t) Z = .error e := by unfold checkedX; rw [hZ]
    exact ⟨ask_checked rfl (.inr (by simp)) hc, ask_checked rfl (.inr (by simp)) hc,
      ask_checked rfl (.inr (by simp)) hc⟩

end generic

section perp
variable {E V E' K P O : Type} [Field K] [LinearOrder K] [Inhabited V] [Inhabited K] {obX : ObjOps E V}
  {obY : ObjOps E' K} {check : Option P → NArr K → Except Err Unit} {o : XOps V K} {T : Target K P K O}
  {pair : PairScore K P K} {argsort : List V → List Nat} {fmt : Fmt (PSplit V) P} {ok : V → Prop}

/-- C91 for perpendicular trees: after any history, a call of `fit` that returns has accepted the data and left a model
that answers all queries as the tree fitted to the normalised data. -/
theorem C91_perp (hex : Exclusive (perpRouter o)) (hp : Hyper K) (prior : Option P)
    (cs : List (Call E V E' K)) (X : XInput E V) (y : YInput E' K) (names : Option (List String))
    (hval : ∀ x z ns, normalize obX X names = .ok (x, ns) → normalizeTarget obY y = .ok z → x.rows = z.rows →
      check prior z = .ok () → 0 < x.rows ∧ Valid ok (apiCtx o T pair hp x z ns) argsort x.rows) :
    let k := perpKit obX obY check o T argsort fmt
    let call := fitCall k (runCalls k (.fresh .erased hp prior 0) cs).1 X y names
    call.2 = none → ∃ x z ns t, normalize obX X names = .ok (x, ns) ∧ normalizeTarget obY y = .ok z ∧
      x.rows = z.rows ∧ check prior z = .ok () ∧
      fitIn (apiCtx o T pair hp x z ns) argsort prior x.rows = .ok t ∧
      AnswersAs k call.1 t x.cols ∧
      ask k call.1 .featureImportance = .ok (.importance (perpFeatureImportance x.cols t)) ∧
      (∀ Z q nz, normalize obX Z none = .ok (q, nz) → q.cols = x.cols →
        ask k call.1 (.paths Z) = .ok (.paths (predictionPaths o q.mat q.rows t))) ∧
      ∃ lines : List String, ask k call.1 .str = .ok (.text (joinLines lines)) ∧
        lines.map some = (preorder t).map (lineAt fmt t) := by
  intro k call h
  have hk : LawfulKit k PAttr.ofSplit (perpTree o T argsort) := perpKit_lawful obX obY check o T argsort fmt
  obtain ⟨x, z, ns, t0, hz, hc, hx, hr, hf, he⟩ := fitCall_tree hk hp prior 0 cs X y names h
  have ht := (perpTree_fitIn o T pair argsort hp prior x z ns (pruned T.predictLeaf hp t0)).2 ⟨t0, hf, rfl⟩
  obtain ⟨hn, hv⟩ := hval x z ns hx hz hr hc
  have hd : (pruned T.predictLeaf hp t0).info.nDim = some x.cols := by
    rw [pruned_info]
    exact (perpFit_nDim _ _ _ _ _ _ _ _ _ _ _ _ hf).1
  change call.1 = perpObj (pruned T.predictLeaf hp t0) at he
  generalize pruned T.predictLeaf hp t0 = t at ht hd he
  refine ⟨x, z, ns, t, hx, hz, hr, hc, ht, ?_⟩
  rw [he]
  refine ⟨ofNode_answers hk hex t hd (fit_levelled hv hn ht), ?_, ?_, ?_⟩
  · show (match ensureIsFitted (perpObj t) none with | .error e => _ | .ok () => _) = _
    unfold ensureIsFitted
    rw [ofNode_isFitted]
    dsimp only [Bool.not_true]
    rw [if_neg (by simp), ofNode_nDim, hd]
    show (perpUpdateImportanceObj (perpObj t) (List.replicate x.cols 0)).map _ = _
    rw [perpObj_importance]
    rfl
  · intro Z q nz hZ hcols
    have hch : checkedX k (perpObj t) Z = .ok q :=
      checkedX_ok hZ (ofNode_isFitted t) (by rw [ofNode_nDim, hd, hcols])
    show (match checkedX k (perpObj t) Z with | .error e => _ | .ok X => _) = _
    rw [hch]
    show (updatePathsObj o q.mat (perpObj t) (List.range q.rows) (List.replicate q.rows [])).map _ = _
    rw [perpObj_paths]
    rfl
  · obtain ⟨lines, h1, h2⟩ := C57_text (pattr_lawful (V := V)) fmt t
    refine ⟨lines, ?_, h2⟩
    show (str fmt PAttr.view (perpObj t)).map Answer.text = _
    rw [h1]
    rfl

/-- C38 for the perpendicular classes. -/
theorem C38_perp (hp : Hyper K) (prior : Option P) (level : Nat) (cs : List (Call E V E' K)) (X : XInput E V)
    (y : YInput E' K) (names : Option (List String)) :
    let k := perpKit obX obY check o T argsort fmt
    let used := (runCalls k (.fresh k.erased hp prior level) cs).1
    let new : PObj V K K P := .fresh k.erased hp prior level
    (fitCall k used X y names).2 = (fitCall k new X y names).2 ∧
    ((fitCall k used X y names).2 = none → fitCall k used X y names = fitCall k new X y names ∧
      ∀ later, runCalls k (fitCall k used X y names).1 later = runCalls k (fitCall k new X y names).1 later) :=
  C38_refit (perpKit_lawful obX obY check o T argsort fmt) hp prior level cs X y names

end perp

section hyper
variable {E E' K P O : Type} [Field K] [LinearOrder K] [Inhabited K] {obX : ObjOps E K}
  {obY : ObjOps E' K} {check : Option P → NArr K → Except Err Unit} {ar : HArith K} {T : Target K P K O}
  {opt : Optimizer K P K} {budget : Nat} {fmt : Fmt (HSplit K) P}

/-- The hyperplane fit of normalised data. -/
def apiHCtx (ar : HArith K) (T : Target K P K O) (opt : Optimizer K P K) (budget : Nat) (hp : Hyper K) (x z : NArr K) :
    HCtx K P K O := ⟨ar, T, hp, opt, budget, x.mat, z.vec, x.cols⟩

/-- C38 for the hyperplane classes. -/
theorem C38_hyper (hp : Hyper K) (prior : Option P) (level : Nat) (cs : List (Call E K E' K)) (X : XInput E K)
    (y : YInput E' K) (names : Option (List String)) :
    let k := hyperKit obX obY check ar T opt budget fmt
    let used := (runCalls k (.fresh k.erased hp prior level) cs).1
    let new : HObj K K P := .fresh k.erased hp prior level
    (fitCall k used X y names).2 = (fitCall k new X y names).2 ∧
    ((fitCall k used X y names).2 = none → fitCall k used X y names = fitCall k new X y names ∧
      ∀ later, runCalls k (fitCall k used X y names).1 later = runCalls k (fitCall k new X y names).1 later) :=
  C38_refit (hyperKit_lawful obX obY check ar T opt budget fmt) hp prior level cs X y names

/-- C91 for hyperplane trees, which have no `prediction_paths`. -/
theorem C91_hyper [IsStrictOrderedRing K] {pair : PairScore K P K} (hT : LawfulTarget T pair)
    (hs : IsArgsort (exactOps K).le (fun _ => True) ar.argsort) (hd0 : ∀ y p, T.posterior y p 0 = p)
    (hp : Hyper K) (prior : Option P) (cs : List (Call E K E' K)) (X : XInput E K) (y : YInput E' K)
    (names : Option (List String)) :
    let k := hyperKit obX obY check ar T opt budget fmt
    let call := fitCall k (runCalls k (.fresh none hp prior 0) cs).1 X y names
    call.2 = none → ∃ x z ns t, normalize obX X names = .ok (x, ns) ∧ normalizeTarget obY y = .ok z ∧
      x.rows = z.rows ∧ check prior z = .ok () ∧
      hFitRoot (apiHCtx ar T opt budget hp x z) prior x.rows = .ok t ∧
      AnswersAs k call.1 t x.cols ∧
      ask k call.1 .featureImportance = .ok (.importance (hyperFeatureImportance x.cols t)) ∧
      (∀ Z, ask k call.1 (.paths Z) = .error .attributeError) ∧
      ∃ lines : List String, ask k call.1 .str = .ok (.text (joinLines lines)) ∧
        lines.map some = (preorder t).map (lineAt fmt t) := by
  intro k call h
  have hk : LawfulKit k some (hyperTree ar T opt budget) := hyperKit_lawful obX obY check ar T opt budget fmt
  obtain ⟨x, z, ns, t0, hz, hc, hx, hr, hf, he⟩ := fitCall_tree hk hp prior 0 cs X y names h
  have ht : hFitRoot (apiHCtx ar T opt budget hp x z) prior x.rows = .ok (pruned T.predictLeaf hp t0) := by
    unfold hFitRoot pruned
    rw [show hFit (apiHCtx ar T opt budget hp x z) (x.rows + 1) prior 0 (List.range x.rows) = .ok t0 from hf]
    dsimp only
    rw [prune_eq]
    show (if hp.prune = true then _ else _) = _
    split <;> rfl
  have hd : (pruned T.predictLeaf hp t0).info.nDim = some x.cols := by
    rw [pruned_info]
    exact (hFit_info _ _ _ _ _ _ hf).2.2.2
  change call.1 = hyperObj (pruned T.predictLeaf hp t0) at he
  generalize pruned T.predictLeaf hp t0 = t at ht hd he
  refine ⟨x, z, ns, t, hx, hz, hr, hc, ht, ?_⟩
  rw [he]
  refine ⟨ofNode_answers hk hyper_exclusive t hd ?_, ?_, fun _ => rfl, ?_⟩
  · intro addr u hu
    obtain ⟨par, pa, u0, hB, -, -, hi, -⟩ := hFit_node_prior (c := apiHCtx ar T opt budget hp x z) hT hs hd0 ht hu
    rw [hi, Nat.zero_add]
    cases hB <;> rfl
  · show (match ensureIsFitted (hyperObj t) none with | .error e => _ | .ok () => _) = _
    unfold ensureIsFitted
    rw [ofNode_isFitted]
    dsimp only [Bool.not_true]
    rw [if_neg (by simp), ofNode_nDim, hd]
    show (hyperUpdateImportanceObj (hyperObj t) (List.replicate x.cols 0)).map _ = _
    rw [hyperObj_importance]
    rfl
  · obtain ⟨lines, h1, h2⟩ := C57_text (hattr_lawful (K := K)) fmt t
    refine ⟨lines, ?_, h2⟩
    show (str fmt id (hyperObj t)).map Answer.text = _
    rw [h1]
    rfl

end hyper

/-- C36 (dimensions): whether fitted or not, a model raises `ValueError` for an array or nested list of numbers with three
or more dimensions. -/
theorem C36_dims {E V E' K P S O A Sp : Type} [Field K] [LinearOrder K] [Inhabited V]
    {k : Kit E V E' K P S O A Sp} {self : Obj A S K P} {q : Query E V} (a : NArr V) (ha : 3 ≤ a.shape.length)
    (hq : q.predicts = some (.array (.native a)) ∨ q.predicts = some (.list (.native a)))
    (hp : k.paths.isSome ∨ ∀ X, q ≠ .paths X) : ask k self q = .error .valueError := by
  obtain ⟨sh, dt, d⟩ := a
  obtain ⟨x0, x1, x2, sh, rfl⟩ : ∃ x0 x1 x2 sh', sh = x0 :: x1 :: x2 :: sh' := by
    match sh, ha with
    | x0 :: x1 :: x2 :: sh, _ => exact ⟨_, _, _, _, rfl⟩
  rcases hq with hq | hq <;>
  · refine ask_checked hq hp ?_
    simp [checkedX, normalize, toArrayAndNames, expandAndName, expandRow, ensureFloat64, Arr.shape]

/-! ## What users see -/

section users

/-- Rows of class probabilities and predicted classes that fit together: one probability vector with positive entries
per row, and the first most probable class. -/
def ClassRows {K : Type} [Field K] [LinearOrder K] (classes rows : Nat) (vs : List K) (ms : List (Option (List K))) :
    Prop :=
  vs.length = rows ∧ ms.length = rows ∧ ∀ i < rows, ∃ (pr : List K) (c : Nat) (w : K),
    ms[i]? = some (some pr) ∧ vs[i]? = some (c : K) ∧ pr.length = classes ∧ (∀ a ∈ pr, 0 < a ∧ a ≤ 1) ∧ pr.sum = 1 ∧
    c < classes ∧ pr[c]? = some w ∧ (∀ a ∈ pr, a ≤ w) ∧ ∀ j < c, ∀ a, pr[j]? = some a → a < w

variable {E E' K : Type} [Field K] [LinearOrder K] [IsStrictOrderedRing K] [Inhabited K]

theorem values_eq {V P S O Sp : Type} {K : Type} [Field K] {rt : Router Sp (Nat → V)} (hex : Exclusive rt)
    (T : Target K P S O) (t : Node Sp S K P) (X : Nat → Nat → V) (m : Nat) :
    (List.range m).map (fun i => valueAt rt T t (X i)) = predict rt T t X m ∧
    (List.range m).map (fun i => meanAt rt T t (X i)) = predictProba rt T t X m := by
  constructor
  · refine (list_ext_range _ (by simp [predict, predictRows_length]) fun i hi => ?_).symm
    unfold predict
    rw [predictRows_getElem? _ hex _ _ _ _ _ _ hi]
    rfl
  · refine (list_ext_range _ (by simp [predictProba, predictRows_length]) fun i hi => ?_).symm
    unfold predictProba meanAt
    rw [predictRows_getElem? _ hex _ _ _ _ _ _ hi]
    cases walk rt t (X i) <;> rfl

/-- C91 for perpendicular classification trees: after any history ending in a `fit` call that returns, `predict` and
`predict_proba` return, for every argument with the right number of columns, classes and probabilities that fit
together. -/
theorem C91_classification {obX : ObjOps E K} {obY : ObjOps E' K} {F : Fns K} {argsort : List K → List Nat}
    (hs : IsArgsort (exactOps K).le (fun _ => True) argsort) {fmt : Fmt (PSplit K) (List K)} {hp : Hyper K}
    (hprec : 0 ≤ hp.splitPrecision) (hδ : 0 ≤ hp.delta) {p : List K} (hpr : GoodPrior p)
    (cs : List (Call E K E' K)) {X : XInput E K} {y : YInput E' K} {names : Option (List String)} {x : NArr K}
    {ns : List String} (hX : normalize obX X names = .ok (x, ns)) (hrows : 0 < x.rows) (hmax : x.rows ≤ 2 ^ 64)
    (hcols : 0 < x.cols) :
    let k := perpKit obX obY clsCheckTarget (exactOps K) (clsTarget F) argsort fmt
    let call := fitCall k (runCalls k (.fresh .erased hp (some p) 0) cs).1 X y names
    call.2 = none → ∀ Z q nz, normalize obX Z none = .ok (q, nz) → q.cols = x.cols →
      ∃ vs ms, ask k call.1 (.predict Z) = .ok (.values vs) ∧ ask k call.1 (.predictProba Z) = .ok (.means ms) ∧
        ClassRows p.length q.rows vs ms := by
  intro k call h Z q nz hZ hq
  have hv : ∀ z ns, Valid (fun _ => True) (apiCtx (exactOps K) (clsTarget F) (clsPair F) hp x z ns) argsort x.rows :=
    fun z ns =>
      { ops := exact_lawful hprec
        target := cls_lawful F
        sort := hs
        dims := hcols
        rows := hmax
        vals := fun _ _ _ _ => trivial }
  obtain ⟨x', z, ns', t, hx, -, -, -, ht, hA, -⟩ := C91_perp (fmt := fmt) (pair := clsPair F) exact_exclusive hp (some p)
    cs X y names (fun x' z ns' hx _ _ _ => (by
      rw [hX] at hx
      cases hx
      exact ⟨hrows, hv z _⟩)) h
  rw [hX] at hx
  cases hx
  have e := values_eq exact_exclusive (clsTarget F) t q.mat q.rows
  refine ⟨_, _, hA.predict Z q nz hZ hq, hA.proba Z q nz hZ hq, by simp, by simp, fun i hi => ?_⟩
  obtain ⟨pr, h1, h2, h3, h4⟩ := C05_proba_rows (F := F) rfl rfl (hv z ns) hrows hpr hδ ht q.mat q.rows i hi
  obtain ⟨pr', c, w, g1, g2, g3, g4, g5, g6⟩ := C06_predict_argmax (F := F) rfl rfl (hv z ns) hrows hpr hδ ht q.mat
    q.rows i hi
  have : pr' = pr := by rw [h1] at g1; exact (Option.some.inj (Option.some.inj g1)).symm
  subst this
  exact ⟨pr', c, w, (congrArg (·[i]?) e.2).trans h1, (congrArg (·[i]?) e.1).trans g2, h2, h3, h4, g3, g4, g5, g6⟩

/-- C91 for hyperplane classification trees. -/
theorem C91_hyper_classification {obX : ObjOps E ℝ} {obY : ObjOps E' ℝ} {F : Fns ℝ} {ar : HArith ℝ}
    (hA : Euclidean ar) {opt : Optimizer ℝ (List ℝ) ℝ} {budget : Nat} {fmt : Fmt (HSplit ℝ) (List ℝ)} {hp : Hyper ℝ}
    {p : List ℝ} (hpr : GoodPrior p) (cs : List (Call E ℝ E' ℝ)) {X : XInput E ℝ} {y : YInput E' ℝ}
    {names : Option (List String)} {x : NArr ℝ} {ns : List String} (hX : normalize obX X names = .ok (x, ns)) :
    let k := hyperKit obX obY clsCheckTarget ar (clsTarget F) opt budget fmt
    let call := fitCall k (runCalls k (.fresh none hp (some p) 0) cs).1 X y names
    call.2 = none → ∀ Z q nz, normalize obX Z none = .ok (q, nz) → q.cols = x.cols →
      ∃ vs ms, ask k call.1 (.predict Z) = .ok (.values vs) ∧ ask k call.1 (.predictProba Z) = .ok (.means ms) ∧
        ClassRows p.length q.rows vs ms := by
  intro k call h Z q nz hZ hq
  have hT : CodeTarget F (clsTarget F) (dirichletMarginal F) dirichletPosterior := .classification
  obtain ⟨x', z, ns', t, hx, -, -, -, ht, hAns, -⟩ := C91_hyper (fmt := fmt) hT.textbook.lawful hA.isArgsort
    hT.deltaZero hp (some p) cs X y names h
  rw [hX] at hx
  cases hx
  have e := values_eq hyper_exclusive (clsTarget F) t q.mat q.rows
  refine ⟨_, _, hAns.predict Z q nz hZ hq, hAns.proba Z q nz hZ hq, by simp, by simp, fun i hi => ?_⟩
  obtain ⟨pr, h1, h2, h3, h4⟩ := C05_hyperplane (F := F) rfl hA hpr ht q.mat q.rows i hi
  obtain ⟨pr', c, w, g1, g2, g3, g4, g5, g6⟩ := C06_hyperplane (F := F) rfl hA hpr ht q.mat q.rows i hi
  have : pr' = pr := by
    have := h1.symm.trans g1
    exact (Option.some.inj (Option.some.inj this)).symm
  subst this
  exact ⟨pr', c, w, (congrArg (·[i]?) e.2).trans h1, (congrArg (·[i]?) e.1).trans g2, h2, h3, h4, g3, g4, g5, g6⟩

/-- C91 for perpendicular regression trees: predictions stay in every interval that contains the prior mean and the
targets. -/
theorem C91_regression {obX : ObjOps E K} {obY : ObjOps E' K} {F : Fns K} {argsort : List K → List Nat}
    (hs : IsArgsort (exactOps K).le (fun _ => True) argsort) {fmt : Fmt (PSplit K) (NG K)} {hp : Hyper K}
    (hprec : 0 ≤ hp.splitPrecision) (hδ : 0 ≤ hp.delta) {prior : Option (NG K)} (lo hi : K)
    (hprior : ∀ p, prior = some p → lo ≤ p.mu ∧ p.mu ≤ hi ∧ 0 < p.kappa) (hdef : prior = none → lo ≤ 0 ∧ 0 ≤ hi)
    (cs : List (Call E K E' K)) {X : XInput E K} {y : YInput E' K} {names : Option (List String)} {x z : NArr K}
    {ns : List String} (hX : normalize obX X names = .ok (x, ns)) (hY : normalizeTarget obY y = .ok z)
    (hy : ∀ i < x.rows, lo ≤ z.vec i ∧ z.vec i ≤ hi) (hrows : 0 < x.rows) (hmax : x.rows ≤ 2 ^ 64) (hcols : 0 < x.cols) :
    let k := perpKit obX obY regCheckTarget (exactOps K) (regTarget F) argsort fmt
    let call := fitCall k (runCalls k (.fresh .erased hp prior 0) cs).1 X y names
    call.2 = none → ∀ Z q nz, normalize obX Z none = .ok (q, nz) → q.cols = x.cols →
      ∃ vs, ask k call.1 (.predict Z) = .ok (.values vs) ∧ vs.length = q.rows ∧ ∀ v ∈ vs, lo ≤ v ∧ v ≤ hi := by
  intro k call h Z q nz hZ hq
  have hv : ∀ z ns, Valid (fun _ => True) (apiCtx (exactOps K) (regTarget F) (regPair F) hp x z ns) argsort x.rows :=
    fun z ns =>
      { ops := exact_lawful hprec
        target := reg_lawful F
        sort := hs
        dims := hcols
        rows := hmax
        vals := fun _ _ _ _ => trivial }
  obtain ⟨x', z', ns', t, hx, hz, -, -, ht, hA, -⟩ := C91_perp (fmt := fmt) (pair := regPair F) exact_exclusive hp prior
    cs X y names (fun x' z ns' hx _ _ _ => (by
      rw [hX] at hx
      cases hx
      exact ⟨hrows, hv z _⟩)) h
  rw [hX] at hx
  rw [hY] at hz
  cases hx
  cases hz
  refine ⟨_, hA.predict Z q nz hZ hq, by simp, fun v hv' => ?_⟩
  have e := values_eq exact_exclusive (regTarget F) t q.mat q.rows
  obtain ⟨i, hi', rfl⟩ := List.mem_map.1 hv'
  rw [List.mem_range] at hi'
  obtain ⟨v, h1, h2⟩ := C07_regression_hull_exact (F := F) rfl rfl (hv z ns) hrows ht hδ lo hi hprior hdef hy q.mat
    q.rows i hi'
  have e1 := (congrArg (·[i]?) e.1).trans h1
  simp only [List.getElem?_map, List.getElem?_range hi', Option.map_some, Option.some.injEq] at e1
  exact e1 ▸ h2

/-- C91 for hyperplane regression trees. -/
theorem C91_hyper_regression {obX : ObjOps E ℝ} {obY : ObjOps E' ℝ} {F : Fns ℝ} {ar : HArith ℝ} (hA : Euclidean ar)
    {opt : Optimizer ℝ (NG ℝ) ℝ} {budget : Nat} {fmt : Fmt (HSplit ℝ) (NG ℝ)} {hp : Hyper ℝ}
    {prior : Option (NG ℝ)} (lo hi : ℝ) (hprior : ∀ p, prior = some p → lo ≤ p.mu ∧ p.mu ≤ hi ∧ 0 < p.kappa)
    (hdef : prior = none → lo ≤ 0 ∧ 0 ≤ hi) (cs : List (Call E ℝ E' ℝ)) {X : XInput E ℝ} {y : YInput E' ℝ}
    {names : Option (List String)} {x z : NArr ℝ} {ns : List String} (hX : normalize obX X names = .ok (x, ns))
    (hY : normalizeTarget obY y = .ok z) (hy : ∀ i < x.rows, lo ≤ z.vec i ∧ z.vec i ≤ hi) (hrows : 0 < x.rows) :
    let k := hyperKit obX obY regCheckTarget ar (regTarget F) opt budget fmt
    let call := fitCall k (runCalls k (.fresh none hp prior 0) cs).1 X y names
    call.2 = none → ∀ Z q nz, normalize obX Z none = .ok (q, nz) → q.cols = x.cols →
      ∃ vs, ask k call.1 (.predict Z) = .ok (.values vs) ∧ vs.length = q.rows ∧ ∀ v ∈ vs, lo ≤ v ∧ v ≤ hi := by
  intro k call h Z q nz hZ hq
  have hT : CodeTarget F (regTarget F) (ngMarginal F) Spec.ngPosterior := .regression
  obtain ⟨x', z', ns', t, hx, hz, -, -, ht, hAns, -⟩ := C91_hyper (fmt := fmt) hT.textbook.lawful hA.isArgsort
    hT.deltaZero hp prior cs X y names h
  rw [hX] at hx
  rw [hY] at hz
  cases hx
  cases hz
  refine ⟨_, hAns.predict Z q nz hZ hq, by simp, fun v hv' => ?_⟩
  have e := values_eq hyper_exclusive (regTarget F) t q.mat q.rows
  obtain ⟨i, hi', rfl⟩ := List.mem_map.1 hv'
  rw [List.mem_range] at hi'
  obtain ⟨v, h1, h2⟩ := C07_hyperplane (F := F) (c := apiHCtx ar (regTarget F) opt budget hp x z) rfl hA hrows lo hi hprior
    hdef hy ht q.mat q.rows i hi'
  have e1 := (congrArg (·[i]?) e.1).trans h1
  simp only [List.getElem?_map, List.getElem?_range hi', Option.map_some, Option.some.injEq] at e1
  exact e1 ▸ h2

end users

/-! ## Samples -/

/-- A new model, a fit with two splits, and a second fit after which the predictions are those of the second. -/
example (obX obY : ObjOps Unit ℝ) (fmt : Fmt (PSplit ℝ) (List ℝ)) :
    let k := lifeKit obX obY fmt
    let new := Obj.fresh .erased (castHp lifeHp) (some (castL [1, 1])) 0
    let fit1 := fitCall k (runCalls k new []).1 (.array (.native (castArr lifeX1))) (.array (.native (castArr lifeY)))
      (some ["a", "b"])
    fit1.2 = none ∧ ∃ vs ms, ask k fit1.1 (.predict (.array (.native (castArr lifeQ)))) = .ok (.values vs) ∧
      ask k fit1.1 (.predictProba (.array (.native (castArr lifeQ)))) = .ok (.means ms) ∧ ClassRows 2 1 vs ms := by
  intro k new fit1
  have h1 : fit1.2 = none := (C39_refuted obX obY fmt).1
  have n1 (m : Nat) (d : List ℝ) (ns : Option (List String)) :
      ∃ ns', normalize obX (.array (.native ⟨[m, 2], .float64, d⟩)) ns = .ok (⟨[m, 2], .float64, d⟩, ns') := by
    cases ns <;> exact ⟨_, rfl⟩
  obtain ⟨ns, hX⟩ := n1 8 (castArr lifeX1).data (some ["a", "b"])
  obtain ⟨nz, hZ⟩ := n1 1 (castArr lifeQ).data none
  refine ⟨h1, ?_⟩
  have := C91_classification (obX := obX) (obY := obY) (F := realFns) (fmt := fmt) realSort_spec (hp := castHp lifeHp)
    (by norm_num [castHp, lifeHp]) (by norm_num [castHp, lifeHp]) (p := castL [1, 1])
    ⟨by simp [castL], by simp [castL]⟩ [] (y := .array (.native (castArr lifeY))) hX (by decide) (by decide) (by decide) h1
    _ _ _ hZ rfl
  exact this

/-- A hyperplane regression model fitted to two rows that it splits: the fit returns, and predictions for one more row
stay between the targets 0 and 1. -/
example (obX obY : ObjOps Unit ℝ) (fmt : Fmt (HSplit ℝ) (NG ℝ)) (v : ℝ) :
    let p : NG ℝ := ⟨0, 1, 1, 1⟩
    let k := hyperKit obX obY regCheckTarget realArith (regTarget realFns) (listOpt false [floatVec [1]]) 2 fmt
    let call := fitCall k (runCalls k (.fresh none ⟨regPP p 0 1, 0, false, 0⟩ (some p) 0) []).1
      (.array (.native ⟨[2, 1], .float64, [0, 1]⟩)) (.array (.native ⟨[2], .float64, [0, 1]⟩)) none
    call.2 = none ∧ ask k call.1 .nLeaves = .ok (.number 2) ∧ ∃ a,
      ask k call.1 (.predict (.array (.native ⟨[1, 1], .float64, [v]⟩))) = .ok (.values [a]) ∧ 0 ≤ a ∧ a ≤ 1 := by
  intro p k call
  obtain ⟨i, i1, i2, l, s, hfit⟩ := hReg2On_fit p 0 1 (X := (⟨[2, 1], .float64, [0, 1]⟩ : NArr ℝ).mat)
    (y := (⟨[2], .float64, [0, 1]⟩ : NArr ℝ).vec) rfl rfl rfl rfl
  have hf : hyperTree realArith (regTarget realFns) (listOpt false [floatVec [1]]) 2
      (⟨[2, 1], .float64, [0, 1]⟩ : NArr ℝ) ⟨[2], .float64, [0, 1]⟩ ["x0"] ⟨regPP p 0 1, 0, false, 0⟩ (some p) 0 =
      .ok (.split i ⟨[1], [1 / 2]⟩ l s (.leaf i1) (.leaf i2)) := by
    unfold hFitRoot at hfit
    unfold hyperTree
    cases e : hFit (hReg2On p 0 1 (⟨[2, 1], .float64, [0, 1]⟩ : NArr ℝ).mat (⟨[2], .float64, [0, 1]⟩ : NArr ℝ).vec)
        (2 + 1) (some p) 0 (List.range 2) with
    | error e' => rw [e] at hfit; cases hfit
    | ok u =>
      rw [e] at hfit
      exact e.trans hfit
  have hcall : call = _ := fitCall_ok (hyperKit_lawful obX obY regCheckTarget realArith (regTarget realFns)
    (listOpt false [floatVec [1]]) 2 fmt) rfl hf
  have h1 : call.2 = none := by rw [hcall]
  have h2 : ask k call.1 .nLeaves = .ok (.number 2) := by
    rw [hcall]
    rfl
  obtain ⟨vs, h3, h4, h5⟩ := C91_hyper_regression (F := realFns) realArith_euclidean 0 1
    (by rintro q ⟨⟩; norm_num [p]) (by simp) [] (X := .array (.native ⟨[2, 1], .float64, [0, 1]⟩))
    (y := .array (.native ⟨[2], .float64, [0, 1]⟩)) (names := none) rfl rfl (by
      intro j hj
      have : j < 2 := hj
      interval_cases j <;> simp [NArr.vec]) (by decide) h1 (.array (.native ⟨[1, 1], .float64, [v]⟩)) _ _ rfl rfl
  match vs, h4 with
  | [a], _ => exact ⟨h1, h2, a, h3, h5 a (by simp)⟩

end BT
