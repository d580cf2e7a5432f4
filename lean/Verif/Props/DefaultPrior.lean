import Verif.Spec.DefaultPrior
import Verif.Props.EvidenceFit

/-!
# The default prior is no special case: C76
-/

namespace BT
open Spec

set_option linter.unusedSectionVars false

section
variable {V K P S O : Type}

theorem merge_withRootPrior {Sp : Type} [DecidableEq O] (pred : P → O) (pa : Option P) (t : Node Sp S K P) :
    merge pred (withRootPrior pa t) = withRootPrior pa (merge pred t) := by
  cases t with
  | leaf i => rfl
  | split i sp l b c1 c2 =>
    unfold withRootPrior
    rcases merge_split pred i sp l b c1 c2 with ⟨j1, j2, h1, h2, h3, e⟩ | ⟨hn, e⟩
    · rw [e]
      simp only
      rw [merge, h1, h2]
      simp [h3]
    · rw [e]
      simp only
      rcases merge_split pred { i with prior := pa } sp l b c1 c2 with ⟨j1, j2, h1, h2, h3, -⟩ | ⟨-, e'⟩
      · exact absurd h3 (hn j1 j2 h1 h2)
      · exact e'

theorem perpFit_default [LT S] [DecidableLT S] [DecidableEq K] [Zero K] [One K] (o : XOps V K)
    (T : Target K P S O) (hT : ∀ p n d, T.getPrior (some p) n d = p) (hp : Hyper K) (X : Nat → Nat → V) (y : Nat → K)
    (nDim : Nat) (names : List String) (fuel level : Nat) (sid : List (List Nat)) :
    perpFit o T hp X y nDim names fuel none level sid =
      (perpFit o T hp X y nDim names fuel (some (T.getPrior none (shape1 sid) nDim)) level sid).map
        (withRootPrior none) := by
  cases fuel with
  | zero => rfl
  | succ fuel =>
    cases sid with
    | nil => rfl
    | cons row0 rest =>
      unfold perpFit
      simp only [hT]
      generalize ((List.range nDim).foldl _ _ : Best S) = best
      cases hb : best.split with
      | none => rfl
      | some dk =>
        obtain ⟨dim, k⟩ := dk
        simp only
        generalize names[dim]? = a1
        generalize (((row0 :: rest).getD dim []).take k).getLast? = a2
        generalize (((row0 :: rest).getD dim []).drop k).head? = a3
        cases a1 with
        | none => rfl
        | some name =>
          cases a2 with
          | none => rfl
          | some last =>
            cases a3 with
            | none => rfl
            | some first =>
              simp only
              generalize (if shape1 (restrictSid nDim (row0 :: rest) (((row0 :: rest).getD dim []).take k)) > 1 ∧
                  (distinct ((((row0 :: rest).getD dim []).take k).map y)).length > 1 then _ else _ :
                    Except Err (PNode V S K P)) = x1
              generalize (if shape1 (restrictSid nDim (row0 :: rest) (((row0 :: rest).getD dim []).drop k)) > 1 ∧
                  (distinct ((((row0 :: rest).getD dim []).drop k).map y)).length > 1 then _ else _ :
                    Except Err (PNode V S K P)) = x2
              cases x1 with
              | error e => rfl
              | ok a => cases x2 with
                | error e => rfl
                | ok b => rfl

end

/-- C76: `fit` of a perpendicular tree without prior is `fit` with the model's default prior for `n` rows,
except that the `prior` attribute of the root stays `None`. -/
theorem C76_perpendicular {V K P S O : Type} [Field K] [LinearOrder K] [LinearOrder S] {ok : V → Prop}
    {c : Ctx V K P S O}
    {argsort : List V → List Nat} {n : Nat} (hv : Valid ok c argsort n) :
    fitIn c argsort none n =
      (fitIn c argsort (some (c.T.getPrior none n c.nDim)) n).map (withRootPrior none) := by
  have hs : shape1 (sortMatrix argsort c.X n c.nDim) = n := by
    rw [(sortMatrix_good hv.sort c.X n c.nDim hv.vals hv.rows).shape1 hv.dims, List.length_range]
  unfold fitIn perpFitRoot
  rw [perpFit_default _ _ hv.target.getPrior_some, hs]
  generalize perpFit c.o c.T c.hp c.X c.y c.nDim c.names (n + 1) (some _) 0 _ = r
  cases r with
  | error e => rfl
  | ok t =>
    simp only [Except.map, bind, Except.bind]
    cases c.hp.prune with
    | false => rfl
    | true => simp only [if_true, prune_eq, merge_withRootPrior]

section
variable {K P S O : Type} [Field K] [LinearOrder K]

theorem hFit_default [Neg S] [LT S] [LE S] [DecidableLT S] [DecidableLE S] (c : HCtx K P S O)
    (hT : ∀ p n d, c.T.getPrior (some p) n d = p) (fuel level : Nat) (rows : List Nat) :
    hFit c fuel none level rows =
      (hFit c fuel (some (c.T.getPrior none rows.length c.nDim)) level rows).map (withRootPrior none) := by
  cases fuel with
  | zero => rfl
  | succ fuel =>
    unfold hFit
    simp only [hT]
    generalize hSolve c.A c.T (hProblem c (c.T.getPrior none rows.length c.nDim) level rows) _ _ _ _ = r
    cases r with
    | error e => rfl
    | ok st =>
      simp only
      cases hb : st.best with
      | none => rfl
      | some sp =>
        simp only
        generalize (rows.filter fun i => hyperRouter.goes1 sp (c.X i)) = R1
        generalize (rows.filter fun i => hyperRouter.goes2 sp (c.X i)) = R2
        by_cases hlen : R1.length > 0 ∧ R2.length > 0
        · rw [if_pos hlen, if_pos hlen]
          generalize (if R1.length > 1 ∧ (distinct (R1.map c.y)).length > 1 then _ else _ :
            Except Err (HNode S K P)) = x1
          generalize (if R2.length > 1 ∧ (distinct (R2.map c.y)).length > 1 then _ else _ :
            Except Err (HNode S K P)) = x2
          cases x1 with
          | error e => rfl
          | ok a => cases x2 with
            | error e => rfl
            | ok b => rfl
        · rw [if_neg hlen, if_neg hlen]
          rfl

/-- C76 for hyperplane trees. -/
theorem C76_hyperplane [LinearOrder S] [Neg S] (c : HCtx K P S O) (hT : ∀ p n d, c.T.getPrior (some p) n d = p)
    (n : Nat) :
    hFitRoot c none n = (hFitRoot c (some (c.T.getPrior none n c.nDim)) n).map (withRootPrior none) := by
  unfold hFitRoot
  rw [hFit_default c hT, List.length_range]
  generalize hFit c (n + 1) (some _) 0 _ = r
  cases r with
  | error e => rfl
  | ok t =>
    simp only [Except.map]
    cases c.hp.prune with
    | false => rfl
    | true => simp only [if_true, prune_eq, merge_withRootPrior]

end

section
variable {K : Type} [Field K] [LinearOrder K] [IsStrictOrderedRing K]

theorem regGetPrior_default (n d : Nat) : regGetPrior (none : Option (NG K)) n d = defaultNG n := by
  have h : max 1 (n / 100) = if n < 200 then 1 else n / 100 := by
    split
    · next h => have : n / 100 ≤ 1 := by omega
                exact max_eq_left this
    · next h => have : 1 ≤ n / 100 := by omega
                exact max_eq_right this
  unfold regGetPrior defaultNG
  simp only [h, div_one]

variable {F : Fns K} {hp : Hyper K} {argsort : List K → List Nat} {X : Nat → Nat → K} {y : Nat → K} {n nDim : Nat}
  {names : List String}

/-- C76, regression: leaving out the prior is passing the documented default for `n` rows, and the fitted
trees agree except for the root's `prior` attribute. -/
theorem C76_regression (hr : Training hp argsort n nDim) :
    perpFitRoot (exactOps K) (regTarget F) argsort hp none X y n nDim names =
      (perpFitRoot (exactOps K) (regTarget F) argsort hp (some (defaultNG n)) X y n nDim names).map
        (withRootPrior none) := by
  have h := C76_perpendicular (c := exactCtx (regTarget F) (mlPair F (ngMarginal F)) hp X y nDim names)
    (hr.valid .regression)
  rw [show (exactCtx (regTarget F) (mlPair F (ngMarginal F)) hp X y nDim names).T.getPrior none n nDim =
    defaultNG n from regGetPrior_default n nDim] at h
  exact h

theorem C76_regression_hyperplane (c : HCtx K (NG K) K K) (hcT : c.T = regTarget F) (n : Nat) :
    hFitRoot c none n = (hFitRoot c (some (defaultNG n)) n).map (withRootPrior none) := by
  have h := C76_hyperplane c (fun p n d => by rw [hcT]; rfl) n
  rw [show c.T.getPrior none n c.nDim = defaultNG n by rw [hcT]; exact regGetPrior_default n c.nDim] at h
  exact h

end

theorem nodeAt_withRootPrior {Sp S K P : Type} (pa : Option P) (t : Node Sp S K P) (addr : List Bool) :
    nodeAt (withRootPrior pa t) addr = match addr with
      | [] => some (withRootPrior pa t)
      | _ :: _ => nodeAt t addr := by
  cases addr with
  | nil => exact nodeAt_nil _
  | cons b bs => cases t <;> cases b <;> rfl

theorem predict_withRootPrior {Sp S K P O Row : Type} [Zero K] (rt : Router Sp Row) (hex : Exclusive rt)
    (T : Target K P S O) (pa : Option P) (t : Node Sp S K P) (Z : Nat → Row) (m : Nat) :
    predict rt T (withRootPrior pa t) Z m = predict rt T t Z m := by
  refine List.ext_getElem? fun i => ?_
  rcases lt_or_ge i m with hi | hi
  · rw [(C01_predict_is_walk rt hex T _ Z m).2 i hi, (C01_predict_is_walk rt hex T t Z m).2 i hi]
    cases t <;> rfl
  · rw [List.getElem?_eq_none (by rw [(C01_predict_is_walk rt hex T _ Z m).1]; exact hi),
      List.getElem?_eq_none (by rw [(C01_predict_is_walk rt hex T _ Z m).1]; exact hi)]

theorem rowsAt_withRootPrior {K S P : Type} [LT K] [DecidableLT K] (X : Nat → Nat → K) (pa : Option P)
    (t : PNode K S K P) (n : Nat) (addr : List Bool) : rowsAt X (withRootPrior pa t) n addr = rowsAt X t n addr := by
  unfold rowsAt
  refine List.filter_congr fun i _ => ?_
  cases t <;> cases addr <;> rfl

/-- C76, C75: the predictions of a regression tree fitted without prior and with `delta = 0` are posterior
expectations under the documented default. -/
theorem C76_predictions {hp : Hyper ℝ} {argsort : List ℝ → List Nat} {X : Nat → Nat → ℝ} {y : Nat → ℝ} {n nDim : Nat}
    {names : List String} {t : PNode ℝ ℝ ℝ (NG ℝ)} (hr : Training hp argsort n nDim) (hδ : hp.delta = 0)
    (h : perpFitRoot (exactOps ℝ) (regTarget realFns) argsort hp none X y n nDim names = .ok t)
    (Z : Nat → Nat → ℝ) (m i : Nat) (hi : i < m) :
    ∃ addr, follows t addr (Z i) = true ∧ (∃ l, nodeAt t addr = some (.leaf l)) ∧
      (predict (perpRouter (exactOps ℝ)) (regTarget realFns) t Z m)[i]? = some
        (ngExpectation (defaultNG n) (fun μ τ => normalLikelihood ((rowsAt X t n addr).map y) μ τ * μ) /
          ngEvidence (defaultNG n) ((rowsAt X t n addr).map y)) := by
  rw [C76_regression hr] at h
  cases h0 : perpFitRoot (exactOps ℝ) (regTarget realFns) argsort hp (some (defaultNG n)) X y n nDim names with
  | error e => rw [h0] at h; cases h
  | ok t0 =>
    rw [h0] at h
    obtain rfl : withRootPrior none t0 = t := by simpa [Except.map] using h
    have hproper : ProperNG (defaultNG n) := by
      rw [← regGetPrior_default n nDim]
      exact regGetPrior_proper n nDim
    obtain ⟨addr, h1, ⟨l, h2⟩, h3⟩ := C75_regression hr hδ hproper h0 Z m i hi
    refine ⟨addr, ?_, ?_, ?_⟩
    · rw [← h1]
      cases t0 <;> cases addr <;> rfl
    · rw [nodeAt_withRootPrior]
      cases addr with
      | nil =>
        have : t0 = .leaf l := by rw [nodeAt_nil] at h2; exact Option.some.inj h2
        subst this
        exact ⟨_, rfl⟩
      | cons b bs => exact ⟨l, h2⟩
    · rw [predict_withRootPrior _ exact_exclusive, rowsAt_withRootPrior]
      exact h3

/-- A fit without prior exists for any data. -/
example (X : Nat → Nat → ℝ) (y : Nat → ℝ) : ∃ t0, perpFitRoot (exactOps ℝ) (regTarget realFns) realSort
    ⟨9 / 10, 0, true, 0⟩ none X y 250 2 ["a", "b"] = .ok (withRootPrior none t0) ∧ t0.info.prior = some ⟨0, 2, 1, 1⟩ := by
  have hr : Training (⟨9 / 10, 0, true, 0⟩ : Hyper ℝ) realSort 250 2 :=
    ⟨le_refl _, realSort_sorts, by decide, by decide, by decide⟩
  obtain ⟨t0, h0⟩ := C12_closed (CodeTarget.regression (F := realFns)) hr X y (some (defaultNG 250))
    (names := ["a", "b"]) (by decide)
  refine ⟨t0, by rw [C76_regression hr, h0]; rfl, ?_⟩
  obtain ⟨par', pa', u0, hB, e, -, -, hs, -⟩ :=
    fit_nodeInv (c := exactCtx (regTarget realFns) (mlPair realFns (ngMarginal realFns)) ⟨9 / 10, 0, true, 0⟩ X y 2 ["a", "b"])
      (hr.valid .regression) h0 (fun _ pa _ => pa = some (defaultNG 250)) (fun par pa R R' h _ => by
        subst h
        unfold Ctx.childPrior
        rw [if_neg (by simp)]
        rfl) rfl (nodeAt_nil t0)
  have e2 : u0.info.prior = pa' := by cases hB <;> rfl
  rw [e, e2, hs]
  norm_num [defaultNG]

end BT
