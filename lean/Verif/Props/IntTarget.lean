import Verif.Model.IntTarget
import Verif.Model.Real
import Verif.Model.Hyper
import Verif.Props.Dtype

/-!
# C70: regression targets of an integer dtype compared with float64 targets
-/

namespace BT
open Spec

/-- With the exact square the parametrised implementation is the one of `Model/Target.lean`. -/
theorem regTargetSq_exact {K : Type} [Field K] [LinearOrder K] (F : Fns K) :
    regTargetSq (fun v => v ^ 2) F = regTarget F := rfl

section congr
set_option linter.unusedSectionVars false
variable {V K P S O : Type} [LinearOrder S] [DecidableEq K] [Zero K] [One K]

/-- Two implementations that agree on all target lists with values in `Q`. -/
structure AgreeOn (Q : K → Prop) (T T' : Target K P S O) : Prop where
  getPrior : T'.getPrior = T.getPrior
  predictLeaf : T'.predictLeaf = T.predictLeaf
  logNoSplit : ∀ pp lv ys p, (∀ v ∈ ys, Q v) → T'.logNoSplit pp lv ys p = T.logNoSplit pp lv ys p
  logSplit : ∀ pp lv ys p nDim si, (∀ v ∈ ys, Q v) →
    T'.logSplit pp lv ys p nDim si = T.logSplit pp lv ys p nDim si
  posterior : ∀ ys p δ, (∀ v ∈ ys, Q v) → T'.posterior ys p δ = T.posterior ys p δ

theorem mem_restrictSid {nDim : Nat} {sid : List (List Nat)} {idx r : List Nat} {i : Nat}
    (hr : r ∈ restrictSid nDim sid idx) (hi : i ∈ r) : ∃ r' ∈ sid, i ∈ r' := by
  unfold restrictSid reshape at hr
  simp only [List.mem_map] at hr
  obtain ⟨a, _, rfl⟩ := hr
  have := List.mem_of_mem_drop (List.mem_of_mem_take hi)
  rw [List.mem_filter, List.mem_flatten] at this
  exact this.1

theorem mem_getD_row {sid : List (List Nat)} {dim i : Nat} (hi : i ∈ sid.getD dim []) :
    ∃ r ∈ sid, i ∈ r := by
  rw [List.getD_eq_getElem?_getD] at hi
  cases hd : sid[dim]? with
  | none => rw [hd] at hi; simp at hi
  | some r => rw [hd] at hi; exact ⟨r, List.mem_of_getElem? hd, hi⟩

theorem searchDim_agree {o : XOps V K} {T T' : Target K P S O} {Q : K → Prop} (h : AgreeOn Q T T')
    (hp : Hyper K) (level : Nat) (X : Nat → Nat → V) (y : Nat → K) (nDim : Nat) (prior : P)
    (sid : List (List Nat)) (hQ : ∀ r ∈ sid, ∀ i ∈ r, Q (y i)) (b : Best S) (dim : Nat) :
    searchDim o T' hp level X y nDim prior sid b dim = searchDim o T hp level X y nDim prior sid b dim := by
  have hy : ∀ v ∈ (sid.getD dim []).map y, Q v := by
    intro v hv
    obtain ⟨i, hi, rfl⟩ := List.mem_map.1 hv
    obtain ⟨r, hr, hi'⟩ := mem_getD_row hi
    exact hQ r hr i hi'
  unfold searchDim
  dsimp only
  rw [h.logSplit _ _ _ _ _ _ hy]

theorem perpFit_agree {o : XOps V K} {T T' : Target K P S O} {Q : K → Prop} (h : AgreeOn Q T T')
    (hp : Hyper K) (X : Nat → Nat → V) (y : Nat → K) (nDim : Nat) (names : List String) :
    ∀ (fuel : Nat) (prior : Option P) (level : Nat) (sid : List (List Nat)),
      (∀ r ∈ sid, ∀ i ∈ r, Q (y i)) →
      perpFit o T' hp X y nDim names fuel prior level sid =
        perpFit o T hp X y nDim names fuel prior level sid
  | 0, _, _, _, _ => rfl
  | fuel + 1, priorAttr, level, [], _ => rfl
  | fuel + 1, priorAttr, level, row0 :: rest, hQ => by
    have hrow : ∀ v ∈ row0.map y, Q v := by
      intro v hv
      obtain ⟨i, hi, rfl⟩ := List.mem_map.1 hv
      exact hQ row0 (by simp) i hi
    have hdim : ∀ dim, ∀ i ∈ (row0 :: rest).getD dim [], Q (y i) := by
      intro dim i hi
      obtain ⟨r, hr, hi'⟩ := mem_getD_row hi
      exact hQ r hr i hi'
    have h1 : ∀ dim k, ∀ v ∈ (((row0 :: rest).getD dim []).take k).map y, Q v := by
      intro dim k v hv
      obtain ⟨i, hi, rfl⟩ := List.mem_map.1 hv
      exact hdim dim i (List.mem_of_mem_take hi)
    have h2 : ∀ dim k, ∀ v ∈ (((row0 :: rest).getD dim []).drop k).map y, Q v := by
      intro dim k v hv
      obtain ⟨i, hi, rfl⟩ := List.mem_map.1 hv
      exact hdim dim i (List.mem_of_mem_drop hi)
    have hsub : ∀ idx, ∀ r ∈ restrictSid nDim (row0 :: rest) idx, ∀ i ∈ r, Q (y i) := by
      intro idx r hr i hi
      obtain ⟨r', hr', hi'⟩ := mem_restrictSid hr hi
      exact hQ r' hr' i hi'
    have hs : ∀ p, searchDim o T' hp level X y nDim p (row0 :: rest) =
        searchDim o T hp level X y nDim p (row0 :: rest) := fun p =>
      funext fun b => funext fun d => searchDim_agree h hp level X y nDim p _ hQ b d
    rw [perpFit, perpFit]
    have e1 := fun dim k p δ => h.posterior _ p δ (h1 dim k)
    have e2 := fun dim k p δ => h.posterior _ p δ (h2 dim k)
    have ih := fun p lv idx => perpFit_agree (o := o) h hp X y nDim names fuel p lv _ (hsub idx)
    simp only [h.getPrior, h.logNoSplit _ _ _ _ hrow, hs, h.posterior _ _ _ hrow]
    generalize List.foldl _ _ _ = best
    rcases best with ⟨s, _ | ⟨dim, k⟩⟩
    · rfl
    · simp only [e1, e2, ih]

theorem perpFitRoot_agree {o : XOps V K} {T T' : Target K P S O} {Q : K → Prop} (h : AgreeOn Q T T')
    (argsort : List V → List Nat) (hp : Hyper K) (prior : Option P) (X : Nat → Nat → V) (y : Nat → K)
    (n nDim : Nat) (names : List String) (hs : ∀ l, ∀ i ∈ argsort l, i < l.length)
    (hQ : ∀ i, i < n → Q (y i)) :
    perpFitRoot o T' argsort hp prior X y n nDim names =
      perpFitRoot o T argsort hp prior X y n nDim names := by
  unfold perpFitRoot
  rw [perpFit_agree h hp X y nDim names (n + 1) prior 0, h.predictLeaf]
  intro r hr i hi
  unfold sortMatrix at hr
  obtain ⟨d, _, rfl⟩ := List.mem_map.1 hr
  unfold castIndices at hi
  obtain ⟨j, hj, rfl⟩ := List.mem_map.1 hi
  have := hs _ j hj
  simp only [List.length_map, List.length_range] at this
  exact hQ _ ((Nat.mod_le _ _).trans_lt this)

/-! ### Hyperplane trees -/

theorem hCompute_agree {K P S O : Type} [Field K] [LinearOrder K] [LinearOrder S] [Neg S]
    {T T' : Target K P S O} {Q : K → Prop} (h : AgreeOn Q T T') (A : HArith K)
    (hs : ∀ l, ∀ i ∈ A.argsort l, i < l.length) (q : HProb K P S) (hQ : ∀ i ∈ q.rows, Q (q.y i))
    (st : HState S K) (r : RawVec K) : hCompute A T' q st r = hCompute A T q st r := by
  unfold hCompute
  dsimp only
  cases hn : hNormal A q r with
  | error e => rfl
  | ok normal =>
    dsimp only
    have hy : ∀ v ∈ (A.argsort (hProj q normal)).map fun j => q.y (q.rows.getD j 0), Q v := by
      intro v hv
      obtain ⟨j, hj, rfl⟩ := List.mem_map.1 hv
      have hlt := hs _ j hj
      rw [hProj, List.length_map] at hlt
      rw [List.getD_eq_getElem?_getD, List.getElem?_eq_getElem hlt]
      exact hQ _ (List.getElem_mem hlt)
    rw [h.logSplit _ _ _ _ _ _ hy]

theorem hSolve_agree {K P S O : Type} [Field K] [LinearOrder K] [LinearOrder S] [Neg S]
    {T T' : Target K P S O} {Q : K → Prop} (h : AgreeOn Q T T') (A : HArith K)
    (hs : ∀ l, ∀ i ∈ A.argsort l, i < l.length) (q : HProb K P S) (hQ : ∀ i ∈ q.rows, Q (q.y i))
    (strat : Strategy K S) : ∀ (budget : Nat) (hist : List (RawVec K × S)) (st : HState S K),
      hSolve A T' q strat budget hist st = hSolve A T q strat budget hist st
  | 0, _, _ => rfl
  | budget + 1, hist, st => by
    rw [hSolve, hSolve]
    cases strat hist with
    | stop => rfl
    | raise e => rfl
    | eval r =>
      simp only [hCompute_agree h A hs q hQ]
      cases hCompute A T q st r with
      | error e => rfl
      | ok p => exact hSolve_agree h A hs q hQ strat budget _ _

theorem hFit_agree {K P S O : Type} [Field K] [LinearOrder K] [LinearOrder S] [Neg S]
    {T' : Target K P S O} {Q : K → Prop} (c : HCtx K P S O) (h : AgreeOn Q c.T T')
    (hs : ∀ l, ∀ i ∈ c.A.argsort l, i < l.length) :
    ∀ (fuel : Nat) (prior : Option P) (level : Nat) (rows : List Nat), (∀ i ∈ rows, Q (c.y i)) →
      hFit { c with T := T' } fuel prior level rows = hFit c fuel prior level rows
  | 0, _, _, _, _ => rfl
  | fuel + 1, priorAttr, level, rows, hQ => by
    have hrow : ∀ v ∈ rows.map c.y, Q v := by
      intro v hv
      obtain ⟨i, hi, rfl⟩ := List.mem_map.1 hv
      exact hQ i hi
    have hf : ∀ f : Nat → Bool, ∀ i ∈ rows.filter f, Q (c.y i) := fun f i hi =>
      hQ i (List.mem_of_mem_filter hi)
    have hfy : ∀ f : Nat → Bool, ∀ v ∈ (rows.filter f).map c.y, Q v := by
      intro f v hv
      obtain ⟨i, hi, rfl⟩ := List.mem_map.1 hv
      exact hf f i hi
    have hprob : ∀ p, hProblem { c with T := T' } p level rows = hProblem c p level rows := by
      intro p
      unfold hProblem
      simp only [h.logNoSplit _ _ _ _ hrow]
    have hsol := fun p => hSolve_agree h c.A hs (hProblem c p level rows) hQ
    have ef := fun f p δ => h.posterior _ p δ (hfy f)
    have ih := fun p lv f => hFit_agree c h hs fuel p lv (rows.filter f) (hf f)
    rw [hFit, hFit]
    simp only [h.getPrior, hprob, hsol, h.posterior _ _ _ hrow]
    cases hSolve c.A c.T _ _ c.budget [] _ with
    | error e => rfl
    | ok st =>
      rcases st with ⟨ev, bs, bd, _ | sp⟩
      · rfl
      · simp only [ef, ih, hChildInfo]

theorem hFitRoot_agree {K P S O : Type} [Field K] [LinearOrder K] [LinearOrder S] [Neg S]
    {T' : Target K P S O} {Q : K → Prop} (c : HCtx K P S O) (h : AgreeOn Q c.T T')
    (hs : ∀ l, ∀ i ∈ c.A.argsort l, i < l.length) (prior : Option P) (n : Nat)
    (hQ : ∀ i, i < n → Q (c.y i)) :
    hFitRoot { c with T := T' } prior n = hFitRoot c prior n := by
  unfold hFitRoot
  rw [hFit_agree c h hs (n + 1) prior 0 (List.range n) fun i hi => hQ i (List.mem_range.1 hi)]
  simp only [h.predictLeaf]

end congr

section
variable {K : Type} [Field K] [LinearOrder K] [IsStrictOrderedRing K] [FloorRing K]

/-- A target whose square fits the dtype. -/
def SquareFits (t : IntTy) (v : K) : Prop := ∃ z : Int, v = (z : K) ∧ z * z ≤ t.hi

theorem wrapSq_of_fits {t : IntTy} (hb : 0 < t.bits) {v : K} (h : SquareFits t v) :
    wrapSq t v = v ^ 2 := by
  obtain ⟨z, rfl, hz⟩ := h
  have hlo : t.lo ≤ 0 := by
    have := IntTy.half_pos t
    unfold IntTy.lo; split <;> omega
  unfold wrapSq
  rw [Int.floor_intCast, (IntTy.wrap_eq_iff hb _).2 ⟨hlo.trans (mul_self_nonneg z), hz⟩]
  push_cast; ring

theorem map_wrapSq {t : IntTy} (hb : 0 < t.bits) {ys : List K} (h : ∀ v ∈ ys, SquareFits t v) :
    ys.map (wrapSq t) = ys.map fun v => v ^ 2 :=
  List.map_congr_left fun v hv => wrapSq_of_fits hb (h v hv)

theorem wrapSq_agree {t : IntTy} (hb : 0 < t.bits) (F : Fns K) :
    AgreeOn (SquareFits t) (regTarget F) (regTargetSq (wrapSq t) F) where
  getPrior := rfl
  predictLeaf := rfl
  logNoSplit pp lv ys p h := by
    simp only [regTargetSq, regTarget, regLogNoSplitSq, regLogNoSplit, map_wrapSq hb h]
  logSplit pp lv ys p nDim si h := by
    have h' : ys.dropLast.map (wrapSq t) = ys.dropLast.map fun v => v ^ 2 :=
      map_wrapSq hb fun v hv => h v (List.mem_of_mem_dropLast hv)
    simp only [regTargetSq, regTarget, regLogSplitSq, regLogSplit, map_wrapSq hb h, h']
  posterior ys p δ h := by
    simp only [regTargetSq, regTarget, regPosteriorSq, regPosterior, map_wrapSq hb h]

/-- C70, partial: if the square of every training target fits the integer dtype, then the fit on integer
targets gives the same tree as the fit on the same numbers as floats.  Missing: targets with larger
squares, for which the claim is false (`C70_refuted`). -/
theorem C70_same_partial {V : Type} (t : IntTy) (hb : 0 < t.bits) (F : Fns K) (o : XOps V K)
    (argsort : List V → List Nat) (hs : ∀ l, ∀ i ∈ argsort l, i < l.length) (hp : Hyper K)
    (prior : Option (NG K)) (X : Nat → Nat → V) (y : Nat → K) (n nDim : Nat) (names : List String)
    (hy : ∀ i, i < n → SquareFits t (y i)) :
    perpFitRoot o (regTargetSq (wrapSq t) F) argsort hp prior X y n nDim names =
      perpFitRoot o (regTarget F) argsort hp prior X y n nDim names :=
  perpFitRoot_agree (wrapSq_agree hb F) argsort hp prior X y n nDim names hs hy

/-- The same for hyperplane trees. -/
theorem C70_hyper_partial (t : IntTy) (hb : 0 < t.bits) (F : Fns K) (c : HCtx K (NG K) K K)
    (hT : c.T = regTarget F) (hs : ∀ l, ∀ i ∈ c.A.argsort l, i < l.length) (prior : Option (NG K)) (n : Nat)
    (hy : ∀ i, i < n → SquareFits t (c.y i)) :
    hFitRoot { c with T := regTargetSq (wrapSq t) F } prior n = hFitRoot c prior n :=
  hFitRoot_agree c (hT ▸ wrapSq_agree hb F) hs prior n hy

example : SquareFits IntTy.int8 (-11 : ℚ) := ⟨-11, by norm_num, by decide⟩

omit [IsStrictOrderedRing K] [FloorRing K] in
/-- C70, what survives: the mean, and with it every prediction of a given leaf, and the parameters
`kappa` and `alpha` do not depend on the squares. -/
theorem C70_mean (sq : K → K) (ys : List K) (p : NG K) (δ : K) :
    (regPosteriorSq sq ys p δ).mu = (regPosterior ys p δ).mu ∧
      (regPosteriorSq sq ys p δ).kappa = (regPosterior ys p δ).kappa ∧
      (regPosteriorSq sq ys p δ).alpha = (regPosterior ys p δ).alpha := by
  unfold regPosteriorSq regPosterior
  split <;> exact ⟨rfl, rfl, rfl⟩

omit [IsStrictOrderedRing K] [FloorRing K] in
/-- The error of `beta`: half the (weighted) error of the sum of squares. -/
theorem C70_beta_error (sq : K → K) (ys : List K) (p : NG K) (δ : K) :
    (regPosteriorSq sq ys p δ).beta - (regPosterior ys p δ).beta =
      (1 / 2) * δ * ((ys.map sq).sum - (ys.map fun v => v ^ 2).sum) := by
  unfold regPosteriorSq regPosterior
  split
  · rename_i h; simp [h]
  · simp only [ngPosterior]; ring

/-- The evidence of the targets of one side of a split, as regression.py:93-116 computes it from `n`, the sum and the sum of
the squares `sq`. -/
def sideEvidence (sq : K → K) (F : Fns K) (p : NG K) (ys : List K) : K :=
  let q := ngPosterior p ys.length ys.sum (ys.map sq).sum 1
  ngLogPData F p q.alpha q.beta q.kappa ys.length

omit [IsStrictOrderedRing K] [FloorRing K] in
/-- The scores with wrapped squares: no split and every split are scored with the wrapped squares of the targets on each
side, on the left as on the right. -/
theorem C70_scores (sq : K → K) (F : Fns K) (pp : K) (lv : Nat) (y : List K) (p : NG K) (nd : Nat) (si : List Nat)
    (hsi : ∀ k ∈ si, 1 ≤ k ∧ k < y.length) (hp : si.Pairwise (· < ·)) :
    (regTargetSq sq F).logNoSplit pp lv y p = F.log (1 - pp ^ (1 + lv)) + sideEvidence sq F p y ∧
    (regTargetSq sq F).logSplit pp lv y p nd si = si.map fun k =>
      F.log (pp ^ (1 + lv) / ((si.length : K) * (nd : K))) + sideEvidence sq F p (y.take k)
        + sideEvidence sq F p (y.drop k) := by
  refine ⟨rfl, ?_⟩
  simp only [regTargetSq, regLogSplitSq, sideEvidence]
  apply List.ext_getElem
  · simp
  · intro j h1 h2
    have hj : j < si.length := by simpa using h2
    have hk := hsi si[j] (List.getElem_mem hj)
    simp only [List.getElem_map, List.getElem_range, gather_shortcut _ _ _ si hsi hp j hj]
    set k := si[j] with hkdef
    have n1 : (List.map (1 + ·) (List.range (y.length - 1))).getD (k - 1) 0 = (y.take k).length := by
      rw [List.getD_eq_getElem?_getD, List.getElem?_map, List.getElem?_range (by omega)]
      simp; omega
    have n2 : (List.map (y.length - ·) (List.map (1 + ·) (List.range (y.length - 1)))).getD (k - 1) 0 =
        (y.drop k).length := by
      rw [List.getD_eq_getElem?_getD, List.getElem?_map, List.getElem?_map,
        List.getElem?_range (by omega)]
      simp; omega
    have s1 : (cumsum y).dropLast[k - 1]? = some (y.take k).sum := by
      rw [List.getElem?_dropLast, if_pos (by rw [cumsum_length]; omega), cumsum_get _ _ (by omega),
        Nat.sub_add_cancel hk.1]
    have q1 : (cumsum (y.dropLast.map sq))[k - 1]? = some ((y.take k).map sq).sum := by
      rw [cumsum_get _ _ (by simp; omega), Nat.sub_add_cancel hk.1, ← List.map_take,
        List.dropLast_eq_take, List.take_take, min_eq_left (by omega)]
    have ssum : y.sum - (y.take k).sum = (y.drop k).sum := by
      conv_lhs => rw [← List.take_append_drop k y]
      rw [List.sum_append, List.take_append_drop]; ring
    have qsum : (y.map sq).sum - ((y.take k).map sq).sum = ((y.drop k).map sq).sum := by
      conv_lhs => rw [← List.take_append_drop k y]
      rw [List.map_append, List.sum_append, List.take_append_drop]; ring
    rw [n1, n2]
    simp only [List.getD_eq_getElem?_getD, List.getElem?_map, s1, q1, Option.map_some,
      Option.getD_some, ssum, qsum]

example : (∀ k ∈ [1, 2], 1 ≤ k ∧ k < [(12 : ℚ), 3, 5].length) ∧ [1, 2].Pairwise (· < ·) ∧
    [(12 : ℚ), 3].map (wrapSq IntTy.int8) = [-112, 9] := by
  refine ⟨by decide, by decide, ?_⟩
  decide +kernel

end

/-- The fit of two rows with equal features and equal targets is a leaf. -/
theorem fit_two_equal (T : Target ℝ (NG ℝ) ℝ ℝ) (v : ℝ) (hp : Hyper ℝ) (h0 : hp.splitPrecision = 0)
    (hpr : hp.prune = false) (prior : NG ℝ) (hprior : T.getPrior (some prior) 2 1 = prior) :
    perpFitRoot (exactOps ℝ) T (fun l => List.range l.length) hp (some prior) (fun _ _ => 0) (fun _ => v) 2 1 ["x0"] =
      .ok (.leaf ⟨hp, some prior, 0, some 1, 2, T.posterior [v, v] prior 1⟩) := by
  simp [perpFitRoot, perpFit, sortMatrix, castIndices, sortIndexBits, shape1, searchDim, splitIndices,
    npWhere, exactOps, h0, hpr, hprior, List.range_succ, pure, Except.pure, bind, Except.bind]

/-- The claim of C70: int8 regression targets give the tree of the same numbers as floats. -/
def C70_claim : Prop :=
  ∀ (argsort : List ℝ → List Nat), (∀ l, ∀ i ∈ argsort l, i < l.length) →
  ∀ (hp : Hyper ℝ) (prior : Option (NG ℝ)) (X : Nat → Nat → ℝ) (z : Nat → Int) (n nDim : Nat)
    (names : List String), (∀ i, IntTy.int8.lo ≤ z i ∧ z i ≤ IntTy.int8.hi) →
    perpFitRoot (exactOps ℝ) (regTargetSq (wrapSq IntTy.int8) realFns) argsort hp prior X
        (fun i => (z i : ℝ)) n nDim names =
      perpFitRoot (exactOps ℝ) (regTarget realFns) argsort hp prior X (fun i => (z i : ℝ)) n nDim names

/-- C70 is false: the squares of two int8 targets 12 wrap around to -112, and `beta` of the fitted leaf
becomes negative. -/
theorem C70_negative (hp : Hyper ℝ) (h0 : hp.splitPrecision = 0) (hpr : hp.prune = false) :
    ∃ i, perpFitRoot (exactOps ℝ) (regTargetSq (wrapSq IntTy.int8) realFns)
        (fun l => List.range l.length) hp (some ⟨0, 1, 1, 1⟩) (fun _ _ => 0) (fun _ => ((12 : Int) : ℝ))
        2 1 ["x0"] = .ok (.leaf i) ∧ i.posterior.beta = -207 := by
  refine ⟨_, fit_two_equal _ _ hp h0 hpr _ rfl, ?_⟩
  have e : wrapSq IntTy.int8 ((12 : Int) : ℝ) = -112 := by
    unfold wrapSq
    rw [Int.floor_intCast, show IntTy.int8.wrap (12 * 12) = -112 by decide]
    norm_num
  simp only [regTargetSq, regPosteriorSq, List.map_cons, List.map_nil, e]
  norm_num [ngPosterior]

/-- C70 as claimed is false of the code. -/
theorem C70_refuted : ¬ C70_claim := by
  intro h
  have h1 := h (fun l => List.range l.length) (fun l i hi => List.mem_range.1 hi) ⟨1 / 2, 0, false, 0⟩
    (some ⟨0, 1, 1, 1⟩) (fun _ _ => 0) (fun _ => 12) 2 1 ["x0"] (fun _ => by decide)
  obtain ⟨i, hi, hbeta⟩ := C70_negative ⟨1 / 2, 0, false, 0⟩ rfl rfl
  rw [hi, fit_two_equal _ _ _ rfl rfl _ rfl] at h1
  injection h1 with h1
  injection h1 with h1
  rw [h1] at hbeta
  norm_num [regTarget, regPosterior, ngPosterior] at hbeta

end BT
