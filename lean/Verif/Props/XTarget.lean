import Verif.Lemmas.XTarget
import Verif.Lemmas.Walk
import Verif.Model.Real
import Mathlib.Tactic.NormNum

/-!
# C92: regression targets with NaN or infinite entries

`fit` accepts them.  One of them among the training targets is enough to make every likelihood NaN; the tree is a single leaf
and its prediction is not a number, also for queries close to training rows with ordinary targets.
-/

set_option linter.unusedSectionVars false

namespace BT
open Spec

section
variable {V K : Type} [Field K] [LinearOrder K] [IsStrictOrderedRing K]

/-- A search that starts from a NaN score finds nothing. -/
theorem search_nan (o : XOps V (XF K)) (T : Target (XF K) (NG (XF K)) (XF K) (XF K)) (hp : Hyper (XF K)) (lv : Nat)
    (X : Nat → Nat → V) (y : Nat → XF K) (nDim : Nat) (prior : NG (XF K)) (sid : List (List Nat)) (l : List Nat) :
    l.foldl (searchDim o T hp lv X y nDim prior sid) ⟨.nan, none⟩ = ⟨.nan, none⟩ := by
  induction l with
  | nil => rfl
  | cons d l ih =>
    have : searchDim o T hp lv X y nDim prior sid ⟨.nan, none⟩ d = ⟨.nan, none⟩ := by
      unfold searchDim
      simp only [XF.not_nan_lt, if_false]
      split
      · rfl
      · split <;> rfl
    rw [List.foldl_cons, this, ih]

/-- The sort matrix lists all rows. -/
theorem sortMatrix_row0 {argsort : List V → List Nat} (hsort : ∀ xs, (argsort xs).Perm (List.range xs.length))
    (X : Nat → Nat → V) (n nDim : Nat) (hn : n ≤ 2 ^ 64) (hd : 0 < nDim) :
    ∃ row0 rest, sortMatrix argsort X n nDim = row0 :: rest ∧ row0.Perm (List.range n) := by
  have hg := sortMatrix_good (o := (⟨fun _ _ => true, fun _ _ => true, fun _ _ => true, fun _ _ _ => true,
    fun a _ => a⟩ : XOps V Unit)) (ok := fun _ => True) (argsort := argsort)
    ⟨fun xs _ => hsort xs, fun xs _ => List.pairwise_of_forall fun _ _ _ _ _ _ => rfl⟩ X n nDim
    (fun _ _ _ _ => trivial) hn
  have hp := hg.perm 0 hd
  cases hs : sortMatrix argsort X n nDim with
  | nil => exact absurd hg.len (by rw [hs]; simp; omega)
  | cons r rest => exact ⟨r, rest, rfl, by rw [hs] at hp; simpa using hp⟩

theorem nonFiniteSum_perm {a b : List (XF K)} (h : a.Perm b) : nonFiniteSum a = nonFiniteSum b := by
  unfold nonFiniteSum
  simp only [h.mem_iff]

/-- What the leaf of such a fit looks like. -/
structure Spoilt (prior : NG (XF K)) (y : Nat → XF K) (n : Nat) (info : Info (XF K) (NG (XF K))) : Prop where
  rows : info.nData = n
  beta : info.posterior.beta = .nan
  mean : ¬ IsFinite info.posterior.mu
  /-- With a finite prior mean and weight the mean is the IEEE sum of the targets. -/
  meanIs : ∀ m k a b, prior = ⟨.fin m, .fin k, a, b⟩ → 0 < k + (n : K) →
    info.posterior.mu = nonFiniteSum ((List.range n).map y)

theorem spoilt_of_perm (prior : NG (XF K)) (y : Nat → XF K) (n : Nat) (hy : ∃ i < n, ¬ IsFinite (y i)) (R : List Nat)
    (hR : R.Perm (List.range n)) (info : Info (XF K) (NG (XF K))) (h1 : info.nData = R.length)
    (h2 : info.posterior = regPosteriorX (R.map y) prior 1) : Spoilt prior y n info := by
  have hmem : ∃ v ∈ R.map y, ¬ IsFinite v := by
    obtain ⟨i, hi, hf⟩ := hy
    exact ⟨y i, List.mem_map.2 ⟨i, hR.mem_iff.2 (List.mem_range.2 hi), rfl⟩, hf⟩
  have hlen : R.length = n := by simpa using hR.length_eq
  refine ⟨by rw [h1, hlen], by rw [h2, regPosteriorX_beta _ hmem], by rw [h2]; exact regPosteriorX_mu _ hmem, ?_⟩
  intro m k a b hp hk
  rw [h2, hp, regPosteriorX_mu_eq m k a b hmem (by simpa [hlen] using hk), nonFiniteSum_perm (hR.map y)]

/-- C92, perpendicular trees: if a training target is NaN or infinite, the fitted tree is a single leaf with all rows, for
every data set, prior, partition prior and feature type; `beta` of its posterior is NaN and its mean is not finite. -/
theorem C92_perp (F : XFns K) (hF : F.log .nan = .nan) (o : XOps V (XF K)) {argsort : List V → List Nat}
    (hsort : ∀ xs, (argsort xs).Perm (List.range xs.length)) (hp : Hyper (XF K)) (prior : Option (NG (XF K)))
    (X : Nat → Nat → V) (y : Nat → XF K) (n nDim : Nat) (names : List String) (hn : n ≤ 2 ^ 64) (hd : 0 < nDim)
    (hy : ∃ i < n, ¬ IsFinite (y i)) :
    ∃ info, perpFitRoot o (regTargetX F) argsort hp prior X y n nDim names = .ok (.leaf info) ∧
      Spoilt (regGetPriorX prior n nDim) y n info := by
  obtain ⟨row0, rest, hs, hperm⟩ := sortMatrix_row0 hsort X n nDim hn hd
  have hlen : row0.length = n := by simpa using hperm.length_eq
  have hmem : ∃ v ∈ row0.map y, ¬ IsFinite v := by
    obtain ⟨i, hi, hf⟩ := hy
    exact ⟨y i, List.mem_map.2 ⟨i, hperm.mem_iff.2 (List.mem_range.2 hi), rfl⟩, hf⟩
  refine ⟨⟨hp, prior, 0, some nDim, n, regPosteriorX (row0.map y) (regGetPriorX prior n nDim) 1⟩, ?_,
    spoilt_of_perm _ y n hy row0 hperm _ hlen.symm rfl⟩
  unfold perpFitRoot
  rw [hs, perpFit]
  simp only [show ∀ p, (regTargetX F).logNoSplit hp.partitionPrior 0 (row0.map y) p = .nan from
    fun p => regLogNoSplitX_nan F hF _ _ hmem p, search_nan]
  simp only [bind, Except.bind, pure, Except.pure, prune, Node.size, pruneFuel, shape1, List.headD_cons, hlen]
  split <;> rfl

/-- All likelihoods such a fit computes are NaN, without and with a split. -/
theorem C92_scores (F : XFns K) (hF : F.log .nan = .nan) (pp : XF K) (lv : Nat) {y : List (XF K)}
    (h : ∃ v ∈ y, ¬ IsFinite v) (prior : NG (XF K)) (nd : Nat) (si : List Nat)
    (hsi : ∀ k ∈ si, 1 ≤ k ∧ k < y.length) (hp : si.Pairwise (· < ·)) :
    (regTargetX F).logNoSplit pp lv y prior = .nan ∧
      ∀ s ∈ (regTargetX F).logSplit pp lv y prior nd si, s = .nan := by
  refine ⟨regLogNoSplitX_nan F hF pp lv h prior, ?_⟩
  rw [show (regTargetX F).logSplit pp lv y prior nd si = _ from regLogSplitX_nan F hF pp lv h prior nd si hsi hp]
  intro s hs
  obtain ⟨_, _, rfl⟩ := List.mem_map.1 hs
  rfl

/-- Every prediction of a leaf is its mean. -/
theorem C92_predictions {Sp S Row : Type} (rt : Router Sp Row) (info : Info (XF K) (NG (XF K))) (X : Nat → Row) (m : Nat) :
    predictRows rt (fun i => i.posterior.mu) 0 X m (.leaf info : Node Sp S (XF K) (NG (XF K))) =
      List.replicate m info.posterior.mu := by
  unfold predictRows
  apply List.ext_getElem?
  intro j
  rw [predictInto, writeAll_getElem?]
  by_cases hj : j < m
  · simp [hj]
  · simp [hj]

end

section hyper
variable {K : Type} [Field K] [LinearOrder K] [IsStrictOrderedRing K]

theorem xCompute_nan {T : Target (XF K) (NG (XF K)) (XF K) (XF K)} {A : HArith K} {argsort : List (XF K) → List Nat}
    {q : XProb K (XF K) (NG (XF K)) (XF K)} {st st' : XState (XF K) K} {r : RawVec K} {val : XF K}
    (h1 : st.bestScore = .nan) (h2 : st.best = none) (h : xCompute A argsort T q st r = .ok (st', val)) :
    st'.bestScore = .nan ∧ st'.best = none := by
  unfold xCompute at h
  simp only [h1, XF.not_nan_le, if_false] at h
  split at h
  · cases h
  · split at h
    · cases h; exact ⟨rfl, h2⟩
    · split at h
      · cases h; exact ⟨rfl, h2⟩
      · cases h

theorem xSolve_nan {T : Target (XF K) (NG (XF K)) (XF K) (XF K)} {A : HArith K} {argsort : List (XF K) → List Nat}
    {q : XProb K (XF K) (NG (XF K)) (XF K)} {strat : Strategy K (XF K)} (budget : Nat) (hist : List (RawVec K × XF K))
    (st st' : XState (XF K) K) (h1 : st.bestScore = .nan) (h2 : st.best = none)
    (h : xSolve A argsort T q strat budget hist st = .ok st') : st'.best = none := by
  induction budget generalizing hist st with
  | zero => cases h
  | succ b ih =>
    rw [xSolve] at h
    split at h
    · cases h; exact h2
    · cases h
    · split at h
      · cases h
      · rename_i e
        obtain ⟨g1, g2⟩ := xCompute_nan h1 h2 e
        exact ih _ _ g1 g2 h

/-- C92, hyperplane trees: the same for every optimizer, if it returns at all. -/
theorem C92_hyper (F : XFns K) (hF : F.log .nan = .nan) (c : XCtx K (XF K) (NG (XF K)) (XF K) (XF K))
    (hT : c.T = regTargetX F) (prior : Option (NG (XF K))) (n : Nat) (hy : ∃ i < n, ¬ IsFinite (c.y i))
    {t : Node (XSplit K) (XF K) (XF K) (NG (XF K))} (h : xFitRoot c prior n = .ok t) :
    ∃ info, t = .leaf info ∧ Spoilt (regGetPriorX prior n c.nDim) c.y n info := by
  have hmem : ∃ v ∈ (List.range n).map c.y, ¬ IsFinite v := by
    obtain ⟨i, hi, hf⟩ := hy
    exact ⟨c.y i, List.mem_map.2 ⟨i, List.mem_range.2 hi, rfl⟩, hf⟩
  have hleaf : ∀ t', xFit c (n + 1) prior 0 (List.range n) = .ok t' →
      t' = .leaf ⟨c.hp, prior, 0, some c.nDim, n,
        regPosteriorX ((List.range n).map c.y) (regGetPriorX prior n c.nDim) 1⟩ := by
    intro t' ht'
    rw [xFit] at ht'
    simp only [List.length_range] at ht'
    split at ht'
    · cases ht'
    · rename_i st hst
      have hb : st.best = none := by
        refine xSolve_nan _ _ _ st ?_ rfl hst
        show c.T.logNoSplit _ _ _ _ = .nan
        rw [hT]
        exact regLogNoSplitX_nan F hF _ _ hmem _
      rw [hb] at ht'
      cases ht'
      rw [hT]; rfl
  refine ⟨_, ?_, spoilt_of_perm _ c.y n hy (List.range n) (List.Perm.refl _)
    ⟨c.hp, prior, 0, some c.nDim, n, regPosteriorX ((List.range n).map c.y) (regGetPriorX prior n c.nDim) 1⟩
    (by simp) rfl⟩
  unfold xFitRoot at h
  cases hf : xFit c (n + 1) prior 0 (List.range n) with
  | error e => rw [hf] at h; cases h
  | ok t' =>
    rw [hf, hleaf t' hf] at h
    simp only [prune, Node.size, pruneFuel] at h
    split at h <;> cases h <;> rfl

end hyper

section finite
variable {K : Type} [Field K] [LinearOrder K] [IsStrictOrderedRing K]

/-- Parameters as floats. -/
def finNG (p : NG K) : NG (XF K) := ⟨.fin p.mu, .fin p.kappa, .fin p.alpha, .fin p.beta⟩

/-- `log` and `gammaln` on floats, for positive arguments the given functions. -/
structure Extends (F : Fns K) (G : XFns K) : Prop where
  log : ∀ a, 0 < a → G.log (.fin a) = .fin (F.log a)
  gammaln : ∀ a, 0 < a → G.gammaln (.fin a) = .fin (F.gammaln a)
  pi : G.pi = .fin F.pi
  pi_pos : 0 < F.pi

theorem ngPosteriorX_fin (p : NG K) (n : Nat) (s q δ : K) (hn : 0 < n) (h1 : p.kappa + (n : K) * δ ≠ 0)
    (h2 : p.kappa + (n : K) ≠ 0) :
    ngPosteriorX (finNG p) n (.fin s) (.fin q) (.fin δ) = finNG (ngPosterior p n s q δ) := by
  have h0 : (n : K) ≠ 0 := Nat.cast_ne_zero.2 hn.ne'
  unfold ngPosteriorX ngPosterior finNG XF.nat
  simp only [XF.fin_mul, XF.fin_add, XF.fin_sub, XF.fin_pow, XF.fin_div _ h0, XF.fin_div _ h1, XF.fin_div _ h2]

theorem sum_sq_fin (ys : List K) : ((ys.map XF.fin).map fun v => XF.pow v 2).sum =
    (.fin (ys.map fun v => v ^ 2).sum : XF K) := by
  rw [← XF.sum_fin, List.map_map, List.map_map]
  congr 1
  apply List.map_congr_left
  intro v _
  exact XF.fin_pow v 2

/-- For finite targets and a proper prior the posterior is the one of `Model/Target.lean`. -/
theorem C92_finite_posterior (p : NG K) (hp : NGProper p) (ys : List K) (hne : ys ≠ []) (δ : K) (hδ : 0 ≤ δ) :
    regPosteriorX (ys.map .fin) (finNG p) (.fin δ) = finNG (regPosterior ys p δ) := by
  have hn : 0 < ys.length := List.length_pos_of_ne_nil hne
  have hc : (0 : K) < (ys.length : K) := Nat.cast_pos.2 hn
  unfold regPosteriorX regPosterior
  by_cases h : δ = 0
  · rw [if_pos (by rw [h]; rfl), if_pos h]
  · rw [if_neg (show ¬ XF.fin δ = 0 from fun e => h (XF.fin.inj e)), if_neg h, XF.sum_fin, sum_sq_fin, List.length_map, ngPosteriorX_fin p _ _ _ _ hn]
    · have := mul_nonneg hc.le hδ; have := hp.1; positivity
    · have := hp.1; positivity

theorem evidenceX_fin {F : Fns K} {G : XFns K} (hG : Extends F G) (p : NG K) (hp : NGProper p) (ys : List K)
    (hne : ys ≠ []) :
    (let q := ngPosteriorX (finNG p) ys.length (.fin ys.sum) (.fin (ys.map fun v => v ^ 2).sum) 1
     ngLogPDataX G (finNG p) q.alpha q.beta q.kappa ys.length) =
    .fin (let q := ngPosterior p ys.length ys.sum (ys.map fun v => v ^ 2).sum 1
     ngLogPData F p q.alpha q.beta q.kappa ys.length) := by
  have hn : 0 < ys.length := List.length_pos_of_ne_nil hne
  have hc : (0 : K) < (ys.length : K) := Nat.cast_pos.2 hn
  have hk := hp.1
  have hq : NGProper (ngPosterior p ys.length ys.sum (ys.map fun v => v ^ 2).sum 1) :=
    ngPosterior_proper p ys 1 zero_le_one hp hne
  rw [XF.one_def, ngPosteriorX_fin p _ _ _ _ hn (by positivity) (by positivity)]
  generalize ngPosterior p ys.length ys.sum (ys.map fun v => v ^ 2).sum 1 = q at hq
  obtain ⟨q1, q2, q3⟩ := hq
  obtain ⟨p1, p2, p3⟩ := hp
  have hpi := hG.pi_pos
  simp only [ngLogPDataX, ngLogPData, finNG, XF.nat, hG.pi, XF.fin_div _ q1.ne', XF.fin_mul,
    hG.gammaln _ q2, hG.gammaln _ p2, hG.log _ p3, hG.log _ q3, hG.log _ (div_pos p1 q1),
    hG.log _ (mul_pos two_pos hpi), XF.fin_sub, XF.fin_add]

/-- For finite targets, a proper prior and a partition prior between 0 and 1 the likelihoods are those of
`Model/Target.lean`. -/
theorem C92_finite_scores {F : Fns K} {G : XFns K} (hG : Extends F G) (p : NG K) (hp : NGProper p) (pp : K) (h0 : 0 < pp)
    (h1 : pp < 1) (lv : Nat) (y : List K) (hne : y ≠ []) (nd : Nat) (hnd : 0 < nd) (si : List Nat)
    (hsi : ∀ k ∈ si, 1 ≤ k ∧ k < y.length) (hsort : si.Pairwise (· < ·)) :
    regLogNoSplitX G (.fin pp) lv (y.map .fin) (finNG p) = .fin (regLogNoSplit F pp lv y p) ∧
      regLogSplitX G (.fin pp) lv (y.map .fin) (finNG p) nd si = (regLogSplit F pp lv y p nd si).map .fin := by
  have hpos : 0 < pp ^ (1 + lv) := pow_pos h0 _
  have hlt : pp ^ (1 + lv) < 1 := pow_lt_one₀ h0.le h1 (by omega)
  constructor
  · have he := evidenceX_fin hG p hp y hne
    simp only at he
    unfold regLogNoSplitX regLogNoSplit
    rw [XF.sum_fin, sum_sq_fin, List.length_map]
    simp only [he]
    rw [XF.fin_pow, XF.one_def, XF.fin_sub, hG.log _ (by linarith), XF.fin_add]
  · unfold regLogSplitX regLogSplit
    simp only
    apply List.ext_getElem
    · simp
    · intro j g1 g2
      have hj : j < si.length := by simpa using g2
      have hk := hsi si[j] (List.getElem_mem hj)
      have hsi' : ∀ k ∈ si, 1 ≤ k ∧ k < (y.map XF.fin).length := by simpa using hsi
      simp only [List.getElem_map, List.getElem_range, gather_shortcut _ _ _ si hsi' hsort j hj,
        gather_shortcut _ _ _ si hsi hsort j hj]
      set k := si[j] with hkdef
      have n1 : (List.map (1 + ·) (List.range (y.length - 1))).getD (k - 1) 0 = (y.take k).length := by
        rw [List.getD_eq_getElem?_getD, List.getElem?_map, List.getElem?_range (by omega)]
        simp; omega
      have n2 : (List.map (y.length - ·) (List.map (1 + ·) (List.range (y.length - 1)))).getD (k - 1) 0 =
          (y.drop k).length := by
        rw [List.getD_eq_getElem?_getD, List.getElem?_map, List.getElem?_map,
          List.getElem?_range (by omega)]
        simp; omega
      have s1 : (cumsum y).dropLast[k - 1]? = some (y.take k).sum := by
        rw [List.getElem?_dropLast, if_pos (by rw [cumsum_length]; omega), cumsum_get _ _ (by omega),
          Nat.sub_add_cancel hk.1]
      have q1 : (cumsum (y.dropLast.map fun v => v ^ 2))[k - 1]? = some ((y.take k).map fun v => v ^ 2).sum := by
        rw [cumsum_get _ _ (by simp; omega), Nat.sub_add_cancel hk.1, ← List.map_take,
          List.dropLast_eq_take, List.take_take, min_eq_left (by omega)]
      have s1' : (cumsum (y.map XF.fin)).dropLast[k - 1]? = some (.fin (y.take k).sum) := by
        rw [List.getElem?_dropLast, if_pos (by rw [cumsum_length, List.length_map]; omega),
          cumsum_get _ _ (by rw [List.length_map]; omega), Nat.sub_add_cancel hk.1, ← List.map_take, XF.sum_fin]
      have q1' : (cumsum ((y.map XF.fin).dropLast.map fun v => XF.pow v 2))[k - 1]? =
          some (.fin ((y.take k).map fun v => v ^ 2).sum) := by
        rw [cumsum_get _ _ (by simp; omega), Nat.sub_add_cancel hk.1, ← List.map_take,
          List.dropLast_eq_take, List.take_take, min_eq_left (by rw [List.length_map]; omega), ← List.map_take,
          sum_sq_fin]
      have ssum : y.sum - (y.take k).sum = (y.drop k).sum := by
        conv_lhs => rw [← List.take_append_drop k y]
        rw [List.sum_append, List.take_append_drop]; ring
      have qsum : (y.map fun v => v ^ 2).sum - ((y.take k).map fun v => v ^ 2).sum =
          ((y.drop k).map fun v => v ^ 2).sum := by
        conv_lhs => rw [← List.take_append_drop k y]
        rw [List.map_append, List.sum_append, List.take_append_drop]; ring
      rw [List.length_map, n1, n2]
      simp only [List.getD_eq_getElem?_getD, List.getElem?_map, s1, q1, s1', q1', Option.map_some,
        Option.getD_some, XF.sum_fin, sum_sq_fin, XF.fin_sub, ssum, qsum]
      have ne1 : y.take k ≠ [] := by
        intro h; have := congrArg List.length h; rw [List.length_take, List.length_nil] at this; omega
      have ne2 : y.drop k ≠ [] := by
        intro h; have := congrArg List.length h; rw [List.length_drop, List.length_nil] at this; omega
      have e1 := evidenceX_fin hG p hp _ ne1
      have e2 := evidenceX_fin hG p hp _ ne2
      simp only at e1 e2
      have hs : (0 : K) < (si.length : K) * (nd : K) :=
        mul_pos (Nat.cast_pos.2 (by omega)) (Nat.cast_pos.2 hnd)
      rw [e1, e2, XF.fin_pow, XF.nat, XF.nat, XF.fin_mul, XF.fin_div _ hs.ne', hG.log _ (div_pos hpos hs), XF.fin_add,
        XF.fin_add]

/-- The default prior. -/
theorem C92_finite_prior (p : Option (NG K)) (n nd : Nat) :
    regGetPriorX (p.map finNG) n nd = finNG (regGetPrior p n nd) := by
  cases p <;> rfl

theorem ieeeFns_extends (F : Fns K) (hpi : 0 < F.pi) : Extends F (ieeeFns F) :=
  ⟨fun a ha => by simp [ieeeFns, ha], fun _ _ => rfl, rfl, hpi⟩

/-- Non-vacuity of the agreement on finite data: proper prior, real functions, three targets. -/
example : Extends realFns (ieeeFns realFns) ∧ NGProper (⟨0, 1, 1, 1⟩ : NG ℝ) ∧ ([3, 1, 2] : List ℝ) ≠ [] ∧
    ∀ k ∈ [1, 2], 1 ≤ k ∧ k < ([3, 1, 2] : List ℝ).length :=
  ⟨ieeeFns_extends _ Real.pi_pos, ⟨one_pos, one_pos, one_pos⟩, by simp, by simp⟩

/-- Three rows with targets 1, `inf`, 2: whatever the features, every query is predicted `inf`. -/
example (o : XOps ℝ (XF ℝ)) (X Q : Nat → Nat → ℝ) (m : Nat) (argsort : List ℝ → List Nat)
    (hsort : ∀ xs, (argsort xs).Perm (List.range xs.length)) : ∃ t,
    perpFitRoot o (regTargetX (ieeeFns realFns)) argsort ⟨.fin (1 / 2), .fin 0, true, .fin 0⟩ none X
      (fun i => if i = 1 then .pinf else .fin (i + 1)) 3 1 ["x0"] = .ok t ∧
    predictRows (perpRouter o) (fun i => i.posterior.mu) 0 Q m t = List.replicate m .pinf := by
  obtain ⟨info, h, hs⟩ := C92_perp (ieeeFns realFns) rfl o hsort ⟨.fin (1 / 2), .fin 0, true, .fin 0⟩ none X
    (fun i => if i = 1 then .pinf else .fin (i + 1)) 3 1 ["x0"] (by norm_num) one_pos
    ⟨1, by omega, by simp [IsFinite]⟩
  refine ⟨_, h, ?_⟩
  rw [C92_predictions, hs.meanIs 0 1 _ _ (by simp [regGetPriorX]; exact ⟨rfl, rfl⟩) (by norm_num)]
  simp [nonFiniteSum, List.range_succ]

/-- The same for a hyperplane tree with an optimizer that stops at once. -/
example (A : HArith ℝ) (X : Nat → Nat → XF ℝ) : ∃ t, xFitRoot (⟨A, fun xs => List.range xs.length,
      regTargetX (ieeeFns realFns), ⟨.fin (1 / 2), .fin 0, true, .fin 0⟩, 0, false, fun _ _ => .stop, 1, X,
      fun i => if i = 1 then .nan else .fin (i + 1), 1⟩ : XCtx ℝ (XF ℝ) (NG (XF ℝ)) (XF ℝ) (XF ℝ)) none 3 = .ok t ∧
    ∃ info, t = .leaf info ∧ info.posterior.mu = .nan := by
  refine ⟨_, rfl, ?_⟩
  refine ⟨_, rfl, ?_⟩
  show (regPosteriorX _ ⟨.fin 0, .fin _, _, _⟩ 1).mu = .nan
  rw [regPosteriorX_mu_eq 0 _ _ _ ⟨.nan, by simp [List.range_succ], by simp [IsFinite]⟩ (by norm_num [List.range_succ])]
  simp [nonFiniteSum, List.range_succ]

end finite

end BT
