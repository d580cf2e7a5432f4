import Verif.Lemmas.HyperNoise
import Verif.Lemmas.HyperFin
import Verif.Props.HyperClosed
import Verif.Props.ClsFloat
import Verif.Props.RegScore

/-!
# Hyperplane trees whose scores are computed with errors: C121

The scores of `_fit` carry an error of at most `ε` (`Computed`); features, projections and normals are exact.
-/

namespace BT
open Spec

set_option linter.unusedSectionVars false

section
variable {F : Fns ℝ} {P O : Type} {ml : P → List ℝ → ℝ} {c : HCtx ℝ P ℝ O} {n : Nat} {prior : P} {ε : ℝ}
  {t : HNode ℝ ℝ P}

/-- The exact score of cutting the rows of the problem `q`, sorted along `w` by the library, at position `k`. -/
noncomputable def exactSweep (A : HArith ℝ) (F : Fns ℝ) (ml : P → List ℝ → ℝ) (q : HProb ℝ P ℝ) (w : List ℝ) (k : Nat) : ℝ :=
  sweepScore F ml q w (byCoordinate A.argsort q w) k

theorem Spec.Computed.nearScores (hc : Computed F ml c.hp c.y n c.nDim prior ε c.T) (hA : Euclidean c.A) {lv : Nat}
    {R : List Nat} (hR : RowList n R) (hlv : lv < n) :
    NearScores c.A c.T (hProblem c prior lv R) (exactSweep c.A F ml (hProblem c prior lv R)) ε := by
  intro w _
  have hp := argsort_perm_rows (q := hProblem c prior lv R) hA.isArgsort w
  have hL : RowList n (byCoordinate c.A.argsort (hProblem c prior lv R) w) := hR.of_perm hp
  have hr : ∀ k ∈ jumps (hProblem c prior lv R) w,
      1 ≤ k ∧ k < (byCoordinate c.A.argsort (hProblem c prior lv R) w).length := by
    rw [hp.length_eq]
    exact jumps_range
  refine ⟨hc.len lv _ _ hL hr jumps_sorted, fun i k s hi hs => ?_⟩
  have := hc.split lv _ _ hlv hL hr jumps_sorted i k s hi hs
  rw [consideredCount_eq] at this
  exact this

theorem Spec.Computed.run (hc : Computed F ml c.hp c.y n c.nDim prior ε c.T) (hA : Euclidean c.A) {lv : Nat}
    {R : List Nat} (hR : RowList n R) (hlv : lv < n) {st : HState ℝ ℝ}
    (hst : hSolve c.A c.T (hProblem c prior lv R) (c.opt.solve (hProblem c prior lv R)) c.budget []
        (hInit (hProblem c prior lv R)) = .ok st) :
    ∃ vs, Follows (c.opt.solve (hProblem c prior lv R)) vs ∧
      NearSearched c.A (hProblem c prior lv R) (exactSweep c.A F ml (hProblem c prior lv R)) ε (vs.map Prod.fst) st :=
  hSolve_near (hc.nearScores hA hR hlv) hA.isArgsort hst

theorem sweep_order (hA : Euclidean c.A) (lv : Nat) (R : List Nat) (w : List ℝ) :
    IsSweep c.X R w (byCoordinate c.A.argsort (hProblem c prior lv R) w) :=
  ⟨argsort_perm_rows (q := hProblem c prior lv R) hA.isArgsort w,
    byCoordinate_sorted (q := hProblem c prior lv R) hA.isArgsort w⟩

/-- C121: whatever the optimizer does, errors in the scores cannot make `fit` fail: if it fails, then on the rows of some
node the optimizer evaluated vectors `vs` and then raised the exception, or proposed a vector that was rejected with it, or
did not stop within the budget. -/
theorem C121_errors (hc : Computed F ml c.hp c.y n c.nDim prior ε c.T) (hA : Euclidean c.A)
    (hd0 : ∀ y, c.T.posterior y prior 0 = prior) (hn : 0 < n) {e : Err} (h : hFitRoot c (some prior) n = .error e) :
    ∃ lv R, lv < n ∧ RowList n R ∧ let q := hProblem c prior lv R
      ∃ vs : List (RawVec ℝ × ℝ), (∀ m r s, vs[m]? = some (r, s) → c.opt.solve q (vs.take m).reverse = .eval r) ∧
        (e = .noTermination ∧ vs.length = c.budget ∨ c.opt.solve q vs.reverse = .raise e ∨
          ∃ r, c.opt.solve q vs.reverse = .eval r ∧ hNormal c.A q r = .error e) := by
  have key : ∀ (fuel lv : Nat) (R : List Nat), R.length < fuel → RowList n R → lv + R.length ≤ n →
      hFit c fuel (some prior) lv R = .error e → ∃ lv' R', lv' < n ∧ RowList n R' ∧
        hSolve c.A c.T (hProblem c prior lv' R') (c.opt.solve (hProblem c prior lv' R')) c.budget []
          (hInit (hProblem c prior lv' R')) = .error e := by
    intro fuel
    induction fuel with
    | zero => intro lv R h1; omega
    | succ fuel ih =>
      intro lv R hfuel hR hlv h
      have hRpos := List.length_pos_iff.2 hR.1
      unfold hFit at h
      simp only [below_eq, above_eq, hc.given, hd0] at h
      split at h
      · next e' he =>
        cases h
        exact ⟨lv, R, by omega, hR, he⟩
      · split at h
        · cases h
        · next sp hb =>
          have hlenR := above_below_length (c := c) R sp
          have rl : ∀ R' : List Nat, R'.Sublist R → 0 < R'.length → RowList n R' := fun R' hsub hpos =>
            ⟨List.length_pos_iff.1 hpos, hsub.nodup hR.2.1, fun i hi => hR.2.2 i (hsub.subset hi)⟩
          split at h
          · next hlen =>
            split at h
            · next e' he =>
              cases h
              split at he
              · exact ih (lv + 1) (below c R sp) (by omega) (rl _ List.filter_sublist hlen.1) (by omega) he
              · cases he
            · split at h
              · next e' he =>
                cases h
                split at he
                · exact ih (lv + 1) (above c R sp) (by omega) (rl _ List.filter_sublist hlen.2) (by omega) he
                · cases he
              · cases h
          · cases h
  have hf : hFit c (n + 1) (some prior) 0 (List.range n) = .error e := by
    unfold hFitRoot at h
    split at h
    · next e' he => cases h; exact he
    · split at h
      · rw [prune_eq] at h; cases h
      · cases h
  obtain ⟨lv, R, hlv, hR, hs⟩ := key (n + 1) 0 _ (by simp)
    ⟨by simp; omega, List.nodup_range, fun _ hi => List.mem_range.1 hi⟩ (by simp) hf
  obtain ⟨vs, h1, h2⟩ := hSolve_near_error (hc.nearScores hA hR hlv) hA.isArgsort (by simp) hs
  rw [List.length_nil, Nat.zero_add] at h2
  exact ⟨lv, R, hlv, hR, vs, h1, h2⟩

/-- C121: every node stores the number of rows that reach it and the computed posterior of their targets; no node is
without rows. -/
theorem C121_node (hc : Computed F ml c.hp c.y n c.nDim prior ε c.T)
    (hd0 : ∀ y, c.T.posterior y prior 0 = prior) (hn : 0 < n) (h : hFitRoot c (some prior) n = .ok t)
    (addr : List Bool) (u : HNode ℝ ℝ P) (hu : nodeAt t addr = some u) :
    u.info.nData = (hRowsAt c.X t n addr).length ∧ 0 < u.info.nData ∧ u.info.prior = some prior ∧
    u.info.posterior = c.T.posterior ((hRowsAt c.X t n addr).map c.y) prior 1 := by
  classical
  obtain ⟨u0, hB, hR, -, e, -⟩ := hFitRoot_run hc.given hd0 hn h hu
  rw [hRowsAt_eq, e]
  have hp := List.length_pos_iff.2 hR.1
  cases hB with
  | direct _ _ _ => exact ⟨rfl, hp, rfl, rfl⟩
  | stay _ _ _ _ _ => exact ⟨rfl, hp, rfl, by simp only [Node.info, hFitInfo, hPrior, hc.given]⟩
  | split _ _ _ _ _ _ _ _ _ _ _ _ => exact ⟨rfl, hp, rfl, by simp only [Node.info, hFitInfo, hPrior, hc.given]⟩

/-- C121: every split is, by its exact score, within `2 ε` of the best of all planes that the optimizer evaluated on the
rows of the node and of not splitting; the stored scores are within `ε` of the exact ones.  The plane goes halfway between
the two rows next to the position of its score. -/
theorem C121_split (hc : Computed F ml c.hp c.y n c.nDim prior ε c.T) (hA : Euclidean c.A)
    (hd0 : ∀ y, c.T.posterior y prior 0 = prior) (hn : 0 < n) (h : hFitRoot c (some prior) n = .ok t)
    (addr : List Bool) (i : Info ℝ P) (sp : HSplit ℝ) (l b : ℝ) (c1 c2 : HNode ℝ ℝ P)
    (hu : nodeAt t addr = some (.split i sp l b c1 c2)) :
    let R := hRowsAt c.X t n addr
    let q := hProblem c prior addr.length R
    let stay := stayScore F ml c.hp c.y prior addr.length R
    |l - stay| ≤ ε ∧ l ≤ b ∧ hRowsAt c.X t n (addr ++ [false]) ≠ [] ∧ hRowsAt c.X t n (addr ++ [true]) ≠ [] ∧
    ∃ order : List ℝ → List Nat, (∀ w, IsSweep c.X R w (order w)) ∧
    ∃ k, Considered c.hp.splitPrecision c.X R sp.normal k ∧
      |b - sweepScore F ml q sp.normal (order sp.normal) k| ≤ ε ∧
      stay ≤ sweepScore F ml q sp.normal (order sp.normal) k + 2 * ε ∧
      (∃ j m, (order sp.normal)[k - 1]? = some j ∧ (order sp.normal)[k]? = some m ∧
        sp.origin = (List.range c.nDim).map fun d => (c.X j d + c.X m d) / 2) ∧
    ∃ vs, Follows (c.opt.solve q) vs ∧ (∃ e ∈ vs, hNormal c.A q e.1 = .ok sp.normal) ∧
      ∀ e ∈ vs, ∃ w, hNormal c.A q e.1 = .ok w ∧ ∀ k', Considered c.hp.splitPrecision c.X R w k' →
        sweepScore F ml q w (order w) k' ≤ sweepScore F ml q sp.normal (order sp.normal) k + 2 * ε := by
  classical
  intro R q stay
  have hRR : R = hRouted c t n addr := hRowsAt_eq c t n addr
  obtain ⟨u0, hB, hR, hl, -, hsp, -⟩ := hFitRoot_run hc.given hd0 hn h hu
  obtain ⟨d1, d2, rfl⟩ := hsp _ _ _ _ _ _ rfl
  rw [← hRR] at hB hR hl
  have hRpos := List.length_pos_iff.2 hR.1
  have hlv : addr.length < n := by omega
  obtain ⟨g1, g2⟩ := hRouted_snoc (c := c) (n := n) hu
  rw [hRowsAt_eq, hRowsAt_eq, g1, g2, ← hRR]
  cases hB with
  | split _ _ st _ _ _ hst hbest hne1 hne2 h1 h2 =>
    obtain ⟨vs, hf, hN⟩ := hc.run hA hR hlv hst
    obtain ⟨r, hr, ho⟩ := hN.some sp hbest
    obtain ⟨k, hk, hb, j, m, hj, hm, horg⟩ := ho.cut
    have hstay := hc.stay addr.length R hlv hR
    have hbase : c.T.logNoSplit c.hp.partitionPrior addr.length (R.map c.y) prior ≤ st.bestScore := hN.base
    have hb1 := _root_.abs_le.1 hb
    have hs1 := _root_.abs_le.1 hstay
    refine ⟨hstay, hbase, hne1, hne2, fun w => byCoordinate c.A.argsort q w, sweep_order hA _ _, k,
      (considered_iff (q := q) _ _).1 hk, hb, ?_, ⟨j, m, hj, hm, horg⟩, vs, hf, ?_, ?_⟩
    · show F.log (1 - c.hp.partitionPrior ^ (addr.length + 1)) + ml prior (R.map c.y) ≤ exactSweep c.A F ml q sp.normal k + 2 * ε
      linarith [hb1.2, hs1.1]
    · obtain ⟨e, he, rfl⟩ := List.mem_map.1 hr
      exact ⟨e, he, ho.normal⟩
    · intro e he
      obtain ⟨w, hw⟩ := hN.normals e.1 (List.mem_map_of_mem he)
      refine ⟨w, hw, fun k' hk' => ?_⟩
      have := hN.upper e.1 (List.mem_map_of_mem he) w hw k' ((considered_iff (q := q) _ _).2 hk')
      show exactSweep c.A F ml q w k' ≤ exactSweep c.A F ml q sp.normal k + 2 * ε
      linarith [hb1.2]

/-- C121: a leaf of the unpruned tree has one row, or one target value; or no plane that the optimizer evaluated on its rows
exceeds not splitting by more than `2 ε`; or the best plane evaluated, within `2 ε`, has all rows on one side. -/
theorem C121_leaf (hc : Computed F ml c.hp c.y n c.nDim prior ε c.T) (hA : Euclidean c.A)
    (hd0 : ∀ y, c.T.posterior y prior 0 = prior) (hn : 0 < n) (hpr : c.hp.prune = false)
    (h : hFitRoot c (some prior) n = .ok t)
    (addr : List Bool) (i : Info ℝ P) (hu : nodeAt t addr = some (.leaf i)) :
    let R := hRowsAt c.X t n addr
    let q := hProblem c prior addr.length R
    let stay := stayScore F ml c.hp c.y prior addr.length R
    R.length ≤ 1 ∨ (∀ j ∈ R, ∀ k ∈ R, c.y j = c.y k) ∨
    ∃ order : List ℝ → List Nat, (∀ w, IsSweep c.X R w (order w)) ∧
    ∃ vs, Follows (c.opt.solve q) vs ∧ (∀ e ∈ vs, ∃ w, hNormal c.A q e.1 = .ok w) ∧
      ((∀ e ∈ vs, ∀ w, hNormal c.A q e.1 = .ok w → ∀ k, Considered c.hp.splitPrecision c.X R w k →
          sweepScore F ml q w (order w) k ≤ stay + 2 * ε) ∨
        ∃ (sp : HSplit ℝ) (k : Nat), Considered c.hp.splitPrecision c.X R sp.normal k ∧ (∃ e ∈ vs, hNormal c.A q e.1 = .ok sp.normal) ∧
          (∃ j m, (order sp.normal)[k - 1]? = some j ∧ (order sp.normal)[k]? = some m ∧
            sp.origin = (List.range c.nDim).map fun d => (c.X j d + c.X m d) / 2) ∧
          ((∀ j ∈ R, planeSide sp.normal sp.origin (c.X j) < 0) ∨ ∀ j ∈ R, 0 ≤ planeSide sp.normal sp.origin (c.X j)) ∧
          ∀ e ∈ vs, ∀ w, hNormal c.A q e.1 = .ok w → ∀ k', Considered c.hp.splitPrecision c.X R w k' →
            sweepScore F ml q w (order w) k' ≤ sweepScore F ml q sp.normal (order sp.normal) k + 2 * ε) := by
  classical
  intro R q stay
  have hRR : R = hRouted c t n addr := hRowsAt_eq c t n addr
  obtain ⟨u0, hB, hR, hl, -, -, e⟩ := hFitRoot_run hc.given hd0 hn h hu
  obtain rfl := e hpr
  rw [← hRR] at hB hR hl
  have hRpos := List.length_pos_iff.2 hR.1
  have hlv : addr.length < n := by omega
  cases hB with
  | direct _ _ hsmall =>
    by_cases h1 : R.length ≤ 1
    · exact .inl h1
    · refine .inr (.inl fun j hj k hk => ?_)
      by_contra hne
      exact hsmall ⟨not_le.1 h1, j, hj, k, hk, hne⟩
  | stay _ _ st hst hno =>
    obtain ⟨vs, hf, hN⟩ := hc.run hA hR hlv hst
    refine .inr (.inr ⟨fun w => byCoordinate c.A.argsort q w, sweep_order hA _ _, vs, hf,
      fun e he => hN.normals e.1 (List.mem_map_of_mem he), ?_⟩)
    cases hb : st.best with
    | none =>
      left
      intro e he w hw k hk
      have h1 := hN.upper e.1 (List.mem_map_of_mem he) w hw k ((considered_iff (q := q) _ _).2 hk)
      have h2 := hN.none hb
      have hs1 := _root_.abs_le.1 (hc.stay addr.length R hlv hR)
      have h3 : st.bestScore = c.T.logNoSplit c.hp.partitionPrior addr.length (R.map c.y) prior := h2
      show exactSweep c.A F ml q w k ≤
        F.log (1 - c.hp.partitionPrior ^ (addr.length + 1)) + ml prior (R.map c.y) + 2 * ε
      linarith [hs1.2]
    | some sp =>
      right
      obtain ⟨r, hr, ho⟩ := hN.some sp hb
      obtain ⟨k, hk, hbk, j, m, hj, hm, horg⟩ := ho.cut
      have hb1 := _root_.abs_le.1 hbk
      refine ⟨sp, k, (considered_iff (q := q) _ _).1 hk, ?_, ⟨j, m, hj, hm, horg⟩, ?_, ?_⟩
      · obtain ⟨e, he, rfl⟩ := List.mem_map.1 hr
        exact ⟨e, he, ho.normal⟩
      · simp only [planeSide_eq]
        rcases hno sp hb with h0 | h0
        · right
          intro j hj
          by_contra hlt
          exact List.ne_nil_of_mem (List.mem_filter.2 ⟨hj, decide_eq_true (not_le.1 hlt)⟩) h0
        · left
          intro j hj
          by_contra hlt
          exact List.ne_nil_of_mem (List.mem_filter.2 ⟨hj, decide_eq_true (not_lt.1 hlt)⟩) h0
      · intro e he w hw k' hk'
        have := hN.upper e.1 (List.mem_map_of_mem he) w hw k' ((considered_iff (q := q) _ _).2 hk')
        show exactSweep c.A F ml q w k' ≤ exactSweep c.A F ml q sp.normal k + 2 * ε
        linarith [hb1.2]

end

/-! ## Classification in floating-point arithmetic -/

section cls
variable {u lo hi : ℝ} {n : Nat} {L : ClsLib ℝ} {prior : List ℝ} {c : HCtx ℝ (List ℝ) ℝ (List ℝ)}

theorem hcls_computed (hT : c.T = clsTargetR L) (hL : AccurateLib u n L)
    (hM : Moderate u lo hi c.hp.partitionPrior prior n) (hd : 0 < c.nDim) (hn : 0 < n) :
    Computed realFns (dirichletMarginal realFns) c.hp c.y n c.nDim prior
      (scoreError u lo hi c.hp.partitionPrior prior.length n c.nDim) c.T ∧
    ∀ y, c.T.posterior y prior 0 = prior := by
  rw [hT]
  exact ⟨cls_computed hL hM hd hn c.y, fun y => if_pos rfl⟩

/-- C121 for classification in floating-point arithmetic: the fit fails only because of the optimizer. -/
theorem C121_classification_errors (hT : c.T = clsTargetR L) (hL : AccurateLib u n L)
    (hM : Moderate u lo hi c.hp.partitionPrior prior n) (hA : Euclidean c.A) (hd : 0 < c.nDim) (hn : 0 < n) {e : Err}
    (h : hFitRoot c (some prior) n = .error e) :
    ∃ lv R, lv < n ∧ RowList n R ∧ let q := hProblem c prior lv R
      ∃ vs : List (RawVec ℝ × ℝ), (∀ m r s, vs[m]? = some (r, s) → c.opt.solve q (vs.take m).reverse = .eval r) ∧
        (e = .noTermination ∧ vs.length = c.budget ∨ c.opt.solve q vs.reverse = .raise e ∨
          ∃ r, c.opt.solve q vs.reverse = .eval r ∧ hNormal c.A q r = .error e) :=
  have hc := hcls_computed hT hL hM hd hn
  C121_errors hc.1 hA hc.2 hn h

/-- C121 for classification in floating-point arithmetic: every split is nearly the best. -/
theorem C121_classification_split (hT : c.T = clsTargetR L) (hL : AccurateLib u n L)
    (hM : Moderate u lo hi c.hp.partitionPrior prior n) (hA : Euclidean c.A) (hd : 0 < c.nDim) (hn : 0 < n)
    {t : HNode ℝ ℝ (List ℝ)} (h : hFitRoot c (some prior) n = .ok t)
    (addr : List Bool) (i : Info ℝ (List ℝ)) (sp : HSplit ℝ) (l b : ℝ) (c1 c2 : HNode ℝ ℝ (List ℝ))
    (hu : nodeAt t addr = some (.split i sp l b c1 c2)) :
    let ε := scoreError u lo hi c.hp.partitionPrior prior.length n c.nDim
    let ml := dirichletMarginal realFns
    let R := hRowsAt c.X t n addr
    let q := hProblem c prior addr.length R
    let stay := stayScore realFns ml c.hp c.y prior addr.length R
    |l - stay| ≤ ε ∧ l ≤ b ∧ hRowsAt c.X t n (addr ++ [false]) ≠ [] ∧ hRowsAt c.X t n (addr ++ [true]) ≠ [] ∧
    ∃ order : List ℝ → List Nat, (∀ w, IsSweep c.X R w (order w)) ∧
    ∃ k, Considered c.hp.splitPrecision c.X R sp.normal k ∧
      |b - sweepScore realFns ml q sp.normal (order sp.normal) k| ≤ ε ∧
      stay ≤ sweepScore realFns ml q sp.normal (order sp.normal) k + 2 * ε ∧
      (∃ j m, (order sp.normal)[k - 1]? = some j ∧ (order sp.normal)[k]? = some m ∧
        sp.origin = (List.range c.nDim).map fun d => (c.X j d + c.X m d) / 2) ∧
    ∃ vs, Follows (c.opt.solve q) vs ∧ (∃ e ∈ vs, hNormal c.A q e.1 = .ok sp.normal) ∧
      ∀ e ∈ vs, ∃ w, hNormal c.A q e.1 = .ok w ∧ ∀ k', Considered c.hp.splitPrecision c.X R w k' →
        sweepScore realFns ml q w (order w) k' ≤ sweepScore realFns ml q sp.normal (order sp.normal) k + 2 * ε :=
  have hc := hcls_computed hT hL hM hd hn
  C121_split hc.1 hA hc.2 hn h addr i sp l b c1 c2 hu

/-- C121 for classification in floating-point arithmetic: a leaf has no clearly better plane among those evaluated. -/
theorem C121_classification_leaf (hT : c.T = clsTargetR L) (hL : AccurateLib u n L)
    (hM : Moderate u lo hi c.hp.partitionPrior prior n) (hA : Euclidean c.A) (hd : 0 < c.nDim) (hn : 0 < n)
    (hpr : c.hp.prune = false) {t : HNode ℝ ℝ (List ℝ)} (h : hFitRoot c (some prior) n = .ok t)
    (addr : List Bool) (i : Info ℝ (List ℝ)) (hu : nodeAt t addr = some (.leaf i)) :
    let ε := scoreError u lo hi c.hp.partitionPrior prior.length n c.nDim
    let ml := dirichletMarginal realFns
    let R := hRowsAt c.X t n addr
    let q := hProblem c prior addr.length R
    let stay := stayScore realFns ml c.hp c.y prior addr.length R
    R.length ≤ 1 ∨ (∀ j ∈ R, ∀ k ∈ R, c.y j = c.y k) ∨
    ∃ order : List ℝ → List Nat, (∀ w, IsSweep c.X R w (order w)) ∧
    ∃ vs, Follows (c.opt.solve q) vs ∧ (∀ e ∈ vs, ∃ w, hNormal c.A q e.1 = .ok w) ∧
      ((∀ e ∈ vs, ∀ w, hNormal c.A q e.1 = .ok w → ∀ k, Considered c.hp.splitPrecision c.X R w k →
          sweepScore realFns ml q w (order w) k ≤ stay + 2 * ε) ∨
        ∃ (sp : HSplit ℝ) (k : Nat), Considered c.hp.splitPrecision c.X R sp.normal k ∧ (∃ e ∈ vs, hNormal c.A q e.1 = .ok sp.normal) ∧
          (∃ j m, (order sp.normal)[k - 1]? = some j ∧ (order sp.normal)[k]? = some m ∧
            sp.origin = (List.range c.nDim).map fun d => (c.X j d + c.X m d) / 2) ∧
          ((∀ j ∈ R, planeSide sp.normal sp.origin (c.X j) < 0) ∨ ∀ j ∈ R, 0 ≤ planeSide sp.normal sp.origin (c.X j)) ∧
          ∀ e ∈ vs, ∀ w, hNormal c.A q e.1 = .ok w → ∀ k', Considered c.hp.splitPrecision c.X R w k' →
            sweepScore realFns ml q w (order w) k' ≤ sweepScore realFns ml q sp.normal (order sp.normal) k + 2 * ε) :=
  have hc := hcls_computed hT hL hM hd hn
  C121_leaf hc.1 hA hc.2 hn hpr h addr i hu

end cls

/-! ## Regression in floating-point arithmetic

The computed scores might be NaN or infinite; `numCtx c` is the same fit with scores that are numbers. -/

section reg
variable {u Y : ℝ} {n : Nat} {L : FloatLib ℝ} {prior : NG ℝ} {c : HCtx ℝ (NG ℝ) (XF ℝ) ℝ}

theorem hreg_computed (hT : c.T = regTargetR L) (hL : AccurateReg u n L) (hF : Fine u prior c.hp.partitionPrior n Y)
    (hd : 0 < c.nDim) (hY : ∀ i < n, |c.y i| ≤ Y) :
    Computed realFns (ngMarginal realFns) (numCtx c).hp (numCtx c).y n (numCtx c).nDim prior
      (regScoreError u prior c.hp.partitionPrior n c.nDim Y) (numCtx c).T ∧
    (∀ y, (numCtx c).T.posterior y prior 0 = prior) ∧ Finite c.T c.hp c.y n c.nDim prior ∧
    (∀ y, c.T.posterior y prior 0 = prior) := by
  have e : (numCtx c).T = (regTargetR L).num := congrArg Target.num hT
  rw [e, hT]
  exact ⟨reg_computed hL hF hd hY, fun y => if_pos rfl, reg_finite hL hF hd hY, fun y => if_pos rfl⟩

/-- C121 for regression in floating-point arithmetic: the scores are numbers, and are never in the way. -/
theorem C121_regression_finite (hT : c.T = regTargetR L) (hL : AccurateReg u n L)
    (hF : Fine u prior c.hp.partitionPrior n Y) (hA : Euclidean c.A) (hd : 0 < c.nDim) (hY : ∀ i < n, |c.y i| ≤ Y)
    (hn : 0 < n) : hFitRoot c (some prior) n = (hFitRoot (numCtx c) (some prior) n).map finTree :=
  have hc := hreg_computed hT hL hF hd hY
  hFitRoot_fin hc.2.2.1 hc.2.2.2 hA.isArgsort hn

theorem reg_tree (hT : c.T = regTargetR L) (hL : AccurateReg u n L)
    (hF : Fine u prior c.hp.partitionPrior n Y) (hA : Euclidean c.A) (hd : 0 < c.nDim) (hY : ∀ i < n, |c.y i| ≤ Y)
    (hn : 0 < n) {t : HNode (XF ℝ) ℝ (NG ℝ)} (h : hFitRoot c (some prior) n = .ok t) :
    ∃ t', hFitRoot (numCtx c) (some prior) n = .ok t' ∧ t = finTree t' := by
  rw [C121_regression_finite hT hL hF hA hd hY hn] at h
  cases h' : hFitRoot (numCtx c) (some prior) n with
  | error e => rw [h'] at h; cases h
  | ok t' => rw [h'] at h; cases h; exact ⟨t', rfl, rfl⟩

theorem descends_fin (t : HNode ℝ ℝ (NG ℝ)) (addr : List Bool) (x : Nat → ℝ) :
    descends (finTree t) addr x = descends t addr x := by
  induction addr generalizing t with
  | nil => cases t <;> rfl
  | cons b bs ih => cases t <;> simp [finTree, descends, ih]

theorem hRowsAt_fin (t : HNode ℝ ℝ (NG ℝ)) (addr : List Bool) :
    hRowsAt c.X (finTree t) n addr = hRowsAt c.X t n addr := by
  unfold hRowsAt
  simp only [descends_fin]

/-- C121 for regression in floating-point arithmetic: the fit fails only because of the optimizer. -/
theorem C121_regression_errors (hT : c.T = regTargetR L) (hL : AccurateReg u n L)
    (hF : Fine u prior c.hp.partitionPrior n Y) (hA : Euclidean c.A) (hd : 0 < c.nDim) (hY : ∀ i < n, |c.y i| ≤ Y)
    (hn : 0 < n) {e : Err} (h : hFitRoot c (some prior) n = .error e) :
    ∃ lv R, lv < n ∧ RowList n R ∧ let q := hProblem c prior lv R
      ∃ vs : List (RawVec ℝ × XF ℝ), (∀ m r s, vs[m]? = some (r, s) → c.opt.solve q (vs.take m).reverse = .eval r) ∧
        (e = .noTermination ∧ vs.length = c.budget ∨ c.opt.solve q vs.reverse = .raise e ∨
          ∃ r, c.opt.solve q vs.reverse = .eval r ∧ hNormal c.A q r = .error e) := by
  have hc := hreg_computed hT hL hF hd hY
  have h' : hFitRoot (numCtx c) (some prior) n = .error e := by
    rw [C121_regression_finite hT hL hF hA hd hY hn] at h
    cases h' : hFitRoot (numCtx c) (some prior) n with
    | error e => rw [h'] at h; cases h; rfl
    | ok t' => rw [h'] at h; cases h
  obtain ⟨lv, R, hlv, hR, vs, h1, h2⟩ := C121_errors hc.1 (c := numCtx c) hA hc.2.1 hn h'
  refine ⟨lv, R, hlv, hR, ?_⟩
  rw [hProblem_fin hc.2.2.1 hR hlv]
  refine ⟨vs.map fun e : RawVec ℝ × ℝ => (e.1, XF.fin e.2), fun m r s hs => ?_, ?_⟩
  · rw [List.getElem?_map, Option.map_eq_some_iff] at hs
    obtain ⟨e, he, h3⟩ := hs
    cases h3
    rw [← List.map_take, ← List.map_reverse]
    exact h1 m e.1 e.2 he
  · rw [List.length_map, ← List.map_reverse]
    exact h2

/-- C121 for regression in floating-point arithmetic: every split has scores that are numbers, and is nearly the best. -/
theorem C121_regression_split (hT : c.T = regTargetR L) (hL : AccurateReg u n L)
    (hF : Fine u prior c.hp.partitionPrior n Y) (hA : Euclidean c.A) (hd : 0 < c.nDim) (hY : ∀ i < n, |c.y i| ≤ Y)
    (hn : 0 < n) {t : HNode (XF ℝ) ℝ (NG ℝ)} (h : hFitRoot c (some prior) n = .ok t)
    (addr : List Bool) (i : Info ℝ (NG ℝ)) (sp : HSplit ℝ) (l b : XF ℝ) (c1 c2 : HNode (XF ℝ) ℝ (NG ℝ))
    (hu : nodeAt t addr = some (.split i sp l b c1 c2)) :
    let ε := regScoreError u prior c.hp.partitionPrior n c.nDim Y
    let ml := ngMarginal realFns
    let R := hRowsAt c.X t n addr
    let q := hProblem (numCtx c) prior addr.length R
    let stay := stayScore realFns ml c.hp c.y prior addr.length R
    (∃ l' b', l = .fin l' ∧ b = .fin b' ∧ |l' - stay| ≤ ε ∧ l' ≤ b' ∧
    hRowsAt c.X t n (addr ++ [false]) ≠ [] ∧ hRowsAt c.X t n (addr ++ [true]) ≠ [] ∧
    ∃ order : List ℝ → List Nat, (∀ w, IsSweep c.X R w (order w)) ∧
    ∃ k, Considered c.hp.splitPrecision c.X R sp.normal k ∧
      |b' - sweepScore realFns ml q sp.normal (order sp.normal) k| ≤ ε ∧
      stay ≤ sweepScore realFns ml q sp.normal (order sp.normal) k + 2 * ε ∧
      (∃ j m, (order sp.normal)[k - 1]? = some j ∧ (order sp.normal)[k]? = some m ∧
        sp.origin = (List.range c.nDim).map fun d => (c.X j d + c.X m d) / 2) ∧
    ∃ vs, Follows (c.opt.solve (xfProb q)) vs ∧ (∃ e ∈ vs, hNormal c.A q e.1 = .ok sp.normal) ∧
      ∀ e ∈ vs, ∃ w, hNormal c.A q e.1 = .ok w ∧ ∀ k', Considered c.hp.splitPrecision c.X R w k' →
        sweepScore realFns ml q w (order w) k' ≤ sweepScore realFns ml q sp.normal (order sp.normal) k + 2 * ε) := by
  have hc := hreg_computed hT hL hF hd hY
  obtain ⟨t', h', rfl⟩ := reg_tree hT hL hF hA hd hY hn h
  rw [nodeAt_fin, Option.map_eq_some_iff] at hu
  obtain ⟨u', hu', e⟩ := hu
  cases u' with
  | leaf i' => cases e
  | split i' sp' l' b' d1 d2 =>
    cases e
    simp only [hRowsAt_fin]
    obtain ⟨h1, h2, h3, h4, order, ho, k, hk, hb, hst, hor, vs, hf, hn1, hall⟩ :=
      C121_split hc.1 (c := numCtx c) hA hc.2.1 hn h' addr _ _ l' b' d1 d2 hu'
    refine ⟨l', b', rfl, rfl, h1, h2, h3, h4, order, ho, k, hk, hb, hst, hor, vs.map fun e : RawVec ℝ × ℝ => (e.1, XF.fin e.2),
      follows_num hf, ?_, ?_⟩
    · obtain ⟨e, he, hw⟩ := hn1
      exact ⟨_, List.mem_map_of_mem he, hw⟩
    · intro e he
      obtain ⟨e', he', rfl⟩ := List.mem_map.1 he
      exact hall e' he'

/-- C121 for regression in floating-point arithmetic: a leaf has no clearly better plane among those evaluated. -/
theorem C121_regression_leaf (hT : c.T = regTargetR L) (hL : AccurateReg u n L)
    (hF : Fine u prior c.hp.partitionPrior n Y) (hA : Euclidean c.A) (hd : 0 < c.nDim) (hY : ∀ i < n, |c.y i| ≤ Y)
    (hn : 0 < n) (hpr : c.hp.prune = false) {t : HNode (XF ℝ) ℝ (NG ℝ)} (h : hFitRoot c (some prior) n = .ok t)
    (addr : List Bool) (i : Info ℝ (NG ℝ)) (hu : nodeAt t addr = some (.leaf i)) :
    let ε := regScoreError u prior c.hp.partitionPrior n c.nDim Y
    let ml := ngMarginal realFns
    let R := hRowsAt c.X t n addr
    let q := hProblem (numCtx c) prior addr.length R
    let stay := stayScore realFns ml c.hp c.y prior addr.length R
    R.length ≤ 1 ∨ (∀ j ∈ R, ∀ k ∈ R, c.y j = c.y k) ∨
    ∃ order : List ℝ → List Nat, (∀ w, IsSweep c.X R w (order w)) ∧
    ∃ vs, Follows (c.opt.solve (xfProb q)) vs ∧ (∀ e ∈ vs, ∃ w, hNormal c.A q e.1 = .ok w) ∧
      ((∀ e ∈ vs, ∀ w, hNormal c.A q e.1 = .ok w → ∀ k, Considered c.hp.splitPrecision c.X R w k →
          sweepScore realFns ml q w (order w) k ≤ stay + 2 * ε) ∨
        ∃ (sp : HSplit ℝ) (k : Nat), Considered c.hp.splitPrecision c.X R sp.normal k ∧ (∃ e ∈ vs, hNormal c.A q e.1 = .ok sp.normal) ∧
          (∃ j m, (order sp.normal)[k - 1]? = some j ∧ (order sp.normal)[k]? = some m ∧
            sp.origin = (List.range c.nDim).map fun d => (c.X j d + c.X m d) / 2) ∧
          ((∀ j ∈ R, planeSide sp.normal sp.origin (c.X j) < 0) ∨ ∀ j ∈ R, 0 ≤ planeSide sp.normal sp.origin (c.X j)) ∧
          ∀ e ∈ vs, ∀ w, hNormal c.A q e.1 = .ok w → ∀ k', Considered c.hp.splitPrecision c.X R w k' →
            sweepScore realFns ml q w (order w) k' ≤ sweepScore realFns ml q sp.normal (order sp.normal) k + 2 * ε) := by
  have hc := hreg_computed hT hL hF hd hY
  obtain ⟨t', h', rfl⟩ := reg_tree hT hL hF hA hd hY hn h
  rw [nodeAt_fin, Option.map_eq_some_iff] at hu
  obtain ⟨u', hu', e⟩ := hu
  cases u' with
  | split i' sp' l' b' d1 d2 => cases e
  | leaf i' =>
    cases e
    simp only [hRowsAt_fin]
    rcases C121_leaf hc.1 (c := numCtx c) hA hc.2.1 hn hpr h' addr _ hu' with g | g | ⟨order, ho, vs, hf, hno, g⟩
    · exact .inl g
    · exact .inr (.inl g)
    refine .inr (.inr ⟨order, ho, vs.map fun e : RawVec ℝ × ℝ => (e.1, XF.fin e.2), follows_num hf, (fun e he => by obtain ⟨e', he', rfl⟩ := List.mem_map.1 he; exact hno e' he'), ?_⟩)
    rcases g with g | ⟨sp, k, hk, ⟨e, he, hw⟩, hor, hside, hall⟩
    · exact .inl (fun e he => by obtain ⟨e', he', rfl⟩ := List.mem_map.1 he; exact g e' he')
    · exact .inr ⟨sp, k, hk, ⟨_, List.mem_map_of_mem he, hw⟩, hor, hside, (fun e he => by obtain ⟨e', he', rfl⟩ := List.mem_map.1 he; exact hall e' he')⟩

end reg

/-! ## The hypotheses are satisfiable -/

/-- Two rows on a line with different classes, in float64; the optimizer tries the vector 1. -/
noncomputable def lineCtx : HCtx ℝ (List ℝ) ℝ (List ℝ) :=
  ⟨realArith, clsTargetR clsLib64, twoHp false, listOpt false [⟨false, [.fin 1]⟩], 2, twoX, twoY, 1⟩

theorem line_normal (q : HProb ℝ (List ℝ) ℝ) (h1 : q.nDim = 1) (h2 : q.hypercube = false) :
    hNormal realArith q ⟨false, [.fin 1]⟩ = .ok [1] := by
  simp [hNormal, normalizeVec, nanToNum, realArith, h1, h2]

theorem line_follows {q : HProb ℝ (List ℝ) ℝ} {vs : List (RawVec ℝ × ℝ)} (h : Follows (lineCtx.opt.solve q) vs) :
    ∃ s, vs = [(⟨false, [.fin 1]⟩, s)] := by
  match vs, h with
  | [], h => have := (h 0).2 rfl; simp [lineCtx, listOpt] at this
  | [(r, s)], h =>
    have := (h 0).1 r s rfl
    simp [lineCtx, listOpt] at this
    exact ⟨s, by rw [this]⟩
  | a :: b :: l, h =>
    have := (h 1).1 b.1 b.2 rfl
    simp [lineCtx, listOpt] at this

theorem line_total : ∃ t, hFitRoot lineCtx (some [1, 1]) 2 = .ok t := by
  have hL : AccurateLib (1 / 2 ^ 50) 2 clsLib64 := (clsLib64_accurate (by norm_num)).mono (by norm_num)
  obtain ⟨hm, -⟩ := C114_million (n := 2) (nDim := 1) (pp := 9 / 10) (by norm_num) (by norm_num) (by norm_num)
    (by norm_num) (by norm_num) (by norm_num)
  cases h : hFitRoot lineCtx (some [1, 1]) 2 with
  | ok t => exact ⟨t, rfl⟩
  | error e =>
    exfalso
    obtain ⟨lv, R, -, -, vs, h1, h2⟩ := C121_classification_errors rfl hL hm realArith_euclidean Nat.one_pos Nat.two_pos h
    have hlen : vs.length ≤ 1 := by
      by_contra hlt
      have := h1 1 _ _ (List.getElem?_eq_getElem (by omega))
      simp [lineCtx, listOpt, show min 1 vs.length = 1 by omega] at this
    rcases h2 with ⟨-, h2⟩ | h2 | ⟨r, h2, h3⟩
    · have : vs.length = 2 := h2
      omega
    · simp only [lineCtx, listOpt] at h2
      split at h2 <;> cases h2
    · have hr : r = ⟨false, [.fin 1]⟩ := by
        simp only [lineCtx, listOpt] at h2
        split at h2
        · next r' hr' =>
          cases h2
          have := List.mem_of_getElem? hr'
          simpa using this
        · cases h2
      rw [hr] at h3
      cases (line_normal _ rfl rfl).symm.trans h3

theorem line_rows {t : HNode ℝ ℝ (List ℝ)} : hRowsAt twoX t 2 [] = [0, 1] := by
  cases t <;> simp [hRowsAt, descends, List.range_succ]

theorem line_order {o : List Nat} (h : IsSweep twoX [0, 1] [1] o) : o = [0, 1] := by
  obtain ⟨hp, hs⟩ := h
  have hl := hp.length_eq
  match o, hl with
  | [a, b], _ =>
    have hn := hp.nodup_iff.2 (by decide : [0, 1].Nodup)
    have ha : a ∈ [0, 1] := hp.subset (by simp)
    have hb : b ∈ [0, 1] := hp.subset (by simp)
    simp only [List.mem_cons, List.not_mem_nil, or_false] at ha hb
    rcases ha with rfl | rfl <;> rcases hb with rfl | rfl <;> simp [along, twoX] at hn hs ⊢

theorem line_considered (k : Nat) : Considered 0 twoX [0, 1] [1] k ↔ k = 1 := by
  constructor
  · rintro ⟨i, j, h1, h2, h3, -⟩
    have := (List.getElem?_eq_some_iff.1 h3).1
    simp at this
    omega
  · rintro rfl
    exact ⟨0, 1, le_rfl, rfl, rfl, by simp [along, twoX]⟩

theorem line_score : sweepScore realFns (dirichletMarginal realFns) (hProblem lineCtx [1, 1] 0 [0, 1]) [1] [0, 1] 1 =
    Real.log (9 / 40) := by
  obtain ⟨-, h2, h3⟩ := two_marginal
  have hc : consideredCount 0 twoX [0, 1] [1] = 1 := by
    simp [consideredCount, along, twoX]
  unfold sweepScore
  have e1 : (hProblem lineCtx [1, 1] 0 [0, 1]).prec = 0 := rfl
  show Real.log (((9 : ℝ) / 10) ^ (0 + 1) / ((consideredCount 0 twoX [0, 1] [1] : ℝ) * ((1 : Nat) : ℝ)))
    + dirichletMarginal realFns [1, 1] [twoY 0] + dirichletMarginal realFns [1, 1] [twoY 1] = _
  rw [hc, show [twoY 0] = [0] by simp [twoY], show [twoY 1] = [1] by simp [twoY], h2, h3,
    ← Real.log_mul (by norm_num) (by norm_num), ← Real.log_mul (by norm_num) (by norm_num)]
  norm_num

/-- C121 in float64: the fit returns a tree and its root is a split halfway between the two rows, whose stored scores are
within 1/10000 of the exact ones. -/
example : ∃ t, hFitRoot lineCtx (some [1, 1]) 2 = .ok t ∧ ∃ i sp l b c1 c2, t = .split i sp l b c1 c2 ∧
    |l - Real.log (1 / 60)| ≤ 1 / 10000 ∧ |b - Real.log (9 / 40)| ≤ 1 / 10000 ∧ sp.normal = [1] ∧ sp.origin = [1 / 2] := by
  have hL : AccurateLib (1 / 2 ^ 50) 2 clsLib64 := (clsLib64_accurate (by norm_num)).mono (by norm_num)
  obtain ⟨hm, hε⟩ := C114_million (n := 2) (nDim := 1) (pp := 9 / 10) (by norm_num) (by norm_num) (by norm_num)
    (by norm_num) (by norm_num) (by norm_num)
  obtain ⟨t, h⟩ := line_total
  have s1 := (two_scores false).1
  have gap := two_gap
  refine ⟨t, h, ?_⟩
  cases t with
  | leaf i =>
    exfalso
    have g := C121_classification_leaf rfl hL hm realArith_euclidean Nat.one_pos Nat.two_pos rfl h [] i rfl
    have hrows : hRowsAt lineCtx.X (.leaf i : HNode ℝ ℝ (List ℝ)) 2 [] = [0, 1] := line_rows
    simp only [hrows, List.length_nil] at g
    rcases g with g | g | ⟨order, ho, vs, hf, -, g⟩
    · simp at g
    · have := g 0 (by simp) 1 (by simp)
      simp [lineCtx, twoY] at this
    obtain ⟨s, rfl⟩ := line_follows hf
    have hw := line_normal (hProblem lineCtx [1, 1] 0 [0, 1]) rfl rfl
    have hord := line_order (ho [1])
    rcases g with g | ⟨sp, k, hk, ⟨e, he, hsp⟩, ⟨j, m, hj, hm', horg⟩, hside, -⟩
    · have := g _ (List.mem_singleton_self _) [1] hw 1 ((line_considered 1).2 rfl)
      rw [hord, line_score] at this
      have e : stayScore realFns (dirichletMarginal realFns) lineCtx.hp lineCtx.y [1, 1] 0 [0, 1] = Real.log (1 / 60) := s1
      have hε' : scoreError (1 / 2 ^ 50) 1 1000002 lineCtx.hp.partitionPrior ([1, 1] : List ℝ).length 2 lineCtx.nDim ≤ 1 / 10000 := hε
      rw [e] at this
      linarith
    · rw [List.mem_singleton] at he
      subst he
      have hnorm : sp.normal = [1] := Except.ok.inj (hsp.symm.trans hw)
      rw [hnorm] at hk hj hm'
      obtain rfl := (line_considered k).1 hk
      rw [hord] at hj hm'
      cases hj
      cases hm'
      rw [horg, hnorm] at hside
      rcases hside with g | g
      · have := g 1 (by simp)
        norm_num [planeSide, lineCtx, twoX] at this
      · have := g 0 (by simp)
        norm_num [planeSide, lineCtx, twoX] at this
  | split i sp l b c1 c2 =>
    refine ⟨i, sp, l, b, c1, c2, rfl, ?_⟩
    have g := C121_classification_split rfl hL hm realArith_euclidean Nat.one_pos Nat.two_pos h [] i sp l b c1 c2 rfl
    have hrows : hRowsAt lineCtx.X (.split i sp l b c1 c2 : HNode ℝ ℝ (List ℝ)) 2 [] = [0, 1] := line_rows
    simp only [hrows, List.length_nil] at g
    obtain ⟨h1, -, -, -, order, ho, k, hk, hb, -, ⟨j, m, hj, hm', horg⟩, vs, hf, ⟨e, he, hsp⟩, -⟩ := g
    obtain ⟨s, rfl⟩ := line_follows hf
    have hw := line_normal (hProblem lineCtx [1, 1] 0 [0, 1]) rfl rfl
    rw [List.mem_singleton] at he
    subst he
    have hnorm : sp.normal = [1] := Except.ok.inj (hsp.symm.trans hw)
    rw [hnorm] at hk hj hm' hb
    obtain rfl := (line_considered k).1 hk
    rw [line_order (ho [1])] at hj hm' hb
    rw [line_score] at hb
    cases hj
    cases hm'
    have e : stayScore realFns (dirichletMarginal realFns) lineCtx.hp lineCtx.y [1, 1] 0 [0, 1] = Real.log (1 / 60) := s1
    have hε' : scoreError (1 / 2 ^ 50) 1 1000002 lineCtx.hp.partitionPrior ([1, 1] : List ℝ).length 2 lineCtx.nDim ≤ 1 / 10000 := hε
    rw [e] at h1
    refine ⟨h1.trans hε', hb.trans hε', hnorm, ?_⟩
    rw [horg]
    norm_num [lineCtx, twoX]

/-- Two rows on a line with different targets, in float64. -/
noncomputable def lineRegCtx : HCtx ℝ (NG ℝ) (XF ℝ) ℝ :=
  ⟨realArith, regTargetR lib64, twoHp false, listOpt false [⟨false, [.fin 1]⟩], 2, twoX, twoT, 1⟩

/-- The hypotheses of C121 for regression. -/
example : hFitRoot lineRegCtx (some unitPrior) 2 = (hFitRoot (numCtx lineRegCtx) (some unitPrior) 2).map finTree := by
  have hL : AccurateReg (1 / 2 ^ 50) 2 lib64 := (lib64_accurate (by norm_num)).mono (by norm_num)
  obtain ⟨hm, hε⟩ := C115_thousand (n := 2) (nDim := 1) (pp := 9 / 10) (by norm_num) (by norm_num) (by norm_num)
    (by norm_num) (by norm_num) (by norm_num)
  have hY : ∀ i < 2, |twoT i| ≤ 1 := by
    intro i hi
    interval_cases i <;> norm_num [twoT]
  exact C121_regression_finite (c := lineRegCtx) rfl hL hm realArith_euclidean Nat.one_pos hY Nat.two_pos

end BT
