import Verif.Lemmas.HyperNoise
import Verif.Lemmas.FinScores

/-!
# Hyperplane fits whose scores may be NaN or infinite in principle but are numbers
-/

set_option linter.unusedSectionVars false

namespace BT
open Spec

section
variable {K P O : Type} [Field K] [LinearOrder K] [IsStrictOrderedRing K]

/-- The state with a score that might be NaN or infinite. -/
def numState (st : HState K K) : HState (XF K) K := ⟨st.evals, .fin st.bestScore, st.bestDist, st.best⟩

/-- The optimization function with a score that might be NaN or infinite. -/
def xfProb (q : HProb K P K) : HProb K P (XF K) :=
  { X := q.X, y := q.y, nDim := q.nDim, rows := q.rows, prior := q.prior, partitionPrior := q.partitionPrior,
    level := q.level, noSplit := .fin q.noSplit, hypercube := q.hypercube, prec := q.prec }

/-- The same strategy, given the values as numbers. -/
def numStrategy (strat : Strategy K (XF K)) : Strategy K K :=
  fun hist => strat (hist.map fun e => (e.1, .fin e.2))

/-- The same optimizer, given the values as numbers. -/
def numOpt (opt : Optimizer K P (XF K)) : Optimizer K P K where
  hypercube := opt.hypercube
  solve q := numStrategy (opt.solve (xfProb q))

/-- The same fit with scores that are numbers. -/
def numCtx (c : HCtx K P (XF K) O) : HCtx K P K O where
  A := c.A
  T := c.T.num
  hp := c.hp
  opt := numOpt c.opt
  budget := c.budget
  X := c.X
  y := c.y
  nDim := c.nDim

theorem XF.fin_le_fin {a b : K} : (XF.fin a ≤ XF.fin b) ↔ a ≤ b := by
  show XF.ge (.fin b) (.fin a) = true ↔ _
  simp [XF.ge]

variable {A : HArith K} {T : Target K P (XF K) O} {q : HProb K P K}

theorem hCompute_fin (h : ∀ w, w.length = q.nDim →
      ∀ s ∈ T.logSplit q.partitionPrior q.level ((A.argsort (hProj q w)).map fun j => q.y (q.rows.getD j 0)) q.prior
        q.nDim (hSplitIndices q w), ∃ v, s = .fin v) (st : HState K K) (r : RawVec K) :
    hCompute A T (xfProb q) (numState st) r =
      (hCompute A T.num q st r).map fun x => (numState x.1, .fin x.2) := by
  have hn : hNormal A (xfProb q) r = hNormal A q r := rfl
  unfold hCompute
  simp only [hn]
  cases hw : hNormal A q r with
  | error e => rfl
  | ok w =>
    have h' := h w (hNormal_length hw)
    have e1 : hProj (xfProb q) w = hProj q w := rfl
    have e2 : hSplitIndices (xfProb q) w = hSplitIndices q w := rfl
    have e3 : T.num.logSplit q.partitionPrior q.level ((A.argsort (hProj q w)).map fun j => q.y (q.rows.getD j 0))
        q.prior q.nDim (hSplitIndices q w) =
        (T.logSplit q.partitionPrior q.level ((A.argsort (hProj q w)).map fun j => q.y (q.rows.getD j 0))
        q.prior q.nDim (hSplitIndices q w)).map XF.num := rfl
    have e4 : T.logSplit (xfProb q).partitionPrior (xfProb q).level ((A.argsort (hProj q w)).map fun j => (xfProb q).y ((xfProb q).rows.getD j 0))
        (xfProb q).prior (xfProb q).nDim (hSplitIndices q w) =
        ((T.logSplit q.partitionPrior q.level ((A.argsort (hProj q w)).map fun j => q.y (q.rows.getD j 0))
        q.prior q.nDim (hSplitIndices q w)).map XF.num).map XF.fin := (map_num h').symm
    simp only [e1, e2, e3, e4]
    generalize (T.logSplit q.partitionPrior q.level ((A.argsort (hProj q w)).map fun j => q.y (q.rows.getD j 0))
        q.prior q.nDim (hSplitIndices q w)).map XF.num = l
    rw [argmax_fin, List.getElem?_map]
    split
    · rfl
    · cases l[argmax l]? with
      | none => rfl
      | some v =>
        cases (hSplitIndices q w)[argmax l]? with
        | none => rfl
        | some k =>
          simp only [Option.map_some, numState, XF.fin_le_fin, XF.fin_lt_fin]
          split
          · cases (A.argsort (hProj q w))[k - 1]? with
            | none => rfl
            | some a =>
              cases (A.argsort (hProj q w))[k]? with
              | none => rfl
              | some b =>
                have e5 : hOrigin (xfProb q) a b = hOrigin q a b := rfl
                have e6 : hDist (xfProb q) ⟨w, hOrigin q a b⟩ = hDist q ⟨w, hOrigin q a b⟩ := rfl
                simp only [e5, e6]
                split_ifs <;> rfl
          · rfl

theorem hSolve_fin (h : ∀ w, w.length = q.nDim →
      ∀ s ∈ T.logSplit q.partitionPrior q.level ((A.argsort (hProj q w)).map fun j => q.y (q.rows.getD j 0)) q.prior
        q.nDim (hSplitIndices q w), ∃ v, s = .fin v) (strat : Strategy K (XF K)) (b : Nat)
    (hist : List (RawVec K × K)) (st : HState K K) :
    hSolve A T (xfProb q) strat b (hist.map fun e => (e.1, .fin e.2)) (numState st) =
      (hSolve A T.num q (numStrategy strat) b hist st).map numState := by
  induction b generalizing hist st with
  | zero => rfl
  | succ b ih =>
    unfold hSolve
    have e : numStrategy strat hist = strat (hist.map fun e => (e.1, .fin e.2)) := rfl
    rw [e]
    cases strat (hist.map fun e => (e.1, .fin e.2)) with
    | stop => rfl
    | raise e => rfl
    | eval r =>
      simp only
      rw [hCompute_fin h]
      cases hCompute A T.num q st r with
      | error e => rfl
      | ok x => exact ih ((r, x.2) :: hist) x.1

variable {c : HCtx K P (XF K) O} {prior : P} {n : Nat}

theorem hProblem_fin (hf : Finite c.T c.hp c.y n c.nDim prior) {lv : Nat} {R : List Nat} (hR : RowList n R) (hlv : lv < n) :
    hProblem c prior lv R = xfProb (hProblem (numCtx c) prior lv R) := by
  obtain ⟨s, hs0⟩ := hf.stay lv R hlv hR
  unfold hProblem xfProb
  congr 1
  show _ = XF.fin ((c.T.logNoSplit c.hp.partitionPrior lv (R.map c.y) prior).num)
  rw [hs0]
  rfl

theorem hFit_fin (hf : Finite c.T c.hp c.y n c.nDim prior) (hd0 : ∀ y, c.T.posterior y prior 0 = prior)
    (hs : IsArgsort (exactOps K).le (fun _ => True) c.A.argsort) (fuel lv : Nat) (R : List Nat) (hR : RowList n R)
    (hlv : lv + R.length ≤ n) :
    hFit c fuel (some prior) lv R = (hFit (numCtx c) fuel (some prior) lv R).map finTree := by
  induction fuel generalizing lv R with
  | zero => rfl
  | succ fuel ih =>
    have hRpos := List.length_pos_iff.2 hR.1
    have hq := hProblem_fin hf hR (show lv < n by omega)
    have hgp : (numCtx c).T.getPrior (some prior) R.length (numCtx c).nDim = prior := hf.given _
    have hd0' : ∀ y, (numCtx c).T.posterior y prior 0 = prior := hd0
    have hsol : hSolve c.A c.T (hProblem c prior lv R) (c.opt.solve (hProblem c prior lv R)) c.budget []
        (hInit (hProblem c prior lv R)) = (hSolve (numCtx c).A (numCtx c).T (hProblem (numCtx c) prior lv R)
          ((numCtx c).opt.solve (hProblem (numCtx c) prior lv R)) (numCtx c).budget []
          (hInit (hProblem (numCtx c) prior lv R))).map numState := by
      rw [hq]
      refine hSolve_fin ?_ _ c.budget [] (hInit (hProblem (numCtx c) prior lv R))
      intro w hw
      have hp := argsort_perm_rows (q := hProblem (numCtx c) prior lv R) hs w
      have hL : ((c.A.argsort (hProj (hProblem (numCtx c) prior lv R) w)).map fun j => R.getD j 0).Perm R := by
        rw [hProj_eq _ w hw]
        exact hp
      have := hf.split lv _ (hSplitIndices (hProblem (numCtx c) prior lv R) w) (by omega) (hR.of_perm hL) (by
        rw [hSplitIndices_eq _ w hw, hL.length_eq]
        exact jumps_range (q := hProblem (numCtx c) prior lv R)) (by
        rw [hSplitIndices_eq _ w hw]
        exact jumps_sorted (q := hProblem (numCtx c) prior lv R))
      rw [List.map_map] at this
      exact this
    rw [hFit, hFit]
    simp only [hf.given, hgp, hd0, hd0', hsol]
    cases hSolve (numCtx c).A (numCtx c).T (hProblem (numCtx c) prior lv R)
          ((numCtx c).opt.solve (hProblem (numCtx c) prior lv R)) (numCtx c).budget []
          (hInit (hProblem (numCtx c) prior lv R)) with
    | error e => rfl
    | ok st =>
      have e0 : (Except.map numState (Except.ok st : Except Err (HState K K))) = .ok (numState st) := rfl
      simp only [e0]
      have e1 : (numState st).best = st.best := rfl
      rw [e1]
      cases st.best with
      | none => rfl
      | some sp =>
        have e2 : (numCtx c).X = c.X := rfl
        have e3 : (numCtx c).y = c.y := rfl
        simp only [e2, e3]
        have hlenR := above_below_length (c := numCtx c) R sp
        rw [← below_eq, ← above_eq, e2] at hlenR
        generalize hR1 : (R.filter fun i => hyperRouter.goes1 sp (c.X i)) = R1 at hlenR
        generalize hR2 : (R.filter fun i => hyperRouter.goes2 sp (c.X i)) = R2 at hlenR
        by_cases hl : R1.length > 0 ∧ R2.length > 0
        · simp only [if_pos hl]
          have rl : ∀ R' : List Nat, R'.Sublist R → R'.length > 0 → RowList n R' := fun R' hsub hpos =>
            ⟨List.length_pos_iff.1 hpos, hsub.nodup hR.2.1, fun i hi => hR.2.2 i (hsub.subset hi)⟩
          have i1 := ih (lv + 1) R1 (rl R1 (hR1 ▸ List.filter_sublist) hl.1) (by omega)
          have i2 := ih (lv + 1) R2 (rl R2 (hR2 ▸ List.filter_sublist) hl.2) (by omega)
          rw [i1, i2, hq]
          have e7 : hSolve c.A c.T = hSolve c.A c.T := rfl
          split_ifs <;>
            generalize hFit (numCtx c) fuel (some prior) (lv + 1) R1 = z <;>
            generalize hFit (numCtx c) fuel (some prior) (lv + 1) R2 = z' <;>
            cases z <;> cases z' <;> rfl
        · simp only [if_neg hl]
          rfl

theorem hFitRoot_fin [DecidableEq O] (hf : Finite c.T c.hp c.y n c.nDim prior)
    (hd0 : ∀ y, c.T.posterior y prior 0 = prior)
    (hs : IsArgsort (exactOps K).le (fun _ => True) c.A.argsort) (hn : 0 < n) :
    hFitRoot c (some prior) n = (hFitRoot (numCtx c) (some prior) n).map finTree := by
  unfold hFitRoot
  rw [hFit_fin hf hd0 hs (n + 1) 0 _ ⟨by simp; omega, List.nodup_range, fun _ hi => List.mem_range.1 hi⟩ (by simp)]
  cases hFit (numCtx c) (n + 1) (some prior) 0 (List.range n) with
  | error e => rfl
  | ok t =>
    show (if c.hp.prune then prune c.T.predictLeaf (finTree t) else .ok (finTree t)) =
      (if c.hp.prune then prune c.T.predictLeaf t else .ok t).map finTree
    split
    · rw [prune_eq, prune_eq, merge_fin]; rfl
    · rfl

/-- A run that sees numbers is a run that sees values which happen to be numbers. -/
theorem follows_num {strat : Strategy K (XF K)} {vs : List (RawVec K × K)} (h : Follows (numStrategy strat) vs) :
    Follows strat (vs.map fun e => (e.1, .fin e.2)) := by
  intro m
  obtain ⟨h1, h2⟩ := h m
  refine ⟨fun r s hs => ?_, fun hm => ?_⟩
  · rw [List.getElem?_map, Option.map_eq_some_iff] at hs
    obtain ⟨e, he, h3⟩ := hs
    cases h3
    rw [← List.map_take, ← List.map_reverse]
    exact h1 e.1 e.2 he
  · rw [← List.map_reverse]
    exact h2 (by simpa using hm)

end
end BT
