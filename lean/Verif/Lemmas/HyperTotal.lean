import Verif.Lemmas.Prog
import Verif.Lemmas.Prune

/-!
# Termination of a whole fit from termination of every search
-/

set_option linter.unusedSectionVars false

namespace BT
open BT.Spec

section
variable {K P S O : Type} [Field K] [LinearOrder K] [IsStrictOrderedRing K] [LinearOrder S] [Neg S]

/-- The same fit with another optimizer and interaction budget. -/
def withOpt (c : HCtx K P S O) (opt : Optimizer K P S) (b : Nat) : HCtx K P S O :=
  { c with opt := opt, budget := b }

theorem hFit_family (c : HCtx K P S O) (opt : Nat → Optimizer K P S) (cube : Bool)
    (hcube : ∀ b, (opt b).hypercube = cube) (R0 : List Nat)
    (hsolve : ∀ prior lv R, R.Sublist R0 → ∃ B st, ∀ b, B ≤ b →
      hSolve c.A c.T (hProblem (withOpt c (opt 0) 0) prior lv R)
        ((opt b).solve (hProblem (withOpt c (opt 0) 0) prior lv R)) b []
        (hInit (hProblem (withOpt c (opt 0) 0) prior lv R)) = .ok st)
    (fuel : Nat) (pa : Option P) (lv : Nat) (R : List Nat) (hR : R.Sublist R0) (hfuel : R.length < fuel) :
    ∃ B t, ∀ b, B ≤ b → hFit (withOpt c (opt b) b) fuel pa lv R = .ok t := by
  induction fuel generalizing pa lv R with
  | zero => omega
  | succ fuel ih =>
    have hprob : ∀ b p l r, hProblem (withOpt c (opt b) b) p l r = hProblem (withOpt c (opt 0) 0) p l r := by
      intro b p l r
      unfold hProblem withOpt
      simp only [hcube]
    obtain ⟨B0, st, h0⟩ := hsolve (c.T.getPrior pa R.length c.nDim) lv R hR
    have hstep : ∀ b, B0 ≤ b → hSolve (withOpt c (opt b) b).A (withOpt c (opt b) b).T
        (hProblem (withOpt c (opt b) b)
          ((withOpt c (opt b) b).T.getPrior pa R.length (withOpt c (opt b) b).nDim) lv R)
        ((withOpt c (opt b) b).opt.solve (hProblem (withOpt c (opt b) b)
          ((withOpt c (opt b) b).T.getPrior pa R.length (withOpt c (opt b) b).nDim) lv R))
        (withOpt c (opt b) b).budget [] (hInit (hProblem (withOpt c (opt b) b)
          ((withOpt c (opt b) b).T.getPrior pa R.length (withOpt c (opt b) b).nDim) lv R)) = .ok st := by
      intro b hb
      rw [hprob]
      exact h0 b hb
    have hunfold : ∀ b, B0 ≤ b → hFit (withOpt c (opt b) b) (fuel + 1) pa lv R =
        (match st.best with
        | none => .ok (.leaf (hFitInfo c pa lv R))
        | some sp =>
          if (below c R sp).length > 0 ∧ (above c R sp).length > 0 then
            let prior := c.T.getPrior pa R.length c.nDim
            let p1 := c.T.posterior ((below c R sp).map c.y) prior 0
            let p2 := c.T.posterior ((above c R sp).map c.y) prior 0
            let child1 : Except Err (HNode S K P) :=
              if (below c R sp).length > 1 ∧ (distinct ((below c R sp).map c.y)).length > 1 then
                hFit (withOpt c (opt b) b) fuel (some p1) (lv + 1) (below c R sp)
              else .ok (.leaf (hDirectInfo c prior p1 (lv + 1) (below c R sp)))
            let child2 : Except Err (HNode S K P) :=
              if (above c R sp).length > 1 ∧ (distinct ((above c R sp).map c.y)).length > 1 then
                hFit (withOpt c (opt b) b) fuel (some p2) (lv + 1) (above c R sp)
              else .ok (.leaf (hDirectInfo c prior p2 (lv + 1) (above c R sp)))
            match child1 with
            | .error e => .error e
            | .ok c1 =>
              match child2 with
              | .error e => .error e
              | .ok c2 => .ok (.split (hFitInfo c pa lv R) sp
                  (hProblem (withOpt c (opt 0) 0) prior lv R).noSplit st.bestScore c1 c2)
          else .ok (.leaf (hFitInfo c pa lv R))) := by
      intro b hb
      rw [hFit]
      simp only [hstep b hb]
      cases st.best with
      | none => rfl
      | some sp =>
        have e1 : (R.filter fun i => hyperRouter.goes1 sp ((withOpt c (opt b) b).X i)) = below c R sp :=
          below_eq (c := c) R sp
        have e2 : (R.filter fun i => hyperRouter.goes2 sp ((withOpt c (opt b) b).X i)) = above c R sp :=
          above_eq (c := c) R sp
        simp only [e1, e2]
        by_cases hl : (below c R sp).length > 0 ∧ (above c R sp).length > 0
        · simp only [if_pos hl]
          rw [hprob]
          rfl
        · simp only [if_neg hl]
          rfl
    cases hbest : st.best with
    | none =>
      refine ⟨B0, .leaf (hFitInfo c pa lv R), fun b hb => ?_⟩
      rw [hunfold b hb, hbest]
    | some sp =>
      have hlenR := above_below_length (c := c) R sp
      by_cases hl : (below c R sp).length > 0 ∧ (above c R sp).length > 0
      · have hch : ∀ R' pr, R'.Sublist R → R'.length < fuel → ∀ info : Info K P, ∃ B t, ∀ b, B ≤ b →
            (if R'.length > 1 ∧ (distinct (R'.map c.y)).length > 1 then
              hFit (withOpt c (opt b) b) fuel pr (lv + 1) R' else Except.ok (.leaf info)) = .ok t := by
          intro R' pr hsub hlen info
          by_cases hd : R'.length > 1 ∧ (distinct (R'.map c.y)).length > 1
          · obtain ⟨B, t, h⟩ := ih pr (lv + 1) R' (hsub.trans hR) hlen
            exact ⟨B, t, fun b hb => by rw [if_pos hd]; exact h b hb⟩
          · exact ⟨0, _, fun b _ => by rw [if_neg hd]⟩
        obtain ⟨B1, t1, h1⟩ := hch (below c R sp)
          (some (c.T.posterior ((below c R sp).map c.y) (c.T.getPrior pa R.length c.nDim) 0))
          List.filter_sublist (by omega)
          (hDirectInfo c (c.T.getPrior pa R.length c.nDim)
            (c.T.posterior ((below c R sp).map c.y) (c.T.getPrior pa R.length c.nDim) 0) (lv + 1) (below c R sp))
        obtain ⟨B2, t2, h2⟩ := hch (above c R sp)
          (some (c.T.posterior ((above c R sp).map c.y) (c.T.getPrior pa R.length c.nDim) 0))
          List.filter_sublist (by omega)
          (hDirectInfo c (c.T.getPrior pa R.length c.nDim)
            (c.T.posterior ((above c R sp).map c.y) (c.T.getPrior pa R.length c.nDim) 0) (lv + 1) (above c R sp))
        refine ⟨max B0 (max B1 B2), .split (hFitInfo c pa lv R) sp
          (hProblem (withOpt c (opt 0) 0) (c.T.getPrior pa R.length c.nDim) lv R).noSplit st.bestScore t1 t2,
          fun b hb => ?_⟩
        rw [hunfold b (by omega), hbest]
        simp only [if_pos hl, h1 b (by omega), h2 b (by omega)]
      · refine ⟨B0, .leaf (hFitInfo c pa lv R), fun b hb => ?_⟩
        rw [hunfold b hb, hbest]
        simp only [if_neg hl]

/-- If every search ends, `fit` ends: from some fuel and budget on the result is the same tree. -/
theorem hFitRoot_family (c : HCtx K P S O) (opt : Nat → Optimizer K P S) (cube : Bool)
    (hcube : ∀ b, (opt b).hypercube = cube) (prior : Option P) (n : Nat)
    (hsolve : ∀ prior lv R, R.Sublist (List.range n) → ∃ B st, ∀ b, B ≤ b →
      hSolve c.A c.T (hProblem (withOpt c (opt 0) 0) prior lv R)
        ((opt b).solve (hProblem (withOpt c (opt 0) 0) prior lv R)) b []
        (hInit (hProblem (withOpt c (opt 0) 0) prior lv R)) = .ok st) :
    ∃ B t, ∀ b, B ≤ b → hFitRoot (withOpt c (opt b) b) prior n = .ok t := by
  obtain ⟨B, t, h⟩ := hFit_family c opt cube hcube (List.range n) hsolve (n + 1) prior 0 (List.range n)
    (List.Sublist.refl _) (by simp)
  cases hp : c.hp.prune with
  | false =>
    refine ⟨B, t, fun b hb => ?_⟩
    unfold hFitRoot
    rw [h b hb]
    have : (withOpt c (opt b) b).hp.prune = false := hp
    simp only [this]
    rfl
  | true =>
    refine ⟨B, Spec.merge c.T.predictLeaf t, fun b hb => ?_⟩
    unfold hFitRoot
    rw [h b hb]
    have : (withOpt c (opt b) b).hp.prune = true := hp
    simp only [this]
    exact prune_eq c.T.predictLeaf t

end

end BT
