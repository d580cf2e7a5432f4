import Verif.Lemmas.Trim
import Verif.Lemmas.HyperMove

/-!
# Hyperplane searches of two training situations, one of which splits more readily
-/

namespace BT
open Spec

set_option linter.unusedSectionVars false

section
variable {K P S O : Type} [Field K] [LinearOrder K] [IsStrictOrderedRing K]

/-- The same search with all scores of cuts mapped by `f` and a lower score of staying. -/
structure ProbTrim (T T' : Target K P S O) [LE S] (q q' : HProb K P S) (f : S → S) : Prop where
  nDim : q'.nDim = q.nDim
  rows : q'.rows = q.rows
  hypercube : q'.hypercube = q.hypercube
  X : q'.X = q.X
  prec : q'.prec = q.prec
  noSplit : q'.noSplit ≤ q.noSplit
  scores : ∀ idx si : List Nat, idx.Perm (List.range q.rows.length) → (∀ k ∈ si, 1 ≤ k ∧ k < q.rows.length) →
    si.Pairwise (· < ·) →
    T'.logSplit q'.partitionPrior q'.level (idx.map fun j => q'.y (q'.rows.getD j 0)) q'.prior q'.nDim si =
      (T.logSplit q.partitionPrior q.level (idx.map fun j => q.y (q.rows.getD j 0)) q.prior q.nDim si).map f

/-- States of the two searches: what the first one has found, the second one has found as well. -/
def TrimSt [LT S] (f : S → S) (base : S) (st st' : HState S K) : Prop :=
  match st.best with
  | some sp => st'.best = some sp ∧ st'.bestScore = f st.bestScore ∧ st'.bestDist = st.bestDist
  | none => st.bestScore = base ∧ st.bestDist = 0 ∧
      (st'.bestScore < f base ∨ st'.bestScore = f base ∧ st'.bestDist = 0)

theorem hDist_nonneg (q : HProb K P S) (sp : HSplit K) : 0 ≤ hDist q sp := by
  unfold hDist
  refine List.sum_nonneg fun v hv => ?_
  obtain ⟨p, -, rfl⟩ := List.mem_map.1 hv
  exact abs_nonneg _

variable [LinearOrder S] [Neg S] {T T' : Target K P S O} {A : HArith K} {q q' : HProb K P S} {f : S → S}

theorem hCompute_trim (hf : StrictMono f) (hq : ProbTrim T T' q q' f)
    (hs : IsArgsort (exactOps K).le (fun _ => True) A.argsort) {r : RawVec K} {st st' st1 st1' : HState S K} {v v' : S}
    (hst : TrimSt f q.noSplit st st') (h : hCompute A T q st r = .ok (st1, v)) (h' : hCompute A T' q' st' r = .ok (st1', v')) :
    TrimSt f q.noSplit st1 st1' ∧ ((∃ s, v = -s ∧ v' = -f s) ∨
      v = -q.noSplit ∧ v' = -q'.noSplit ∧ ∃ w, hNormal A q r = .ok w ∧ hSplitIndices q w = []) := by
  unfold hCompute at h h'
  have hn : hNormal A q' r = hNormal A q r := by unfold hNormal; rw [hq.nDim, hq.hypercube]
  rw [hn] at h'
  cases hw : hNormal A q r with
  | error e => simp only [hw] at h; cases h
  | ok w =>
    have hproj : hProj q' w = hProj q w := by unfold hProj; rw [hq.rows, hq.nDim, hq.X]
    have hsi : hSplitIndices q' w = hSplitIndices q w := by
      unfold hSplitIndices
      rw [hproj, hq.prec]
    have hor : ∀ a b, hOrigin q' a b = hOrigin q a b := fun a b => by
      unfold hOrigin; rw [hq.rows, hq.nDim, hq.X]
    have hdi : ∀ sp, sp.normal = w → hDist q' sp = hDist q sp := fun sp e => by
      unfold hDist; rw [e, hproj]
    have hlp : (hProj q w).length = q.rows.length := by simp [hProj]
    have hsc := hq.scores (A.argsort (hProj q w)) (hSplitIndices q w)
      (by rw [← hlp]; exact hs.perm _ fun _ _ => trivial)
      (fun k hk => by rw [← hlp]; exact splitIndices_range hk) (splitIndices_sorted _ _ _)
    simp only [hw, hsi, hproj, hsc, argmax_map hf, List.getElem?_map, hor] at h h'
    by_cases h0 : (hSplitIndices q w).length = 0
    · rw [if_pos h0, Except.ok.injEq, Prod.mk.injEq] at h h'
      obtain ⟨rfl, rfl⟩ := h
      obtain ⟨rfl, rfl⟩ := h'
      exact ⟨hst, .inr ⟨rfl, rfl, w, rfl, List.length_eq_zero_iff.1 h0⟩⟩
    rw [if_neg h0] at h h'
    have hmem : ∀ k ∈ hSplitIndices q w, ∃ a b, (A.argsort (hProj q w))[k - 1]? = some a ∧
        (A.argsort (hProj q w))[k]? = some b := by
      intro k hk
      obtain ⟨hk1, hk2⟩ := splitIndices_range hk
      have hl : (A.argsort (hProj q w)).length = (hProj q w).length := by
        simpa using (hs.perm (hProj q w) fun _ _ => trivial).length_eq
      exact ⟨_, _, List.getElem?_eq_getElem (by rw [hl]; omega), List.getElem?_eq_getElem (by rw [hl]; omega)⟩
    revert h h'
    generalize T.logSplit q.partitionPrior q.level _ q.prior q.nDim (hSplitIndices q w) = scores
    cases scores[argmax scores]? with
    | none => intro h; cases h
    | some s =>
      cases hk : (hSplitIndices q w)[argmax scores]? with
      | none => intro h; cases h
      | some k =>
        simp only [Option.map_some]
        intro h h'
        obtain ⟨a, b, ea, eb⟩ := hmem k (List.mem_of_getElem? hk)
        simp only [ea, eb, hdi ⟨w, hOrigin q a b⟩ rfl] at h h'
        have hd0 := hDist_nonneg q ⟨w, hOrigin q a b⟩
        generalize hDist q ⟨w, hOrigin q a b⟩ = dist at h h' hd0
        have hval : ∀ {x y : HState S K} {z z' : S} {A B : Prop} [Decidable A] [Decidable B] {u : HState S K},
            (if A then if B then (.ok (x, z') : Except Err (HState S K × S)) else .ok (y, z') else .ok (y, z')) = .ok (u, z) →
              z = z' := by
          intro x y z z' A B _ _ u h
          split at h
          · split at h <;> (rw [Except.ok.injEq, Prod.mk.injEq] at h; exact h.2.symm)
          · rw [Except.ok.injEq, Prod.mk.injEq] at h; exact h.2.symm
        refine ⟨?_, .inl ⟨s, hval h, hval h'⟩⟩
        unfold TrimSt at hst ⊢
        cases hb : st.best with
        | some sp =>
          rw [hb] at hst
          obtain ⟨e1, e2, e3⟩ := hst
          simp only [e2, e3, hf.le_iff_le, hf.lt_iff_lt] at h'
          by_cases hle : st.bestScore ≤ s
          · rw [if_pos hle] at h h'
            by_cases hacc : (if st.bestScore < s then true else decide (st.bestDist < dist)) = true
            · rw [if_pos hacc, Except.ok.injEq, Prod.mk.injEq] at h h'
              obtain ⟨rfl, rfl⟩ := h
              obtain ⟨rfl, rfl⟩ := h'
              exact ⟨rfl, rfl, rfl⟩
            · rw [if_neg hacc, Except.ok.injEq, Prod.mk.injEq] at h h'
              obtain ⟨rfl, rfl⟩ := h
              obtain ⟨rfl, rfl⟩ := h'
              simp only [hb]
              exact ⟨e1, trivial, trivial⟩
          · rw [if_neg hle, Except.ok.injEq, Prod.mk.injEq] at h h'
            obtain ⟨rfl, rfl⟩ := h
            obtain ⟨rfl, rfl⟩ := h'
            simp only [hb]
            exact ⟨e1, trivial, trivial⟩
        | none =>
          rw [hb] at hst
          obtain ⟨e1, e2, e3⟩ := hst
          by_cases hacc : q.noSplit < s ∨ q.noSplit = s ∧ 0 < dist
          · have hle : q.noSplit ≤ s := hacc.elim le_of_lt fun h => h.1.le
            have hacc1 : (if st.bestScore < s then true else decide (st.bestDist < dist)) = true := by
              rw [e1, e2]
              rcases hacc with h1 | ⟨-, h1⟩
              · rw [if_pos h1]
              · split
                · rfl
                · exact decide_eq_true h1
            rw [if_pos (by rw [e1]; exact hle), if_pos hacc1, Except.ok.injEq, Prod.mk.injEq] at h
            obtain ⟨rfl, -⟩ := h
            have hle' : st'.bestScore ≤ f s :=
              (e3.elim le_of_lt fun h => h.1.le).trans (hf.monotone hle)
            have hacc2 : (if st'.bestScore < f s then true else decide (st'.bestDist < dist)) = true := by
              rcases e3 with h1 | ⟨h1, h2⟩
              · rw [if_pos (lt_of_lt_of_le h1 (hf.monotone hle))]
              · rcases hacc with h3 | ⟨h3, h4⟩
                · rw [if_pos (by rw [h1]; exact hf h3)]
                · split
                  · rfl
                  · rw [h2]; exact decide_eq_true h4
            rw [if_pos hle', if_pos hacc2, Except.ok.injEq, Prod.mk.injEq] at h'
            obtain ⟨rfl, -⟩ := h'
            exact ⟨rfl, rfl, rfl⟩
          · rw [not_or] at hacc
            have hls : s ≤ q.noSplit := not_lt.1 hacc.1
            have hst1 : st1 = { st with evals := st.evals + 1 } := by
              by_cases hle : st.bestScore ≤ s
              · have : ¬ (if st.bestScore < s then true else decide (st.bestDist < dist)) = true := by
                  rw [e1, e2, if_neg hacc.1, decide_eq_true_iff]
                  exact fun h => hacc.2 ⟨le_antisymm (e1 ▸ hle) hls, h⟩
                rw [if_pos hle, if_neg this, Except.ok.injEq, Prod.mk.injEq] at h
                exact h.1.symm
              · rw [if_neg hle, Except.ok.injEq, Prod.mk.injEq] at h
                exact h.1.symm
            subst hst1
            simp only [hb]
            refine ⟨e1, e2, ?_⟩
            by_cases hle' : st'.bestScore ≤ f s
            · rw [if_pos hle'] at h'
              by_cases hacc2 : (if st'.bestScore < f s then true else decide (st'.bestDist < dist)) = true
              · rw [if_pos hacc2, Except.ok.injEq, Prod.mk.injEq] at h'
                obtain ⟨rfl, -⟩ := h'
                rcases lt_or_eq_of_le hls with h1 | h1
                · exact .inl (hf h1)
                · refine .inr ⟨by rw [h1], ?_⟩
                  show dist = 0
                  exact le_antisymm (not_lt.1 fun h => hacc.2 ⟨h1.symm, h⟩) hd0
              · rw [if_neg hacc2, Except.ok.injEq, Prod.mk.injEq] at h'
                obtain ⟨rfl, -⟩ := h'
                exact e3
            · rw [if_neg hle', Except.ok.injEq, Prod.mk.injEq] at h'
              obtain ⟨rfl, -⟩ := h'
              exact e3

/-- Related histories: the same vectors, values related by `VR`. -/
def SameAsked (VR : S → S → Prop) (hist hist' : List (RawVec K × S)) : Prop :=
  List.Forall₂ (fun e e' => e'.1 = e.1 ∧ VR e.2 e'.2) hist hist'

theorem hSolve_trim (hf : StrictMono f) (hq : ProbTrim T T' q q' f)
    (hs : IsArgsort (exactOps K).le (fun _ => True) A.argsort) {VR : S → S → Prop} (hv : ∀ s, VR (-s) (-f s))
    {strat strat' : Strategy K S} (hstrat : ∀ hist hist', SameAsked VR hist hist' → strat' hist' = strat hist)
    (hno : VR (-q.noSplit) (-q'.noSplit) ∨
      ∀ hist r w, strat hist = .eval r → hNormal A q r = .ok w → hSplitIndices q w ≠ [])
    (budget : Nat) {hist hist' : List (RawVec K × S)} (hh : SameAsked VR hist hist') {st st' st1 st1' : HState S K}
    (hst : TrimSt f q.noSplit st st') (h : hSolve A T q strat budget hist st = .ok st1)
    (h' : hSolve A T' q' strat' budget hist' st' = .ok st1') : TrimSt f q.noSplit st1 st1' := by
  induction budget generalizing hist hist' st st' with
  | zero => cases h
  | succ b ih =>
    rw [hSolve] at h h'
    rw [hstrat hist hist' hh] at h'
    cases hx : strat hist with
    | stop =>
      rw [hx] at h h'
      cases h
      cases h'
      exact hst
    | raise e => rw [hx] at h; cases h
    | eval r =>
      rw [hx] at h h'
      dsimp only at h h'
      cases h1 : hCompute A T q st r with
      | error e => rw [h1] at h; cases h
      | ok p =>
        cases h2 : hCompute A T' q' st' r with
        | error e => rw [h2] at h'; cases h'
        | ok p' =>
          obtain ⟨st2, v⟩ := p
          obtain ⟨st2', v'⟩ := p'
          rw [h1] at h
          rw [h2] at h'
          obtain ⟨hst2, hval⟩ := hCompute_trim hf hq hs hst h1 h2
          have hvv : VR v v' := by
            rcases hval with ⟨s, e1, e2⟩ | ⟨e1, e2, w, hw, hsi⟩
            · rw [e1, e2]
              exact hv s
            · rw [e1, e2]
              rcases hno with h0 | h0
              · exact h0
              · exact absurd hsi (h0 hist r w hx hw)
          exact ih (hist := (r, v) :: hist) (hist' := (r, v') :: hist') (.cons ⟨rfl, hvv⟩ hh) hst2 h h'

end

/-! ## Whole fits -/

section
variable {K P S O : Type} [Field K] [LinearOrder K] [IsStrictOrderedRing K] [LinearOrder S] [Neg S]

variable {c : HCtx K P S O} {hp' : Hyper K} {ok : List Nat → Prop}

/-- Fits with the parameters `hp'` split at least as readily, at nodes whose rows satisfy `ok`. -/
structure HReadier (c : HCtx K P S O) (hp' : Hyper K) (ok : List Nat → Prop) : Prop where
  sub : ∀ R R', ok R → R'.Sublist R → 1 < R'.length → ok R'
  search : ∀ p lv R st st', ok R →
    hSolve c.A c.T (hProblem c p lv R) (c.opt.solve (hProblem c p lv R)) c.budget [] (hInit (hProblem c p lv R)) =
      .ok st →
    hSolve c.A c.T (hProblem { c with hp := hp' } p lv R) (c.opt.solve (hProblem { c with hp := hp' } p lv R)) c.budget []
      (hInit (hProblem { c with hp := hp' } p lv R)) = .ok st' →
    ∀ sp, st.best = some sp → st'.best = some sp

theorem hFit_trimmed (h : HReadier c hp' ok) (fuel : Nat) {pa : Option P} {lv : Nat} {R : List Nat}
    {t t' : HNode S K P} (hR : ok R) (ht : hFit c fuel pa lv R = .ok t)
    (ht' : hFit { c with hp := hp' } fuel pa lv R = .ok t') : Trimmed Eq t t' := by
  induction fuel generalizing pa lv R t t' with
  | zero => cases ht
  | succ fuel ih =>
    obtain ⟨st, h1, hcase⟩ := hFit_step ht
    obtain ⟨st', h2, hcase'⟩ := hFit_step ht'
    have hb := h.search _ lv R st st' hR h1 h2
    rcases hcase with ⟨rfl, -⟩ | ⟨sp, c1, c2, hsp, hn1, hn2, rfl, hch⟩
    · refine .leaf _ _ ?_
      rcases hcase' with ⟨rfl, -⟩ | ⟨sp', c1', c2', -, -, -, rfl, -⟩
      · exact ⟨rfl, rfl, rfl, rfl⟩
      · exact ⟨rfl, rfl, rfl, rfl⟩
    · rcases hcase' with ⟨-, hno⟩ | ⟨sp', c1', c2', hsp', hn1', hn2', rfl, hch'⟩
      · rcases hno sp (hb sp hsp) with h0 | h0
        · exact absurd h0 hn1
        · exact absurd h0 hn2
      have e : sp' = sp := by rw [hb sp hsp] at hsp'; exact (Option.some.inj hsp').symm
      subst e
      refine .split _ _ _ _ _ _ _ _ _ _ _ _ ⟨rfl, rfl, rfl, rfl⟩ rfl ?_ ?_
      · rcases hch false with ⟨hd, hf⟩ | ⟨hd, hf⟩
        · rcases hch' false with ⟨-, hf'⟩ | ⟨hd', -⟩
          · exact ih (h.sub _ _ hR List.filter_sublist hd.1) hf hf'
          · exact absurd hd hd'
        · rcases hch' false with ⟨hd', -⟩ | ⟨-, hf'⟩
          · exact absurd hd' hd
          · simp only [Bool.false_eq_true, if_false] at hf hf'
            rw [hf, hf']
            exact .leaf _ _ ⟨rfl, rfl, rfl, rfl⟩
      · rcases hch true with ⟨hd, hf⟩ | ⟨hd, hf⟩
        · rcases hch' true with ⟨-, hf'⟩ | ⟨hd', -⟩
          · exact ih (h.sub _ _ hR List.filter_sublist hd.1) hf hf'
          · exact absurd hd hd'
        · rcases hch' true with ⟨hd', -⟩ | ⟨-, hf'⟩
          · exact absurd hd' hd
          · simp only [if_true] at hf hf'
            rw [hf, hf']
            exact .leaf _ _ ⟨rfl, rfl, rfl, rfl⟩

theorem hFitRoot_trimmed [DecidableEq O] (h : HReadier c hp' ok) (hpr : hp'.prune = c.hp.prune) {prior : Option P}
    {n : Nat} (hn : ok (List.range n)) {t t' : HNode S K P} (ht : hFitRoot c prior n = .ok t)
    (ht' : hFitRoot { c with hp := hp' } prior n = .ok t') : Trimmed Eq t t' := by
  unfold hFitRoot at ht ht'
  cases h1 : hFit c (n + 1) prior 0 (List.range n) with
  | error e => rw [h1] at ht; cases ht
  | ok u =>
    cases h2 : hFit { c with hp := hp' } (n + 1) prior 0 (List.range n) with
    | error e => rw [h2] at ht'; cases ht'
    | ok u' =>
      have key := hFit_trimmed h _ hn h1 h2
      rw [h1] at ht
      rw [h2] at ht'
      simp only [hpr] at ht ht'
      cases hp : c.hp.prune with
      | false =>
        simp only [hp, Bool.false_eq_true, if_false, Except.ok.injEq] at ht ht'
        rw [← ht, ← ht']
        exact key
      | true =>
        simp only [hp, if_true, prune_eq, Except.ok.injEq] at ht ht'
        rw [← ht, ← ht']
        exact key.merge _

end

end BT
