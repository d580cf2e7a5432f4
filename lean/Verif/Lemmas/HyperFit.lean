import Verif.Lemmas.Hyper
import Verif.Lemmas.Prune
import Verif.Lemmas.Walk

/-! # The recursion of the hyperplane fit -/

set_option linter.unusedSectionVars false

namespace BT
open Spec

variable {K P S O : Type} [Field K] [LinearOrder K] [IsStrictOrderedRing K] [LinearOrder S] [Neg S]
  {c : HCtx K P S O} {pair : PairScore K P S}

theorem hyper_exclusive : Exclusive (hyperRouter (K := K)) := by
  intro sp x h
  simp only [hyperRouter, decide_eq_true_eq] at h
  exact absurd h.1 (not_lt.2 h.2)

theorem hyper_complementary (sp : HSplit K) (x : Nat → K) :
    hyperRouter.goes2 sp x = !hyperRouter.goes1 sp x := by
  simp only [hyperRouter, ← decide_not, not_lt]

theorem below_eq (R : List Nat) (sp : HSplit K) :
    (R.filter fun i => hyperRouter.goes1 sp (c.X i)) = below c R sp := by
  unfold below
  simp only [hyperRouter, signedDistance_eq]

theorem above_eq (R : List Nat) (sp : HSplit K) :
    (R.filter fun i => hyperRouter.goes2 sp (c.X i)) = above c R sp := by
  unfold above
  simp only [hyperRouter, signedDistance_eq]

theorem hDivisible_iff (R : List Nat) :
    (R.length > 1 ∧ (distinct (R.map c.y)).length > 1) ↔ HDivisible c R := by
  unfold HDivisible
  rw [gt_iff_lt, gt_iff_lt, one_lt_distinct]
  constructor
  · rintro ⟨h1, a, ha, b, hb, hab⟩
    obtain ⟨i, hi, rfl⟩ := List.mem_map.1 ha
    obtain ⟨j, hj, rfl⟩ := List.mem_map.1 hb
    exact ⟨h1, i, hi, j, hj, hab⟩
  · rintro ⟨h1, i, hi, j, hj, hab⟩
    exact ⟨h1, _, List.mem_map_of_mem hi, _, List.mem_map_of_mem hj, hab⟩

theorem above_below_length (R : List Nat) (sp : HSplit K) :
    (below c R sp).length + (above c R sp).length = R.length := by
  have h : above c R sp = R.filter fun i => !decide (elevation sp (c.X i) < 0) := by
    unfold above
    apply List.filter_congr
    intro i _
    simp only [← decide_not, not_lt]
  rw [h]
  unfold below
  exact (List.length_eq_length_filter_add _).symm

/-- What a fitted node looks like, in one step. -/
theorem hFit_step {fuel : Nat} {pa : Option P} {lv : Nat} {R : List Nat} {t : HNode S K P}
    (h : hFit c (fuel + 1) pa lv R = .ok t) :
    ∃ st, hSolve c.A c.T (hProblem c (hPrior c pa R) lv R) (c.opt.solve (hProblem c (hPrior c pa R) lv R))
        c.budget [] (hInit (hProblem c (hPrior c pa R) lv R)) = .ok st ∧
      ((t = .leaf (hFitInfo c pa lv R) ∧
          ∀ sp, st.best = some sp → below c R sp = [] ∨ above c R sp = []) ∨
        ∃ sp c1 c2, st.best = some sp ∧ below c R sp ≠ [] ∧ above c R sp ≠ [] ∧
          t = .split (hFitInfo c pa lv R) sp
            (c.T.logNoSplit c.hp.partitionPrior lv (R.map c.y) (hPrior c pa R)) st.bestScore c1 c2 ∧
          (∀ b : Bool, let R' := if b then above c R sp else below c R sp
            let d := if b then c2 else c1
            (HDivisible c R' ∧ hFit c fuel
                (some (c.T.posterior (R'.map c.y) (hPrior c pa R) 0)) (lv + 1) R' = .ok d) ∨
              (¬ HDivisible c R' ∧ d = .leaf (hDirectInfo c (hPrior c pa R)
                (c.T.posterior (R'.map c.y) (hPrior c pa R) 0) (lv + 1) R')))) := by
  unfold hFit at h
  simp only [below_eq, above_eq, hDivisible_iff] at h
  split at h
  · cases h
  · next st hst =>
    refine ⟨st, hst, ?_⟩
    split at h
    · next hb =>
      cases h
      exact Or.inl ⟨rfl, by simp [hb]⟩
    · next sp hb =>
      split at h
      · next hlen =>
        have hne1 : below c R sp ≠ [] := List.length_pos_iff.1 hlen.1
        have hne2 : above c R sp ≠ [] := List.length_pos_iff.1 hlen.2
        split at h
        · cases h
        · next c1 hc1 =>
          split at h
          · cases h
          · next c2 hc2 =>
            cases h
            refine Or.inr ⟨sp, c1, c2, hb, hne1, hne2, rfl, ?_⟩
            intro b
            cases b with
            | false =>
              split at hc1
              · next hd =>
                rw [below_eq] at hd
                exact Or.inl ⟨(hDivisible_iff _).1 hd, hc1⟩
              · next hd =>
                rw [below_eq] at hd
                cases hc1
                exact Or.inr ⟨fun h => hd ((hDivisible_iff _).2 h), rfl⟩
            | true =>
              split at hc2
              · next hd =>
                rw [above_eq] at hd
                exact Or.inl ⟨(hDivisible_iff _).1 hd, hc2⟩
              · next hd =>
                rw [above_eq] at hd
                cases hc2
                exact Or.inr ⟨fun h => hd ((hDivisible_iff _).2 h), rfl⟩
      · next hlen =>
        cases h
        refine Or.inl ⟨rfl, ?_⟩
        intro sp' hsp'
        rw [hb] at hsp'
        cases hsp'
        by_contra hc
        push Not at hc
        exact hlen ⟨List.length_pos_iff.2 hc.1, List.length_pos_iff.2 hc.2⟩

theorem hFit_built (hT : LawfulTarget c.T pair)
    (hs : IsArgsort (exactOps K).le (fun _ => True) c.A.argsort) {fuel : Nat} {par pa : Option P} {lv : Nat}
    {R : List Nat} {t : HNode S K P} (hdiv : par.isSome → HDivisible c R)
    (h : hFit c fuel pa lv R = .ok t) : HBuilt c pair par pa lv R t := by
  induction fuel generalizing par pa lv R t with
  | zero => cases h
  | succ fuel ih =>
    obtain ⟨st, hst, hcase⟩ := hFit_step h
    obtain ⟨vs, -, hf, hsr⟩ := hSolve_searched hT hs hst
    rcases hcase with ⟨rfl, hno⟩ | ⟨sp, c1, c2, hb, hne1, hne2, rfl, hch⟩
    · exact .stay _ _ _ _ st hdiv ⟨vs, hf, hsr⟩ hno
    · refine .split _ _ _ _ st sp c1 c2 hdiv ⟨vs, hf, hsr⟩ hb hne1 hne2 ?_ ?_
      · rcases hch false with ⟨hd, hc⟩ | ⟨hd, rfl⟩
        · exact ih (fun _ => hd) hc
        · exact .direct _ _ _ _ hd
      · rcases hch true with ⟨hd, hc⟩ | ⟨hd, hc⟩
        · exact ih (fun _ => hd) hc
        · simp only [if_true] at hc
          rw [hc]
          exact .direct _ _ _ _ hd

/-- Fit only fails where some run of the optimizer fails. -/
theorem hFit_total {fuel : Nat} {pa : Option P} {lv : Nat} {R : List Nat} (hfuel : R.length < fuel)
    {e : Err} (h : hFit c fuel pa lv R = .error e) :
    ∃ prior lv' R', R'.Sublist R ∧
      hSolve c.A c.T (hProblem c prior lv' R') (c.opt.solve (hProblem c prior lv' R')) c.budget []
        (hInit (hProblem c prior lv' R')) = .error e := by
  induction fuel generalizing pa lv R e with
  | zero => omega
  | succ fuel ih =>
    unfold hFit at h
    simp only [below_eq, above_eq, hDivisible_iff] at h
    split at h
    · next e' he =>
      cases h
      exact ⟨_, lv, R, List.Sublist.refl _, he⟩
    · split at h
      · cases h
      · next sp hb =>
        have hlenR := above_below_length (c := c) R sp
        split at h
        · next hlen =>
          split at h
          · next e' he =>
            cases h
            split at he
            · obtain ⟨p, l, R', hsub, hR'⟩ := ih (by omega) he
              exact ⟨p, l, R', hsub.trans List.filter_sublist, hR'⟩
            · cases he
          · split at h
            · next e' he =>
              cases h
              split at he
              · obtain ⟨p, l, R', hsub, hR'⟩ := ih (by omega) he
                exact ⟨p, l, R', hsub.trans List.filter_sublist, hR'⟩
              · cases he
            · cases h
        · cases h

theorem hFitRoot_cutOff {n : Nat} {prior : Option P} {t : HNode S K P} (hT : LawfulTarget c.T pair)
    (hs : IsArgsort (exactOps K).le (fun _ => True) c.A.argsort) (h : hFitRoot c prior n = .ok t) :
    ∃ t0, HBuilt c pair none prior 0 (List.range n) t0 ∧ CutOff t t0 ∧
      (c.hp.prune = false → t = t0) ∧ (c.hp.prune = true → t = Spec.merge c.T.predictLeaf t0) := by
  unfold hFitRoot at h
  split at h
  · cases h
  · next t0 ht0 =>
    have hb : HBuilt c pair none prior 0 (List.range n) t0 := hFit_built hT hs (by simp) ht0
    cases hp : c.hp.prune with
    | false =>
      rw [hp] at h
      cases h
      exact ⟨t, hb, CutOff.refl t, fun _ => rfl, by simp⟩
    | true =>
      rw [hp, if_pos rfl, prune_eq] at h
      cases h
      exact ⟨t0, hb, CutOff.merge _ _, by simp, fun _ => rfl⟩

/-- Rows routed through an address of a built tree, starting from the rows `R`. -/
def hRoutedFrom (c : HCtx K P S O) (t : HNode S K P) (R : List Nat) (addr : List Bool) : List Nat :=
  R.filter fun i => passes hyperRouter t addr (c.X i)

theorem hRoutedFrom_false (i : Info K P) (sp : HSplit K) (l b : S) (c1 c2 : HNode S K P) (R : List Nat)
    (as : List Bool) : hRoutedFrom c (.split i sp l b c1 c2) R (false :: as) =
      hRoutedFrom c c1 (below c R sp) as := by
  unfold hRoutedFrom
  rw [← below_eq, List.filter_filter]
  apply List.filter_congr
  intro j _
  simp only [passes]
  cases hyperRouter.goes1 sp (c.X j) <;> simp

theorem hRoutedFrom_true (i : Info K P) (sp : HSplit K) (l b : S) (c1 c2 : HNode S K P) (R : List Nat)
    (as : List Bool) : hRoutedFrom c (.split i sp l b c1 c2) R (true :: as) =
      hRoutedFrom c c2 (above c R sp) as := by
  unfold hRoutedFrom
  rw [← above_eq, List.filter_filter]
  apply List.filter_congr
  intro j _
  simp only [passes, hyper_complementary]
  cases hyperRouter.goes1 sp (c.X j) <;> simp

/-- Every node of a built tree is built from the rows routed to it; `Q` is any invariant of the pair
(parent prior, prior attribute) kept by the passage to children. -/
theorem hBuilt_at {par pa : Option P} {lv : Nat} {R : List Nat} {t : HNode S K P}
    (h : HBuilt c pair par pa lv R t) (Q : Option P → Option P → List Nat → Prop) (hQ : Q par pa R)
    (hstep : ∀ par pa R R', Q par pa R → R'.Sublist R →
      Q (some (hPrior c pa R)) (some (c.T.posterior (R'.map c.y) (hPrior c pa R) 0)) R')
    (addr : List Bool) (u : HNode S K P) (hu : nodeAt t addr = some u) :
    ∃ par' pa', HBuilt c pair par' pa' (lv + addr.length) (hRoutedFrom c t R addr) u ∧
      Q par' pa' (hRoutedFrom c t R addr) := by
  induction addr generalizing par pa lv R t with
  | nil =>
    rw [nodeAt_nil] at hu
    have hu := Option.some.inj hu
    subst hu
    have : hRoutedFrom c t R [] = R := by
      unfold hRoutedFrom
      simp [passes]
    rw [this]
    exact ⟨par, pa, h, hQ⟩
  | cons a as ih =>
    cases h with
    | direct => simp [nodeAt] at hu
    | stay => simp [nodeAt] at hu
    | split _ _ _ _ st sp c1 c2 hdiv hst hbest hne1 hne2 h1 h2 =>
      rw [List.length_cons, Nat.add_comm as.length 1, ← Nat.add_assoc]
      cases a with
      | false =>
        rw [hRoutedFrom_false]
        exact ih h1 (hstep _ _ _ _ hQ List.filter_sublist) (by simpa [nodeAt] using hu)
      | true =>
        rw [hRoutedFrom_true]
        exact ih h2 (hstep _ _ _ _ hQ List.filter_sublist) (by simpa [nodeAt] using hu)

/-- Every node of a fitted tree is a cut-off node built from the training rows routed to it. -/
theorem hFit_node {n : Nat} {prior : Option P} {t : HNode S K P} (hT : LawfulTarget c.T pair)
    (hs : IsArgsort (exactOps K).le (fun _ => True) c.A.argsort) (h : hFitRoot c prior n = .ok t)
    (Q : Option P → Option P → List Nat → Prop) (hQ : Q none prior (List.range n))
    (hstep : ∀ par pa R R', Q par pa R → R'.Sublist R →
      Q (some (hPrior c pa R)) (some (c.T.posterior (R'.map c.y) (hPrior c pa R) 0)) R')
    {addr : List Bool} {u : HNode S K P} (hu : nodeAt t addr = some u) :
    ∃ par' pa' u0, HBuilt c pair par' pa' addr.length (hRouted c t n addr) u0 ∧
      Q par' pa' (hRouted c t n addr) ∧ u.info = u0.info ∧
      ∀ i sp l b c1 c2, u = .split i sp l b c1 c2 → ∃ d1 d2, u0 = .split i sp l b d1 d2 := by
  obtain ⟨t0, hb, hcut, -, -⟩ := hFitRoot_cutOff hT hs h
  obtain ⟨u0, hu0, hinfo, hsp⟩ := hcut.node addr u hu
  obtain ⟨par', pa', hB, hQ'⟩ := hBuilt_at hb Q hQ hstep addr u0 hu0
  have hr : hRoutedFrom c t0 (List.range n) addr = hRouted c t n addr := by
    unfold hRoutedFrom hRouted
    apply List.filter_congr
    intro i _
    exact (hcut.passes hyperRouter addr u hu (c.X i)).symm
  rw [hr, Nat.zero_add] at hB
  rw [hr] at hQ'
  exact ⟨par', pa', u0, hB, hQ', hinfo, hsp⟩

end BT
