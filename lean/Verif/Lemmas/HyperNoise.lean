import Verif.Lemmas.HyperFit
import Verif.Lemmas.Noise
import Verif.Spec.Noise

/-!
# Hyperplane fits whose scores carry errors
-/

set_option linter.unusedSectionVars false

namespace BT
open Spec

section search
variable {K P O : Type} [Field K] [LinearOrder K] [IsStrictOrderedRing K]
  {A : HArith K} {T : Target K P K O} {q : HProb K P K} {exact : List K → Nat → K} {ε : K}

/-- The scores that `compute` asks for are within `ε` of `exact w k`. -/
def NearScores (A : HArith K) (T : Target K P K O) (q : HProb K P K) (exact : List K → Nat → K) (ε : K) : Prop :=
  ∀ w, jumps q w ≠ [] →
    (T.logSplit q.partitionPrior q.level ((byCoordinate A.argsort q w).map q.y) q.prior q.nDim (jumps q w)).length
      = (jumps q w).length ∧
    ∀ (i k : Nat) (s : K), (jumps q w)[i]? = some k →
      (T.logSplit q.partitionPrior q.level ((byCoordinate A.argsort q w).map q.y) q.prior q.nDim (jumps q w))[i]? = some s →
      |s - exact w k| ≤ ε

/-- An evaluation with errors. -/
structure NearOutcome (A : HArith K) (q : HProb K P K) (exact : List K → Nat → K) (ε : K) (r : RawVec K) (s : K)
    (sp : HSplit K) : Prop where
  normal : hNormal A q r = .ok sp.normal
  upper : ∀ k ∈ jumps q sp.normal, exact sp.normal k ≤ s + ε
  cut : ∃ k ∈ jumps q sp.normal, |s - exact sp.normal k| ≤ ε ∧
    ∃ i j, (byCoordinate A.argsort q sp.normal)[k - 1]? = some i ∧
      (byCoordinate A.argsort q sp.normal)[k]? = some j ∧ sp.origin = halfway q i j

theorem jumps_range {w : List K} : ∀ k ∈ jumps q w, 1 ≤ k ∧ k < q.rows.length := by
  intro k hk
  unfold jumps at hk
  rw [List.mem_filter, decide_eq_true_eq, List.mem_range] at hk
  exact ⟨hk.2.1, hk.1⟩

theorem jumps_sorted {w : List K} : (jumps q w).Pairwise (· < ·) := List.pairwise_lt_range.filter _

theorem hCompute_near (hN : NearScores A T q exact ε)
    (hs : IsArgsort (exactOps K).le (fun _ => True) A.argsort)
    (st : HState K K) {r : RawVec K} {w : List K} (h : hNormal A q r = .ok w) (hj : jumps q w ≠ []) :
    ∃ s sp, NearOutcome A q exact ε r s sp ∧ hCompute A T q st r = .ok (hUpdate q st s sp, -s) := by
  have hw := hNormal_length h
  have hys : ((A.argsort (hProj q w)).map fun j => q.y (q.rows.getD j 0)) =
      (byCoordinate A.argsort q w).map q.y := by
    rw [hProj_eq q w hw]
    unfold byCoordinate
    rw [List.map_map]
    rfl
  have hlen : (byCoordinate A.argsort q w).length = q.rows.length := (argsort_perm_rows hs w).length_eq
  have hlen' : (A.argsort (hProj q w)).length = q.rows.length := by
    have := congrArg List.length hys
    rw [List.length_map, List.length_map, hlen] at this
    exact this
  obtain ⟨hn1, hn2⟩ := hN w hj
  have hscores : T.logSplit q.partitionPrior q.level
      ((A.argsort (hProj q w)).map fun j => q.y (q.rows.getD j 0)) q.prior q.nDim (hSplitIndices q w) =
      T.logSplit q.partitionPrior q.level ((byCoordinate A.argsort q w).map q.y) q.prior q.nDim (jumps q w) := by
    rw [hys, hSplitIndices_eq q w hw]
  generalize T.logSplit q.partitionPrior q.level ((byCoordinate A.argsort q w).map q.y) q.prior q.nDim (jumps q w)
    = scores at hscores hn1 hn2
  have hne : scores ≠ [] := by
    intro e
    rw [e] at hn1
    exact hj (List.length_eq_zero_iff.1 hn1.symm)
  obtain ⟨s, hsv, hsmax, -⟩ := argmax_spec hne
  obtain ⟨k, hk⟩ : ∃ k, (jumps q w)[argmax scores]? = some k :=
    ⟨_, List.getElem?_eq_getElem (by rw [← hn1]; exact (List.getElem?_eq_some_iff.1 hsv).1)⟩
  have hkm : k ∈ jumps q w := List.mem_of_getElem? hk
  have hk1 := jumps_range k hkm
  obtain ⟨a, ha⟩ : ∃ a, (A.argsort (hProj q w))[k - 1]? = some a :=
    ⟨_, List.getElem?_eq_getElem (by omega)⟩
  obtain ⟨b, hb⟩ : ∃ b, (A.argsort (hProj q w))[k]? = some b :=
    ⟨_, List.getElem?_eq_getElem (by omega)⟩
  have hout : NearOutcome A q exact ε r s ⟨w, hOrigin q a b⟩ := by
    refine ⟨h, ?_, k, hkm, hn2 _ _ _ hk hsv, q.rows.getD a 0, q.rows.getD b 0, ?_, ?_, hOrigin_eq q a b⟩
    · intro k' hk'
      obtain ⟨m, hm⟩ := List.mem_iff_getElem?.1 hk'
      obtain ⟨s', hs'⟩ : ∃ s', scores[m]? = some s' :=
        ⟨_, List.getElem?_eq_getElem (by rw [hn1]; exact (List.getElem?_eq_some_iff.1 hm).1)⟩
      have h1 := hsmax s' (List.mem_of_getElem? hs')
      have h2 := (_root_.abs_le.1 (hn2 m k' s' hm hs')).1
      show exact w k' ≤ s + ε
      linarith
    · unfold byCoordinate
      rw [List.getElem?_map, ← hProj_eq q w hw, ha]
      rfl
    · unfold byCoordinate
      rw [List.getElem?_map, ← hProj_eq q w hw, hb]
      rfl
  refine ⟨s, ⟨w, hOrigin q a b⟩, hout, ?_⟩
  unfold hCompute
  simp only [h, hscores, hsv]
  rw [hSplitIndices_eq q w hw, hk, if_neg (by simpa using hj)]
  simp only [ha, hb, hDist_eq q ⟨w, hOrigin q a b⟩ hw]
  unfold hUpdate
  by_cases hlt : st.bestScore < s
  · simp [hlt, hlt.le]
  · by_cases heq : st.bestScore = s
    · simp only [heq, le_refl, lt_irrefl, if_true, if_false, false_or, true_and, decide_eq_true_eq]
      split <;> rfl
    · have : ¬ st.bestScore ≤ s := fun hle => heq (le_antisymm hle (not_lt.1 hlt))
      simp [hlt, heq, this]

/-- An evaluation fails only where the vector is rejected. -/
theorem hCompute_near_error (hN : NearScores A T q exact ε)
    (hs : IsArgsort (exactOps K).le (fun _ => True) A.argsort) {st : HState K K} {r : RawVec K} {e : Err}
    (h : hCompute A T q st r = .error e) : hNormal A q r = .error e := by
  cases hn : hNormal A q r with
  | error e' => rw [hCompute_error hn] at h; cases h; rfl
  | ok w =>
    by_cases hj : jumps q w = []
    · rw [hCompute_flat hn hj] at h; cases h
    · obtain ⟨s, sp, -, he⟩ := hCompute_near hN hs st hn hj
      rw [he] at h; cases h

/-- The state of a search with errors after the vectors `rs`. -/
structure NearSearched (A : HArith K) (q : HProb K P K) (exact : List K → Nat → K) (ε : K)
    (rs : List (RawVec K)) (st : HState K K) : Prop where
  evals : st.evals = rs.length
  base : q.noSplit ≤ st.bestScore
  normals : ∀ r ∈ rs, ∃ w, hNormal A q r = .ok w
  upper : ∀ r ∈ rs, ∀ w, hNormal A q r = .ok w → ∀ k ∈ jumps q w, exact w k ≤ st.bestScore + ε
  none : st.best = none → st.bestScore = q.noSplit
  some : ∀ sp, st.best = some sp → ∃ r ∈ rs, NearOutcome A q exact ε r st.bestScore sp

theorem runs_near (hN : NearScores A T q exact ε) (hs : IsArgsort (exactOps K).le (fun _ => True) A.argsort)
    {vs : List (RawVec K × K)} {st : HState K K} (h : Runs A T q (hInit q) vs st) :
    NearSearched A q exact ε (vs.map Prod.fst) st := by
  induction h with
  | nil => exact ⟨rfl, le_rfl, by simp, by simp, fun _ => rfl, by simp [hInit]⟩
  | snoc vs st' st'' r val _ hc ih =>
    rw [List.map_append, List.map_cons, List.map_nil]
    cases hn : hNormal A q r with
    | error e => rw [hCompute_error hn] at hc; cases hc
    | ok w =>
      have hnorm : ∀ r' ∈ vs.map Prod.fst ++ [r], ∃ w, hNormal A q r' = .ok w := by
        intro r' hr'
        rcases List.mem_append.1 hr' with hr' | hr'
        · exact ih.normals r' hr'
        · rw [List.mem_singleton.1 hr']
          exact ⟨w, hn⟩
      by_cases hj : jumps q w = []
      · rw [hCompute_flat hn hj] at hc
        cases hc
        refine ⟨by simp [ih.evals], ih.base, hnorm, ?_, ih.none, ?_⟩
        · intro r' hr' w' hw' k hk
          rcases List.mem_append.1 hr' with hr' | hr'
          · exact ih.upper r' hr' w' hw' k hk
          · rw [List.mem_singleton.1 hr', hn] at hw'
            cases hw'
            rw [hj] at hk
            cases hk
        · intro sp hsp
          obtain ⟨r0, hr0, ho⟩ := ih.some sp hsp
          exact ⟨r0, List.mem_append_left _ hr0, ho⟩
      · obtain ⟨s, sp, ho, he⟩ := hCompute_near hN hs st' hn hj
        rw [he] at hc
        cases hc
        have hup : ∀ r' ∈ vs.map Prod.fst ++ [r], ∀ w, hNormal A q r' = .ok w → ∀ k ∈ jumps q w,
            exact w k ≤ max st'.bestScore s + ε := by
          intro r' hr' w' hw' k hk
          rcases List.mem_append.1 hr' with hr' | hr'
          · have := ih.upper r' hr' w' hw' k hk
            linarith [le_max_left st'.bestScore s]
          · rw [List.mem_singleton.1 hr', ho.normal] at hw'
            cases hw'
            have := ho.upper k hk
            linarith [le_max_right st'.bestScore s]
        unfold hUpdate
        split
        · next hu =>
          have hle : st'.bestScore ≤ s := by
            rcases hu with h | h
            · exact h.le
            · exact h.1.le
          rw [max_eq_right hle] at hup
          exact ⟨by simp [ih.evals], ih.base.trans hle, hnorm, hup, by simp,
            fun sp' hsp' => ⟨r, by simp, by cases hsp'; exact ho⟩⟩
        · next hu =>
          have hle : s ≤ st'.bestScore := not_lt.1 fun h => hu (Or.inl h)
          rw [max_eq_left hle] at hup
          refine ⟨by simp [ih.evals], ih.base, hnorm, hup, ih.none, ?_⟩
          intro sp' hsp'
          obtain ⟨r0, hr0, ho'⟩ := ih.some sp' hsp'
          exact ⟨r0, List.mem_append_left _ hr0, ho'⟩

theorem hSolve_near (hN : NearScores A T q exact ε) (hs : IsArgsort (exactOps K).le (fun _ => True) A.argsort)
    {strat : Strategy K K} {budget : Nat} {st : HState K K}
    (h : hSolve A T q strat budget [] (hInit q) = .ok st) :
    ∃ vs, Follows strat vs ∧ NearSearched A q exact ε (vs.map Prod.fst) st := by
  obtain ⟨vs, h1, h2⟩ := hSolve_runs (st0 := hInit q) (.nil _) (by simp) h
  exact ⟨vs, h2, runs_near hN hs h1⟩

/-- A search fails only with an exception of the optimizer, with a rejected vector, or for lack of budget. -/
theorem hSolve_near_error (hN : NearScores A T q exact ε)
    (hs : IsArgsort (exactOps K).le (fun _ => True) A.argsort) {strat : Strategy K K} {budget : Nat}
    {hist : List (RawVec K × K)} {st : HState K K} {e : Err}
    (hf : ∀ m r s, hist.reverse[m]? = some (r, s) → strat (hist.reverse.take m).reverse = .eval r)
    (h : hSolve A T q strat budget hist st = .error e) :
    ∃ vs : List (RawVec K × K), (∀ m r s, vs[m]? = some (r, s) → strat (vs.take m).reverse = .eval r) ∧
      (e = .noTermination ∧ vs.length = hist.length + budget ∨ strat vs.reverse = .raise e ∨
        ∃ r, strat vs.reverse = .eval r ∧ hNormal A q r = .error e) := by
  induction budget generalizing hist st with
  | zero => cases h; exact ⟨hist.reverse, hf, .inl ⟨rfl, by simp⟩⟩
  | succ b ih =>
    unfold hSolve at h
    split at h
    · cases h
    · next e' hr => cases h; exact ⟨hist.reverse, hf, .inr (.inl (by rw [List.reverse_reverse]; exact hr))⟩
    · next r heval =>
      split at h
      · next e' hc =>
        cases h
        exact ⟨hist.reverse, hf, .inr (.inr ⟨r, by rw [List.reverse_reverse]; exact heval, hCompute_near_error hN hs hc⟩)⟩
      · next st' val hc =>
        obtain ⟨vs, h1, h2⟩ := ih (hist := (r, val) :: hist) (by
          intro m r' s' hm
          rw [List.reverse_cons] at hm ⊢
          by_cases hlt : m < hist.reverse.length
          · rw [List.getElem?_append_left hlt] at hm
            rw [List.take_append_of_le_length hlt.le]
            exact hf m r' s' hm
          · have hm' : m = hist.reverse.length := by
              have := (List.getElem?_eq_some_iff.1 hm).1
              simp at this hlt ⊢
              omega
            subst hm'
            rw [List.getElem?_append_right le_rfl, Nat.sub_self] at hm
            cases hm
            rw [List.take_append_of_le_length le_rfl, List.take_length, List.reverse_reverse]
            exact heval) h
        refine ⟨vs, h1, ?_⟩
        rw [List.length_cons] at h2
        rw [show hist.length + (b + 1) = hist.length + 1 + b by omega]
        exact h2

end search

section fit
variable {K P S O : Type} [Field K] [LinearOrder K] [IsStrictOrderedRing K] [LinearOrder S] [Neg S]
  {c : HCtx K P S O} {prior : P} {n : Nat}

/-- The shape of a hyperplane fit in which every node has the prior of the root; nothing is said about scores. -/
inductive HRun (c : HCtx K P S O) (prior : P) : Nat → List Nat → HNode S K P → Prop
  | direct (lv : Nat) (R : List Nat) (hsmall : ¬ HDivisible c R) :
      HRun c prior lv R (.leaf (hDirectInfo c prior prior lv R))
  | stay (lv : Nat) (R : List Nat) (st : HState S K)
      (hst : hSolve c.A c.T (hProblem c prior lv R) (c.opt.solve (hProblem c prior lv R)) c.budget []
        (hInit (hProblem c prior lv R)) = .ok st)
      (hno : ∀ sp, st.best = some sp → below c R sp = [] ∨ above c R sp = []) :
      HRun c prior lv R (.leaf (hFitInfo c (some prior) lv R))
  | split (lv : Nat) (R : List Nat) (st : HState S K) (sp : HSplit K) (c1 c2 : HNode S K P)
      (hst : hSolve c.A c.T (hProblem c prior lv R) (c.opt.solve (hProblem c prior lv R)) c.budget []
        (hInit (hProblem c prior lv R)) = .ok st)
      (hbest : st.best = some sp) (hne1 : below c R sp ≠ []) (hne2 : above c R sp ≠ [])
      (h1 : HRun c prior (lv + 1) (below c R sp) c1) (h2 : HRun c prior (lv + 1) (above c R sp) c2) :
      HRun c prior lv R (.split (hFitInfo c (some prior) lv R) sp
        (c.T.logNoSplit c.hp.partitionPrior lv (R.map c.y) prior) st.bestScore c1 c2)

theorem hFit_run (hg : ∀ m, c.T.getPrior (some prior) m c.nDim = prior) (hd0 : ∀ y, c.T.posterior y prior 0 = prior)
    {fuel lv : Nat} {R : List Nat} {t : HNode S K P} (h : hFit c fuel (some prior) lv R = .ok t) :
    HRun c prior lv R t := by
  induction fuel generalizing lv R t with
  | zero => cases h
  | succ fuel ih =>
    have hp : hPrior c (some prior) R = prior := hg _
    obtain ⟨st, hst, hcase⟩ := hFit_step h
    rw [hp] at hst hcase
    simp only [hd0] at hcase
    rcases hcase with ⟨rfl, hno⟩ | ⟨sp, c1, c2, hb, hne1, hne2, rfl, hch⟩
    · exact .stay _ _ st hst hno
    · refine .split _ _ st sp c1 c2 hst hb hne1 hne2 ?_ ?_
      · rcases hch false with ⟨-, hc⟩ | ⟨hd, hc⟩
        · exact ih hc
        · simp only [Bool.false_eq_true, if_false] at hc hd
          rw [hc]
          exact .direct _ _ hd
      · rcases hch true with ⟨-, hc⟩ | ⟨hd, hc⟩
        · exact ih hc
        · simp only [if_true] at hc hd
          rw [hc]
          exact .direct _ _ hd

theorem HRun.at {lv : Nat} {R : List Nat} {t : HNode S K P} (h : HRun c prior lv R t) (hR : RowList n R)
    (hlv : lv + R.length ≤ n) (addr : List Bool) (u : HNode S K P) (hu : nodeAt t addr = some u) :
    HRun c prior (lv + addr.length) (hRoutedFrom c t R addr) u ∧ RowList n (hRoutedFrom c t R addr) ∧
      lv + addr.length + (hRoutedFrom c t R addr).length ≤ n := by
  induction addr generalizing lv R t with
  | nil =>
    rw [nodeAt_nil] at hu
    have hu := Option.some.inj hu
    subst hu
    have : hRoutedFrom c t R [] = R := by
      unfold hRoutedFrom
      simp [passes]
    rw [this]
    exact ⟨h, hR, hlv⟩
  | cons a as ih =>
    cases h with
    | direct => simp [nodeAt] at hu
    | stay => simp [nodeAt] at hu
    | split _ _ st sp c1 c2 hst hbest hne1 hne2 h1 h2 =>
      rw [List.length_cons, Nat.add_comm as.length 1, ← Nat.add_assoc]
      have hl := above_below_length (c := c) R sp
      have l1 := List.length_pos_iff.2 hne1
      have l2 := List.length_pos_iff.2 hne2
      cases a with
      | false =>
        rw [hRoutedFrom_false]
        exact ih h1 ⟨hne1, hR.2.1.filter _, fun i hi => hR.2.2 i (List.mem_filter.1 hi).1⟩ (by omega)
          (by simpa [nodeAt] using hu)
      | true =>
        rw [hRoutedFrom_true]
        exact ih h2 ⟨hne2, hR.2.1.filter _, fun i hi => hR.2.2 i (List.mem_filter.1 hi).1⟩ (by omega)
          (by simpa [nodeAt] using hu)

/-- Every node of a fitted tree. -/
theorem hFitRoot_run [DecidableEq O] (hg : ∀ m, c.T.getPrior (some prior) m c.nDim = prior)
    (hd0 : ∀ y, c.T.posterior y prior 0 = prior) (hn : 0 < n) {t : HNode S K P}
    (h : hFitRoot c (some prior) n = .ok t) {addr : List Bool} {u : HNode S K P} (hu : nodeAt t addr = some u) :
    ∃ u0, HRun c prior addr.length (hRouted c t n addr) u0 ∧ RowList n (hRouted c t n addr) ∧
      addr.length + (hRouted c t n addr).length ≤ n ∧ u.info = u0.info ∧
      (∀ i sp l b c1 c2, u = .split i sp l b c1 c2 → ∃ d1 d2, u0 = .split i sp l b d1 d2) ∧
      (c.hp.prune = false → u0 = u) := by
  have hcut : ∃ t0, HRun c prior 0 (List.range n) t0 ∧ CutOff t t0 ∧ (c.hp.prune = false → t = t0) := by
    unfold hFitRoot at h
    split at h
    · cases h
    · next t0 ht0 =>
      have hb := hFit_run hg hd0 ht0
      cases hp : c.hp.prune with
      | false =>
        rw [hp] at h
        cases h
        exact ⟨t, hb, CutOff.refl t, fun _ => rfl⟩
      | true =>
        rw [hp, if_pos rfl, prune_eq] at h
        cases h
        exact ⟨t0, hb, CutOff.merge _ _, by simp⟩
  obtain ⟨t0, hb, hcut, hpr⟩ := hcut
  obtain ⟨u0, hu0, hinfo, hsp⟩ := hcut.node addr u hu
  obtain ⟨hB, hR, hl⟩ := hb.at (n := n) ⟨by simp; omega, List.nodup_range, fun _ hi => List.mem_range.1 hi⟩ (by simp)
    addr u0 hu0
  have hr : hRoutedFrom c t0 (List.range n) addr = hRouted c t n addr := by
    unfold hRoutedFrom hRouted
    apply List.filter_congr
    intro i _
    exact (hcut.passes hyperRouter addr u hu (c.X i)).symm
  rw [hr, Nat.zero_add] at hB hl
  rw [hr] at hR
  refine ⟨u0, hB, hR, hl, hinfo, hsp, fun hp => ?_⟩
  rw [hpr hp, hu0] at hu
  exact Option.some.inj hu

end fit

end BT
