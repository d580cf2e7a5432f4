import Verif.Spec.Hyper
import Verif.Lemmas.PerpFit
import Mathlib.Tactic.Ring
import Mathlib.Algebra.BigOperators.Group.List.Basic
import Mathlib.Algebra.Order.BigOperators.Group.List
import Mathlib.Tactic.Linarith

set_option linter.unusedSectionVars false

/-! # One evaluation of the hyperplane search, and the state after many -/

namespace BT
open Spec

section
variable {K P S O : Type} [Field K] [LinearOrder K]

omit [LinearOrder K] in
theorem zipWith_sum_range (a b : List K) :
    (List.zipWith (· * ·) a b).sum = ((List.range b.length).map fun j => a.getD j 0 * b.getD j 0).sum := by
  induction a generalizing b with
  | nil =>
    simp [List.sum_replicate]
  | cons x a ih =>
    cases b with
    | nil => simp
    | cons y b =>
      rw [List.zipWith_cons_cons, List.sum_cons, ih, List.length_cons, List.range_succ_eq_map]
      simp [Function.comp_def]

omit [LinearOrder K] in
theorem zipWith_sum_comm (a b : List K) :
    (List.zipWith (· * ·) a b).sum = (List.zipWith (· * ·) b a).sum := by
  rw [List.zipWith_comm]
  congr 1
  congr 1
  funext x y
  exact mul_comm _ _

omit [LinearOrder K] in
theorem dot_rowVec (w : List K) (x : Nat → K) : dot (rowVec w.length x) w = along w x := by
  unfold dot rowVec along
  rw [zipWith_sum_range]
  congr 1
  apply List.map_congr_left
  intro j hj
  have hj' : j < w.length := List.mem_range.1 hj
  simp [hj']

omit [LinearOrder K] in
theorem dot_point (w o : List K) : dot w o = along w (point o) := by
  unfold dot along point
  rw [zipWith_sum_comm, zipWith_sum_range]

omit [LinearOrder K] in
theorem signedDistance_eq (sp : HSplit K) (x : Nat → K) : signedDistance sp x = elevation sp x := by
  unfold signedDistance elevation
  rw [dot_rowVec, dot_point]

theorem hNormal_length {A : HArith K} {q : HProb K P S} {r : RawVec K} {w : List K}
    (h : hNormal A q r = .ok w) : w.length = q.nDim := by
  unfold hNormal at h
  simp only at h
  split at h
  · cases h
  · split at h
    · cases h
    · split at h
      · cases h
      · next hlen =>
        cases h
        exact not_not.1 hlen

theorem hProj_eq (q : HProb K P S) (w : List K) (hw : w.length = q.nDim) :
    hProj q w = q.rows.map fun i => along w (q.X i) := by
  unfold hProj
  apply List.map_congr_left
  intro i _
  rw [← hw, dot_rowVec]

theorem hSplitIndices_eq (q : HProb K P S) (w : List K) (hw : w.length = q.nDim) :
    hSplitIndices q w = jumps q w := by
  unfold hSplitIndices
  rw [hProj_eq q w hw]
  apply List.Perm.eq_of_pairwise (le := (· < ·)) _ (splitIndices_sorted _ _ _)
    (List.pairwise_lt_range.filter _)
  · rw [List.perm_ext_iff_of_nodup
      ((splitIndices_sorted _ _ _).imp (fun h => Nat.ne_of_lt h)) (List.nodup_range.filter _)]
    intro k
    rw [mem_splitIndices]
    rw [List.mem_filter, List.mem_range, decide_eq_true_eq]
    constructor
    · rintro ⟨a, b, h1, h2, h3, h4⟩
      rw [List.getElem?_map, Option.map_eq_some_iff] at h2 h3
      obtain ⟨i, hi, rfl⟩ := h2
      obtain ⟨j, hj, rfl⟩ := h3
      refine ⟨(List.getElem?_eq_some_iff.1 hj).1, h1, ?_⟩
      rw [List.getD_eq_getElem?_getD, List.getD_eq_getElem?_getD, hi, hj]
      simpa [exactOps] using h4
    · rintro ⟨hk, h1, h4⟩
      have hk' : k - 1 < q.rows.length := by omega
      refine ⟨along w (q.X (q.rows.getD (k - 1) 0)), along w (q.X (q.rows.getD k 0)), h1, ?_, ?_, ?_⟩
      · simp [hk']
      · simp [hk]
      · simpa [exactOps] using h4
  · intro a b _ _ h1 h2
    exact absurd (h1.trans h2) (lt_irrefl _)

omit [LinearOrder K] in
theorem hOrigin_eq [CharZero K] (q : HProb K P S) (a b : Nat) :
    hOrigin q a b = halfway q (q.rows.getD a 0) (q.rows.getD b 0) := by
  unfold hOrigin halfway rowVec
  rw [List.zipWith_map, List.zipWith_self]
  apply List.map_congr_left
  intro d _
  ring

theorem hDist_eq (q : HProb K P S) (sp : HSplit K) (hw : sp.normal.length = q.nDim) :
    hDist q sp = totalDist q sp := by
  unfold hDist totalDist
  rw [hProj_eq q _ hw, List.map_map]
  congr 1
  apply List.map_congr_left
  intro i _
  simp only [Function.comp, elevation]
  rw [dot_point]

end

section
variable {K P S O : Type} [Field K] [LinearOrder K] [IsStrictOrderedRing K] [LinearOrder S] [Neg S]

/-- The state after an evaluation with outcome `(s, sp)`. -/
def hUpdate (q : HProb K P S) (st : HState S K) (s : S) (sp : HSplit K) : HState S K :=
  if st.bestScore < s ∨ (st.bestScore = s ∧ st.bestDist < totalDist q sp) then
    ⟨st.evals + 1, s, totalDist q sp, some sp⟩
  else { st with evals := st.evals + 1 }

omit [IsStrictOrderedRing K] [Neg S] in
theorem outcome_unique {A : HArith K} {pair : PairScore K P S} {q : HProb K P S} {r : RawVec K}
    {s s' : S} {sp sp' : HSplit K} (h : Outcome A pair q r s sp) (h' : Outcome A pair q r s' sp') :
    s = s' ∧ sp = sp' := by
  have en : sp.normal = sp'.normal := by
    have := h.normal.symm.trans h'.normal
    exact Except.ok.inj this
  obtain ⟨k, hk, rfl, hmax, hfirst, i, j, hi, hj, ho⟩ := h.cut
  obtain ⟨k', hk', hs', hmax', hfirst', i', j', hi', hj', ho'⟩ := h'.cut
  rw [← en] at hk' hs' hmax' hfirst' hi' hj'
  have es : cutScore A.argsort pair q sp.normal k = s' := by
    apply le_antisymm (hmax' k hk)
    rw [hs']
    exact hmax k' hk'
  have ek : k = k' := by
    rcases lt_trichotomy k k' with hlt | heq | hgt
    · exact absurd (hfirst' k hk hlt) (by rw [es]; exact lt_irrefl _)
    · exact heq
    · have := hfirst k' hk' hgt
      rw [es, hs'] at this
      exact absurd this (lt_irrefl _)
  subst ek
  refine ⟨es, ?_⟩
  rw [hi] at hi'
  rw [hj] at hj'
  cases hi'; cases hj'
  obtain ⟨n, o⟩ := sp
  obtain ⟨n', o'⟩ := sp'
  simp only at en ho ho'
  rw [en, ho, ho']

variable {A : HArith K} {T : Target K P S O} {pair : PairScore K P S} {q : HProb K P S}

theorem argsort_perm_rows (hs : IsArgsort (exactOps K).le (fun _ => True) A.argsort) (w : List K) :
    (byCoordinate A.argsort q w).Perm q.rows := by
  unfold byCoordinate
  have h := (hs.perm (q.rows.map fun i => along w (q.X i)) (fun _ _ => trivial)).map
    (fun j => q.rows.getD j 0)
  refine h.trans ?_
  rw [List.length_map]
  apply List.Perm.of_eq
  apply List.ext_getElem?
  intro i
  by_cases hi : i < q.rows.length
  · simp [hi]
  · simp [hi]

theorem byCoordinate_sorted (hs : IsArgsort (exactOps K).le (fun _ => True) A.argsort) (w : List K) :
    (byCoordinate A.argsort q w).Pairwise fun i j => along w (q.X i) ≤ along w (q.X j) := by
  unfold byCoordinate
  rw [List.pairwise_map]
  have hperm := hs.perm (q.rows.map fun i => along w (q.X i)) (fun _ _ => trivial)
  have h := hs.sorted (q.rows.map fun i => along w (q.X i)) (fun _ _ => trivial)
  refine List.Pairwise.imp_of_mem ?_ h
  intro a b ha hb hab
  have ha' : a < q.rows.length := by
    have := List.mem_range.1 (hperm.mem_iff.1 ha); simpa using this
  have hb' : b < q.rows.length := by
    have := List.mem_range.1 (hperm.mem_iff.1 hb); simpa using this
  have := hab (along w (q.X (q.rows.getD a 0))) (along w (q.X (q.rows.getD b 0)))
    (by simp [ha']) (by simp [hb'])
  simpa [exactOps] using this

theorem hCompute_error {st : HState S K} {r : RawVec K} {e : Err} (h : hNormal A q r = .error e) :
    hCompute A T q st r = .error e := by
  unfold hCompute
  simp only [h]

theorem hCompute_flat {st : HState S K} {r : RawVec K} {w : List K} (h : hNormal A q r = .ok w)
    (hj : jumps q w = []) :
    hCompute A T q st r = .ok ({ st with evals := st.evals + 1 }, -q.noSplit) := by
  unfold hCompute
  simp only [h]
  rw [hSplitIndices_eq q w (hNormal_length h), hj]
  rfl

theorem hCompute_cut (hT : LawfulTarget T pair)
    (hs : IsArgsort (exactOps K).le (fun _ => True) A.argsort)
    {st : HState S K} {r : RawVec K} {w : List K} (h : hNormal A q r = .ok w) (hj : jumps q w ≠ []) :
    ∃ s sp, Outcome A pair q r s sp ∧ hCompute A T q st r = .ok (hUpdate q st s sp, -s) := by
  have hw := hNormal_length h
  have hys : ((A.argsort (hProj q w)).map fun j => q.y (q.rows.getD j 0)) =
      (byCoordinate A.argsort q w).map q.y := by
    rw [hProj_eq q w hw]
    unfold byCoordinate
    rw [List.map_map]
    rfl
  have hlen : (byCoordinate A.argsort q w).length = q.rows.length := (argsort_perm_rows hs w).length_eq
  have hlen' : (A.argsort (hProj q w)).length = q.rows.length := by
    have := congrArg List.length hys
    rw [List.length_map, List.length_map, hlen] at this
    exact this
  have hjr : ∀ k ∈ jumps q w, 1 ≤ k ∧ k < q.rows.length := by
    intro k hk
    unfold jumps at hk
    rw [List.mem_filter, decide_eq_true_eq, List.mem_range] at hk
    exact ⟨hk.2.1, hk.1⟩
  have hjs : (jumps q w).Pairwise (· < ·) := List.pairwise_lt_range.filter _
  have hscores : T.logSplit q.partitionPrior q.level
      ((A.argsort (hProj q w)).map fun j => q.y (q.rows.getD j 0)) q.prior q.nDim (hSplitIndices q w) =
      (jumps q w).map (cutScore A.argsort pair q w) := by
    rw [hys, hSplitIndices_eq q w hw, hT.logSplit_eq _ _ _ _ _ _ _ hjs]
    · apply List.map_congr_left
      intro k _
      unfold cutScore
      rw [List.map_take, List.map_drop]
    · intro k hk
      rw [List.length_map, hlen]
      exact hjr k hk
  have hne : (jumps q w).map (cutScore A.argsort pair q w) ≠ [] := by simpa using hj
  obtain ⟨s, hsv, hsmax, hsfirst⟩ := argmax_spec hne
  obtain ⟨k, hk, hks⟩ : ∃ k, (jumps q w)[argmax ((jumps q w).map (cutScore A.argsort pair q w))]? = some k ∧
      cutScore A.argsort pair q w k = s := by
    rw [List.getElem?_map, Option.map_eq_some_iff] at hsv
    exact hsv
  have hkm : k ∈ jumps q w := List.mem_of_getElem? hk
  have hk1 := hjr k hkm
  obtain ⟨a, ha⟩ : ∃ a, (A.argsort (hProj q w))[k - 1]? = some a :=
    ⟨_, List.getElem?_eq_getElem (by omega)⟩
  obtain ⟨b, hb⟩ : ∃ b, (A.argsort (hProj q w))[k]? = some b :=
    ⟨_, List.getElem?_eq_getElem (by omega)⟩
  have hout : Outcome A pair q r s ⟨w, hOrigin q a b⟩ := by
    refine ⟨h, k, hkm, hks.symm, ?_, ?_, q.rows.getD a 0, q.rows.getD b 0, ?_, ?_, hOrigin_eq q a b⟩
    · intro k' hk'
      exact hsmax _ (List.mem_map_of_mem hk')
    · intro k' hk' hlt
      obtain ⟨m, hm⟩ := List.mem_iff_getElem?.1 hk'
      refine hsfirst m ?_ _ (by rw [List.getElem?_map, hm]; rfl)
      by_contra hge
      have hge := not_lt.1 hge
      rcases Nat.lt_or_eq_of_le hge with hlt' | heq
      · obtain ⟨hm1, hm2⟩ := List.getElem?_eq_some_iff.1 hm
        obtain ⟨hk1, hk2⟩ := List.getElem?_eq_some_iff.1 hk
        have := (List.pairwise_iff_getElem.1 hjs) _ _ hk1 hm1 hlt'
        rw [hm2, hk2] at this
        omega
      · rw [heq, hm] at hk
        cases hk
        exact absurd hlt (lt_irrefl _)
    · unfold byCoordinate
      rw [List.getElem?_map, ← hProj_eq q w hw, ha]
      rfl
    · unfold byCoordinate
      rw [List.getElem?_map, ← hProj_eq q w hw, hb]
      rfl
  refine ⟨s, ⟨w, hOrigin q a b⟩, hout, ?_⟩
  unfold hCompute
  simp only [h, hscores, hsv]
  rw [hSplitIndices_eq q w hw, hk, if_neg (by simpa using hj)]
  simp only [ha, hb, hDist_eq q ⟨w, hOrigin q a b⟩ hw]
  unfold hUpdate
  by_cases hlt : st.bestScore < s
  · simp [hlt, hlt.le]
  · by_cases heq : st.bestScore = s
    · simp only [heq, le_refl, lt_irrefl, if_true, if_false, false_or, true_and, decide_eq_true_eq]
      split <;> rfl
    · have : ¬ st.bestScore ≤ s := fun hle => heq (le_antisymm hle (not_lt.1 hlt))
      simp [hlt, heq, this]

/-- One evaluation, all cases. -/
theorem hCompute_spec (hT : LawfulTarget T pair)
    (hs : IsArgsort (exactOps K).le (fun _ => True) A.argsort)
    {st st' : HState S K} {r : RawVec K} {val : S} (h : hCompute A T q st r = .ok (st', val)) :
    (∃ w, hNormal A q r = .ok w ∧ jumps q w = [] ∧ st' = { st with evals := st.evals + 1 } ∧
      val = -q.noSplit) ∨
    (∃ s sp, Outcome A pair q r s sp ∧ st' = hUpdate q st s sp ∧ val = -s) := by
  cases hn : hNormal A q r with
  | error e => rw [hCompute_error hn] at h; cases h
  | ok w =>
    by_cases hj : jumps q w = []
    · rw [hCompute_flat hn hj] at h
      cases h
      exact Or.inl ⟨w, rfl, hj, rfl, rfl⟩
    · obtain ⟨s, sp, ho, he⟩ := hCompute_cut (st := st) hT hs hn hj
      rw [he] at h
      cases h
      exact Or.inr ⟨s, sp, ho, rfl, rfl⟩

omit [IsStrictOrderedRing K] [Neg S] in
theorem not_outcome_of_flat {r : RawVec K} {w : List K} (hn : hNormal A q r = .ok w)
    (hj : jumps q w = []) (s : S) (sp : HSplit K) : ¬ Outcome A pair q r s sp := by
  intro h
  have : w = sp.normal := Except.ok.inj (hn.symm.trans h.normal)
  obtain ⟨k, hk, _⟩ := h.cut
  rw [← this, hj] at hk
  cases hk

/-- Running the evaluations of `vs` from `st` gives `st'`, with the recorded values. -/
inductive Runs (A : HArith K) (T : Target K P S O) (q : HProb K P S) :
    HState S K → List (RawVec K × S) → HState S K → Prop
  | nil (st) : Runs A T q st [] st
  | snoc (st vs st' st'' r val) (h : Runs A T q st vs st') (hc : hCompute A T q st' r = .ok (st'', val)) :
      Runs A T q st (vs ++ [(r, val)]) st''

omit [IsStrictOrderedRing K] in
theorem hSolve_runs {strat : Strategy K S} {budget : Nat} {hist : List (RawVec K × S)}
    {st0 st st' : HState S K} (hr : Runs A T q st0 hist.reverse st)
    (hf : ∀ m r s, hist.reverse[m]? = some (r, s) → strat (hist.reverse.take m).reverse = .eval r)
    (h : hSolve A T q strat budget hist st = .ok st') :
    ∃ vs, Runs A T q st0 vs st' ∧ Follows strat vs := by
  induction budget generalizing hist st with
  | zero => cases h
  | succ b ih =>
    unfold hSolve at h
    split at h
    · next hstop =>
      cases h
      refine ⟨hist.reverse, hr, fun m => ⟨hf m, fun _ => by rw [List.reverse_reverse]; exact hstop⟩⟩
    · cases h
    · next r heval =>
      split at h
      · cases h
      · next st'' val hc =>
        apply ih (hist := (r, val) :: hist) (st := st'') _ _ h
        · rw [List.reverse_cons]
          exact .snoc _ _ _ _ _ _ hr hc
        · intro m r' s' hm
          rw [List.reverse_cons] at hm ⊢
          rcases Nat.lt_or_ge m hist.reverse.length with hlt | hge
          · rw [List.getElem?_append_left hlt] at hm
            rw [List.take_append_of_le_length hlt.le]
            exact hf m r' s' hm
          · rw [List.getElem?_append_right hge] at hm
            have hm0 : m - hist.reverse.length = 0 := by
              have := (List.getElem?_eq_some_iff.1 hm).1
              simpa using this
            rw [hm0] at hm
            simp only [List.getElem?_cons_zero, Option.some.injEq, Prod.mk.injEq] at hm
            have : m = hist.reverse.length := by omega
            rw [this, List.take_append_of_le_length le_rfl, List.take_length, List.reverse_reverse,
              heval, hm.1]

omit [Neg S] in
theorem totalDist_nonneg (q : HProb K P S) (sp : HSplit K) : 0 ≤ totalDist q sp := by
  unfold totalDist
  apply List.sum_nonneg
  intro x hx
  obtain ⟨i, _, rfl⟩ := List.mem_map.1 hx
  exact abs_nonneg _

theorem runs_searched (hT : LawfulTarget T pair)
    (hs : IsArgsort (exactOps K).le (fun _ => True) A.argsort) {vs : List (RawVec K × S)}
    {st : HState S K} (h : Runs A T q (hInit q) vs st) : Searched A pair q (vs.map Prod.fst) st := by
  induction h with
  | nil =>
    exact ⟨rfl, le_rfl, le_rfl, by simp, fun _ => ⟨rfl, rfl⟩, by simp [hInit]⟩
  | snoc vs st' st'' r val _ hc ih =>
    rw [List.map_append]
    rcases hCompute_spec hT hs hc with ⟨w, hn, hj, rfl, _⟩ | ⟨s, sp, ho, rfl, _⟩
    · refine ⟨by simp [ih.evals], ih.base, ih.dist, ?_, ih.none, ?_⟩
      · intro r' hr' s' sp' ho'
        rcases List.mem_append.1 hr' with hr' | hr'
        · exact ih.upper r' hr' s' sp' ho'
        · simp only [List.map_cons, List.map_nil, List.mem_singleton] at hr'
          subst hr'
          exact absurd ho' (not_outcome_of_flat hn hj s' sp')
      · intro sp hsp
        obtain ⟨pre, r0, post, e, h1, h2, h3, h4⟩ := ih.some sp hsp
        exact ⟨pre, r0, post ++ [r], by simp [e], h1, h2, h3, h4⟩
    · unfold hUpdate
      split
      · next hup =>
        have hle : st'.bestScore ≤ s := by
          rcases hup with h | h
          · exact h.le
          · exact h.1.le
        refine ⟨by simp [ih.evals], ih.base.trans hle, totalDist_nonneg q sp, ?_, by simp, ?_⟩
        · intro r' hr' s' sp' ho'
          rcases List.mem_append.1 hr' with hr' | hr'
          · obtain ⟨h1, h2⟩ := ih.upper r' hr' s' sp' ho'
            refine ⟨h1.trans hle, fun he => ?_⟩
            rcases hup with h | h
            · exact absurd he (h1.trans_lt h).ne
            · exact (h2 (by rw [h.1]; exact he)).trans h.2.le
          · simp only [List.map_cons, List.map_nil, List.mem_singleton] at hr'
            subst hr'
            obtain ⟨rfl, rfl⟩ := outcome_unique ho ho'
            exact ⟨le_rfl, fun _ => le_rfl⟩
        · intro sp' hsp'
          cases hsp'
          refine ⟨vs.map Prod.fst, r, [], by simp, ho, rfl, ?_, ?_⟩
          · intro he
            simp only at he
            rcases hup with h | h
            · exact absurd (he ▸ h : st'.bestScore < q.noSplit) (not_lt.2 ih.base)
            · exact ih.dist.trans_lt h.2
          · intro r' hr' sp'' ho''
            obtain ⟨h1, h2⟩ := ih.upper r' hr' s sp'' ho''
            rcases hup with h | h
            · exact absurd h (not_lt.2 h1)
            · exact (h2 h.1.symm).trans_lt h.2
      · next hup =>
        have hup' : s ≤ st'.bestScore ∧ (s = st'.bestScore → totalDist q sp ≤ st'.bestDist) := by
          constructor
          · exact not_lt.1 fun h => hup (Or.inl h)
          · intro he
            exact not_lt.1 fun h => hup (Or.inr ⟨he.symm, h⟩)
        refine ⟨by simp [ih.evals], ih.base, ih.dist, ?_, ih.none, ?_⟩
        · intro r' hr' s' sp' ho'
          rcases List.mem_append.1 hr' with hr' | hr'
          · exact ih.upper r' hr' s' sp' ho'
          · simp only [List.map_cons, List.map_nil, List.mem_singleton] at hr'
            subst hr'
            obtain ⟨rfl, rfl⟩ := outcome_unique ho ho'
            exact hup'
        · intro sp' hsp'
          obtain ⟨pre, r0, post, e, h1, h2, h3, h4⟩ := ih.some sp' hsp'
          exact ⟨pre, r0, post ++ [r], by simp [e], h1, h2, h3, h4⟩

theorem hSolve_searched (hT : LawfulTarget T pair)
    (hs : IsArgsort (exactOps K).le (fun _ => True) A.argsort) {strat : Strategy K S} {budget : Nat}
    {st : HState S K} (h : hSolve A T q strat budget [] (hInit q) = .ok st) :
    ∃ vs, Runs A T q (hInit q) vs st ∧ Follows strat vs ∧ Searched A pair q (vs.map Prod.fst) st := by
  obtain ⟨vs, h1, h2⟩ := hSolve_runs (st0 := hInit q) (.nil _) (by simp) h
  exact ⟨vs, h1, h2, runs_searched hT hs h1⟩

end

end BT
