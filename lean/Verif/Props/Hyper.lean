import Verif.Lemmas.HyperNode
import Verif.Lemmas.HyperSample

/-!
# Properties of the hyperplane search and fit: C46 – C49
-/

set_option linter.unusedSectionVars false

namespace BT
open Spec

section search
variable {K P S O : Type} [Field K] [LinearOrder K] [IsStrictOrderedRing K] [LinearOrder S]
  {A : HArith K} {T : Target K P S O} {pair : PairScore K P S} {q : HProb K P S}

/-- Value returned by `compute` for the vector `r`: the negative log-likelihood of not splitting if no
two consecutive projections differ, else that of the best cut along the normalised direction. -/
def Returned [Neg S] (A : HArith K) (pair : PairScore K P S) (q : HProb K P S) (r : RawVec K) (v : S) : Prop :=
  ∃ w, hNormal A q r = .ok w ∧
    ((jumps q w = [] ∧ v = -q.noSplit) ∨
      ∃ k ∈ jumps q w, v = -cutScore A.argsort pair q w k ∧
        ∀ k' ∈ jumps q w, cutScore A.argsort pair q w k' ≤ cutScore A.argsort pair q w k)

/-- C46: one evaluation never lowers the stored best log-likelihood and counts as one function
evaluation. -/
theorem C46_monotone [InvolutiveNeg S] (hT : LawfulTarget T pair)
    (hs : IsArgsort (exactOps K).le (fun _ => True) A.argsort)
    (st st' : HState S K) (r : RawVec K) (v : S) (h : hCompute A T q st r = .ok (st', v)) :
    st.bestScore ≤ st'.bestScore ∧ st'.evals = st.evals + 1 ∧ Returned A pair q r v ∧
      (q.noSplit ≤ st.bestScore → st'.bestScore = max (-v) st.bestScore) := by
  rcases hCompute_spec hT hs h with ⟨w, hn, hj, rfl, rfl⟩ | ⟨s, sp, ho, rfl, rfl⟩
  · refine ⟨le_rfl, rfl, ⟨w, hn, .inl ⟨hj, rfl⟩⟩, fun hb => ?_⟩
    rw [neg_neg]
    exact (max_eq_right hb).symm
  · obtain ⟨k, hk, e, hmax, -⟩ := ho.cut
    have hret : Returned A pair q r (-s) :=
      ⟨sp.normal, ho.normal, .inr ⟨k, hk, by rw [e], fun k' hk' => by rw [← e]; exact hmax k' hk'⟩⟩
    unfold hUpdate
    rw [neg_neg]
    split
    · next hacc =>
      have : st.bestScore ≤ s := by
        rcases hacc with h1 | h1
        · exact h1.le
        · exact h1.1.le
      exact ⟨this, rfl, hret, fun _ => (max_eq_left this).symm⟩
    · next hacc =>
      push Not at hacc
      exact ⟨le_rfl, rfl, hret, fun _ => (max_eq_right hacc.1).symm⟩

/-- C46: whatever the optimizer evaluates, afterwards the stored best log-likelihood is the maximum of
the log-likelihood without split and of all evaluated ones (the optimizer sees their negatives), and
`function_evaluations` is the number of evaluations. -/
theorem C46_best [InvolutiveNeg S] (hT : LawfulTarget T pair)
    (hs : IsArgsort (exactOps K).le (fun _ => True) A.argsort) (strat : Strategy K S) (budget : Nat)
    (st : HState S K) (h : hSolve A T q strat budget [] (hInit q) = .ok st) :
    ∃ vs : List (RawVec K × S), Follows strat vs ∧ st.evals = vs.length ∧
      (∀ p ∈ vs, Returned A pair q p.1 p.2) ∧
      st.bestScore = (vs.map fun p => -p.2).foldr max q.noSplit := by
  obtain ⟨vs, hr, hf, hse⟩ := hSolve_searched hT hs h
  refine ⟨vs, hf, by rw [hse.evals, List.length_map], ?_⟩
  clear hf h hse
  generalize hq : hInit q = st0 at hr
  have key : (∀ p ∈ vs, Returned A pair q p.1 p.2) ∧ q.noSplit ≤ st.bestScore ∧
      st.bestScore = (vs.map fun p => -p.2).foldr max q.noSplit := by
    induction hr with
    | nil => subst hq; exact ⟨by simp, le_rfl, rfl⟩
    | snoc vs st' st'' r v _ hc ih =>
      obtain ⟨i1, i2, i3⟩ := ih
      obtain ⟨m1, -, m3, m4⟩ := C46_monotone hT hs _ _ _ _ hc
      refine ⟨?_, i2.trans m1, ?_⟩
      · intro p hp
        rcases List.mem_append.1 hp with hp | hp
        · exact i1 p hp
        · rw [List.mem_singleton.1 hp]; exact m3
      · rw [m4 i2, i3, List.map_append, List.foldr_append]
        simp only [List.map_cons, List.map_nil, List.foldr_cons, List.foldr_nil]
        generalize (vs.map fun p => -p.2) = l
        induction l with
        | nil => rfl
        | cons a l ih =>
          simp only [List.foldr_cons]
          rw [← ih, max_left_comm]
  exact ⟨key.1, key.2.2⟩

/-- C47: the stored hyperplane is the outcome of an evaluation with the best log-likelihood; among those
its cumulative distance to the points is largest, and larger than that of every earlier one.  If none is
stored, every evaluated plane is less likely than no split, or as likely with all points on the plane. -/
theorem C47_ties [Neg S] (hT : LawfulTarget T pair)
    (hs : IsArgsort (exactOps K).le (fun _ => True) A.argsort) (strat : Strategy K S) (budget : Nat)
    (st : HState S K) (h : hSolve A T q strat budget [] (hInit q) = .ok st) :
    ∃ vs : List (RawVec K × S), Follows strat vs ∧
      (∀ sp, st.best = some sp → ∃ pre r v post, vs = pre ++ (r, v) :: post ∧
        Outcome A pair q r st.bestScore sp ∧
        (∀ p ∈ vs, ∀ s' sp', Outcome A pair q p.1 s' sp' → s' ≤ st.bestScore ∧
          (s' = st.bestScore → totalDist q sp' ≤ totalDist q sp)) ∧
        (∀ p ∈ pre, ∀ sp', Outcome A pair q p.1 st.bestScore sp' → totalDist q sp' < totalDist q sp)) ∧
      (st.best = none → ∀ p ∈ vs, ∀ s' sp', Outcome A pair q p.1 s' sp' →
        s' < q.noSplit ∨ (s' = q.noSplit ∧ ∀ i ∈ q.rows, elevation sp' (q.X i) = 0)) := by
  obtain ⟨vs, -, hf, hse⟩ := hSolve_searched hT hs h
  refine ⟨vs, hf, ?_, ?_⟩
  · intro sp hsp
    obtain ⟨pre, r, post, e, ho, hd, -, hfirst⟩ := hse.some sp hsp
    obtain ⟨pre', rest, rfl, rfl, hrest⟩ := List.map_eq_append_iff.1 e
    obtain ⟨a, post', rfl, rfl, rfl⟩ := List.map_eq_cons_iff.1 hrest
    refine ⟨pre', a.1, a.2, post', rfl, ho, ?_, ?_⟩
    · intro p hp s' sp' ho'
      have := hse.upper p.1 (List.mem_map_of_mem hp) s' sp' ho'
      rw [hd] at this
      exact this
    · intro p hp sp' ho'
      rw [← hd]
      exact hfirst p.1 (List.mem_map_of_mem hp) sp' ho'
  · intro hnone p hp s' sp' ho'
    obtain ⟨e1, e2⟩ := hse.none hnone
    obtain ⟨u1, u2⟩ := hse.upper p.1 (List.mem_map_of_mem hp) s' sp' ho'
    rw [e1] at u1 u2
    rw [e2] at u2
    rcases u1.lt_or_eq with hlt | heq
    · exact .inl hlt
    · refine .inr ⟨heq, fun i hi => ?_⟩
      have h0 : totalDist q sp' = 0 := le_antisymm (u2 heq) (totalDist_nonneg q sp')
      unfold totalDist at h0
      have hz : ∀ (l : List K), (∀ x ∈ l, 0 ≤ x) → l.sum = 0 → ∀ x ∈ l, x = 0 := by
        intro l
        induction l with
        | nil => simp
        | cons a l ih =>
          intro hl hsum x hx
          rw [List.sum_cons] at hsum
          have ha := hl a (by simp)
          have hl' : ∀ x ∈ l, 0 ≤ x := fun x hx => hl x (by simp [hx])
          have hsl := List.sum_nonneg hl'
          rcases List.mem_cons.1 hx with rfl | hx
          · linarith
          · exact ih hl' (by linarith) x hx
      have := hz _ (by
        intro x hx
        obtain ⟨j, -, rfl⟩ := List.mem_map.1 hx
        exact abs_nonneg _) h0 _ (List.mem_map_of_mem (f := fun i => |elevation sp' (q.X i)|) hi)
      exact abs_eq_zero.1 this

end search

section normal
variable {K P S O : Type} [Field K] [LinearOrder K] [IsStrictOrderedRing K]
  {A : HArith K} {q : HProb K P S}

theorem sum_sq_pos {l : List K} {a : K} (ha : a ∈ l) (h0 : a ≠ 0) : 0 < (l.map fun a => a * a).sum := by
  induction l with
  | nil => cases ha
  | cons b l ih =>
    have hn : 0 ≤ (l.map fun a => a * a).sum := by
      apply List.sum_nonneg
      intro x hx
      obtain ⟨c, -, rfl⟩ := List.mem_map.1 hx
      exact mul_self_nonneg c
    rw [List.map_cons, List.sum_cons]
    rcases List.mem_cons.1 ha with rfl | ha
    · have := mul_self_pos.2 h0
      linarith
    · have := ih ha
      have := mul_self_nonneg b
      linarith

theorem normalizeVec_unit (hnorm : ∀ v, A.norm v * A.norm v = (v.map fun a => a * a).sum)
    {r : RawVec K} {w : List K} (h : normalizeVec A r = .ok w) : (w.map fun a => a * a).sum = 1 := by
  unfold normalizeVec at h
  simp only at h
  split at h
  · cases h
  · next hne =>
    split at h
    · cases h
    · cases h
      have key : ∀ v : List K, (∃ a ∈ v, a ≠ 0) →
          ((v.map (· / A.norm v)).map fun a => a * a).sum = 1 := by
        rintro v ⟨a, ha, h0⟩
        have hp := sum_sq_pos ha h0
        rw [← hnorm] at hp
        have : ((v.map (· / A.norm v)).map fun a => a * a).sum =
            (v.map fun a => a * a).sum / (A.norm v * A.norm v) := by
          rw [List.map_map]
          generalize A.norm v = m
          clear hp ha
          induction v with
          | nil => simp
          | cons b v ih =>
            simp only [List.map_cons, List.sum_cons, Function.comp]
            rw [add_div, ← div_mul_div_comm]
            congr 1
        rw [this, ← hnorm, div_self hp.ne']
      apply key
      generalize hv : r.v.map (nanToNum A.big) = v at hne ⊢
      split
      · cases v with
        | nil => exact absurd rfl hne
        | cons b v => exact ⟨1, by simp, one_ne_zero⟩
      · next hall =>
        rw [List.all_eq_true] at hall
        push Not at hall
        obtain ⟨a, ha, h0⟩ := hall
        exact ⟨a, ha, by simpa using h0⟩

/-- C48: whatever vector is evaluated, if `compute` gets past the normalisation then the normal has
`n_dim` entries and Euclidean length 1. -/
theorem C48_unit (hnorm : ∀ v, A.norm v * A.norm v = (v.map fun a => a * a).sum) (r : RawVec K) (w : List K)
    (h : hNormal A q r = .ok w) : w.length = q.nDim ∧ (w.map fun a => a * a).sum = 1 := by
  refine ⟨hNormal_length h, ?_⟩
  unfold hNormal at h
  simp only at h
  split at h
  · cases h
  · split at h
    · cases h
    · next w' hw' =>
      split at h
      · cases h
      · cases h
        exact normalizeVec_unit hnorm hw'

/-- C48: every float vector of the right dimension is accepted — zeros, NaN and infinities included; a
vector of another dimension gives `ValueError`, an empty one `IndexError`, an integer one `TypeError`. -/
theorem C48_accepts (hcube : q.hypercube = false) (r : RawVec K) :
    (r.isInt = false → r.v.length = q.nDim → r.v ≠ [] → ∃ w, hNormal A q r = .ok w) ∧
    (r.isInt = false → r.v.length ≠ q.nDim → r.v ≠ [] → hNormal A q r = .error .valueError) ∧
    (r.v = [] → hNormal A q r = .error .indexError) ∧
    (r.isInt = true → r.v ≠ [] → hNormal A q r = .error .typeError) := by
  have hv : ∀ (f : XF K → K), r.v ≠ [] → r.v.map f ≠ [] := fun f h => by simpa using h
  have hlen : ∀ (v : List K), (if v.all (fun a => decide (a = 0)) then v.set 0 1 else v).length = v.length := by
    intro v; split <;> simp
  unfold hNormal normalizeVec
  simp only [hcube, Bool.false_eq_true, if_false]
  refine ⟨?_, ?_, ?_, ?_⟩
  · intro h1 h2 h3
    simp only [if_neg (hv _ h3), h1, Bool.false_eq_true, if_false, List.length_map, hlen, h2,
      not_true_eq_false, ne_eq]
    exact ⟨_, rfl⟩
  · intro h1 h2 h3
    simp only [if_neg (hv _ h3), h1, Bool.false_eq_true, if_false, List.length_map, hlen, ne_eq, h2,
      not_false_eq_true, if_true]
  · intro h1
    simp only [h1, List.map_nil, if_true]
  · intro h1 h2
    simp only [if_neg (hv _ h2), h1, if_true]

/-- C48: every split of a fitted hyperplane tree has a unit normal with `n_dim` entries; its origin has
`n_dim` entries too. -/
theorem C48_tree [LinearOrder S] [Neg S] {c : HCtx K P S O} {pair : PairScore K P S}
    (hT : LawfulTarget c.T pair)
    (hs : IsArgsort (exactOps K).le (fun _ => True) c.A.argsort)
    (hnorm : ∀ v, c.A.norm v * c.A.norm v = (v.map fun a => a * a).sum)
    (hd0 : ∀ y p, c.T.posterior y p 0 = p) (n : Nat) (prior : Option P) (t : HNode S K P)
    (h : hFitRoot c prior n = .ok t)
    (addr : List Bool) (i : Info K P) (sp : HSplit K) (l b : S) (c1 c2 : HNode S K P)
    (hu : nodeAt t addr = some (.split i sp l b c1 c2)) :
    sp.normal.length = c.nDim ∧ sp.origin.length = c.nDim ∧ (sp.normal.map fun a => a * a).sum = 1 := by
  obtain ⟨st, vs, hb, -, -, -, hse, -, -⟩ := hFit_split hT hs hd0 h hu
  obtain ⟨pre, r, post, -, ho, -⟩ := hse.some sp hb
  obtain ⟨h1, h2⟩ := C48_unit hnorm r sp.normal ho.normal
  obtain ⟨k, -, -, -, -, x, z, -, -, e⟩ := ho.cut
  refine ⟨h1, ?_, h2⟩
  rw [e]
  simp [halfway, hProblem]

end normal

section fit
variable {K P S O : Type} [Field K] [LinearOrder K] [IsStrictOrderedRing K] [LinearOrder S] [Neg S]
  {c : HCtx K P S O} {pair : PairScore K P S} {n : Nat} {prior : Option P} {t : HNode S K P}

/-- C49: `n_data_` and `posterior_` of every node are those of the training rows that `predict` routes
through it (the posterior of the root's prior), and both children of a split receive rows. -/
theorem C49_rows_routed_back (hT : LawfulTarget c.T pair)
    (hs : IsArgsort (exactOps K).le (fun _ => True) c.A.argsort)
    (hd0 : ∀ y p, c.T.posterior y p 0 = p) (h : hFitRoot c prior n = .ok t)
    (addr : List Bool) (u : HNode S K P) (hu : nodeAt t addr = some u) :
    u.info.nData = (hRouted c t n addr).length ∧
    u.info.posterior = c.T.posterior ((hRouted c t n addr).map c.y) (c.T.getPrior prior n c.nDim) 1 ∧
    (u.isLeaf = false → hRouted c t n (addr ++ [false]) ≠ [] ∧ hRouted c t n (addr ++ [true]) ≠ [] ∧
      u.info.nData = (hRouted c t n (addr ++ [false])).length + (hRouted c t n (addr ++ [true])).length) := by
  obtain ⟨par, pa, u0, hB, hpar, hp, hi, hsp⟩ := hFit_node_prior hT hs hd0 h hu
  have h12 : u.info.nData = (hRouted c t n addr).length ∧
      u.info.posterior = c.T.posterior ((hRouted c t n addr).map c.y) (c.T.getPrior prior n c.nDim) 1 := by
    rw [hi]
    cases hB with
    | direct p pa => exact ⟨rfl, by rw [← hpar p rfl]; rfl⟩
    | stay => exact ⟨rfl, by rw [← hp]; rfl⟩
    | split => exact ⟨rfl, by rw [← hp]; rfl⟩
  refine ⟨h12.1, h12.2, ?_⟩
  intro hl
  cases u with
  | leaf => cases hl
  | split i sp l b c1 c2 =>
    obtain ⟨-, -, -, -, -, -, -, h1, h2⟩ := hFit_split hT hs hd0 h hu
    obtain ⟨e1, e2⟩ := hRouted_snoc (c := c) (n := n) hu
    rw [e1, e2]
    exact ⟨h1, h2, by rw [above_below_length]; exact h12.1⟩

/-- C49: `fit` fails only if the optimizer's `solve` (or an evaluation in it) fails on the rows of some
node, with the same exception; in particular it returns whenever all those searches return. -/
theorem C49_terminates (c : HCtx K P S O) (prior : Option P) (n : Nat) :
    (∃ t, hFitRoot c prior n = .ok t) ∨
    ∃ e p lv R, R.Sublist (List.range n) ∧ hFitRoot c prior n = .error e ∧
      hSolve c.A c.T (hProblem c p lv R) (c.opt.solve (hProblem c p lv R)) c.budget []
        (hInit (hProblem c p lv R)) = .error e := by
  cases hf : hFit c (n + 1) prior 0 (List.range n) with
  | error e =>
    obtain ⟨p, lv, R, h1, h2⟩ := hFit_total (by simp) hf
    refine .inr ⟨e, p, lv, R, h1, ?_, h2⟩
    unfold hFitRoot
    rw [hf]
  | ok t =>
    left
    unfold hFitRoot
    rw [hf]
    cases hp : c.hp.prune with
    | false => exact ⟨t, rfl⟩
    | true => exact ⟨_, prune_eq _ _⟩

end fit

/-! Non-vacuity: a real classification fit with an oblique root split and a second one below it. -/

theorem cls_sample_routed : hRouted (hSampleCtx 0) (hSampleTree 0) 9 [] = List.range 9 ∧
    hRouted (hSampleCtx 0) (hSampleTree 0) 9 [true] = [2, 5, 6, 7] ∧
    hRouted (hSampleCtx 0) (hSampleTree 0) 9 [true, true] = [2, 5, 6] := by decide +kernel

example : ∃ u, nodeAt (castHTree (hSampleHp 0) (hSampleTree 0)) [true] = some u ∧ u.isLeaf = false ∧
    u.info.nData = (hRouted (hSampleReal 0) (castHTree (hSampleHp 0) (hSampleTree 0)) 9 [true]).length ∧
    u.info.nData = 4 := by
  refine ⟨_, rfl, rfl, (C49_rows_routed_back (pair := clsPair realFns) (cls_lawful realFns) realSort_spec
    (cls_delta_zero realFns) hSampleReal_fit [true] _ rfl).1, rfl⟩

example : (([-4/5, 3/5] : List ℚ).map fun a : ℚ => ((a : ℝ)) * (a : ℝ)).sum = 1 := by
  have := (C48_tree (pair := clsPair realFns) (cls_lawful realFns) realSort_spec
    (fun v => (realArith_norm v).2) (cls_delta_zero realFns) 9 _ _ hSampleReal_fit [] _ _ _ _ _ _ rfl).2.2
  simpa [castSp, castL] using this

/-- An infinite, a NaN and an ordinary entry together are accepted. -/
example (q : HProb ℝ (List ℝ) ℝ) (h : q.nDim = 3) (hc : q.hypercube = false) :
    ∃ w, hNormal realArith q ⟨false, [.pinf, .nan, .fin 2]⟩ = .ok w ∧ w.length = 3 ∧
      (w.map fun a => a * a).sum = 1 := by
  obtain ⟨w, hw⟩ := (C48_accepts (A := realArith) hc ⟨false, [.pinf, .nan, .fin 2]⟩).1 rfl h.symm (by simp)
  obtain ⟨h1, h2⟩ := C48_unit (fun v => (realArith_norm v).2) _ _ hw
  exact ⟨w, hw, h1.trans h, h2⟩

/-- Three evaluations at the root of the sample: the third one is the best. -/
example : ∃ st, hSolve ratArith (probTarget ℚ) (hProblem (hSampleCtx 0) [1, 1] 0 (List.range 9))
      ((hSampleCtx 0).opt.solve (hProblem (hSampleCtx 0) [1, 1] 0 (List.range 9))) 5 []
      (hInit (hProblem (hSampleCtx 0) [1, 1] 0 (List.range 9))) = .ok st ∧
    st.evals = 3 ∧ st.best = some ⟨[-4/5, 3/5], [1/2, 3/2]⟩ := by
  have hS : hSolve ratArith (probTarget ℚ) (hProblem (hSampleCtx 0) [1, 1] 0 (List.range 9))
      ((hSampleCtx 0).opt.solve (hProblem (hSampleCtx 0) [1, 1] 0 (List.range 9))) 5 []
      (hInit (hProblem (hSampleCtx 0) [1, 1] 0 (List.range 9))) =
      .ok ⟨3, 3/6400, 133/10, some ⟨[-4/5, 3/5], [1/2, 3/2]⟩⟩ := by
    decide +kernel
  exact ⟨_, hS, rfl, rfl⟩

end BT
