import Verif.Props.Hyper
import Verif.Spec.Importance
import Verif.Props.Measure

/-!
# Scores, priors and importances of hyperplane trees: C50 – C52
-/

set_option linter.unusedSectionVars false

namespace BT
open Spec

section score
variable {K P S O : Type} [Field K] [LinearOrder K] [IsStrictOrderedRing K] [LinearOrder S] [Neg S]
  {c : HCtx K P S O} {pair : PairScore K P S} {n : Nat} {prior : Option P} {t : HNode S K P}

/-- C50 (second half): points with the same projection on the stored normal are never separated. -/
theorem C50_equal_projections (sp : HSplit K) (x x' : Nat → K)
    (h : along sp.normal x = along sp.normal x') :
    hyperRouter.goes1 sp x = hyperRouter.goes1 sp x' ∧ hyperRouter.goes2 sp x = hyperRouter.goes2 sp x' := by
  simp only [hyperRouter, signedDistance_eq, elevation, h, and_self]

/-- Projection of the point halfway between two rows. -/
theorem along_halfway (q : HProb K P S) (w : List K) (hw : w.length = q.nDim) (i j : Nat) :
    along w (point (halfway q i j)) = (along w (q.X i) + along w (q.X j)) / 2 := by
  unfold along
  have e : ∀ d ∈ List.range w.length, point (halfway q i j) d * w.getD d 0 =
      (q.X i d * w.getD d 0 + q.X j d * w.getD d 0) / 2 := by
    intro d hd
    rw [List.mem_range, hw] at hd
    have : point (halfway q i j) d = (q.X i d + q.X j d) / 2 := by
      unfold point halfway
      simp [hd]
    rw [this]
    ring
  rw [List.map_congr_left e]
  generalize List.range w.length = l
  induction l with
  | nil => simp
  | cons a l ih => simp only [List.map_cons, List.sum_cons, ih]; ring

/-- C50 partial: if no two rows of the node have the same projection on the stored normal, then
`best_log_p_data_split_` is the log-likelihood of the partition induced by the stored hyperplane, with the
number of split positions the search has counted.  Missing for the full claim: equal projections, where it
is false (`C50_refuted`). -/
theorem C50_score_realised_partial (hT : LawfulTarget c.T pair)
    (hs : IsArgsort (exactOps K).le (fun _ => True) c.A.argsort)
    (hd0 : ∀ y p, c.T.posterior y p 0 = p) (h : hFitRoot c prior n = .ok t)
    (addr : List Bool) (i : Info K P) (sp : HSplit K) (l b : S) (c1 c2 : HNode S K P)
    (hu : nodeAt t addr = some (.split i sp l b c1 c2))
    (hdis : (hRouted c t n addr).Pairwise fun i j => along sp.normal (c.X i) ≠ along sp.normal (c.X j)) :
    b = pair c.hp.partitionPrior addr.length (c.T.getPrior prior n c.nDim) c.nDim
        (jumps (hProblem c (c.T.getPrior prior n c.nDim) addr.length (hRouted c t n addr)) sp.normal).length
        ((hRouted c t n (addr ++ [false])).map c.y) ((hRouted c t n (addr ++ [true])).map c.y) := by
  obtain ⟨st, vs, hb, rfl, -, -, hse, -, -⟩ := hFit_split hT hs hd0 h hu
  obtain ⟨e1, e2⟩ := hRouted_snoc (c := c) (n := n) hu
  rw [e1, e2]
  obtain ⟨pre, r, post, -, ho, -⟩ := hse.some sp hb
  obtain ⟨k, hk, e, -, -, x, z, hx, hz, horig⟩ := ho.cut
  rw [e]
  set q := hProblem c (c.T.getPrior prior n c.nDim) addr.length (hRouted c t n addr) with hq
  have hperm : (byCoordinate c.A.argsort q sp.normal).Perm (hRouted c t n addr) := argsort_perm_rows hs _
  have hsort := byCoordinate_sorted (q := q) hs sp.normal
  set B := byCoordinate c.A.argsort q sp.normal with hB
  have hdisB : B.Pairwise fun i j => along sp.normal (c.X i) ≠ along sp.normal (c.X j) :=
    hperm.symm.pairwise hdis (fun h => h.symm)
  have hstrict : B.Pairwise fun i j => along sp.normal (c.X i) < along sp.normal (c.X j) :=
    List.Pairwise.imp₂ (fun a b h1 h2 => lt_of_le_of_ne h1 h2) hsort hdisB
  have hk1 : 1 ≤ k := by
    unfold jumps at hk
    rw [List.mem_filter, decide_eq_true_eq] at hk
    exact hk.2.1
  have hkl : k < B.length := (List.getElem?_eq_some_iff.1 hz).1
  have hzB : B[k] = z := (List.getElem?_eq_some_iff.1 hz).2
  have hxB : B[k - 1] = x := (List.getElem?_eq_some_iff.1 hx).2
  have hmono : ∀ (a b : Nat) (ha : a < B.length) (hb : b < B.length), a ≤ b →
      along sp.normal (c.X B[a]) ≤ along sp.normal (c.X B[b]) := by
    intro a b ha hb hab
    rcases Nat.lt_or_eq_of_le hab with h1 | h1
    · exact le_of_lt (List.pairwise_iff_getElem.1 hstrict a b ha hb h1)
    · subst h1; exact le_rfl
  have hlt : along sp.normal (c.X x) < along sp.normal (c.X z) := by
    have := List.pairwise_iff_getElem.1 hstrict (k - 1) k (by omega) hkl (by omega)
    rwa [hzB, hxB] at this
  have hel : ∀ j, elevation sp (c.X j) = along sp.normal (c.X j) -
      (along sp.normal (c.X x) + along sp.normal (c.X z)) / 2 := by
    intro j
    unfold elevation
    rw [horig, along_halfway q sp.normal (hNormal_length ho.normal)]
    rfl
  have htake : ∀ j ∈ B.take k, elevation sp (c.X j) < 0 := by
    intro j hj
    obtain ⟨a, ha, rfl⟩ := List.mem_take_iff_getElem.1 hj
    have ha' : a < k := lt_of_lt_of_le ha (min_le_left _ _)
    have := hmono a (k - 1) (by omega) (by omega) (by omega)
    rw [hxB] at this
    rw [hel]
    linarith
  have hdrop : ∀ j ∈ B.drop k, 0 ≤ elevation sp (c.X j) := by
    intro j hj
    obtain ⟨a, ha, rfl⟩ := List.mem_drop_iff_getElem.1 hj
    have := hmono k (k + a) hkl (by omega) (by omega)
    rw [hzB] at this
    rw [hel]
    linarith
  have hf1 : below c B sp = B.take k := by
    unfold below
    conv_lhs => rw [← List.take_append_drop k B]
    rw [List.filter_append, List.filter_eq_self.2 (fun j hj => decide_eq_true (htake j hj)),
      List.filter_eq_nil_iff.2 (fun j hj => by
        have := hdrop j hj
        rw [decide_eq_true_eq, not_lt]; exact this), List.append_nil]
  have hf2 : above c B sp = B.drop k := by
    unfold above
    conv_lhs => rw [← List.take_append_drop k B]
    rw [List.filter_append, List.filter_eq_nil_iff.2 (fun j hj => by
        have := htake j hj
        rw [decide_eq_true_eq, not_le]; exact this),
      List.filter_eq_self.2 (fun j hj => decide_eq_true (hdrop j hj)), List.nil_append]
  unfold cutScore
  refine hT.pair_perm _ _ _ _ _ _ _ _ _ ?_ ?_
  · rw [← hB, ← hf1]
    exact (hperm.filter _).map _
  · rw [← hB, ← hf2]
    exact (hperm.filter _).map _

/-- C50, addition: that number of positions is the number of rows minus one if consecutive rows differ by
more than the precision. -/
theorem C50_positions (q : HProb K P S) (w : List K)
    (h : ∀ k, 1 ≤ k → k < q.rows.length →
      q.prec < |along w (q.X (q.rows.getD k 0)) - along w (q.X (q.rows.getD (k - 1) 0))|) :
    (jumps q w).length = q.rows.length - 1 := by
  unfold jumps
  cases hm : q.rows.length with
  | zero => simp
  | succ m =>
    rw [List.range_succ_eq_map, List.filter_cons_of_neg (by simp), List.filter_eq_self.2]
    · simp
    · intro k hk
      obtain ⟨j, hj, rfl⟩ := List.mem_map.1 hk
      have hj' := List.mem_range.1 hj
      exact decide_eq_true ⟨by omega, h (j + 1) (by omega) (by omega)⟩

end score

/-- C50 is false in general: six points on a line, a real classification fit.  The positions of the
candidate cuts are taken from the unsorted projections, so the search evaluates a cut between two equal
points; the stored log-likelihood exceeds that of the partition that is actually made, whatever number of
candidate positions one uses in the split prior. -/
theorem C50_refuted : ∃ (c : HCtx ℝ (List ℝ) ℝ (List ℝ)) (n : Nat) (prior : List ℝ) (i : Info ℝ (List ℝ))
    (sp : HSplit ℝ) (l b : ℝ) (c1 c2 : HNode ℝ ℝ (List ℝ)),
    c.T = clsTarget realFns ∧ IsArgsort (exactOps ℝ).le (fun _ => True) c.A.argsort ∧
    hFitRoot c (some prior) n = .ok (.split i sp l b c1 c2) ∧
    ∀ ns : Nat, 1 ≤ ns →
      clsPair realFns c.hp.partitionPrior 0 prior c.nDim ns
        ((below c (List.range n) sp).map c.y) ((above c (List.range n) sp).map c.y) < b := by
  refine ⟨hTieReal, 6, castL [1, 1], _, _, _, _, _, _, rfl, realSort_spec, hTieReal_fit, ?_⟩
  intro ns hns
  have hb : below hTieReal (List.range 6) (castSp ⟨[1], [1]⟩) = below hTieCtx (List.range 6) ⟨[1], [1]⟩ := by
    rw [← below_eq, ← below_eq]
    exact List.filter_congr fun j _ => goes1_cast ⟨[1], [1]⟩ (hTieCtx.X j)
  have ha : above hTieReal (List.range 6) (castSp ⟨[1], [1]⟩) = above hTieCtx (List.range 6) ⟨[1], [1]⟩ := by
    rw [← above_eq, ← above_eq]
    exact List.filter_congr fun j _ => goes2_cast ⟨[1], [1]⟩ (hTieCtx.X j)
  rw [hb, ha]
  have hb' : (below hTieCtx (List.range 6) ⟨[1], [1]⟩).map hTieCtx.y = [0, 0] := by decide +kernel
  have ha' : (above hTieCtx (List.range 6) ⟨[1], [1]⟩).map hTieCtx.y = [0, 0, 1, 1] := by decide +kernel
  have hyb : (below hTieCtx (List.range 6) ⟨[1], [1]⟩).map hTieReal.y = castL [0, 0] := by
    rw [← hb', ← castL_map_y]; rfl
  have hya : (above hTieCtx (List.range 6) ⟨[1], [1]⟩).map hTieReal.y = castL [0, 0, 1, 1] := by
    rw [← ha', ← castL_map_y]; rfl
  rw [hyb, hya]
  have hp : GoodPrior ([1, 1] : List ℚ) := ⟨by simp, by decide +kernel⟩
  obtain ⟨e, hpos⟩ := pair_cast (pp := 9/10) (nDim := 1) ⟨by norm_num, by norm_num, by decide⟩ 0 [1, 1] ns
    [0, 0] [0, 0, 1, 1] hp hns (by simp) (by simp)
  have hpp : hTieReal.hp.partitionPrior = ((9/10 : ℚ) : ℝ) := rfl
  have hnd : hTieReal.nDim = 1 := rfl
  rw [hpp, hnd, e]
  show logCast _ < logCast (3/50)
  rw [logCast_lt hpos (by norm_num)]
  have e1 : dirMult ([1, 1] : List ℚ) [0, 0] = 1/3 := by decide +kernel
  have e2 : dirMult ([1, 1] : List ℚ) [0, 0, 1, 1] = 1/30 := by decide +kernel
  unfold probPair
  rw [e1, e2]
  have hns' : (1 : ℚ) ≤ (ns : ℚ) := by exact_mod_cast hns
  have : (9/10 : ℚ) ^ (0 + 1) / ((ns : ℚ) * ((1 : Nat) : ℚ)) ≤ 9/10 := by
    rw [pow_one, Nat.cast_one, mul_one]
    exact div_le_self (by norm_num) hns'
  nlinarith

section delta
variable {K P S O : Type} [Field K] [LinearOrder K] [IsStrictOrderedRing K] [LinearOrder S] [Neg S]

/-- The same problem with another `delta`. -/
def withDelta (c : HCtx K P S O) (d : K) : HCtx K P S O := { c with hp := { c.hp with delta := d } }

/-- The same tree with other constructor parameters recorded in its nodes. -/
def withHyper (hp : Hyper K) : HNode S K P → HNode S K P := mapNode hp id id id

theorem withDelta_fit (c : HCtx K P S O) (d : K) (fuel : Nat) (pa : Option P) (lv : Nat) (R : List Nat) :
    hFit (withDelta c d) fuel pa lv R = (hFit c fuel pa lv R).map (withHyper (withDelta c d).hp) := by
  induction fuel generalizing pa lv R with
  | zero => rfl
  | succ fuel ih =>
    have hq : ∀ p, hProblem (withDelta c d) p lv R = hProblem c p lv R := fun p => rfl
    have hT : (withDelta c d).T = c.T := rfl
    have hA : (withDelta c d).A = c.A := rfl
    have ho : (withDelta c d).opt = c.opt := rfl
    have hbu : (withDelta c d).budget = c.budget := rfl
    have hX : (withDelta c d).X = c.X := rfl
    have hy : (withDelta c d).y = c.y := rfl
    have hnd : (withDelta c d).nDim = c.nDim := rfl
    conv_lhs => unfold hFit
    conv_rhs => unfold hFit
    simp only [hq, hT, hA, ho, hbu, hX, hy, hnd, ih]
    cases hSolve c.A c.T (hProblem c (c.T.getPrior pa R.length c.nDim) lv R)
        (c.opt.solve (hProblem c (c.T.getPrior pa R.length c.nDim) lv R)) c.budget []
        (hInit (hProblem c (c.T.getPrior pa R.length c.nDim) lv R)) with
    | error e => rfl
    | ok st =>
      dsimp only
      cases st.best with
      | none => simp only [Except.map, withHyper, mapNode, mapInfo, Option.map_id, id]
      | some sp =>
        simp only
        generalize (R.filter fun i => hyperRouter.goes1 sp (c.X i)) = R1
        generalize (R.filter fun i => hyperRouter.goes2 sp (c.X i)) = R2
        have hchild : ∀ (R' : List Nat) (p0 p1 : P),
            (if R'.length > 1 ∧ (distinct (R'.map c.y)).length > 1 then
              (hFit c fuel (some p0) (lv + 1) R').map (withHyper (withDelta c d).hp)
            else .ok (.leaf (hChildInfo (withDelta c d) p0 (lv + 1) R'.length p1))) =
            (if R'.length > 1 ∧ (distinct (R'.map c.y)).length > 1 then
              hFit c fuel (some p0) (lv + 1) R'
            else .ok (.leaf (hChildInfo c p0 (lv + 1) R'.length p1))).map (withHyper (withDelta c d).hp) := by
          intro R' p0 p1
          split <;> rfl
        rw [hchild, hchild]
        by_cases hlen : R1.length > 0 ∧ R2.length > 0
        · rw [if_pos hlen, if_pos hlen]
          generalize (if R1.length > 1 ∧ (distinct (R1.map c.y)).length > 1 then
              hFit c fuel (some _) (lv + 1) R1 else _) = x1
          generalize (if R2.length > 1 ∧ (distinct (R2.map c.y)).length > 1 then
              hFit c fuel (some _) (lv + 1) R2 else _) = x2
          cases x1 with
          | error e => rfl
          | ok a =>
            cases x2 with
            | error e => rfl
            | ok b => simp only [Except.map, withHyper, mapNode, mapInfo, Option.map_id, id]
        · rw [if_neg hlen, if_neg hlen]
          simp only [Except.map, withHyper, mapNode, mapInfo, Option.map_id, id]

/-- C51, what the code does: `delta` has no effect at all — a fit with another value fails in the same way
or returns the same tree, except for the recorded parameter. -/
theorem C51_delta_ignored [DecidableEq O] (c : HCtx K P S O) (d : K) (prior : Option P) (n : Nat) :
    hFitRoot (withDelta c d) prior n = (hFitRoot c prior n).map (withHyper (withDelta c d).hp) := by
  unfold hFitRoot
  rw [withDelta_fit]
  cases hFit c (n + 1) prior 0 (List.range n) with
  | error e => rfl
  | ok t =>
    simp only [Except.map]
    have hp : (withDelta c d).hp.prune = c.hp.prune := rfl
    have hT : (withDelta c d).T = c.T := rfl
    rw [hp, hT]
    cases c.hp.prune with
    | false => rfl
    | true =>
      rw [if_pos rfl, if_pos rfl, prune_eq, prune_eq]
      simp only
      congr 1
      exact merge_mapNode _ _ _ _ _ _ (fun _ _ => Iff.rfl) t

/-- C51, what the code does: every node below the root has the root's prior as its prior. -/
theorem C51_child_prior {c : HCtx K P S O} {pair : PairScore K P S} (hT : LawfulTarget c.T pair)
    (hs : IsArgsort (exactOps K).le (fun _ => True) c.A.argsort)
    (hd0 : ∀ y p, c.T.posterior y p 0 = p) (n : Nat) (prior : Option P) (t : HNode S K P)
    (h : hFitRoot c prior n = .ok t) (addr : List Bool) (hne : addr ≠ []) (u : HNode S K P)
    (hu : nodeAt t addr = some u) : u.info.prior = some (c.T.getPrior prior n c.nDim) := by
  obtain ⟨t0, hb, hcut, -, -⟩ := hFitRoot_cutOff hT hs h
  obtain ⟨u0, hu0, hinfo, -⟩ := hcut.node addr u hu
  rw [hinfo, hBuilt_child_prior hT hd0 hb hne hu0]
  unfold hPrior
  rw [List.length_range]

/-- C51 partial: for `delta = 0` the prior of a child is its parent's prior, strengthened with weight
`delta` by the child's data, as documented.  Missing for the full claim: `delta > 0`, where it is false
(`C51_refuted`). -/
theorem C51_delta_partial {c : HCtx K P S O} {pair : PairScore K P S} (hT : LawfulTarget c.T pair)
    (hs : IsArgsort (exactOps K).le (fun _ => True) c.A.argsort)
    (hd0 : ∀ y p, c.T.posterior y p 0 = p) (n : Nat) (p0 : P) (t : HNode S K P)
    (h : hFitRoot c (some p0) n = .ok t) (hdelta : c.hp.delta = 0) (addr : List Bool) (b : Bool)
    (v u : HNode S K P) (hv : nodeAt t addr = some v) (hu : nodeAt t (addr ++ [b]) = some u) :
    ∃ p, v.info.prior = some p ∧
      u.info.prior = some (c.T.posterior ((hRouted c t n (addr ++ [b])).map c.y) p c.hp.delta) := by
  have hg : c.T.getPrior (some p0) n c.nDim = p0 := hT.getPrior_some _ _ _
  have hu' := C51_child_prior hT hs hd0 n (some p0) t h (addr ++ [b]) (by simp) u hu
  rw [hg] at hu'
  rw [hdelta, hu']
  refine ⟨p0, ?_, by rw [hd0]⟩
  cases addr with
  | nil =>
    rw [nodeAt_nil] at hv
    cases Option.some.inj hv
    obtain ⟨t0, hb, hcut, -, -⟩ := hFitRoot_cutOff hT hs h
    obtain ⟨u0, hu0, hinfo, -⟩ := hcut.node [] t (nodeAt_nil t)
    rw [nodeAt_nil] at hu0
    cases Option.some.inj hu0
    rw [hinfo]
    cases hb <;> rfl
  | cons a as =>
    rw [C51_child_prior hT hs hd0 n (some p0) t h (a :: as) (by simp) v hv, hg]

end delta

/-- C51 is false: a real classification fit with `delta = 1` in which the prior of the first child is not
its parent's prior strengthened by the child's data. -/
theorem C51_refuted : ∃ (c : HCtx ℝ (List ℝ) ℝ (List ℝ)) (n : Nat) (prior : List ℝ) (t u : HNode ℝ ℝ (List ℝ)),
    c.T = clsTarget realFns ∧ IsArgsort (exactOps ℝ).le (fun _ => True) c.A.argsort ∧ c.hp.delta = 1 ∧
    hFitRoot c (some prior) n = .ok t ∧ nodeAt t [false] = some u ∧
    u.info.prior ≠ some (c.T.posterior ((hRouted c t n [false]).map c.y) prior c.hp.delta) := by
  have hfit := hSampleReal_fit_delta
  have hd : (hSampleReal 1).hp.delta = 1 := by simp [hSampleReal, castHCtx, castHp, hSampleCtx, hSampleHp]
  refine ⟨hSampleReal 1, 9, castL [1, 1], _, _, rfl, realSort_spec, hd, hfit, rfl, ?_⟩
  have hpost := (C49_rows_routed_back (pair := clsPair realFns) (cls_lawful realFns) realSort_spec
    (cls_delta_zero realFns) hfit [false] _ rfl).2.1
  have hg : (hSampleReal 1).T.getPrior (some (castL [1, 1])) 9 (hSampleReal 1).nDim = castL [1, 1] := rfl
  rw [hg] at hpost
  rw [hd]
  intro hcon
  have hcon2 := hcon.trans (congrArg some hpost.symm)
  have : castL [1, 1] = castL [6, 1] := Option.some.inj hcon2
  simp [castL] at this

section importance
variable {K P : Type} [Field K] [LinearOrder K] [IsStrictOrderedRing K]

/-- Sum over the splits of gain times absolute normal component. -/
def hGainOn (d : Nat) (l : List (HSplit K × K × K)) : K :=
  (l.map fun s => (s.2.2 - s.2.1) * |s.1.normal.getD d 0|).sum

theorem hUpdate_get (nd : Nat) (t : HNode K K P) (hlen : ∀ s ∈ splits t, s.1.normal.length = nd)
    (fi : List K) (hfi : fi.length = nd) :
    hyperUpdateImportance t fi = (List.range nd).map fun d => fi.getD d 0 + hGainOn d (splits t) := by
  induction t generalizing fi with
  | leaf i =>
    simp only [hyperUpdateImportance, splits, hGainOn, List.map_nil, List.sum_nil, add_zero]
    apply List.ext_getElem?
    intro d
    rw [List.getElem?_map]
    by_cases hd : d < nd
    · simp [hd, hfi]
    · simp [hd, hfi]
  | split i sp l b c1 c2 ih1 ih2 =>
    have h1 : ∀ s ∈ splits c1, s.1.normal.length = nd := fun s hs => hlen s (by simp [splits, hs])
    have h2 : ∀ s ∈ splits c2, s.1.normal.length = nd := fun s hs => hlen s (by simp [splits, hs])
    have h0 : sp.normal.length = nd := hlen (sp, l, b) (by simp [splits])
    have hz : (List.zipWith (fun f v => f + (b - l) * |v|) fi sp.normal).length = nd := by simp [hfi, h0]
    rw [hyperUpdateImportance, ih1 h1 _ hz, ih2 h2 _ (by simp)]
    apply List.map_congr_left
    intro d hd
    have hd' := List.mem_range.1 hd
    have e1 : (List.map (fun d => (List.zipWith (fun f v => f + (b - l) * |v|) fi sp.normal).getD d 0 +
        hGainOn d (splits c1)) (List.range nd)).getD d 0 =
        (List.zipWith (fun f v => f + (b - l) * |v|) fi sp.normal).getD d 0 + hGainOn d (splits c1) := by
      simp [hd']
    have e2 : (List.zipWith (fun f v => f + (b - l) * |v|) fi sp.normal).getD d 0 =
        fi.getD d 0 + (b - l) * |sp.normal.getD d 0| := by
      have a1 : d < fi.length := by omega
      have a2 : d < sp.normal.length := by omega
      simp [a1, a2]
    rw [e1, e2]
    simp only [splits, hGainOn, List.map_cons, List.sum_cons, List.map_append, List.sum_append]
    ring

/-- C52 partial: if some split of the tree has a strictly positive gain, then `feature_importance()` has
`n_dim` entries, is non-negative and sums to 1; entry `d` is proportional to the sum over the splits of
gain times `|normal[d]|`.  Missing for the full claim: trees all of whose splits have gain zero, where the
result is NaN (`C52_refuted`). -/
theorem C52_importance_partial {O : Type} {c : HCtx K P K O} {pair : PairScore K P K}
    (hT : LawfulTarget c.T pair) (hs : IsArgsort (exactOps K).le (fun _ => True) c.A.argsort)
    (hnorm : ∀ v, c.A.norm v * c.A.norm v = (v.map fun a => a * a).sum)
    (hd0 : ∀ y p, c.T.posterior y p 0 = p) (n : Nat) (prior : Option P) (t : HNode K K P)
    (h : hFitRoot c prior n = .ok t) (hpos : ∃ s ∈ splits t, s.2.1 < s.2.2) :
    ∃ w : List K, hyperFeatureImportance c.nDim t = w.map some ∧ w.length = c.nDim ∧ w.sum = 1 ∧
      (∀ v ∈ w, 0 ≤ v) ∧ ∃ total, 0 < total ∧
        ∀ d < c.nDim, w[d]? = some (hGainOn d (splits t) / total) := by
  have hsp : ∀ s ∈ splits t, s.1.normal.length = c.nDim ∧ (s.1.normal.map fun a => a * a).sum = 1 ∧
      s.2.1 ≤ s.2.2 := by
    intro s hs'
    obtain ⟨addr, i, c1, c2, hu⟩ := mem_splits.1 hs'
    obtain ⟨u1, -, u2⟩ := C48_tree hT hs hnorm hd0 n prior t h addr i s.1 s.2.1 s.2.2 c1 c2 hu
    obtain ⟨st, vs, -, hb, hl, -, hse, -, -⟩ := hFit_split hT hs hd0 h hu
    refine ⟨u1, u2, ?_⟩
    rw [← hb, hl]
    exact hse.base
  have hraw : hyperUpdateImportance t (List.replicate c.nDim 0) =
      (List.range c.nDim).map fun d => hGainOn d (splits t) := by
    rw [hUpdate_get c.nDim t (fun s hs' => (hsp s hs').1) _ (by simp)]
    apply List.map_congr_left
    intro d hd
    have hd' := List.mem_range.1 hd
    simp [hd']
  have hnn : ∀ d, 0 ≤ hGainOn d (splits t) := by
    intro d
    apply List.sum_nonneg
    intro x hx
    obtain ⟨s, hs', rfl⟩ := List.mem_map.1 hx
    exact mul_nonneg (by linarith [(hsp s hs').2.2]) (abs_nonneg _)
  have hex : ∃ d < c.nDim, 0 < hGainOn d (splits t) := by
    obtain ⟨s, hs', hgt⟩ := hpos
    obtain ⟨h1, h2, -⟩ := hsp s hs'
    have : ∃ a ∈ s.1.normal, a ≠ 0 := by
      by_contra hcon
      push Not at hcon
      have : (s.1.normal.map fun a => a * a) = s.1.normal.map fun _ => 0 :=
        List.map_congr_left fun a ha => by rw [hcon a ha, mul_zero]
      rw [this] at h2
      simp at h2
    obtain ⟨a, ha, hane⟩ := this
    obtain ⟨d, hd, rfl⟩ := List.getElem_of_mem ha
    refine ⟨d, by omega, ?_⟩
    have hterm : 0 < (s.2.2 - s.2.1) * |s.1.normal.getD d 0| := by
      apply mul_pos (by linarith)
      rw [abs_pos]
      simpa [hd] using hane
    have hle : (s.2.2 - s.2.1) * |s.1.normal.getD d 0| ≤ hGainOn d (splits t) := by
      apply List.single_le_sum
      · intro x hx
        obtain ⟨s', hs'', rfl⟩ := List.mem_map.1 hx
        exact mul_nonneg (by linarith [(hsp s' hs'').2.2]) (abs_nonneg _)
      · exact List.mem_map_of_mem (f := fun s : HSplit K × K × K => (s.2.2 - s.2.1) * |s.1.normal.getD d 0|) hs'
    linarith
  set raw := (List.range c.nDim).map fun d => hGainOn d (splits t) with hrawd
  have hsum : 0 < raw.sum := by
    obtain ⟨d, hd, hp⟩ := hex
    have hle : hGainOn d (splits t) ≤ raw.sum := by
      apply List.single_le_sum
      · intro x hx
        obtain ⟨e, -, rfl⟩ := List.mem_map.1 hx
        exact hnn e
      · exact List.mem_map_of_mem (f := fun d => hGainOn d (splits t)) (List.mem_range.2 hd)
    linarith
  refine ⟨raw.map (· / raw.sum), ?_, by simp [hrawd], ?_, ?_, raw.sum, hsum, ?_⟩
  · unfold hyperFeatureImportance normalizeImportance
    rw [hraw, List.map_map (l := raw)]
    apply List.map_congr_left
    intro v _
    rw [if_neg hsum.ne']
    rfl
  · have : ∀ (l : List K) (m : K), (l.map (· / m)).sum = l.sum / m := by
      intro l m
      induction l with
      | nil => simp
      | cons a l ih => simp only [List.map_cons, List.sum_cons, ih, add_div]
    rw [this, div_self hsum.ne']
  · intro v hv
    obtain ⟨x, hx, rfl⟩ := List.mem_map.1 hv
    obtain ⟨e, -, rfl⟩ := List.mem_map.1 hx
    exact div_nonneg (hnn e) hsum.le
  · intro d hd
    simp [hrawd, hd]

end importance

/-- C52 is false in general: a real classification fit of two points whose split is exactly as likely as
no split; the split is kept (ties are accepted) and every importance is `0/0 = NaN`. -/
theorem C52_refuted : ∃ (c : HCtx ℝ (List ℝ) ℝ (List ℝ)) (n : Nat) (prior : List ℝ) (t : HNode ℝ ℝ (List ℝ)),
    c.T = clsTarget realFns ∧ IsArgsort (exactOps ℝ).le (fun _ => True) c.A.argsort ∧ c.nDim = 1 ∧
    hFitRoot c (some prior) n = .ok t ∧ t.isLeaf = false ∧ hyperFeatureImportance c.nDim t = [none] := by
  refine ⟨hEvenReal, 2, castL [1, 1], _, rfl, realSort_spec, rfl, hEvenReal_fit, rfl, ?_⟩
  have : hEvenReal.nDim = 1 := rfl
  rw [this]
  simp [hyperFeatureImportance, normalizeImportance, castHTree, hEvenTree, mapNode, hyperUpdateImportance, castSp,
    castL]

/-! Non-vacuity of the partial theorems: the sample with two oblique splits. -/

example : ∃ i sp l b c1 c2, nodeAt (castHTree (hSampleHp 0) (hSampleTree 0)) [true] = some (.split i sp l b c1 c2) ∧
    (hRouted (hSampleReal 0) (castHTree (hSampleHp 0) (hSampleTree 0)) 9 [true]).Pairwise
      fun i j => along sp.normal ((hSampleReal 0).X i) ≠ along sp.normal ((hSampleReal 0).X j) := by
  refine ⟨_, _, _, _, _, _, rfl, ?_⟩
  have hr : hRouted (hSampleReal 0) (castHTree (hSampleHp 0) (hSampleTree 0)) 9 [true] = [2, 5, 6, 7] :=
    (hRouted_cast _ _ _ _ _ _ _).trans cls_sample_routed.2.1
  rw [hr]
  have hq : ([2, 5, 6, 7] : List Nat).Pairwise fun i j =>
      along ([3/5, 4/5] : List ℚ) (hSampleX i) ≠ along [3/5, 4/5] (hSampleX j) := by decide +kernel
  refine hq.imp ?_
  intro a b hab hcon
  have e : ∀ i, along (castSp ⟨[3/5, 4/5], [1/2, 5/2]⟩).normal ((hSampleReal 0).X i) =
      ((along [3/5, 4/5] (hSampleX i) : ℚ) : ℝ) := fun i => along_cast _ _
  rw [e, e] at hcon
  exact hab (by exact_mod_cast hcon)

example : ∃ w : List ℝ, hyperFeatureImportance 2 (castHTree (hSampleHp 0) (hSampleTree 0)) = w.map some ∧
    w.sum = 1 := by
  obtain ⟨w, h1, -, h3, -⟩ := C52_importance_partial (pair := clsPair realFns) (cls_lawful realFns) realSort_spec
    (fun v => (realArith_norm v).2) (cls_delta_zero realFns) 9 _ _ hSampleReal_fit
    ⟨_, by simp only [castHTree, hSampleTree, mapNode, splits]; exact List.mem_cons_self, by
      show logCast (1/8400) < logCast (3/6400)
      rw [logCast_lt (by norm_num) (by norm_num)]
      norm_num⟩
  exact ⟨w, h1, h3⟩

example : ∃ u, nodeAt (castHTree (hSampleHp 0) (hSampleTree 0)) [true, false] = some u ∧
    u.info.prior = some (castL [1, 1]) :=
  ⟨_, rfl, C51_child_prior (pair := clsPair realFns) (cls_lawful realFns) realSort_spec
    (cls_delta_zero realFns) 9 _ _ hSampleReal_fit [true, false] (by simp) _ rfl⟩

end BT
