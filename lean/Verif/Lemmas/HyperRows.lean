import Verif.Lemmas.HyperCast

/-!
# Hyperplane fits on permuted rows

If along every evaluated direction all rows are further apart than the precision, `compute` only depends on the
set of rows.
-/

namespace BT
open Spec

set_option linter.unusedSectionVars false

section
variable {K P S O : Type} [Field K] [LinearOrder K] [IsStrictOrderedRing K] [LinearOrder S] [Neg S]

/-- The same problem on rows listed in another order: row `i` of `q'` is row `σ i` of `q`. -/
structure ProbPerm (q q' : HProb K P S) (σ : Nat → Nat) : Prop where
  nDim : q'.nDim = q.nDim
  rows : (q'.rows.map σ).Perm q.rows
  hypercube : q'.hypercube = q.hypercube
  X : ∀ i, q'.X i = q.X (σ i)
  y : ∀ i, q'.y i = q.y (σ i)
  prec : q'.prec = q.prec
  prior : q'.prior = q.prior
  partitionPrior : q'.partitionPrior = q.partitionPrior
  level : q'.level = q.level
  noSplit : q'.noSplit = q.noSplit

/-- Along `w` any two of the rows are further apart than the precision. -/
def Apart (prec : K) (X : Nat → Nat → K) (R : List Nat) (w : List K) : Prop :=
  R.Pairwise fun i j => prec < |along w (X i) - along w (X j)|

variable {q q' : HProb K P S} {σ : Nat → Nat} {A : HArith K} {w : List K}

theorem Apart.perm {prec : K} {X : Nat → Nat → K} {R R' : List Nat} (h : Apart prec X R w) (hp : R'.Perm R) :
    Apart prec X R' w :=
  (hp.pairwise_iff (fun {x y} (hxy : prec < |along w (X x) - along w (X y)|) => by
    rwa [abs_sub_comm])).2 h

theorem Apart.sublist {prec : K} {X : Nat → Nat → K} {R R' : List Nat} (h : Apart prec X R w) (hp : R'.Sublist R) :
    Apart prec X R' w := List.Pairwise.sublist hp h

theorem jumps_apart (h : Apart q.prec q.X q.rows w) :
    jumps q w = (List.range q.rows.length).filter fun k => decide (1 ≤ k) := by
  unfold jumps
  refine List.filter_congr fun k hk => ?_
  have hk' := List.mem_range.1 hk
  rw [decide_eq_decide]
  refine ⟨fun h => h.1, fun h1 => ⟨h1, ?_⟩⟩
  have := List.pairwise_iff_getElem.1 h (k - 1) k (by omega) hk' (by omega)
  rw [abs_sub_comm]
  simpa [List.getD_eq_getElem?_getD, List.getElem?_eq_getElem hk',
    List.getElem?_eq_getElem (show k - 1 < q.rows.length by omega)] using this

theorem byCoordinate_strict (hs : IsArgsort (exactOps K).le (fun _ => True) A.argsort) (hprec : 0 ≤ q.prec)
    (h : Apart q.prec q.X q.rows w) :
    (byCoordinate A.argsort q w).Pairwise fun i j => along w (q.X i) < along w (q.X j) := by
  have h1 := byCoordinate_sorted (q := q) hs w
  have h2 : Apart q.prec q.X (byCoordinate A.argsort q w) w := h.perm (argsort_perm_rows (q := q) hs w)
  refine List.Pairwise.imp₂ (fun i j (ha : along w (q.X i) ≤ along w (q.X j))
    (hb : q.prec < |along w (q.X i) - along w (q.X j)|) => ?_) h1 h2
  refine lt_of_le_of_ne ha fun e => ?_
  rw [e, sub_self, abs_zero] at hb
  exact absurd hb (not_lt.2 hprec)

theorem byCoordinate_perm (hq : ProbPerm q q' σ) (hs : IsArgsort (exactOps K).le (fun _ => True) A.argsort)
    (hprec : 0 ≤ q.prec) (h : Apart q.prec q.X q.rows w) :
    (byCoordinate A.argsort q' w).map σ = byCoordinate A.argsort q w := by
  have h' : Apart q'.prec q'.X q'.rows w := by
    have := h.perm hq.rows
    unfold Apart at this ⊢
    rw [List.pairwise_map] at this
    simpa only [hq.prec, hq.X] using this
  have s1 := byCoordinate_strict (q := q) hs hprec h
  have s2 := byCoordinate_strict (q := q') hs (by rw [hq.prec]; exact hprec) h'
  simp only [hq.X] at s2
  apply List.Perm.eq_of_pairwise (le := fun i j => along w (q.X i) < along w (q.X j)) _ (List.pairwise_map.2 s2) s1
  · exact ((argsort_perm_rows (q := q') hs w).map σ).trans (hq.rows.trans (argsort_perm_rows (q := q) hs w).symm)
  · intro a b _ _ h1 h2
    exact absurd (h1.trans h2) (lt_irrefl _)

/-- `compute` with its list positions replaced by rows. -/
theorem hCompute_rows (T : Target K P S O) (st : HState S K) (r : RawVec K) :
    hCompute A T q st r =
      match hNormal A q r with
      | .error e => .error e
      | .ok w =>
        if (jumps q w).length = 0 then .ok ({ st with evals := st.evals + 1 }, -q.noSplit)
        else
          let L := byCoordinate A.argsort q w
          let scores := T.logSplit q.partitionPrior q.level (L.map q.y) q.prior q.nDim (jumps q w)
          match scores[argmax scores]?, (jumps q w)[argmax scores]? with
          | some s, some k =>
            if st.bestScore ≤ s then
              match L[k - 1]?, L[k]? with
              | some i, some j =>
                let sp : HSplit K := ⟨w, halfway q i j⟩
                if (if st.bestScore < s then true else decide (st.bestDist < totalDist q sp)) = true then
                  .ok (⟨st.evals + 1, s, totalDist q sp, some sp⟩, -s)
                else .ok ({ st with evals := st.evals + 1 }, -s)
              | _, _ => .error .indexError
            else .ok ({ st with evals := st.evals + 1 }, -s)
          | _, _ => .error .indexError := by
  unfold hCompute
  cases hw : hNormal A q r with
  | error e => rfl
  | ok w =>
    have hl := hNormal_length hw
    have hy : ((A.argsort (hProj q w)).map fun j => q.y (q.rows.getD j 0)) = (byCoordinate A.argsort q w).map q.y := by
      unfold byCoordinate
      rw [hProj_eq q w hl, List.map_map]
      rfl
    simp only [hSplitIndices_eq q w hl, hy]
    split
    · rfl
    · generalize T.logSplit q.partitionPrior q.level _ q.prior q.nDim (jumps q w) = scores
      cases scores[argmax scores]? with
      | none => rfl
      | some s =>
        cases (jumps q w)[argmax scores]? with
        | none => rfl
        | some k =>
          dsimp only
          have hL : ∀ m : Nat, (byCoordinate A.argsort q w)[m]? = ((A.argsort (hProj q w))[m]?).map fun j => q.rows.getD j 0 := by
            intro m
            unfold byCoordinate
            rw [hProj_eq q w hl, List.getElem?_map]
          rw [hL, hL]
          cases (A.argsort (hProj q w))[k - 1]? with
          | none => rfl
          | some i =>
            cases (A.argsort (hProj q w))[k]? with
            | none => rfl
            | some j =>
              simp only [Option.map_some, hOrigin_eq, hDist_eq q ⟨w, halfway q _ _⟩ hl]

theorem totalDist_perm (hq : ProbPerm q q' σ) (sp : HSplit K) : totalDist q' sp = totalDist q sp := by
  unfold totalDist
  have := (hq.rows.map fun i => |elevation sp (q.X i)|).sum_eq
  rw [List.map_map] at this
  rw [← this]
  congr 1
  exact List.map_congr_left fun i _ => by simp only [Function.comp, hq.X]

theorem hCompute_perm (hq : ProbPerm q q' σ)
    (hs : IsArgsort (exactOps K).le (fun _ => True) A.argsort) (hprec : 0 ≤ q.prec) (T : Target K P S O)
    (r : RawVec K) (hr : ∀ w, hNormal A q r = .ok w → Apart q.prec q.X q.rows w) (st : HState S K) :
    hCompute A T q' st r = hCompute A T q st r := by
  have hn : hNormal A q' r = hNormal A q r := by
    unfold hNormal
    rw [hq.nDim, hq.hypercube]
  rw [hCompute_rows, hCompute_rows, hn]
  cases hw : hNormal A q r with
  | error e => rfl
  | ok w =>
    have h := hr w hw
    have h' : Apart q'.prec q'.X q'.rows w := by
      have := h.perm hq.rows
      unfold Apart at this ⊢
      rw [List.pairwise_map] at this
      simpa only [hq.prec, hq.X] using this
    have hj : jumps q' w = jumps q w := by
      rw [jumps_apart h, jumps_apart h', ← hq.rows.length_eq, List.length_map]
    have hb := byCoordinate_perm (A := A) hq hs hprec h
    have hy : (byCoordinate A.argsort q' w).map q'.y = (byCoordinate A.argsort q w).map q.y := by
      rw [← hb, List.map_map]
      exact List.map_congr_left fun i _ => hq.y i
    have hL : ∀ m : Nat, (byCoordinate A.argsort q w)[m]? = ((byCoordinate A.argsort q' w)[m]?).map σ := by
      intro m
      rw [← hb, List.getElem?_map]
    have hh : ∀ i j, halfway q (σ i) (σ j) = halfway q' i j := by
      intro i j
      unfold halfway
      rw [hq.nDim, hq.X, hq.X]
    simp only [hj, hy, hL, hq.noSplit, hq.nDim, hq.prior, hq.partitionPrior, hq.level, totalDist_perm hq]
    split
    · rfl
    · generalize T.logSplit q.partitionPrior q.level _ q.prior q.nDim (jumps q w) = scores
      cases scores[argmax scores]? with
      | none => rfl
      | some s =>
        cases (jumps q w)[argmax scores]? with
        | none => rfl
        | some k =>
          dsimp only
          cases (byCoordinate A.argsort q' w)[k - 1]? with
          | none => rfl
          | some i =>
            cases (byCoordinate A.argsort q' w)[k]? with
            | none => rfl
            | some j => simp only [Option.map_some, hh]

theorem hSolve_perm (hq : ProbPerm q q' σ)
    (hs : IsArgsort (exactOps K).le (fun _ => True) A.argsort) (hprec : 0 ≤ q.prec) (T : Target K P S O)
    (strat : Strategy K S)
    (hr : ∀ hist r, strat hist = .eval r → ∀ w, hNormal A q r = .ok w → Apart q.prec q.X q.rows w)
    (budget : Nat) (hist : List (RawVec K × S)) (st : HState S K) :
    hSolve A T q' strat budget hist st = hSolve A T q strat budget hist st := by
  induction budget generalizing hist st with
  | zero => rfl
  | succ b ih =>
    rw [hSolve, hSolve]
    cases h : strat hist with
    | stop => rfl
    | raise e => rfl
    | eval r =>
      simp only [hCompute_perm hq hs hprec T r (hr hist r h)]
      cases hCompute A T q st r with
      | error e => rfl
      | ok v => exact ih _ _

end

section
variable {K P S O : Type} [Field K] [LinearOrder K] [IsStrictOrderedRing K] [LinearOrder S] [Neg S]
  {c c' : HCtx K P S O} {pair : PairScore K P S} {σ : Nat → Nat}

/-- `c'` is `c` with row `i` replaced by row `σ i`. -/
structure RowPerm (c c' : HCtx K P S O) (σ : Nat → Nat) : Prop where
  A : c'.A = c.A
  T : c'.T = c.T
  hp : c'.hp = c.hp
  opt : c'.opt = c.opt
  budget : c'.budget = c.budget
  nDim : c'.nDim = c.nDim
  X : ∀ i, c'.X i = c.X (σ i)
  y : ∀ i, c'.y i = c.y (σ i)

theorem hFit_perm (h : RowPerm c c' σ) (hT : LawfulTarget c.T pair)
    (hs : IsArgsort (exactOps K).le (fun _ => True) c.A.argsort) (hprec : 0 ≤ c.hp.splitPrecision)
    (hopt : ∀ q q', q'.nDim = q.nDim → c.opt.solve q' = c.opt.solve q) {N : List Nat}
    (hr : ∀ q hist r, q.nDim = c.nDim → q.hypercube = c.opt.hypercube → c.opt.solve q hist = .eval r →
      ∀ w, hNormal c.A q r = .ok w → Apart c.hp.splitPrecision c.X N w)
    (fuel : Nat) (pa : Option P) (lv : Nat) (R R' : List Nat) (hR : R.Sublist N) (hp : (R'.map σ).Perm R) :
    hFit c' fuel pa lv R' = hFit c fuel pa lv R := by
  induction fuel generalizing pa lv R R' with
  | zero => rfl
  | succ fuel ih =>
    have hlen : R'.length = R.length := by rw [← hp.length_eq, List.length_map]
    have hy : ∀ {R R' : List Nat}, (R'.map σ).Perm R → (R'.map c'.y).Perm (R.map c.y) := by
      intro R R' hp
      have := hp.map c.y
      rw [List.map_map] at this
      have e : R'.map c'.y = R'.map (c.y ∘ σ) := List.map_congr_left fun i _ => h.y i
      rw [e]
      exact this
    conv_lhs => unfold hFit
    conv_rhs => unfold hFit
    simp only [h.T, h.nDim, hlen, h.A, h.opt, h.budget, h.hp]
    generalize c.T.getPrior pa R.length c.nDim = p
    have hq : ProbPerm (hProblem c p lv R) (hProblem c' p lv R') σ :=
      { nDim := h.nDim, rows := hp, hypercube := by simp only [hProblem, h.opt], X := h.X, y := h.y
        prec := by simp only [hProblem, h.hp], prior := rfl
        partitionPrior := by simp only [hProblem, h.hp], level := rfl
        noSplit := by simp only [hProblem, h.hp, h.T]; exact hT.noSplit_perm _ _ _ _ _ (hy hp) }
    have hinit : hInit (hProblem c' p lv R') = hInit (hProblem c p lv R) := by
      unfold hInit
      rw [hq.noSplit]
    rw [hopt (hProblem c p lv R) (hProblem c' p lv R') h.nDim, hinit,
      hSolve_perm hq hs hprec c.T (c.opt.solve (hProblem c p lv R))
        (fun hist r he w hw => (hr _ hist r rfl rfl he w hw).sublist hR) c.budget [] _]
    cases hSolve c.A c.T (hProblem c p lv R) (c.opt.solve (hProblem c p lv R)) c.budget []
        (hInit (hProblem c p lv R)) with
    | error e => rfl
    | ok st =>
      have hpost : ∀ {R R' : List Nat} (d : K), (R'.map σ).Perm R →
          c.T.posterior (R'.map c'.y) p d = c.T.posterior (R.map c.y) p d :=
        fun d hp => hT.posterior_perm _ _ _ _ (hy hp)
      dsimp only
      rw [hpost 1 hp]
      cases st.best with
      | none => rfl
      | some sp =>
        dsimp only
        have h1 : ((R'.filter fun i => hyperRouter.goes1 sp (c'.X i)).map σ).Perm
            (R.filter fun i => hyperRouter.goes1 sp (c.X i)) := by
          have := hp.filter fun i => hyperRouter.goes1 sp (c.X i)
          rw [List.filter_map] at this
          simpa only [h.X, Function.comp_def] using this
        have h2 : ((R'.filter fun i => hyperRouter.goes2 sp (c'.X i)).map σ).Perm
            (R.filter fun i => hyperRouter.goes2 sp (c.X i)) := by
          have := hp.filter fun i => hyperRouter.goes2 sp (c.X i)
          rw [List.filter_map] at this
          simpa only [h.X, Function.comp_def] using this
        have s1 : (R.filter fun i => hyperRouter.goes1 sp (c.X i)).Sublist N := List.filter_sublist.trans hR
        have s2 : (R.filter fun i => hyperRouter.goes2 sp (c.X i)).Sublist N := List.filter_sublist.trans hR
        generalize (R'.filter fun i => hyperRouter.goes1 sp (c'.X i)) = R1' at h1
        generalize (R'.filter fun i => hyperRouter.goes2 sp (c'.X i)) = R2' at h2
        generalize (R.filter fun i => hyperRouter.goes1 sp (c.X i)) = R1 at h1 s1
        generalize (R.filter fun i => hyperRouter.goes2 sp (c.X i)) = R2 at h2 s2
        have hchild : ∀ R R' : List Nat, R.Sublist N → (R'.map σ).Perm R → ∀ p0 p1 : P,
            (if R'.length > 1 ∧ (distinct (R'.map c'.y)).length > 1 then
              hFit c' fuel (some p0) (lv + 1) R'
            else .ok (.leaf (hChildInfo c' p0 (lv + 1) R'.length p1))) =
            (if R.length > 1 ∧ (distinct (R.map c.y)).length > 1 then
              hFit c fuel (some p0) (lv + 1) R
            else .ok (.leaf (hChildInfo c p0 (lv + 1) R.length p1))) := by
          intro R R' hs hp p0 p1
          have hl : R'.length = R.length := by rw [← hp.length_eq, List.length_map]
          have hd : (distinct (R'.map c'.y)).length > 1 ↔ (distinct (R.map c.y)).length > 1 := by
            show 1 < _ ↔ 1 < _
            rw [one_lt_distinct, one_lt_distinct]
            simp only [(hy hp).mem_iff]
          rw [hl, ih _ _ R R' hs hp]
          simp only [hd, hChildInfo, h.hp]
        rw [hpost 0 h1, hpost 0 h2, hpost 1 h1, hpost 1 h2, hchild R1 R1' s1 h1, hchild R2 R2' s2 h2, hq.noSplit]
        have l1 : R1'.length = R1.length := by rw [← h1.length_eq, List.length_map]
        have l2 : R2'.length = R2.length := by rw [← h2.length_eq, List.length_map]
        rw [l1, l2]

theorem hFitRoot_perm (h : RowPerm c c' σ) (hT : LawfulTarget c.T pair)
    (hs : IsArgsort (exactOps K).le (fun _ => True) c.A.argsort) (hprec : 0 ≤ c.hp.splitPrecision)
    (hopt : ∀ q q', q'.nDim = q.nDim → c.opt.solve q' = c.opt.solve q) {n : Nat}
    (hr : ∀ q hist r, q.nDim = c.nDim → q.hypercube = c.opt.hypercube → c.opt.solve q hist = .eval r →
      ∀ w, hNormal c.A q r = .ok w → Apart c.hp.splitPrecision c.X (List.range n) w)
    (pa : Option P) (hσ : ((List.range n).map σ).Perm (List.range n)) [DecidableEq O] :
    hFitRoot c' pa n = hFitRoot c pa n := by
  unfold hFitRoot
  rw [hFit_perm h hT hs hprec hopt hr (n + 1) pa 0 (List.range n) (List.range n) (List.Sublist.refl _) hσ, h.hp, h.T]

end

end BT
