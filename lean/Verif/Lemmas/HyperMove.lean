import Verif.Spec.HyperMove
import Verif.Lemmas.HyperCast
import Verif.Lemmas.RealSample

/-!
# Simulation between hyperplane fits
-/

namespace BT
open Spec

set_option linter.unusedSectionVars false

section
variable {K P P' S S' O O' : Type} [Field K] [LinearOrder K] [IsStrictOrderedRing K]

/-! ## Geometry -/

theorem along_moved (a : K) (t x : Nat → K) (w : List K) :
    along w (moved a t x) = a * along w x + along w t := by
  unfold along moved
  induction (List.range w.length) with
  | nil => simp
  | cons j js ih =>
    simp only [List.map_cons, List.sum_cons, ih]
    ring

theorem along_congr (w : List K) {x x' : Nat → K} (h : ∀ d < w.length, x d = x' d) : along w x = along w x' := by
  unfold along
  congr 1
  exact List.map_congr_left fun j hj => by rw [h j (List.mem_range.1 hj)]

theorem elevation_moved {a : K} {t : Nat → K} {sp : HSplit K} (hl : sp.normal.length ≤ sp.origin.length) (x : Nat → K) :
    elevation (movedSplit a t sp) (moved a t x) = a * elevation sp x := by
  unfold elevation
  show along sp.normal _ - along sp.normal _ = _
  have : along sp.normal (point (movedSplit a t sp).origin) = along sp.normal (moved a t (point sp.origin)) := by
    apply along_congr
    intro d hd
    have hd' : d < sp.origin.length := lt_of_lt_of_le hd hl
    unfold point moved movedSplit
    simp [List.getD_eq_getElem?_getD, List.getElem?_mapIdx, List.getElem?_eq_getElem hd']
  rw [this, along_moved, along_moved]
  ring

theorem goes_moved {a : K} (ha : 0 < a) {t : Nat → K} {sp : HSplit K} (hl : sp.normal.length ≤ sp.origin.length)
    (x : Nat → K) : (hyperRouter.goes1 (movedSplit a t sp) (moved a t x) = hyperRouter.goes1 sp x) ∧
      (hyperRouter.goes2 (movedSplit a t sp) (moved a t x) = hyperRouter.goes2 sp x) := by
  simp only [hyperRouter, signedDistance_eq, elevation_moved hl]
  constructor
  · rw [decide_eq_decide, ← not_le, ← not_le, mul_nonneg_iff_of_pos_left ha]
  · rw [decide_eq_decide, mul_nonneg_iff_of_pos_left ha]

theorem splitIndices_moved {a : K} (ha : 0 < a) (b prec : K) (xs : List K) :
    splitIndices (exactOps K) (a * prec) (xs.map fun v => a * v + b) = splitIndices (exactOps K) prec xs := by
  unfold splitIndices
  congr 2
  rw [← List.map_tail, List.zip_map, List.map_map]
  refine List.map_congr_left fun p _ => ?_
  simp only [Function.comp, Prod.map, exactOps, decide_eq_decide]
  rw [show a * p.2 + b - (a * p.1 + b) = a * (p.2 - p.1) by ring, abs_mul, abs_of_pos ha]
  exact mul_lt_mul_iff_right₀ ha

/-! ## One evaluation -/

/-- The two search problems correspond. -/
structure ProbMove (T : Target K P S O) (T' : Target K P' S' O') (q : HProb K P S) (q' : HProb K P' S')
    (a : K) (t : Nat → K) (f : S → S') : Prop where
  nDim : q'.nDim = q.nDim
  rows : q'.rows = q.rows
  hypercube : q'.hypercube = q.hypercube
  X : ∀ i, q'.X i = moved a t (q.X i)
  prec : q'.prec = a * q.prec
  noSplit : q'.noSplit = f q.noSplit
  scores : ∀ idx si : List Nat, idx.Perm (List.range q.rows.length) → (∀ k ∈ si, 1 ≤ k ∧ k < q.rows.length) →
    si.Pairwise (· < ·) →
    T'.logSplit q'.partitionPrior q'.level (idx.map fun j => q'.y (q'.rows.getD j 0)) q'.prior q'.nDim si =
      (T.logSplit q.partitionPrior q.level (idx.map fun j => q.y (q.rows.getD j 0)) q.prior q.nDim si).map f

/-- The state of the corresponding search. -/
def movedState (a : K) (t : Nat → K) (f : S → S') (st : HState S K) : HState S' K :=
  ⟨st.evals, f st.bestScore, a * st.bestDist, st.best.map (movedSplit a t)⟩

/-- The plane found so far has the dimension of the data. -/
def GoodState (nDim : Nat) (st : HState S K) : Prop :=
  ∀ sp, st.best = some sp → sp.normal.length = nDim ∧ sp.origin.length = nDim

section
variable {T : Target K P S O} {T' : Target K P' S' O'} {A : HArith K} {q : HProb K P S} {q' : HProb K P' S'}
  {a : K} {t : Nat → K} {f : S → S'}

theorem hNormal_move (hq : ProbMove T T' q q' a t f) (r : RawVec K) : hNormal A q' r = hNormal A q r := by
  unfold hNormal
  rw [hq.nDim, hq.hypercube]

theorem hProj_move (hq : ProbMove T T' q q' a t f) (w : List K) (hw : w.length = q.nDim) :
    hProj q' w = (hProj q w).map fun v => a * v + along w t := by
  rw [hProj_eq q w hw, hProj_eq q' w (hw.trans hq.nDim.symm), List.map_map, hq.rows]
  refine List.map_congr_left fun i _ => ?_
  rw [hq.X, along_moved]
  rfl

theorem hOrigin_length (q : HProb K P S) (i j : Nat) : (hOrigin q i j).length = q.nDim := by
  simp [hOrigin, rowVec]

theorem hOrigin_move (hq : ProbMove T T' q q' a t f) (i j : Nat) :
    hOrigin q' i j = (hOrigin q i j).mapIdx fun d v => a * v + t d := by
  apply List.ext_getElem
  · simp [hOrigin_length, hq.nDim]
  · intro d h1 h2
    simp only [hOrigin, rowVec, hq.rows, hq.X, moved, List.getElem_zipWith, List.getElem_mapIdx,
      List.getElem_map, List.getElem_range]
    ring

theorem hDist_move (ha : 0 < a) (hq : ProbMove T T' q q' a t f) (sp : HSplit K)
    (h1 : sp.normal.length = q.nDim) (h2 : sp.origin.length = q.nDim) :
    hDist q' (movedSplit a t sp) = a * hDist q sp := by
  rw [hDist_eq q sp h1, hDist_eq q' (movedSplit a t sp) (h1.trans hq.nDim.symm)]
  unfold totalDist
  rw [hq.rows, ← List.sum_map_mul_left]
  congr 1
  refine List.map_congr_left fun i _ => ?_
  rw [hq.X, elevation_moved (by rw [h1, h2]), abs_mul, abs_of_pos ha]

variable [LinearOrder S] [LinearOrder S'] [Neg S] [Neg S']

/-- `compute` on corresponding problems, in corresponding states, for vectors with the same unit normal. -/
theorem hCompute_move (ha : 0 < a) (hf : StrictMono f) (hq : ProbMove T T' q q' a t f)
    (hs : IsArgsort (exactOps K).le (fun _ => True) A.argsort)
    (hA : ∀ xs b, A.argsort (xs.map fun v => a * v + b) = A.argsort xs)
    {r r' : RawVec K} (hr : hNormal A q r' = hNormal A q r) (st : HState S K) :
    (∃ e, hCompute A T q st r = .error e ∧ hCompute A T' q' (movedState a t f st) r' = .error e) ∨
    ∃ st1 s, hCompute A T q st r = .ok (st1, -s) ∧
      hCompute A T' q' (movedState a t f st) r' = .ok (movedState a t f st1, -f s) ∧
      (GoodState q.nDim st → GoodState q.nDim st1) := by
  unfold hCompute
  rw [hNormal_move hq, hr]
  cases hw : hNormal A q r with
  | error e => exact .inl ⟨e, rfl, rfl⟩
  | ok w =>
    have hlen := hNormal_length hw
    have hproj := hProj_move hq w hlen
    have hsi : hSplitIndices q' w = hSplitIndices q w := by
      unfold hSplitIndices
      rw [hproj, hq.prec, splitIndices_moved ha]
    have hlp : (hProj q w).length = q.rows.length := by simp [hProj]
    have hsc := hq.scores (A.argsort (hProj q w)) (hSplitIndices q w)
      (by rw [← hlp]; exact hs.perm _ fun _ _ => trivial)
      (fun k hk => by rw [← hlp]; exact splitIndices_range hk) (splitIndices_sorted _ _ _)
    simp only [hsi, hproj, hA, hsc, hq.noSplit, argmax_map hf, List.getElem?_map]
    by_cases h0 : (hSplitIndices q w).length = 0
    · rw [if_pos h0, if_pos h0]
      exact .inr ⟨_, _, rfl, rfl, fun h => h⟩
    rw [if_neg h0, if_neg h0]
    generalize T.logSplit q.partitionPrior q.level _ q.prior q.nDim (hSplitIndices q w) = scores
    cases scores[argmax scores]? with
    | none => exact .inl ⟨_, rfl, rfl⟩
    | some s =>
      cases (hSplitIndices q w)[argmax scores]? with
      | none => exact .inl ⟨_, rfl, rfl⟩
      | some k =>
        simp only [Option.map_some, movedState, hf.le_iff_le, hf.lt_iff_lt]
        by_cases hle : st.bestScore ≤ s
        · rw [if_pos hle, if_pos hle]
          cases (A.argsort (hProj q w))[k - 1]? with
          | none => exact .inl ⟨_, rfl, rfl⟩
          | some i =>
            cases (A.argsort (hProj q w))[k]? with
            | none => exact .inl ⟨_, rfl, rfl⟩
            | some j =>
              have hsp : (⟨w, hOrigin q' i j⟩ : HSplit K) = movedSplit a t ⟨w, hOrigin q i j⟩ := by
                rw [hOrigin_move hq]; rfl
              simp only [hsp, hDist_move ha hq ⟨w, hOrigin q i j⟩ hlen (hOrigin_length q i j),
                mul_lt_mul_iff_right₀ ha]
              by_cases hacc : (if st.bestScore < s then true
                  else decide (st.bestDist < hDist q ⟨w, hOrigin q i j⟩)) = true
              · rw [if_pos hacc, if_pos hacc]
                refine .inr ⟨_, _, rfl, rfl, fun _ sp hsp' => ?_⟩
                cases hsp'
                exact ⟨hlen, hOrigin_length q i j⟩
              · rw [if_neg hacc, if_neg hacc]
                exact .inr ⟨_, _, rfl, rfl, fun h => h⟩
        · rw [if_neg hle, if_neg hle]
          exact .inr ⟨_, _, rfl, rfl, fun h => h⟩

/-- Corresponding decisions of two optimizers; `ρ` relates the vectors. -/
inductive StepRel (ρ : RawVec K → RawVec K → Prop) : Step K → Step K → Prop
  | stop : StepRel ρ .stop .stop
  | raise (e : Err) : StepRel ρ (.raise e) (.raise e)
  | eval {r r' : RawVec K} (h : ρ r r') : StepRel ρ (.eval r) (.eval r')

/-- Corresponding entries of two histories. -/
def EntryRel (ρ : RawVec K → RawVec K → Prop) (f : S → S') (e : RawVec K × S) (e' : RawVec K × S') : Prop :=
  ρ e.1 e'.1 ∧ ∃ s, e.2 = -s ∧ e'.2 = -f s

theorem hSolve_move (ha : 0 < a) (hf : StrictMono f) (hq : ProbMove T T' q q' a t f)
    (hs : IsArgsort (exactOps K).le (fun _ => True) A.argsort)
    (hA : ∀ xs b, A.argsort (xs.map fun v => a * v + b) = A.argsort xs)
    {ρ : RawVec K → RawVec K → Prop} (hρ : ∀ r r', ρ r r' → hNormal A q r' = hNormal A q r)
    {strat : Strategy K S} {strat' : Strategy K S'}
    (hstrat : ∀ hist hist', List.Forall₂ (EntryRel ρ f) hist hist' → StepRel ρ (strat hist) (strat' hist'))
    (budget : Nat) (hist : List (RawVec K × S)) (hist' : List (RawVec K × S'))
    (hh : List.Forall₂ (EntryRel ρ f) hist hist') (st : HState S K) (hst : GoodState q.nDim st) :
    (∃ e, hSolve A T q strat budget hist st = .error e ∧
      hSolve A T' q' strat' budget hist' (movedState a t f st) = .error e) ∨
    ∃ st1, hSolve A T q strat budget hist st = .ok st1 ∧
      hSolve A T' q' strat' budget hist' (movedState a t f st) = .ok (movedState a t f st1) ∧
      GoodState q.nDim st1 := by
  induction budget generalizing hist hist' st with
  | zero => exact .inl ⟨_, rfl, rfl⟩
  | succ b ih =>
    have h := hstrat hist hist' hh
    rw [hSolve, hSolve]
    generalize strat hist = x at h
    generalize strat' hist' = x' at h
    cases h with
    | stop => exact .inr ⟨st, rfl, rfl, hst⟩
    | raise e => exact .inl ⟨e, rfl, rfl⟩
    | @eval r r' hrr =>
      rcases hCompute_move ha hf hq hs hA (hρ r r' hrr) st with ⟨e, h1, h2⟩ | ⟨st1, s, h1, h2, hg⟩
      · simp only [h1, h2]
        exact .inl ⟨e, rfl, rfl⟩
      · simp only [h1, h2]
        exact ih _ _ (List.Forall₂.cons ⟨hrr, s, rfl, rfl⟩ hh) st1 (hg hst)

end

/-! ## Whole fits -/

section
variable [LinearOrder S] [LinearOrder S'] [Neg S] [Neg S'] {c : HCtx K P S O} {c' : HCtx K P' S' O'}
  {pair : PairScore K P S} {pair' : PairScore K P' S'}

/-- Everything in `c'` corresponds to something in `c`, for the root prior `p0`. -/
structure HMove (c : HCtx K P S O) (c' : HCtx K P' S' O') (pair : PairScore K P S) (pair' : PairScore K P' S')
    (a : K) (t : Nat → K) (fK : K → K) (fP : P → P') (fS : Nat → S → S') (ρ : RawVec K → RawVec K → Prop)
    (p0 : P) (okY : K → Prop) : Prop where
  pos : 0 < a
  A : c'.A = c.A
  nDim : c'.nDim = c.nDim
  budget : c'.budget = c.budget
  hypercube : c'.opt.hypercube = c.opt.hypercube
  X : ∀ i, c'.X i = moved a t (c.X i)
  y : ∀ i, c'.y i = fK (c.y i)
  okTarget : ∀ i, okY (c.y i)
  inj : ∀ u v, okY u → okY v → fK u = fK v → u = v
  prec : c'.hp.splitPrecision = a * c.hp.splitPrecision
  sort : IsArgsort (exactOps K).le (fun _ => True) c.A.argsort
  order : ∀ xs b, c.A.argsort (xs.map fun v => a * v + b) = c.A.argsort xs
  lawful : LawfulTarget c.T pair
  lawful' : LawfulTarget c'.T pair'
  delta0 : ∀ y, c.T.posterior y p0 0 = p0
  delta0' : ∀ y, c'.T.posterior y (fP p0) 0 = fP p0
  posterior1 : ∀ ys, ys ≠ [] → (∀ v ∈ ys, okY v) → c'.T.posterior (ys.map fK) (fP p0) 1 = fP (c.T.posterior ys p0 1)
  noSplit : ∀ lv ys, ys ≠ [] → (∀ v ∈ ys, okY v) →
    c'.T.logNoSplit c'.hp.partitionPrior lv (ys.map fK) (fP p0) =
      fS ys.length (c.T.logNoSplit c.hp.partitionPrior lv ys p0)
  pair : ∀ lv ns u v, 0 < ns → u ≠ [] → v ≠ [] → (∀ x ∈ u, okY x) → (∀ x ∈ v, okY x) →
    pair' c'.hp.partitionPrior lv (fP p0) c.nDim ns (u.map fK) (v.map fK) =
      fS (u.length + v.length) (pair c.hp.partitionPrior lv p0 c.nDim ns u v)
  mono : ∀ k, StrictMono (fS k)
  normal : ∀ (q : HProb K P S), q.nDim = c.nDim → q.hypercube = c.opt.hypercube →
    ∀ r r', ρ r r' → hNormal c.A q r' = hNormal c.A q r
  search : ∀ lv R, R ≠ [] → ∀ hist hist', List.Forall₂ (EntryRel ρ (fS R.length)) hist hist' →
    StepRel ρ (c.opt.solve (hProblem c p0 lv R) hist) (c'.opt.solve (hProblem c' (fP p0) lv R) hist')

variable {a : K} {t : Nat → K} {fK : K → K} {fP : P → P'} {fS : Nat → S → S'} {ρ : RawVec K → RawVec K → Prop}
  {p0 : P} {okY : K → Prop}

theorem HMove.map_y (h : HMove c c' pair pair' a t fK fP fS ρ p0 okY) (R : List Nat) :
    R.map c'.y = (R.map c.y).map fK := by
  rw [List.map_map]
  exact List.map_congr_left fun i _ => h.y i

theorem HMove.ok_y (h : HMove c c' pair pair' a t fK fP fS ρ p0 okY) (R : List Nat) : ∀ v ∈ R.map c.y, okY v := by
  intro v hv
  obtain ⟨i, -, rfl⟩ := List.mem_map.1 hv
  exact h.okTarget i

theorem HMove.distinct (h : HMove c c' pair pair' a t fK fP fS ρ p0 okY) (R : List Nat) :
    1 < (distinct (R.map c'.y)).length ↔ 1 < (distinct (R.map c.y)).length := by
  rw [one_lt_distinct, one_lt_distinct, h.map_y]
  constructor
  · rintro ⟨u, hu, v, hv, hne⟩
    obtain ⟨u', hu', rfl⟩ := List.mem_map.1 hu
    obtain ⟨v', hv', rfl⟩ := List.mem_map.1 hv
    exact ⟨u', hu', v', hv', fun e => hne (by rw [e])⟩
  · rintro ⟨u, hu, v, hv, hne⟩
    exact ⟨_, List.mem_map_of_mem hu, _, List.mem_map_of_mem hv,
      fun e => hne (h.inj _ _ (h.ok_y R u hu) (h.ok_y R v hv) e)⟩

theorem HMove.prob (h : HMove c c' pair pair' a t fK fP fS ρ p0 okY) (lv : Nat) {R : List Nat} (hR : R ≠ []) :
    ProbMove c.T c'.T (hProblem c p0 lv R) (hProblem c' (fP p0) lv R) a t (fS R.length) where
  nDim := h.nDim
  rows := rfl
  hypercube := h.hypercube
  X := h.X
  prec := h.prec
  noSplit := by
    show c'.T.logNoSplit _ _ _ _ = _
    rw [h.map_y, h.noSplit lv _ (by simpa using hR) (h.ok_y R), List.length_map]
    rfl
  scores := by
    intro idx si hidx hsi hsort
    show c'.T.logSplit c'.hp.partitionPrior lv (idx.map fun j => c'.y (R.getD j 0)) (fP p0) c'.nDim si =
      (c.T.logSplit c.hp.partitionPrior lv (idx.map fun j => c.y (R.getD j 0)) p0 c.nDim si).map (fS R.length)
    have hl : idx.length = R.length := by simpa [hProblem] using hidx.length_eq
    have hsi' : ∀ k ∈ si, 1 ≤ k ∧ k < R.length := hsi
    have e : (idx.map fun j => c'.y (R.getD j 0)) = (idx.map fun j => c.y (R.getD j 0)).map fK := by
      rw [List.map_map]; exact List.map_congr_left fun j _ => h.y _
    have hok : ∀ v ∈ idx.map (fun j => c.y (R.getD j 0)), okY v := by
      intro v hv
      obtain ⟨j, -, rfl⟩ := List.mem_map.1 hv
      exact h.okTarget _
    rw [e, h.nDim]
    generalize hys : (idx.map fun j => c.y (R.getD j 0)) = ys at hok
    have hyl : ys.length = R.length := by rw [← hys, List.length_map, hl]
    rw [h.lawful.logSplit_eq _ _ _ _ _ _ (by rw [hyl]; exact hsi') hsort,
      h.lawful'.logSplit_eq _ _ _ _ _ _ (by rw [List.length_map, hyl]; exact hsi') hsort, List.map_map]
    refine List.map_congr_left fun k hk => ?_
    obtain ⟨hk1, hk2⟩ := hsi' k hk
    rw [← List.map_take, ← List.map_drop, h.pair lv si.length _ _ (List.length_pos_of_mem hk)
      (fun e => by have := congrArg List.length e; rw [List.length_take, List.length_nil] at this; omega)
      (fun e => by have := congrArg List.length e; rw [List.length_drop, List.length_nil] at this; omega)
      (fun v hv => hok v (List.mem_of_mem_take hv)) (fun v hv => hok v (List.mem_of_mem_drop hv))]
    simp only [Function.comp]
    congr 1
    rw [← List.length_append, List.take_append_drop, hyl]

/-- The fit on the corresponding problem fails in the same way or returns the moved tree, all of whose planes
have the dimension of the data. -/
theorem hFit_move (h : HMove c c' pair pair' a t fK fP fS ρ p0 okY) (fuel : Nat) (pa : Option P) (lv : Nat)
    (R : List Nat) (hR : R ≠ []) (hp : c.T.getPrior pa R.length c.nDim = p0)
    (hp' : c'.T.getPrior (pa.map fP) R.length c.nDim = fP p0) :
    hFit c' fuel (pa.map fP) lv R = (hFit c fuel pa lv R).map (movedTree c'.hp a t fP fS) := by
  induction fuel generalizing pa lv R with
  | zero => rfl
  | succ fuel ih =>
    conv_lhs => unfold hFit
    conv_rhs => unfold hFit
    simp only [h.nDim, hp, hp']
    have hinit : hInit (hProblem c' (fP p0) lv R) = movedState a t (fS R.length) (hInit (hProblem c p0 lv R)) := by
      unfold hInit movedState
      rw [(h.prob lv hR).noSplit, mul_zero]
      rfl
    have hs := hSolve_move h.pos (h.mono R.length) (h.prob lv hR) h.sort h.order (ρ := ρ)
      (h.normal (hProblem c p0 lv R) rfl rfl) (h.search lv R hR) c.budget [] [] .nil (hInit (hProblem c p0 lv R))
      (fun sp e => by cases e)
    rw [h.A, h.budget, hinit]
    rcases hs with ⟨e, h1, h2⟩ | ⟨st, h1, h2, hg⟩
    · rw [h1, h2]; rfl
    rw [h1, h2]
    have hpost := h.posterior1 (R.map c.y) (by simpa using hR) (h.ok_y R)
    rw [← h.map_y] at hpost
    have hinfo : (⟨c'.hp, pa.map fP, lv, some c.nDim, R.length, c'.T.posterior (R.map c'.y) (fP p0) 1⟩ : Info K P') =
        imageInfo c'.hp fP ⟨c.hp, pa, lv, some c.nDim, R.length, c.T.posterior (R.map c.y) p0 1⟩ := by
      rw [hpost]; rfl
    simp only [hinfo]
    cases hb : st.best with
    | none => simp only [movedState, hb, Option.map_none, Except.map, movedTree]
    | some sp =>
      obtain ⟨hl1, hl2⟩ := hg sp hb
      have hgo := fun x => goes_moved h.pos (t := t) (sp := sp) (by rw [hl1, hl2]) x
      simp only [movedState, hb, Option.map_some, h.X, (hgo _).1, (hgo _).2, h.delta0, h.delta0']
      generalize (R.filter fun i => hyperRouter.goes1 sp (c.X i)) = R1
      generalize (R.filter fun i => hyperRouter.goes2 sp (c.X i)) = R2
      by_cases hlen : R1.length > 0 ∧ R2.length > 0
      · rw [if_pos hlen, if_pos hlen]
        have hchild : ∀ R' : List Nat, R'.length > 0 →
            (if R'.length > 1 ∧ (BT.distinct (R'.map c'.y)).length > 1 then
              hFit c' fuel (some (fP p0)) (lv + 1) R'
            else .ok (.leaf (hChildInfo c' (fP p0) (lv + 1) R'.length (c'.T.posterior (R'.map c'.y) (fP p0) 1)))) =
            (if R'.length > 1 ∧ (BT.distinct (R'.map c.y)).length > 1 then
              hFit c fuel (some p0) (lv + 1) R'
            else .ok (.leaf (hChildInfo c p0 (lv + 1) R'.length (c.T.posterior (R'.map c.y) p0 1)))).map
              (movedTree c'.hp a t fP fS) := by
          intro R' hR'
          have hne : R' ≠ [] := List.ne_nil_of_length_pos hR'
          have hpost := h.posterior1 (R'.map c.y) (by simpa using hne) (h.ok_y R')
          rw [← h.map_y] at hpost
          have hd := h.distinct R'
          by_cases hdiv : R'.length > 1 ∧ (BT.distinct (R'.map c.y)).length > 1
          · rw [if_pos hdiv, if_pos ⟨hdiv.1, hd.2 hdiv.2⟩]
            exact ih (some p0) (lv + 1) R' hne (h.lawful.getPrior_some _ _ _) (h.lawful'.getPrior_some _ _ _)
          · rw [if_neg hdiv, if_neg fun hx => hdiv ⟨hx.1, hd.1 hx.2⟩, hpost]
            rfl
        rw [hchild R1 hlen.1, hchild R2 hlen.2]
        generalize (if R1.length > 1 ∧ (BT.distinct (R1.map c.y)).length > 1 then
            hFit c fuel (some p0) (lv + 1) R1 else _) = x1
        generalize (if R2.length > 1 ∧ (BT.distinct (R2.map c.y)).length > 1 then
            hFit c fuel (some p0) (lv + 1) R2 else _) = x2
        cases x1 with
        | error e => rfl
        | ok u =>
          cases x2 with
          | error e => rfl
          | ok v =>
            simp only [Except.map, movedTree, (h.prob lv hR).noSplit]
      · rw [if_neg hlen, if_neg hlen]
        rfl

theorem merge_moved [DecidableEq O] [DecidableEq O'] (hp' : Hyper K) (pred : P → O) (pred' : P' → O')
    (hpred : ∀ p q, pred' (fP p) = pred' (fP q) ↔ pred p = pred q) (u : HNode S K P) :
    merge pred' (movedTree hp' a t fP fS u) = movedTree hp' a t fP fS (merge pred u) := by
  induction u with
  | leaf i => rfl
  | split i sp l b c1 c2 ih1 ih2 =>
    simp only [movedTree, merge, ih1, ih2]
    cases hm1 : merge pred c1 with
    | leaf j1 =>
      cases hm2 : merge pred c2 with
      | leaf j2 =>
        simp only [movedTree, imageInfo, hpred]
        split <;> rfl
      | split => rfl
    | split => rfl

theorem hFitRoot_move [DecidableEq O] [DecidableEq O'] (h : HMove c c' pair pair' a t fK fP fS ρ p0 okY) {n : Nat}
    (hn : 0 < n) (pa : Option P)
    (hp : c.T.getPrior pa n c.nDim = p0) (hp' : c'.T.getPrior (pa.map fP) n c.nDim = fP p0)
    (hprune : c'.hp.prune = c.hp.prune)
    (hpred : ∀ p q, c'.T.predictLeaf (fP p) = c'.T.predictLeaf (fP q) ↔ c.T.predictLeaf p = c.T.predictLeaf q) :
    hFitRoot c' (pa.map fP) n = (hFitRoot c pa n).map (movedTree c'.hp a t fP fS) := by
  unfold hFitRoot
  rw [hFit_move h (n + 1) pa 0 (List.range n) (by simp; omega) (by rwa [List.length_range])
    (by rwa [List.length_range]), hprune]
  cases hFit c (n + 1) pa 0 (List.range n) with
  | error e => rfl
  | ok u =>
    cases c.hp.prune with
    | false => rfl
    | true =>
      simp only [Except.map, if_true, prune_eq]
      rw [merge_moved c'.hp _ _ hpred]

end

end

end BT
