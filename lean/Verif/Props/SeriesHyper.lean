import Verif.Model.SeriesHyper
import Verif.Props.Series
import Verif.Lemmas.Subtree
import Verif.Props.HyperTransform

/-!
# C112: hyperplane trees with a pandas Series as target
-/

namespace BT
open Spec

set_option linter.unusedSectionVars false

section
variable {K P S O : Type} [Field K] [LinearOrder K] [LinearOrder S] [Neg S]

/-- A label that is looked up successfully is there. -/
theorem Ser.locs_mem {α : Type} (s : Ser α) : ∀ (l : List Nat) (r : Ser α), s.locs l = .ok r →
    ∀ i ∈ l, (i : Int) ∈ s.labels
  | [], _, _, i, hi => by cases hi
  | l :: ls, r, h, i, hi => by
    rw [Ser.locs] at h
    cases h1 : s.loc l with
    | error e => rw [h1] at h; cases h
    | ok v =>
      rw [h1] at h
      dsimp only at h
      cases h2 : s.locs ls with
      | error e => rw [h2] at h; cases h
      | ok r' =>
        rcases List.mem_cons.1 hi with rfl | hi
        · by_contra hno
          rw [Ser.loc_missing s _ hno] at h1
          cases h1
        · exact Ser.locs_mem s ls r' h2 i hi

/-- A plane is only accepted after a successful look-up of the sorted rows. -/
theorem hComputeSer_best {A : HArith K} (T : SerTarget K P S O) (hs : ∀ xs, (A.argsort xs).Perm (List.range xs.length))
    {q : HProb K P S} {ys : Ser K} {st st' : HState S K} {r : RawVec K} {v : S}
    (h : hComputeSer A T q ys st r = .ok (st', v)) (hr : q.rows ≠ [])
    (h0 : st.best = none) (hl : ¬ (0 : Int) ∈ ys.labels) : st'.best = none := by
  unfold hComputeSer at h
  dsimp only at h
  cases hn : hNormal A q r with
  | error e => rw [hn] at h; cases h
  | ok w =>
    rw [hn] at h
    dsimp only at h
    by_cases hc : (hSplitIndices q w).length = 0
    · rw [if_pos hc] at h
      injection h with h
      injection h with h _
      rw [← h]
      exact h0
    · rw [if_neg hc] at h
      cases hy : ys.locs (A.argsort (hProj q w)) with
      | error e => rw [hy] at h; cases h
      | ok r' =>
        exfalso
        refine hl (Ser.locs_mem ys _ r' hy 0 ((hs _).mem_iff.2 (List.mem_range.2 ?_)))
        simpa [hProj, List.length_pos_iff] using hr

theorem hSolveSer_best {A : HArith K} (T : SerTarget K P S O) (hs : ∀ xs, (A.argsort xs).Perm (List.range xs.length))
    {q : HProb K P S} {ys : Ser K} (hr : q.rows ≠ []) (hl : ¬ (0 : Int) ∈ ys.labels) (strat : Strategy K S) :
    ∀ (m : Nat) (hist : List (RawVec K × S)) (st st' : HState S K),
      hSolveSer A T q ys strat m hist st = .ok st' → st.best = none → st'.best = none
  | 0, _, _, _, h, _ => by cases h
  | m + 1, hist, st, st', h, h0 => by
    rw [hSolveSer] at h
    cases hstep : strat hist with
    | stop => rw [hstep] at h; injection h with h; rw [← h]; exact h0
    | raise e => rw [hstep] at h; cases h
    | eval r =>
      rw [hstep] at h
      dsimp only at h
      cases hcomp : hComputeSer A T q ys st r with
      | error e => rw [hcomp] at h; cases h
      | ok x =>
        obtain ⟨st1, v⟩ := x
        rw [hcomp] at h
        exact hSolveSer_best T hs hr hl strat m _ _ _ h (hComputeSer_best T hs hcomp hr h0 hl)

/-- A node that is split has the label 0. -/
theorem hFitSer_label {c : HCtxSer K P S O} (hs : ∀ xs, (c.A.argsort xs).Perm (List.range xs.length)) {fuel : Nat}
    {pa : Option P} {lv : Nat} {rows : List Nat} {ys : Ser K} (hr : rows ≠ []) {t : HNode S K P}
    (h : hFitSer c fuel pa lv rows ys = .ok t) (ht : t.isLeaf = false) : (0 : Int) ∈ ys.labels := by
  by_contra hl
  cases fuel with
  | zero => cases h
  | succ fuel =>
    rw [hFitSer] at h
    dsimp only at h
    split at h
    · cases h
    · next st hst =>
      have := hSolveSer_best c.T hs (q := hProblemSer c (c.T.base.getPrior pa rows.length c.nDim) lv rows ys) hr hl _ _ _ _ _
        hst rfl
      rw [this] at h
      injection h with h
      rw [← h] at ht
      cases ht

theorem filter_zero {n : Nat} {p : Nat → Bool} (h : (0 : Nat) ∈ (List.range n).filter p) (rows : List Nat) :
    (((List.range n).filter p).map fun j => rows.getD j 0).getD 0 0 = rows.getD 0 0 := by
  obtain ⟨hn, hp⟩ := List.mem_filter.1 h
  obtain ⟨m, rfl⟩ : ∃ m, n = m + 1 := ⟨n - 1, by have := List.mem_range.1 hn; omega⟩
  rw [List.range_succ_eq_map, List.filter_cons_of_pos hp, List.map_cons, List.getD_cons_zero]

/-- Every node that is split contains the first row. -/
theorem hFitSer_first {c : HCtxSer K P S O} (hs : ∀ xs, (c.A.argsort xs).Perm (List.range xs.length)) (fuel : Nat) :
    ∀ (pa : Option P) (lv : Nat) (rows : List Nat) (ys : Ser K) (t : HNode S K P), rows ≠ [] →
      hFitSer c fuel pa lv rows ys = .ok t → ∀ (addr : List Bool) (u : HNode S K P), nodeAt t addr = some u →
        u.isLeaf = false → passes hyperRouter t addr (c.X (rows.getD 0 0)) = true := by
  induction fuel with
  | zero => intro pa lv rows ys t _ h; cases h
  | succ fuel ih =>
    intro pa lv rows ys t hr h addr u hu hul
    rw [hFitSer] at h
    dsimp only at h
    split at h
    · cases h
    · next st hst =>
      cases hb : st.best with
      | none =>
        rw [hb] at h
        injection h with h
        subst h
        cases addr with
        | nil => rfl
        | cons b bs => cases hu
      | some sp =>
        rw [hb] at h
        dsimp only at h
        by_cases hne : 0 < ((List.range rows.length).filter fun j => hyperRouter.goes1 sp (c.X (rows.getD j 0))).length ∧
            0 < ((List.range rows.length).filter fun j => hyperRouter.goes2 sp (c.X (rows.getD j 0))).length
        swap
        · rw [if_neg hne] at h
          injection h with h
          subst h
          cases addr with
          | nil => rfl
          | cons b bs => cases hu
        rw [if_pos hne] at h
        obtain ⟨hne1, hne2⟩ := hne
        have key (goes : Nat → Bool) (hne : 0 < ((List.range rows.length).filter goes).length) {y1 : Ser K}
            (hy : ys.locs ((List.range rows.length).filter goes) = .ok y1) {pr : P} {cond : Prop} [Decidable cond]
            {j : Info K P} {c1 : HNode S K P}
            (hc : (if cond then hFitSer c fuel (some pr) (lv + 1)
              (((List.range rows.length).filter goes).map fun j => rows.getD j 0) y1 else .ok (.leaf j)) = .ok c1)
            (bs : List Bool) (hu : nodeAt c1 bs = some u) :
            goes 0 = true ∧ passes hyperRouter c1 bs (c.X (rows.getD 0 0)) = true := by
          split at hc
          · have hne' : (((List.range rows.length).filter goes).map fun j => rows.getD j 0) ≠ [] := by
              rw [ne_eq, List.map_eq_nil_iff]
              exact List.length_pos_iff.1 hne
            have hc1 : c1.isLeaf = false := by
              cases c1 with
              | split => rfl
              | leaf i =>
                cases bs with
                | nil => injection hu with hu; subst hu; cases hul
                | cons => cases hu
            have h0 := hFitSer_label hs hne' hc hc1
            rw [Ser.locs_labels ys _ y1 hy] at h0
            obtain ⟨k, hk, hk0⟩ := List.mem_map.1 h0
            obtain rfl : k = 0 := by omega
            refine ⟨(List.mem_filter.1 hk).2, ?_⟩
            rw [← filter_zero hk rows]
            exact ih _ _ _ _ _ hne' hc bs u hu hul
          · injection hc with hc
            subst hc
            exfalso
            cases bs with
            | nil => injection hu with hu; subst hu; cases hul
            | cons => cases hu
        split at h
        · cases h
        · next y1 hy1 =>
          split at h
          · cases h
          · next y2 hy2 =>
            split at h
            · cases h
            · next c1 hc1 =>
              split at h
              · cases h
              · next c2 hc2 =>
                injection h with h
                subst h
                match addr with
                | [] => rfl
                | false :: bs =>
                  obtain ⟨k1, k2⟩ := key _ hne1 hy1 hc1 bs hu
                  rw [passes, if_pos k1]
                  exact k2
                | true :: bs =>
                  obtain ⟨k1, k2⟩ := key _ hne2 hy2 hc2 bs hu
                  have k3 : ¬ hyperRouter.goes1 sp (c.X (rows.getD 0 0)) = true := by
                    intro k3
                    have a1 : signedDistance sp (c.X (rows.getD 0 0)) < 0 := of_decide_eq_true k3
                    have a2 : 0 ≤ signedDistance sp (c.X (rows.getD 0 0)) := of_decide_eq_true k1
                    exact absurd a1 (not_lt.2 a2)
                  rw [passes, if_neg k3, if_pos k1]
                  exact k2

/-- C112: in a hyperplane tree fitted to a Series, whatever its values, labels and the search, every node that is
split is passed by the first training row. -/
theorem C112_first_row [DecidableEq O] {c : HCtxSer K P S O} (hs : ∀ xs, (c.A.argsort xs).Perm (List.range xs.length))
    {prior : Option P} {ys : Ser K} (hy : ys ≠ []) {t : HNode S K P} (h : hFitRootSer c prior ys = .ok t)
    (addr : List Bool) (u : HNode S K P) (hu : nodeAt t addr = some u) (hul : u.isLeaf = false) :
    passes hyperRouter t addr (c.X 0) = true := by
  unfold hFitRootSer at h
  split at h
  · cases h
  · next t0 ht0 =>
    have hn : List.range ys.length ≠ [] := by simpa using hy
    have h0 : (List.range ys.length).getD 0 0 = 0 := by
      cases hl : ys.length with
      | zero => rfl
      | succ m => rw [List.range_succ_eq_map]; rfl
    have h' : t = if c.hp.prune then merge c.T.base.predictLeaf t0 else t0 := by
      cases hp : c.hp.prune with
      | false => rw [hp] at h; injection h with h; exact h.symm
      | true =>
        rw [hp] at h
        simp only [if_true] at h
        rw [prune_eq] at h
        injection h with h
        exact h.symm
    rw [h'] at hu ⊢
    obtain ⟨u0, hu0, e, -, hpass⟩ := nodeAt_pruned hu
    rw [hpass]
    have := hFitSer_first hs _ _ _ _ _ _ hn ht0 addr u0 hu0 (by
      cases u0 with
      | split => rfl
      | leaf i =>
        rw [e] at hul
        split at hul <;> cases hul)
    rwa [h0] at this

/-- C112: at most one of the children of a node is split again. -/
theorem C112_one_child [DecidableEq O] {c : HCtxSer K P S O} (hs : ∀ xs, (c.A.argsort xs).Perm (List.range xs.length))
    {prior : Option P} {ys : Ser K} (hy : ys ≠ []) {t : HNode S K P} (h : hFitRootSer c prior ys = .ok t)
    (addr : List Bool) (u v : HNode S K P) (hu : nodeAt t (addr ++ [false]) = some u)
    (hv : nodeAt t (addr ++ [true]) = some v) : u.isLeaf = true ∨ v.isLeaf = true := by
  by_contra hno
  push Not at hno
  have h1 := C112_first_row hs hy h _ u hu (by simpa using hno.1)
  have h2 := C112_first_row hs hy h _ v hv (by simpa using hno.2)
  revert h1 h2 hu hv
  generalize c.X 0 = x
  clear h
  induction addr generalizing t with
  | nil =>
    intro hu hv h1 h2
    cases t with
    | leaf i => cases hu
    | split i sp l b c1 c2 =>
      simp only [List.nil_append, passes] at h1 h2
      split at h1
      · next g => rw [if_pos g] at h2; simp at h2
      · simp at h1
  | cons a as ih =>
    intro hu hv h1 h2
    cases t with
    | leaf i => cases hu
    | split i sp l b c1 c2 =>
      simp only [List.cons_append, passes] at h1 h2
      simp only [List.cons_append, nodeAt] at hu hv
      cases a with
      | false =>
        simp only [Bool.false_eq_true, if_false] at hu hv
        refine ih hu hv ?_ ?_
        · split at h1
          · simpa using h1
          · simp at h1
        · split at h2
          · simpa using h2
          · simp at h2
      | true =>
        simp only [if_true] at hu hv
        split at h1
        · simp at h1
        · next g =>
          rw [if_neg g] at h2
          split at h1
          · next g' =>
            rw [if_pos g'] at h2
            exact ih hu hv (by simpa using h1) (by simpa using h2)
          · cases h1

/-- The same fit with the values of the Series as an array. -/
def arrayCtx (c : HCtxSer K P S O) (ys : Ser K) : HCtx K P S O :=
  ⟨c.A, c.T.base, c.hp, c.opt, c.budget, c.X, fun i => ys.vals.getD i 0, c.nDim⟩

end

section
variable {K P S O : Type} [Field K] [LinearOrder K] [LinearOrder S] [Neg S] {A : HArith K} {T : SerTarget K P S O}
  {q : HProb K P S} {ys : Ser K}

/-- Whenever a split is possible, the scores cannot be computed because of a label. -/
def Stuck (A : HArith K) (T : SerTarget K P S O) (q : HProb K P S) (ys : Ser K) : Prop :=
  ∀ w y', ys.locs (A.argsort (hProj q w)) = .ok y' →
    T.logSplit q.partitionPrior q.level y' q.prior q.nDim (hSplitIndices q w) = .error .keyError

/-- One evaluation with labels: an error if a split is possible, otherwise the same as with the array. -/
theorem hComputeSer_stuck (hq : Stuck A T q ys) (st : HState S K) (r : RawVec K) :
    hComputeSer A T q ys st r = .error .keyError ∨
    hComputeSer A T q ys st r = hCompute A T.base q st r ∧
      ∀ st' v, hCompute A T.base q st r = .ok (st', v) → st'.best = st.best := by
  unfold hComputeSer hCompute
  dsimp only
  cases hn : hNormal A q r with
  | error e =>
    refine .inr ⟨rfl, ?_⟩
    intro st' v h
    cases h
  | ok w =>
    dsimp only
    by_cases hc : (hSplitIndices q w).length = 0
    · rw [if_pos hc, if_pos hc]
      refine .inr ⟨rfl, ?_⟩
      intro st' v h
      injection h with h
      injection h with h _
      rw [← h]
    · rw [if_neg hc]
      left
      cases hy : ys.locs (A.argsort (hProj q w)) with
      | error e => rw [Ser.locs_error ys _ e hy]
      | ok y' =>
        dsimp only
        rw [hq w y' hy]

theorem hSolveSer_stuck (hq : Stuck A T q ys) (strat : Strategy K S) : ∀ (m : Nat) (hist : List (RawVec K × S))
    (st : HState S K),
    hSolveSer A T q ys strat m hist st = .error .keyError ∨
    hSolveSer A T q ys strat m hist st = hSolve A T.base q strat m hist st ∧
      ∀ st', hSolve A T.base q strat m hist st = .ok st' → st'.best = st.best
  | 0, _, _ => .inr ⟨rfl, fun st' h => by cases h⟩
  | m + 1, hist, st => by
    rw [hSolveSer, hSolve]
    cases hstep : strat hist with
    | stop => exact .inr ⟨rfl, fun st' h => by injection h with h; rw [← h]⟩
    | raise e => exact .inr ⟨rfl, fun st' h => by cases h⟩
    | eval r =>
      dsimp only
      rcases hComputeSer_stuck hq st r with h | ⟨h, hb⟩
      · rw [h]; exact .inl rfl
      · rw [h]
        cases hcomp : hCompute A T.base q st r with
        | error e => exact .inr ⟨rfl, fun st' h => by cases h⟩
        | ok x =>
          obtain ⟨st1, v⟩ := x
          dsimp only
          have hb1 := hb st1 v hcomp
          rcases hSolveSer_stuck hq strat m ((r, v) :: hist) st1 with g | ⟨g, gb⟩
          · exact .inl g
          · exact .inr ⟨g, fun st' h => (gb st' h).trans hb1⟩

theorem Ser.map_getD_range (ys : Ser K) : (List.range ys.length).map (fun i => ys.vals.getD i 0) = ys.vals := by
  apply List.ext_getElem
  · simp [Ser.vals]
  · intro j h1 h2
    simp [h2]

/-- The optimization function of the root is that of the array. -/
theorem hProblemSer_root (c : HCtxSer K P S O) (ys : Ser K) (p : P) :
    hProblemSer c p 0 (List.range ys.length) ys = hProblem (arrayCtx c ys) p 0 (List.range ys.length) := by
  have hy : (fun i => ys.vals.getD ((List.range ys.length).idxOf i) 0) = fun i => ys.vals.getD i 0 := by
    funext i
    by_cases hi : i < ys.length
    · have : (List.range ys.length).idxOf i = i := by
        have h := List.nodup_range (n := ys.length) |>.idxOf_getElem i (by simpa using hi)
        simpa using h
      rw [this]
    · have : (List.range ys.length).idxOf i = ys.length := by
        have := List.idxOf_eq_length (l := List.range ys.length) (a := i) (by simpa using hi)
        simpa using this
      have hl : ys.vals.length = ys.length := by simp [Ser.vals]
      simp only [List.getD_eq_getElem?_getD]
      rw [this, List.getElem?_eq_none (by omega), List.getElem?_eq_none (by omega)]
  unfold hProblemSer hProblem arrayCtx
  simp only [Ser.map_getD_range, hy]

theorem hFitRootSer_stuck [DecidableEq O] (c : HCtxSer K P S O) {prior : Option P} (ys : Ser K)
    (hst : ∀ q : HProb K P S, q.prior = c.T.base.getPrior prior ys.length c.nDim → q.rows = List.range ys.length →
      Stuck c.A c.T q ys) :
    hFitRootSer c prior ys = .error .keyError ∨
    hFitRootSer c prior ys = hFitRoot (arrayCtx c ys) prior ys.length ∧
      ∀ t, hFitRoot (arrayCtx c ys) prior ys.length = .ok t → t.isLeaf = true := by
  have hq (p : P) : hProblemSer c p 0 (List.range ys.length) ys =
      hProblem (arrayCtx c ys) p 0 (List.range ys.length) := hProblemSer_root c ys p
  have hlen : (List.range ys.length).map (arrayCtx c ys).y = ys.vals := ys.map_getD_range
  unfold hFitRootSer hFitRoot
  rw [hFitSer, hFit]
  dsimp only
  rw [hlen]
  have hT : (arrayCtx c ys).T = c.T.base := rfl
  have hd : (arrayCtx c ys).nDim = c.nDim := rfl
  rw [hT, hd, ← hq]
  have hs := hst (hProblemSer c (c.T.base.getPrior prior (List.range ys.length).length c.nDim) 0 (List.range ys.length) ys)
    (by rw [List.length_range]; rfl) rfl
  generalize hProblemSer c (c.T.base.getPrior prior (List.range ys.length).length c.nDim) 0 (List.range ys.length) ys = q
    at hs ⊢
  rcases hSolveSer_stuck hs (c.opt.solve q) c.budget [] (hInit q) with g | ⟨g, gb⟩
  · rw [g]; exact .inl rfl
  · right
    rw [g]
    have e : hSolve (arrayCtx c ys).A c.T.base q ((arrayCtx c ys).opt.solve q) (arrayCtx c ys).budget [] (hInit q) =
      hSolve c.A c.T.base q (c.opt.solve q) c.budget [] (hInit q) := rfl
    rw [e]
    cases hs : hSolve c.A c.T.base q (c.opt.solve q) c.budget [] (hInit q) with
    | error e => exact ⟨rfl, fun t h => by cases h⟩
    | ok st =>
      have hb : st.best = none := gb st hs
      dsimp only
      rw [hb]
      dsimp only
      refine ⟨rfl, fun t h => ?_⟩
      split at h
      · rw [prune_eq] at h
        injection h with h
        rw [← h]; rfl
      · injection h with h
        rw [← h]; rfl

/-- C112: if one of the labels `0, ..., n-1` is missing, a fit to the Series raises `KeyError`, or does what the fit
to the array of its values does, which is then to return a single leaf or to raise an exception. -/
theorem C112_missing_label [DecidableEq O] (c : HCtxSer K P S O)
    (hs : ∀ xs, (c.A.argsort xs).Perm (List.range xs.length)) (prior : Option P) (ys : Ser K) (i : Nat)
    (hi : i < ys.length) (hl : (i : Int) ∉ ys.labels) :
    hFitRootSer c prior ys = .error .keyError ∨
    hFitRootSer c prior ys = hFitRoot (arrayCtx c ys) prior ys.length ∧
      ∀ t, hFitRoot (arrayCtx c ys) prior ys.length = .ok t → t.isLeaf = true := by
  refine hFitRootSer_stuck c ys fun q _ hr w y' hy => ?_
  refine absurd (Ser.locs_mem ys _ y' hy i ((hs _).mem_iff.2 (List.mem_range.2 ?_))) hl
  simpa [hProj, hr] using hi

/-- C112: so the fit to a Series with a missing label raises `KeyError` whenever the fit to the array finds a split. -/
theorem C112_missing_label_fails [DecidableEq O] (c : HCtxSer K P S O)
    (hs : ∀ xs, (c.A.argsort xs).Perm (List.range xs.length)) (prior : Option P) (ys : Ser K) (i : Nat)
    (hi : i < ys.length) (hl : (i : Int) ∉ ys.labels) {t : HNode S K P}
    (h : hFitRoot (arrayCtx c ys) prior ys.length = .ok t) (ht : t.isLeaf = false) :
    hFitRootSer c prior ys = .error .keyError := by
  rcases C112_missing_label c hs prior ys i hi hl with g | ⟨-, g⟩
  · exact g
  · rw [g t h] at ht
    cases ht

end

section
variable {K : Type} [Field K] [LinearOrder K] {F : Fns K}

/-- C112, classification: a fit to a Series, whatever its labels, raises `KeyError`, or does what the fit to the array
of its values does, which is then to return a single leaf or to raise an exception. -/
theorem C112_classification (c : HCtxSer K (List K) K (List K)) (hT : c.T = clsSer F) {prior : List K} (hp : prior ≠ [])
    (ys : Ser K) :
    hFitRootSer c (some prior) ys = .error .keyError ∨
    hFitRootSer c (some prior) ys = hFitRoot (arrayCtx c ys) (some prior) ys.length ∧
      ∀ t, hFitRoot (arrayCtx c ys) (some prior) ys.length = .ok t → t.isLeaf = true := by
  refine hFitRootSer_stuck c ys fun q hq _ w y' hy => ?_
  have : q.prior = prior := by rw [hq, hT]; rfl
  rw [hT]
  exact clsLogSplitSer_keyError F _ _ ys y' _ hy q.prior (by rwa [this]) _ _

/-- C112, classification: whenever the fit to the array returns a tree with a split, the fit to the Series raises
`KeyError`. -/
theorem C112_classification_fails (c : HCtxSer K (List K) K (List K)) (hT : c.T = clsSer F) {prior : List K}
    (hp : prior ≠ []) (ys : Ser K) {t : HNode K K (List K)}
    (h : hFitRoot (arrayCtx c ys) (some prior) ys.length = .ok t) (ht : t.isLeaf = false) :
    hFitRootSer c (some prior) ys = .error .keyError := by
  rcases C112_classification c hT hp ys with g | ⟨-, g⟩
  · exact g
  · rw [g t h] at ht
    cases ht

end

/-! ### Regression with the default index: another tree, silently -/

section
variable {K : Type} [Field K] [LinearOrder K]

/-- With a candidate between any two neighbours, the scores of a Series are those of the array, with the labels of all
rows but the last. -/
theorem regLogSplitSer_all (F : Fns K) (pp : K) (lv : Nat) (y : Ser K) (prior : NG K) (nDim : Nat) (si : List Nat)
    (h : si.length = y.length - 1) : regLogSplitSer F pp lv y prior nDim si =
      .ok (y.labels.dropLast.zip (regLogSplit F pp lv y.vals prior nDim si)) := by
  have hz (a : List Int) (v : List K) (e : a.length = v.length) : (a.zip v).map Prod.fst = a ∧
      (a.zip v).map Prod.snd = v :=
    ⟨List.map_fst_zip e.le, List.map_snd_zip e.ge⟩
  have hl : y.labels.length = y.length := by simp [Ser.labels]
  have hv : y.vals.length = y.length := by simp [Ser.vals]
  have hd : y.dropLast.map Prod.fst = y.labels.dropLast := by simp [Ser.labels, List.map_dropLast]
  have e1 : ((y.withVals (cumsum y.vals)).dropLast).map Prod.fst = y.labels.dropLast := by
    rw [List.map_dropLast]
    unfold Ser.withVals
    rw [(hz _ _ (by rw [cumsum_length, hl, hv])).1]
  have e2 : ((y.withVals (cumsum y.vals)).dropLast).map Prod.snd = (cumsum y.vals).dropLast := by
    rw [List.map_dropLast]
    unfold Ser.withVals
    rw [(hz _ _ (by rw [cumsum_length, hl, hv])).2]
  have e3 : (Ser.withVals y.dropLast (cumsum (y.vals.dropLast.map fun v => v ^ 2))).map Prod.snd =
      cumsum (y.vals.dropLast.map fun v => v ^ 2) := by
    unfold Ser.withVals Ser.labels
    rw [hd, (hz _ _ (by simp [cumsum_length, hl, hv])).2]
  have m (c : K) (l : Ser K) : (l.map fun e => (e.1, c - e.2)).map Prod.snd = (l.map Prod.snd).map (c - ·) := by
    simp [List.map_map, Function.comp_def]
  unfold regLogSplitSer regLogSplit
  have h' : si.length = y.vals.length - 1 := by rw [hv]; exact h
  simp only [h', if_true, beq_self_eq_true, Ser.vals] at *
  rw [m, m, e2, e3]
  unfold Ser.labels at *
  rw [e1]

end

/-- Three rows at 1, 0 and 2 on a line, and the only direction. -/
noncomputable def shuffledCtx (pp : ℝ) : HCtxSer ℝ (NG ℝ) ℝ ℝ :=
  ⟨realArith, regSer realFns, ⟨pp, 0, false, 0⟩, listOpt false [floatVec [1]], 2,
    fun i _ => [1, 0, 2].getD i 0, 1⟩

/-- Their targets. -/
noncomputable def shuffledY : Ser ℝ := [(0, 0), (1, 1), (2, 0)]

theorem shuffled_best : ngMarginal realFns ⟨0, 1, 1, 1⟩ [1, 0] + ngMarginal realFns ⟨0, 1, 1, 1⟩ [0] <
    ngMarginal realFns ⟨0, 1, 1, 1⟩ [1] + ngMarginal realFns ⟨0, 1, 1, 1⟩ [0, 0] := by
  have h1 : Spec.ngPosterior (⟨0, 1, 1, 1⟩ : NG ℝ) [1, 0] = ⟨1 / 3, 3, 2, 4 / 3⟩ := by
    norm_num [Spec.ngPosterior, sqDev, mean]
  have h2 : Spec.ngPosterior (⟨0, 1, 1, 1⟩ : NG ℝ) [0] = ⟨0, 2, 3 / 2, 1⟩ := by
    norm_num [Spec.ngPosterior, sqDev, mean]
  have h3 : Spec.ngPosterior (⟨0, 1, 1, 1⟩ : NG ℝ) [1] = ⟨1 / 2, 2, 3 / 2, 5 / 4⟩ := by
    norm_num [Spec.ngPosterior, sqDev, mean]
  have h4 : Spec.ngPosterior (⟨0, 1, 1, 1⟩ : NG ℝ) [0, 0] = ⟨0, 3, 2, 1⟩ := by
    norm_num [Spec.ngPosterior, sqDev, mean]
  unfold ngMarginal
  simp only [h1, h2, h3, h4, List.length_cons, List.length_nil]
  have l : ∀ x, realFns.log x = Real.log x := fun _ => rfl
  simp only [l, Real.log_one]
  have a : Real.log (5 / 4) < Real.log (4 / 3) := Real.log_lt_log (by norm_num) (by norm_num)
  have b : 0 < Real.log (5 / 4) := Real.log_pos (by norm_num)
  push_cast
  linarith

theorem shuffled_prior : ∃ pp : ℝ, 0 < pp ∧ pp < 1 ∧
    regPair realFns pp 0 ⟨0, 1, 1, 1⟩ 1 2 [1, 0] [0] < regLogNoSplit realFns pp 0 [0, 1, 0] ⟨0, 1, 1, 1⟩ ∧
    regLogNoSplit realFns pp 0 [0, 1, 0] ⟨0, 1, 1, 1⟩ < regPair realFns pp 0 ⟨0, 1, 1, 1⟩ 1 2 [1] [0, 0] := by
  have hb := shuffled_best
  set m1 := ngMarginal realFns ⟨0, 1, 1, 1⟩ [1, 0] + ngMarginal realFns ⟨0, 1, 1, 1⟩ [0] with hm1
  set m0 := ngMarginal realFns ⟨0, 1, 1, 1⟩ [1] + ngMarginal realFns ⟨0, 1, 1, 1⟩ [0, 0] with hm0
  set M := ngMarginal realFns ⟨0, 1, 1, 1⟩ [0, 1, 0] with hM
  set D := Real.log 2 + M - (m0 + m1) / 2 with hD
  have he := Real.exp_pos D
  have hs : 0 < 1 + Real.exp D := by linarith
  have e1 : Real.log (1 - (Real.exp D / (1 + Real.exp D)) ^ (0 + 1)) = -Real.log (1 + Real.exp D) := by
    rw [zero_add, pow_one, ← Real.log_inv]
    congr 1
    field_simp
    ring
  have e2 : Real.log ((Real.exp D / (1 + Real.exp D)) ^ (0 + 1) / (((2 : Nat) : ℝ) * ((1 : Nat) : ℝ))) =
      D - Real.log (1 + Real.exp D) - Real.log 2 := by
    rw [zero_add, pow_one, Nat.cast_ofNat, Nat.cast_one, mul_one, Real.log_div (div_pos he hs).ne' two_ne_zero, Real.log_div he.ne' hs.ne',
      Real.log_exp]
  refine ⟨Real.exp D / (1 + Real.exp D), div_pos he hs, (div_lt_one hs).2 (by linarith), ?_, ?_⟩
  all_goals
    rw [regLogNoSplit_eq _ _ _ _ _ (by simp)]
    unfold regPair logSplitPrior logStayPrior
    have l : ∀ x, realFns.log x = Real.log x := fun _ => rfl
    rw [l, l, e1, e2]
    linarith

section
variable (pp : ℝ)

private theorem shuffled_problem : let q := hProblem (arrayCtx (shuffledCtx pp) shuffledY) ⟨0, 1, 1, 1⟩ 0 [0, 1, 2]
    hNormal realArith q (floatVec [1]) = .ok [1] ∧ hProj q [1] = [1, 0, 2] ∧
    realArith.argsort [1, 0, 2] = [1, 0, 2] ∧ hSplitIndices q [1] = [1, 2] := by
  intro q
  have hn : realArith.norm [1] = 1 := by simp [realArith]
  have hp : hProj q [1] = [1, 0, 2] := by
    simp [hProj, dot, rowVec, q, hProblem, arrayCtx, shuffledCtx]
  have hs : realArith.argsort [1, 0, 2] = [1, 0, 2] := by
    simp [realArith, insArgsort, insPos, exactOps, List.range_succ]
  refine ⟨?_, hp, hs, ?_⟩
  · simp [hNormal, normalizeVec, floatVec, nanToNum, q, hProblem, arrayCtx, shuffledCtx, listOpt, hn]
  · unfold hSplitIndices
    rw [hp]
    simp [splitIndices, exactOps, npWhere, q, hProblem, arrayCtx, shuffledCtx, List.range_succ]

/-- C112: with the default index, a regression fit to a Series can return another tree than the fit to the array, and
raise nothing: here the array gives a split, the Series a single leaf. -/
theorem C112_silent : ∃ (pp : ℝ) (i : Info ℝ (NG ℝ)) (t : HNode ℝ ℝ (NG ℝ)), 0 < pp ∧ pp < 1 ∧
    shuffledY = rangeSeries (fun i => [0, 1, 0].getD i 0) 3 ∧
    hFitRootSer (shuffledCtx pp) (some ⟨0, 1, 1, 1⟩) shuffledY = .ok (.leaf i) ∧
    hFitRoot (arrayCtx (shuffledCtx pp) shuffledY) (some ⟨0, 1, 1, 1⟩) 3 = .ok t ∧ t.isLeaf = false := by
  obtain ⟨pp, hpos, hlt, hlo, hhi⟩ := shuffled_prior
  obtain ⟨hn, hp, hs, hsi⟩ := shuffled_problem pp
  set q := hProblem (arrayCtx (shuffledCtx pp) shuffledY) ⟨0, 1, 1, 1⟩ 0 [0, 1, 2] with hq
  set s0 := regPair realFns pp 0 ⟨0, 1, 1, 1⟩ 1 2 [1] [0, 0] with hs0
  set s1 := regPair realFns pp 0 ⟨0, 1, 1, 1⟩ 1 2 [1, 0] [0] with hs1
  have hsc : regLogSplit realFns pp 0 [1, 0, 0] ⟨0, 1, 1, 1⟩ 1 [1, 2] = [s0, s1] := by
    rw [regLogSplit_eq _ _ _ _ _ _ _ (by simp) (by simp)]
    simp [hs0, hs1]
  have hno : q.noSplit = regLogNoSplit realFns pp 0 [0, 1, 0] ⟨0, 1, 1, 1⟩ := by
    simp [hq, hProblem, arrayCtx, shuffledCtx, shuffledY, regSer, regTarget, Ser.vals]
  have h01 : ¬ s0 < s1 := not_lt.2 (hlo.trans hhi).le
  have hprior : ∀ o, (regTarget realFns).getPrior (some ⟨0, 1, 1, 1⟩) o 1 = (⟨0, 1, 1, 1⟩ : NG ℝ) := fun _ => rfl
  -- the array
  have hca : ∃ d v, hCompute realArith (regTarget realFns) q (hInit q) (floatVec [1]) =
      .ok (⟨1, s0, d, some ⟨[1], [1 / 2]⟩⟩, v) := by
    refine ⟨hDist q ⟨[1], [1 / 2]⟩, -s0, ?_⟩
    have hy : ([1, 0, 2].map fun j => q.y (q.rows.getD j 0)) = [1, 0, 0] := by
      simp [hq, hProblem, arrayCtx, shuffledY, Ser.vals]
    have hsc' : (regTarget realFns).logSplit q.partitionPrior q.level [1, 0, 0] q.prior q.nDim [1, 2] = [s0, s1] := hsc
    have ho : hOrigin q 1 0 = [1 / 2] := by simp [hOrigin, rowVec, hq, hProblem, arrayCtx, shuffledCtx]
    unfold hCompute
    rw [hn]
    simp only [hp, hs, hsi, hy, hsc', hInit, hno]
    simp only [argmax, argmaxAux, h01, if_false, List.length_cons, List.getElem?_cons_zero, hhi.le, hhi, if_true,
      Nat.sub_self, List.getElem?_cons_succ, ho]
    rfl
  obtain ⟨d, v, hca⟩ := hca
  have hsa : hSolve realArith (regTarget realFns) q ((listOpt false [floatVec [1]]).solve q) 2 [] (hInit q) =
      .ok ⟨1, s0, d, some ⟨[1], [1 / 2]⟩⟩ := by
    have h0 : (listOpt (P := NG ℝ) (S := ℝ) false [floatVec (1 :: ([] : List ℝ))]).solve q [] = .eval (floatVec [1]) := rfl
    simp only [hSolve, h0, hca]
    rfl
  -- the Series
  have hqs : hProblemSer (shuffledCtx pp) ⟨0, 1, 1, 1⟩ 0 [0, 1, 2] shuffledY = q :=
    hProblemSer_root (shuffledCtx pp) shuffledY ⟨0, 1, 1, 1⟩
  have hcs : ∃ v, hComputeSer realArith (regSer realFns) q shuffledY (hInit q) (floatVec [1]) =
      .ok ({ hInit q with evals := 1 }, v) := by
    refine ⟨-s1, ?_⟩
    have hl : shuffledY.locs [1, 0, 2] = .ok [(1, 1), (0, 0), (2, 0)] := by
      simp [shuffledY, Ser.locs, Ser.loc, List.lookup]
    have hsc' : (regSer realFns).logSplit q.partitionPrior q.level [(1, 1), (0, 0), (2, 0)] q.prior q.nDim [1, 2] =
        .ok [(1, s0), (0, s1)] := by
      have e : (regSer realFns).logSplit q.partitionPrior q.level [(1, 1), (0, 0), (2, 0)] q.prior q.nDim [1, 2] =
        regLogSplitSer realFns pp 0 [(1, 1), (0, 0), (2, 0)] ⟨0, 1, 1, 1⟩ 1 [1, 2] := rfl
      rw [e]
      rw [regLogSplitSer_all _ _ _ _ _ _ _ rfl]
      show Except.ok (List.zip _ (regLogSplit realFns pp 0 [1, 0, 0] ⟨0, 1, 1, 1⟩ 1 [1, 2])) = _
      rw [hsc]
      rfl
    have hv : Ser.vals [((1 : Int), s0), (0, s1)] = [s0, s1] := rfl
    have hlo' : Ser.loc [((1 : Int), s0), (0, s1)] ((0 : Nat) : Int) = .ok s1 := rfl
    unfold hComputeSer
    rw [hn]
    simp only [hp, hs, hsi, hl, hsc', hInit, hno, hv]
    simp only [argmax, argmaxAux, h01, if_false, hlo', List.length_cons, not_le.2 hlo]
    rfl
  obtain ⟨v', hcs⟩ := hcs
  have hss : hSolveSer realArith (regSer realFns) q shuffledY ((listOpt false [floatVec [1]]).solve q) 2 [] (hInit q) =
      .ok { hInit q with evals := 1 } := by
    have h0 : (listOpt (P := NG ℝ) (S := ℝ) false [floatVec (1 :: ([] : List ℝ))]).solve q [] = .eval (floatVec [1]) := rfl
    simp only [hSolveSer, h0, hcs]
    rfl
  have hseries : ∃ i, hFitRootSer (shuffledCtx pp) (some ⟨0, 1, 1, 1⟩) shuffledY = .ok (.leaf i) := by
    unfold hFitRootSer
    rw [show shuffledY.length = 3 from rfl, show List.range 3 = [0, 1, 2] from rfl, hFitSer]
    dsimp only
    rw [show (shuffledCtx pp).T.base.getPrior (some ⟨0, 1, 1, 1⟩) [0, 1, 2].length (shuffledCtx pp).nDim =
      (⟨0, 1, 1, 1⟩ : NG ℝ) from rfl, hqs]
    rw [show hSolveSer (shuffledCtx pp).A (shuffledCtx pp).T q shuffledY ((shuffledCtx pp).opt.solve q)
      (shuffledCtx pp).budget [] (hInit q) = _ from hss]
    exact ⟨_, rfl⟩
  have harray : ∃ t, hFitRoot (arrayCtx (shuffledCtx pp) shuffledY) (some ⟨0, 1, 1, 1⟩) 3 = .ok t ∧
      t.isLeaf = false := by
    unfold hFitRoot
    rw [show List.range 3 = [0, 1, 2] from rfl, hFit]
    dsimp only
    rw [show (arrayCtx (shuffledCtx pp) shuffledY).T.getPrior (some ⟨0, 1, 1, 1⟩) [0, 1, 2].length
      (arrayCtx (shuffledCtx pp) shuffledY).nDim = (⟨0, 1, 1, 1⟩ : NG ℝ) from rfl, ← hq]
    rw [show hSolve (arrayCtx (shuffledCtx pp) shuffledY).A (arrayCtx (shuffledCtx pp) shuffledY).T q
      ((arrayCtx (shuffledCtx pp) shuffledY).opt.solve q) (arrayCtx (shuffledCtx pp) shuffledY).budget [] (hInit q) = _
      from hsa]
    dsimp only
    have f1 : ([0, 1, 2] : List Nat).filter (fun i => hyperRouter.goes1 (⟨[1], [1 / 2]⟩ : HSplit ℝ)
        ((arrayCtx (shuffledCtx pp) shuffledY).X i)) = [1] := by
      simp [hyperRouter, signedDistance, dot, rowVec, arrayCtx, shuffledCtx]
      norm_num
    have f2 : ([0, 1, 2] : List Nat).filter (fun i => hyperRouter.goes2 (⟨[1], [1 / 2]⟩ : HSplit ℝ)
        ((arrayCtx (shuffledCtx pp) shuffledY).X i)) = [0, 2] := by
      simp [hyperRouter, signedDistance, dot, rowVec, arrayCtx, shuffledCtx]
      norm_num
    rw [f1, f2]
    have g : (distinct ([0, 2].map (arrayCtx (shuffledCtx pp) shuffledY).y)).length = 1 := by
      simp [arrayCtx, shuffledY, Ser.vals, distinct]
    rw [g]
    exact ⟨_, rfl, rfl⟩
  obtain ⟨i, hseries⟩ := hseries
  obtain ⟨t, ht, hl⟩ := harray
  exact ⟨pp, i, t, hpos, hlt, by simp [rangeSeries, shuffledY, List.range_succ], hseries, ht, hl⟩

end

/-! ### A Series that is fitted with two splits -/

/-- Three rows at 0, 1 and 2 on a line, and the only direction. -/
noncomputable def sortedCtx (pp : ℝ) : HCtxSer ℝ (NG ℝ) ℝ ℝ :=
  ⟨realArith, regSer realFns, ⟨pp, 0, false, 0⟩, listOpt false [floatVec [1]], 2, fun i _ => (i : ℝ), 1⟩

/-- Their targets. -/
noncomputable def sortedY : Ser ℝ := [(0, 0), (1, 1), (2, 5)]

theorem sorted_best : ngMarginal realFns ⟨0, 1, 1, 1⟩ [0] + ngMarginal realFns ⟨0, 1, 1, 1⟩ [1, 5] <
    ngMarginal realFns ⟨0, 1, 1, 1⟩ [0, 1] + ngMarginal realFns ⟨0, 1, 1, 1⟩ [5] := by
  have h1 : Spec.ngPosterior (⟨0, 1, 1, 1⟩ : NG ℝ) [0, 1] = ⟨1 / 3, 3, 2, 4 / 3⟩ := by
    norm_num [Spec.ngPosterior, sqDev, mean]
  have h2 : Spec.ngPosterior (⟨0, 1, 1, 1⟩ : NG ℝ) [5] = ⟨5 / 2, 2, 3 / 2, 29 / 4⟩ := by
    norm_num [Spec.ngPosterior, sqDev, mean]
  have h3 : Spec.ngPosterior (⟨0, 1, 1, 1⟩ : NG ℝ) [0] = ⟨0, 2, 3 / 2, 1⟩ := by
    norm_num [Spec.ngPosterior, sqDev, mean]
  have h4 : Spec.ngPosterior (⟨0, 1, 1, 1⟩ : NG ℝ) [1, 5] = ⟨2, 3, 2, 8⟩ := by
    norm_num [Spec.ngPosterior, sqDev, mean]
  unfold ngMarginal
  simp only [h1, h2, h3, h4, List.length_cons, List.length_nil]
  have l : ∀ x, realFns.log x = Real.log x := fun _ => rfl
  simp only [l, Real.log_one]
  have a : Real.log (29 / 4) < Real.log 8 := Real.log_lt_log (by norm_num) (by norm_num)
  have b : 4 * Real.log (4 / 3) < Real.log 8 := by
    have : Real.log ((4 / 3) ^ 4) < Real.log 8 := Real.log_lt_log (by norm_num) (by norm_num)
    rwa [Real.log_pow] at this
  push_cast
  linarith

theorem sorted_prior : ∃ pp : ℝ, 0 < pp ∧ pp < 1 ∧
    regPair realFns pp 0 ⟨0, 1, 1, 1⟩ 1 2 [0] [1, 5] < regPair realFns pp 0 ⟨0, 1, 1, 1⟩ 1 2 [0, 1] [5] ∧
    regLogNoSplit realFns pp 0 [0, 1, 5] ⟨0, 1, 1, 1⟩ < regPair realFns pp 0 ⟨0, 1, 1, 1⟩ 1 2 [0, 1] [5] ∧
    regLogNoSplit realFns pp 1 [0, 1] ⟨0, 1, 1, 1⟩ < regPair realFns pp 1 ⟨0, 1, 1, 1⟩ 1 1 [0] [1] := by
  have hb := sorted_best
  set a := ngMarginal realFns ⟨0, 1, 1, 1⟩ [0, 1] + ngMarginal realFns ⟨0, 1, 1, 1⟩ [5] with ha
  set b := ngMarginal realFns ⟨0, 1, 1, 1⟩ [0] + ngMarginal realFns ⟨0, 1, 1, 1⟩ [1] with hb'
  set M := ngMarginal realFns ⟨0, 1, 1, 1⟩ [0, 1, 5] with hM
  set N := ngMarginal realFns ⟨0, 1, 1, 1⟩ [0, 1] with hN
  obtain ⟨e, he, he2, h1, h2⟩ : ∃ e : ℝ, 0 < e ∧ e < 1 / 2 ∧ Real.log (2 * e) + M < a + Real.log (1 / 4) ∧
      Real.log (2 * e) + N < b + Real.log (1 / 4) := by
    set m := min (a - M) (b - N) with hm
    have hma : m ≤ a - M := min_le_left _ _
    have hmb : m ≤ b - N := min_le_right _ _
    refine ⟨min (1 / 4) (Real.exp (m + Real.log (1 / 4) - 1) / 2), lt_min (by norm_num) (by positivity),
      (min_le_left _ _).trans_lt (by norm_num), ?_, ?_⟩
    all_goals
      have h : Real.log (2 * min (1 / 4) (Real.exp (m + Real.log (1 / 4) - 1) / 2)) ≤ m + Real.log (1 / 4) - 1 := by
        rw [Real.log_le_iff_le_exp (by positivity)]
        have := min_le_right (1 / 4) (Real.exp (m + Real.log (1 / 4) - 1) / 2)
        linarith
      linarith
  have l : ∀ x, realFns.log x = Real.log x := fun _ => rfl
  have s1 : Real.log (1 - (1 - e) ^ (0 + 1)) ≤ Real.log (2 * e) := Real.log_le_log (by norm_num; nlinarith) (by norm_num; nlinarith)
  have s2 : Real.log (1 - (1 - e) ^ (1 + 1)) ≤ Real.log (2 * e) := by
    have h : 1 - (1 - e) ^ (1 + 1) = e * (2 - e) := by ring
    rw [h]
    exact Real.log_le_log (mul_pos he (by linarith)) (by nlinarith)
  have s3 : Real.log (1 / 4) ≤ Real.log ((1 - e) ^ (0 + 1) / (((2 : Nat) : ℝ) * ((1 : Nat) : ℝ))) :=
    Real.log_le_log (by norm_num) (by push_cast; nlinarith)
  have s4 : Real.log (1 / 4) ≤ Real.log ((1 - e) ^ (1 + 1) / (((1 : Nat) : ℝ) * ((1 : Nat) : ℝ))) :=
    Real.log_le_log (by norm_num) (by push_cast; nlinarith)
  refine ⟨1 - e, by linarith, by linarith, ?_, ?_, ?_⟩
  · unfold regPair
    linarith
  · rw [regLogNoSplit_eq _ _ _ _ _ (by simp)]
    unfold regPair logSplitPrior logStayPrior
    rw [l, l]
    linarith
  · rw [regLogNoSplit_eq _ _ _ _ _ (by simp)]
    unfold regPair logSplitPrior logStayPrior
    rw [l, l]
    linarith

/-- A Series that is fitted with two splits, one below the other. -/
theorem sorted_fit : ∃ (pp : ℝ) (i1 i2 j1 j2 j3 : Info ℝ (NG ℝ)) (l1 l2 b1 b2 : ℝ), 0 < pp ∧ pp < 1 ∧
    hFitRootSer (sortedCtx pp) (some ⟨0, 1, 1, 1⟩) sortedY =
      .ok (.split i1 ⟨[1], [3 / 2]⟩ l1 b1 (.split i2 ⟨[1], [1 / 2]⟩ l2 b2 (.leaf j1) (.leaf j2)) (.leaf j3)) := by
  obtain ⟨pp, hpos, hlt, hbest, hroot, hchild⟩ := sorted_prior
  set q := hProblemSer (sortedCtx pp) ⟨0, 1, 1, 1⟩ 0 [0, 1, 2] sortedY with hq
  set q' := hProblemSer (sortedCtx pp) ⟨0, 1, 1, 1⟩ 1 [0, 1] [(0, 0), (1, 1)] with hq'
  set s0 := regPair realFns pp 0 ⟨0, 1, 1, 1⟩ 1 2 [0] [1, 5] with hs0
  set s1 := regPair realFns pp 0 ⟨0, 1, 1, 1⟩ 1 2 [0, 1] [5] with hs1
  set s2 := regPair realFns pp 1 ⟨0, 1, 1, 1⟩ 1 1 [0] [1] with hs2
  have hnorm : realArith.norm [1] = 1 := by simp [realArith]
  have hstrat (q : HProb ℝ (NG ℝ) ℝ) : (listOpt (P := NG ℝ) (S := ℝ) false [floatVec (1 :: ([] : List ℝ))]).solve q [] =
      .eval (floatVec [1]) := rfl
  -- the root
  have hsolve : ∃ d, hSolveSer realArith (regSer realFns) q sortedY ((listOpt false [floatVec [1]]).solve q) 2 []
      (hInit q) = .ok ⟨1, s1, d, some ⟨[1], [3 / 2]⟩⟩ := by
    refine ⟨hDist q ⟨[1], [3 / 2]⟩, ?_⟩
    have hn : hNormal realArith q (floatVec [1]) = .ok [1] := by
      simp [hNormal, normalizeVec, floatVec, nanToNum, hq, hProblemSer, sortedCtx, listOpt, hnorm]
    have hp : hProj q [1] = [0, 1, 2] := by simp [hProj, dot, rowVec, hq, hProblemSer, sortedCtx]
    have hs : realArith.argsort [0, 1, 2] = [0, 1, 2] := by
      simp [realArith, insArgsort, insPos, exactOps, List.range_succ]
    have hsi : hSplitIndices q [1] = [1, 2] := by
      unfold hSplitIndices
      rw [hp]
      simp [splitIndices, exactOps, npWhere, hq, hProblemSer, sortedCtx, List.range_succ]
      norm_num
    have hl : sortedY.locs [0, 1, 2] = .ok [(0, 0), (1, 1), (2, 5)] := by
      simp [sortedY, Ser.locs, Ser.loc, List.lookup]
    have hsc : (regSer realFns).logSplit q.partitionPrior q.level [(0, 0), (1, 1), (2, 5)] q.prior q.nDim [1, 2] =
        .ok [(0, s0), (1, s1)] := by
      have e : (regSer realFns).logSplit q.partitionPrior q.level [(0, 0), (1, 1), (2, 5)] q.prior q.nDim [1, 2] =
        regLogSplitSer realFns pp 0 [(0, 0), (1, 1), (2, 5)] ⟨0, 1, 1, 1⟩ 1 [1, 2] := rfl
      rw [e, regLogSplitSer_all _ _ _ _ _ _ _ rfl]
      show Except.ok (List.zip _ (regLogSplit realFns pp 0 [0, 1, 5] ⟨0, 1, 1, 1⟩ 1 [1, 2])) = _
      rw [regLogSplit_eq _ _ _ _ _ _ _ (by simp) (by simp)]
      simp [hs0, hs1, Ser.labels]
    have hno : q.noSplit = regLogNoSplit realFns pp 0 [0, 1, 5] ⟨0, 1, 1, 1⟩ := rfl
    have hv : Ser.vals [((0 : Int), s0), (1, s1)] = [s0, s1] := rfl
    have hlo' : Ser.loc [((0 : Int), s0), (1, s1)] ((1 : Nat) : Int) = .ok s1 := rfl
    have ho : hOrigin q 1 2 = [3 / 2] := by
      simp [hOrigin, rowVec, hq, hProblemSer, sortedCtx]
      norm_num
    have hc : hComputeSer realArith (regSer realFns) q sortedY (hInit q) (floatVec [1]) =
        .ok (⟨1, s1, hDist q ⟨[1], [3 / 2]⟩, some ⟨[1], [3 / 2]⟩⟩, -s1) := by
      unfold hComputeSer
      rw [hn]
      simp only [hp, hs, hsi, hl, hsc, hInit, hno, hv]
      simp only [argmax, argmaxAux, hbest, if_true, zero_add, hlo', List.length_cons, hroot.le, hroot,
        List.getElem?_cons_succ, List.getElem?_cons_zero, ho]
      rfl
    simp only [hSolveSer, hstrat, hc]
    rfl
  have hsolve' : ∃ d, hSolveSer realArith (regSer realFns) q' [(0, 0), (1, 1)]
      ((listOpt false [floatVec [1]]).solve q') 2 [] (hInit q') = .ok ⟨1, s2, d, some ⟨[1], [1 / 2]⟩⟩ := by
    refine ⟨hDist q' ⟨[1], [1 / 2]⟩, ?_⟩
    have hn : hNormal realArith q' (floatVec [1]) = .ok [1] := by
      simp [hNormal, normalizeVec, floatVec, nanToNum, hq', hProblemSer, sortedCtx, listOpt, hnorm]
    have hp : hProj q' [1] = [0, 1] := by simp [hProj, dot, rowVec, hq', hProblemSer, sortedCtx]
    have hs : realArith.argsort [0, 1] = [0, 1] := by
      simp [realArith, insArgsort, insPos, exactOps, List.range_succ]
    have hsi : hSplitIndices q' [1] = [1] := by
      unfold hSplitIndices
      rw [hp]
      simp [splitIndices, exactOps, npWhere, hq', hProblemSer, sortedCtx]
    have hl : Ser.locs [((0 : Int), (0 : ℝ)), (1, 1)] [0, 1] = .ok [(0, 0), (1, 1)] := by
      simp [Ser.locs, Ser.loc, List.lookup]
    have hsc : (regSer realFns).logSplit q'.partitionPrior q'.level [(0, 0), (1, 1)] q'.prior q'.nDim [1] =
        .ok [(0, s2)] := by
      have e : (regSer realFns).logSplit q'.partitionPrior q'.level [(0, 0), (1, 1)] q'.prior q'.nDim [1] =
        regLogSplitSer realFns pp 1 [(0, 0), (1, 1)] ⟨0, 1, 1, 1⟩ 1 [1] := rfl
      rw [e, regLogSplitSer_all _ _ _ _ _ _ _ rfl]
      show Except.ok (List.zip _ (regLogSplit realFns pp 1 [0, 1] ⟨0, 1, 1, 1⟩ 1 [1])) = _
      rw [regLogSplit_eq _ _ _ _ _ _ _ (by simp) (by simp)]
      simp [hs2, Ser.labels]
    have hno : q'.noSplit = regLogNoSplit realFns pp 1 [0, 1] ⟨0, 1, 1, 1⟩ := rfl
    have hv : Ser.vals [((0 : Int), s2)] = [s2] := rfl
    have hlo' : Ser.loc [((0 : Int), s2)] ((0 : Nat) : Int) = .ok s2 := rfl
    have ho : hOrigin q' 0 1 = [1 / 2] := by
      simp [hOrigin, rowVec, hq', hProblemSer, sortedCtx]
    have hc : hComputeSer realArith (regSer realFns) q' [(0, 0), (1, 1)] (hInit q') (floatVec [1]) =
        .ok (⟨1, s2, hDist q' ⟨[1], [1 / 2]⟩, some ⟨[1], [1 / 2]⟩⟩, -s2) := by
      unfold hComputeSer
      rw [hn]
      simp only [hp, hs, hsi, hl, hsc, hInit, hno, hv]
      simp only [argmax, argmaxAux, if_true, hlo', List.length_cons, hchild.le, hchild, Nat.sub_self,
        List.getElem?_cons_succ, List.getElem?_cons_zero, ho]
      rfl
    simp only [hSolveSer, hstrat, hc]
    rfl
  obtain ⟨d, hsolve⟩ := hsolve
  obtain ⟨d', hsolve'⟩ := hsolve'
  have hX : ∀ i, (sortedCtx pp).X i = fun _ => (i : ℝ) := fun _ => rfl
  have f1 : (List.range 3).filter (fun j => hyperRouter.goes1 (⟨[1], [3 / 2]⟩ : HSplit ℝ)
      ((sortedCtx pp).X (([0, 1, 2] : List Nat).getD j 0))) = [0, 1] := by
    simp [hX, hyperRouter, signedDistance, dot, rowVec, List.range_succ]
    norm_num
  have f2 : (List.range 3).filter (fun j => hyperRouter.goes2 (⟨[1], [3 / 2]⟩ : HSplit ℝ)
      ((sortedCtx pp).X (([0, 1, 2] : List Nat).getD j 0))) = [2] := by
    simp [hX, hyperRouter, signedDistance, dot, rowVec, List.range_succ]
    norm_num
  have g1 : (List.range 2).filter (fun j => hyperRouter.goes1 (⟨[1], [1 / 2]⟩ : HSplit ℝ)
      ((sortedCtx pp).X (([0, 1] : List Nat).getD j 0))) = [0] := by
    simp [hX, hyperRouter, signedDistance, dot, rowVec, List.range_succ]
    norm_num
  have g2 : (List.range 2).filter (fun j => hyperRouter.goes2 (⟨[1], [1 / 2]⟩ : HSplit ℝ)
      ((sortedCtx pp).X (([0, 1] : List Nat).getD j 0))) = [1] := by
    simp [hX, hyperRouter, signedDistance, dot, rowVec, List.range_succ]
    norm_num
  have k1 : sortedY.locs [0, 1] = .ok [(0, 0), (1, 1)] := by simp [sortedY, Ser.locs, Ser.loc, List.lookup]
  have k2 : sortedY.locs [2] = .ok [(2, 5)] := by simp [sortedY, Ser.locs, Ser.loc, List.lookup]
  have k3 : Ser.locs [((0 : Int), (0 : ℝ)), (1, 1)] [0] = .ok [(0, 0)] := by simp [Ser.locs, Ser.loc, List.lookup]
  have k4 : Ser.locs [((0 : Int), (0 : ℝ)), (1, 1)] [1] = .ok [(1, 1)] := by simp [Ser.locs, Ser.loc, List.lookup]
  have hpost (y : List ℝ) : (sortedCtx pp).T.base.posterior y ⟨0, 1, 1, 1⟩ 0 = (⟨0, 1, 1, 1⟩ : NG ℝ) := by
    simp [sortedCtx, regSer, regTarget, regPosterior]
  have hdist : (distinct (Ser.vals [((0 : Int), (0 : ℝ)), (1, 1)])).length = 2 := by
    simp [Ser.vals, distinct]
  have hin : ∃ i2 l2 b2 j1 j2, hFitSer (sortedCtx pp) 3 (some ⟨0, 1, 1, 1⟩) 1 [0, 1] [(0, 0), (1, 1)] =
      .ok (.split i2 ⟨[1], [1 / 2]⟩ l2 b2 (.leaf j1) (.leaf j2)) := by
    rw [hFitSer]
    dsimp only
    rw [show (sortedCtx pp).T.base.getPrior (some ⟨0, 1, 1, 1⟩) [0, 1].length (sortedCtx pp).nDim =
      (⟨0, 1, 1, 1⟩ : NG ℝ) from rfl, ← hq',
      show hSolveSer (sortedCtx pp).A (sortedCtx pp).T q' [(0, 0), (1, 1)] ((sortedCtx pp).opt.solve q')
      (sortedCtx pp).budget [] (hInit q') = _ from hsolve', show ([0, 1] : List Nat).length = 2 from rfl]
    dsimp only
    rw [g1, g2, k3, k4]
    exact ⟨_, _, _, _, _, rfl⟩
  obtain ⟨i2, l2, b2, j1, j2, hin⟩ := hin
  have hout : ∃ i1 l1 b1 j3, hFitRootSer (sortedCtx pp) (some ⟨0, 1, 1, 1⟩) sortedY =
      .ok (.split i1 ⟨[1], [3 / 2]⟩ l1 b1 (.split i2 ⟨[1], [1 / 2]⟩ l2 b2 (.leaf j1) (.leaf j2)) (.leaf j3)) := by
    unfold hFitRootSer
    rw [show sortedY.length = 3 from rfl, show List.range 3 = [0, 1, 2] from rfl, hFitSer]
    dsimp only
    rw [show (sortedCtx pp).T.base.getPrior (some ⟨0, 1, 1, 1⟩) [0, 1, 2].length (sortedCtx pp).nDim =
      (⟨0, 1, 1, 1⟩ : NG ℝ) from rfl, ← hq,
      show hSolveSer (sortedCtx pp).A (sortedCtx pp).T q sortedY ((sortedCtx pp).opt.solve q)
      (sortedCtx pp).budget [] (hInit q) = _ from hsolve, show ([0, 1, 2] : List Nat).length = 3 from rfl]
    dsimp only
    rw [f1, f2, k1, k2]
    dsimp only
    rw [hpost, hdist, show ([0, 1].map fun j => ([0, 1, 2] : List Nat).getD j 0) = [0, 1] from rfl]
    simp only [zero_add]
    rw [hin]
    exact ⟨_, _, _, _, rfl⟩
  obtain ⟨i1, l1, b1, j3, hout⟩ := hout
  exact ⟨pp, i1, i2, j1, j2, j3, l1, l2, b1, b2, hpos, hlt, hout⟩

/-- C112 is not vacuous: a fit to a Series that returns two splits, one below the other. -/
example : ∃ (c : HCtxSer ℝ (NG ℝ) ℝ ℝ) (prior : NG ℝ) (ys : Ser ℝ) (t u v : HNode ℝ ℝ (NG ℝ)), ys ≠ [] ∧
    (∀ xs, (c.A.argsort xs).Perm (List.range xs.length)) ∧ hFitRootSer c (some prior) ys = .ok t ∧
    nodeAt t ([] ++ [false]) = some u ∧ nodeAt t ([] ++ [true]) = some v ∧ u.isLeaf = false ∧
    passes hyperRouter t [false] (c.X 0) = true ∧ (u.isLeaf = true ∨ v.isLeaf = true) := by
  obtain ⟨pp, i1, i2, j1, j2, j3, l1, l2, b1, b2, -, -, h⟩ := sorted_fit
  have hs : ∀ xs, ((sortedCtx pp).A.argsort xs).Perm (List.range xs.length) := 
    fun xs => (realArith_euclidean.sort xs).1
  exact ⟨sortedCtx pp, _, sortedY, _, _, _, by simp [sortedY], hs, h, rfl, rfl, rfl,
    C112_first_row hs (by simp [sortedY]) h [false] _ rfl rfl, C112_one_child hs (by simp [sortedY]) h [] _ _ rfl rfl⟩

/-- C112 for classification is not vacuous: the sample of nine rows, as a Series. -/
example : hFitRootSer ⟨realArith, clsSer realFns, castHp (hSampleHp 0), (hSampleReal 0).opt, 5, (hSampleReal 0).X, 2⟩
    (some (castL [1, 1])) (rangeSeries (hSampleReal 0).y 9) = .error .keyError := by
  set c : HCtxSer ℝ (List ℝ) ℝ (List ℝ) :=
    ⟨realArith, clsSer realFns, castHp (hSampleHp 0), (hSampleReal 0).opt, 5, (hSampleReal 0).X, 2⟩ with hc
  have e : arrayCtx c (rangeSeries (hSampleReal 0).y 9) = hSampleReal 0 := by
    have : (fun i => (rangeSeries (hSampleReal 0).y 9).vals.getD i 0) = (hSampleReal 0).y := by
      funext i
      by_cases hi : i < 9
      · rw [List.getD_eq_getElem?_getD, Ser.vals, rangeSeries, List.map_map, List.getElem?_map,
          List.getElem?_range hi]
        rfl
      · have h9 : (rangeSeries (hSampleReal 0).y 9).vals.length = 9 := rfl
        have h0 : hSampleY i = 0 := by
          rw [hSampleY, List.getD_eq_getElem?_getD, List.getElem?_eq_none (by simpa using hi)]
          rfl
        rw [List.getD_eq_getElem?_getD, List.getElem?_eq_none (by omega)]
        show 0 = ((hSampleY i : ℚ) : ℝ)
        rw [h0, Rat.cast_zero]
    unfold arrayCtx
    rw [this]
    rfl
  have hl : (rangeSeries (hSampleReal 0).y 9).length = 9 := rfl
  exact C112_classification_fails c rfl (by simp [castL]) _ (by rw [e, hl]; exact hSampleReal_fit) rfl

/-- A Series with labels 5, 6, 7 (part of a larger one, say): `KeyError`, where the array gives a split. -/
example : ∃ (pp : ℝ) (t : HNode ℝ ℝ (NG ℝ)),
    hFitRoot (arrayCtx (shuffledCtx pp) [(5, 0), (6, 1), (7, 0)]) (some ⟨0, 1, 1, 1⟩) 3 = .ok t ∧ t.isLeaf = false ∧
    hFitRootSer (shuffledCtx pp) (some ⟨0, 1, 1, 1⟩) [(5, 0), (6, 1), (7, 0)] = .error .keyError := by
  obtain ⟨pp, -, t, -, -, -, -, h, hl⟩ := C112_silent
  refine ⟨pp, t, h, hl, ?_⟩
  exact C112_missing_label_fails (shuffledCtx pp) (fun xs => (realArith_euclidean.sort xs).1) _ _ 0 (by simp)
    (by simp [Ser.labels]) h hl

end BT
