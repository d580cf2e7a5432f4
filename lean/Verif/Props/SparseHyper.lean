import Verif.Model.SparseHyper
import Verif.Model.Optimize
import Verif.Props.Sparse
import Verif.Lemmas.Npy
import Verif.Props.HyperScore
import Verif.Lemmas.TwoPoint

/-!
# C71: sparse and dense inputs are equivalent (hyperplane trees)
-/

namespace BT
open Spec

set_option linter.unusedSectionVars false

section
variable {K P S O : Type} [Field K] [LinearOrder K]

/-! ## The sparse matrix operations -/

theorem addAt_range (n : Nat) (g : Nat → K) (i : Nat) (a : K) :
    addAt ((List.range n).map g) i a = (List.range n).map fun k => g k + if i = k then a else 0 := by
  apply List.ext_getElem?
  intro k
  unfold addAt
  rw [List.getElem?_modify, List.getElem?_map, List.getElem?_map]
  by_cases hk : k < n
  · rw [List.getElem?_range hk]
    by_cases h : i = k <;> simp [h]
  · rw [List.getElem?_eq_none (by simpa using Nat.le_of_not_lt hk)]
    simp

theorem foldl_entries (n : Nat) (c : K) (l : List (Nat × K)) : ∀ g : Nat → K,
    l.foldl (fun ys e => addAt ys e.1 (e.2 * c)) ((List.range n).map g) =
      (List.range n).map fun k => g k + stored l k * c := by
  induction l with
  | nil => intro g; simp [stored]
  | cons e l ih =>
    intro g
    rw [List.foldl_cons, addAt_range, ih]
    refine List.map_congr_left fun k _ => ?_
    unfold stored
    by_cases h : e.1 = k
    · simp [h]; ring
    · simp [h]

theorem foldl_columns (n : Nat) (m : Csc K) (v : List K) (js : List Nat) : ∀ g : Nat → K,
    js.foldl (fun ys j => (m.col j).foldl (fun ys e => addAt ys e.1 (e.2 * v.getD j 0)) ys)
        ((List.range n).map g) =
      (List.range n).map fun k => g k + (js.map fun j => m.item k j * v.getD j 0).sum := by
  induction js with
  | nil => intro g; simp
  | cons j js ih =>
    intro g
    rw [List.foldl_cons, foldl_entries, ih]
    refine List.map_congr_left fun k _ => ?_
    rw [List.map_cons, List.sum_cons, Csc.item, add_assoc]

theorem dot_range (v : List K) (x : Nat → K) :
    dot (rowVec v.length x) v = ((List.range v.length).map fun j => x j * v.getD j 0).sum := by
  unfold dot rowVec
  congr 1
  apply List.ext_getElem
  · simp
  · intro k h1 h2
    have hk : k < v.length := by simpa using h2
    simp [List.getD_eq_getElem?_getD, List.getElem?_eq_getElem hk]

/-- C71, projections: scipy's product is the row-wise scalar product. -/
theorem C71_matvec (m : Csc K) (v : List K) (h : v.length = m.nCols) :
    m.matvec v = .ok ((List.range m.nRows).map fun i => dot (rowVec m.nCols (m.item i)) v) := by
  unfold Csc.matvec
  rw [if_neg (by simpa using h)]
  have : (List.replicate m.nRows (0 : K)) = (List.range m.nRows).map fun _ => 0 := by simp
  rw [this, foldl_columns]
  simp only [← h, dot_range, zero_add]

theorem matvec_error (m : Csc K) (v : List K) (h : v.length ≠ m.nCols) : m.matvec v = .error .valueError := by
  unfold Csc.matvec
  rw [if_pos h]

theorem stored_flatMap (f : Nat × K → List (Nat × K)) (k : Nat) (l : List (Nat × K)) :
    stored (l.flatMap f) k = (l.map fun e => stored (f e) k).sum := by
  induction l with
  | nil => simp [stored]
  | cons e l ih =>
    rw [List.flatMap_cons, List.map_cons, List.sum_cons, ← ih]
    unfold stored
    rw [List.filter_append, List.map_append, List.sum_append]

theorem sum_filter_if (p : Nat × K → Prop) [DecidablePred p] (l : List (Nat × K)) :
    ((l.filter fun e => p e).map Prod.snd).sum = (l.map fun e => if p e then e.2 else 0).sum := by
  induction l with
  | nil => rfl
  | cons e l ih =>
    by_cases h : p e <;> simp [h, ih]

theorem stored_positions (idx : List Nat) (e : Nat × K) (k : Nat) :
    stored ((npWhere (idx.map fun i => decide (i = e.1))).map fun k => (k, e.2)) k =
      if idx[k]? = some e.1 then e.2 else 0 := by
  unfold stored
  rw [List.filter_map, List.map_map]
  have hmem : k ∈ npWhere (idx.map fun i => decide (i = e.1)) ↔ idx[k]? = some e.1 := by
    rw [mem_npWhere, List.getElem?_map]
    cases idx[k]? <;> simp
  have hnd := npWhere_nodup (idx.map fun i => decide (i = e.1))
  have key : ∀ l : List Nat, l.Nodup → ((l.filter ((fun e : Nat × K => decide (e.1 = k)) ∘ fun k => (k, e.2))).map
      (Prod.snd ∘ fun k => (k, e.2))).sum = if k ∈ l then e.2 else 0 := by
    intro l hl
    induction l with
    | nil => simp
    | cons a l ih =>
      have ih := ih hl.of_cons
      have ha : a ∉ l := (List.nodup_cons.1 hl).1
      by_cases h : a = k
      · subst h
        rw [if_neg ha] at ih
        simp only [List.filter_cons, Function.comp, decide_true, if_true, List.map_cons, List.sum_cons,
          List.mem_cons, true_or]
        rw [ih, add_zero]
      · have h' : ¬ k = a := fun e => h e.symm
        simp only [List.filter_cons, Function.comp, h, decide_false, List.mem_cons, h', false_or]
        exact ih
  rw [key _ hnd]
  simp only [hmem]

/-- C71, rows: `X[idx]` has the selected rows. -/
theorem C71_rows (m : Csc K) (idx : List Nat) (k d : Nat) (hk : k < idx.length) :
    (m.takeRows idx).item k d = m.item idx[k] d := by
  unfold Csc.item Csc.takeRows
  dsimp only
  rw [stored_flatMap]
  simp only [stored_positions, List.getElem?_eq_getElem hk, Option.some.injEq]
  unfold stored
  rw [sum_filter_if]
  simp only [eq_comm]

theorem C71_row (m : Csc K) (i : Nat) : m.rowArray i = rowVec m.nCols (m.item i) := by
  unfold Csc.rowArray rowVec
  refine List.map_congr_left fun d _ => ?_
  exact C71_rows m [i] 0 d Nat.zero_lt_one

/-! ## Optimizers see the same data -/

/-- The same data: shape, rows in order, targets and parameters. -/
structure SameData (q q' : HProb K P S) : Prop where
  nDim : q.nDim = q'.nDim
  len : q.rows.length = q'.rows.length
  X : ∀ k, k < q.rows.length → ∀ d, d < q.nDim →
    q.X (q.rows.getD k 0) d = q'.X (q'.rows.getD k 0) d
  y : q.rows.map q.y = q'.rows.map q'.y
  prior : q.prior = q'.prior
  partitionPrior : q.partitionPrior = q'.partitionPrior
  level : q.level = q'.level
  noSplit : q.noSplit = q'.noSplit
  hypercube : q.hypercube = q'.hypercube
  prec : q.prec = q'.prec

/-- An optimizer that only looks at the data. -/
def Reads (opt : Optimizer K P S) : Prop := ∀ q q', SameData q q' → opt.solve q = opt.solve q'

/-! ## Search and fit -/

/-- The matrix `m` and the targets `ys` are the rows `rows` of `X` and `y`. -/
structure IsSub (X : Nat → Nat → K) (y : Nat → K) (nDim : Nat) (rows : List Nat) (m : Csc K) (ys : List K) :
    Prop where
  nRows : m.nRows = rows.length
  nCols : m.nCols = nDim
  item : ∀ k (hk : k < rows.length), ∀ d, d < nDim → m.item k d = X rows[k] d
  ys : ys = rows.map y

theorem IsSub.rowVec {X : Nat → Nat → K} {y : Nat → K} {nDim : Nat} {rows : List Nat} {m : Csc K}
    {ys : List K} (h : IsSub X y nDim rows m ys) (k : Nat) (hk : k < rows.length) :
    rowVec nDim (m.item k) = BT.rowVec nDim (X (rows.getD k 0)) := by
  unfold BT.rowVec
  refine List.map_congr_left fun d hd => ?_
  rw [h.item k hk d (List.mem_range.1 hd), List.getD_eq_getElem?_getD, List.getElem?_eq_getElem hk]
  rfl

theorem IsSub.y {X : Nat → Nat → K} {y : Nat → K} {nDim : Nat} {rows : List Nat} {m : Csc K}
    {ys : List K} (h : IsSub X y nDim rows m ys) (k : Nat) (hk : k < rows.length) :
    ys.getD k 0 = y (rows.getD k 0) := by
  rw [h.ys, List.getD_eq_getElem?_getD, List.getD_eq_getElem?_getD, List.getElem?_map,
    List.getElem?_eq_getElem hk]
  rfl

theorem IsSub.proj {X : Nat → Nat → K} {y : Nat → K} {nDim : Nat} {rows : List Nat} {m : Csc K}
    {ys : List K} (h : IsSub X y nDim rows m ys) (v : List K) (hv : v.length = nDim) :
    m.matvec v = .ok (rows.map fun i => dot (BT.rowVec nDim (X i)) v) := by
  rw [C71_matvec m v (hv.trans h.nCols.symm), h.nCols, h.nRows]
  congr 1
  apply List.ext_getElem
  · simp
  · intro k h1 h2
    have hk : k < rows.length := by simpa using h2
    simp only [List.getElem_map, List.getElem_range]
    rw [h.rowVec k hk, List.getD_eq_getElem?_getD, List.getElem?_eq_getElem hk]
    rfl

/-- The problem of the dense model for the rows `rows`, and the sparse one. -/
structure SameProb (q : HProb K P S) (s : SProb K P S) : Prop where
  sub : IsSub q.X q.y q.nDim q.rows s.X s.y
  prior : s.prior = q.prior
  partitionPrior : s.partitionPrior = q.partitionPrior
  level : s.level = q.level
  noSplit : s.noSplit = q.noSplit
  hypercube : s.hypercube = q.hypercube
  prec : s.prec = q.prec

theorem SameProb.view {q : HProb K P S} {s : SProb K P S} (h : SameProb q s) : SameData q s.view where
  nDim := h.sub.nCols.symm
  len := by
    change _ = (List.range s.X.nRows).length
    rw [List.length_range, h.sub.nRows]
  X k hk d hd := by
    change _ = (s.X.rowArray ((List.range s.X.nRows).getD k 0)).getD d 0
    have hk' : k < s.X.nRows := by rw [h.sub.nRows]; exact hk
    rw [List.getD_eq_getElem?_getD (l := List.range _), List.getElem?_range hk', Option.getD_some, C71_row,
      h.sub.nCols, h.sub.rowVec k hk]
    unfold rowVec
    rw [List.getD_eq_getElem?_getD (l := List.map _ _), List.getElem?_map, List.getElem?_range hd]
    rfl
  y := by
    change _ = (List.range s.X.nRows).map fun i => s.y.getD i 0
    rw [h.sub.nRows]
    apply List.ext_getElem
    · simp
    · intro k h1 h2
      have hk : k < q.rows.length := by simpa using h1
      simp only [List.getElem_map, List.getElem_range]
      rw [h.sub.y k hk, List.getD_eq_getElem?_getD, List.getElem?_eq_getElem hk]
      rfl
  prior := h.prior.symm
  partitionPrior := h.partitionPrior.symm
  level := h.level.symm
  noSplit := h.noSplit.symm
  hypercube := h.hypercube.symm
  prec := h.prec.symm

section
variable [Neg S] [LT S] [LE S] [DecidableLT S] [DecidableLE S]

theorem sCompute_eq {A : HArith K} (hs : ∀ l, ∀ i ∈ A.argsort l, i < l.length) (T : Target K P S O)
    {q : HProb K P S} {s : SProb K P S} (h : SameProb q s) (st : HState S K) (r : RawVec K) :
    sCompute A T s st r = hCompute A T q st r := by
  unfold sCompute hCompute hNormal
  dsimp only
  rw [h.hypercube]
  generalize (if q.hypercube = true then
    match A.sphere r.v with
    | .error e => (.error e : Except Err (RawVec K))
    | .ok w => .ok ⟨false, w⟩ else .ok r) = r'
  cases r' with
  | error e => rfl
  | ok r' =>
    dsimp only
    cases normalizeVec A r' with
    | error e => rfl
    | ok normal =>
      dsimp only
      by_cases hl : normal.length = q.nDim
      · rw [if_neg (by simpa using hl), h.sub.proj normal hl]
        dsimp only
        have hproj : (q.rows.map fun i => dot (rowVec q.nDim (q.X i)) normal) = hProj q normal := rfl
        rw [hproj, h.prec]
        have hsi : splitIndices (exactOps K) q.prec (hProj q normal) = hSplitIndices q normal := rfl
        rw [hsi]
        by_cases h0 : (hSplitIndices q normal).length = 0
        · rw [if_pos h0, if_pos h0, h.noSplit]
        · rw [if_neg h0, if_neg h0]
          have hlt : ∀ i ∈ A.argsort (hProj q normal), i < q.rows.length := fun i hi => by
            have := hs _ i hi
            unfold hProj at this
            simpa using this
          have hy : (A.argsort (hProj q normal)).map (fun j => s.y.getD j 0) =
              (A.argsort (hProj q normal)).map fun j => q.y (q.rows.getD j 0) :=
            List.map_congr_left fun j hj => h.sub.y j (hlt j hj)
          rw [hy, h.partitionPrior, h.level, h.prior, h.sub.nCols]
          generalize T.logSplit _ _ _ _ _ _ = scores
          cases scores[argmax scores]? with
          | none => rfl
          | some sc =>
            cases (hSplitIndices q normal)[argmax scores]? with
            | none => rfl
            | some k =>
              dsimp only
              by_cases hb : st.bestScore ≤ sc
              · rw [if_pos hb, if_pos hb]
                cases ha : (A.argsort (hProj q normal))[k - 1]? with
                | none => rfl
                | some a =>
                  cases hb' : (A.argsort (hProj q normal))[k]? with
                  | none => rfl
                  | some b =>
                    dsimp only
                    have e1 : s.X.rowArray a = rowVec q.nDim (q.X (q.rows.getD a 0)) := by
                      rw [C71_row, h.sub.nCols, h.sub.rowVec a (hlt a (List.mem_of_getElem? ha))]
                    have e2 : s.X.rowArray b = rowVec q.nDim (q.X (q.rows.getD b 0)) := by
                      rw [C71_row, h.sub.nCols, h.sub.rowVec b (hlt b (List.mem_of_getElem? hb'))]
                    rw [e1, e2]
                    rfl
              · rw [if_neg hb, if_neg hb]
      · rw [if_pos hl, matvec_error _ _ (by rw [h.sub.nCols]; exact hl)]

theorem sSolve_eq {A : HArith K} (hs : ∀ l, ∀ i ∈ A.argsort l, i < l.length) (T : Target K P S O)
    {q : HProb K P S} {s : SProb K P S} (h : SameProb q s) (strat : Strategy K S) (budget : Nat) :
    ∀ hist st, sSolve A T s strat budget hist st = hSolve A T q strat budget hist st := by
  induction budget with
  | zero => intro hist st; rfl
  | succ b ih =>
    intro hist st
    rw [sSolve, hSolve]
    cases strat hist with
    | stop => rfl
    | raise e => rfl
    | eval r =>
      dsimp only
      rw [sCompute_eq hs T h]
      cases hCompute A T q st r with
      | error e => rfl
      | ok p => exact ih _ _

theorem hCompute_len {A : HArith K} {T : Target K P S O} {q : HProb K P S} {st st' : HState S K}
    {r : RawVec K} {v : S} (h0 : ∀ sp, st.best = some sp → sp.normal.length = q.nDim)
    (h : hCompute A T q st r = .ok (st', v)) : ∀ sp, st'.best = some sp → sp.normal.length = q.nDim := by
  unfold hCompute at h
  dsimp only at h
  cases hn : hNormal A q r with
  | error e => rw [hn] at h; cases h
  | ok normal =>
    have hl := hNormal_length hn
    rw [hn] at h
    dsimp only at h
    split at h
    · cases h; exact h0
    · split at h
      · rename_i sc k _ _
        split at h
        · split at h
          · rename_i a b _ _
            by_cases hacc : (if st.bestScore < sc then true
                else decide (st.bestDist < hDist q ⟨normal, hOrigin q a b⟩)) = true
            · rw [if_pos hacc] at h
              cases h
              intro sp e
              cases e
              exact hl
            · rw [if_neg hacc] at h
              cases h; exact h0
          · cases h
        · cases h; exact h0
      · cases h

theorem hSolve_len {A : HArith K} {T : Target K P S O} {q : HProb K P S} {strat : Strategy K S}
    (budget : Nat) : ∀ hist st, (∀ sp, st.best = some sp → sp.normal.length = q.nDim) → ∀ st',
    hSolve A T q strat budget hist st = .ok st' → ∀ sp, st'.best = some sp → sp.normal.length = q.nDim := by
  induction budget with
  | zero => intro hist st _ st' h; cases h
  | succ b ih =>
    intro hist st h0 st' h
    rw [hSolve] at h
    cases hst : strat hist with
    | stop => rw [hst] at h; cases h; exact h0
    | raise e => rw [hst] at h; cases h
    | eval r =>
      rw [hst] at h
      dsimp only at h
      cases hc : hCompute A T q st r with
      | error e => rw [hc] at h; cases h
      | ok p =>
        rw [hc] at h
        exact ih _ _ (hCompute_len h0 hc) st' h

theorem IsSub.take {X : Nat → Nat → K} {y : Nat → K} {nDim : Nat} {rows : List Nat} {m : Csc K}
    {ys : List K} (h : IsSub X y nDim rows m ys) (idx : List Nat) (hi : ∀ i ∈ idx, i < rows.length) :
    IsSub X y nDim (take1 rows idx) (m.takeRows idx) (idx.map fun i => ys.getD i 0) where
  nRows := by simp [Csc.takeRows, take1]
  nCols := h.nCols
  item k hk d hd := by
    have hk' : k < idx.length := by simpa [take1] using hk
    have hlt := hi _ (List.getElem_mem hk')
    rw [C71_rows m idx k d hk', h.item _ hlt d hd]
    simp [take1, List.getElem?_eq_getElem hlt]
  ys := by
    unfold take1
    rw [List.map_map]
    exact List.map_congr_left fun i hmem => h.y i (hi i hmem)

theorem hFitS_eq {c : HEnv K P S O} (hs : ∀ l, ∀ i ∈ c.A.argsort l, i < l.length) (hr : Reads c.opt)
    (X : Nat → Nat → K) (y : Nat → K) (nDim fuel : Nat) :
    ∀ (pa : Option P) (lv : Nat) (rows : List Nat) (m : Csc K) (ys : List K),
      IsSub X y nDim rows m ys → hFitS c fuel pa lv m ys = hFit (c.on X y nDim) fuel pa lv rows := by
  induction fuel with
  | zero => intros; rfl
  | succ fuel ih =>
    intro pa lv rows m ys h
    rw [hFitS, hFit]
    dsimp only
    have hprior : c.T.getPrior pa m.nRows m.nCols = (c.on X y nDim).T.getPrior pa rows.length (c.on X y nDim).nDim := by
      rw [h.nRows, h.nCols]; rfl
    rw [hprior]
    generalize (c.on X y nDim).T.getPrior pa rows.length (c.on X y nDim).nDim = prior
    have hq : SameProb (hProblem (c.on X y nDim) prior lv rows)
        ⟨m, ys, prior, c.hp.partitionPrior, lv, c.T.logNoSplit c.hp.partitionPrior lv ys prior,
          c.opt.hypercube, c.hp.splitPrecision⟩ :=
      { sub := h, prior := rfl, partitionPrior := rfl, level := rfl
        noSplit := by rw [h.ys]; rfl
        hypercube := rfl, prec := rfl }
    rw [sSolve_eq hs c.T hq, ← hr _ _ hq.view]
    have hinit : (⟨0, c.T.logNoSplit c.hp.partitionPrior lv ys prior, 0, none⟩ : HState S K) =
        hInit (hProblem (c.on X y nDim) prior lv rows) := by
      rw [h.ys]; rfl
    rw [hinit]
    change (match hSolve c.A c.T (hProblem (c.on X y nDim) prior lv rows) _ c.budget [] _ with
      | .error e => _ | .ok st => _) = (match hSolve c.A c.T (hProblem (c.on X y nDim) prior lv rows)
        (c.opt.solve (hProblem (c.on X y nDim) prior lv rows)) c.budget [] _ with
      | .error e => _ | .ok st => _)
    cases hsol : hSolve c.A c.T (hProblem (c.on X y nDim) prior lv rows)
        (c.opt.solve (hProblem (c.on X y nDim) prior lv rows)) c.budget []
        (hInit (hProblem (c.on X y nDim) prior lv rows)) with
    | error e => rfl
    | ok st =>
      dsimp only
      have hlen := hSolve_len c.budget [] _ (fun sp e => by cases e) st hsol
      cases hb : st.best with
      | none =>
        dsimp only
        rw [h.nRows, h.nCols, h.ys]
        rfl
      | some sp =>
        have hl := hlen sp hb
        change sp.normal.length = nDim at hl
        dsimp only
        rw [h.proj sp.normal hl]
        dsimp only
        have e1 : ((rows.map fun i => dot (BT.rowVec nDim (X i)) sp.normal).map
            fun p => p - dot sp.normal sp.origin).map (fun p => decide (p < 0)) =
            rows.map fun i => hyperRouter.goes1 sp (X i) := by
          rw [List.map_map, List.map_map]
          refine List.map_congr_left fun i _ => ?_
          simp only [Function.comp, hyperRouter, signedDistance, hl]
        have e2 : ((rows.map fun i => dot (BT.rowVec nDim (X i)) sp.normal).map
            fun p => p - dot sp.normal sp.origin).map (fun p => decide (0 ≤ p)) =
            rows.map fun i => hyperRouter.goes2 sp (X i) := by
          rw [List.map_map, List.map_map]
          refine List.map_congr_left fun i _ => ?_
          simp only [Function.comp, hyperRouter, signedDistance, hl]
        rw [e1, e2]
        have s1 := h.take (npWhere (rows.map fun i => hyperRouter.goes1 sp (X i)))
          (fun i hi => by simpa using npWhere_lt hi)
        have s2 := h.take (npWhere (rows.map fun i => hyperRouter.goes2 sp (X i)))
          (fun i hi => by simpa using npWhere_lt hi)
        rw [take1_npWhere] at s1 s2
        have y1 := s1.ys
        have y2 := s2.ys
        rw [y1] at s1
        rw [y2] at s2
        simp only [y1, y2, ih _ _ _ _ _ s1, ih _ _ _ _ _ s2, s1.nRows, s2.nRows, npWhere_map_length]
        rw [h.nRows, h.nCols, h.ys]
        rfl

/-- C71, fit: on a CSR or CSC matrix `fit` of a hyperplane tree gives the model (or exception) it gives on
the dense matrix with the same entries, for every optimizer that only looks at the data. -/
theorem C71_fit {c : HEnv K P S O} (hs : ∀ l, ∀ i ∈ c.A.argsort l, i < l.length) (hr : Reads c.opt)
    (prior : Option P) (X : SpMat K) (y : Nat → K) :
    hFitRootS c prior X ((List.range X.dims.1).map y) =
      hFitRoot (c.on (denseEntry X) y X.dims.2) prior X.dims.1 := by
  unfold hFitRootS hFitRoot
  have h : IsSub (denseEntry X) y X.dims.2 (List.range X.dims.1) X.toCsc ((List.range X.dims.1).map y) :=
    { nRows := by rw [toCsc_nRows, List.length_range]
      nCols := by cases X <;> rfl
      item := fun k hk d _ => by rw [item_toCsc, List.getElem_range]
      ys := rfl }
  rw [hFitS_eq hs hr (denseEntry X) y X.dims.2 _ prior 0 _ _ _ h]
  rfl

end

/-- C71, routing: the child positions on a CSC matrix are those on the dense matrix. -/
theorem hChildIndicesS_eq (sp : HSplit K) (m : Csc K) (hl : sp.normal.length = m.nCols) (indices : List Nat) :
    hChildIndicesS sp m indices = .ok (childIndices hyperRouter sp m.item indices) := by
  unfold hChildIndicesS
  have h : IsSub m.item (fun _ => 0) m.nCols indices (m.takeRows indices) (indices.map fun _ => 0) :=
    { nRows := rfl, nCols := rfl, item := fun k hk d _ => C71_rows m indices k d hk, ys := rfl }
  rw [h.proj _ hl]
  simp only [childIndices, hyperRouter, signedDistance, List.map_map, Function.comp_def, hl]

theorem hPredictIntoS_eq {Q : Type} (val : Info K P → Q) (m : Csc K) (t : HNode S K P)
    (hl : ∀ s ∈ splits t, s.1.normal.length = m.nCols) (indices : List Nat) (q : List Q) :
    hPredictIntoS val m t indices q = .ok (predictInto hyperRouter val m.item t indices q) := by
  induction t generalizing indices q with
  | leaf i => rfl
  | split i sp l b c1 c2 ih1 ih2 =>
    have ih1 := ih1 fun s hs => hl s (by simp [splits, hs])
    have ih2 := ih2 fun s hs => hl s (by simp [splits, hs])
    rw [hPredictIntoS, predictInto, hChildIndicesS_eq sp m (hl (sp, l, b) (by simp [splits]))]
    dsimp only
    simp only [ih1, ih2]
    by_cases h1 : (childIndices hyperRouter sp m.item indices).1.length > 0
    · by_cases h2 : (childIndices hyperRouter sp m.item indices).2.length > 0 <;> simp [h1, h2]
    · by_cases h2 : (childIndices hyperRouter sp m.item indices).2.length > 0 <;> simp [h1, h2]

/-- C71, predictions: every prediction method gives on a sparse matrix the result for the dense matrix, if
the normals of the tree have one entry per column (C48: so in fitted trees). -/
theorem C71_predict {Q : Type} (val : Info K P → Q) (init : Q) (X : SpMat K) (t : HNode S K P)
    (hl : ∀ s ∈ splits t, s.1.normal.length = X.dims.2) :
    hPredictRowsS val init X t = .ok (predictRows hyperRouter val init (denseEntry X) X.dims.1 t) := by
  unfold hPredictRowsS predictRows
  rw [hPredictIntoS_eq val _ t (by intro s hs; rw [hl s hs]; cases X <;> rfl), item_toCsc]

/-- C71: fitting and predicting with sparse matrices gives the result of the dense ones. -/
theorem C71_fit_predict [IsStrictOrderedRing K] {S : Type} [LinearOrder S] [Neg S] {Q : Type}
    {c : HEnv K P S O} {pair : PairScore K P S} (hT : LawfulTarget c.T pair)
    (hs : IsArgsort (exactOps K).le (fun _ => True) c.A.argsort)
    (hnorm : ∀ v, c.A.norm v * c.A.norm v = (v.map fun a => a * a).sum)
    (hd0 : ∀ y p, c.T.posterior y p 0 = p) (hr : Reads c.opt) (prior : Option P) (X Z : SpMat K)
    (hcols : Z.dims.2 = X.dims.2) (y : Nat → K) (val : Info K P → Q) (init : Q) :
    (hFitRootS c prior X ((List.range X.dims.1).map y)).bind (hPredictRowsS val init Z) =
      (hFitRoot (c.on (denseEntry X) y X.dims.2) prior X.dims.1).bind fun t =>
        .ok (predictRows hyperRouter val init (denseEntry Z) Z.dims.1 t) := by
  rw [C71_fit (fun l i hi => by
    simpa using (hs.perm l fun _ _ => trivial).subset hi) hr]
  cases h : hFitRoot (c.on (denseEntry X) y X.dims.2) prior X.dims.1 with
  | error e => rfl
  | ok t =>
    refine C71_predict val init Z t fun s hs' => ?_
    obtain ⟨addr, i, c1, c2, hu⟩ := mem_splits.1 hs'
    rw [hcols]
    exact (C48_tree (c := c.on (denseEntry X) y X.dims.2) hT hs hnorm hd0 _ prior t h addr i s.1 s.2.1 s.2.2
      c1 c2 hu).1

/-! ## The built-in optimizers only look at the data -/

theorem reads_random {R : Type} (G : Rng R K) (nMc : Nat) : Reads (randomOptimizer G nMc : Optimizer K P S) := by
  intro q q' h
  simp only [randomOptimizer, randomSolve, h.nDim]

theorem reads_quasi (phi : ℝ) (n : Nat) : Reads (quasiOptimizer phi n : Optimizer ℝ P S) := by
  intro q q' h
  simp only [quasiOptimizer, quasiSolve, h.nDim]

theorem reads_sa {S : Type} [LinearOrder S] {R : Type} (G : Rng R K) (nScan nKeep : Nat) (spread : K)
    (fuel : Nat) : Reads (saOptimizer G nScan nKeep spread fuel : Optimizer K P S) := by
  intro q q' h
  have key : ∀ f st, saLoop G nScan nKeep spread q f st = saLoop G nScan nKeep spread q' f st := by
    intro f
    induction f with
    | zero => intro st; rfl
    | succ f ih =>
      intro st
      have e : saLoop G nScan nKeep spread q f = saLoop G nScan nKeep spread q' f := funext ih
      have e2 : saRound G nScan nKeep spread q st = saRound G nScan nKeep spread q' st := by
        have e3 : ∀ sorted, saEvolve G nKeep st.f q sorted = saEvolve G nKeep st.f q' sorted := by
          intro sorted
          funext s i
          simp only [saEvolve, h.nDim]
        simp only [saRound, scan, h.nDim, e3]
      rw [saLoop, saLoop, e, e2]
  simp only [saOptimizer, saSolve, key]

theorem reads_gd {R : Type} (G : Rng R K) (nInit nKeep fuel : Nat) :
    Reads (gdOptimizer G nInit nKeep fuel : Optimizer K P K) := by
  intro q q' h
  have eg : ∀ cand v f d, gdGradient q cand v f d = gdGradient q' cand v f d := by
    intro cand v f
    induction f with
    | zero => intro d; rfl
    | succ f ih => intro d; simp only [gdGradient, h.nDim, ih]
  have ec : ∀ sorted, gdCandidate fuel nKeep q sorted = gdCandidate fuel nKeep q' sorted := by
    intro sorted
    funext s i
    simp only [gdCandidate, eg]
  have key : ∀ f st, gdLoop G fuel nInit nKeep q f st = gdLoop G fuel nInit nKeep q' f st := by
    intro f
    induction f with
    | zero => intro st; rfl
    | succ f ih =>
      intro st
      have e : gdLoop G fuel nInit nKeep q f = gdLoop G fuel nInit nKeep q' f := funext ih
      have e2 : gdRound G fuel nInit nKeep q st = gdRound G fuel nInit nKeep q' st := by
        simp only [gdRound, scan, h.nDim, ec]
      rw [gdLoop, gdLoop, e, e2]
  simp only [gdOptimizer, gdSolve, key]

theorem twoPointNormal_same {q q' : HProb K P S} (h : SameData q q') (isInt : Bool) {i j : Nat}
    (hi : i < q.rows.length) (hj : j < q.rows.length) :
    twoPointNormal isInt q i j = twoPointNormal isInt q' i j := by
  have e : ∀ k, k < q.rows.length → rowVec q.nDim (q.X (q.rows.getD k 0)) =
      rowVec q'.nDim (q'.X (q'.rows.getD k 0)) := by
    intro k hk
    unfold rowVec
    rw [← h.nDim]
    exact List.map_congr_left fun d hd => h.X k hk d (List.mem_range.1 hd)
  unfold twoPointNormal
  rw [e i hi, e j hj]

theorem mem_classIndices [FloorRing K] (ys : List K) {c i : Nat} (h : i ∈ (classIndices ys).getD c []) :
    i < ys.length := by
  unfold classIndices at h
  rw [List.getD_eq_getElem?_getD, List.getElem?_map] at h
  cases hc : (List.range (⌊ys.foldl max (ys.getD 0 0)⌋ + 1).toNat)[c]? with
  | none => rw [hc] at h; cases h
  | some c' =>
    rw [hc] at h
    simpa using npWhere_lt h

theorem getD_mem_or (l : List Nat) (k : Nat) : l.getD k 0 ∈ l ∨ l.getD k 0 = 0 := by
  rw [List.getD_eq_getElem?_getD]
  cases hk : l[k]? with
  | none => exact .inr rfl
  | some a => exact .inl (List.mem_of_getElem? hk)

theorem reads_twoPoint [FloorRing K] {R : Type} (G : Rng R K) (isInt : Bool) (nMc fuel : Nat) :
    Reads (twoPointOptimizer G isInt nMc fuel : Optimizer K P S) := by
  intro q q' h
  simp only [twoPointOptimizer, twoPointSolve, h.y]
  split
  · rfl
  · split
    · rfl
    · congr 2
      funext g _
      cases hd : drawClasses G fuel (classIndices (q'.rows.map q'.y)) fuel g with
      | error e => rfl
      | ok x =>
        obtain ⟨ij, g'⟩ := x
        dsimp only
        obtain ⟨c1, c2, -, e1, e2, l1, l2⟩ := drawClasses_sound G _ _ _ _ hd
        dsimp only at e1 e2 l1 l2
        have hlen : (q'.rows.map q'.y).length = q.rows.length := by rw [List.length_map, h.len]
        have b1 : ∀ i ∈ ij.1, i < q.rows.length := fun i hi => by
          rw [e1] at hi
          exact hlen ▸ mem_classIndices _ hi
        have b2 : ∀ i ∈ ij.2, i < q.rows.length := fun i hi => by
          rw [e2] at hi
          exact hlen ▸ mem_classIndices _ hi
        have hpos : 0 < q.rows.length := by
          obtain ⟨a, ha⟩ := List.exists_mem_of_length_pos (Nat.pos_of_ne_zero l1)
          exact lt_of_le_of_lt (Nat.zero_le _) (b1 a ha)
        rw [twoPointNormal_same h isInt]
        · rcases getD_mem_or ij.1 (G.randint ij.1.length g').1 with hm | hm
          · exact b1 _ hm
          · rw [hm]; exact hpos
        · rcases getD_mem_or ij.2 (G.randint ij.2.length (G.randint ij.1.length g').2).1 with hm | hm
          · exact b2 _ hm
          · rw [hm]; exact hpos

end

/-! ## Example -/

/-- An optimizer that tries the first axis. -/
def axisOptimizer : Optimizer ℚ (List ℚ) ℚ :=
  ⟨false, fun _ hist => if hist.length = 0 then .eval (floatVec [1, 0]) else .stop⟩

/-- Rational hyperplane model for examples. -/
def axisEnv : HEnv ℚ (List ℚ) ℚ (List ℚ) := ⟨ratArith, probTarget ℚ, ⟨9 / 10, 0, false, 0⟩, axisOptimizer, 5⟩

/-- The hypotheses of `C71_fit` hold for it and the sample matrix; the fit splits, and sparse and dense
predictions are 0, 0, 1, 1. -/
example : Reads axisOptimizer ∧ (∀ l, ∀ i ∈ axisEnv.A.argsort l, i < l.length) ∧
    (hFitRootS axisEnv (some [1, 1]) (.csr sampleCsr) [0, 0, 1, 1]).toOption.map
      (fun t => (t.isLeaf, (hPredictRowsS (fun i => (probTarget ℚ).predictLeaf i.posterior) 0
        (.csr sampleCsr) t).toOption)) = some (false, some [0, 0, 1, 1]) := by
  refine ⟨fun _ _ _ => rfl, ?_, ?_⟩
  · intro l i hi
    simpa using ((insArgsort_spec (o := exactOps ℚ) (exact_lawful (le_refl (0 : ℚ)))).perm l
      fun _ _ => trivial).subset hi
  · decide +kernel

end BT
