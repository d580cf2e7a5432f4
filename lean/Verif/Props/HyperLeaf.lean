import Verif.Props.QuasiSearch

/-!
# C125: what leaves of hyperplane trees say about the planes evaluated
-/

namespace BT
open Spec

section
variable {F : Fns ℝ} {P O : Type} {ml : P → List ℝ → ℝ} {post : P → List ℝ → P}
  {c : HCtx ℝ P ℝ O} {n : Nat} {prior : P} {t : HNode ℝ ℝ P}

/-- A plane found by the search: rows before the cut are on or below it, rows after on or above, and if one side is
empty, two rows lie on it and the others above. -/
theorem outcome_one_sided {A : HArith ℝ} {q : HProb ℝ P ℝ} {r : RawVec ℝ} {s : ℝ} {sp : HSplit ℝ}
    (hA : Euclidean A) (hnd : q.rows.Nodup) (h : Outcome A (mlPair F ml) q r s sp)
    (hone : (∀ a ∈ q.rows, planeSide sp.normal sp.origin (q.X a) < 0) ∨
      ∀ a ∈ q.rows, 0 ≤ planeSide sp.normal sp.origin (q.X a)) :
    (∀ a ∈ q.rows, 0 ≤ planeSide sp.normal sp.origin (q.X a)) ∧
    ∃ j ∈ q.rows, ∃ m ∈ q.rows, j ≠ m ∧ planeSide sp.normal sp.origin (q.X j) = 0 ∧
      planeSide sp.normal sp.origin (q.X m) = 0 := by
  have hnrm := h.normal
  obtain ⟨-, order, k, x, z, ⟨hperm, hsort⟩, ⟨_, _, hk1, -⟩, -, -, -, hx, hz, horig⟩ := outcome_best hA h
  have hkl : k < order.length := (List.getElem?_eq_some_iff.1 hz).1
  have hxB : order[k - 1] = x := (List.getElem?_eq_some_iff.1 hx).2
  have hzB : order[k] = z := (List.getElem?_eq_some_iff.1 hz).2
  have hxR : x ∈ q.rows := hperm.mem_iff.1 (List.mem_of_getElem? hx)
  have hzR : z ∈ q.rows := hperm.mem_iff.1 (List.mem_of_getElem? hz)
  have hne : x ≠ z := by
    rw [← hxB, ← hzB]
    intro e
    have := (List.Nodup.getElem_inj_iff (hperm.nodup_iff.2 hnd)).1 e
    omega
  have hle : along sp.normal (q.X x) ≤ along sp.normal (q.X z) := by
    rw [← hxB, ← hzB]
    exact List.pairwise_iff_getElem.1 hsort (k - 1) k (by omega) hkl (by omega)
  have hel : ∀ j, planeSide sp.normal sp.origin (q.X j) = along sp.normal (q.X j) -
      (along sp.normal (q.X x) + along sp.normal (q.X z)) / 2 := by
    intro j
    rw [planeSide_eq]
    unfold elevation
    rw [horig]
    congr 1
    exact along_halfway q sp.normal (hNormal_length hnrm) x z
  rcases hone with h1 | h1
  · have := h1 z hzR
    rw [hel] at this
    linarith
  · refine ⟨h1, x, hxR, z, hzR, hne, ?_, ?_⟩
    · have := h1 x hxR
      rw [hel] at this ⊢
      linarith
    · have := h1 x hxR
      rw [hel] at this ⊢
      linarith

/-- What the search left at a leaf of an unpruned tree. -/
theorem leaf_search (hn : 0 < n) (hT : CodeTarget F c.T ml post) (hA : Euclidean c.A)
    (hprune : c.hp.prune = false) (h : hFitRoot c (some prior) n = .ok t) (addr : List Bool) (i : Info ℝ P)
    (hu : nodeAt t addr = some (.leaf i)) :
    let R := hRowsAt c.X t n addr
    let q := searchAt c F ml prior addr.length R
    (∀ a ∈ R, ∀ b ∈ R, c.y a = c.y b) ∨
    ∃ vs st, Follows (c.opt.solve q) vs ∧ Searched c.A (mlPair F ml) q (vs.map Prod.fst) st ∧
      (stayScore F ml c.hp c.y prior addr.length R = st.bestScore ∨
        ∃ e ∈ vs, ∃ sp : HSplit ℝ, hNormal c.A q e.1 = .ok sp.normal ∧ BestAlong F ml q st.bestScore sp ∧
          stayScore F ml c.hp c.y prior addr.length R ≤ st.bestScore ∧
          (∀ a ∈ R, 0 ≤ planeSide sp.normal sp.origin (c.X a)) ∧
          ∃ j ∈ R, ∃ m ∈ R, j ≠ m ∧ planeSide sp.normal sp.origin (c.X j) = 0 ∧
            planeSide sp.normal sp.origin (c.X m) = 0) := by
  intro R q
  have hne := hRowsAt_ne_nil hT hA hn h hu
  obtain ⟨t0, hb, -, ht, -⟩ := hFitRoot_cutOff hT.textbook.lawful hA.isArgsort h
  obtain rfl := ht hprune
  obtain ⟨par, pa, hB, hp⟩ := hBuilt_at hb (fun _ pa R => hPrior c pa R = prior)
    (hPrior_root hT) (by
      intro par pa R R' hQ _
      rw [hT.deltaZero, hQ]
      exact hPrior_root hT) addr _ hu
  rw [zero_add] at hB
  rw [show hRoutedFrom c t (List.range n) addr = hRouted c t n addr from rfl, ← hRowsAt_eq] at hB hp
  have hq : hProblem c prior addr.length R = q := by
    unfold hProblem q searchAt
    congr 1
    exact hT.textbook.stay _ _ _ _ (by simpa using hne)
  change HBuilt c _ par pa addr.length R _ at hB
  change hPrior c pa R = prior at hp
  have hnd : R.Nodup := List.nodup_range.sublist (hRowsAt_sublist _ _ _ _)
  clear_value R
  cases hB with
  | direct par pa _ _ hsmall =>
    refine Or.inl fun a ha b hb => ?_
    by_contra hab
    refine hsmall ⟨?_, a, ha, b, hb, hab⟩
    match R, ha, hb with
    | [x], ha, hb =>
      rw [List.mem_singleton.1 ha, List.mem_singleton.1 hb] at hab
      exact absurd rfl hab
    | _ :: _ :: _, _, _ => simp
  | stay _ _ _ _ st hdiv hst hno =>
    obtain ⟨vs, hf, hse⟩ := hst
    rw [hp, hq] at hf hse
    refine Or.inr ⟨vs, st, hf, hse, ?_⟩
    cases hb : st.best with
    | none => exact Or.inl (hse.none hb).1.symm
    | some sp =>
      right
      obtain ⟨pre, r, rest, hrs, ho, -⟩ := hse.some sp hb
      have hr : r ∈ vs.map Prod.fst := by rw [hrs]; simp
      obtain ⟨e, he, rfl⟩ := List.mem_map.1 hr
      refine ⟨e, he, sp, ho.normal, (outcome_best hA ho).2, hse.base, ?_⟩
      refine outcome_one_sided hA hnd ho ?_
      rcases hno sp hb with h0 | h0
      · refine Or.inr fun a ha => ?_
        rw [planeSide_eq]
        by_contra hlt
        have : a ∈ below c R sp := List.mem_filter.2 ⟨ha, decide_eq_true (not_le.1 hlt)⟩
        rw [h0] at this
        cases this
      · refine Or.inl fun a ha => ?_
        rw [planeSide_eq]
        by_contra hlt
        have : a ∈ above c R sp := List.mem_filter.2 ⟨ha, decide_eq_true (not_lt.1 hlt)⟩
        rw [h0] at this
        cases this

/-- C125: at a leaf of an unpruned hyperplane tree all targets are equal, or no position considered along any
direction the optimizer evaluated scores more than not splitting, or two rows of the leaf lie on the plane kept, which
has no row below it.
What is missing: the last case, see `C125_refuted`; without rows that coincide along a direction it does not
occur, see `C125_apart_partial`. -/
theorem C125_leaf_partial (hn : 0 < n) (hT : CodeTarget F c.T ml post) (hA : Euclidean c.A)
    (hprune : c.hp.prune = false) (h : hFitRoot c (some prior) n = .ok t) (addr : List Bool) (i : Info ℝ P)
    (hu : nodeAt t addr = some (.leaf i)) :
    let R := hRowsAt c.X t n addr
    let q := searchAt c F ml prior addr.length R
    (∀ a ∈ R, ∀ b ∈ R, c.y a = c.y b) ∨
    ∃ vs, Follows (c.opt.solve q) vs ∧
      ((∀ e ∈ vs, ∀ w, hNormal c.A q e.1 = .ok w → ∃ order, IsSweep c.X R w order ∧
          ∀ k, Considered c.hp.splitPrecision c.X R w k →
            sweepScore F ml q w order k ≤ stayScore F ml c.hp c.y prior addr.length R) ∨
        ∃ e ∈ vs, ∃ sp : HSplit ℝ, hNormal c.A q e.1 = .ok sp.normal ∧
          (∃ s, BestAlong F ml q s sp ∧ stayScore F ml c.hp c.y prior addr.length R ≤ s ∧
            ∀ e ∈ vs, ∀ w, hNormal c.A q e.1 = .ok w → ∃ order, IsSweep c.X R w order ∧
              ∀ k, Considered c.hp.splitPrecision c.X R w k → sweepScore F ml q w order k ≤ s) ∧
          (∀ a ∈ R, 0 ≤ planeSide sp.normal sp.origin (c.X a)) ∧
          ∃ j ∈ R, ∃ m ∈ R, j ≠ m ∧ planeSide sp.normal sp.origin (c.X j) = 0 ∧
            planeSide sp.normal sp.origin (c.X m) = 0) := by
  intro R q
  rcases leaf_search hn hT hA hprune h addr i hu with h1 | ⟨vs, st, hf, hse, h1⟩
  · exact Or.inl h1
  refine Or.inr ⟨vs, hf, ?_⟩
  have hup : ∀ e ∈ vs, ∀ w, hNormal c.A q e.1 = .ok w → ∃ order, IsSweep c.X R w order ∧
      ∀ k, Considered c.hp.splitPrecision c.X R w k → sweepScore F ml q w order k ≤ st.bestScore :=
    fun e he w hw => searched_upper hT hA hse (List.mem_map_of_mem he) hw
  rcases h1 with h1 | ⟨e, he, sp, hw, hbest, hle, hone⟩
  · rw [h1]
    exact Or.inl hup
  · exact Or.inr ⟨e, he, sp, hw, ⟨st.bestScore, hbest, hle, hup⟩, hone⟩

/-- Two rows on a plane coincide along its normal. -/
theorem on_plane_eq {sp : HSplit ℝ} {x z : Nat → ℝ} (hx : planeSide sp.normal sp.origin x = 0)
    (hz : planeSide sp.normal sp.origin z = 0) : along sp.normal x = along sp.normal z := by
  rw [planeSide_eq] at hx hz
  unfold elevation at hx hz
  linarith

/-- C125 for rows that stay apart: if no two rows of a leaf with different targets in it have the same coordinate
along a direction the optimizer evaluates there, no position considered scores more than not splitting.
What is missing: rows that coincide along a direction, see `C125_refuted`. -/
theorem C125_apart_partial (hn : 0 < n) (hT : CodeTarget F c.T ml post) (hA : Euclidean c.A)
    (hprune : c.hp.prune = false) (h : hFitRoot c (some prior) n = .ok t) (addr : List Bool) (i : Info ℝ P)
    (hu : nodeAt t addr = some (.leaf i)) :
    let R := hRowsAt c.X t n addr
    let q := searchAt c F ml prior addr.length R
    (∀ vs, Follows (c.opt.solve q) vs → ∀ e ∈ vs, ∀ w, hNormal c.A q e.1 = .ok w →
      R.Pairwise fun j m => along w (c.X j) ≠ along w (c.X m)) →
    (∀ a ∈ R, ∀ b ∈ R, c.y a = c.y b) ∨
    ∃ vs, Follows (c.opt.solve q) vs ∧ ∀ e ∈ vs, ∀ w, hNormal c.A q e.1 = .ok w →
      ∃ order, IsSweep c.X R w order ∧ ∀ k, Considered c.hp.splitPrecision c.X R w k →
        sweepScore F ml q w order k ≤ stayScore F ml c.hp c.y prior addr.length R := by
  intro R q hdis
  rcases C125_leaf_partial hn hT hA hprune h addr i hu with h1 | ⟨vs, hf, h1 | ⟨e, he, sp, hw, -, -, j, hj, m, hm, hne, e1, e2⟩⟩
  · exact Or.inl h1
  · exact Or.inr ⟨vs, hf, h1⟩
  · exfalso
    have hp := hdis vs hf e he _ hw
    have hs : Std.Symm fun j m : Nat => along sp.normal (c.X j) ≠ along sp.normal (c.X m) := ⟨fun _ _ h => h.symm⟩
    refine hp.forall hj hm hne ?_
    rw [planeSide_eq] at e1 e2
    unfold elevation at e1 e2
    linarith

end

/-! ## A perfectly separable data set that is not split -/

/-- Six points in the plane.  The second coordinate separates the classes; the first one is 0 for both points of
class 0 and two of class 1. -/
def hLostCtx (vs : List (RawVec ℚ)) : HCtx ℚ (List ℚ) ℚ (List ℚ) where
  A := ratArith
  T := probTarget ℚ
  hp := hSampleHp 0
  opt := listOpt false vs
  budget := 3
  X := fun i d => (([[1, 2], [1, 3], [0, 0], [0, 1], [0, 4], [0, 5]] : List (List ℚ)).getD i []).getD d 0
  y := fun i => (([1, 1, 0, 0, 1, 1] : List ℚ).getD i 0)
  nDim := 2

def hLostUp : List (RawVec ℚ) := [floatVec [0, 1]]
def hLostBoth : List (RawVec ℚ) := [floatVec [0, 1], floatVec [1, 0]]

def hLostTree : HNode ℚ ℚ (List ℚ) :=
  .split ⟨hSampleHp 0, some [1, 1], 0, some 2, 6, [3, 5]⟩ ⟨[0, 1], [1/2, 3/2]⟩ (1/1050) (3/500)
    (.leaf ⟨hSampleHp 0, some [1, 1], 1, none, 2, [3, 1]⟩)
    (.leaf ⟨hSampleHp 0, some [1, 1], 1, none, 4, [1, 5]⟩)

def hLostLeaf : HNode ℚ ℚ (List ℚ) := .leaf ⟨hSampleHp 0, some [1, 1], 0, some 2, 6, [3, 5]⟩

theorem hLostUp_fit : hFitRoot (hLostCtx hLostUp) (some [1, 1]) 6 = .ok hLostTree := by decide +kernel
theorem hLostBoth_fit : hFitRoot (hLostCtx hLostBoth) (some [1, 1]) 6 = .ok hLostLeaf := by decide +kernel

theorem hLost_normals (r : RawVec ℚ) (hr : r ∈ hLostBoth) (q : HProb ℚ (List ℚ) ℚ) (hq : q.hypercube = false) :
    hNormal realArith (castQ q) (castRaw r) = (hNormal ratArith q r).map castL := by
  simp only [hLostBoth, List.mem_cons, List.not_mem_nil, or_false] at hr
  rcases hr with rfl | rfl
  · exact hNormal_floatVec [0, 1] (by simp) (by decide +kernel) (by decide +kernel) q hq
  · exact hNormal_floatVec [1, 0] (by simp) (by decide +kernel) (by decide +kernel) q hq

noncomputable def hLostReal (vs : List (RawVec ℚ)) : HCtx ℝ (List ℝ) ℝ (List ℝ) := castHCtx realArith vs (hLostCtx vs)

theorem hLostUpReal_fit :
    hFitRoot (hLostReal hLostUp) (some (castL [1, 1])) 6 = .ok (castHTree (hSampleHp 0) hLostTree) :=
  hFitRoot_cast (hLostCtx hLostUp) hLostUp false rfl rfl rfl rfl ⟨by decide +kernel, by decide +kernel, by decide⟩
    (fun r hr q _ hq => hLost_normals r (List.mem_of_mem_head? (by
      rw [List.mem_singleton.1 hr]; rfl)) q hq) ⟨by simp, by decide +kernel⟩ (by decide) hLostUp_fit

theorem hLostBothReal_fit :
    hFitRoot (hLostReal hLostBoth) (some (castL [1, 1])) 6 = .ok (castHTree (hSampleHp 0) hLostLeaf) :=
  hFitRoot_cast (hLostCtx hLostBoth) hLostBoth false rfl rfl rfl rfl ⟨by decide +kernel, by decide +kernel, by decide⟩
    (fun r hr q _ hq => hLost_normals r hr q hq) ⟨by simp, by decide +kernel⟩ (by decide) hLostBoth_fit

theorem hLost_rows (vs : List (RawVec ℚ)) (t : HNode ℝ ℝ (List ℝ)) :
    hRowsAt (hLostReal vs).X t 6 [] = List.range 6 := by
  unfold hRowsAt
  refine List.filter_eq_self.2 fun i _ => ?_
  cases t <;> rfl

/-- Rows different along a direction have one order only. -/
theorem sweep_unique {X : Nat → Nat → ℝ} {R o1 o2 : List Nat} {w : List ℝ}
    (hdis : R.Pairwise fun j m => along w (X j) ≠ along w (X m)) (h1 : IsSweep X R w o1) (h2 : IsSweep X R w o2) :
    o1 = o2 := by
  have hs : Std.Symm fun j m : Nat => along w (X j) ≠ along w (X m) := ⟨fun _ _ h => h.symm⟩
  refine List.Perm.eq_of_pairwise (le := fun i j => along w (X i) ≤ along w (X j)) ?_ h1.2 h2.2 (h1.1.trans h2.1.symm)
  intro a b ha hb hab hba
  by_contra hne
  exact hdis.forall (h1.1.mem_iff.1 ha) (h2.1.mem_iff.1 hb) hne (le_antisymm hab hba)

theorem hLost_apart (vs : List (RawVec ℚ)) :
    (List.range 6).Pairwise fun j m => along (castL [0, 1]) ((hLostReal vs).X j) ≠ along (castL [0, 1]) ((hLostReal vs).X m) := by
  simp [List.range_succ, along, castL, hLostReal, castHCtx, hLostCtx]

/-- Second coordinate of the plane that separates the classes. -/
theorem hLost_side (vs : List (RawVec ℚ)) (a : Nat) :
    planeSide (castSp ⟨[0, 1], [1/2, 3/2]⟩).normal (castSp ⟨[0, 1], [1/2, 3/2]⟩).origin ((hLostReal vs).X a) =
      (hLostReal vs).X a 1 - 3 / 2 := by
  simp [planeSide, castSp, castL, List.range_succ]

theorem hLost_class (vs : List (RawVec ℚ)) : ∀ a < 6,
    ((hLostReal vs).X a 1 - 3 / 2 < 0 → (hLostReal vs).y a = 0) ∧
    (¬ (hLostReal vs).X a 1 - 3 / 2 < 0 → (hLostReal vs).y a = 1) := by
  intro a ha
  interval_cases a <;> simp [hLostReal, castHCtx, hLostCtx] <;> norm_num

/-- C125 is false of the code: with the two axes as directions the tree for six points is a single leaf.  Along the
second axis, which the optimizer evaluated, no two rows coincide and the cut between the classes scores more than
not splitting: with this direction alone the tree is the split into the two classes.  Along the first axis the search
finds a cut between rows that coincide, prefers it, and `_fit` throws it away because all rows are on one side. -/
theorem C125_refuted : ∃ (c c' : HCtx ℝ (List ℝ) ℝ (List ℝ)) (n : Nat) (prior : List ℝ) (i : Info ℝ (List ℝ))
    (t' : HNode ℝ ℝ (List ℝ)),
    c.T = clsTarget realFns ∧ Euclidean c.A ∧ c.hp.prune = false ∧
    hFitRoot c (some prior) n = .ok (.leaf i) ∧ (∃ a < n, ∃ b < n, c.y a ≠ c.y b) ∧
    (let q := searchAt c realFns (dirichletMarginal realFns) prior 0 (List.range n)
     ¬ ∃ vs, Follows (c.opt.solve q) vs ∧ ∀ e ∈ vs, ∀ w, hNormal c.A q e.1 = .ok w →
      ∃ order, IsSweep c.X (List.range n) w order ∧ ∀ k, Considered c.hp.splitPrecision c.X (List.range n) w k →
        sweepScore realFns (dirichletMarginal realFns) q w order k ≤
          stayScore realFns (dirichletMarginal realFns) c.hp c.y prior 0 (List.range n)) ∧
    c' = { c with opt := c'.opt } ∧ hFitRoot c' (some prior) n = .ok t' ∧
    ∀ addr j, nodeAt t' addr = some (.leaf j) →
      ∀ a ∈ hRowsAt c.X t' n addr, ∀ b ∈ hRowsAt c.X t' n addr, c.y a = c.y b := by
  refine ⟨hLostReal hLostBoth, hLostReal hLostUp, 6, castL [1, 1], _, _, rfl, realArith_euclidean, rfl, hLostBothReal_fit,
    ⟨0, by decide, 2, by decide, ?_⟩, ?_, rfl, hLostUpReal_fit, ?_⟩
  · simp [hLostReal, castHCtx, hLostCtx]
  · rintro q ⟨vs, hf, hall⟩
    have hw : hNormal realArith q (castRaw (floatVec [0, 1])) = .ok (castL [0, 1]) := by
      simp [hNormal, normalizeVec, nanToNum, realArith, castRaw, floatVec, castXF, castL, q, searchAt, hLostReal,
        castHCtx, hLostCtx, listOpt]
    obtain ⟨s, hs⟩ : ∃ s, (castRaw (floatVec [0, 1]), s) ∈ vs := by
      match vs, hf with
      | [], hf => have := (hf 0).2 rfl; simp [hLostReal, castHCtx, listOpt, hLostBoth] at this
      | (r, s) :: l, hf =>
        have := (hf 0).1 r s rfl
        simp [hLostReal, castHCtx, listOpt, hLostBoth] at this
        exact ⟨s, by simp [this]⟩
    obtain ⟨order, ho, hle⟩ := hall _ hs _ hw
    obtain ⟨-, -, -, hl, -, hbest, -⟩ := C50_closed (F := realFns) (c := hLostReal hLostUp) .classification
      realArith_euclidean (by decide) hLostUpReal_fit [] _ _ _ _ _ _ (nodeAt_nil _)
    rw [hLost_rows] at hl hbest
    obtain ⟨order', k, _, _, ho', hk, e, -⟩ := hbest
    obtain rfl := sweep_unique (hLost_apart hLostUp) ho ho'
    have h1 := hle k hk
    change logCast (1/1050) = stayScore _ _ _ _ _ _ _ at hl
    change logCast (3/500) = _ at e
    change sweepScore realFns (dirichletMarginal realFns) q (castL [0, 1]) order k ≤ _ at h1
    have h2 : logCast (3/500) ≤ logCast (1/1050) := by
      rw [e, hl]
      exact h1
    exact absurd h2 (not_le.2 ((logCast_lt (by norm_num) (by norm_num)).2 (by norm_num)))
  · intro addr j hj
    have hmem : ∀ a ∈ hRowsAt (hLostReal hLostBoth).X (castHTree (hSampleHp 0) hLostTree) 6 addr, a < 6 ∧
        descends (castHTree (hSampleHp 0) hLostTree) addr ((hLostReal hLostBoth).X a) = true := by
      intro a ha
      unfold hRowsAt at ha
      rwa [List.mem_filter, List.mem_range] at ha
    have hone : ∀ a ∈ hRowsAt (hLostReal hLostBoth).X (castHTree (hSampleHp 0) hLostTree) 6 addr,
        (hLostReal hLostBoth).y a = if addr.head? = some true then 1 else 0 := by
      intro a ha
      obtain ⟨h6, hd⟩ := hmem a ha
      obtain ⟨h1, h2⟩ := hLost_class hLostBoth a h6
      match addr, hj with
      | [], hj => cases hj
      | b :: bs, _ =>
        change (if planeSide _ _ _ < 0 then _ else _) = true at hd
        rw [hLost_side] at hd
        split at hd
        · next hlt => cases b <;> simp_all
        · next hlt => cases b <;> simp_all
    intro a ha b hb
    rw [hone a ha, hone b hb]

/-- Two points of different classes and a small partition prior. -/
def hStayCtx : HCtx ℚ (List ℚ) ℚ (List ℚ) where
  A := ratArith
  T := probTarget ℚ
  hp := ⟨1/10, 0, false, 0⟩
  opt := listOpt false hTieVs
  budget := 3
  X := fun i _ => (([0, 1] : List ℚ).getD i 0)
  y := fun i => (([0, 1] : List ℚ).getD i 0)
  nDim := 1

theorem hStay_fit : hFitRoot hStayCtx (some [1, 1]) 2 = .ok (.leaf ⟨⟨1/10, 0, false, 0⟩, some [1, 1], 0, some 1, 2, [2, 2]⟩) := by
  decide +kernel

noncomputable def hStayReal : HCtx ℝ (List ℝ) ℝ (List ℝ) := castHCtx realArith hTieVs hStayCtx

theorem hStayReal_fit : hFitRoot hStayReal (some (castL [1, 1])) 2 =
    .ok (castHTree ⟨1/10, 0, false, 0⟩ (.leaf ⟨⟨1/10, 0, false, 0⟩, some [1, 1], 0, some 1, 2, [2, 2]⟩)) :=
  hFitRoot_cast hStayCtx hTieVs false rfl rfl rfl rfl ⟨by decide +kernel, by decide +kernel, by decide⟩
    (fun r hr q _ hq => hTie_normals r hr q hq) ⟨by simp, by decide +kernel⟩ (by decide) hStay_fit

/-- `C125_apart_partial` for two rows of different classes that are not split. -/
example : let q := searchAt hStayReal realFns (dirichletMarginal realFns) (castL [1, 1]) 0 [0, 1]
    ∃ vs, Follows (hStayReal.opt.solve q) vs ∧ ∀ e ∈ vs, ∀ w, hNormal hStayReal.A q e.1 = .ok w →
      ∃ order, IsSweep hStayReal.X [0, 1] w order ∧ ∀ k, Considered hStayReal.hp.splitPrecision hStayReal.X [0, 1] w k →
        sweepScore realFns (dirichletMarginal realFns) q w order k ≤
          stayScore realFns (dirichletMarginal realFns) hStayReal.hp hStayReal.y (castL [1, 1]) 0 [0, 1] := by
  intro q
  have hR : hRowsAt hStayReal.X (castHTree ⟨1/10, 0, false, 0⟩
      (.leaf ⟨⟨1/10, 0, false, 0⟩, some [1, 1], 0, some 1, 2, [2, 2]⟩)) 2 [] = [0, 1] := rfl
  have h := C125_apart_partial (F := realFns) (c := hStayReal) (by decide) .classification realArith_euclidean rfl
    hStayReal_fit [] _ rfl
  rw [hR] at h
  rcases h (by
    intro vs hf e he w hw
    have hr : e.1 = castRaw (floatVec [1]) := by
      obtain ⟨m, hm, rfl⟩ := List.mem_iff_getElem.1 he
      have := (hf m).1 _ _ (List.getElem?_eq_getElem hm)
      simp only [hStayReal, castHCtx, listOpt] at this
      split at this
      · next r hr =>
        cases this
        have := List.mem_of_getElem? hr
        simpa [hTieVs] using this
      · cases this
    rw [hr] at hw
    have : w = [1] := by
      simp [hNormal, normalizeVec, nanToNum, realArith, castRaw, floatVec, castXF, searchAt, hStayReal,
        castHCtx, hStayCtx, listOpt] at hw
      exact hw.symm
    rw [this]
    simp [along, hStayReal, castHCtx, hStayCtx]) with h1 | h1
  · have := h1 0 (by simp) 1 (by simp)
    simp [hStayReal, castHCtx, hStayCtx] at this
  · exact h1

end BT
