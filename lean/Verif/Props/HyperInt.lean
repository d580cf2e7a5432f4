import Verif.Model.HyperInt
import Verif.Props.Dtype
import Verif.Props.Optimize
import Verif.Props.HyperRows

/-!
# C84: hyperplane trees on integer feature matrices
-/

namespace BT
open Spec

set_option linter.unusedSectionVars false

section
variable {K P S O : Type} [Field K] [LinearOrder K] [IsStrictOrderedRing K] [LinearOrder S] [Neg S]
  {ty : IntTy} {Z : Nat → Nat → Int}

/-- The sum of any two entries of a column is representable in the dtype. -/
def SumsFit (ty : IntTy) (Z : Nat → Nat → Int) (nDim n : Nat) : Prop :=
  ∀ i < n, ∀ j < n, ∀ d < nDim, ty.lo ≤ Z i d + Z j d ∧ Z i d + Z j d ≤ ty.hi

theorem hOriginI_eq (hb : 0 < ty.bits) {n : Nat} {q : HProb K P S} (hX : q.X = fun i d => (Z i d : K))
    (hf : SumsFit ty Z q.nDim n) {a b : Nat} (ha : q.rows.getD a 0 < n) (hb' : q.rows.getD b 0 < n) :
    hOriginI ty Z q a b = hOrigin q a b := by
  unfold hOriginI hOrigin rowVec
  rw [hX]
  rw [List.zipWith_map, List.zipWith_map, List.zipWith_self, List.zipWith_self]
  refine List.map_congr_left fun d hd => ?_
  rw [(IntTy.wrap_eq_iff hb _).2 (hf _ ha _ hb' d (List.mem_range.1 hd))]
  push_cast
  ring

theorem hComputeI_eq (hb : 0 < ty.bits) {n : Nat} (hn : 0 < n) {q : HProb K P S} (hX : q.X = fun i d => (Z i d : K))
    (hf : SumsFit ty Z q.nDim n) (hR : ∀ i ∈ q.rows, i < n) (A : HArith K) (T : Target K P S O) (st : HState S K)
    (r : RawVec K) : hComputeI ty Z A T q st r = hCompute A T q st r := by
  have hget : ∀ a, q.rows.getD a 0 < n := by
    intro a
    rw [List.getD_eq_getElem?_getD]
    cases h : q.rows[a]? with
    | none => exact hn
    | some v => exact hR v (List.mem_of_getElem? h)
  unfold hComputeI hCompute
  simp only [hOriginI_eq hb hX hf (hget _) (hget _)]
  rfl

theorem hSolveI_eq (hb : 0 < ty.bits) {n : Nat} (hn : 0 < n) {q : HProb K P S} (hX : q.X = fun i d => (Z i d : K))
    (hf : SumsFit ty Z q.nDim n) (hR : ∀ i ∈ q.rows, i < n) (A : HArith K) (T : Target K P S O)
    (strat : Strategy K S) (budget : Nat) (hist : List (RawVec K × S)) (st : HState S K) :
    hSolveI ty Z A T q strat budget hist st = hSolve A T q strat budget hist st := by
  induction budget generalizing hist st with
  | zero => rfl
  | succ b ih =>
    rw [hSolveI, hSolve]
    simp only [hComputeI_eq hb hn hX hf hR, ih]
    rfl

theorem hFitI_eq (hb : 0 < ty.bits) {n : Nat} (hn : 0 < n) {c : HCtx K P S O} (hf : SumsFit ty Z c.nDim n)
    (fuel : Nat) (pa : Option P) (lv : Nat) (R : List Nat) (hR : ∀ i ∈ R, i < n) :
    hFitI ty Z c fuel pa lv R = hFit (asFloat Z c) fuel pa lv R := by
  induction fuel generalizing pa lv R with
  | zero => rfl
  | succ fuel ih =>
    unfold hFitI hFit
    have hs := fun p strat hist st => hSolveI_eq hb hn (q := hProblem (asFloat Z c) p lv R) rfl hf hR c.A c.T strat
      c.budget hist st
    simp only [hs]
    have h1 : ∀ sp : HSplit K, ∀ i ∈ R.filter (fun i => hyperRouter.goes1 sp fun d => (Z i d : K)), i < n :=
      fun sp i hi => hR i (List.mem_filter.1 hi).1
    have h2 : ∀ sp : HSplit K, ∀ i ∈ R.filter (fun i => hyperRouter.goes2 sp fun d => (Z i d : K)), i < n :=
      fun sp i hi => hR i (List.mem_filter.1 hi).1
    simp only [ih _ _ _ (h1 _), ih _ _ _ (h2 _)]
    rfl

/-- C84, if no sum of two entries of a column overflows: a hyperplane tree fitted to an integer matrix is the tree
fitted to the same numbers as floats, for every optimizer that returns the same vectors; or the same exception.
Missing: the two-point optimizer, whose vectors have the dtype of the matrix (`C84_two_point_refuted`), and sums that
overflow (`C84_overflow_refuted`). -/
theorem C84_integers_partial [DecidableEq O] (hb : 0 < ty.bits) {c : HCtx K P S O} {n : Nat} (hn : 0 < n)
    (hf : SumsFit ty Z c.nDim n) (prior : Option P) :
    hFitRootI ty Z c prior n = hFitRoot { c with X := fun i d => (Z i d : K) } prior n := by
  unfold hFitRootI hFitRoot
  rw [hFitI_eq hb hn hf (n + 1) prior 0 (List.range n) (fun i hi => List.mem_range.1 hi)]
  rfl

theorem hFitI_error {c : HCtx K P S O} {fuel lv : Nat} {pa : Option P} {R : List Nat} {e : Err}
    (h : let q := hProblem (asFloat Z c) (c.T.getPrior pa R.length c.nDim) lv R
      hSolveI ty Z c.A c.T q (c.opt.solve q) c.budget [] (hInit q) = .error e) :
    hFitI ty Z c (fuel + 1) pa lv R = .error e := by
  rw [hFitI]
  simp only at h
  simp only [h]

end

section
variable {P O R : Type}

/-- With the two-point optimizer *every* fit of a classification tree to an integer matrix raises `TypeError`
(the in-place division of an integer vector), as soon as two classes occur and one vector is to be evaluated.  (In the
code the difference of the rows may wrap around as well; the vector is of integer dtype and not empty in any case.) -/
theorem C84_two_point_refuted {K S : Type} [Field K] [LinearOrder K] [IsStrictOrderedRing K] [FloorRing K]
    [LinearOrder S] [Neg S] [DecidableEq O] {G : Rng R K} (hG : LawfulRng G) (hfair : FairRng G) (ty : IntTy)
    (Z : Nat → Nat → Int) {c : HCtx K P S O} {nMc n : Nat} (hmc : 0 < nMc) (hdim : 0 < c.nDim) (hbud : 0 < c.budget)
    (hy : ∀ i < n, ∃ k : Nat, c.y i = (k : K)) {i j : Nat} (hi : i < n) (hj : j < n) (hij : c.y i ≠ c.y j)
    (prior : Option P) :
    ∃ F, ∀ fuel, F ≤ fuel →
      hFitRootI ty Z { c with opt := twoPointOptimizer G true nMc fuel } prior n = .error .typeError := by
  set C : HCtx K P S O := asFloat Z c with hC
  set q : HProb K P S := hProblem { C with opt := twoPointOptimizer G true nMc 0 } (c.T.getPrior prior n c.nDim) 0
    (List.range n) with hq
  have hrows : q.rows = List.range n := rfl
  have hyq : ∀ i ∈ q.rows, ∃ n : Nat, q.y i = (n : K) := fun i hi => hy i (List.mem_range.1 hi)
  obtain ⟨F, hF⟩ := C53_terminates_partial G true nMc q hG hfair hdim hyq
  refine ⟨F, fun fuel hfuel => ?_⟩
  obtain ⟨-, hstr⟩ := hF fuel hfuel
  have htwo : 1 < (distinct (q.rows.map q.y)).length :=
    one_lt_distinct.2 ⟨c.y i, List.mem_map_of_mem (List.mem_range.2 hi), c.y j,
      List.mem_map_of_mem (List.mem_range.2 hj), hij⟩
  have hint : ∀ i ∈ q.rows, ∃ z : Int, q.y i = (z : K) := fun i hi => by
    obtain ⟨n, hn⟩ := hyq i hi
    exact ⟨n, by rw [hn]; simp⟩
  have hstep : ∃ r, (twoPointSolve G true nMc fuel q).strategy [] = .eval r ∧ TwoPointVec true q r := by
    cases hs : (twoPointSolve G true nMc fuel q).strategy [] with
    | eval r => exact ⟨r, rfl, (hstr []).1 r hs⟩
    | raise e => exact absurd hs ((hstr []).2 e)
    | stop =>
      exfalso
      rw [twoPointSolve_eq G true nMc fuel q hint htwo] at hs
      obtain ⟨m, rfl⟩ : ∃ m, nMc = m + 1 := ⟨nMc - 1, by omega⟩
      rw [List.range_succ_eq_map, Prog.loop] at hs
      unfold twoPointPass at hs
      split at hs
      · cases hs
      · dsimp only at hs
        split at hs <;> cases hs
  obtain ⟨r, hr, x1, x2, v, -, -, -, hrv, hlen, -⟩ := hstep
  have hne : hNormal c.A q r = .error .typeError := by
    refine (C48_accepts (A := c.A) (q := q) rfl r).2.2.2 (by rw [hrv]) ?_
    rw [hrv]
    intro h0
    have : v = [] := by simpa using h0
    rw [this] at hlen
    have : (0 : Nat) < q.nDim := hdim
    simp only [List.length_nil] at hlen
    omega
  obtain ⟨b, hb⟩ : ∃ b, c.budget = b + 1 := ⟨c.budget - 1, by omega⟩
  have hsol : ∀ st : HState S K, hSolveI ty Z c.A c.T q (twoPointSolve G true nMc fuel q).strategy c.budget [] st =
      .error .typeError := by
    intro st
    rw [hb, hSolveI, hr]
    unfold hComputeI
    simp only [hne]
  have := hsol (hInit q)
  have hfit : hFitI ty Z { c with opt := twoPointOptimizer G true nMc fuel } (n + 1) prior 0 (List.range n) =
      .error .typeError := by
    refine hFitI_error ?_
    simp only [List.length_range]
    exact this
  unfold hFitRootI
  rw [hfit]

end

/-! ## Overflow -/

section
variable {P S O : Type} [LinearOrder S] [Neg S]

/-- The rows 100 and 200 of dtype uint8: their sum is 44 there. -/
def hBytes : Nat → Nat → Int := fun i _ => if i = 0 then 100 else 200

/-- A plane through 22 with a normal of length 1. -/
def Plane22 (sp : HSplit ℝ) : Prop := sp.origin = [22] ∧ ∃ w, w * w = 1 ∧ sp.normal = [w]

theorem hComputeI_bytes {A : HArith ℝ} (hA : Euclidean A) {T : Target ℝ P S O} {q : HProb ℝ P S} (hd : q.nDim = 1)
    (hR : q.rows = [0, 1]) (st st' : HState S ℝ) (r : RawVec ℝ) (v : S)
    (h : hComputeI .uint8 hBytes A T q st r = .ok (st', v)) (hst : ∀ sp, st.best = some sp → Plane22 sp)
    (sp : HSplit ℝ) (hb : st'.best = some sp) : Plane22 sp := by
  unfold hComputeI at h
  simp only at h
  split at h
  · cases h
  next normal hn =>
    split at h
    · cases h; exact hst sp hb
    split at h
    · next s k hs hk =>
      split at h
      · split at h
        · next a b hka hkb =>
          rcases ite_eq_iff.1 h with ⟨-, h⟩ | ⟨-, h⟩
          · cases h
            simp only [Option.some.injEq] at hb
            subst hb
            refine ⟨?_, ?_⟩
            · obtain ⟨_, _, hk1, -⟩ := mem_splitIndices.1 (List.mem_of_getElem? hk)
              have hperm := (hA.sort (hProj q normal)).1
              have hlen : (hProj q normal).length = 2 := by simp [hProj, hR]
              rw [hlen] at hperm
              have hl2 : (A.argsort (hProj q normal)).length = 2 := by rw [hperm.length_eq]; rfl
              obtain ⟨hk2, -⟩ := List.getElem?_eq_some_iff.1 hkb
              have hk' : k = 1 := by omega
              subst hk'
              have hnd := hperm.nodup_iff.2 List.nodup_range
              have ha := List.mem_range.1 (hperm.mem_iff.1 (List.mem_of_getElem? hka))
              have hb := List.mem_range.1 (hperm.mem_iff.1 (List.mem_of_getElem? hkb))
              have hab : a ≠ b := by
                rintro rfl
                obtain ⟨h0, e0⟩ := List.getElem?_eq_some_iff.1 hka
                obtain ⟨h1, e1⟩ := List.getElem?_eq_some_iff.1 hkb
                exact absurd (hnd.getElem_inj_iff.1 (e0.trans e1.symm)) (by omega)
              have : (a = 0 ∧ b = 1) ∨ (a = 1 ∧ b = 0) := by omega
              rcases this with ⟨rfl, rfl⟩ | ⟨rfl, rfl⟩
              · simp [hOriginI, hd, hR, hBytes, IntTy.wrap, IntTy.uint8]
                norm_num
              · simp [hOriginI, hd, hR, hBytes, IntTy.wrap, IntTy.uint8]
                norm_num
            · obtain ⟨hlen, hsq⟩ := C48_unit hA.square r normal hn
              rw [hd] at hlen
              obtain ⟨w, rfl⟩ := List.length_eq_one_iff.1 hlen
              exact ⟨w, by simpa using hsq, rfl⟩
          · cases h; exact hst sp hb
        · cases h
      · cases h; exact hst sp hb
    · cases h

theorem hSolveI_bytes {A : HArith ℝ} (hA : Euclidean A) {T : Target ℝ P S O} {q : HProb ℝ P S} (hd : q.nDim = 1)
    (hR : q.rows = [0, 1]) (strat : Strategy ℝ S) (budget : Nat) (hist : List (RawVec ℝ × S)) (st st' : HState S ℝ)
    (h : hSolveI .uint8 hBytes A T q strat budget hist st = .ok st') (hst : ∀ sp, st.best = some sp → Plane22 sp)
    (sp : HSplit ℝ) (hb : st'.best = some sp) : Plane22 sp := by
  induction budget generalizing hist st with
  | zero => cases h
  | succ b ih =>
    rw [hSolveI] at h
    split at h
    · cases h; exact hst sp hb
    · cases h
    · split at h
      · cases h
      · next st1 val hc => exact ih _ _ h (hComputeI_bytes hA hd hR st st1 _ val hc hst)

/-- Both rows lie on the same side of such a plane. -/
theorem plane22_side {sp : HSplit ℝ} (h : Plane22 sp) :
    ([0, 1].filter (fun i => hyperRouter.goes1 sp fun d => ((hBytes i d : Int) : ℝ))).length = 0 ∨
      ([0, 1].filter (fun i => hyperRouter.goes2 sp fun d => ((hBytes i d : Int) : ℝ))).length = 0 := by
  obtain ⟨ho, w, hw, hn⟩ := h
  have hs : ∀ i, signedDistance sp (fun d => ((hBytes i d : Int) : ℝ)) = w * ((if i = 0 then 100 else 200) - 22) := by
    intro i
    simp only [signedDistance, hn, ho, rowVec, dot, hBytes, List.length_singleton, List.range_one, List.map_cons,
      List.map_nil, List.zipWith_cons_cons, List.zipWith_nil_left, List.sum_cons, List.sum_nil]
    split <;> push_cast <;> ring
  have hf : ∀ i, (hBytes i 0 : Int) = if i = 0 then 100 else 200 := fun _ => rfl
  rcases lt_trichotomy w 0 with hlt | rfl | hgt
  · right
    simp only [hyperRouter, hs, List.length_eq_zero_iff, List.filter_eq_nil_iff, decide_eq_true_eq, not_le]
    intro i _
    split <;> linarith
  · simp at hw
  · left
    simp only [hyperRouter, hs, List.length_eq_zero_iff, List.filter_eq_nil_iff, decide_eq_true_eq, not_lt]
    intro i _
    split <;> linarith

theorem hFitI_bytes {c : HCtx ℝ P S O} (hA : Euclidean c.A) (hd : c.nDim = 1) (fuel : Nat) (prior : Option P) :
    (∃ e, (let q := hProblem (asFloat hBytes c) (c.T.getPrior prior 2 c.nDim) 0 (List.range 2)
        hSolveI .uint8 hBytes c.A c.T q (c.opt.solve q) c.budget [] (hInit q) = .error e) ∧
      hFitI .uint8 hBytes c (fuel + 1) prior 0 (List.range 2) = .error e) ∨
    ∃ i, hFitI .uint8 hBytes c (fuel + 1) prior 0 (List.range 2) = .ok (.leaf i) := by
  rw [hFitI]
  simp only [List.length_range]
  cases hst : hSolveI .uint8 hBytes c.A c.T
      (hProblem (asFloat hBytes c) (c.T.getPrior prior 2 c.nDim) 0 (List.range 2)) (c.opt.solve
      (hProblem (asFloat hBytes c) (c.T.getPrior prior 2 c.nDim) 0 (List.range 2))) c.budget []
      (hInit (hProblem (asFloat hBytes c) (c.T.getPrior prior 2 c.nDim) 0 (List.range 2))) with
  | error e => exact .inl ⟨e, rfl, rfl⟩
  | ok st =>
    right
    have hbest := hSolveI_bytes hA hd rfl _ _ _ _ _ hst (fun sp h => by cases h)
    dsimp only
    split
    · exact ⟨_, rfl⟩
    next sp hsp =>
      rw [if_neg]
      · exact ⟨_, rfl⟩
      · rintro ⟨h1, h2⟩
        rcases plane22_side (hbest sp hsp) with h0 | h0
        · exact absurd h1 (by rw [show List.range 2 = [0, 1] from rfl, h0]; omega)
        · exact absurd h2 (by rw [show List.range 2 = [0, 1] from rfl, h0]; omega)

theorem hFitI_bytes_error {c : HCtx ℝ P S O} (hA : Euclidean c.A) (hd : c.nDim = 1) {fuel : Nat} {prior : Option P}
    {e : Err} (h : hFitI .uint8 hBytes c (fuel + 1) prior 0 (List.range 2) = .error e) :
    let q := hProblem (asFloat hBytes c) (c.T.getPrior prior 2 c.nDim) 0 (List.range 2)
    hSolveI .uint8 hBytes c.A c.T q (c.opt.solve q) c.budget [] (hInit q) = .error e := by
  rcases hFitI_bytes (c := c) hA hd fuel prior with ⟨e', he, h'⟩ | ⟨i, hi⟩
  · rw [h'] at h; cases h; exact he
  · rw [hi] at h; cases h

/-- Whatever the targets, the prior and the optimizer: the fit to these two rows is a leaf. -/
theorem C84_overflow_leaf [DecidableEq O] {c : HCtx ℝ P S O} (hA : Euclidean c.A) (hd : c.nDim = 1)
    (prior : Option P) (t : HNode S ℝ P) (h : hFitRootI .uint8 hBytes c prior 2 = .ok t) : ∃ i, t = .leaf i := by
  have key : ∀ t, hFitI .uint8 hBytes c 3 prior 0 (List.range 2) = .ok t → ∃ i, t = .leaf i := by
    intro t h
    rcases hFitI_bytes (c := c) hA hd 2 prior with ⟨e, -, he⟩ | ⟨i, hi⟩
    · rw [he] at h; cases h
    · rw [hi] at h; cases h; exact ⟨i, rfl⟩
  unfold hFitRootI at h
  split at h
  · cases h
  next t0 ht0 =>
    obtain ⟨i, rfl⟩ := key t0 ht0
    split at h
    · cases h
      exact ⟨i, rfl⟩
    · cases h
      exact ⟨i, rfl⟩

end

/-! ## The float fit of the same two numbers splits -/

def hByteHp : Hyper ℚ := ⟨9/10, 0, false, 0⟩

def hByteCtx : HCtx ℚ (List ℚ) ℚ (List ℚ) where
  A := ratArith
  T := probTarget ℚ
  hp := hByteHp
  opt := listOpt false hTieVs
  budget := 3
  X := fun i _ => if i = 0 then 100 else 200
  y := fun i => (([0, 1] : List ℚ).getD i 0)
  nDim := 1

def hByteTree : HNode ℚ ℚ (List ℚ) :=
  .split ⟨hByteHp, some [1, 1], 0, some 1, 2, [2, 2]⟩ ⟨[1], [150]⟩ (1/60) (9/40)
    (.leaf ⟨hByteHp, some [1, 1], 1, none, 1, [2, 1]⟩)
    (.leaf ⟨hByteHp, some [1, 1], 1, none, 1, [1, 2]⟩)

theorem hByte_fit : hFitRoot hByteCtx (some [1, 1]) 2 = .ok hByteTree := by decide +kernel

noncomputable def hByteReal : HCtx ℝ (List ℝ) ℝ (List ℝ) := castHCtx realArith hTieVs hByteCtx

theorem hByteReal_fit :
    hFitRoot hByteReal (some (castL [1, 1])) 2 = .ok (castHTree hByteHp hByteTree) :=
  hFitRoot_cast hByteCtx hTieVs false rfl rfl rfl rfl ⟨by decide +kernel, by decide +kernel, by decide⟩
    (fun r hr q _ hq => hTie_normals r hr q hq) ⟨by simp, by decide +kernel⟩ (by decide) hByte_fit

theorem hComputeI_error {P S O : Type} [LinearOrder S] [Neg S] {ty : IntTy} {Z : Nat → Nat → Int} {A : HArith ℝ}
    {T : Target ℝ P S O} {q : HProb ℝ P S} {st : HState S ℝ} {r : RawVec ℝ} {e : Err}
    (h : hComputeI ty Z A T q st r = .error e) : hCompute A T q st r = .error e := by
  unfold hComputeI at h
  unfold hCompute
  dsimp only at h ⊢
  cases hn : hNormal A q r with
  | error e' => rw [hn] at h; exact h
  | ok w =>
    rw [hn] at h
    dsimp only at h ⊢
    split at h
    · cases h
    next hl =>
      rw [if_neg hl]
      split at h
      · next s k hs hk =>
        rw [hs, hk]
        dsimp only
        split at h
        · next hle =>
          rw [if_pos hle]
          split at h
          · rcases ite_eq_iff.1 h with ⟨-, h⟩ | ⟨-, h⟩ <;> cases h
          · next hno =>
            cases h
            split
            · next a b ha hb => exact absurd hb (fun hb => hno a b ha hb)
            · rfl
        · cases h
      · next hno =>
        cases h
        split
        · next a b ha hb => exact absurd hb (fun hb => hno a b ha hb)
        · rfl

theorem hByteReal_float : asFloat hBytes hByteReal = hByteReal := by
  unfold asFloat hByteReal castHCtx
  congr 1
  funext i d
  simp only [hBytes, hByteCtx]
  split <;> simp

theorem hFit_error {c : HCtx ℝ (List ℝ) ℝ (List ℝ)} {fuel lv : Nat} {pa : Option (List ℝ)} {R : List Nat} {e : Err}
    (h : let q := hProblem c (c.T.getPrior pa R.length c.nDim) lv R
      hSolve c.A c.T q (c.opt.solve q) c.budget [] (hInit q) = .error e) :
    hFit c (fuel + 1) pa lv R = .error e := by
  rw [hFit]
  simp only at h
  simp only [h]

/-- One vector is evaluated: an exception on integers is an exception on floats. -/
theorem hSolveI_one {P S O : Type} [LinearOrder S] [Neg S] {ty : IntTy} {Z : Nat → Nat → Int} {A : HArith ℝ}
    {T : Target ℝ P S O} {q : HProb ℝ P S} {r : RawVec ℝ} {strat : Strategy ℝ S} (h0 : strat [] = .eval r)
    (h1 : ∀ v, strat [(r, v)] = .stop) {b : Nat} {st : HState S ℝ} {e : Err}
    (h : hSolveI ty Z A T q strat (b + 2) [] st = .error e) : hSolve A T q strat (b + 2) [] st = .error e := by
  rw [hSolveI, h0] at h
  rw [hSolve, h0]
  simp only at h ⊢
  split at h
  · next e' he => cases h; rw [hComputeI_error he]
  · next st' v _ =>
    rw [hSolveI, h1] at h
    cases h

theorem hByteReal_ok : ∃ t, hFitRootI .uint8 hBytes hByteReal (some (castL [1, 1])) 2 = .ok t := by
  cases h : hFitRootI .uint8 hBytes hByteReal (some (castL [1, 1])) 2 with
  | ok t => exact ⟨t, rfl⟩
  | error e =>
    exfalso
    have hprune : hByteReal.hp.prune = false := rfl
    unfold hFitRootI at h
    split at h
    · next e' he =>
      have he2 := hFitI_bytes_error (c := hByteReal) realArith_euclidean rfl he
      have he3 := hSolveI_one (b := 1) (r := castRaw (floatVec [1])) rfl (fun _ => rfl) he2
      rw [hByteReal_float] at he3
      have he4 : hFit hByteReal 3 (some (castL [1, 1])) 0 (List.range 2) = .error e' := hFit_error he3
      have hfit := hByteReal_fit
      unfold hFitRoot at hfit
      rw [he4] at hfit
      cases hfit
    · next t ht =>
      rw [hprune] at h
      cases h

/-- C84 is false when a sum overflows: the bytes 100 and 200 are never split, the same numbers as floats are. -/
theorem C84_overflow_refuted :
    ∃ (c : HCtx ℝ (List ℝ) ℝ (List ℝ)) (Z : Nat → Nat → Int) (prior : List ℝ) (t : HNode ℝ ℝ (List ℝ)) (i : Info ℝ (List ℝ)),
      c.T = clsTarget realFns ∧ Euclidean c.A ∧ Blind c.opt ∧ GoodPrior prior ∧ (∀ i d, 0 ≤ Z i d ∧ Z i d ≤ 255) ∧
      hFitRoot { c with X := fun i d => (Z i d : ℝ) } (some prior) 2 = .ok t ∧ (∀ j, t ≠ .leaf j) ∧
      hFitRootI .uint8 Z c (some prior) 2 = .ok (.leaf i) := by
  obtain ⟨t, ht⟩ := hByteReal_ok
  obtain ⟨i, rfl⟩ := C84_overflow_leaf (c := hByteReal) realArith_euclidean rfl _ t ht
  refine ⟨hByteReal, hBytes, castL [1, 1], castHTree hByteHp hByteTree, i, rfl, realArith_euclidean,
    blind_list _ _,
    ⟨by simp [castL], by intro a ha; simp [castL] at ha; rw [ha]; norm_num⟩, ?_, ?_, ?_, ht⟩
  · intro i d
    unfold hBytes
    split <;> norm_num
  · exact (congrArg (fun c => hFitRoot c (some (castL [1, 1])) 2) hByteReal_float).trans hByteReal_fit
  · intro j hj
    cases hj

/-! ## Non-vacuity -/

def hLineInts : Nat → Nat → Int := fun i _ => ([0, 3, 1, 2, 5] : List Int).getD i 0

theorem hLine_sums : SumsFit .uint8 hLineInts 1 5 := by
  intro i hi j hj d _
  have : ∀ i < 5, ∀ j < 5, IntTy.uint8.lo ≤ ([0, 3, 1, 2, 5] : List Int).getD i 0 + ([0, 3, 1, 2, 5] : List Int).getD j 0 ∧
      ([0, 3, 1, 2, 5] : List Int).getD i 0 + ([0, 3, 1, 2, 5] : List Int).getD j 0 ≤ IntTy.uint8.hi := by decide
  exact this i hi j hj

/-- The hypotheses of `C84_integers_partial` hold for five bytes that are split. -/
example : hFitRootI .uint8 hLineInts hLineReal (some (castL [1, 1])) 5 = .ok (castHTree (hSampleHp 0) hLineTree) := by
  rw [C84_integers_partial (by decide) (by omega) hLine_sums]
  refine Eq.trans (congrArg (fun c => hFitRoot c (some (castL [1, 1])) 5) ?_) hLineReal_fit
  unfold hLineReal castHCtx
  congr 1
  funext i d
  show (((([0, 3, 1, 2, 5] : List Int).getD i 0 : Int)) : ℝ) = ((([0, 3, 1, 2, 5] : List ℚ).getD i 0 : ℚ) : ℝ)
  rw [show ([0, 3, 1, 2, 5] : List ℚ) = ([0, 3, 1, 2, 5] : List Int).map (fun z : Int => (z : ℚ)) by simp]
  rw [List.getD_eq_getElem?_getD, List.getD_eq_getElem?_getD, List.getElem?_map]
  cases ([0, 3, 1, 2, 5] : List Int)[i]? <;> simp

/-- The hypotheses of `C84_two_point_refuted` hold for five bytes of two classes. -/
example : ∃ F, ∀ fuel, F ≤ fuel →
    hFitRootI .uint8 hLineInts { hLineCtx with opt := twoPointOptimizer (counterRng ℚ) true 4 fuel } (some [1, 1]) 5 =
      .error .typeError :=
  C84_two_point_refuted counterRng_lawful counterRng_fair .uint8 hLineInts (c := hLineCtx) (by omega) (by decide)
    (by decide) (by
      intro i hi
      have : ∀ i < 5, ([0, 1, 0, 0, 1] : List ℚ).getD i 0 = (0 : Nat) ∨ ([0, 1, 0, 0, 1] : List ℚ).getD i 0 = (1 : Nat) := by
        decide +kernel
      rcases this i hi with h | h
      · exact ⟨0, h⟩
      · exact ⟨1, h⟩) (i := 0) (j := 1) (by omega) (by omega) (by decide +kernel) _

end BT
