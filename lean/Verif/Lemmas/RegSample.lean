import Verif.Lemmas.Walk
import Verif.Lemmas.RealSample

/-!
# A regression fit over the reals that really splits

Two rows with different targets and a partition prior close enough to 1.
-/

namespace BT
open Spec

/-- Partition prior making a split of the two rows pay: the logistic function of
`1 + (loss of log-likelihood by splitting)`. -/
noncomputable def regPP (p : NG ℝ) (a b : ℝ) : ℝ :=
  let e := Real.exp (1 + ngMarginal realFns p [a, b] - ngMarginal realFns p [a] - ngMarginal realFns p [b])
  e / (1 + e)

theorem regPP_pos (p : NG ℝ) (a b : ℝ) : 0 < regPP p a b := by
  unfold regPP; positivity

theorem regPP_lt_one (p : NG ℝ) (a b : ℝ) : regPP p a b < 1 := by
  unfold regPP
  have := Real.exp_pos (1 + ngMarginal realFns p [a, b] - ngMarginal realFns p [a] - ngMarginal realFns p [b])
  rw [div_lt_one (by linarith)]
  linarith

/-- Two rows `x = 0, 1` with targets `a`, `b`. -/
noncomputable def regCtx2 (p : NG ℝ) (a b δ : ℝ) (prune : Bool) : Ctx ℝ ℝ (NG ℝ) ℝ ℝ where
  o := exactOps ℝ
  T := regTarget realFns
  pair := regPair realFns
  hp := ⟨regPP p a b, δ, prune, 0⟩
  X := fun i _ => (i : ℝ)
  y := fun i => if i = 0 then a else b
  nDim := 1
  names := ["x0"]

theorem regCtx2_valid (p : NG ℝ) (a b δ : ℝ) (prune : Bool) :
    Valid (fun _ => True) (regCtx2 p a b δ prune) realSort 2 where
  ops := exact_lawful (le_refl _)
  target := reg_lawful realFns
  sort := realSort_spec
  dims := Nat.zero_lt_one
  rows := by decide
  vals _ _ _ _ := trivial

/-- The fitted tree: a root and two one-row leaves. -/
noncomputable def regTree2 (p : NG ℝ) (a b δ : ℝ) (prune : Bool) : PNode ℝ ℝ ℝ (NG ℝ) :=
  let c := regCtx2 p a b δ prune
  .split (c.fitInfo (some p) 0 [0, 1]) ⟨0, "x0", 1 / 2 * (0 + 1)⟩ (c.noSplit (some p) 0 [0, 1])
    (c.score (some p) 0 [0, 1] 0 (0, 1))
    (.leaf (c.directInfo p (c.childPrior p [0]) 1 [0]))
    (.leaf (c.directInfo p (c.childPrior p [1]) 1 [1]))

theorem regCtx2_cuts (p : NG ℝ) (a b δ : ℝ) (prune : Bool) :
    cuts (exactOps ℝ) 0 (regCtx2 p a b δ prune).X [0, 1] 0 = [(0, 1)] := by
  have : column (exactOps ℝ) (regCtx2 p a b δ prune).X [0, 1] 0 = [0, 1] := by
    unfold column regCtx2
    simp [exactOps, List.mergeSort]
  unfold cuts
  rw [this]
  simp [exactOps]

theorem regCtx2_built (p : NG ℝ) (a b δ : ℝ) (prune : Bool) :
    Built (regCtx2 p a b δ prune) none (some p) 0 (List.range 2) (regTree2 p a b δ prune) := by
  set c := regCtx2 p a b δ prune with hc
  have hcuts : cuts c.o c.hp.splitPrecision c.X [0, 1] 0 = [(0, 1)] := regCtx2_cuts p a b δ prune
  have hsc : c.score (some p) 0 [0, 1] 0 (0, 1) =
      Real.log (regPP p a b) + ngMarginal realFns p [a] + ngMarginal realFns p [b] := by
    unfold Ctx.score
    rw [hcuts]
    have f1 : List.filter (fun i => c.o.le (c.X i 0) ((0 : ℝ), (1 : ℝ)).1) [0, 1] = [0] := by
      simp [hc, regCtx2, exactOps]
    have f2 : List.filter (fun i => !c.o.le (c.X i 0) ((0 : ℝ), (1 : ℝ)).1) [0, 1] = [1] := by
      simp [hc, regCtx2, exactOps]
    rw [f1, f2]
    simp [hc, regCtx2, Ctx.ys, Ctx.prior, regPair, regTarget, regGetPrior, logSplitPrior, realFns]
  have hns : c.noSplit (some p) 0 [0, 1] = Real.log (1 - regPP p a b) + ngMarginal realFns p [a, b] := by
    unfold Ctx.noSplit
    show regLogNoSplit realFns (regPP p a b) 0 [a, b] p = _
    rw [regLogNoSplit_eq _ _ _ _ _ (by simp)]
    simp [logStayPrior, realFns]
  have hgain : c.noSplit (some p) 0 [0, 1] < c.score (some p) 0 [0, 1] 0 (0, 1) := by
    rw [hsc, hns]
    set D := 1 + ngMarginal realFns p [a, b] - ngMarginal realFns p [a] - ngMarginal realFns p [b] with hD
    have he := Real.exp_pos D
    have hpp : regPP p a b = Real.exp D / (1 + Real.exp D) := rfl
    have h1 : (1 : ℝ) - regPP p a b = 1 / (1 + Real.exp D) := by
      rw [hpp]; field_simp; ring
    rw [h1, hpp, Real.log_div he.ne' (by linarith), Real.log_div one_ne_zero (by linarith), Real.log_exp,
      Real.log_one]
    linarith
  have hmem : ((0 : ℝ), (1 : ℝ)) ∈ cuts c.o c.hp.splitPrecision c.X [0, 1] 0 := by rw [hcuts]; simp
  have hr1 : c.rows1 [0, 1] 0 (c.o.mid 0 1) = [0] := by
    unfold Ctx.rows1
    simp [hc, regCtx2, exactOps]
    norm_num
  have hr2 : c.rows2 [0, 1] 0 (c.o.mid 0 1) = [1] := by
    unfold Ctx.rows2
    simp [hc, regCtx2, exactOps]
    norm_num
  have h := Built.split (c := c) none (some p) 0 [0, 1] 0 (0, 1) "x0"
    (.leaf (c.directInfo p (c.childPrior p [0]) 1 [0])) (.leaf (c.directInfo p (c.childPrior p [1]) 1 [1]))
    (by simp) Nat.zero_lt_one hmem hgain
    (by
      intro d hd cut hcut
      obtain rfl : d = 0 := by simpa [hc, regCtx2] using hd
      rw [hcuts] at hcut
      obtain rfl : cut = (0, 1) := by simpa using hcut
      exact le_refl _)
    (by intro d hd; omega)
    (by
      intro cut hcut hle
      rw [hcuts] at hcut
      obtain rfl : cut = (0, 1) := by simpa using hcut
      simp [hc, regCtx2, exactOps] at hle)
    rfl
    (by
      rw [hr1]
      refine Built.direct _ _ _ _ ?_
      rintro ⟨h, -⟩; simp at h)
    (by
      rw [hr2]
      refine Built.direct _ _ _ _ ?_
      rintro ⟨h, -⟩; simp at h)
  exact h

/-- `fit` without pruning returns the two-leaf tree. -/
theorem regTree2_fit (p : NG ℝ) (a b δ : ℝ) :
    fitIn (regCtx2 p a b δ false) realSort (some p) 2 = .ok (regTree2 p a b δ false) :=
  fit_of_built (regCtx2_valid p a b δ false) (regCtx2_built p a b δ false)

end BT
