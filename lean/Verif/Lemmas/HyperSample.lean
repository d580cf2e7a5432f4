import Verif.Lemmas.HyperCast
import Mathlib.Analysis.Real.Sqrt

/-!
# Concrete hyperplane fits used by the non-vacuity examples and counterexamples
-/

namespace BT
open Spec

/-- A float vector with finite entries. -/
def floatVec {K : Type} (l : List K) : RawVec K := ⟨false, l.map .fin⟩

/-- Square root of a rational square. -/
def ratSqrt (s : ℚ) : ℚ := (Nat.sqrt s.num.natAbs : ℚ) / (Nat.sqrt s.den : ℚ)

/-- Rational library functions; the norm is exact for vectors of rational length. -/
def ratArith : HArith ℚ where
  norm v := ratSqrt (v.map fun a => a * a).sum
  big := 2 ^ 1024 - 2 ^ 971
  sphere _ := .error .assertionError
  argsort := insArgsort (exactOps ℚ).le

/-- Real library functions. -/
noncomputable def realArith : HArith ℝ where
  norm v := Real.sqrt (v.map fun a => a * a).sum
  big := 2 ^ 1024 - 2 ^ 971
  sphere _ := .error .assertionError
  argsort := insArgsort (exactOps ℝ).le

theorem realArith_sort : IsArgsort (exactOps ℝ).le (fun _ => True) realArith.argsort := realSort_spec

theorem realArith_norm (v : List ℝ) : 0 ≤ realArith.norm v ∧
    realArith.norm v * realArith.norm v = (v.map fun a => a * a).sum := by
  refine ⟨Real.sqrt_nonneg _, Real.mul_self_sqrt ?_⟩
  apply List.sum_nonneg
  intro x hx
  obtain ⟨a, -, rfl⟩ := List.mem_map.1 hx
  exact mul_self_nonneg a

/-- The real unit normal of a rational vector of rational length. -/
theorem hNormal_floatVec (l : List ℚ) (hl : l ≠ []) (h0 : l.all (fun a => decide (a = 0)) = false)
    (hs : 0 ≤ ratArith.norm l ∧ ratArith.norm l * ratArith.norm l = (l.map fun a => a * a).sum)
    (q : HProb ℚ (List ℚ) ℚ) (hq : q.hypercube = false) :
    hNormal realArith (castQ q) (castRaw (floatVec l)) = (hNormal ratArith q (floatVec l)).map castL := by
  have e1 : ((castRaw (floatVec l)).v.map (nanToNum realArith.big)) = castL l := by
    simp [castRaw, floatVec, castL, castXF, nanToNum]
  have e2 : ((floatVec l).v.map (nanToNum ratArith.big)) = l := by
    simp only [floatVec, List.map_map]
    exact List.map_id' l
  have hl' : castL l ≠ [] := by simpa [castL] using hl
  have h0' : (castL l).all (fun a => decide (a = 0)) = false := by
    rw [← h0]
    unfold castL
    rw [List.all_map]
    congr 1
    funext a
    simp
  have hnorm : realArith.norm (castL l) = ((ratArith.norm l : ℚ) : ℝ) := by
    show Real.sqrt ((castL l).map fun a => a * a).sum = _
    have : ((castL l).map fun a => a * a) = castL (l.map fun a => a * a) := by
      simp [castL]
    rw [this, castL_sum, ← hs.2, Rat.cast_mul]
    exact Real.sqrt_mul_self (by exact_mod_cast hs.1)
  have n1 : normalizeVec realArith (castRaw (floatVec l)) =
      .ok ((castL l).map (· / realArith.norm (castL l))) := by
    unfold normalizeVec
    simp only [e1, h0', if_neg hl']
    rfl
  have n2 : normalizeVec ratArith (floatVec l) = .ok (l.map (· / ratArith.norm l)) := by
    unfold normalizeVec
    simp only [e2, h0, if_neg hl]
    rfl
  have n3 : (castL l).map (· / realArith.norm (castL l)) = castL (l.map (· / ratArith.norm l)) := by
    rw [hnorm]
    simp [castL]
  have hcq : (castQ q).hypercube = false := hq
  have hcd : (castQ q).nDim = q.nDim := rfl
  unfold hNormal
  simp only [hq, hcq, hcd, Bool.false_eq_true, if_false, n1, n2, n3, castL_length]
  split <;> rfl

/-- Nine points in the plane in no particular order, separable by two oblique lines. -/
def hSampleX : Nat → Nat → ℚ := fun i d =>
  ((([[0, 0], [4, 4], [1, 3], [6, 3], [1, 1], [0, 4], [2, 5], [0, 2], [5, 2]] : List (List ℚ)).getD i []).getD d 0)
def hSampleY : Nat → ℚ := fun i => (([0, 0, 1, 0, 0, 1, 1, 0, 0] : List ℚ).getD i 0)

def hSampleVs : List (RawVec ℚ) := [floatVec [1, 0], floatVec [3, 4], floatVec [-4, 3]]

def hSampleHp (delta : ℚ) : Hyper ℚ := ⟨9/10, delta, false, 0⟩

def hSampleCtx (delta : ℚ) : HCtx ℚ (List ℚ) ℚ (List ℚ) where
  A := ratArith
  T := probTarget ℚ
  hp := hSampleHp delta
  opt := listOpt false hSampleVs
  budget := 5
  X := hSampleX
  y := hSampleY
  nDim := 2

def hSampleTree (delta : ℚ) : HNode ℚ ℚ (List ℚ) :=
  .split ⟨hSampleHp delta, some [1, 1], 0, some 2, 9, [7, 4]⟩ ⟨[-4/5, 3/5], [1/2, 3/2]⟩ (1/8400) (3/6400)
    (.leaf ⟨hSampleHp delta, some [1, 1], 1, none, 5, [6, 1]⟩)
    (.split ⟨hSampleHp delta, some [1, 1], 1, some 2, 4, [2, 4]⟩ ⟨[3/5, 4/5], [1/2, 5/2]⟩ (19/2000) (27/1600)
      (.leaf ⟨hSampleHp delta, some [1, 1], 2, none, 1, [2, 1]⟩)
      (.leaf ⟨hSampleHp delta, some [1, 1], 2, none, 3, [1, 4]⟩))

theorem hSample_fit : hFitRoot (hSampleCtx 0) (some [1, 1]) 9 = .ok (hSampleTree 0) := by decide +kernel
theorem hSample_fit_delta : hFitRoot (hSampleCtx 1) (some [1, 1]) 9 = .ok (hSampleTree 1) := by decide +kernel

theorem hSample_normals (r : RawVec ℚ) (hr : r ∈ hSampleVs) (q : HProb ℚ (List ℚ) ℚ)
    (hq : q.hypercube = false) :
    hNormal realArith (castQ q) (castRaw r) = (hNormal ratArith q r).map castL := by
  simp only [hSampleVs, List.mem_cons, List.not_mem_nil, or_false] at hr
  rcases hr with rfl | rfl | rfl
  · exact hNormal_floatVec [1, 0] (by simp) (by decide +kernel) (by decide +kernel) q hq
  · exact hNormal_floatVec [3, 4] (by simp) (by decide +kernel) (by decide +kernel) q hq
  · exact hNormal_floatVec [-4, 3] (by simp) (by decide +kernel) (by decide +kernel) q hq

noncomputable def hSampleReal (delta : ℚ) : HCtx ℝ (List ℝ) ℝ (List ℝ) :=
  castHCtx realArith hSampleVs (hSampleCtx delta)

theorem hSampleReal_fit :
    hFitRoot (hSampleReal 0) (some (castL [1, 1])) 9 = .ok (castHTree (hSampleHp 0) (hSampleTree 0)) :=
  hFitRoot_cast (hSampleCtx 0) hSampleVs false rfl rfl rfl rfl ⟨by decide +kernel, by decide +kernel, by decide⟩
    (fun r hr q _ hq => hSample_normals r hr q hq) ⟨by simp, by decide +kernel⟩ (by decide) hSample_fit

theorem hSampleReal_fit_delta :
    hFitRoot (hSampleReal 1) (some (castL [1, 1])) 9 = .ok (castHTree (hSampleHp 1) (hSampleTree 1)) :=
  hFitRoot_cast (hSampleCtx 1) hSampleVs false rfl rfl rfl rfl ⟨by decide +kernel, by decide +kernel, by decide⟩
    (fun r hr q _ hq => hSample_normals r hr q hq) ⟨by simp, by decide +kernel⟩ (by decide) hSample_fit_delta

/-! Six points on a line with ties, whose unsorted neighbours differ inside a block of ties. -/

def hTieVs : List (RawVec ℚ) := [floatVec [1]]

theorem hTie_normals (r : RawVec ℚ) (hr : r ∈ hTieVs) (q : HProb ℚ (List ℚ) ℚ)
    (hq : q.hypercube = false) :
    hNormal realArith (castQ q) (castRaw r) = (hNormal ratArith q r).map castL := by
  simp only [hTieVs, List.mem_cons, List.not_mem_nil, or_false] at hr
  rw [hr]
  exact hNormal_floatVec [1] (by simp) (by decide +kernel) (by decide +kernel) q hq

def hTieCtx : HCtx ℚ (List ℚ) ℚ (List ℚ) where
  A := ratArith
  T := probTarget ℚ
  hp := hSampleHp 0
  opt := listOpt false hTieVs
  budget := 3
  X := fun i _ => (([1, 1, 1, 1, 0, 0] : List ℚ).getD i 0)
  y := fun i => (([0, 0, 1, 1, 0, 0] : List ℚ).getD i 0)
  nDim := 1

def hTieTree : HNode ℚ ℚ (List ℚ) :=
  .split ⟨hSampleHp 0, some [1, 1], 0, some 1, 6, [5, 3]⟩ ⟨[1], [1]⟩ (1/1050) (3/50)
    (.leaf ⟨hSampleHp 0, some [1, 1], 1, none, 2, [3, 1]⟩)
    (.leaf ⟨hSampleHp 0, some [1, 1], 1, some 1, 4, [3, 3]⟩)

theorem hTie_fit : hFitRoot hTieCtx (some [1, 1]) 6 = .ok hTieTree := by decide +kernel

noncomputable def hTieReal : HCtx ℝ (List ℝ) ℝ (List ℝ) := castHCtx realArith hTieVs hTieCtx

theorem hTieReal_fit :
    hFitRoot hTieReal (some (castL [1, 1])) 6 = .ok (castHTree (hSampleHp 0) hTieTree) :=
  hFitRoot_cast hTieCtx hTieVs false rfl rfl rfl rfl ⟨by decide +kernel, by decide +kernel, by decide⟩
    (fun r hr q _ hq => hTie_normals r hr q hq) ⟨by simp, by decide +kernel⟩ (by decide) hTie_fit

/-! Two points for which splitting and not splitting are equally likely. -/

def hEvenHp : Hyper ℚ := ⟨2/5, 0, false, 0⟩

def hEvenCtx : HCtx ℚ (List ℚ) ℚ (List ℚ) where
  A := ratArith
  T := probTarget ℚ
  hp := hEvenHp
  opt := listOpt false hTieVs
  budget := 3
  X := fun i _ => (([0, 1] : List ℚ).getD i 0)
  y := fun i => (([0, 1] : List ℚ).getD i 0)
  nDim := 1

def hEvenTree : HNode ℚ ℚ (List ℚ) :=
  .split ⟨hEvenHp, some [1, 1], 0, some 1, 2, [2, 2]⟩ ⟨[1], [1/2]⟩ (1/10) (1/10)
    (.leaf ⟨hEvenHp, some [1, 1], 1, none, 1, [2, 1]⟩)
    (.leaf ⟨hEvenHp, some [1, 1], 1, none, 1, [1, 2]⟩)

theorem hEven_fit : hFitRoot hEvenCtx (some [1, 1]) 2 = .ok hEvenTree := by decide +kernel

noncomputable def hEvenReal : HCtx ℝ (List ℝ) ℝ (List ℝ) := castHCtx realArith hTieVs hEvenCtx

theorem hEvenReal_fit :
    hFitRoot hEvenReal (some (castL [1, 1])) 2 = .ok (castHTree hEvenHp hEvenTree) :=
  hFitRoot_cast hEvenCtx hTieVs false rfl rfl rfl rfl ⟨by decide +kernel, by decide +kernel, by decide⟩
    (fun r hr q _ hq => hTie_normals r hr q hq) ⟨by simp, by decide +kernel⟩ (by decide) hEven_fit

end BT
