import Verif.Model.Sphere
import Mathlib.Topology.Order.MonotoneConvergence
import Mathlib.Analysis.SpecialFunctions.Pow.Continuity

/-!
# Mapping the cube to the sphere, and the quasi-random sequence: C55, C56
-/

namespace BT

/-- Sum of squares. -/
def sumSq (x : List ℝ) : ℝ := (x.map fun a => a ^ 2).sum

theorem sumSq_nonneg (x : List ℝ) : 0 ≤ sumSq x := by
  apply List.sum_nonneg
  intro a ha
  obtain ⟨b, -, rfl⟩ := List.mem_map.1 ha
  positivity

theorem sumSq_append (x y : List ℝ) : sumSq (x ++ y) = sumSq x + sumSq y := by simp [sumSq]

theorem sumSq_smul (x : List ℝ) (h : ℝ) : sumSq (x.map (· * h)) = sumSq x * h ^ 2 := by
  unfold sumSq
  induction x with
  | nil => simp
  | cons a x ih =>
    simp only [List.map_cons, List.sum_cons] at ih ⊢
    rw [ih]; ring

/-- Properties kept by the construction: length, unit norm, sign of the first coordinate. -/
structure OnSphere (half : Bool) (m : Nat) (x : List ℝ) : Prop where
  length : x.length = m
  unit : sumSq x = 1
  first : half = true → ∀ a, x[0]? = some a → 0 ≤ a

theorem sphereExtend_on {half : Bool} {m : Nat} {x : List ℝ} (hx : OnSphere half m x) (hm : 0 < m) {k : Nat}
    {u v : ℝ} (h0 : 0 ≤ u) (h1 : u ≤ 1) : OnSphere half (m + 2) (sphereExtend x k u v) := by
  have hh0 : 0 ≤ u ^ ((1 : ℝ) / (k : ℝ)) := Real.rpow_nonneg h0 _
  have hh1 : u ^ ((1 : ℝ) / (k : ℝ)) ≤ 1 := Real.rpow_le_one h0 h1 (by positivity)
  unfold sphereExtend
  set h := u ^ ((1 : ℝ) / (k : ℝ)) with hh
  have hs : sumSq (x.map (· * h)) = h ^ 2 := by rw [sumSq_smul, hx.unit, one_mul]
  have hs' : ((x.map (· * h)).map (· ^ 2)).sum = h ^ 2 := hs
  have hle : h ^ 2 ≤ 1 := pow_le_one₀ hh0 hh1
  refine ⟨by simp [hx.length], ?_, ?_⟩
  · simp only [hs']
    rw [sumSq_append, hs, max_eq_right (by linarith)]
    have hq := Real.sq_sqrt (show 0 ≤ 1 - h ^ 2 by linarith)
    have hcs := Real.cos_sq_add_sin_sq (2 * Real.pi * v)
    simp only [sumSq, List.map_cons, List.map_nil, List.sum_cons, List.sum_nil]
    rw [mul_pow, mul_pow, hq]
    nlinarith
  · intro hhalf a ha
    have hpos : 0 < (x.map (· * h)).length := by rw [List.length_map, hx.length]; exact hm
    simp only at ha
    rw [List.getElem?_append_left hpos, List.getElem?_map] at ha
    obtain ⟨b, hb, rfl⟩ := Option.map_eq_some_iff.1 ha
    exact mul_nonneg (hx.first hhalf b hb) hh0

theorem sphereEven_on {half : Bool} {p : List ℝ} (hp : ∀ u ∈ p, 0 ≤ u ∧ u ≤ 1) (a n : Nat) (ha : 0 < a)
    (hn : 2 * (a + n) ≤ p.length + 1) {x : List ℝ} (hx : OnSphere half (2 * a) x) :
    ∃ y, sphereEven p ((List.range n).map (a + ·)) x = .ok y ∧ OnSphere half (2 * (a + n)) y := by
  induction n generalizing a x with
  | zero => exact ⟨x, rfl, hx⟩
  | succ n ih =>
    rw [List.range_succ_eq_map, List.map_cons, List.map_map]
    have e : ((fun i => a + i) ∘ Nat.succ) = fun i => (a + 1) + i := by funext i; simp; omega
    rw [e]
    unfold sphereEven
    rw [List.getElem?_eq_getElem (show 2 * (a + 0) - 1 < p.length by omega),
      List.getElem?_eq_getElem (show 2 * (a + 0) < p.length by omega)]
    have hu := hp _ (List.getElem_mem (show 2 * (a + 0) - 1 < p.length by omega))
    obtain ⟨y, h1, h2⟩ := ih (a + 1) (by omega) (by omega)
      (sphereExtend_on (k := 2 * (a + 0)) (v := p[2 * (a + 0)]) hx (by omega) hu.1 hu.2)
    exact ⟨y, h1, by rw [show a + (n + 1) = a + 1 + n by omega]; exact h2⟩

theorem sphereOdd_on {half : Bool} {p : List ℝ} (hp : ∀ u ∈ p, 0 ≤ u ∧ u ≤ 1) (a n : Nat) (ha : 0 < a)
    (hn : 2 * (a + n) ≤ p.length + 2) {x : List ℝ} (hx : OnSphere half (2 * a - 1) x) :
    ∃ y, sphereOdd p ((List.range n).map (a + ·)) x = .ok y ∧ OnSphere half (2 * (a + n) - 1) y := by
  induction n generalizing a x with
  | zero => exact ⟨x, rfl, hx⟩
  | succ n ih =>
    rw [List.range_succ_eq_map, List.map_cons, List.map_map]
    have e : ((fun i => a + i) ∘ Nat.succ) = fun i => (a + 1) + i := by funext i; simp; omega
    rw [e]
    unfold sphereOdd
    rw [List.getElem?_eq_getElem (show 2 * (a + 0) - 2 < p.length by omega),
      List.getElem?_eq_getElem (show 2 * (a + 0) - 1 < p.length by omega)]
    have hu := hp _ (List.getElem_mem (show 2 * (a + 0) - 2 < p.length by omega))
    have hx' := sphereExtend_on (k := 2 * (a + 0) - 1) (v := p[2 * (a + 0) - 1]) hx (by omega) hu.1 hu.2
    rw [show 2 * a - 1 + 2 = 2 * (a + 1) - 1 by omega] at hx'
    obtain ⟨y, h1, h2⟩ := ih (a + 1) (by omega) (by omega) hx'
    exact ⟨y, h1, by rw [show a + (n + 1) = a + 1 + n by omega]; exact h2⟩

theorem spherePoint_on {p : List ℝ} (hp : ∀ u ∈ p, 0 ≤ u ∧ u ≤ 1) (hD : 1 ≤ p.length) (half : Bool) :
    ∃ y, spherePoint p half = .ok y ∧ OnSphere half (p.length + 1) y := by
  unfold spherePoint pyRange
  simp only
  split
  · next heven =>
    rw [List.getElem?_eq_getElem (show 0 < p.length by omega)]
    simp only
    have hu := hp _ (List.getElem_mem (show 0 < p.length by omega))
    have hbase : OnSphere half (2 * 1)
        [Real.cos (if half = true then Real.pi * (p[0] - 1 / 2) else 2 * Real.pi * p[0]),
          Real.sin (if half = true then Real.pi * (p[0] - 1 / 2) else 2 * Real.pi * p[0])] := by
      refine ⟨rfl, ?_, ?_⟩
      · simp only [sumSq, List.map_cons, List.map_nil, List.sum_cons, List.sum_nil, add_zero]
        exact Real.cos_sq_add_sin_sq _
      · intro hh a ha
        simp only [List.getElem?_cons_zero, Option.some.injEq] at ha
        rw [← ha, if_pos hh]
        have hpi := Real.pi_pos
        apply Real.cos_nonneg_of_neg_pi_div_two_le_of_le
        · nlinarith
        · nlinarith
    obtain ⟨y, h1, h2⟩ := sphereEven_on hp 1 ((1 + p.length) / 2 - 1) (by omega) (by omega) hbase
    refine ⟨y, h1, ?_⟩
    rw [show p.length + 1 = 2 * (1 + ((1 + p.length) / 2 - 1)) by omega]
    exact h2
  · next hodd =>
    split
    · have hbase : OnSphere half (2 * 1 - 1) [(1 : ℝ)] := by
        refine ⟨rfl, by simp [sumSq], ?_⟩
        intro _ a ha
        simp only [List.getElem?_cons_zero, Option.some.injEq] at ha
        rw [← ha]; exact zero_le_one
      obtain ⟨y, h1, h2⟩ := sphereOdd_on hp 1 ((1 + p.length + 1) / 2 - 1) (by omega) (by omega) hbase
      refine ⟨y, h1, ?_⟩
      rw [show p.length + 1 = 2 * (1 + ((1 + p.length + 1) / 2 - 1)) - 1 by omega]
      exact h2
    · next hfull =>
      rw [if_neg (by omega), List.getElem?_eq_getElem (show 0 < p.length by omega),
        List.getElem?_eq_getElem (show 1 < p.length by omega)]
      simp only
      have hbase : ∀ phi theta : ℝ, OnSphere half (2 * 2 - 1)
          [Real.sin phi * Real.cos theta, Real.sin phi * Real.sin theta, Real.cos phi] := by
        intro phi theta
        refine ⟨rfl, ?_, fun h => absurd h hfull⟩
        simp only [sumSq, List.map_cons, List.map_nil, List.sum_cons, List.sum_nil, add_zero]
        have h1 := Real.cos_sq_add_sin_sq theta
        have h2 := Real.cos_sq_add_sin_sq phi
        rw [mul_pow, mul_pow]
        nlinarith
      obtain ⟨y, h1, h2⟩ := sphereOdd_on hp 2 ((1 + p.length + 1) / 2 - 2) (by omega) (by omega)
        (hbase (Real.arccos (2 * p[0] - 1)) (2 * Real.pi * p[1]))
      refine ⟨y, h1, ?_⟩
      rw [show p.length + 1 = 2 * (2 + ((1 + p.length + 1) / 2 - 2)) - 1 by omega]
      exact h2

/-- The point lies in the unit cube: finite coordinates between 0 and 1. -/
def InCube (p : List (XF ℝ)) : Prop := ∀ x ∈ p, ∃ u : ℝ, x = .fin u ∧ 0 ≤ u ∧ u ≤ 1

theorem cube_checks (p : List (XF ℝ)) :
    (p.all (fun x => XF.ge x (.fin 0)) = true ∧ p.all (fun x => XF.ge (.fin 1) x) = true) ↔ InCube p := by
  rw [List.all_eq_true, List.all_eq_true]
  constructor
  · rintro ⟨h1, h2⟩ x hx
    have a := h1 x hx
    have b := h2 x hx
    cases x with
    | nan => simp [XF.ge] at a
    | ninf => simp [XF.ge] at a
    | pinf => simp [XF.ge] at b
    | fin u => exact ⟨u, rfl, by simpa [XF.ge] using a, by simpa [XF.ge] using b⟩
  · intro h
    constructor <;>
    · intro x hx
      obtain ⟨u, rfl, h0, h1⟩ := h x hx
      simp [XF.ge, h0, h1]

/-- C55: every point of the `D`-dimensional unit cube, `D ≥ 1`, is mapped to `D + 1` coordinates of
Euclidean norm 1; for the half sphere the first one is not negative. -/
theorem C55_on_sphere (p : List (XF ℝ)) (half : Bool) (hD : 1 ≤ p.length) (hp : InCube p) :
    ∃ x, hypersphere p half = .ok x ∧ x.length = p.length + 1 ∧ (x.map fun a => a ^ 2).sum = 1 ∧
      (half = true → ∀ a, x[0]? = some a → 0 ≤ a) := by
  obtain ⟨c1, c2⟩ := (cube_checks p).2 hp
  have hu : ∀ u ∈ p.map XF.toReal, 0 ≤ u ∧ u ≤ 1 := by
    intro u hu
    obtain ⟨x, hx, rfl⟩ := List.mem_map.1 hu
    obtain ⟨v, rfl, hv⟩ := hp x hx
    exact hv
  obtain ⟨y, h1, h2⟩ := spherePoint_on hu (by simpa using hD) half
  refine ⟨y, ?_, by simpa using h2.length, h2.unit, h2.first⟩
  unfold hypersphere
  have hunit : (y.map fun a => a ^ 2).sum = 1 := h2.unit
  rw [c1, c2]
  simp only [Bool.not_true, Bool.false_eq_true, if_false, h1, hunit, Real.sqrt_one, div_one, List.map_id',
    if_neg (show ¬ p.length = 0 by omega)]

/-- C55: the cube of dimension 0 (data with a single feature): the half sphere raises numpy's `AxisError`,
the full sphere fails the assertion on the embedding dimension. -/
theorem C55_no_dimension : hypersphere [] true = .error .axisError ∧
    hypersphere [] false = .error .assertionError := by
  have e : pyRange 1 ((1 + 1) / 2) = [] := rfl
  constructor <;> simp [hypersphere, spherePoint, e, sphereOdd]

/-- C55: a point outside the cube — a coordinate below 0, above 1, infinite or NaN — is rejected. -/
theorem C55_rejects (p : List (XF ℝ)) (half : Bool) (hp : ¬ InCube p) :
    hypersphere p half = .error .assertionError := by
  rw [← cube_checks] at hp
  unfold hypersphere
  split
  · rfl
  · split
    · rfl
    · next h1 h2 =>
      simp only [Bool.not_eq_true', Bool.not_eq_false] at h1 h2
      exact absurd ⟨h1, h2⟩ hp

/-- C55 for arrays of points: all rows in the cube are mapped row by row; one bad row rejects all. -/
theorem C55_rows (ps : List (List (XF ℝ))) (half : Bool) :
    ((∀ p ∈ ps, InCube p) → (∀ p ∈ ps, 1 ≤ p.length) →
      ∃ xs, sphereMany ps half = .ok xs ∧ xs.length = ps.length ∧
        ∀ i (h : i < ps.length), ∃ x, xs[i]? = some x ∧ hypersphere ps[i] half = .ok x) ∧
    ((∃ p ∈ ps, ¬ InCube p) → sphereMany ps half = .error .assertionError) := by
  constructor
  · intro h hD
    unfold sphereMany
    have c1 : ps.all (fun p => p.all fun x => XF.ge x (.fin 0)) = true :=
      List.all_eq_true.2 fun p hp => ((cube_checks p).2 (h p hp)).1
    have c2 : ps.all (fun p => p.all fun x => XF.ge (.fin 1) x) = true :=
      List.all_eq_true.2 fun p hp => ((cube_checks p).2 (h p hp)).2
    rw [c1, c2]
    simp only [Bool.not_true, Bool.false_eq_true, if_false]
    clear c1 c2
    induction ps with
    | nil => exact ⟨[], rfl, rfl, by simp⟩
    | cons p ps ih =>
      obtain ⟨xs, e1, e2, e3⟩ := ih (fun p hp => h p (by simp [hp])) (fun p hp => hD p (by simp [hp]))
      obtain ⟨x, hx, -⟩ := C55_on_sphere p half (hD p (by simp)) (h p (by simp))
      refine ⟨x :: xs, ?_, by simp [e2], ?_⟩
      · rw [List.mapM_cons, hx, e1]; rfl
      · intro i hi
        cases i with
        | zero => exact ⟨x, rfl, hx⟩
        | succ i =>
          obtain ⟨z, hz, hz'⟩ := e3 i (by simpa using hi)
          exact ⟨z, by simpa using hz, hz'⟩
  · rintro ⟨p, hp, hbad⟩
    unfold sphereMany
    split
    · rfl
    · split
      · rfl
      · next h1 h2 =>
        simp only [Bool.not_eq_true', Bool.not_eq_false] at h1 h2
        exact absurd ((cube_checks p).1 ⟨List.all_eq_true.1 h1 p hp, List.all_eq_true.1 h2 p hp⟩) hbad

/-- The cube corner `(0, 1, 1/2)` is in the cube. -/
example : ∃ x, hypersphere [.fin 0, .fin 1, .fin (1/2)] true = .ok x ∧ x.length = 4 ∧
    (x.map fun a => a ^ 2).sum = 1 := by
  obtain ⟨x, h1, h2, h3, -⟩ := C55_on_sphere [.fin 0, .fin 1, .fin (1/2)] true (by simp) (by
    intro x hx
    simp only [List.mem_cons, List.not_mem_nil, or_false] at hx
    rcases hx with rfl | rfl | rfl
    · exact ⟨0, rfl, by norm_num, by norm_num⟩
    · exact ⟨1, rfl, by norm_num, by norm_num⟩
    · exact ⟨1/2, rfl, by norm_num, by norm_num⟩)
  exact ⟨x, h1, h2, h3⟩

example : hypersphere [.fin (1/2), .nan] false = .error .assertionError :=
  C55_rejects _ _ (by
    intro h
    obtain ⟨u, hu, -⟩ := h .nan (by simp)
    cases hu)

/-! ## The R2 sequence -/

/-- C56: every element has `n_dim` coordinates in `[0, 1)`, whatever `phi` the loop ended with; `n_dim = 0`
raises `ValueError` at the first element. -/
theorem C56_unit_cube (nDim : Nat) (phi : ℝ) (i : Nat) :
    (0 < nDim → ∃ u, r2Next nDim phi i = .ok u ∧ u.length = nDim ∧ ∀ a ∈ u, 0 ≤ a ∧ a < 1) ∧
    (nDim = 0 → r2Next nDim phi i = .error .valueError) := by
  constructor
  · intro h
    unfold r2Next
    rw [if_neg (by omega)]
    refine ⟨_, rfl, by simp [r2Element, r2Alpha], ?_⟩
    intro a ha
    obtain ⟨b, -, rfl⟩ := List.mem_map.1 ha
    exact ⟨Int.fract_nonneg _, Int.fract_lt_one _⟩
  · intro h
    unfold r2Next
    rw [if_pos h]

/-- C56: consecutive elements differ by the constant shift `alpha` modulo 1: coordinate `j` of element `i`
is the fractional part of `1/2 + (i+1)/phi^(j+1)`. -/
theorem C56_shift (nDim : Nat) (hn : 0 < nDim) (phi : ℝ) (i j : Nat) (hj : j < nDim) :
    ∃ u, r2Next nDim phi i = .ok u ∧ u[j]? = some (Int.fract (1 / 2 + 1 / phi ^ (1 + j) * ((i : ℝ) + 1))) := by
  unfold r2Next
  rw [if_neg (by omega)]
  refine ⟨_, rfl, ?_⟩
  simp [r2Element, r2Alpha, hj]

theorem phiNext_pow (n : Nat) (x : ℝ) (hx : 0 ≤ 1 + x) : phiNext n x ^ (n + 1) = 1 + x := by
  unfold phiNext
  rw [← Real.rpow_natCast, ← Real.rpow_mul hx]
  have : (1 : ℝ) / ((n : ℝ) + 1) * ((n + 1 : Nat) : ℝ) = 1 := by
    push_cast
    field_simp
  rw [this, Real.rpow_one]

theorem phiNext_nonneg (n : Nat) (x : ℝ) (hx : 0 ≤ 1 + x) : 0 ≤ phiNext n x := Real.rpow_nonneg hx _

/-- `x ^ (n+1) > x + 1` is kept by the iteration and makes it decrease strictly. -/
theorem phi_step (n : Nat) (x : ℝ) (hx : 1 < x) (h : 1 + x < x ^ (n + 1)) :
    phiNext n x < x ∧ 1 < phiNext n x ∧ 1 + phiNext n x < phiNext n x ^ (n + 1) := by
  have e := phiNext_pow n x (by linarith)
  have h0 := phiNext_nonneg n x (by linarith)
  have h1 : phiNext n x < x := by
    apply lt_of_pow_lt_pow_left₀ (n + 1) (by linarith)
    rw [e]; exact h
  refine ⟨h1, ?_, by rw [e]; linarith⟩
  apply lt_of_pow_lt_pow_left₀ (n + 1) h0
  rw [e, one_pow]
  linarith

theorem phiSeq_inv (n : Nat) (hn : 0 < n) (k : Nat) :
    1 < phiSeq n k ∧ 1 + phiSeq n k < phiSeq n k ^ (n + 1) := by
  induction k with
  | zero =>
    refine ⟨by norm_num [phiSeq], ?_⟩
    show (1 : ℝ) + 2 < 2 ^ (n + 1)
    have : (2 : ℝ) ^ 2 ≤ 2 ^ (n + 1) := pow_le_pow_right₀ (by norm_num) (by omega)
    linarith
  | succ k ih =>
    obtain ⟨h1, h2⟩ := ih
    exact ⟨(phi_step n _ h1 h2).2.1, (phi_step n _ h1 h2).2.2⟩

/-- C56: in exact arithmetic the values of `phi` decrease strictly and converge to a root of
`x^(n_dim+1) = x + 1` larger than 1. -/
theorem C56_phi_converges (n : Nat) (hn : 0 < n) :
    (∀ k, phiSeq n (k + 1) < phiSeq n k) ∧
    ∃ r : ℝ, 1 < r ∧ r ^ (n + 1) = r + 1 ∧ (∀ k, r < phiSeq n k) ∧
      Filter.Tendsto (phiSeq n) Filter.atTop (nhds r) := by
  have hdec : ∀ k, phiSeq n (k + 1) < phiSeq n k := fun k =>
    (phi_step n _ (phiSeq_inv n hn k).1 (phiSeq_inv n hn k).2).1
  have hanti : StrictAnti (phiSeq n) := strictAnti_nat_of_succ_lt hdec
  refine ⟨hdec, ?_⟩
  have hbdd : BddBelow (Set.range (phiSeq n)) := ⟨1, by
    rintro _ ⟨k, rfl⟩
    exact (phiSeq_inv n hn k).1.le⟩
  have hlim := tendsto_atTop_ciInf hanti.antitone hbdd
  set r := ⨅ k, phiSeq n k with hr
  have hr1 : 1 ≤ r := le_ciInf fun k => (phiSeq_inv n hn k).1.le
  have hshift : Filter.Tendsto (fun k => phiSeq n (k + 1)) Filter.atTop (nhds r) :=
    hlim.comp (Filter.tendsto_add_atTop_nat 1)
  have hpow : Filter.Tendsto (fun k => phiSeq n (k + 1) ^ (n + 1)) Filter.atTop (nhds (r ^ (n + 1))) :=
    hshift.pow _
  have heq : (fun k => phiSeq n (k + 1) ^ (n + 1)) = fun k => 1 + phiSeq n k := by
    funext k
    exact phiNext_pow n _ (by linarith [(phiSeq_inv n hn k).1])
  rw [heq] at hpow
  have hroot : r ^ (n + 1) = 1 + r := tendsto_nhds_unique hpow (hlim.const_add 1)
  refine ⟨r, ?_, by rw [hroot]; ring, ?_, hlim⟩
  · rcases hr1.lt_or_eq with h | h
    · exact h
    · rw [← h, one_pow] at hroot
      norm_num at hroot
  · intro k
    exact lt_of_le_of_lt (ciInf_le hbdd (k + 1)) (hdec k)

/-- C56: the stopping test `phi == phi_old` never holds in exact arithmetic — the loop relies on
rounding to stop. -/
theorem C56_exact_loop (n : Nat) (hn : 0 < n) (fuel : Nat) : phiLoop n fuel 2 = .error .noTermination := by
  have key : ∀ fuel k, phiLoop n fuel (phiSeq n k) = .error .noTermination := by
    intro fuel
    induction fuel with
    | zero => intro k; rfl
    | succ fuel ih =>
      intro k
      unfold phiLoop
      have : phiNext n (phiSeq n k) ≠ phiSeq n k := ((C56_phi_converges n hn).1 k).ne
      simp only [if_neg this]
      exact ih (k + 1)
  exact key fuel 0

/-- C56: should the loop end — which needs a start that is not the 2 of the code, or rounding — then with
the positive root of `x^(n_dim+1) = x + 1` and nothing else. -/
theorem C56_loop_result (n fuel : Nat) (x : ℝ) (hx : 0 ≤ x) {phi : ℝ} (h : phiLoop n fuel x = .ok phi) :
    0 < phi ∧ phi ^ (n + 1) = phi + 1 := by
  induction fuel generalizing x with
  | zero => cases h
  | succ fuel ih =>
    unfold phiLoop at h
    have hpos : 0 < phiNext n x := Real.rpow_pos_of_pos (by linarith) _
    by_cases he : phiNext n x = x
    · simp only [if_pos he] at h
      injection h with h
      have := phiNext_pow n x (by linarith)
      rw [← h]
      refine ⟨hpos, ?_⟩
      rw [this, he]; ring
    · simp only [if_neg he] at h
      exact ih _ hpos.le h

/-- Started in the root the loop ends at once. -/
example (n : Nat) (hn : 0 < n) : ∃ x : ℝ, 0 ≤ x ∧ phiLoop n 1 x = .ok x := by
  obtain ⟨-, r, hr1, hr, -⟩ := C56_phi_converges n hn
  have : phiNext n r = r := by
    have h1 := phiNext_pow n r (by linarith)
    have hpos : 0 ≤ phiNext n r := Real.rpow_nonneg (by linarith) _
    exact (pow_left_inj₀ hpos (by linarith) (Nat.succ_ne_zero n)).1 (by rw [h1, hr]; ring)
  refine ⟨r, by linarith, ?_⟩
  unfold phiLoop
  simp [this]

example : ∃ u, r2Next 3 (6/5) 7 = .ok u ∧ u.length = 3 ∧ ∀ a ∈ u, 0 ≤ a ∧ a < 1 :=
  (C56_unit_cube 3 (6/5) 7).1 (by decide)

end BT
