import Verif.Props.SphereCover
import Verif.Lemmas.SphereLaw
import Verif.Spec.SphereLaw
import Mathlib.MeasureTheory.Measure.Haar.Unique

/-!
# Uniform points of the cube become uniform directions: C103
-/

noncomputable section

open MeasureTheory Set
open scoped ENNReal

namespace BT

open SphereLaw

/-! ## The list of coordinates -/

theorem ofFn_app {m : Nat} (z : Fin m → ℝ) (a b : ℝ) : List.ofFn (app z a b) = List.ofFn z ++ [a, b] := by
  unfold app
  rw [List.ofFn_succ', List.ofFn_succ']
  simp

theorem ofFn_snoc {m : Nat} (z : Fin m → ℝ) (a : ℝ) :
    List.ofFn (Fin.snoc (α := fun _ => ℝ) z a) = List.ofFn z ++ [a] := by
  rw [List.ofFn_succ']
  simp

theorem sumSq_ofFn {m : Nat} (z : Fin m → ℝ) : sumSq (List.ofFn z) = nsq z := by
  unfold sumSq nsq
  rw [List.map_ofFn, List.sum_ofFn]
  rfl

theorem sphereExtend_ofFn {m : Nat} (x : Fin m → ℝ) (u v : ℝ) :
    sphereExtend (List.ofFn x) m u v = List.ofFn (ext x u v) := by
  have hmap : (List.ofFn x).map (· * u ^ ((1 : ℝ) / (m : ℝ))) = List.ofFn ((u ^ ((1 : ℝ) / (m : ℝ))) • x) := by
    rw [List.map_ofFn]
    congr 1
    funext i
    simp [mul_comm]
  have hs := sumSq_ofFn ((u ^ ((1 : ℝ) / (m : ℝ))) • x)
  unfold sumSq at hs
  unfold sphereExtend SphereLaw.ext
  rw [ofFn_app]
  simp only [hmap, hs]

/-- The last two coordinates taken off. -/
theorem exists_app {D : Nat} (q : Fin (D + 2) → ℝ) :
    q = app (fun i => q i.castSucc.castSucc) (q (Fin.last D).castSucc) (q (Fin.last (D + 1))) := by
  funext i
  unfold app
  refine Fin.lastCases ?_ (fun j => ?_) i
  · simp
  · refine Fin.lastCases ?_ (fun k => ?_) j
    · simp
    · simp

theorem ofFn_e0 : List.ofFn e0 = [] := List.ofFn_zero

theorem spherePoint_half_zero : spherePoint [] true = .ok [1] := rfl

theorem spherePoint_half_one (u : ℝ) :
    spherePoint [u] true = .ok [Real.cos (Real.pi * (u - 1 / 2)), Real.sin (Real.pi * (u - 1 / 2))] := by
  simp [spherePoint, pyRange, sphereEven]

theorem spherePoint_full_one (u : ℝ) :
    spherePoint [u] false = .ok [Real.cos (2 * Real.pi * u), Real.sin (2 * Real.pi * u)] := by
  simp [spherePoint, pyRange, sphereEven]

theorem spherePoint_full_two (u v : ℝ) :
    spherePoint [u, v] false = .ok [Real.sin (Real.arccos (2 * u - 1)) * Real.cos (2 * Real.pi * v),
      Real.sin (Real.arccos (2 * u - 1)) * Real.sin (2 * Real.pi * v), Real.cos (Real.arccos (2 * u - 1))] := by
  simp only [spherePoint, pyRange]
  simp [sphereOdd]

/-- The map of the code in terms of functions, together with the polar coordinates it gives. -/
theorem exists_polar (half : Bool) (D : Nat) (hD : 1 ≤ D ∨ half = true) :
    ∃ (x : (Fin D → ℝ) → Fin (D + 1) → ℝ) (C : ℝ≥0∞), Continuous x ∧
      (∀ p, spherePoint (List.ofFn p) half = .ok (List.ofFn (x p))) ∧
      (∀ p ∈ Spec.unitCube D, nsq (x p) = 1) ∧ Polar (region half D) x C := by
  induction D using Nat.strong_induction_on with
  | _ D ih =>
    -- one more pass of the loop
    have step : ∀ E, D = E + 2 → (1 ≤ E ∨ half = true) → ∃ (x : (Fin D → ℝ) → Fin (D + 1) → ℝ) (C : ℝ≥0∞), Continuous x ∧
        (∀ p, spherePoint (List.ofFn p) half = .ok (List.ofFn (x p))) ∧
        (∀ p ∈ Spec.unitCube D, nsq (x p) = 1) ∧ Polar (region half D) x C := by
      rintro E rfl hE
      obtain ⟨x, C, hx, hpt, hunit, hpol⟩ := ih E (by omega) hE
      have hae : ∀ᵐ p ∂(cube E), nsq (x p) = 1 := by
        have : ∀ᵐ p ∂(cube E), ∀ i : Fin E, 0 ≤ p i ∧ p i ≤ 1 := by
          rw [ae_all_iff]
          intro i
          have := (Measure.quasiMeasurePreserving_eval (fun _ : Fin E => U) i).ae U_ae
          exact this
        filter_upwards [this] with p hp using hunit p hp
      have hcont : Continuous fun q : Fin (E + 2) → ℝ =>
          ext (x fun i => q i.castSucc.castSucc) (q (Fin.last E).castSucc) (q (Fin.last (E + 1))) :=
        continuous_ext (Nat.succ_pos E) (hx.comp (continuous_pi fun i => continuous_apply _)) (continuous_apply _)
          (continuous_apply _)
      refine ⟨fun q => ext (x fun i => q i.castSucc.castSucc) (q (Fin.last E).castSucc) (q (Fin.last (E + 1))), _, ?_,
        ?_, ?_, Polar.step (Nat.succ_pos E) (measurableSet_region half E) (measurableSet_region half (E + 2))
          (fun z a b => region_app half z a b) hae ?_ ?_ hpol⟩
      · exact hcont
      · intro q
        conv_lhs => rw [exists_app q]
        rw [ofFn_app, spherePoint_snoc _ half _ _ _ (by simpa [Nat.one_le_iff_ne_zero] using hE) (hpt _),
          List.length_ofFn, sphereExtend_ofFn]
      · intro q hq
        exact ext_unit (Nat.succ_pos E) (hunit _ fun i => hq _) (hq _).1 (hq _).2
      · exact hcont.measurable
      · intro p u v
        have h1 : (fun i : Fin E => app p u v i.castSucc.castSucc) = p := by
          funext i; unfold app; simp
        have h2 : app p u v (Fin.last E).castSucc = u := by unfold app; simp
        have h3 : app p u v (Fin.last (E + 1)) = v := by unfold app; simp
        rw [h1, h2, h3]
    match D, half, hD, step with
    | 0, true, _, _ =>
      refine ⟨_, _, continuous_const, ?_, ?_, polar_half_zero⟩
      · intro p
        rw [ofFn_snoc, List.ofFn_zero, ofFn_e0, spherePoint_half_zero]
        rfl
      · intro p _
        have h0 : (Fin.snoc (α := fun _ => ℝ) e0 1 : Fin 1 → ℝ) 0 = 1 := Fin.snoc_last (α := fun _ => ℝ) 1 e0
        unfold nsq
        rw [Fin.sum_univ_one, h0, one_pow]
    | 0, false, hD, _ => exact absurd hD (by simp)
    | 1, true, _, _ =>
      refine ⟨_, _, ?_, ?_, ?_, polar_half_one⟩
      · have ha : Continuous fun p : Fin 1 → ℝ => Real.pi * (p 0 - 1 / 2) :=
          continuous_const.mul ((continuous_apply 0).sub continuous_const)
        exact continuous_app continuous_const (Real.continuous_cos.comp ha) (Real.continuous_sin.comp ha)
      · intro p
        rw [ofFn_app, List.ofFn_succ, List.ofFn_zero, ofFn_e0, spherePoint_half_one]
        rfl
      · intro p _
        rw [nsq_app, nsq, Finset.univ_eq_empty, Finset.sum_empty, zero_add, Real.cos_sq_add_sin_sq]
    | 1, false, _, _ =>
      refine ⟨_, _, ?_, ?_, ?_, polar_full_one⟩
      · have ha : Continuous fun p : Fin 1 → ℝ => 2 * Real.pi * p 0 :=
          continuous_const.mul (continuous_apply 0)
        exact continuous_app continuous_const (Real.continuous_cos.comp ha) (Real.continuous_sin.comp ha)
      · intro p
        rw [ofFn_app, List.ofFn_succ, List.ofFn_zero, ofFn_e0, spherePoint_full_one]
        rfl
      · intro p _
        rw [nsq_app, nsq, Finset.univ_eq_empty, Finset.sum_empty, zero_add, Real.cos_sq_add_sin_sq]
    | 2, false, _, _ =>
      refine ⟨_, _, ?_, ?_, ?_, polar_full_two⟩
      · have h0 : Continuous fun p : Fin 2 → ℝ => Real.arccos (2 * p 0 - 1) :=
          Real.continuous_arccos.comp ((continuous_const.mul (continuous_apply 0)).sub continuous_const)
        have h1 : Continuous fun p : Fin 2 → ℝ => 2 * Real.pi * p 1 := continuous_const.mul (continuous_apply 1)
        exact continuous_snoc.comp ((continuous_app continuous_const
          ((Real.continuous_sin.comp h0).mul (Real.continuous_cos.comp h1))
          ((Real.continuous_sin.comp h0).mul (Real.continuous_sin.comp h1))).prodMk (Real.continuous_cos.comp h0))
      · intro p
        rw [ofFn_snoc, ofFn_app, List.ofFn_succ, List.ofFn_succ, List.ofFn_zero, ofFn_e0, spherePoint_full_two]
        rfl
      · intro p _
        unfold nsq
        rw [Fin.sum_univ_castSucc]
        simp only [Fin.snoc_castSucc, Fin.snoc_last]
        have := nsq_app e0 (Real.sin (Real.arccos (2 * p 0 - 1)) * Real.cos (2 * Real.pi * p 1))
          (Real.sin (Real.arccos (2 * p 0 - 1)) * Real.sin (2 * Real.pi * p 1))
        unfold nsq at this
        rw [this, Finset.univ_eq_empty, Finset.sum_empty, zero_add, mul_pow, mul_pow, ← mul_add,
          Real.cos_sq_add_sin_sq, mul_one, Real.sin_sq_add_cos_sq]
    | 2, true, _, step => exact step 0 rfl (Or.inr rfl)
    | E + 3, half, _, step => exact step (E + 1) rfl (Or.inl (by omega))

/-! ## Volumes -/

theorem cube_apply {D : Nat} (S : Set (Fin D → ℝ)) : cube D S = volume (S ∩ Spec.unitCube D) := by
  have hset : Spec.unitCube D = Set.univ.pi fun _ => Icc (0 : ℝ) 1 := by
    ext p
    exact ⟨fun h i _ => h i, fun h i => h i trivial⟩
  have hm : MeasurableSet (Spec.unitCube D) := by
    rw [hset]; exact MeasurableSet.univ_pi fun _ => measurableSet_Icc
  have : cube D = volume.restrict (Spec.unitCube D) := by
    rw [hset, volume_pi, Measure.restrict_pi_pi]
    rfl
  rw [this, Measure.restrict_apply' hm]

theorem measurableSet_sector {D : Nat} {A : Set (Fin (D + 1) → ℝ)} (hA : MeasurableSet A) :
    MeasurableSet {w : Fin (D + 1) → ℝ | (0 < nsq w ∧ nsq w ≤ 1) ∧ (fun i => w i / Real.sqrt (nsq w)) ∈ A} := by
  refine ((measurableSet_lt measurable_const measurable_nsq).inter
    (measurableSet_le measurable_nsq measurable_const)).inter ?_
  have : Measurable fun w : Fin (D + 1) → ℝ => (fun i => w i / Real.sqrt (nsq w)) :=
    measurable_pi_iff.2 fun i => (measurable_pi_apply i).div measurable_nsq.sqrt
  exact this hA

theorem sector_eq (half : Bool) {D : Nat} (A : Set (Fin (D + 1) → ℝ)) :
    Spec.sector half A =
      {w : Fin (D + 1) → ℝ | (0 < nsq w ∧ nsq w ≤ 1) ∧ (fun i => w i / Real.sqrt (nsq w)) ∈ A} ∩ region half D := by
  ext w
  constructor
  · rintro ⟨⟨h1, h2, h3⟩, h4⟩
    exact ⟨⟨⟨h1, h2⟩, h4⟩, fun hh => h3 hh 0 rfl⟩
  · rintro ⟨⟨⟨h1, h2⟩, h4⟩, h3⟩
    refine ⟨⟨h1, h2, fun hh i hi => ?_⟩, h4⟩
    rw [show i = 0 from Fin.ext hi]
    exact h3 hh

theorem sector_univ (half : Bool) (n : Nat) : Spec.sector half (univ : Set (Fin n → ℝ)) = Spec.unitBall half n := by
  ext w; simp [Spec.sector]

theorem sector_volume (half : Bool) {D : Nat} {x : (Fin D → ℝ) → Fin (D + 1) → ℝ} {C : ℝ≥0∞}
    (hx : Measurable x) (hunit : ∀ p ∈ Spec.unitCube D, nsq (x p) = 1) (h : Polar (region half D) x C)
    {A : Set (Fin (D + 1) → ℝ)} (hA : MeasurableSet A) :
    volume (Spec.sector half A) =
      C * (∫⁻ r in Ioi (0 : ℝ), (Iic (1 : ℝ)).indicator (fun r => ENNReal.ofReal (r ^ D)) r) * cube D {p | x p ∈ A} := by
  have hm := measurableSet_sector hA
  have hae : ∀ᵐ p ∂(cube D), nsq (x p) = 1 := by
    have : ∀ᵐ p ∂(cube D), ∀ i : Fin D, 0 ≤ p i ∧ p i ≤ 1 := by
      rw [ae_all_iff]
      intro i
      exact (Measure.quasiMeasurePreserving_eval (fun _ : Fin D => U) i).ae U_ae
    filter_upwards [this] with p hp using hunit p hp
  rw [sector_eq, ← Measure.restrict_apply hm, ← lintegral_indicator_one hm,
    h _ (measurable_one.indicator hm), mul_assoc, ← lintegral_mul_const]
  · congr 1
    refine setLIntegral_congr_fun measurableSet_Ioi fun r hr => ?_
    have hr0 : (0 : ℝ) < r := hr
    have : ∀ᵐ p ∂(cube D), ({w : Fin (D + 1) → ℝ | (0 < nsq w ∧ nsq w ≤ 1) ∧
        (fun i => w i / Real.sqrt (nsq w)) ∈ A}.indicator 1 (r • x p) : ℝ≥0∞) =
        (Iic (1 : ℝ)).indicator (fun _ => (x ⁻¹' A).indicator 1 p) r := by
      filter_upwards [hae] with p hp
      have hn : nsq (r • x p) = r ^ 2 := by rw [nsq_smul, hp, mul_one]
      have hdir : (fun i => (r • x p) i / Real.sqrt (nsq (r • x p))) = x p := by
        funext i
        rw [hn, Real.sqrt_sq hr0.le, Pi.smul_apply, smul_eq_mul, mul_div_cancel_left₀ _ hr0.ne']
      have hle : r ^ 2 ≤ 1 ↔ r ≤ 1 := by
        rw [sq_le_one_iff₀ hr0.le]
      have hmem : r • x p ∈ {w : Fin (D + 1) → ℝ | (0 < nsq w ∧ nsq w ≤ 1) ∧
          (fun i => w i / Real.sqrt (nsq w)) ∈ A} ↔ r ≤ 1 ∧ x p ∈ A := by
        show (0 < nsq (r • x p) ∧ nsq (r • x p) ≤ 1) ∧ (fun i => (r • x p) i / Real.sqrt (nsq (r • x p))) ∈ A ↔ _
        rw [hdir, hn, hle, and_iff_right (pow_pos hr0 2)]
      by_cases h1 : r ≤ 1
      · rw [indicator_of_mem (show r ∈ Iic (1 : ℝ) from h1)]
        by_cases h2 : x p ∈ A
        · rw [indicator_of_mem (hmem.2 ⟨h1, h2⟩), indicator_of_mem (show p ∈ x ⁻¹' A from h2)]
          rfl
        · rw [indicator_of_notMem (fun h => h2 (hmem.1 h).2), indicator_of_notMem (show p ∉ x ⁻¹' A from h2)]
      · rw [indicator_of_notMem (fun h => h1 (hmem.1 h).1), indicator_of_notMem (show r ∉ Iic (1 : ℝ) from h1)]
    rw [lintegral_congr_ae this]
    by_cases h1 : r ≤ 1
    · simp only [indicator, mem_Iic, if_pos h1, Nat.add_sub_cancel]
      congr 1
      exact lintegral_indicator_one (hx hA)
    · simp only [indicator, mem_Iic, if_neg h1, lintegral_zero, mul_zero, zero_mul]
  · exact (ENNReal.measurable_ofReal.comp (measurable_id.pow_const D)).indicator measurableSet_Iic

theorem unitBall_open_subset (half : Bool) (n : Nat) :
    Set.univ.pi (fun _ : Fin (n + 1) => Ioo (0 : ℝ) (1 / (n + 1))) ⊆ Spec.unitBall half (n + 1) := by
  intro w hw
  have hw' : ∀ i, 0 < w i ∧ w i < 1 / (n + 1) := fun i => hw i trivial
  refine ⟨Finset.sum_pos (fun i _ => pow_pos (hw' i).1 2) ⟨0, Finset.mem_univ _⟩, ?_, fun _ i _ => (hw' i).1⟩
  have hn : (0 : ℝ) < n + 1 := by positivity
  calc ∑ i, w i ^ 2 ≤ ∑ _i : Fin (n + 1), (1 : ℝ) / (n + 1) := by
        refine Finset.sum_le_sum fun i _ => ?_
        have h1 := hw' i
        have h2 : (1 : ℝ) / (n + 1) ≤ 1 := by rw [div_le_one hn]; linarith [Nat.cast_nonneg (α := ℝ) n]
        nlinarith
    _ = 1 := by
        rw [Finset.sum_const, Finset.card_univ, Fintype.card_fin, nsmul_eq_mul]
        push_cast
        field_simp

theorem unitBall_volume (half : Bool) (n : Nat) :
    volume (Spec.unitBall half (n + 1)) ≠ 0 ∧ volume (Spec.unitBall half (n + 1)) ≠ ⊤ := by
  constructor
  · refine (lt_of_lt_of_le ?_ (measure_mono (unitBall_open_subset half n))).ne'
    rw [volume_pi, Measure.pi_pi, pos_iff_ne_zero]
    refine Finset.prod_ne_zero_iff.2 ?_
    intro i _
    rw [Real.volume_Ioo, ← pos_iff_ne_zero, ENNReal.ofReal_pos]
    have : (0 : ℝ) < 1 / (n + 1) := by positivity
    linarith
  · have hsub : Spec.unitBall half (n + 1) ⊆ Set.univ.pi fun _ => Icc (-1 : ℝ) 1 := by
      intro w hw i _
      have h1 : w i ^ 2 ≤ ∑ j, w j ^ 2 := Finset.single_le_sum (fun j _ => sq_nonneg (w j)) (Finset.mem_univ i)
      have h2 : w i ^ 2 ≤ 1 := h1.trans hw.2.1
      exact ⟨by nlinarith, by nlinarith⟩
    refine (lt_of_le_of_lt (measure_mono hsub) ?_).ne
    rw [volume_pi, Measure.pi_pi]
    refine ENNReal.prod_lt_top ?_
    intro i _
    rw [Real.volume_Icc]
    exact ENNReal.ofReal_lt_top

/-- On the unit cube the function returns the coordinates. -/
theorem hypersphere_ofFn {half : Bool} {D : Nat} (hD : 1 ≤ D) {p : Fin D → ℝ} (hp : p ∈ Spec.unitCube D)
    {x : Fin (D + 1) → ℝ} (hx : spherePoint (List.ofFn p) half = .ok (List.ofFn x)) (hn : nsq x = 1) :
    hypersphere ((List.ofFn p).map XF.fin) half = .ok (List.ofFn x) := by
  have hin : InCube ((List.ofFn p).map XF.fin) := by
    intro y hy
    obtain ⟨u, hu, rfl⟩ := List.mem_map.1 hy
    obtain ⟨i, rfl⟩ := (List.mem_ofFn' _ _).1 hu
    exact ⟨p i, rfl, hp i⟩
  obtain ⟨c1, c2⟩ := (cube_checks _).2 hin
  have hid : ((List.ofFn p).map XF.fin).map XF.toReal = List.ofFn p := by
    rw [List.map_map]
    exact List.map_id _
  have hs : ((List.ofFn x).map fun a => a ^ 2).sum = 1 := (sumSq_ofFn x).trans hn
  unfold hypersphere
  rw [c1, c2, hid, hx]
  simp only [Bool.not_true, Bool.false_eq_true, if_false, hs, Real.sqrt_one, div_one, List.map_id',
    List.length_map, List.length_ofFn, if_neg (show ¬ D = 0 by omega)]

/-- The points of the unit cube that `hypercube_to_hypersphere_surface` maps into `A`. -/
def directionsFrom (half : Bool) (D : Nat) (A : Set (Fin (D + 1) → ℝ)) : Set (Fin D → ℝ) :=
  {p | p ∈ Spec.unitCube D ∧ ∃ x, hypersphere ((List.ofFn p).map XF.fin) half = .ok (List.ofFn x) ∧ x ∈ A}

/-- C103: `hypercube_to_hypersphere_surface` of a uniform point of the unit cube is uniform on the (half)
sphere: the cube points that are mapped into `A` fill the same fraction of the cube as the directions `A` fill
of the ball. -/
theorem C103_uniform (half : Bool) (D : Nat) (hD : 1 ≤ D) (A : Set (Fin (D + 1) → ℝ)) (hA : MeasurableSet A) :
    volume (directionsFrom half D A) =
      volume (Spec.sector half A) / volume (Spec.unitBall half (D + 1)) := by
  obtain ⟨x, C, hx, hpt, hunit, hpol⟩ := exists_polar half D (Or.inl hD)
  have hset : directionsFrom half D A = {p | x p ∈ A} ∩ Spec.unitCube D := by
    ext p
    constructor
    · rintro ⟨hp, y, hy, hyA⟩
      rw [hypersphere_ofFn hD hp (hpt p) (hunit p hp)] at hy
      have := List.ofFn_injective (Except.ok.inj hy)
      exact ⟨show x p ∈ A by rw [this]; exact hyA, hp⟩
    · rintro ⟨hpA, hp⟩
      exact ⟨hp, x p, hypersphere_ofFn hD hp (hpt p) (hunit p hp), hpA⟩
  have h1 := sector_volume half hx.measurable hunit hpol hA
  have h2 := sector_volume half hx.measurable hunit hpol (MeasurableSet.univ (α := Fin (D + 1) → ℝ))
  simp only [mem_univ, ofPred_true, measure_univ, mul_one] at h2
  rw [sector_univ] at h2
  obtain ⟨h0, ht⟩ := unitBall_volume half D
  rw [hset, ← cube_apply, h1, ← h2, mul_comm, ENNReal.mul_div_cancel_right h0 ht]

theorem sector_symm {D : Nat} {A : Set (Fin (D + 1) → ℝ)} (hA : MeasurableSet A) (hs : ∀ w, w ∈ A ↔ -w ∈ A) :
    volume (Spec.sector false A) = 2 * volume (Spec.sector true A) := by
  have hneg : ∀ w : Fin (D + 1) → ℝ, nsq (-w) = nsq w := by
    intro w
    unfold nsq
    exact Finset.sum_congr rfl fun i _ => by rw [Pi.neg_apply, neg_sq]
  have hmS : MeasurableSet (Spec.sector true A) := by
    rw [sector_eq]
    exact (measurableSet_sector hA).inter (measurableSet_region true D)
  have hdir : ∀ w : Fin (D + 1) → ℝ, (fun i => w i / Real.sqrt (nsq w)) ∈ A ↔
      (fun i => (-w) i / Real.sqrt (nsq (-w))) ∈ A := by
    intro w
    rw [hs, hneg]
    have : -(fun i => w i / Real.sqrt (nsq w)) = fun i => (-w) i / Real.sqrt (nsq w) := by
      funext i
      simp [neg_div]
    rw [this]
  have hnull : volume {w : Fin (D + 1) → ℝ | w 0 = 0} = 0 := by
    rw [volume_pi]
    exact Measure.pi_hyperplane _ 0 0
  have hdisj : Disjoint (Spec.sector true A) (-Spec.sector true A) := by
    rw [Set.disjoint_left]
    intro w h1 h2
    have p1 : 0 < w 0 := h1.1.2.2 rfl 0 rfl
    have p2 : 0 < (-w) 0 := h2.1.2.2 rfl 0 rfl
    rw [Pi.neg_apply] at p2
    linarith
  have hae : Spec.sector false A =ᵐ[volume] (Spec.sector true A ∪ -Spec.sector true A : Set _) := by
    have hne : ∀ᵐ w : Fin (D + 1) → ℝ, w 0 ≠ 0 := by
      rw [ae_iff]
      simpa using hnull
    filter_upwards [hne] with w hw
    refine propext ?_
    show w ∈ Spec.sector false A ↔ w ∈ Spec.sector true A ∪ -Spec.sector true A
    rw [mem_union, Set.mem_neg, sector_eq, sector_eq, region_false, inter_univ]
    show ((0 < nsq w ∧ nsq w ≤ 1) ∧ _) ↔ (((0 < nsq w ∧ nsq w ≤ 1) ∧ _) ∧ (true = true → 0 < w 0)) ∨
      (((0 < nsq (-w) ∧ nsq (-w) ≤ 1) ∧ (fun i => (-w) i / Real.sqrt (nsq (-w))) ∈ A) ∧ (true = true → 0 < (-w) 0))
    rw [← hdir, hneg, Pi.neg_apply]
    constructor
    · intro h
      rcases lt_or_gt_of_ne hw with h0 | h0
      · exact Or.inr ⟨h, fun _ => by linarith⟩
      · exact Or.inl ⟨h, fun _ => h0⟩
    · rintro (h | h)
      · exact h.1
      · exact h.1
  rw [measure_congr hae, measure_union hdisj hmS.neg, Measure.measure_neg, two_mul]

/-- C103: for sets of axes (with every direction also the opposite one) the half sphere gives the same
probabilities as the full sphere: with the half sphere no orientation of a hyperplane is preferred. -/
theorem C103_axes (D : Nat) (hD : 1 ≤ D) (A : Set (Fin (D + 1) → ℝ)) (hA : MeasurableSet A)
    (hs : ∀ w, w ∈ A ↔ -w ∈ A) :
    volume (directionsFrom true D A) = volume (directionsFrom false D A) := by
  have h1 := C103_uniform true D hD A hA
  have h2 := C103_uniform false D hD A hA
  rw [sector_symm hA hs, ← sector_univ, sector_symm MeasurableSet.univ (by simp),
    ENNReal.mul_div_mul_left _ _ (by norm_num) (by norm_num), sector_univ] at h2
  exact h1.trans h2.symm

/-- C103: almost every point of the cube gives a direction along which no two different rows are projected to
the same number. -/
theorem C103_separates (half : Bool) (D : Nat) (hD : 1 ≤ D) (n : Nat) (X : Fin n → Fin (D + 1) → ℝ) :
    volume (directionsFrom half D {x | ∃ i j, X i ≠ X j ∧ ∑ k, x k * X i k = ∑ k, x k * X j k}) = 0 := by
  have hsub : directionsFrom half D {x | ∃ i j, X i ≠ X j ∧ ∑ k, x k * X i k = ∑ k, x k * X j k} ⊆
      ⋃ (i) (j), directionsFrom half D {x | X i ≠ X j ∧ ∑ k, x k * X i k = ∑ k, x k * X j k} := by
    rintro p ⟨hp, x, hx, i, j, h⟩
    exact mem_iUnion.2 ⟨i, mem_iUnion.2 ⟨j, hp, x, hx, h⟩⟩
  refine measure_mono_null hsub (measure_iUnion_null fun i => measure_iUnion_null fun j => ?_)
  by_cases hij : X i = X j
  · have : directionsFrom half D {x | X i ≠ X j ∧ ∑ k, x k * X i k = ∑ k, x k * X j k} = ∅ := by
      ext p
      constructor
      · rintro ⟨-, x, -, h, -⟩
        exact h hij
      · rintro ⟨⟩
    rw [this, measure_empty]
  · have hlin : ∀ i, Measurable fun x : Fin (D + 1) → ℝ => ∑ k, x k * X i k := fun i =>
      Finset.measurable_sum _ fun k _ => (measurable_pi_apply k).mul_const _
    have hA : MeasurableSet {x : Fin (D + 1) → ℝ | X i ≠ X j ∧ ∑ k, x k * X i k = ∑ k, x k * X j k} :=
      (MeasurableSet.const _).inter (measurableSet_eq_fun (hlin i) (hlin j))
    refine (C103_uniform half D hD _ hA).trans ?_
    have hker : volume (Spec.sector half {x : Fin (D + 1) → ℝ | X i ≠ X j ∧ ∑ k, x k * X i k = ∑ k, x k * X j k}) = 0 := by
      let L : (Fin (D + 1) → ℝ) →ₗ[ℝ] ℝ :=
        { toFun := fun x => ∑ k, x k * (X i k - X j k)
          map_add' := by
            intro x y
            rw [← Finset.sum_add_distrib]
            exact Finset.sum_congr rfl fun k _ => by rw [Pi.add_apply]; ring
          map_smul' := by
            intro c x
            rw [smul_eq_mul, Finset.mul_sum]
            exact Finset.sum_congr rfl fun k _ => by rw [Pi.smul_apply, smul_eq_mul, RingHom.id_apply]; ring }
      refine measure_mono_null (t := (LinearMap.ker L : Set (Fin (D + 1) → ℝ))) ?_ ?_
      · rintro w ⟨⟨hpos, -, -⟩, -, hw⟩
        have hs : 0 < Real.sqrt (∑ j, w j ^ 2) := Real.sqrt_pos.2 hpos
        show ∑ k, w k * (X i k - X j k) = 0
        have e : ∀ i, ∑ k, w k / Real.sqrt (∑ j, w j ^ 2) * X i k = (∑ k, w k * X i k) / Real.sqrt (∑ j, w j ^ 2) := by
          intro i
          rw [Finset.sum_div]
          exact Finset.sum_congr rfl fun k _ => by ring
        rw [e, e, div_left_inj' hs.ne'] at hw
        simp only [mul_sub, Finset.sum_sub_distrib]
        linarith
      · refine Measure.addHaar_submodule _ _ fun htop => hij ?_
        funext k
        have : Pi.single k (1 : ℝ) ∈ LinearMap.ker L := by rw [htop]; trivial
        have h1 : ∑ l, (Pi.single k (1 : ℝ) : Fin (D + 1) → ℝ) l * (X i l - X j l) = 0 := this
        rw [Finset.sum_eq_single k] at h1
        · rw [Pi.single_eq_same, one_mul] at h1
          linarith
        · intro l _ hl
          rw [Pi.single_eq_of_ne hl, zero_mul]
        · intro h
          exact absurd (Finset.mem_univ k) h
    rw [hker, ENNReal.zero_div]

/-- C103: every open set of directions that contains a unit vector (for the half sphere: one with positive first
coordinate) is hit with positive probability. -/
theorem C103_support (half : Bool) (D : Nat) (hD : 1 ≤ D) (A : Set (Fin (D + 1) → ℝ)) (hA : IsOpen A)
    (a : Fin (D + 1) → ℝ) (ha : a ∈ A) (hunit : ∑ i, a i ^ 2 = 1) (hfirst : half = true → 0 < a 0) :
    0 < volume (directionsFrom half D A) := by
  refine lt_of_lt_of_eq ?_ (C103_uniform half D hD A hA.measurableSet).symm
  refine ENNReal.div_pos ?_ (unitBall_volume half D).2
  have hc : Continuous (nsq (m := D + 1)) := by
    unfold nsq
    fun_prop
  have hopen : IsOpen {w : Fin (D + 1) → ℝ | 0 < nsq w} := isOpen_lt continuous_const hc
  have hdir : ContinuousOn (fun (w : Fin (D + 1) → ℝ) i => w i / Real.sqrt (nsq w)) {w | 0 < nsq w} := by
    refine continuousOn_pi.2 fun i => ((continuous_apply i).continuousOn).div
      (Real.continuous_sqrt.comp hc).continuousOn fun w hw => (Real.sqrt_pos.2 hw).ne'
  have h1 := hdir.isOpen_inter_preimage hopen hA
  have h2 : IsOpen {w : Fin (D + 1) → ℝ | nsq w < 1} := isOpen_lt hc continuous_const
  have h3 : IsOpen (region half D) := by
    cases half with
    | false => rw [region_false]; exact isOpen_univ
    | true =>
      have : region true D = {w | 0 < w 0} := by ext; simp [region]
      rw [this]
      exact isOpen_lt continuous_const (continuous_apply 0)
  have hO := (h1.inter h2).inter h3
  have hn : nsq ((1 / 2 : ℝ) • a) = 1 / 4 := by
    rw [nsq_smul, show nsq a = 1 from hunit]
    norm_num
  refine ((hO.measure_pos volume ⟨(1 / 2 : ℝ) • a, ⟨⟨?_, ?_⟩, ?_⟩, ?_⟩).trans_le (measure_mono ?_)).ne'
  · show 0 < nsq ((1 / 2 : ℝ) • a)
    rw [hn]; norm_num
  · show (fun i => ((1 / 2 : ℝ) • a) i / Real.sqrt (nsq ((1 / 2 : ℝ) • a))) ∈ A
    have : (fun i => ((1 / 2 : ℝ) • a) i / Real.sqrt (nsq ((1 / 2 : ℝ) • a))) = a := by
      funext i
      rw [hn, show (1 / 4 : ℝ) = (1 / 2) ^ 2 by norm_num, Real.sqrt_sq (by norm_num), Pi.smul_apply, smul_eq_mul]
      ring
    rw [this]; exact ha
  · show nsq ((1 / 2 : ℝ) • a) < 1
    rw [hn]; norm_num
  · intro hh
    show 0 < ((1 / 2 : ℝ) • a) 0
    rw [Pi.smul_apply, smul_eq_mul]
    linarith [hfirst hh]
  · rintro w ⟨⟨⟨w1, w2⟩, w3⟩, w4⟩
    rw [sector_eq]
    exact ⟨⟨⟨w1, le_of_lt w3⟩, w2⟩, w4⟩

/-- Non-vacuity: on the half circle the directions with positive second coordinate have probability one half. -/
example : volume (directionsFrom true 1 {x | 0 < x 1}) = 1 / 2 := by
  have hset : directionsFrom true 1 {x | 0 < x 1} = Set.univ.pi fun _ => Ioc (1 / 2 : ℝ) 1 := by
    ext p
    have hpi := Real.pi_pos
    have key : p ∈ Spec.unitCube 1 → hypersphere ((List.ofFn p).map XF.fin) true =
        .ok (List.ofFn (app e0 (Real.cos (Real.pi * (p 0 - 1 / 2))) (Real.sin (Real.pi * (p 0 - 1 / 2))))) := by
      intro hp
      refine hypersphere_ofFn le_rfl hp ?_ ?_
      · rw [ofFn_app, List.ofFn_succ, List.ofFn_zero, ofFn_e0, spherePoint_half_one]
        rfl
      · rw [nsq_app, nsq, Finset.univ_eq_empty, Finset.sum_empty, zero_add, Real.cos_sq_add_sin_sq]
    constructor
    · rintro ⟨hp, x, hx, hA⟩ i _
      rw [key hp] at hx
      have hx' := List.ofFn_injective (Except.ok.inj hx)
      have hA' : 0 < x 1 := hA
      rw [← hx'] at hA'
      have hA2 : 0 < Real.sin (Real.pi * (p 0 - 1 / 2)) := hA'
      rw [show i = 0 from Subsingleton.elim _ _]
      refine ⟨?_, (hp 0).2⟩
      by_contra hle
      have := Real.sin_nonpos_of_nonpos_of_neg_pi_le (x := Real.pi * (p 0 - 1 / 2))
        (by nlinarith [not_lt.1 hle]) (by nlinarith [(hp 0).1])
      linarith
    · intro hp
      have h0 := hp 0 trivial
      have hin : p ∈ Spec.unitCube 1 := by
        intro i
        rw [show i = 0 from Subsingleton.elim _ _]
        exact ⟨by linarith [h0.1], h0.2⟩
      refine ⟨hin, _, key hin, ?_⟩
      show 0 < Real.sin (Real.pi * (p 0 - 1 / 2))
      exact Real.sin_pos_of_pos_of_lt_pi (by nlinarith [h0.1]) (by nlinarith [h0.2])
  rw [hset, volume_pi, Measure.pi_pi]
  simp only [Real.volume_Ioc, Finset.univ_unique, Finset.prod_singleton]
  rw [show (1 : ℝ) - 1 / 2 = 1 / 2 by norm_num, ENNReal.ofReal_div_of_pos (by norm_num)]
  simp

end BT
