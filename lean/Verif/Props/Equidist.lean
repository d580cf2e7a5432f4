import Verif.Props.SphereLaw
import Verif.Lemmas.WeylCube
import Mathlib.Analysis.Convex.Measure

/-!
# The quasi-random sequence is equidistributed: C104
-/

noncomputable section

open MeasureTheory Set Filter Topology

namespace BT

open SphereLaw Weyl

/-- The number the loop of `r2_series_generator` approaches (C56): the solution of `phi^(D+1) = phi + 1` above 1. -/
def IsGolden (D : Nat) (phi : ℝ) : Prop := 1 < phi ∧ phi ^ (D + 1) = phi + 1

theorem exists_golden (D : Nat) (hD : 1 ≤ D) : ∃ phi, IsGolden D phi ∧ Tendsto (phiSeq D) atTop (𝓝 phi) := by
  obtain ⟨-, r, h1, h2, -, h3⟩ := C56_phi_converges D hD
  exact ⟨r, ⟨h1, h2⟩, h3⟩

/-- The elements of the sequence as points. -/
theorem r2Next_ofFn {D : Nat} (hD : 1 ≤ D) (phi : ℝ) (i : Nat) :
    r2Next D phi i = .ok (List.ofFn fun j : Fin D => Int.fract (1 / 2 + 1 / phi ^ (1 + j.val) * ((i : ℝ) + 1))) := by
  unfold r2Next r2Element r2Alpha
  rw [if_neg (by omega), List.map_map, List.ofFn_eq_map]
  congr 1
  apply List.ext_getElem
  · simp
  · intro j h1 h2
    simp

theorem share_tendsto {p : Nat → Prop} {l : ℝ}
    (h : Tendsto (fun N : Nat => Spec.share p (N + 1)) atTop (𝓝 l)) : Tendsto (Spec.share p) atTop (𝓝 l) :=
  (tendsto_add_atTop_iff_nat 1).1 h

/-- C104: the quasi-random sequence is equidistributed in the unit cube: the share of its first `N` elements in
`S` tends to the volume of `S`, for every set whose boundary has volume 0. -/
theorem C104_cube (D : Nat) (hD : 1 ≤ D) (phi : ℝ) (hphi : IsGolden D phi) (S : Set (Fin D → ℝ))
    (hS : MeasurableSet S) (hb : volume (frontier S ∩ Spec.unitCube D) = 0) :
    Tendsto (Spec.share fun i => ∃ u : Fin D → ℝ, r2Next D phi i = .ok (List.ofFn u) ∧ u ∈ S) atTop
      (𝓝 (volume (S ∩ Spec.unitCube D)).toReal) := by
  classical
  refine share_tendsto ?_
  rw [← cube_apply] at hb ⊢
  refine (cube_frequency (independent_golden phi hphi.1 hphi.2) (fun _ => 1 / 2) hS hb).congr fun N => ?_
  unfold Spec.share
  push_cast
  congr 2
  refine congrArg Finset.card (Finset.filter_congr fun k _ => ?_)
  rw [r2Next_ofFn hD]
  constructor
  · intro h
    exact ⟨_, rfl, h⟩
  · rintro ⟨u, hu, h⟩
    have := List.ofFn_injective (Except.ok.inj hu)
    rw [this]
    exact h

/-- C104: the directions of the quasi-random optimizer are equidistributed on the (half) sphere: the share of
the first `N` directions in `A` tends to the fraction of the (half) ball in these directions. -/
theorem C104_directions (half : Bool) (D : Nat) (hD : 1 ≤ D) (phi : ℝ) (hphi : IsGolden D phi)
    (A : Set (Fin (D + 1) → ℝ)) (hA : MeasurableSet A) (hb : volume (Spec.sector half (frontier A)) = 0) :
    Tendsto (Spec.share fun i => ∃ u x, r2Next D phi i = .ok u ∧
        hypersphere (u.map XF.fin) half = .ok (List.ofFn (n := D + 1) x) ∧ x ∈ A) atTop
      (𝓝 (volume (Spec.sector half A) / volume (Spec.unitBall half (D + 1))).toReal) := by
  classical
  obtain ⟨x, C, hx, hpt, hunit, -⟩ := exists_polar half D (Or.inl hD)
  have hset : ∀ B, directionsFrom half D B = {p | x p ∈ B} ∩ Spec.unitCube D := by
    intro B
    ext p
    constructor
    · rintro ⟨hp, y, hy, hyA⟩
      rw [hypersphere_ofFn hD hp (hpt p) (hunit p hp)] at hy
      have := List.ofFn_injective (Except.ok.inj hy)
      exact ⟨show x p ∈ B by rw [this]; exact hyA, hp⟩
    · rintro ⟨hpA, hp⟩
      exact ⟨hp, x p, hypersphere_ofFn hD hp (hpt p) (hunit p hp), hpA⟩
  have hfr : volume (frontier (x ⁻¹' A) ∩ Spec.unitCube D) = 0 := by
    have h1 := C103_uniform half D hD (frontier A) isClosed_frontier.measurableSet
    rw [hset, hb, ENNReal.zero_div] at h1
    refine measure_mono_null ?_ h1
    exact inter_subset_inter_left _ (hx.frontier_preimage_subset A)
  have h := C104_cube D hD phi hphi (x ⁻¹' A) (hx.measurable hA) hfr
  rw [← C103_uniform half D hD A hA, hset]
  refine h.congr fun N => ?_
  unfold Spec.share
  congr 2
  refine congrArg Finset.card (Finset.filter_congr fun k _ => ?_)
  rw [r2Next_ofFn hD]
  have hin : (fun j : Fin D => Int.fract (1 / 2 + 1 / phi ^ (1 + j.val) * ((k : ℝ) + 1))) ∈ Spec.unitCube D :=
    fun j => ⟨Int.fract_nonneg _, (Int.fract_lt_one _).le⟩
  constructor
  · rintro ⟨u, hu, h⟩
    have := List.ofFn_injective (Except.ok.inj hu)
    subst this
    exact ⟨_, _, rfl, hypersphere_ofFn hD hin (hpt _) (hunit _ hin), h⟩
  · rintro ⟨u, y, hu, hy, hyA⟩
    rw [← Except.ok.inj hu, hypersphere_ofFn hD hin (hpt _) (hunit _ hin)] at hy
    have := List.ofFn_injective (Except.ok.inj hy)
    rw [← this] at hyA
    exact ⟨_, rfl, hyA⟩

/-- C104: every nonempty open subset of the cube is visited by the sequence. -/
theorem C104_dense (D : Nat) (hD : 1 ≤ D) (phi : ℝ) (hphi : IsGolden D phi) (p : Fin D → ℝ)
    (hp : p ∈ Spec.unitCube D) (ε : ℝ) (hε : 0 < ε) :
    ∃ i, ∃ u : Fin D → ℝ, r2Next D phi i = .ok (List.ofFn u) ∧ ∀ j, |u j - p j| < ε := by
  classical
  -- a box inside the cube near `p`
  set δ := min (ε / 2) (1 / 4) with hδ
  have hδ0 : 0 < δ := lt_min (by linarith) (by norm_num)
  have hδ1 : δ ≤ 1 / 4 := min_le_right _ _
  have hδ2 : δ ≤ ε / 2 := min_le_left _ _
  set lo : Fin D → ℝ := fun j => min (p j) (1 - 2 * δ) with hlo
  set B : Set (Fin D → ℝ) := Set.univ.pi fun j => Ioo (lo j) (lo j + δ) with hB
  have hBm : MeasurableSet B := MeasurableSet.univ_pi fun _ => measurableSet_Ioo
  have hfr : volume (frontier B ∩ Spec.unitCube D) = 0 := by
    refine measure_mono_null inter_subset_left ?_
    have hconv : Convex ℝ B := convex_pi fun j _ => convex_Ioo _ _
    exact hconv.addHaar_frontier volume
  have hBsub : B ⊆ Spec.unitCube D := by
    intro w hw j
    have h1 := hw j trivial
    have h2 : 0 ≤ lo j := le_min (hp j).1 (by linarith)
    have h3 : lo j ≤ 1 - 2 * δ := min_le_right _ _
    exact ⟨by linarith [h1.1], by linarith [h1.2]⟩
  have hvol : 0 < (volume (B ∩ Spec.unitCube D)).toReal := by
    rw [inter_eq_left.2 hBsub, hB, volume_pi, Measure.pi_pi]
    simp only [Real.volume_Ioo, add_sub_cancel_left]
    rw [ENNReal.toReal_prod]
    refine Finset.prod_pos fun j _ => ?_
    rw [ENNReal.toReal_ofReal hδ0.le]
    exact hδ0
  have h := C104_cube D hD phi hphi B hBm hfr
  by_contra hne
  rw [not_exists] at hne
  have hzero : ∀ i, ¬ ∃ u : Fin D → ℝ, r2Next D phi i = .ok (List.ofFn u) ∧ u ∈ B := by
    rintro i ⟨u, hu, huB⟩
    refine hne i ⟨u, hu, fun j => ?_⟩
    have h1 := huB j trivial
    have h2 : lo j ≤ p j := min_le_left _ _
    have h3 : p j - 2 * δ ≤ lo j := le_min (by linarith) (by linarith [(hp j).2])
    rw [abs_lt]
    exact ⟨by linarith [h1.1], by linarith [h1.2]⟩
  have : Spec.share (fun i => ∃ u : Fin D → ℝ, r2Next D phi i = .ok (List.ofFn u) ∧ u ∈ B) = fun _ => 0 := by
    funext N
    unfold Spec.share
    rw [Finset.filter_false_of_mem fun k _ => hzero k]
    simp
  rw [this] at h
  have := tendsto_nhds_unique h tendsto_const_nhds
  linarith

/-- C104: for a rational `phi`, such as the float the loop ends with, the sequence in exact arithmetic is
periodic instead. -/
theorem C104_period (D : Nat) (phi : ℚ) :
    ∃ T : Nat, 0 < T ∧ ∀ i, r2Next D (phi : ℝ) (i + T) = r2Next D (phi : ℝ) i := by
  refine ⟨∏ j ∈ Finset.range D, (1 / phi ^ (1 + j)).den, Finset.prod_pos fun j _ => Rat.den_pos _, fun i => ?_⟩
  unfold r2Next r2Element r2Alpha
  split
  · rfl
  · rw [List.map_map, List.map_map]
    congr 1
    refine List.map_congr_left fun j hj => ?_
    have hj' : j ∈ Finset.range D := Finset.mem_range.2 (List.mem_range.1 hj)
    obtain ⟨k, hk⟩ := Finset.dvd_prod_of_mem (fun j => (1 / phi ^ (1 + j)).den) hj'
    have hint : (1 : ℝ) / (phi : ℝ) ^ (1 + j) * ((∏ j ∈ Finset.range D, (1 / phi ^ (1 + j)).den : Nat) : ℝ) =
        (((1 / phi ^ (1 + j)).num * k : Int) : ℝ) := by
      rw [hk]
      have h1 : ((1 / phi ^ (1 + j) : ℚ) : ℝ) * ((1 / phi ^ (1 + j)).den : ℝ) = ((1 / phi ^ (1 + j)).num : ℝ) := by
        exact_mod_cast Rat.mul_den_eq_num (1 / phi ^ (1 + j))
      push_cast at h1 ⊢
      rw [← mul_assoc, h1]
    show Int.fract (1 / 2 + 1 / (phi : ℝ) ^ (1 + j) * (((i + _ : Nat) : ℝ) + 1)) =
      Int.fract (1 / 2 + 1 / (phi : ℝ) ^ (1 + j) * ((i : ℝ) + 1))
    rw [Int.fract_eq_fract]
    refine ⟨(1 / phi ^ (1 + j)).num * k, ?_⟩
    rw [← hint]
    push_cast
    ring

/-- Non-vacuity: in one dimension, half of the elements lie below one half. -/
example : ∃ phi, IsGolden 1 phi ∧
    Tendsto (Spec.share fun i => ∃ u : Fin 1 → ℝ, r2Next 1 phi i = .ok (List.ofFn u) ∧ u 0 < 1 / 2) atTop (𝓝 (1 / 2)) := by
  obtain ⟨phi, hphi, -⟩ := exists_golden 1 le_rfl
  refine ⟨phi, hphi, ?_⟩
  have hS : IsOpen {u : Fin 1 → ℝ | u 0 < 1 / 2} := isOpen_lt (continuous_apply 0) continuous_const
  have hconv : Convex ℝ {u : Fin 1 → ℝ | u 0 < 1 / 2} := by
    intro a ha b hb s t hs ht hst
    have ha' : a 0 < 1 / 2 := ha
    have hb' : b 0 < 1 / 2 := hb
    show s * a 0 + t * b 0 < 1 / 2
    rcases hs.eq_or_lt with h0 | h0
    · have : t = 1 := by linarith
      rw [← h0, this]; linarith
    · nlinarith
  have h := C104_cube 1 le_rfl phi hphi {u | u 0 < 1 / 2} hS.measurableSet
    (measure_mono_null inter_subset_left (hconv.addHaar_frontier volume))
  have hset : {u : Fin 1 → ℝ | u 0 < 1 / 2} ∩ Spec.unitCube 1 = Set.univ.pi fun _ => Ico (0 : ℝ) (1 / 2) := by
    ext u
    constructor
    · rintro ⟨h1, h2⟩ j _
      rw [show j = 0 from Subsingleton.elim _ _]
      exact ⟨(h2 0).1, h1⟩
    · intro h
      have h0 := h 0 trivial
      refine ⟨h0.2, fun j => ?_⟩
      rw [show j = 0 from Subsingleton.elim _ _]
      exact ⟨h0.1, by linarith [h0.2]⟩
  rw [hset, volume_pi, Measure.pi_pi] at h
  simp only [Real.volume_Ico, Finset.univ_unique, Finset.prod_singleton, sub_zero] at h
  rw [ENNReal.toReal_ofReal (by norm_num)] at h
  exact h

end BT
