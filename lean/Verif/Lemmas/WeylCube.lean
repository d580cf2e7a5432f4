import Verif.Lemmas.Weyl
import Verif.Lemmas.SphereLaw

/-!
# Equidistribution in the unit cube

From the torus to the fractional parts.
-/

noncomputable section

open MeasureTheory Set Filter Topology

namespace BT.Weyl

open SphereLaw

variable {D : Nat}

/-- Representative in `[0, 1)`. -/
def repr (t : UnitAddTorus (Fin D)) : Fin D → ℝ := fun j => (AddCircle.equivIco 1 0 (t j) : ℝ)

theorem repr_toTorus (x : Fin D → ℝ) : repr (toTorus x) = fun j => Int.fract (x j) := by
  funext j
  show ((AddCircle.equivIco 1 0 ((x j : ℝ) : UnitAddCircle) : ℝ)) = _
  have := AddCircle.coe_equivIco_mk_apply (p := (1 : ℝ)) (x j)
  rw [div_one, mul_one] at this
  exact this

theorem measurable_repr : Measurable (repr (D := D)) :=
  measurable_pi_iff.2 fun j =>
    (measurable_subtype_coe.comp (AddCircle.measurableEquivIco 1 0).measurable).comp (measurable_pi_apply j)

theorem U_eq : U = volume.restrict (Ioc (0 : ℝ) (0 + 1)) := by
  unfold U
  rw [zero_add]
  exact Measure.restrict_congr_set Ioc_ae_eq_Icc.symm

theorem toTorus_preserving : MeasurePreserving (toTorus (D := D)) (cube D) (haar D) := by
  have h1 : MeasurePreserving (fun x : ℝ => (x : UnitAddCircle)) U AddCircle.haarAddCircle := by
    have h := AddCircle.measurePreserving_mk 1 0
    rw [AddCircle.volume_eq_smul_haarAddCircle, ENNReal.ofReal_one, one_smul, ← U_eq] at h
    exact h
  exact measurePreserving_pi (fun _ : Fin D => U) (fun _ => AddCircle.haarAddCircle) fun _ => h1

/-- Almost all points of the cube are inside. -/
theorem cube_ae_inside : ∀ᵐ p ∂(cube D), ∀ j, 0 < p j ∧ p j < 1 := by
  rw [ae_all_iff]
  intro j
  have hU : ∀ᵐ u ∂U, 0 < u ∧ u < 1 := by
    unfold U
    rw [Measure.restrict_congr_set Ioo_ae_eq_Icc.symm]
    filter_upwards [ae_restrict_mem measurableSet_Ioo] with u hu using ⟨hu.1, hu.2⟩
  exact (Measure.quasiMeasurePreserving_eval (fun _ : Fin D => U) j).ae hU

theorem haar_repr {S : Set (Fin D → ℝ)} (hS : MeasurableSet S) : haar D (repr ⁻¹' S) = cube D S := by
  rw [← toTorus_preserving.measure_preimage (measurable_repr hS).nullMeasurableSet]
  refine measure_congr ?_
  filter_upwards [cube_ae_inside] with p hp
  refine propext ?_
  show repr (toTorus p) ∈ S ↔ p ∈ S
  rw [repr_toTorus, show (fun j => Int.fract (p j)) = p from
    funext fun j => Int.fract_eq_self.2 ⟨(hp j).1.le, (hp j).2⟩]

theorem frontier_repr {S : Set (Fin D → ℝ)} (hS : cube D (frontier S) = 0) : haar D (frontier (repr ⁻¹' S)) = 0 := by
  have hsub : frontier (repr ⁻¹' S) ⊆ {t : UnitAddTorus (Fin D) | ∃ j, t j = 0} ∪ repr ⁻¹' (frontier S) := by
    intro t ht
    by_cases h0 : ∃ j, t j = 0
    · exact .inl h0
    · right
      rw [not_exists] at h0
      have hc : ContinuousAt (repr (D := D)) t := by
        refine continuousAt_pi.2 fun j => ?_
        have h1 : ContinuousAt (AddCircle.equivIco (1 : ℝ) 0) (t j) := AddCircle.continuousAt_equivIco 1 0 (h0 j)
        have h2 : ContinuousAt (fun s : UnitAddCircle => ((AddCircle.equivIco (1 : ℝ) 0 s : ℝ))) (t j) :=
          continuousAt_subtype_val.comp h1
        exact ContinuousAt.comp (f := fun t : UnitAddTorus (Fin D) => t j) h2 (continuous_apply j).continuousAt
      rw [frontier_eq_closure_inter_closure] at ht
      rw [mem_preimage, frontier_eq_closure_inter_closure]
      exact ⟨hc.continuousWithinAt.mem_closure ht.1 fun _ h => h, hc.continuousWithinAt.mem_closure ht.2 fun _ h => h⟩
  refine measure_mono_null hsub (measure_union_null ?_ ?_)
  · have hcl : MeasurableSet {t : UnitAddTorus (Fin D) | ∃ j, t j = 0} := by
      have : {t : UnitAddTorus (Fin D) | ∃ j, t j = 0} = ⋃ j, {t | t j = 0} := by ext; simp
      rw [this]
      exact MeasurableSet.iUnion fun j => (isClosed_eq (continuous_apply j) continuous_const).measurableSet
    rw [← toTorus_preserving.measure_preimage hcl.nullMeasurableSet, ← nonpos_iff_eq_zero, nonpos_iff_eq_zero]
    rw [measure_eq_zero_iff_ae_notMem]
    filter_upwards [cube_ae_inside] with p hp
    rintro ⟨j, hj⟩
    have h1 : repr (toTorus p) j = 0 := by
      show ((AddCircle.equivIco 1 0 (toTorus p j) : ℝ)) = 0
      rw [hj, show (0 : UnitAddCircle) = ((0 : ℝ) : UnitAddCircle) from rfl]
      have := AddCircle.coe_equivIco_mk_apply (p := (1 : ℝ)) 0
      rw [div_one, mul_one, Int.fract_zero] at this
      exact this
    rw [repr_toTorus] at h1
    have h2 : Int.fract (p j) = p j := Int.fract_eq_self.2 ⟨(hp j).1.le, (hp j).2⟩
    have h3 : Int.fract (p j) = 0 := h1
    linarith [(hp j).1]
  · rw [haar_repr isClosed_frontier.measurableSet]
    exact hS

open Classical in
/-- The share of the first `N + 1` fractional parts in `S` tends to the volume of `S`. -/
theorem cube_frequency {α : Fin D → ℝ} (h : Independent α) (c : Fin D → ℝ) {S : Set (Fin D → ℝ)}
    (hS : MeasurableSet S) (hfr : cube D (frontier S) = 0) :
    Tendsto (fun N : Nat => (((Finset.range (N + 1)).filter
        fun k : Nat => (fun j => Int.fract (c j + α j * ((k : ℝ) + 1))) ∈ S).card : ℝ) / ((N : ℝ) + 1)) atTop
      (𝓝 (cube D S).toReal) := by
  have h1 := frequency h c (frontier_repr hfr)
  rw [haar_repr hS] at h1
  have h2 := (ENNReal.tendsto_toReal (measure_ne_top (cube D) S)).comp h1
  refine h2.congr fun N => ?_
  show (emp α c N (repr ⁻¹' S)).toReal = _
  unfold emp
  rw [Measure.smul_apply, Measure.finsetSum_apply, smul_eq_mul, ENNReal.toReal_mul, ENNReal.toReal_inv]
  have hsum : ∑ k ∈ Finset.range (N + 1), (Measure.dirac (pt α c k)) (repr ⁻¹' S) =
      (((Finset.range (N + 1)).filter fun k : Nat => (fun j => Int.fract (c j + α j * ((k : ℝ) + 1))) ∈ S).card : ENNReal) := by
    rw [Finset.card_filter]
    push_cast
    refine Finset.sum_congr rfl fun k _ => ?_
    rw [Measure.dirac_apply' _ (measurable_repr hS)]
    have hmem : pt α c k ∈ repr ⁻¹' S ↔ (fun j => Int.fract (c j + α j * ((k : ℝ) + 1))) ∈ S := by
      show repr (pt α c k) ∈ S ↔ _
      unfold pt
      rw [repr_toTorus]
    by_cases hk : (fun j => Int.fract (c j + α j * ((k : ℝ) + 1))) ∈ S
    · rw [if_pos hk, indicator_of_mem (hmem.2 hk)]; rfl
    · rw [if_neg hk, indicator_of_notMem fun h => hk (hmem.1 h)]
  rw [hsum, ENNReal.toReal_natCast, div_eq_inv_mul, ENNReal.toReal_add (by simp) (by simp)]
  simp

end BT.Weyl
