import Mathlib.Analysis.SpecialFunctions.PolarCoord
import Mathlib.Analysis.SpecialFunctions.Sqrt
import Mathlib.MeasureTheory.Function.JacobianOneDim
import Mathlib.MeasureTheory.Constructions.Pi
import Mathlib.MeasureTheory.Integral.IntervalIntegral.Periodic

/-!
# Polar coordinates in terms of uniform numbers

Integrals over `ℝ^m` written with a radius and the point of the sphere that a point of the unit cube is
mapped to: the induction step adds two coordinates, as one pass of the loops of
`hypercube_to_hypersphere_surface` does.
-/

noncomputable section

open MeasureTheory Set
open scoped ENNReal

namespace BT.SphereLaw

/-- The uniform distribution on `[0, 1]`. -/
def U : Measure ℝ := volume.restrict (Icc 0 1)

instance : IsProbabilityMeasure U := ⟨by simp [U]⟩

/-- `lintegral` over the last coordinate. -/
theorem lintegral_snoc (μ : Measure ℝ) [SigmaFinite μ] {n : Nat} {F : (Fin (n + 1) → ℝ) → ℝ≥0∞}
    (hF : Measurable F) :
    ∫⁻ w, F w ∂(Measure.pi fun _ : Fin (n + 1) => μ) =
      ∫⁻ z, ∫⁻ a, F (Fin.snoc (α := fun _ => ℝ) z a) ∂μ ∂(Measure.pi fun _ : Fin n => μ) := by
  have h := (measurePreserving_piFinSuccAbove (fun _ : Fin (n + 1) => μ) (Fin.last n)).symm
  rw [← h.lintegral_comp hF]
  rw [lintegral_prod_symm]
  · refine lintegral_congr fun z => lintegral_congr fun a => ?_
    congr 1
    exact Fin.insertNth_last' a z
  · exact (hF.comp (MeasurableEquiv.measurable _)).aemeasurable

/-- Two more coordinates. -/
def app {m : Nat} (z : Fin m → ℝ) (a b : ℝ) : Fin (m + 2) → ℝ :=
  Fin.snoc (α := fun _ => ℝ) (Fin.snoc (α := fun _ => ℝ) z a) b

theorem measurable_snoc {n : Nat} : Measurable fun q : (Fin n → ℝ) × ℝ => Fin.snoc (α := fun _ => ℝ) q.1 q.2 := by
  refine measurable_pi_iff.2 fun i => ?_
  refine Fin.lastCases ?_ (fun j => ?_) i
  · simp only [Fin.snoc_last]; exact measurable_snd
  · simp only [Fin.snoc_castSucc]; exact (measurable_pi_apply j).comp measurable_fst

theorem measurable_app {m : Nat} {α : Type*} [MeasurableSpace α] {z : α → Fin m → ℝ} {a b : α → ℝ}
    (hz : Measurable z) (ha : Measurable a) (hb : Measurable b) : Measurable fun t => app (z t) (a t) (b t) :=
  measurable_snoc.comp ((measurable_snoc.comp (hz.prodMk ha)).prodMk hb)

theorem continuous_snoc {n : Nat} : Continuous fun q : (Fin n → ℝ) × ℝ => Fin.snoc (α := fun _ => ℝ) q.1 q.2 := by
  refine continuous_pi fun i => ?_
  refine Fin.lastCases ?_ (fun j => ?_) i
  · simp only [Fin.snoc_last]; exact continuous_snd
  · simp only [Fin.snoc_castSucc]; exact (continuous_apply j).comp continuous_fst

theorem continuous_app {m : Nat} {α : Type*} [TopologicalSpace α] {z : α → Fin m → ℝ} {a b : α → ℝ}
    (hz : Continuous z) (ha : Continuous a) (hb : Continuous b) : Continuous fun t => app (z t) (a t) (b t) :=
  continuous_snoc.comp ((continuous_snoc.comp (hz.prodMk ha)).prodMk hb)

theorem lintegral_app (μ : Measure ℝ) [SigmaFinite μ] {m : Nat} {F : (Fin (m + 2) → ℝ) → ℝ≥0∞}
    (hF : Measurable F) :
    ∫⁻ w, F w ∂(Measure.pi fun _ : Fin (m + 2) => μ) =
      ∫⁻ z, ∫⁻ a, ∫⁻ b, F (app z a b) ∂μ ∂μ ∂(Measure.pi fun _ : Fin m => μ) := by
  rw [lintegral_snoc μ hF]
  rw [lintegral_snoc μ (F := fun z => ∫⁻ b, F (Fin.snoc (α := fun _ => ℝ) z b) ∂μ)]
  · rfl
  · exact (hF.comp measurable_snoc).lintegral_prod_right'

/-! ## Substitutions -/

/-- `ρ² = r² - c²`. -/
theorem lintegral_shift (c : ℝ) (hc : 0 ≤ c) (φ : ℝ → ℝ≥0∞) :
    ∫⁻ ρ in Ioi 0, ENNReal.ofReal ρ * φ ρ =
      ∫⁻ r in Ioi c, ENNReal.ofReal r * φ (Real.sqrt (r ^ 2 - c ^ 2)) := by
  have pos : ∀ r ∈ Ioi c, 0 < r ^ 2 - c ^ 2 := by
    intro r hr
    have : c < r := hr
    nlinarith
  have himg : (fun r : ℝ => Real.sqrt (r ^ 2 - c ^ 2)) '' Ioi c = Ioi 0 := by
    ext y
    constructor
    · rintro ⟨r, hr, rfl⟩
      exact Real.sqrt_pos.2 (pos r hr)
    · intro hy
      have hy : (0 : ℝ) < y := hy
      refine ⟨Real.sqrt (y ^ 2 + c ^ 2), ?_, ?_⟩
      · exact Real.lt_sqrt_of_sq_lt (by nlinarith)
      · show Real.sqrt (Real.sqrt (y ^ 2 + c ^ 2) ^ 2 - c ^ 2) = y
        rw [Real.sq_sqrt (by positivity), add_sub_cancel_right, Real.sqrt_sq hy.le]
  have hinj : InjOn (fun r : ℝ => Real.sqrt (r ^ 2 - c ^ 2)) (Ioi c) := by
    intro r hr s hs h
    have h1 := (Real.sqrt_inj (pos r hr).le (pos s hs).le).1 h
    have hr' : c < r := hr
    have hs' : c < s := hs
    nlinarith
  rw [← himg, lintegral_image_eq_lintegral_abs_deriv_mul measurableSet_Ioi
    (f' := fun r => r / Real.sqrt (r ^ 2 - c ^ 2)) ?_ hinj]
  · refine setLIntegral_congr_fun measurableSet_Ioi fun r hr => ?_
    have hr' : c < r := hr
    have hr0 : 0 < r := hc.trans_lt hr'
    have h1 := Real.sqrt_pos.2 (pos r hr)
    rw [← mul_assoc, ← ENNReal.ofReal_mul (abs_nonneg _), abs_of_nonneg (by positivity),
      div_mul_cancel₀ _ h1.ne']
  · intro r hr
    have h2 : HasDerivAt (fun r : ℝ => r ^ 2 - c ^ 2) (2 * r) r := by
      simpa using (hasDerivAt_pow 2 r).sub_const (c ^ 2)
    have := h2.sqrt (pos r hr).ne'
    refine (this.congr_deriv ?_).hasDerivWithinAt
    field_simp

/-- `s = r u^(1/m)`. -/
theorem lintegral_root (m : Nat) (hm : 0 < m) (r : ℝ) (hr : 0 < r) (ψ : ℝ → ℝ≥0∞) :
    ∫⁻ s in Ioo 0 r, ENNReal.ofReal (s ^ (m - 1)) * ψ s =
      ENNReal.ofReal (r ^ m / m) * ∫⁻ u, ψ (r * u ^ ((1 : ℝ) / (m : ℝ))) ∂U := by
  have hU : ∫⁻ u, ψ (r * u ^ ((1 : ℝ) / (m : ℝ))) ∂U = ∫⁻ u in Ioo 0 1, ψ (r * u ^ ((1 : ℝ) / (m : ℝ))) := by
    unfold U
    rw [Measure.restrict_congr_set Ioo_ae_eq_Icc]
  have himg : (fun s : ℝ => (s / r) ^ m) '' Ioo 0 r = Ioo 0 1 := by
    ext y
    constructor
    · rintro ⟨s, ⟨h0, h1⟩, rfl⟩
      exact ⟨by positivity, pow_lt_one₀ (by positivity) ((div_lt_one hr).2 h1) hm.ne'⟩
    · rintro ⟨h0, h1⟩
      refine ⟨r * y ^ ((1 : ℝ) / m), ⟨by positivity, ?_⟩, ?_⟩
      · have : y ^ ((1 : ℝ) / m) < 1 := Real.rpow_lt_one h0.le h1 (by positivity)
        nlinarith
      · show (r * y ^ ((1 : ℝ) / m) / r) ^ m = y
        rw [mul_div_cancel_left₀ _ hr.ne', one_div, Real.rpow_inv_natCast_pow h0.le hm.ne']
  have hinj : InjOn (fun s : ℝ => (s / r) ^ m) (Ioo 0 r) := by
    intro a ha b hb h
    have h1 := (pow_left_inj₀ (div_pos ha.1 hr).le (div_pos hb.1 hr).le hm.ne').1 h
    exact (div_left_inj' hr.ne').1 h1
  have hm' : (0 : ℝ) < m := Nat.cast_pos.2 hm
  rw [hU, ← himg, lintegral_image_eq_lintegral_abs_deriv_mul measurableSet_Ioo
    (f' := fun s => m * (s / r) ^ (m - 1) * (1 / r)) ?_ hinj,
    ← lintegral_const_mul' _ _ ENNReal.ofReal_ne_top]
  · refine setLIntegral_congr_fun measurableSet_Ioo fun s hs => ?_
    have hs0 := hs.1
    rw [one_div (m : ℝ), Real.pow_rpow_inv_natCast (by positivity) hm.ne', mul_div_cancel₀ _ hr.ne', ← mul_assoc,
      ← ENNReal.ofReal_mul (by positivity), abs_of_nonneg (by positivity)]
    congr 2
    obtain ⟨k, rfl⟩ : ∃ k, m = k + 1 := ⟨m - 1, by omega⟩
    rw [Nat.add_sub_cancel, div_pow, pow_succ]
    field_simp
  · intro s hs
    have h1 : HasDerivAt (fun s : ℝ => s / r) (1 / r) s := (hasDerivAt_id s).div_const r
    exact (h1.pow m).hasDerivWithinAt

/-- A linear substitution. -/
theorem lintegral_affine (a k : ℝ) (hk : 0 < k) (h : ℝ → ℝ≥0∞) :
    ∫⁻ θ in Ioo a (a + k), h θ = ENNReal.ofReal k * ∫⁻ v, h (a + k * v) ∂U := by
  have hU : ∫⁻ v, h (a + k * v) ∂U = ∫⁻ v in Ioo 0 1, h (a + k * v) := by
    unfold U
    rw [Measure.restrict_congr_set Ioo_ae_eq_Icc]
  have himg : (fun v : ℝ => a + k * v) '' Ioo 0 1 = Ioo a (a + k) := by
    ext y
    constructor
    · rintro ⟨v, ⟨h0, h1⟩, rfl⟩
      constructor
      · show a < a + k * v
        nlinarith
      · show a + k * v < a + k
        nlinarith
    · rintro ⟨h0, h1⟩
      refine ⟨(y - a) / k, ⟨div_pos (by linarith) hk, (div_lt_one hk).2 (by linarith)⟩, ?_⟩
      show a + k * ((y - a) / k) = y
      rw [mul_div_cancel₀ _ hk.ne']
      ring
  have hinj : InjOn (fun v : ℝ => a + k * v) (Ioo 0 1) := by
    intro x _ y _ h
    have : k * x = k * y := add_left_cancel h
    exact mul_left_cancel₀ hk.ne' this
  rw [hU, ← himg, lintegral_image_eq_lintegral_abs_deriv_mul measurableSet_Ioo (f' := fun _ => k) ?_ hinj,
    ← lintegral_const_mul' _ _ ENNReal.ofReal_ne_top, abs_of_pos hk]
  intro v _
  have : HasDerivAt (fun v : ℝ => a + k * v) (k * 1) v := ((hasDerivAt_id v).const_mul k).const_add a
  rw [mul_one] at this
  exact this.hasDerivWithinAt

/-- Polar coordinates of the plane. -/
theorem lintegral_polar {f : ℝ → ℝ → ℝ≥0∞} (hf : Measurable fun q : ℝ × ℝ => f q.1 q.2) :
    ∫⁻ a, ∫⁻ b, f a b =
      ∫⁻ ρ in Ioi 0, ENNReal.ofReal ρ *
        ∫⁻ θ in Ioo (-Real.pi) Real.pi, f (ρ * Real.cos θ) (ρ * Real.sin θ) := by
  have hpolar : Measurable fun p : ℝ × ℝ => ENNReal.ofReal p.1 * f (p.1 * Real.cos p.2) (p.1 * Real.sin p.2) := by
    refine (ENNReal.measurable_ofReal.comp measurable_fst).mul
      (hf.comp (g := fun q : ℝ × ℝ => f q.1 q.2) (f := fun p : ℝ × ℝ => (p.1 * Real.cos p.2, p.1 * Real.sin p.2)) ?_)
    exact (measurable_fst.mul (Real.measurable_cos.comp measurable_snd)).prodMk
      (measurable_fst.mul (Real.measurable_sin.comp measurable_snd))
  have h1 : ∫⁻ a, ∫⁻ b, f a b = ∫⁻ q : ℝ × ℝ, f q.1 q.2 := by
    rw [Measure.volume_eq_prod, lintegral_prod _ hf.aemeasurable]
  rw [h1, ← lintegral_comp_polarCoord_symm]
  have ht : polarCoord.target = Ioi (0 : ℝ) ×ˢ Ioo (-Real.pi) Real.pi := rfl
  simp only [smul_eq_mul, polarCoord_symm_apply]
  rw [ht, Measure.volume_eq_prod, ← Measure.prod_restrict, lintegral_prod _ hpolar.aemeasurable]
  refine setLIntegral_congr_fun measurableSet_Ioi fun ρ hρ => ?_
  exact lintegral_const_mul' _ _ ENNReal.ofReal_ne_top

/-- Polar coordinates of the plane, with the angle as a uniform number. -/
theorem lintegral_plane {f : ℝ → ℝ → ℝ≥0∞} (hf : Measurable fun q : ℝ × ℝ => f q.1 q.2) :
    ∫⁻ a, ∫⁻ b, f a b =
      ∫⁻ ρ in Ioi 0, ENNReal.ofReal ρ *
        (ENNReal.ofReal (2 * Real.pi) *
          ∫⁻ v, f (ρ * Real.cos (2 * Real.pi * v)) (ρ * Real.sin (2 * Real.pi * v)) ∂U) := by
  rw [lintegral_polar hf]
  refine setLIntegral_congr_fun measurableSet_Ioi fun ρ hρ => ?_
  congr 1
  rw [Measure.restrict_congr_set Ioo_ae_eq_Ioc]
  have hper := (isAddFundamentalDomain_Ioc Real.two_pi_pos (-Real.pi)).setLIntegral_eq
    (isAddFundamentalDomain_Ioc Real.two_pi_pos 0)
    (fun θ => f (ρ * Real.cos θ) (ρ * Real.sin θ)) (by
      rintro ⟨g, hg⟩ θ
      obtain ⟨k, rfl⟩ := AddSubgroup.mem_zmultiples_iff.1 hg
      show f (ρ * Real.cos (k • (2 * Real.pi) + θ)) (ρ * Real.sin (k • (2 * Real.pi) + θ)) = _
      rw [zsmul_eq_mul, add_comm, Real.cos_add_int_mul_two_pi, Real.sin_add_int_mul_two_pi])
  rw [show -Real.pi + 2 * Real.pi = Real.pi by ring, zero_add] at hper
  rw [hper, Measure.restrict_congr_set Ioo_ae_eq_Ioc.symm]
  have := lintegral_affine 0 (2 * Real.pi) Real.two_pi_pos fun θ => f (ρ * Real.cos θ) (ρ * Real.sin θ)
  simpa only [zero_add] using this

/-! ## Polar coordinates -/

/-- The sum of the squares of the coordinates. -/
def nsq {m : Nat} (z : Fin m → ℝ) : ℝ := ∑ i, z i ^ 2

theorem nsq_nonneg {m : Nat} (z : Fin m → ℝ) : 0 ≤ nsq z := Finset.sum_nonneg fun _ _ => sq_nonneg _

theorem measurable_nsq {m : Nat} : Measurable (nsq (m := m)) :=
  Finset.measurable_sum _ fun i _ => (measurable_pi_apply i).pow_const 2

theorem nsq_smul {m : Nat} (s : ℝ) (z : Fin m → ℝ) : nsq (s • z) = s ^ 2 * nsq z := by
  unfold nsq
  rw [Finset.mul_sum]
  refine Finset.sum_congr rfl fun i _ => ?_
  rw [Pi.smul_apply, smul_eq_mul, mul_pow]

theorem nsq_app {m : Nat} (z : Fin m → ℝ) (a b : ℝ) : nsq (app z a b) = nsq z + a ^ 2 + b ^ 2 := by
  unfold nsq app
  rw [Fin.sum_univ_castSucc, Fin.sum_univ_castSucc]
  simp

theorem smul_app {m : Nat} (s : ℝ) (z : Fin m → ℝ) (a b : ℝ) : s • app z a b = app (s • z) (s * a) (s * b) := by
  funext i
  unfold app
  refine Fin.lastCases ?_ (fun j => ?_) i
  · simp
  · refine Fin.lastCases ?_ (fun k => ?_) j
    · simp
    · simp

/-- The uniform distribution on the unit cube. -/
def cube (D : Nat) : Measure (Fin D → ℝ) := Measure.pi fun _ => U

instance (D : Nat) : IsProbabilityMeasure (cube D) := by unfold cube; infer_instance

/-- Integrals over the region `H` of `ℝ^m` in terms of a radius and the point `x p` of the sphere for uniform
`p`. -/
def Polar {D m : Nat} (H : Set (Fin m → ℝ)) (x : (Fin D → ℝ) → Fin m → ℝ) (C : ℝ≥0∞) : Prop :=
  ∀ g : (Fin m → ℝ) → ℝ≥0∞, Measurable g →
    ∫⁻ w in H, g w = C * ∫⁻ r in Ioi 0, ENNReal.ofReal (r ^ (m - 1)) * ∫⁻ p, g (r • x p) ∂(cube D)

/-- One pass of the loop on a point of the sphere. -/
def ext {m : Nat} (x : Fin m → ℝ) (u v : ℝ) : Fin (m + 2) → ℝ :=
  app ((u ^ ((1 : ℝ) / (m : ℝ))) • x)
    (Real.sqrt (max 0 (1 - nsq ((u ^ ((1 : ℝ) / (m : ℝ))) • x))) * Real.cos (2 * Real.pi * v))
    (Real.sqrt (max 0 (1 - nsq ((u ^ ((1 : ℝ) / (m : ℝ))) • x))) * Real.sin (2 * Real.pi * v))

theorem measurable_ext {m : Nat} {α : Type*} [MeasurableSpace α] {z : α → Fin m → ℝ} {u v : α → ℝ}
    (hz : Measurable z) (hu : Measurable u) (hv : Measurable v) : Measurable fun t => ext (z t) (u t) (v t) := by
  have hs : Measurable fun t => (u t ^ ((1 : ℝ) / (m : ℝ))) • z t :=
    (hu.pow_const _).smul hz
  have hq : Measurable fun t => Real.sqrt (max 0 (1 - nsq ((u t ^ ((1 : ℝ) / (m : ℝ))) • z t))) :=
    (measurable_const.max (measurable_const.sub (measurable_nsq.comp hs))).sqrt
  exact measurable_app hs (hq.mul (Real.measurable_cos.comp (measurable_const.mul hv)))
    (hq.mul (Real.measurable_sin.comp (measurable_const.mul hv)))

theorem continuous_nsq {m : Nat} : Continuous (nsq (m := m)) := by
  unfold nsq
  fun_prop

theorem continuous_ext {m : Nat} (hm : 0 < m) {α : Type*} [TopologicalSpace α] {z : α → Fin m → ℝ} {u v : α → ℝ}
    (hz : Continuous z) (hu : Continuous u) (hv : Continuous v) : Continuous fun t => ext (z t) (u t) (v t) := by
  have hp : Continuous fun t => u t ^ ((1 : ℝ) / (m : ℝ)) :=
    hu.rpow_const fun t => Or.inr (by positivity)
  have hs : Continuous fun t => (u t ^ ((1 : ℝ) / (m : ℝ))) • z t := hp.smul hz
  have hq : Continuous fun t => Real.sqrt (max 0 (1 - nsq ((u t ^ ((1 : ℝ) / (m : ℝ))) • z t))) :=
    (continuous_const.max (continuous_const.sub (continuous_nsq.comp hs))).sqrt
  exact continuous_app hs (hq.mul (Real.continuous_cos.comp (continuous_const.mul hv)))
    (hq.mul (Real.continuous_sin.comp (continuous_const.mul hv)))

theorem ext_unit {m : Nat} (hm : 0 < m) {x : Fin m → ℝ} (hx : nsq x = 1) {u v : ℝ} (hu : 0 ≤ u) (hu1 : u ≤ 1) :
    nsq (ext x u v) = 1 := by
  unfold ext
  rw [nsq_app, mul_pow, mul_pow, add_assoc, ← mul_add, Real.cos_sq_add_sin_sq, mul_one, nsq_smul, hx, mul_one]
  have h1 : u ^ ((1 : ℝ) / (m : ℝ)) ≤ 1 := Real.rpow_le_one hu hu1 (by positivity)
  have h0 : 0 ≤ u ^ ((1 : ℝ) / (m : ℝ)) := Real.rpow_nonneg hu _
  rw [Real.sq_sqrt (le_max_left _ _), max_eq_right (by nlinarith)]
  ring

theorem U_ae : ∀ᵐ u ∂U, 0 ≤ u ∧ u ≤ 1 := by
  unfold U
  filter_upwards [ae_restrict_mem measurableSet_Icc] with u hu using ⟨hu.1, hu.2⟩

/-- The induction step. -/
theorem Polar.step {D m : Nat} (hm : 0 < m) {H : Set (Fin m → ℝ)} {H' : Set (Fin (m + 2) → ℝ)}
    (hHm : MeasurableSet H) (hHm' : MeasurableSet H') (hH : ∀ z a b, app z a b ∈ H' ↔ z ∈ H)
    {x : (Fin D → ℝ) → Fin m → ℝ} (hu : ∀ᵐ p ∂(cube D), nsq (x p) = 1)
    {x' : (Fin (D + 2) → ℝ) → Fin (m + 2) → ℝ} (hx'm : Measurable x')
    (hx' : ∀ p u v, x' (app p u v) = ext (x p) u v)
    {C : ℝ≥0∞} (h : Polar H x C) :
    Polar H' x' (C * (ENNReal.ofReal (1 / m) * ENNReal.ofReal (2 * Real.pi))) := by
  intro g hg
  -- the plane of the two new coordinates
  set Φ : (Fin m → ℝ) → ℝ → ℝ≥0∞ := fun z ρ =>
    ∫⁻ v, g (app z (ρ * Real.cos (2 * Real.pi * v)) (ρ * Real.sin (2 * Real.pi * v))) ∂U with hΦ
  set T := ENNReal.ofReal (2 * Real.pi) with hT
  have hΦm : Measurable fun q : (Fin m → ℝ) × ℝ => Φ q.1 q.2 := by
    have : Measurable fun q : ((Fin m → ℝ) × ℝ) × ℝ =>
        g (app q.1.1 (q.1.2 * Real.cos (2 * Real.pi * q.2)) (q.1.2 * Real.sin (2 * Real.pi * q.2))) :=
      hg.comp (measurable_app (measurable_fst.comp measurable_fst)
        ((measurable_snd.comp measurable_fst).mul (Real.measurable_cos.comp (measurable_const.mul measurable_snd)))
        ((measurable_snd.comp measurable_fst).mul (Real.measurable_sin.comp (measurable_const.mul measurable_snd))))
    exact this.lintegral_prod_right'
  -- with the radius of the whole vector
  set Ψ : ℝ → (Fin m → ℝ) → ℝ≥0∞ := fun r z =>
    (Ioi (Real.sqrt (nsq z))).indicator (fun r => ENNReal.ofReal r * (T * Φ z (Real.sqrt (r ^ 2 - nsq z)))) r with hΨ
  have hΨm : Measurable fun q : (Fin m → ℝ) × ℝ => Ψ q.2 q.1 := by
    have hset : MeasurableSet {q : (Fin m → ℝ) × ℝ | Real.sqrt (nsq q.1) < q.2} :=
      measurableSet_lt (measurable_nsq.comp measurable_fst).sqrt measurable_snd
    have hf : Measurable fun q : (Fin m → ℝ) × ℝ =>
        ENNReal.ofReal q.2 * (T * Φ q.1 (Real.sqrt (q.2 ^ 2 - nsq q.1))) :=
      (ENNReal.measurable_ofReal.comp measurable_snd).mul (measurable_const.mul
        (hΦm.comp (g := fun q : (Fin m → ℝ) × ℝ => Φ q.1 q.2)
          (f := fun q : (Fin m → ℝ) × ℝ => (q.1, Real.sqrt (q.2 ^ 2 - nsq q.1)))
          (measurable_fst.prodMk
          ((measurable_snd.pow_const 2).sub (measurable_nsq.comp measurable_fst)).sqrt)))
    exact hf.indicator hset
  have hΨr : ∀ r, Measurable (Ψ r) := fun r =>
    hΨm.comp (g := fun q : (Fin m → ℝ) × ℝ => Ψ q.2 q.1) (f := fun z => (z, r))
      (measurable_id.prodMk measurable_const)
  have e1 : ∫⁻ w in H', g w = ∫⁻ z in H, ∫⁻ r in Ioi 0, Ψ r z := by
    rw [← lintegral_indicator hHm', ← lintegral_indicator hHm, volume_pi,
      lintegral_app volume (hg.indicator hHm')]
    refine lintegral_congr fun z => ?_
    by_cases hz : z ∈ H
    · rw [indicator_of_mem hz]
      have : ∀ a b, H'.indicator g (app z a b) = g (app z a b) := fun a b => indicator_of_mem ((hH z a b).2 hz) _
      simp only [this]
      rw [lintegral_plane (f := fun a b => g (app z a b))
        (hg.comp (measurable_app measurable_const measurable_fst measurable_snd))]
      rw [lintegral_shift (Real.sqrt (nsq z)) (Real.sqrt_nonneg _)]
      rw [Real.sq_sqrt (nsq_nonneg z), lintegral_indicator measurableSet_Ioi,
        Measure.restrict_restrict measurableSet_Ioi, inter_eq_left.2 (Ioi_subset_Ioi (Real.sqrt_nonneg _))]
    · rw [indicator_of_notMem hz]
      have : ∀ a b, H'.indicator g (app z a b) = 0 := fun a b => indicator_of_notMem (fun h => hz ((hH z a b).1 h)) _
      simp [this]
  have e2 : ∫⁻ z in H, ∫⁻ r in Ioi 0, Ψ r z = ∫⁻ r in Ioi 0, ∫⁻ z in H, Ψ r z :=
    lintegral_lintegral_swap (f := fun z r => Ψ r z) hΨm.aemeasurable
  have e3 : ∀ r ∈ Ioi (0 : ℝ), ∫⁻ z in H, Ψ r z =
      C * (ENNReal.ofReal (1 / m) * T) * (ENNReal.ofReal (r ^ (m + 2 - 1)) * ∫⁻ q, g (r • x' q) ∂(cube (D + 2))) := by
    intro r hr
    have hr0 : 0 < r := hr
    rw [h (Ψ r) (hΨr r)]
    have f1 : ∀ s ∈ Ioi (0 : ℝ), ENNReal.ofReal (s ^ (m - 1)) * ∫⁻ p, Ψ r (s • x p) ∂(cube D) =
        (Iio r).indicator (fun s => ENNReal.ofReal (s ^ (m - 1)) *
          (ENNReal.ofReal r * (T * ∫⁻ p, Φ (s • x p) (Real.sqrt (r ^ 2 - s ^ 2)) ∂(cube D)))) s := by
      intro s hs
      have hs0 : 0 < s := hs
      have : ∀ᵐ p ∂(cube D), Ψ r (s • x p) = (Iio r).indicator (fun s =>
          ENNReal.ofReal r * (T * Φ (s • x p) (Real.sqrt (r ^ 2 - s ^ 2)))) s := by
        filter_upwards [hu] with p hp
        simp only [hΨ, indicator, mem_Ioi, mem_Iio, nsq_smul, hp, mul_one, Real.sqrt_sq hs0.le]
      rw [lintegral_congr_ae this]
      by_cases hsr : s < r
      · simp only [indicator, mem_Iio, if_pos hsr]
        rw [lintegral_const_mul' _ _ ENNReal.ofReal_ne_top, lintegral_const_mul' _ _ ENNReal.ofReal_ne_top]
      · simp only [indicator, mem_Iio, if_neg hsr, lintegral_zero, mul_zero]
    rw [setLIntegral_congr_fun measurableSet_Ioi f1, lintegral_indicator measurableSet_Iio,
      Measure.restrict_restrict measurableSet_Iio, show Iio r ∩ Ioi 0 = Ioo 0 r by ext; simp [and_comm],
      lintegral_root m hm r hr0]
    have f2 : ∫⁻ q, g (r • x' q) ∂(cube (D + 2)) =
        ∫⁻ u, ∫⁻ p, Φ ((r * u ^ ((1 : ℝ) / (m : ℝ))) • x p)
          (Real.sqrt (r ^ 2 - (r * u ^ ((1 : ℝ) / (m : ℝ))) ^ 2)) ∂(cube D) ∂U := by
      unfold cube
      rw [lintegral_app U (F := fun q => g (r • x' q)) (hg.comp (hx'm.const_smul r))]
      rw [lintegral_lintegral_swap]
      · refine lintegral_congr_ae ?_
        filter_upwards [U_ae] with u huu
        refine lintegral_congr_ae ?_
        filter_upwards [hu] with p hp
        refine lintegral_congr fun v => ?_
        have h1 : u ^ ((1 : ℝ) / (m : ℝ)) ≤ 1 := Real.rpow_le_one huu.1 huu.2 (by positivity)
        have h0 : 0 ≤ u ^ ((1 : ℝ) / (m : ℝ)) := Real.rpow_nonneg huu.1 _
        have hroot : Real.sqrt (r ^ 2 - (r * u ^ ((1 : ℝ) / (m : ℝ))) ^ 2) =
            r * Real.sqrt (max 0 (1 - nsq ((u ^ ((1 : ℝ) / (m : ℝ))) • x p))) := by
          rw [nsq_smul, hp, mul_one, max_eq_right (by nlinarith), mul_pow,
            show r ^ 2 - r ^ 2 * (u ^ ((1 : ℝ) / (m : ℝ))) ^ 2 = r ^ 2 * (1 - (u ^ ((1 : ℝ) / (m : ℝ))) ^ 2) by ring,
            Real.sqrt_mul (sq_nonneg r), Real.sqrt_sq hr0.le]
        rw [hx', ext, smul_app, hroot, smul_smul]
        simp only [mul_assoc]
      · have : Measurable fun q : ((Fin D → ℝ) × ℝ) × ℝ => g (r • x' (app q.1.1 q.1.2 q.2)) :=
          hg.comp ((hx'm.comp (measurable_app (measurable_fst.comp measurable_fst)
            (measurable_snd.comp measurable_fst) measurable_snd)).const_smul r)
        exact (this.lintegral_prod_right').aemeasurable
    rw [f2, lintegral_const_mul' _ _ ENNReal.ofReal_ne_top, lintegral_const_mul' _ _ ENNReal.ofReal_ne_top]
    have hmul : ENNReal.ofReal (r ^ m / m) * ENNReal.ofReal r =
        ENNReal.ofReal (1 / m) * ENNReal.ofReal (r ^ (m + 2 - 1)) := by
      rw [← ENNReal.ofReal_mul (by positivity), ← ENNReal.ofReal_mul (by positivity)]
      congr 1
      rw [show m + 2 - 1 = m + 1 by omega, pow_succ]
      ring
    rw [← mul_assoc (ENNReal.ofReal (r ^ m / m)), hmul]
    ring
  rw [e1, e2, setLIntegral_congr_fun measurableSet_Ioi e3, lintegral_const_mul]
  refine ((ENNReal.measurable_ofReal.comp (measurable_id.pow_const _))).mul ?_
  have : Measurable fun q : ℝ × (Fin (D + 2) → ℝ) => g (q.1 • x' q.2) :=
    hg.comp (measurable_fst.smul (hx'm.comp measurable_snd))
  exact this.lintegral_prod_right'

/-! ## The starting points -/

/-- The vector without coordinates. -/
def e0 : Fin 0 → ℝ := fun i => i.elim0

theorem lintegral_fin0 (μ : Measure ℝ) [SigmaFinite μ] (c : (Fin 0 → ℝ) → ℝ≥0∞) :
    ∫⁻ z, c z ∂(Measure.pi fun _ : Fin 0 => μ) = c e0 := by
  have : ∀ z, c z = c e0 := fun z => by rw [Subsingleton.elim z e0]
  rw [lintegral_congr this, lintegral_const, Measure.pi_empty_univ, mul_one]

theorem lintegral_one (μ : Measure ℝ) [SigmaFinite μ] {F : (Fin 1 → ℝ) → ℝ≥0∞} (hF : Measurable F) :
    ∫⁻ w, F w ∂(Measure.pi fun _ : Fin 1 => μ) = ∫⁻ a, F (Fin.snoc (α := fun _ => ℝ) e0 a) ∂μ := by
  rw [lintegral_snoc μ hF, lintegral_fin0]

theorem lintegral_two (μ : Measure ℝ) [SigmaFinite μ] {F : (Fin 2 → ℝ) → ℝ≥0∞} (hF : Measurable F) :
    ∫⁻ w, F w ∂(Measure.pi fun _ : Fin 2 => μ) = ∫⁻ a, ∫⁻ b, F (app e0 a b) ∂μ ∂μ := by
  rw [lintegral_app μ hF, lintegral_fin0]

theorem smul_snoc {n : Nat} (s : ℝ) (z : Fin n → ℝ) (a : ℝ) :
    s • Fin.snoc (α := fun _ => ℝ) z a = Fin.snoc (α := fun _ => ℝ) (s • z) (s * a) := by
  funext i
  refine Fin.lastCases ?_ (fun j => ?_) i
  · simp
  · simp

theorem smul_e0 (s : ℝ) : s • e0 = e0 := Subsingleton.elim _ _

/-- The region: everything, or positive first coordinate. -/
def region (half : Bool) (n : Nat) : Set (Fin (n + 1) → ℝ) := {w | half = true → 0 < w 0}

theorem measurableSet_region (half : Bool) (n : Nat) : MeasurableSet (region half n) := by
  cases half with
  | false => simp [region]
  | true =>
    simp only [region, forall_const]
    exact measurableSet_lt measurable_const (measurable_pi_apply 0)

theorem region_false (n : Nat) : region false n = univ := by
  ext; simp [region]

theorem app_zero {n : Nat} (z : Fin (n + 1) → ℝ) (a b : ℝ) : app z a b 0 = z 0 := by
  have h1 : (0 : Fin (n + 1 + 2)) = Fin.castSucc (Fin.castSucc 0) := rfl
  unfold app
  rw [h1, Fin.snoc_castSucc, Fin.snoc_castSucc]

theorem region_app (half : Bool) {n : Nat} (z : Fin (n + 1) → ℝ) (a b : ℝ) :
    app z a b ∈ region half (n + 2) ↔ z ∈ region half n := by
  show (half = true → 0 < app z a b 0) ↔ (half = true → 0 < z 0)
  rw [app_zero]

/-- Half sphere, no angle: the point `1`. -/
theorem polar_half_zero : Polar (D := 0) (m := 1) (region true 0) (fun _ => Fin.snoc (α := fun _ => ℝ) e0 1) 1 := by
  intro g hg
  have hm := measurableSet_region true 0
  rw [← lintegral_indicator hm, volume_pi, lintegral_one volume (hg.indicator hm), one_mul,
    ← lintegral_indicator measurableSet_Ioi]
  refine lintegral_congr fun a => ?_
  have h0 : (Fin.snoc (α := fun _ => ℝ) e0 a : Fin 1 → ℝ) 0 = a := Fin.snoc_last (α := fun _ => ℝ) a e0
  have hiff : (Fin.snoc (α := fun _ => ℝ) e0 a : Fin 1 → ℝ) ∈ region true 0 ↔ 0 < a := by
    show (true = true → 0 < (Fin.snoc (α := fun _ => ℝ) e0 a : Fin 1 → ℝ) 0) ↔ 0 < a
    rw [h0]; simp
  by_cases ha : 0 < a
  · rw [indicator_of_mem (hiff.2 ha), indicator_of_mem (show a ∈ Ioi 0 from ha)]
    simp only [smul_snoc, smul_e0, mul_one, lintegral_const, measure_univ, Nat.sub_self, pow_zero,
      ENNReal.ofReal_one, one_mul]
  · rw [indicator_of_notMem (fun h => ha (hiff.1 h)), indicator_of_notMem (show a ∉ Ioi 0 from ha)]

theorem app_e0_zero (a b : ℝ) : app e0 a b 0 = a := by
  have h1 : (0 : Fin (0 + 2)) = Fin.castSucc (Fin.last 0) := rfl
  unfold app
  rw [h1, Fin.snoc_castSucc, Fin.snoc_last]

/-- Half sphere, one angle. -/
theorem polar_half_one : Polar (D := 1) (m := 2) (region true 1)
    (fun p => app e0 (Real.cos (Real.pi * (p 0 - 1 / 2))) (Real.sin (Real.pi * (p 0 - 1 / 2))))
    (ENNReal.ofReal Real.pi) := by
  intro g hg
  have hm := measurableSet_region true 1
  have hmem : ∀ a b : ℝ, app e0 a b ∈ region true 1 ↔ 0 < a := by
    intro a b
    show (true = true → 0 < app e0 a b 0) ↔ _
    rw [app_e0_zero]; simp
  rw [← lintegral_indicator hm, volume_pi, lintegral_two volume (hg.indicator hm),
    lintegral_polar (f := fun a b => (region true 1).indicator g (app e0 a b))
      ((hg.indicator hm).comp (measurable_app measurable_const measurable_fst measurable_snd)),
    ← lintegral_const_mul' _ _ ENNReal.ofReal_ne_top]
  refine setLIntegral_congr_fun measurableSet_Ioi fun r hr => ?_
  have hr0 : (0 : ℝ) < r := hr
  have hpi := Real.pi_pos
  have h1 : ∫⁻ θ in Ioo (-Real.pi) Real.pi,
      (region true 1).indicator g (app e0 (r * Real.cos θ) (r * Real.sin θ)) =
      ∫⁻ θ in Ioo (-(Real.pi / 2)) (-(Real.pi / 2) + Real.pi), g (app e0 (r * Real.cos θ) (r * Real.sin θ)) := by
    have hsub : Ioo (-(Real.pi / 2)) (-(Real.pi / 2) + Real.pi) ∩ Ioo (-Real.pi) Real.pi =
        Ioo (-(Real.pi / 2)) (-(Real.pi / 2) + Real.pi) :=
      inter_eq_left.2 (Ioo_subset_Ioo (by linarith) (by linarith))
    rw [← hsub, ← Measure.restrict_restrict (measurableSet_Ioo (a := -(Real.pi / 2)) (b := -(Real.pi / 2) + Real.pi)),
      ← lintegral_indicator (measurableSet_Ioo (a := -(Real.pi / 2)) (b := -(Real.pi / 2) + Real.pi))]
    refine setLIntegral_congr_fun measurableSet_Ioo fun θ hθ => ?_
    have hiff : (0 < r * Real.cos θ) ↔ θ ∈ Ioo (-(Real.pi / 2)) (-(Real.pi / 2) + Real.pi) := by
      rw [mul_pos_iff_of_pos_left hr0, show -(Real.pi / 2) + Real.pi = Real.pi / 2 by ring]
      constructor
      · intro hc
        by_contra hn
        rw [mem_Ioo, not_and_or, not_lt, not_lt] at hn
        rcases hn with hn | hn
        · have := Real.cos_nonpos_of_pi_div_two_le_of_le (x := -θ) (by linarith) (by linarith [hθ.1])
          rw [Real.cos_neg] at this
          linarith
        · have := Real.cos_nonpos_of_pi_div_two_le_of_le (x := θ) hn (by linarith [hθ.2])
          linarith
      · exact Real.cos_pos_of_mem_Ioo
    by_cases hc : 0 < r * Real.cos θ
    · rw [indicator_of_mem ((hmem _ _).2 hc), indicator_of_mem (hiff.1 hc)]
    · rw [indicator_of_notMem (fun h => hc ((hmem _ _).1 h)), indicator_of_notMem (fun h => hc (hiff.2 h))]
  simp only
  rw [h1, lintegral_affine _ _ hpi]
  have h2 : ∫⁻ p, g (r • app e0 (Real.cos (Real.pi * (p 0 - 1 / 2))) (Real.sin (Real.pi * (p 0 - 1 / 2)))) ∂(cube 1) =
      ∫⁻ v, g (app e0 (r * Real.cos (-(Real.pi / 2) + Real.pi * v)) (r * Real.sin (-(Real.pi / 2) + Real.pi * v))) ∂U := by
    unfold cube
    rw [lintegral_one U]
    · refine lintegral_congr fun v => ?_
      have h0 : (Fin.snoc (α := fun _ => ℝ) e0 v : Fin 1 → ℝ) 0 = v := Fin.snoc_last (α := fun _ => ℝ) v e0
      rw [h0, smul_app, smul_e0, show Real.pi * (v - 1 / 2) = -(Real.pi / 2) + Real.pi * v by ring]
    · have ha : Measurable fun p : Fin 1 → ℝ => Real.pi * (p 0 - 1 / 2) :=
        measurable_const.mul ((measurable_pi_apply 0).sub measurable_const)
      exact hg.comp ((measurable_app measurable_const (Real.measurable_cos.comp ha)
        (Real.measurable_sin.comp ha)).const_smul r)
  rw [h2, show 2 - 1 = 1 from rfl, pow_one]
  ring

/-- Full sphere, one angle. -/
theorem polar_full_one : Polar (D := 1) (m := 2) (region false 1)
    (fun p => app e0 (Real.cos (2 * Real.pi * p 0)) (Real.sin (2 * Real.pi * p 0)))
    (ENNReal.ofReal (2 * Real.pi)) := by
  intro g hg
  rw [region_false, Measure.restrict_univ, volume_pi, lintegral_two volume hg,
    lintegral_plane (f := fun a b => g (app e0 a b))
      (hg.comp (measurable_app measurable_const measurable_fst measurable_snd)),
    ← lintegral_const_mul' _ _ ENNReal.ofReal_ne_top]
  refine setLIntegral_congr_fun measurableSet_Ioi fun r hr => ?_
  have h2 : ∫⁻ p, g (r • app e0 (Real.cos (2 * Real.pi * p 0)) (Real.sin (2 * Real.pi * p 0))) ∂(cube 1) =
      ∫⁻ v, g (app e0 (r * Real.cos (2 * Real.pi * v)) (r * Real.sin (2 * Real.pi * v))) ∂U := by
    unfold cube
    rw [lintegral_one U]
    · refine lintegral_congr fun v => ?_
      have h0 : (Fin.snoc (α := fun _ => ℝ) e0 v : Fin 1 → ℝ) 0 = v := Fin.snoc_last (α := fun _ => ℝ) v e0
      rw [h0, smul_app, smul_e0]
    · have ha : Measurable fun p : Fin 1 → ℝ => 2 * Real.pi * p 0 :=
        measurable_const.mul (measurable_pi_apply 0)
      exact hg.comp ((measurable_app measurable_const (Real.measurable_cos.comp ha)
        (Real.measurable_sin.comp ha)).const_smul r)
  simp only
  rw [h2, show 2 - 1 = 1 from rfl, pow_one]
  ring

/-- Full sphere, two angles (Archimedes). -/
theorem polar_full_two : Polar (D := 2) (m := 3) (region false 2)
    (fun p => Fin.snoc (α := fun _ => ℝ)
      (app e0 (Real.sin (Real.arccos (2 * p 0 - 1)) * Real.cos (2 * Real.pi * p 1))
        (Real.sin (Real.arccos (2 * p 0 - 1)) * Real.sin (2 * Real.pi * p 1)))
      (Real.cos (Real.arccos (2 * p 0 - 1))))
    (ENNReal.ofReal (2 * Real.pi) * ENNReal.ofReal 2) := by
  intro g hg
  set Φ : ℝ → ℝ → ℝ≥0∞ := fun t ρ =>
    ∫⁻ v, g (Fin.snoc (α := fun _ => ℝ)
      (app e0 (ρ * Real.cos (2 * Real.pi * v)) (ρ * Real.sin (2 * Real.pi * v))) t) ∂U with hΦ
  set T := ENNReal.ofReal (2 * Real.pi) with hT
  have hgm : ∀ {α : Type} [MeasurableSpace α] {a b t : α → ℝ}, Measurable a → Measurable b → Measurable t →
      Measurable fun q => g (Fin.snoc (α := fun _ => ℝ) (app e0 (a q) (b q)) (t q)) := by
    intro α _ a b t ha hb ht
    exact hg.comp (measurable_snoc.comp ((measurable_app measurable_const ha hb).prodMk ht))
  have hΦm : Measurable fun q : ℝ × ℝ => Φ q.1 q.2 := by
    have : Measurable fun q : (ℝ × ℝ) × ℝ => g (Fin.snoc (α := fun _ => ℝ)
        (app e0 (q.1.2 * Real.cos (2 * Real.pi * q.2)) (q.1.2 * Real.sin (2 * Real.pi * q.2))) q.1.1) :=
      hgm ((measurable_snd.comp measurable_fst).mul (Real.measurable_cos.comp (measurable_const.mul measurable_snd)))
        ((measurable_snd.comp measurable_fst).mul (Real.measurable_sin.comp (measurable_const.mul measurable_snd)))
        (measurable_fst.comp measurable_fst)
    exact this.lintegral_prod_right'
  have e1 : ∫⁻ w in region false 2, g w = ∫⁻ t, ∫⁻ ρ in Ioi 0, ENNReal.ofReal ρ * (T * Φ t ρ) := by
    rw [region_false, Measure.restrict_univ, volume_pi, lintegral_snoc volume hg,
      lintegral_two volume (F := fun z => ∫⁻ t, g (Fin.snoc (α := fun _ => ℝ) z t))
        ((hg.comp measurable_snoc).lintegral_prod_right'),
      lintegral_plane (f := fun a b => ∫⁻ t, g (Fin.snoc (α := fun _ => ℝ) (app e0 a b) t)),
      ← lintegral_lintegral_swap (f := fun ρ t => ENNReal.ofReal ρ * (T * Φ t ρ))]
    · refine setLIntegral_congr_fun measurableSet_Ioi fun ρ hρ => ?_
      rw [lintegral_const_mul' _ _ ENNReal.ofReal_ne_top, lintegral_const_mul' _ _ ENNReal.ofReal_ne_top,
        lintegral_lintegral_swap]
      exact (hgm (measurable_const.mul (Real.measurable_cos.comp (measurable_const.mul measurable_fst)))
        (measurable_const.mul (Real.measurable_sin.comp (measurable_const.mul measurable_fst)))
        measurable_snd).aemeasurable
    · exact ((ENNReal.measurable_ofReal.comp measurable_fst).mul (measurable_const.mul
        (hΦm.comp measurable_swap))).aemeasurable
    · have : Measurable fun q : (ℝ × ℝ) × ℝ => g (Fin.snoc (α := fun _ => ℝ) (app e0 q.1.1 q.1.2) q.2) :=
        hgm (measurable_fst.comp measurable_fst) (measurable_snd.comp measurable_fst) measurable_snd
      exact this.lintegral_prod_right'
  set Ψ : ℝ → ℝ → ℝ≥0∞ := fun t r =>
    (Ioi |t|).indicator (fun r => ENNReal.ofReal r * (T * Φ t (Real.sqrt (r ^ 2 - t ^ 2)))) r with hΨ
  have hΨm : Measurable fun q : ℝ × ℝ => Ψ q.1 q.2 := by
    have hset : MeasurableSet {q : ℝ × ℝ | |q.1| < q.2} :=
      measurableSet_lt (continuous_abs.measurable.comp measurable_fst) measurable_snd
    have hf : Measurable fun q : ℝ × ℝ => ENNReal.ofReal q.2 * (T * Φ q.1 (Real.sqrt (q.2 ^ 2 - q.1 ^ 2))) :=
      (ENNReal.measurable_ofReal.comp measurable_snd).mul (measurable_const.mul
        (hΦm.comp (g := fun q : ℝ × ℝ => Φ q.1 q.2)
          (f := fun q : ℝ × ℝ => (q.1, Real.sqrt (q.2 ^ 2 - q.1 ^ 2)))
          (measurable_fst.prodMk ((measurable_snd.pow_const 2).sub (measurable_fst.pow_const 2)).sqrt)))
    exact hf.indicator hset
  have e2 : ∫⁻ t, ∫⁻ ρ in Ioi 0, ENNReal.ofReal ρ * (T * Φ t ρ) = ∫⁻ r in Ioi 0, ∫⁻ t, Ψ t r := by
    rw [← lintegral_lintegral_swap (f := fun t r => Ψ t r) hΨm.aemeasurable]
    refine lintegral_congr fun t => ?_
    rw [lintegral_shift |t| (abs_nonneg t), sq_abs, lintegral_indicator measurableSet_Ioi,
      Measure.restrict_restrict measurableSet_Ioi, inter_eq_left.2 (Ioi_subset_Ioi (abs_nonneg t))]
  rw [e1, e2, ← lintegral_const_mul']
  · refine setLIntegral_congr_fun measurableSet_Ioi fun r hr => ?_
    have hr0 : (0 : ℝ) < r := hr
    have h1 : ∫⁻ t, Ψ t r = ∫⁻ t in Ioo (-r) (-r + 2 * r), ENNReal.ofReal r * (T * Φ t (Real.sqrt (r ^ 2 - t ^ 2))) := by
      rw [← lintegral_indicator measurableSet_Ioo]
      refine lintegral_congr fun t => ?_
      simp only [hΨ, indicator, mem_Ioi, mem_Ioo, abs_lt, show -r + 2 * r = r by ring]
    have h2 : ∫⁻ p, g (r • Fin.snoc (α := fun _ => ℝ)
        (app e0 (Real.sin (Real.arccos (2 * p 0 - 1)) * Real.cos (2 * Real.pi * p 1))
        (Real.sin (Real.arccos (2 * p 0 - 1)) * Real.sin (2 * Real.pi * p 1)))
        (Real.cos (Real.arccos (2 * p 0 - 1)))) ∂(cube 2) =
        ∫⁻ u, Φ (-r + 2 * r * u) (Real.sqrt (r ^ 2 - (-r + 2 * r * u) ^ 2)) ∂U := by
      unfold cube
      rw [lintegral_two U]
      · refine lintegral_congr_ae ?_
        filter_upwards [U_ae] with u hu
        refine lintegral_congr fun v => ?_
        have h0 : app e0 u v 0 = u := app_e0_zero u v
        have h1 : app e0 u v 1 = v := by
          show app e0 u v (Fin.last 1) = v
          unfold app
          rw [Fin.snoc_last]
        have hroot : Real.sqrt (r ^ 2 - (-r + 2 * r * u) ^ 2) = r * Real.sqrt (1 - (2 * u - 1) ^ 2) := by
          rw [show r ^ 2 - (-r + 2 * r * u) ^ 2 = r ^ 2 * (1 - (2 * u - 1) ^ 2) by ring,
            Real.sqrt_mul (sq_nonneg r), Real.sqrt_sq hr0.le]
        rw [h0, h1, smul_snoc, smul_app, smul_e0, Real.sin_arccos, hroot,
          Real.cos_arccos (by linarith [hu.1]) (by linarith [hu.2]),
          show r * (2 * u - 1) = -r + 2 * r * u by ring]
        simp only [mul_assoc]
      · have h0 : Measurable fun p : Fin 2 → ℝ => Real.arccos (2 * p 0 - 1) :=
          Real.measurable_arccos.comp ((measurable_const.mul (measurable_pi_apply 0)).sub measurable_const)
        have h1 : Measurable fun p : Fin 2 → ℝ => 2 * Real.pi * p 1 := measurable_const.mul (measurable_pi_apply 1)
        exact hg.comp ((measurable_snoc.comp ((measurable_app measurable_const
          ((Real.measurable_sin.comp h0).mul (Real.measurable_cos.comp h1))
          ((Real.measurable_sin.comp h0).mul (Real.measurable_sin.comp h1))).prodMk
          (Real.measurable_cos.comp h0))).const_smul r)
    simp only
    rw [h1, lintegral_affine _ _ (by linarith), h2, lintegral_const_mul' _ _ ENNReal.ofReal_ne_top,
      lintegral_const_mul' _ _ ENNReal.ofReal_ne_top, show 3 - 1 = 2 from rfl, sq r,
      ENNReal.ofReal_mul hr0.le, ENNReal.ofReal_mul (show (0 : ℝ) ≤ 2 by norm_num)]
    ring
  · exact ENNReal.mul_ne_top ENNReal.ofReal_ne_top ENNReal.ofReal_ne_top

end BT.SphereLaw
