import Verif.Spec.QuasiSearch
import Verif.Props.Equidist

/-!
# Near a stable direction nothing changes
-/

noncomputable section

open Filter Topology Set

namespace BT

open Spec

/-- `w'` shows at most the order of `w`, and considers the same positions. -/
structure Agrees (prec : ℝ) (X : Nat → Nat → ℝ) (R : List Nat) (w w' : List ℝ) : Prop where
  sweep : ∀ order, IsSweep X R w' order → IsSweep X R w order
  considered : ∀ k, Considered prec X R w' k ↔ Considered prec X R w k
  count : consideredCount prec X R w' = consideredCount prec X R w

theorem agrees_of {prec : ℝ} {X : Nat → Nat → ℝ} {R : List Nat} {w w' : List ℝ}
    (h1 : ∀ i ∈ R, ∀ j ∈ R, along w' (X i) ≤ along w' (X j) → along w (X i) ≤ along w (X j))
    (h2 : ∀ c ∈ R.zip R.tail, (prec < |along w' (X c.2) - along w' (X c.1)| ↔ prec < |along w (X c.2) - along w (X c.1)|)) :
    Agrees prec X R w w' := by
  refine ⟨?_, ?_, ?_⟩
  · rintro order ⟨hp, hs⟩
    refine ⟨hp, List.Pairwise.imp_of_mem (fun {i j} hi hj h => ?_) hs⟩
    exact h1 i (hp.mem_iff.1 hi) j (hp.mem_iff.1 hj) h
  · intro k
    unfold Considered
    refine exists_congr fun i => exists_congr fun j => and_congr_right fun hk => and_congr_right fun hi =>
      and_congr_right fun hj => ?_
    refine h2 (i, j) (List.mem_iff_getElem?.2 ⟨k - 1, ?_⟩)
    rw [List.getElem?_zip_eq_some]
    refine ⟨hi, ?_⟩
    rw [List.getElem?_tail, show k - 1 + 1 = k by omega]
    exact hj
  · unfold consideredCount
    refine congrArg List.length (List.filter_congr fun c hc => ?_)
    exact decide_eq_decide.2 (h2 c hc)

theorem along_ofFn {m : Nat} (x : Fin m → ℝ) (f : Nat → ℝ) : along (List.ofFn x) f = ∑ j : Fin m, f j * x j := by
  unfold along
  rw [List.length_ofFn, ← List.sum_ofFn]
  congr 1
  apply List.ext_getElem
  · simp
  · intro j h1 h2
    have : j < m := by simpa using h1
    simp [this]

theorem continuous_along {m : Nat} (f : Nat → ℝ) : Continuous fun x : Fin m → ℝ => along (List.ofFn x) f := by
  simp only [along_ofFn]
  fun_prop

theorem agrees_near {m : Nat} {prec : ℝ} {X : Nat → Nat → ℝ} {R : List Nat} {x : Fin m → ℝ}
    (h : Stable prec X R (List.ofFn x)) : ∀ᶠ x' in 𝓝 x, Agrees prec X R (List.ofFn x) (List.ofFn x') := by
  have e1 : ∀ᶠ x' in 𝓝 x, ∀ i ∈ R.toFinset, ∀ j ∈ R.toFinset,
      along (List.ofFn x) (X i) < along (List.ofFn x) (X j) → along (List.ofFn x') (X i) < along (List.ofFn x') (X j) := by
    refine (eventually_all_finset _).2 fun i _ => (eventually_all_finset _).2 fun j _ => ?_
    by_cases hlt : along (List.ofFn x) (X i) < along (List.ofFn x) (X j)
    · exact ((continuous_along (X i)).continuousAt.eventually_lt (continuous_along (X j)).continuousAt hlt).mono
        fun _ hx _ => hx
    · exact Eventually.of_forall fun _ hx => absurd hx hlt
  have e2 : ∀ᶠ x' in 𝓝 x, ∀ c ∈ (R.zip R.tail).toFinset,
      (prec < |along (List.ofFn x') (X c.2) - along (List.ofFn x') (X c.1)| ↔
        prec < |along (List.ofFn x) (X c.2) - along (List.ofFn x) (X c.1)|) := by
    refine (eventually_all_finset _).2 fun c hc => ?_
    have hcont : Continuous fun y : Fin m → ℝ => |along (List.ofFn y) (X c.2) - along (List.ofFn y) (X c.1)| :=
      ((continuous_along (X c.2)).sub (continuous_along (X c.1))).abs
    rcases lt_trichotomy |along (List.ofFn x) (X c.2) - along (List.ofFn x) (X c.1)| prec with hlt | heq | hgt
    · exact (hcont.continuousAt.eventually_lt continuousAt_const hlt).mono
        fun _ hx => ⟨fun h' => absurd h' hx.not_gt, fun h' => absurd h' hlt.not_gt⟩
    · obtain ⟨k, hk⟩ := List.mem_iff_getElem?.1 (List.mem_toFinset.1 hc)
      obtain ⟨hi, hj⟩ := List.getElem?_zip_eq_some.1 hk
      rw [List.getElem?_tail] at hj
      have hsame := h k c.1 c.2 hi hj heq
      rw [List.length_ofFn] at hsame
      have hz : ∀ y : Fin m → ℝ, along (List.ofFn y) (X c.2) = along (List.ofFn y) (X c.1) := by
        intro y
        rw [along_ofFn, along_ofFn]
        exact Finset.sum_congr rfl fun j _ => by rw [hsame j j.isLt]
      exact Eventually.of_forall fun y => by rw [hz y, hz x, sub_self, sub_self]
    · exact (continuousAt_const.eventually_lt hcont.continuousAt hgt).mono fun _ hx => ⟨fun _ => hgt, fun _ => hx⟩
  filter_upwards [e1, e2] with x' h1 h2
  refine agrees_of (fun i hi j hj hle => ?_) fun c hc => h2 c (List.mem_toFinset.2 hc)
  by_contra hlt
  exact absurd (h1 j (List.mem_toFinset.2 hj) i (List.mem_toFinset.2 hi) (not_le.1 hlt)) hle.not_gt

/-! ## The quasi-random directions come close to every direction -/

theorem quasi_near {D : Nat} (hD : 1 ≤ D) {phi : ℝ} (hphi : IsGolden D phi) {w : List ℝ} (hw : HalfSphere (D + 1) w)
    {prec : ℝ} {X : Nat → Nat → ℝ} {R : List Nat} (h : Stable prec X R w) :
    ∃ i u w', r2Next D phi i = .ok u ∧ hypersphere (u.map XF.fin) true = .ok w' ∧ Agrees prec X R w w' := by
  obtain ⟨x, C, hx, hpt, hunit, -⟩ := exists_polar true D (Or.inl hD)
  have hon : OnSphere true (D + 1) w := by
    refine ⟨hw.1, hw.2.1, fun _ a ha => ?_⟩
    have := hw.2.2
    rw [List.getD_eq_getElem?_getD, ha] at this
    exact this
  obtain ⟨p, hl, hin, hp⟩ := spherePoint_onto true (D + 1) (Or.inl (by omega)) w hon
  have hl' : p.length = D := by omega
  obtain ⟨v, rfl⟩ : ∃ v : Fin D → ℝ, p = List.ofFn v := by
    subst hl'
    exact ⟨p.get, (List.ofFn_get p).symm⟩
  have hv : v ∈ Spec.unitCube D := fun j => hin _ (by simp)
  rw [hpt v] at hp
  have hw' := Except.ok.inj hp
  subst hw'
  have hev := hx.continuousAt.eventually (agrees_near h)
  obtain ⟨ε, hε, hball⟩ := Metric.eventually_nhds_iff.1 hev
  obtain ⟨i, u, hu, hclose⟩ := C104_dense D hD phi hphi v hv ε hε
  have hu' := hu
  rw [r2Next_ofFn hD] at hu'
  have hin : u ∈ Spec.unitCube D := by
    have := List.ofFn_injective (Except.ok.inj hu')
    rw [← this]
    exact fun j => ⟨Int.fract_nonneg _, (Int.fract_lt_one _).le⟩
  refine ⟨i, _, List.ofFn (x u), hu, hypersphere_ofFn hD hin (hpt u) (hunit u hin), hball ?_⟩
  rw [dist_pi_lt_iff hε]
  intro j
  rw [Real.dist_eq]
  exact hclose j

/-! ## Uniformly in the direction -/

/-- What can be seen of a direction. -/
def patternOf (prec : ℝ) (X : Nat → Nat → ℝ) (R : List Nat) (w : List ℝ) : Finset (Nat × Nat) × Finset (Nat × Nat) :=
  ((R.toFinset ×ˢ R.toFinset).filter fun c => along w (X c.1) ≤ along w (X c.2),
    (R.zip R.tail).toFinset.filter fun c => prec < |along w (X c.2) - along w (X c.1)|)

theorem Agrees.of_pattern {prec : ℝ} {X : Nat → Nat → ℝ} {R : List Nat} {w w0 w' : List ℝ}
    (h : patternOf prec X R w = patternOf prec X R w0) (ha : Agrees prec X R w0 w') : Agrees prec X R w w' := by
  have h0 : Agrees prec X R w w0 := by
    refine agrees_of (fun i hi j hj hle => ?_) fun c hc => ?_
    · have : (i, j) ∈ (patternOf prec X R w).1 := by
        rw [h]
        exact Finset.mem_filter.2 ⟨Finset.mem_product.2 ⟨List.mem_toFinset.2 hi, List.mem_toFinset.2 hj⟩, hle⟩
      exact (Finset.mem_filter.1 this).2
    · have : c ∈ (patternOf prec X R w).2 ↔ c ∈ (patternOf prec X R w0).2 := by rw [h]
      unfold patternOf at this
      simp only [Finset.mem_filter, List.mem_toFinset, hc, true_and] at this
      exact this.symm
  exact ⟨fun o ho => h0.sweep o (ha.sweep o ho), fun k => (ha.considered k).trans (h0.considered k),
    ha.count.trans h0.count⟩

/-- A sequence of directions that comes close to every stable direction does so within finitely many steps, for
all directions and all sets of rows at once. -/
theorem uniform_of_near (Q : List ℝ → Prop) (W : Nat → List ℝ → Prop) (prec : ℝ) (X : Nat → Nat → ℝ)
    (hnear : ∀ R w, Q w → Stable prec X R w → ∃ i w', W i w' ∧ Agrees prec X R w w') (n : Nat) :
    ∃ N, ∀ R : List Nat, R.Sublist (List.range n) → ∀ w, Q w → Stable prec X R w →
      ∃ i < N, ∃ w', W i w' ∧ Agrees prec X R w w' := by
  classical
  have rows : ∀ R : List Nat, ∃ N, ∀ w, Q w → Stable prec X R w → ∃ i < N, ∃ w', W i w' ∧ Agrees prec X R w w' := by
    intro R
    have key : ∀ c : Finset (Nat × Nat) × Finset (Nat × Nat), ∃ N, ∀ w, patternOf prec X R w = c → Q w →
        Stable prec X R w → ∃ i < N, ∃ w', W i w' ∧ Agrees prec X R w w' := by
      intro c
      by_cases hex : ∃ w, patternOf prec X R w = c ∧ Q w ∧ Stable prec X R w
      · obtain ⟨w0, h1, h2, h3⟩ := hex
        obtain ⟨i, w', hw', ha⟩ := hnear R w0 h2 h3
        exact ⟨i + 1, fun w hc _ _ => ⟨i, Nat.lt_succ_self i, w', hw', ha.of_pattern (hc.trans h1.symm)⟩⟩
      · exact ⟨0, fun w hc h2 h3 => absurd ⟨w, hc, h2, h3⟩ hex⟩
    choose f hf using key
    refine ⟨((R.toFinset ×ˢ R.toFinset).powerset ×ˢ (R.zip R.tail).toFinset.powerset).sup f, fun w h2 h3 => ?_⟩
    obtain ⟨i, hi, h⟩ := hf _ w rfl h2 h3
    refine ⟨i, hi.trans_le (Finset.le_sup (f := f) ?_), h⟩
    exact Finset.mem_product.2 ⟨Finset.mem_powerset.2 (Finset.filter_subset _ _),
      Finset.mem_powerset.2 (Finset.filter_subset _ _)⟩
  choose f hf using rows
  refine ⟨(List.range n).sublists.toFinset.sup f, fun R hR w h2 h3 => ?_⟩
  obtain ⟨i, hi, h⟩ := hf R w h2 h3
  exact ⟨i, hi.trans_le (Finset.le_sup (f := f) (List.mem_toFinset.2 (List.mem_sublists.2 hR))), h⟩

theorem quasi_uniform {D : Nat} (hD : 1 ≤ D) {phi : ℝ} (hphi : IsGolden D phi) (prec : ℝ) (X : Nat → Nat → ℝ) (n : Nat) :
    ∃ N, ∀ R : List Nat, R.Sublist (List.range n) → ∀ w, HalfSphere (D + 1) w → Stable prec X R w →
      ∃ i < N, ∃ u w', r2Next D phi i = .ok u ∧ hypersphere (u.map XF.fin) true = .ok w' ∧ Agrees prec X R w w' := by
  obtain ⟨N, hN⟩ := uniform_of_near (HalfSphere (D + 1))
    (fun i w' => ∃ u, r2Next D phi i = .ok u ∧ hypersphere (u.map XF.fin) true = .ok w') prec X
    (fun R w hw hst => by
      obtain ⟨i, u, w', h1, h2, h3⟩ := quasi_near hD hphi hw hst
      exact ⟨i, w', ⟨u, h1, h2⟩, h3⟩) n
  refine ⟨N, fun R hR w hw hst => ?_⟩
  obtain ⟨i, hi, w', ⟨u, h1, h2⟩, h3⟩ := hN R hR w hw hst
  exact ⟨i, hi, u, w', h1, h2, h3⟩

end BT
