import Verif.Lemmas.MaxLikList

/-!
# Groups of labels with the same relative frequencies
-/

namespace BT
open Spec MeasureTheory

theorem beta_integrable {a b c : ℝ} (ha : 0 < a) (hb : 0 < b) (hc : 0 < c) :
    IntervalIntegrable (fun x : ℝ => x ^ (a - 1) * (c - x) ^ (b - 1)) volume 0 c := by
  by_contra hn
  have h := beta_scaled ha hb hc
  rw [intervalIntegral.integral_undef hn] at h
  have h1 := Real.Gamma_pos_of_pos ha
  have h2 := Real.Gamma_pos_of_pos hb
  have h3 := Real.Gamma_pos_of_pos (add_pos ha hb)
  have : 0 < c ^ (a + b - 1) * (Real.Gamma a * Real.Gamma b / Real.Gamma (a + b)) := by positivity
  exact absurd h this.ne

/-- The simplex integral of a linear combination of Dirichlet kernels. -/
theorem simplex_sum {ι : Type} (s : Finset ι) : ∀ (k : Nat) (C : ι → ℝ) (as : ι → List ℝ) (c : ℝ),
    (∀ i ∈ s, (as i).length = k + 1) → (∀ i ∈ s, ∀ a ∈ as i, 0 < a) → 0 < c →
    simplexIntegral (k + 1) c (fun θ => ∑ i ∈ s, C i * (List.zipWith (fun a t => t ^ (a - 1)) (as i) θ).prod) =
      ∑ i ∈ s, C i * (c ^ ((as i).sum - 1) * (((as i).map Real.Gamma).prod / Real.Gamma (as i).sum)) := by
  intro k
  induction k with
  | zero =>
    intro C as c hlen hp hc
    show (∑ i ∈ s, C i * (List.zipWith (fun a t => t ^ (a - 1)) (as i) [c]).prod) = _
    refine Finset.sum_congr rfl fun i hi => ?_
    obtain ⟨a, ha⟩ := List.length_eq_one_iff.1 (hlen i hi)
    have g := (Real.Gamma_pos_of_pos (hp i hi a (by rw [ha]; simp))).ne'
    rw [ha]
    simp [g]
  | succ k ih =>
    intro C as c hlen hp hc
    have hcons : ∀ i ∈ s, as i = (as i).headD 0 :: (as i).tail := by
      intro i hi
      have := hlen i hi
      cases h : as i with
      | nil => rw [h] at this; simp at this
      | cons a l => rfl
    have htl : ∀ i ∈ s, ((as i).tail).length = k + 1 := fun i hi => by rw [List.length_tail, hlen i hi]; rfl
    have htp : ∀ i ∈ s, ∀ a ∈ (as i).tail, 0 < a := fun i hi a ha => hp i hi a (List.mem_of_mem_tail ha)
    have hhp : ∀ i ∈ s, 0 < (as i).headD 0 := fun i hi => hp i hi _ (by
      have := hcons i hi
      exact this ▸ List.mem_cons_self)
    have hne : ∀ i ∈ s, (as i).tail ≠ [] := fun i hi h0 => by
      have := htl i hi
      rw [h0] at this
      simp at this
    have hS : ∀ i ∈ s, 0 < ((as i).tail).sum := fun i hi => sum_pos_of_pos (hne i hi) (htp i hi)
    show (∫ x in (0 : ℝ)..c, simplexIntegral (k + 1) (c - x) fun θ =>
      ∑ i ∈ s, C i * (List.zipWith (fun a t => t ^ (a - 1)) (as i) (x :: θ)).prod) = _
    have e1 : (∫ x in (0 : ℝ)..c, simplexIntegral (k + 1) (c - x) fun θ =>
        ∑ i ∈ s, C i * (List.zipWith (fun a t => t ^ (a - 1)) (as i) (x :: θ)).prod) =
        ∫ x in (0 : ℝ)..c, ∑ i ∈ s, C i * ((((as i).tail).map Real.Gamma).prod / Real.Gamma ((as i).tail).sum) *
          (x ^ ((as i).headD 0 - 1) * (c - x) ^ (((as i).tail).sum - 1)) := by
      apply intervalIntegral.integral_congr_ae
      have hx : ∀ᵐ x : ℝ, x ≠ c := by
        rw [ae_iff]
        simp
      filter_upwards [hx] with x hx hmem
      rw [Set.uIoc_of_le hc.le] at hmem
      have hlt : x < c := lt_of_le_of_ne hmem.2 hx
      have e : (fun θ => ∑ i ∈ s, C i * (List.zipWith (fun a t => t ^ (a - 1)) (as i) (x :: θ)).prod) =
          fun θ => ∑ i ∈ s, C i * x ^ ((as i).headD 0 - 1) *
            (List.zipWith (fun a t => t ^ (a - 1)) ((as i).tail) θ).prod := by
        funext θ
        refine Finset.sum_congr rfl fun i hi => ?_
        conv_lhs => rw [hcons i hi]
        rw [List.zipWith_cons_cons, List.prod_cons]
        ring
      rw [e, ih (fun i => C i * x ^ ((as i).headD 0 - 1)) (fun i => (as i).tail) (c - x) htl htp (sub_pos.2 hlt)]
      refine Finset.sum_congr rfl fun i hi => ?_
      ring
    rw [e1, intervalIntegral.integral_finsetSum fun i hi => (beta_integrable (hhp i hi) (hS i hi) hc).const_mul _]
    refine Finset.sum_congr rfl fun i hi => ?_
    rw [intervalIntegral.integral_const_mul, beta_scaled (hhp i hi) (hS i hi) hc]
    have g := (Real.Gamma_pos_of_pos (hS i hi)).ne'
    conv_rhs => rw [hcons i hi]
    rw [List.sum_cons, List.map_cons, List.prod_cons]
    field_simp

theorem simplex_nonneg : ∀ (k : Nat) (c : ℝ) (f : List ℝ → ℝ), 0 < c →
    (∀ θ : List ℝ, θ.length = k → (∀ t ∈ θ, 0 < t) → θ.sum = c → 0 ≤ f θ) → 0 ≤ simplexIntegral k c f
  | 0, _, _, _, _ => le_refl _
  | 1, c, f, hc, h => h [c] rfl (by simpa using hc) (by simp)
  | k + 2, c, f, hc, h => by
    unfold simplexIntegral
    rw [intervalIntegral.integral_of_le hc.le]
    apply integral_nonneg_of_ae
    rw [Filter.EventuallyLE, ae_restrict_iff' measurableSet_Ioc]
    have hne : ∀ᵐ x : ℝ, x ≠ c := by
      rw [ae_iff]
      simp
    filter_upwards [hne] with x hx hmem
    have hlt : x < c := lt_of_le_of_ne hmem.2 hx
    refine simplex_nonneg (k + 1) (c - x) _ (sub_pos.2 hlt) fun θ h1 h2 h3 => ?_
    refine h (x :: θ) (by simp [h1]) ?_ (by rw [List.sum_cons, h3]; ring)
    intro t ht
    rcases List.mem_cons.1 ht with rfl | ht
    · exact hmem.1
    · exact h2 t ht

/-- A combination of Dirichlet densities that is nowhere negative has non-negative weight. -/
theorem densities_nonneg {ι : Type} (s : Finset ι) {m : Nat} (C : ι → ℝ) (as : ι → List ℝ)
    (hlen : ∀ i ∈ s, (as i).length = m) (hp : ∀ i ∈ s, ProperDirichlet (as i))
    (h : ∀ θ : List ℝ, θ.length = m → (∀ t ∈ θ, 0 < t) → 0 ≤ ∑ i ∈ s, C i * dirichletDensity (as i) θ) :
    0 ≤ ∑ i ∈ s, C i := by
  cases m with
  | zero =>
    refine Finset.sum_nonneg fun i hi => ?_
    exact absurd (List.eq_nil_of_length_eq_zero (hlen i hi)) (hp i hi).1
  | succ k =>
    have hs := simplex_sum s k (fun i => C i * (Real.Gamma (as i).sum / ((as i).map Real.Gamma).prod)) as 1 hlen
      (fun i hi => (hp i hi).2) one_pos
    have hnn := simplex_nonneg (k + 1) 1 _ one_pos fun θ h1 h2 _ => h θ h1 h2
    have e : (fun θ => ∑ i ∈ s, C i * dirichletDensity (as i) θ) = fun θ => ∑ i ∈ s, C i *
        (Real.Gamma (as i).sum / ((as i).map Real.Gamma).prod) *
          (List.zipWith (fun a t => t ^ (a - 1)) (as i) θ).prod := by
      funext θ
      refine Finset.sum_congr rfl fun i _ => ?_
      unfold dirichletDensity
      ring
    rw [e, hs] at hnn
    refine hnn.trans (le_of_eq (Finset.sum_congr rfl fun i hi => ?_))
    have g1 := (Real.Gamma_pos_of_pos (sum_pos_of_pos (hp i hi).1 (hp i hi).2)).ne'
    have g3 := (prod_Gamma_pos (hp i hi).2).ne'
    rw [Real.one_rpow]
    field_simp

theorem rpow_chebyshev {x c ρ : ℝ} (hx : 0 < x) (hc : 0 < c) (hρ : 0 ≤ ρ) : 0 ≤ (x - c) * (x ^ ρ - c ^ ρ) := by
  rcases le_total x c with h | h
  · have := Real.rpow_le_rpow hx.le h hρ
    exact mul_nonneg_of_nonpos_of_nonpos (sub_nonpos.2 h) (sub_nonpos.2 this)
  · have := Real.rpow_le_rpow hc.le h hρ
    exact mul_nonneg (sub_nonneg.2 h) (sub_nonneg.2 this)

/-- Two groups of labels with the same relative frequencies are at least as likely together as apart. -/
theorem evidence_same_freq {p : List ℝ} (h : ProperDirichlet p) {A B : List ℝ} (hA : LabelsBelow p.length A)
    (hB : LabelsBelow p.length B) (hA0 : A ≠ []) (hB0 : B ≠ [])
    (hf : frequencies p.length A = frequencies p.length B) :
    dirichletMarginal realFns p A + dirichletMarginal realFns p B ≤ dirichletMarginal realFns p (A ++ B) := by
  obtain ⟨la, hla, rfl⟩ := labels_exist hA
  obtain ⟨lb, hlb, rfl⟩ := labels_exist hB
  rw [← List.map_append]
  set N : List Nat → List ℝ := fun l => l.map fun k : Nat => (k : ℝ) with hN
  have hlab : ∀ k ∈ la ++ lb, k < p.length := fun k hk => (List.mem_append.1 hk).elim (hla k) (hlb k)
  set c := Real.exp (dirichletMarginal realFns p (N la)) with hc
  have hc0 : 0 < c := Real.exp_pos _
  set ρ : ℝ := (lb.length : ℝ) / la.length with hρ
  have hρ0 : 0 ≤ ρ := by positivity
  have hal : (0 : ℝ) < la.length := by
    have : la ≠ [] := fun e => hA0 (by rw [e]; rfl)
    exact_mod_cast List.length_pos_iff.2 this
  have hbl : (0 : ℝ) < lb.length := by
    have : lb ≠ [] := fun e => hB0 (by rw [e]; rfl)
    exact_mod_cast List.length_pos_iff.2 this
  have hcount : ∀ j : Fin p.length, (count (N lb) j : ℝ) = count (N la) j * ρ := by
    intro j
    have := congrFun hf j
    unfold frequencies at this
    simp only [List.length_map] at this
    have e : (count (N la) j : ℝ) / la.length = (count (N lb) j : ℝ) / lb.length := this
    rw [hρ]
    field_simp at e ⊢
    linarith
  have hlik : ∀ θ : List ℝ, θ.length = p.length → (∀ t ∈ θ, 0 < t) →
      0 < labelLikelihood la θ ∧ labelLikelihood lb θ = labelLikelihood la θ ^ ρ := by
    intro θ h1 h2
    have hθ : ∀ j : Fin p.length, 0 < θ.getD j 0 := fun j => by
      have : θ.getD j 0 = θ[j] := by simp [h1]
      rw [this]
      exact h2 _ (List.getElem_mem _)
    rw [labelLikelihood_prod hla, labelLikelihood_prod hlb]
    refine ⟨Finset.prod_pos fun j _ => pow_pos (hθ j) _, ?_⟩
    rw [← Real.finsetProd_rpow _ _ fun j _ => (pow_pos (hθ j) _).le]
    refine Finset.prod_congr rfl fun j _ => ?_
    rw [← Real.rpow_natCast, ← Real.rpow_natCast, ← Real.rpow_mul (hθ j).le]
    congr 1
    exact hcount j
  have key := densities_nonneg (m := p.length) (Finset.univ : Finset (Fin 4))
    ![Real.exp (dirichletMarginal realFns p (N (la ++ lb))), -(c ^ ρ * c),
      -(c * Real.exp (dirichletMarginal realFns p (N lb))), c * c ^ ρ]
    ![dirichletPosterior p (N (la ++ lb)), dirichletPosterior p (N la), dirichletPosterior p (N lb), p]
    (by intro i _; fin_cases i <;> simp [dirichletPosterior])
    (by
      intro i _
      fin_cases i
      · exact proper_dirichletPosterior h _
      · exact proper_dirichletPosterior h _
      · exact proper_dirichletPosterior h _
      · exact h)
    (by
      intro θ h1 h2
      obtain ⟨hpos, hpow⟩ := hlik θ h1 h2
      have b1 := dirichlet_bayes h hlab h1 h2
      have b2 := dirichlet_bayes h hla h1 h2
      have b3 := dirichlet_bayes h hlb h1 h2
      have hmul : labelLikelihood (la ++ lb) θ = labelLikelihood la θ * labelLikelihood lb θ := by
        unfold labelLikelihood
        rw [List.map_append, List.prod_append]
      have hd : 0 ≤ dirichletDensity p θ := by
        unfold dirichletDensity
        refine mul_nonneg (div_nonneg (Real.Gamma_pos_of_pos (sum_pos_of_pos h.1 h.2)).le (prod_Gamma_pos h.2).le) ?_
        apply List.prod_nonneg
        intro r hr
        rw [List.mem_iff_getElem] at hr
        obtain ⟨i, hi, rfl⟩ := hr
        rw [List.getElem_zipWith]
        exact Real.rpow_nonneg (h2 _ (List.getElem_mem _)).le _
      have hch := mul_nonneg hd (rpow_chebyshev hpos hc0 hρ0)
      rw [← hpow] at hch
      rw [hmul] at b1
      simp only [Fin.sum_univ_four]
      show 0 ≤ Real.exp (dirichletMarginal realFns p (N (la ++ lb))) * dirichletDensity (dirichletPosterior p (N (la ++ lb))) θ +
        -(c ^ ρ * c) * dirichletDensity (dirichletPosterior p (N la)) θ +
        -(c * Real.exp (dirichletMarginal realFns p (N lb))) * dirichletDensity (dirichletPosterior p (N lb)) θ +
        c * c ^ ρ * dirichletDensity p θ
      have b1' : Real.exp (dirichletMarginal realFns p (N (la ++ lb))) * dirichletDensity (dirichletPosterior p (N (la ++ lb))) θ =
        dirichletDensity p θ * (labelLikelihood la θ * labelLikelihood lb θ) := b1.symm
      have b2' : c * dirichletDensity (dirichletPosterior p (N la)) θ = dirichletDensity p θ * labelLikelihood la θ := b2.symm
      have b3' : Real.exp (dirichletMarginal realFns p (N lb)) * dirichletDensity (dirichletPosterior p (N lb)) θ =
        dirichletDensity p θ * labelLikelihood lb θ := b3.symm
      have e : Real.exp (dirichletMarginal realFns p (N (la ++ lb))) * dirichletDensity (dirichletPosterior p (N (la ++ lb))) θ +
        -(c ^ ρ * c) * dirichletDensity (dirichletPosterior p (N la)) θ +
        -(c * Real.exp (dirichletMarginal realFns p (N lb))) * dirichletDensity (dirichletPosterior p (N lb)) θ +
        c * c ^ ρ * dirichletDensity p θ = dirichletDensity p θ * ((labelLikelihood la θ - c) *
          (labelLikelihood lb θ - c ^ ρ)) := by
        linear_combination b1' - c ^ ρ * b2' - c * b3'
      rw [e]
      exact hch)
  simp only [Fin.sum_univ_four] at key
  have key : 0 ≤ Real.exp (dirichletMarginal realFns p (N (la ++ lb))) + -(c ^ ρ * c) +
      -(c * Real.exp (dirichletMarginal realFns p (N lb))) + c * c ^ ρ := key
  have : c * Real.exp (dirichletMarginal realFns p (N lb)) ≤ Real.exp (dirichletMarginal realFns p (N (la ++ lb))) := by
    nlinarith
  rw [hc, ← Real.exp_add] at this
  exact Real.exp_le_exp.1 this

end BT
