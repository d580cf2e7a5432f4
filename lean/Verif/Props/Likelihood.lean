import Verif.Props.Measure
import Mathlib.Algebra.BigOperators.Fin
import Mathlib.Data.Fintype.BigOperators
import Mathlib.Data.Fin.Tuple.Basic
import Mathlib.Analysis.SpecialFunctions.Log.Basic

/-!
# Likelihoods: C27 – C31
-/

namespace BT
open Spec

/-! ## C27 -/

section
variable {K : Type} [Field K] [LinearOrder K]

omit [LinearOrder K] in
theorem prod_mapIdx_mul (p : List K) (f g : Nat → K → K) :
    (p.mapIdx f).prod * (p.mapIdx g).prod = (p.mapIdx fun i a => f i a * g i a).prod := by
  induction p generalizing f g with
  | nil => simp
  | cons a p ih =>
    simp only [List.mapIdx_cons, List.prod_cons]
    rw [← ih (fun i => f (i + 1)) (fun i => g (i + 1))]
    ring

/-- Chain rule of the Dirichlet-multinomial probability. -/
theorem dirMult_append (p : List K) (A B : List K) :
    dirMult p (A ++ B) = dirMult p A * dirMult (dirichletPosterior p A) B := by
  unfold dirMult
  rw [div_mul_div_comm]
  congr 1
  · unfold dirichletPosterior
    rw [List.mapIdx_mapIdx, prod_mapIdx_mul]
    congr 2
    funext i a
    simp only [Function.comp, count_append, rising_add]
  · have e : (dirichletPosterior p A).sum = p.sum + (((List.range p.length).map fun i => count A i).sum : Nat) :=
      sum_mapIdx_add p fun i => count A i
    have hl : (dirichletPosterior p A).length = p.length := by simp [dirichletPosterior]
    rw [e, hl, ← rising_add]
    congr 1
    simp only [count_append]
    induction List.range p.length with
    | nil => rfl
    | cons i l ih => simp only [List.map_cons, List.sum_cons]; omega

theorem count_singleton [CharZero K] (c i : Nat) : count [(c : K)] i = if c = i then 1 else 0 := by
  unfold count
  by_cases h : c = i <;> simp [h]

omit [LinearOrder K] in
theorem prod_mapIdx_single (p : List K) (c : Nat) (hc : c < p.length) :
    (p.mapIdx fun i a => rising a (if c = i then 1 else 0)).prod = p[c] := by
  induction p generalizing c with
  | nil => simp at hc
  | cons a p ih =>
    rw [List.mapIdx_cons, List.prod_cons]
    cases c with
    | zero =>
      have : (p.mapIdx fun i a => rising a (if 0 = i + 1 then 1 else 0)).prod = 1 := by
        apply List.prod_eq_one
        intro x hx
        obtain ⟨i, hi, rfl⟩ := List.mem_mapIdx.1 hx
        simp [rising]
      rw [this]; simp [rising]
    | succ c =>
      have := ih c (by simpa using hc)
      simp only [Nat.add_right_cancel_iff]
      rw [this]; simp [rising]

theorem sum_range_single (k c : Nat) (hc : c < k) :
    ((List.range k).map fun i => if c = i then 1 else 0).sum = 1 := by
  induction k with
  | zero => omega
  | succ k ih =>
    rw [List.range_succ, List.map_append, List.sum_append]
    simp only [List.map_cons, List.map_nil, List.sum_cons, List.sum_nil, Nat.add_zero]
    rcases Nat.lt_or_ge c k with h | h
    · rw [ih h, if_neg (by omega)]
    · have : c = k := by omega
      subst this
      have : ((List.range c).map fun i => if c = i then 1 else 0).sum = 0 := by
        apply List.sum_eq_zero
        intro x hx
        obtain ⟨i, hi, rfl⟩ := List.mem_map.1 hx
        have := List.mem_range.1 hi
        rw [if_neg (by omega)]
      rw [this]; simp

/-- Probability of a single label. -/
theorem dirMult_singleton [CharZero K] (p : List K) (c : Nat) (hc : c < p.length) :
    dirMult p [(c : K)] = p[c] / p.sum := by
  unfold dirMult
  simp only [count_singleton]
  rw [prod_mapIdx_single p c hc, sum_range_single _ _ hc]
  simp [rising]

/-- The probabilities of all label sequences of length `n` sum to 1. -/
theorem dirMult_sum_one [IsStrictOrderedRing K] (n : Nat) {p : List K} (hp : ∀ a ∈ p, 0 < a) (hne : p ≠ []) :
    ∑ f : Fin n → Fin p.length, dirMult p (List.ofFn fun i => (((f i : Nat)) : K)) = 1 := by
  induction n generalizing p with
  | zero =>
    simp only [List.ofFn_zero, Finset.univ_unique, Finset.sum_singleton]
    have : ∀ i, count ([] : List K) i = 0 := fun _ => rfl
    unfold dirMult
    simp only [this, rising, List.map_const', List.sum_replicate, smul_zero, div_one]
    apply List.prod_eq_one
    intro x hx
    obtain ⟨i, hi, rfl⟩ := List.mem_mapIdx.1 hx
    rfl
  | succ n ih =>
    rw [← (Fin.consEquiv fun _ => Fin p.length).sum_comp, Fintype.sum_prod_type]
    have step : ∀ (c : Fin p.length) (g : Fin n → Fin p.length),
        dirMult p (List.ofFn fun i => (((Fin.consEquiv (fun _ => Fin p.length) (c, g) i : Fin p.length) : Nat) : K)) =
        p[c] / p.sum * dirMult (dirichletPosterior p [((c : Nat) : K)]) (List.ofFn fun i => ((g i : Nat) : K)) := by
      intro c g
      rw [List.ofFn_succ]
      have := dirMult_append p [((c : Nat) : K)] (List.ofFn fun i => ((g i : Nat) : K))
      rw [dirMult_singleton p c c.2] at this
      simpa [Fin.consEquiv] using this
    simp only [step, ← Finset.mul_sum]
    have hl : ∀ c : Fin p.length, (dirichletPosterior p [((c : Nat) : K)]).length = p.length := by
      intro c; simp [dirichletPosterior]
    have one : ∀ c : Fin p.length,
        ∑ g : Fin n → Fin p.length, dirMult (dirichletPosterior p [((c : Nat) : K)]) (List.ofFn fun i => ((g i : Nat) : K)) = 1 := by
      intro c
      have := ih (p := dirichletPosterior p [((c : Nat) : K)]) (by
          intro a ha
          obtain ⟨i, hi, rfl⟩ := List.mem_mapIdx.1 ha
          have := hp _ (List.getElem_mem hi)
          positivity)
        (by intro h0; have := hl c; rw [h0] at this; exact hne (List.eq_nil_of_length_eq_zero this.symm))
      rw [hl c] at this
      exact this
    simp only [one, mul_one]
    rw [← Finset.sum_div]
    have hs : ∑ c : Fin p.length, p[c] = p.sum := by
      rw [← List.sum_ofFn]; congr 1; exact List.ofFn_getElem
    rw [hs]
    exact div_self (listSum_pos hne hp).ne'

end

/-- The data likelihood the code uses for a set of targets: the score of not splitting without its prior
term, exponentiated. -/
noncomputable def clsLik (pp : ℝ) (lv : Nat) (prior : List ℝ) (y : List ℝ) : ℝ :=
  Real.exp ((clsTarget realFns).logNoSplit pp lv y prior - Real.log (1 - pp ^ (1 + lv)))

theorem clsLik_eq (pp : ℝ) (lv : Nat) {prior : List ℝ} (hne : prior ≠ []) (hp : ∀ a ∈ prior, 0 < a) (y : List ℝ) :
    clsLik pp lv prior y = dirMult prior y := by
  unfold clsLik
  show Real.exp (clsLogNoSplit realFns pp lv y prior - _) = _
  rw [clsLogNoSplit_eq, dirichletMarginal_real hne hp]
  have : logStayPrior realFns pp lv = Real.log (1 - pp ^ (1 + lv)) := by
    unfold logStayPrior; rw [Nat.add_comm]; rfl
  rw [this, add_sub_cancel_left, Real.exp_log (dirMult_pos hne hp y)]

/-- C27: over all label sequences of length `n` (for `k` classes) the data likelihoods of the code sum
to 1. -/
theorem C27_sums_to_one (pp : ℝ) (lv n k : Nat) (hk : 0 < k) (prior : List ℝ) (hl : prior.length = k)
    (hp : ∀ a ∈ prior, 0 < a) :
    ∑ f : Fin n → Fin k, clsLik pp lv prior (List.ofFn fun i => ((f i : Nat) : ℝ)) = 1 := by
  have hne : prior ≠ [] := by intro h; rw [h] at hl; simp at hl; omega
  subst hl
  simp only [clsLik_eq pp lv hne hp]
  exact dirMult_sum_one n hp hne

/-- C27: chain rule `p(A, B) = p(A) p(B | posterior of A)`, with the code's own posterior. -/
theorem C27_chain_rule (pp : ℝ) (lv lv' : Nat) (prior : List ℝ) (hne : prior ≠ []) (hp : ∀ a ∈ prior, 0 < a)
    (A B : List ℝ) :
    clsLik pp lv prior (A ++ B) = clsLik pp lv prior A * clsLik pp lv' ((clsTarget realFns).posterior A prior 1) B := by
  have e : (clsTarget realFns).posterior A prior 1 = dirichletPosterior prior A := clsPosterior_one A prior
  rw [clsLik_eq pp lv hne hp, clsLik_eq pp lv hne hp, e, clsLik_eq pp lv', dirMult_append _]
  · intro h0
    have : (dirichletPosterior prior A).length = prior.length := by simp [dirichletPosterior]
    rw [h0] at this; exact hne (List.eq_nil_of_length_eq_zero this.symm)
  · intro a ha
    obtain ⟨i, hi, rfl⟩ := List.mem_mapIdx.1 ha
    have := hp _ (List.getElem_mem hi)
    positivity

/-- C27: what `predict_proba` reports for class `c` is the likelihood of `c` being the next label. -/
theorem C27_predictive (pp : ℝ) (lv : Nat) (prior : List ℝ) (hne : prior ≠ []) (hp : ∀ a ∈ prior, 0 < a)
    (A : List ℝ) (c : Nat) (hc : c < prior.length) :
    ((clsTarget realFns).posteriorMean ((clsTarget realFns).posterior A prior 1))[c]? =
      some (clsLik pp lv prior (A ++ [(c : ℝ)]) / clsLik pp lv prior A) := by
  have e : (clsTarget realFns).posterior A prior 1 = dirichletPosterior prior A := clsPosterior_one A prior
  have hl : (dirichletPosterior prior A).length = prior.length := by simp [dirichletPosterior]
  rw [C27_chain_rule pp lv lv prior hne hp, e]
  have hpos := dirMult_pos hne hp A
  have hq : ∀ a ∈ dirichletPosterior prior A, 0 < a := by
    intro a ha
    obtain ⟨i, hi, rfl⟩ := List.mem_mapIdx.1 ha
    have := hp _ (List.getElem_mem hi)
    positivity
  have hne' : dirichletPosterior prior A ≠ [] := by
    intro h0; rw [h0] at hl; exact hne (List.eq_nil_of_length_eq_zero hl.symm)
  rw [clsLik_eq pp lv hne hp, clsLik_eq pp lv hne' hq, mul_div_cancel_left₀ _ hpos.ne',
    dirMult_singleton _ c (by omega)]
  show ((dirichletPosterior prior A).map fun a => a / (dirichletPosterior prior A).sum)[c]? = _
  rw [List.getElem?_map, List.getElem?_eq_getElem (by omega)]
  rfl

/-- C27 with three classes and an uneven prior. -/
example : ∑ f : Fin 5 → Fin 3, clsLik (1 / 2) 1 [1, 2, 1 / 2] (List.ofFn fun i => ((f i : Nat) : ℝ)) = 1 :=
  C27_sums_to_one _ _ 5 3 (by decide) _ rfl (by simp)

/-! ## C28 -/

/-- C28, classification: permuting targets changes neither the posterior (for any `delta`) nor the score
of not splitting; permuting targets inside the two sides of a candidate split does not change its score. -/
theorem C28_order_classification {K : Type} [Field K] [LinearOrder K] (F : Fns K) (pp : K) (lv : Nat)
    (prior : List K) (y y' : List K) (hy : y.Perm y') :
    (∀ δ, (clsTarget F).posterior y prior δ = (clsTarget F).posterior y' prior δ) ∧
    (clsTarget F).logNoSplit pp lv y prior = (clsTarget F).logNoSplit pp lv y' prior ∧
    ∀ (nd : Nat) (si : List Nat), (∀ k ∈ si, 1 ≤ k ∧ k < y.length) → si.Pairwise (· < ·) →
      ∀ (j k : Nat), si[j]? = some k → (y.take k).Perm (y'.take k) → (y.drop k).Perm (y'.drop k) →
      ((clsTarget F).logSplit pp lv y prior nd si)[j]? = ((clsTarget F).logSplit pp lv y' prior nd si)[j]? := by
  have L := cls_lawful F
  refine ⟨fun δ => L.posterior_perm y y' prior δ hy, L.noSplit_perm pp lv y y' prior hy, ?_⟩
  intro nd si hsi hpw j k hj h1 h2
  rw [L.logSplit_eq pp lv y prior nd si hsi hpw,
    L.logSplit_eq pp lv y' prior nd si (by rw [← hy.length_eq]; exact hsi) hpw, List.getElem?_map,
    List.getElem?_map, hj]
  exact congrArg some (L.pair_perm pp lv prior nd si.length _ _ _ _ h1 h2)

/-- C28, regression. -/
theorem C28_order_regression {K : Type} [Field K] [LinearOrder K] [IsStrictOrderedRing K] (F : Fns K) (pp : K)
    (lv : Nat) (prior : NG K) (y y' : List K) (hy : y.Perm y') :
    (∀ δ, (regTarget F).posterior y prior δ = (regTarget F).posterior y' prior δ) ∧
    (regTarget F).logNoSplit pp lv y prior = (regTarget F).logNoSplit pp lv y' prior ∧
    ∀ (nd : Nat) (si : List Nat), (∀ k ∈ si, 1 ≤ k ∧ k < y.length) → si.Pairwise (· < ·) →
      ∀ (j k : Nat), si[j]? = some k → (y.take k).Perm (y'.take k) → (y.drop k).Perm (y'.drop k) →
      ((regTarget F).logSplit pp lv y prior nd si)[j]? = ((regTarget F).logSplit pp lv y' prior nd si)[j]? := by
  have L := reg_lawful F
  refine ⟨fun δ => L.posterior_perm y y' prior δ hy, L.noSplit_perm pp lv y y' prior hy, ?_⟩
  intro nd si hsi hpw j k hj h1 h2
  rw [L.logSplit_eq pp lv y prior nd si hsi hpw,
    L.logSplit_eq pp lv y' prior nd si (by rw [← hy.length_eq]; exact hsi) hpw, List.getElem?_map,
    List.getElem?_map, hj]
  exact congrArg some (L.pair_perm pp lv prior nd si.length _ _ _ _ h1 h2)

/-- C28 for a swap inside the left side of the split at 2. -/
example (F : Fns ℚ) : ((clsTarget F).logSplit (1 / 2) 0 [0, 1, 1, 1] [1, 1] 1 [1, 2])[1]? =
    ((clsTarget F).logSplit (1 / 2) 0 [1, 0, 1, 1] [1, 1] 1 [1, 2])[1]? :=
  (C28_order_classification F (1 / 2) 0 [1, 1] [0, 1, 1, 1] [1, 0, 1, 1] (List.Perm.swap _ _ _)).2.2 1 [1, 2]
    (by simp) (by simp) 1 2 rfl (List.Perm.swap _ _ _) (List.Perm.refl _)

/-! ## C29 -/

section
variable {K : Type} [Field K] [LinearOrder K] [IsStrictOrderedRing K]

/-- C29: updating with `A` and then with `B` is updating with both, for the code's own update. -/
theorem C29_coherent (F : Fns K) (p : NG K) (hκ : 0 < p.kappa) (A B : List K) (hA : A ≠ []) (hB : B ≠ []) :
    (regTarget F).posterior B ((regTarget F).posterior A p 1) 1 = (regTarget F).posterior (A ++ B) p 1 := by
  show regPosterior B (regPosterior A p 1) 1 = regPosterior (A ++ B) p 1
  unfold regPosterior
  rw [if_neg one_ne_zero, if_neg one_ne_zero, if_neg one_ne_zero]
  have hn : (0 : K) < (A.length : K) := by exact_mod_cast List.length_pos_iff.2 hA
  have hm : (0 : K) < (B.length : K) := by exact_mod_cast List.length_pos_iff.2 hB
  unfold BT.ngPosterior
  simp only [List.length_append, List.sum_append, List.map_append, Nat.cast_add, mul_one]
  generalize (A.length : K) = n at hn ⊢
  generalize (B.length : K) = m at hm ⊢
  generalize A.sum = a
  generalize B.sum = b
  generalize (A.map fun v => v ^ 2).sum = a2
  generalize (B.map fun v => v ^ 2).sum = b2
  have h1 : p.kappa + n ≠ 0 := by positivity
  have h2 : p.kappa + n + m ≠ 0 := by positivity
  have h3 : n + m ≠ 0 := by positivity
  have h4 := hn.ne'
  have h5 := hm.ne'
  have h6 : p.kappa + (n + m) ≠ 0 := by positivity
  refine NG.mk.injEq _ _ _ _ _ _ _ _ |>.mpr ⟨?_, by ring, by ring, ?_⟩
  · field_simp
    ring
  · field_simp
    ring

end

/-- C29: the log marginal likelihood of the code (score of not splitting without its prior term) adds up. -/
theorem C29_marginal_adds (pp : ℝ) (lv : Nat) (p : NG ℝ) (hp : NGProper p) (A B : List ℝ) (hA : A ≠ [])
    (hB : B ≠ []) :
    let lik := fun (q : NG ℝ) (y : List ℝ) =>
      (regTarget realFns).logNoSplit pp lv y q - Real.log (1 - pp ^ (1 + lv))
    lik p (A ++ B) = lik p A + lik ((regTarget realFns).posterior A p 1) B := by
  intro lik
  have hAB : A ++ B ≠ [] := by simp [hA]
  have key : ∀ q y, lik q y = let r := BT.ngPosterior q y.length y.sum (y.map fun v => v ^ 2).sum 1
      ngLogPData realFns q r.alpha r.beta r.kappa y.length := by
    intro q y
    show regLogNoSplit realFns pp lv y q - _ = _
    unfold regLogNoSplit
    simp only
    show Real.log (1 - pp ^ (1 + lv)) + _ - _ = _
    rw [add_sub_cancel_left]
  have hco := C29_coherent realFns p hp.1 A B hA hB
  have e1 : ∀ (y : List ℝ) (q : NG ℝ), BT.ngPosterior q y.length y.sum (y.map fun v => v ^ 2).sum 1 =
      (regTarget realFns).posterior y q 1 := by
    intro y q
    show _ = regPosterior y q 1
    unfold regPosterior
    rw [if_neg one_ne_zero]
  have hpA : NGProper ((regTarget realFns).posterior A p 1) := by
    rw [← e1]; exact ngPosterior_proper p A 1 zero_le_one hp hA
  have hpB : NGProper ((regTarget realFns).posterior B ((regTarget realFns).posterior A p 1) 1) := by
    rw [← e1]; exact ngPosterior_proper _ B 1 zero_le_one hpA hB
  rw [key, key, key]
  simp only [e1, ← hco]
  set q := (regTarget realFns).posterior A p 1
  set r := (regTarget realFns).posterior B q 1
  unfold ngLogPData
  simp only [realFns, List.length_append, Nat.cast_add]
  rw [Real.log_div hp.1.ne' hpB.1.ne', Real.log_div hp.1.ne' hpA.1.ne', Real.log_div hpA.1.ne' hpB.1.ne']
  ring

/-- C29 on two proper batches. -/
example : (regTarget realFns).posterior [3] ((regTarget realFns).posterior [1, 2] ⟨0, 1, 1, 1⟩ 1) 1 =
    (regTarget realFns).posterior [1, 2, 3] ⟨0, 1, 1, 1⟩ 1 :=
  C29_coherent realFns ⟨0, 1, 1, 1⟩ one_pos [1, 2] [3] (by simp) (by simp)

/-! ## C30 -/

theorem exp_logStayPrior {pp : ℝ} (h0 : 0 < pp) (h1 : pp < 1) (lv : Nat) :
    Real.exp (logStayPrior realFns pp lv) = 1 - pp ^ (lv + 1) := by
  have : pp ^ (lv + 1) < 1 := pow_lt_one₀ h0.le h1 (by omega)
  exact Real.exp_log (by linarith)

theorem exp_logSplitPrior {pp : ℝ} (h0 : 0 < pp) (lv : Nat) {nd ns : Nat} (hd : 0 < nd) (hs : 0 < ns) :
    Real.exp (logSplitPrior realFns pp lv nd ns) = pp ^ (lv + 1) / ((ns : ℝ) * (nd : ℝ)) := by
  have : (0 : ℝ) < nd := by exact_mod_cast hd
  have : (0 : ℝ) < ns := by exact_mod_cast hs
  exact Real.exp_log (by positivity)

/-- Sum over the first `nd` numbers of a constant over those satisfying a predicate. -/
theorem sum_range_filter (nd : Nat) (b : Nat → Bool) (v : ℝ) :
    ((List.range nd).map fun d => if b d then v else 0).sum = ((List.range nd).filter b).length * v := by
  induction List.range nd with
  | nil => simp
  | cons d l ih => cases h : b d <;> simp [h, ih]; ring

/-- The prior mass of a node: `1 - pp^(lv+1)` for not splitting and `pp^(lv+1)` times the share of
dimensions that admit a split. -/
theorem structure_prior {pp : ℝ} (h0 : 0 < pp) (h1 : pp < 1) (lv nd : Nat) (hd : 0 < nd) (si : Nat → List Nat)
    (stay : ℝ) (term : Nat → ℝ) (hstay : stay = Real.exp (logStayPrior realFns pp lv))
    (hterm : ∀ d < nd, term d = ((si d).map fun _ => Real.exp (logSplitPrior realFns pp lv nd (si d).length)).sum) :
    0 < stay ∧ stay = 1 - pp ^ (lv + 1) ∧
    ((List.range nd).map term).sum =
      pp ^ (lv + 1) * (((List.range nd).filter fun d => decide (si d ≠ [])).length / (nd : ℝ)) ∧
    stay + ((List.range nd).map term).sum ≤ 1 ∧
    (stay + ((List.range nd).map term).sum = 1 ↔ ∀ d < nd, si d ≠ []) := by
  have hlt : pp ^ (lv + 1) < 1 := pow_lt_one₀ h0.le h1 (by omega)
  have hpos : 0 < pp ^ (lv + 1) := by positivity
  have hnd : (0 : ℝ) < nd := by exact_mod_cast hd
  have e1 : stay = 1 - pp ^ (lv + 1) := by rw [hstay, exp_logStayPrior h0 h1]
  have e2 : ((List.range nd).map term).sum =
      pp ^ (lv + 1) * (((List.range nd).filter fun d => decide (si d ≠ [])).length / (nd : ℝ)) := by
    have : (List.range nd).map term =
        (List.range nd).map fun d => if decide (si d ≠ []) then pp ^ (lv + 1) / (nd : ℝ) else 0 := by
      apply List.map_congr_left
      intro d hdm
      rw [hterm d (List.mem_range.1 hdm)]
      by_cases hs : si d = []
      · simp [hs]
      · have hl : 0 < (si d).length := List.length_pos_iff.2 hs
        have hl' : (0 : ℝ) < (si d).length := by exact_mod_cast hl
        rw [exp_logSplitPrior h0 lv hd hl]
        simp only [hs, ne_eq, not_false_eq_true, decide_true, if_true, List.map_const', List.sum_replicate,
          nsmul_eq_mul]
        field_simp
    rw [this, sum_range_filter]
    ring
  have hcount : ((List.range nd).filter fun d => decide (si d ≠ [])).length ≤ nd := by
    have := List.length_filter_le (fun d => decide (si d ≠ [])) (List.range nd)
    simpa using this
  have hiff : ((List.range nd).filter fun d => decide (si d ≠ [])).length = nd ↔ ∀ d < nd, si d ≠ [] := by
    have := @List.length_filter_eq_length_iff _ (fun d => decide (si d ≠ [])) (List.range nd)
    rw [List.length_range] at this
    rw [this]
    simp
  refine ⟨by rw [e1]; linarith, e1, e2, ?_, ?_⟩
  · rw [e1, e2]
    have : ((((List.range nd).filter fun d => decide (si d ≠ [])).length : ℝ) / (nd : ℝ)) ≤ 1 := by
      rw [div_le_one hnd]; exact_mod_cast hcount
    nlinarith
  · rw [e1, e2, ← hiff]
    constructor
    · intro h
      have h2 : pp ^ (lv + 1) * ((((List.range nd).filter fun d => decide (si d ≠ [])).length : ℝ) / (nd : ℝ)) =
          pp ^ (lv + 1) * 1 := by linarith
      have h3 := mul_left_cancel₀ hpos.ne' h2
      rw [div_eq_one_iff_eq hnd.ne'] at h3
      exact_mod_cast h3
    · intro h
      rw [h, div_self hnd.ne']; ring

/-- C30, classification.  `y d` are the targets in the order of dimension `d`, `si d` the candidate
positions; the prior term of a score is what is left after subtracting the log-likelihoods of the two
sides (of all targets, for not splitting).  Exponentiated, the terms are positive and sum to at most 1,
with equality iff every dimension admits a split. -/
theorem C30_prior_classification {pp : ℝ} (h0 : 0 < pp) (h1 : pp < 1) (lv nd : Nat) (hd : 0 < nd)
    (prior : List ℝ) (y0 : List ℝ) (y : Nat → List ℝ) (si : Nat → List Nat)
    (hsi : ∀ d < nd, (∀ k ∈ si d, 1 ≤ k ∧ k < (y d).length) ∧ (si d).Pairwise (· < ·)) :
    let T := clsTarget realFns
    let lik := dirichletMarginal realFns prior
    let stay := Real.exp (T.logNoSplit pp lv y0 prior - lik y0)
    let term := fun d => (List.zipWith (fun s k => Real.exp (s - lik ((y d).take k) - lik ((y d).drop k)))
      (T.logSplit pp lv (y d) prior nd (si d)) (si d)).sum
    0 < stay ∧ stay = 1 - pp ^ (lv + 1) ∧
    ((List.range nd).map term).sum =
      pp ^ (lv + 1) * (((List.range nd).filter fun d => decide (si d ≠ [])).length / (nd : ℝ)) ∧
    stay + ((List.range nd).map term).sum ≤ 1 ∧
    (stay + ((List.range nd).map term).sum = 1 ↔ ∀ d < nd, si d ≠ []) := by
  intro T lik stay term
  refine structure_prior h0 h1 lv nd hd si stay term ?_ ?_
  · show Real.exp (clsLogNoSplit realFns pp lv y0 prior - _) = _
    rw [clsLogNoSplit_eq, add_sub_cancel_right]
  · intro d hdd
    show (List.zipWith _ (clsLogSplit realFns pp lv (y d) prior nd (si d)) (si d)).sum = _
    rw [clsLogSplit_eq _ _ _ _ _ _ _ (hsi d hdd).1]
    congr 1
    rw [List.zipWith_map_left, List.zipWith_self]
    apply List.map_congr_left
    intro k _
    congr 1
    show logSplitPrior realFns pp lv nd (si d).length + dirichletMarginal realFns prior _ +
      dirichletMarginal realFns prior _ - dirichletMarginal realFns prior _ - dirichletMarginal realFns prior _ = _
    ring

/-- C30, regression. -/
theorem C30_prior_regression {pp : ℝ} (h0 : 0 < pp) (h1 : pp < 1) (lv nd : Nat) (hd : 0 < nd)
    (prior : NG ℝ) (y0 : List ℝ) (hy0 : y0 ≠ []) (y : Nat → List ℝ) (si : Nat → List Nat)
    (hsi : ∀ d < nd, (∀ k ∈ si d, 1 ≤ k ∧ k < (y d).length) ∧ (si d).Pairwise (· < ·)) :
    let T := regTarget realFns
    let lik := ngMarginal realFns prior
    let stay := Real.exp (T.logNoSplit pp lv y0 prior - lik y0)
    let term := fun d => (List.zipWith (fun s k => Real.exp (s - lik ((y d).take k) - lik ((y d).drop k)))
      (T.logSplit pp lv (y d) prior nd (si d)) (si d)).sum
    0 < stay ∧ stay = 1 - pp ^ (lv + 1) ∧
    ((List.range nd).map term).sum =
      pp ^ (lv + 1) * (((List.range nd).filter fun d => decide (si d ≠ [])).length / (nd : ℝ)) ∧
    stay + ((List.range nd).map term).sum ≤ 1 ∧
    (stay + ((List.range nd).map term).sum = 1 ↔ ∀ d < nd, si d ≠ []) := by
  intro T lik stay term
  refine structure_prior h0 h1 lv nd hd si stay term ?_ ?_
  · show Real.exp (regLogNoSplit realFns pp lv y0 prior - _) = _
    rw [regLogNoSplit_eq _ _ _ _ _ hy0, add_sub_cancel_right]
  · intro d hdd
    show (List.zipWith _ (regLogSplit realFns pp lv (y d) prior nd (si d)) (si d)).sum = _
    rw [regLogSplit_eq _ _ _ _ _ _ _ (hsi d hdd).1 (hsi d hdd).2]
    congr 1
    rw [List.zipWith_map_left, List.zipWith_self]
    apply List.map_congr_left
    intro k _
    congr 1
    show logSplitPrior realFns pp lv nd (si d).length + ngMarginal realFns prior _ +
      ngMarginal realFns prior _ - ngMarginal realFns prior _ - ngMarginal realFns prior _ = _
    ring

/-- C30: the prior probability of splitting at all (`1 -` that of not splitting) strictly decreases from
each level to the next, whatever the data of the two nodes. -/
theorem C30_deeper {pp : ℝ} (h0 : 0 < pp) (h1 : pp < 1) (lv : Nat) (prior prior' : List ℝ) (y y' : List ℝ) :
    1 - Real.exp ((clsTarget realFns).logNoSplit pp (lv + 1) y' prior' - dirichletMarginal realFns prior' y') <
    1 - Real.exp ((clsTarget realFns).logNoSplit pp lv y prior - dirichletMarginal realFns prior y) := by
  have e : ∀ lv (y prior : List ℝ), Real.exp ((clsTarget realFns).logNoSplit pp lv y prior -
      dirichletMarginal realFns prior y) = 1 - pp ^ (lv + 1) := by
    intro lv y prior
    show Real.exp (clsLogNoSplit realFns pp lv y prior - _) = _
    rw [clsLogNoSplit_eq, add_sub_cancel_right, exp_logStayPrior h0 h1]
  rw [e, e]
  have : pp ^ (lv + 1 + 1) < pp ^ (lv + 1) := pow_lt_pow_right_of_lt_one₀ h0 h1 (by omega)
  linarith

/-- C30 with two dimensions, only one of which admits splits: the mass is `1 - 1/4`. -/
example : let T := clsTarget realFns
    let lik := dirichletMarginal realFns [1, 1]
    let term := fun d => (List.zipWith (fun s k => Real.exp (s - lik (([0, 1, 1] : List ℝ).take k) - lik ([0, 1, 1].drop k)))
      (T.logSplit (1 / 2) 0 [0, 1, 1] [1, 1] 2 (if d = 0 then [1, 2] else [])) (if d = 0 then [1, 2] else [])).sum
    ((List.range 2).map term).sum = 1 / 4 := by
  have := (C30_prior_classification (pp := 1 / 2) (by norm_num) (by norm_num) 0 2 (by decide) [1, 1] [0, 1, 1]
    (fun _ => [0, 1, 1]) (fun d => if d = 0 then [1, 2] else []) (by
      intro d _
      by_cases h : d = 0 <;> simp [h])).2.2.1
  refine this.trans ?_
  have : ((List.range 2).filter fun d => decide ((if d = 0 then [1, 2] else []) ≠ [])).length = 1 := by decide
  rw [this]; norm_num

/-! ## C31 -/

/-- C31, classification: at each candidate position `k` the vectorised score is log prior plus the
log-likelihood of the first `k` targets plus that of the rest, each side's likelihood being that of not
splitting it. -/
theorem C31_scores_classification {K : Type} [Field K] [LinearOrder K] (F : Fns K) (pp : K) (lv : Nat)
    (y prior : List K) (nd : Nat) (si : List Nat) (hsi : ∀ k ∈ si, 1 ≤ k ∧ k < y.length) :
    let T := clsTarget F
    let lik := fun ys => T.logNoSplit pp lv ys prior - F.log (1 - pp ^ (1 + lv))
    (T.logSplit pp lv y prior nd si).length = si.length ∧
    ∀ (j k : Nat), si[j]? = some k → (T.logSplit pp lv y prior nd si)[j]? =
      some (F.log (pp ^ (1 + lv) / ((si.length : K) * (nd : K))) + lik (y.take k) + lik (y.drop k)) ∧
      lik (y.take k) = dirichletMarginal F prior (y.take k) ∧
      lik (y.drop k) = dirichletMarginal F prior (y.drop k) := by
  intro T lik
  have hlik : ∀ ys, lik ys = dirichletMarginal F prior ys := by
    intro ys
    show clsLogNoSplit F pp lv ys prior - _ = _
    rw [clsLogNoSplit_eq, logStayPrior, Nat.add_comm 1 lv, add_sub_cancel_left]
  have e : T.logSplit pp lv y prior nd si = _ := clsLogSplit_eq F pp lv y prior nd si hsi
  rw [e]
  refine ⟨by simp, fun j k hj => ⟨?_, hlik _, hlik _⟩⟩
  rw [List.getElem?_map, hj, hlik, hlik, Nat.add_comm 1 lv]
  rfl

/-- C31, regression; `si` may be all positions (the shortcut branch of the code) or any of them. -/
theorem C31_scores_regression {K : Type} [Field K] [LinearOrder K] [IsStrictOrderedRing K] (F : Fns K) (pp : K)
    (lv : Nat) (y : List K) (prior : NG K) (nd : Nat) (si : List Nat) (hsi : ∀ k ∈ si, 1 ≤ k ∧ k < y.length)
    (hp : si.Pairwise (· < ·)) :
    let T := regTarget F
    let lik := fun ys => T.logNoSplit pp lv ys prior - F.log (1 - pp ^ (1 + lv))
    (T.logSplit pp lv y prior nd si).length = si.length ∧
    ∀ (j k : Nat), si[j]? = some k → (T.logSplit pp lv y prior nd si)[j]? =
      some (F.log (pp ^ (1 + lv) / ((si.length : K) * (nd : K))) + lik (y.take k) + lik (y.drop k)) ∧
      lik (y.take k) = ngMarginal F prior (y.take k) ∧
      lik (y.drop k) = ngMarginal F prior (y.drop k) := by
  intro T lik
  have hlik : ∀ ys, ys ≠ [] → lik ys = ngMarginal F prior ys := by
    intro ys hne
    show regLogNoSplit F pp lv ys prior - _ = _
    rw [regLogNoSplit_eq _ _ _ _ _ hne, logStayPrior, Nat.add_comm 1 lv, add_sub_cancel_left]
  have e : T.logSplit pp lv y prior nd si = _ := regLogSplit_eq F pp lv y prior nd si hsi hp
  rw [e]
  refine ⟨by simp, fun j k hj => ?_⟩
  have hk := hsi k (List.mem_of_getElem? hj)
  have h1 : y.take k ≠ [] := by
    intro h0; have := congrArg List.length h0; rw [List.length_take, List.length_nil] at this; omega
  have h2 : y.drop k ≠ [] := by
    intro h0; have := congrArg List.length h0; rw [List.length_drop, List.length_nil] at this; omega
  refine ⟨?_, hlik _ h1, hlik _ h2⟩
  rw [List.getElem?_map, hj, hlik _ h1, hlik _ h2, Nat.add_comm 1 lv]
  rfl

/-- C31 in the shortcut case (every position is a candidate) and in a case with a gap. -/
example : ((regTarget realFns).logSplit (1 / 2) 0 [1, 2, 4] ⟨0, 1, 1, 1⟩ 1 [1, 2]).length = 2 ∧
    ((regTarget realFns).logSplit (1 / 2) 0 [1, 2, 4] ⟨0, 1, 1, 1⟩ 1 [2]).length = 1 :=
  ⟨(C31_scores_regression realFns (1 / 2) 0 [1, 2, 4] ⟨0, 1, 1, 1⟩ 1 [1, 2] (by simp) (by simp)).1,
   (C31_scores_regression realFns (1 / 2) 0 [1, 2, 4] ⟨0, 1, 1, 1⟩ 1 [2] (by simp) (by simp)).1⟩

end BT
