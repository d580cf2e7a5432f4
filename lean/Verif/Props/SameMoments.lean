import Verif.Props.MaxNormal

/-!
# Cuts without change of mean and variance: C100
-/

open MeasureTheory ProbabilityTheory

namespace BT
open Spec

theorem likelihood_integrable {ys : List ℝ} (hne : ys ≠ []) (τ μ : ℝ) (v : NNReal) :
    Integrable (fun m => normalLikelihood ys m τ) (gaussianReal μ v) := by
  rcases le_or_gt τ 0 with hτ | hτ
  · have : (fun m => normalLikelihood ys m τ) = fun _ => 0 := by
      funext m
      exact normalLikelihood_zero hne m hτ
    rw [this]
    exact integrable_zero _ _ _
  · have e : (fun m => normalLikelihood ys m τ) = fun m => Real.sqrt (τ / (2 * Real.pi)) ^ ys.length *
        Real.exp (-(τ / 2 * (sqDev ys + (ys.length : ℝ) * (mean ys - m) ^ 2))) := by
      funext m
      rw [normalLikelihood_eq ys m hτ, sum_sq_mean]
    rw [e]
    refine Integrable.of_bound (C := Real.sqrt (τ / (2 * Real.pi)) ^ ys.length) ?_ (Filter.Eventually.of_forall fun m => ?_)
    · exact Continuous.aestronglyMeasurable (by fun_prop)
    · have hQ := sqDev_nonneg ys
      rw [Real.norm_of_nonneg (by positivity)]
      have : Real.exp (-(τ / 2 * (sqDev ys + (ys.length : ℝ) * (mean ys - m) ^ 2))) ≤ 1 := by
        rw [Real.exp_le_one_iff]
        have : 0 ≤ τ / 2 * (sqDev ys + (ys.length : ℝ) * (mean ys - m) ^ 2) := by positivity
        linarith
      exact mul_le_of_le_one_right (by positivity) this

theorem evidence_integrable {p : NG ℝ} (hp : ProperNG p) (ys : List ℝ) :
    Integrable (fun τ => ∫ m, normalLikelihood ys m τ ∂gaussianReal p.mu (varianceOf (p.kappa * τ)))
      (gammaMeasure p.alpha p.beta) := by
  by_contra hn
  have h := evidence_textbook hp ys
  unfold ngEvidence ngExpectation at h
  rw [integral_undef hn] at h
  exact absurd h (Real.exp_pos _).ne

theorem integral_combination {μ : Measure ℝ} [IsProbabilityMeasure μ] {f g h : ℝ → ℝ} (hf : Integrable f μ)
    (hg : Integrable g μ) (hh : Integrable h μ) (a b c : ℝ) :
    ∫ x, (f x - a * g x - b * h x + c) ∂μ = (∫ x, f x ∂μ) - a * (∫ x, g x ∂μ) - b * (∫ x, h x ∂μ) + c := by
  have i2 := hg.const_mul a
  have i3 := hh.const_mul b
  have e1 : ∫ x, (f x - a * g x - b * h x + c) ∂μ = (∫ x, (f x - a * g x - b * h x) ∂μ) + ∫ _, c ∂μ :=
    integral_add ((hf.sub i2).sub i3) (integrable_const c)
  have e2 : ∫ x, (f x - a * g x - b * h x) ∂μ = (∫ x, (f x - a * g x) ∂μ) - ∫ x, b * h x ∂μ :=
    integral_sub (hf.sub i2) i3
  have e3 : ∫ x, (f x - a * g x) ∂μ = (∫ x, f x ∂μ) - ∫ x, a * g x ∂μ := integral_sub hf i2
  rw [e1, e2, e3, integral_const_mul, integral_const_mul]
  simp

theorem likelihood_append (A B : List ℝ) (m τ : ℝ) :
    normalLikelihood (A ++ B) m τ = normalLikelihood A m τ * normalLikelihood B m τ := by
  unfold normalLikelihood
  rw [List.map_append, List.prod_append]

/-- Two groups of targets with the same mean and variance are at least as likely together as apart. -/
theorem evidence_same_moments {p : NG ℝ} (hp : ProperNG p) {A B : List ℝ} (hA : A ≠ []) (hB : B ≠ [])
    (hm : mean A = mean B) (hv : sampleVariance A = sampleVariance B) :
    ngMarginal realFns p A + ngMarginal realFns p B ≤ ngMarginal realFns p (A ++ B) := by
  have := isProbabilityMeasure_gammaMeasure hp.2.1 hp.2.2
  set c := Real.exp (ngMarginal realFns p A) with hc
  have hc0 : 0 < c := Real.exp_pos _
  have hal : (0 : ℝ) < A.length := by exact_mod_cast List.length_pos_iff.2 hA
  have hbl : (0 : ℝ) < B.length := by exact_mod_cast List.length_pos_iff.2 hB
  set ρ : ℝ := (B.length : ℝ) / A.length with hρ
  have hρ0 : 0 ≤ ρ := by positivity
  have hAB : A ++ B ≠ [] := by simp [hA]
  have hpow : ∀ m τ, 0 < τ → normalLikelihood B m τ = normalLikelihood A m τ ^ ρ := by
    intro m τ hτ
    rw [exp_normalLogLik _ _ hτ, exp_normalLogLik _ _ hτ, ← Real.exp_mul]
    congr 1
    rw [normalLogLik_eq _ _ (inv_pos.2 hτ), normalLogLik_eq _ _ (inv_pos.2 hτ), hm]
    have hQA : sqDev A = (A.length : ℝ) * sampleVariance B := by rw [← hv]; unfold sampleVariance; field_simp
    have hQB : sqDev B = (B.length : ℝ) * sampleVariance B := by unfold sampleVariance; field_simp
    rw [hQA, hQB, hρ]
    field_simp
  have hpt : ∀ m τ, 0 ≤ (normalLikelihood A m τ - c) * (normalLikelihood B m τ - c ^ ρ) := by
    intro m τ
    rcases le_or_gt τ 0 with hτ | hτ
    · rw [normalLikelihood_zero hA m hτ, normalLikelihood_zero hB m hτ]
      have : 0 < c ^ ρ := Real.rpow_pos_of_pos hc0 _
      nlinarith [mul_pos hc0 this]
    · rw [hpow m τ hτ]
      refine rpow_chebyshev ?_ hc0 hρ0
      rw [exp_normalLogLik _ _ hτ]
      exact Real.exp_pos _
  have hexp : ∀ m τ, (normalLikelihood A m τ - c) * (normalLikelihood B m τ - c ^ ρ) =
      normalLikelihood (A ++ B) m τ - c ^ ρ * normalLikelihood A m τ - c * normalLikelihood B m τ + c * c ^ ρ := by
    intro m τ
    rw [likelihood_append]
    ring
  set I : List ℝ → ℝ → ℝ := fun ys τ => ∫ m, normalLikelihood ys m τ ∂gaussianReal p.mu (varianceOf (p.kappa * τ))
    with hI
  have hinner : ∀ τ, 0 ≤ I (A ++ B) τ - c ^ ρ * I A τ - c * I B τ + c * c ^ ρ := by
    intro τ
    have h0 : 0 ≤ ∫ m, (normalLikelihood (A ++ B) m τ - c ^ ρ * normalLikelihood A m τ - c * normalLikelihood B m τ +
        c * c ^ ρ) ∂gaussianReal p.mu (varianceOf (p.kappa * τ)) :=
      integral_nonneg fun m => by rw [← hexp]; exact hpt m τ
    have i1 := likelihood_integrable hAB τ p.mu (varianceOf (p.kappa * τ))
    rwa [integral_combination i1 (likelihood_integrable hA τ p.mu (varianceOf (p.kappa * τ)))
      (likelihood_integrable hB τ p.mu (varianceOf (p.kappa * τ)))] at h0
  have h0 : 0 ≤ ∫ τ, (I (A ++ B) τ - c ^ ρ * I A τ - c * I B τ + c * c ^ ρ) ∂gammaMeasure p.alpha p.beta :=
    integral_nonneg hinner
  rw [integral_combination (evidence_integrable hp (A ++ B)) (evidence_integrable hp A) (evidence_integrable hp B)] at h0
  have e : ∀ ys, ∫ τ, I ys τ ∂gammaMeasure p.alpha p.beta = Real.exp (ngMarginal realFns p ys) := fun ys =>
    evidence_textbook hp ys
  rw [e, e, e, ← hc] at h0
  have : c * Real.exp (ngMarginal realFns p B) ≤ Real.exp (ngMarginal realFns p (A ++ B)) := by linarith
  rw [hc, ← Real.exp_add] at this
  exact Real.exp_le_exp.1 this

/-- C100: in terms of the statistical model, the joint evidence of two groups of targets with the same mean and
variance is at least the product of their evidences. -/
theorem C100_joint {p : NG ℝ} (hp : ProperNG p) {A B : List ℝ} (hA : A ≠ []) (hB : B ≠ [])
    (hm : mean A = mean B) (hv : sampleVariance A = sampleVariance B) :
    ngEvidence p A * ngEvidence p B ≤ ngEvidence p (A ++ B) := by
  rw [evidence_textbook hp, evidence_textbook hp, evidence_textbook hp, ← Real.exp_add]
  exact Real.exp_le_exp.2 (evidence_same_moments hp hA hB hm hv)

/-- Two different groups with mean 1/2 and variance 1/4. -/
example : mean [(0 : ℝ), 1] = mean [(1 : ℝ), 0, 0, 1] ∧ sampleVariance [(0 : ℝ), 1] = sampleVariance [(1 : ℝ), 0, 0, 1] := by
  have h1 : mean [(0 : ℝ), 1] = 1 / 2 := by simp [mean]
  have h2 : mean [(1 : ℝ), 0, 0, 1] = 1 / 2 := by simp [mean]; norm_num
  refine ⟨by rw [h1, h2], ?_⟩
  unfold sampleVariance sqDev
  rw [h1, h2]
  simp
  norm_num

theorem ngMarginal_perm {p : NG ℝ} {A B : List ℝ} (h : A.Perm B) :
    ngMarginal realFns p A = ngMarginal realFns p B := by
  unfold ngMarginal Spec.ngPosterior
  rw [mean_perm h, sqDev_perm h, h.length_eq]

section
variable {hp : Hyper ℝ} {argsort : List ℝ → List Nat} {X : Nat → Nat → ℝ} {y : Nat → ℝ} {n nDim : Nat}
  {names : List String} {prior : NG ℝ} {t : PNode ℝ ℝ ℝ (NG ℝ)}

/-- C100: a split whose children have the same mean and variance is only made if its prior probability is
larger than that of not splitting. -/
theorem C100_split (hr : Training hp argsort n nDim) (hδ : 0 ≤ hp.delta) (hpp : 0 < hp.partitionPrior)
    (hprior : ProperNG prior)
    (h : perpFitRoot (exactOps ℝ) (regTarget realFns) argsort hp (some prior) X y n nDim names = .ok t)
    (addr : List Bool) (i : Info ℝ (NG ℝ)) (sp : PSplit ℝ) (l b : ℝ) (c1 c2 : PNode ℝ ℝ ℝ (NG ℝ))
    (hu : nodeAt t addr = some (.split i sp l b c1 c2)) :
    let q := hp.partitionPrior ^ (addr.length + 1)
    let A := (rowsAt X t n (addr ++ [false])).map y
    let B := (rowsAt X t n (addr ++ [true])).map y
    ¬ (mean A = mean B ∧ sampleVariance A = sampleVariance B) ∨
      1 - q < q / ((cutCount hp.splitPrecision X (rowsAt X t n addr) sp.dim : ℝ) * (nDim : ℝ)) := by
  intro q A B
  by_contra hno
  push Not at hno
  obtain ⟨⟨hf1, hf2⟩, hq⟩ := hno
  have hT : CodeTarget realFns (regTarget realFns) (ngMarginal realFns) Spec.ngPosterior := .regression
  obtain ⟨p, hp1, hp2, hp4⟩ := reg_node_prior hr hδ hprior h hu
  obtain ⟨p', hp', g1, g2, hdim, ⟨a, c, hac, hv, hb⟩, -⟩ := C13_closed hT hr h addr i sp l b c1 c2 hu
  have hpe : p' = p := Option.some.inj (hp'.symm.trans hp1)
  subst hpe
  obtain ⟨r1, r2⟩ := C13_closed_children hT hr h addr i sp l b c1 c2 hu
  obtain ⟨s1, s2⟩ := split_sides hac hv
  set R := rowsAt X t n addr with hR
  have eA : A = (R.filter fun i => decide (X i sp.dim ≤ a)).map y := by
    show (rowsAt X t n (addr ++ [false])).map y = _
    rw [r1, s1]
  have eB : B = (R.filter fun i => decide (a < X i sp.dim)).map y := by
    show (rowsAt X t n (addr ++ [true])).map y = _
    rw [r2, s2]
  rw [eA, eB] at hf1 hf2
  rw [hb, g1] at g2
  unfold perpCutScore stayScore at g2
  have hcc := cutCount_pos hr hac
  obtain ⟨⟨i1, hi1, e1⟩, ⟨j1, hj1, f1⟩, hlt, -, hadj⟩ := id hac
  have hA0 : (R.filter fun i => decide (X i sp.dim ≤ a)).map y ≠ [] :=
    List.ne_nil_of_mem (List.mem_map_of_mem (List.mem_filter.2 ⟨hi1, by simp [e1]⟩))
  have hB0 : (R.filter fun i => decide (a < X i sp.dim)).map y ≠ [] :=
    List.ne_nil_of_mem (List.mem_map_of_mem (List.mem_filter.2 ⟨hj1, by simpa [f1] using hlt⟩))
  have key := evidence_same_moments hp2 hA0 hB0 hf1 hf2
  rw [ngMarginal_perm (sides_perm R sp.dim a)] at key
  have hq0 : 0 < q := pow_pos hpp _
  have hlog : Real.log (q / ((cutCount hp.splitPrecision X R sp.dim : ℝ) * (nDim : ℝ))) ≤ Real.log (1 - q) := by
    apply Real.log_le_log _ hq
    have h1 : (0 : ℝ) < cutCount hp.splitPrecision X R sp.dim := by exact_mod_cast hcc
    have h2 : (0 : ℝ) < nDim := by exact_mod_cast lt_of_le_of_lt (Nat.zero_le _) hdim
    positivity
  have g2' : Real.log (1 - q) + ngMarginal realFns p' (R.map y) <
      Real.log (q / ((cutCount hp.splitPrecision X R sp.dim : ℝ) * (nDim : ℝ))) +
        ngMarginal realFns p' ((R.filter fun i => X i sp.dim ≤ a).map y) +
        ngMarginal realFns p' ((R.filter fun i => a < X i sp.dim).map y) := g2
  linarith

/-- C100: with a partition prior of at most 1/2 the children of every split differ in mean or variance. -/
theorem C100_half (hr : Training hp argsort n nDim) (hδ : 0 ≤ hp.delta) (hpp : 0 < hp.partitionPrior)
    (hpp1 : hp.partitionPrior ≤ 1 / 2) (hprior : ProperNG prior)
    (h : perpFitRoot (exactOps ℝ) (regTarget realFns) argsort hp (some prior) X y n nDim names = .ok t)
    (addr : List Bool) (i : Info ℝ (NG ℝ)) (sp : PSplit ℝ) (l b : ℝ) (c1 c2 : PNode ℝ ℝ ℝ (NG ℝ))
    (hu : nodeAt t addr = some (.split i sp l b c1 c2)) :
    let A := (rowsAt X t n (addr ++ [false])).map y
    let B := (rowsAt X t n (addr ++ [true])).map y
    mean A ≠ mean B ∨ sampleVariance A ≠ sampleVariance B := by
  intro A B
  rcases C100_split hr hδ hpp hprior h addr i sp l b c1 c2 hu with g | g
  · exact not_and_or.1 g
  · exfalso
    have hT : CodeTarget realFns (regTarget realFns) (ngMarginal realFns) Spec.ngPosterior := .regression
    obtain ⟨p', -, -, -, hdim, ⟨a, c, hac, -, -⟩, -⟩ := C13_closed hT hr h addr i sp l b c1 c2 hu
    have hcc := cutCount_pos hr hac
    have h1 : (1 : ℝ) ≤ cutCount hp.splitPrecision X (rowsAt X t n addr) sp.dim := by exact_mod_cast hcc
    have h2 : (1 : ℝ) ≤ nDim := by exact_mod_cast lt_of_le_of_lt (Nat.zero_le _) hdim
    have hq0 : 0 < hp.partitionPrior ^ (addr.length + 1) := pow_pos hpp _
    have hq1 : hp.partitionPrior ^ (addr.length + 1) ≤ 1 / 2 := by
      rw [pow_succ]
      have : hp.partitionPrior ^ addr.length ≤ 1 := pow_le_one₀ hpp.le (by linarith)
      nlinarith
    have h3 : hp.partitionPrior ^ (addr.length + 1) /
        ((cutCount hp.splitPrecision X (rowsAt X t n addr) sp.dim : ℝ) * (nDim : ℝ)) ≤
        hp.partitionPrior ^ (addr.length + 1) := div_le_self hq0.le (by nlinarith)
    linarith

/-- The two sides of the cut chosen at a node of a tree fitted to copies, in terms of the original rows. -/
theorem copies_split_reg {k : Nat} (hr : Training hp argsort (k * n) nDim) (hδ : 0 ≤ hp.delta)
    (hpp : 0 < hp.partitionPrior) (hpp1 : hp.partitionPrior ≤ 1 / 2) (hprior : ProperNG prior)
    (h : perpFitRoot (exactOps ℝ) (regTarget realFns) argsort hp (some prior) (repeated n X) (repeated n y) (k * n)
      nDim names = .ok t) (addr : List Bool) (i : Info ℝ (NG ℝ)) (sp : PSplit ℝ) (l b : ℝ)
    (c1 c2 : PNode ℝ ℝ ℝ (NG ℝ)) (hu : nodeAt t addr = some (.split i sp l b c1 c2)) :
    ∃ d < nDim, ∃ a c, IsCut hp.splitPrecision X (rowsAt X t n addr) d a c ∧
      let A := ((rowsAt X t n addr).filter fun i => X i d ≤ a).map y
      let B := ((rowsAt X t n addr).filter fun i => a < X i d).map y
      ¬ (mean A = mean B ∧ sampleVariance A = sampleVariance B) := by
  have hk : 0 < k := Nat.pos_of_mul_pos_right hr.someRow
  have hT : CodeTarget realFns (regTarget realFns) (ngMarginal realFns) Spec.ngPosterior := .regression
  have hne := C100_half hr hδ hpp hpp1 hprior h addr i sp l b c1 c2 hu
  obtain ⟨p', -, -, -, hdim, ⟨a, c, hac, hv, -⟩, -⟩ := C13_closed hT hr h addr i sp l b c1 c2 hu
  obtain ⟨r1, r2⟩ := C13_closed_children hT hr h addr i sp l b c1 c2 hu
  obtain ⟨s1, s2⟩ := split_sides hac hv
  simp only at hne
  rw [r1, r2, s1, s2] at hne
  have hR' := rowsAt_repeated X t k n addr
  have hac' := (isCut_repeated hk hR' _ X _ a c).1 hac
  have eA : ((rowsAt (repeated n X) t (k * n) addr).filter fun i => repeated n X i sp.dim ≤ a).map (repeated n y) =
      copies k (((rowsAt X t n addr).filter fun i => X i sp.dim ≤ a).map y) :=
    map_repeated (filter_map_repeated hR' fun i => decide (X i sp.dim ≤ a)) y
  have eB : ((rowsAt (repeated n X) t (k * n) addr).filter fun i => a < repeated n X i sp.dim).map (repeated n y) =
      copies k (((rowsAt X t n addr).filter fun i => a < X i sp.dim).map y) :=
    map_repeated (filter_map_repeated hR' fun i => decide (a < X i sp.dim)) y
  rw [eA, eB, mean_copies hk, mean_copies hk, sampleVariance_copies hk, sampleVariance_copies hk] at hne
  exact ⟨sp.dim, hdim, a, c, hac', not_and_or.2 hne⟩

/-- C100: if no cut of the data set changes mean and variance, no number of copies of the data set makes the
tree split. -/
theorem C100_uninformative {k : Nat} (hr : Training hp argsort (k * n) nDim) (hδ : 0 ≤ hp.delta)
    (hpp : 0 < hp.partitionPrior) (hpp1 : hp.partitionPrior ≤ 1 / 2) (hprior : ProperNG prior)
    (hcut : ∀ d < nDim, ∀ a c, IsCut hp.splitPrecision X (List.range n) d a c →
      let A := ((List.range n).filter fun i => X i d ≤ a).map y
      let B := ((List.range n).filter fun i => a < X i d).map y
      mean A = mean B ∧ sampleVariance A = sampleVariance B)
    (h : perpFitRoot (exactOps ℝ) (regTarget realFns) argsort hp (some prior) (repeated n X) (repeated n y) (k * n)
      nDim names = .ok t) : t.isLeaf = true := by
  cases ht : t with
  | leaf i => rfl
  | split i sp l b c1 c2 =>
    exfalso
    have hu : nodeAt t [] = some (.split i sp l b c1 c2) := by rw [nodeAt_nil, ht]
    obtain ⟨d, hd, a, c, hac, hne⟩ := copies_split_reg hr hδ hpp hpp1 hprior h [] i sp l b c1 c2 hu
    have hR0 : rowsAt X t n [] = List.range n := by
      unfold rowsAt
      rw [List.filter_eq_self]
      intro i _
      rw [follows]
    rw [hR0] at hac hne
    exact hne (hcut d hd a c hac)

/-- C100: with a partition prior of at most 1/2 and enough copies of the data set, the nodes of the unpruned
regression tree are split exactly where some cut changes the mean or the variance. -/
theorem C100_exact (X : Nat → Nat → ℝ) (y : Nat → ℝ) (n nDim : Nat) (hpr : hp.prune = false) (hδ : hp.delta = 0)
    (hpp : 0 < hp.partitionPrior) (hpp1 : hp.partitionPrior ≤ 1 / 2) (hprior : ProperNG prior) :
    ∃ N : Nat, ∀ (k : Nat) (argsort : List ℝ → List Nat) (names : List String) (t : PNode ℝ ℝ ℝ (NG ℝ)), N ≤ k →
      Training hp argsort (k * n) nDim →
      perpFitRoot (exactOps ℝ) (regTarget realFns) argsort hp (some prior) (repeated n X) (repeated n y) (k * n)
        nDim names = .ok t →
      ∀ (addr : List Bool) (u : PNode ℝ ℝ ℝ (NG ℝ)), nodeAt t addr = some u →
        (u.isLeaf = true ↔ ∀ d < nDim, ∀ a c, IsCut hp.splitPrecision X (rowsAt X t n addr) d a c →
          let A := ((rowsAt X t n addr).filter fun i => X i d ≤ a).map y
          let B := ((rowsAt X t n addr).filter fun i => a < X i d).map y
          mean A = mean B ∧ sampleVariance A = sampleVariance B) := by
  obtain ⟨N, hN⟩ := C99_learns X y n nDim hpr hδ hpp (by linarith) hprior
  refine ⟨N, fun k argsort names t hk hr h addr u hu => ⟨fun hleaf => ?_, fun hcut => ?_⟩⟩
  · cases u with
    | leaf i => exact hN k argsort names t hk hr h addr i hu
    | split i sp l b c1 c2 => cases hleaf
  · cases u with
    | leaf i => rfl
    | split i sp l b c1 c2 =>
      obtain ⟨d, hd, a, c, hac, hne⟩ := copies_split_reg hr hδ.ge hpp hpp1 hprior h addr i sp l b c1 c2 hu
      exact absurd (hcut d hd a c hac) hne

end

theorem swap_moments : mean [(0 : ℝ), 1] = mean [(1 : ℝ), 0] ∧ sampleVariance [(0 : ℝ), 1] = sampleVariance [(1 : ℝ), 0] := by
  have h : [(0 : ℝ), 1].Perm [1, 0] := List.Perm.swap 1 0 []
  refine ⟨mean_perm h, ?_⟩
  unfold sampleVariance
  rw [sqDev_perm h]
  rfl

/-- C100: a regression tree never splits data with targets `x0 xor x1`, however often they are repeated. -/
theorem C100_xor {hp : Hyper ℝ} {argsort : List ℝ → List Nat} {names : List String} {k : Nat}
    {t : PNode ℝ ℝ ℝ (NG ℝ)} {prior : NG ℝ} (hprior : ProperNG prior) (hr : Training hp argsort (k * 4) 2)
    (hδ : 0 ≤ hp.delta) (hpp : 0 < hp.partitionPrior) (hpp1 : hp.partitionPrior ≤ 1 / 2)
    (h : perpFitRoot (exactOps ℝ) (regTarget realFns) argsort hp (some prior)
      (repeated 4 fun i d => if d = 0 then ((i % 2 : Nat) : ℝ) else ((i / 2 : Nat) : ℝ))
      (repeated 4 fun i => (((i % 2 + i / 2) % 2 : Nat) : ℝ)) (k * 4) 2 names = .ok t) : t.isLeaf = true := by
  refine C100_uninformative hr hδ hpp hpp1 hprior ?_ h
  intro d hd a c hac
  have ha : a = 0 := by
    obtain ⟨⟨i, hi, rfl⟩, ⟨j, hj, rfl⟩, hlt, -, -⟩ := hac
    simp only [List.mem_range] at hi hj
    interval_cases d <;> interval_cases i <;> interval_cases j <;> first | (norm_num at hlt; done) | norm_num
  subst ha
  interval_cases d
  · simpa [List.range_succ] using swap_moments
  · simpa [List.range_succ] using swap_moments

/-- The hypotheses can be met: a thousand copies. -/
example : ∃ t, perpFitRoot (exactOps ℝ) (regTarget realFns) realSort ⟨1 / 2, 0, false, 0⟩ (some ⟨0, 1, 1, 1⟩)
      (repeated 4 fun i d => if d = 0 then ((i % 2 : Nat) : ℝ) else ((i / 2 : Nat) : ℝ))
      (repeated 4 fun i => (((i % 2 + i / 2) % 2 : Nat) : ℝ)) (1000 * 4) 2 ["a", "b"] = .ok t ∧ t.isLeaf = true := by
  have hT : CodeTarget realFns (regTarget realFns) (ngMarginal realFns) Spec.ngPosterior := .regression
  have hr : Training (⟨1 / 2, 0, false, 0⟩ : Hyper ℝ) realSort (1000 * 4) 2 :=
    ⟨le_refl _, realSort_sorts, by norm_num, by norm_num, by norm_num⟩
  obtain ⟨t, ht⟩ := C12_closed hT hr (names := ["a", "b"]) _ _ (some ⟨0, 1, 1, 1⟩) (by simp)
  exact ⟨t, ht, C100_xor ⟨one_pos, one_pos, one_pos⟩ hr (le_refl _) (by norm_num) (by norm_num) ht⟩

end BT
