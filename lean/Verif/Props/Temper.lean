import Verif.Spec.Temper
import Verif.Props.Closed

/-!
# Strengthening the prior by `delta`: C72
-/

namespace BT
open Spec

theorem normalKernel_eq (ys : List ℝ) (m : ℝ) {lam : ℝ} (hl : 0 < lam) :
    normalKernel ys m lam = lam ^ ((ys.length : ℝ) / 2) *
      Real.exp (-(lam * (ys.map fun y => (y - m) ^ 2).sum / 2)) := by
  unfold normalKernel
  induction ys with
  | nil => simp
  | cons y ys ih =>
    rw [List.map_cons, List.prod_cons, ih, List.map_cons, List.sum_cons, List.length_cons, Real.sqrt_eq_rpow]
    have e1 : lam ^ (((ys.length + 1 : Nat) : ℝ) / 2) = lam ^ ((1 : ℝ) / 2) * lam ^ ((ys.length : ℝ) / 2) := by
      rw [← Real.rpow_add hl]; congr 1; push_cast; ring
    have e2 : Real.exp (-(lam * ((y - m) ^ 2 + (ys.map fun y => (y - m) ^ 2).sum) / 2)) =
        Real.exp (-(lam * (y - m) ^ 2 / 2)) * Real.exp (-(lam * (ys.map fun y => (y - m) ^ 2).sum / 2)) := by
      rw [← Real.exp_add]; congr 1; ring
    rw [e1, e2]; ring

theorem sum_sq_from (ys : List ℝ) (m : ℝ) : (ys.map fun y => (y - m) ^ 2).sum =
    (ys.map fun y => y ^ 2).sum - 2 * m * ys.sum + (ys.length : ℝ) * m ^ 2 := by
  induction ys with
  | nil => simp
  | cons y ys ih => simp only [List.map_cons, List.sum_cons, List.length_cons, ih]; push_cast; ring

/-- The correct `beta` of a tempered update. -/
noncomputable def temperBeta (p : NG ℝ) (ys : List ℝ) (δ : ℝ) : ℝ :=
  p.beta + (1 / 2) * δ * ((ys.map fun y => y ^ 2).sum - ys.sum ^ 2 / (ys.length : ℝ))
    + (1 / 2) * p.kappa * ((ys.length : ℝ) * δ) * (ys.sum / (ys.length : ℝ) - p.mu) ^ 2 /
      (p.kappa + (ys.length : ℝ) * δ)

theorem temper_quadratic (p : NG ℝ) (hκ : 0 < p.kappa) (ys : List ℝ) (hy : ys ≠ []) {δ : ℝ} (hδ : 0 ≤ δ) (m : ℝ) :
    let q := BT.ngPosterior p ys.length ys.sum (ys.map fun y => y ^ 2).sum δ
    p.kappa * (m - p.mu) ^ 2 + 2 * p.beta + δ * (ys.map fun y => (y - m) ^ 2).sum =
      q.kappa * (m - q.mu) ^ 2 + 2 * temperBeta p ys δ := by
  intro q
  have hn : (0 : ℝ) < (ys.length : ℝ) := by exact_mod_cast List.length_pos_iff.2 hy
  have hk : 0 < p.kappa + (ys.length : ℝ) * δ := by positivity
  simp only [q, BT.ngPosterior, temperBeta]
  rw [sum_sq_from]
  generalize (ys.length : ℝ) = n at *
  field_simp
  ring

/-- The density of the code's update with the correct `beta` is the tempered one. -/
theorem temper_correct (p : NG ℝ) (hκ : 0 < p.kappa) (ys : List ℝ) (hy : ys ≠ []) {δ : ℝ} (hδ : 0 ≤ δ)
    (m : ℝ) {lam : ℝ} (hl : 0 < lam) :
    ngKernel p m lam * normalKernel ys m lam ^ δ =
      ngKernel { BT.ngPosterior p ys.length ys.sum (ys.map fun y => y ^ 2).sum δ with
        beta := temperBeta p ys δ } m lam := by
  have key := temper_quadratic p hκ ys hy hδ m
  simp only at key
  rw [normalKernel_eq ys m hl, Real.mul_rpow (by positivity) (Real.exp_pos _).le, ← Real.rpow_mul hl.le,
    ← Real.exp_mul]
  unfold ngKernel
  have e1 : lam ^ (p.alpha - 1 / 2) * lam ^ ((ys.length : ℝ) / 2 * δ) =
      lam ^ (p.alpha + 1 / 2 * ((ys.length : ℝ) * δ) - 1 / 2) := by
    rw [← Real.rpow_add hl]; congr 1; ring
  have e2 : Real.exp (-(p.beta * lam)) * Real.exp (-(p.kappa * lam * (m - p.mu) ^ 2 / 2)) *
      Real.exp (-(lam * (ys.map fun y => (y - m) ^ 2).sum / 2) * δ) =
      Real.exp (-(lam / 2 * (p.kappa * (m - p.mu) ^ 2 + 2 * p.beta + δ * (ys.map fun y => (y - m) ^ 2).sum))) := by
    rw [← Real.exp_add, ← Real.exp_add]; congr 1; ring
  calc _ = (lam ^ (p.alpha - 1 / 2) * lam ^ ((ys.length : ℝ) / 2 * δ)) *
      (Real.exp (-(p.beta * lam)) * Real.exp (-(p.kappa * lam * (m - p.mu) ^ 2 / 2)) *
      Real.exp (-(lam * (ys.map fun y => (y - m) ^ 2).sum / 2) * δ)) := by ring
    _ = _ := by
      rw [e1, e2, key, mul_assoc, ← Real.exp_add]
      simp only [BT.ngPosterior]
      congr 2
      ring

/-- C72, regression: the parameters computed for `delta` are those of observations with weight `delta`
exactly if `delta` is 0 or 1 or the targets have mean `mu`; only `beta` can be wrong. -/
theorem C72_regression_iff (F : Fns ℝ) (p : NG ℝ) (hκ : 0 < p.kappa) (ys : List ℝ) (hy : ys ≠ []) {δ : ℝ}
    (hδ : 0 ≤ δ) :
    IsTempered p ys δ ((regTarget F).posterior ys p δ) ↔ δ = 0 ∨ δ = 1 ∨ ys.sum / (ys.length : ℝ) = p.mu := by
  have hn : (0 : ℝ) < (ys.length : ℝ) := by exact_mod_cast List.length_pos_iff.2 hy
  show IsTempered p ys δ (regPosterior ys p δ) ↔ _
  by_cases h0 : δ = 0
  · subst h0
    refine iff_of_true ⟨1, one_pos, fun m lam _ => ?_⟩ (.inl rfl)
    rw [Real.rpow_zero, mul_one, one_mul, regPosterior, if_pos rfl]
  have hpos : 0 < δ := lt_of_le_of_ne hδ (Ne.symm h0)
  rw [regPosterior, if_neg h0]
  set q := BT.ngPosterior p ys.length ys.sum (ys.map fun y => y ^ 2).sum δ with hq
  have hbeta : q.beta = temperBeta p ys δ ↔ δ = 1 ∨ ys.sum / (ys.length : ℝ) = p.mu := by
    have h1 : 0 < p.kappa + (ys.length : ℝ) * δ := by positivity
    have h2 : 0 < p.kappa + (ys.length : ℝ) := by positivity
    simp only [hq, BT.ngPosterior, temperBeta]
    rw [add_right_inj, div_eq_div_iff h2.ne' h1.ne']
    constructor
    · intro h
      have h3 : (1 / 2 * p.kappa * ((ys.length : ℝ) * δ) * (ys.length : ℝ)) *
          ((ys.sum / (ys.length : ℝ) - p.mu) ^ 2 * (δ - 1)) = 0 := by linear_combination h
      rcases mul_eq_zero.1 h3 with h4 | h4
      · exact absurd h4 (by positivity)
      · rcases mul_eq_zero.1 h4 with h5 | h5
        · exact .inr (sub_eq_zero.1 (pow_eq_zero_iff (two_ne_zero)|>.1 h5))
        · exact .inl (sub_eq_zero.1 h5)
    · rintro (rfl | h)
      · ring
      · rw [h]; ring
  constructor
  · rintro ⟨C, hC, h⟩
    refine .inr (hbeta.1 ?_)
    have hk : ∀ lam : ℝ, 0 < lam → Real.exp (-(temperBeta p ys δ * lam)) = C * Real.exp (-(q.beta * lam)) := by
      intro lam hl
      have := h q.mu lam hl
      rw [temper_correct p hκ ys hy hδ _ hl, ← hq] at this
      unfold ngKernel at this
      simp only [sub_self, zero_pow (two_ne_zero), mul_zero, zero_div, neg_zero, Real.exp_zero, mul_one] at this
      have hx : lam ^ (q.alpha - 1 / 2) ≠ 0 := (Real.rpow_pos_of_pos hl _).ne'
      apply mul_left_cancel₀ hx
      linear_combination this
    have a1 := hk 1 one_pos
    have a2 := hk 2 two_pos
    have s1 : Real.exp (-(temperBeta p ys δ * 2)) = Real.exp (-(temperBeta p ys δ * 1)) * Real.exp (-(temperBeta p ys δ * 1)) := by
      rw [← Real.exp_add]; congr 1; ring
    have s2 : Real.exp (-(q.beta * 2)) = Real.exp (-(q.beta * 1)) * Real.exp (-(q.beta * 1)) := by
      rw [← Real.exp_add]; congr 1; ring
    rw [s1, s2, a1] at a2
    have hE := Real.exp_pos (-(q.beta * 1))
    have hC1 : C = 1 := by
      have h3 : C * (Real.exp (-(q.beta * 1)) * Real.exp (-(q.beta * 1))) * (C - 1) = 0 := by linear_combination a2
      rcases mul_eq_zero.1 h3 with h4 | h4
      · exact absurd h4 (by positivity)
      · linarith
    rw [hC1, one_mul] at a1
    have := Real.exp_injective a1
    linarith
  · intro h
    have hb := hbeta.2 (h.resolve_left h0)
    refine ⟨1, one_pos, fun m lam hl => ?_⟩
    rw [temper_correct p hκ ys hy hδ m hl, one_mul, ← hq, ← hb]

theorem categoricalKernel_cons (k : Nat) (ls : List Nat) (θ : Nat → ℝ) :
    categoricalKernel (k :: ls) θ = θ k * categoricalKernel ls θ := by
  simp [categoricalKernel]

theorem categoricalKernel_pos (ls : List Nat) {θ : Nat → ℝ} (hθ : ∀ i, 0 < θ i) : 0 < categoricalKernel ls θ := by
  induction ls with
  | nil => simp [categoricalKernel]
  | cons k ls ih => rw [categoricalKernel_cons]; exact mul_pos (hθ k) ih

theorem mapIdx_same {α : Type} (l : List α) : (l.mapIdx fun _ a => a) = l :=
  List.ext_getElem (by simp) fun i h1 h2 => by simp

/-- Adding `δ` to one entry multiplies the kernel by `θ k ^ δ`. -/
theorem dirichletKernel_bump (δ : ℝ) (k : Nat) {θ : Nat → ℝ} (hθ : ∀ i, 0 < θ i) (p : List ℝ) (f : Nat → ℝ)
    (hk : k < p.length) :
    dirichletKernel (p.mapIdx fun i a => a + (f i + if i = k then δ else 0)) θ =
      dirichletKernel (p.mapIdx fun i a => a + f i) θ * θ k ^ δ := by
  unfold dirichletKernel
  induction p generalizing k f θ with
  | nil => simp at hk
  | cons a p ih =>
    simp only [List.mapIdx_cons, List.prod_cons, List.mapIdx_mapIdx] at *
    cases k with
    | zero =>
      have e : ∀ i : Nat, (if i + 1 = 0 then δ else 0) = 0 := fun i => by simp
      simp only [e, add_zero, if_true]
      rw [show a + (f 0 + δ) - 1 = (a + f 0 - 1) + δ by ring, Real.rpow_add (hθ 0)]
      ring
    | succ k =>
      have := ih (k := k) (f := fun i => f (i + 1)) (θ := fun i => θ (i + 1)) (hθ := fun i => hθ _) (hk := by simpa using hk)
      have e : ∀ i : Nat, (if i + 1 = k + 1 then δ else 0) = if i = k then δ else 0 := fun i => by simp
      have e0 : (if 0 = k + 1 then δ else 0) = 0 := by simp
      simp only [e, e0, add_zero]
      rw [mul_assoc]
      congr 1

/-- C72, classification: the parameters computed for `delta` are those of labels with weight `delta`. -/
theorem C72_classification (F : Fns ℝ) (p : List ℝ) (labels : List Nat) (hl : ∀ k ∈ labels, k < p.length) (δ : ℝ) :
    IsTemperedDirichlet p labels δ ((clsTarget F).posterior (labels.map fun (k : Nat) => (k : ℝ)) p δ) := by
  have hc : ∀ (δ : ℝ), clsPosterior (labels.map fun (k : Nat) => (k : ℝ)) p δ =
      p.mapIdx fun i a => a + δ * ((labels.count i : Nat) : ℝ) := by
    intro δ
    have hcount : ∀ i, classCount (labels.map fun (k : Nat) => (k : ℝ)) i = labels.count i := by
      intro i
      unfold classCount
      rw [List.countP_map, List.count]
      congr 1
      funext k
      simp [beq_eq_decide]
    unfold clsPosterior
    split
    · next h => simp [h, mapIdx_same]
    · simp only [hcount]
  show IsTemperedDirichlet p labels δ (clsPosterior _ p δ)
  rw [hc]
  refine ⟨by simp, fun θ hθ => ?_⟩
  clear hc
  induction labels with
  | nil => simp [categoricalKernel, mapIdx_same]
  | cons k ls ih =>
    have := ih fun k' hk' => hl k' (List.mem_cons_of_mem _ hk')
    rw [categoricalKernel_cons, Real.mul_rpow (hθ k).le (categoricalKernel_pos ls hθ).le]
    have e : (fun (i : Nat) (a : ℝ) => a + δ * (((k :: ls).count i : Nat) : ℝ)) =
        fun i a => a + (δ * ((ls.count i : Nat) : ℝ) + if i = k then δ else 0) := by
      funext i a
      rw [List.count_cons]
      by_cases h : i = k
      · subst h; simp; ring
      · have : ¬ k = i := fun h' => h h'.symm
        simp [h, this]
    rw [e, dirichletKernel_bump δ k hθ p _ (hl k List.mem_cons_self), ← this]
    ring

section
variable {F : Fns ℝ} {hp : Hyper ℝ} {argsort : List ℝ → List Nat} {X : Nat → Nat → ℝ} {n nDim : Nat}
  {names : List String}

/-- C72 for fits of classification trees: the prior of a child is its parent's prior updated with the
labels of the child's rows, each with weight `delta`. -/
theorem C72_classification_fit {label : Nat → Nat} {prior : List ℝ} {t : PNode ℝ ℝ ℝ (List ℝ)}
    (hr : Training hp argsort n nDim) (hl : ∀ i < n, label i < prior.length)
    (h : perpFitRoot (exactOps ℝ) (clsTarget F) argsort hp (some prior) X (fun i => (label i : ℝ)) n nDim names = .ok t)
    (addr : List Bool) (i : Info ℝ (List ℝ)) (sp : PSplit ℝ) (l b : ℝ) (c1 c2 : PNode ℝ ℝ ℝ (List ℝ))
    (hu : nodeAt t addr = some (.split i sp l b c1 c2)) :
    ∃ p p1 p2, i.prior = some p ∧ c1.info.prior = some p1 ∧ c2.info.prior = some p2 ∧
      IsTemperedDirichlet p ((rowsAt X t n (addr ++ [false])).map label) hp.delta p1 ∧
      IsTemperedDirichlet p ((rowsAt X t n (addr ++ [true])).map label) hp.delta p2 := by
  have hT : CodeTarget F (clsTarget F) (dirichletMarginal F) dirichletPosterior := .classification
  have hv := hr.valid hT (X := X) (y := fun i => (label i : ℝ)) (names := names)
  have hlenQ : ∀ (ys q : List ℝ) (δ : ℝ), q.length = prior.length →
      ((clsTarget F).posterior ys q δ).length = prior.length := by
    intro ys q δ hq
    show (clsPosterior ys q δ).length = _
    unfold clsPosterior
    split <;> simp [hq]
  obtain ⟨p, hpr, hlen⟩ := (fit_inv hv hr.someRow h (fun q => q.length = prior.length) rfl
    (fun _ _ _ q hq => hlenQ _ q _ hq) (fun _ _ _ _ q hq => hlenQ _ q _ hq) addr _ hu).2.1 (.inl ⟨_, rfl⟩)
  have hpr : i.prior = some p := hpr
  have hg := C19_child_prior hv h addr i sp l b c1 c2 hu
  rw [hpr, routed_eq, routed_eq] at hg
  have hrow : ∀ a, ∀ k ∈ (rowsAt X t n a).map label, k < p.length := by
    intro a k hk
    obtain ⟨j, hj, rfl⟩ := List.mem_map.1 hk
    rw [hlen]
    exact hl j (List.mem_range.1 (List.mem_filter.1 hj).1)
  have key : ∀ a, IsTemperedDirichlet p ((rowsAt X t n a).map label) hp.delta
      ((clsTarget F).posterior ((rowsAt X t n a).map fun j => (label j : ℝ)) p hp.delta) := by
    intro a
    have := C72_classification F p _ (hrow a) hp.delta
    rwa [List.map_map] at this
  by_cases hδ : hp.delta = 0
  · obtain ⟨e1, e2⟩ := hg.1 hδ
    refine ⟨p, p, p, hpr, e1, e2, ?_, ?_⟩
    · have := key (addr ++ [false])
      rwa [show (clsTarget F).posterior _ p hp.delta = p by
        show clsPosterior _ p hp.delta = p
        rw [clsPosterior, if_pos hδ]] at this
    · have := key (addr ++ [true])
      rwa [show (clsTarget F).posterior _ p hp.delta = p by
        show clsPosterior _ p hp.delta = p
        rw [clsPosterior, if_pos hδ]] at this
  · obtain ⟨e1, e2⟩ := hg.2 hδ
    exact ⟨p, _, _, hpr, e1, e2, key _, key _⟩

/-- C72 for fits of regression trees: the prior of a child is its parent's prior updated with the targets
of the child's rows, each with weight `delta`, exactly if `delta` is 0 or 1 or these targets have the
parent's prior mean. -/
theorem C72_regression_fit_partial {y : Nat → ℝ} {prior : NG ℝ} {t : PNode ℝ ℝ ℝ (NG ℝ)}
    (hr : Training hp argsort n nDim) (hδ : 0 ≤ hp.delta) (hκ : 0 < prior.kappa)
    (h : perpFitRoot (exactOps ℝ) (regTarget F) argsort hp (some prior) X y n nDim names = .ok t)
    (addr : List Bool) (i : Info ℝ (NG ℝ)) (sp : PSplit ℝ) (l b : ℝ) (c1 c2 : PNode ℝ ℝ ℝ (NG ℝ))
    (hu : nodeAt t addr = some (.split i sp l b c1 c2)) :
    let ys := fun a => (rowsAt X t n a).map y
    ∃ p p1 p2, i.prior = some p ∧ c1.info.prior = some p1 ∧ c2.info.prior = some p2 ∧
      (IsTempered p (ys (addr ++ [false])) hp.delta p1 ↔ hp.delta = 0 ∨ hp.delta = 1 ∨
        (ys (addr ++ [false])).sum / ((ys (addr ++ [false])).length : ℝ) = p.mu) ∧
      (IsTempered p (ys (addr ++ [true])) hp.delta p2 ↔ hp.delta = 0 ∨ hp.delta = 1 ∨
        (ys (addr ++ [true])).sum / ((ys (addr ++ [true])).length : ℝ) = p.mu) := by
  intro ys
  have hT : CodeTarget F (regTarget F) (ngMarginal F) Spec.ngPosterior := .regression
  have hv := hr.valid hT (X := X) (y := y) (names := names)
  have hQ : ∀ (ys : List ℝ) (q : NG ℝ) (δ : ℝ), 0 ≤ δ → 0 < q.kappa → 0 < ((regTarget F).posterior ys q δ).kappa := by
    intro ys q δ hδ hq
    show 0 < (regPosterior ys q δ).kappa
    unfold regPosterior
    split
    · exact hq
    · show 0 < q.kappa + (ys.length : ℝ) * δ
      positivity
  obtain ⟨p, hpr, hpκ⟩ := (fit_inv hv hr.someRow h (fun q => 0 < q.kappa) hκ
    (fun _ _ _ q hq => hQ _ q _ zero_le_one hq) (fun _ _ _ _ q hq => hQ _ q _ hδ hq) addr _ hu).2.1
    (.inl ⟨_, rfl⟩)
  have hpr : i.prior = some p := hpr
  have hg := C19_child_prior hv h addr i sp l b c1 c2 hu
  rw [hpr, routed_eq, routed_eq] at hg
  have h1 : nodeAt t (addr ++ [false]) = some c1 := by rw [nodeAt_append, hu]; simp [nodeAt]
  have h2 : nodeAt t (addr ++ [true]) = some c2 := by rw [nodeAt_append, hu]; simp [nodeAt]
  have n1 : ys (addr ++ [false]) ≠ [] := by simpa [ys] using rowsAt_ne_nil hT hr h h1
  have n2 : ys (addr ++ [true]) ≠ [] := by simpa [ys] using rowsAt_ne_nil hT hr h h2
  have k1 := C72_regression_iff F p hpκ _ n1 hδ
  have k2 := C72_regression_iff F p hpκ _ n2 hδ
  by_cases hδ0 : hp.delta = 0
  · obtain ⟨e1, e2⟩ := hg.1 hδ0
    refine ⟨p, p, p, hpr, e1, e2, ?_, ?_⟩
    · rwa [show (regTarget F).posterior _ p hp.delta = p by
        show regPosterior _ p hp.delta = p
        rw [regPosterior, if_pos hδ0]] at k1
    · rwa [show (regTarget F).posterior _ p hp.delta = p by
        show regPosterior _ p hp.delta = p
        rw [regPosterior, if_pos hδ0]] at k2
  · obtain ⟨e1, e2⟩ := hg.2 hδ0
    exact ⟨p, _, _, hpr, e1, e2, k1, k2⟩

end

/-- C72 is false for regression: a fit with `delta = 1/2` hands its left child a prior that is not the
update with weight 1/2. -/
theorem C72_refuted : ∃ (hp : Hyper ℝ) (prior : NG ℝ) (X : Nat → Nat → ℝ) (y : Nat → ℝ) (t c1 : PNode ℝ ℝ ℝ (NG ℝ))
    (p1 : NG ℝ), hp.delta = 1 / 2 ∧ Training hp realSort 2 1 ∧ 0 < prior.kappa ∧ 0 < prior.alpha ∧ 0 < prior.beta ∧
    perpFitRoot (exactOps ℝ) (regTarget realFns) realSort hp (some prior) X y 2 1 ["x0"] = .ok t ∧
    t.info.prior = some prior ∧ nodeAt t [false] = some c1 ∧ c1.info.prior = some p1 ∧
    ¬ IsTempered prior ((rowsAt X t 2 [false]).map y) hp.delta p1 := by
  let p : NG ℝ := ⟨0, 1, 1, 1⟩
  let c := regCtx2 p 3 4 (1 / 2) false
  have hr : Training c.hp realSort 2 1 := ⟨le_refl _, realSort_sorts, by decide, by decide, by decide⟩
  have hf := regTree2_fit p 3 4 (1 / 2)
  obtain ⟨q, p1, p2, e0, e1, -, k, -⟩ := C72_regression_fit_partial (F := realFns) hr
    (by show (0 : ℝ) ≤ 1 / 2; norm_num) (show 0 < p.kappa by norm_num [p]) hf [] _ _ _ _ _ _ (nodeAt_nil _)
  have hq : q = p := (Option.some.inj e0).symm
  subst hq
  refine ⟨c.hp, p, c.X, c.y, regTree2 p 3 4 (1 / 2) false, _, p1, rfl, hr, by norm_num [p], by norm_num [p],
    by norm_num [p], hf, rfl, rfl, e1, ?_⟩
  have hrow : rowsAt c.X (regTree2 p 3 4 (1 / 2) false) 2 ([] ++ [false]) = [0] := by
    unfold rowsAt
    simp [List.range_succ, regTree2, follows, c, regCtx2]
    norm_num
  intro h
  have := k.1 h
  dsimp only at this
  change _ ∨ _ ∨ ((rowsAt c.X (regTree2 p 3 4 (1 / 2) false) 2 ([] ++ [false])).map c.y).sum /
    (((rowsAt c.X (regTree2 p 3 4 (1 / 2) false) 2 ([] ++ [false])).map c.y).length : ℝ) = _ at this
  rw [hrow] at this
  have hδ : c.hp.delta = 1 / 2 := rfl
  have hy : c.y 0 = 3 := by simp [c, regCtx2]
  rw [hδ] at this
  simp only [List.map_cons, List.map_nil, hy] at this
  norm_num [p] at this

/-- The hypotheses of C72 for regression are met by a fit with `delta = 1`, whose child priors are
correct. -/
example : ∃ p1 : NG ℝ, IsTempered ⟨0, 1, 1, 1⟩ ((rowsAt (regCtx2 ⟨0, 1, 1, 1⟩ 3 4 1 false).X
    (regTree2 ⟨0, 1, 1, 1⟩ 3 4 1 false) 2 [false]).map (regCtx2 ⟨0, 1, 1, 1⟩ 3 4 1 false).y) 1 p1 := by
  obtain ⟨q, p1, p2, e0, e1, -, k, -⟩ := C72_regression_fit_partial (F := realFns)
    (hp := (regCtx2 ⟨0, 1, 1, 1⟩ 3 4 1 false).hp)
    ⟨le_refl _, realSort_sorts, by decide, by decide, by decide⟩
    (by show (0 : ℝ) ≤ 1; norm_num) (show (0 : ℝ) < 1 by norm_num)
    (regTree2_fit ⟨0, 1, 1, 1⟩ 3 4 1) [] _ _ _ _ _ _ (nodeAt_nil _)
  have hq : q = ⟨0, 1, 1, 1⟩ := (Option.some.inj e0).symm
  subst hq
  exact ⟨p1, k.2 (.inr (.inl rfl))⟩

/-- C72 for classification on three labels of two classes with weight 1/2. -/
example : IsTemperedDirichlet [1, 1] [0, 1, 1] (1 / 2) [3 / 2, 2] := by
  have := C72_classification realFns [1, 1] [0, 1, 1] (by simp) (1 / 2)
  have e : (clsTarget realFns).posterior ([0, 1, 1].map fun (k : Nat) => (k : ℝ)) [1, 1] (1 / 2) = [3 / 2, 2] := by
    show clsPosterior _ _ _ = _
    simp [clsPosterior, classCount, List.countP_cons]
    norm_num
  rwa [e] at this

end BT
