import Verif.Props.Evidence
import Verif.Props.DirichletEvidence
import Verif.Props.HyperClosed
import Verif.Props.Region

/-!
# Scores and predictions of fitted trees as integrals over the prior: C73, C74, C75
-/

namespace BT
open Spec

/-! ## Scores of a perpendicular fit -/

section
variable {P O : Type} {T : Target ℝ P ℝ O} {ml : P → List ℝ → ℝ} {post : P → List ℝ → P}
  {hp : Hyper ℝ} {argsort : List ℝ → List Nat} {X : Nat → Nat → ℝ} {y : Nat → ℝ} {n nDim : Nat}
  {names : List String} {prior : P} {t : PNode ℝ ℝ ℝ P}

theorem cutCount_pos (hr : Training hp argsort n nDim) {R : List Nat} {d : Nat} {a c : ℝ}
    (h : IsCut hp.splitPrecision X R d a c) : 0 < cutCount hp.splitPrecision X R d := by
  rw [← cutCount_eq hr.precision]
  exact List.length_pos_of_mem ((isCut_iff hr.precision X R d (a, c)).2 h)

theorem exp_cutScore (hr : Training hp argsort n nDim) (hpp : 0 < hp.partitionPrior) (p : P) (lv : Nat)
    {R : List Nat} {d : Nat} {a c : ℝ} (h : IsCut hp.splitPrecision X R d a c) :
    Real.exp (perpCutScore realFns ml hp X y nDim p lv R d a) =
      hp.partitionPrior ^ (lv + 1) / ((cutCount hp.splitPrecision X R d : ℝ) * (nDim : ℝ)) *
        Real.exp (ml p ((R.filter fun i => X i d ≤ a).map y)) *
        Real.exp (ml p ((R.filter fun i => a < X i d).map y)) := by
  have h1 : (0 : ℝ) < (cutCount hp.splitPrecision X R d : ℝ) := by exact_mod_cast cutCount_pos hr h
  have h2 : (0 : ℝ) < (nDim : ℝ) := by exact_mod_cast hr.dims
  unfold perpCutScore
  rw [Real.exp_add, Real.exp_add]
  congr 2
  exact Real.exp_log (by positivity)

theorem exp_stayScore (hpp : 0 < hp.partitionPrior) (hpp1 : hp.partitionPrior < 1) (p : P) (lv : Nat) (R : List Nat) :
    Real.exp (stayScore realFns ml hp y p lv R) = (1 - hp.partitionPrior ^ (lv + 1)) * Real.exp (ml p (R.map y)) := by
  unfold stayScore
  rw [Real.exp_add]
  congr 1
  refine Real.exp_log (sub_pos.2 (pow_lt_one₀ hpp.le hpp1 (by omega)))

/-- Scores of a split in terms of exponentials of the marginal likelihoods. -/
theorem split_exp (hT : CodeTarget realFns T ml post) (hr : Training hp argsort n nDim)
    (hpp : 0 < hp.partitionPrior) (hpp1 : hp.partitionPrior < 1)
    (h : perpFitRoot (exactOps ℝ) T argsort hp (some prior) X y n nDim names = .ok t)
    (addr : List Bool) (i : Info ℝ P) (sp : PSplit ℝ) (l b : ℝ) (c1 c2 : PNode ℝ ℝ ℝ P)
    (hu : nodeAt t addr = some (.split i sp l b c1 c2)) :
    let R := rowsAt X t n addr
    ∃ p, i.prior = some p ∧ l < b ∧
      Real.exp l = (1 - hp.partitionPrior ^ (addr.length + 1)) * Real.exp (ml p (R.map y)) ∧
      Real.exp b = hp.partitionPrior ^ (addr.length + 1) / ((cutCount hp.splitPrecision X R sp.dim : ℝ) * (nDim : ℝ)) *
        Real.exp (ml p ((rowsAt X t n (addr ++ [false])).map y)) *
        Real.exp (ml p ((rowsAt X t n (addr ++ [true])).map y)) ∧
      ∀ d < nDim, ∀ a c, IsCut hp.splitPrecision X R d a c →
        hp.partitionPrior ^ (addr.length + 1) / ((cutCount hp.splitPrecision X R d : ℝ) * (nDim : ℝ)) *
          Real.exp (ml p ((R.filter fun i => X i d ≤ a).map y)) *
          Real.exp (ml p ((R.filter fun i => a < X i d).map y)) ≤ Real.exp b := by
  intro R
  obtain ⟨p, hpr, hl, hlt, -, ⟨a, c, hac, hv, hb⟩, hopt⟩ := C13_closed hT hr h addr i sp l b c1 c2 hu
  obtain ⟨e1, e2⟩ := C13_closed_children hT hr h addr i sp l b c1 c2 hu
  refine ⟨p, hpr, hlt, by rw [hl, exp_stayScore hpp hpp1], ?_, fun d hd a' c' hac' => ?_⟩
  · rw [hb, exp_cutScore hr hpp p _ hac, e1, e2]
    obtain ⟨-, -, hlt, -, hadj⟩ := hac
    congr 4
    · congr 1
      refine List.filter_congr fun j hj => decide_eq_decide.2 ?_
      rw [hv]
      rcases hadj j hj with h' | h'
      · exact iff_of_true h' (by linarith)
      · exact iff_of_false (by linarith) (by linarith)
    · refine List.filter_congr fun j hj => decide_eq_decide.2 ?_
      rw [hv]
      rcases hadj j hj with h' | h'
      · exact iff_of_false (by linarith) (by linarith)
      · exact iff_of_true (by linarith) (by linarith)
  · rw [← exp_cutScore hr hpp p _ hac']
    exact Real.exp_le_exp.2 (hopt d hd a' c' hac').1

end

/-! ## C73: regression -/

theorem properNG_iff (p : NG ℝ) : ProperNG p ↔ NGProper p := Iff.rfl

/-- C73, Bayes' rule: the posterior parameters the code computes are those of the distribution of mean and
precision given the targets, whose density is prior density times likelihood over evidence. -/
theorem C73_bayes {p : NG ℝ} (hp : ProperNG p) {ys : List ℝ} (hy : ys ≠ []) (m : ℝ) {τ : ℝ} (hτ : 0 < τ) :
    0 < ngEvidence p ys ∧
    ngDensity ((regTarget realFns).posterior ys p 1) m τ =
      ngDensity p m τ * normalLikelihood ys m τ / ngEvidence p ys := by
  have e : (regTarget realFns).posterior ys p 1 = Spec.ngPosterior p ys :=
    (CodeTarget.regression (F := realFns)).textbook.post ys p hy
  rw [evidence_textbook hp, e, bayes_textbook hp ys m hτ]
  exact ⟨Real.exp_pos _, by field_simp⟩

/-- C73: the score of not splitting is the logarithm of the prior probability of not splitting times the
evidence of the targets. -/
theorem C73_stay {p : NG ℝ} (hp : ProperNG p) {ys : List ℝ} (hy : ys ≠ []) (pp : ℝ) (lv : Nat) :
    (regTarget realFns).logNoSplit pp lv ys p =
      Real.log (1 - pp ^ (lv + 1)) + Real.log (ngEvidence p ys) := by
  rw [(CodeTarget.regression (F := realFns)).textbook.stay pp lv ys p hy, evidence_textbook hp, Real.log_exp]
  rfl

section
variable {hp : Hyper ℝ} {argsort : List ℝ → List Nat} {X : Nat → Nat → ℝ} {y : Nat → ℝ} {n nDim : Nat}
  {names : List String} {prior : NG ℝ} {t : PNode ℝ ℝ ℝ (NG ℝ)}

/-- C73: the scores stored in a split of a fitted regression tree are the logarithms of the joint
probability densities of tree structure and targets, and the split chosen maximises this density among all
cuts and the alternative not to split. -/
theorem C73_fit (hr : Training hp argsort n nDim) (hpp : 0 < hp.partitionPrior) (hpp1 : hp.partitionPrior < 1)
    (hδ : 0 ≤ hp.delta) (hprior : ProperNG prior)
    (h : perpFitRoot (exactOps ℝ) (regTarget realFns) argsort hp (some prior) X y n nDim names = .ok t)
    (addr : List Bool) (i : Info ℝ (NG ℝ)) (sp : PSplit ℝ) (l b : ℝ) (c1 c2 : PNode ℝ ℝ ℝ (NG ℝ))
    (hu : nodeAt t addr = some (.split i sp l b c1 c2)) :
    let R := rowsAt X t n addr
    ∃ p, i.prior = some p ∧ ProperNG p ∧ l < b ∧
      Real.exp l = (1 - hp.partitionPrior ^ (addr.length + 1)) * ngEvidence p (R.map y) ∧
      Real.exp b = hp.partitionPrior ^ (addr.length + 1) / ((cutCount hp.splitPrecision X R sp.dim : ℝ) * (nDim : ℝ)) *
        ngEvidence p ((rowsAt X t n (addr ++ [false])).map y) *
        ngEvidence p ((rowsAt X t n (addr ++ [true])).map y) ∧
      ∀ d < nDim, ∀ a c, IsCut hp.splitPrecision X R d a c →
        hp.partitionPrior ^ (addr.length + 1) / ((cutCount hp.splitPrecision X R d : ℝ) * (nDim : ℝ)) *
          ngEvidence p ((R.filter fun i => X i d ≤ a).map y) *
          ngEvidence p ((R.filter fun i => a < X i d).map y) ≤ Real.exp b := by
  intro R
  have hT : CodeTarget realFns (regTarget realFns) (ngMarginal realFns) Spec.ngPosterior := .regression
  obtain ⟨p, hpr, hlt, h1, h2, h3⟩ := split_exp hT hr hpp hpp1 h addr i sp l b c1 c2 hu
  have hg := (C20_proper (c := exactCtx (regTarget realFns) (mlPair realFns (ngMarginal realFns)) hp X y nDim names) rfl
    (hr.valid hT) hr.someRow h hδ (fun q hq => by cases hq; exact hprior) addr _ hu).1
  have hpr' : (Node.split i sp l b c1 c2 : PNode ℝ ℝ ℝ (NG ℝ)).info.prior = some p := hpr
  rw [hpr'] at hg
  have hg : ProperNG p := hg
  simp only [← evidence_textbook hg] at h1 h2 h3
  exact ⟨p, hpr, hg, hlt, h1, h2, h3⟩

end

/-! ## C74: classification -/

/-- C74, Bayes' rule: the posterior parameters the code computes are those of the distribution of the class
probabilities given the labels. -/
theorem C74_bayes {alpha : List ℝ} (hp : ProperDirichlet alpha) {labels : List Nat}
    (hl : ∀ k ∈ labels, k < alpha.length) {θ : List ℝ} (hlen : θ.length = alpha.length) (hθ : ∀ t ∈ θ, 0 < t) :
    0 < dirichletEvidence alpha labels ∧
    dirichletDensity ((clsTarget realFns).posterior (labels.map fun (k : Nat) => (k : ℝ)) alpha 1) θ =
      dirichletDensity alpha θ * labelLikelihood labels θ / dirichletEvidence alpha labels := by
  have e : (clsTarget realFns).posterior (labels.map fun (k : Nat) => (k : ℝ)) alpha 1 =
      dirichletPosterior alpha (labels.map fun (k : Nat) => (k : ℝ)) := clsPosterior_one _ _
  rw [dirichlet_evidence hp hl, e, dirichlet_bayes hp hl hlen hθ]
  exact ⟨Real.exp_pos _, by field_simp⟩

/-- C74: the score of not splitting. -/
theorem C74_stay {alpha : List ℝ} (hp : ProperDirichlet alpha) {labels : List Nat} (hy : labels ≠ [])
    (hl : ∀ k ∈ labels, k < alpha.length) (pp : ℝ) (lv : Nat) :
    (clsTarget realFns).logNoSplit pp lv (labels.map fun (k : Nat) => (k : ℝ)) alpha =
      Real.log (1 - pp ^ (lv + 1)) + Real.log (dirichletEvidence alpha labels) := by
  rw [(CodeTarget.classification (F := realFns)).textbook.stay pp lv _ alpha (by simpa using hy),
    dirichlet_evidence hp hl, Real.log_exp]
  rfl

section
variable {hp : Hyper ℝ} {argsort : List ℝ → List Nat} {X : Nat → Nat → ℝ} {label : Nat → Nat} {n nDim : Nat}
  {names : List String} {prior : List ℝ} {t : PNode ℝ ℝ ℝ (List ℝ)}

/-- C74: the scores stored in a split of a fitted classification tree are the logarithms of the joint
probabilities of tree structure and labels, and the split chosen maximises this probability among all cuts
and the alternative not to split. -/
theorem C74_fit (hr : Training hp argsort n nDim) (hpp : 0 < hp.partitionPrior) (hpp1 : hp.partitionPrior < 1)
    (hδ : 0 ≤ hp.delta) (hprior : ProperDirichlet prior) (hl : ∀ i < n, label i < prior.length)
    (h : perpFitRoot (exactOps ℝ) (clsTarget realFns) argsort hp (some prior) X (fun i => (label i : ℝ)) n nDim
      names = .ok t)
    (addr : List Bool) (i : Info ℝ (List ℝ)) (sp : PSplit ℝ) (l b : ℝ) (c1 c2 : PNode ℝ ℝ ℝ (List ℝ))
    (hu : nodeAt t addr = some (.split i sp l b c1 c2)) :
    let R := rowsAt X t n addr
    ∃ p, i.prior = some p ∧ ProperDirichlet p ∧ p.length = prior.length ∧ l < b ∧
      Real.exp l = (1 - hp.partitionPrior ^ (addr.length + 1)) * dirichletEvidence p (R.map label) ∧
      Real.exp b = hp.partitionPrior ^ (addr.length + 1) / ((cutCount hp.splitPrecision X R sp.dim : ℝ) * (nDim : ℝ)) *
        dirichletEvidence p ((rowsAt X t n (addr ++ [false])).map label) *
        dirichletEvidence p ((rowsAt X t n (addr ++ [true])).map label) ∧
      ∀ d < nDim, ∀ a c, IsCut hp.splitPrecision X R d a c →
        hp.partitionPrior ^ (addr.length + 1) / ((cutCount hp.splitPrecision X R d : ℝ) * (nDim : ℝ)) *
          dirichletEvidence p ((R.filter fun i => X i d ≤ a).map label) *
          dirichletEvidence p ((R.filter fun i => a < X i d).map label) ≤ Real.exp b := by
  intro R
  have hT : CodeTarget realFns (clsTarget realFns) (dirichletMarginal realFns) dirichletPosterior := .classification
  obtain ⟨p, hpr, hlt, h1, h2, h3⟩ := split_exp hT hr hpp hpp1 h addr i sp l b c1 c2 hu
  have hstep : ∀ (ys q : List ℝ) (δ : ℝ), 0 ≤ δ → (ProperDirichlet q ∧ q.length = prior.length) →
      ProperDirichlet ((clsTarget realFns).posterior ys q δ) ∧
        ((clsTarget realFns).posterior ys q δ).length = prior.length := by
    intro ys q δ h0 ⟨⟨hq1, hq2⟩, hq3⟩
    show ProperDirichlet (clsPosterior ys q δ) ∧ (clsPosterior ys q δ).length = _
    unfold clsPosterior
    split
    · exact ⟨⟨hq1, hq2⟩, hq3⟩
    · refine ⟨⟨fun h0 => hq1 ?_, fun a ha => ?_⟩, by simpa using hq3⟩
      · simpa using h0
      · obtain ⟨k, hk, rfl⟩ := List.mem_mapIdx.1 ha
        have := hq2 _ (List.getElem_mem hk)
        positivity
  obtain ⟨p', hp', hg, hlen⟩ := (fit_inv (c := exactCtx (clsTarget realFns)
    (mlPair realFns (dirichletMarginal realFns)) hp X (fun i => (label i : ℝ)) nDim names) (hr.valid hT) hr.someRow h
    (fun q => ProperDirichlet q ∧ q.length = prior.length) ⟨hprior, rfl⟩
    (fun _ _ _ q hq => hstep _ q _ zero_le_one hq) (fun _ _ _ _ q hq => hstep _ q _ hδ hq) addr _ hu).2.1 (.inl ⟨_, rfl⟩)
  have hpp' : p' = p := Option.some.inj (hp'.symm.trans hpr)
  subst hpp'
  have ev : ∀ R' : List Nat, (∀ j ∈ R', j < n) →
      Real.exp (dirichletMarginal realFns p' (R'.map fun i => (label i : ℝ))) = dirichletEvidence p' (R'.map label) := by
    intro R' hR'
    rw [dirichlet_evidence hg, List.map_map]
    · rfl
    · intro k hk
      obtain ⟨j, hj, rfl⟩ := List.mem_map.1 hk
      rw [hlen]
      exact hl j (hR' j hj)
  have hrow : ∀ a, ∀ j ∈ rowsAt X t n a, j < n := fun a j hj => List.mem_range.1 (List.mem_filter.1 hj).1
  have hfil : ∀ f : Nat → Bool, ∀ j ∈ (rowsAt X t n addr).filter f, j < n :=
    fun f j hj => hrow _ j (List.mem_filter.1 hj).1
  refine ⟨p', hpr, hg, hlen, hlt, ?_, ?_, fun d hd a c hac => ?_⟩
  · rw [h1, ev _ (hrow _)]
  · rw [h2, ev _ (hrow _), ev _ (hrow _)]
  · have := h3 d hd a c hac
    rwa [ev _ (hfil _), ev _ (hfil _)] at this

end

/-! ## C75: predictions -/

/-- Mean of the targets' expected value given the targets, for the posterior of the textbook. -/
theorem posterior_mean_reg {p : NG ℝ} (hp : ProperNG p) (ys : List ℝ) :
    (Spec.ngPosterior p ys).mu = ngExpectation p (fun m τ => normalLikelihood ys m τ * m) / ngEvidence p ys := by
  have h := ngExpectation_bayes hp ys fun m _ => m
  rw [h, ngExpectation_mean (proper_posterior hp ys), evidence_textbook hp]
  field_simp

theorem posterior_mean_cls {alpha : List ℝ} (hp : ProperDirichlet alpha) {labels : List Nat}
    (hl : ∀ k ∈ labels, k < alpha.length) {c : Nat} (hc : c < alpha.length) :
    (clsPosteriorMean (dirichletPosterior alpha (labels.map fun (k : Nat) => (k : ℝ))))[c]? =
      some (dirichletExpectation alpha (fun θ => labelLikelihood labels θ * θ.getD c 0) /
        dirichletEvidence alpha labels) := by
  have hq := proper_dirichletPosterior hp (labels.map fun (k : Nat) => (k : ℝ))
  have hlen : (dirichletPosterior alpha (labels.map fun (k : Nat) => (k : ℝ))).length = alpha.length := by
    simp [dirichletPosterior]
  rw [dirichletExpectation_bayes hp hl, dirichlet_evidence hp hl, dirichletExpectation_class hq (hlen ▸ hc)]
  unfold clsPosteriorMean
  rw [List.getElem?_map, List.getD_eq_getElem?_getD, List.getElem?_eq_getElem (hlen ▸ hc), Option.map_some,
    Option.getD_some]
  congr 1
  field_simp

section
variable {hp : Hyper ℝ} {argsort : List ℝ → List Nat} {X : Nat → Nat → ℝ} {n nDim : Nat} {names : List String}

/-- C75, regression: with `delta = 0`, the prediction for a row is the expected value of the mean given the
targets of the training rows in the same leaf, an expectation over the prior passed to the constructor. -/
theorem C75_regression {y : Nat → ℝ} {prior : NG ℝ} {t : PNode ℝ ℝ ℝ (NG ℝ)} (hr : Training hp argsort n nDim)
    (hδ : hp.delta = 0) (hprior : ProperNG prior)
    (h : perpFitRoot (exactOps ℝ) (regTarget realFns) argsort hp (some prior) X y n nDim names = .ok t)
    (Z : Nat → Nat → ℝ) (m i : Nat) (hi : i < m) :
    ∃ addr, follows t addr (Z i) = true ∧ (∃ l, nodeAt t addr = some (.leaf l)) ∧
      (predict (perpRouter (exactOps ℝ)) (regTarget realFns) t Z m)[i]? = some
        (ngExpectation prior (fun μ τ => normalLikelihood ((rowsAt X t n addr).map y) μ τ * μ) /
          ngEvidence prior ((rowsAt X t n addr).map y)) := by
  obtain ⟨addr, l, ha, hpass, e1, -, -⟩ := C02_exact_always_leaf (regTarget realFns) t Z m i hi
  refine ⟨addr, by rw [← passes_eq]; exact hpass, ⟨l, ha⟩, ?_⟩
  have hpost := C09_closed (CodeTarget.regression (F := realFns)) hr hδ h addr _ ha
  have hpost : l.posterior = _ := hpost
  rw [e1, hpost, ← posterior_mean_reg hprior]
  rfl

/-- C75, classification: with `delta = 0`, the entries of `predict_proba` are the expected class
probabilities given the labels of the training rows in the same leaf. -/
theorem C75_classification {label : Nat → Nat} {prior : List ℝ} {t : PNode ℝ ℝ ℝ (List ℝ)}
    (hr : Training hp argsort n nDim) (hδ : hp.delta = 0) (hprior : ProperDirichlet prior)
    (hl : ∀ i < n, label i < prior.length)
    (h : perpFitRoot (exactOps ℝ) (clsTarget realFns) argsort hp (some prior) X (fun i => (label i : ℝ)) n nDim
      names = .ok t)
    (Z : Nat → Nat → ℝ) (m i : Nat) (hi : i < m) :
    ∃ addr row, follows t addr (Z i) = true ∧ (∃ l, nodeAt t addr = some (.leaf l)) ∧
      (predictProba (perpRouter (exactOps ℝ)) (clsTarget realFns) t Z m)[i]? = some (some row) ∧
      row.length = prior.length ∧ ∀ c < prior.length, row[c]? = some
        (dirichletExpectation prior (fun θ => labelLikelihood ((rowsAt X t n addr).map label) θ * θ.getD c 0) /
          dirichletEvidence prior ((rowsAt X t n addr).map label)) := by
  obtain ⟨addr, l, ha, hpass, -, e2, -⟩ := C02_exact_always_leaf (clsTarget realFns) t Z m i hi
  have hpost : l.posterior = _ := C09_closed (CodeTarget.classification (F := realFns)) hr hδ h addr _ ha
  have hlab : ∀ k ∈ (rowsAt X t n addr).map label, k < prior.length := by
    intro k hk
    obtain ⟨j, hj, rfl⟩ := List.mem_map.1 hk
    exact hl j (List.mem_range.1 (List.mem_filter.1 hj).1)
  have e : (rowsAt X t n addr).map (fun i => (label i : ℝ)) =
      ((rowsAt X t n addr).map label).map fun (k : Nat) => (k : ℝ) := by rw [List.map_map]; rfl
  refine ⟨addr, _, by rw [← passes_eq]; exact hpass, ⟨l, ha⟩, e2, ?_, fun c hc => ?_⟩
  · show (clsPosteriorMean l.posterior).length = _
    rw [hpost]
    simp [clsPosteriorMean, dirichletPosterior]
  · show (clsPosteriorMean l.posterior)[c]? = _
    rw [hpost, e, posterior_mean_cls hprior hlab hc]

end

/-! ## Hyperplane trees -/

section
variable {P O : Type} {c : HCtx ℝ P ℝ O} {ml : P → List ℝ → ℝ} {post : P → List ℝ → P} {n : Nat} {prior : P}
  {t : HNode ℝ ℝ P}

theorem consideredCount_pos {prec : ℝ} {X : Nat → Nat → ℝ} {R : List Nat} {w : List ℝ} {k : Nat}
    (h : Considered prec X R w k) : 0 < consideredCount prec X R w := by
  obtain ⟨i, j, hk, hi, hj, hg⟩ := h
  refine List.length_pos_of_mem (a := (i, j)) (List.mem_filter.2 ⟨?_, decide_eq_true hg⟩)
  refine List.mem_iff_getElem?.2 ⟨k - 1, ?_⟩
  rw [List.getElem?_zip_eq_some, List.getElem?_tail]
  exact ⟨hi, by rw [Nat.sub_add_cancel hk]; exact hj⟩

/-- Scores of a plane in terms of exponentials of the marginal likelihoods. -/
theorem plane_exp (hT : CodeTarget realFns c.T ml post) (hA : Euclidean c.A) (hn : 0 < n) (hd : 0 < c.nDim)
    (hpp : 0 < c.hp.partitionPrior) (hpp1 : c.hp.partitionPrior < 1)
    (h : hFitRoot c (some prior) n = .ok t)
    (addr : List Bool) (i : Info ℝ P) (sp : HSplit ℝ) (l b : ℝ) (c1 c2 : HNode ℝ ℝ P)
    (hu : nodeAt t addr = some (.split i sp l b c1 c2)) :
    let R := hRowsAt c.X t n addr
    let share := c.hp.partitionPrior ^ (addr.length + 1) /
      ((consideredCount c.hp.splitPrecision c.X R sp.normal : ℝ) * (c.nDim : ℝ))
    l ≤ b ∧ Real.exp l = (1 - c.hp.partitionPrior ^ (addr.length + 1)) * Real.exp (ml prior (R.map c.y)) ∧
    ∃ order k, IsSweep c.X R sp.normal order ∧ Considered c.hp.splitPrecision c.X R sp.normal k ∧
      Real.exp b = share * Real.exp (ml prior ((order.take k).map c.y)) * Real.exp (ml prior ((order.drop k).map c.y)) ∧
      ∀ k', Considered c.hp.splitPrecision c.X R sp.normal k' →
        share * Real.exp (ml prior ((order.take k').map c.y)) * Real.exp (ml prior ((order.drop k').map c.y)) ≤
          Real.exp b := by
  intro R share
  obtain ⟨-, -, -, hl, hle, ⟨order, k, -, -, hsw, hk, hs, hopt, -⟩, -⟩ := C50_closed hT hA hn h addr i sp l b c1 c2 hu
  have hshare : 0 < share := by
    have h1 : (0 : ℝ) < (consideredCount c.hp.splitPrecision c.X R sp.normal : ℝ) := by
      exact_mod_cast consideredCount_pos hk
    have h2 : (0 : ℝ) < (c.nDim : ℝ) := by exact_mod_cast hd
    positivity
  have e : ∀ k', Real.exp (sweepScore realFns ml (searchAt c realFns ml prior addr.length R) sp.normal order k') =
      share * Real.exp (ml prior ((order.take k').map c.y)) * Real.exp (ml prior ((order.drop k').map c.y)) := by
    intro k'
    unfold sweepScore
    rw [Real.exp_add, Real.exp_add]
    congr 2
    exact Real.exp_log hshare
  refine ⟨hle, by rw [hl, exp_stayScore hpp hpp1], order, k, hsw, hk, by rw [hs]; exact e k, fun k' hk' => ?_⟩
  rw [← e]
  exact Real.exp_le_exp.2 (hopt k' hk')

/-- Every row reaches a leaf, which all predictions report about. -/
theorem hyper_always_leaf (T : Target ℝ P ℝ O) (t : HNode ℝ ℝ P) (Z : Nat → Nat → ℝ) (m i : Nat) (hi : i < m) :
    ∃ addr l, nodeAt t addr = some (.leaf l) ∧ descends t addr (Z i) = true ∧
      (predict hyperRouter T t Z m)[i]? = some (T.predictLeaf l.posterior) ∧
      (predictProba hyperRouter T t Z m)[i]? = some (some (T.posteriorMean l.posterior)) := by
  rcases C02_same_leaf _ hyper_exclusive T t Z m i hi with ⟨addr, l, h1, h2, h3, h4, -⟩ | ⟨hno, -⟩
  · exact ⟨addr, l, h1, by rw [descends_eq]; exact h2, h3, h4⟩
  · obtain ⟨l, hl⟩ := walk_total hyperRouter (Z i) (fun sp h0 => by
      rw [hyper_complementary, h0]; rfl) t
    obtain ⟨addr, ha, hp⟩ := (walk_iff _ _ _ _).1 hl
    rw [hno addr l ha] at hp; cases hp

end

/-- C73 for hyperplane trees: the scores stored in a split are the logarithms of joint densities of
structure and targets; `order.take k` and `order.drop k` are the sides the score was computed for, which are
the rows of the children if no two rows are at the same distance (C50). -/
theorem C73_hyperplane {c : HCtx ℝ (NG ℝ) ℝ ℝ} (hcT : c.T = regTarget realFns) (hA : Euclidean c.A) {n : Nat}
    (hn : 0 < n) (hd : 0 < c.nDim) (hpp : 0 < c.hp.partitionPrior) (hpp1 : c.hp.partitionPrior < 1)
    {prior : NG ℝ} (hprior : ProperNG prior) {t : HNode ℝ ℝ (NG ℝ)} (h : hFitRoot c (some prior) n = .ok t)
    (addr : List Bool) (i : Info ℝ (NG ℝ)) (sp : HSplit ℝ) (l b : ℝ) (c1 c2 : HNode ℝ ℝ (NG ℝ))
    (hu : nodeAt t addr = some (.split i sp l b c1 c2)) :
    let R := hRowsAt c.X t n addr
    let share := c.hp.partitionPrior ^ (addr.length + 1) /
      ((consideredCount c.hp.splitPrecision c.X R sp.normal : ℝ) * (c.nDim : ℝ))
    l ≤ b ∧ Real.exp l = (1 - c.hp.partitionPrior ^ (addr.length + 1)) * ngEvidence prior (R.map c.y) ∧
    ∃ order k, IsSweep c.X R sp.normal order ∧ Considered c.hp.splitPrecision c.X R sp.normal k ∧
      Real.exp b = share * ngEvidence prior ((order.take k).map c.y) * ngEvidence prior ((order.drop k).map c.y) ∧
      ∀ k', Considered c.hp.splitPrecision c.X R sp.normal k' →
        share * ngEvidence prior ((order.take k').map c.y) * ngEvidence prior ((order.drop k').map c.y) ≤
          Real.exp b := by
  have hT : CodeTarget realFns c.T (ngMarginal realFns) Spec.ngPosterior := by rw [hcT]; exact .regression
  simp only [evidence_textbook hprior]
  exact plane_exp hT hA hn hd hpp hpp1 h addr i sp l b c1 c2 hu

/-- C74 for hyperplane trees. -/
theorem C74_hyperplane {c : HCtx ℝ (List ℝ) ℝ (List ℝ)} (hcT : c.T = clsTarget realFns) (hA : Euclidean c.A)
    {n : Nat} (hn : 0 < n) (hd : 0 < c.nDim) (hpp : 0 < c.hp.partitionPrior) (hpp1 : c.hp.partitionPrior < 1)
    {prior : List ℝ} (hprior : ProperDirichlet prior) {label : Nat → Nat} (hy : c.y = fun i => (label i : ℝ))
    (hl : ∀ i < n, label i < prior.length) {t : HNode ℝ ℝ (List ℝ)} (h : hFitRoot c (some prior) n = .ok t)
    (addr : List Bool) (i : Info ℝ (List ℝ)) (sp : HSplit ℝ) (l b : ℝ) (c1 c2 : HNode ℝ ℝ (List ℝ))
    (hu : nodeAt t addr = some (.split i sp l b c1 c2)) :
    let R := hRowsAt c.X t n addr
    let share := c.hp.partitionPrior ^ (addr.length + 1) /
      ((consideredCount c.hp.splitPrecision c.X R sp.normal : ℝ) * (c.nDim : ℝ))
    l ≤ b ∧ Real.exp l = (1 - c.hp.partitionPrior ^ (addr.length + 1)) * dirichletEvidence prior (R.map label) ∧
    ∃ order k, IsSweep c.X R sp.normal order ∧ Considered c.hp.splitPrecision c.X R sp.normal k ∧
      Real.exp b = share * dirichletEvidence prior ((order.take k).map label) *
        dirichletEvidence prior ((order.drop k).map label) ∧
      ∀ k', Considered c.hp.splitPrecision c.X R sp.normal k' →
        share * dirichletEvidence prior ((order.take k').map label) *
          dirichletEvidence prior ((order.drop k').map label) ≤ Real.exp b := by
  intro R share
  have hT : CodeTarget realFns c.T (dirichletMarginal realFns) dirichletPosterior := by rw [hcT]; exact .classification
  obtain ⟨h1, h2, order, k, h3, h4, h5, h6⟩ := plane_exp hT hA hn hd hpp hpp1 h addr i sp l b c1 c2 hu
  have ev : ∀ R' : List Nat, (∀ j ∈ R', j < n) →
      Real.exp (dirichletMarginal realFns prior (R'.map c.y)) = dirichletEvidence prior (R'.map label) := by
    intro R' hR'
    rw [dirichlet_evidence hprior, List.map_map, hy]
    · rfl
    · intro k hk
      obtain ⟨j, hj, rfl⟩ := List.mem_map.1 hk
      exact hl j (hR' j hj)
  have hrow : ∀ j ∈ R, j < n := fun j hj => List.mem_range.1 (List.mem_filter.1 hj).1
  have ht : ∀ k', ∀ j ∈ order.take k', j < n := fun k' j hj => hrow j (h3.1.subset (List.take_subset _ _ hj))
  have hdr : ∀ k', ∀ j ∈ order.drop k', j < n := fun k' j hj => hrow j (h3.1.subset (List.drop_subset _ _ hj))
  refine ⟨h1, by rw [h2, ev _ hrow], order, k, h3, h4, by rw [h5, ev _ (ht k), ev _ (hdr k)], fun k' hk' => ?_⟩
  have := h6 k' hk'
  rwa [ev _ (ht k'), ev _ (hdr k')] at this

/-- C75 for hyperplane regression trees, whatever `delta` is. -/
theorem C75_hyperplane_regression {c : HCtx ℝ (NG ℝ) ℝ ℝ} (hcT : c.T = regTarget realFns) (hA : Euclidean c.A)
    {n : Nat} (hn : 0 < n) {prior : NG ℝ} (hprior : ProperNG prior) {t : HNode ℝ ℝ (NG ℝ)}
    (h : hFitRoot c (some prior) n = .ok t) (Z : Nat → Nat → ℝ) (m i : Nat) (hi : i < m) :
    ∃ addr, descends t addr (Z i) = true ∧ (∃ l, nodeAt t addr = some (.leaf l)) ∧
      (predict hyperRouter (regTarget realFns) t Z m)[i]? = some
        (ngExpectation prior (fun μ τ => normalLikelihood ((hRowsAt c.X t n addr).map c.y) μ τ * μ) /
          ngEvidence prior ((hRowsAt c.X t n addr).map c.y)) := by
  have hT : CodeTarget realFns c.T (ngMarginal realFns) Spec.ngPosterior := by rw [hcT]; exact .regression
  obtain ⟨addr, l, ha, hpass, e1, -⟩ := hyper_always_leaf (regTarget realFns) t Z m i hi
  have hpost : l.posterior = _ := (C49_closed hT hA hn h addr _ ha).2.2
  refine ⟨addr, hpass, ⟨l, ha⟩, ?_⟩
  rw [e1, hpost, ← posterior_mean_reg hprior]
  rfl

/-- C75 for hyperplane classification trees, whatever `delta` is. -/
theorem C75_hyperplane_classification {c : HCtx ℝ (List ℝ) ℝ (List ℝ)} (hcT : c.T = clsTarget realFns)
    (hA : Euclidean c.A) {n : Nat} (hn : 0 < n) {prior : List ℝ} (hprior : ProperDirichlet prior)
    {label : Nat → Nat} (hy : c.y = fun i => (label i : ℝ)) (hl : ∀ i < n, label i < prior.length)
    {t : HNode ℝ ℝ (List ℝ)} (h : hFitRoot c (some prior) n = .ok t) (Z : Nat → Nat → ℝ) (m i : Nat) (hi : i < m) :
    ∃ addr row, descends t addr (Z i) = true ∧ (∃ l, nodeAt t addr = some (.leaf l)) ∧
      (predictProba hyperRouter (clsTarget realFns) t Z m)[i]? = some (some row) ∧
      row.length = prior.length ∧ ∀ k < prior.length, row[k]? = some
        (dirichletExpectation prior (fun θ => labelLikelihood ((hRowsAt c.X t n addr).map label) θ * θ.getD k 0) /
          dirichletEvidence prior ((hRowsAt c.X t n addr).map label)) := by
  have hT : CodeTarget realFns c.T (dirichletMarginal realFns) dirichletPosterior := by rw [hcT]; exact .classification
  obtain ⟨addr, l, ha, hpass, -, e2⟩ := hyper_always_leaf (clsTarget realFns) t Z m i hi
  have hpost : l.posterior = _ := (C49_closed hT hA hn h addr _ ha).2.2
  have hlab : ∀ k ∈ (hRowsAt c.X t n addr).map label, k < prior.length := by
    intro k hk
    obtain ⟨j, hj, rfl⟩ := List.mem_map.1 hk
    exact hl j (List.mem_range.1 (List.mem_filter.1 hj).1)
  have e : (hRowsAt c.X t n addr).map c.y =
      ((hRowsAt c.X t n addr).map label).map fun (k : Nat) => (k : ℝ) := by rw [hy, List.map_map]; rfl
  refine ⟨addr, _, hpass, ⟨l, ha⟩, e2, ?_, fun k hk => ?_⟩
  · show (clsPosteriorMean l.posterior).length = _
    rw [hpost]
    simp [clsPosteriorMean, dirichletPosterior]
  · show (clsPosteriorMean l.posterior)[k]? = _
    rw [hpost, e, posterior_mean_cls hprior hlab hk]

/-! ## The hypotheses are satisfiable -/

theorem properNG_unit : ProperNG ⟨0, 1, 1, 1⟩ := ⟨one_pos, one_pos, one_pos⟩

/-- A regression fit with a split: its scores in terms of the evidences of `{3, 4}`, `{3}` and `{4}`. -/
example : let p : NG ℝ := ⟨0, 1, 1, 1⟩
    let pp := regPP p 3 4
    (1 - pp ^ (0 + 1)) * ngEvidence p ((rowsAt (regCtx2 p 3 4 0 false).X (regTree2 p 3 4 0 false) 2 []).map
        (regCtx2 p 3 4 0 false).y) <
      pp ^ (0 + 1) / ((cutCount 0 (regCtx2 p 3 4 0 false).X
          (rowsAt (regCtx2 p 3 4 0 false).X (regTree2 p 3 4 0 false) 2 []) 0 : ℝ) * ((1 : Nat) : ℝ)) *
        ngEvidence p ((rowsAt (regCtx2 p 3 4 0 false).X (regTree2 p 3 4 0 false) 2 [false]).map
          (regCtx2 p 3 4 0 false).y) *
        ngEvidence p ((rowsAt (regCtx2 p 3 4 0 false).X (regTree2 p 3 4 0 false) 2 [true]).map
          (regCtx2 p 3 4 0 false).y) := by
  intro p pp
  have hr : Training (regCtx2 p 3 4 0 false).hp realSort 2 1 :=
    ⟨le_refl _, realSort_sorts, by decide, by decide, by decide⟩
  obtain ⟨q, hq, -, hlt, h1, h2, -⟩ := C73_fit hr (regPP_pos p 3 4) (regPP_lt_one p 3 4) (le_refl _) properNG_unit
    (regTree2_fit p 3 4 0) [] _ _ _ _ _ _ (nodeAt_nil _)
  have hq' : q = p := (Option.some.inj hq).symm
  subst hq'
  have := Real.exp_lt_exp.2 hlt
  rw [h1, h2] at this
  exact this

/-- Labels of the sample. -/
def sampleLabel (i : Nat) : Nat := [0, 0, 1, 1, 0, 0, 0, 0, 1, 1, 0, 0].getD i 0

theorem sampleLabel_y : (castCtx sampleCtx).y = fun i => ((sampleLabel i : Nat) : ℝ) := by
  funext i
  show ((sampleY i : ℚ) : ℝ) = _
  have : sampleY i = ((sampleLabel i : Nat) : ℚ) := by
    unfold sampleY vecOf sampleLabel
    have e : ([0, 0, 1, 1, 0, 0, 0, 0, 1, 1, 0, 0] : List ℚ) =
      [0, 0, 1, 1, 0, 0, 0, 0, 1, 1, 0, 0].map (fun (k : Nat) => (k : ℚ)) := by simp
    rw [e, List.getD_eq_getElem?_getD, List.getElem?_map, List.getD_eq_getElem?_getD]
    cases ([0, 0, 1, 1, 0, 0, 0, 0, 1, 1, 0, 0] : List Nat)[i]? <;> simp
  rw [this]
  simp

theorem sampleLabel_lt (i : Nat) (hi : i < 12) : sampleLabel i < (castL [1, 1]).length := by
  have : ∀ i < 12, sampleLabel i < 2 := by decide
  simpa [castL] using this i hi

/-- A classification fit with two splits: predicted class probabilities are posterior expectations. -/
example (z : Nat → ℝ) : ∃ addr row,
    (predictProba (perpRouter (exactOps ℝ)) (clsTarget realFns) (castTree sampleHp sampleTree) (fun _ => z) 1)[0]? =
      some (some row) ∧
    row[1]? = some (dirichletExpectation (castL [1, 1]) (fun θ => labelLikelihood
        ((rowsAt (castCtx sampleCtx).X (castTree sampleHp sampleTree) 12 addr).map sampleLabel) θ * θ.getD 1 0) /
      dirichletEvidence (castL [1, 1])
        ((rowsAt (castCtx sampleCtx).X (castTree sampleHp sampleTree) 12 addr).map sampleLabel)) := by
  have hr : Training (castHp sampleHp) realSort 12 2 :=
    ⟨by simp [castHp, sampleHp], realSort_sorts, by decide, by decide, by decide⟩
  have hf := sampleReal_fit
  unfold fitIn at hf
  rw [sampleLabel_y] at hf
  obtain ⟨addr, row, -, -, h1, -, h2⟩ := C75_classification hr (by simp [castHp, sampleHp])
    ⟨by simp [castL], by simp [castL]⟩ sampleLabel_lt hf (fun _ => z) 1 0 one_pos
  exact ⟨addr, row, h1, h2 1 (by simp [castL])⟩

/-- Its root split maximises the joint probability. -/
example : ∃ p b, ProperDirichlet p ∧ ∀ d < 2, ∀ a c, IsCut (castHp sampleHp).splitPrecision (castCtx sampleCtx).X
      (rowsAt (castCtx sampleCtx).X (castTree sampleHp sampleTree) 12 []) d a c →
    (castHp sampleHp).partitionPrior ^ (0 + 1) / ((cutCount (castHp sampleHp).splitPrecision (castCtx sampleCtx).X
        (rowsAt (castCtx sampleCtx).X (castTree sampleHp sampleTree) 12 []) d : ℝ) * ((2 : Nat) : ℝ)) *
      dirichletEvidence p (((rowsAt (castCtx sampleCtx).X (castTree sampleHp sampleTree) 12 []).filter
        fun i => (castCtx sampleCtx).X i d ≤ a).map sampleLabel) *
      dirichletEvidence p (((rowsAt (castCtx sampleCtx).X (castTree sampleHp sampleTree) 12 []).filter
        fun i => a < (castCtx sampleCtx).X i d).map sampleLabel) ≤ Real.exp b := by
  have hr : Training (castHp sampleHp) realSort 12 2 :=
    ⟨by simp [castHp, sampleHp], realSort_sorts, by decide, by decide, by decide⟩
  have hf := sampleReal_fit
  unfold fitIn at hf
  rw [sampleLabel_y] at hf
  obtain ⟨p, -, hp, -, -, -, -, h⟩ := C74_fit hr (by norm_num [castHp, sampleHp])
    (by norm_num [castHp, sampleHp]) (by simp [castHp, sampleHp]) ⟨by simp [castL], by simp [castL]⟩
    sampleLabel_lt hf [] _ _ _ _ _ _ (nodeAt_nil _)
  exact ⟨p, _, hp, h⟩

/-- Under a uniform prior, two equal labels have probability 1/3. -/
example : dirichletEvidence [1, 1] [0, 0] = 1 / 3 := by
  have h : ProperDirichlet [1, 1] := ⟨by simp, by simp⟩
  rw [dirichlet_evidence h (by simp), dirichletMarginal_real h.1 h.2, Real.exp_log (dirMult_pos h.1 h.2 _)]
  simp [dirMult, rising, count, List.range_succ]
  norm_num

/-- The expected value of the mean after observing the target 3. -/
example : ngExpectation ⟨0, 1, 1, 1⟩ (fun μ τ => normalLikelihood [3] μ τ * μ) / ngEvidence ⟨0, 1, 1, 1⟩ [3] = 3 / 2 := by
  rw [← posterior_mean_reg properNG_unit]
  simp [Spec.ngPosterior, mean]
  norm_num

/-- Labels of the hyperplane sample. -/
def hSampleLabel (i : Nat) : Nat := [0, 0, 1, 0, 0, 1, 1, 0, 0].getD i 0

theorem hSampleLabel_y (δ : ℚ) : (hSampleReal δ).y = fun i => ((hSampleLabel i : Nat) : ℝ) := by
  funext i
  show ((hSampleY i : ℚ) : ℝ) = _
  have : hSampleY i = ((hSampleLabel i : Nat) : ℚ) := by
    unfold hSampleY hSampleLabel
    have e : ([0, 0, 1, 0, 0, 1, 1, 0, 0] : List ℚ) =
      [0, 0, 1, 0, 0, 1, 1, 0, 0].map (fun (k : Nat) => (k : ℚ)) := by simp
    rw [e, List.getD_eq_getElem?_getD, List.getElem?_map, List.getD_eq_getElem?_getD]
    cases ([0, 0, 1, 0, 0, 1, 1, 0, 0] : List Nat)[i]? <;> simp
  rw [this]
  simp

theorem hSampleLabel_lt (i : Nat) (hi : i < 9) : hSampleLabel i < (castL [1, 1]).length := by
  have : ∀ i < 9, hSampleLabel i < 2 := by decide
  simpa [castL] using this i hi

/-- A hyperplane fit with `delta = 1`: class probabilities are posterior expectations under the prior of the
constructor. -/
example (z : Nat → ℝ) : ∃ addr row,
    (predictProba hyperRouter (clsTarget realFns) (castHTree (hSampleHp 1) (hSampleTree 1)) (fun _ => z) 1)[0]? =
      some (some row) ∧
    row[0]? = some (dirichletExpectation (castL [1, 1]) (fun θ => labelLikelihood
        ((hRowsAt (hSampleReal 1).X (castHTree (hSampleHp 1) (hSampleTree 1)) 9 addr).map hSampleLabel) θ * θ.getD 0 0) /
      dirichletEvidence (castL [1, 1])
        ((hRowsAt (hSampleReal 1).X (castHTree (hSampleHp 1) (hSampleTree 1)) 9 addr).map hSampleLabel)) := by
  obtain ⟨addr, row, -, -, h1, -, h2⟩ := C75_hyperplane_classification (c := hSampleReal 1) rfl realArith_euclidean
    (by decide) ⟨by simp [castL], by simp [castL]⟩ (hSampleLabel_y 1) hSampleLabel_lt hSampleReal_fit_delta
    (fun _ => z) 1 0 one_pos
  exact ⟨addr, row, h1, h2 0 (by simp [castL])⟩

example : ∃ l b : ℝ, l ≤ b ∧ Real.exp l = (1 - (castHp (hSampleHp 0)).partitionPrior ^ (0 + 1)) *
    dirichletEvidence (castL [1, 1])
      ((hRowsAt (hSampleReal 0).X (castHTree (hSampleHp 0) (hSampleTree 0)) 9 []).map hSampleLabel) := by
  obtain ⟨h1, h2, -⟩ := C74_hyperplane (c := hSampleReal 0) rfl realArith_euclidean (by decide) Nat.two_pos
    (by norm_num [hSampleReal, castHCtx, castHp, hSampleCtx, hSampleHp])
    (by norm_num [hSampleReal, castHCtx, castHp, hSampleCtx, hSampleHp]) ⟨by simp [castL], by simp [castL]⟩
    (hSampleLabel_y 0) hSampleLabel_lt hSampleReal_fit [] _ _ _ _ _ _ (nodeAt_nil _)
  exact ⟨_, _, h1, h2⟩

/-- Predictions of a regression hyperplane tree are posterior expectations for any data and `delta`. -/
example (X : Nat → Nat → ℝ) (y : Nat → ℝ) (hp : Hyper ℝ) (z : Nat → ℝ) : ∃ t addr v, ∃ c : HCtx ℝ (NG ℝ) ℝ ℝ,
    c.y = y ∧ c.X = X ∧ hFitRoot c (some ⟨0, 1, 1, 1⟩) 9 = .ok t ∧
    (predict hyperRouter (regTarget realFns) t (fun _ => z) 1)[0]? = some v ∧
    v = ngExpectation ⟨0, 1, 1, 1⟩ (fun μ τ => normalLikelihood ((hRowsAt X t 9 addr).map y) μ τ * μ) /
      ngEvidence ⟨0, 1, 1, 1⟩ ((hRowsAt X t 9 addr).map y) := by
  let c : HCtx ℝ (NG ℝ) ℝ ℝ := ⟨realArith, regTarget realFns, hp, randomOptimizer (counterRng ℝ) 7, 0, X, y, 2⟩
  obtain ⟨B, t, ht⟩ := C67_random (pair := regPair realFns) c (some ⟨0, 1, 1, 1⟩) 9 (reg_lawful realFns) realSort_spec
    Nat.two_pos (counterRng ℝ) counterRng_lawful 7
  obtain ⟨addr, -, -, h⟩ := C75_hyperplane_regression (c := withOpt c (randomOptimizer (counterRng ℝ) 7) B) rfl
    realArith_euclidean (by decide) properNG_unit (ht B le_rfl) (fun _ => z) 1 0 one_pos
  exact ⟨t, addr, _, _, rfl, rfl, ht B le_rfl, h, rfl⟩

end BT
