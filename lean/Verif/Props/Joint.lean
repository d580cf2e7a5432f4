import Verif.Spec.Joint
import Verif.Props.MaxLik
import Verif.Props.EvidenceFit

/-!
# Evidence and probability of whole trees: C109, C110
-/

namespace BT
open Spec

section
variable {P O : Type} {T : Target ℝ P ℝ O} {ml : P → List ℝ → ℝ} {post : P → List ℝ → P}
  {hp : Hyper ℝ} {argsort : List ℝ → List Nat} {X : Nat → Nat → ℝ} {y : Nat → ℝ} {n nDim : Nat}
  {names : List String} {prior : P} {t : PNode ℝ ℝ ℝ P}

/-- The condition under which the code splits, in terms of the evidence of parent and children. -/
theorem split_factor (hT : CodeTarget realFns T ml post) (hr : Training hp argsort n nDim) (hδ : hp.delta = 0)
    (hpp : 0 < hp.partitionPrior) (hpp1 : hp.partitionPrior < 1)
    (h : perpFitRoot (exactOps ℝ) T argsort hp (some prior) X y n nDim names = .ok t)
    {addr : List Bool} {i : Info ℝ P} {sp : PSplit ℝ} {l b : ℝ} {c1 c2 : PNode ℝ ℝ ℝ P}
    (hu : nodeAt t addr = some (.split i sp l b c1 c2)) :
    0 < cutCount hp.splitPrecision X (rowsAt X t n addr) sp.dim ∧
    (1 - hp.partitionPrior ^ (addr.length + 1)) * Real.exp (ml prior ((rowsAt X t n addr).map y)) <
      hp.partitionPrior ^ (addr.length + 1) /
        ((cutCount hp.splitPrecision X (rowsAt X t n addr) sp.dim : ℝ) * (nDim : ℝ)) *
      Real.exp (ml prior (((rowsAt X t n addr).filter fun i => X i sp.dim < sp.value).map y)) *
      Real.exp (ml prior (((rowsAt X t n addr).filter fun i => sp.value ≤ X i sp.dim).map y)) := by
  obtain ⟨p, hpr, hlt, e1, e2, -⟩ := split_exp hT hr hpp hpp1 h addr i sp l b c1 c2 hu
  obtain ⟨-, -, -, -, -, ⟨a, c, hac, -⟩, -⟩ := C13_closed hT hr h addr i sp l b c1 c2 hu
  obtain ⟨h1, h2⟩ := C13_closed_children hT hr h addr i sp l b c1 c2 hu
  obtain rfl : p = prior := Option.some.inj (hpr.symm.trans (same_prior hT hr hδ h hu))
  rw [h1, h2] at e2
  rw [← e1, ← e2]
  exact ⟨cutCount_pos hr hac, Real.exp_lt_exp.2 hlt⟩

theorem child_nodes {Sp S K P : Type} {t : Node Sp S K P} {addr : List Bool} {i : Info K P} {sp : Sp} {l b : S}
    {c1 c2 : Node Sp S K P} (hu : nodeAt t addr = some (.split i sp l b c1 c2)) :
    nodeAt t (addr ++ [false]) = some c1 ∧ nodeAt t (addr ++ [true]) = some c2 := by
  rw [nodeAt_append, nodeAt_append, hu]
  exact ⟨nodeAt_nil c1, nodeAt_nil c2⟩

/-- The factor by which a split multiplies the evidence, in the form used for whole trees. -/
theorem split_ratio (hT : CodeTarget realFns T ml post) (hr : Training hp argsort n nDim) (hδ : hp.delta = 0)
    (hpp : 0 < hp.partitionPrior) (hpp1 : hp.partitionPrior < 1)
    (h : perpFitRoot (exactOps ℝ) T argsort hp (some prior) X y n nDim names = .ok t)
    {addr : List Bool} {i : Info ℝ P} {sp : PSplit ℝ} {l b : ℝ} {c1 c2 : PNode ℝ ℝ ℝ P}
    (hu : nodeAt t addr = some (.split i sp l b c1 c2)) :
    (1 - hp.partitionPrior) / hp.partitionPrior * nDim * Real.exp (ml prior ((rowsAt X t n addr).map y)) <
      Real.exp (ml prior ((rowsAt X t n (addr ++ [false])).map y)) *
        Real.exp (ml prior ((rowsAt X t n (addr ++ [true])).map y)) := by
  obtain ⟨hc, hlt⟩ := split_factor hT hr hδ hpp hpp1 h hu
  obtain ⟨h1, h2⟩ := C13_closed_children hT hr h addr i sp l b c1 c2 hu
  rw [← h1, ← h2] at hlt
  generalize cutCount hp.splitPrecision X (rowsAt X t n addr) sp.dim = k at hc hlt
  generalize Real.exp (ml prior ((rowsAt X t n (addr ++ [false])).map y)) = e1 at hlt ⊢
  generalize Real.exp (ml prior ((rowsAt X t n (addr ++ [true])).map y)) = e2 at hlt ⊢
  have he := Real.exp_pos (ml prior ((rowsAt X t n addr).map y))
  generalize Real.exp (ml prior ((rowsAt X t n addr).map y)) = e at hlt he ⊢
  have hd : (0 : ℝ) < nDim := by exact_mod_cast hr.dims
  have hk : (1 : ℝ) ≤ k := by exact_mod_cast hc
  have hq : hp.partitionPrior ^ (addr.length + 1) ≤ hp.partitionPrior := by
    calc _ ≤ hp.partitionPrior ^ 1 := pow_le_pow_of_le_one hpp.le hpp1.le (by omega)
      _ = _ := pow_one _
  have hq0 : 0 < hp.partitionPrior ^ (addr.length + 1) := pow_pos hpp _
  generalize hp.partitionPrior ^ (addr.length + 1) = q at hlt hq hq0
  generalize hp.partitionPrior = r at *
  have h3 : (1 - q) * e * (k * nDim) / q < e1 * e2 := by
    rw [div_lt_iff₀ hq0]
    have : q / (k * nDim) * e1 * e2 = q * (e1 * e2) / (k * nDim) := by ring
    rw [this, lt_div_iff₀ (by positivity)] at hlt
    linarith
  refine lt_of_le_of_lt ?_ h3
  rw [div_mul_eq_mul_div, div_mul_eq_mul_div, div_le_div_iff₀ hpp hq0]
  have a1 : (1 - r) * q ≤ (1 - q) * r := by nlinarith
  have a2 : 0 ≤ (1 - q) * r := mul_nonneg (by linarith) hpp.le
  calc (1 - r) * nDim * e * q = ((1 - r) * q) * (nDim * e) := by ring
    _ ≤ ((1 - q) * r) * (nDim * e) := by gcongr
    _ ≤ ((1 - q) * r) * (nDim * e) * k := le_mul_of_one_le_right (by positivity) hk
    _ = _ := by ring

/-- Evidence of a subtree against that of its rows. -/
theorem evidence_grows (hT : CodeTarget realFns T ml post) (hr : Training hp argsort n nDim) (hδ : hp.delta = 0)
    (hpp : 0 < hp.partitionPrior) (hpp1 : hp.partitionPrior < 1)
    (h : perpFitRoot (exactOps ℝ) T argsort hp (some prior) X y n nDim names = .ok t)
    (u : PNode ℝ ℝ ℝ P) (addr : List Bool) (hu : nodeAt t addr = some u) :
    ((1 - hp.partitionPrior) / hp.partitionPrior * nDim) ^ (leaves u - 1) *
        Real.exp (ml prior ((rowsAt X t n addr).map y)) ≤
      leavesEvidence (fun R => Real.exp (ml prior (R.map y))) X u (rowsAt X t n addr) ∧
    (u.isLeaf = false → ((1 - hp.partitionPrior) / hp.partitionPrior * nDim) ^ (leaves u - 1) *
        Real.exp (ml prior ((rowsAt X t n addr).map y)) <
      leavesEvidence (fun R => Real.exp (ml prior (R.map y))) X u (rowsAt X t n addr)) := by
  induction u generalizing addr with
  | leaf i =>
    refine ⟨by simp [leaves, leavesEvidence], fun h => by cases h⟩
  | split i sp l b c1 c2 ih1 ih2 =>
    obtain ⟨n1, n2⟩ := child_nodes hu
    have g1 := (ih1 _ n1).1
    have g2 := (ih2 _ n2).1
    have hs := split_ratio hT hr hδ hpp hpp1 h hu
    obtain ⟨h1, h2⟩ := C13_closed_children hT hr h addr i sp l b c1 c2 hu
    have l1 := leaves_pos c1
    have l2 := leaves_pos c2
    have hd : (0 : ℝ) < nDim := by exact_mod_cast hr.dims
    have hρ : 0 < (1 - hp.partitionPrior) / hp.partitionPrior * nDim :=
      mul_pos (div_pos (by linarith) hpp) hd
    have key : ((1 - hp.partitionPrior) / hp.partitionPrior * nDim) ^ (leaves (.split i sp l b c1 c2) - 1) *
        Real.exp (ml prior ((rowsAt X t n addr).map y)) <
      leavesEvidence (fun R => Real.exp (ml prior (R.map y))) X (.split i sp l b c1 c2) (rowsAt X t n addr) := by
      rw [leavesEvidence, ← h1, ← h2]
      refine lt_of_lt_of_le ?_ (mul_le_mul g1 g2 (by positivity) (le_trans (by positivity) g1))
      have e : leaves (.split i sp l b c1 c2 : PNode ℝ ℝ ℝ P) - 1 = (leaves c1 - 1) + (leaves c2 - 1) + 1 := by
        rw [leaves]; omega
      rw [e, pow_succ, pow_add]
      generalize (1 - hp.partitionPrior) / hp.partitionPrior * (nDim : ℝ) = ρ at *
      calc _ = ρ ^ (leaves c1 - 1) * ρ ^ (leaves c2 - 1) *
            (ρ * Real.exp (ml prior ((rowsAt X t n addr).map y))) := by ring
        _ < ρ ^ (leaves c1 - 1) * ρ ^ (leaves c2 - 1) * (Real.exp (ml prior ((rowsAt X t n (addr ++ [false])).map y)) *
            Real.exp (ml prior ((rowsAt X t n (addr ++ [true])).map y))) := by
          exact mul_lt_mul_of_pos_left hs (by positivity)
        _ = _ := by ring
    exact ⟨key.le, fun _ => key⟩

theorem rowsAt_root {K S P : Type} [LT K] [DecidableLT K] (X : Nat → Nat → K) (t : PNode K S K P) (n : Nat) :
    rowsAt X t n [] = List.range n := by
  unfold rowsAt
  exact List.filter_eq_self.2 fun i _ => by cases t <;> rfl

theorem leavesEvidence_congr {E E' : List Nat → ℝ} {P : Type} (u : PNode ℝ ℝ ℝ P) (R : List Nat)
    (hE : ∀ R', (∀ i ∈ R', i ∈ R) → E R' = E' R') : leavesEvidence E X u R = leavesEvidence E' X u R := by
  induction u generalizing R with
  | leaf i => exact hE R fun _ h => h
  | split i sp l b c1 c2 ih1 ih2 =>
    rw [leavesEvidence, leavesEvidence, ih1 _ fun R' h' => hE R' fun i hi => (List.mem_filter.1 (h' i hi)).1,
      ih2 _ fun R' h' => hE R' fun i hi => (List.mem_filter.1 (h' i hi)).1]

theorem treeProbability_congr {E E' : List Nat → ℝ} {P : Type} (u : PNode ℝ ℝ ℝ P) (lv : Nat) (R : List Nat)
    (hE : ∀ R', (∀ i ∈ R', i ∈ R) → E R' = E' R') :
    treeProbability E X hp nDim lv u R = treeProbability E' X hp nDim lv u R := by
  induction u generalizing R lv with
  | leaf i => rw [treeProbability, treeProbability, hE R fun _ h => h]
  | split i sp l b c1 c2 ih1 ih2 =>
    rw [treeProbability, treeProbability, ih1 _ _ fun R' h' => hE R' fun i hi => (List.mem_filter.1 (h' i hi)).1,
      ih2 _ _ fun R' h' => hE R' fun i hi => (List.mem_filter.1 (h' i hi)).1]

theorem leavesEvidence_le_one {E : List Nat → ℝ} {P : Type} (u : PNode ℝ ℝ ℝ P) (R : List Nat)
    (hE : ∀ R', (∀ i ∈ R', i ∈ R) → 0 ≤ E R' ∧ E R' ≤ 1) :
    0 ≤ leavesEvidence E X u R ∧ leavesEvidence E X u R ≤ 1 := by
  induction u generalizing R with
  | leaf i => exact hE R fun _ h => h
  | split i sp l b c1 c2 ih1 ih2 =>
    obtain ⟨a1, b1⟩ := ih1 (R.filter fun i => X i sp.dim < sp.value) fun R' h' => hE R' fun i hi =>
      (List.mem_filter.1 (h' i hi)).1
    obtain ⟨a2, b2⟩ := ih2 (R.filter fun i => sp.value ≤ X i sp.dim) fun R' h' => hE R' fun i hi =>
      (List.mem_filter.1 (h' i hi)).1
    rw [leavesEvidence]
    exact ⟨mul_nonneg a1 a2, mul_le_one₀ b1 a2 b2⟩

theorem probability_ge (hT : CodeTarget realFns T ml post) (hr : Training hp argsort n nDim) (hδ : hp.delta = 0)
    (hpp : 0 < hp.partitionPrior) (hpp1 : hp.partitionPrior < 1)
    (h : perpFitRoot (exactOps ℝ) T argsort hp (some prior) X y n nDim names = .ok t)
    (u : PNode ℝ ℝ ℝ P) (addr : List Bool) (hu : nodeAt t addr = some u) :
    0 < stayAll hp.partitionPrior addr.length u ∧
    stayAll hp.partitionPrior addr.length u * Real.exp (ml prior ((rowsAt X t n addr).map y)) ≤
      treeProbability (fun R => Real.exp (ml prior (R.map y))) X hp nDim addr.length u (rowsAt X t n addr) := by
  have hq : ∀ lv : Nat, 0 < 1 - hp.partitionPrior ^ (lv + 1) := fun lv =>
    sub_pos.2 (pow_lt_one₀ hpp.le hpp1 (by omega))
  induction u generalizing addr with
  | leaf i => exact ⟨by simpa only [stayAll] using hq _, by simp [stayAll, treeProbability]⟩
  | split i sp l b c1 c2 ih1 ih2 =>
    obtain ⟨n1, n2⟩ := child_nodes hu
    obtain ⟨p1, g1⟩ := ih1 _ n1
    obtain ⟨p2, g2⟩ := ih2 _ n2
    obtain ⟨hc, hlt⟩ := split_factor hT hr hδ hpp hpp1 h hu
    obtain ⟨h1, h2⟩ := C13_closed_children hT hr h addr i sp l b c1 c2 hu
    rw [List.length_append, List.length_singleton] at p1 p2 g1 g2
    rw [stayAll, treeProbability, ← h1, ← h2]
    rw [← h1, ← h2] at hlt
    have hd : (0 : ℝ) < nDim := by exact_mod_cast hr.dims
    have hk : (0 : ℝ) < cutCount hp.splitPrecision X (rowsAt X t n addr) sp.dim := by exact_mod_cast hc
    have hf : 0 < hp.partitionPrior ^ (addr.length + 1) /
        ((cutCount hp.splitPrecision X (rowsAt X t n addr) sp.dim : ℝ) * (nDim : ℝ)) := by positivity
    generalize hp.partitionPrior ^ (addr.length + 1) /
        ((cutCount hp.splitPrecision X (rowsAt X t n addr) sp.dim : ℝ) * (nDim : ℝ)) = f at hf hlt ⊢
    refine ⟨mul_pos (mul_pos (hq _) p1) p2, ?_⟩
    calc _ = stayAll hp.partitionPrior (addr.length + 1) c1 * stayAll hp.partitionPrior (addr.length + 1) c2 *
          ((1 - hp.partitionPrior ^ (addr.length + 1)) * Real.exp (ml prior ((rowsAt X t n addr).map y))) := by ring
      _ ≤ stayAll hp.partitionPrior (addr.length + 1) c1 * stayAll hp.partitionPrior (addr.length + 1) c2 *
          (f * Real.exp (ml prior ((rowsAt X t n (addr ++ [false])).map y)) *
            Real.exp (ml prior ((rowsAt X t n (addr ++ [true])).map y))) :=
        mul_le_mul_of_nonneg_left hlt.le (mul_pos p1 p2).le
      _ = f * (stayAll hp.partitionPrior (addr.length + 1) c1 *
            Real.exp (ml prior ((rowsAt X t n (addr ++ [false])).map y))) *
          (stayAll hp.partitionPrior (addr.length + 1) c2 *
            Real.exp (ml prior ((rowsAt X t n (addr ++ [true])).map y))) := by ring
      _ ≤ _ := by
        refine mul_le_mul (mul_le_mul_of_nonneg_left g1 hf.le) g2 (by positivity) ?_
        exact mul_nonneg hf.le (le_trans (by positivity) g1)

end

/-! ## Regression -/

section
variable {hp : Hyper ℝ} {argsort : List ℝ → List Nat} {X : Nat → Nat → ℝ} {y : Nat → ℝ} {n nDim : Nat}
  {names : List String}

/-- C109, regression: the probability density of the targets given the tree exceeds the density without a tree
by at least the factor `(1 - partition_prior) / partition_prior * n_dim` for each split. -/
theorem C109_regression {prior : NG ℝ} {t : PNode ℝ ℝ ℝ (NG ℝ)} (hr : Training hp argsort n nDim) (hδ : hp.delta = 0)
    (hpp : 0 < hp.partitionPrior) (hpp1 : hp.partitionPrior < 1) (hprior : ProperNG prior)
    (h : perpFitRoot (exactOps ℝ) (regTarget realFns) argsort hp (some prior) X y n nDim names = .ok t) :
    let E := fun R : List Nat => ngEvidence prior (R.map y)
    let ρ := (1 - hp.partitionPrior) / hp.partitionPrior * nDim
    ρ ^ (leaves t - 1) * E (List.range n) ≤ leavesEvidence E X t (List.range n) ∧
    (t.isLeaf = false → ρ ^ (leaves t - 1) * E (List.range n) < leavesEvidence E X t (List.range n)) := by
  have := evidence_grows (CodeTarget.regression (F := realFns)) hr hδ hpp hpp1 h t [] (nodeAt_nil t)
  rw [rowsAt_root] at this
  simpa only [evidence_textbook hprior] using this

/-- C110, regression, partial: the joint density of tree and targets is at least that of staying, times the
probability that no other node of the tree would be split. -/
theorem C110_regression_partial {prior : NG ℝ} {t : PNode ℝ ℝ ℝ (NG ℝ)} (hr : Training hp argsort n nDim)
    (hδ : hp.delta = 0) (hpp : 0 < hp.partitionPrior) (hpp1 : hp.partitionPrior < 1) (hprior : ProperNG prior)
    (h : perpFitRoot (exactOps ℝ) (regTarget realFns) argsort hp (some prior) X y n nDim names = .ok t) :
    let E := fun R : List Nat => ngEvidence prior (R.map y)
    stayAll hp.partitionPrior 0 t * E (List.range n) ≤ treeProbability E X hp nDim 0 t (List.range n) := by
  have := (probability_ge (CodeTarget.regression (F := realFns)) hr hδ hpp hpp1 h t [] (nodeAt_nil t)).2
  rw [rowsAt_root, List.length_nil] at this
  simpa only [evidence_textbook hprior] using this

/-! ## Classification -/

theorem evidence_labels {prior : List ℝ} (hprior : ProperDirichlet prior) {k : Nat → Nat}
    (hk : ∀ i < n, k i < prior.length ∧ y i = (k i : ℝ)) {R : List Nat} (hR : ∀ i ∈ R, i ∈ List.range n) :
    Real.exp (dirichletMarginal realFns prior (R.map y)) = dirichletEvidence prior (R.map k) := by
  have hR' : ∀ i ∈ R, i < n := fun i hi => List.mem_range.1 (hR i hi)
  rw [dirichlet_evidence hprior (labels := R.map k) (by
    intro j hj
    obtain ⟨i, hi, rfl⟩ := List.mem_map.1 hj
    exact (hk i (hR' i hi)).1)]
  congr 2
  rw [List.map_map]
  exact List.map_congr_left fun i hi => (hk i (hR' i hi)).2

theorem maxLogLik_nonpos (m : Nat) (ys : List ℝ) : maxLogLik m ys ≤ 0 := by
  unfold maxLogLik labelLogLik
  refine Finset.sum_nonpos fun j _ => mul_nonpos_of_nonneg_of_nonpos (Nat.cast_nonneg _) ?_
  refine Real.log_nonpos (frequencies_nonneg m ys j) ?_
  unfold frequencies
  refine div_le_one_of_le₀ ?_ (Nat.cast_nonneg _)
  exact_mod_cast List.length_filter_le _ _

theorem evidence_le_one {prior : List ℝ} (hprior : ProperDirichlet prior) {labels : List Nat}
    (hl : ∀ k ∈ labels, k < prior.length) : 0 < dirichletEvidence prior labels ∧ dirichletEvidence prior labels ≤ 1 := by
  rw [dirichlet_evidence hprior hl]
  refine ⟨Real.exp_pos _, Real.exp_le_one_iff.2 ?_⟩
  have hy : LabelsBelow prior.length (labels.map fun (k : Nat) => (k : ℝ)) := by
    intro v hv
    obtain ⟨k, hk, rfl⟩ := List.mem_map.1 hv
    exact ⟨k, hl k hk, rfl⟩
  exact (dirichletMarginal_le hprior hy).trans (maxLogLik_nonpos _ _)

variable {prior : List ℝ} {t : PNode ℝ ℝ ℝ (List ℝ)} {k : Nat → Nat}

/-- C109, classification: the same for the probability of the labels. -/
theorem C109_classification (hr : Training hp argsort n nDim) (hδ : hp.delta = 0)
    (hpp : 0 < hp.partitionPrior) (hpp1 : hp.partitionPrior < 1) (hprior : ProperDirichlet prior)
    (hk : ∀ i < n, k i < prior.length ∧ y i = (k i : ℝ))
    (h : perpFitRoot (exactOps ℝ) (clsTarget realFns) argsort hp (some prior) X y n nDim names = .ok t) :
    let E := fun R : List Nat => dirichletEvidence prior (R.map k)
    let ρ := (1 - hp.partitionPrior) / hp.partitionPrior * nDim
    ρ ^ (leaves t - 1) * E (List.range n) ≤ leavesEvidence E X t (List.range n) ∧
    (t.isLeaf = false → ρ ^ (leaves t - 1) * E (List.range n) < leavesEvidence E X t (List.range n)) ∧
    leavesEvidence E X t (List.range n) ≤ 1 := by
  intro E ρ
  have := evidence_grows (CodeTarget.classification (F := realFns)) hr hδ hpp hpp1 h t [] (nodeAt_nil t)
  rw [rowsAt_root, evidence_labels hprior hk fun _ h => h,
    leavesEvidence_congr t (List.range n) fun R' hR' => evidence_labels hprior hk hR'] at this
  refine ⟨this.1, this.2, (leavesEvidence_le_one t _ fun R' hR' => ?_).2⟩
  have := evidence_le_one hprior (labels := R'.map k) (by
    intro j hj
    obtain ⟨i, hi, rfl⟩ := List.mem_map.1 hj
    exact (hk i (List.mem_range.1 (hR' i hi))).1)
  exact ⟨this.1.le, this.2⟩

/-- C109: so the number of leaves is bounded by the probability of the labels and the number of features, and
with enough features, whatever they contain, the tree is a single leaf. -/
theorem C109_leaves (hr : Training hp argsort n nDim) (hδ : hp.delta = 0)
    (hpp : 0 < hp.partitionPrior) (hpp1 : hp.partitionPrior < 1) (hprior : ProperDirichlet prior)
    (hk : ∀ i < n, k i < prior.length ∧ y i = (k i : ℝ))
    (h : perpFitRoot (exactOps ℝ) (clsTarget realFns) argsort hp (some prior) X y n nDim names = .ok t) :
    ((1 - hp.partitionPrior) / hp.partitionPrior * nDim) ^ (leaves t - 1) ≤
      1 / dirichletEvidence prior ((List.range n).map k) ∧
    (1 / dirichletEvidence prior ((List.range n).map k) ≤ (1 - hp.partitionPrior) / hp.partitionPrior * nDim →
      t.isLeaf = true) := by
  obtain ⟨h1, h2, h3⟩ := C109_classification hr hδ hpp hpp1 hprior hk h
  have hpos := (evidence_le_one hprior (labels := (List.range n).map k) (by
    intro j hj
    obtain ⟨i, hi, rfl⟩ := List.mem_map.1 hj
    exact (hk i (List.mem_range.1 hi)).1))
  refine ⟨by rw [le_div_iff₀ hpos.1]; exact h1.trans h3, fun hbig => ?_⟩
  cases hleaf : t.isLeaf with
  | true => rfl
  | false =>
    exfalso
    have h4 := (h2 hleaf).trans_le h3
    have h5 : 1 ≤ (1 - hp.partitionPrior) / hp.partitionPrior * nDim :=
      le_trans (by rw [le_div_iff₀ hpos.1, one_mul]; exact hpos.2) hbig
    have h6 : 1 ≤ leaves t - 1 := by
      cases t with
      | leaf i => cases hleaf
      | split i sp l b c1 c2 =>
        have := leaves_pos c1
        have := leaves_pos c2
        rw [leaves]; omega
    have h7 := (le_self_pow₀ h5 (by omega : leaves t - 1 ≠ 0))
    rw [div_le_iff₀ hpos.1] at hbig
    have := mul_le_mul_of_nonneg_right h7 hpos.1.le
    linarith

/-- C110, classification, partial. -/
theorem C110_classification_partial (hr : Training hp argsort n nDim) (hδ : hp.delta = 0)
    (hpp : 0 < hp.partitionPrior) (hpp1 : hp.partitionPrior < 1) (hprior : ProperDirichlet prior)
    (hk : ∀ i < n, k i < prior.length ∧ y i = (k i : ℝ))
    (h : perpFitRoot (exactOps ℝ) (clsTarget realFns) argsort hp (some prior) X y n nDim names = .ok t) :
    let E := fun R : List Nat => dirichletEvidence prior (R.map k)
    stayAll hp.partitionPrior 0 t * E (List.range n) ≤ treeProbability E X hp nDim 0 t (List.range n) := by
  intro E
  have := (probability_ge (CodeTarget.classification (F := realFns)) hr hδ hpp hpp1 h t [] (nodeAt_nil t)).2
  rwa [rowsAt_root, evidence_labels hprior hk fun _ h => h,
    treeProbability_congr t _ (List.range n) fun R' hR' => evidence_labels hprior hk hR'] at this

end

/-! ## The tree can be less probable than a single leaf -/

/-- Two rows with different labels. -/
def twoRows : Ctx ℚ ℚ (List ℚ) ℚ (List ℚ) where
  o := exactOps ℚ
  T := probTarget ℚ
  pair := probPair
  hp := ⟨1 / 2, 0, false, 0⟩
  X := fun i _ => i
  y := fun i => i
  nDim := 1
  names := ["x"]

/-- Their fitted tree: both leaves hold one row. -/
def twoTree : PNode ℚ ℚ ℚ (List ℚ) :=
  .split ⟨twoRows.hp, some [1, 1], 0, some 1, 2, [2, 2]⟩ ⟨0, "x", 1 / 2⟩ (1 / 12) (1 / 8)
    (.leaf ⟨twoRows.hp, some [1, 1], 1, none, 1, [2, 1]⟩) (.leaf ⟨twoRows.hp, some [1, 1], 1, none, 1, [1, 2]⟩)

theorem twoFit : fitIn twoRows (insArgsort (exactOps ℚ).le) (some [1, 1]) 2 = .ok twoTree := by
  decide +kernel

theorem twoReal_fit :
    fitIn (castCtx twoRows) realSort (some (castL [1, 1])) 2 = .ok (castTree twoRows.hp twoTree) :=
  cast_fit twoFit rfl rfl rfl (by decide) (by decide) (by decide) (le_refl _) (by decide +kernel)
    (by decide +kernel) (le_refl _) ⟨by simp, by decide +kernel⟩ realSort_spec

/-- C110 is false: the tree that is fitted can be less probable, given the data, than a single leaf. -/
theorem C110_refuted : ∃ (hp : Hyper ℝ) (X : Nat → Nat → ℝ) (k : Nat → Nat) (n nDim : Nat) (names : List String)
    (prior : List ℝ) (t : PNode ℝ ℝ ℝ (List ℝ)),
    Training hp realSort n nDim ∧ hp.delta = 0 ∧ 0 < hp.partitionPrior ∧ hp.partitionPrior < 1 ∧
    ProperDirichlet prior ∧ (∀ i < n, k i < prior.length) ∧
    perpFitRoot (exactOps ℝ) (clsTarget realFns) realSort hp (some prior) X (fun i => (k i : ℝ)) n nDim names = .ok t ∧
    treeProbability (fun R => dirichletEvidence prior (R.map k)) X hp nDim 0 t (List.range n) <
      (1 - hp.partitionPrior) * dirichletEvidence prior ((List.range n).map k) := by
  have hfit := twoReal_fit
  have hprior : ProperDirichlet [1, 1] := ⟨by simp, by simp⟩
  have hL : castL [1, 1] = [1, 1] := by simp [castL]
  have hr : Training (castHp twoRows.hp) realSort 2 1 :=
    ⟨by simp [castHp, twoRows], realSort_sorts, by decide, by decide, by decide⟩
  refine ⟨castHp twoRows.hp, (castCtx twoRows).X, fun i => i, 2, 1, ["x"], [1, 1], castTree twoRows.hp twoTree, hr,
    by simp [castHp, twoRows], by simp [castHp, twoRows], by simp [castHp, twoRows]; norm_num, hprior, by simp, ?_, ?_⟩
  · rw [← hL]
    have e : (castCtx twoRows).y = fun i : Nat => (i : ℝ) := by
      funext i
      simp [castCtx, twoRows]
    rw [← e]
    exact hfit
  · have ev : ∀ ls : List Nat, (∀ k ∈ ls, k < 2) →
        dirichletEvidence [1, 1] ls = dirMult [1, 1] (ls.map fun (k : Nat) => (k : ℝ)) := by
      intro ls hl
      rw [dirichlet_evidence hprior hl, dirichletMarginal_real (by simp) (by simp), Real.exp_log]
      exact dirMult_pos (by simp) (by simp) _
    have ev0 : dirichletEvidence [1, 1] [0] = 1 / 2 := by
      rw [ev _ (by simp)]
      simp [dirMult, rising, count, List.range, List.range.loop]
      norm_num
    have ev1 : dirichletEvidence [1, 1] [1] = 1 / 2 := by
      rw [ev _ (by simp)]
      simp [dirMult, rising, count, List.range, List.range.loop]
      norm_num
    have ev2 : dirichletEvidence [1, 1] [0, 1] = 1 / 6 := by
      rw [ev _ (by simp)]
      simp [dirMult, rising, count, List.range, List.range.loop]
      norm_num
    have hT := CodeTarget.classification (F := realFns)
    have hcc := (split_factor hT hr (by simp [castHp, twoRows]) (by simp [castHp, twoRows])
      (by simp [castHp, twoRows]; norm_num) hfit (addr := []) (nodeAt_nil _)).1
    rw [rowsAt_root] at hcc
    have hX : (castCtx twoRows).X = fun (i _ : Nat) => (i : ℝ) := by
      funext i d
      simp [castCtx, twoRows]
    have hpp : (castHp twoRows.hp).partitionPrior = 1 / 2 := by simp [castHp, twoRows]
    obtain ⟨i, l, b, j1, j2, htree⟩ : ∃ i l b j1 j2, castTree twoRows.hp twoTree =
        .split i ⟨0, "x", ((1 / 2 : ℚ) : ℝ)⟩ l b (.leaf j1) (.leaf j2) := ⟨_, _, _, _, _, rfl⟩
    have f1 : ([0, 1] : List Nat).filter (fun i : Nat => decide ((i : ℝ) < ((1 / 2 : ℚ) : ℝ))) = [0] := by
      norm_num [List.filter_cons]
    have f2 : ([0, 1] : List Nat).filter (fun i : Nat => decide (((1 / 2 : ℚ) : ℝ) ≤ (i : ℝ))) = [1] := by
      norm_num [List.filter_cons]
    have hk : (1 : ℝ) ≤ cutCount (castHp twoRows.hp).splitPrecision (castCtx twoRows).X (List.range 2) 0 := by
      exact_mod_cast hcc
    rw [htree, treeProbability, treeProbability, treeProbability, hpp]
    generalize (cutCount (castHp twoRows.hp).splitPrecision (castCtx twoRows).X (List.range 2) 0 : ℝ) = c at hk ⊢
    rw [hX]
    simp only [f1, f2, List.map_id', ev0, ev1, show List.range 2 = [0, 1] from rfl, ev2]
    have : (1 / 2 : ℝ) ^ (0 + 1) / (c * ((1 : Nat) : ℝ)) ≤ 1 / 2 := by
      rw [div_le_iff₀ (by simpa using lt_of_lt_of_le one_pos hk)]
      simp
      linarith
    nlinarith

/-! ## The hypotheses are satisfiable -/

/-- The classification fit with two splits: the probability of the labels given the tree. -/
example : ∃ E : List Nat → ℝ, (castTree sampleHp sampleTree).isLeaf = false ∧ 0 < E (List.range 12) ∧
    ((1 - (castHp sampleHp).partitionPrior) / (castHp sampleHp).partitionPrior * (2 : Nat)) ^
        (leaves (castTree sampleHp sampleTree) - 1) * E (List.range 12) <
      leavesEvidence E (castCtx sampleCtx).X (castTree sampleHp sampleTree) (List.range 12) := by
  have hr : Training (castHp sampleHp) realSort 12 2 :=
    ⟨by simp [castHp, sampleHp], realSort_sorts, by decide, by decide, by decide⟩
  have h := (evidence_grows (CodeTarget.classification (F := realFns)) hr (by simp [castHp, sampleHp])
    (by simp [castHp, sampleHp]) (by simp [castHp, sampleHp]; norm_num) sampleReal_fit _ [] (nodeAt_nil _)).2 rfl
  rw [rowsAt_root] at h
  exact ⟨fun R => Real.exp (dirichletMarginal realFns (castL [1, 1]) (R.map (castCtx sampleCtx).y)), rfl,
    Real.exp_pos _, h⟩

/-- With prior `[1, 1]`, one row of each class and 1000 features no tree is grown; the probability of the labels is
1/6. -/
example (X : Nat → Nat → ℝ) (names : List String) (hn : 1000 ≤ names.length) : ∃ t,
    perpFitRoot (exactOps ℝ) (clsTarget realFns) realSort ⟨1 / 2, 0, false, 0⟩ (some [1, 1]) X (fun i => (i : ℝ)) 2 1000
      names = .ok t ∧ t.isLeaf = true := by
  have hr : Training (⟨1 / 2, 0, false, 0⟩ : Hyper ℝ) realSort 2 1000 :=
    ⟨le_refl _, realSort_sorts, by decide, by decide, by decide⟩
  have hprior : ProperDirichlet [1, 1] := ⟨by simp, by simp⟩
  obtain ⟨t, ht⟩ := C12_closed (CodeTarget.classification (F := realFns)) hr X (fun i => (i : ℝ)) (some [1, 1]) hn
  refine ⟨t, ht, (C109_leaves hr rfl (by norm_num) (by norm_num) hprior (k := fun i => i) (fun i hi => ⟨hi, rfl⟩) ht).2 ?_⟩
  have e : dirichletEvidence [1, 1] [0, 1] = 1 / 6 := by
    rw [dirichlet_evidence hprior (by simp), dirichletMarginal_real (by simp) (by simp), Real.exp_log
      (dirMult_pos (by simp) (by simp) _)]
    simp [dirMult, rising, count, List.range, List.range.loop]
    norm_num
  simp only [show List.range 2 = [0, 1] from rfl, List.map_id', e]
  norm_num

/-- A regression fit that splits. -/
example (p : NG ℝ) (hp : ProperNG p) :
    stayAll (regCtx2 p 3 4 0 false).hp.partitionPrior 0 (regTree2 p 3 4 0 false) *
        ngEvidence p ((List.range 2).map (regCtx2 p 3 4 0 false).y) ≤
      treeProbability (fun R => ngEvidence p (R.map (regCtx2 p 3 4 0 false).y)) (regCtx2 p 3 4 0 false).X
        (regCtx2 p 3 4 0 false).hp 1 0 (regTree2 p 3 4 0 false) (List.range 2) :=
  C110_regression_partial (hp := (regCtx2 p 3 4 0 false).hp) (nDim := 1) (argsort := realSort)
    ⟨le_refl _, realSort_sorts, by decide, by decide, by decide⟩ rfl (regPP_pos p 3 4) (regPP_lt_one p 3 4) hp
    (regTree2_fit p 3 4 0)

end BT
