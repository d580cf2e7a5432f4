import Verif.Props.Joint
import Verif.Props.HyperGroups
import Verif.Props.SameMoments
import Verif.Props.HyperTransform
import Mathlib.Analysis.Complex.ExponentialBounds

/-!
# Evidence of hyperplane trees: C111
-/

namespace BT
open Spec

section
variable {P O : Type} {c : HCtx ℝ P ℝ O} {ml : P → List ℝ → ℝ} {post : P → List ℝ → P} {n : Nat} {prior : P}
  {t : HNode ℝ ℝ P}

theorem h_children {addr : List Bool} {i : Info ℝ P} {sp : HSplit ℝ} {l b : ℝ} {c1 c2 : HNode ℝ ℝ P}
    (hu : nodeAt t addr = some (.split i sp l b c1 c2)) :
    hRowsAt c.X t n (addr ++ [false]) =
      ((hRowsAt c.X t n addr).filter fun i => planeSide sp.normal sp.origin (c.X i) < 0) ∧
    hRowsAt c.X t n (addr ++ [true]) =
      ((hRowsAt c.X t n addr).filter fun i => 0 ≤ planeSide sp.normal sp.origin (c.X i)) := by
  obtain ⟨e1, e2⟩ := hRouted_snoc (c := c) (n := n) hu
  rw [hRowsAt_eq, hRowsAt_eq, hRowsAt_eq, e1, e2]
  simp only [planeSide_eq]
  exact ⟨rfl, rfl⟩

/-- The condition under which the code accepts a plane, in terms of the evidence of parent and children. -/
theorem h_split_factor (hT : CodeTarget realFns c.T ml post) (hA : Euclidean c.A) (hn : 0 < n) (hd : 0 < c.nDim)
    (hpp : 0 < c.hp.partitionPrior) (hpp1 : c.hp.partitionPrior < 1)
    (h : hFitRoot c (some prior) n = .ok t)
    {addr : List Bool} {i : Info ℝ P} {sp : HSplit ℝ} {l b : ℝ} {c1 c2 : HNode ℝ ℝ P}
    (hu : nodeAt t addr = some (.split i sp l b c1 c2))
    (hoff : ∀ i ∈ hRowsAt c.X t n addr, planeSide sp.normal sp.origin (c.X i) ≠ 0) :
    (1 - c.hp.partitionPrior) / c.hp.partitionPrior * c.nDim *
        Real.exp (ml prior ((hRowsAt c.X t n addr).map c.y)) ≤
      Real.exp (ml prior ((hRowsAt c.X t n (addr ++ [false])).map c.y)) *
        Real.exp (ml prior ((hRowsAt c.X t n (addr ++ [true])).map c.y)) := by
  obtain ⟨-, -, -, hl, hle, ⟨order, k, r, s, -, hcons, -⟩, -⟩ := C50_closed hT hA hn h addr i sp l b c1 c2 hu
  have hb := C50_off_plane_partial hT hA h addr i sp l b c1 c2 hu hoff
  have hc : 0 < consideredCount c.hp.splitPrecision c.X (hRowsAt c.X t n addr) sp.normal := by
    have := List.length_pos_of_mem ((considered_iff (q := searchAt c realFns ml prior addr.length
      (hRowsAt c.X t n addr)) sp.normal k).2 hcons)
    rwa [consideredCount_eq] at this
  generalize consideredCount c.hp.splitPrecision c.X (hRowsAt c.X t n addr) sp.normal = m at hc hb
  have hd' : (0 : ℝ) < c.nDim := by exact_mod_cast hd
  have hm : (1 : ℝ) ≤ m := by exact_mod_cast hc
  have hq : c.hp.partitionPrior ^ (addr.length + 1) ≤ c.hp.partitionPrior := by
    calc _ ≤ c.hp.partitionPrior ^ 1 := pow_le_pow_of_le_one hpp.le hpp1.le (by omega)
      _ = _ := pow_one _
  have hq0 : 0 < c.hp.partitionPrior ^ (addr.length + 1) := pow_pos hpp _
  rw [hl, hb] at hle
  have hexp := Real.exp_le_exp.2 hle
  rw [exp_stayScore hpp hpp1, Real.exp_add, Real.exp_add] at hexp
  have e0 : Real.exp (realFns.log (c.hp.partitionPrior ^ (addr.length + 1) / ((m : ℝ) * c.nDim))) =
      c.hp.partitionPrior ^ (addr.length + 1) / ((m : ℝ) * c.nDim) := Real.exp_log (by positivity)
  rw [e0] at hexp
  generalize Real.exp (ml prior ((hRowsAt c.X t n (addr ++ [false])).map c.y)) = e1 at hexp ⊢
  generalize Real.exp (ml prior ((hRowsAt c.X t n (addr ++ [true])).map c.y)) = e2 at hexp ⊢
  have he := Real.exp_pos (ml prior ((hRowsAt c.X t n addr).map c.y))
  generalize Real.exp (ml prior ((hRowsAt c.X t n addr).map c.y)) = e at hexp he ⊢
  generalize c.hp.partitionPrior ^ (addr.length + 1) = q at hexp hq hq0
  generalize c.hp.partitionPrior = r at *
  generalize (c.nDim : ℝ) = D at *
  have h3 : (1 - q) * e * (m * D) / q ≤ e1 * e2 := by
    rw [div_le_iff₀ hq0]
    have : q / (m * D) * e1 * e2 = q * (e1 * e2) / (m * D) := by ring
    rw [this, le_div_iff₀ (by positivity)] at hexp
    linarith
  refine le_trans ?_ h3
  rw [div_mul_eq_mul_div, div_mul_eq_mul_div, div_le_div_iff₀ hpp hq0]
  have a1 : (1 - r) * q ≤ (1 - q) * r := by nlinarith
  have a2 : 0 ≤ (1 - q) * r := mul_nonneg (by linarith) hpp.le
  calc (1 - r) * D * e * q = ((1 - r) * q) * (D * e) := by ring
    _ ≤ ((1 - q) * r) * (D * e) := by gcongr
    _ ≤ ((1 - q) * r) * (D * e) * m := le_mul_of_one_le_right (by positivity) hm
    _ = _ := by ring

theorem h_evidence_grows (hT : CodeTarget realFns c.T ml post) (hA : Euclidean c.A) (hn : 0 < n) (hd : 0 < c.nDim)
    (hpp : 0 < c.hp.partitionPrior) (hpp1 : c.hp.partitionPrior < 1)
    (h : hFitRoot c (some prior) n = .ok t)
    (u : HNode ℝ ℝ P) (addr : List Bool) (hu : nodeAt t addr = some u)
    (hsep : Separates c.X u (hRowsAt c.X t n addr)) :
    ((1 - c.hp.partitionPrior) / c.hp.partitionPrior * c.nDim) ^ (leaves u - 1) *
        Real.exp (ml prior ((hRowsAt c.X t n addr).map c.y)) ≤
      hLeavesEvidence (fun R => Real.exp (ml prior (R.map c.y))) c.X u (hRowsAt c.X t n addr) := by
  induction u generalizing addr with
  | leaf i => simp [leaves, hLeavesEvidence]
  | split i sp l b c1 c2 ih1 ih2 =>
    obtain ⟨n1, n2⟩ := child_nodes hu
    obtain ⟨h1, h2⟩ := h_children (c := c) (n := n) hu
    rw [Separates, ← h1, ← h2] at hsep
    have g1 := ih1 _ n1 hsep.2.1
    have g2 := ih2 _ n2 hsep.2.2
    have hs := h_split_factor hT hA hn hd hpp hpp1 h hu hsep.1
    have l1 := leaves_pos c1
    have l2 := leaves_pos c2
    have hd' : (0 : ℝ) < c.nDim := by exact_mod_cast hd
    have hρ : 0 < (1 - c.hp.partitionPrior) / c.hp.partitionPrior * c.nDim :=
      mul_pos (div_pos (by linarith) hpp) hd'
    rw [hLeavesEvidence, ← h1, ← h2]
    refine le_trans ?_ (mul_le_mul g1 g2 (by positivity) (le_trans (by positivity) g1))
    have e : leaves (.split i sp l b c1 c2 : HNode ℝ ℝ P) - 1 = (leaves c1 - 1) + (leaves c2 - 1) + 1 := by
      rw [leaves]; omega
    rw [e, pow_succ, pow_add]
    generalize (1 - c.hp.partitionPrior) / c.hp.partitionPrior * (c.nDim : ℝ) = ρ at *
    calc _ = ρ ^ (leaves c1 - 1) * ρ ^ (leaves c2 - 1) *
          (ρ * Real.exp (ml prior ((hRowsAt c.X t n addr).map c.y))) := by ring
      _ ≤ ρ ^ (leaves c1 - 1) * ρ ^ (leaves c2 - 1) *
          (Real.exp (ml prior ((hRowsAt c.X t n (addr ++ [false])).map c.y)) *
            Real.exp (ml prior ((hRowsAt c.X t n (addr ++ [true])).map c.y))) :=
        mul_le_mul_of_nonneg_left hs (by positivity)
      _ = _ := by ring

theorem hRowsAt_root {S P : Type} (X : Nat → Nat → ℝ) (t : HNode S ℝ P) (n : Nat) :
    hRowsAt X t n [] = List.range n := by
  unfold hRowsAt
  exact List.filter_eq_self.2 fun i _ => by cases t <;> rfl

theorem hLeavesEvidence_congr {E E' : List Nat → ℝ} {X : Nat → Nat → ℝ} (u : HNode ℝ ℝ P) (R : List Nat)
    (hE : ∀ R', (∀ i ∈ R', i ∈ R) → E R' = E' R') : hLeavesEvidence E X u R = hLeavesEvidence E' X u R := by
  induction u generalizing R with
  | leaf i => exact hE R fun _ h => h
  | split i sp l b c1 c2 ih1 ih2 =>
    rw [hLeavesEvidence, hLeavesEvidence, ih1 _ fun R' h' => hE R' fun i hi => (List.mem_filter.1 (h' i hi)).1,
      ih2 _ fun R' h' => hE R' fun i hi => (List.mem_filter.1 (h' i hi)).1]

theorem hLeavesEvidence_le_one {E : List Nat → ℝ} {X : Nat → Nat → ℝ} (u : HNode ℝ ℝ P) (R : List Nat)
    (hE : ∀ R', (∀ i ∈ R', i ∈ R) → 0 ≤ E R' ∧ E R' ≤ 1) :
    0 ≤ hLeavesEvidence E X u R ∧ hLeavesEvidence E X u R ≤ 1 := by
  induction u generalizing R with
  | leaf i => exact hE R fun _ h => h
  | split i sp l b c1 c2 ih1 ih2 =>
    obtain ⟨a1, b1⟩ := ih1 (R.filter fun i => planeSide sp.normal sp.origin (X i) < 0) fun R' h' => hE R' fun i hi =>
      (List.mem_filter.1 (h' i hi)).1
    obtain ⟨a2, b2⟩ := ih2 (R.filter fun i => 0 ≤ planeSide sp.normal sp.origin (X i)) fun R' h' => hE R' fun i hi =>
      (List.mem_filter.1 (h' i hi)).1
    rw [hLeavesEvidence]
    exact ⟨mul_nonneg a1 a2, mul_le_one₀ b1 a2 b2⟩

end

/-- C111, regression: whatever the search, the probability density of the targets given a hyperplane tree whose
planes contain no training row of their node exceeds the density without a tree by the factor
`(1 - partition_prior) / partition_prior * n_dim` for each split. -/
theorem C111_regression {c : HCtx ℝ (NG ℝ) ℝ ℝ} (hT : c.T = regTarget realFns) (hA : Euclidean c.A) {n : Nat}
    (hn : 0 < n) (hd : 0 < c.nDim) (hpp : 0 < c.hp.partitionPrior) (hpp1 : c.hp.partitionPrior < 1) {prior : NG ℝ}
    (hprior : ProperNG prior) {t : HNode ℝ ℝ (NG ℝ)} (h : hFitRoot c (some prior) n = .ok t)
    (hsep : Separates c.X t (List.range n)) :
    let E := fun R : List Nat => ngEvidence prior (R.map c.y)
    ((1 - c.hp.partitionPrior) / c.hp.partitionPrior * c.nDim) ^ (leaves t - 1) * E (List.range n) ≤
      hLeavesEvidence E c.X t (List.range n) := by
  have hT' : CodeTarget realFns c.T (ngMarginal realFns) Spec.ngPosterior := by rw [hT]; exact .regression
  have := h_evidence_grows hT' hA hn hd hpp hpp1 h t [] (nodeAt_nil t) (by rwa [hRowsAt_root])
  rw [hRowsAt_root] at this
  simpa only [evidence_textbook hprior] using this

/-- C111, classification: the same for the probability of the labels, which bounds the number of leaves. -/
theorem C111_classification {c : HCtx ℝ (List ℝ) ℝ (List ℝ)} (hT : c.T = clsTarget realFns) (hA : Euclidean c.A)
    {n : Nat} (hn : 0 < n) (hd : 0 < c.nDim) (hpp : 0 < c.hp.partitionPrior) (hpp1 : c.hp.partitionPrior < 1)
    {prior : List ℝ} (hprior : ProperDirichlet prior) {k : Nat → Nat}
    (hk : ∀ i < n, k i < prior.length ∧ c.y i = (k i : ℝ))
    {t : HNode ℝ ℝ (List ℝ)} (h : hFitRoot c (some prior) n = .ok t) (hsep : Separates c.X t (List.range n)) :
    let E := fun R : List Nat => dirichletEvidence prior (R.map k)
    ((1 - c.hp.partitionPrior) / c.hp.partitionPrior * c.nDim) ^ (leaves t - 1) * E (List.range n) ≤
      hLeavesEvidence E c.X t (List.range n) ∧ hLeavesEvidence E c.X t (List.range n) ≤ 1 := by
  intro E
  have hT' : CodeTarget realFns c.T (dirichletMarginal realFns) dirichletPosterior := by rw [hT]; exact .classification
  have := h_evidence_grows hT' hA hn hd hpp hpp1 h t [] (nodeAt_nil t) (by rwa [hRowsAt_root])
  rw [hRowsAt_root, evidence_labels hprior hk fun _ h => h,
    hLeavesEvidence_congr t (List.range n) fun R' hR' => evidence_labels hprior hk hR'] at this
  refine ⟨this, (hLeavesEvidence_le_one t _ fun R' hR' => ?_).2⟩
  have := evidence_le_one hprior (labels := R'.map k) (by
    intro j hj
    obtain ⟨i, hi, rfl⟩ := List.mem_map.1 hj
    exact (hk i (List.mem_range.1 (hR' i hi))).1)
  exact ⟨this.1.le, this.2⟩

theorem planes_perm (X : Nat → Nat → ℝ) (y : Nat → ℝ) (R : List Nat) (sp : HSplit ℝ) :
    ((R.filter fun i => planeSide sp.normal sp.origin (X i) < 0).map y ++
      (R.filter fun i => 0 ≤ planeSide sp.normal sp.origin (X i)).map y).Perm (R.map y) := by
  rw [← List.map_append]
  refine List.Perm.map _ ?_
  have e : (fun i : Nat => decide (0 ≤ planeSide sp.normal sp.origin (X i))) =
      fun i : Nat => !decide (planeSide sp.normal sp.origin (X i) < 0) := by
    funext i
    by_cases h : planeSide sp.normal sp.origin (X i) < 0
    · simp [h]
    · simp [h, not_lt.1 h]
  rw [e]
  exact List.filter_append_perm _ _

theorem lt_one_of_odds {q : ℝ} {m : Nat} (hm : 0 < m) (hq : 0 < q) (h : q * (m + 1) < m) : q < 1 := by
  have : (0 : ℝ) < m := by exact_mod_cast hm
  nlinarith

/-- C111: if `partition_prior < n_dim / (n_dim + 1)`, the children of a split of a classification
tree, none of whose rows lies on the plane, have different class frequencies. -/
theorem C111_frequencies {c : HCtx ℝ (List ℝ) ℝ (List ℝ)} (hT : c.T = clsTarget realFns) (hA : Euclidean c.A)
    {n : Nat} (hn : 0 < n) (hd : 0 < c.nDim) (hpp : 0 < c.hp.partitionPrior)
    (hpp1 : c.hp.partitionPrior * (c.nDim + 1) < c.nDim)
    {prior : List ℝ} (hprior : ProperDirichlet prior) (hl : ∀ i < n, ∃ k < prior.length, c.y i = (k : ℝ))
    {t : HNode ℝ ℝ (List ℝ)} (h : hFitRoot c (some prior) n = .ok t)
    (addr : List Bool) (i : Info ℝ (List ℝ)) (sp : HSplit ℝ) (l b : ℝ) (c1 c2 : HNode ℝ ℝ (List ℝ))
    (hu : nodeAt t addr = some (.split i sp l b c1 c2))
    (hoff : ∀ i ∈ hRowsAt c.X t n addr, planeSide sp.normal sp.origin (c.X i) ≠ 0) :
    frequencies prior.length ((hRowsAt c.X t n (addr ++ [false])).map c.y) ≠
      frequencies prior.length ((hRowsAt c.X t n (addr ++ [true])).map c.y) := by
  intro hf
  have hT' : CodeTarget realFns c.T (dirichletMarginal realFns) dirichletPosterior := by rw [hT]; exact .classification
  have hs := h_split_factor hT' hA hn hd hpp (lt_one_of_odds hd hpp hpp1) h hu hoff
  obtain ⟨n1, n2⟩ := child_nodes hu
  have hne1 := hRowsAt_ne_nil hT' hA hn h n1
  have hne2 := hRowsAt_ne_nil hT' hA hn h n2
  have hlab : ∀ a, LabelsBelow prior.length ((hRowsAt c.X t n a).map c.y) := fun a =>
    labels_map hl fun i hi => List.mem_range.1 (List.mem_filter.1 hi).1
  have key := evidence_same_freq hprior (hlab _) (hlab _) (by simpa using hne1) (by simpa using hne2) hf
  obtain ⟨h1, h2⟩ := h_children (c := c) (n := n) hu
  rw [h1, h2, dirichletMarginal_perm (planes_perm c.X c.y _ sp), ← h1, ← h2] at key
  rw [← Real.exp_add] at hs
  have h3 := hs.trans (Real.exp_le_exp.2 key)
  have he := Real.exp_pos (dirichletMarginal realFns prior ((hRowsAt c.X t n addr).map c.y))
  have h4 : (1 - c.hp.partitionPrior) / c.hp.partitionPrior * c.nDim ≤ 1 := by
    by_contra h4
    push Not at h4
    exact absurd h3 (not_le.2 (lt_mul_of_one_lt_left he h4))
  rw [div_mul_eq_mul_div, div_le_one hpp] at h4
  linarith

/-- C111: the children of a split of a regression tree differ in mean or variance of their targets. -/
theorem C111_moments {c : HCtx ℝ (NG ℝ) ℝ ℝ} (hT : c.T = regTarget realFns) (hA : Euclidean c.A)
    {n : Nat} (hn : 0 < n) (hd : 0 < c.nDim) (hpp : 0 < c.hp.partitionPrior)
    (hpp1 : c.hp.partitionPrior * (c.nDim + 1) < c.nDim)
    {prior : NG ℝ} (hprior : ProperNG prior) {t : HNode ℝ ℝ (NG ℝ)} (h : hFitRoot c (some prior) n = .ok t)
    (addr : List Bool) (i : Info ℝ (NG ℝ)) (sp : HSplit ℝ) (l b : ℝ) (c1 c2 : HNode ℝ ℝ (NG ℝ))
    (hu : nodeAt t addr = some (.split i sp l b c1 c2))
    (hoff : ∀ i ∈ hRowsAt c.X t n addr, planeSide sp.normal sp.origin (c.X i) ≠ 0) :
    let A := (hRowsAt c.X t n (addr ++ [false])).map c.y
    let B := (hRowsAt c.X t n (addr ++ [true])).map c.y
    mean A ≠ mean B ∨ sampleVariance A ≠ sampleVariance B := by
  intro A B
  by_contra hno
  push Not at hno
  have hT' : CodeTarget realFns c.T (ngMarginal realFns) Spec.ngPosterior := by rw [hT]; exact .regression
  have hs := h_split_factor hT' hA hn hd hpp (lt_one_of_odds hd hpp hpp1) h hu hoff
  obtain ⟨n1, n2⟩ := child_nodes hu
  have hne1 := hRowsAt_ne_nil hT' hA hn h n1
  have hne2 := hRowsAt_ne_nil hT' hA hn h n2
  have key := evidence_same_moments hprior (A := A) (B := B) (by simpa [A] using hne1) (by simpa [B] using hne2)
    hno.1 hno.2
  obtain ⟨h1, h2⟩ := h_children (c := c) (n := n) hu
  simp only [A, B] at key
  rw [h1, h2, ngMarginal_perm (planes_perm c.X c.y _ sp), ← h1, ← h2] at key
  rw [← Real.exp_add] at hs
  have h3 := hs.trans (Real.exp_le_exp.2 key)
  have he := Real.exp_pos (ngMarginal realFns prior ((hRowsAt c.X t n addr).map c.y))
  have h4 : (1 - c.hp.partitionPrior) / c.hp.partitionPrior * c.nDim ≤ 1 := by
    by_contra h4
    push Not at h4
    exact absurd h3 (not_le.2 (lt_mul_of_one_lt_left he h4))
  rw [div_mul_eq_mul_div, div_le_one hpp] at h4
  linarith

/-! ### Non-vacuity -/

theorem hSample_separates : Separates (hSampleReal 0).X (castHTree (hSampleHp 0) (hSampleTree 0)) (List.range 9) := by
  have e2 : (List.range 9).filter (fun i => 0 ≤ planeSide [((-4/5 : ℚ) : ℝ), ((3/5 : ℚ) : ℝ)]
      [((1/2 : ℚ) : ℝ), ((3/2 : ℚ) : ℝ)] ((hSampleReal 0).X i)) = [2, 5, 6, 7] := by
    simp [List.range_succ, planeSide, hSampleReal, castHCtx, hSampleCtx, hSampleX, List.filter]
    norm_num
  have e2' : (List.range 9).filter (fun i => 0 ≤ planeSide (castL [-4/5, 3/5]) (castL [1/2, 3/2])
      ((hSampleReal 0).X i)) = [2, 5, 6, 7] := e2
  refine ⟨?_, trivial, ?_, trivial, trivial⟩
  · simp [castSp, castL, List.range_succ, planeSide, hSampleReal, castHCtx, hSampleCtx, hSampleX]
    norm_num
  · have key : ∀ i ∈ [2, 5, 6, 7], planeSide (castL [3/5, 4/5]) (castL [1/2, 5/2]) ((hSampleReal 0).X i) ≠ 0 := by
      simp [castL, List.range_succ, planeSide, hSampleReal, castHCtx, hSampleCtx, hSampleX]
      norm_num
    rw [← e2'] at key
    exact key

/-- The hypotheses of `C50_off_plane_partial` hold for the root of the hyperplane sample: no row lies on its plane. -/
example : ∃ b : ℝ, (∃ i sp l c1 c2, castHTree (hSampleHp 0) (hSampleTree 0) = .split i sp l b c1 c2) ∧
    ∃ m : Nat, b = Real.log ((9 / 10) / (m * 2))
      + dirichletMarginal realFns (castL [1, 1])
        ((hRowsAt (hSampleReal 0).X (castHTree (hSampleHp 0) (hSampleTree 0)) 9 [false]).map (hSampleReal 0).y)
      + dirichletMarginal realFns (castL [1, 1])
        ((hRowsAt (hSampleReal 0).X (castHTree (hSampleHp 0) (hSampleTree 0)) 9 [true]).map (hSampleReal 0).y) := by
  have := C50_off_plane_partial (F := realFns) (c := hSampleReal 0) .classification realArith_euclidean hSampleReal_fit
    [] _ _ _ _ _ _ (nodeAt_nil _) (by rw [hRowsAt_root]; exact hSample_separates.1)
  rw [show (hSampleReal 0).hp.partitionPrior = 9 / 10 by norm_num [hSampleReal, castHCtx, castHp, hSampleCtx, hSampleHp],
    show ((hSampleReal 0).nDim : ℝ) = 2 by norm_num [hSampleReal, castHCtx, hSampleCtx], List.length_nil, zero_add,
    pow_one] at this
  exact ⟨_, ⟨_, _, _, _, _, rfl⟩, _, this⟩

/-- The hyperplane sample: two splits whose evidence is at least `(1/9 * 2) ^ 2` of the evidence without them. -/
example : let E := fun R : List Nat => dirichletEvidence (castL [1, 1]) (R.map hSampleLabel)
    (1 / 9 * 2) ^ 2 * E (List.range 9) ≤
      hLeavesEvidence E (hSampleReal 0).X (castHTree (hSampleHp 0) (hSampleTree 0)) (List.range 9) := by
  have e : (hSampleReal 0).hp.partitionPrior = 9 / 10 := by
    norm_num [hSampleReal, castHCtx, castHp, hSampleCtx, hSampleHp]
  have := (C111_classification (c := hSampleReal 0) rfl realArith_euclidean (by decide) (by decide) (by rw [e]; norm_num)
    (by rw [e]; norm_num) (prior := castL [1, 1]) ⟨by simp [castL], by simp [castL]⟩ (k := hSampleLabel)
    (fun i hi => ⟨hSampleLabel_lt i hi, congrFun (hSampleLabel_y 0) i⟩) hSampleReal_fit hSample_separates).1
  have e' : ((hSampleReal 0).nDim : ℝ) = 2 := by norm_num [hSampleReal, castHCtx, hSampleCtx]
  have e3 : leaves (castHTree (hSampleHp 0) (hSampleTree 0)) - 1 = 2 := rfl
  rw [e, e', e3] at this
  norm_num at this ⊢
  exact this

/-- Two rows with `partition_prior` 0.4: the children have different class frequencies. -/
example : frequencies 2 ((hRowsAt hEvenReal.X (castHTree hEvenHp hEvenTree) 2 [false]).map hEvenReal.y) ≠
    frequencies 2 ((hRowsAt hEvenReal.X (castHTree hEvenHp hEvenTree) 2 [true]).map hEvenReal.y) := by
  have e : hEvenReal.hp.partitionPrior = 2 / 5 := by norm_num [hEvenReal, castHCtx, castHp, hEvenCtx, hEvenHp]
  have e' : (hEvenReal.nDim : ℝ) = 1 := by norm_num [hEvenReal, castHCtx, hEvenCtx]
  refine C111_frequencies (c := hEvenReal) rfl realArith_euclidean (by decide) (by decide) (by rw [e]; norm_num)
    (by rw [e, e']; norm_num) (prior := castL [1, 1]) ⟨by simp [castL], by simp [castL]⟩ ?_ hEvenReal_fit
    [] _ _ _ _ _ _ (nodeAt_nil _) ?_
  · intro i hi
    refine ⟨i, by simpa [castL] using hi, ?_⟩
    interval_cases i <;> simp [hEvenReal, castHCtx, hEvenCtx]
  · rw [hRowsAt_root]
    simp [castSp, castL, List.range_succ, planeSide, hEvenReal, castHCtx, hEvenCtx]
    norm_num

/-- Two rows of a regression: any prior, any two targets. -/
example (p : NG ℝ) (hp : ProperNG p) (a b : ℝ) : ∃ t, hFitRoot (hReg2 p a b) (some p) 2 = .ok t ∧ leaves t = 2 ∧
    ((1 - regPP p a b) / regPP p a b) * ngEvidence p [a, b] ≤
      hLeavesEvidence (fun R : List Nat => ngEvidence p (R.map (hReg2 p a b).y)) (hReg2 p a b).X t [0, 1] := by
  obtain ⟨i, i1, i2, l, s, h⟩ := hReg2On_fit p a b (X := fun i _ => (i : ℝ)) (y := fun i => if i = 0 then a else b)
    (by simp) (by simp) rfl rfl
  refine ⟨_, h, rfl, ?_⟩
  have := C111_regression (c := hReg2 p a b) rfl realArith_euclidean (by decide) Nat.one_pos (regPP_pos p a b)
    (regPP_lt_one p a b) hp h ⟨by simp [List.range_succ, planeSide, hReg2, hReg2On]; norm_num, trivial, trivial⟩
  simpa [leaves, List.range_succ, hReg2, hReg2On] using this

/-- A prior under which the targets -1 and 1 are better explained by two leaves, so that a small
`partition_prior` suffices. -/
noncomputable def vaguePrior : NG ℝ := ⟨0, 2 / 99, 1 / 2, 1 / 101⟩

theorem vaguePrior_pp : regPP vaguePrior (-1) 1 < 1 / 2 := by
  have hD : 1 + ngMarginal realFns vaguePrior [-1, 1] - ngMarginal realFns vaguePrior [-1] -
      ngMarginal realFns vaguePrior [1] < 0 := by
    have g1 : Real.Gamma (3 / 2) = Real.sqrt Real.pi / 2 := by
      have := Real.Gamma_add_one (s := 1 / 2) (by norm_num)
      rw [Real.Gamma_one_half_eq] at this
      rw [show (3 / 2 : ℝ) = 1 / 2 + 1 by norm_num, this]; ring
    have hpi := Real.pi_pos
    have hsq : 0 < Real.sqrt Real.pi := Real.sqrt_pos.2 hpi
    have m1 (v : ℝ) (hv : v ^ 2 = 1) : ngMarginal realFns vaguePrior [v] = - Real.log (Real.sqrt Real.pi) +
        1 / 2 * Real.log (1 / 101) - Real.log (2 / 101) + Real.log (2 / 101) / 2 - 1 / 2 * Real.log (2 * Real.pi) := by
      have hb : (Spec.ngPosterior vaguePrior [v]).beta = 2 / 101 := by
        simp [Spec.ngPosterior, vaguePrior, mean, sqDev, hv]
        norm_num
      have ha : (Spec.ngPosterior vaguePrior [v]).alpha = 1 := by
        simp [Spec.ngPosterior, vaguePrior]
        norm_num
      have hk : vaguePrior.kappa / (Spec.ngPosterior vaguePrior [v]).kappa = 2 / 101 := by
        simp [Spec.ngPosterior, vaguePrior]
        norm_num
      unfold ngMarginal
      simp only
      rw [ha, hb, hk]
      simp only [realFns, vaguePrior]
      rw [Real.Gamma_one, Real.Gamma_one_half_eq, abs_of_pos hsq]
      simp
    have m2 : ngMarginal realFns vaguePrior [-1, 1] = Real.log (Real.sqrt Real.pi / 2) - Real.log (Real.sqrt Real.pi) +
        1 / 2 * Real.log (1 / 101) - 3 / 2 * Real.log (102 / 101) + Real.log (1 / 100) / 2 - Real.log (2 * Real.pi) := by
      have hb : (Spec.ngPosterior vaguePrior [-1, 1]).beta = 102 / 101 := by
        simp [Spec.ngPosterior, vaguePrior, mean, sqDev]
        norm_num
      have ha : (Spec.ngPosterior vaguePrior [-1, 1]).alpha = 3 / 2 := by
        simp [Spec.ngPosterior, vaguePrior]
        norm_num
      have hk : vaguePrior.kappa / (Spec.ngPosterior vaguePrior [-1, 1]).kappa = 1 / 100 := by
        simp [Spec.ngPosterior, vaguePrior]
        norm_num
      unfold ngMarginal
      simp only
      rw [ha, hb, hk]
      simp only [realFns, vaguePrior]
      rw [g1, Real.Gamma_one_half_eq, abs_of_pos hsq, abs_of_pos (by positivity)]
      simp
    rw [m1 (-1) (by norm_num), m1 1 (by norm_num), m2]
    have l1 : Real.log (Real.sqrt Real.pi / 2) = Real.log Real.pi / 2 - Real.log 2 := by
      rw [Real.log_div hsq.ne' (by norm_num), Real.log_sqrt hpi.le]
    have l2 : Real.log (2 / 101 : ℝ) = Real.log 2 - Real.log 101 := Real.log_div (by norm_num) (by norm_num)
    have l3 : Real.log (1 / 101 : ℝ) = - Real.log 101 := by rw [one_div, Real.log_inv]
    have l4 : Real.log (1 / 100 : ℝ) = - (2 * Real.log 10) := by
      rw [one_div, Real.log_inv, show (100 : ℝ) = 10 ^ 2 by norm_num, Real.log_pow]
      norm_num
    have l5 : 0 ≤ Real.log (102 / 101 : ℝ) := Real.log_nonneg (by norm_num)
    have l6 : Real.log 100 ≤ Real.log 101 := Real.log_le_log (by norm_num) (by norm_num)
    have l7 : Real.log 100 = 2 * Real.log 10 := by
      rw [show (100 : ℝ) = 10 ^ 2 by norm_num, Real.log_pow]
      norm_num
    have l8 : Real.log Real.pi ≤ Real.log 10 := Real.log_le_log hpi (by linarith [Real.pi_le_four])
    have l9 : 1 < Real.log 10 := by
      rw [Real.lt_log_iff_exp_lt (by norm_num)]
      linarith [Real.exp_one_lt_three]
    rw [Real.log_sqrt hpi.le, l1, l2, l3, l4]
    linarith
  unfold regPP
  simp only
  have he := Real.exp_lt_exp.2 hD
  rw [Real.exp_zero] at he
  have hp := Real.exp_pos (1 + ngMarginal realFns vaguePrior [-1, 1] - ngMarginal realFns vaguePrior [-1] -
      ngMarginal realFns vaguePrior [1])
  rw [div_lt_div_iff₀ (by linarith) (by norm_num)]
  linarith

example : ∃ t, hFitRoot (hReg2 vaguePrior (-1) 1) (some vaguePrior) 2 = .ok t ∧ leaves t = 2 ∧
    let A := (hRowsAt (hReg2 vaguePrior (-1) 1).X t 2 [false]).map (hReg2 vaguePrior (-1) 1).y
    let B := (hRowsAt (hReg2 vaguePrior (-1) 1).X t 2 [true]).map (hReg2 vaguePrior (-1) 1).y
    (mean A ≠ mean B ∨ sampleVariance A ≠ sampleVariance B) := by
  obtain ⟨i, i1, i2, l, s, h⟩ := hReg2On_fit vaguePrior (-1) 1 (X := fun i _ => (i : ℝ))
    (y := fun i => if i = 0 then -1 else 1) (by simp) (by simp) rfl rfl
  refine ⟨_, h, rfl, ?_⟩
  refine C111_moments (c := hReg2 vaguePrior (-1) 1) rfl realArith_euclidean (by decide) Nat.one_pos (regPP_pos _ _ _)
    ?_ ?_ h [] _ _ _ _ _ _ (nodeAt_nil _) ?_
  · have := vaguePrior_pp
    show regPP vaguePrior (-1) 1 * (((1 : Nat) : ℝ) + 1) < ((1 : Nat) : ℝ)
    push_cast
    linarith
  · unfold vaguePrior ProperNG; norm_num
  · rw [hRowsAt_root]
    simp [List.range_succ, planeSide, hReg2, hReg2On]
    norm_num

/-! ### Rows with the same coordinate -/

def hPileHp : Hyper ℚ := ⟨1/2, 0, false, 0⟩

/-- Eight rows on a line at two places. -/
def hPileCtx : HCtx ℚ (List ℚ) ℚ (List ℚ) where
  A := ratArith
  T := probTarget ℚ
  hp := hPileHp
  opt := listOpt false hTieVs
  budget := 3
  X := fun i _ => (([1, 1, 1, 1, 1, 1, 0, 0] : List ℚ).getD i 0)
  y := fun i => (([0, 0, 0, 0, 1, 1, 0, 0] : List ℚ).getD i 0)
  nDim := 1

/-- The code believes to have separated the classes: the score is that of six zeros against two ones. -/
def hPileTree : HNode ℚ ℚ (List ℚ) :=
  .split ⟨hPileHp, some [1, 1], 0, some 1, 8, [7, 3]⟩ ⟨[1], [1]⟩ (1/504) (1/42)
    (.leaf ⟨hPileHp, some [1, 1], 1, none, 2, [3, 1]⟩)
    (.leaf ⟨hPileHp, some [1, 1], 1, some 1, 6, [5, 3]⟩)

theorem hPile_fit : hFitRoot hPileCtx (some [1, 1]) 8 = .ok hPileTree := by decide +kernel

theorem hPileReal_fit : hFitRoot (castHCtx realArith hTieVs hPileCtx) (some (castL [1, 1])) 8 =
    .ok (castHTree hPileHp hPileTree) :=
  hFitRoot_cast hPileCtx hTieVs false rfl rfl rfl rfl ⟨by decide +kernel, by decide +kernel, by decide⟩
    (fun r hr q _ hq => hTie_normals r hr q hq) ⟨by simp, by decide +kernel⟩ (by decide) hPile_fit

/-- C111: the condition on the normals is needed.  With rows at the same place the code accepts a plane that lowers
the evidence, although its prior odds require an increase. -/
theorem C111_ties_matter : ∃ (c : HCtx ℝ (List ℝ) ℝ (List ℝ)) (n : Nat) (prior : List ℝ) (k : Nat → Nat)
    (t : HNode ℝ ℝ (List ℝ)), c.T = clsTarget realFns ∧ Euclidean c.A ∧ c.nDim = 1 ∧ c.hp.partitionPrior = 1 / 2 ∧
    ProperDirichlet prior ∧ (∀ i < n, k i < prior.length ∧ c.y i = (k i : ℝ)) ∧
    hFitRoot c (some prior) n = .ok t ∧ leaves t = 2 ∧
    let E := fun R : List Nat => dirichletEvidence prior (R.map k)
    hLeavesEvidence E c.X t (List.range n) < E (List.range n) := by
  have hprior : ProperDirichlet (castL [1, 1]) := ⟨by simp [castL], by simp [castL]⟩
  refine ⟨castHCtx realArith hTieVs hPileCtx, 8, castL [1, 1], fun i => [0, 0, 0, 0, 1, 1, 0, 0].getD i 0,
    castHTree hPileHp hPileTree, rfl, realArith_euclidean, rfl, by norm_num [castHCtx, castHp, hPileCtx, hPileHp],
    hprior, ?_, hPileReal_fit, rfl, ?_⟩
  · intro i hi
    interval_cases i <;> simp [castL, castHCtx, hPileCtx]
  · intro E
    have hE : ∀ R : List Nat, (∀ i ∈ R, i < 8) → E R = dirMult (castL [1, 1])
        ((R.map fun i => [0, 0, 0, 0, 1, 1, 0, 0].getD i 0).map fun (k : Nat) => (k : ℝ)) := by
      intro R hR
      show dirichletEvidence _ _ = _
      rw [dirichlet_evidence hprior, dirichletMarginal_real hprior.1 hprior.2, Real.exp_log (dirMult_pos hprior.1 hprior.2 _)]
      intro k hk
      obtain ⟨i, hi, rfl⟩ := List.mem_map.1 hk
      have := hR i hi
      interval_cases i <;> simp [castL]
    have f1 : (List.range 8).filter (fun i => planeSide (castL [1]) (castL [1])
        ((castHCtx realArith hTieVs hPileCtx).X i) < 0) = [6, 7] := by
      simp [List.range_succ, planeSide, castL, castHCtx, hPileCtx]
    have f2 : (List.range 8).filter (fun i => 0 ≤ planeSide (castL [1]) (castL [1])
        ((castHCtx realArith hTieVs hPileCtx).X i)) = [0, 1, 2, 3, 4, 5] := by
      simp [List.range_succ, planeSide, castL, castHCtx, hPileCtx, List.filter]
      norm_num
    show E ((List.range 8).filter _) * E ((List.range 8).filter _) < _
    have e1 : E [6, 7] = 1 / 3 := by
      rw [hE _ (by simp)]
      simp [dirMult, rising, count, castL, List.range, List.range.loop]
      norm_num
    have e2 : E [0, 1, 2, 3, 4, 5] = 1 / 105 := by
      rw [hE _ (by simp)]
      simp [dirMult, rising, count, castL, List.range, List.range.loop]
      norm_num
    have e3 : E (List.range 8) = 1 / 252 := by
      rw [hE _ (by simp)]
      simp [dirMult, rising, count, castL, List.range, List.range.loop]
      norm_num
    have : E ((List.range 8).filter (fun i => planeSide (castL [1]) (castL [1])
        ((castHCtx realArith hTieVs hPileCtx).X i) < 0)) * E ((List.range 8).filter (fun i => 0 ≤ planeSide (castL [1])
        (castL [1]) ((castHCtx realArith hTieVs hPileCtx).X i))) < E (List.range 8) := by
      rw [f1, f2, e1, e2, e3]
      norm_num
    exact this

end BT
