import Verif.Lemmas.SameFreq
import Verif.Props.Copies

/-!
# Cuts that do not change the class frequencies are not made: C97
-/

namespace BT
open Spec

/-- C97: for labels with the same class frequencies on both sides, the evidence of both sides together is at
least the product of their evidences, for every prior. -/
theorem C97_joint {p : List ℝ} (h : ProperDirichlet p) {A B : List ℝ} (hA : LabelsBelow p.length A)
    (hB : LabelsBelow p.length B) (hA0 : A ≠ []) (hB0 : B ≠ [])
    (hf : frequencies p.length A = frequencies p.length B) :
    dirMult p A * dirMult p B ≤ dirMult p (A ++ B) := by
  have := evidence_same_freq h hA hB hA0 hB0 hf
  rw [dirichletMarginal_real h.1 h.2, dirichletMarginal_real h.1 h.2, dirichletMarginal_real h.1 h.2,
    ← Real.log_mul (dirMult_pos h.1 h.2 _).ne' (dirMult_pos h.1 h.2 _).ne'] at this
  exact (Real.log_le_log_iff (mul_pos (dirMult_pos h.1 h.2 _) (dirMult_pos h.1 h.2 _)) (dirMult_pos h.1 h.2 _)).1 this

/-- One label of each class on both sides under the uniform prior: 1/36 apart, 1/30 together. -/
example : dirMult [1, 1] [0, 1] * dirMult [1, 1] [1, 0] = (1 / 36 : ℚ) ∧ dirMult [1, 1] [0, 1, 1, 0] = (1 / 30 : ℚ) := by
  constructor <;> (simp [dirMult, count, rising, List.range_succ]; norm_num)

theorem dirichletMarginal_perm {p A B : List ℝ} (h : A.Perm B) :
    dirichletMarginal realFns p A = dirichletMarginal realFns p B := by
  unfold dirichletMarginal dirichletPosterior
  simp only [count_perm h]

theorem frequencies_copies {m k : Nat} (hk : 0 < k) (ys : List ℝ) : frequencies m (copies k ys) = frequencies m ys := by
  funext j
  unfold frequencies
  rw [count_copies, length_copies]
  push_cast
  exact mul_div_mul_left _ _ (by exact_mod_cast hk.ne')

section
variable {hp : Hyper ℝ} {argsort : List ℝ → List Nat} {X : Nat → Nat → ℝ} {y : Nat → ℝ} {n nDim : Nat}
  {names : List String} {prior : List ℝ} {t : PNode ℝ ℝ ℝ (List ℝ)}

/-- The rows of the two children, in terms of the cut. -/
theorem split_sides {R : List Nat} {d : Nat} {a c v : ℝ} (hac : IsCut hp.splitPrecision X R d a c)
    (hv : v = (a + c) / 2) :
    R.filter (fun j => decide (X j d < v)) = R.filter (fun j => decide (X j d ≤ a)) ∧
    R.filter (fun j => decide (v ≤ X j d)) = R.filter (fun j => decide (a < X j d)) := by
  obtain ⟨-, -, hlt, -, hadj⟩ := hac
  refine ⟨List.filter_congr fun j hj => ?_, List.filter_congr fun j hj => ?_⟩
  · rw [decide_eq_decide, hv]
    rcases hadj j hj with h' | h'
    · exact ⟨fun _ => h', fun _ => by linarith⟩
    · exact ⟨fun h'' => by linarith, fun h'' => by linarith⟩
  · rw [decide_eq_decide, hv]
    rcases hadj j hj with h' | h'
    · exact ⟨fun h'' => by linarith, fun h'' => by linarith⟩
    · exact ⟨fun _ => by linarith, fun _ => by linarith⟩

/-- C97: a split whose children have the same class frequencies is only made if its prior probability is
larger than that of not splitting. -/
theorem C97_split (hr : Training hp argsort n nDim) (hδ : 0 ≤ hp.delta) (hpp : 0 < hp.partitionPrior)
    (hprior : ProperDirichlet prior)
    (hl : ∀ i < n, ∃ k < prior.length, y i = (k : ℝ))
    (h : perpFitRoot (exactOps ℝ) (clsTarget realFns) argsort hp (some prior) X y n nDim names = .ok t)
    (addr : List Bool) (i : Info ℝ (List ℝ)) (sp : PSplit ℝ) (l b : ℝ) (c1 c2 : PNode ℝ ℝ ℝ (List ℝ))
    (hu : nodeAt t addr = some (.split i sp l b c1 c2)) :
    let q := hp.partitionPrior ^ (addr.length + 1)
    frequencies prior.length ((rowsAt X t n (addr ++ [false])).map y) ≠
        frequencies prior.length ((rowsAt X t n (addr ++ [true])).map y) ∨
      1 - q < q / ((cutCount hp.splitPrecision X (rowsAt X t n addr) sp.dim : ℝ) * (nDim : ℝ)) := by
  intro q
  by_contra hno
  push Not at hno
  obtain ⟨hf, hq⟩ := hno
  have hT : CodeTarget realFns (clsTarget realFns) (dirichletMarginal realFns) dirichletPosterior := .classification
  obtain ⟨p, hp1, hp2, hp3, hp4⟩ := cls_node_prior hr hδ hprior h hu
  obtain ⟨p', hp', g1, g2, hdim, ⟨a, c, hac, hv, hb⟩, -⟩ := C13_closed hT hr h addr i sp l b c1 c2 hu
  have hpe : p' = p := Option.some.inj (hp'.symm.trans hp1)
  subst hpe
  obtain ⟨r1, r2⟩ := C13_closed_children hT hr h addr i sp l b c1 c2 hu
  obtain ⟨s1, s2⟩ := split_sides hac hv
  rw [r1, r2, s1, s2] at hf
  rw [hb, g1] at g2
  unfold perpCutScore stayScore at g2
  set R := rowsAt X t n addr with hR
  have hRn : ∀ i ∈ R, i < n := rowsAt_lt
  have hL : ∀ f : Nat → Bool, LabelsBelow p'.length ((R.filter f).map y) := fun f =>
    hp3 ▸ labels_map hl fun i hi => hRn i (List.mem_filter.1 hi).1
  have hcc := cutCount_pos hr hac
  obtain ⟨⟨i1, hi1, e1⟩, ⟨j1, hj1, f1⟩, hlt, -, hadj⟩ := id hac
  have hA0 : (R.filter fun i => decide (X i sp.dim ≤ a)).map y ≠ [] :=
    List.ne_nil_of_mem (List.mem_map_of_mem (List.mem_filter.2 ⟨hi1, by simp [e1]⟩))
  have hB0 : (R.filter fun i => decide (a < X i sp.dim)).map y ≠ [] :=
    List.ne_nil_of_mem (List.mem_map_of_mem (List.mem_filter.2 ⟨hj1, by simpa [f1] using hlt⟩))
  have key := evidence_same_freq hp2 (hL fun i => X i sp.dim ≤ a) (hL fun i => a < X i sp.dim) hA0 hB0 (by
    rw [hp3]; exact hf)
  rw [dirichletMarginal_perm (sides_perm R sp.dim a)] at key
  have hq0 : 0 < q := pow_pos hpp _
  have hlog : Real.log (q / ((cutCount hp.splitPrecision X R sp.dim : ℝ) * (nDim : ℝ))) ≤ Real.log (1 - q) := by
    apply Real.log_le_log _ hq
    have h1 : (0 : ℝ) < cutCount hp.splitPrecision X R sp.dim := by exact_mod_cast hcc
    have h2 : (0 : ℝ) < nDim := by exact_mod_cast lt_of_le_of_lt (Nat.zero_le _) hdim
    positivity
  have g2' : Real.log (1 - q) + dirichletMarginal realFns p' (R.map y) <
      Real.log (q / ((cutCount hp.splitPrecision X R sp.dim : ℝ) * (nDim : ℝ))) +
        dirichletMarginal realFns p' ((R.filter fun i => X i sp.dim ≤ a).map y) +
        dirichletMarginal realFns p' ((R.filter fun i => a < X i sp.dim).map y) := g2
  linarith

/-- C97: with a partition prior of at most 1/2 the children of every split have different class frequencies. -/
theorem C97_half (hr : Training hp argsort n nDim) (hδ : 0 ≤ hp.delta) (hpp : 0 < hp.partitionPrior)
    (hpp1 : hp.partitionPrior ≤ 1 / 2) (hprior : ProperDirichlet prior)
    (hl : ∀ i < n, ∃ k < prior.length, y i = (k : ℝ))
    (h : perpFitRoot (exactOps ℝ) (clsTarget realFns) argsort hp (some prior) X y n nDim names = .ok t)
    (addr : List Bool) (i : Info ℝ (List ℝ)) (sp : PSplit ℝ) (l b : ℝ) (c1 c2 : PNode ℝ ℝ ℝ (List ℝ))
    (hu : nodeAt t addr = some (.split i sp l b c1 c2)) :
    frequencies prior.length ((rowsAt X t n (addr ++ [false])).map y) ≠
      frequencies prior.length ((rowsAt X t n (addr ++ [true])).map y) := by
  rcases C97_split hr hδ hpp hprior hl h addr i sp l b c1 c2 hu with g | g
  · exact g
  · exfalso
    have hT : CodeTarget realFns (clsTarget realFns) (dirichletMarginal realFns) dirichletPosterior := .classification
    obtain ⟨p', -, -, -, hdim, ⟨a, c, hac, -, -⟩, -⟩ := C13_closed hT hr h addr i sp l b c1 c2 hu
    have hcc := cutCount_pos hr hac
    have h1 : (1 : ℝ) ≤ cutCount hp.splitPrecision X (rowsAt X t n addr) sp.dim := by exact_mod_cast hcc
    have h2 : (1 : ℝ) ≤ nDim := by exact_mod_cast lt_of_le_of_lt (Nat.zero_le _) hdim
    have hq0 : 0 < hp.partitionPrior ^ (addr.length + 1) := pow_pos hpp _
    have hq1 : hp.partitionPrior ^ (addr.length + 1) ≤ 1 / 2 := by
      rw [pow_succ]
      have : hp.partitionPrior ^ addr.length ≤ 1 := pow_le_one₀ hpp.le (by linarith)
      nlinarith
    have h3 : hp.partitionPrior ^ (addr.length + 1) /
        ((cutCount hp.splitPrecision X (rowsAt X t n addr) sp.dim : ℝ) * (nDim : ℝ)) ≤
        hp.partitionPrior ^ (addr.length + 1) := div_le_self hq0.le (by nlinarith)
    linarith

/-- The two sides of the cut chosen at a node of a tree fitted to copies, in terms of the original rows. -/
theorem copies_split {k : Nat} (hr : Training hp argsort (k * n) nDim) (hδ : 0 ≤ hp.delta)
    (hpp : 0 < hp.partitionPrior) (hpp1 : hp.partitionPrior ≤ 1 / 2) (hprior : ProperDirichlet prior)
    (hl : ∀ i < n, ∃ k < prior.length, y i = (k : ℝ))
    (h : perpFitRoot (exactOps ℝ) (clsTarget realFns) argsort hp (some prior) (repeated n X) (repeated n y) (k * n)
      nDim names = .ok t) (addr : List Bool) (i : Info ℝ (List ℝ)) (sp : PSplit ℝ) (l b : ℝ)
    (c1 c2 : PNode ℝ ℝ ℝ (List ℝ)) (hu : nodeAt t addr = some (.split i sp l b c1 c2)) :
    ∃ d < nDim, ∃ a c, IsCut hp.splitPrecision X (rowsAt X t n addr) d a c ∧
      frequencies prior.length (((rowsAt X t n addr).filter fun i => X i d ≤ a).map y) ≠
        frequencies prior.length (((rowsAt X t n addr).filter fun i => a < X i d).map y) := by
  have hk : 0 < k := Nat.pos_of_mul_pos_right hr.someRow
  have hn : 0 < n := Nat.pos_of_mul_pos_left hr.someRow
  have hT : CodeTarget realFns (clsTarget realFns) (dirichletMarginal realFns) dirichletPosterior := .classification
  have hl' : ∀ i < k * n, ∃ c < prior.length, repeated n y i = (c : ℝ) := fun i _ => hl _ (Nat.mod_lt _ hn)
  have hne := C97_half hr hδ hpp hpp1 hprior hl' h addr i sp l b c1 c2 hu
  obtain ⟨p', -, -, -, hdim, ⟨a, c, hac, hv, -⟩, -⟩ := C13_closed hT hr h addr i sp l b c1 c2 hu
  obtain ⟨r1, r2⟩ := C13_closed_children hT hr h addr i sp l b c1 c2 hu
  obtain ⟨s1, s2⟩ := split_sides hac hv
  rw [r1, r2, s1, s2] at hne
  have hR' := rowsAt_repeated X t k n addr
  have hac' := (isCut_repeated hk hR' _ X _ a c).1 hac
  have eA : ((rowsAt (repeated n X) t (k * n) addr).filter fun i => repeated n X i sp.dim ≤ a).map (repeated n y) =
      copies k (((rowsAt X t n addr).filter fun i => X i sp.dim ≤ a).map y) :=
    map_repeated (filter_map_repeated hR' fun i => decide (X i sp.dim ≤ a)) y
  have eB : ((rowsAt (repeated n X) t (k * n) addr).filter fun i => a < repeated n X i sp.dim).map (repeated n y) =
      copies k (((rowsAt X t n addr).filter fun i => a < X i sp.dim).map y) :=
    map_repeated (filter_map_repeated hR' fun i => decide (a < X i sp.dim)) y
  rw [eA, eB, frequencies_copies hk, frequencies_copies hk] at hne
  exact ⟨sp.dim, hdim, a, c, hac', hne⟩

/-- C97: if no cut of the data set changes the class frequencies, no number of copies of the data set makes
the tree split. -/
theorem C97_uninformative {k : Nat} (hr : Training hp argsort (k * n) nDim) (hδ : 0 ≤ hp.delta)
    (hpp : 0 < hp.partitionPrior) (hpp1 : hp.partitionPrior ≤ 1 / 2) (hprior : ProperDirichlet prior)
    (hl : ∀ i < n, ∃ k < prior.length, y i = (k : ℝ))
    (hcut : ∀ d < nDim, ∀ a c, IsCut hp.splitPrecision X (List.range n) d a c →
      frequencies prior.length (((List.range n).filter fun i => X i d ≤ a).map y) =
        frequencies prior.length (((List.range n).filter fun i => a < X i d).map y))
    (h : perpFitRoot (exactOps ℝ) (clsTarget realFns) argsort hp (some prior) (repeated n X) (repeated n y) (k * n)
      nDim names = .ok t) : t.isLeaf = true := by
  cases ht : t with
  | leaf i => rfl
  | split i sp l b c1 c2 =>
    exfalso
    have hu : nodeAt t [] = some (.split i sp l b c1 c2) := by rw [nodeAt_nil, ht]
    obtain ⟨d, hd, a, c, hac, hne⟩ := copies_split hr hδ hpp hpp1 hprior hl h [] i sp l b c1 c2 hu
    have hR0 : rowsAt X t n [] = List.range n := by
      unfold rowsAt
      rw [List.filter_eq_self]
      intro i _
      rw [follows]
    rw [hR0] at hac hne
    exact hne (hcut d hd a c hac)

/-- C97: with a partition prior of at most 1/2 and enough copies of the data set, the nodes of the unpruned
tree that are not split are exactly those of which no cut changes the class frequencies. -/
theorem C97_exact (X : Nat → Nat → ℝ) (y : Nat → ℝ) (n nDim : Nat) (hpr : hp.prune = false) (hδ : hp.delta = 0)
    (hpp : 0 < hp.partitionPrior) (hpp1 : hp.partitionPrior ≤ 1 / 2)
    (hprior : ProperDirichlet prior) (hl : ∀ i < n, ∃ c < prior.length, y i = (c : ℝ)) :
    ∃ N : Nat, ∀ (k : Nat) (argsort : List ℝ → List Nat) (names : List String) (t : PNode ℝ ℝ ℝ (List ℝ)), N ≤ k →
      Training hp argsort (k * n) nDim →
      perpFitRoot (exactOps ℝ) (clsTarget realFns) argsort hp (some prior) (repeated n X) (repeated n y) (k * n)
        nDim names = .ok t →
      ∀ (addr : List Bool) (u : PNode ℝ ℝ ℝ (List ℝ)), nodeAt t addr = some u →
        (u.isLeaf = true ↔ ∀ d < nDim, ∀ a c, IsCut hp.splitPrecision X (rowsAt X t n addr) d a c →
          frequencies prior.length (((rowsAt X t n addr).filter fun i => X i d ≤ a).map y) =
            frequencies prior.length (((rowsAt X t n addr).filter fun i => a < X i d).map y)) := by
  obtain ⟨N, hN⟩ := C96_learns X y n nDim hpr hδ hpp (by linarith) hprior hl
  refine ⟨N, fun k argsort names t hk hr h addr u hu => ⟨fun hleaf => ?_, fun hcut => ?_⟩⟩
  · cases u with
    | leaf i => exact hN k argsort names t hk hr h addr i hu
    | split i sp l b c1 c2 => cases hleaf
  · cases u with
    | leaf i => rfl
    | split i sp l b c1 c2 =>
      obtain ⟨d, hd, a, c, hac, hne⟩ := copies_split hr hδ.ge hpp hpp1 hprior hl h addr i sp l b c1 c2 hu
      exact absurd (hcut d hd a c hac) hne

end

/-- C97: the exclusive or of two features is never learnt, however often its four rows are repeated. -/
theorem C97_xor {hp : Hyper ℝ} {argsort : List ℝ → List Nat} {names : List String} {k : Nat}
    {t : PNode ℝ ℝ ℝ (List ℝ)} {a0 a1 : ℝ} (ha0 : 0 < a0) (ha1 : 0 < a1) (hr : Training hp argsort (k * 4) 2)
    (hδ : 0 ≤ hp.delta) (hpp : 0 < hp.partitionPrior) (hpp1 : hp.partitionPrior ≤ 1 / 2)
    (h : perpFitRoot (exactOps ℝ) (clsTarget realFns) argsort hp (some [a0, a1])
      (repeated 4 fun i d => if d = 0 then ((i % 2 : Nat) : ℝ) else ((i / 2 : Nat) : ℝ))
      (repeated 4 fun i => (((i % 2 + i / 2) % 2 : Nat) : ℝ)) (k * 4) 2 names = .ok t) : t.isLeaf = true := by
  refine C97_uninformative hr hδ hpp hpp1 (prior := [a0, a1]) ⟨by simp, by simp [ha0, ha1]⟩ ?_ ?_ h
  · intro i hi
    exact ⟨(i % 2 + i / 2) % 2, Nat.mod_lt _ two_pos, rfl⟩
  · intro d hd a c hac
    have ha : a = 0 := by
      obtain ⟨⟨i, hi, rfl⟩, ⟨j, hj, rfl⟩, hlt, -, -⟩ := hac
      simp only [List.mem_range] at hi hj
      interval_cases d <;> interval_cases i <;> interval_cases j <;> first | (norm_num at hlt; done) | norm_num
    subst ha
    funext j
    have hc : ∀ j : Fin 2, frequencies 2 [(0 : ℝ), 1] j = frequencies 2 [(1 : ℝ), 0] j := by
      intro j
      unfold frequencies
      rw [count_perm (List.Perm.swap 1 0 [])]
      rfl
    interval_cases d
    · simpa [List.range_succ] using hc j
    · simpa [List.range_succ] using hc j

/-- The hypotheses can be met: a thousand copies. -/
example : ∃ t, perpFitRoot (exactOps ℝ) (clsTarget realFns) realSort ⟨1 / 2, 0, false, 0⟩ (some [1, 1])
      (repeated 4 fun i d => if d = 0 then ((i % 2 : Nat) : ℝ) else ((i / 2 : Nat) : ℝ))
      (repeated 4 fun i => (((i % 2 + i / 2) % 2 : Nat) : ℝ)) (1000 * 4) 2 ["a", "b"] = .ok t ∧ t.isLeaf = true := by
  have hT : CodeTarget realFns (clsTarget realFns) (dirichletMarginal realFns) dirichletPosterior := .classification
  have hr : Training (⟨1 / 2, 0, false, 0⟩ : Hyper ℝ) realSort (1000 * 4) 2 :=
    ⟨le_refl _, realSort_sorts, by norm_num, by norm_num, by norm_num⟩
  obtain ⟨t, ht⟩ := C12_closed hT hr (names := ["a", "b"]) _ _ (some [1, 1]) (by simp)
  exact ⟨t, ht, C97_xor one_pos one_pos hr (le_refl _) (by norm_num) (by norm_num) ht⟩

end BT
