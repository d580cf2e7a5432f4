import Verif.Lemmas.MaxLikList
import Verif.Props.EvidenceFit

/-!
# Scores of classification trees and maximum likelihood: C94, C95
-/

namespace BT
open Spec

/-! ## C94: marginal against maximal likelihood -/

theorem frequencies_nonneg (m : Nat) (ys : List ℝ) (j : Fin m) : 0 ≤ frequencies m ys j := by
  unfold frequencies
  positivity

theorem frequencies_pos {m : Nat} {ys : List ℝ} {j : Fin m} (h : count ys j ≠ 0) : 0 < frequencies m ys j := by
  have h1 : 0 < count ys j := Nat.pos_of_ne_zero h
  have h2 : count ys j ≤ ys.length := List.length_filter_le _ _
  have h3 : (0 : ℝ) < (count ys j : ℝ) := by exact_mod_cast h1
  have h4 : (0 : ℝ) < (ys.length : ℝ) := by exact_mod_cast lt_of_lt_of_le h1 h2
  exact div_pos h3 h4

theorem frequencies_sum {m : Nat} {ys : List ℝ} (hy : LabelsBelow m ys) (hne : ys ≠ []) :
    ∑ j, frequencies m ys j = 1 := by
  unfold frequencies
  rw [← Finset.sum_div, ← Nat.cast_sum, sum_counts hy]
  exact div_self (by exact_mod_cast (List.length_pos_iff.2 hne).ne')

/-- C94: the relative frequencies are class probabilities, no class probabilities make the labels more
likely, and only they reach the maximum. -/
theorem C94_maximum {m : Nat} {ys : List ℝ} (hy : LabelsBelow m ys) (hne : ys ≠ []) :
    ((∀ j, 0 ≤ frequencies m ys j) ∧ ∑ j, frequencies m ys j = 1 ∧
      (∀ j : Fin m, count ys j ≠ 0 → 0 < frequencies m ys j) ∧
      labelLogLik (frequencies m ys) ys = maxLogLik m ys) ∧
    ∀ θ : Fin m → ℝ, (∀ j, 0 ≤ θ j) → ∑ j, θ j = 1 → (∀ j : Fin m, count ys j ≠ 0 → 0 < θ j) →
      labelLogLik θ ys ≤ maxLogLik m ys ∧ (labelLogLik θ ys = maxLogLik m ys → θ = frequencies m ys) := by
  refine ⟨⟨frequencies_nonneg m ys, frequencies_sum hy hne, fun j => frequencies_pos, rfl⟩, fun θ h0 h1 hpos => ?_⟩
  have e : maxLogLik m ys = ∑ j : Fin m, (count ys j : ℝ) * Real.log ((count ys j : ℝ) /
      ((∑ i : Fin m, count ys i : ℕ) : ℝ)) := by
    rw [sum_counts hy]
    rfl
  rw [e]
  refine ⟨gibbs (fun j : Fin m => count ys j) θ h0 hpos h1.le, fun heq => ?_⟩
  by_contra hneq
  have hex : ∃ j, θ j ≠ (count ys j : ℝ) / ((∑ i : Fin m, count ys i : ℕ) : ℝ) := by
    by_contra hall
    push Not at hall
    refine hneq (funext fun j => ?_)
    rw [hall j, sum_counts hy]
    rfl
  exact absurd heq (gibbs_strict (fun j : Fin m => count ys j) θ h0 hpos h1.le (by
    rw [sum_counts hy]; exact List.length_pos_iff.2 hne) hex).ne

/-- C94: the score of not splitting is the log prior probability of not splitting plus the maximal
log-likelihood of the labels, less an amount that grows with the logarithm of the number of labels only. -/
theorem C94_stay {p : List ℝ} (h : ProperDirichlet p) {ys : List ℝ} (hy : LabelsBelow p.length ys) (hne : ys ≠ [])
    (pp : ℝ) (lv : Nat) :
    Real.log (1 - pp ^ (lv + 1)) + maxLogLik p.length ys - slack p ys ≤
      (clsTarget realFns).logNoSplit pp lv ys p ∧
    (clsTarget realFns).logNoSplit pp lv ys p ≤ Real.log (1 - pp ^ (lv + 1)) + maxLogLik p.length ys := by
  rw [(CodeTarget.classification (F := realFns)).textbook.stay pp lv ys p hne]
  have h1 := dirichletMarginal_le h hy
  have h2 := dirichletMarginal_ge h hy
  have e : realFns.log (1 - pp ^ (lv + 1)) = Real.log (1 - pp ^ (lv + 1)) := rfl
  rw [e]
  exact ⟨by linarith, by linarith⟩

/-- C94: the same for the score of a split behind the first `k` labels. -/
theorem C94_split {p : List ℝ} (h : ProperDirichlet p) {ys : List ℝ} (hy : LabelsBelow p.length ys) (pp : ℝ)
    (lv nd : Nat) (si : List Nat) (hsi : si.Pairwise (· < ·)) (hlt : ∀ k ∈ si, 1 ≤ k ∧ k < ys.length) (i k : Nat)
    (hk : si[i]? = some k) :
    ∃ s, ((clsTarget realFns).logSplit pp lv ys p nd si)[i]? = some s ∧
      Real.log (pp ^ (lv + 1) / ((si.length : ℝ) * (nd : ℝ))) + maxLogLik p.length (ys.take k) +
        maxLogLik p.length (ys.drop k) - slack p (ys.take k) - slack p (ys.drop k) ≤ s ∧
      s ≤ Real.log (pp ^ (lv + 1) / ((si.length : ℝ) * (nd : ℝ))) + maxLogLik p.length (ys.take k) +
        maxLogLik p.length (ys.drop k) := by
  rw [(CodeTarget.classification (F := realFns)).textbook.lawful.logSplit_eq pp lv ys p nd si hlt hsi]
  refine ⟨_, by rw [List.getElem?_map, hk]; rfl, ?_⟩
  have hA : LabelsBelow p.length (ys.take k) := fun v hv => hy v (List.mem_of_mem_take hv)
  have hB : LabelsBelow p.length (ys.drop k) := fun v hv => hy v (List.mem_of_mem_drop hv)
  have h1 := dirichletMarginal_le h hA
  have h2 := dirichletMarginal_ge h hA
  have h3 := dirichletMarginal_le h hB
  have h4 := dirichletMarginal_ge h hB
  have e : ∀ x, realFns.log x = Real.log x := fun _ => rfl
  simp only [e]
  exact ⟨by linarith, by linarith⟩

/-- Three labels of class 0 and one of class 1 under the uniform prior: the evidence is 1/20, the largest
likelihood 27/256. -/
example : dirMult [1, 1] [0, 0, 1, 0] = (1 / 20 : ℚ) ∧ LabelsBelow 2 [0, 0, 1, 0] ∧
    (3 * Real.log (3 / 4) + Real.log (1 / 4)) = maxLogLik 2 [0, 0, 1, 0] := by
  refine ⟨by decide +kernel, ?_, ?_⟩
  · intro v hv
    simp only [List.mem_cons, List.not_mem_nil, or_false] at hv
    rcases hv with rfl | rfl | rfl | rfl
    · exact ⟨0, by omega, by simp⟩
    · exact ⟨0, by omega, by simp⟩
    · exact ⟨1, by omega, by simp⟩
    · exact ⟨0, by omega, by simp⟩
  · unfold maxLogLik labelLogLik frequencies
    simp [Fin.sum_univ_two, count]

/-! ## C95: what the leaves of a tree leave unexplained -/

theorem maxLogLik_perm (m : Nat) {A B : List ℝ} (h : A.Perm B) : maxLogLik m A = maxLogLik m B := by
  unfold maxLogLik labelLogLik frequencies
  simp only [count_perm h, h.length_eq]

theorem labelLogLik_append {m : Nat} (θ : Fin m → ℝ) (A B : List ℝ) :
    labelLogLik θ (A ++ B) = labelLogLik θ A + labelLogLik θ B := by
  unfold labelLogLik
  rw [← Finset.sum_add_distrib]
  refine Finset.sum_congr rfl fun j _ => ?_
  rw [count_append]
  push_cast
  ring

/-- C95: describing two groups of labels separately never loses likelihood, and gains unless both have the
same relative class frequencies. -/
theorem C95_gain {m : Nat} {A B : List ℝ} (hA : LabelsBelow m A) (hB : LabelsBelow m B) (hA0 : A ≠ [])
    (hB0 : B ≠ []) :
    0 ≤ infoGain m A B ∧ (infoGain m A B = 0 ↔ frequencies m A = frequencies m B) := by
  have hAB : LabelsBelow m (A ++ B) := fun v hv => (List.mem_append.1 hv).elim (hA v) (hB v)
  have hAB0 : A ++ B ≠ [] := by simp [hA0]
  have hcA : ∀ j : Fin m, count A j ≠ 0 → 0 < frequencies m (A ++ B) j := fun j hj =>
    frequencies_pos (by rw [count_append]; omega)
  have hcB : ∀ j : Fin m, count B j ≠ 0 → 0 < frequencies m (A ++ B) j := fun j hj =>
    frequencies_pos (by rw [count_append]; omega)
  obtain ⟨a1, a2⟩ := (C94_maximum hA hA0).2 _ (frequencies_nonneg m _) (frequencies_sum hAB hAB0) hcA
  obtain ⟨b1, b2⟩ := (C94_maximum hB hB0).2 _ (frequencies_nonneg m _) (frequencies_sum hAB hAB0) hcB
  have e : maxLogLik m (A ++ B) = labelLogLik (frequencies m (A ++ B)) A + labelLogLik (frequencies m (A ++ B)) B :=
    labelLogLik_append _ _ _
  unfold infoGain
  rw [e]
  refine ⟨by linarith, fun h => ?_, fun h => ?_⟩
  · exact (a2 (by linarith)).symm.trans (b2 (by linarith))
  · have hlA : (0 : ℝ) < A.length := by exact_mod_cast List.length_pos_iff.2 hA0
    have hlB : (0 : ℝ) < B.length := by exact_mod_cast List.length_pos_iff.2 hB0
    have hfA : frequencies m (A ++ B) = frequencies m A := by
      funext j
      have hj := congrFun h j
      unfold frequencies at hj ⊢
      rw [div_eq_div_iff hlA.ne' hlB.ne'] at hj
      rw [count_append, List.length_append]
      push_cast
      rw [div_eq_div_iff (by positivity) hlA.ne']
      linarith
    have hfB : frequencies m (A ++ B) = frequencies m B := hfA.trans h
    rw [show labelLogLik (frequencies m (A ++ B)) A = maxLogLik m A from by rw [hfA]; rfl,
      show labelLogLik (frequencies m (A ++ B)) B = maxLogLik m B from by rw [hfB]; rfl]
    ring

/-- With `delta = 0` every node has the prior of the root. -/
theorem same_prior {K : Type} [Field K] [LinearOrder K] [IsStrictOrderedRing K] {F : Fns K} {P O : Type}
    {T : Target K P K O} {ml : P → List K → K} {post : P → List K → P} {hp : Hyper K} {argsort : List K → List Nat}
    {X : Nat → Nat → K} {y : Nat → K} {n nDim : Nat} {names : List String} {prior : P} {t : PNode K K K P}
    (hT : CodeTarget F T ml post) (hr : Training hp argsort n nDim) (hδ : hp.delta = 0)
    (h : perpFitRoot (exactOps K) T argsort hp (some prior) X y n nDim names = .ok t)
    {addr : List Bool} {u : PNode K K K P} (hu : nodeAt t addr = some u) : u.info.prior = some prior := by
  obtain ⟨par', pa', u0, hB, e, -, -, hs, -⟩ :=
    fit_nodeInv (c := exactCtx T (mlPair F ml) hp X y nDim names) (hr.valid hT) h
      (fun _ pa _ => pa = some prior) (fun par pa R R' hpa _ => by
        subst hpa
        unfold Ctx.childPrior Ctx.prior
        have : ¬ (exactCtx T (mlPair F ml) hp X y nDim names).hp.delta ≠ 0 := by simpa using hδ
        rw [if_neg this, hT.textbook.lawful.getPrior_some]) rfl hu
  rw [e, ← hs]
  cases hB <;> rfl

section
variable {hp : Hyper ℝ} {argsort : List ℝ → List Nat} {X : Nat → Nat → ℝ} {y : Nat → ℝ} {n nDim : Nat}
  {names : List String} {prior : List ℝ} {t : PNode ℝ ℝ ℝ (List ℝ)}

theorem cls_node_prior (hr : Training hp argsort n nDim) (hδ : 0 ≤ hp.delta) (hprior : ProperDirichlet prior)
    (h : perpFitRoot (exactOps ℝ) (clsTarget realFns) argsort hp (some prior) X y n nDim names = .ok t)
    {addr : List Bool} {u : PNode ℝ ℝ ℝ (List ℝ)} (hu : nodeAt t addr = some u) :
    ∃ p, u.info.prior = some p ∧ ProperDirichlet p ∧ p.length = prior.length ∧ (hp.delta = 0 → p = prior) := by
  have hT : CodeTarget realFns (clsTarget realFns) (dirichletMarginal realFns) dirichletPosterior := .classification
  have hstep : ∀ (ys q : List ℝ) (δ : ℝ), 0 ≤ δ → (ProperDirichlet q ∧ q.length = prior.length) →
      ProperDirichlet ((clsTarget realFns).posterior ys q δ) ∧
        ((clsTarget realFns).posterior ys q δ).length = prior.length := by
    intro ys q δ h0 ⟨⟨hq1, hq2⟩, hq3⟩
    show ProperDirichlet (clsPosterior ys q δ) ∧ (clsPosterior ys q δ).length = _
    unfold clsPosterior
    split
    · exact ⟨⟨hq1, hq2⟩, hq3⟩
    · refine ⟨⟨fun h0 => hq1 ?_, fun a ha => ?_⟩, by simpa using hq3⟩
      · simpa using h0
      · obtain ⟨k, hk, rfl⟩ := List.mem_mapIdx.1 ha
        have := hq2 _ (List.getElem_mem hk)
        positivity
  obtain ⟨p', hp', hg, hlen⟩ := (fit_inv (c := exactCtx (clsTarget realFns)
    (mlPair realFns (dirichletMarginal realFns)) hp X y nDim names) (hr.valid hT) hr.someRow h
    (fun q => ProperDirichlet q ∧ q.length = prior.length) ⟨hprior, rfl⟩
    (fun _ _ _ q hq => hstep _ q _ zero_le_one hq) (fun _ _ _ _ q hq => hstep _ q _ hδ hq) addr _ hu).2.1 (.inl ⟨_, rfl⟩)
  refine ⟨p', hp', hg, hlen, fun h0 => ?_⟩
  have := same_prior hT hr h0 h hu
  exact Option.some.inj (hp'.symm.trans this)

theorem labels_map {m : Nat} {R : List Nat} (hl : ∀ i < n, ∃ k < m, y i = (k : ℝ)) (hR : ∀ i ∈ R, i < n) :
    LabelsBelow m (R.map y) := by
  intro v hv
  obtain ⟨i, hi, rfl⟩ := List.mem_map.1 hv
  exact hl i (hR i hi)

theorem rowsAt_lt {K S P : Type} [LT K] [DecidableLT K] {X : Nat → Nat → K} {t : PNode K S K P} {n : Nat}
    {addr : List Bool} : ∀ i ∈ rowsAt X t n addr, i < n :=
  fun _ hi => List.mem_range.1 (List.mem_filter.1 hi).1

theorem sides_perm (R : List Nat) (d : Nat) (a : ℝ) :
    ((R.filter fun i => X i d ≤ a).map y ++ (R.filter fun i => a < X i d).map y).Perm (R.map y) := by
  rw [← List.map_append]
  apply List.Perm.map
  have e : (R.filter fun i => decide (a < X i d)) = R.filter fun i => !decide (X i d ≤ a) :=
    List.filter_congr fun i _ => by rw [← decide_not]; simp only [not_le]
  rw [e]
  exact List.filter_append_perm _ R

/-- C95: in the leaves of an unpruned classification tree nothing is left to be gained beyond a logarithmic
amount.  For every cut of the rows of a leaf that the code may choose, the gain in maximal log-likelihood is
at most the log prior odds against the cut plus two terms growing with the logarithm of the number of rows. -/
theorem C95_leaf (hr : Training hp argsort n nDim) (hpr : hp.prune = false) (hδ : 0 ≤ hp.delta)
    (hprior : ProperDirichlet prior) (hl : ∀ i < n, ∃ k < prior.length, y i = (k : ℝ))
    (h : perpFitRoot (exactOps ℝ) (clsTarget realFns) argsort hp (some prior) X y n nDim names = .ok t)
    (addr : List Bool) (i : Info ℝ (List ℝ)) (hu : nodeAt t addr = some (.leaf i)) :
    let R := rowsAt X t n addr
    let q := hp.partitionPrior ^ (addr.length + 1)
    ∃ p, i.prior = some p ∧ (hp.delta = 0 → p = prior) ∧
      (R.length = 1 ∨ (∀ j ∈ R, ∀ k ∈ R, y j = y k) ∨
        ∀ d < nDim, ∀ a c, IsCut hp.splitPrecision X R d a c →
          infoGain prior.length ((R.filter fun i => X i d ≤ a).map y) ((R.filter fun i => a < X i d).map y) ≤
            Real.log (1 - q) - Real.log (q / ((cutCount hp.splitPrecision X R d : ℝ) * (nDim : ℝ))) +
              slack p ((R.filter fun i => X i d ≤ a).map y) + slack p ((R.filter fun i => a < X i d).map y)) := by
  intro R q
  have hT : CodeTarget realFns (clsTarget realFns) (dirichletMarginal realFns) dirichletPosterior := .classification
  obtain ⟨p, hp1, hp2, hp3, hp4⟩ := cls_node_prior hr hδ hprior h hu
  refine ⟨p, hp1, hp4, ?_⟩
  rcases C14_closed hT hr hpr h addr i hu with g | g | ⟨p', hp', g⟩
  · exact .inl g
  · exact .inr (.inl g)
  · refine .inr (.inr fun d hd a c hac => ?_)
    have hpe : p' = p := Option.some.inj (hp'.symm.trans hp1)
    subst hpe
    have hg := g d hd a c hac
    unfold perpCutScore stayScore at hg
    have hRn : ∀ i ∈ R, i < n := rowsAt_lt
    have hL : ∀ f : Nat → Bool, LabelsBelow p'.length ((R.filter f).map y) := fun f =>
      hp3 ▸ labels_map hl fun i hi => hRn i (List.mem_filter.1 hi).1
    have hRl : LabelsBelow p'.length (R.map y) := hp3 ▸ labels_map hl hRn
    have h1 := dirichletMarginal_ge hp2 (hL fun i => X i d ≤ a)
    have h2 := dirichletMarginal_ge hp2 (hL fun i => a < X i d)
    have h3 := dirichletMarginal_le hp2 hRl
    unfold infoGain
    rw [maxLogLik_perm _ (sides_perm R d a), ← hp3]
    have e : ∀ x, realFns.log x = Real.log x := fun _ => rfl
    simp only [e] at hg
    show _ ≤ Real.log (1 - hp.partitionPrior ^ (addr.length + 1)) - Real.log (hp.partitionPrior ^ (addr.length + 1) /
      ((cutCount hp.splitPrecision X R d : ℝ) * (nDim : ℝ))) + _ + _
    have hg' : Real.log (hp.partitionPrior ^ (addr.length + 1) / ((cutCount hp.splitPrecision X R d : ℝ) * (nDim : ℝ))) +
        dirichletMarginal realFns p' ((R.filter fun i => X i d ≤ a).map y) +
        dirichletMarginal realFns p' ((R.filter fun i => a < X i d).map y) ≤
        Real.log (1 - hp.partitionPrior ^ (addr.length + 1)) + dirichletMarginal realFns p' (R.map y) := hg
    linarith

/-- C95: a split is only made if the gain in maximal log-likelihood makes up for the log prior odds against
it, up to a logarithmic amount; it is the gain between the rows of the two children. -/
theorem C95_split (hr : Training hp argsort n nDim) (hδ : 0 ≤ hp.delta)
    (hprior : ProperDirichlet prior) (hl : ∀ i < n, ∃ k < prior.length, y i = (k : ℝ))
    (h : perpFitRoot (exactOps ℝ) (clsTarget realFns) argsort hp (some prior) X y n nDim names = .ok t)
    (addr : List Bool) (i : Info ℝ (List ℝ)) (sp : PSplit ℝ) (l b : ℝ) (c1 c2 : PNode ℝ ℝ ℝ (List ℝ))
    (hu : nodeAt t addr = some (.split i sp l b c1 c2)) :
    let R := rowsAt X t n addr
    let q := hp.partitionPrior ^ (addr.length + 1)
    ∃ p, i.prior = some p ∧ (hp.delta = 0 → p = prior) ∧
      Real.log (1 - q) - Real.log (q / ((cutCount hp.splitPrecision X R sp.dim : ℝ) * (nDim : ℝ))) -
          slack p (R.map y) <
        infoGain prior.length ((rowsAt X t n (addr ++ [false])).map y) ((rowsAt X t n (addr ++ [true])).map y) := by
  intro R q
  have hT : CodeTarget realFns (clsTarget realFns) (dirichletMarginal realFns) dirichletPosterior := .classification
  obtain ⟨p, hp1, hp2, hp3, hp4⟩ := cls_node_prior hr hδ hprior h hu
  refine ⟨p, hp1, hp4, ?_⟩
  obtain ⟨p', hp', g1, g2, -, ⟨a, c, hac, hv, hb⟩, -⟩ := C13_closed hT hr h addr i sp l b c1 c2 hu
  have hpe : p' = p := Option.some.inj (hp'.symm.trans hp1)
  subst hpe
  obtain ⟨r1, r2⟩ := C13_closed_children hT hr h addr i sp l b c1 c2 hu
  obtain ⟨-, -, hlt, -, hadj⟩ := hac
  have s1 : (rowsAt X t n addr).filter (fun j => decide (X j sp.dim < sp.value)) =
      (rowsAt X t n addr).filter fun j => decide (X j sp.dim ≤ a) := List.filter_congr fun j hj => by
    rw [decide_eq_decide, hv]
    rcases hadj j hj with h' | h'
    · exact ⟨fun _ => h', fun _ => by linarith⟩
    · exact ⟨fun h'' => by linarith, fun h'' => by linarith⟩
  have s2 : (rowsAt X t n addr).filter (fun j => decide (sp.value ≤ X j sp.dim)) =
      (rowsAt X t n addr).filter fun j => decide (a < X j sp.dim) := List.filter_congr fun j hj => by
    rw [decide_eq_decide, hv]
    rcases hadj j hj with h' | h'
    · exact ⟨fun h'' => by linarith, fun h'' => by linarith⟩
    · exact ⟨fun _ => by linarith, fun _ => by linarith⟩
  rw [r1, r2, s1, s2]
  rw [hb, g1] at g2
  unfold perpCutScore stayScore at g2
  have hRn : ∀ i ∈ R, i < n := rowsAt_lt
  have hL : ∀ f : Nat → Bool, LabelsBelow p'.length ((R.filter f).map y) := fun f =>
    hp3 ▸ labels_map hl fun i hi => hRn i (List.mem_filter.1 hi).1
  have hRl : LabelsBelow p'.length (R.map y) := hp3 ▸ labels_map hl hRn
  have h1 := dirichletMarginal_le hp2 (hL fun i => X i sp.dim ≤ a)
  have h2 := dirichletMarginal_le hp2 (hL fun i => a < X i sp.dim)
  have h3 := dirichletMarginal_ge hp2 hRl
  have e : ∀ x, realFns.log x = Real.log x := fun _ => rfl
  simp only [e] at g2
  unfold infoGain
  rw [maxLogLik_perm _ (sides_perm R sp.dim a), ← hp3]
  have g2' : Real.log (1 - q) + dirichletMarginal realFns p' (R.map y) <
      Real.log (q / ((cutCount hp.splitPrecision X R sp.dim : ℝ) * (nDim : ℝ))) +
        dirichletMarginal realFns p' ((R.filter fun i => X i sp.dim ≤ a).map y) +
        dirichletMarginal realFns p' ((R.filter fun i => a < X i sp.dim).map y) := g2
  linarith

end

end BT
