import Verif.Lemmas.HyperTrim
import Verif.Props.HyperClosed
import Verif.Props.HyperTransform
import Verif.Props.Region
import Verif.Props.Regression

/-!
# Predictions and shape of hyperplane trees

The hyperplane versions of C02, C05, C06, C07, C11, C19, C20, C21, C24 and C25, for the two target models of the code
over the real numbers.
-/

namespace BT
open Spec

set_option linter.unusedSectionVars false

section
variable {P O : Type}

/-- C02 for hyperplane trees: every row reaches a leaf, and all three outputs are about this leaf. -/
theorem C02_hyperplane (T : Target ℝ P ℝ O) (t : HNode ℝ ℝ P) (Z : Nat → Nat → ℝ) (m i : Nat) (hi : i < m) :
    ∃ addr l, nodeAt t addr = some (.leaf l) ∧ descends t addr (Z i) = true ∧
      (predict hyperRouter T t Z m)[i]? = some (T.predictLeaf l.posterior) ∧
      (predictProba hyperRouter T t Z m)[i]? = some (some (T.posteriorMean l.posterior)) ∧
      (rawLeafData hyperRouter t Z m)[i]? = some (some (l.prior, l.posterior)) := by
  rcases C02_same_leaf _ hyper_exclusive T t Z m i hi with ⟨addr, l, h1, h2, h3⟩ | ⟨hno, -⟩
  · exact ⟨addr, l, h1, by rw [descends_eq]; exact h2, h3⟩
  · obtain ⟨l, hl⟩ := walk_total hyperRouter (Z i) (fun sp h0 => by
      rw [hyper_complementary, h0]; rfl) t
    obtain ⟨addr, ha, hp⟩ := (walk_iff _ _ _ _).1 hl
    rw [hno addr l ha] at hp; cases hp

/-- C02: what the two target models report about a leaf: the shares of the classes and the first of the largest; the
updated mean in both places. -/
theorem C02_reports {K : Type} [Field K] [LinearOrder K] (F : Fns K) (a : List K) (p : NG K) :
    (clsTarget F).posteriorMean a = a.map (· / a.sum) ∧ (regTarget F).posteriorMean p = p.mu ∧
    (regTarget F).predictLeaf p = p.mu ∧
    (a ≠ [] → ∃ (k : Nat) (v : K), (clsTarget F).predictLeaf a = (k : K) ∧ a[k]? = some v ∧ (∀ b ∈ a, b ≤ v) ∧
      ∀ j < k, ∀ b, a[j]? = some b → b < v) := by
  refine ⟨rfl, rfl, rfl, fun h => ?_⟩
  obtain ⟨v, h1, h2, h3⟩ := argmax_spec h
  exact ⟨argmax a, v, rfl, h1, h2, h3⟩

variable {F : Fns ℝ} {T : Target ℝ P ℝ O} {ml : P → List ℝ → ℝ} {post : P → List ℝ → P} {c : HCtx ℝ P ℝ O}
  {n : Nat} {prior : Option P} {t : HNode ℝ ℝ P}

theorem hyper_pos (hT : CodeTarget F c.T ml post) (hA : Euclidean c.A) (hn : 0 < n)
    (h : hFitRoot c prior n = .ok t) (addr : List Bool) (u : HNode ℝ ℝ P) (hu : nodeAt t addr = some u) :
    0 < u.info.nData := by
  rw [(C49_rows_routed_back hT.textbook.lawful hA.isArgsort hT.deltaZero h addr u hu).1]
  rcases List.eq_nil_or_concat addr with rfl | ⟨as, b, rfl⟩
  · unfold hRouted
    rw [List.filter_eq_self.2 (fun i _ => by cases t <;> rfl), List.length_range]
    exact hn
  · rw [List.concat_eq_append] at hu ⊢
    have hpar : ∃ v, nodeAt t as = some v ∧ v.isLeaf = false := by
      rw [nodeAt_append] at hu
      cases hv : nodeAt t as with
      | none => rw [hv] at hu; cases hu
      | some v =>
        refine ⟨v, rfl, ?_⟩
        cases v with
        | leaf i => rw [hv] at hu; cases b <;> cases hu
        | split => rfl
    obtain ⟨v, hv, hl⟩ := hpar
    have h3 := (C49_rows_routed_back hT.textbook.lawful hA.isArgsort hT.deltaZero h as v hv).2.2 hl
    cases b
    · exact List.length_pos_of_ne_nil h3.1
    · exact List.length_pos_of_ne_nil h3.2.1

theorem hyper_levelled (hT : CodeTarget F c.T ml post) (hA : Euclidean c.A) (h : hFitRoot c prior n = .ok t)
    (addr : List Bool) (u : HNode ℝ ℝ P) (hu : nodeAt t addr = some u) :
    u.info.hp = c.hp ∧ u.info.level = addr.length := by
  obtain ⟨par, pa, u0, hB, -, -, hi, -⟩ := hFit_node_prior hT.textbook.lawful hA.isArgsort hT.deltaZero h hu
  rw [hi]
  cases hB <;> exact ⟨rfl, rfl⟩

/-- C19 for hyperplane trees: every node has the constructor parameters and its depth as level. -/
theorem C19_hyperplane (hT : CodeTarget F c.T ml post) (hA : Euclidean c.A) (h : hFitRoot c prior n = .ok t)
    (addr : List Bool) (u : HNode ℝ ℝ P) (hu : nodeAt t addr = some u) :
    u.info.hp = c.hp ∧ u.info.level = addr.length := hyper_levelled hT hA h addr u hu

/-- C11 for hyperplane trees: both children of a split have rows, which add up to the rows of the split; the leaf
sizes add up to the number of training rows and bound the number of leaves and the depth. -/
theorem C11_hyperplane (hT : CodeTarget F c.T ml post) (hA : Euclidean c.A) (hn : 0 < n)
    (h : hFitRoot c prior n = .ok t) :
    (∀ addr i sp l b c1 c2, nodeAt t addr = some (.split i sp l b c1 c2) →
      i.nData = c1.info.nData + c2.info.nData ∧ 0 < c1.info.nData ∧ 0 < c2.info.nData) ∧
    (leafSizes t).sum = n ∧ (∀ k ∈ leafSizes t, 0 < k) ∧ t.getNLeaves ≤ n ∧ t.getDepth ≤ n - 1 := by
  have hpos := hyper_pos hT hA hn h
  have hrows := C49_rows_routed_back hT.textbook.lawful hA.isArgsort hT.deltaZero h
  have hsplit : ∀ addr i sp l b c1 c2, nodeAt t addr = some (.split i sp l b c1 c2) →
      i.nData = c1.info.nData + c2.info.nData ∧ 0 < c1.info.nData ∧ 0 < c2.info.nData := by
    intro addr i sp l b c1 c2 hu
    have h1 : nodeAt t (addr ++ [false]) = some c1 := by rw [nodeAt_append, hu]; simp [nodeAt]
    have h2 : nodeAt t (addr ++ [true]) = some c2 := by rw [nodeAt_append, hu]; simp [nodeAt]
    refine ⟨?_, hpos _ _ h1, hpos _ _ h2⟩
    rw [(hrows _ _ h1).1, (hrows _ _ h2).1]
    exact ((hrows _ _ hu).2.2 rfl).2.2
  have hsum : (leafSizes t).sum = n := by
    rw [leafSizes_sum fun addr i sp l b c1 c2 hu => (hsplit addr i sp l b c1 c2 hu).1,
      (hrows [] t (nodeAt_nil t)).1]
    simp [hRouted, passes]
  have hlp : ∀ k ∈ leafSizes t, 0 < k := by
    intro k hk
    obtain ⟨addr, i, hi, rfl⟩ := mem_leafSizes.1 hk
    exact hpos addr _ hi
  have hl : leaves t ≤ n := by
    rw [← leafSizes_length, ← hsum]; exact length_le_sum hlp
  refine ⟨hsplit, hsum, hlp, by rw [getNLeaves_eq]; exact hl, ?_⟩
  rw [getDepth_eq (fun addr u hu => by rw [(hyper_levelled hT hA h addr u hu).2]; omega)]
  have := height_lt_leaves t
  omega

/-- C25 for hyperplane trees. -/
theorem C25_hyperplane (hT : CodeTarget F c.T ml post) (hA : Euclidean c.A) (h : hFitRoot c prior n = .ok t) :
    t.getNLeaves = leaves t ∧ t.getDepth = height t ∧ t.getNLeaves ≤ 2 ^ t.getDepth ∧
    (splits t).length + 1 = t.getNLeaves ∧ (t.isLeaf = true ↔ t.getDepth = 0) := by
  rw [getNLeaves_eq, getDepth_eq (fun addr u hu => by rw [(hyper_levelled hT hA h addr u hu).2]; omega)]
  refine ⟨rfl, rfl, leaves_le_pow t, splits_length t, ?_⟩
  cases t <;> simp [Node.isLeaf, height]

/-- C21 for hyperplane trees. -/
theorem C21_hyperplane [DecidableEq O] (hT : CodeTarget F c.T ml post) (hA : Euclidean c.A) (hpr : c.hp.prune = true)
    (h : hFitRoot c prior n = .ok t) :
    FullyPruned c.T.predictLeaf t ∧ prune c.T.predictLeaf t = .ok t := by
  obtain ⟨t0, -, -, -, h1⟩ := hFitRoot_cutOff hT.textbook.lawful hA.isArgsort h
  rw [h1 hpr]
  exact ⟨merge_fullyPruned _ t0, by rw [prune_eq, merge_idem]⟩

end

/-! ## Pruned and unpruned fits -/

section
variable {K P S O : Type} [Field K] [LinearOrder K] [IsStrictOrderedRing K] [LinearOrder S] [Neg S]
  {c : HCtx K P S O} {n : Nat} {prior : Option P}

theorem SameStats.refl (i : Info K P) : SameStats i i := ⟨rfl, rfl, rfl, rfl⟩

theorem merge_trimmed {Sp : Type} {O : Type} [DecidableEq O] (pred : P → O) {t t' : Node Sp S K P}
    (h : Trimmed Eq t t') : Trimmed Eq (merge pred t) t' := by
  induction h with
  | leaf i t' h => exact .leaf i t' h
  | split i i' sp sp' l l' b b' c1 c2 c1' c2' h hsp h1 h2 ih1 ih2 =>
    have key : Trimmed Eq (.split i sp l b (merge pred c1) (merge pred c2)) (.split i' sp' l' b' c1' c2') :=
      .split _ _ _ _ _ _ _ _ _ _ _ _ h hsp ih1 ih2
    rw [Spec.merge]
    revert key
    generalize merge pred c1 = m1
    generalize merge pred c2 = m2
    intro key
    split
    · split
      · exact .leaf _ _ h
      · exact key
    · exact key

theorem Trimmed.passes {Sp V : Type} (rt : Router Sp V) {t t' : Node Sp S K P} (h : Trimmed Eq t t')
    (addr : List Bool) (u : Node Sp S K P) (hu : nodeAt t addr = some u) (x : V) :
    Spec.passes rt t addr x = Spec.passes rt t' addr x := by
  induction h generalizing addr with
  | leaf i t' h =>
    cases addr with
    | nil => cases t' <;> rfl
    | cons b bs => cases b <;> cases hu
  | split i i' sp sp' l l' b b' c1 c2 c1' c2' h hsp h1 h2 ih1 ih2 =>
    subst hsp
    cases addr with
    | nil => rfl
    | cons q bs =>
      cases q with
      | false => simp only [Spec.passes, ih1 bs hu, Bool.false_and]
      | true => simp only [Spec.passes, ih2 bs hu, Bool.not_true, Bool.false_and]

theorem unpruned_ready (b b' : Bool) :
    HReadier { c with hp := { c.hp with prune := b } } { c.hp with prune := b' } (fun _ => True) := by
  refine ⟨fun _ _ _ _ _ => trivial, fun p lv R st st' _ e1 e2 sp hb => ?_⟩
  have : st' = st := Except.ok.inj (e2.symm.trans e1)
  rw [this]
  exact hb

/-- C24 for hyperplane trees: the fit with `prune=True` is the fit with `prune=False` cut back: every node of it is a
node of the other at the same place with the same statistics, every plane of it is a plane of the other, and the same
rows reach it. -/
theorem C24_hyperplane {t0 t1 : HNode S K P}
    (h0 : hFitRoot { c with hp := { c.hp with prune := false } } prior n = .ok t0)
    (h1 : hFitRoot { c with hp := { c.hp with prune := true } } prior n = .ok t1) :
    CutBack Eq t1 t0 ∧ leaves t1 ≤ leaves t0 ∧ height t1 ≤ height t0 ∧
    ∀ addr u, nodeAt t1 addr = some u → ∀ x, passes hyperRouter t1 addr x = passes hyperRouter t0 addr x := by
  suffices Trimmed Eq t1 t0 from ⟨this.cutBack, this.leaves, this.height, this.passes hyperRouter⟩
  unfold hFitRoot at h0 h1
  cases e1 : hFit { c with hp := { c.hp with prune := true } } (n + 1) prior 0 (List.range n) with
  | error e => rw [e1] at h1; cases h1
  | ok u =>
    cases e0 : hFit { c with hp := { c.hp with prune := false } } (n + 1) prior 0 (List.range n) with
    | error e => rw [e0] at h0; cases h0
    | ok u' =>
      have key := hFit_trimmed (unpruned_ready true false) _ trivial e1 e0
      rw [e1] at h1
      rw [e0] at h0
      simp only [Bool.false_eq_true, if_false, if_true, prune_eq, Except.ok.injEq] at h0 h1
      rw [← h1, ← h0]
      exact merge_trimmed _ key

/-- The same problem with pruning switched on or off. -/
def hWithPrune (c : HCtx K P S O) (b : Bool) : HCtx K P S O := { c with hp := { c.hp with prune := b } }

theorem hWithPrune_fit (c : HCtx K P S O) (d : Bool) (fuel : Nat) (pa : Option P) (lv : Nat) (R : List Nat) :
    hFit (hWithPrune c d) fuel pa lv R = (hFit c fuel pa lv R).map (withHyper (hWithPrune c d).hp) := by
  induction fuel generalizing pa lv R with
  | zero => rfl
  | succ fuel ih =>
    have hq : ∀ p, hProblem (hWithPrune c d) p lv R = hProblem c p lv R := fun p => rfl
    have hT : (hWithPrune c d).T = c.T := rfl
    have hA : (hWithPrune c d).A = c.A := rfl
    have ho : (hWithPrune c d).opt = c.opt := rfl
    have hbu : (hWithPrune c d).budget = c.budget := rfl
    have hX : (hWithPrune c d).X = c.X := rfl
    have hy : (hWithPrune c d).y = c.y := rfl
    have hnd : (hWithPrune c d).nDim = c.nDim := rfl
    conv_lhs => unfold hFit
    conv_rhs => unfold hFit
    simp only [hq, hT, hA, ho, hbu, hX, hy, hnd, ih]
    cases hSolve c.A c.T (hProblem c (c.T.getPrior pa R.length c.nDim) lv R)
        (c.opt.solve (hProblem c (c.T.getPrior pa R.length c.nDim) lv R)) c.budget []
        (hInit (hProblem c (c.T.getPrior pa R.length c.nDim) lv R)) with
    | error e => rfl
    | ok st =>
      dsimp only
      cases st.best with
      | none => simp only [Except.map, withHyper, mapNode, mapInfo, Option.map_id, id]
      | some sp =>
        simp only
        generalize (R.filter fun i => hyperRouter.goes1 sp (c.X i)) = R1
        generalize (R.filter fun i => hyperRouter.goes2 sp (c.X i)) = R2
        have hchild : ∀ (R' : List Nat) (p0 p1 : P),
            (if R'.length > 1 ∧ (distinct (R'.map c.y)).length > 1 then
              (hFit c fuel (some p0) (lv + 1) R').map (withHyper (hWithPrune c d).hp)
            else .ok (.leaf (hChildInfo (hWithPrune c d) p0 (lv + 1) R'.length p1))) =
            (if R'.length > 1 ∧ (distinct (R'.map c.y)).length > 1 then
              hFit c fuel (some p0) (lv + 1) R'
            else .ok (.leaf (hChildInfo c p0 (lv + 1) R'.length p1))).map (withHyper (hWithPrune c d).hp) := by
          intro R' p0 p1
          split <;> rfl
        rw [hchild, hchild]
        by_cases hlen : R1.length > 0 ∧ R2.length > 0
        · rw [if_pos hlen, if_pos hlen]
          generalize (if R1.length > 1 ∧ (distinct (R1.map c.y)).length > 1 then
              hFit c fuel (some _) (lv + 1) R1 else _) = x1
          generalize (if R2.length > 1 ∧ (distinct (R2.map c.y)).length > 1 then
              hFit c fuel (some _) (lv + 1) R2 else _) = x2
          cases x1 with
          | error e => rfl
          | ok a =>
            cases x2 with
            | error e => rfl
            | ok b => simp only [Except.map, withHyper, mapNode, mapInfo, Option.map_id, id]
        · rw [if_neg hlen, if_neg hlen]
          simp only [Except.map, withHyper, mapNode, mapInfo, Option.map_id, id]

/-- C21 for hyperplane trees, from the unpruned fit: the fit with `prune=True` fails when the fit with `prune=False` fails,
with the same exception, and otherwise is that tree with all splits merged whose leaves predict the same (the nodes record
their own parameters). -/
theorem C21_hyper_fit (c : HCtx K P S O) (prior : Option P) (n : Nat) :
    hFitRoot (hWithPrune c true) prior n =
      (hFitRoot (hWithPrune c false) prior n).map
        fun t0 => merge c.T.predictLeaf (withHyper (hWithPrune c true).hp t0) := by
  have e : hWithPrune (hWithPrune c false) true = hWithPrune c true := rfl
  unfold hFitRoot
  rw [← e, hWithPrune_fit]
  cases hFit (hWithPrune c false) (n + 1) prior 0 (List.range n) with
  | error e => rfl
  | ok t =>
    simp only [Except.map]
    rw [if_pos (show (hWithPrune (hWithPrune c false) true).hp.prune = true from rfl),
      if_neg (by simp [hWithPrune]), prune_eq]
    rfl

end

/-! ## Classification -/

section
variable {F : Fns ℝ} {c : HCtx ℝ (List ℝ) ℝ (List ℝ)} {n : Nat} {prior : List ℝ} {t : HNode ℝ ℝ (List ℝ)}

theorem hyper_good (hcT : c.T = clsTarget F) (hA : Euclidean c.A) (hprior : GoodPrior prior)
    (h : hFitRoot c (some prior) n = .ok t) (addr : List Bool) (u : HNode ℝ ℝ (List ℝ)) (hu : nodeAt t addr = some u) :
    GoodPrior u.info.posterior ∧ u.info.posterior.length = prior.length := by
  have hT : CodeTarget F c.T (dirichletMarginal F) dirichletPosterior := by rw [hcT]; exact .classification
  have h2 := (C49_rows_routed_back hT.textbook.lawful hA.isArgsort hT.deltaZero h addr u hu).2.1
  rw [hPrior_root hT, hcT] at h2
  rw [h2]
  have hl := clsPosterior_length prior ((hRouted c t n addr).map c.y) 1
  refine ⟨⟨?_, clsPosterior_pos hprior.2 _ zero_le_one⟩, hl⟩
  rw [← List.length_pos_iff]
  show 0 < (clsPosterior _ _ _).length
  rw [hl, List.length_pos_iff]
  exact hprior.1

/-- C05 for hyperplane trees: every row of `predict_proba` is a probability vector with one strictly positive entry per
class. -/
theorem C05_hyperplane (hcT : c.T = clsTarget F) (hA : Euclidean c.A) (hprior : GoodPrior prior)
    (h : hFitRoot c (some prior) n = .ok t) (Z : Nat → Nat → ℝ) (m i : Nat) (hi : i < m) :
    ∃ p, (predictProba hyperRouter c.T t Z m)[i]? = some (some p) ∧
      p.length = prior.length ∧ (∀ a ∈ p, 0 < a ∧ a ≤ 1) ∧ p.sum = 1 := by
  obtain ⟨addr, l, ha, -, -, e2, -⟩ := C02_hyperplane c.T t Z m i hi
  obtain ⟨hg, hlen⟩ := hyper_good hcT hA hprior h addr _ ha
  have hs := listSum_pos hg.1 hg.2
  refine ⟨_, e2, ?_, ?_, ?_⟩
  · rw [hcT]; show (clsPosteriorMean _).length = _
    rw [clsPosteriorMean, List.length_map]; exact hlen
  · rw [hcT]; show ∀ a ∈ clsPosteriorMean l.posterior, _
    intro a ha
    obtain ⟨b, hb, rfl⟩ := List.mem_map.1 ha
    exact ⟨div_pos (hg.2 b hb) hs, (div_le_one hs).2 (le_sum_of_mem (fun a ha => (hg.2 a ha).le) hb)⟩
  · rw [hcT]; show (clsPosteriorMean l.posterior).sum = 1
    unfold clsPosteriorMean
    rw [list_sum_div]; exact div_self hs.ne'

/-- C06 for hyperplane trees: the predicted class is the smallest class of maximal probability. -/
theorem C06_hyperplane (hcT : c.T = clsTarget F) (hA : Euclidean c.A) (hprior : GoodPrior prior)
    (h : hFitRoot c (some prior) n = .ok t) (Z : Nat → Nat → ℝ) (m i : Nat) (hi : i < m) :
    ∃ (p : List ℝ) (k : Nat) (q : ℝ),
      (predictProba hyperRouter c.T t Z m)[i]? = some (some p) ∧
      (predict hyperRouter c.T t Z m)[i]? = some (k : ℝ) ∧ k < prior.length ∧
      p[k]? = some q ∧ (∀ a ∈ p, a ≤ q) ∧ ∀ j < k, ∀ a, p[j]? = some a → a < q := by
  obtain ⟨addr, l, ha, -, e1, e2, -⟩ := C02_hyperplane c.T t Z m i hi
  obtain ⟨hg, hlen⟩ := hyper_good hcT hA hprior h addr _ ha
  change GoodPrior l.posterior at hg
  change l.posterior.length = _ at hlen
  have hs := listSum_pos hg.1 hg.2
  obtain ⟨v, hv1, hv2, hv3⟩ := argmax_spec hg.1
  have em : c.T.posteriorMean l.posterior = clsPosteriorMean l.posterior := by rw [hcT]; rfl
  have ep : c.T.predictLeaf l.posterior = ((argmax l.posterior : Nat) : ℝ) := by rw [hcT]; rfl
  rw [em] at e2
  rw [ep] at e1
  refine ⟨_, argmax l.posterior, v / l.posterior.sum, e2, e1, ?_, ?_, ?_, ?_⟩
  · have := argmax_lt hg.1
    rw [hlen] at this; exact this
  · unfold clsPosteriorMean
    rw [List.getElem?_map, hv1]; rfl
  · intro a ha
    obtain ⟨b, hb, rfl⟩ := List.mem_map.1 ha
    exact div_le_div_of_nonneg_right (hv2 b hb) hs.le
  · intro j hj a ha
    unfold clsPosteriorMean at ha
    rw [List.getElem?_map] at ha
    cases hb : l.posterior[j]? with
    | none => rw [hb] at ha; cases ha
    | some b =>
      rw [hb] at ha; cases ha
      exact div_lt_div_of_pos_right (hv3 j hj b hb) hs

end

/-! ## Regression -/

section
variable {F : Fns ℝ} {c : HCtx ℝ (NG ℝ) ℝ ℝ} {n : Nat} {prior : Option (NG ℝ)} {t : HNode ℝ ℝ (NG ℝ)}

/-- C20 for hyperplane trees: all parameters of all nodes stay positive. -/
theorem C20_hyperplane (hcT : c.T = regTarget F) (hA : Euclidean c.A) (hn : 0 < n)
    (hprior : ∀ p, prior = some p → NGProper p) (h : hFitRoot c prior n = .ok t) (addr : List Bool)
    (u : HNode ℝ ℝ (NG ℝ)) (hu : nodeAt t addr = some u) : NGProper u.info.posterior := by
  have hT : CodeTarget F c.T (ngMarginal F) Spec.ngPosterior := by rw [hcT]; exact .regression
  have hQ : NGProper (c.T.getPrior prior n c.nDim) := by
    rw [hcT]
    cases hp : prior with
    | none => exact regGetPrior_proper n c.nDim
    | some p => exact hprior p hp
  obtain ⟨h1, h2, -⟩ := C49_rows_routed_back hT.textbook.lawful hA.isArgsort hT.deltaZero h addr u hu
  have hpos := hyper_pos hT hA hn h addr u hu
  rw [h1] at hpos
  rw [h2, hcT]
  rw [hcT] at hQ
  show NGProper (regPosterior _ _ _)
  rw [regPosterior, if_neg (by norm_num)]
  exact ngPosterior_proper _ _ 1 zero_le_one hQ
    (by rw [Ne, List.map_eq_nil_iff]; exact List.length_pos_iff.1 hpos)

/-- C07 for hyperplane trees: predictions stay in every interval that contains the prior mean and the targets. -/
theorem C07_hyperplane (hcT : c.T = regTarget F) (hA : Euclidean c.A) (hn : 0 < n) (lo hi : ℝ)
    (hprior : ∀ p, prior = some p → lo ≤ p.mu ∧ p.mu ≤ hi ∧ 0 < p.kappa) (hdef : prior = none → lo ≤ 0 ∧ 0 ≤ hi)
    (hy : ∀ i < n, lo ≤ c.y i ∧ c.y i ≤ hi) (h : hFitRoot c prior n = .ok t) (Z : Nat → Nat → ℝ) (m i : Nat)
    (him : i < m) : ∃ v, (predict hyperRouter c.T t Z m)[i]? = some v ∧ lo ≤ v ∧ v ≤ hi := by
  have hT : CodeTarget F c.T (ngMarginal F) Spec.ngPosterior := by rw [hcT]; exact .regression
  obtain ⟨addr, l, ha, -, e1, -, -⟩ := C02_hyperplane c.T t Z m i him
  have hq : lo ≤ (c.T.getPrior prior n c.nDim).mu ∧ (c.T.getPrior prior n c.nDim).mu ≤ hi ∧
      0 < (c.T.getPrior prior n c.nDim).kappa := by
    rw [hcT]
    cases hp : prior with
    | none => exact ⟨(hdef hp).1, (hdef hp).2, (regGetPrior_proper n c.nDim).1⟩
    | some p => exact hprior p hp
  obtain ⟨h1, h2, -⟩ := C49_rows_routed_back hT.textbook.lawful hA.isArgsort hT.deltaZero h addr _ ha
  have hpos := hyper_pos hT hA hn h addr _ ha
  rw [h1] at hpos
  have key := regPosterior_hull ((hRouted c t n addr).map c.y) _ 1 lo hi zero_le_one hq (by
    intro v hv
    obtain ⟨j, hj, rfl⟩ := List.mem_map.1 hv
    exact hy j (List.mem_range.1 (List.mem_of_mem_filter hj)))
    (by rw [Ne, List.map_eq_nil_iff]; exact List.length_pos_iff.1 hpos)
  refine ⟨_, e1, ?_⟩
  have h2' : l.posterior = regPosterior ((hRouted c t n addr).map c.y) (c.T.getPrior prior n c.nDim) 1 := by
    rw [show l.posterior = _ from h2, hcT]; rfl
  rw [h2', hcT]
  rw [hcT] at key
  exact ⟨key.1, key.2.1⟩

end

/-! ## Samples -/

/-- A classification fit with three leaves. -/
example (Z : Nat → Nat → ℝ) :
    (leafSizes (castHTree (hSampleHp 0) (hSampleTree 0))).sum = 9 ∧
    (castHTree (hSampleHp 0) (hSampleTree 0)).getNLeaves = leaves (hSampleTree 0) ∧
    (∃ p, (predictProba hyperRouter (clsTarget realFns) (castHTree (hSampleHp 0) (hSampleTree 0)) Z 1)[0]? =
      some (some p) ∧ p.length = 2 ∧ p.sum = 1) ∧ 2 ≤ leaves (hSampleTree 0) := by
  have h1 := C11_hyperplane (F := realFns) (c := hSampleReal 0) .classification realArith_euclidean (by decide)
    hSampleReal_fit
  have h2 := C25_hyperplane (F := realFns) (c := hSampleReal 0) .classification realArith_euclidean hSampleReal_fit
  obtain ⟨p, h3, h4, -, h5⟩ := C05_hyperplane (F := realFns) (c := hSampleReal 0) rfl realArith_euclidean
    ⟨by simp [castL], by simp [castL]⟩ hSampleReal_fit Z 1 0 (by decide)
  exact ⟨h1.2.1, h2.1, ⟨p, h3, by rw [h4]; rfl, h5⟩, by decide⟩

/-- A regression fit that splits two rows with targets 0 and 1: predictions stay between them. -/
example (Z : Nat → Nat → ℝ) : ∃ t v, hFitRoot (hReg2 ⟨0, 1, 1, 1⟩ 0 1) (some ⟨0, 1, 1, 1⟩) 2 = .ok t ∧
    leaves t = 2 ∧ (predict hyperRouter (regTarget realFns) t Z 1)[0]? = some v ∧ 0 ≤ v ∧ v ≤ 1 ∧
    NGProper t.info.posterior := by
  obtain ⟨i, i1, i2, l, s, hfit⟩ := hReg2_fit ⟨0, 1, 1, 1⟩ 0 1
  obtain ⟨v, h1, h2, h3⟩ := C07_hyperplane (F := realFns) (c := hReg2 ⟨0, 1, 1, 1⟩ 0 1) rfl realArith_euclidean
    (by decide) 0 1 (by rintro p ⟨⟩; norm_num) (by simp) (by
      intro j _
      simp only [hReg2, hReg2On]
      split <;> norm_num) hfit Z 1 0 (by decide)
  refine ⟨_, v, hfit, rfl, h1, h2, h3, ?_⟩
  exact C20_hyperplane (F := realFns) (c := hReg2 ⟨0, 1, 1, 1⟩ 0 1) rfl realArith_euclidean (by decide)
    (by rintro p ⟨⟩; exact ⟨by norm_num, by norm_num, by norm_num⟩) hfit [] _ (nodeAt_nil _)

/-- The same fit with pruning succeeds as well, and its tree is the other one cut back. -/
example : ∃ t0 t1, hFitRoot (hWithPrune (hReg2 ⟨0, 1, 1, 1⟩ 0 1) false) (some ⟨0, 1, 1, 1⟩) 2 = .ok t0 ∧
    hFitRoot (hWithPrune (hReg2 ⟨0, 1, 1, 1⟩ 0 1) true) (some ⟨0, 1, 1, 1⟩) 2 = .ok t1 ∧ leaves t0 = 2 ∧
    FullyPruned (regTarget realFns).predictLeaf t1 ∧ CutBack Eq t1 t0 := by
  obtain ⟨i, i1, i2, l, s, hfit⟩ := hReg2_fit ⟨0, 1, 1, 1⟩ 0 1
  have h0 : hFitRoot (hWithPrune (hReg2 ⟨0, 1, 1, 1⟩ 0 1) false) (some ⟨0, 1, 1, 1⟩) 2 = _ := hfit
  have h1 := C21_hyper_fit (hReg2 ⟨0, 1, 1, 1⟩ 0 1) (some ⟨0, 1, 1, 1⟩) 2
  rw [h0] at h1
  refine ⟨_, _, h0, h1, rfl, (C21_hyperplane (F := realFns) (c := hWithPrune (hReg2 ⟨0, 1, 1, 1⟩ 0 1) true) .regression
    realArith_euclidean rfl h1).1, (C24_hyperplane (c := hReg2 ⟨0, 1, 1, 1⟩ 0 1) h0 h1).1⟩

end BT
