import Verif.Lemmas.Walk
import Verif.Lemmas.RealSample

/-!
# Properties of prediction: C01, C02, C03, C05, C06
-/

namespace BT
open Spec

section
variable {Sp S K P O Row : Type}

/-- C01: `predict(X)[i]` is the prediction of the leaf that row `i` alone walks to, for every tree and
batch, whatever the split tests are (as long as no row passes both tests of a split). -/
theorem C01_predict_is_walk [Zero K] (rt : Router Sp Row) (hex : Exclusive rt) (T : Target K P S O)
    (t : Node Sp S K P) (X : Nat → Row) (m : Nat) :
    (predict rt T t X m).length = m ∧
    ∀ i < m, (predict rt T t X m)[i]? = some (match walk rt t (X i) with
      | some l => T.predictLeaf l.posterior
      | none => 0) := by
  refine ⟨?_, fun i hi => predictRows_getElem? rt hex _ _ X m t i hi⟩
  unfold predict predictRows
  rw [predictInto_length, List.length_replicate]

/-- C01: the prediction of a row does not depend on the batch it is part of. -/
theorem C01_batch_independent [Zero K] (rt : Router Sp Row) (hex : Exclusive rt) (T : Target K P S O)
    (t : Node Sp S K P) (X X' : Nat → Row) (m m' i j : Nat) (hi : i < m) (hj : j < m')
    (h : X i = X' j) : (predict rt T t X m)[i]? = (predict rt T t X' m')[j]? := by
  rw [(C01_predict_is_walk rt hex T t X m).2 i hi, (C01_predict_is_walk rt hex T t X' m').2 j hj, h]

/-- C01 for perpendicular trees with exact comparisons: the row descends left if `x[dim] < value` and
right otherwise. -/
theorem C01_predict_descends [Field K] [LinearOrder K] (T : Target K P S O) (t : PNode K S K P)
    (X : Nat → Nat → K) (m i : Nat) (hi : i < m) :
    (predict (perpRouter (exactOps K)) T t X m)[i]? = some (T.predictLeaf (descend t (X i)).posterior) := by
  rw [(C01_predict_is_walk _ exact_exclusive T t X m).2 i hi]
  have : walk (perpRouter (exactOps K)) t (X i) = some (descend t (X i)) := by
    induction t with
    | leaf j => rfl
    | split j sp l b c1 c2 ih1 ih2 =>
      simp only [walk, descend, perpRouter, exactOps, decide_eq_true_eq]
      by_cases h : X i sp.dim < sp.value
      · rw [if_pos h, if_pos h]; exact ih1
      · rw [if_neg h, if_neg h, if_pos (not_lt.1 h)]; exact ih2
  rw [this]

/-- C02: `predict`, `predict_proba` and `_get_raw_leaf_data` report about the same leaf; either all
three are set, or all three keep their initial value. -/
theorem C02_same_leaf [Zero K] (rt : Router Sp Row) (hex : Exclusive rt) (T : Target K P S O)
    (t : Node Sp S K P) (X : Nat → Row) (m i : Nat) (hi : i < m) :
    (∃ addr l, nodeAt t addr = some (.leaf l) ∧ passes rt t addr (X i) = true ∧
      (predict rt T t X m)[i]? = some (T.predictLeaf l.posterior) ∧
      (predictProba rt T t X m)[i]? = some (some (T.posteriorMean l.posterior)) ∧
      (rawLeafData rt t X m)[i]? = some (some (l.prior, l.posterior))) ∨
    ((∀ addr l, nodeAt t addr = some (.leaf l) → passes rt t addr (X i) = false) ∧
      (predict rt T t X m)[i]? = some 0 ∧ (predictProba rt T t X m)[i]? = some none ∧
      (rawLeafData rt t X m)[i]? = some none) := by
  have h1 := predictRows_getElem? rt hex (fun l => T.predictLeaf l.posterior) 0 X m t i hi
  have h2 := predictRows_getElem? rt hex (fun l => some (T.posteriorMean l.posterior)) none X m t i hi
  have h3 := predictRows_getElem? rt hex (fun l => some (l.prior, l.posterior)) none X m t i hi
  cases hw : walk rt t (X i) with
  | some l =>
    rw [hw] at h1 h2 h3
    obtain ⟨addr, ha, hp⟩ := (walk_iff rt t (X i) l).1 hw
    exact Or.inl ⟨addr, l, ha, hp, h1, h2, h3⟩
  | none =>
    rw [hw] at h1 h2 h3
    refine Or.inr ⟨?_, h1, h2, h3⟩
    intro addr l ha
    cases hp : passes rt t addr (X i) with
    | false => rfl
    | true =>
      have := (walk_iff rt t (X i) l).2 ⟨addr, ha, hp⟩
      rw [hw] at this; cases this

/-- C02 with exact comparisons: the first alternative always holds, every row gets a leaf. -/
theorem C02_exact_always_leaf [Field K] [LinearOrder K] (T : Target K P S O) (t : PNode K S K P)
    (X : Nat → Nat → K) (m i : Nat) (hi : i < m) :
    ∃ addr l, nodeAt t addr = some (.leaf l) ∧ passes (perpRouter (exactOps K)) t addr (X i) = true ∧
      (predict (perpRouter (exactOps K)) T t X m)[i]? = some (T.predictLeaf l.posterior) ∧
      (predictProba (perpRouter (exactOps K)) T t X m)[i]? = some (some (T.posteriorMean l.posterior)) ∧
      (rawLeafData (perpRouter (exactOps K)) t X m)[i]? = some (some (l.prior, l.posterior)) := by
  rcases C02_same_leaf _ exact_exclusive T t X m i hi with h | ⟨hno, -⟩
  · exact h
  · obtain ⟨l, hl⟩ := walk_total (perpRouter (exactOps K)) (X i)
      (fun sp => exact_complementary sp (X i)) t
    obtain ⟨addr, ha, hp⟩ := (walk_iff _ _ _ _).1 hl
    rw [hno addr l ha] at hp; cases hp

end

/-- C01, C02 on the three-leaf sample tree: rows of one batch end in three different leaves. -/
example : predict (perpRouter (exactOps ℚ)) (probTarget ℚ) sampleTree
      (matOf 0 [[4, 0], [3 / 2, 0], [0, 9]]) 3 = [0, 1, 0] ∧
    predictProba (perpRouter (exactOps ℚ)) (probTarget ℚ) sampleTree
      (matOf 0 [[4, 0], [3 / 2, 0], [0, 9]]) 3 =
      [some [5 / 6, 1 / 6], some [1 / 6, 5 / 6], some [5 / 6, 1 / 6]] := by
  decide +kernel

section nan
variable {S K P O : Type} [Field K] [LinearOrder K]

/-- C03 for any tree whose thresholds are not NaN: a row gets no leaf exactly if its walk meets a NaN
feature; infinite features are routed normally. -/
theorem C03_walk_none_iff (t : PNode (XF K) S K P)
    (hv : ∀ addr i sp l b c1 c2, nodeAt t addr = some (.split i sp l b c1 c2) → sp.value ≠ XF.nan)
    (x : Nat → XF K) : walk (perpRouter (xfOps K)) t x = none ↔ hitsNaN t x := by
  induction t with
  | leaf i => simp [walk, hitsNaN]
  | split i sp l b c1 c2 ih1 ih2 =>
    have hv0 : sp.value ≠ XF.nan := hv [] i sp l b c1 c2 rfl
    have ih1 := ih1 fun addr i sp l b c1 c2 h => hv (false :: addr) i sp l b c1 c2 (by simpa [nodeAt] using h)
    have ih2 := ih2 fun addr i sp l b c1 c2 h => hv (true :: addr) i sp l b c1 c2 (by simpa [nodeAt] using h)
    have g1 : (perpRouter (xfOps K)).goes1 sp x = XF.lt (x sp.dim) sp.value := rfl
    have g2 : (perpRouter (xfOps K)).goes2 sp x = XF.ge (x sp.dim) sp.value := rfl
    simp only [walk, hitsNaN]
    by_cases hn : x sp.dim = .nan
    · simp [g1, g2, hn, XF.lt, XF.ge]
    · rw [if_neg hn]
      by_cases hl : XF.lt (x sp.dim) sp.value = true
      · rw [if_pos (g1.trans hl), if_pos hl]; exact ih1
      · rw [if_neg (by rw [g1]; exact hl), if_neg hl]
        have : XF.ge (x sp.dim) sp.value = true := by
          cases hx : x sp.dim <;> cases hs : sp.value <;> simp [XF.lt, XF.ge, hx, hs] at hl hv0 hn ⊢
          exact hl
        rw [if_pos (g2.trans this)]; exact ih2

/-- C03: on a tree fitted to finite data, `predict` gives 0.0 and `predict_proba` an unset row exactly
for the rows whose walk meets a NaN feature; all others get a leaf's values. -/
theorem C03_nan_rows [IsStrictOrderedRing K] [LinearOrder S] {c : Ctx (XF K) K P S O}
    {argsort : List (XF K) → List Nat} {n : Nat} (hc : c.o = xfOps K)
    (hv : Valid XF.IsFin c argsort n) {prior : Option P} {t : PNode (XF K) S K P}
    (h : fitIn c argsort prior n = .ok t) (X : Nat → Nat → XF K) (m i : Nat) (hi : i < m) :
    (hitsNaN t (X i) → (predict (perpRouter c.o) c.T t X m)[i]? = some 0 ∧
      (predictProba (perpRouter c.o) c.T t X m)[i]? = some none) ∧
    (¬ hitsNaN t (X i) → ∃ addr l, nodeAt t addr = some (.leaf l) ∧
      passes (perpRouter c.o) t addr (X i) = true ∧
      (predict (perpRouter c.o) c.T t X m)[i]? = some (c.T.predictLeaf l.posterior) ∧
      (predictProba (perpRouter c.o) c.T t X m)[i]? = some (some (c.T.posteriorMean l.posterior))) := by
  have hthr : ∀ addr i sp l b c1 c2, nodeAt t addr = some (.split i sp l b c1 c2) → sp.value ≠ XF.nan := by
    intro addr i sp l b c1 c2 ha
    obtain ⟨t0, hb, hcut, -⟩ := fit_cutOff hv h
    obtain ⟨u0, h0, -, hs⟩ := hcut.node addr _ ha
    obtain ⟨d1, d2, rfl⟩ := hs _ _ _ _ _ _ rfl
    obtain ⟨par', pa', hB, -, -⟩ := Built.at hv.ops hb
      (fun i hi => hv.vals i (List.mem_range.1 hi)) addr _ h0
    cases hB with
    | split _ _ _ _ d cut name _ _ hdv hd hcut hgain hmax hfd hfc hname h1 h2 =>
      obtain ⟨-, -, ⟨a, ea⟩, ⟨b, eb⟩, -⟩ := cut_values hv.ops
        (fun i hi => hv.vals i (List.mem_range.1 (List.mem_filter.1 hi).1) d hd) hcut
      show c.o.mid cut.1 cut.2 ≠ _
      rw [ea, eb, hc]
      simp [xfOps, XF.add, XF.half]
  have hex : Exclusive (perpRouter c.o) := by rw [hc]; exact xf_exclusive
  have hw := C03_walk_none_iff t hthr (X i)
  rcases C02_same_leaf (perpRouter c.o) hex c.T t X m i hi with
    ⟨addr, l, ha, hp, e1, e2, -⟩ | ⟨hno, e1, e2, -⟩
  · refine ⟨fun hn => ?_, fun _ => ⟨addr, l, ha, hp, e1, e2⟩⟩
    have := (walk_iff (perpRouter c.o) t (X i) l).2 ⟨addr, ha, hp⟩
    rw [hc, hw.2 hn] at this; cases this
  · refine ⟨fun _ => ⟨e1, e2⟩, fun hn => absurd (hw.1 ?_) hn⟩
    rw [← hc]
    cases hl : walk (perpRouter c.o) t (X i) with
    | none => rfl
    | some l =>
      obtain ⟨addr, ha, hp⟩ := (walk_iff _ _ _ _).1 hl
      rw [hno addr l ha] at hp; cases hp

end nan

/-- The sample with IEEE-like values. -/
def sampleXF : Ctx (XF ℚ) ℚ (List ℚ) ℚ (List ℚ) where
  o := xfOps ℚ
  T := probTarget ℚ
  pair := probPair
  hp := sampleHp
  X := fun i d => .fin (sampleX i d)
  y := sampleY
  nDim := 2
  names := ["a", "b"]

theorem sampleXF_valid : Valid XF.IsFin sampleXF (insArgsort (xfOps ℚ).le) 12 where
  ops := xf_lawful (le_refl 0)
  target := prob_lawful ℚ
  sort := insArgsort_spec (xf_lawful (le_refl (0 : ℚ)))
  dims := by decide
  rows := by decide
  vals _ _ _ _ := ⟨_, rfl⟩

/-- C03 is not vacuous: a fit on finite data with two splits; a NaN row is predicted 0.0 without a
leaf, infinite rows and rows whose NaN is never looked at are routed. -/
example : (fitIn sampleXF (insArgsort (xfOps ℚ).le) (some [1, 1]) 12).toOption.map (fun t =>
    (predict (perpRouter (xfOps ℚ)) (probTarget ℚ) t
        (matOf .pinf [[.nan, .fin 0], [.fin 3, .nan], [.ninf, .fin 0], [.pinf, .fin 0]]) 4,
      predictProba (perpRouter (xfOps ℚ)) (probTarget ℚ) t
        (matOf .pinf [[.nan, .fin 0], [.fin 3, .nan], [.ninf, .fin 0], [.pinf, .fin 0]]) 4)) =
    some ([0, 1, 0, 0], [none, some [1 / 6, 5 / 6], some [5 / 6, 1 / 6], some [5 / 6, 1 / 6]]) := by
  decide +kernel

section classes
variable {K : Type} [Field K] [LinearOrder K] [IsStrictOrderedRing K]

/-- Every posterior in a fitted classification tree has one positive entry per class. -/
theorem cls_posteriors {V : Type} {ok : V → Prop} {F : Fns K} {c : Ctx V K (List K) K (List K)}
    (hcT : c.T = clsTarget F) {argsort : List V → List Nat} {n : Nat} (hv : Valid ok c argsort n)
    (hn : 0 < n) {prior : List K} (hprior : GoodPrior prior) (hδ : 0 ≤ c.hp.delta)
    {t : PNode V K K (List K)} (h : fitIn c argsort (some prior) n = .ok t)
    (addr : List Bool) (u : PNode V K K (List K)) (hu : nodeAt t addr = some u) :
    GoodPrior u.info.posterior ∧ u.info.posterior.length = prior.length := by
  have hlen : ∀ ys (p : List K) δ, (clsPosterior ys p δ).length = p.length :=
    fun ys p δ => clsPosterior_length p ys δ
  have key : ∀ ys (p : List K) δ, 0 ≤ δ → GoodPrior p ∧ p.length = prior.length →
      GoodPrior (clsPosterior ys p δ) ∧ (clsPosterior ys p δ).length = prior.length := by
    intro ys p δ h0 hp
    refine ⟨⟨?_, clsPosterior_pos hp.1.2 ys h0⟩, by rw [hlen, hp.2]⟩
    rw [← List.length_pos_iff, hlen, List.length_pos_iff]; exact hp.1.1
  refine (fit_inv hv hn h (fun p => GoodPrior p ∧ p.length = prior.length) ?_ ?_ ?_ addr u hu).1
  · rw [hcT]; exact ⟨hprior, rfl⟩
  · intro R' _ _ p hp
    rw [hcT]; exact key _ p 1 zero_le_one hp
  · intro _ R' _ _ p hp
    rw [hcT]; exact key _ p _ hδ hp

omit [LinearOrder K] [IsStrictOrderedRing K] in
theorem list_sum_div (l : List K) (s : K) : (l.map fun a => a / s).sum = l.sum / s := by
  induction l with
  | nil => simp
  | cons a l ih => simp only [List.map_cons, List.sum_cons, ih]; ring

theorem le_sum_of_mem {l : List K} (h : ∀ a ∈ l, 0 ≤ a) {a : K} (ha : a ∈ l) : a ≤ l.sum :=
  List.single_le_sum h a ha

/-- C05: every row of `predict_proba` is a probability vector with one strictly positive entry per
class (exact arithmetic), for every fit, pruned or not, every positive prior and `delta ≥ 0`. -/
theorem C05_proba_rows {F : Fns K} {c : Ctx K K (List K) K (List K)} (hcT : c.T = clsTarget F)
    (hco : c.o = exactOps K) {ok : K → Prop} {argsort : List K → List Nat} {n : Nat}
    (hv : Valid ok c argsort n) (hn : 0 < n) {prior : List K} (hprior : GoodPrior prior)
    (hδ : 0 ≤ c.hp.delta) {t : PNode K K K (List K)} (h : fitIn c argsort (some prior) n = .ok t)
    (X : Nat → Nat → K) (m i : Nat) (hi : i < m) :
    ∃ p, (predictProba (perpRouter c.o) c.T t X m)[i]? = some (some p) ∧
      p.length = prior.length ∧ (∀ a ∈ p, 0 < a ∧ a ≤ 1) ∧ p.sum = 1 := by
  obtain ⟨addr, l, ha, hp, -, e2, -⟩ := C02_exact_always_leaf c.T t X m i hi
  rw [← hco] at e2
  obtain ⟨hg, hlen⟩ := cls_posteriors hcT hv hn hprior hδ h addr _ ha
  have hs := listSum_pos hg.1 hg.2
  refine ⟨_, e2, ?_, ?_, ?_⟩
  · rw [hcT]; show (clsPosteriorMean _).length = _
    rw [clsPosteriorMean, List.length_map]; exact hlen
  · rw [hcT]; show ∀ a ∈ clsPosteriorMean l.posterior, _
    intro a ha
    obtain ⟨b, hb, rfl⟩ := List.mem_map.1 ha
    exact ⟨div_pos (hg.2 b hb) hs, (div_le_one hs).2 (le_sum_of_mem (fun a ha => (hg.2 a ha).le) hb)⟩
  · rw [hcT]; show (clsPosteriorMean l.posterior).sum = 1
    unfold clsPosteriorMean
    rw [list_sum_div]; exact div_self hs.ne'

/-- C06: the predicted class is the smallest class of maximal probability. -/
theorem C06_predict_argmax {F : Fns K} {c : Ctx K K (List K) K (List K)} (hcT : c.T = clsTarget F)
    (hco : c.o = exactOps K) {ok : K → Prop} {argsort : List K → List Nat} {n : Nat}
    (hv : Valid ok c argsort n) (hn : 0 < n) {prior : List K} (hprior : GoodPrior prior)
    (hδ : 0 ≤ c.hp.delta) {t : PNode K K K (List K)} (h : fitIn c argsort (some prior) n = .ok t)
    (X : Nat → Nat → K) (m i : Nat) (hi : i < m) :
    ∃ (p : List K) (k : Nat) (q : K),
      (predictProba (perpRouter c.o) c.T t X m)[i]? = some (some p) ∧
      (predict (perpRouter c.o) c.T t X m)[i]? = some (k : K) ∧ k < prior.length ∧
      p[k]? = some q ∧ (∀ a ∈ p, a ≤ q) ∧ ∀ j < k, ∀ a, p[j]? = some a → a < q := by
  obtain ⟨addr, l, ha, hp, e1, e2, -⟩ := C02_exact_always_leaf c.T t X m i hi
  rw [← hco] at e1 e2
  obtain ⟨hg, hlen⟩ := cls_posteriors hcT hv hn hprior hδ h addr _ ha
  change GoodPrior l.posterior at hg
  change l.posterior.length = _ at hlen
  have hs := listSum_pos hg.1 hg.2
  obtain ⟨v, hv1, hv2, hv3⟩ := argmax_spec hg.1
  have em : c.T.posteriorMean l.posterior = clsPosteriorMean l.posterior := by rw [hcT]; rfl
  have ep : c.T.predictLeaf l.posterior = ((argmax l.posterior : Nat) : K) := by rw [hcT]; rfl
  rw [em] at e2
  rw [ep] at e1
  refine ⟨_, argmax l.posterior, v / l.posterior.sum, e2, e1, ?_, ?_, ?_, ?_⟩
  · have := argmax_lt hg.1
    rw [hlen] at this; exact this
  · unfold clsPosteriorMean
    rw [List.getElem?_map, hv1]; rfl
  · intro a ha
    obtain ⟨b, hb, rfl⟩ := List.mem_map.1 ha
    exact div_le_div_of_nonneg_right (hv2 b hb) hs.le
  · intro j hj a ha
    unfold clsPosteriorMean at ha
    rw [List.getElem?_map] at ha
    cases hb : l.posterior[j]? with
    | none => rw [hb] at ha; cases ha
    | some b =>
      rw [hb] at ha; cases ha
      exact div_lt_div_of_pos_right (hv3 j hj b hb) hs

end classes

/-- C05 and C06 apply to a real fit with two splits and log-gamma scores. -/
example (X : Nat → Nat → ℝ) :
    (∃ p, (predictProba (perpRouter (exactOps ℝ)) (clsTarget realFns) (castTree sampleHp sampleTree) X 1)[0]?
      = some (some p) ∧ p.length = 2 ∧ (∀ a ∈ p, 0 < a ∧ a ≤ 1) ∧ p.sum = 1) ∧
    leaves (castTree sampleHp sampleTree) = 3 :=
  ⟨C05_proba_rows (c := castCtx sampleCtx) (F := realFns) rfl rfl sampleReal_valid (by decide)
    ⟨by simp [castL], by simp [castL]⟩ (by simp [castCtx, castHp, sampleCtx, sampleHp]) sampleReal_fit X 1 0
    (by decide), rfl⟩

end BT
