import Verif.Lemmas.Trim
import Verif.Props.Closed

/-!
# What makes a tree larger: properties C88, C89

Over the reals, with the scores of the code.  A larger `partition_prior` shifts all cuts of a level by the same
amount and lowers the score of staying; a further feature that says nothing new shifts all cuts down.  Neither
changes which cut is best, only whether it is worth making.
-/

namespace BT
open Spec

set_option linter.unusedSectionVars false

section
variable {P O : Type} {T : Target ℝ P ℝ O} {ml : P → List ℝ → ℝ} {post : P → List ℝ → P}
  {hp : Hyper ℝ} {argsort argsort' : List ℝ → List Nat} {X X' : Nat → Nat → ℝ} {y : Nat → ℝ} {n nDim nDim' : Nat}
  {names names' : List String} {t t' : PNode ℝ ℝ ℝ P}

theorem log_share {pp : ℝ} (h : 0 < pp) (k : Nat) {ns nd : Nat} (hs : 0 < ns) (hd : 0 < nd) :
    Real.log (pp ^ k / ((ns : ℝ) * (nd : ℝ))) = k * Real.log pp - Real.log ns - Real.log nd := by
  have hs' : (ns : ℝ) ≠ 0 := by positivity
  have hd' : (nd : ℝ) ≠ 0 := by positivity
  rw [Real.log_div (by positivity) (by positivity), Real.log_mul hs' hd', Real.log_pow]
  ring

theorem readier_real (hT : CodeTarget realFns T ml post) {pp' : ℝ} (h0 : 0 < hp.partitionPrior)
    (hle : hp.partitionPrior ≤ pp') (h1 : pp' < 1) {ι : Nat → Nat} (hd' : 0 < nDim') (hd : nDim' ≤ nDim)
    (hmono : ∀ d d', d < d' → d' < nDim' → ι d < ι d') (hdims : ∀ d < nDim', ι d < nDim)
    (hX : ∀ i < n, ∀ d < nDim', X' i d = X i (ι d)) (hnames : ∀ d < nDim', names'[d]? = names[ι d]?)
    (hothers : ∀ d < nDim, (∀ d' < nDim', ι d' ≠ d) → Redundant X n d) :
    Readier (exactCtx T (mlPair realFns ml) hp X y nDim names)
      (exactCtx T (mlPair realFns ml) { hp with partitionPrior := pp' } X' y nDim' names') n ι where
  o := rfl
  T := rfl
  precision := rfl
  delta := rfl
  y := rfl
  mono := hmono
  dims := hdims
  X := hX
  names := hnames
  others := hothers
  stay lv ys p hy := by
    show T.logNoSplit pp' lv ys p ≤ T.logNoSplit hp.partitionPrior lv ys p
    rw [hT.textbook.stay _ _ _ _ hy, hT.textbook.stay _ _ _ _ hy]
    have e : pp' ^ (lv + 1) < 1 := pow_lt_one₀ (h0.le.trans hle) h1 (by omega)
    have e2 : hp.partitionPrior ^ (lv + 1) ≤ pp' ^ (lv + 1) := pow_le_pow_left₀ h0.le hle _
    have : Real.log (1 - pp' ^ (lv + 1)) ≤ Real.log (1 - hp.partitionPrior ^ (lv + 1)) :=
      Real.log_le_log (by linarith) (by linarith)
    exact add_le_add this (le_refl _)
  gain lv p ns a b hs := by
    show Real.log _ + _ + _ ≤ Real.log _ + _ + _
    have hdd : 0 < nDim := lt_of_lt_of_le hd' hd
    rw [log_share h0 _ hs hdd, log_share (h0.trans_le hle) _ hs hd']
    have e1 : Real.log hp.partitionPrior ≤ Real.log pp' := Real.log_le_log h0 hle
    have e2 : Real.log (nDim' : ℝ) ≤ Real.log (nDim : ℝ) :=
      Real.log_le_log (by exact_mod_cast hd') (by exact_mod_cast hd)
    have e3 : ((lv + 1 : Nat) : ℝ) * Real.log hp.partitionPrior ≤ ((lv + 1 : Nat) : ℝ) * Real.log pp' :=
      mul_le_mul_of_nonneg_left e1 (by positivity)
    linarith
  order lv p ns a b ns2 a2 b2 hs hs2 := by
    show Real.log _ + _ + _ < Real.log _ + _ + _ ↔ Real.log _ + _ + _ < Real.log _ + _ + _
    have hdd : 0 < nDim := lt_of_lt_of_le hd' hd
    rw [log_share h0 _ hs hdd, log_share h0 _ hs2 hdd, log_share (h0.trans_le hle) _ hs hd',
      log_share (h0.trans_le hle) _ hs2 hd']
    constructor <;> intro h <;> linarith

/-- C88: of two fits to the same data which differ in `partition_prior` only, the one with the smaller value is
the other one cut back. -/
theorem C88_larger_prior (hT : CodeTarget realFns T ml post) (hr : Training hp argsort n nDim) {pp' : ℝ}
    (h0 : 0 < hp.partitionPrior) (hle : hp.partitionPrior ≤ pp') (h1 : pp' < 1) {prior : Option P}
    (h : perpFitRoot (exactOps ℝ) T argsort hp prior X y n nDim names = .ok t)
    (h' : perpFitRoot (exactOps ℝ) T argsort { hp with partitionPrior := pp' } prior X y n nDim names = .ok t') :
    CutBack (SameCut id) t t' ∧ leaves t ≤ leaves t' ∧ height t ≤ height t' := by
  have hr' : Training { hp with partitionPrior := pp' } argsort n nDim :=
    ⟨hr.precision, hr.sort, hr.someRow, hr.rows, hr.dims⟩
  have := fit_trimmed (readier_real (X := X) (X' := X) (y := y) (n := n) (names := names) (names' := names) hT h0 hle
    h1 (ι := id) hr.dims (le_refl _) (fun _ _ h _ => h) (fun _ h => h) (fun _ _ _ _ => rfl) (fun _ _ => rfl)
    (fun d hd hno => absurd rfl (hno d hd))) (hr.valid hT) (hr'.valid hT) hr.someRow rfl rfl h h'
  exact ⟨this.cutBack, this.leaves, this.height⟩

theorem redundant_trimmed (hT : CodeTarget realFns T ml post) (hr : Training hp argsort n nDim)
    (hr' : Training hp argsort' n nDim') (h0 : 0 < hp.partitionPrior) (h1 : hp.partitionPrior < 1)
    {ι : Nat → Nat} (hd : nDim' ≤ nDim) (hmono : ∀ d d', d < d' → d' < nDim' → ι d < ι d')
    (hdims : ∀ d < nDim', ι d < nDim) (hX : ∀ i < n, ∀ d < nDim', X' i d = X i (ι d))
    (hnames : ∀ d < nDim', names'[d]? = names[ι d]?)
    (hothers : ∀ d < nDim, (∀ d' < nDim', ι d' ≠ d) → Redundant X n d) {prior : Option P}
    (hpr : T.getPrior prior n nDim' = T.getPrior prior n nDim)
    (h : perpFitRoot (exactOps ℝ) T argsort hp prior X y n nDim names = .ok t)
    (h' : perpFitRoot (exactOps ℝ) T argsort' hp prior X' y n nDim' names' = .ok t') : Trimmed (SameCut ι) t t' :=
  fit_trimmed (readier_real (X := X) (X' := X') (y := y) (n := n) (names := names) (names' := names') hT h0 (le_refl _)
    h1 hr'.dims hd hmono hdims hX hnames hothers) (hr.valid hT) (hr'.valid hT) hr.someRow rfl hpr h h'

/-- C89: fitting with further features that are constant or repeat an earlier one gives the tree without them, cut
back.  The features of the smaller matrix `X'` are columns `ι 0 < ι 1 < …` of `X`. -/
theorem C89_redundant (hT : CodeTarget realFns T ml post) (hr : Training hp argsort n nDim)
    (hr' : Training hp argsort' n nDim') (h0 : 0 < hp.partitionPrior) (h1 : hp.partitionPrior < 1)
    {ι : Nat → Nat} (hd : nDim' ≤ nDim) (hmono : ∀ d d', d < d' → d' < nDim' → ι d < ι d')
    (hdims : ∀ d < nDim', ι d < nDim) (hX : ∀ i < n, ∀ d < nDim', X' i d = X i (ι d))
    (hnames : ∀ d < nDim', names'[d]? = names[ι d]?)
    (hothers : ∀ d < nDim, (∀ d' < nDim', ι d' ≠ d) → Redundant X n d) {prior : P}
    (h : perpFitRoot (exactOps ℝ) T argsort hp (some prior) X y n nDim names = .ok t)
    (h' : perpFitRoot (exactOps ℝ) T argsort' hp (some prior) X' y n nDim' names' = .ok t') :
    CutBack (SameCut ι) t t' ∧ leaves t ≤ leaves t' ∧ height t ≤ height t' := by
  have := redundant_trimmed hT hr hr' h0 h1 hd hmono hdims hX hnames hothers
    ((hT.textbook.prior _ _ _).trans (hT.textbook.prior _ _ _).symm) h h'
  exact ⟨this.cutBack, this.leaves, this.height⟩

/-- C89: regression also without a given prior, as its default prior does not depend on the number of features. -/
theorem C89_regression_default {X X' : Nat → Nat → ℝ} {t t' : PNode ℝ ℝ ℝ (NG ℝ)} (hr : Training hp argsort n nDim)
    (hr' : Training hp argsort' n nDim') (h0 : 0 < hp.partitionPrior) (h1 : hp.partitionPrior < 1)
    {ι : Nat → Nat} (hd : nDim' ≤ nDim) (hmono : ∀ d d', d < d' → d' < nDim' → ι d < ι d')
    (hdims : ∀ d < nDim', ι d < nDim) (hX : ∀ i < n, ∀ d < nDim', X' i d = X i (ι d))
    (hnames : ∀ d < nDim', names'[d]? = names[ι d]?)
    (hothers : ∀ d < nDim, (∀ d' < nDim', ι d' ≠ d) → Redundant X n d)
    (h : perpFitRoot (exactOps ℝ) (regTarget realFns) argsort hp none X y n nDim names = .ok t)
    (h' : perpFitRoot (exactOps ℝ) (regTarget realFns) argsort' hp none X' y n nDim' names' = .ok t') :
    CutBack (SameCut ι) t t' ∧ leaves t ≤ leaves t' ∧ height t ≤ height t' := by
  have := redundant_trimmed CodeTarget.regression hr hr' h0 h1 hd hmono hdims hX hnames hothers rfl h h'
  exact ⟨this.cutBack, this.leaves, this.height⟩

/-- C89: the further features are not used. -/
theorem C89_unused {ι : Nat → Nat} (h : CutBack (SameCut ι) t t') {d : Nat} (hd : ∀ d', ι d' ≠ d)
    (addr : List Bool) (i : Info ℝ P) (sp : PSplit ℝ) (l b : ℝ) (c1 c2 : PNode ℝ ℝ ℝ P)
    (hu : nodeAt t addr = some (.split i sp l b c1 c2)) : sp.dim ≠ d := by
  obtain ⟨_, _, _, hs⟩ := h addr _ hu
  obtain ⟨_, sp', _, _, _, _, -, e, -⟩ := hs _ _ _ _ _ _ rfl
  rw [e]
  exact hd _

end

/-! ### Non-vacuity -/

/-- The sample with a `partition_prior` of 0.01 is not split. -/
def timidCtx : Ctx ℚ ℚ (List ℚ) ℚ (List ℚ) := { sampleCtx with hp := ⟨1 / 100, 0, false, 0⟩ }

theorem timid_fit : fitIn timidCtx (insArgsort (exactOps ℚ).le) (some [1, 1]) 12 =
    .ok (.leaf ⟨⟨1 / 100, 0, false, 0⟩, some [1, 1], 0, some 2, 12, [9, 5]⟩) := by decide +kernel

theorem timidReal_fit : fitIn (castCtx timidCtx) realSort (some (castL [1, 1])) 12 =
    .ok (castTree timidCtx.hp (.leaf ⟨⟨1 / 100, 0, false, 0⟩, some [1, 1], 0, some 2, 12, [9, 5]⟩)) :=
  cast_fit timid_fit rfl rfl rfl (by decide) (by decide) (by decide) (le_refl _) (by decide +kernel)
    (by decide +kernel) (le_refl _) ⟨by simp, by decide +kernel⟩ realSort_spec

theorem sample_training (pp : ℝ) (k : Nat) (hk : 0 < k) :
    Training { castHp sampleHp with partitionPrior := pp } realSort 12 k :=
  ⟨by simp [castHp, sampleHp], realSort_sorts, by decide, by decide, hk⟩

/-- C88 applies: the sample with `partition_prior` 0.9 is split twice, the leaf for 0.01 is that tree cut back. -/
example : CutBack (SameCut id) (castTree timidCtx.hp (.leaf ⟨⟨1 / 100, 0, false, 0⟩, some [1, 1], 0, some 2, 12, [9, 5]⟩))
      (castTree sampleHp sampleTree) ∧
    leaves (castTree sampleHp sampleTree) = 3 := by
  refine ⟨(C88_larger_prior (CodeTarget.classification (F := realFns)) (hp := castHp timidCtx.hp)
    (pp' := ((9 / 10 : ℚ) : ℝ)) ?_ ?_ ?_ ?_ timidReal_fit sampleReal_fit).1, rfl⟩
  · exact sample_training _ 2 (by decide)
  · norm_num [castHp, timidCtx]
  · norm_num [castHp, timidCtx]
  · norm_num

/-- C88 applies to a tree that is split: with any larger `partition_prior` the root of the sample is split at 1.5. -/
example (pp' : ℝ) (h : 9 / 10 ≤ pp') (h1 : pp' < 1) : ∃ t' i sp l b c1 c2,
    perpFitRoot (exactOps ℝ) (clsTarget realFns) realSort { castHp sampleHp with partitionPrior := pp' }
      (some (castL [1, 1])) (castCtx sampleCtx).X (castCtx sampleCtx).y 12 2 ["a", "b"] = .ok t' ∧
    t' = .split i sp l b c1 c2 ∧ sp.dim = 0 ∧ sp.value = ((3 / 2 : ℚ) : ℝ) := by
  have hT := CodeTarget.classification (F := realFns)
  obtain ⟨t', ht'⟩ := C12_closed hT (sample_training pp' 2 (by decide)) (castCtx sampleCtx).X (castCtx sampleCtx).y
    (some (castL [1, 1])) (names := ["a", "b"]) (by decide)
  have e : (castHp sampleHp).partitionPrior = 9 / 10 := by norm_num [castHp, sampleHp]
  obtain ⟨u', hu', -, hs⟩ := (C88_larger_prior hT (hp := castHp sampleHp) (sample_training _ 2 (by decide))
    (by rw [e]; norm_num) (by rw [e]; exact h) h1 sampleReal_fit ht').1 [] _ (nodeAt_nil _)
  obtain ⟨i, sp, l, b, c1, c2, e1, e2, -, e3⟩ := hs _ _ _ _ _ _ rfl
  rw [nodeAt_nil, Option.some.injEq] at hu'
  exact ⟨t', i, sp, l, b, c1, c2, ht', hu'.trans e1, e2.symm, e3.symm⟩

/-- C89 applies: feature 1 of the sample is constant, so without it the root is split at 1.5 as well. -/
example : ∃ t' i sp l b c1 c2,
    perpFitRoot (exactOps ℝ) (clsTarget realFns) realSort (castHp sampleHp)
      (some (castL [1, 1])) (castCtx sampleCtx).X (castCtx sampleCtx).y 12 1 ["a"] = .ok t' ∧
    t' = .split i sp l b c1 c2 ∧ sp.dim = 0 ∧ sp.value = ((3 / 2 : ℚ) : ℝ) := by
  have hT := CodeTarget.classification (F := realFns)
  obtain ⟨t', ht'⟩ := C12_closed hT (sample_training (castHp sampleHp).partitionPrior 1 (by decide))
    (castCtx sampleCtx).X (castCtx sampleCtx).y (some (castL [1, 1])) (names := ["a"]) (by decide)
  have e : (castHp sampleHp).partitionPrior = 9 / 10 := by norm_num [castHp, sampleHp]
  have hq : ∀ i < 12, ∀ j < 12, sampleX i 1 = sampleX j 1 := by decide +kernel
  obtain ⟨u', hu', -, hs⟩ := (C89_redundant hT (hp := castHp sampleHp) (ι := id) (names' := ["a"])
    (sample_training _ 2 (by decide)) (sample_training _ 1 (by decide)) (by rw [e]; norm_num) (by rw [e]; norm_num)
    (by decide) (fun _ _ h _ => h) (fun d hd => by simp only [id]; omega) (fun _ _ _ _ => rfl)
    (fun d hd => by obtain rfl : d = 0 := by omega
                    rfl)
    (fun d hd hno => .inl fun i hi j hj => by
      obtain rfl : d = 1 := by have := hno 0; simp at this; omega
      exact congrArg (fun q : ℚ => (q : ℝ)) (hq i hi j hj)) sampleReal_fit ht').1 [] _ (nodeAt_nil _)
  obtain ⟨i, sp, l, b, c1, c2, e1, e2, -, e3⟩ := hs _ _ _ _ _ _ rfl
  rw [nodeAt_nil, Option.some.injEq] at hu'
  exact ⟨t', i, sp, l, b, c1, c2, ht', hu'.trans e1, e2.symm, e3.symm⟩

end BT
