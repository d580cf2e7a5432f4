import Verif.Lemmas.HyperMove
import Verif.Lemmas.ProgShift
import Verif.Lemmas.RegSample
import Verif.Props.HyperClosed
import Verif.Props.Transform

/-!
# C80, C81: hyperplane trees under similarity maps of the features and affine maps of the targets
-/

namespace BT
open Spec

set_option linter.unusedSectionVars false

/-! ## Trees whose planes have the dimension of the data -/

section
variable {K P P' S S' : Type} [Field K] [LinearOrder K] [IsStrictOrderedRing K]

/-- Every plane of the tree has an origin with as many entries as its normal. -/
def PlanesFit (u : HNode S K P) : Prop :=
  ∀ addr i sp l b c1 c2, nodeAt u addr = some (.split i sp l b c1 c2) → sp.normal.length = sp.origin.length

theorem PlanesFit.children {i : Info K P} {sp : HSplit K} {l b : S} {c1 c2 : HNode S K P}
    (h : PlanesFit (.split i sp l b c1 c2)) :
    sp.normal.length = sp.origin.length ∧ PlanesFit c1 ∧ PlanesFit c2 :=
  ⟨h [] _ _ _ _ _ _ rfl, fun addr _ _ _ _ _ _ hu => h (false :: addr) _ _ _ _ _ _ hu,
    fun addr _ _ _ _ _ _ hu => h (true :: addr) _ _ _ _ _ _ hu⟩

variable {hp' : Hyper K} {a : K} {t : Nat → K} {fP : P → P'} {fS : Nat → S → S'}

theorem nodeAt_moved (u : HNode S K P) (addr : List Bool) :
    nodeAt (movedTree hp' a t fP fS u) addr = (nodeAt u addr).map (movedTree hp' a t fP fS) := by
  induction addr generalizing u with
  | nil => rw [nodeAt_nil, nodeAt_nil]; rfl
  | cons b bs ih =>
    cases u with
    | leaf i => rfl
    | split i sp l s c1 c2 => cases b <;> simp [movedTree, nodeAt, ih]

theorem walk_moved (ha : 0 < a) {u : HNode S K P} (hu : PlanesFit u) (x : Nat → K) :
    walk hyperRouter (movedTree hp' a t fP fS u) (moved a t x) = (walk hyperRouter u x).map (imageInfo hp' fP) := by
  induction u with
  | leaf i => rfl
  | split i sp l b c1 c2 ih1 ih2 =>
    obtain ⟨hl, h1, h2⟩ := hu.children
    obtain ⟨g1, g2⟩ := goes_moved ha (t := t) (sp := sp) hl.le x
    simp only [movedTree, walk, g1, g2, ih1 h1, ih2 h2]
    split
    · rfl
    · split <;> rfl

theorem passes_moved (ha : 0 < a) {u : HNode S K P} (hu : PlanesFit u) (addr : List Bool) (x : Nat → K) :
    passes hyperRouter (movedTree hp' a t fP fS u) addr (moved a t x) = passes hyperRouter u addr x := by
  induction addr generalizing u with
  | nil => cases u <;> rfl
  | cons b bs ih =>
    cases u with
    | leaf i => rfl
    | split i sp l s c1 c2 =>
      obtain ⟨hl, h1, h2⟩ := hu.children
      obtain ⟨g1, g2⟩ := goes_moved ha (t := t) (sp := sp) hl.le x
      simp only [movedTree, passes, g1, g2, ih h1, ih h2]

theorem predict_moved {O O' : Type} (ha : 0 < a) {u : HNode S K P} (hu : PlanesFit u) {T : Target K P S O}
    {T' : Target K P' S' O'} (f : K → K) (h : ∀ p, T'.predictLeaf (fP p) = f (T.predictLeaf p))
    (Z : Nat → Nat → K) (m : Nat) :
    predict hyperRouter T' (movedTree hp' a t fP fS u) (fun i => moved a t (Z i)) m =
      (predict hyperRouter T u Z m).map f := by
  obtain ⟨l1, e1⟩ := C01_predict_is_walk hyperRouter hyper_exclusive T' (movedTree hp' a t fP fS u)
    (fun i => moved a t (Z i)) m
  obtain ⟨l2, e2⟩ := C01_predict_is_walk hyperRouter hyper_exclusive T u Z m
  apply List.ext_getElem?
  intro i
  rw [List.getElem?_map]
  by_cases hi : i < m
  · rw [e1 i hi, e2 i hi, walk_moved ha hu]
    obtain ⟨w, hw⟩ : ∃ w, walk hyperRouter u (Z i) = some w :=
      walk_total _ _ (fun sp h => by
        simp only [hyperRouter, decide_eq_false_iff_not, not_lt] at h ⊢
        exact decide_eq_true h) u
    rw [hw]
    exact congrArg some (h _)
  · rw [List.getElem?_eq_none (by omega), List.getElem?_eq_none (by omega)]
    rfl

end


theorem hyperUpdateImportance_moved {K P P' : Type} [Field K] [LinearOrder K] {hp' : Hyper K} {a : K} {t : Nat → K}
    {fP : P → P'} {fS : Nat → K → K} (hg : ∀ k u v, fS k u - fS k v = u - v) (u : HNode K K P) (w : List K) :
    hyperUpdateImportance (movedTree hp' a t fP fS u) w = hyperUpdateImportance u w := by
  induction u generalizing w with
  | leaf i => rfl
  | split i sp l b c1 c2 ih1 ih2 => simp only [movedTree, hyperUpdateImportance, ih1, ih2, hg, movedSplit]

section
variable {F : Fns ℝ} {P O : Type} {T : Target ℝ P ℝ O} {ml : P → List ℝ → ℝ} {post : P → List ℝ → P}

theorem planesFit_of_fit {c : HCtx ℝ P ℝ O} (hT : CodeTarget F c.T ml post) (he : Euclidean c.A) {prior : Option P}
    {n : Nat} {u : HNode ℝ ℝ P} (h : hFitRoot c prior n = .ok u) : PlanesFit u := by
  intro addr i sp l b c1 c2 hu
  obtain ⟨h1, h2, -⟩ := C48_tree hT.textbook.lawful he.isArgsort he.square hT.deltaZero n prior u h addr i sp l b c1 c2 hu
  rw [h1, h2]

/-! ## C80: similarity maps of the features -/

/-- The sort compares values only. -/
def SortsByComparison (A : HArith ℝ) : Prop :=
  ∀ (f : ℝ → ℝ), StrictMono f → ∀ xs, A.argsort (xs.map f) = A.argsort xs

/-- The search looks at nothing but the dimension and the returned values. -/
def Blind (opt : Optimizer ℝ P ℝ) : Prop := ∀ q q', q'.nDim = q.nDim → opt.solve q' = opt.solve q

theorem blind_random {R : Type} (G : Rng R ℝ) (nMc : Nat) : Blind (P := P) (randomOptimizer G nMc) := by
  intro q q' h
  simp only [randomOptimizer, randomSolve, h]

theorem blind_quasi (phi : ℝ) (m : Nat) : Blind (P := P) (quasiOptimizer phi m) := by
  intro q q' h
  simp only [quasiOptimizer, quasiSolve, h]

theorem strategy_ext {K S α β : Type} {p : Prog K S α} {p' : Prog K S β} {R : α → β → Prop}
    (h : Prog.Rel id R p p') : p'.strategy = p.strategy := by
  funext hist
  exact h.strategy hist hist (by simp)

theorem blind_annealing {R : Type} (G : Rng R ℝ) (nScan nKeep : Nat) (spread : ℝ) (fuel : Nat) :
    Blind (P := P) (saOptimizer G nScan nKeep spread fuel) := by
  intro q q' h
  exact strategy_ext (saSolve_rel strictMono_id G nScan nKeep spread fuel h)

theorem blind_descent {R : Type} (G : Rng R ℝ) (nInit nKeep fuel : Nat) :
    Blind (P := P) (gdOptimizer G nInit nKeep fuel) := by
  intro q q' h
  have := gdSolve_rel 0 G nInit nKeep fuel h
  simp only [add_zero] at this
  exact strategy_ext this

/-- The problem with all feature vectors scaled by `a` and moved by `t`, and `split_precision` scaled. -/
def movedCtx (c : HCtx ℝ P ℝ O) (a : ℝ) (t : Nat → ℝ) : HCtx ℝ P ℝ O :=
  { c with X := fun i d => a * c.X i d + t d, hp := { c.hp with splitPrecision := a * c.hp.splitPrecision } }

theorem moved_hmove {c : HCtx ℝ P ℝ O} (hT : CodeTarget F c.T ml post) (he : Euclidean c.A) (hs : SortsByComparison c.A)
    {a : ℝ} (ha : 0 < a) (t : Nat → ℝ) (p0 : P) (ρ : RawVec ℝ → RawVec ℝ → Prop)
    (hρ : ∀ (q : HProb ℝ P ℝ), q.nDim = c.nDim → q.hypercube = c.opt.hypercube →
      ∀ r r', ρ r r' → hNormal c.A q r' = hNormal c.A q r)
    (hsearch : ∀ lv R, R ≠ [] → ∀ hist hist', List.Forall₂ (EntryRel ρ id) hist hist' →
      StepRel ρ (c.opt.solve (hProblem c p0 lv R) hist) (c.opt.solve (hProblem (movedCtx c a t) p0 lv R) hist')) :
    HMove c (movedCtx c a t) (mlPair F ml) (mlPair F ml) a t id id (fun _ => id) ρ p0 (fun _ => True) where
  pos := ha
  A := rfl
  nDim := rfl
  budget := rfl
  hypercube := rfl
  X := fun _ => rfl
  y := fun _ => rfl
  okTarget := fun _ => trivial
  inj := fun _ _ _ _ h => h
  prec := rfl
  sort := he.isArgsort
  order := fun xs b => hs _ (fun u v h => by
    have := mul_lt_mul_of_pos_left h ha
    linarith) xs
  lawful := hT.textbook.lawful
  lawful' := hT.textbook.lawful
  delta0 := fun y => hT.deltaZero y p0
  delta0' := fun y => hT.deltaZero y p0
  posterior1 := fun ys _ _ => by rw [List.map_id]; rfl
  noSplit := fun lv ys _ _ => by rw [List.map_id]; rfl
  pair := fun lv ns u v _ _ _ _ _ => by rw [List.map_id, List.map_id]; rfl
  mono := fun _ => strictMono_id
  normal := hρ
  search := hsearch

theorem option_map_id {α : Type} (x : Option α) : x.map id = x := by cases x <;> rfl

/-- What C80 says, for two corresponding fits. -/
theorem moved_conclusion [DecidableEq O] {c : HCtx ℝ P ℝ O} (hT : CodeTarget F c.T ml post) (he : Euclidean c.A)
    {a : ℝ} {t : Nat → ℝ} {prior : Option P} {n : Nat} (hn : 0 < n) {ρ : RawVec ℝ → RawVec ℝ → Prop}
    (hm : HMove c (movedCtx c a t) (mlPair F ml) (mlPair F ml) a t id id (fun _ => id) ρ (c.T.getPrior prior n c.nDim)
      (fun _ => True)) :
    hFitRoot (movedCtx c a t) prior n =
      (hFitRoot c prior n).map (movedTree (movedCtx c a t).hp a t id fun _ => id) ∧
    ∀ u, hFitRoot c prior n = .ok u →
      (∀ addr, hRouted (movedCtx c a t) (movedTree (movedCtx c a t).hp a t id (fun _ => id) u) n addr =
        hRouted c u n addr) ∧
      (∀ (Z : Nat → Nat → ℝ) (m : Nat),
        predict hyperRouter c.T (movedTree (movedCtx c a t).hp a t id (fun _ => id) u)
          (fun i d => a * Z i d + t d) m = predict hyperRouter c.T u Z m) ∧
      hyperFeatureImportance c.nDim (movedTree (movedCtx c a t).hp a t id (fun _ => id) u) =
        hyperFeatureImportance c.nDim u := by
  refine ⟨?_, fun u hu => ?_⟩
  · have := hFitRoot_move hm hn prior rfl (by rw [option_map_id]; rfl) rfl (fun p q => Iff.rfl)
    rwa [option_map_id] at this
  · have hfit := planesFit_of_fit hT he hu
    refine ⟨fun addr => ?_, fun Z m => ?_, ?_⟩
    · unfold hRouted
      exact List.filter_congr fun i _ => passes_moved hm.pos hfit addr _
    · have := predict_moved (hp' := (movedCtx c a t).hp) (t := t) (fP := id) (fS := fun _ => id) hm.pos hfit (T := c.T)
        (T' := c.T) id (fun _ => rfl) Z m
      rw [List.map_id] at this
      exact this
    · unfold hyperFeatureImportance
      rw [hyperUpdateImportance_moved (fS := fun _ => id) fun _ _ _ => rfl]

/-- C80: scaling all feature vectors by a common `a > 0`, moving them by a common vector `t`, and scaling
`split_precision` by `a`, gives the same exception or the same tree with all origins scaled and moved alike:
same normals, scores, statistics, training rows at every node, importances, and predictions of scaled and moved queries.
For every optimizer whose search sees only the dimension and the values returned by `compute`. -/
theorem C80_similarity [DecidableEq O] {c : HCtx ℝ P ℝ O} (hT : CodeTarget F c.T ml post) (he : Euclidean c.A)
    (hs : SortsByComparison c.A) (hopt : Blind c.opt) {a : ℝ} (ha : 0 < a) (t : Nat → ℝ) {n : Nat} (hn : 0 < n)
    (prior : Option P) :
    hFitRoot (movedCtx c a t) prior n =
      (hFitRoot c prior n).map (movedTree (movedCtx c a t).hp a t id fun _ => id) ∧
    ∀ u, hFitRoot c prior n = .ok u →
      (∀ addr, hRouted (movedCtx c a t) (movedTree (movedCtx c a t).hp a t id (fun _ => id) u) n addr =
        hRouted c u n addr) ∧
      (∀ (Z : Nat → Nat → ℝ) (m : Nat),
        predict hyperRouter c.T (movedTree (movedCtx c a t).hp a t id (fun _ => id) u)
          (fun i d => a * Z i d + t d) m = predict hyperRouter c.T u Z m) ∧
      hyperFeatureImportance c.nDim (movedTree (movedCtx c a t).hp a t id (fun _ => id) u) =
        hyperFeatureImportance c.nDim u := by
  refine moved_conclusion (ρ := Eq) hT he hn (moved_hmove hT he hs ha t _ Eq
    (fun _ _ _ _ _ h => by rw [h]) fun lv R _ hist hist' hh => ?_)
  have e : hist' = hist := by
    induction hh with
    | nil => rfl
    | cons h _ ih =>
      obtain ⟨h1, s, h2, h3⟩ := h
      rw [ih]
      congr 1
      exact Prod.ext h1.symm (h3.trans h2.symm)
  rw [e, hopt (hProblem c (c.T.getPrior prior n c.nDim) lv R) (hProblem (movedCtx c a t) (c.T.getPrior prior n c.nDim) lv R) rfl]
  cases c.opt.solve (hProblem c (c.T.getPrior prior n c.nDim) lv R) hist with
  | eval r => exact .eval rfl
  | stop => exact .stop
  | raise e => exact .raise e

/-! ### The two-point optimizer, which looks at the features -/

/-- Programs that take corresponding steps whatever values they are given; `ρ` relates the vectors. -/
inductive VRel {K S α α' : Type} (ρ : RawVec K → RawVec K → Prop) (R : α → α' → Prop) :
    Prog K S α → Prog K S α' → Prop
  | ret {b : α} {b' : α'} (h : R b b') : VRel ρ R (.ret b) (.ret b')
  | raise (e : Err) : VRel ρ R (.raise e) (.raise e)
  | eval {r r' : RawVec K} (hr : ρ r r') {k : S → Prog K S α} {k' : S → Prog K S α'}
      (h : ∀ v v', VRel ρ R (k v) (k' v')) : VRel ρ R (.eval r k) (.eval r' k')

theorem VRel.resume {K S α α' : Type} {ρ : RawVec K → RawVec K → Prop} {R : α → α' → Prop} {p : Prog K S α}
    {p' : Prog K S α'} (h : VRel ρ R p p') (vs vs' : List S) (hl : vs'.length = vs.length) :
    StepRel ρ (p.resume vs) (p'.resume vs') := by
  induction h generalizing vs vs' with
  | ret h => exact .stop
  | raise e => exact .raise e
  | eval hr h ih =>
    cases vs with
    | nil =>
      cases vs' with
      | nil => exact .eval hr
      | cons v' vs' => cases hl
    | cons v vs =>
      cases vs' with
      | nil => cases hl
      | cons v' vs' => exact ih v v' vs vs' (Nat.succ.inj hl)

theorem VRel.bind {K S α α' β β' : Type} {ρ : RawVec K → RawVec K → Prop} {R : α → α' → Prop} {Q : β → β' → Prop}
    {p : Prog K S α} {p' : Prog K S α'} (h : VRel ρ R p p') {f : α → Prog K S β} {f' : α' → Prog K S β'}
    (hf : ∀ b b', R b b' → VRel ρ Q (f b) (f' b')) : VRel ρ Q (p.bind f) (p'.bind f') := by
  induction h with
  | ret h => exact hf _ _ h
  | raise e => exact .raise e
  | eval hr h ih => exact .eval hr ih

theorem VRel.loop {K S α ι : Type} {ρ : RawVec K → RawVec K → Prop} {f f' : α → ι → Prog K S α}
    (hf : ∀ b x, VRel ρ Eq (f b x) (f' b x)) (l : List ι) (b : α) :
    VRel ρ Eq (Prog.loop f l b) (Prog.loop f' l b) := by
  induction l generalizing b with
  | nil => exact .ret rfl
  | cons x xs ih => exact (hf b x).bind fun u u' hu => by rw [hu]; exact ih u'

/-- A vector of floats and the same vector scaled by `a`. -/
def ScaledVec (a : ℝ) (r r' : RawVec ℝ) : Prop :=
  ∃ v : List ℝ, r.v = v.map XF.fin ∧ r'.v = (v.map (a * ·)).map XF.fin ∧ r'.isInt = r.isInt

theorem scaledVec_normal {A : HArith ℝ} (he : Euclidean A) {a : ℝ} (ha : 0 < a) {r r' : RawVec ℝ}
    (h : ScaledVec a r r') : normalizeVec A r' = normalizeVec A r := by
  obtain ⟨v, h1, h2, h3⟩ := h
  have hn : ∀ w : List ℝ, (w.map XF.fin).map (nanToNum A.big) = w := by
    intro w
    rw [List.map_map]
    conv_rhs => rw [← List.map_id w]
    exact List.map_congr_left fun _ _ => rfl
  unfold normalizeVec
  simp only [h1, h2, h3, hn]
  have hnil : v.map (a * ·) = [] ↔ v = [] := List.map_eq_nil_iff
  by_cases hv : v = []
  · rw [if_pos (hnil.2 hv), if_pos hv]
  rw [if_neg (fun h => hv (hnil.1 h)), if_neg hv]
  have hall : (v.map (a * ·)).all (fun b => decide (b = 0)) = v.all fun b => decide (b = 0) := by
    rw [List.all_map]
    congr 1
    funext b
    simp [Function.comp, ha.ne']
  rw [hall]
  cases hz : v.all fun b => decide (b = 0) with
  | true =>
    have : v.map (a * ·) = v := by
      conv_rhs => rw [← List.map_id v]
      refine List.map_congr_left fun b hb => ?_
      have := of_decide_eq_true (List.all_eq_true.1 hz b hb)
      rw [this]
      simp
    rw [this]
  | false =>
    have hnorm : A.norm (v.map (a * ·)) = a * A.norm v := by
      rw [he.norm, he.norm, sum_sq_scale, Real.sqrt_mul (sq_nonneg a), Real.sqrt_sq ha.le]
    have e : (v.map (a * ·)).map (· / A.norm (v.map (a * ·))) = v.map (· / A.norm v) := by
      rw [hnorm, List.map_map]
      exact List.map_congr_left fun b _ => mul_div_mul_left _ _ ha.ne'
    simp only [Bool.false_eq_true, if_false, e]

theorem twoPointNormal_moved (isInt : Bool) {a : ℝ} (ha : 0 < a) (t : Nat → ℝ) (q q' : HProb ℝ P ℝ)
    (hd : q'.nDim = q.nDim) (hr : q'.rows = q.rows) (hX : ∀ i, q'.X i = moved a t (q.X i)) (i j : Nat) :
    (∃ e, twoPointNormal isInt q i j = .error e ∧ twoPointNormal isInt q' i j = .error e) ∨
    ∃ r r', twoPointNormal isInt q i j = .ok r ∧ twoPointNormal isInt q' i j = .ok r' ∧ ScaledVec a r r' := by
  unfold twoPointNormal
  have e : List.zipWith (· - ·) (rowVec q'.nDim (q'.X (q'.rows.getD j 0))) (rowVec q'.nDim (q'.X (q'.rows.getD i 0))) =
      (List.zipWith (· - ·) (rowVec q.nDim (q.X (q.rows.getD j 0))) (rowVec q.nDim (q.X (q.rows.getD i 0)))).map
        (a * ·) := by
    rw [hd, hr, hX, hX]
    unfold rowVec
    rw [List.zipWith_map, List.zipWith_map, List.zipWith_self, List.zipWith_self, List.map_map]
    refine List.map_congr_left fun d _ => ?_
    simp only [moved, Function.comp]
    ring
  simp only [e]
  generalize List.zipWith (· - ·) (rowVec q.nDim (q.X (q.rows.getD j 0)))
    (rowVec q.nDim (q.X (q.rows.getD i 0))) = v
  rw [List.getElem?_map]
  cases v[0]? with
  | none => exact .inl ⟨_, rfl, rfl⟩
  | some b =>
    refine .inr ⟨_, _, rfl, rfl, ?_⟩
    have hb : a * b < 0 ↔ b < 0 := by
      constructor
      · intro h; by_contra h'; exact absurd (mul_nonneg ha.le (not_lt.1 h')) (not_le.2 h)
      · exact fun h => mul_neg_of_pos_of_neg ha h
    simp only [hb]
    by_cases hneg : b < 0
    · rw [if_pos hneg, if_pos hneg]
      refine ⟨v.map (· * (-1)), rfl, ?_, rfl⟩
      simp only [List.map_map]
      exact List.map_congr_left fun u _ => by simp [Function.comp]
    · rw [if_neg hneg, if_neg hneg]
      exact ⟨v, rfl, rfl, rfl⟩

/-- C80 for `RandomTwoPointOptimizer`, whose normals are differences of training rows. -/
theorem C80_two_point {R : Type} [DecidableEq O] {c : HCtx ℝ P ℝ O} (hT : CodeTarget F c.T ml post) (he : Euclidean c.A)
    (hs : SortsByComparison c.A) (G : Rng R ℝ) (isInt : Bool) (nMc fuel : Nat)
    (hopt : c.opt = twoPointOptimizer G isInt nMc fuel) {a : ℝ} (ha : 0 < a) (t : Nat → ℝ) {n : Nat} (hn : 0 < n)
    (prior : Option P) :
    hFitRoot (movedCtx c a t) prior n =
      (hFitRoot c prior n).map (movedTree (movedCtx c a t).hp a t id fun _ => id) ∧
    ∀ u, hFitRoot c prior n = .ok u →
      (∀ addr, hRouted (movedCtx c a t) (movedTree (movedCtx c a t).hp a t id (fun _ => id) u) n addr =
        hRouted c u n addr) ∧
      (∀ (Z : Nat → Nat → ℝ) (m : Nat),
        predict hyperRouter c.T (movedTree (movedCtx c a t).hp a t id (fun _ => id) u)
          (fun i d => a * Z i d + t d) m = predict hyperRouter c.T u Z m) ∧
      hyperFeatureImportance c.nDim (movedTree (movedCtx c a t).hp a t id (fun _ => id) u) =
        hyperFeatureImportance c.nDim u := by
  refine moved_conclusion (ρ := ScaledVec a) hT he hn (moved_hmove hT he hs ha t _ _ ?_ ?_)
  · intro q _ hcube r r' hr
    have hc : q.hypercube = false := by rw [hcube, hopt]; rfl
    unfold hNormal
    simp only [hc, Bool.false_eq_true, if_false, scaledVec_normal he ha hr]
  · intro lv R _ hist hist' hh
    rw [hopt]
    refine VRel.resume (R := Eq) ?_ _ _ (by simp [hh.length_eq])
    show VRel _ _ (twoPointSolve G isInt nMc fuel _) (twoPointSolve G isInt nMc fuel _)
    unfold twoPointSolve
    dsimp only [hProblem, movedCtx]
    split
    · exact .raise _
    · split
      · exact .ret rfl
      · refine VRel.loop (fun g _ => ?_) _ _
        cases drawClasses G fuel (classIndices (R.map c.y)) fuel g with
        | error e => exact .raise e
        | ok ij =>
          dsimp only
          rcases twoPointNormal_moved isInt ha t (hProblem c (c.T.getPrior prior n c.nDim) lv R)
            (hProblem (movedCtx c a t) (c.T.getPrior prior n c.nDim) lv R) rfl rfl (fun _ => rfl)
            (ij.1.1.getD (G.randint ij.1.1.length ij.2).1 0)
            (ij.1.2.getD (G.randint ij.1.2.length (G.randint ij.1.1.length ij.2).2).1 0) with
            ⟨e, h1, h2⟩ | ⟨r, r', h1, h2, hr⟩
          · dsimp only [hProblem, movedCtx] at h1 h2
            rw [h1, h2]
            exact .raise e
          · dsimp only [hProblem, movedCtx] at h1 h2
            rw [h1, h2]
            exact .eval hr fun _ _ => .ret rfl

end

/-! ## C81: affine maps of regression targets -/

/-- The search looks at the dimension and at differences and the order of the returned values only. -/
def ShiftBlind (opt : Optimizer ℝ (NG ℝ) ℝ) : Prop :=
  ∀ q q', q'.nDim = q.nDim → ∀ (m : ℝ) (hist : List (RawVec ℝ × ℝ)),
    opt.solve q' (hist.map fun e => (e.1, e.2 + m)) = opt.solve q hist

theorem shiftBlind_random {R : Type} (G : Rng R ℝ) (nMc : Nat) : ShiftBlind (randomOptimizer G nMc) :=
  fun _ _ h m hist => (randomSolve_rel (g := (· + m)) G nMc h).strategy _ _ (by simp)

theorem shiftBlind_quasi (phi : ℝ) (n : Nat) : ShiftBlind (quasiOptimizer phi n) :=
  fun _ _ h m hist => (quasiSolve_rel (g := (· + m)) phi n h).strategy _ _ (by simp)

theorem shiftBlind_annealing {R : Type} (G : Rng R ℝ) (nScan nKeep : Nat) (spread : ℝ) (fuel : Nat) :
    ShiftBlind (saOptimizer G nScan nKeep spread fuel) :=
  fun _ _ h m hist => (saSolve_rel (shift_mono m) G nScan nKeep spread fuel h).strategy _ _ (by simp)

theorem shiftBlind_descent {R : Type} (G : Rng R ℝ) (nInit nKeep fuel : Nat) :
    ShiftBlind (gdOptimizer G nInit nKeep fuel) :=
  fun _ _ h m hist => (gdSolve_rel m G nInit nKeep fuel h).strategy _ _ (by simp)

/-- The prior for targets multiplied by `s` and moved by `m`. -/
def NG.affine (s m : ℝ) (p : NG ℝ) : NG ℝ := { p with mu := s * p.mu + m, beta := s ^ 2 * p.beta }

theorem affine_eq (s m : ℝ) (p : NG ℝ) : p.affine s m = (p.scale s).shift m := rfl

theorem map_affine (s m : ℝ) (ys : List ℝ) : ys.map (fun v => s * v + m) = (ys.map (s * ·)).map (· + m) := by
  rw [List.map_map]; rfl

/-- C81: replacing every regression target `y` by `s y + m` (`s ≠ 0`), and the prior accordingly, gives the same
exception or a hyperplane tree with the same planes; every prediction `v` becomes `s v + m`, importances and rows
are unchanged and both scores of a node move by `-n_data_ * log |s|`. -/
theorem C81_affine {c : HCtx ℝ (NG ℝ) ℝ ℝ} (hT : c.T = regTarget realFns) (he : Euclidean c.A)
    (hs : SortsByComparison c.A) (hopt : ShiftBlind c.opt) {s : ℝ} (hs0 : s ≠ 0) (m : ℝ) {n : Nat} (hn : 0 < n)
    {prior : NG ℝ} (hprior : ProperNG prior) :
    let c' : HCtx ℝ (NG ℝ) ℝ ℝ := { c with y := fun i => s * c.y i + m }
    let image := movedTree c.hp 1 (fun _ => 0) (NG.affine s m) (fun k v => v - k * Real.log |s|)
    hFitRoot c' (some { prior with mu := s * prior.mu + m, beta := s ^ 2 * prior.beta }) n =
      (hFitRoot c (some prior) n).map image ∧
    ∀ u, hFitRoot c (some prior) n = .ok u →
      (∀ addr i sp l b c1 c2, nodeAt u addr = some (.split i sp l b c1 c2) → ∃ i' c1' c2',
        nodeAt (image u) addr =
          some (.split i' sp (l - i.nData * Real.log |s|) (b - i.nData * Real.log |s|) c1' c2')) ∧
      (∀ addr, hRouted c' (image u) n addr = hRouted c u n addr) ∧
      (∀ (Z : Nat → Nat → ℝ) (k : Nat), predict hyperRouter c.T (image u) Z k =
        (predict hyperRouter c.T u Z k).map fun v => s * v + m) ∧
      hyperFeatureImportance c.nDim (image u) = hyperFeatureImportance c.nDim u := by
  intro c' image
  have hC : CodeTarget realFns c.T (ngMarginal realFns) Spec.ngPosterior := by rw [hT]; exact .regression
  have hmv : ∀ x : Nat → ℝ, moved 1 (fun _ => 0) x = x := fun x => by funext d; simp [moved]
  have hκ : 0 < (prior.scale s).kappa := hprior.1
  have hml : ∀ ys : List ℝ, ys ≠ [] → ngMarginal realFns (prior.affine s m) (ys.map fun v => s * v + m) =
      ngMarginal realFns prior ys - ys.length * Real.log |s| := by
    intro ys hne
    rw [map_affine, affine_eq, ngMarginal_shift _ _ _ _ (by simpa using hne) hκ, ngMarginal_scale hs0 hprior ys hne]
  have hm : HMove c c' (mlPair realFns (ngMarginal realFns)) (mlPair realFns (ngMarginal realFns)) 1 (fun _ => 0)
      (fun v => s * v + m) (NG.affine s m) (fun k v => v - k * Real.log |s|) Eq prior (fun _ => True) :=
    { pos := one_pos, A := rfl, nDim := rfl, budget := rfl, hypercube := rfl
      X := fun i => (hmv _).symm, y := fun _ => rfl, okTarget := fun _ => trivial
      inj := fun u v _ _ h => mul_left_cancel₀ hs0 (add_right_cancel h)
      prec := (one_mul _).symm, sort := he.isArgsort
      order := fun xs b => hs _ (fun u v h => by simpa using h) xs
      lawful := hC.textbook.lawful, lawful' := hC.textbook.lawful
      delta0 := fun y => hC.deltaZero y _, delta0' := fun y => hC.deltaZero y _
      posterior1 := fun ys hne _ => by
        show c.T.posterior _ _ _ = _
        rw [hT, map_affine, affine_eq]
        show regPosterior _ _ 1 = NG.affine s m (regPosterior ys prior 1)
        rw [regPosterior_shift _ _ _ _ (by simpa using hne) zero_le_one hκ, regPosterior_scale]
        rfl
      noSplit := fun lv ys hne _ => by
        rw [hC.textbook.stay _ _ _ _ hne]
        show c.T.logNoSplit _ _ _ _ = _
        rw [hC.textbook.stay _ _ _ _ (by simpa using hne), hml ys hne]
        ring
      pair := fun lv ns u v _ hu hv _ _ => by
        show _ + ngMarginal realFns (prior.affine s m) (u.map fun v => s * v + m)
          + ngMarginal realFns (prior.affine s m) (v.map fun v => s * v + m) = _
        rw [hml u hu, hml v hv]
        unfold mlPair
        push_cast
        ring
      mono := fun k u v h => by simpa using h
      normal := fun _ _ _ _ _ h => by rw [h]
      search := fun lv R _ hist hist' hh => by
        have e : hist' = hist.map fun e => (e.1, e.2 + R.length * Real.log |s|) := by
          induction hh with
          | nil => rfl
          | cons h _ ih =>
            obtain ⟨h1, v, h2, h3⟩ := h
            rw [ih, List.map_cons]
            congr 1
            refine Prod.ext h1.symm ?_
            rw [h3, h2]
            ring
        rw [e]
        show StepRel Eq _ (c.opt.solve _ _)
        rw [hopt (hProblem c prior lv R) (hProblem c' (prior.affine s m) lv R) rfl]
        cases c.opt.solve (hProblem c prior lv R) hist with
        | eval r => exact .eval rfl
        | stop => exact .stop
        | raise e => exact .raise e }
  have hpl : ∀ p : NG ℝ, c.T.predictLeaf (p.affine s m) = s * c.T.predictLeaf p + m := by rw [hT]; exact fun _ => rfl
  have hsplit : ∀ sp : HSplit ℝ, movedSplit 1 (fun _ => 0) sp = sp := by
    intro sp
    unfold movedSplit
    congr 1
    apply List.ext_getElem?
    intro d
    rw [List.getElem?_mapIdx]
    cases sp.origin[d]? <;> simp
  refine ⟨?_, fun u hu => ?_⟩
  · exact hFitRoot_move hm hn (some prior) (hC.textbook.lawful.getPrior_some _ _ _)
      (hC.textbook.lawful.getPrior_some _ _ _) rfl (fun p q => by
        show c.T.predictLeaf _ = c.T.predictLeaf _ ↔ _
        rw [hpl, hpl]
        exact ⟨fun h => mul_left_cancel₀ hs0 (add_right_cancel h), fun h => by rw [h]⟩)
  · have hfit := planesFit_of_fit hC he hu
    refine ⟨fun addr i sp l b c1 c2 hu' => ?_, fun addr => ?_, fun Z k => ?_, ?_⟩
    · refine ⟨imageInfo c.hp (NG.affine s m) i, image c1, image c2, (nodeAt_moved u addr).trans ?_⟩
      rw [hu', Option.map_some]
      show some (Node.split _ (movedSplit 1 (fun _ => 0) sp) _ _ _ _) = _
      rw [hsplit]
    · unfold hRouted
      refine List.filter_congr fun i _ => ?_
      have := passes_moved (hp' := c.hp) (t := fun _ => 0) (fP := NG.affine s m)
        (fS := fun k v => v - k * Real.log |s|) one_pos hfit addr (c.X i)
      rwa [hmv] at this
    · have := predict_moved (hp' := c.hp) (t := fun _ => 0) (fP := NG.affine s m)
        (fS := fun k v => v - k * Real.log |s|) one_pos hfit (T := c.T) (T' := c.T) (fun v => s * v + m) hpl Z k
      simpa only [hmv] using this
    · unfold hyperFeatureImportance
      rw [hyperUpdateImportance_moved (fS := fun k v => v - k * Real.log |s|) fun _ _ _ => by ring]

/-! ## Concrete cases -/

theorem insArgsort_mono {f : ℝ → ℝ} (hf : StrictMono f) (l : List ℝ) :
    insArgsort (exactOps ℝ).le (l.map f) = insArgsort (exactOps ℝ).le l := by
  unfold insArgsort
  rw [List.length_map]
  have : insPos (exactOps ℝ).le (l.map f) = insPos (exactOps ℝ).le l := by
    funext i m
    induction m with
    | nil => rfl
    | cons j js ih =>
      unfold insPos
      rw [List.getElem?_map, List.getElem?_map]
      cases l[i]? with
      | none => rfl
      | some a =>
        cases l[j]? with
        | none => rfl
        | some b => simp [exactOps, hf.le_iff_le] at ih ⊢; rw [ih]
  rw [this]

theorem realArith_comparison : SortsByComparison realArith := fun _ hf l => insArgsort_mono hf l

theorem blind_list {P : Type} (cube : Bool) (vs : List (RawVec ℝ)) : Blind (P := P) (listOpt cube vs) :=
  fun _ _ _ => rfl

theorem shiftBlind_list (cube : Bool) (vs : List (RawVec ℝ)) : ShiftBlind (listOpt cube vs) := by
  intro q q' _ m hist
  simp [listOpt]

/-- C80 on the sample: doubled features, the second one moved by 1. -/
example : ∃ i l b c1 c2, hFitRoot (movedCtx (hSampleReal 0) 2 (fun d => (d : ℝ))) (some (castL [1, 1])) 9 =
    .ok (.split i ⟨castL [-4/5, 3/5], [1, 4]⟩ l b c1 c2) := by
  obtain ⟨h, -⟩ := C80_similarity (F := realFns) (c := hSampleReal 0) .classification realArith_euclidean
    realArith_comparison (blind_list _ _) two_pos (fun d => (d : ℝ)) (n := 9) (by decide) (some (castL [1, 1]))
  rw [hSampleReal_fit] at h
  simp only [Except.map, castHTree, hSampleTree, mapNode, movedTree, movedSplit, castSp] at h
  have e : (castL [1 / 2, 3 / 2]).mapIdx (fun d v => 2 * v + (d : ℝ)) = [1, 4] := by norm_num [castL]
  rw [e] at h
  exact ⟨_, _, _, _, _, h⟩

/-- Regression in one dimension with the only direction, with the first rows `x = 0, 1` and targets `a`, `b`. -/
noncomputable def hReg2On (p : NG ℝ) (a b : ℝ) (X : Nat → Nat → ℝ) (y : Nat → ℝ) : HCtx ℝ (NG ℝ) ℝ ℝ where
  A := realArith
  T := regTarget realFns
  hp := ⟨regPP p a b, 0, false, 0⟩
  opt := listOpt false [floatVec [1]]
  budget := 2
  X := X
  y := y
  nDim := 1

/-- Two rows `x = 0, 1` with targets `a`, `b`, and the only direction. -/
noncomputable def hReg2 (p : NG ℝ) (a b : ℝ) : HCtx ℝ (NG ℝ) ℝ ℝ :=
  hReg2On p a b (fun i _ => (i : ℝ)) fun i => if i = 0 then a else b

theorem regPP_gain (p : NG ℝ) (a b : ℝ) : regLogNoSplit realFns (regPP p a b) 0 [a, b] p <
    regPair realFns (regPP p a b) 0 p 1 1 [a] [b] := by
  have h1 : regPair realFns (regPP p a b) 0 p 1 1 [a] [b] =
      Real.log (regPP p a b) + ngMarginal realFns p [a] + ngMarginal realFns p [b] := by
    simp [regPair, logSplitPrior, realFns]
  rw [h1, regLogNoSplit_eq _ _ _ _ _ (by simp)]
  simp only [logStayPrior]
  show Real.log (1 - regPP p a b ^ (0 + 1)) + _ < _
  set D := 1 + ngMarginal realFns p [a, b] - ngMarginal realFns p [a] - ngMarginal realFns p [b] with hD
  have he := Real.exp_pos D
  have hpp : regPP p a b = Real.exp D / (1 + Real.exp D) := rfl
  have h1 : (1 : ℝ) - regPP p a b ^ (0 + 1) = 1 / (1 + Real.exp D) := by
    have : (1 : ℝ) + Real.exp D ≠ 0 := by linarith
    rw [hpp, zero_add, pow_one, eq_div_iff this, sub_mul, div_mul_cancel₀ _ this]; ring
  rw [h1, hpp, Real.log_div he.ne' (by linarith), Real.log_div one_ne_zero (by linarith), Real.log_exp,
    Real.log_one]
  linarith

theorem hReg2On_fit (p : NG ℝ) (a b : ℝ) {X : Nat → Nat → ℝ} {y : Nat → ℝ} (hX0 : X 0 0 = 0) (hX1 : X 1 0 = 1)
    (hy0 : y 0 = a) (hy1 : y 1 = b) : ∃ i i1 i2 l s, hFitRoot (hReg2On p a b X y) (some p) 2 =
    .ok (.split i ⟨[1], [1 / 2]⟩ l s (.leaf i1) (.leaf i2)) := by
  set q := hProblem (hReg2On p a b X y) p 0 [0, 1] with hq
  have hn : hNormal realArith q (floatVec [1]) = .ok [1] := by
    have : realArith.norm [1] = 1 := by simp [realArith]
    simp [hNormal, normalizeVec, floatVec, nanToNum, hq, hProblem, hReg2On, listOpt, this]
  have hp : hProj q [1] = [0, 1] := by simp [hProj, dot, rowVec, hq, hProblem, hReg2On, hX0, hX1, hy0, hy1]
  have hs : realArith.argsort [0, 1] = [0, 1] := by
    simp [realArith, insArgsort, insPos, exactOps, List.range_succ]
  have hsi : hSplitIndices q [1] = [1] := by
    unfold hSplitIndices
    rw [hp]
    simp [splitIndices, exactOps, npWhere, hq, hProblem, hReg2On]
  have hsc : (regTarget realFns).logSplit q.partitionPrior q.level
      ([0, 1].map fun j => q.y (q.rows.getD j 0)) q.prior q.nDim [1] =
      [regPair realFns (regPP p a b) 0 p 1 1 [a] [b]] := by
    rw [(reg_lawful realFns).logSplit_eq _ _ _ _ _ _ (by simp) (by simp)]
    simp [hq, hProblem, hReg2On, hy0, hy1]
  have hno : q.noSplit = regLogNoSplit realFns (regPP p a b) 0 [a, b] p := by
    simp [hq, hProblem, hReg2On, hy0, hy1, regTarget]
  have hc : ∃ d, hCompute realArith (regTarget realFns) q (hInit q) (floatVec [1]) =
      .ok (⟨1, regPair realFns (regPP p a b) 0 p 1 1 [a] [b], d, some ⟨[1], [1 / 2]⟩⟩,
        -regPair realFns (regPP p a b) 0 p 1 1 [a] [b]) := by
    refine ⟨hDist q ⟨[1], [1 / 2]⟩, ?_⟩
    unfold hCompute
    rw [hn]
    simp only [hp, hs, hsi, hsc, hInit, hno]
    simp only [argmax, argmaxAux, List.length_singleton, one_ne_zero, if_false, List.getElem?_cons_zero,
      (regPP_gain p a b).le, regPP_gain p a b, if_true, Nat.sub_self, List.getElem?_cons_succ]
    have ho : hOrigin q 0 1 = [1 / 2] := by simp [hOrigin, rowVec, hq, hProblem, hReg2On, hX0, hX1, hy0, hy1]
    rw [ho]
  obtain ⟨d, hc⟩ := hc
  have hsolve : hSolve realArith (regTarget realFns) q ((hReg2On p a b X y).opt.solve q) 2 [] (hInit q) =
      .ok ⟨1, regPair realFns (regPP p a b) 0 p 1 1 [a] [b], d, some ⟨[1], [1 / 2]⟩⟩ := by
    have h0 : (hReg2On p a b X y).opt.solve q [] = .eval (floatVec [1]) := rfl
    simp only [hSolve, h0, hc]
    rfl
  have hg : (regTarget realFns).getPrior (some p) [0, 1].length 1 = p := rfl
  have h1 : ([0, 1] : List Nat).filter (fun i => hyperRouter.goes1 (⟨[1], [1 / 2]⟩ : HSplit ℝ) ((hReg2On p a b X y).X i)) =
      [0] := by
    simp [hyperRouter, signedDistance, dot, rowVec, hReg2On, hX0, hX1]
    norm_num
  have h2 : ([0, 1] : List Nat).filter (fun i => hyperRouter.goes2 (⟨[1], [1 / 2]⟩ : HSplit ℝ) ((hReg2On p a b X y).X i)) =
      [1] := by
    simp [hyperRouter, signedDistance, dot, rowVec, hReg2On, hX0, hX1]
    norm_num
  refine ⟨⟨(hReg2On p a b X y).hp, some p, 0, some 1, 2, (regTarget realFns).posterior ([0, 1].map (hReg2On p a b X y).y) p 1⟩,
    hChildInfo (hReg2On p a b X y) ((regTarget realFns).posterior ([0].map (hReg2On p a b X y).y) p 0) 1 1
      ((regTarget realFns).posterior ([0].map (hReg2On p a b X y).y) p 1),
    hChildInfo (hReg2On p a b X y) ((regTarget realFns).posterior ([1].map (hReg2On p a b X y).y) p 0) 1 1
      ((regTarget realFns).posterior ([1].map (hReg2On p a b X y).y) p 1), q.noSplit,
    regPair realFns (regPP p a b) 0 p 1 1 [a] [b], ?_⟩
  have hfit : hFitRoot (hReg2On p a b X y) (some p) 2 = hFit (hReg2On p a b X y) 3 (some p) 0 [0, 1] := by
    unfold hFitRoot
    rw [show List.range 2 = [0, 1] from rfl]
    cases hFit (hReg2On p a b X y) (2 + 1) (some p) 0 [0, 1] <;> rfl
  · rw [hfit]
    unfold hFit
    dsimp only
    rw [show (hReg2On p a b X y).T.getPrior (some p) [0, 1].length (hReg2On p a b X y).nDim = p from rfl, ← hq]
    rw [show hSolve (hReg2On p a b X y).A (hReg2On p a b X y).T q ((hReg2On p a b X y).opt.solve q) (hReg2On p a b X y).budget [] (hInit q) = _
      from hsolve]
    dsimp only
    rw [h1, h2]
    rfl

theorem hReg2_fit (p : NG ℝ) (a b : ℝ) : ∃ i i1 i2 l s, hFitRoot (hReg2 p a b) (some p) 2 =
    .ok (.split i ⟨[1], [1 / 2]⟩ l s (.leaf i1) (.leaf i2)) :=
  hReg2On_fit p a b (by simp) (by simp) (by simp) (by simp)

/-- C81 on two rows that are really split, with the targets in thousands, the sign flipped, and moved by 7. -/
example : ∃ i i1 i2 l s, hFitRoot { hReg2 ⟨0, 1, 1, 1⟩ 0 1 with y := fun i => -1000 * (hReg2 ⟨0, 1, 1, 1⟩ 0 1).y i + 7 }
    (some ⟨-1000 * 0 + 7, 1, 1, (-1000) ^ 2 * 1⟩) 2 = .ok (.split i ⟨[1], [1 / 2]⟩ l s (.leaf i1) (.leaf i2)) := by
  obtain ⟨i, i1, i2, l, s, hfit⟩ := hReg2_fit ⟨0, 1, 1, 1⟩ 0 1
  obtain ⟨h, -⟩ := C81_affine (c := hReg2 ⟨0, 1, 1, 1⟩ 0 1) rfl realArith_euclidean realArith_comparison
    (shiftBlind_list _ _) (show (-1000 : ℝ) ≠ 0 by norm_num) 7 (n := 2) (by decide)
    (prior := ⟨0, 1, 1, 1⟩) ⟨by norm_num, by norm_num, by norm_num⟩
  rw [hfit] at h
  simp only [Except.map, movedTree, movedSplit] at h
  have e : ([1 / 2] : List ℝ).mapIdx (fun d v => 1 * v + 0) = [1 / 2] := by norm_num
  rw [e] at h
  exact ⟨_, _, _, _, _, h⟩

/-- C80 for differences of training rows. -/
example (a : ℝ) (ha : 0 < a) (t : Nat → ℝ) (prior : Option (List ℝ)) :
    let c : HCtx ℝ (List ℝ) ℝ (List ℝ) := { hSampleReal 0 with opt := twoPointOptimizer (counterRng ℝ) false 3 9 }
    hFitRoot (movedCtx c a t) prior 9 =
      (hFitRoot c prior 9).map (movedTree (movedCtx c a t).hp a t id fun _ => id) := by
  intro c
  exact (C80_two_point (F := realFns) (c := c) .classification realArith_euclidean realArith_comparison (counterRng ℝ)
    false 3 9 rfl ha t (by decide) prior).1

end BT
