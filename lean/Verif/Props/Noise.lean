import Verif.Lemmas.Noise
import Verif.Props.Closed
import Verif.Props.MaxLik

/-!
# C101: rounding errors of the scores matter near ties only

The scores are sums of logarithms and log-gamma values; the code computes them in floating-point arithmetic.
Here the model `T'` that is used for fitting computes them up to an error of `ε` (`Computed`), in whatever way.
-/

namespace BT
open Spec

set_option linter.unusedSectionVars false

section
variable {K : Type} [Field K] [LinearOrder K] [IsStrictOrderedRing K]
  {F : Fns K} {P O : Type} {T T' : Target K P K O} {ml : P → List K → K} {post : P → List K → P}
  {hp : Hyper K} {argsort : List K → List Nat} {X : Nat → Nat → K} {y : Nat → K} {n nDim : Nat}
  {names : List String} {prior : P} {t t' : PNode K K K P} {ε : K} {Q : P → P → Prop}

theorem Spec.Computed.noise (hT : CodeTarget F T ml post) (hδ : hp.delta = 0)
    (hc : Computed F ml hp y n nDim prior ε T')
    (hQ : ∀ L, RowList n L → Q (post prior (L.map y)) (T'.posterior (L.map y) prior 1)) :
    Noise ε Q (· = prior) (exactCtx T (mlPair F ml) hp X y nDim names) T' n where
  getPrior := by intro p m e; rw [e]; exact hc.given m
  stay := by
    intro lv L p hlv hL hp'
    rw [hp']
    have e : T.logNoSplit hp.partitionPrior lv (L.map y) prior = _ :=
      hT.textbook.stay _ _ _ _ (by simpa using hL.1)
    show |_ - T.logNoSplit hp.partitionPrior lv (L.map y) prior| ≤ ε
    rw [e]
    exact hc.stay lv L hlv hL
  len := by intro lv L p si hL hp' h1 h2; rw [hp']; exact hc.len lv L si hL h1 h2
  split := by
    intro lv L p si hlv hL hp' hsi hso i k s hi hs
    rw [hp'] at hs ⊢
    have := hc.split lv L si hlv hL hsi hso i k s hi hs
    rw [List.map_take, List.map_drop] at this
    exact this
  child h := absurd hδ h
  post := by
    intro L p hL hp'
    rw [hp']
    show Q (T.posterior (L.map y) prior 1) _
    rw [hT.textbook.post _ _ (by simpa using hL.1)]
    exact hQ L hL

theorem Spec.Alike.setHp {hp : Hyper K} (h : Alike ε Q t t') : Alike ε Q (BT.setHp hp t) t' := by
  induction h with
  | leaf i i' hl hn hp' hq => exact .leaf _ _ hl hn (by rw [hp']; cases i; simp [mapInfo]) hq
  | split i i' sp l b l' b' c1 c2 c1' c2' hl hn hp' hq hll hbb _ _ ih1 ih2 =>
    exact .split _ _ _ _ _ _ _ _ _ _ _ hl hn (by rw [hp']; cases i; simp [mapInfo]) hq hll hbb ih1 ih2

theorem rowList_range (hn : 0 < n) : RowList n (List.range n) :=
  ⟨by simp; omega, List.nodup_range, fun _ hi => List.mem_range.1 hi⟩

/-- The computed tree, before and after pruning. -/
theorem near_fit (hT : CodeTarget F T ml post) (hr : Training hp argsort n nDim) (hδ : hp.delta = 0)
    (hc : Computed F ml hp y n nDim prior ε T')
    (hQ : ∀ L, RowList n L → Q (post prior (L.map y)) (T'.posterior (L.map y) prior 1))
    (h : perpFitRoot (exactOps K) T' argsort hp (some prior) X y n nDim names = .ok t') :
    ∃ t0, NearBuilt ε Q (exactCtx T (mlPair F ml) hp X y nDim names) none prior 0 (List.range n) t0 ∧ CutOff t' t0 ∧
      (hp.prune = false → t' = t0) ∧ (hp.prune = true → t' = Spec.merge T'.predictLeaf t0) := by
  have hv := hr.valid hT (X := X) (y := y) (names := names)
  have key : ∀ t0, perpFit (exactOps K) T' hp X y nDim names (n + 1) (some prior) 0
      (sortMatrix argsort X n nDim) = .ok t0 →
      NearBuilt ε Q (exactCtx T (mlPair F ml) hp X y nDim names) none prior 0 (List.range n) t0 := fun t0 h0 =>
    perpFit_near (hc.noise hT hδ hQ) hv.ops hv.target hv.dims (n + 1) none prior 0 _ _
      (sortMatrix_good hv.sort X n nDim hv.vals hv.rows) (fun _ _ _ _ => trivial) (rowList_range hr.someRow) rfl
      (by simp) (by simp) t0 h0
  unfold perpFitRoot at h
  cases h0 : perpFit (exactOps K) T' hp X y nDim names (n + 1) (some prior) 0 (sortMatrix argsort X n nDim) with
  | error e => rw [h0] at h; cases h
  | ok t0 =>
    rw [h0] at h
    cases hpr : hp.prune with
    | false =>
      rw [hpr] at h
      cases h
      exact ⟨_, key _ h0, CutOff.refl _, fun _ => rfl, by simp⟩
    | true =>
      rw [hpr] at h
      have h' : prune T'.predictLeaf t0 = .ok t' := h
      rw [prune_eq] at h'
      cases h'
      exact ⟨_, key _ h0, CutOff.merge _ _, by simp, fun _ => rfl⟩

/-- C101: whatever the errors, `fit` returns a tree. -/
theorem C101_terminates (hT : CodeTarget F T ml post) (hr : Training hp argsort n nDim) (hδ : hp.delta = 0)
    (hc : Computed F ml hp y n nDim prior ε T') (hnames : nDim ≤ names.length) :
    ∃ t', perpFitRoot (exactOps K) T' argsort hp (some prior) X y n nDim names = .ok t' := by
  have hv := hr.valid hT (X := X) (y := y) (names := names)
  obtain ⟨t0, h0⟩ := perpFit_near_total (Q := fun _ _ => True) (hc.noise hT hδ fun _ _ => trivial) hv.ops hv.target
    hv.dims hnames (n + 1) prior 0 _ _ (sortMatrix_good hv.sort X n nDim hv.vals hv.rows) (fun _ _ _ _ => trivial)
    (rowList_range hr.someRow) rfl (by simp) (by simp)
  have h0' : perpFit (exactOps K) T' hp X y nDim names (n + 1) (some prior) 0 (sortMatrix argsort X n nDim) = .ok t0 :=
    h0
  unfold perpFitRoot
  rw [h0']
  cases hpr : hp.prune with
  | false => exact ⟨t0, rfl⟩
  | true => exact ⟨_, prune_eq _ _⟩

/-- What is known of a node of the computed tree. -/
theorem near_node (hT : CodeTarget F T ml post) (hr : Training hp argsort n nDim) (hδ : hp.delta = 0)
    (hc : Computed F ml hp y n nDim prior ε T')
    (h : perpFitRoot (exactOps K) T' argsort hp (some prior) X y n nDim names = .ok t')
    (addr : List Bool) (u : PNode K K K P) (hu : nodeAt t' addr = some u) :
    ∃ par u0, NearBuilt ε (fun _ _ => True) (exactCtx T (mlPair F ml) hp X y nDim names) par prior addr.length
        (rowsAt X t' n addr) u0 ∧ (addr ≠ [] → par.isSome) ∧
      u.info = u0.info ∧
      (∀ i sp l b c1 c2, u = .split i sp l b c1 c2 → ∃ d1 d2, u0 = .split i sp l b d1 d2) ∧
      (hp.prune = false → u = u0) := by
  have hv := hr.valid hT (X := X) (y := y) (names := names)
  obtain ⟨t0, hb, hco, hpr, -⟩ := near_fit (Q := fun _ _ => True) hT hr hδ hc (fun _ _ => trivial) h
  obtain ⟨u0, h0, e, hs⟩ := hco.node addr u hu
  obtain ⟨par', hB, -, hne⟩ := hb.at hv.ops hδ (fun _ _ _ _ => trivial) addr u0 h0
  rw [Nat.zero_add] at hB
  have e2 : rowsAt X t' n addr = (List.range n).filter fun i => passes (perpRouter (exactOps K)) t0 addr (X i) :=
    List.filter_congr fun i _ => by rw [← passes_eq]; exact hco.passes _ addr u hu (X i)
  rw [e2]
  refine ⟨par', u0, hB, fun hn => by rw [hne hn]; rfl, e, hs, fun hp' => ?_⟩
  have e := hpr hp'
  subst e
  rw [hu] at h0
  exact Option.some.inj h0

theorem stay_exact (hT : CodeTarget F T ml post) {p : P} (lv : Nat) {R : List Nat} (hR : R ≠ []) :
    (exactCtx T (mlPair F ml) hp X y nDim names).noSplit (some p) lv R = stayScore F ml hp y p lv R :=
  stay_closed hT lv hR

/-- C101: every split of the computed tree is, in exact arithmetic, within `2 ε` of the best choice: no cut of
the rows that reach the node, and not cutting neither, has a score that exceeds it by more.  The stored
likelihoods are within `ε` of the exact ones. -/
theorem C101_split (hT : CodeTarget F T ml post) (hr : Training hp argsort n nDim) (hδ : hp.delta = 0)
    (hc : Computed F ml hp y n nDim prior ε T')
    (h : perpFitRoot (exactOps K) T' argsort hp (some prior) X y n nDim names = .ok t')
    (addr : List Bool) (i : Info K P) (sp : PSplit K) (l b : K) (c1 c2 : PNode K K K P)
    (hu : nodeAt t' addr = some (.split i sp l b c1 c2)) :
    let R := rowsAt X t' n addr
    i.nData = R.length ∧ sp.dim < nDim ∧
    ∃ a c, IsCut hp.splitPrecision X R sp.dim a c ∧ sp.value = (a + c) / 2 ∧
      |l - stayScore F ml hp y prior addr.length R| ≤ ε ∧
      |b - perpCutScore F ml hp X y nDim prior addr.length R sp.dim a| ≤ ε ∧
      stayScore F ml hp y prior addr.length R < perpCutScore F ml hp X y nDim prior addr.length R sp.dim a + 2 * ε ∧
      ∀ d < nDim, ∀ a' c', IsCut hp.splitPrecision X R d a' c' →
        perpCutScore F ml hp X y nDim prior addr.length R d a'
          ≤ perpCutScore F ml hp X y nDim prior addr.length R sp.dim a + 2 * ε := by
  intro R
  obtain ⟨par, u0, hB, -, e, hs, -⟩ := near_node hT hr hδ hc h addr _ hu
  obtain ⟨d1, d2, rfl⟩ := hs _ _ _ _ _ _ rfl
  cases hB with
  | split _ _ _ _ d cut name post' _ _ _ _ hdiv hq hd hcut hl hb hlb hmax hname h1 h2 =>
    have hcut' := (isCut_iff hr.precision X _ _ cut).1 hcut
    have hne : rowsAt X t' n addr ≠ [] := by
      obtain ⟨⟨j, hj, -⟩, -⟩ := hcut'
      exact List.ne_nil_of_mem hj
    rw [stay_exact hT _ hne] at hl
    rw [score_closed hT hr] at hb
    refine ⟨rfl, hd, cut.1, cut.2, hcut', ?_, hl, hb, ?_, fun d' hd' a' c' hac => ?_⟩
    · show (1 / 2) * (cut.1 + cut.2) = _
      ring
    · have g1 := (abs_le.1 hl).1
      have g2 := (abs_le.1 hb).2
      show _ < perpCutScore F ml hp X y nDim prior addr.length (rowsAt X t' n addr) d cut.1 + 2 * ε
      linarith
    · have g := hmax d' hd' (a', c') ((isCut_iff hr.precision X R d' (a', c')).2 hac)
      rw [score_closed hT hr] at g
      have g2 := (abs_le.1 hb).2
      show perpCutScore F ml hp X y nDim prior addr.length (rowsAt X t' n addr) d' a' ≤
        perpCutScore F ml hp X y nDim prior addr.length (rowsAt X t' n addr) d cut.1 + 2 * ε
      linarith

/-- C101: a leaf of the unpruned computed tree has one row, or one common target, or no cut of its rows exceeds
the exact score of not cutting by more than `2 ε`. -/
theorem C101_leaf (hT : CodeTarget F T ml post) (hr : Training hp argsort n nDim) (hδ : hp.delta = 0)
    (hpr : hp.prune = false) (hc : Computed F ml hp y n nDim prior ε T')
    (h : perpFitRoot (exactOps K) T' argsort hp (some prior) X y n nDim names = .ok t')
    (addr : List Bool) (i : Info K P) (hu : nodeAt t' addr = some (.leaf i)) :
    let R := rowsAt X t' n addr
    i.nData = R.length ∧
    (R.length ≤ 1 ∨ (∀ j ∈ R, ∀ k ∈ R, y j = y k) ∨
      ∀ d < nDim, ∀ a c, IsCut hp.splitPrecision X R d a c →
        perpCutScore F ml hp X y nDim prior addr.length R d a
          ≤ stayScore F ml hp y prior addr.length R + 2 * ε) := by
  intro R
  obtain ⟨par, u0, hB, -, e, -, hs⟩ := near_node hT hr hδ hc h addr _ hu
  obtain rfl := hs hpr
  cases hB with
  | direct _ _ _ _ post' hsmall hq =>
    refine ⟨rfl, ?_⟩
    by_cases h1 : R.length ≤ 1
    · exact .inl h1
    · refine .inr (.inl fun j hj k hk => ?_)
      by_contra hne
      exact hsmall ⟨not_le.1 h1, j, hj, k, hk, hne⟩
  | stay _ _ _ _ post' hd hq hno =>
    refine ⟨rfl, .inr (.inr fun d hd a c hac => ?_)⟩
    have g := hno d hd (a, c) ((isCut_iff hr.precision X R d (a, c)).2 hac)
    have hne : rowsAt X t' n addr ≠ [] := by
      obtain ⟨⟨j, hj, -⟩, -⟩ := hac
      exact List.ne_nil_of_mem hj
    rw [score_closed hT hr, stay_exact hT _ hne] at g
    exact g

/-- C101: the exact unpruned tree and the computed one before pruning, if all decisions are clear. -/
theorem clear_same (hT : CodeTarget F T ml post) (hr : Training hp argsort n nDim) (hδ : hp.delta = 0)
    (h : perpFitRoot (exactOps K) T argsort { hp with prune := false } (some prior) X y n nDim names = .ok t)
    (hclear : Clear F ml hp X y n nDim prior ε t) {t0 : PNode K K K P}
    (hn : NearBuilt ε Q (exactCtx T (mlPair F ml) hp X y nDim names) none prior 0 (List.range n) t0) :
    Alike ε Q t t0 := by
  have hr' : Training { hp with prune := false } argsort n nDim := ⟨hr.precision, hr.sort, hr.someRow, hr.rows, hr.dims⟩
  have hv := hr'.valid hT (X := X) (y := y) (names := names)
  have hb := fit_built hv rfl h
  have hpr : ∀ addr u, nodeAt t addr = some u → u.info.prior = some prior := fun addr u hu =>
    same_prior hT hr' hδ h hu
  refine clear_alike hT.textbook.lawful hr.precision hb rfl hn (fun _ => rfl) ?_ ?_
  · intro addr i hu hor d hd cut hcut
    rw [Nat.zero_add] at hor ⊢
    have hcut' := (isCut_iff hr.precision X _ _ cut).1 hcut
    have hne : rowsAt X t n addr ≠ [] := by
      obtain ⟨⟨j, hj, -⟩, -⟩ := hcut'
      exact List.ne_nil_of_mem hj
    rw [show i.prior = some prior from hpr addr _ hu]
    have := hclear.1 addr i hu (hor.imp (fun h0 => List.length_eq_zero_iff.1 h0) fun h0 => h0.2) d hd cut.1 cut.2 hcut'
    rw [← score_closed hT hr (names := names), ← stay_exact hT (X := X) (nDim := nDim) (names := names) _ hne] at this
    exact this
  · intro addr i sp l b c1 c2 hu
    obtain ⟨h1, h2⟩ := hclear.2 addr i sp l b c1 c2 hu
    refine ⟨h1, fun d hd cut hcut hne => ?_⟩
    have hcut' := (isCut_iff hr.precision X _ _ cut).1 hcut
    rw [Nat.zero_add, show i.prior = some prior from hpr addr _ hu]
    have := h2 d hd cut.1 cut.2 hcut' (fun ⟨g1, g2⟩ => hne ⟨g1, by
      rw [← g2]
      show (1 / 2) * (cut.1 + cut.2) = _
      ring⟩)
    rw [← score_closed hT hr (names := names)] at this
    exact this

/-- C101: if all decisions of the exact tree are clear by more than `2 ε`, the computed tree has the same splits,
sizes and levels, and likelihoods that differ by at most `ε`; its posteriors are as precise as they are computed. -/
theorem C101_same (hT : CodeTarget F T ml post) (hr : Training hp argsort n nDim) (hδ : hp.delta = 0)
    (hpr : hp.prune = false) (hc : Computed F ml hp y n nDim prior ε T')
    (hQ : ∀ L, RowList n L → Q (post prior (L.map y)) (T'.posterior (L.map y) prior 1))
    (h : perpFitRoot (exactOps K) T argsort hp (some prior) X y n nDim names = .ok t)
    (h' : perpFitRoot (exactOps K) T' argsort hp (some prior) X y n nDim names = .ok t')
    (hclear : Clear F ml hp X y n nDim prior ε t) : Alike ε Q t t' := by
  obtain ⟨t0, hn, -, e, -⟩ := near_fit hT hr hδ hc hQ h'
  obtain rfl := e hpr
  refine clear_same hT hr hδ ?_ hclear hn
  rw [show ({ hp with prune := false } : Hyper K) = hp by rw [← hpr]]
  exact h

/-- C101: then the predictions are the same for all rows, pruned or not, provided the leaf predictions are. -/
theorem C101_predict (hT : CodeTarget F T ml post) (hr : Training hp argsort n nDim) (hδ : hp.delta = 0)
    (hc : Computed F ml hp y n nDim prior ε T')
    (hQ : ∀ L, RowList n L →
      T'.predictLeaf (T'.posterior (L.map y) prior 1) = T.predictLeaf (post prior (L.map y)))
    {t0 : PNode K K K P}
    (h0 : perpFitRoot (exactOps K) T argsort { hp with prune := false } (some prior) X y n nDim names = .ok t0)
    (hclear : Clear F ml hp X y n nDim prior ε t0)
    (h : perpFitRoot (exactOps K) T argsort hp (some prior) X y n nDim names = .ok t)
    (h' : perpFitRoot (exactOps K) T' argsort hp (some prior) X y n nDim names = .ok t')
    (Z : Nat → Nat → K) (m : Nat) :
    predict (perpRouter (exactOps K)) T' t' Z m = predict (perpRouter (exactOps K)) T t Z m := by
  obtain ⟨tn, hn, -, e1, e2⟩ := near_fit (Q := fun p p' => T'.predictLeaf p' = T.predictLeaf p) hT hr hδ hc hQ h'
  have ha := clear_same hT hr hδ h0 hclear hn
  have hA : Alike ε (fun p p' => T'.predictLeaf p' = T.predictLeaf p) t t' := by
    cases hpr : hp.prune with
    | false =>
      rw [show ({ hp with prune := false } : Hyper K) = hp by rw [← hpr]] at h0
      have e : t0 = t := Except.ok.inj (h0.symm.trans h)
      rw [e1 hpr, ← e]
      exact ha
    | true =>
      have e : t = Spec.merge T.predictLeaf (setHp hp t0) := by
        have g := C21_fit (c := exactCtx T (mlPair F ml) hp X y nDim names) (hr.valid hT) hr.someRow h0
        have e3 : withPrune (exactCtx T (mlPair F ml) hp X y nDim names) true =
            exactCtx T (mlPair F ml) hp X y nDim names := by
          unfold withPrune exactCtx
          rw [← hpr]
        rw [e3] at g
        exact Except.ok.inj (h.symm.trans g)
      rw [e, e2 hpr]
      exact ha.setHp.merge fun _ _ hq => hq
  obtain ⟨l1, g1⟩ := C01_predict_is_walk (perpRouter (exactOps K)) (exact_exclusive) T t Z m
  obtain ⟨l2, g2⟩ := C01_predict_is_walk (perpRouter (exactOps K)) (exact_exclusive) T' t' Z m
  refine List.ext_getElem? fun i => ?_
  by_cases hi : i < m
  · rw [g1 i hi, g2 i hi]
    rcases hA.walk (perpRouter (exactOps K)) (Z i) with ⟨w1, w2⟩ | ⟨j, j', w1, w2, hq⟩
    · rw [w1, w2]
    · rw [w1, w2]
      exact congrArg some hq
  · rw [List.getElem?_eq_none (by omega), List.getElem?_eq_none (by omega)]

end

/-- A target model whose scores are wrong by `e` and `f`, which may depend on the order of the targets. -/
def perturbed {K P O : Type} [Add K] (T : Target K P K O) (e : List K → K) (f : List K → Nat → K) : Target K P K O :=
  { T with
    logNoSplit := fun pp lv ys p => T.logNoSplit pp lv ys p + e ys
    logSplit := fun pp lv ys p nd si => (T.logSplit pp lv ys p nd si).mapIdx fun i s => s + f ys i }

/-- `Computed` covers all errors up to `ε`. -/
theorem perturbed_computed {K : Type} [Field K] [LinearOrder K] [IsStrictOrderedRing K] {F : Fns K} {P O : Type}
    {T : Target K P K O} {ml : P → List K → K} {post : P → List K → P} (hT : CodeTarget F T ml post) (hp : Hyper K)
    (y : Nat → K) (n nDim : Nat) (prior : P) {ε : K} {e : List K → K} {f : List K → Nat → K}
    (he : ∀ ys, |e ys| ≤ ε) (hf : ∀ ys i, |f ys i| ≤ ε) :
    Computed F ml hp y n nDim prior ε (perturbed T e f) where
  given := fun m => hT.textbook.lawful.getPrior_some prior m nDim
  stay := by
    intro lv L _ hL
    have e1 : T.logNoSplit hp.partitionPrior lv (L.map y) prior = _ :=
      hT.textbook.stay _ _ _ _ (by simpa using hL.1)
    show |T.logNoSplit hp.partitionPrior lv (L.map y) prior + e (L.map y) - _| ≤ ε
    rw [e1, add_sub_cancel_left]
    exact he _
  len := by
    intro lv L si hL h1 h2
    show (List.mapIdx _ (T.logSplit _ _ _ _ _ _)).length = _
    rw [List.length_mapIdx, hT.textbook.lawful.logSplit_eq _ _ _ _ _ _ (by simpa using h1) h2, List.length_map]
  split := by
    intro lv L si _ hL h1 h2 i k s hi hs
    have hs' : (List.mapIdx (fun i s => s + f (L.map y) i)
      (T.logSplit hp.partitionPrior lv (L.map y) prior nDim si))[i]? = some s := hs
    rw [hT.textbook.lawful.logSplit_eq _ _ _ _ _ _ (by simpa using h1) h2, List.getElem?_mapIdx, List.getElem?_map,
      hi] at hs'
    have hs2 := Option.some.inj hs'
    rw [← hs2, List.map_take, List.map_drop, add_sub_cancel_left]
    exact hf _ _

/-! ## Two rows with different labels -/

/-- Two rows, one feature. -/
def twoX : Nat → Nat → ℝ := fun i _ => (i : ℝ)

/-- Their labels 0 and 1. -/
def twoY : Nat → ℝ := fun i => (i : ℝ)

/-- Parameters of the example. -/
noncomputable def twoHp (prune : Bool) : Hyper ℝ := ⟨9 / 10, 0, prune, 0⟩

theorem two_training (q : Bool) : Training (twoHp q) realSort 2 1 :=
  ⟨le_refl _, realSort_sorts, by decide, by decide, by decide⟩

theorem two_marginal : dirichletMarginal realFns [1, 1] [0, 1] = Real.log (1 / 6) ∧
    dirichletMarginal realFns [1, 1] [0] = Real.log (1 / 2) ∧
    dirichletMarginal realFns [1, 1] [1] = Real.log (1 / 2) := by
  have h : ProperDirichlet [1, 1] := ⟨by simp, by simp⟩
  rw [dirichletMarginal_real h.1 h.2, dirichletMarginal_real h.1 h.2, dirichletMarginal_real h.1 h.2]
  refine ⟨congrArg _ ?_, congrArg _ ?_, congrArg _ ?_⟩ <;>
  · simp [dirMult, rising, count, List.range_succ]
    try norm_num

theorem two_cut {d : Nat} {a c : ℝ} {R : List Nat} (hR : ∀ i ∈ R, i < 2) (h : IsCut 0 twoX R d a c) :
    a = 0 ∧ c = 1 ∧ 0 ∈ R ∧ 1 ∈ R := by
  obtain ⟨⟨i, hi, rfl⟩, ⟨j, hj, rfl⟩, hlt, -, -⟩ := h
  have := hR i hi
  have := hR j hj
  have hij : i < j := by simpa [twoX] using hlt
  have : i = 0 := by omega
  have : j = 1 := by omega
  subst i j
  exact ⟨by simp [twoX], by simp [twoX], hi, hj⟩

theorem two_isCut (d : Nat) : IsCut 0 twoX [0, 1] d 0 1 := by
  refine ⟨⟨0, by simp, by simp [twoX]⟩, ⟨1, by simp, by simp [twoX]⟩, by norm_num, by norm_num, ?_⟩
  intro i hi
  simp at hi
  rcases hi with rfl | rfl <;> simp [twoX]

theorem two_scores (q : Bool) :
    stayScore realFns (dirichletMarginal realFns) (twoHp q) twoY [1, 1] 0 [0, 1] = Real.log (1 / 60) ∧
    perpCutScore realFns (dirichletMarginal realFns) (twoHp q) twoX twoY 1 [1, 1] 0 [0, 1] 0 0 = Real.log (9 / 40) := by
  obtain ⟨h1, h2, h3⟩ := two_marginal
  have e : ∀ x, realFns.log x = Real.log x := fun _ => rfl
  constructor
  · unfold stayScore
    rw [show [0, 1].map twoY = [0, 1] by simp [twoY], h1, e, ← Real.log_mul (by norm_num [twoHp]) (by norm_num)]
    norm_num [twoHp]
  · unfold perpCutScore
    have hc : cutCount (twoHp q).splitPrecision twoX [0, 1] 0 = 1 := by
      have hd : ([0, 1] : List ℝ).dedup = [0, 1] := by simp
      simp [cutCount, twoX, twoHp, hd]
    have f1 : ([0, 1].filter fun i => decide (twoX i 0 ≤ 0)) = [0] := by simp [twoX]
    have f2 : ([0, 1].filter fun i => decide (0 < twoX i 0)) = [1] := by simp [twoX]
    rw [hc, f1, f2, show [0].map twoY = [0] by simp [twoY], show [1].map twoY = [1] by simp [twoY], h2, h3, e,
      ← Real.log_mul (by norm_num [twoHp]) (by norm_num), ← Real.log_mul (by norm_num [twoHp]) (by norm_num)]
    norm_num [twoHp]

theorem two_gap : Real.log (1 / 60) + 2 * (1 / 10) < Real.log (9 / 40) := by
  have h := Real.one_sub_inv_le_log_of_pos (x := (9 / 40) / (1 / 60)) (by norm_num)
  rw [Real.log_div (by norm_num) (by norm_num)] at h
  norm_num at h ⊢
  linarith

theorem two_rows {t : PNode ℝ ℝ ℝ (List ℝ)} : rowsAt twoX t 2 [] = [0, 1] := by
  simp [rowsAt, follows, List.range_succ]

theorem two_both {q : Bool} {t : PNode ℝ ℝ ℝ (List ℝ)}
    (h : perpFitRoot (exactOps ℝ) (clsTarget realFns) realSort (twoHp q) (some [1, 1]) twoX twoY 2 1 ["x"] = .ok t)
    {addr : List Bool} (h0 : 0 ∈ rowsAt twoX t 2 addr) (h1 : 1 ∈ rowsAt twoX t 2 addr) : addr = [] := by
  have hT : CodeTarget realFns (clsTarget realFns) (dirichletMarginal realFns) dirichletPosterior := .classification
  cases addr with
  | nil => rfl
  | cons b bs =>
    cases t with
    | leaf i => simp [rowsAt, follows] at h0
    | split i sp l b' c1 c2 =>
      obtain ⟨p, -, -, -, -, ⟨a, c, hac, hv, -⟩, -⟩ :=
        C13_closed hT (two_training q) h [] i sp l b' c1 c2 (nodeAt_nil _)
      obtain ⟨rfl, rfl, -, -⟩ := two_cut (fun i hi => rowsAt_lt i hi) hac
      have g0 := (List.mem_filter.1 h0).2
      have g1 := (List.mem_filter.1 h1).2
      simp only [follows, hv, twoX] at g0 g1
      norm_num at g0 g1
      simp [g1.1] at g0

theorem two_clear {q : Bool} {t : PNode ℝ ℝ ℝ (List ℝ)}
    (h : perpFitRoot (exactOps ℝ) (clsTarget realFns) realSort (twoHp false) (some [1, 1]) twoX twoY 2 1 ["x"] = .ok t) :
    Clear realFns (dirichletMarginal realFns) (twoHp q) twoX twoY 2 1 [1, 1] (1 / 10) t := by
  have hT : CodeTarget realFns (clsTarget realFns) (dirichletMarginal realFns) dirichletPosterior := .classification
  obtain ⟨s1, s2⟩ := two_scores false
  obtain ⟨r1, r2⟩ := two_scores q
  have gap := two_gap
  constructor
  · intro addr i hu hor d hd a c hac
    obtain ⟨-, -, h0, h1⟩ := two_cut (fun i hi => rowsAt_lt i hi) hac
    obtain rfl := two_both h h0 h1
    rcases C14_closed hT (two_training false) rfl h [] i hu with g | g | ⟨p', hp', g⟩
    · rw [two_rows] at g; simp at g
    · have := g 0 (by rw [two_rows]; simp) 1 (by rw [two_rows]; simp)
      norm_num [twoY] at this
    · have := same_prior hT (two_training false) rfl h hu
      obtain rfl : p' = [1, 1] := Option.some.inj (hp'.symm.trans this)
      have g' := g 0 (by decide) 0 1 (by rw [two_rows]; exact two_isCut 0)
      rw [two_rows, List.length_nil, s1, s2] at g'
      linarith
  · intro addr i sp l b c1 c2 hu
    obtain ⟨p', hp', g1, g2, hdim, ⟨a, c, hac, hv, hb⟩, -⟩ :=
      C13_closed hT (two_training false) h addr i sp l b c1 c2 hu
    have := same_prior hT (two_training false) rfl h hu
    obtain rfl : p' = [1, 1] := Option.some.inj (hp'.symm.trans this)
    have hd : sp.dim = 0 := by omega
    obtain ⟨rfl, rfl, h0, h1⟩ := two_cut (fun i hi => rowsAt_lt i hi) hac
    obtain rfl := two_both h h0 h1
    refine ⟨?_, fun d hd' a' c' hac' hne => ?_⟩
    · rw [g1, hb, hd, two_rows, List.length_nil, s1, s2]
      exact gap
    · obtain ⟨rfl, rfl, -, -⟩ := two_cut (fun i hi => rowsAt_lt i hi) hac'
      exact absurd ⟨by omega, hv.symm⟩ hne

/-- C101 on two rows: any errors up to 1/10 leave the predictions unchanged, with and without pruning. -/
example (e : List ℝ → ℝ) (f : List ℝ → Nat → ℝ) (he : ∀ ys, |e ys| ≤ 1 / 10) (hf : ∀ ys i, |f ys i| ≤ 1 / 10)
    (q : Bool) (Z : Nat → Nat → ℝ) (m : Nat) :
    ∃ t t', perpFitRoot (exactOps ℝ) (clsTarget realFns) realSort (twoHp q) (some [1, 1]) twoX twoY 2 1 ["x"] = .ok t ∧
      perpFitRoot (exactOps ℝ) (perturbed (clsTarget realFns) e f) realSort (twoHp q) (some [1, 1]) twoX twoY 2 1 ["x"]
        = .ok t' ∧
      predict (perpRouter (exactOps ℝ)) (perturbed (clsTarget realFns) e f) t' Z m =
        predict (perpRouter (exactOps ℝ)) (clsTarget realFns) t Z m := by
  have hT : CodeTarget realFns (clsTarget realFns) (dirichletMarginal realFns) dirichletPosterior := .classification
  have tot : ∀ q, ∃ t, perpFitRoot (exactOps ℝ) (clsTarget realFns) realSort (twoHp q) (some [1, 1]) twoX twoY 2 1
      ["x"] = .ok t := by
    intro q
    have hc : Computed realFns (dirichletMarginal realFns) (twoHp q) twoY 2 1 [1, 1] 0 (clsTarget realFns) := by
      have := perturbed_computed hT (twoHp q) twoY 2 1 [1, 1] (ε := 0) (e := fun _ => 0) (f := fun _ _ => 0)
        (by simp) (by simp)
      have e0 : perturbed (clsTarget realFns) (fun _ => 0) (fun _ _ => 0) = clsTarget realFns := by
        have e1 : ∀ l : List ℝ, (l.mapIdx fun _ s => s) = l := fun l => by
          refine List.ext_getElem? fun i => ?_
          simp
        unfold perturbed
        simp only [add_zero, e1]
      rwa [e0] at this
    exact C101_terminates hT (two_training q) rfl hc (by decide)
  have hc := perturbed_computed hT (twoHp q) twoY 2 1 [1, 1] he hf
  obtain ⟨t, h⟩ := tot q
  obtain ⟨t0, h0⟩ := tot false
  obtain ⟨t', h'⟩ := C101_terminates (X := twoX) (names := ["x"]) hT (two_training q) rfl hc (by decide)
  refine ⟨t, t', h, h', C101_predict hT (two_training q) rfl hc (fun L hL => ?_) h0 (two_clear h0) h h' Z m⟩
  show (clsTarget realFns).predictLeaf ((clsTarget realFns).posterior (L.map twoY) [1, 1] 1) = _
  rw [hT.textbook.post _ _ (by simpa using hL.1)]

/-- C101 on two rows: the root is really split, errors or not. -/
example (e : List ℝ → ℝ) (f : List ℝ → Nat → ℝ) (he : ∀ ys, |e ys| ≤ 1 / 10) (hf : ∀ ys i, |f ys i| ≤ 1 / 10)
    (t : PNode ℝ ℝ ℝ (List ℝ))
    (h : perpFitRoot (exactOps ℝ) (perturbed (clsTarget realFns) e f) realSort (twoHp false) (some [1, 1]) twoX twoY 2 1
      ["x"] = .ok t) : t.isLeaf = false := by
  have hT : CodeTarget realFns (clsTarget realFns) (dirichletMarginal realFns) dirichletPosterior := .classification
  cases t with
  | split i sp l b c1 c2 => rfl
  | leaf i =>
    exfalso
    obtain ⟨s1, s2⟩ := two_scores false
    obtain ⟨-, g | g | g⟩ := C101_leaf hT (two_training false) rfl rfl
      (perturbed_computed hT (twoHp false) twoY 2 1 [1, 1] he hf) h [] i (nodeAt_nil _)
    · rw [two_rows] at g; simp at g
    · have := g 0 (by rw [two_rows]; simp) 1 (by rw [two_rows]; simp)
      norm_num [twoY] at this
    · have g' := g 0 (by decide) 0 1 (by rw [two_rows]; exact two_isCut 0)
      rw [two_rows, List.length_nil, s1, s2] at g'
      linarith [two_gap]

end BT
