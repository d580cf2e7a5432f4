import Verif.Props.Transform
import Verif.Props.Child

/-!
# C79 with ties: what the order of the columns cannot change
-/

namespace BT
open Spec

section
variable {K : Type} [Field K] [LinearOrder K] [IsStrictOrderedRing K]
variable {F : Fns K} {P O : Type} {T : Target K P K O} {ml : P → List K → K} {post : P → List K → P}
  {hp : Hyper K} {argsort argsort' : List K → List Nat} {X : Nat → Nat → K} {y : Nat → K} {n nDim : Nat}
  {names names' : List String} {prior : P} {t t' : PNode K K K P}

/-- A leaf of an unpruned tree either is not the root and has one common target, or no cut beats not
cutting. -/
theorem leaf_reason (hT : CodeTarget F T ml post) (hr : Training hp argsort n nDim) (hpr : hp.prune = false)
    (h : perpFitRoot (exactOps K) T argsort hp (some prior) X y n nDim names = .ok t)
    {addr : List Bool} {i : Info K P} (hu : nodeAt t addr = some (.leaf i)) {p : P} (hp' : i.prior = some p) :
    let R := rowsAt X t n addr
    (addr ≠ [] ∧ ∀ j ∈ R, ∀ k ∈ R, y j = y k) ∨
    ∀ d < nDim, ∀ a c, IsCut hp.splitPrecision X R d a c →
      perpCutScore F ml hp X y nDim p addr.length R d a ≤ stayScore F ml hp y p addr.length R := by
  intro R
  have hv := hr.valid hT (X := X) (y := y) (names := names)
  have hne := rowsAt_ne_nil hT hr h hu
  rcases C86_which hT hr h addr _ hu with ⟨hd, -⟩ | ⟨-, hne', hsame⟩
  · right
    have hlv : i.level = addr.length := (C19_hyper hv hr.someRow h addr _ hu).2
    obtain ⟨par, pa, u0, hB, hi, -, he, -⟩ := fit_node hv h hu
    have e := he hpr
    subst e
    rw [show ((List.range n).filter fun i => passes (perpRouter (exactCtx T (mlPair F ml) hp X y nDim names).o) t addr
      ((exactCtx T (mlPair F ml) hp X y nDim names).X i)) = rowsAt X t n addr from
      routed_eq T (mlPair F ml) hp X y nDim names t n addr] at hB
    cases hB with
    | direct => cases hd
    | stay par pa lv _ hdiv hno =>
      have hp' : pa = some p := hp'
      subst hp'
      intro d hd' a c hac
      have := hno d hd' (a, c) ((isCut_iff hr.precision X R d (a, c)).2 hac)
      rw [stay_closed hT _ hne, score_closed hT hr] at this
      exact this
  · exact .inl ⟨hne', hsame⟩

/-- One direction of `C79_same_rows_partial`. -/
theorem columns_split (hT : CodeTarget F T ml post) (hr : Training hp argsort n nDim)
    (hr' : Training hp argsort' n nDim) (hpr : hp.prune = false) {X' : Nat → Nat → K} (τ : Nat → Nat)
    (hτ : ∀ d < nDim, τ d < nDim ∧ ∀ i, X' i (τ d) = X i d)
    (h : perpFitRoot (exactOps K) T argsort hp (some prior) X y n nDim names = .ok t)
    (h' : perpFitRoot (exactOps K) T argsort' hp (some prior) X' y n nDim names' = .ok t')
    {addr addr' : List Bool} {i : Info K P} {sp : PSplit K} {l b : K} {c1 c2 : PNode K K K P} {u' : PNode K K K P}
    (hu : nodeAt t addr = some (.split i sp l b c1 c2)) (hu' : nodeAt t' addr' = some u')
    (hlen : addr.length = addr'.length) (hrows : rowsAt X t n addr = rowsAt X' t' n addr')
    (hprior : i.prior = u'.info.prior) :
    ∃ i' sp' b' c1' c2', u' = .split i' sp' l b' c1' c2' ∧ b ≤ b' := by
  obtain ⟨p, e1, e2, e3, e4, ⟨a, c, hac, -, eb⟩, -⟩ := C13_closed hT hr h addr i sp l b c1 c2 hu
  have hcol : (fun i => X' i (τ sp.dim)) = fun i => X i sp.dim := funext (hτ _ e4).2
  have hcut : IsCut hp.splitPrecision X' (rowsAt X' t' n addr') (τ sp.dim) a c := by
    rw [← hrows]
    simpa only [IsCut, (hτ _ e4).2] using hac
  have hscore : perpCutScore F ml hp X' y nDim p addr'.length (rowsAt X' t' n addr') (τ sp.dim) a = b := by
    rw [eb, ← hrows, ← hlen]
    simp only [perpCutScore, cutCount, (hτ _ e4).2]
  cases u' with
  | leaf i' =>
    have hprior : i'.prior = some p := hprior.symm.trans e1
    exfalso
    rcases leaf_reason hT hr' hpr h' hu' hprior with ⟨hne, hsame⟩ | hno
    · have hne : addr ≠ [] := by
        rintro rfl
        exact hne (List.length_eq_zero_iff.1 hlen.symm)
      rcases C86_which hT hr h addr _ hu with ⟨-, hc⟩ | ⟨hc, -⟩
      · rcases hc with hc | ⟨j, hj, k, hk, hjk⟩
        · exact hne hc
        · rw [hrows] at hj hk
          exact hjk (hsame j hj k hk)
      · have hv := hr.valid hT (X := X) (y := y) (names := names)
        obtain ⟨par, pa, u0, hB, hi, -, he, -⟩ := fit_node hv h hu
        have e := he hpr
        subst e
        cases hB with
        | split => cases hc
    · have := hno _ (hτ _ e4).1 a c hcut
      rw [hscore, ← hrows, ← hlen, ← e2] at this
      exact absurd e3 (not_lt.2 this)
  | split i' sp' l' b' c1' c2' =>
    have hprior : i'.prior = some p := hprior.symm.trans e1
    obtain ⟨p', f1, f2, f3, f4, -, hmax⟩ := C13_closed hT hr' h' addr' i' sp' l' b' c1' c2' hu'
    obtain rfl : p' = p := Option.some.inj (f1.symm.trans hprior)
    have hl : l' = l := by rw [f2, e2, hrows, hlen]
    subst hl
    refine ⟨i', sp', b', c1', c2', rfl, ?_⟩
    rw [← hscore]
    exact (hmax _ (hτ _ e4).1 a c hcut).1

/-- C79 for all data, ties included, without pruning: let column `e` of the new data be column `σ e` of the
old data.  Two nodes of the two trees, on the same level, with the same rows and the same prior are either
both split, with the same log-likelihoods of not splitting and of the best split, or both leaves.
What is missing: the split chosen may be another one of equal likelihood, see `C79_refuted`. -/
theorem C79_same_rows_partial (hT : CodeTarget F T ml post) (hr : Training hp argsort n nDim)
    (hr' : Training hp argsort' n nDim) (hpr : hp.prune = false) (σ τ : Nat → Nat)
    (hσ : ∀ e < nDim, σ e < nDim ∧ τ (σ e) = e) (hτ : ∀ d < nDim, τ d < nDim ∧ σ (τ d) = d)
    (h : perpFitRoot (exactOps K) T argsort hp (some prior) X y n nDim names = .ok t)
    (h' : perpFitRoot (exactOps K) T argsort' hp (some prior) (fun i e => X i (σ e)) y n nDim names' = .ok t')
    (addr addr' : List Bool) (u u' : PNode K K K P) (hu : nodeAt t addr = some u)
    (hu' : nodeAt t' addr' = some u') (hlen : addr.length = addr'.length)
    (hrows : rowsAt X t n addr = rowsAt (fun i e => X i (σ e)) t' n addr')
    (hprior : u.info.prior = u'.info.prior) :
    (∃ i i', u = .leaf i ∧ u' = .leaf i') ∨
    ∃ i sp l b c1 c2 i' sp' c1' c2', u = .split i sp l b c1 c2 ∧ u' = .split i' sp' l b c1' c2' := by
  have hX : ∀ d < nDim, τ d < nDim ∧ ∀ i, (fun i e => X i (σ e)) i (τ d) = X i d :=
    fun d hd => ⟨(hτ d hd).1, fun i => by show X i (σ (τ d)) = _; rw [(hτ d hd).2]⟩
  have hX' : ∀ e < nDim, σ e < nDim ∧ ∀ i, X i (σ e) = (fun i e => X i (σ e)) i e :=
    fun e he => ⟨(hσ e he).1, fun i => rfl⟩
  cases u with
  | split i sp l b c1 c2 =>
    obtain ⟨i', sp', b', c1', c2', rfl, hb⟩ := columns_split hT hr hr' hpr τ hX h h' hu hu' hlen hrows hprior
    obtain ⟨_, _, _, _, _, e, hb'⟩ := columns_split hT hr' hr hpr σ hX' h' h hu' hu hlen.symm hrows.symm hprior.symm
    cases e
    cases le_antisymm hb hb'
    exact .inr ⟨_, _, _, _, _, _, _, _, _, _, rfl, rfl⟩
  | leaf i =>
    cases u' with
    | leaf i' => exact .inl ⟨_, _, rfl, rfl⟩
    | split =>
      obtain ⟨_, _, _, _, _, e, -⟩ := columns_split hT hr' hr hpr σ hX' h' h hu' hu hlen.symm hrows.symm hprior.symm
      cases e

/-- C79 at the root for all data, ties included, without pruning: both trees have the same root attributes
and are either both a single leaf or both split, with the same log-likelihoods of not splitting and of the
best split.  What is missing: the feature chosen at a tie, see `C79_refuted`. -/
theorem C79_root_partial (hT : CodeTarget F T ml post) (hr : Training hp argsort n nDim)
    (hr' : Training hp argsort' n nDim) (hpr : hp.prune = false) (σ τ : Nat → Nat)
    (hσ : ∀ e < nDim, σ e < nDim ∧ τ (σ e) = e) (hτ : ∀ d < nDim, τ d < nDim ∧ σ (τ d) = d)
    (h : perpFitRoot (exactOps K) T argsort hp (some prior) X y n nDim names = .ok t)
    (h' : perpFitRoot (exactOps K) T argsort' hp (some prior) (fun i e => X i (σ e)) y n nDim names' = .ok t') :
    (∃ i, t = .leaf i ∧ t' = .leaf i) ∨
    ∃ i sp sp' l b c1 c2 c1' c2', t = .split i sp l b c1 c2 ∧ t' = .split i sp' l b c1' c2' := by
  have root : ∀ {argsort : List K → List Nat} {X : Nat → Nat → K} {names : List String} {t : PNode K K K P},
      Training hp argsort n nDim →
      perpFitRoot (exactOps K) T argsort hp (some prior) X y n nDim names = .ok t →
      rowsAt X t n [] = List.range n ∧
      t.info = (exactCtx T (mlPair F ml) hp X y nDim names).fitInfo (some prior) 0 (List.range n) := by
    intro argsort X names t hr h
    have hv := hr.valid hT (X := X) (y := y) (names := names)
    have hR : rowsAt X t n [] = List.range n := by
      rw [← routed_eq T (mlPair F ml) hp X y nDim names t n []]
      exact List.filter_eq_self.2 fun _ _ => by cases t <;> rfl
    obtain ⟨par, pa, u0, hB, hi, -, -, hnil, -⟩ := fit_node hv h (addr := []) (u := t) (by cases t <;> rfl)
    rw [show ((List.range n).filter fun i => passes (perpRouter (exactCtx T (mlPair F ml) hp X y nDim names).o) t []
      ((exactCtx T (mlPair F ml) hp X y nDim names).X i)) = rowsAt X t n [] from
      routed_eq T (mlPair F ml) hp X y nDim names t n [], hR] at hB
    obtain ⟨rfl, rfl⟩ := hnil rfl
    refine ⟨hR, ?_⟩
    rw [hi]
    cases hB <;> rfl
  obtain ⟨r1, i1⟩ := root hr h
  obtain ⟨r2, i2⟩ := root hr' h'
  have hi : t.info = t'.info := by rw [i1, i2]; rfl
  rcases C79_same_rows_partial hT hr hr' hpr σ τ hσ hτ h h' [] [] t t' (by cases t <;> rfl) (by cases t' <;> rfl) rfl
    (r1.trans r2.symm) (by rw [hi]) with ⟨i, i', rfl, rfl⟩ | ⟨i, sp, l, b, c1, c2, i', sp', c1', c2', rfl, rfl⟩
  · cases (hi : i = i')
    exact .inl ⟨_, rfl, rfl⟩
  · cases (hi : i = i')
    exact .inr ⟨_, _, _, _, _, _, _, _, _, rfl, rfl⟩

end

/-- The hypotheses of `C79_root_partial` hold for a tie: the two features of `C79_refuted` separate the two
rows equally well.  Both trees are split, the first on feature `a` and the second on feature `b`, with equal
log-likelihoods. -/
example : ∃ (hp : Hyper ℝ) (X : Nat → Nat → ℝ) (y : Nat → ℝ) (i : Info ℝ (List ℝ)) (sp sp' : PSplit ℝ) (l b : ℝ)
    (c1 c2 c1' c2' : PNode ℝ ℝ ℝ (List ℝ)),
    perpFitRoot (exactOps ℝ) (clsTarget realFns) realSort hp (some (castL [1, 1])) X y 2 2 ["a", "b"] =
      .ok (.split i sp l b c1 c2) ∧
    perpFitRoot (exactOps ℝ) (clsTarget realFns) realSort hp (some (castL [1, 1])) (fun i e => X i (swap01 e)) y 2 2
      ["b", "a"] = .ok (.split i sp' l b c1' c2') ∧ sp.name = "a" ∧ sp'.name = "b" := by
  have hr : Training (castHp (colCtx 1 2 0 id ["a", "b"]).hp) realSort 2 2 :=
    ⟨by norm_num [castHp, colCtx], realSort_sorts, by decide, by decide, by decide⟩
  have h := col_cast_fit (u := 1) (v := 2) (prec := 0) (σ := id) (names := ["a", "b"]) (le_refl _) (by decide +kernel)
  have h' := col_cast_fit (u := 1) (v := 2) (prec := 0) (σ := swap01) (names := ["b", "a"]) (le_refl _)
    (by decide +kernel)
  have s : splitAt (castTree (colCtx 1 2 0 id ["a", "b"]).hp (colTree 1 2 0 id ["a", "b"])) [] =
      some ⟨0, "a", ((1 / 2 : ℚ) : ℝ)⟩ := by
    have : splitAt (colTree 1 2 0 id ["a", "b"]) [] = some ⟨0, "a", 1 / 2⟩ := by decide +kernel
    unfold castTree
    rw [splitAt_map, this]
    rfl
  have s' : splitAt (castTree (colCtx 1 2 0 swap01 ["b", "a"]).hp (colTree 1 2 0 swap01 ["b", "a"])) [] =
      some ⟨0, "b", ((1 : ℚ) : ℝ)⟩ := by
    have : splitAt (colTree 1 2 0 swap01 ["b", "a"]) [] = some ⟨0, "b", 1⟩ := by decide +kernel
    unfold castTree
    rw [splitAt_map, this]
    rfl
  rcases C79_root_partial (CodeTarget.classification (F := realFns)) hr hr rfl swap01 swap01 (by decide) (by decide)
    (X := (castCtx (colCtx 1 2 0 id ["a", "b"])).X) (y := (castCtx (colCtx 1 2 0 id ["a", "b"])).y)
    (names := ["a", "b"]) (names' := ["b", "a"]) h h' with
    ⟨i, e, -⟩ | ⟨i, sp, sp', l, b, c1, c2, c1', c2', e, e'⟩
  · rw [e] at s
    cases s
  · rw [e] at h s
    rw [e'] at h' s'
    refine ⟨_, _, _, i, sp, sp', l, b, c1, c2, c1', c2', h, h', ?_, ?_⟩
    · cases s; rfl
    · cases s'; rfl

end BT
