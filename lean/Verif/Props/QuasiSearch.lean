import Verif.Lemmas.SweepStable
import Verif.Props.HyperClosed
import Verif.Props.Optimize

/-!
# Enough quasi-random directions are as good as all directions: C105
-/

noncomputable section

namespace BT

open Spec

/-! ## The directions evaluated -/

theorem quasi_resume {P S : Type} {phi : ℝ} {q : HProb ℝ P S} {us : Nat → List ℝ}
    (hu : ∀ i, r2Next (q.nDim - 1) phi i = .ok (us i)) (l : List Nat) (vals : List S) :
    (Prog.loop (fun _ i =>
      match r2Next (q.nDim - 1) phi i with
      | .error e => .raise e
      | .ok u => .eval (fvec u) fun _ => .ret ()) l () : Prog ℝ S Unit).resume vals =
      match l[vals.length]? with
      | some i => .eval (fvec (us i))
      | none => .stop := by
  induction l generalizing vals with
  | nil => rfl
  | cons x l ih =>
    rw [Prog.loop]
    simp only [hu]
    cases vals with
    | nil => rfl
    | cons v vs =>
      simp only [hu] at ih
      exact ih vs

theorem quasi_follows {P S : Type} {phi : ℝ} {m : Nat} {q : HProb ℝ P S} (hdim : 2 ≤ q.nDim)
    {vs : List (RawVec ℝ × S)} (hf : Follows (quasiSolve phi m q).strategy vs) {i : Nat} (hi : i < m) {u : List ℝ}
    (hu : r2Next (q.nDim - 1) phi i = .ok u) : fvec u ∈ vs.map Prod.fst := by
  have hall : ∀ i, ∃ u, r2Next (q.nDim - 1) phi i = .ok u := fun i => ⟨_, r2Next_ofFn (by omega) phi i⟩
  choose us hus using hall
  have hres : ∀ hist : List (RawVec ℝ × S), (quasiSolve phi m q).strategy hist =
      match (List.range m)[hist.length]? with
      | some i => .eval (fvec (us i))
      | none => .stop := by
    intro hist
    have := quasi_resume hus (List.range m) (hist.reverse.map Prod.snd)
    rw [List.length_map, List.length_reverse] at this
    exact this
  have hlen : m ≤ vs.length := by
    have h := (hf vs.length).2 rfl
    rw [hres, List.length_reverse] at h
    by_contra hlt
    rw [List.getElem?_range (by omega)] at h
    cases h
  have hget : vs[i]? = some (vs[i]'(by omega)) := List.getElem?_eq_getElem _
  have h := (hf i).1 (vs[i]'(by omega)).1 (vs[i]'(by omega)).2 hget
  rw [hres, List.length_reverse, List.length_take, Nat.min_eq_left (by omega), List.getElem?_range hi] at h
  have hr : fvec (us i) = (vs[i]'(by omega)).1 := by
    injection h
  rw [hus i] at hu
  rw [← Except.ok.inj hu, hr]
  exact List.mem_map.2 ⟨_, List.getElem_mem _, rfl⟩

theorem quasi_follows_mem {P S : Type} {phi : ℝ} {m : Nat} {q : HProb ℝ P S} (hdim : 2 ≤ q.nDim)
    {vs : List (RawVec ℝ × S)} (hf : Follows (quasiSolve phi m q).strategy vs) {r : RawVec ℝ}
    (hr : r ∈ vs.map Prod.fst) : ∃ i < m, ∃ u, r2Next (q.nDim - 1) phi i = .ok u ∧ r = fvec u := by
  have hall : ∀ i, ∃ u, r2Next (q.nDim - 1) phi i = .ok u := fun i => ⟨_, r2Next_ofFn (by omega) phi i⟩
  choose us hus using hall
  obtain ⟨v, hv, rfl⟩ := List.mem_map.1 hr
  obtain ⟨i, hi⟩ := List.mem_iff_getElem?.1 hv
  have h := (hf i).1 v.1 v.2 hi
  have hil : i < vs.length := (List.getElem?_eq_some_iff.1 hi).1
  have hres := quasi_resume hus (List.range m) ((vs.take i).reverse.reverse.map Prod.snd)
  rw [List.length_map, List.length_reverse, List.length_reverse, List.length_take, Nat.min_eq_left hil.le] at hres
  have h' := hres.symm.trans h
  by_cases him : i < m
  · rw [List.getElem?_range him] at h'
    refine ⟨i, him, us i, hus i, ?_⟩
    injection h' with h''
    exact h''.symm
  · rw [List.getElem?_eq_none (by rw [List.length_range]; omega)] at h'
    cases h'

/-! ## One search -/

section
variable {F : Fns ℝ} {P O : Type} {T : Target ℝ P ℝ O} {ml : P → List ℝ → ℝ} {post : P → List ℝ → P}
  {A : HArith ℝ}

/-- The best score along an evaluated direction bounds all considered positions. -/
theorem searched_upper (hT : CodeTarget F T ml post) (hA : Euclidean A) {q : HProb ℝ P ℝ} {rs : List (RawVec ℝ)}
    {st : HState ℝ ℝ} (hs : Searched A (mlPair F ml) q rs st) {r : RawVec ℝ} (hr : r ∈ rs) {w : List ℝ}
    (hw : hNormal A q r = .ok w) :
    ∃ order, IsSweep q.X q.rows w order ∧ ∀ k, Considered q.prec q.X q.rows w k →
      sweepScore F ml q w order k ≤ st.bestScore := by
  refine ⟨byCoordinate A.argsort q w, ⟨argsort_perm_rows hA.isArgsort _, byCoordinate_sorted hA.isArgsort _⟩,
    fun k hk => ?_⟩
  have hk' : k ∈ jumps q w := (considered_iff _ _).2 hk
  obtain ⟨s, sp, ho, -⟩ := hCompute_cut (st := st) hT.textbook.lawful hA.isArgsort hw (List.ne_nil_of_mem hk')
  have hn : w = sp.normal := Except.ok.inj (hw.symm.trans ho.normal)
  obtain ⟨k0, hk0, e, hmax, -⟩ := ho.cut
  rw [← hn] at hmax
  have := hmax k hk'
  rw [cutScore_eq] at this
  exact this.trans (hs.upper r hr s sp ho).1

/-- From some number of quasi-random directions on, which depends on the rows and the precision only, no
direction is better. -/
theorem quasi_search {D : Nat} (hD : 1 ≤ D) {phi : ℝ} (hphi : IsGolden D phi) (prec : ℝ) (X : Nat → Nat → ℝ) (n : Nat) :
    ∃ N, ∀ (T : Target ℝ P ℝ O) (q : HProb ℝ P ℝ) (A : HArith ℝ) (vs : List (RawVec ℝ × ℝ)) (st : HState ℝ ℝ) (m : Nat), N ≤ m →
      CodeTarget F T ml post → Euclidean A → (∀ p, A.sphere p = (hypersphere p true).map fun x => x.map XF.fin) →
      q.X = X → q.prec = prec → q.nDim = D + 1 → q.hypercube = true → q.rows.Sublist (List.range n) →
      Follows (quasiSolve phi m q).strategy vs → Searched A (mlPair F ml) q (vs.map Prod.fst) st →
      NoneBetter F ml q st.bestScore := by
  obtain ⟨N, hN⟩ := quasi_uniform hD hphi prec X n
  refine ⟨N, ?_⟩
  rintro T q A vs st m hm hT hA hsph rfl rfl hdim hcube hsub hf hs w hw hst
  rw [hdim] at hw
  obtain ⟨i, hi, u, w', hu, hw', ha⟩ := hN q.rows hsub w hw hst
  have hd : q.nDim - 1 = D := by omega
  rw [← hd] at hu
  have hmem := quasi_follows (by omega) hf (hi.trans_le hm) hu
  have hn : hNormal A q (fvec u) = .ok w' := by
    rw [C48_closed_cube hA hsph hcube]
    have hu' := hu
    rw [r2Next_ofFn (by omega)] at hu'
    have hu'' := Except.ok.inj hu'
    refine ⟨?_, ?_, hw'⟩
    · intro y hy
      obtain ⟨a, ha, rfl⟩ := List.mem_map.1 hy
      rw [← hu''] at ha
      obtain ⟨j, rfl⟩ := (List.mem_ofFn' _ _).1 ha
      exact ⟨_, rfl, Int.fract_nonneg _, (Int.fract_lt_one _).le⟩
    · show (u.map XF.fin).length + 1 = q.nDim
      rw [List.length_map, ← hu'', List.length_ofFn]
      omega
  obtain ⟨order, ho, hb⟩ := searched_upper hT hA hs hmem hn
  refine ⟨order, ha.sweep order ho, fun k hk => ?_⟩
  have := hb k ((ha.considered k).2 hk)
  unfold sweepScore at this ⊢
  rw [ha.count] at this
  exact this

/-- The scores a search can end with. -/
theorem searched_score (hA : Euclidean A) {q : HProb ℝ P ℝ} {rs : List (RawVec ℝ)} {st : HState ℝ ℝ}
    (hs : Searched A (mlPair F ml) q rs st) :
    st.bestScore = q.noSplit ∨ ∃ order ∈ q.rows.permutations, ∃ g < q.rows.length + 1, ∃ k < q.rows.length + 1,
      st.bestScore = F.log (q.partitionPrior ^ (q.level + 1) / ((g : ℝ) * (q.nDim : ℝ)))
        + ml q.prior ((order.take k).map q.y) + ml q.prior ((order.drop k).map q.y) := by
  cases hb : st.best with
  | none => exact Or.inl (hs.none hb).1
  | some sp =>
    obtain ⟨pre, r, rest, -, ho, -⟩ := hs.some sp hb
    obtain ⟨-, order, k, i, j, hsw, hk, e, -⟩ := outcome_best hA ho
    refine Or.inr ⟨order, List.mem_permutations.2 hsw.1, consideredCount q.prec q.X q.rows sp.normal, ?_, k, ?_, e⟩
    · unfold consideredCount
      refine Nat.lt_succ_of_le ((List.length_filter_le _ _).trans ?_)
      rw [List.length_zip]
      exact min_le_left _ _
    · obtain ⟨_, _, _, _, h2, _⟩ := hk
      exact ((List.getElem?_eq_some_iff.1 h2).1).trans (Nat.lt_succ_self _)

/-- C105: the score found does not change any more from some number of quasi-random directions on. -/
theorem C105_settles (hT : CodeTarget F T ml post) (hA : Euclidean A) (phi : ℝ) (q : HProb ℝ P ℝ) (hdim : 2 ≤ q.nDim) :
    ∃ N s, ∀ m, N ≤ m → ∀ b st, hSolve A T q (quasiSolve phi m q).strategy b [] (hInit q) = .ok st →
      st.bestScore = s := by
  classical
  set V : Finset ℝ := insert q.noSplit ((q.rows.permutations.toFinset ×ˢ
    (Finset.range (q.rows.length + 1) ×ˢ Finset.range (q.rows.length + 1))).image fun e : List Nat × Nat × Nat =>
      F.log (q.partitionPrior ^ (q.level + 1) / ((e.2.1 : ℝ) * (q.nDim : ℝ)))
        + ml q.prior ((e.1.take e.2.2).map q.y) + ml q.prior ((e.1.drop e.2.2).map q.y)) with hV
  set Z : Set ℝ := {v | ∃ m b st, hSolve A T q (quasiSolve phi m q).strategy b [] (hInit q) = .ok st ∧
    st.bestScore = v} with hZ
  have hfin : Z.Finite := by
    refine V.finite_toSet.subset ?_
    rintro v ⟨m, b, st, h, rfl⟩
    obtain ⟨vs, -, -, hs⟩ := hSolve_searched hT.textbook.lawful hA.isArgsort h
    rcases searched_score hA hs with e | ⟨o, ho, g, hg, k, hk, e⟩
    · rw [e]
      exact Finset.mem_coe.2 (Finset.mem_insert_self _ _)
    · refine Finset.mem_coe.2 (Finset.mem_insert_of_mem (Finset.mem_image.2 ⟨(o, g, k), ?_, e.symm⟩))
      exact Finset.mem_product.2 ⟨List.mem_toFinset.2 ho, Finset.mem_product.2 ⟨Finset.mem_range.2 hg,
        Finset.mem_range.2 hk⟩⟩
  rcases Z.eq_empty_or_nonempty with he | hne
  · refine ⟨0, 0, fun m _ b st h => ?_⟩
    have : st.bestScore ∈ Z := ⟨m, b, st, h, rfl⟩
    rw [he] at this
    exact this.elim
  · obtain ⟨s, ⟨m0, b0, st0, h0, rfl⟩, hmax⟩ := Set.exists_max_image Z id hfin hne
    refine ⟨m0, st0.bestScore, fun m hm b st h => le_antisymm (hmax _ ⟨m, b, st, h, rfl⟩) ?_⟩
    obtain ⟨vs0, -, hf0, hs0⟩ := hSolve_searched hT.textbook.lawful hA.isArgsort h0
    obtain ⟨vs, -, hf, hs⟩ := hSolve_searched hT.textbook.lawful hA.isArgsort h
    cases hb : st0.best with
    | none => rw [(hs0.none hb).1]; exact hs.base
    | some sp =>
      obtain ⟨pre, r, rest, e, ho, -⟩ := hs0.some sp hb
      obtain ⟨i, hi, u, hu, rfl⟩ := quasi_follows_mem hdim hf0 (r := r) (by rw [e]; simp)
      exact (hs.upper _ (quasi_follows hdim hf (hi.trans_le hm) hu) _ _ ho).1

end

/-! ## Fitted trees -/

section
variable {F : Fns ℝ} {P O : Type} {ml : P → List ℝ → ℝ} {post : P → List ℝ → P}

theorem hRowsAt_sublist (X : Nat → Nat → ℝ) (t : HNode ℝ ℝ P) (n : Nat) (addr : List Bool) :
    (hRowsAt X t n addr).Sublist (List.range n) := List.filter_sublist

/-- If every search of a fit ends with a score no direction exceeds, so does every split. -/
theorem split_noneBetter {c : HCtx ℝ P ℝ O} {prior : P} {n : Nat} {t : HNode ℝ ℝ P} (hn : 0 < n)
    (hT : CodeTarget F c.T ml post) (hA : Euclidean c.A) (h : hFitRoot c (some prior) n = .ok t)
    (hN : ∀ lv R vs st, R.Sublist (List.range n) →
      Follows (c.opt.solve (searchAt c F ml prior lv R)) vs →
      Searched c.A (mlPair F ml) (searchAt c F ml prior lv R) (vs.map Prod.fst) st →
      NoneBetter F ml (searchAt c F ml prior lv R) st.bestScore) :
    ∀ addr i sp l b c1 c2, nodeAt t addr = some (.split i sp l b c1 c2) →
      NoneBetter F ml (searchAt c F ml prior addr.length (hRowsAt c.X t n addr)) b := by
  intro addr i sp l b c1 c2 hu
  have hne := hRowsAt_ne_nil hT hA hn h hu
  obtain ⟨st, vs, -, e1, e2, hf, hse, -, -⟩ := hFit_split hT.textbook.lawful hA.isArgsort hT.deltaZero h hu
  rw [hPrior_root hT, ← hRowsAt_eq] at e2 hf hse
  have hq : hProblem c prior addr.length (hRowsAt c.X t n addr) =
      searchAt c F ml prior addr.length (hRowsAt c.X t n addr) := by
    unfold hProblem searchAt
    congr 1
    exact hT.textbook.stay _ _ _ _ (by simpa using hne)
  rw [hq] at hf hse
  rw [← e1]
  exact hN _ _ vs st (hRowsAt_sublist _ _ _ _) hf hse

/-- The same for the leaves. -/
theorem leaf_noneBetter {c : HCtx ℝ P ℝ O} {prior : P} {n : Nat} {t : HNode ℝ ℝ P} (hn : 0 < n)
    (hT : CodeTarget F c.T ml post) (hA : Euclidean c.A) (hprune : c.hp.prune = false)
    (h : hFitRoot c (some prior) n = .ok t)
    (hN : ∀ lv R vs st, R.Sublist (List.range n) →
      Follows (c.opt.solve (searchAt c F ml prior lv R)) vs →
      Searched c.A (mlPair F ml) (searchAt c F ml prior lv R) (vs.map Prod.fst) st →
      NoneBetter F ml (searchAt c F ml prior lv R) st.bestScore) :
    ∀ addr i, nodeAt t addr = some (.leaf i) →
        (∀ a ∈ hRowsAt c.X t n addr, ∀ b ∈ hRowsAt c.X t n addr, c.y a = c.y b) ∨
        ∃ s, NoneBetter F ml (searchAt c F ml prior addr.length (hRowsAt c.X t n addr)) s ∧
          (s = stayScore F ml c.hp c.y prior addr.length (hRowsAt c.X t n addr) ∨
            ∃ sp, BestAlong F ml (searchAt c F ml prior addr.length (hRowsAt c.X t n addr)) s sp ∧
              ((∀ a ∈ hRowsAt c.X t n addr, planeSide sp.normal sp.origin (c.X a) < 0) ∨
                ∀ a ∈ hRowsAt c.X t n addr, 0 ≤ planeSide sp.normal sp.origin (c.X a))) := by
  intro addr i hu
  have hne := hRowsAt_ne_nil hT hA hn h hu
  obtain ⟨t0, hb, -, ht, -⟩ := hFitRoot_cutOff hT.textbook.lawful hA.isArgsort h
  obtain rfl := ht hprune
  obtain ⟨par, pa, hB, hp⟩ := hBuilt_at hb (fun _ pa R => hPrior c pa R = prior)
    (hPrior_root hT) (by
      intro par pa R R' hQ _
      rw [hT.deltaZero, hQ]
      exact hPrior_root hT) addr _ hu
  rw [zero_add] at hB
  rw [show hRoutedFrom c t (List.range n) addr = hRouted c t n addr from rfl, ← hRowsAt_eq] at hB hp
  generalize hR : hRowsAt c.X t n addr = R at *
  have hq : hProblem c prior addr.length R = searchAt c F ml prior addr.length R := by
    unfold hProblem searchAt
    congr 1
    exact hT.textbook.stay _ _ _ _ (by simpa using hne)
  cases hB with
  | direct par pa _ _ hsmall =>
    refine Or.inl fun a ha b hb => ?_
    by_contra hab
    refine hsmall ⟨?_, a, ha, b, hb, hab⟩
    match R, ha, hb with
    | [x], ha, hb =>
      rw [List.mem_singleton.1 ha, List.mem_singleton.1 hb] at hab
      exact absurd rfl hab
    | _ :: _ :: _, _, _ => simp
  | stay _ _ _ _ st hdiv hst hno =>
    obtain ⟨vs, hf, hse⟩ := hst
    rw [hp, hq] at hf hse
    have hnb := hN _ _ vs st (show R.Sublist _ from hR ▸ hRowsAt_sublist _ _ _ _) hf hse
    refine Or.inr ⟨st.bestScore, hnb, ?_⟩
    cases hb : st.best with
    | none => exact Or.inl (hse.none hb).1
    | some sp =>
      obtain ⟨pre, r, rest, -, ho, -⟩ := hse.some sp hb
      refine Or.inr ⟨sp, (outcome_best hA ho).2, ?_⟩
      rcases hno sp hb with h0 | h0
      · refine Or.inr fun a ha => ?_
        rw [planeSide_eq]
        by_contra hlt
        have : a ∈ below c R sp := List.mem_filter.2 ⟨ha, decide_eq_true (not_le.1 hlt)⟩
        rw [h0] at this
        cases this
      · refine Or.inl fun a ha => ?_
        rw [planeSide_eq]
        by_contra hlt
        have : a ∈ above c R sp := List.mem_filter.2 ⟨ha, decide_eq_true (not_lt.1 hlt)⟩
        rw [h0] at this
        cases this

/-- C105: from some number of quasi-random directions on, which depends on the features, the number of rows and
the precision only, the plane of every split of the tree scores at least as much as every position considered
along any direction of the half sphere, except directions along which neighbouring rows differ by exactly the
precision.  The number works for all targets, priors and both target models. -/
theorem C105_split (D : Nat) (hD : 1 ≤ D) (phi : ℝ) (hphi : IsGolden D phi) (prec : ℝ) (X : Nat → Nat → ℝ) (n : Nat)
    (hn : 0 < n) :
    ∃ N, ∀ (c : HCtx ℝ P ℝ O) (m : Nat) (prior : P) (t : HNode ℝ ℝ P), N ≤ m → CodeTarget F c.T ml post →
      Euclidean c.A → (∀ p, c.A.sphere p = (hypersphere p true).map fun x => x.map XF.fin) →
      c.X = X → c.hp.splitPrecision = prec → c.nDim = D + 1 → c.opt = quasiOptimizer phi m →
      hFitRoot c (some prior) n = .ok t → ∀ addr i sp l b c1 c2, nodeAt t addr = some (.split i sp l b c1 c2) →
        NoneBetter F ml (searchAt c F ml prior addr.length (hRowsAt c.X t n addr)) b := by
  obtain ⟨N, hN⟩ := quasi_search (F := F) (P := P) (O := O) (ml := ml) (post := post) hD hphi prec X n
  refine ⟨N, ?_⟩
  rintro c m prior t hm hT hA hsph rfl rfl hdim hopt h
  exact split_noneBetter hn hT hA h fun lv R vs st hR hf hs => hN c.T _ c.A vs st m hm hT hA hsph rfl rfl hdim
    (by unfold searchAt; rw [hopt]; rfl) hR (by rw [hopt] at hf; exact hf) hs

/-- C105: with the same number of directions, for the leaves of an unpruned tree: all targets of its rows are
equal, or no position along any such direction scores more than staying, or more than the best plane found,
which then has all rows of the leaf on one side. -/
theorem C105_leaf (D : Nat) (hD : 1 ≤ D) (phi : ℝ) (hphi : IsGolden D phi) (prec : ℝ) (X : Nat → Nat → ℝ) (n : Nat)
    (hn : 0 < n) :
    ∃ N, ∀ (c : HCtx ℝ P ℝ O) (m : Nat) (prior : P) (t : HNode ℝ ℝ P), N ≤ m → CodeTarget F c.T ml post →
      Euclidean c.A → (∀ p, c.A.sphere p = (hypersphere p true).map fun x => x.map XF.fin) →
      c.X = X → c.hp.splitPrecision = prec → c.nDim = D + 1 → c.opt = quasiOptimizer phi m → c.hp.prune = false →
      hFitRoot c (some prior) n = .ok t → ∀ addr i, nodeAt t addr = some (.leaf i) →
        (∀ a ∈ hRowsAt c.X t n addr, ∀ b ∈ hRowsAt c.X t n addr, c.y a = c.y b) ∨
        ∃ s, NoneBetter F ml (searchAt c F ml prior addr.length (hRowsAt c.X t n addr)) s ∧
          (s = stayScore F ml c.hp c.y prior addr.length (hRowsAt c.X t n addr) ∨
            ∃ sp, BestAlong F ml (searchAt c F ml prior addr.length (hRowsAt c.X t n addr)) s sp ∧
              ((∀ a ∈ hRowsAt c.X t n addr, planeSide sp.normal sp.origin (c.X a) < 0) ∨
                ∀ a ∈ hRowsAt c.X t n addr, 0 ≤ planeSide sp.normal sp.origin (c.X a))) := by
  obtain ⟨N, hN⟩ := quasi_search (F := F) (P := P) (O := O) (ml := ml) (post := post) hD hphi prec X n
  refine ⟨N, ?_⟩
  rintro c m prior t hm hT hA hsph rfl rfl hdim hopt hprune h
  exact leaf_noneBetter hn hT hA hprune h fun lv R vs st hR hf hs => hN c.T _ c.A vs st m hm hT hA hsph rfl rfl hdim
    (by unfold searchAt; rw [hopt]; rfl) hR (by rw [hopt] at hf; exact hf) hs

/-- C105: along a direction that shows different coordinates for all rows there is only one order. -/
theorem C105_distinct {q : HProb ℝ P ℝ} {b : ℝ} (h : NoneBetter F ml q b) (w : List ℝ) (hw : HalfSphere q.nDim w)
    (hst : Stable q.prec q.X q.rows w)
    (hdis : ∀ i ∈ q.rows, ∀ j ∈ q.rows, along w (q.X i) = along w (q.X j) → i = j) (order : List Nat)
    (ho : IsSweep q.X q.rows w order) (k : Nat) (hk : Considered q.prec q.X q.rows w k) :
    sweepScore F ml q w order k ≤ b := by
  obtain ⟨order', ho', hb⟩ := h w hw hst
  have : order = order' := by
    refine List.Perm.eq_of_pairwise (fun i j hi hj h1 h2 => ?_) ho.2 ho'.2 (ho.1.trans ho'.1.symm)
    exact hdis i (ho.1.mem_iff.1 hi) j (ho'.1.mem_iff.1 hj) (le_antisymm h1 h2)
  rw [this]
  exact hb k hk

end

/-! ## The hypotheses are satisfiable -/

/-- Two rows, two features: the first axis is a stable direction with a position to consider. -/
example : HalfSphere 2 [1, 0] ∧ Stable 0 (fun i d => if i = 1 ∧ d = 0 then 1 else 0) [0, 1] [1, 0] ∧
    Considered 0 (fun i d => if i = 1 ∧ d = 0 then 1 else 0) [0, 1] [1, 0] 1 := by
  refine ⟨⟨rfl, by norm_num, by norm_num⟩, ?_, 0, 1, le_rfl, rfl, rfl, by simp [along, List.range_succ]⟩
  intro k i j hi hj h
  match k with
  | 0 =>
    cases hi
    cases hj
    simp [along, List.range_succ] at h
  | k + 1 => simp at hj

/-- For every data set with two features there is such a number of directions, and fits with it. -/
example (X : Nat → Nat → ℝ) (y : Nat → ℝ) (hp : Hyper ℝ) (p : NG ℝ) : ∃ phi m t, ∃ c : HCtx ℝ (NG ℝ) ℝ ℝ,
    IsGolden 1 phi ∧ c.X = X ∧ c.y = y ∧ c.opt = quasiOptimizer phi m ∧ hFitRoot c (some p) 9 = .ok t ∧
    ∀ addr i sp l b c1 c2, nodeAt t addr = some (.split i sp l b c1 c2) →
      NoneBetter realFns (Spec.ngMarginal realFns) (searchAt c realFns (Spec.ngMarginal realFns) p addr.length
        (hRowsAt c.X t 9 addr)) b := by
  obtain ⟨phi, hphi, -⟩ := exists_golden 1 le_rfl
  obtain ⟨N, hN⟩ := C105_split (F := realFns) (P := NG ℝ) (O := ℝ) (ml := Spec.ngMarginal realFns)
    (post := Spec.ngPosterior) 1 le_rfl phi hphi hp.splitPrecision X 9 (by decide)
  let c : HCtx ℝ (NG ℝ) ℝ ℝ := ⟨exactArith (insArgsort (exactOps ℝ).le), regTarget realFns, hp,
    quasiOptimizer phi N, 0, X, y, 2⟩
  obtain ⟨B, t, ht⟩ := C67_quasi (pair := regPair realFns) c (some p) 9 (reg_lawful realFns) rfl realSort_spec
    le_rfl phi N
  refine ⟨phi, N, t, withOpt c (quasiOptimizer phi N) B, hphi, rfl, rfl, rfl, ht B le_rfl, ?_⟩
  exact hN _ N p t le_rfl .regression exactArith_euclidean (fun _ => rfl) rfl rfl rfl rfl (ht B le_rfl)

end BT
