import Verif.Props.Equivariance
import Verif.Props.HyperRelabel
import Verif.Props.PruneShiftHyper

/-!
# Renaming classes of pruned trees with ties: C60 and C83
-/

namespace BT
open Spec

section
variable {K : Type} [Field K] [LinearOrder K] [IsStrictOrderedRing K] {k : Nat}

omit [Field K] [IsStrictOrderedRing K] in
/-- The most likely classes of renamed probabilities are the renamed most likely classes. -/
theorem relabelled_top {σ : Equiv.Perm (Fin k)} {p p' : List K} (h : Relabelled σ p p') {j0 j0' : Nat} {q q' : K}
    (hq : p[j0]? = some q) (hm : ∀ v ∈ p, v ≤ q) (hq' : p'[j0']? = some q') (hm' : ∀ v ∈ p', v ≤ q') :
    ∃ j j' : Fin k, (j : Nat) = j0 ∧ ((σ j' : Fin k) : Nat) = j0' ∧ p[(j : Nat)]? = some q ∧ p[(j' : Nat)]? = some q ∧
      (UniqueMax p → j = j') := by
  obtain ⟨l, l', e⟩ := h
  have b0 : j0 < k := by
    rw [← l]; exact (List.getElem?_eq_some_iff.1 hq).1
  have b0' : j0' < k := by
    rw [← l']; exact (List.getElem?_eq_some_iff.1 hq').1
  have e1 : p[((σ.symm ⟨j0', b0'⟩ : Fin k) : Nat)]? = some q' := by
    rw [← e, Equiv.apply_symm_apply]; exact hq'
  have e2 : p'[((σ ⟨j0, b0⟩ : Fin k) : Nat)]? = some q := by rw [e]; exact hq
  have hqq : q' = q := le_antisymm (hm _ (List.mem_of_getElem? e1)) (hm' _ (List.mem_of_getElem? e2))
  subst hqq
  refine ⟨⟨j0, b0⟩, σ.symm ⟨j0', b0'⟩, rfl, by rw [Equiv.apply_symm_apply], hq, e1, ?_⟩
  rintro ⟨i, v, hi, hu⟩
  have g1 := hu _ _ hq (hm _ (List.mem_of_getElem? hi))
  have g2 := hu _ _ e1 (hm _ (List.mem_of_getElem? hi))
  exact Fin.ext (g1.trans g2.symm)

omit [Field K] [LinearOrder K] [IsStrictOrderedRing K] in
/-- A constant prior is not changed by renaming classes. -/
theorem replicate_relabelled (σ : Equiv.Perm (Fin k)) (a : K) :
    Relabelled σ (List.replicate k a) (List.replicate k a) :=
  ⟨by simp, by simp, fun j => by
    rw [List.getElem?_replicate, List.getElem?_replicate, if_pos j.2, if_pos (σ j).2]⟩

/-- C60 for pruned trees with any ties, a constant prior and `delta = 0`: for every row there are two classes `j` and
`j'` of the highest probability in the unpruned tree, such that the pruned tree predicts `j` and the pruned tree for the
renamed classes predicts the new name of `j'`.  If only one class has the highest probability, the prediction is
renamed, whether or not the same splits were pruned.
What is missing: rows with two most likely classes, and the splits, see `C60_refuted`. -/
theorem C60_pruned_partial {F : Fns K} (hsym : ∀ a b, F.betaln a b = F.betaln b a)
    {c : Ctx K K (List K) K (List K)} {argsort : List K → List Nat} {n : Nat} {a : K}
    {t0 t1 : PNode K K K (List K)} (ho : c.o = exactOps K) (hT : c.T = clsTarget F) (hpair : c.pair = clsPair F)
    (hv : Valid (fun _ => True) c argsort n) (hn : 0 < n) (ha : 0 < a) (hδ : c.hp.delta = 0)
    (σ : Equiv.Perm (Fin k)) (label : Nat → Fin k) (hy : ∀ i < n, c.y i = ((label i : Nat) : K))
    (y' : Nat → K) (hy' : ∀ i < n, y' i = ((σ (label i) : Nat) : K))
    (h0 : fitIn (withPrune c false) argsort (some (List.replicate k a)) n = .ok t0)
    (h1 : fitIn (withPrune c true) argsort (some (List.replicate k a)) n = .ok t1) :
    ∃ t1', fitIn (withPrune { c with y := y' } true) argsort (some (List.replicate k a)) n = .ok t1' ∧
      ∀ (X : Nat → Nat → K) (m i : Nat), i < m → ∃ (p : List K) (q : K) (j j' : Fin k),
        (predictProba (perpRouter c.o) c.T t0 X m)[i]? = some (some p) ∧ (∀ v ∈ p, v ≤ q) ∧
        p[(j : Nat)]? = some q ∧ p[(j' : Nat)]? = some q ∧
        (predict (perpRouter c.o) c.T t1 X m)[i]? = some ((j : Nat) : K) ∧
        (predict (perpRouter c.o) c.T t1' X m)[i]? = some ((σ j' : Nat) : K) ∧ (UniqueMax p → j = j') := by
  have hk : 0 < k := lt_of_le_of_lt (Nat.zero_le _) (label 0).2
  have hgood : GoodPrior (List.replicate k a) :=
    ⟨by simp [hk.ne'], fun v hv => by rw [List.eq_of_mem_replicate hv]; exact ha⟩
  have hv' : Valid (fun _ => True) { c with y := y' } argsort n :=
    ⟨hv.ops, hv.target, hv.sort, hv.dims, hv.rows, hv.vals⟩
  obtain ⟨t0', h0', -, hrel⟩ := C60_relabel_partial hsym (c := withPrune c false) ho hT hpair (withPrune_valid hv false) hn
    hgood (le_of_eq hδ.symm) σ label hy y' hy' (replicate_relabelled σ a) (fun h => by cases h) h0
  have h0' : fitIn (withPrune { c with y := y' } false) argsort (some (List.replicate k a)) n = .ok t0' := h0'
  have h1' := C21_fit hv' hn h0'
  refine ⟨_, h1', fun X m i hi => ?_⟩
  rw [C22_prune_classes_partial ho hT hk hn hv hδ h0 h1 X m]
  have e' := C22_prune_classes_partial (c := { c with y := y' }) ho hT hk hn hv' hδ h0' h1' X m
  change predict (perpRouter c.o) c.T _ X m = predict (perpRouter c.o) c.T t0' X m at e'
  rw [e']
  obtain ⟨p, p', g1, g2, hpp, -⟩ := hrel X m i hi
  obtain ⟨p1, j0, q, f1, f2, -, f3, f4, -⟩ := C06_predict_argmax (c := withPrune c false) hT ho (withPrune_valid hv false)
    hn hgood (le_of_eq hδ.symm) h0 X m i hi
  obtain ⟨p2, j0', q', f1', f2', -, f3', f4', -⟩ := C06_predict_argmax (c := withPrune { c with y := y' } false) hT ho
    (withPrune_valid hv' false) hn hgood (le_of_eq hδ.symm) h0' X m i hi
  obtain rfl : p = p1 := by
    have := g1.symm.trans f1
    simpa using this
  obtain rfl : p' = p2 := by
    have := g2.symm.trans f1'
    simpa using this
  obtain ⟨j, j', rfl, rfl, r1, r2, r3⟩ := relabelled_top hpp f3 f4 f3' f4'
  exact ⟨p, q, j, j', g1, f4, r1, r2, f2, f2', r3⟩

end

theorem tie_unpruned : fitIn (oneCtx tieRows (99 / 100) 0 false) (insArgsort (exactOps ℚ).le) (some [1, 1]) 14 =
    .ok (oneTree tieRows (99 / 100) 0 [1, 1] false) := by
  decide +kernel

/-- The hypotheses of `C60_pruned_partial` hold for the data of `C60_refuted`, in which one side of the split has a tie:
the pruned tree is a single leaf and after the exchange of the classes the split stays. -/
example : ∃ t1', fitIn (withPrune { castCtx (oneCtx tieRows (99 / 100) 0 false) with
      y := (castCtx (oneCtx (swapRows tieRows) (99 / 100) 0 true)).y } true) realSort (some (List.replicate 2 1)) 14 =
        .ok t1' ∧
    splitAt t1' [] = some ⟨0, "x0", ((1 / 2 : ℚ) : ℝ)⟩ ∧
    ∃ (p : List ℝ) (j j' : Fin 2), (predictProba (perpRouter (exactOps ℝ)) (clsTarget realFns)
        (castTree (oneCtx tieRows (99 / 100) 0 false).hp (oneTree tieRows (99 / 100) 0 [1, 1] false))
        (fun _ _ => 0) 1)[0]? = some (some p) ∧
      (predict (perpRouter (exactOps ℝ)) (clsTarget realFns) (castTree (oneCtx tieRows (99 / 100) 0 true).hp
        (oneTree tieRows (99 / 100) 0 [1, 1] true)) (fun _ _ => 0) 1)[0]? = some ((j : Nat) : ℝ) ∧
      (predict (perpRouter (exactOps ℝ)) (clsTarget realFns) t1' (fun _ _ => 0) 1)[0]? =
        some ((Equiv.swap (0 : Fin 2) 1 j' : Nat) : ℝ) ∧ (UniqueMax p → j = j') := by
  have e : castL [1, 1] = List.replicate 2 (1 : ℝ) := by simp [castL, List.replicate]
  have h0 := one_cast_fit tie_unpruned (by decide) (by decide) (by decide +kernel) (by decide +kernel) (le_refl _)
  have h1 := one_cast_fit tie_fit.1 (by decide) (by decide) (by decide +kernel) (by decide +kernel) (le_refl _)
  have h2 := one_cast_fit tie_fit.2 (by decide) (by decide) (by decide +kernel) (by decide +kernel) (le_refl _)
  rw [oneCtx_swap] at h2
  rw [e] at h0 h1 h2
  obtain ⟨t1', g1, g2⟩ := C60_pruned_partial (F := realFns) betaln_symm (c := castCtx (oneCtx tieRows (99 / 100) 0 false))
    (argsort := realSort) (n := 14) (a := 1) rfl rfl rfl
    (castCtx_valid Nat.zero_lt_one (by decide) (le_refl _) realSort_spec) (by decide) one_pos
    (by simp [castCtx, castHp, oneCtx]) (Equiv.swap (0 : Fin 2) 1) tieLabel
    (fun i hi => by
      show (((oneCtx tieRows (99 / 100) 0 true).y i : ℚ) : ℝ) = _
      rw [(tie_label i hi).1]
      simp)
    (castCtx (oneCtx (swapRows tieRows) (99 / 100) 0 true)).y
    (fun i hi => by
      show (((oneCtx (swapRows tieRows) (99 / 100) 0 true).y i : ℚ) : ℝ) = _
      rw [(tie_label i hi).2]
      simp) h0 h1
  obtain ⟨p, q, j, j', f1, -, -, -, f2, f3, f4⟩ := g2 (fun _ _ => 0) 1 0 one_pos
  refine ⟨t1', g1, ?_, p, j, j', f1, f2, f3, f4⟩
  rw [← Except.ok.inj (h2.symm.trans g1)]
  unfold castTree
  rw [splitAt_map, tie_split.2]
  rfl

/-- C83 for pruned hyperplane trees with any ties, a constant prior and any `delta`, as in `C60_pruned_partial`. -/
theorem C83_pruned {c : HCtx ℝ (List ℝ) ℝ (List ℝ)} (hT : c.T = clsTarget realFns) (he : Euclidean c.A)
    (hs : SortsByComparison c.A) (hopt : Blind c.opt) {k n : Nat} (hn : 0 < n) {a : ℝ} (ha : 0 < a)
    (σ : Equiv.Perm (Fin k)) (label : Nat → Fin k) (hy : ∀ i, c.y i = ((label i : Nat) : ℝ))
    {t0 t1 : HNode ℝ ℝ (List ℝ)}
    (h0 : hFitRoot (hWithPrune c false) (some (List.replicate k a)) n = .ok t0)
    (h1 : hFitRoot (hWithPrune c true) (some (List.replicate k a)) n = .ok t1) :
    let c' : HCtx ℝ (List ℝ) ℝ (List ℝ) := { c with y := fun i => ((σ (label i) : Nat) : ℝ) }
    ∃ t1', hFitRoot (hWithPrune c' true) (some (List.replicate k a)) n = .ok t1' ∧
      ∀ (Z : Nat → Nat → ℝ) (m i : Nat), i < m → ∃ (p : List ℝ) (q : ℝ) (j j' : Fin k),
        (predictProba hyperRouter c.T t0 Z m)[i]? = some (some p) ∧ (∀ v ∈ p, v ≤ q) ∧
        p[(j : Nat)]? = some q ∧ p[(j' : Nat)]? = some q ∧
        (predict hyperRouter c.T t1 Z m)[i]? = some ((j : Nat) : ℝ) ∧
        (predict hyperRouter c.T t1' Z m)[i]? = some ((σ j' : Nat) : ℝ) ∧ (UniqueMax p → j = j') := by
  intro c'
  have hk : 0 < k := lt_of_le_of_lt (Nat.zero_le _) (label 0).2
  have hne : List.replicate k a ≠ [] := by simp [hk.ne']
  have hgood : GoodPrior (List.replicate k a) :=
    ⟨hne, fun v hv => by rw [List.eq_of_mem_replicate hv]; exact ha⟩
  obtain ⟨-, hr⟩ := C83_relabel (c := hWithPrune c false) hT he hs hopt hn hgood σ label hy (replicate_relabelled σ a)
    (fun h => by cases h)
  obtain ⟨t0', h0', -, -, hrel⟩ := hr t0 h0
  have h0' : hFitRoot (hWithPrune c' false) (some (List.replicate k a)) n = .ok t0' := h0'
  have h1' := C21_hyper_fit c' (some (List.replicate k a)) n
  rw [h0'] at h1'
  have same : ∀ {x y : ℝ}, LowerPrior (List.replicate k a) x y → x = y := by
    rintro x y (h | ⟨u, v, q, q', -, -, e1, e2, hlt⟩)
    · exact h
    · rw [List.getElem?_replicate] at e1 e2
      split at e1 <;> split at e2 <;> simp_all
  refine ⟨_, h1', fun Z m i hi => ?_⟩
  obtain ⟨x, y, d1, d2, hl⟩ := C22_hyperplane_partial (c := c) hT he hn hne h0 h1 Z m i hi
  obtain rfl := same hl
  obtain ⟨x', y', d1', d2', hl'⟩ := C22_hyperplane_partial (c := c') hT he hn hne h0' h1' Z m i hi
  obtain rfl := same hl'
  change (predict hyperRouter c.T _ Z m)[i]? = _ at d1' d2'
  rw [d1, d1', ← d2, ← d2']
  obtain ⟨p, p', g1, g2, hpp, -⟩ := hrel Z m i hi
  obtain ⟨p1, j0, q, f1, f2, -, f3, f4, -⟩ := C06_hyperplane (c := hWithPrune c false) hT he hgood h0 Z m i hi
  obtain ⟨p2, j0', q', f1', f2', -, f3', f4', -⟩ := C06_hyperplane (c := hWithPrune c' false) hT he hgood h0' Z m i hi
  obtain rfl : p = p1 := by
    have := g1.symm.trans f1
    simpa using this
  obtain rfl : p' = p2 := by
    have := g2.symm.trans f1'
    simpa using this
  obtain ⟨j, j', rfl, rfl, r1, r2, r3⟩ := relabelled_top hpp f3 f4 f3' f4'
  exact ⟨p, q, j, j', g1, f4, r1, r2, f2, f2', r3⟩

/-- The hypotheses of `C83_pruned` hold for the nine-point sample with two oblique splits. -/
example : ∃ t1 t1', hFitRoot (hWithPrune (hSampleReal 0) true) (some (List.replicate 2 1)) 9 = .ok t1 ∧
    hFitRoot (hWithPrune { hSampleReal 0 with
      y := fun i => ((Equiv.swap (0 : Fin 2) 1 (if hSampleY i = 0 then 0 else 1) : Fin 2) : Nat) } true)
      (some (List.replicate 2 1)) 9 = .ok t1' ∧
    ∃ (p : List ℝ) (j j' : Fin 2), (predictProba hyperRouter (clsTarget realFns)
        (castHTree (hSampleHp 0) (hSampleTree 0)) (fun _ _ => 0) 1)[0]? = some (some p) ∧
      (predict hyperRouter (clsTarget realFns) t1 (fun _ _ => 0) 1)[0]? = some ((j : Nat) : ℝ) ∧
      (predict hyperRouter (clsTarget realFns) t1' (fun _ _ => 0) 1)[0]? =
        some ((Equiv.swap (0 : Fin 2) 1 j' : Nat) : ℝ) ∧ (UniqueMax p → j = j') := by
  have e : castL [1, 1] = List.replicate 2 (1 : ℝ) := by simp [castL, List.replicate]
  have h0 : hFitRoot (hWithPrune (hSampleReal 0) false) (some (castL [1, 1])) 9 =
    .ok (castHTree (hSampleHp 0) (hSampleTree 0)) := hSampleReal_fit
  have h1 := C21_hyper_fit (hSampleReal 0) (some (castL [1, 1])) 9
  rw [h0] at h1
  rw [e] at h0 h1
  obtain ⟨t1', g1, g2⟩ := C83_pruned (c := hSampleReal 0) rfl realArith_euclidean realArith_comparison (blind_list _ _)
    (by decide) one_pos (Equiv.swap (0 : Fin 2) 1) (fun i => if hSampleY i = 0 then 0 else 1)
    (fun i => by
      show ((hSampleY i : ℚ) : ℝ) = _
      rw [hSample_label i]
      simp only [Rat.cast_natCast]
      rw [← hSample_label i]) h0 h1
  obtain ⟨p, q, j, j', f1, -, -, -, f2, f3, f4⟩ := g2 (fun _ _ => 0) 1 0 one_pos
  exact ⟨_, t1', h1, g1, p, j, j', f1, f2, f3, f4⟩

end BT
