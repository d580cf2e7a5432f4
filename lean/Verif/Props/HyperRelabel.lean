import Verif.Props.HyperTransform
import Verif.Props.Equivariance

/-!
# C83: hyperplane trees and the names of the classes
-/

namespace BT
open Spec

set_option linter.unusedSectionVars false

section
variable {K P P' S S' O O' : Type} [Field K] [LinearOrder K] [IsStrictOrderedRing K]
  {a : K} {t : Nat → K} {fP : P → P'} {fS : Nat → S → S'}

theorem merge_moved_on [DecidableEq O] [DecidableEq O'] (hp' : Hyper K) (pred : P → O) (pred' : P' → O')
    (u : HNode S K P) (h : ∀ p ∈ posts u, ∀ q ∈ posts u, pred' (fP p) = pred' (fP q) ↔ pred p = pred q) :
    merge pred' (movedTree hp' a t fP fS u) = movedTree hp' a t fP fS (merge pred u) := by
  induction u with
  | leaf i => rfl
  | split i sp l b c1 c2 ih1 ih2 =>
    have m1 : ∀ p ∈ posts c1, p ∈ posts (.split i sp l b c1 c2) := by
      intro p hp; simp [posts, hp]
    have m2 : ∀ p ∈ posts c2, p ∈ posts (.split i sp l b c1 c2) := by
      intro p hp; simp [posts, hp]
    replace ih1 := ih1 fun p hp q hq => h p (m1 p hp) q (m1 q hq)
    replace ih2 := ih2 fun p hp q hq => h p (m2 p hp) q (m2 q hq)
    simp only [movedTree, merge, ih1, ih2]
    cases hm1 : merge pred c1 with
    | leaf j1 =>
      cases hm2 : merge pred c2 with
      | leaf j2 =>
        have hj := h _ (m1 _ (mergePost hm1)) _ (m2 _ (mergePost hm2))
        simp only [movedTree, imageInfo, hj]
        split <;> rfl
      | split => rfl
    | split => rfl
where
  mergePost {pred : P → O} {u : HNode S K P} {j : Info K P} (h : merge pred u = .leaf j) : j.posterior ∈ posts u := by
    cases u with
    | leaf i => cases h; simp [posts]
    | split i sp l b c1 c2 =>
      rw [merge] at h
      split at h
      · split at h
        · cases h; simp [posts]
        · cases h
      · cases h

theorem splitAt_moved_one (hp' : Hyper K) (u : HNode S K P) (addr : List Bool) :
    splitAt (movedTree hp' 1 (fun _ => 0) fP fS u) addr = splitAt u addr := by
  have hsplit : ∀ sp : HSplit K, movedSplit 1 (fun _ => 0) sp = sp := by
    intro sp
    unfold movedSplit
    congr 1
    apply List.ext_getElem?
    intro d
    rw [List.getElem?_mapIdx]
    cases sp.origin[d]? <;> simp
  induction u generalizing addr with
  | leaf i => rfl
  | split i sp l b c1 c2 ih1 ih2 =>
    cases addr with
    | nil => simp [movedTree, splitAt, hsplit]
    | cons a as => cases a <;> simp [movedTree, splitAt, ih1, ih2]

end

/-- Class vectors of a classification tree keep their length. -/
theorem hBuilt_posts_length {F : Fns ℝ} {c : HCtx ℝ (List ℝ) ℝ (List ℝ)} {pair : PairScore ℝ (List ℝ) ℝ}
    (hT : c.T = clsTarget F) {k : Nat} {par pa : Option (List ℝ)} {lv : Nat} {R : List Nat}
    {t : HNode ℝ ℝ (List ℝ)} (h : HBuilt c pair par pa lv R t) (h1 : ∀ p, par = some p → p.length = k)
    (h2 : ∃ p, pa = some p ∧ p.length = k) : ∀ p ∈ posts t, p.length = k := by
  have hpost : ∀ ys p δ, (c.T.posterior ys p δ).length = p.length := by
    intro ys p δ
    rw [hT]
    exact clsPosterior_length p ys δ
  have hgp : ∀ p R, hPrior c (some p) R = p := by
    intro p R
    unfold hPrior
    rw [hT]
    rfl
  induction h with
  | direct par pa lv R hsmall =>
    intro p hp
    simp only [posts, List.mem_singleton] at hp
    rw [hp]
    exact (hpost _ _ _).trans (h1 par rfl)
  | stay par pa lv R st hdiv hst hno =>
    intro p hp
    obtain ⟨q, rfl, hq⟩ := h2
    simp only [posts, List.mem_singleton] at hp
    rw [hp]
    refine (hpost _ _ _).trans ?_
    rw [hgp]
    exact hq
  | split par pa lv R st sp c1 c2 hdiv hst hbest hne1 hne2 hb1 hb2 ih1 ih2 =>
    intro p hp
    obtain ⟨q, rfl, hq⟩ := h2
    rw [hgp] at ih1 ih2
    simp only [posts, List.mem_cons, List.mem_append] at hp
    have hq' : ∀ r, some q = some r → r.length = k := fun r hr => by rw [← Option.some.inj hr]; exact hq
    rcases hp with hp | hp | hp
    · rw [hp]
      refine (hpost _ _ _).trans ?_
      rw [hgp]
      exact hq
    · exact ih1 hq' ⟨_, rfl, (hpost _ _ _).trans hq⟩ p hp
    · exact ih2 hq' ⟨_, rfl, (hpost _ _ _).trans hq⟩ p hp

/-- C83: renaming class `j` to `σ j` in the targets and in the prior of a hyperplane classification tree gives the
same exception, or a tree with the same planes and importances, and renamed class probabilities for every query; the
predicted class is renamed too where it is the only most likely one.  With pruning, if no node of the tree that `_fit`
builds (before `_prune`) has two equally likely classes at the top. -/
theorem C83_relabel {c : HCtx ℝ (List ℝ) ℝ (List ℝ)} (hT : c.T = clsTarget realFns) (he : Euclidean c.A)
    (hs : SortsByComparison c.A) (hopt : Blind c.opt) {k n : Nat} (hn : 0 < n) {prior prior' : List ℝ}
    (hgood : GoodPrior prior) (σ : Equiv.Perm (Fin k)) (label : Nat → Fin k) (hy : ∀ i, c.y i = ((label i : Nat) : ℝ))
    (hprior : Relabelled σ prior prior')
    (hties : c.hp.prune = true → ∀ t0, hFit c (n + 1) (some prior) 0 (List.range n) = .ok t0 →
      ∀ addr u, nodeAt t0 addr = some u → UniqueMax u.info.posterior) :
    let c' : HCtx ℝ (List ℝ) ℝ (List ℝ) := { c with y := fun i => ((σ (label i) : Nat) : ℝ) }
    (∀ e, hFitRoot c (some prior) n = .error e → hFitRoot c' (some prior') n = .error e) ∧
    ∀ t, hFitRoot c (some prior) n = .ok t → ∃ t', hFitRoot c' (some prior') n = .ok t' ∧
      (∀ addr, splitAt t' addr = splitAt t addr) ∧
      hyperFeatureImportance c.nDim t' = hyperFeatureImportance c.nDim t ∧
      ∀ (X : Nat → Nat → ℝ) (m i : Nat), i < m → ∃ p p',
        (predictProba hyperRouter c.T t X m)[i]? = some (some p) ∧
        (predictProba hyperRouter c.T t' X m)[i]? = some (some p') ∧ Relabelled σ p p' ∧
        (UniqueMax p → ∃ j : Fin k,
          (predict hyperRouter c.T t X m)[i]? = some ((j : Nat) : ℝ) ∧
          (predict hyperRouter c.T t' X m)[i]? = some ((σ j : Nat) : ℝ)) := by
  intro c'
  rw [relabelled_eq hprior]
  have hplen := hprior.1
  have hC : CodeTarget realFns c.T (dirichletMarginal realFns) dirichletPosterior := by rw [hT]; exact .classification
  have hmv : ∀ x : Nat → ℝ, moved 1 (fun _ => 0) x = x := fun x => by funext d; simp [moved]
  have hml : ∀ ys : List ℝ, (∀ v ∈ ys, ∃ i : Fin k, v = ((i : Nat) : ℝ)) →
      dirichletMarginal realFns (permute σ prior) (ys.map (relab σ)) = dirichletMarginal realFns prior ys :=
    fun ys hys => dirichletMarginal_relab betaln_symm σ ys prior hplen hys
  have hm : HMove c c' (mlPair realFns (dirichletMarginal realFns)) (mlPair realFns (dirichletMarginal realFns)) 1
      (fun _ => 0) (relab σ) (permute σ) (fun _ => id) Eq prior (fun v => ∃ i : Fin k, v = ((i : Nat) : ℝ)) :=
    { pos := one_pos, A := rfl, nDim := rfl, budget := rfl, hypercube := rfl
      X := fun i => (hmv _).symm
      y := fun i => by rw [hy i, relab_coe]
      okTarget := fun i => ⟨label i, hy i⟩
      inj := by
        rintro _ _ ⟨i, rfl⟩ ⟨j, rfl⟩ h
        rw [relab_coe, relab_coe, Nat.cast_inj, ← Fin.ext_iff] at h
        rw [σ.injective h]
      prec := (one_mul _).symm, sort := he.isArgsort
      order := fun xs b => hs _ (fun u v h => by simpa using h) xs
      lawful := hC.textbook.lawful, lawful' := hC.textbook.lawful
      delta0 := fun y => hC.deltaZero y _, delta0' := fun y => hC.deltaZero y _
      posterior1 := fun ys _ hys => by
        show c.T.posterior _ _ _ = _
        rw [hT]
        exact clsPosterior_relab σ ys prior 1 hplen hys
      noSplit := fun lv ys hne hys => by
        rw [hC.textbook.stay _ _ _ _ hne]
        show c.T.logNoSplit _ _ _ _ = _
        rw [hC.textbook.stay _ _ _ _ (by simpa using hne), hml ys hys]
        rfl
      pair := fun lv ns u v _ _ _ hu hv => by
        unfold mlPair
        rw [hml u hu, hml v hv]
        rfl
      mono := fun k => strictMono_id
      normal := fun _ _ _ _ _ h => by rw [h]
      search := fun lv R _ hist hist' hh => by
        have e : hist' = hist := by
          induction hh with
          | nil => rfl
          | cons h _ ih =>
            obtain ⟨h1, s, h2, h3⟩ := h
            rw [ih]
            congr 1
            exact Prod.ext h1.symm (h3.trans h2.symm)
        rw [e]
        show StepRel Eq _ (c.opt.solve _ _)
        rw [hopt (hProblem c prior lv R) (hProblem c' (permute σ prior) lv R) rfl]
        cases c.opt.solve (hProblem c prior lv R) hist with
        | eval r => exact .eval rfl
        | stop => exact .stop
        | raise e => exact .raise e }
  have hgp : ∀ (q : List ℝ) m d, c.T.getPrior (some q) m d = q := fun q m d => by rw [hT]; rfl
  set image : HNode ℝ ℝ (List ℝ) → HNode ℝ ℝ (List ℝ) :=
    movedTree c.hp (1 : ℝ) (fun _ => 0) (permute σ) (fun _ => (id : ℝ → ℝ)) with himage
  have hfit : hFitRoot c' (some (permute σ prior)) n = (hFitRoot c (some prior) n).map image := by
    have h0 := hFit_move hm (n + 1) (some prior) 0 (List.range n) (by simp; omega) (hgp _ _ _)
      (hgp _ _ _)
    rw [Option.map_some] at h0
    unfold hFitRoot
    rw [h0]
    cases hf : hFit c (n + 1) (some prior) 0 (List.range n) with
    | error e => rfl
    | ok u =>
      dsimp only [Except.map]
      rw [show c'.hp = c.hp from rfl, show c'.T = c.T from rfl]
      cases hpr : c.hp.prune with
      | false => rfl
      | true =>
        have hb := hFit_built (c := c) hC.textbook.lawful he.isArgsort (par := none) (by simp) hf
        have hpost : ∀ r ∈ posts u, UniqueMax r ∧ r.length = k := by
          intro r hr
          refine ⟨?_, hBuilt_posts_length hT hb (by simp) ⟨prior, rfl, hplen⟩ r hr⟩
          obtain ⟨addr, v, hv, rfl⟩ := mem_posts hr
          exact hties hpr u hf addr v hv
        simp only [if_true, prune_eq]
        congr 1
        refine merge_moved_on c.hp c.T.predictLeaf c.T.predictLeaf u fun p hpm q hqm => ?_
        obtain ⟨i, ei, ei'⟩ := argmax_relab σ (hpost p hpm).2 (hpost p hpm).1
        obtain ⟨j, ej, ej'⟩ := argmax_relab σ (hpost q hqm).2 (hpost q hqm).1
        rw [hT]
        show ((argmax (permute σ p) : Nat) : ℝ) = ((argmax (permute σ q) : Nat) : ℝ) ↔
          ((argmax p : Nat) : ℝ) = ((argmax q : Nat) : ℝ)
        rw [ei, ej, ei', ej', Nat.cast_inj, Nat.cast_inj, ← Fin.ext_iff, ← Fin.ext_iff]
        exact σ.injective.eq_iff
  refine ⟨fun e h => by rw [hfit, h]; rfl, fun t h => ⟨image t, by rw [hfit, h]; rfl, fun addr =>
    splitAt_moved_one c.hp t addr, ?_, fun X m i hi => ?_⟩⟩
  · unfold hyperFeatureImportance
    rw [himage, hyperUpdateImportance_moved (fS := fun _ => id) fun _ _ _ => rfl]
  · have hpl := planesFit_of_fit hC he h
    obtain ⟨l, hw⟩ := walk_total hyperRouter (X i) (fun sp h => by rw [hyper_complementary, h]; rfl) t
    obtain ⟨addr, hl, hps⟩ := (walk_iff _ _ _ _).1 hw
    obtain ⟨-, -, hpo⟩ := C49_closed hC he hn h addr _ hl
    change l.posterior = _ at hpo
    have hlen : l.posterior.length = k := by rw [hpo]; simp [dirichletPosterior, hplen]
    have hgl : GoodPrior l.posterior := by
      rw [hpo, ← clsPosterior_one]
      refine ⟨?_, clsPosterior_pos hgood.2 _ zero_le_one⟩
      rw [← List.length_pos_iff, clsPosterior_length, List.length_pos_iff]
      exact hgood.1
    have hsum := listSum_pos hgl.1 hgl.2
    have hw' := walk_moved (hp' := c.hp) (t := fun _ => 0) (fP := permute σ) (fS := fun _ => (id : ℝ → ℝ)) one_pos hpl (X i)
    rw [hmv, hw] at hw'
    change walk hyperRouter (image t) (X i) = some (imageInfo c.hp (permute σ) l) at hw'
    have e1 : (predict hyperRouter c.T t X m)[i]? = some (c.T.predictLeaf l.posterior) := by
      unfold predict
      rw [predictRows_getElem? _ hyper_exclusive _ _ _ _ _ _ hi, hw]
    have e2 : (predictProba hyperRouter c.T t X m)[i]? = some (some (c.T.posteriorMean l.posterior)) := by
      unfold predictProba
      rw [predictRows_getElem? _ hyper_exclusive _ _ _ _ _ _ hi, hw]
    have g1 : (predict hyperRouter c.T (image t) X m)[i]? = some (c.T.predictLeaf (permute σ l.posterior)) := by
      unfold predict
      rw [predictRows_getElem? _ hyper_exclusive _ _ _ _ _ _ hi, hw']
      rfl
    have g2 : (predictProba hyperRouter c.T (image t) X m)[i]? =
        some (some (c.T.posteriorMean (permute σ l.posterior))) := by
      unfold predictProba
      rw [predictRows_getElem? _ hyper_exclusive _ _ _ _ _ _ hi, hw']
      rfl
    rw [hT] at e1 e2 g1 g2
    rw [hT]
    refine ⟨_, _, e2, g2, ⟨?_, ?_, ?_⟩, ?_⟩
    · show (clsPosteriorMean _).length = _
      simp [clsPosteriorMean, hlen]
    · show (clsPosteriorMean _).length = _
      simp [clsPosteriorMean, permute_length]
    · intro j
      show (clsPosteriorMean (permute σ l.posterior))[_]? = (clsPosteriorMean l.posterior)[_]?
      unfold clsPosteriorMean
      rw [List.getElem?_map, List.getElem?_map, (permute_perm σ _ hlen).sum_eq,
        (permute_relabelled σ _ hlen).2.2 j]
    · intro hu
      have hu' : UniqueMax l.posterior := by
        obtain ⟨a, v, ha, hmax⟩ := hu
        change (clsPosteriorMean l.posterior)[a]? = some v at ha
        unfold clsPosteriorMean at ha
        rw [List.getElem?_map, Option.map_eq_some_iff] at ha
        obtain ⟨w, hw, rfl⟩ := ha
        refine ⟨a, w, hw, fun b z hz hle => hmax b (z / l.posterior.sum) ?_ ?_⟩
        · show (clsPosteriorMean l.posterior)[b]? = _
          unfold clsPosteriorMean
          rw [List.getElem?_map, hz]; rfl
        · exact div_le_div_of_nonneg_right hle hsum.le
      obtain ⟨j, ej, ej'⟩ := argmax_relab σ hlen hu'
      refine ⟨j, ?_, ?_⟩
      · rw [e1, ← ej]; rfl
      · rw [g1, ← ej']; rfl

theorem hSample_label (i : Nat) :
    hSampleY i = (((if hSampleY i = 0 then 0 else 1 : Fin 2) : Nat) : ℚ) := by
  by_cases hi : i < 9
  · have : ∀ i < 9, hSampleY i = (((if hSampleY i = 0 then 0 else 1 : Fin 2) : Nat) : ℚ) := by decide +kernel
    exact this i hi
  · have : hSampleY i = 0 := by
      unfold hSampleY
      rw [List.getD_eq_getElem?_getD, List.getElem?_eq_none (by simpa using hi)]
      rfl
    simp [this]

/-- Classes 0 and 1 of the nine-point sample with two oblique splits exchanged. -/
example : ∃ t', hFitRoot { hSampleReal 0 with
      y := fun i => ((Equiv.swap (0 : Fin 2) 1 (if hSampleY i = 0 then 0 else 1) : Fin 2) : Nat) }
      (some (castL [1, 1])) 9 = .ok t' ∧
    splitAt t' [true] = splitAt (castHTree (hSampleHp 0) (hSampleTree 0)) [true] := by
  obtain ⟨t', h1, h2, -⟩ := (C83_relabel (c := hSampleReal 0) (prior := castL [1, 1]) (prior' := castL [1, 1]) rfl
    realArith_euclidean realArith_comparison (blind_list _ _) (by decide)
    ⟨by simp [castL], by intro a ha; simp [castL] at ha; rw [ha]; norm_num⟩ (Equiv.swap (0 : Fin 2) 1)
    (fun i => if hSampleY i = 0 then 0 else 1)
    (fun i => by
      show ((hSampleY i : ℚ) : ℝ) = _
      rw [hSample_label i]
      simp only [Rat.cast_natCast]
      rw [← hSample_label i])
    ⟨rfl, rfl, fun j => by fin_cases j <;> rfl⟩ (fun h => by cases h)).2 _ hSampleReal_fit
  exact ⟨t', h1, h2 _⟩

end BT
