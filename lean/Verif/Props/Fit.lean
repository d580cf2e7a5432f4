import Verif.Spec.Routed
import Verif.Lemmas.RegSample
import Verif.Lemmas.PathsMap
import Verif.Lemmas.Cast
import Verif.Lemmas.Measure

/-!
# Properties of fitting a perpendicular tree: C08 – C19, C41, C45
-/

namespace BT
open Spec

section
variable {V K P S O : Type} [LinearOrder S] [DecidableEq K] [Zero K] [One K] {ok : V → Prop}
  {c : Ctx V K P S O} {argsort : List V → List Nat} {n : Nat} {prior : Option P} {t : PNode V S K P}

/-- C08: the `n_data_` of every node (pruned tree or not) is the number of training rows that
prediction routes through it. -/
theorem C08_rows_routed_back (hv : Valid ok c argsort n) (h : fitIn c argsort prior n = .ok t)
    (addr : List Bool) (u : PNode V S K P) (hu : nodeAt t addr = some u) :
    u.info.nData = (routed c t n addr).length := by
  obtain ⟨_, _, u0, hB, e, -⟩ := fit_node hv h hu
  rw [e, Built.nData hB]; rfl

/-- C09: with `delta = 0` every node's posterior is the update of the root prior with exactly the
targets of the rows routed to it. -/
theorem C09_posteriors (hv : Valid ok c argsort n) (h : fitIn c argsort prior n = .ok t)
    (hδ : c.hp.delta = 0) (addr : List Bool) (u : PNode V S K P) (hu : nodeAt t addr = some u) :
    u.info.posterior = c.T.posterior (c.ys (routed c t n addr)) (c.T.getPrior prior n c.nDim) 1 := by
  have hpr : ∀ R : List Nat, c.prior (some (c.T.getPrior prior n c.nDim)) R = c.T.getPrior prior n c.nDim :=
    fun R => hv.target.getPrior_some _ _ _
  obtain ⟨par', pa', u0, hB, e, -, -, ⟨hpar, hpa⟩, -⟩ := fit_nodeInv hv h
    (fun par pa R => (∀ p, par = some p → p = c.T.getPrior prior n c.nDim) ∧
      c.prior pa R = c.T.getPrior prior n c.nDim)
    (by
      rintro par pa R R' ⟨-, h2⟩ -
      rw [h2]
      refine ⟨fun p hp => (Option.some.inj hp).symm, ?_⟩
      unfold Ctx.childPrior
      rw [if_neg (by simp [hδ])]
      exact hpr R')
    ⟨by simp, by unfold Ctx.prior; rw [List.length_range]⟩ hu
  rw [e]
  cases hB with
  | direct par pa lv R hs => rw [← hpar _ rfl]; rfl
  | stay par pa lv R hd hno => exact congrArg (fun q => c.T.posterior _ q 1) hpa
  | split par pa lv R d cut name c1 c2 => exact congrArg (fun q => c.T.posterior _ q 1) hpa

/-- C19: every node carries the constructor parameters of the root, and its depth as level. -/
theorem C19_hyper (hv : Valid ok c argsort n) (hn : 0 < n) (h : fitIn c argsort prior n = .ok t)
    (addr : List Bool) (u : PNode V S K P) (hu : nodeAt t addr = some u) :
    u.info.hp = c.hp ∧ u.info.level = addr.length :=
  ⟨(fit_inv hv hn h (fun _ => True) trivial (fun _ _ _ _ _ => trivial) (fun _ _ _ _ _ _ => trivial)
      addr u hu).2.2.1,
    (fit_inv hv hn h (fun _ => True) trivial (fun _ _ _ _ _ => trivial) (fun _ _ _ _ _ _ => trivial)
      addr u hu).2.2.2.1⟩

/-- The rows routed to the children of a split partition the rows routed to it. -/
theorem routed_append (hv : Valid ok c argsort n) (h : fitIn c argsort prior n = .ok t)
    {addr : List Bool} {i : Info K P} {sp : PSplit V} {l b : S} {c1 c2 : PNode V S K P}
    (hu : nodeAt t addr = some (.split i sp l b c1 c2)) :
    routed c t n (addr ++ [false]) = (routed c t n addr).filter (fun j => c.o.lt (c.X j sp.dim) sp.value) ∧
    routed c t n (addr ++ [true]) = (routed c t n addr).filter (fun j => c.o.ge (c.X j sp.dim) sp.value) ∧
    ∀ j ∈ routed c t n addr, c.o.ge (c.X j sp.dim) sp.value = !c.o.lt (c.X j sp.dim) sp.value := by
  obtain ⟨par', pa', u0, hB, -, hs, -⟩ := fit_node hv h hu
  obtain ⟨d1, d2, rfl, -, -⟩ := hs _ _ _ _ _ _ rfl
  have hr : ∀ j ∈ routed c t n addr, c.o.ge (c.X j sp.dim) sp.value = !c.o.lt (c.X j sp.dim) sp.value := by
    cases hB with
    | split _ _ _ _ d cut name _ _ hdv hd hcut =>
      intro j hj
      exact (cut_routes hv.ops (fun i hi => hv.vals i (List.mem_range.1 (List.mem_filter.1 hi).1) d hd)
        hcut j hj).1
  have happ : ∀ (t' : PNode V S K P) (a : List Bool), nodeAt t' a = some (.split i sp l b c1 c2) →
      ∀ (x : Nat → V) (bb : Bool), passes (perpRouter c.o) t' (a ++ [bb]) x =
        (passes (perpRouter c.o) t' a x && (if c.o.lt (x sp.dim) sp.value then !bb
          else if c.o.ge (x sp.dim) sp.value then bb else false)) := by
    intro t' a
    induction a generalizing t' with
    | nil =>
      intro ha x bb
      rw [nodeAt_nil] at ha
      cases ha
      simp [passes, perpRouter]
    | cons q qs ih =>
      intro ha x bb
      cases t' with
      | leaf j => simp [nodeAt] at ha
      | split j sp' l' b' e1 e2 =>
        cases q with
        | false =>
          have := ih e1 (by simpa [nodeAt] using ha) x bb
          simp only [List.cons_append, passes, this]
          split
          · simp
          · split <;> simp
        | true =>
          have := ih e2 (by simpa [nodeAt] using ha) x bb
          simp only [List.cons_append, passes, this]
          split
          · simp
          · split <;> simp
  refine ⟨?_, ?_, hr⟩
  · unfold routed
    rw [List.filter_filter]
    apply List.filter_congr
    intro j hj
    rw [happ t addr hu]
    cases hp : passes (perpRouter c.o) t addr (c.X j) with
    | false => simp
    | true =>
      cases hl : c.o.lt (c.X j sp.dim) sp.value <;> simp
  · unfold routed
    rw [List.filter_filter]
    apply List.filter_congr
    intro j hj
    rw [happ t addr hu]
    cases hp : passes (perpRouter c.o) t addr (c.X j) with
    | false => simp
    | true =>
      have := hr j (List.mem_filter.2 ⟨hj, hp⟩)
      rw [this]
      cases hl : c.o.lt (c.X j sp.dim) sp.value <;> simp

/-- C19: a child's prior attribute is the effective prior of its parent, strengthened by `delta` times
its own rows. -/
theorem C19_child_prior (hv : Valid ok c argsort n) (h : fitIn c argsort prior n = .ok t)
    (addr : List Bool) (i : Info K P) (sp : PSplit V) (l b : S) (c1 c2 : PNode V S K P)
    (hu : nodeAt t addr = some (.split i sp l b c1 c2)) :
    let p := c.T.getPrior i.prior i.nData c.nDim
    (c.hp.delta = 0 → c1.info.prior = some p ∧ c2.info.prior = some p) ∧
    (c.hp.delta ≠ 0 →
      c1.info.prior = some (c.T.posterior (c.ys (routed c t n (addr ++ [false]))) p c.hp.delta) ∧
      c2.info.prior = some (c.T.posterior (c.ys (routed c t n (addr ++ [true]))) p c.hp.delta)) := by
  intro p
  obtain ⟨r1, r2, -⟩ := routed_append hv h hu
  obtain ⟨par', pa', u0, hB, e, hs, -⟩ := fit_node hv h hu
  obtain ⟨d1, d2, rfl, e1, e2⟩ := hs _ _ _ _ _ _ rfl
  have key : ∀ {par pa : Option P} {lv : Nat} {R : List Nat} {w : PNode V S K P},
      Built c par pa lv R w → w.info.prior = pa := by
    intro par pa lv R w hw; cases hw <;> rfl
  rw [r1, r2, e1, e2]
  cases hB with
  | split _ _ _ _ d cut name _ _ hdv hd hcut hgain hmax hfd hfc hname h1 h2 =>
    rw [key h1, key h2]
    have hp : p = c.prior pa' (routed c t n addr) := rfl
    unfold Ctx.childPrior
    constructor
    · intro hδ
      rw [if_neg (by simpa using hδ), if_neg (by simpa using hδ), hp]
      exact ⟨rfl, rfl⟩
    · intro hδ
      rw [if_pos hδ, if_pos hδ, hp]
      exact ⟨rfl, rfl⟩

/-- C10, what does hold: a leaf that was fitted recursively is updated from its own prior attribute, a
child leaf that was not (`n_dim_` missing) is updated from the effective prior of its *parent*.
Missing from the full statement: the latter leaves are not updated from their own prior
(`C10_refuted`). -/
theorem C10_leaf_update_partial (hv : Valid ok c argsort n) (h : fitIn c argsort prior n = .ok t)
    (addr : List Bool) (i : Info K P) (hu : nodeAt t addr = some (.leaf i)) :
    (i.nDim.isSome → i.posterior =
      c.T.posterior (c.ys (routed c t n addr)) (c.T.getPrior i.prior i.nData c.nDim) 1) ∧
    (i.nDim = none → ∃ parent bit j sp l b c1 c2, addr = parent ++ [bit] ∧
      nodeAt t parent = some (.split j sp l b c1 c2) ∧
      i.posterior = c.T.posterior (c.ys (routed c t n addr)) (c.T.getPrior j.prior j.nData c.nDim) 1) := by
  obtain ⟨par', pa', u0, hB, e, -⟩ := fit_node hv h hu
  refine ⟨fun hs => ?_, fun hs => ?_⟩
  · rw [show i = u0.info from e] at hs ⊢
    cases hB with
    | direct => cases hs
    | stay => rfl
    | split => rfl
  · -- look at the parent
    rcases List.eq_nil_or_concat addr with rfl | ⟨parent, bit, rfl⟩
    · exfalso
      rw [nodeAt_nil] at hu
      have hr := (fit_node hv h (addr := []) (by rw [nodeAt_nil]))
      obtain ⟨p1, p2, w, hW, ew, -, -, hnil, -⟩ := hr
      obtain ⟨rfl, rfl⟩ := hnil rfl
      have et : t.info = i := by cases hu; rfl
      rw [et] at ew
      rw [ew] at hs
      cases hW <;> cases hs
    · rw [List.concat_eq_append] at *
      have hpn : ∃ j sp l b c1 c2, nodeAt t parent = some (.split j sp l b c1 c2) := by
        rw [nodeAt_append] at hu
        cases hq : nodeAt t parent with
        | none => rw [hq] at hu; cases hu
        | some w =>
          cases w with
          | leaf j => rw [hq] at hu; simp [nodeAt] at hu
          | split j sp l b c1 c2 => exact ⟨j, sp, l, b, c1, c2, rfl⟩
      obtain ⟨j, sp, l, b, c1, c2, hpar⟩ := hpn
      refine ⟨parent, bit, j, sp, l, b, c1, c2, rfl, hpar, ?_⟩
      obtain ⟨r1, r2, -⟩ := routed_append hv h hpar
      obtain ⟨p1, p2, w, hW, ew, hsp, -⟩ := fit_node hv h hpar
      obtain ⟨d1, d2, rfl, e1, e2⟩ := hsp _ _ _ _ _ _ rfl
      have key : ∀ {q pa : Option P} {lv : Nat} {R : List Nat} {w : PNode V S K P},
          Built c q pa lv R w → w.info.nDim = none → ∃ q', q = some q' ∧
            w.info.posterior = c.T.posterior (c.ys R) q' 1 := by
        intro q pa lv R w hw hnone
        cases hw with
        | direct q pa lv R => exact ⟨q, rfl, rfl⟩
        | stay => cases hnone
        | split => cases hnone
      have hchild : (bit = false → i = c1.info) ∧ (bit = true → i = c2.info) := by
        rw [nodeAt_append, hpar] at hu
        constructor
        · rintro rfl
          simp only [Option.bind_some, nodeAt, nodeAt_nil, Bool.false_eq_true, if_false,
            Option.some.injEq] at hu
          rw [hu]; rfl
        · rintro rfl
          simp only [Option.bind_some, nodeAt, nodeAt_nil, if_true, Option.some.injEq] at hu
          rw [hu]; rfl
      cases hW with
      | split _ _ _ _ d cut name _ _ hdv hd hcut hgain hmax hfd hfc hname h1 h2 =>
        cases bit with
        | false =>
          have ei := (hchild.1 rfl).trans e1
          rw [ei] at hs ⊢
          obtain ⟨q', hq, hpost⟩ := key h1 hs
          rw [hpost, r1, ← Option.some.inj hq]
          rfl
        | true =>
          have ei := (hchild.2 rfl).trans e2
          rw [ei] at hs ⊢
          obtain ⟨q', hq, hpost⟩ := key h2 hs
          rw [hpost, r2, ← Option.some.inj hq]
          rfl

end

/-- C09 for classification: with `delta = 0`, `posterior_` is the prior plus the class counts of the
training rows routed to the node. -/
theorem C09_classification {V K : Type} [Field K] [LinearOrder K] {F : Fns K} {ok : V → Prop}
    {c : Ctx V K (List K) K (List K)} (hT : c.T = clsTarget F) {argsort : List V → List Nat} {n : Nat}
    {prior : List K} {t : PNode V K K (List K)} (hv : Valid ok c argsort n)
    (h : fitIn c argsort (some prior) n = .ok t) (hδ : c.hp.delta = 0)
    (addr : List Bool) (u : PNode V K K (List K)) (hu : nodeAt t addr = some u) :
    u.info.posterior.length = prior.length ∧
    ∀ k (hk : k < prior.length), u.info.posterior[k]? = some (prior[k] +
      ((((routed c t n addr).filter fun j => c.y j = (k : K)).length : Nat) : K)) := by
  have e := C09_posteriors hv h hδ addr u hu
  rw [hT] at e
  have e' : u.info.posterior = dirichletPosterior prior (c.ys (routed c t n addr)) :=
    e.trans (clsPosterior_one _ _)
  rw [e']
  refine ⟨by simp [dirichletPosterior], fun k hk => ?_⟩
  simp only [dirichletPosterior, List.getElem?_mapIdx, List.getElem?_eq_getElem hk, Option.map_some,
    Option.some.injEq, count, Ctx.ys, List.filter_map, List.length_map]
  rfl

/-- C09 for regression: with `delta = 0`, `posterior_` is the Normal-gamma update (mean, sum of squared
deviations) of the root prior with the targets routed to the node. -/
theorem C09_regression {V K : Type} [Field K] [LinearOrder K] [IsStrictOrderedRing K] {F : Fns K}
    {ok : V → Prop} {c : Ctx V K (NG K) K K} (hT : c.T = regTarget F) {argsort : List V → List Nat} {n : Nat}
    (hn : 0 < n) {prior : Option (NG K)} {t : PNode V K K (NG K)} (hv : Valid ok c argsort n)
    (h : fitIn c argsort prior n = .ok t) (hδ : c.hp.delta = 0)
    (addr : List Bool) (u : PNode V K K (NG K)) (hu : nodeAt t addr = some u) :
    u.info.posterior = Spec.ngPosterior (regGetPrior prior n c.nDim) (c.ys (routed c t n addr)) := by
  have e := C09_posteriors hv h hδ addr u hu
  have hpos : 0 < u.info.nData := (fit_inv hv hn h (fun _ => True) trivial (fun _ _ _ _ _ => trivial)
    (fun _ _ _ _ _ _ => trivial) addr u hu).2.2.2.2
  have hne : c.ys (routed c t n addr) ≠ [] := by
    intro h0
    have := C08_rows_routed_back hv h addr u hu
    rw [List.map_eq_nil_iff.1 h0] at this
    rw [this] at hpos; exact absurd hpos (lt_irrefl _)
  rw [e, hT]
  exact regPosterior_one _ _ hne

/-- The sample with `delta = 1`. -/
def deltaCtx : Ctx ℚ ℚ (List ℚ) ℚ (List ℚ) := { sampleCtx with hp := ⟨9 / 10, 1, false, 0⟩ }

/-- Its fitted tree. -/
def deltaTree : PNode ℚ ℚ ℚ (List ℚ) :=
  ((fitIn deltaCtx (insArgsort (exactOps ℚ).le) (some [1, 1]) 12).toOption).getD
    (.leaf ⟨sampleHp, none, 0, none, 0, []⟩)

theorem deltaFit : fitIn deltaCtx (insArgsort (exactOps ℚ).le) (some [1, 1]) 12 = .ok deltaTree := by
  decide +kernel

theorem deltaLeaf : nodeAt deltaTree [false] =
      some (.leaf ⟨⟨9 / 10, 1, false, 0⟩, some [5, 1], 1, none, 4, [5, 1]⟩) ∧
    routed deltaCtx deltaTree 12 [false] = [0, 1, 6, 7] := by
  decide +kernel

/-- C10 is false: there is a (real-valued, log-gamma scored) classification fit with `delta = 1` and a
leaf whose posterior is not the update of its own prior with its training targets. -/
theorem C10_refuted : ∃ (c : Ctx ℝ ℝ (List ℝ) ℝ (List ℝ)) (prior : List ℝ) (n : Nat)
    (t : PNode ℝ ℝ ℝ (List ℝ)) (addr : List Bool) (i : Info ℝ (List ℝ)) (p : List ℝ),
    c.o = exactOps ℝ ∧ c.T = clsTarget realFns ∧ c.hp.delta = 1 ∧ Valid (fun _ => True) c realSort n ∧
    fitIn c realSort (some prior) n = .ok t ∧ nodeAt t addr = some (.leaf i) ∧ i.prior = some p ∧
    i.posterior ≠ c.T.posterior (c.ys (routed c t n addr)) p 1 := by
  refine ⟨castCtx deltaCtx, castL [1, 1], 12, castTree deltaCtx.hp deltaTree, [false],
    mapInfo (castHp deltaCtx.hp) castL ⟨⟨9 / 10, 1, false, 0⟩, some [5, 1], 1, none, 4, [5, 1]⟩, castL [5, 1],
    rfl, rfl, ?_, castCtx_valid (by decide) (by decide) (le_refl _) realSort_spec,
    cast_fit deltaFit rfl rfl rfl (by decide) (by decide) (by decide) (le_refl _) (by decide +kernel)
      (by decide +kernel) (by decide +kernel) ⟨by simp, by decide +kernel⟩ realSort_spec, ?_, rfl, ?_⟩
  · show ((1 : ℚ) : ℝ) = 1
    simp
  · unfold castTree
    rw [nodeAt_map, deltaLeaf.1]
    rfl
  · rw [routed_cast rfl, deltaLeaf.2, ys_cast]
    show castL [5, 1] ≠ clsPosterior (castL _) (castL _) 1
    have e := clsPosterior_cast (Rat.castHom ℝ) (deltaCtx.ys [0, 1, 6, 7]) [5, 1] 1
    rw [map_one] at e
    intro h
    have h2 := castL_inj (h.trans e)
    revert h2
    decide +kernel

/-- The hypotheses of C08, C09 and C19 are met by a fit with two splits; the node on the right holds
eight rows, four of each class. -/
example : Valid (fun _ => True) (castCtx sampleCtx) realSort 12 ∧
    fitIn (castCtx sampleCtx) realSort (some (castL [1, 1])) 12 = .ok (castTree sampleHp sampleTree) ∧
    (castCtx sampleCtx).hp.delta = 0 ∧
    routed (castCtx sampleCtx) (castTree sampleHp sampleTree) 12 [true] = [2, 3, 4, 5, 8, 9, 10, 11] := by
  refine ⟨sampleReal_valid, sampleReal_fit, ?_, ?_⟩
  · show ((0 : ℚ) : ℝ) = 0
    simp
  · rw [routed_cast rfl]; decide +kernel

/-- C09 for regression applied to a fit with a split. -/
example (p : NG ℝ) (a b : ℝ) (u : PNode ℝ ℝ ℝ (NG ℝ))
    (hu : nodeAt (regTree2 p a b 0 false) [true] = some u) : u.info.posterior =
      Spec.ngPosterior p ((regCtx2 p a b 0 false).ys (routed (regCtx2 p a b 0 false) (regTree2 p a b 0 false) 2 [true])) :=
  C09_regression rfl (by decide) (regCtx2_valid p a b 0 false) (regTree2_fit p a b 0) rfl [true] u hu

/-- C10 (partial): the unfitted leaf of the sample with `delta = 1` is updated from the root prior. -/
example : ∃ parent bit j sp l b c1 c2, [false] = parent ++ [bit] ∧
    nodeAt deltaTree parent = some (.split j sp l b c1 c2) ∧
    [5, 1] = (probTarget ℚ).posterior (deltaCtx.ys (routed deltaCtx deltaTree 12 [false]))
      ((probTarget ℚ).getPrior j.prior j.nData 2) 1 :=
  (C10_leaf_update_partial (c := deltaCtx) (ok := fun _ => True)
    ⟨exact_lawful (le_refl 0), prob_lawful ℚ, insArgsort_spec (exact_lawful (le_refl (0 : ℚ))), by decide,
      by decide, fun _ _ _ _ => trivial⟩ deltaFit [false] _ deltaLeaf.1).2 rfl

end BT
