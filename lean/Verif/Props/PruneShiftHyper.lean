import Verif.Props.PruneShift
import Verif.Props.HyperShape
import Verif.Props.HyperRows
import Verif.Props.HyperTransform
import Verif.Props.HyperJoint

/-!
# C22 and C23 for hyperplane trees

The children of a hyperplane split have the prior of the root whatever `delta` is (C51), so that `delta = 0` is not needed.
-/

namespace BT
open Spec

set_option linter.unusedSectionVars false

theorem walk_mapNode {Sp S K P Row : Type} (rt : Router Sp Row) (hp : Hyper K) (t : Node Sp S K P) (x : Row) :
    walk rt (mapNode hp id id id t) x = (walk rt t x).map (mapInfo hp id) := by
  induction t with
  | leaf i => rfl
  | split i sp l b c1 c2 ih1 ih2 =>
    simp only [mapNode, walk, id, ih1, ih2]
    split
    · rfl
    · split <;> rfl

theorem mapNode_post {Sp S K P : Type} (hp : Hyper K) (t : Node Sp S K P) :
    (mapNode hp id id id t).info.posterior = t.info.posterior := by cases t <;> rfl

theorem nodeAt_mapNode_id {Sp S K P : Type} (hp : Hyper K) (t : Node Sp S K P) (addr : List Bool) :
    nodeAt (mapNode hp id id id t) addr = (nodeAt t addr).map (mapNode hp id id id) := by
  induction t generalizing addr with
  | leaf i => cases addr <;> rfl
  | split i sp l b c1 c2 ih1 ih2 =>
    cases addr with
    | nil => rfl
    | cons a as => cases a <;> simp [mapNode, nodeAt, ih1, ih2]

section
variable {P O : Type} {F : Fns ℝ} {c : HCtx ℝ P ℝ O} {ml : P → List ℝ → ℝ} {post : P → List ℝ → P} {n : Nat} {prior : P}
  {t0 t1 : HNode ℝ ℝ P}

theorem hyper_prune_related {R : ℝ → ℝ → Prop} (hrefl : ∀ a, R a a) (htrans : ∀ a b c, R a b → R b c → R a c)
    (hT : CodeTarget F c.T ml post) (hA : Euclidean c.A) (hn : 0 < n)
    (h0 : hFitRoot (hWithPrune c false) (some prior) n = .ok t0)
    (h1 : hFitRoot (hWithPrune c true) (some prior) n = .ok t1)
    (hc : ∀ A B L : List ℝ, L.Perm (A ++ B) → c.T.predictLeaf (post prior A) = c.T.predictLeaf (post prior B) →
      R (c.T.predictLeaf (post prior L)) (c.T.predictLeaf (post prior A)))
    (Z : Nat → Nat → ℝ) (m i : Nat) (hi : i < m) :
    ∃ a b, (predict hyperRouter c.T t1 Z m)[i]? = some a ∧ (predict hyperRouter c.T t0 Z m)[i]? = some b ∧ R a b := by
  rw [C21_hyper_fit, h0] at h1
  have e1 : merge c.T.predictLeaf (withHyper (hWithPrune c true).hp t0) = t1 := Except.ok.inj h1
  have l0 := C01_predict_is_walk (hyperRouter (K := ℝ)) hyper_exclusive c.T t0 Z m
  have l1 := C01_predict_is_walk (hyperRouter (K := ℝ)) hyper_exclusive c.T t1 Z m
  rw [l0.2 i hi, l1.2 i hi]
  obtain ⟨j, hj⟩ := walk_total (hyperRouter (K := ℝ)) (Z i) (fun sp g => by rw [hyper_complementary, g]; rfl) t0
  have hj' := walk_mapNode (hyperRouter (K := ℝ)) (hWithPrune c true).hp t0 (Z i)
  rw [hj] at hj'
  obtain ⟨j', g1, g2⟩ := merge_walk_rel (hyperRouter (K := ℝ)) c.T.predictLeaf hrefl htrans
    (withHyper (hWithPrune c true).hp t0) (by
      intro addr i sp l b d1 d2 hd he
      unfold withHyper at hd
      rw [nodeAt_mapNode_id] at hd
      cases hu : nodeAt t0 addr with
      | none => rw [hu] at hd; cases hd
      | some u =>
        rw [hu] at hd
        cases u with
        | leaf j => cases hd
        | split i' sp' l' b' c1 c2 =>
          have hd := Option.some.inj hd
          simp only [mapNode, Node.split.injEq, id] at hd
          obtain ⟨rfl, -, -, -, rfl, rfl⟩ := hd
          rw [mapNode_post, mapNode_post] at he
          rw [mapNode_post]
          have u1 : nodeAt t0 (addr ++ [false]) = some c1 := by rw [nodeAt_append, hu]; simp [nodeAt]
          have u2 : nodeAt t0 (addr ++ [true]) = some c2 := by rw [nodeAt_append, hu]; simp [nodeAt]
          have q0 := (C49_closed (c := hWithPrune c false) hT hA hn h0 addr _ hu).2.2
          have q1 := (C49_closed (c := hWithPrune c false) hT hA hn h0 _ _ u1).2.2
          have q2 := (C49_closed (c := hWithPrune c false) hT hA hn h0 _ _ u2).2.2
          simp only [Node.info] at q0
          show R (c.T.predictLeaf i'.posterior) _
          rw [q0]
          rw [q1, q2] at he
          rw [q1]
          refine hc _ _ _ ?_ he
          rw [← List.map_append]
          refine List.Perm.map _ ?_
          have key : ∀ L : List Nat, (L.filter fun r => passes hyperRouter t0 addr (c.X r)).Perm
              ((L.filter fun r => passes hyperRouter t0 (addr ++ [false]) (c.X r)) ++
                L.filter fun r => passes hyperRouter t0 (addr ++ [true]) (c.X r)) := by
            intro L
            have e1 : ∀ r, passes hyperRouter t0 (addr ++ [false]) (c.X r) =
                (passes hyperRouter t0 addr (c.X r) && hyperRouter.goes1 sp' (c.X r)) := fun r => by
              rw [passes_snoc _ _ _ _ _ hu]; rfl
            have e2 : ∀ r, passes hyperRouter t0 (addr ++ [true]) (c.X r) =
                (passes hyperRouter t0 addr (c.X r) && !hyperRouter.goes1 sp' (c.X r)) := fun r => by
              rw [passes_snoc _ _ _ _ _ hu, hyper_complementary]
              simp
            induction L with
            | nil => exact List.Perm.refl _
            | cons r L ih =>
              simp only [List.filter_cons, e1, e2]
              simp only [e1, e2] at ih
              cases passes hyperRouter t0 addr (c.X r) <;> cases hyperRouter.goes1 sp' (c.X r) <;> simp
              · simpa using ih
              · simpa using ih
              · exact (ih.cons r).trans List.perm_middle.symm
              · exact ih
          have := key (List.range n)
          unfold hRowsAt
          simp only [descends_eq]
          exact this) (Z i) _ hj'
  rw [← e1, g1, hj]
  exact ⟨_, _, rfl, rfl, g2⟩

end

/-- C22 for hyperplane trees, any prior and any `delta`: for every row the pruned tree predicts the class of the unpruned
tree or a class with strictly smaller prior. -/
theorem C22_hyperplane_partial {F : Fns ℝ} {c : HCtx ℝ (List ℝ) ℝ (List ℝ)} {n : Nat} {prior : List ℝ}
    {t0 t1 : HNode ℝ ℝ (List ℝ)} (hT : c.T = clsTarget F) (hA : Euclidean c.A) (hn : 0 < n) (hp : prior ≠ [])
    (h0 : hFitRoot (hWithPrune c false) (some prior) n = .ok t0)
    (h1 : hFitRoot (hWithPrune c true) (some prior) n = .ok t1) (Z : Nat → Nat → ℝ) (m i : Nat) (hi : i < m) :
    ∃ a b, (predict hyperRouter c.T t1 Z m)[i]? = some a ∧ (predict hyperRouter c.T t0 Z m)[i]? = some b ∧
      LowerPrior prior a b := by
  have hT' : CodeTarget F c.T (dirichletMarginal F) dirichletPosterior := by rw [hT]; exact .classification
  refine hyper_prune_related (R := LowerPrior prior) (fun _ => .inl rfl) (fun _ _ _ => LowerPrior.trans) hT' hA hn h0 h1
    ?_ Z m i hi
  rw [hT]
  intro A B L hL he
  have he' : argmax (dirichletPosterior prior A) = argmax (dirichletPosterior prior B) := by
    have he : ((argmax (dirichletPosterior prior A) : Nat) : ℝ) = ((argmax (dirichletPosterior prior B) : Nat) : ℝ) := he
    exact_mod_cast he
  have hlen : ∀ ys, (dirichletPosterior prior ys).length = prior.length := fun ys => by simp [dirichletPosterior]
  have key := argmax_add_prior (l1 := dirichletPosterior prior A) (l2 := dirichletPosterior prior B)
    (l := dirichletPosterior prior L) (p := prior)
    (by intro h; exact hp (List.eq_nil_of_length_eq_zero ((hlen A).symm.trans (by rw [h]; rfl))))
    (by rw [hlen, hlen]) (by rw [hlen, hlen]) (by rw [hlen])
    (by
      intro k x y q hx hy hq
      have e : (count L k) = count A k + count B k := by
        unfold count
        rw [(hL.filter _).length_eq, List.filter_append, List.length_append]
      simp only [dirichletPosterior, List.getElem?_mapIdx, hq, Option.map_some, Option.some.injEq] at hx hy ⊢
      rw [← hx, ← hy, e]
      push_cast
      ring) he'
  rcases key with h | ⟨q, q', g1, g2, g3⟩
  · exact .inl (congrArg Nat.cast h)
  · exact .inr ⟨_, _, q, q', rfl, rfl, g1, g2, g3⟩

/-- C23 for hyperplane trees, any data and any `delta`: for every row the prediction of the pruned tree is that of the
unpruned tree or further away from the prior mean, on the same side. -/
theorem C23_hyperplane_partial {F : Fns ℝ} {c : HCtx ℝ (NG ℝ) ℝ ℝ} {n : Nat} {prior : NG ℝ}
    {t0 t1 : HNode ℝ ℝ (NG ℝ)} (hT : c.T = regTarget F) (hA : Euclidean c.A) (hn : 0 < n) (hκ : 0 < prior.kappa)
    (h0 : hFitRoot (hWithPrune c false) (some prior) n = .ok t0)
    (h1 : hFitRoot (hWithPrune c true) (some prior) n = .ok t1) (Z : Nat → Nat → ℝ) (m i : Nat) (hi : i < m) :
    ∃ a b, (predict hyperRouter c.T t1 Z m)[i]? = some a ∧ (predict hyperRouter c.T t0 Z m)[i]? = some b ∧
      Away prior.mu a b := by
  have hT' : CodeTarget F c.T (ngMarginal F) Spec.ngPosterior := by rw [hT]; exact .regression
  refine hyper_prune_related (R := Away prior.mu) (fun _ => .inl rfl) (fun _ _ _ => Away.trans) hT' hA hn h0 h1 ?_ Z m i hi
  rw [hT]
  intro A B L hL he
  have he : (Spec.ngPosterior prior A).mu = (Spec.ngPosterior prior B).mu := he
  show Away prior.mu (Spec.ngPosterior prior L).mu (Spec.ngPosterior prior A).mu
  have key : ∀ ys : List ℝ,
      (Spec.ngPosterior prior ys).mu * (prior.kappa + (ys.length : ℝ)) = prior.kappa * prior.mu + ys.sum := by
    intro ys
    have hpos : (0 : ℝ) < prior.kappa + (ys.length : ℝ) := by
      have : (0 : ℝ) ≤ (ys.length : ℝ) := Nat.cast_nonneg _
      linarith
    show (prior.kappa * prior.mu + (ys.length : ℝ) * (ys.sum / (ys.length : ℝ))) / _ * _ = _
    rw [div_mul_cancel₀ _ hpos.ne']
    by_cases h0 : ys.length = 0
    · rw [List.length_eq_zero_iff.1 h0]; simp
    · have : (ys.length : ℝ) ≠ 0 := by exact_mod_cast h0
      rw [mul_div_cancel₀ _ this]
  have kA := key A
  have kB := key B
  have kL := key L
  have hlen : (L.length : ℝ) = A.length + B.length := by
    rw [hL.length_eq, List.length_append]; push_cast; ring
  rw [hL.sum_eq, List.sum_append, hlen] at kL
  rw [← he] at kB
  have a0 : (0 : ℝ) ≤ (A.length : ℝ) := Nat.cast_nonneg _
  have b0 : (0 : ℝ) ≤ (B.length : ℝ) := Nat.cast_nonneg _
  generalize (Spec.ngPosterior prior L).mu = w at *
  generalize (Spec.ngPosterior prior A).mu = v at *
  have e : (w - v) * (prior.kappa + (A.length + B.length)) = prior.kappa * (v - prior.mu) := by
    nlinarith [kA, kB, kL]
  have hpos : 0 < prior.kappa + ((A.length : ℝ) + B.length) := by linarith
  rcases lt_trichotomy v prior.mu with g | g | g
  · have h3 : prior.kappa * (v - prior.mu) < 0 := mul_neg_of_pos_of_neg hκ (by linarith)
    rw [← e] at h3
    have : w - v < 0 := by
      by_contra hc
      exact absurd (mul_nonneg (not_lt.1 hc) hpos.le) (not_le.2 h3)
    exact .inr (.inr ⟨by linarith, g⟩)
  · rw [g, sub_self, mul_zero] at e
    rcases mul_eq_zero.1 e with h | h
    · exact .inl (by rw [g]; linarith)
    · exact absurd h hpos.ne'
  · have h3 : 0 < prior.kappa * (v - prior.mu) := mul_pos hκ (by linarith)
    rw [← e] at h3
    have : 0 < w - v := pos_of_mul_pos_left h3 hpos.le
    exact .inr (.inl ⟨g, by linarith⟩)

/-! ## The claims of C22 and C23 are false of hyperplane trees as well -/

/-- The sixteen rows of `asymRows`, with the search trying the normal `[1]`. -/
def hAsymCtx (b : Bool) : HCtx ℚ (List ℚ) ℚ (List ℚ) where
  A := ratArith
  T := probTarget ℚ
  hp := ⟨99 / 100, 0, b, 0⟩
  opt := listOpt false hTieVs
  budget := 3
  X := fun i _ => ((asymRows.map Prod.fst).getD i 0)
  y := fun i => ((asymRows.map Prod.snd).getD i 0)
  nDim := 1

def hAsymTree (b : Bool) : HNode ℚ ℚ (List ℚ) :=
  ((hFitRoot (hAsymCtx b) (some [10, 1]) 16).toOption).getD (.leaf ⟨sampleHp, none, 0, none, 0, []⟩)

theorem hAsym_fit (b : Bool) : hFitRoot (hAsymCtx b) (some [10, 1]) 16 = .ok (hAsymTree b) := by
  cases b <;> decide +kernel

theorem hAsym_predict (b : Bool) : predict hyperRouter (probTarget ℚ) (hAsymTree b) (fun _ _ => 0) 1 =
    [if b then 1 else 0] := by
  cases b <;> decide +kernel

theorem hAsymReal_fit (b : Bool) : hFitRoot (hWithPrune (castHCtx realArith hTieVs (hAsymCtx false)) b)
    (some (castL [10, 1])) 16 = .ok (castHTree (hAsymCtx b).hp (hAsymTree b)) :=
  hFitRoot_cast (hAsymCtx b) hTieVs false rfl rfl rfl rfl
    ⟨by show (0 : ℚ) < 99 / 100; decide +kernel, by show (99 / 100 : ℚ) < 1; decide +kernel, Nat.one_pos⟩
    (fun r hr q _ hq => hTie_normals r hr q hq) ⟨by simp, by decide +kernel⟩ (by decide) (hAsym_fit b)

/-- C22 is false of hyperplane trees: with the prior `[10, 1]` pruning changes the predicted class. -/
theorem C22_hyperplane_refuted : ∃ (c : HCtx ℝ (List ℝ) ℝ (List ℝ)) (prior : List ℝ) (n : Nat)
    (t0 t1 : HNode ℝ ℝ (List ℝ)) (Z : Nat → Nat → ℝ), c.T = clsTarget realFns ∧ Euclidean c.A ∧ c.hp.delta = 0 ∧
    ProperDirichlet prior ∧ hFitRoot (hWithPrune c false) (some prior) n = .ok t0 ∧
    hFitRoot (hWithPrune c true) (some prior) n = .ok t1 ∧
    predict hyperRouter c.T t0 Z 1 = [0] ∧ predict hyperRouter c.T t1 Z 1 = [1] := by
  have hx : (fun _ _ => 0 : Nat → Nat → ℝ) = fun i d => (((fun _ _ => 0 : Nat → Nat → ℚ) i d : ℚ) : ℝ) := by
    funext i d
    simp
  refine ⟨castHCtx realArith hTieVs (hAsymCtx false), castL [10, 1], 16, _, _, fun _ _ => 0, rfl, realArith_euclidean,
    ?_, ⟨by simp [castL], by simp [castL]⟩, hAsymReal_fit false, hAsymReal_fit true, ?_, ?_⟩
  · show ((0 : ℚ) : ℝ) = 0
    simp
  · show predict hyperRouter (clsTarget realFns) _ _ 1 = _
    rw [hx, hPredict_cast, hAsym_predict]
    simp [castL]
  · show predict hyperRouter (clsTarget realFns) _ _ 1 = _
    rw [hx, hPredict_cast, hAsym_predict]
    simp [castL]

/-- Non-vacuity of `C22_hyperplane_partial`: its hypotheses hold of the fits of `C22_hyperplane_refuted`. -/
example (Z : Nat → Nat → ℝ) (m i : Nat) (hi : i < m) : ∃ a b,
    (predict hyperRouter (clsTarget realFns) (castHTree (hAsymCtx true).hp (hAsymTree true)) Z m)[i]? = some a ∧
    (predict hyperRouter (clsTarget realFns) (castHTree (hAsymCtx false).hp (hAsymTree false)) Z m)[i]? = some b ∧
    LowerPrior (castL [10, 1]) a b :=
  C22_hyperplane_partial (c := castHCtx realArith hTieVs (hAsymCtx false)) rfl realArith_euclidean (by decide)
    (by simp [castL]) (hAsymReal_fit false) (hAsymReal_fit true) Z m i hi

theorem hPredict_one {P O : Type} {S : Type} (T : Target ℝ P S O) (t : HNode S ℝ P) {Z : Nat → Nat → ℝ}
    {l : Info ℝ P} (h : walk hyperRouter t (Z 0) = some l) :
    predict hyperRouter T t Z 1 = [T.predictLeaf l.posterior] := by
  apply List.ext_getElem?
  intro k
  by_cases hk : k < 1
  · obtain rfl : k = 0 := by omega
    unfold predict
    rw [predictRows_getElem? _ hyper_exclusive _ _ _ _ _ _ hk, h]
    rfl
  · rw [List.getElem?_eq_none (by unfold predict; rw [predictRows_length]; omega),
      List.getElem?_eq_none (by simp; omega)]

theorem hReg2_prune : ∃ t0 t1, hFitRoot (hWithPrune (hReg2 ⟨0, 1, 1, 1⟩ 1 1) false) (some ⟨0, 1, 1, 1⟩) 2 = .ok t0 ∧
    hFitRoot (hWithPrune (hReg2 ⟨0, 1, 1, 1⟩ 1 1) true) (some ⟨0, 1, 1, 1⟩) 2 = .ok t1 ∧
    predict hyperRouter (regTarget realFns) t0 (fun _ _ => 0) 1 = [1 / 2] ∧
    predict hyperRouter (regTarget realFns) t1 (fun _ _ => 0) 1 = [2 / 3] := by
  obtain ⟨i, i1, i2, l, s, h⟩ := hReg2_fit ⟨0, 1, 1, 1⟩ 1 1
  have hT : CodeTarget realFns (hReg2 ⟨0, 1, 1, 1⟩ 1 1).T (ngMarginal realFns) Spec.ngPosterior := .regression
  have hc := C49_closed (c := hReg2 ⟨0, 1, 1, 1⟩ 1 1) hT realArith_euclidean (by decide) h
  have e := (hc [] _ (nodeAt_nil _)).2.2
  have e1 := (hc [false] _ rfl).2.2
  have e2 := (hc [true] _ rfl).2.2
  rw [hRowsAt_root] at e
  have r1 : hRowsAt (hReg2 ⟨0, 1, 1, 1⟩ 1 1).X (.split i ⟨[1], [1 / 2]⟩ l s (.leaf i1) (.leaf i2) : HNode ℝ ℝ (NG ℝ)) 2
      [false] = [0] := by
    simp [hRowsAt, List.range_succ, descends, planeSide, hReg2, hReg2On]
    norm_num
  have r2 : hRowsAt (hReg2 ⟨0, 1, 1, 1⟩ 1 1).X (.split i ⟨[1], [1 / 2]⟩ l s (.leaf i1) (.leaf i2) : HNode ℝ ℝ (NG ℝ)) 2
      [true] = [1] := by
    simp [hRowsAt, List.range_succ, descends, planeSide, hReg2, hReg2On]
    norm_num
  rw [r1] at e1
  rw [r2] at e2
  have m0 : (regTarget realFns).predictLeaf i.posterior = 2 / 3 := by
    show i.posterior.mu = _
    rw [show i.posterior = _ from e]
    norm_num [Spec.ngPosterior, hReg2, hReg2On, List.range_succ, mean]
  have m1 : (regTarget realFns).predictLeaf i1.posterior = 1 / 2 := by
    show i1.posterior.mu = _
    rw [show i1.posterior = _ from e1]
    norm_num [Spec.ngPosterior, hReg2, hReg2On, List.range_succ, mean]
  have m2 : (regTarget realFns).predictLeaf i2.posterior = 1 / 2 := by
    show i2.posterior.mu = _
    rw [show i2.posterior = _ from e2]
    norm_num [Spec.ngPosterior, hReg2, hReg2On, List.range_succ, mean]
  have h1 := C21_hyper_fit (hReg2 ⟨0, 1, 1, 1⟩ 1 1) (some ⟨0, 1, 1, 1⟩) 2
  rw [show hFitRoot (hWithPrune (hReg2 ⟨0, 1, 1, 1⟩ 1 1) false) (some ⟨0, 1, 1, 1⟩) 2 = _ from h] at h1
  refine ⟨_, _, h, h1, ?_, ?_⟩
  · rw [hPredict_one _ _ (l := i1), m1]
    norm_num [walk, hyperRouter, signedDistance, dot, rowVec]
  · have hm : merge (hReg2 ⟨0, 1, 1, 1⟩ 1 1).T.predictLeaf (withHyper (hWithPrune (hReg2 ⟨0, 1, 1, 1⟩ 1 1) true).hp
        (.split i ⟨[1], [1 / 2]⟩ l s (.leaf i1) (.leaf i2) : HNode ℝ ℝ (NG ℝ))) =
        .leaf (mapInfo (hWithPrune (hReg2 ⟨0, 1, 1, 1⟩ 1 1) true).hp id i) :=
      if_pos (m1.trans m2.symm)
    beta_reduce
    rw [hm, hPredict_one _ _ (l := mapInfo (hWithPrune (hReg2 ⟨0, 1, 1, 1⟩ 1 1) true).hp id i) rfl]
    exact congrArg (fun v => [v]) m0

/-- C23 is false of hyperplane trees: both targets are 1, the leaves predict 1/2, the pruned tree 2/3. -/
theorem C23_hyperplane_refuted : ∃ (c : HCtx ℝ (NG ℝ) ℝ ℝ) (prior : NG ℝ) (n : Nat) (t0 t1 : HNode ℝ ℝ (NG ℝ))
    (Z : Nat → Nat → ℝ), c.T = regTarget realFns ∧ Euclidean c.A ∧ c.hp.delta = 0 ∧ ProperNG prior ∧
    hFitRoot (hWithPrune c false) (some prior) n = .ok t0 ∧ hFitRoot (hWithPrune c true) (some prior) n = .ok t1 ∧
    predict hyperRouter c.T t0 Z 1 = [1 / 2] ∧ predict hyperRouter c.T t1 Z 1 = [2 / 3] := by
  obtain ⟨t0, t1, h0, h1, p0, p1⟩ := hReg2_prune
  exact ⟨hReg2 ⟨0, 1, 1, 1⟩ 1 1, ⟨0, 1, 1, 1⟩, 2, t0, t1, _, rfl, realArith_euclidean, rfl,
    by unfold ProperNG; norm_num, h0, h1, p0, p1⟩

/-- Non-vacuity of `C23_hyperplane_partial`: its hypotheses hold of the fits of `C23_hyperplane_refuted`. -/
example : ∃ t0 t1 : HNode ℝ ℝ (NG ℝ), predict hyperRouter (regTarget realFns) t0 (fun _ _ => 0) 1 = [1 / 2] ∧
    ∀ (Z : Nat → Nat → ℝ) (m i : Nat), i < m → ∃ a b, (predict hyperRouter (regTarget realFns) t1 Z m)[i]? = some a ∧
      (predict hyperRouter (regTarget realFns) t0 Z m)[i]? = some b ∧ Away 0 a b := by
  obtain ⟨t0, t1, h0, h1, p0, -⟩ := hReg2_prune
  exact ⟨t0, t1, p0, fun Z m i hi => C23_hyperplane_partial (c := hReg2 ⟨0, 1, 1, 1⟩ 1 1) (prior := ⟨0, 1, 1, 1⟩) rfl
    realArith_euclidean (by decide) (by norm_num) h0 h1 Z m i hi⟩

end BT
