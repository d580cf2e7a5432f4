import Verif.Props.Prune
import Verif.Spec.PruneShift

/-!
# C22 and C23 for all priors: in which direction pruning changes predictions
-/

namespace BT
open Spec

set_option linter.unusedSectionVars false

section
variable {Sp S K P Row O : Type} [DecidableEq O]

/-- If the prediction of a node is related to what its children predict whenever these agree, the predictions of the merged
tree are related to those of the tree. -/
theorem merge_walk_rel (rt : Router Sp Row) (pred : P → O) {R : O → O → Prop} (hrefl : ∀ a, R a a)
    (htrans : ∀ a b c, R a b → R b c → R a c) (t : Node Sp S K P)
    (h : ∀ addr i sp l b c1 c2, nodeAt t addr = some (.split i sp l b c1 c2) →
      pred c1.info.posterior = pred c2.info.posterior → R (pred i.posterior) (pred c1.info.posterior))
    (x : Row) (j : Info K P) (hw : walk rt t x = some j) :
    ∃ j', walk rt (merge pred t) x = some j' ∧ R (pred j'.posterior) (pred j.posterior) := by
  induction t with
  | leaf i => exact ⟨j, hw, hrefl _⟩
  | split i sp l b c1 c2 ih1 ih2 =>
    have i1 := ih1 fun a i sp l b e1 e2 he => h (false :: a) i sp l b e1 e2 (by simpa [nodeAt] using he)
    have i2 := ih2 fun a i sp l b e1 e2 he => h (true :: a) i sp l b e1 e2 (by simpa [nodeAt] using he)
    rcases merge_split pred i sp l b c1 c2 with ⟨j1, j2, e1, e2, he, e⟩ | ⟨-, e⟩ <;> rw [e]
    · refine ⟨i, rfl, ?_⟩
      have m1 := merge_info pred c1
      have m2 := merge_info pred c2
      rw [e1] at m1 i1; rw [e2] at m2 i2
      have hi := h [] i sp l b c1 c2 (nodeAt_nil _) (by rw [← m1, ← m2]; exact he)
      rw [← m1] at hi
      simp only [walk] at hw
      split at hw
      · obtain ⟨j', h1, h2⟩ := i1 hw
        have : j' = j1 := (Option.some.inj h1).symm
        rw [this] at h2
        exact htrans _ _ _ hi h2
      · split at hw
        · obtain ⟨j', h1, h2⟩ := i2 hw
          have : j' = j2 := (Option.some.inj h1).symm
          rw [this] at h2
          refine htrans _ _ _ hi ?_
          show R (pred j1.posterior) _
          rw [he]
          exact h2
        · cases hw
    · simp only [walk] at hw ⊢
      split at hw
      · next g => rw [if_pos g]; exact i1 hw
      · next g =>
        rw [if_neg g]
        split at hw
        · next g2 => rw [if_pos g2]; exact i2 hw
        · cases hw

end

section
variable {K : Type} [Field K] [LinearOrder K] [IsStrictOrderedRing K]

theorem Spec.LowerPrior.trans {p : List K} {a b d : K} (h1 : LowerPrior p a b) (h2 : LowerPrior p b d) :
    LowerPrior p a d := by
  rcases h1 with rfl | ⟨k, k', q, q', rfl, rfl, g1, g2, g3⟩
  · exact h2
  · rcases h2 with rfl | ⟨l, l', r, r', e, rfl, g4, g5, g6⟩
    · exact .inr ⟨k, k', q, q', rfl, rfl, g1, g2, g3⟩
    · have : k' = l := by exact_mod_cast e
      subst this
      rw [g2] at g4
      cases g4
      exact .inr ⟨k, l', q, r', rfl, rfl, g1, g5, g3.trans g6⟩

theorem Spec.Away.trans {mu a b d : K} (h1 : Away mu a b) (h2 : Away mu b d) : Away mu a d := by
  rcases h1 with rfl | ⟨g1, g2⟩ | ⟨g1, g2⟩
  · exact h2
  · rcases h2 with rfl | ⟨g3, g4⟩ | ⟨g3, g4⟩
    · exact .inr (.inl ⟨g1, g2⟩)
    · exact .inr (.inl ⟨g3, g4.trans g2⟩)
    · linarith
  · rcases h2 with rfl | ⟨g3, g4⟩ | ⟨g3, g4⟩
    · exact .inr (.inr ⟨g1, g2⟩)
    · linarith
    · exact .inr (.inr ⟨g1.trans g3, g4⟩)

theorem prune_related_predictions {S P O : Type} [LinearOrder S] {c : Ctx K K P S O} (ho : c.o = exactOps K)
    {argsort : List K → List Nat} {n : Nat} {prior : Option P} {t0 t1 : PNode K S K P}
    (hn : 0 < n) (hv : Valid (fun _ => True) c argsort n)
    (h0 : fitIn (withPrune c false) argsort prior n = .ok t0)
    (h1 : fitIn (withPrune c true) argsort prior n = .ok t1)
    {R : K → K → Prop} (hrefl : ∀ a, R a a) (htrans : ∀ a b c, R a b → R b c → R a c)
    (hc : ∀ addr i sp l b c1 c2, nodeAt t0 addr = some (.split i sp l b c1 c2) →
      c.T.predictLeaf c1.info.posterior = c.T.predictLeaf c2.info.posterior →
      R (c.T.predictLeaf i.posterior) (c.T.predictLeaf c1.info.posterior))
    (X : Nat → Nat → K) (m : Nat) (i : Nat) (hi : i < m) :
    ∃ a b, (predict (perpRouter c.o) c.T t1 X m)[i]? = some a ∧ (predict (perpRouter c.o) c.T t0 X m)[i]? = some b ∧
      R a b := by
  rw [C21_fit hv hn h0] at h1
  have e1 : merge c.T.predictLeaf (setHp (withPrune c true).hp t0) = t1 := Except.ok.inj h1
  rw [ho]
  have l0 := C01_predict_is_walk (perpRouter (exactOps K)) exact_exclusive c.T t0 X m
  have l1 := C01_predict_is_walk (perpRouter (exactOps K)) exact_exclusive c.T t1 X m
  rw [l0.2 i hi, l1.2 i hi]
  obtain ⟨j, hj⟩ := walk_total (perpRouter (exactOps K)) (X i) (fun sp => exact_complementary sp (X i)) t0
  have hj' := walk_setHp (exactOps K) (withPrune c true).hp t0 (X i)
  rw [hj] at hj'
  obtain ⟨j', g1, g2⟩ := merge_walk_rel (perpRouter (exactOps K)) c.T.predictLeaf hrefl htrans
    (setHp (withPrune c true).hp t0) (by
      intro addr i sp l b d1 d2 hd he
      rw [nodeAt_setHp] at hd
      cases hu : nodeAt t0 addr with
      | none => rw [hu] at hd; cases hd
      | some u =>
        rw [hu] at hd
        cases u with
        | leaf j => cases hd
        | split i' sp' l' b' c1 c2 =>
          have hd := Option.some.inj hd
          simp only [setHp, mapTree, Node.split.injEq] at hd
          obtain ⟨rfl, -, -, -, rfl, rfl⟩ := hd
          have s1 := setHp_post (withPrune c true).hp c1
          have s2 := setHp_post (withPrune c true).hp c2
          unfold setHp at s1 s2
          rw [s1, s2] at he
          rw [s1]
          exact hc addr i' sp' l' b' c1 c2 hu he) (X i) _ hj'
  rw [← e1, g1, hj]
  exact ⟨_, _, rfl, rfl, g2⟩

/-- Adding two vectors with the same first maximum and subtracting a third one: the first maximum stays, or moves to a place
where the third vector is smaller. -/
theorem argmax_add_prior {l1 l2 l p : List K} (hne : l1 ≠ []) (h12 : l2.length = l1.length) (h1l : l.length = l1.length)
    (hlp : p.length = l1.length)
    (hl : ∀ (k : Nat) (x y q : K), l1[k]? = some x → l2[k]? = some y → p[k]? = some q → l[k]? = some (x + y - q))
    (h : argmax l1 = argmax l2) :
    argmax l = argmax l1 ∨ ∃ q q', p[argmax l]? = some q ∧ p[argmax l1]? = some q' ∧ q < q' := by
  obtain ⟨v1, e1, m1, f1⟩ := argmax_spec hne
  obtain ⟨v2, e2, m2, f2⟩ := argmax_spec (l := l2) (by
    intro h0; rw [h0] at h12; exact hne (List.eq_nil_of_length_eq_zero h12.symm))
  obtain ⟨v, e, m, f⟩ := argmax_spec (l := l) (by
    intro h0; rw [h0] at h1l; exact hne (List.eq_nil_of_length_eq_zero h1l.symm))
  rw [← h] at e2 f2
  generalize argmax l1 = k at *
  generalize argmax l = k' at *
  by_cases hk : k' = k
  · exact .inl hk
  right
  have hk1 : k < l1.length := (List.getElem?_eq_some_iff.1 e1).1
  have hk2 : k' < l.length := (List.getElem?_eq_some_iff.1 e).1
  have g1 : l1[k']? = some l1[k'] := List.getElem?_eq_getElem (by omega)
  have g2 : l2[k']? = some l2[k'] := List.getElem?_eq_getElem (by omega)
  have g3 : p[k']? = some p[k'] := List.getElem?_eq_getElem (by omega)
  have g4 : p[k]? = some p[k] := List.getElem?_eq_getElem (by omega)
  refine ⟨_, _, g3, g4, ?_⟩
  have ev : v = l1[k'] + l2[k'] - p[k'] := Option.some.inj (e.symm.trans (hl k' _ _ _ g1 g2 g3))
  have ew := hl k _ _ _ e1 e2 g4
  have a1 := m1 _ (List.mem_of_getElem? g1)
  have a2 := m2 _ (List.mem_of_getElem? g2)
  have a3 := m _ (List.mem_of_getElem? ew)
  rcases Nat.lt_or_gt_of_ne hk with hlt | hgt
  · have := f1 k' hlt _ g1
    linarith
  · have := f k hgt _ ew
    linarith

variable {F : Fns K}

/-- A split node of a classification tree with `delta = 0` predicts what its children predict whenever these agree, or a
class with a smaller prior. -/
theorem C22_node_prior {V : Type} {ok : V → Prop} {c : Ctx V K (List K) K (List K)} (hT : c.T = clsTarget F)
    {argsort : List V → List Nat} {n : Nat} {p : List K} (hp : p ≠ []) {t : PNode V K K (List K)}
    (hv : Valid ok c argsort n) (h : fitIn c argsort (some p) n = .ok t)
    (hδ : c.hp.delta = 0) (addr : List Bool) (i : Info K (List K)) (sp : PSplit V) (l b : K)
    (c1 c2 : PNode V K K (List K)) (hu : nodeAt t addr = some (.split i sp l b c1 c2))
    (he : clsPredictLeaf c1.info.posterior = clsPredictLeaf c2.info.posterior) :
    argmax i.posterior = argmax c1.info.posterior ∨
      ∃ q q', p[argmax i.posterior]? = some q ∧ p[argmax c1.info.posterior]? = some q' ∧ q < q' := by
  have h1 : nodeAt t (addr ++ [false]) = some c1 := by rw [nodeAt_append, hu]; simp [nodeAt]
  have h2 : nodeAt t (addr ++ [true]) = some c2 := by rw [nodeAt_append, hu]; simp [nodeAt]
  obtain ⟨r1, r2, hr⟩ := routed_append hv h hu
  obtain ⟨n0, p0⟩ := C09_classification hT hv h hδ addr _ hu
  obtain ⟨n1, p1⟩ := C09_classification hT hv h hδ _ _ h1
  obtain ⟨n2, p2⟩ := C09_classification hT hv h hδ _ _ h2
  simp only [Node.info] at n0 p0
  have he' : argmax c1.info.posterior = argmax c2.info.posterior := by
    unfold clsPredictLeaf at he; exact_mod_cast he
  refine argmax_add_prior ?_ (n2.trans n1.symm) (n0.trans n1.symm) n1.symm ?_ he'
  · intro h0
    rw [h0] at n1
    exact hp (List.eq_nil_of_length_eq_zero n1.symm)
  · intro j x y q hx hy hq
    have hj : j < p.length := (List.getElem?_eq_some_iff.1 hq).1
    rw [p0 j hj]
    have ex := Option.some.inj (hx.symm.trans (p1 j hj))
    have ey := Option.some.inj (hy.symm.trans (p2 j hj))
    have eq : q = p[j] := Option.some.inj (hq.symm.trans (List.getElem?_eq_getElem hj))
    rw [ex, ey, eq, r1, r2, List.filter_congr hr]
    have key : ∀ L : List Nat, (L.filter fun m => c.y m = (j : K)).length =
        ((L.filter fun m => c.o.lt (c.X m sp.dim) sp.value).filter fun m => c.y m = (j : K)).length +
        ((L.filter fun m => !c.o.lt (c.X m sp.dim) sp.value).filter fun m => c.y m = (j : K)).length := by
      intro L
      induction L with
      | nil => rfl
      | cons m L ih =>
        cases hl : c.o.lt (c.X m sp.dim) sp.value <;> by_cases hy : c.y m = (j : K) <;>
          simp [hl, hy, -List.filter_filter] <;> omega
    rw [key (routed c t n addr)]
    simp only [Option.some.injEq]
    push_cast
    ring

/-- C22, any prior, `delta = 0`: for every row the pruned tree predicts the class of the unpruned tree or a class with
strictly smaller prior.  So predictions of a class with the least prior never change, and for a constant prior none do. -/
theorem C22_prior_partial {c : Ctx K K (List K) K (List K)} (ho : c.o = exactOps K)
    (hT : c.T = clsTarget F) {argsort : List K → List Nat} {n : Nat} {p : List K} (hp : p ≠ []) (hn : 0 < n)
    {t0 t1 : PNode K K K (List K)} (hv : Valid (fun _ => True) c argsort n) (hδ : c.hp.delta = 0)
    (h0 : fitIn (withPrune c false) argsort (some p) n = .ok t0)
    (h1 : fitIn (withPrune c true) argsort (some p) n = .ok t1)
    (X : Nat → Nat → K) (m i : Nat) (hi : i < m) :
    ∃ a b, (predict (perpRouter c.o) c.T t1 X m)[i]? = some a ∧ (predict (perpRouter c.o) c.T t0 X m)[i]? = some b ∧
      LowerPrior p a b := by
  refine prune_related_predictions ho hn hv h0 h1 (R := LowerPrior p) (fun a => .inl rfl) (fun a b d => LowerPrior.trans)
    ?_ X m i hi
  · rw [hT]
    intro addr i sp l b c1 c2 hu he
    rcases C22_node_prior (c := withPrune c false) hT hp (withPrune_valid hv false) h0 hδ addr i sp l b c1 c2 hu he with
      h | ⟨q, q', g1, g2, g3⟩
    · exact .inl (congrArg Nat.cast h)
    · exact .inr ⟨_, _, q, q', rfl, rfl, g1, g2, g3⟩

/-- C23, any data, `delta = 0`: for every row the prediction of the pruned tree is that of the unpruned tree or further away
from the prior mean, on the same side. -/
theorem C23_away_partial {F : Fns K} {c : Ctx K K (NG K) K K} (ho : c.o = exactOps K)
    (hT : c.T = regTarget F) {argsort : List K → List Nat} {n : Nat} (hn : 0 < n) {prior : Option (NG K)}
    {t0 t1 : PNode K K K (NG K)} (hv : Valid (fun _ => True) c argsort n) (hδ : c.hp.delta = 0)
    (hκ : 0 < (regGetPrior prior n c.nDim).kappa)
    (h0 : fitIn (withPrune c false) argsort prior n = .ok t0)
    (h1 : fitIn (withPrune c true) argsort prior n = .ok t1)
    (X : Nat → Nat → K) (m i : Nat) (hi : i < m) :
    ∃ a b, (predict (perpRouter c.o) c.T t1 X m)[i]? = some a ∧ (predict (perpRouter c.o) c.T t0 X m)[i]? = some b ∧
      Away (regGetPrior prior n c.nDim).mu a b := by
  refine prune_related_predictions ho hn hv h0 h1 (R := Away (regGetPrior prior n c.nDim).mu) (fun a => .inl rfl)
    (fun a b d => Away.trans) ?_ X m i hi
  · rw [hT]
    intro addr i sp l b c1 c2 hu he
    have hm := C23_merged_mean (c := withPrune c false) hT hn (withPrune_valid hv false) h0 hδ hκ addr i sp l b
      c1 c2 hu _ rfl he.symm
    have hm : i.posterior.mu = c1.info.posterior.mu + (regGetPrior prior n c.nDim).kappa *
      (c1.info.posterior.mu - (regGetPrior prior n c.nDim).mu) / ((regGetPrior prior n c.nDim).kappa + (i.nData : K)) := hm
    show i.posterior.mu = c1.info.posterior.mu ∨ (_ < c1.info.posterior.mu ∧ c1.info.posterior.mu < i.posterior.mu) ∨
      (i.posterior.mu < c1.info.posterior.mu ∧ c1.info.posterior.mu < _)
    rw [hm]
    generalize regGetPrior prior n c.nDim = p at *
    have hpos : 0 < p.kappa / (p.kappa + (i.nData : K)) := by
      have : (0 : K) ≤ (i.nData : K) := Nat.cast_nonneg _
      exact div_pos hκ (by linarith)
    have e : p.kappa * (c1.info.posterior.mu - p.mu) / (p.kappa + (i.nData : K)) =
        p.kappa / (p.kappa + (i.nData : K)) * (c1.info.posterior.mu - p.mu) := by ring
    rw [e]
    rcases lt_trichotomy c1.info.posterior.mu p.mu with g | g | g
    · have := mul_neg_of_pos_of_neg hpos (show c1.info.posterior.mu - p.mu < 0 by linarith)
      exact .inr (.inr ⟨by linarith, g⟩)
    · exact .inl (by rw [g]; ring)
    · have := mul_pos hpos (show 0 < c1.info.posterior.mu - p.mu by linarith)
      exact .inr (.inl ⟨g, by linarith⟩)

end

/-- Non-vacuity of `C22_prior_partial`: the fits of `C22_refuted`, with the prior `[10, 1]` and `delta = 0`. -/
example (X : Nat → Nat → ℝ) (m i : Nat) (hi : i < m) : ∃ t0 t1 : PNode ℝ ℝ ℝ (List ℝ), t0.size = 3 ∧ t1.size = 1 ∧ ∃ a b,
    (predict (perpRouter (exactOps ℝ)) (clsTarget realFns) t1 X m)[i]? = some a ∧
    (predict (perpRouter (exactOps ℝ)) (clsTarget realFns) t0 X m)[i]? = some b ∧ LowerPrior (castL [10, 1]) a b := by
  have fitb : ∀ b, fitIn (withPrune (castCtx (oneCtx asymRows (99 / 100) 0 false)) b) realSort
      (some (castL [10, 1])) 16 = .ok (castTree (oneCtx asymRows (99 / 100) 0 b).hp
        (oneTree asymRows (99 / 100) 0 [10, 1] b)) := by
    intro b
    rw [castCtx_withPrune]
    exact cast_fit (asym_fit b) rfl rfl rfl Nat.zero_lt_one (by decide) (by decide) (le_refl _)
      (by show (0 : ℚ) < 99 / 100; decide +kernel) (by show (99 / 100 : ℚ) < 1; decide +kernel) (le_refl _)
      ⟨by simp, by decide +kernel⟩ realSort_spec
  have hs : ∀ b, (castTree (oneCtx asymRows (99 / 100) 0 b).hp (oneTree asymRows (99 / 100) 0 [10, 1] b)).size =
      (oneTree asymRows (99 / 100) 0 [10, 1] b).size := by
    intro b
    unfold castTree
    generalize oneTree asymRows (99 / 100) 0 [10, 1] b = t
    induction t with
    | leaf i => rfl
    | split i sp l b c1 c2 ih1 ih2 => simp only [mapTree, Node.size, ih1, ih2]
  exact ⟨_, _, (hs false).trans (by decide +kernel), (hs true).trans (by decide +kernel),
    C22_prior_partial (c := castCtx (oneCtx asymRows (99 / 100) 0 false)) rfl rfl (by simp [castL]) (by decide)
      (castCtx_valid (by decide) (by decide) (le_refl _) realSort_spec) (by show ((0 : ℚ) : ℝ) = 0; simp)
      (fitb false) (fitb true) X m i hi⟩

/-- Non-vacuity of `C23_away_partial`: the fits of `C23_refuted`. -/
example (X : Nat → Nat → ℝ) (m i : Nat) (hi : i < m) : ∃ t1 : PNode ℝ ℝ ℝ (NG ℝ), ∃ a b,
    (predict (perpRouter (exactOps ℝ)) (regTarget realFns) t1 X m)[i]? = some a ∧
    (predict (perpRouter (exactOps ℝ)) (regTarget realFns) (regTree2 ⟨0, 1, 1, 1⟩ 1 1 0 false) X m)[i]? = some b ∧
    Away 0 a b := by
  obtain ⟨t1, h1, -, -⟩ := regTree2_prune ⟨0, 1, 1, 1⟩ 1 1 (1 / 2) (2 / 3)
    (by norm_num [regPosterior, BT.ngPosterior]) (by norm_num [regPosterior, BT.ngPosterior])
    (by norm_num [regPosterior, BT.ngPosterior])
  exact ⟨t1, C23_away_partial (c := regCtx2 ⟨0, 1, 1, 1⟩ 1 1 0 false) rfl rfl (by decide) (prior := some ⟨0, 1, 1, 1⟩)
    (regCtx2_valid _ 1 1 0 false) rfl (by show (0 : ℝ) < 1; norm_num) (regTree2_fit _ 1 1 0) h1 X m i hi⟩

end BT
