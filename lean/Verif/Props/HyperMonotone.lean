import Verif.Lemmas.HyperTrim
import Verif.Props.HyperRows
import Verif.Props.Monotone

/-!
# C90: hyperplane trees grow with the partition prior
-/

namespace BT
open Spec

set_option linter.unusedSectionVars false

section
variable {P O : Type} {ml : P → List ℝ → ℝ} {post : P → List ℝ → P}

/-- What the search does next depends neither on the values returned so far nor on `partition_prior` and the
score of staying. -/
def Oblivious (opt : Optimizer ℝ P ℝ) : Prop :=
  ∀ (q : HProb ℝ P ℝ) (pp stay : ℝ) (hist hist' : List (RawVec ℝ × ℝ)), hist'.map Prod.fst = hist.map Prod.fst →
    opt.solve { q with partitionPrior := pp, noSplit := stay } hist' = opt.solve q hist

/-- What the search does next depends on the values returned so far up to a common shift, and neither on
`partition_prior` nor on the score of staying. -/
def Steady (opt : Optimizer ℝ P ℝ) : Prop :=
  ∀ (q : HProb ℝ P ℝ) (pp stay m : ℝ) (hist : List (RawVec ℝ × ℝ)),
    opt.solve { q with partitionPrior := pp, noSplit := stay } (hist.map fun e => (e.1, e.2 + m)) = opt.solve q hist

theorem VRel.eq_strategy {α : Type} {p : Prog ℝ ℝ α} (h : VRel Eq Eq p p) {hist hist' : List (RawVec ℝ × ℝ)}
    (hl : hist'.map Prod.fst = hist.map Prod.fst) : p.strategy hist' = p.strategy hist := by
  have := VRel.resume h (hist.map Prod.snd).reverse (hist'.map Prod.snd).reverse (by
    have := congrArg List.length hl
    simpa using this)
  unfold Prog.strategy
  rw [List.map_reverse, List.map_reverse]
  generalize p.resume (hist.map Prod.snd).reverse = x at this
  generalize p.resume (hist'.map Prod.snd).reverse = x' at this
  cases this with
  | stop => rfl
  | raise e => rfl
  | eval h => rw [h]

theorem oblivious_random {R : Type} (G : Rng R ℝ) (nMc : Nat) : Oblivious (P := P) (randomOptimizer G nMc) :=
  fun q _ _ _ _ h => VRel.eq_strategy (p := randomSolve G nMc q) (by
    unfold randomSolve
    refine VRel.loop (fun g _ => ?_) _ _
    exact .eval rfl fun _ _ => .ret rfl) h

theorem oblivious_quasi (phi : ℝ) (n : Nat) : Oblivious (P := P) (quasiOptimizer phi n) := by
  intro q _ _ _ _ h
  refine VRel.eq_strategy (p := quasiSolve phi n q) (VRel.loop (fun _ i => ?_) _ _) h
  cases r2Next (q.nDim - 1) phi i with
  | error e => exact .raise e
  | ok u => exact .eval rfl fun _ _ => .ret rfl

theorem oblivious_two_point {R : Type} (G : Rng R ℝ) (isInt : Bool) (nMc fuel : Nat) :
    Oblivious (P := P) (twoPointOptimizer G isInt nMc fuel) := by
  intro q _ _ _ _ h
  refine VRel.eq_strategy (p := twoPointSolve G isInt nMc fuel q) ?_ h
  unfold twoPointSolve
  dsimp only
  split
  · exact .raise _
  · split
    · exact .ret rfl
    · refine VRel.loop (fun g _ => ?_) _ _
      cases drawClasses G fuel (classIndices (q.rows.map q.y)) fuel g with
      | error e => exact .raise e
      | ok ij =>
        dsimp only
        cases twoPointNormal isInt q (ij.1.1.getD (G.randint ij.1.1.length ij.2).1 0)
            (ij.1.2.getD (G.randint ij.1.2.length (G.randint ij.1.1.length ij.2).2).1 0) with
        | error e => exact .raise e
        | ok r => exact .eval rfl fun _ _ => .ret rfl

theorem steady_annealing {R : Type} (G : Rng R ℝ) (nScan nKeep : Nat) (spread : ℝ) (fuel : Nat) :
    Steady (P := P) (saOptimizer G nScan nKeep spread fuel) :=
  fun q pp stay m hist => (saSolve_rel (q := q) (q' := { q with partitionPrior := pp, noSplit := stay }) (shift_mono m) G
    nScan nKeep spread fuel rfl).strategy hist _ (by simp)

theorem steady_descent {R : Type} (G : Rng R ℝ) (nInit nKeep fuel : Nat) :
    Steady (P := P) (gdOptimizer G nInit nKeep fuel) :=
  fun q pp stay m hist => (gdSolve_rel (q := q) (q' := { q with partitionPrior := pp, noSplit := stay }) m G nInit nKeep
    fuel rfl).strategy hist _ (by simp)

/-- The amount by which the scores of all cuts at a level rise. -/
noncomputable def lift (pp pp' : ℝ) (lv : Nat) : ℝ := (lv + 1) * (Real.log pp' - Real.log pp)

variable {c : HCtx ℝ P ℝ O} {pp' : ℝ}

theorem prob_trim (hT : CodeTarget realFns c.T ml post) (hd : 0 < c.nDim) (h0 : 0 < c.hp.partitionPrior)
    (hle : c.hp.partitionPrior ≤ pp') (h1 : pp' < 1) (p : P) (lv : Nat) {R : List Nat} (hR : R ≠ []) :
    ProbTrim c.T c.T (hProblem c p lv R)
      (hProblem { c with hp := { c.hp with partitionPrior := pp' } } p lv R) (· + lift c.hp.partitionPrior pp' lv) where
  nDim := rfl
  rows := rfl
  hypercube := rfl
  X := rfl
  prec := rfl
  noSplit := by
    show c.T.logNoSplit pp' lv (R.map c.y) p ≤ c.T.logNoSplit c.hp.partitionPrior lv (R.map c.y) p
    have hy : R.map c.y ≠ [] := by simpa using hR
    rw [hT.textbook.stay _ _ _ _ hy, hT.textbook.stay _ _ _ _ hy]
    have e : pp' ^ (lv + 1) < 1 := pow_lt_one₀ (h0.le.trans hle) h1 (by omega)
    have e2 : c.hp.partitionPrior ^ (lv + 1) ≤ pp' ^ (lv + 1) := pow_le_pow_left₀ h0.le hle _
    have : Real.log (1 - pp' ^ (lv + 1)) ≤ Real.log (1 - c.hp.partitionPrior ^ (lv + 1)) :=
      Real.log_le_log (by linarith) (by linarith)
    exact add_le_add this (le_refl _)
  scores := by
    intro idx si hidx hsi hsort
    show c.T.logSplit pp' lv (idx.map fun j => c.y (R.getD j 0)) p c.nDim si =
      (c.T.logSplit c.hp.partitionPrior lv (idx.map fun j => c.y (R.getD j 0)) p c.nDim si).map _
    have hl : idx.length = R.length := by simpa [hProblem] using hidx.length_eq
    have hsi' : ∀ k ∈ si, 1 ≤ k ∧ k < (idx.map fun j => c.y (R.getD j 0)).length := by
      intro k hk
      rw [List.length_map, hl]
      exact hsi k hk
    rw [hT.textbook.lawful.logSplit_eq _ _ _ _ _ _ hsi' hsort, hT.textbook.lawful.logSplit_eq _ _ _ _ _ _ hsi' hsort,
      List.map_map]
    refine List.map_congr_left fun k hk => ?_
    have hs : 0 < si.length := List.length_pos_of_mem hk
    show Real.log _ + _ + _ = Real.log _ + _ + _ + lift _ _ _
    rw [log_share h0 _ hs hd, log_share (h0.trans_le hle) _ hs hd]
    unfold lift
    push_cast
    ring

theorem lift_nonneg (h0 : 0 < c.hp.partitionPrior) (hle : c.hp.partitionPrior ≤ pp') (lv : Nat) :
    0 ≤ lift c.hp.partitionPrior pp' lv :=
  mul_nonneg (by positivity) (sub_nonneg.2 (Real.log_le_log h0 hle))

theorem search_trim (hT : CodeTarget realFns c.T ml post) (he : Euclidean c.A) (hd : 0 < c.nDim)
    (h0 : 0 < c.hp.partitionPrior) (hle : c.hp.partitionPrior ≤ pp') (h1 : pp' < 1) {VR : ℝ → ℝ → Prop} (p : P) (lv : Nat)
    {R : List Nat} (hR : R ≠ []) (hv : ∀ s, VR (-s) (-(s + lift c.hp.partitionPrior pp' lv)))
    (hstrat : ∀ hist hist', SameAsked VR hist hist' →
      c.opt.solve (hProblem { c with hp := { c.hp with partitionPrior := pp' } } p lv R) hist' =
        c.opt.solve (hProblem c p lv R) hist)
    (hno : (∀ v v', VR v v') ∨ ∀ hist r w, c.opt.solve (hProblem c p lv R) hist = .eval r →
      hNormal c.A (hProblem c p lv R) r = .ok w → hSplitIndices (hProblem c p lv R) w ≠ [])
    {st st' : HState ℝ ℝ}
    (h : hSolve c.A c.T (hProblem c p lv R) (c.opt.solve (hProblem c p lv R)) c.budget []
      (hInit (hProblem c p lv R)) = .ok st)
    (h' : hSolve c.A c.T (hProblem { c with hp := { c.hp with partitionPrior := pp' } } p lv R)
      (c.opt.solve (hProblem { c with hp := { c.hp with partitionPrior := pp' } } p lv R)) c.budget []
      (hInit (hProblem { c with hp := { c.hp with partitionPrior := pp' } } p lv R)) = .ok st')
    (sp : HSplit ℝ) (hb : st.best = some sp) : st'.best = some sp := by
  have hq := prob_trim (p := p) (lv := lv) hT hd h0 hle h1 hR
  have hinit : TrimSt (· + lift c.hp.partitionPrior pp' lv) (hProblem c p lv R).noSplit (hInit (hProblem c p lv R))
      (hInit (hProblem { c with hp := { c.hp with partitionPrior := pp' } } p lv R)) := by
    refine ⟨rfl, rfl, ?_⟩
    have := hq.noSplit.trans (le_add_of_nonneg_right (lift_nonneg h0 hle lv))
    rcases lt_or_eq_of_le this with h | h
    · exact .inl h
    · exact .inr ⟨h, rfl⟩
  have := hSolve_trim (VR := VR) (fun a b hab => by simpa using hab) hq he.isArgsort hv hstrat
    (hno.imp (fun h => h _ _) id) c.budget (hist := []) (hist' := []) .nil hinit h h'
  unfold TrimSt at this
  rw [hb] at this
  exact this.1

variable [DecidableEq O] {n : Nat} {prior : Option P} {t t' : HNode ℝ ℝ P}

/-- C90: with a search that does not look at the scores (random two-point, random and quasi-random directions), of two
hyperplane fits which differ in `partition_prior` only, the one with the smaller value is the other one cut back. -/
theorem C90_oblivious (hT : CodeTarget realFns c.T ml post) (he : Euclidean c.A) (hopt : Oblivious c.opt) (hn : 0 < n)
    (hd : 0 < c.nDim) (h0 : 0 < c.hp.partitionPrior) (hle : c.hp.partitionPrior ≤ pp') (h1 : pp' < 1)
    (h : hFitRoot c prior n = .ok t)
    (h' : hFitRoot { c with hp := { c.hp with partitionPrior := pp' } } prior n = .ok t') :
    CutBack Eq t t' ∧ leaves t ≤ leaves t' ∧ height t ≤ height t' := by
  have := hFitRoot_trimmed (ok := fun R => R ≠ []) (hp' := { c.hp with partitionPrior := pp' })
    ⟨fun R R' _ _ hl => (by rintro rfl; cases hl), fun p lv R st st' hR h1' h2' sp hb => ?_⟩ rfl
    (by rw [Ne, List.range_eq_nil]; omega) h h'
  · exact ⟨this.cutBack, this.leaves, this.height⟩
  · refine search_trim (VR := fun _ _ => True) hT he hd h0 hle h1 p lv hR (fun _ => trivial) ?_
      (.inl fun _ _ => trivial) h1' h2' sp hb
    intro hist hist' hh
    refine hopt (hProblem c p lv R) pp' _ hist hist' ?_
    clear * - hh
    induction hh with
    | nil => rfl
    | cons hab _ ih => rw [List.map_cons, List.map_cons, ih, hab.1]

/-- C90: with simulated annealing and gradient descent, which look at differences and the order of the scores, provided
no direction they ask for leaves neighbouring rows together. -/
theorem C90_adaptive (hT : CodeTarget realFns c.T ml post) (he : Euclidean c.A) (hopt : Steady c.opt) (hn : 2 ≤ n)
    (hcut : Spread c n) (hd : 0 < c.nDim) (h0 : 0 < c.hp.partitionPrior) (hle : c.hp.partitionPrior ≤ pp')
    (h1 : pp' < 1) (h : hFitRoot c prior n = .ok t)
    (h' : hFitRoot { c with hp := { c.hp with partitionPrior := pp' } } prior n = .ok t') :
    CutBack Eq t t' ∧ leaves t ≤ leaves t' ∧ height t ≤ height t' := by
  have := hFitRoot_trimmed (ok := fun R => R.Sublist (List.range n) ∧ 1 < R.length)
    (hp' := { c.hp with partitionPrior := pp' })
    ⟨fun R R' hR hs hl => ⟨hs.trans hR.1, hl⟩, fun p lv R st st' hR h1' h2' sp hb => ?_⟩ rfl
    ⟨List.Sublist.refl _, by rw [List.length_range]; omega⟩ h h'
  · exact ⟨this.cutBack, this.leaves, this.height⟩
  · refine search_trim (VR := fun v v' => v' = v + -lift c.hp.partitionPrior pp' lv) hT he hd h0 hle h1 p lv
      (fun e => by rw [e] at hR; exact absurd hR.2 (by simp)) (fun s => by ring) ?_ (.inr ?_) h1' h2' sp hb
    · intro hist hist' hh
      have : hist' = hist.map fun e => (e.1, e.2 + -lift c.hp.partitionPrior pp' lv) := by
        clear * - hh
        induction hh with
        | nil => rfl
        | cons hab _ ih =>
          rw [List.map_cons, ← ih, ← hab.1, ← hab.2]
      rw [this]
      exact hopt (hProblem c p lv R) pp' _ _ hist
    · intro hist r w hr hw hnil
      obtain ⟨hsub, hlen⟩ := hR
      have hR0 : R[0] < R[1] := by
        have := (List.pairwise_lt_range (n := n)).sublist hsub
        exact List.pairwise_iff_getElem.1 this 0 1 (by omega) hlen (by omega)
      have hR1 : R[1] < n := List.mem_range.1 (hsub.subset (List.getElem_mem _))
      have hgap := hcut (hProblem c p lv R) hist r rfl rfl hr w hw _ _ hR0 hR1
      have hmem : 1 ∈ hSplitIndices (hProblem c p lv R) w := by
        unfold hSplitIndices
        rw [hProj_eq _ _ (hNormal_length hw), mem_splitIndices]
        refine ⟨along w (c.X R[0]), along w (c.X R[1]), le_refl _, ?_, ?_, ?_⟩
        · simp [hProblem, List.getElem?_eq_getElem (Nat.lt_of_succ_lt hlen)]
        · simp [hProblem, List.getElem?_eq_getElem hlen]
        · rw [abs_sub_comm] at hgap
          exact decide_eq_true hgap
      rw [hnil] at hmem
      cases hmem

end

/-! ### Non-vacuity -/

theorem oblivious_list {P : Type} (cube : Bool) (vs : List (RawVec ℝ)) : Oblivious (P := P) (listOpt cube vs) := by
  intro q _ _ hist hist' h
  have : hist'.length = hist.length := by simpa using congrArg List.length h
  simp only [listOpt, this]

theorem steady_list {P : Type} (cube : Bool) (vs : List (RawVec ℝ)) : Steady (P := P) (listOpt cube vs) := by
  intro q _ _ m hist
  simp only [listOpt, List.length_map]

/-- The hyperplane sample with a `partition_prior` of 0.01 is not split. -/
def hTimidCtx : HCtx ℚ (List ℚ) ℚ (List ℚ) := { hSampleCtx 0 with hp := ⟨1 / 100, 0, false, 0⟩ }

theorem hTimid_fit : hFitRoot hTimidCtx (some [1, 1]) 9 =
    .ok (.leaf ⟨⟨1 / 100, 0, false, 0⟩, some [1, 1], 0, some 2, 9, [7, 4]⟩) := by decide +kernel

theorem hTimidReal_fit : hFitRoot (castHCtx realArith hSampleVs hTimidCtx) (some (castL [1, 1])) 9 =
    .ok (castHTree ⟨1 / 100, 0, false, 0⟩ (.leaf ⟨⟨1 / 100, 0, false, 0⟩, some [1, 1], 0, some 2, 9, [7, 4]⟩)) :=
  hFitRoot_cast hTimidCtx hSampleVs false rfl rfl rfl rfl ⟨by decide +kernel, by decide +kernel, by decide⟩
    (fun r hr q _ hq => hSample_normals r hr q hq) ⟨by simp, by decide +kernel⟩ (by decide) hTimid_fit

/-- C90 applies: the sample with `partition_prior` 0.9 is split twice, the leaf for 0.01 is that tree cut back. -/
example : CutBack Eq
      (castHTree ⟨1 / 100, 0, false, 0⟩ (.leaf ⟨⟨1 / 100, 0, false, 0⟩, some [1, 1], 0, some 2, 9, [7, 4]⟩))
      (castHTree (hSampleHp 0) (hSampleTree 0)) ∧ leaves (castHTree (hSampleHp 0) (hSampleTree 0)) = 3 := by
  refine ⟨(C90_oblivious (c := castHCtx realArith hSampleVs hTimidCtx) (CodeTarget.classification (F := realFns))
    realArith_euclidean (oblivious_list _ _) (by decide) (by decide) ?_ (pp' := ((9 / 10 : ℚ) : ℝ)) ?_ ?_
    hTimidReal_fit hSampleReal_fit).1, rfl⟩
  · norm_num [castHCtx, castHp, hTimidCtx]
  · norm_num [castHCtx, castHp, hTimidCtx]
  · norm_num

def hKeenHp : Hyper ℚ := ⟨19 / 20, 0, false, 0⟩

/-- The line sample with a `partition_prior` of 0.95. -/
def hKeenCtx : HCtx ℚ (List ℚ) ℚ (List ℚ) := { hLineCtx with hp := hKeenHp }

def hKeenTree : HNode ℚ ℚ (List ℚ) :=
  .split ⟨hKeenHp, some [1, 1], 0, some 1, 5, [4, 3]⟩ ⟨[1], [5/2]⟩ (1/1200) (19/960)
    (.leaf ⟨hKeenHp, some [1, 1], 1, none, 3, [4, 1]⟩)
    (.leaf ⟨hKeenHp, some [1, 1], 1, none, 2, [1, 3]⟩)

theorem hKeen_fit : hFitRoot hKeenCtx (some [1, 1]) 5 = .ok hKeenTree := by decide +kernel

theorem hKeenReal_fit : hFitRoot (castHCtx realArith hTieVs hKeenCtx) (some (castL [1, 1])) 5 =
    .ok (castHTree hKeenHp hKeenTree) :=
  hFitRoot_cast hKeenCtx hTieVs false rfl rfl rfl rfl ⟨by decide +kernel, by decide +kernel, by decide⟩
    (fun r hr q _ hq => hTie_normals r hr q hq) ⟨by simp, by decide +kernel⟩ (by decide) hKeen_fit

/-- C90 for searches that look at the scores applies to a tree that is split. -/
example : CutBack Eq (castHTree (hSampleHp 0) hLineTree) (castHTree hKeenHp hKeenTree) := by
  have e : hLineReal.hp.partitionPrior = 9 / 10 := by norm_num [hLineReal, castHCtx, hLineCtx, castHp, hSampleHp]
  exact (C90_adaptive (CodeTarget.classification (F := realFns)) realArith_euclidean
    (steady_list _ _) (by decide) hLineReal_spread Nat.one_pos (by rw [e]; norm_num) (pp' := ((19 / 20 : ℚ) : ℝ))
    (by rw [e]; norm_num) (by norm_num) hLineReal_fit hKeenReal_fit).1

end BT
