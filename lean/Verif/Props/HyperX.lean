import Verif.Lemmas.HyperX
import Verif.Lemmas.HyperFit
import Verif.Lemmas.HyperCast
import Verif.Lemmas.HyperNode
import Verif.Props.EvidenceFit

/-!
# C93: hyperplane trees trained on features with NaN or infinite values

`fit` does not reject them.  A training row on neither side of a hyperplane is left out of both children.
-/

set_option linter.unusedSectionVars false

namespace BT
open Spec

section
variable {K Y P S O : Type} [Field K] [LinearOrder K] [IsStrictOrderedRing K] [Neg S] [LT S] [LE S] [DecidableLT S]
  [DecidableLE S] [DecidableEq Y] [Zero Y] [One Y] {c : XCtx K Y P S O}

/-- What is assumed of the target methods: `delta = 0` returns the prior, and a given prior is used.  Both kinds of trees
have these (`C93_targets`). -/
structure KeepsPrior (T : Target Y P S O) : Prop where
  posterior0 : ∀ ys p, T.posterior ys p 0 = p
  getPrior : ∀ p n d, T.getPrior (some p) n d = p

/-- C93: `n_data_` of a node is the number of training rows which `predict` routes through it, and its posterior is that of
their targets, whatever the feature values and the optimizer. -/
theorem C93_rows (hT : KeepsPrior c.T) {prior : Option P} {n : Nat} {t : Node (XSplit K) S Y P}
    (h : xFitRoot c prior n = .ok t) (addr : List Bool) (u : Node (XSplit K) S Y P) (hu : nodeAt t addr = some u) :
    u.info.nData = (routedRows xRouter c.X t n addr).length ∧
      u.info.posterior = c.T.posterior ((routedRows xRouter c.X t n addr).map c.y) (c.T.getPrior prior n c.nDim) 1 :=
  let f := xFitRoot_facts hT.posterior0 hT.getPrior prior n t h addr u hu
  ⟨f.rows, f.posterior⟩

/-- The hyperplanes of a fitted tree have finite origins. -/
theorem C93_origins (hT : KeepsPrior c.T) {prior : Option P} {n : Nat} {t : Node (XSplit K) S Y P}
    (h : xFitRoot c prior n = .ok t) (addr : List Bool) {i : Info Y P} {sp : XSplit K} {l s : S}
    {c1 c2 : Node (XSplit K) S Y P} (hu : nodeAt t addr = some (.split i sp l s c1 c2)) :
    sp.normal.length = c.nDim ∧ sp.origin.length = c.nDim ∧ ∀ v ∈ sp.origin, IsFinite v := by
  obtain ⟨h1, h2, ⟨r, -, g1⟩, ⟨r', -, g2⟩⟩ :=
    (xFitRoot_facts hT.posterior0 hT.getPrior prior n t h addr _ hu).split _ _ _ _ _ _ rfl
  exact ⟨h1, h2, origin_finite (by omega) (offset_finite g1 g2)⟩

/-- At a split of a fitted tree a row, training row or query, goes to neither child just if its side is undetermined. -/
theorem C93_lost (hT : KeepsPrior c.T) {prior : Option P} {n : Nat} {t : Node (XSplit K) S Y P}
    (h : xFitRoot c prior n = .ok t) (addr : List Bool) {i : Info Y P} {sp : XSplit K} {l s : S}
    {c1 c2 : Node (XSplit K) S Y P} (hu : nodeAt t addr = some (.split i sp l s c1 c2)) (x : Nat → XF K) :
    (xRouter.goes1 sp x = false ∧ xRouter.goes2 sp x = false) ↔ Undetermined sp.normal x := by
  obtain ⟨h1, h2, ⟨r, -, g1⟩, ⟨r', -, g2⟩⟩ :=
    (xFitRoot_facts hT.posterior0 hT.getPrior prior n t h addr _ hu).split _ _ _ _ _ _ rfl
  exact neither_iff (offset_finite g1 g2) x

/-- A row with a determined side which lies infinitely far along the normal goes to the second child, one infinitely far in
the other direction to the first. -/
theorem C93_far (hT : KeepsPrior c.T) {prior : Option P} {n : Nat} {t : Node (XSplit K) S Y P}
    (h : xFitRoot c prior n = .ok t) (addr : List Bool) {i : Info Y P} {sp : XSplit K} {l s : S}
    {c1 c2 : Node (XSplit K) S Y P} (hu : nodeAt t addr = some (.split i sp l s c1 c2)) (x : Nat → XF K)
    (hd : ¬ Undetermined sp.normal x) :
    (FarAlong sp.normal x → xRouter.goes2 sp x = true) ∧ (FarAgainst sp.normal x → xRouter.goes1 sp x = true) := by
  obtain ⟨h1, h2, ⟨r, -, g1⟩, ⟨r', -, g2⟩⟩ :=
    (xFitRoot_facts hT.posterior0 hT.getPrior prior n t h addr _ hu).split _ _ _ _ _ _ rfl
  exact far_side (offset_finite g1 g2) hd

/-- A walk ends without a leaf just if the row meets a split at which it goes to neither child. -/
theorem walk_none {Sp Row K : Type} (rt : Router Sp Row) (t : Node Sp S K P) (x : Row) :
    walk rt t x = none ↔ ∃ addr i sp l s c1 c2, nodeAt t addr = some (.split i sp l s c1 c2) ∧
      passes rt t addr x = true ∧ rt.goes1 sp x = false ∧ rt.goes2 sp x = false := by
  induction t with
  | leaf i =>
    simp only [walk, reduceCtorEq, false_iff]
    rintro ⟨addr, j, sp, l, s, c1, c2, h, -⟩
    cases addr with
    | nil => rw [nodeAt_nil] at h; cases h
    | cons b bs => cases h
  | split i sp l s c1 c2 ih1 ih2 =>
    constructor
    · intro h
      rw [walk] at h
      by_cases h1 : rt.goes1 sp x = true
      · rw [if_pos h1] at h
        obtain ⟨addr, j, sp', l', s', d1, d2, hn, hp, hg⟩ := ih1.1 h
        exact ⟨false :: addr, j, sp', l', s', d1, d2, by simpa [nodeAt] using hn, by simp [passes, h1, hp], hg⟩
      · rw [if_neg h1] at h
        rw [Bool.not_eq_true] at h1
        by_cases h2 : rt.goes2 sp x = true
        · rw [if_pos h2] at h
          obtain ⟨addr, j, sp', l', s', d1, d2, hn, hp, hg⟩ := ih2.1 h
          exact ⟨true :: addr, j, sp', l', s', d1, d2, by simpa [nodeAt] using hn, by simp [passes, h1, h2, hp], hg⟩
        · exact ⟨[], i, sp, l, s, c1, c2, rfl, rfl, h1, by simpa using h2⟩
    · rintro ⟨addr, j, sp', l', s', d1, d2, hn, hp, g1, g2⟩
      cases addr with
      | nil =>
        rw [nodeAt_nil] at hn
        cases hn
        simp [walk, g1, g2]
      | cons b bs =>
        rw [walk]
        rw [passes] at hp
        by_cases h1 : rt.goes1 sp x = true
        · rw [if_pos h1] at hp ⊢
          cases b with
          | true => simp at hp
          | false => exact ih1.2 ⟨bs, j, sp', l', s', d1, d2, by simpa [nodeAt] using hn, by simpa using hp, g1, g2⟩
        · rw [if_neg h1] at hp ⊢
          by_cases h2 : rt.goes2 sp x = true
          · rw [if_pos h2] at hp ⊢
            cases b with
            | false => simp at hp
            | true => exact ih2.2 ⟨bs, j, sp', l', s', d1, d2, by simpa [nodeAt] using hn, by simpa using hp, g1, g2⟩
          · rw [if_neg h2]

/-- A row reaches no leaf just if its side is undetermined for one of the hyperplanes it meets. -/
theorem C93_no_leaf (hT : KeepsPrior c.T) {prior : Option P} {n : Nat} {t : Node (XSplit K) S Y P}
    (h : xFitRoot c prior n = .ok t) (x : Nat → XF K) :
    walk xRouter t x = none ↔ ∃ addr i sp l s c1 c2, nodeAt t addr = some (.split i sp l s c1 c2) ∧
      passes xRouter t addr x = true ∧ Undetermined sp.normal x := by
  rw [walk_none]
  constructor
  · rintro ⟨addr, i, sp, l, s, c1, c2, hn, hp, hg⟩
    exact ⟨addr, i, sp, l, s, c1, c2, hn, hp, (C93_lost hT h addr hn x).1 hg⟩
  · rintro ⟨addr, i, sp, l, s, c1, c2, hn, hp, hg⟩
    exact ⟨addr, i, sp, l, s, c1, c2, hn, hp, (C93_lost hT h addr hn x).2 hg⟩

/-- In particular every row with a NaN among its features, for every tree with a split. -/
theorem C93_nan_row (hT : KeepsPrior c.T) {prior : Option P} {n : Nat} {i : Info Y P} {sp : XSplit K} {l s : S}
    {c1 c2 : Node (XSplit K) S Y P} (h : xFitRoot c prior n = .ok (.split i sp l s c1 c2)) (x : Nat → XF K)
    (hx : ∃ j < c.nDim, x j = .nan) : walk xRouter (.split i sp l s c1 c2) x = none := by
  refine (C93_no_leaf hT h x).2 ⟨[], i, sp, l, s, c1, c2, rfl, rfl, .inl ?_⟩
  rw [(C93_origins hT h [] rfl).1]
  exact hx

/-- Sizes of leaves from the sizes of nodes. -/
theorem leafSizes_rows {Sp Row K : Type} (rt : Router Sp Row) (hex : Exclusive rt) (X : Nat → Row) (t : Node Sp S K P)
    (R : List Nat)
    (h : ∀ addr u, nodeAt t addr = some u → u.info.nData = (R.filter fun i => passes rt t addr (X i)).length) :
    (leafSizes t).sum = (R.filter fun i => (walk rt t (X i)).isSome).length := by
  induction t generalizing R with
  | leaf i =>
    have := h [] _ (nodeAt_nil _)
    simpa [leafSizes, walk, passes, Node.info] using this
  | split i sp l s c1 c2 ih1 ih2 =>
    have e1 := ih1 (R.filter fun i => rt.goes1 sp (X i)) fun addr u hu => by
      rw [h (false :: addr) u (by simpa [nodeAt] using hu), List.filter_filter]
      congr 1
      refine List.filter_congr fun r _ => ?_
      rw [passes]
      cases rt.goes1 sp (X r) <;> simp
    have e2 := ih2 (R.filter fun i => rt.goes2 sp (X i)) fun addr u hu => by
      rw [h (true :: addr) u (by simpa [nodeAt] using hu), List.filter_filter]
      congr 1
      refine List.filter_congr fun r _ => ?_
      rw [passes]
      have := hex sp (X r)
      cases h1 : rt.goes1 sp (X r) <;> cases h2 : rt.goes2 sp (X r) <;> simp_all
    rw [leafSizes, List.sum_append, e1, e2, List.filter_filter, List.filter_filter]
    clear e1 e2 ih1 ih2 h
    induction R with
    | nil => rfl
    | cons r R ih =>
      have := hex sp (X r)
      simp only [List.filter_cons, walk] at ih ⊢
      cases h1 : rt.goes1 sp (X r) <;> cases h2 : rt.goes2 sp (X r) <;> simp_all <;> split <;> simp_all <;> omega

/-- The leaves' `n_data_` add up to the number of training rows that reach a leaf. -/
theorem C93_leaf_total (hT : KeepsPrior c.T) {prior : Option P} {n : Nat} {t : Node (XSplit K) S Y P}
    (h : xFitRoot c prior n = .ok t) :
    (leafSizes t).sum = ((List.range n).filter fun i => (walk xRouter t (c.X i)).isSome).length :=
  leafSizes_rows xRouter xRouter_exclusive c.X t (List.range n) fun addr u hu => (C93_rows hT h addr u hu).1

/-- Rows that reach no leaf are predicted 0 and their `predict_proba` row is all zeros (`init`); others get the value of
their leaf. -/
theorem C93_predictions {A : Type} (val : Info Y P → A) (init : A) (Q : Nat → Nat → XF K) (m : Nat)
    (t : Node (XSplit K) S Y P) (i : Nat) (hi : i < m) :
    (predictRows xRouter val init Q m t)[i]? = some (match walk xRouter t (Q i) with
      | some l => val l
      | none => init) :=
  predictRows_getElem? xRouter xRouter_exclusive val init Q m t i hi

end

section finite
variable {K P S O : Type} [Field K] [LinearOrder K] [IsStrictOrderedRing K] [Neg S] [LT S] [LE S] [DecidableLT S]
  [DecidableLE S]

/-- The same hyperplane with float coordinates. -/
def finSplit (sp : HSplit K) : XSplit K := ⟨sp.normal, sp.origin.map .fin⟩

def finNode : HNode S K P → Node (XSplit K) S K P
  | .leaf i => .leaf i
  | .split i sp l s c1 c2 => .split i (finSplit sp) l s (finNode c1) (finNode c2)

def finProb (q : HProb K P S) : XProb K K P S :=
  ⟨fun i j => .fin (q.X i j), q.y, q.nDim, q.rows, q.prior, q.partitionPrior, q.level, q.noSplit, q.hypercube, q.prec⟩

def finState (st : HState S K) : XState S K := ⟨st.evals, st.bestScore, .fin st.bestDist, st.best.map finSplit⟩

theorem xDot_fin (a : List K) (b : List K) : xDot (a.map .fin) b = .fin (dot a b) := by
  unfold xDot dot
  rw [← XF.sum_fin, List.zipWith_map_left, List.map_zipWith]
  simp

theorem xRowVec_fin (d : Nat) (x : Nat → K) : xRowVec d (fun j => XF.fin (x j)) = (rowVec d x).map .fin := by
  simp [xRowVec, rowVec]

theorem dot_swap (a b : List K) : dot a b = dot b a := by
  unfold dot
  rw [List.zipWith_comm_of_comm (fun x y => mul_comm x y)]

theorem xProj_fin (q : HProb K P S) (w : List K) : xProj (finProb q) w = (hProj q w).map .fin := by
  unfold xProj hProj finProb
  rw [List.map_map]
  apply List.map_congr_left
  intro i _
  simp only [Function.comp, xRowVec_fin, xDot_fin]

theorem splitIndices_fin (prec : K) (xs : List K) :
    splitIndices (xfOps K) prec (xs.map .fin) = splitIndices (exactOps K) prec xs := by
  unfold splitIndices
  rw [← List.map_tail, List.zip_map, List.map_map]
  congr 3
  funext p
  simp [xfOps, exactOps, XF.neg, XF.add, XF.absGt, sub_eq_add_neg]

theorem xOrigin_fin (q : HProb K P S) (a b : Nat) : xOrigin (finProb q) a b = (hOrigin q a b).map .fin := by
  unfold xOrigin hOrigin
  simp only [finProb, xRowVec_fin]
  rw [List.zipWith_map, List.map_zipWith]
  simp [XF.half]

theorem xDist_fin (q : HProb K P S) (sp : HSplit K) : xDist (finProb q) (finSplit sp) = .fin (hDist q sp) := by
  unfold xDist hDist
  rw [show (finSplit sp).normal = sp.normal from rfl, xProj_fin, ← XF.sum_fin, List.map_map, List.map_map]
  congr 1
  apply List.map_congr_left
  intro p _
  simp only [Function.comp, finSplit, xDot_fin, XF.fin_sub, XF.abs, dot_swap sp.origin]

theorem xNormal_eq (A : HArith K) (q : HProb K P S) (r : RawVec K) : xNormal A q.hypercube q.nDim r = hNormal A q r := rfl

theorem xCompute_fin {A : HArith K} {argsort : List (XF K) → List Nat} (hs : ∀ l : List K, argsort (l.map .fin) = A.argsort l)
    (T : Target K P S O) (q : HProb K P S) (st : HState S K) (r : RawVec K) :
    xCompute A argsort T (finProb q) (finState st) r = (hCompute A T q st r).map fun p => (finState p.1, p.2) := by
  unfold xCompute hCompute
  rw [show xNormal A (finProb q).hypercube (finProb q).nDim r = hNormal A q r from rfl]
  cases hNormal A q r with
  | error e => rfl
  | ok w =>
    have hsi : xSplitIndices (finProb q) w = hSplitIndices q w := by
      unfold xSplitIndices hSplitIndices
      rw [xProj_fin]
      exact splitIndices_fin _ _
    simp only [xProj_fin, hs, hsi]
    by_cases h0 : (hSplitIndices q w).length = 0
    · simp only [h0, if_true]; rfl
    · simp only [h0, if_false]
      simp only [show (finProb q).y = q.y from rfl, show (finProb q).rows = q.rows from rfl,
        show (finProb q).partitionPrior = q.partitionPrior from rfl, show (finProb q).level = q.level from rfl,
        show (finProb q).prior = q.prior from rfl, show (finProb q).nDim = q.nDim from rfl]
      generalize T.logSplit q.partitionPrior q.level _ q.prior q.nDim (hSplitIndices q w) = scores
      cases scores[argmax scores]? with
      | none => rfl
      | some s =>
        cases (hSplitIndices q w)[argmax scores]? with
        | none => rfl
        | some k =>
          dsimp only
          by_cases hle : st.bestScore ≤ s
          · rw [if_pos (show (finState st).bestScore ≤ s from hle), if_pos hle]
            cases (A.argsort (hProj q w))[k - 1]? with
            | none => rfl
            | some a =>
              cases (A.argsort (hProj q w))[k]? with
              | none => rfl
              | some b =>
                dsimp only
                have hd := xDist_fin q ⟨w, hOrigin q a b⟩
                rw [show (⟨w, xOrigin (finProb q) a b⟩ : XSplit K) = finSplit ⟨w, hOrigin q a b⟩ by
                  rw [xOrigin_fin]; rfl, hd]
                have hc : (if (finState st).bestScore < s then true else XF.lt (finState st).bestDist
                    (.fin (hDist q ⟨w, hOrigin q a b⟩))) =
                    (if st.bestScore < s then true else decide (st.bestDist < hDist q ⟨w, hOrigin q a b⟩)) := rfl
                rw [hc]
                generalize (if st.bestScore < s then true else decide (st.bestDist < hDist q ⟨w, hOrigin q a b⟩)) = acc
                cases acc <;> rfl
          · rw [if_neg (show ¬ (finState st).bestScore ≤ s from hle), if_neg hle]
            rfl

theorem xSolve_fin {A : HArith K} {argsort : List (XF K) → List Nat} (hs : ∀ l : List K, argsort (l.map .fin) = A.argsort l)
    (T : Target K P S O) (q : HProb K P S) (strat : Strategy K S) (budget : Nat) (hist : List (RawVec K × S))
    (st : HState S K) : xSolve A argsort T (finProb q) strat budget hist (finState st) =
      (hSolve A T q strat budget hist st).map finState := by
  induction budget generalizing hist st with
  | zero => rfl
  | succ b ih =>
    rw [xSolve, hSolve]
    cases strat hist with
    | stop => rfl
    | raise e => rfl
    | eval r =>
      dsimp only
      rw [xCompute_fin hs]
      cases hCompute A T q st r with
      | error e => rfl
      | ok p => exact ih _ _

theorem xDistance_fin (sp : HSplit K) (x : Nat → K) :
    xDistance (finSplit sp) (fun j => XF.fin (x j)) = .fin (signedDistance sp x) := by
  unfold xDistance signedDistance finSplit
  simp only [xRowVec_fin, xDot_fin, XF.fin_sub, dot_swap sp.origin]

theorem xRouter_fin (sp : HSplit K) (x : Nat → K) :
    xRouter.goes1 (finSplit sp) (fun j => XF.fin (x j)) = hyperRouter.goes1 sp x ∧
      xRouter.goes2 (finSplit sp) (fun j => XF.fin (x j)) = hyperRouter.goes2 sp x := by
  simp only [xRouter, xDistance_fin, hyperRouter, XF.zero_def, XF.lt, XF.ge, and_self]

/-- Two descriptions of the same fit to finite features. -/
structure SameFit (c : HCtx K P S O) (c' : XCtx K K P S O) : Prop where
  A : c'.A = c.A
  sort : ∀ l : List K, c'.argsort (l.map .fin) = c.A.argsort l
  T : c'.T = c.T
  hp : c'.hp = c.hp
  prec : c'.prec = c.hp.splitPrecision
  hypercube : c'.hypercube = c.opt.hypercube
  solve : ∀ q, c'.solve (finProb q) = c.opt.solve q
  budget : c'.budget = c.budget
  X : ∀ i j, c'.X i j = .fin (c.X i j)
  y : c'.y = c.y
  nDim : c'.nDim = c.nDim

theorem xFit_fin {c : HCtx K P S O} {c' : XCtx K K P S O} (h : SameFit c c') (fuel : Nat) (pa : Option P) (lv : Nat)
    (R : List Nat) : xFit c' fuel pa lv R = (hFit c fuel pa lv R).map finNode := by
  obtain ⟨hA, hsort, hT, hhp, hprec, hcube, hsolve, hbud, hX, hy, hnd⟩ := h
  have hX' : ∀ i, c'.X i = fun j => XF.fin (c.X i j) := fun i => funext (hX i)
  induction fuel generalizing pa lv R with
  | zero => rfl
  | succ fuel ih =>
    rw [xFit, hFit]
    have hq : ∀ p, xProblem c' p lv R = finProb (hProblem c p lv R) := by
      intro p
      unfold xProblem hProblem finProb
      simp only [hT, hhp, hcube, hprec, hy, hnd, XProb.mk.injEq, and_true]
      funext i j
      exact hX i j
    have hinit : ∀ q : HProb K P S, xInit (finProb q) = finState (hInit q) := fun q => rfl
    simp only [hT, hnd, hq, hA, hbud, hsolve, hinit]
    rw [xSolve_fin hsort]
    cases hSolve c.A c.T _ _ c.budget [] _ with
    | error e => rfl
    | ok st =>
      simp only [Except.map]
      cases hb : st.best with
      | none => simp only [finState, hb, Option.map_none, hhp, hy]; rfl
      | some sp =>
        simp only [finState, hb, Option.map_some, hX', (xRouter_fin sp _).1, (xRouter_fin sp _).2, hhp, hy, ih, xChildInfo,
          hChildInfo]
        split
        · generalize List.filter (fun i => hyperRouter.goes1 sp (c.X i)) R = R1
          generalize List.filter (fun i => hyperRouter.goes2 sp (c.X i)) R = R2
          generalize hFit c fuel _ _ R1 = x1
          generalize hFit c fuel _ _ R2 = x2
          by_cases g1 : R1.length > 1 ∧ (distinct (List.map c.y R1)).length > 1 <;>
            by_cases g2 : R2.length > 1 ∧ (distinct (List.map c.y R2)).length > 1 <;>
            simp only [g1, g2, if_false] <;> cases x1 <;> cases x2 <;> rfl
        · rfl

theorem merge_finNode [DecidableEq O] (pred : P → O) (t : HNode S K P) :
    merge pred (finNode t) = finNode (merge pred t) := by
  induction t with
  | leaf i => rfl
  | split i sp l s c1 c2 ih1 ih2 =>
    rw [finNode, merge, merge, ih1, ih2]
    cases merge pred c1 with
    | leaf j1 =>
      cases merge pred c2 with
      | leaf j2 =>
        simp only [finNode]
        split <;> rfl
      | split => rfl
    | split => cases merge pred c2 <;> rfl

/-- On finite features the fit is that of `Model/Hyper.lean`, with every property proved of it. -/
theorem C93_finite {c : HCtx K P S O} {c' : XCtx K K P S O} (h : SameFit c c') (prior : Option P) (n : Nat) :
    xFitRoot c' prior n = (hFitRoot c prior n).map finNode := by
  unfold xFitRoot hFitRoot
  rw [xFit_fin h]
  cases hFit c (n + 1) prior 0 (List.range n) with
  | error e => rfl
  | ok t =>
    simp only [Except.map, h.hp, h.T, prune_eq, merge_finNode]
    split <;> rfl

end finite

/-- The two kinds of trees. -/
theorem C93_targets {K : Type} [Field K] [LinearOrder K] (F : Fns K) :
    KeepsPrior (clsTarget F) ∧ KeepsPrior (regTarget F) :=
  ⟨⟨cls_delta_zero F, fun _ _ _ => rfl⟩, ⟨reg_delta_zero F, fun _ _ _ => rfl⟩⟩

section sample

/-- `np.argsort` of floats, NaN last. -/
noncomputable def xSort : List (XF ℝ) → List Nat := insArgsort (xfOps ℝ).le

/-- Three rows `0`, `1` and the value `v`, of classes 0, 1, 1, and the only direction. -/
noncomputable def xThree (v : XF ℝ) : XCtx ℝ ℝ (List ℝ) ℝ (List ℝ) where
  A := realArith
  argsort := xSort
  T := clsTarget realFns
  hp := ⟨((99 / 100 : ℚ) : ℝ), 0, false, 0⟩
  prec := 0
  hypercube := false
  solve := fun _ hist => if hist.length = 0 then .eval (floatVec [1]) else .stop
  budget := 2
  X := fun i _ => if i = 0 then .fin 0 else if i = 1 then .fin 1 else v
  y := fun i => if i = 0 then 0 else 1
  nDim := 1

theorem xThree_gain : clsLogNoSplit realFns ((99 / 100 : ℚ) : ℝ) 0 (castL [0, 1, 1]) (castL [1, 1]) <
    clsPair realFns ((99 / 100 : ℚ) : ℝ) 0 (castL [1, 1]) 1 1 (castL [0]) (castL [1, 1]) := by
  have hg : GoodQ (99 / 100) 1 := ⟨by norm_num, by norm_num, by norm_num⟩
  have hp : GoodPrior ([1, 1] : List ℚ) := ⟨by simp, by simp⟩
  obtain ⟨e1, p1⟩ := noSplit_cast hg 0 [1, 1] [0, 1, 1] hp (by simp)
  obtain ⟨e2, p2⟩ := pair_cast hg 0 [1, 1] 1 [0] [1, 1] hp (by simp) (by simp) (by simp)
  rw [e1, e2, logCast_lt p1 p2]
  decide +kernel

theorem xThree_fit : ∃ i i1 i2 l s, xFitRoot (xThree .nan) (some (castL [1, 1])) 3 =
    .ok (.split i ⟨[1], [.fin (1 / 2)]⟩ l s (.leaf i1) (.leaf i2)) := by
  set c := xThree .nan with hc
  set q := xProblem c (castL [1, 1]) 0 [0, 1, 2] with hq
  set s := clsPair realFns ((99 / 100 : ℚ) : ℝ) 0 (castL [1, 1]) 1 1 (castL [0]) (castL [1, 1]) with hs
  have hn : xNormal realArith q.hypercube q.nDim (floatVec [1]) = .ok [1] := by
    have : realArith.norm [1] = 1 := by simp [realArith]
    simp [xNormal, normalizeVec, floatVec, nanToNum, hq, xProblem, hc, xThree, this]
  have hp : xProj q [1] = [.fin 0, .fin 1, .nan] := by
    simp [xProj, xDot, xRowVec, hq, xProblem, hc, xThree]
  have hso : xSort [.fin 0, .fin 1, .nan] = [0, 1, 2] := by
    simp [xSort, insArgsort, insPos, xfOps, List.range_succ, XF.sortLe]
  have hsi : xSplitIndices q [1] = [1] := by
    unfold xSplitIndices
    rw [hp]
    simp [splitIndices, xfOps, npWhere, hq, xProblem, hc, xThree, XF.neg, XF.add, XF.absGt, List.range_succ]
  have hsc : (clsTarget realFns).logSplit q.partitionPrior q.level
      ([0, 1, 2].map fun j => q.y (q.rows.getD j 0)) q.prior q.nDim [1] = [s] := by
    rw [(cls_lawful realFns).logSplit_eq _ _ _ _ _ _ (by simp) (by simp)]
    simp [hq, xProblem, hc, xThree, hs, castL]
  have hno : q.noSplit = clsLogNoSplit realFns ((99 / 100 : ℚ) : ℝ) 0 (castL [0, 1, 1]) (castL [1, 1]) := by
    simp [hq, xProblem, hc, xThree, clsTarget, castL]
  have hgain := xThree_gain
  rw [← hs, ← hno] at hgain
  have ho : xOrigin q 0 1 = [.fin (1 / 2)] := by
    simp [xOrigin, xRowVec, hq, xProblem, hc, xThree, XF.half]
  have hco : ∃ d, xCompute realArith xSort (clsTarget realFns) q (xInit q) (floatVec [1]) =
      .ok (⟨1, s, d, some ⟨[1], [.fin (1 / 2)]⟩⟩, -s) := by
    refine ⟨xDist q ⟨[1], [.fin (1 / 2)]⟩, ?_⟩
    unfold xCompute
    rw [hn]
    simp only [hp, hso, hsi, hsc, xInit]
    simp only [argmax, argmaxAux, List.length_singleton, one_ne_zero, if_false, List.getElem?_cons_zero,
      hgain.le, hgain, if_true, Nat.sub_self, List.getElem?_cons_succ, ho]
  obtain ⟨d, hco⟩ := hco
  have hsolve : xSolve realArith xSort (clsTarget realFns) q (c.solve q) 2 [] (xInit q) =
      .ok ⟨1, s, d, some ⟨[1], [.fin (1 / 2)]⟩⟩ := by
    have h0 : c.solve q [] = .eval (floatVec [1]) := rfl
    simp only [xSolve, h0, hco]
    rfl
  have hdist : ∀ i, xDistance (⟨[1], [.fin (1 / 2)]⟩ : XSplit ℝ) (c.X i) = c.X i 0 - .fin (1 / 2) := by
    intro i
    have : c.X i 0 * XF.fin 1 = c.X i 0 := by
      cases i with
      | zero => simp [hc, xThree]
      | succ i => cases i <;> simp [hc, xThree]
    simp [xDistance, xDot, xRowVec, this]
  have h1 : ([0, 1, 2] : List Nat).filter (fun i => xRouter.goes1 (⟨[1], [.fin (1 / 2)]⟩ : XSplit ℝ) (c.X i)) =
      [0] := by
    simp only [xRouter, hdist]
    simp [hc, xThree]
    norm_num [XF.lt]
  have h2 : ([0, 1, 2] : List Nat).filter (fun i => xRouter.goes2 (⟨[1], [.fin (1 / 2)]⟩ : XSplit ℝ) (c.X i)) =
      [1] := by
    simp only [xRouter, hdist]
    simp [hc, xThree]
    norm_num [XF.ge]
  have hfit : xFitRoot c (some (castL [1, 1])) 3 = xFit c 4 (some (castL [1, 1])) 0 [0, 1, 2] := by
    unfold xFitRoot
    rw [show List.range 3 = [0, 1, 2] from rfl]
    cases xFit c (3 + 1) (some (castL [1, 1])) 0 [0, 1, 2] <;> rfl
  rw [hfit]
  unfold xFit
  dsimp only
  rw [show c.T.getPrior (some (castL [1, 1])) [0, 1, 2].length c.nDim = castL [1, 1] from rfl, ← hq]
  rw [show xSolve c.A c.argsort c.T q (c.solve q) c.budget [] (xInit q) = _ from hsolve]
  dsimp only
  rw [h1, h2]
  exact ⟨_, _, _, _, _, rfl⟩

/-- C93, the claim one might expect is false: with a NaN among the features the leaves need not account for all training
rows.  Here three rows are fitted and the leaves have one each; the third row is predicted 0, though its class is 1. -/
theorem C93_rows_lost : ∃ (c : XCtx ℝ ℝ (List ℝ) ℝ (List ℝ)) (prior : List ℝ) (t : Node (XSplit ℝ) ℝ ℝ (List ℝ)),
    c.T = clsTarget realFns ∧ c.nDim = 1 ∧ xFitRoot c (some prior) 3 = .ok t ∧ t.info.nData = 3 ∧ (leafSizes t).sum = 2 ∧
      walk xRouter t (c.X 2) = none := by
  obtain ⟨i, i1, i2, l, s, h⟩ := xThree_fit
  have hT : KeepsPrior (xThree .nan).T := (C93_targets realFns).1
  have w0 : walk xRouter (.split i ⟨[1], [.fin (1 / 2)]⟩ l s (.leaf i1) (.leaf i2) : Node (XSplit ℝ) ℝ ℝ (List ℝ))
      ((xThree .nan).X 2) = none := C93_nan_row hT h _ ⟨0, by simp [xThree], by simp [xThree]⟩
  refine ⟨xThree .nan, castL [1, 1], _, rfl, rfl, h, (C93_rows hT h [] _ rfl).1.trans ?_, (C93_leaf_total hT h).trans ?_, w0⟩
  · simp [routedRows, passes]
  · have : ∀ j v, (xThree .nan).X j 0 = .fin v → (walk xRouter (.split i ⟨[1], [.fin (1 / 2)]⟩ l s (.leaf i1) (.leaf i2) :
        Node (XSplit ℝ) ℝ ℝ (List ℝ)) ((xThree .nan).X j)).isSome = true := by
      intro j v hv
      have hd : xDistance (⟨[1], [.fin (1 / 2)]⟩ : XSplit ℝ) ((xThree .nan).X j) = .fin (v - 1 / 2) := by
        simp [xDistance, xDot, xRowVec, hv]
      rw [walk]
      simp only [walk, xRouter, hd]
      rcases lt_or_ge (v - 1 / 2) 0 with hlt | hge
      · rw [if_pos (show XF.lt (.fin (v - 1 / 2)) 0 = true from decide_eq_true_iff.2 hlt)]; rfl
      · split
        · rfl
        · rw [if_pos (show XF.ge (.fin (v - 1 / 2)) 0 = true from decide_eq_true_iff.2 hge)]; rfl
    rw [show List.range 3 = [0, 1, 2] from rfl, List.filter_cons, if_pos (this 0 0 rfl), List.filter_cons,
      if_pos (this 1 1 rfl), List.filter_cons, if_neg (by rw [w0]; simp)]
    rfl

/-- C93 with an infinite value: `-inf` goes to the first child, so all three rows are counted. -/
example (sp : XSplit ℝ) (h : sp = ⟨[1], [.fin (1 / 2)]⟩) : xRouter.goes1 sp ((xThree .ninf).X 2) = true := by
  subst h
  refine (far_side ⟨1 / 2, by simp [xDot]⟩ ?_).2 ⟨0, 1, rfl, .inl ⟨rfl, one_pos⟩⟩
  rintro (⟨j, hj, h⟩ | ⟨j, hj, -⟩ | ⟨⟨j, v, hj, h⟩, -⟩)
  · simp [xThree] at hj h
  · cases j <;> simp at hj
  · cases j with
    | zero =>
      simp at hj
      subst hj
      rcases h with ⟨h, -⟩ | ⟨-, h⟩
      · cases h
      · exact absurd h (by norm_num)
    | succ j => simp at hj

theorem xSort_fin (l : List ℝ) : xSort (l.map .fin) = insArgsort (exactOps ℝ).le l := by
  unfold xSort insArgsort
  rw [List.length_map]
  congr 1
  funext i js
  induction js with
  | nil => rfl
  | cons j js ih =>
    rw [insPos, insPos, ih, List.getElem?_map, List.getElem?_map]
    cases l[i]? with
    | none => rfl
    | some a => cases l[j]? <;> rfl

/-- C93_finite on the nine rows of `hSampleReal`. -/
noncomputable def xSample : XCtx ℝ ℝ (List ℝ) ℝ (List ℝ) where
  A := realArith
  argsort := xSort
  T := clsTarget realFns
  hp := (hSampleReal 0).hp
  prec := (hSampleReal 0).hp.splitPrecision
  hypercube := (hSampleReal 0).opt.hypercube
  solve := fun q => (hSampleReal 0).opt.solve (hProblem (hSampleReal 0) q.prior q.level q.rows)
  budget := (hSampleReal 0).budget
  X := fun i j => .fin ((hSampleReal 0).X i j)
  y := (hSampleReal 0).y
  nDim := (hSampleReal 0).nDim

example : ∃ i sp l s c1 c2, xFitRoot xSample (some (castL [1, 1])) 9 = .ok (.split i (finSplit sp) l s c1 c2) := by
  rw [C93_finite (c := hSampleReal 0) ⟨rfl, xSort_fin, rfl, rfl, rfl, rfl, fun q => rfl, rfl, fun i j => rfl, rfl, rfl⟩,
    hSampleReal_fit]
  exact ⟨_, _, _, _, _, _, rfl⟩

end sample

end BT
