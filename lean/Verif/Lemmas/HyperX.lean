import Verif.Lemmas.XTarget
import Verif.Lemmas.Prune
import Verif.Lemmas.Walk
import Verif.Spec.HyperX
import Verif.Spec.Routed

/-!
# Hyperplane fits to features with NaN and infinite values
-/

set_option linter.unusedSectionVars false

namespace BT
open Spec

section dot
variable {K : Type} [Field K] [LinearOrder K] [IsStrictOrderedRing K]

theorem xRouter_exclusive : Exclusive (xRouter (K := K)) := by
  intro sp x h
  simp only [xRouter] at h
  rcases hd : xDistance sp x with _ | _ | a | _ <;> rw [hd] at h <;> simp [XF.lt, XF.ge] at h
  exact absurd h.1 (not_lt.2 h.2)

/-- An exact sum is NaN just if a term is, or if there are infinities of both signs. -/
theorem sum_eq_nan {l : List (XF K)} : l.sum = .nan ↔ .nan ∈ l ∨ (.pinf ∈ l ∧ .ninf ∈ l) := by
  by_cases h : ∃ v ∈ l, ¬ IsFinite v
  · rw [XF.sum_nonFinite l h]
    unfold nonFiniteSum
    constructor
    · intro e
      by_contra hc
      rw [if_neg hc] at e
      split at e <;> cases e
    · intro e
      rw [if_pos e]
  · have hfin : ∀ v ∈ l, IsFinite v := by
      intro v hv
      by_contra hc
      exact h ⟨v, hv, hc⟩
    obtain ⟨s, hs⟩ := XF.isFinite_sum.2 hfin
    rw [hs]
    constructor
    · intro e; cases e
    · rintro (e | ⟨e, -⟩)
      · obtain ⟨a, ha⟩ := hfin _ e; cases ha
      · obtain ⟨a, ha⟩ := hfin _ e; cases ha

theorem mul_fin_nan {a : XF K} {v : K} : a * XF.fin v = .nan ↔ a = .nan ∨ (v = 0 ∧ (a = .pinf ∨ a = .ninf)) := by
  rcases a with _ | _ | a | _
  · simp [XF.mul_def, XF.mul]
  · simp only [XF.mul_def, XF.mul, XF.signed, neg_eq_zero]
    by_cases h : v = 0
    · simp [h]
    · simp only [h, if_false]; split <;> simp
  · simp [XF.mul_def, XF.mul]
  · simp only [XF.mul_def, XF.mul, XF.signed]
    by_cases h : v = 0
    · simp [h]
    · simp only [h, if_false]; split <;> simp

theorem mul_fin_pinf {a : XF K} {v : K} : a * XF.fin v = .pinf ↔ (a = .pinf ∧ 0 < v) ∨ (a = .ninf ∧ v < 0) := by
  rcases a with _ | _ | a | _
  · simp [XF.mul_def, XF.mul]
  · simp only [XF.mul_def, XF.mul, XF.signed, neg_eq_zero, Left.neg_pos_iff]
    by_cases h : v = 0
    · simp [h]
    · simp only [h, if_false]; split <;> simp_all
  · simp [XF.mul_def, XF.mul]
  · simp only [XF.mul_def, XF.mul, XF.signed]
    by_cases h : v = 0
    · simp [h]
    · simp only [h, if_false]; split <;> simp_all

theorem mul_fin_ninf {a : XF K} {v : K} : a * XF.fin v = .ninf ↔ (a = .ninf ∧ 0 < v) ∨ (a = .pinf ∧ v < 0) := by
  rcases a with _ | _ | a | _
  · simp [XF.mul_def, XF.mul]
  · simp only [XF.mul_def, XF.mul, XF.signed, neg_eq_zero, Left.neg_pos_iff]
    rcases lt_trichotomy v 0 with h | h | h
    · simp [h, h.ne, h.not_gt]
    · simp [h]
    · simp [h, h.ne', h.not_gt]
  · simp [XF.mul_def, XF.mul]
  · simp only [XF.mul_def, XF.mul, XF.signed]
    rcases lt_trichotomy v 0 with h | h | h
    · simp [h, h.ne, h.not_gt]
    · simp [h]
    · simp [h, h.ne', h.not_gt]

theorem mem_products {w : List K} {x : Nat → XF K} {p : XF K} :
    p ∈ List.zipWith (fun u v => u * XF.fin v) (xRowVec w.length x) w ↔ ∃ j v, w[j]? = some v ∧ x j * XF.fin v = p := by
  rw [List.mem_iff_getElem?]
  constructor
  · rintro ⟨j, hj⟩
    rw [List.getElem?_zipWith] at hj
    unfold xRowVec at hj
    by_cases hlt : j < w.length
    · rw [List.getElem?_map, List.getElem?_range hlt, List.getElem?_eq_getElem hlt] at hj
      simp at hj
      exact ⟨j, w[j], List.getElem?_eq_getElem hlt, hj⟩
    · rw [List.getElem?_eq_none (by omega : w.length ≤ j)] at hj
      simp at hj
  · rintro ⟨j, v, hj, rfl⟩
    have hlt : j < w.length := (List.getElem?_eq_some_iff.1 hj).1
    refine ⟨j, ?_⟩
    rw [List.getElem?_zipWith, xRowVec, List.getElem?_map, List.getElem?_range hlt, hj]
    rfl

/-- A projection is NaN just for rows with an undetermined side. -/
theorem xDot_nan (w : List K) (x : Nat → XF K) : xDot (xRowVec w.length x) w = .nan ↔ Undetermined w x := by
  unfold xDot
  rw [sum_eq_nan, mem_products, mem_products, mem_products]
  simp only [mul_fin_nan, mul_fin_pinf, mul_fin_ninf, Undetermined, FarAlong, FarAgainst]
  constructor
  · rintro (⟨j, v, hj, h | ⟨rfl, h⟩⟩ | h)
    · exact .inl ⟨j, (List.getElem?_eq_some_iff.1 hj).1, h⟩
    · exact .inr (.inl ⟨j, hj, h⟩)
    · exact .inr (.inr h)
  · rintro (⟨j, hj, h⟩ | ⟨j, hj, h⟩ | h)
    · exact .inl ⟨j, w[j], List.getElem?_eq_getElem hj, .inl h⟩
    · exact .inl ⟨j, 0, hj, .inr ⟨rfl, h⟩⟩
    · exact .inr h

/-- If a hyperplane has rows on both sides, its offset is an ordinary number. -/
theorem offset_finite {sp : XSplit K} {x x' : Nat → XF K} (h1 : xRouter.goes1 sp x = true)
    (h2 : xRouter.goes2 sp x' = true) : IsFinite (xDot sp.origin sp.normal) := by
  simp only [xRouter, xDistance] at h1 h2
  generalize xDot (xRowVec sp.normal.length x) sp.normal = a at h1
  generalize xDot (xRowVec sp.normal.length x') sp.normal = b at h2
  generalize xDot sp.origin sp.normal = o at h1 h2 ⊢
  rcases o with _ | _ | o | _
  · simp [XF.lt] at h1
  · rcases a with _ | _ | a | _ <;> simp [XF.sub_def, XF.neg, XF.add, XF.lt] at h1
  · exact ⟨o, rfl⟩
  · rcases b with _ | _ | b | _ <;> simp [XF.sub_def, XF.neg, XF.add, XF.ge, XF.zero_def] at h2

/-- Then a row is on neither side just if its side is undetermined. -/
theorem neither_iff {sp : XSplit K} (ho : IsFinite (xDot sp.origin sp.normal)) (x : Nat → XF K) :
    (xRouter.goes1 sp x = false ∧ xRouter.goes2 sp x = false) ↔ Undetermined sp.normal x := by
  obtain ⟨o, ho⟩ := ho
  rw [← xDot_nan]
  simp only [xRouter, xDistance, ho]
  rcases xDot (xRowVec sp.normal.length x) sp.normal with _ | _ | a | _
  · simp [XF.lt, XF.ge]
  · simp [XF.sub_def, XF.neg, XF.add, XF.lt, XF.zero_def]
  · simp only [XF.fin_sub, XF.lt, XF.ge, XF.zero_def, decide_eq_false_iff_not, reduceCtorEq, iff_false]
    rintro ⟨g1, g2⟩
    exact g2 (not_lt.1 g1)
  · simp [XF.sub_def, XF.neg, XF.add, XF.lt, XF.ge, XF.zero_def]

/-- Rows infinitely far in one direction, when the side is determined. -/
theorem far_side {sp : XSplit K} (ho : IsFinite (xDot sp.origin sp.normal)) {x : Nat → XF K}
    (hd : ¬ Undetermined sp.normal x) :
    (FarAlong sp.normal x → xRouter.goes2 sp x = true) ∧ (FarAgainst sp.normal x → xRouter.goes1 sp x = true) := by
  obtain ⟨o, ho⟩ := ho
  have hnan := mt (xDot_nan sp.normal x).1 hd
  simp only [xRouter, xDistance, ho]
  unfold xDot at hnan ⊢
  rw [sum_eq_nan] at hnan
  constructor
  · rintro ⟨j, v, hj, h⟩
    have hm := mem_products.2 ⟨j, v, hj, mul_fin_pinf.2 h⟩
    rw [XF.sum_nonFinite _ ⟨_, hm, by rintro ⟨a, ha⟩; cases ha⟩, nonFiniteSum, if_neg hnan, if_pos hm]
    rfl
  · rintro ⟨j, v, hj, h⟩
    have hm := mem_products.2 ⟨j, v, hj, mul_fin_ninf.2 h⟩
    rw [XF.sum_nonFinite _ ⟨_, hm, by rintro ⟨a, ha⟩; cases ha⟩, nonFiniteSum, if_neg hnan,
      if_neg fun hp => hnan (.inr ⟨hp, hm⟩)]
    rfl

/-- A finite offset means a finite origin. -/
theorem origin_finite {sp : XSplit K} (hlen : sp.origin.length ≤ sp.normal.length)
    (ho : IsFinite (xDot sp.origin sp.normal)) : ∀ v ∈ sp.origin, IsFinite v := by
  intro v hv
  obtain ⟨j, hj⟩ := List.mem_iff_getElem?.1 hv
  have hlt : j < sp.normal.length := lt_of_lt_of_le (List.getElem?_eq_some_iff.1 hj).1 hlen
  have hm : v * XF.fin sp.normal[j] ∈ List.zipWith (fun u v => u * XF.fin v) sp.origin sp.normal := by
    refine List.mem_iff_getElem?.2 ⟨j, ?_⟩
    rw [List.getElem?_zipWith, hj, List.getElem?_eq_getElem hlt]
  obtain ⟨a, ha⟩ := XF.isFinite_sum.1 ho _ hm
  rcases v with _ | _ | v | _
  · cases ha
  · exfalso
    simp only [XF.mul_def, XF.mul, XF.signed] at ha
    split at ha
    · cases ha
    · split at ha <;> cases ha
  · exact ⟨v, rfl⟩
  · exfalso
    simp only [XF.mul_def, XF.mul, XF.signed] at ha
    split at ha
    · cases ha
    · split at ha <;> cases ha

end dot

section solve
variable {K Y P S O : Type} [Field K] [LinearOrder K] [Neg S] [LT S] [LE S] [DecidableLT S] [DecidableLE S]

/-- A split kept by the optimization has vectors of the right length. -/
def Sized (d : Nat) (st : XState S K) : Prop :=
  ∀ sp, st.best = some sp → sp.normal.length = d ∧ sp.origin.length = d

theorem xNormal_length {A : HArith K} {hc : Bool} {d : Nat} {r : RawVec K} {w : List K} (h : xNormal A hc d r = .ok w) :
    w.length = d := by
  unfold xNormal at h
  dsimp only at h
  split at h
  · cases h
  · split at h
    · cases h
    · split at h
      · cases h
      · rename_i hl
        cases h
        exact not_not.1 hl

theorem xCompute_sized {A : HArith K} {argsort : List (XF K) → List Nat} {T : Target Y P S O} {q : XProb K Y P S}
    {st st' : XState S K} {r : RawVec K} {val : S} (hs : Sized q.nDim st)
    (h : xCompute A argsort T q st r = .ok (st', val)) : Sized q.nDim st' := by
  unfold xCompute at h
  dsimp only at h
  cases hn : xNormal A q.hypercube q.nDim r with
  | error e => rw [hn] at h; cases h
  | ok w =>
    rw [hn] at h
    dsimp only at h
    have keep : Sized q.nDim { st with evals := st.evals + 1 } := hs
    split at h
    · cases h; exact keep
    · split at h
      · split at h
        · split at h
          · have hnew : ∀ a b d e s,
                Sized q.nDim (⟨e, s, d, some ⟨w, xOrigin q a b⟩⟩ : XState S K) := by
              intro a b d e s sp hsp
              cases hsp
              exact ⟨xNormal_length hn, by simp [xOrigin, xRowVec]⟩
            split at h
            · split at h
              · cases h; exact hnew _ _ _ _ _
              · cases h; exact keep
            · split at h
              · cases h; exact hnew _ _ _ _ _
              · cases h; exact keep
          · cases h
        · cases h; exact keep
      · cases h

theorem xSolve_sized {A : HArith K} {argsort : List (XF K) → List Nat} {T : Target Y P S O} {q : XProb K Y P S}
    {strat : Strategy K S} (budget : Nat) (hist : List (RawVec K × S)) (st st' : XState S K) (hs : Sized q.nDim st)
    (h : xSolve A argsort T q strat budget hist st = .ok st') : Sized q.nDim st' := by
  induction budget generalizing hist st with
  | zero => cases h
  | succ b ih =>
    rw [xSolve] at h
    split at h
    · cases h; exact hs
    · cases h
    · split at h
      · cases h
      · rename_i e
        exact ih _ _ (xCompute_sized hs e) h

end solve

section fit
variable {K Y P S O : Type} [Field K] [LinearOrder K] [IsStrictOrderedRing K] [Neg S] [LT S] [LE S] [DecidableLT S]
  [DecidableLE S] [DecidableEq Y] [Zero Y] [One Y] {c : XCtx K Y P S O}

/-- What is known of a node trained on the rows `R`, given the prior `p` of the tree. -/
structure NodeFacts (c : XCtx K Y P S O) (p : P) (R : List Nat) (u : Node (XSplit K) S Y P) : Prop where
  rows : u.info.nData = R.length
  posterior : u.info.posterior = c.T.posterior (R.map c.y) p 1
  split : ∀ i sp l s c1 c2, u = .split i sp l s c1 c2 → sp.normal.length = c.nDim ∧ sp.origin.length = c.nDim ∧
    (∃ r ∈ R, xRouter.goes1 sp (c.X r) = true) ∧ (∃ r ∈ R, xRouter.goes2 sp (c.X r) = true)

theorem xFit_facts (h0 : ∀ ys p, c.T.posterior ys p 0 = p) (hg : ∀ p n d, c.T.getPrior (some p) n d = p)
    (fuel : Nat) (pa : Option P) (lv : Nat) (R : List Nat) (t : Node (XSplit K) S Y P)
    (h : xFit c fuel pa lv R = .ok t) (addr : List Bool) (u : Node (XSplit K) S Y P) (hu : nodeAt t addr = some u) :
    NodeFacts c (c.T.getPrior pa R.length c.nDim) (R.filter fun i => passes xRouter t addr (c.X i)) u := by
  induction fuel generalizing pa lv R t addr u with
  | zero => cases h
  | succ fuel ih =>
    have nilR : ∀ (t : Node (XSplit K) S Y P) (R : List Nat), (R.filter fun i => passes xRouter t [] (c.X i)) = R := by
      intro t R
      rw [List.filter_eq_self]
      intro i _
      cases t <;> rfl
    have leafCase : ∀ (i : Info Y P) (R' : List Nat) (p : P) (bs : List Bool) (u : Node (XSplit K) S Y P),
        i.nData = R'.length → i.posterior = c.T.posterior (R'.map c.y) p 1 →
        nodeAt (.leaf i : Node (XSplit K) S Y P) bs = some u →
        NodeFacts c p (R'.filter fun j => passes xRouter (.leaf i : Node (XSplit K) S Y P) bs (c.X j)) u := by
      intro i R' p bs u h1 h2 hu
      cases bs with
      | cons b bs => cases hu
      | nil =>
        rw [nodeAt_nil] at hu
        cases hu
        rw [nilR]
        exact ⟨h1, h2, by intro _ _ _ _ _ _ e; cases e⟩
    rw [xFit] at h
    dsimp only at h
    split at h
    · cases h
    · rename_i st hst
      cases hb : st.best with
      | none =>
        rw [hb] at h
        cases h
        exact leafCase _ R _ addr u rfl rfl hu
      | some sp =>
        rw [hb] at h
        dsimp only at h
        obtain ⟨hl1, hl2⟩ := xSolve_sized _ _ _ _ (fun sp e => by cases e) hst sp hb
        split at h
        · rename_i hpos
          split at h
          · cases h
          · rename_i d1 e1
            split at h
            · cases h
            · rename_i d2 e2
              cases h
              cases addr with
              | nil =>
                rw [nodeAt_nil] at hu
                cases hu
                rw [nilR]
                refine ⟨rfl, rfl, ?_⟩
                intro i sp' l s c1 c2 e
                cases e
                refine ⟨hl1, hl2, ?_, ?_⟩
                · obtain ⟨r, hr⟩ := List.exists_mem_of_length_pos hpos.1
                  exact ⟨r, (List.mem_filter.1 hr).1, (List.mem_filter.1 hr).2⟩
                · obtain ⟨r, hr⟩ := List.exists_mem_of_length_pos hpos.2
                  exact ⟨r, (List.mem_filter.1 hr).1, (List.mem_filter.1 hr).2⟩
              | cons b bs =>
                have child : ∀ (R' : List Nat) (d : Node (XSplit K) S Y P),
                    (if R'.length > 1 ∧ (distinct (R'.map c.y)).length > 1 then
                        xFit c fuel (some (c.T.posterior (R'.map c.y) (c.T.getPrior pa R.length c.nDim) 0)) (lv + 1) R'
                      else .ok (.leaf (xChildInfo c (c.T.posterior (R'.map c.y) (c.T.getPrior pa R.length c.nDim) 0)
                        (lv + 1) R'.length (c.T.posterior (R'.map c.y) (c.T.getPrior pa R.length c.nDim) 1)))) = .ok d →
                    nodeAt d bs = some u →
                    NodeFacts c (c.T.getPrior pa R.length c.nDim)
                      (R'.filter fun i => passes xRouter d bs (c.X i)) u := by
                  intro R' d e hd
                  split at e
                  · have := ih _ _ _ _ e bs u hd
                    rw [hg, h0] at this
                    exact this
                  · cases e
                    exact leafCase _ R' _ bs u rfl rfl hd
                cases b with
                | false =>
                  have := child _ d1 e1 (by simpa [nodeAt] using hu)
                  rw [List.filter_filter] at this
                  convert this using 2
                  funext i
                  rw [passes]
                  cases xRouter.goes1 sp (c.X i) <;> simp
                | true =>
                  have := child _ d2 e2 (by simpa [nodeAt] using hu)
                  rw [List.filter_filter] at this
                  convert this using 2
                  funext i
                  rw [passes]
                  have hex := xRouter_exclusive sp (c.X i)
                  cases h1 : xRouter.goes1 sp (c.X i) <;> cases h2 : xRouter.goes2 sp (c.X i) <;> simp_all
        · cases h
          exact leafCase _ R _ addr u rfl rfl hu

theorem xFitRoot_facts (h0 : ∀ ys p, c.T.posterior ys p 0 = p) (hg : ∀ p n d, c.T.getPrior (some p) n d = p)
    (prior : Option P) (n : Nat) (t : Node (XSplit K) S Y P) (h : xFitRoot c prior n = .ok t) (addr : List Bool)
    (u : Node (XSplit K) S Y P) (hu : nodeAt t addr = some u) :
    NodeFacts c (c.T.getPrior prior n c.nDim) (routedRows xRouter c.X t n addr) u := by
  unfold xFitRoot at h
  cases hf : xFit c (n + 1) prior 0 (List.range n) with
  | error e => rw [hf] at h; cases h
  | ok t' =>
    rw [hf] at h
    have hc : CutOff t t' := by
      dsimp only at h
      split at h
      · rw [prune_eq] at h
        cases h
        exact CutOff.merge _ _
      · cases h
        exact CutOff.refl _
    obtain ⟨u', hu', hi, hs⟩ := hc.node addr u hu
    have hn := xFit_facts h0 hg _ _ _ _ _ hf addr u' hu'
    rw [List.length_range] at hn
    have hr : routedRows xRouter c.X t n addr = (List.range n).filter fun i => passes xRouter t' addr (c.X i) := by
      unfold routedRows
      refine List.filter_congr fun i _ => ?_
      exact hc.passes xRouter addr u hu (c.X i)
    rw [hr]
    refine ⟨by rw [hi]; exact hn.rows, by rw [hi]; exact hn.posterior, ?_⟩
    intro i sp l s c1 c2 e
    obtain ⟨d1, d2, e'⟩ := hs i sp l s c1 c2 e
    exact hn.split _ _ _ _ _ _ e'

end fit

end BT
