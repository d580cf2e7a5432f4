import Verif.Spec.HyperClosed
import Verif.Props.Closed
import Verif.Props.HyperScore
import Verif.Props.Optimize

/-!
# The properties of the hyperplane search and fit in closed form

The theorems of `Props/Hyper` and `Props/HyperScore` for the two target models of the code over the real
numbers, with directions, sides, orders and scores written out.
-/

namespace BT
open Spec

set_option linter.unusedSectionVars false

section
variable {F : Fns ℝ} {P O : Type} {T : Target ℝ P ℝ O} {ml : P → List ℝ → ℝ} {post : P → List ℝ → P}
  {A : HArith ℝ} {q : HProb ℝ P ℝ}

theorem Spec.Euclidean.isArgsort (h : Euclidean A) : IsArgsort (exactOps ℝ).le (fun _ => True) A.argsort :=
  ⟨fun xs _ => (h.sort xs).1, fun xs _ => (h.sort xs).2.imp fun h' a b ha hb => by
    simpa [exactOps] using h' a b ha hb⟩

theorem Spec.Euclidean.square (h : Euclidean A) (v : List ℝ) :
    A.norm v * A.norm v = (v.map fun a => a * a).sum := by
  have e : (v.map fun a => a ^ 2) = v.map fun a => a * a := List.map_congr_left fun a _ => pow_two a
  rw [h.norm, e]
  refine Real.mul_self_sqrt (List.sum_nonneg fun x hx => ?_)
  obtain ⟨a, -, rfl⟩ := List.mem_map.1 hx
  exact mul_self_nonneg a

theorem finite_eq (h : Euclidean A) (v : List (XF ℝ)) : v.map (nanToNum A.big) = v.map finite := by
  apply List.map_congr_left
  intro x _
  cases x <;> simp [nanToNum, finite, h.big]

theorem Spec.CodeTarget.deltaZero (hT : CodeTarget F T ml post) (y : List ℝ) (p : P) : T.posterior y p 0 = p := by
  cases hT with
  | classification => exact cls_delta_zero F y p
  | regression => exact reg_delta_zero F y p

/-- Scaling a list by its norm gives a unit vector. -/
theorem unit_scale {v : List ℝ} (h0 : ∃ a ∈ v, a ≠ 0) :
    0 < Real.sqrt (v.map fun a => a ^ 2).sum ∧
      v = (v.map (· / Real.sqrt (v.map fun a => a ^ 2).sum)).map (Real.sqrt (v.map fun a => a ^ 2).sum * ·) ∧
      ((v.map (· / Real.sqrt (v.map fun a => a ^ 2).sum)).map fun a => a ^ 2).sum = 1 := by
  obtain ⟨a, ha, hne⟩ := h0
  have e : (v.map fun a => a ^ 2) = v.map fun a => a * a := List.map_congr_left fun a _ => pow_two a
  have hpos : 0 < (v.map fun a => a ^ 2).sum := by rw [e]; exact sum_sq_pos ha hne
  have hs := Real.sqrt_pos.2 hpos
  refine ⟨hs, ?_, ?_⟩
  · rw [List.map_map]
    conv_lhs => rw [← List.map_id v]
    apply List.map_congr_left
    intro b _
    simp only [Function.comp, id]
    field_simp
  · rw [List.map_map]
    have : ((fun a => a ^ 2) ∘ fun x => x / Real.sqrt (v.map fun a => a ^ 2).sum) =
        fun b => b ^ 2 / (v.map fun a => a ^ 2).sum := by
      funext b
      simp only [Function.comp]
      rw [div_pow, Real.sq_sqrt hpos.le]
    rw [this]
    have hd : ∀ (l : List ℝ) (m : ℝ), (l.map fun b => b ^ 2 / m).sum = (l.map fun a => a ^ 2).sum / m := by
      intro l m
      induction l with
      | nil => simp
      | cons b l ih => simp only [List.map_cons, List.sum_cons, ih]; ring
    rw [hd, div_self hpos.ne']

theorem sum_sq_scale (w : List ℝ) (r : ℝ) :
    ((w.map (r * ·)).map fun a => a ^ 2).sum = r ^ 2 * (w.map fun a => a ^ 2).sum := by
  induction w with
  | nil => simp
  | cons b w ih => simp only [List.map_cons, List.sum_cons, ih]; ring

theorem normalizeVec_direction (h : Euclidean A) (v : List (XF ℝ)) (w : List ℝ) :
    normalizeVec A ⟨false, v⟩ = .ok w ↔ IsDirection v w := by
  unfold normalizeVec
  simp only [finite_eq h, Bool.false_eq_true, if_false, h.norm]
  by_cases hv : v.map finite = []
  · rw [if_pos hv]
    rw [List.map_eq_nil_iff] at hv
    subst hv
    constructor
    · intro h; cases h
    · rintro ⟨h1, h2, -⟩
      have : w = [] := by simpa using h1
      subst this
      simp at h2
  · rw [if_neg hv]
    by_cases hall : ∀ x ∈ v, finite x = 0
    · have e : (v.map finite).all (fun a => decide (a = 0)) = true := by
        rw [List.all_eq_true]
        intro a ha
        obtain ⟨x, hx, rfl⟩ := List.mem_map.1 ha
        exact decide_eq_true (hall x hx)
      have e0 : v.map finite = List.replicate v.length 0 :=
        List.eq_replicate_iff.2 ⟨by simp, fun b hb => by
          obtain ⟨x, hx, rfl⟩ := List.mem_map.1 hb
          exact hall x hx⟩
      obtain ⟨m, hm⟩ : ∃ m, v.length = m + 1 := by
        refine ⟨v.length - 1, ?_⟩
        have : v ≠ [] := fun h => hv (by simp [h])
        have := List.length_pos_of_ne_nil this
        omega
      have e1 : (v.map finite).set 0 1 = 1 :: List.replicate m 0 := by
        rw [e0, hm, List.replicate_succ, List.set_cons_zero]
      have e2 : Real.sqrt (((1 : ℝ) :: List.replicate m 0).map fun a => a ^ 2).sum = 1 := by simp
      rw [e, if_pos rfl, e1, e2]
      have e3 : ((1 : ℝ) :: List.replicate m 0).map (· / (1 : ℝ)) = 1 :: List.replicate m 0 := by simp
      rw [e3]
      constructor
      · intro hw
        cases hw
        refine ⟨by simp [hm], by simp, .inr ⟨hall, fun j hj => ?_⟩⟩
        cases j with
        | zero => rfl
        | succ j =>
          simp only [List.length_cons, List.length_replicate] at hj
          rw [List.getElem?_cons_succ, List.getElem?_replicate_of_lt (by omega), if_neg (Nat.succ_ne_zero j)]
      · rintro ⟨h1, h2, h3 | h3⟩
        · obtain ⟨r, hr, h3⟩ := h3
          have := sum_sq_scale w r
          rw [← h3, h2, e0] at this
          simp only [List.map_replicate, List.sum_replicate, mul_one] at this
          have h4 : r ^ 2 = 0 := by rw [← this]; simp
          exact absurd h4 (pow_pos hr 2).ne'
        · congr 1
          apply List.ext_getElem?
          intro j
          by_cases hj : j < w.length
          · rw [h3.2 j hj]
            cases j with
            | zero => rfl
            | succ j =>
              rw [List.getElem?_cons_succ, List.getElem?_replicate_of_lt (by omega),
                if_neg (Nat.succ_ne_zero j)]
          · rw [List.getElem?_eq_none (by simp; omega), List.getElem?_eq_none (by omega)]
    · have e : (v.map finite).all (fun a => decide (a = 0)) = false := by
        rw [Bool.eq_false_iff]
        intro hc
        apply hall
        intro x hx
        rw [List.all_eq_true] at hc
        exact of_decide_eq_true (hc _ (List.mem_map_of_mem hx))
      rw [e]
      simp only [Bool.false_eq_true, if_false]
      have hne : ∃ a ∈ v.map finite, a ≠ 0 := by
        push Not at hall
        obtain ⟨x, hx, h0⟩ := hall
        exact ⟨_, List.mem_map_of_mem hx, h0⟩
      obtain ⟨hpos, hsc, hunit⟩ := unit_scale hne
      constructor
      · intro hw
        cases hw
        exact ⟨by simp, hunit, .inl ⟨_, hpos, hsc⟩⟩
      · rintro ⟨h1, h2, h3 | h3⟩
        · obtain ⟨r, hr, h3⟩ := h3
          have hn : Real.sqrt ((v.map finite).map fun a => a ^ 2).sum = r := by
            rw [h3, sum_sq_scale, h2, mul_one]
            exact Real.sqrt_sq hr.le
          rw [hn, h3, List.map_map]
          congr 1
          conv_rhs => rw [← List.map_id w]
          apply List.map_congr_left
          intro b _
          simp only [Function.comp, id]
          field_simp
        · exact absurd h3.1 hall

/-- C48 in closed form, optimizers proposing normals: a float vector is accepted exactly if it has `n_dim`
entries and at least one; the normal used is the unit vector in its direction (NaN counting as 0, infinity
as the largest float64, no direction as the first axis). -/
theorem C48_closed_direction (hA : Euclidean A) (hcube : q.hypercube = false) (v : List (XF ℝ)) (w : List ℝ) :
    hNormal A q ⟨false, v⟩ = .ok w ↔ w.length = q.nDim ∧ IsDirection v w := by
  rw [← normalizeVec_direction hA]
  unfold hNormal
  simp only [hcube, Bool.false_eq_true, if_false]
  cases hn : normalizeVec A ⟨false, v⟩ with
  | error e => simp
  | ok w' =>
    simp only
    split
    · next hl =>
      constructor
      · intro h; cases h
      · rintro ⟨h1, h2⟩
        cases h2
        exact absurd h1 hl
    · next hl =>
      push Not at hl
      constructor
      · intro h
        cases h
        exact ⟨hl, rfl⟩
      · rintro ⟨-, h2⟩
        cases h2
        rfl

/-- C48 in closed form, optimizers searching the cube: a point is accepted exactly if it lies in the unit
cube of dimension `n_dim - 1` and `hypercube_to_hypersphere_surface` accepts it (so `n_dim ≥ 2`, see C55);
the normal used is its image on the half sphere. -/
theorem C48_closed_cube (hA : Euclidean A)
    (hsphere : ∀ p, A.sphere p = (hypersphere p true).map fun x => x.map XF.fin)
    (hcube : q.hypercube = true) (r : RawVec ℝ) (w : List ℝ) :
    hNormal A q r = .ok w ↔ InCube r.v ∧ r.v.length + 1 = q.nDim ∧ hypersphere r.v true = .ok w := by
  by_cases hc : InCube r.v
  · by_cases hl : r.v = []
    · unfold hNormal
      simp only [hcube, if_true, hsphere, hl, C55_no_dimension.1, Except.map]
      constructor
      · intro h; cases h
      · rintro ⟨-, -, h⟩; cases h
    · have hD : 1 ≤ r.v.length := List.length_pos_of_ne_nil hl
      obtain ⟨x, hx, hxl, hxu, -⟩ := C55_on_sphere r.v true hD hc
      have hn : normalizeVec A ⟨false, x.map XF.fin⟩ = .ok x := by
        rw [normalizeVec_direction hA]
        refine ⟨by simp, hxu, .inl ⟨1, one_pos, ?_⟩⟩
        rw [List.map_map]
        apply List.map_congr_left
        intro a _
        simp [finite]
      unfold hNormal
      simp only [hcube, if_true, hsphere, hx, Except.map, hn, hxl]
      split
      · next h' => constructor
                   · intro h; cases h
                   · rintro ⟨-, h, -⟩; exact absurd h h'
      · next h' =>
        push Not at h'
        constructor
        · intro h; exact ⟨hc, h', h⟩
        · rintro ⟨-, -, h⟩; exact h
  · unfold hNormal
    simp only [hcube, if_true, hsphere, C55_rejects r.v true hc, Except.map]
    constructor
    · intro h; cases h
    · intro h; exact absurd h.1 hc

/-! ## Bridges -/

theorem planeSide_eq (sp : HSplit ℝ) (x : Nat → ℝ) : planeSide sp.normal sp.origin x = elevation sp x := by
  unfold planeSide elevation along point
  generalize List.range sp.normal.length = l
  induction l with
  | nil => simp
  | cons j l ih => simp only [List.map_cons, List.sum_cons, ih]; ring

theorem clearance_eq (sp : HSplit ℝ) : clearance q sp = totalDist q sp := by
  unfold clearance totalDist
  simp only [planeSide_eq]

theorem descends_eq {S : Type} (t : HNode S ℝ P) (addr : List Bool) (x : Nat → ℝ) :
    descends t addr x = passes hyperRouter t addr x := by
  induction addr generalizing t with
  | nil => cases t <;> rfl
  | cons b bs ih =>
    cases t with
    | leaf i => rfl
    | split i sp l s c1 c2 =>
      simp only [descends, passes, hyperRouter, signedDistance_eq, planeSide_eq, ih, decide_eq_true_eq]
      by_cases h : elevation sp x < 0
      · rw [if_pos h, if_pos h]
      · rw [if_neg h, if_neg h, if_pos (not_lt.1 h)]

theorem hRowsAt_eq (c : HCtx ℝ P ℝ O) (t : HNode ℝ ℝ P) (n : Nat) (addr : List Bool) :
    hRowsAt c.X t n addr = hRouted c t n addr := by
  unfold hRowsAt hRouted
  simp only [descends_eq]

theorem considered_iff (w : List ℝ) (k : Nat) : k ∈ jumps q w ↔ Considered q.prec q.X q.rows w k := by
  unfold jumps Considered
  rw [List.mem_filter, List.mem_range, decide_eq_true_eq]
  constructor
  · rintro ⟨h1, h2, h3⟩
    refine ⟨q.rows.getD (k - 1) 0, q.rows.getD k 0, h2, ?_, ?_, h3⟩
    · have : k - 1 < q.rows.length := by omega
      simp [this]
    · simp [h1]
  · rintro ⟨i, j, h1, h2, h3, h4⟩
    refine ⟨(List.getElem?_eq_some_iff.1 h3).1, h1, ?_⟩
    rw [List.getD_eq_getElem?_getD, List.getD_eq_getElem?_getD, h2, h3]
    exact h4

theorem consideredCount_eq (w : List ℝ) : (jumps q w).length = consideredCount q.prec q.X q.rows w := by
  unfold jumps consideredCount
  generalize q.rows = R
  generalize hf : (fun c : Nat × Nat => decide (q.prec < |along w (q.X c.2) - along w (q.X c.1)|)) = f
  have hf' : ∀ k, decide (1 ≤ k ∧ q.prec < |along w (q.X (R.getD k 0)) - along w (q.X (R.getD (k - 1) 0))|) =
      (decide (1 ≤ k) && f (R.getD (k - 1) 0, R.getD k 0)) := by
    intro k
    rw [← hf, Bool.decide_and]
  simp only [hf']
  clear hf' hf
  cases R with
  | nil => rfl
  | cons a R =>
    rw [List.length_cons, List.range_succ_eq_map, List.filter_cons_of_neg (by simp), List.filter_map,
      List.length_map]
    have e : ((fun k => decide (1 ≤ k) && f ((a :: R).getD (k - 1) 0, (a :: R).getD k 0)) ∘ Nat.succ) =
        fun k => f ((a :: R).getD k 0, R.getD k 0) := by
      funext k
      simp [Function.comp]
    rw [e, List.tail_cons]
    induction R generalizing a with
    | nil => rfl
    | cons b R ih =>
      rw [List.length_cons, List.range_succ_eq_map, List.zip_cons_cons, List.filter_cons, List.filter_cons]
      have e0 : f ((a :: b :: R).getD 0 0, (b :: R).getD 0 0) = f (a, b) := rfl
      have ih' : ((List.range R.length).filter fun k => f ((b :: R).getD k 0, R.getD k 0)).length =
          (((b :: R).zip R).filter f).length := by
        refine ih b ?_
        funext k
        simp [Function.comp]
      have e1 : (((List.range R.length).map Nat.succ).filter
          fun k => f ((a :: b :: R).getD k 0, (b :: R).getD k 0)).length =
          (((b :: R).zip R).filter f).length := by
        rw [List.filter_map, List.length_map, ← ih']
        rfl
      rw [e0]
      cases f (a, b)
      · simpa using e1
      · simpa using e1

theorem cutScore_eq (w : List ℝ) (k : Nat) : cutScore A.argsort (mlPair F ml) q w k =
    sweepScore F ml q w (byCoordinate A.argsort q w) k := by
  unfold cutScore sweepScore
  rw [consideredCount_eq]

theorem outcome_best (hA : Euclidean A) {r : RawVec ℝ} {s : ℝ} {sp : HSplit ℝ}
    (h : Outcome A (mlPair F ml) q r s sp) : hNormal A q r = .ok sp.normal ∧ BestAlong F ml q s sp := by
  obtain ⟨hn, k, hk, e, hmax, hfirst, i, j, hi, hj, ho⟩ := h
  refine ⟨hn, byCoordinate A.argsort q sp.normal, k, i, j,
    ⟨argsort_perm_rows hA.isArgsort _, byCoordinate_sorted hA.isArgsort _⟩,
    (considered_iff _ _).1 hk, by rw [e, cutScore_eq], ?_, ?_, hi, hj, ho⟩
  · intro k' hk'
    rw [← cutScore_eq (A := A)]
    exact hmax k' ((considered_iff _ _).2 hk')
  · intro k' hk' hlt
    rw [← cutScore_eq (A := A)]
    exact hfirst k' ((considered_iff _ _).2 hk') hlt

/-! ## The search -/

/-- What one evaluation found: nothing to cut, or the best plane along the direction of the vector. -/
def Found (A : HArith ℝ) (F : Fns ℝ) (ml : P → List ℝ → ℝ) (q : HProb ℝ P ℝ)
    (e : RawVec ℝ × Option (ℝ × HSplit ℝ)) : Prop :=
  match e.2 with
  | none => ∃ w, hNormal A q e.1 = .ok w ∧ ∀ k, ¬ Considered q.prec q.X q.rows w k
  | some (s, sp) => hNormal A q e.1 = .ok sp.normal ∧ BestAlong F ml q s sp

/-- Value seen by the optimizer. -/
def seen (q : HProb ℝ P ℝ) (e : RawVec ℝ × Option (ℝ × HSplit ℝ)) : RawVec ℝ × ℝ :=
  (e.1, -(e.2.elim q.noSplit Prod.fst))

theorem runs_found (hT : CodeTarget F T ml post) (hA : Euclidean A) {st0 st : HState ℝ ℝ}
    {vs : List (RawVec ℝ × ℝ)} (h : Runs A T q st0 vs st) :
    ∃ es : List (RawVec ℝ × Option (ℝ × HSplit ℝ)), es.map (seen q) = vs ∧
      ∀ e ∈ es, Found A F ml q e ∧ (∀ s sp, e.2 = some (s, sp) → Outcome A (mlPair F ml) q e.1 s sp) ∧
        (e.2 = none → ∀ s sp, ¬ Outcome A (mlPair F ml) q e.1 s sp) := by
  induction h with
  | nil => exact ⟨[], rfl, by simp⟩
  | snoc vs st' st'' r v _ hc ih =>
    obtain ⟨es, h1, h2⟩ := ih
    rcases hCompute_spec hT.textbook.lawful hA.isArgsort hc with ⟨w, hn, hj, -, rfl⟩ | ⟨s, sp, ho, -, rfl⟩
    · refine ⟨es ++ [(r, none)], by rw [List.map_append, h1]; rfl, ?_⟩
      intro e he
      rcases List.mem_append.1 he with he | he
      · exact h2 e he
      · rw [List.mem_singleton.1 he]
        refine ⟨⟨w, hn, fun k hk => ?_⟩, fun s sp h => (by cases h), fun _ s sp ho => ?_⟩
        · rw [← considered_iff, hj] at hk
          cases hk
        · obtain ⟨k, hk, -⟩ := ho.cut
          have := ho.normal
          rw [hn] at this
          rw [← Except.ok.inj this, hj] at hk
          cases hk
    · refine ⟨es ++ [(r, some (s, sp))], by rw [List.map_append, h1]; rfl, ?_⟩
      intro e he
      rcases List.mem_append.1 he with he | he
      · exact h2 e he
      · rw [List.mem_singleton.1 he]
        refine ⟨outcome_best hA ho, fun s' sp' h => ?_, fun h => (by cases h)⟩
        cases h
        exact ho

/-- C46 and C47 in closed form: the optimizer sees, for each vector it evaluates, the negative score of
the best plane along the vector's direction, or of no split if no position is considered.  Afterwards the
stored score is the maximum of all of these and of no split; the stored plane is the one with that score,
of largest clearance among those, and the first such; if none is stored then all planes are worse than no
split, or as good with all rows on the plane. -/
theorem C46_closed (hT : CodeTarget F T ml post) (hA : Euclidean A) (strat : Strategy ℝ ℝ) (budget : Nat)
    (st : HState ℝ ℝ) (h : hSolve A T q strat budget [] (hInit q) = .ok st) :
    ∃ es : List (RawVec ℝ × Option (ℝ × HSplit ℝ)), Follows strat (es.map (seen q)) ∧
      (∀ e ∈ es, Found A F ml q e) ∧ st.evals = es.length ∧
      st.bestScore = (es.filterMap fun e => e.2.map Prod.fst).foldr max q.noSplit ∧
      (st.best = none → ∀ e ∈ es, ∀ s sp, e.2 = some (s, sp) →
        s < q.noSplit ∨ s = q.noSplit ∧ clearance q sp = 0) ∧
      ∀ sp, st.best = some sp → ∃ pre r rest, es = pre ++ (r, some (st.bestScore, sp)) :: rest ∧
        (∀ e ∈ es, ∀ sp', e.2 = some (st.bestScore, sp') → clearance q sp' ≤ clearance q sp) ∧
        ∀ e ∈ pre, ∀ sp', e.2 = some (st.bestScore, sp') → clearance q sp' < clearance q sp := by
  obtain ⟨vs, hr, hf, hse⟩ := hSolve_searched hT.textbook.lawful hA.isArgsort h
  obtain ⟨es, rfl, hes⟩ := runs_found hT hA hr
  have hkeys : (es.map (seen q)).map Prod.fst = es.map Prod.fst := by
    rw [List.map_map]; rfl
  rw [hkeys] at hse
  simp only [clearance_eq]
  refine ⟨es, hf, fun e he => (hes e he).1, by rw [hse.evals, List.length_map], ?_, ?_, ?_⟩
  · apply le_antisymm
    · cases hb : st.best with
      | none =>
        rw [(hse.none hb).1]
        generalize (es.filterMap fun e => e.2.map Prod.fst) = l
        induction l with
        | nil => exact le_rfl
        | cons a l ih => exact ih.trans (le_max_right _ _)
      | some sp =>
        obtain ⟨pre, r, rest, e, ho, -⟩ := hse.some sp hb
        obtain ⟨pre', rest', rfl, rfl, hrest⟩ := List.map_eq_append_iff.1 e
        obtain ⟨a, rest'', rfl, rfl, rfl⟩ := List.map_eq_cons_iff.1 hrest
        obtain ⟨-, h1, h2⟩ := hes a (by simp)
        have ha : a.2 = some (st.bestScore, sp) := by
          cases h0 : a.2 with
          | none => exact absurd ho (h2 h0 _ _)
          | some p =>
            obtain ⟨e1, e2⟩ := outcome_unique ho (h1 p.1 p.2 h0)
            rw [e1, e2]
        have hmem : st.bestScore ∈ ((pre' ++ a :: rest'').filterMap fun e => e.2.map Prod.fst) := by
          rw [List.mem_filterMap]
          exact ⟨a, by simp, by rw [ha]; rfl⟩
        generalize ((pre' ++ a :: rest'').filterMap fun e => e.2.map Prod.fst) = l at hmem
        induction l with
        | nil => cases hmem
        | cons b l ih =>
          rcases List.mem_cons.1 hmem with hm | hm
          · rw [hm]; exact le_max_left _ _
          · exact (ih hm).trans (le_max_right _ _)
    · have hall : ∀ s ∈ (es.filterMap fun e => e.2.map Prod.fst), s ≤ st.bestScore := by
        intro s hs
        obtain ⟨e, he, h0⟩ := List.mem_filterMap.1 hs
        obtain ⟨p, h1, rfl⟩ := Option.map_eq_some_iff.1 h0
        exact (hse.upper e.1 (List.mem_map_of_mem he) p.1 p.2 ((hes e he).2.1 p.1 p.2 h1)).1
      generalize (es.filterMap fun e => e.2.map Prod.fst) = l at hall
      induction l with
      | nil => exact hse.base
      | cons a l ih =>
        exact max_le (hall a (by simp)) (ih fun s hs => hall s (by simp [hs]))
  · intro hb e he s sp h0
    obtain ⟨e1, e2⟩ := hse.none hb
    obtain ⟨u1, u2⟩ := hse.upper e.1 (List.mem_map_of_mem he) s sp ((hes e he).2.1 s sp h0)
    rw [e1] at u1 u2
    rw [e2] at u2
    rcases u1.lt_or_eq with hlt | heq
    · exact .inl hlt
    · exact .inr ⟨heq, le_antisymm (u2 heq) (totalDist_nonneg q sp)⟩
  · intro sp hb
    obtain ⟨pre, r, rest, e, ho, hd, -, hfirst⟩ := hse.some sp hb
    obtain ⟨pre', rest', rfl, rfl, hrest⟩ := List.map_eq_append_iff.1 e
    obtain ⟨a, rest'', rfl, rfl, rfl⟩ := List.map_eq_cons_iff.1 hrest
    obtain ⟨-, h1, h2⟩ := hes a (by simp)
    have ha : a.2 = some (st.bestScore, sp) := by
      cases h0 : a.2 with
      | none => exact absurd ho (h2 h0 _ _)
      | some p =>
        obtain ⟨e1, e2⟩ := outcome_unique ho (h1 p.1 p.2 h0)
        rw [e1, e2]
    refine ⟨pre', a.1, rest'', by rw [← ha], ?_, ?_⟩
    · intro e he sp' h0
      rw [← hd]
      exact (hse.upper e.1 (List.mem_map_of_mem he) _ sp' ((hes e he).2.1 _ _ h0)).2 rfl
    · intro e he sp' h0
      rw [← hd]
      exact hfirst e.1 (List.mem_map_of_mem he) sp' ((hes e (by simp [he])).2.1 _ _ h0)

end

/-! ## Fitted trees -/

section
variable {F : Fns ℝ} {P O : Type} {ml : P → List ℝ → ℝ} {post : P → List ℝ → P}
  {c : HCtx ℝ P ℝ O} {n : Nat} {prior : P} {t : HNode ℝ ℝ P}

theorem hPrior_root (hT : CodeTarget F c.T ml post) : c.T.getPrior (some prior) n c.nDim = prior :=
  hT.textbook.prior _ _ _

theorem hRowsAt_ne_nil (hT : CodeTarget F c.T ml post) (hA : Euclidean c.A) (hn : 0 < n)
    (h : hFitRoot c (some prior) n = .ok t) {addr : List Bool} {u : HNode ℝ ℝ P}
    (hu : nodeAt t addr = some u) : hRowsAt c.X t n addr ≠ [] := by
  rw [hRowsAt_eq]
  rcases List.eq_nil_or_concat addr with rfl | ⟨as, b, rfl⟩
  · unfold hRouted
    rw [List.filter_eq_self.2 (fun i _ => by cases t <;> rfl)]
    intro h0
    have := congrArg List.length h0
    simp at this
    omega
  · rw [List.concat_eq_append] at hu ⊢
    have hpar : ∃ v, nodeAt t as = some v ∧ v.isLeaf = false := by
      clear h
      induction as generalizing t with
      | nil =>
        refine ⟨t, nodeAt_nil t, ?_⟩
        cases t with
        | leaf i => cases b <;> cases hu
        | split => rfl
      | cons a as ih =>
        cases t with
        | leaf i => cases a <;> cases hu
        | split i sp l s c1 c2 =>
          cases a with
          | false => exact ih (t := c1) hu
          | true => exact ih (t := c2) hu
    obtain ⟨v, hv, hl⟩ := hpar
    have h3 := (C49_rows_routed_back hT.textbook.lawful hA.isArgsort hT.deltaZero h as v hv).2.2 hl
    cases b
    · exact h3.1
    · exact h3.2.1

/-- C49 in closed form: `n_data_` is the number of training rows that reach the node when every row goes
to child 1 if strictly below the plane and to child 2 otherwise; the posterior is the textbook update of
the root's prior with their targets; no node is without rows. -/
theorem C49_closed (hT : CodeTarget F c.T ml post) (hA : Euclidean c.A) (hn : 0 < n)
    (h : hFitRoot c (some prior) n = .ok t) (addr : List Bool) (u : HNode ℝ ℝ P)
    (hu : nodeAt t addr = some u) :
    u.info.nData = (hRowsAt c.X t n addr).length ∧ 0 < u.info.nData ∧
    u.info.posterior = post prior ((hRowsAt c.X t n addr).map c.y) := by
  obtain ⟨h1, h2, -⟩ := C49_rows_routed_back hT.textbook.lawful hA.isArgsort hT.deltaZero h addr u hu
  have hne := hRowsAt_ne_nil hT hA hn h hu
  rw [hPrior_root hT] at h2
  rw [← hRowsAt_eq] at h1 h2
  refine ⟨h1, by rw [h1]; exact List.length_pos_of_ne_nil hne, ?_⟩
  rw [h2]
  exact hT.textbook.post _ _ (by simpa using hne)

/-- The search problem at a node: its rows, level, prior and the parameters of the tree. -/
noncomputable def searchAt (c : HCtx ℝ P ℝ O) (F : Fns ℝ) (ml : P → List ℝ → ℝ) (prior : P) (lv : Nat) (R : List Nat) :
    HProb ℝ P ℝ where
  X := c.X
  y := c.y
  nDim := c.nDim
  rows := R
  prior := prior
  partitionPrior := c.hp.partitionPrior
  level := lv
  noSplit := stayScore F ml c.hp c.y prior lv R
  hypercube := c.opt.hypercube
  prec := c.hp.splitPrecision

/-- C48 and C50 in closed form: every split stores the score of not splitting and the best plane along a
direction the optimizer evaluated on the rows of the node; its normal has length 1, its origin is halfway
between two rows of the node, and the score is at least that of not splitting. -/
theorem C50_closed (hT : CodeTarget F c.T ml post) (hA : Euclidean c.A) (hn : 0 < n)
    (h : hFitRoot c (some prior) n = .ok t)
    (addr : List Bool) (i : Info ℝ P) (sp : HSplit ℝ) (l b : ℝ) (c1 c2 : HNode ℝ ℝ P)
    (hu : nodeAt t addr = some (.split i sp l b c1 c2)) :
    (sp.normal.map fun a => a ^ 2).sum = 1 ∧ sp.normal.length = c.nDim ∧ sp.origin.length = c.nDim ∧
    l = stayScore F ml c.hp c.y prior addr.length (hRowsAt c.X t n addr) ∧ l ≤ b ∧
    BestAlong F ml (searchAt c F ml prior addr.length (hRowsAt c.X t n addr)) b sp ∧
    ∃ r vs v, Follows (c.opt.solve (searchAt c F ml prior addr.length (hRowsAt c.X t n addr))) vs ∧ (r, v) ∈ vs ∧
      hNormal c.A (searchAt c F ml prior addr.length (hRowsAt c.X t n addr)) r = .ok sp.normal := by
  obtain ⟨u1, u2, u3⟩ := C48_tree hT.textbook.lawful hA.isArgsort hA.square hT.deltaZero n (some prior) t h addr i sp
    l b c1 c2 hu
  have hne := hRowsAt_ne_nil hT hA hn h hu
  obtain ⟨st, vs, hb, e1, e2, hf, hse, -, -⟩ := hFit_split hT.textbook.lawful hA.isArgsort hT.deltaZero h hu
  rw [hPrior_root hT, ← hRowsAt_eq] at e2 hf hse
  have hl : l = stayScore F ml c.hp c.y prior addr.length (hRowsAt c.X t n addr) := by
    rw [e2]
    exact hT.textbook.stay _ _ _ _ (by simpa using hne)
  have hq : hProblem c prior addr.length (hRowsAt c.X t n addr) =
      searchAt c F ml prior addr.length (hRowsAt c.X t n addr) := by
    unfold hProblem searchAt
    congr 1
    exact e2.symm.trans hl
  rw [hq] at hf hse
  obtain ⟨pre, r, rest, hrs, ho, -⟩ := hse.some sp hb
  obtain ⟨hnrm, hbest⟩ := outcome_best hA ho
  have hr : r ∈ vs.map Prod.fst := by rw [hrs]; simp
  obtain ⟨p, hp, rfl⟩ := List.mem_map.1 hr
  refine ⟨?_, u1, u2, hl, ?_, by rw [← e1]; exact hbest, p.1, vs, p.2, hf, hp, hnrm⟩
  · rw [← u3]
    congr 1
    exact List.map_congr_left fun a _ => pow_two a
  · rw [hl, ← e1]
    exact hse.base

/-- C50 in closed form, partial: if no two rows of the node have the same coordinate along the normal, the
stored score is that of the two groups of rows the plane makes. -/
theorem C50_closed_partial (hT : CodeTarget F c.T ml post) (hA : Euclidean c.A)
    (h : hFitRoot c (some prior) n = .ok t)
    (addr : List Bool) (i : Info ℝ P) (sp : HSplit ℝ) (l b : ℝ) (c1 c2 : HNode ℝ ℝ P)
    (hu : nodeAt t addr = some (.split i sp l b c1 c2))
    (hdis : (hRowsAt c.X t n addr).Pairwise fun i j => along sp.normal (c.X i) ≠ along sp.normal (c.X j)) :
    b = F.log (c.hp.partitionPrior ^ (addr.length + 1) /
          ((consideredCount c.hp.splitPrecision c.X (hRowsAt c.X t n addr) sp.normal : ℝ) * (c.nDim : ℝ)))
      + ml prior (((hRowsAt c.X t n addr).filter fun i => planeSide sp.normal sp.origin (c.X i) < 0).map c.y)
      + ml prior (((hRowsAt c.X t n addr).filter fun i => 0 ≤ planeSide sp.normal sp.origin (c.X i)).map c.y) := by
  rw [hRowsAt_eq] at hdis ⊢
  have := C50_score_realised_partial hT.textbook.lawful hA.isArgsort hT.deltaZero h addr i sp l b c1 c2 hu hdis
  rw [hPrior_root hT, consideredCount_eq] at this
  rw [this]
  obtain ⟨e1, e2⟩ := hRouted_snoc (c := c) (n := n) hu
  rw [e1, e2]
  simp only [planeSide_eq]
  rfl

/-- C51 in closed form: below the root, every node keeps the root's prior whatever `delta` is. -/
theorem C51_closed (hT : CodeTarget F c.T ml post) (hA : Euclidean c.A)
    (h : hFitRoot c (some prior) n = .ok t) (addr : List Bool) (u : HNode ℝ ℝ P)
    (hu : nodeAt t addr = some u) (hne : addr ≠ []) : u.info.prior = some prior := by
  rw [C51_child_prior hT.textbook.lawful hA.isArgsort hT.deltaZero n (some prior) t h addr hne u hu, hPrior_root hT]

/-- C52 in closed form, partial: if some split gains, entry `d` of `feature_importance()` is the share of
dimension `d` in the sum of gain times `|normal[d]|`. -/
theorem C52_closed_partial (hT : CodeTarget F c.T ml post) (hA : Euclidean c.A)
    (h : hFitRoot c (some prior) n = .ok t) (hpos : ∃ s ∈ splits t, s.2.1 < s.2.2) :
    ∃ w : List ℝ, hyperFeatureImportance c.nDim t = w.map some ∧ w.length = c.nDim ∧ w.sum = 1 ∧
      (∀ v ∈ w, 0 ≤ v) ∧ ∃ total, 0 < total ∧ ∀ d < c.nDim,
        w[d]? = some (((splits t).map fun s => (s.2.2 - s.2.1) * |s.1.normal.getD d 0|).sum / total) :=
  C52_importance_partial hT.textbook.lawful hA.isArgsort hA.square hT.deltaZero n (some prior) t h hpos

end

/-! ## The hypotheses are satisfiable -/

theorem realArith_euclidean : Euclidean realArith :=
  ⟨fun _ => congrArg (fun l : List ℝ => Real.sqrt l.sum) (List.map_congr_left fun a _ => (pow_two a).symm), rfl,
    realSort_sorts⟩

theorem exactArith_euclidean : Euclidean (exactArith (insArgsort (exactOps ℝ).le)) :=
  ⟨fun _ => congrArg (fun l : List ℝ => Real.sqrt l.sum) (List.map_congr_left fun a _ => (pow_two a).symm), rfl,
    realSort_sorts⟩

/-- C48 with the library functions as they are: the normal that `compute` uses for a vector proposed by an optimizer is
the unit vector in its direction, and for a point of the cube its image on the half sphere, whose first coordinate is
not negative. -/
theorem C48_exact {P : Type} (q : HProb ℝ P ℝ) (w : List ℝ) :
    (q.hypercube = false → ∀ v, hNormal (exactArith (insArgsort (exactOps ℝ).le)) q ⟨false, v⟩ = .ok w ↔
      w.length = q.nDim ∧ IsDirection v w) ∧
    (q.hypercube = true → ∀ r, (hNormal (exactArith (insArgsort (exactOps ℝ).le)) q r = .ok w ↔
      InCube r.v ∧ r.v.length + 1 = q.nDim ∧ hypersphere r.v true = .ok w) ∧
      (hNormal (exactArith (insArgsort (exactOps ℝ).le)) q r = .ok w → ∀ a, w[0]? = some a → 0 ≤ a)) := by
  refine ⟨fun h v => C48_closed_direction exactArith_euclidean h v w, fun h r => ?_⟩
  have e := C48_closed_cube exactArith_euclidean (fun _ => rfl) h r w
  refine ⟨e, fun hn a ha => ?_⟩
  obtain ⟨h1, h2, h3⟩ := e.1 hn
  have hl : 1 ≤ r.v.length := by
    rcases Nat.eq_zero_or_pos r.v.length with h0 | h0
    · rw [List.length_eq_zero_iff.1 h0, C55_no_dimension.1] at h3
      cases h3
    · exact h0
  obtain ⟨x, hx, -, -, hfirst⟩ := C55_on_sphere r.v true hl h1
  rw [hx] at h3
  injection h3 with h3
  subst h3
  exact hfirst rfl a ha

/-- The classification fit with two oblique splits: the rows of the inner node, and its posterior. -/
example : ∃ u, nodeAt (castHTree (hSampleHp 0) (hSampleTree 0)) [true] = some u ∧ u.isLeaf = false ∧
    4 = (hRowsAt (hSampleReal 0).X (castHTree (hSampleHp 0) (hSampleTree 0)) 9 [true]).length ∧
    u.info.posterior = dirichletPosterior (castL [1, 1])
      ((hRowsAt (hSampleReal 0).X (castHTree (hSampleHp 0) (hSampleTree 0)) 9 [true]).map (hSampleReal 0).y) := by
  have h := C49_closed (F := realFns) (c := hSampleReal 0) .classification realArith_euclidean (by decide)
    hSampleReal_fit [true] _ rfl
  exact ⟨_, rfl, rfl, h.1, h.2.2⟩

example : ∃ i sp l b c1 c2, castHTree (hSampleHp 0) (hSampleTree 0) = .split i sp l b c1 c2 ∧
    (sp.normal.map fun a => a ^ 2).sum = 1 ∧
    BestAlong realFns (dirichletMarginal realFns) (searchAt (hSampleReal 0) realFns (dirichletMarginal realFns)
      (castL [1, 1]) 0 (hRowsAt (hSampleReal 0).X (castHTree (hSampleHp 0) (hSampleTree 0)) 9 [])) b sp := by
  have h := C50_closed (F := realFns) (c := hSampleReal 0) .classification realArith_euclidean (by decide)
    hSampleReal_fit [] _ _ _ _ _ _ rfl
  exact ⟨_, _, _, _, _, _, rfl, h.1, h.2.2.2.2.2.1⟩

/-- A regression fit with random normals exists for any data, and the root has the textbook posterior. -/
example (X : Nat → Nat → ℝ) (y : Nat → ℝ) (hp : Hyper ℝ) (p : NG ℝ) : ∃ t, ∃ c : HCtx ℝ (NG ℝ) ℝ ℝ, c.y = y ∧
    c.X = X ∧ hFitRoot c (some p) 9 = .ok t ∧ t.info.nData = 9 ∧
    t.info.posterior = Spec.ngPosterior p ((List.range 9).map y) := by
  let c : HCtx ℝ (NG ℝ) ℝ ℝ := ⟨realArith, regTarget realFns, hp, randomOptimizer (counterRng ℝ) 7, 0, X, y, 2⟩
  obtain ⟨B, t, ht⟩ := C67_random (pair := regPair realFns) c (some p) 9 (reg_lawful realFns) realSort_spec
    Nat.two_pos (counterRng ℝ) counterRng_lawful 7
  have h := C49_closed (F := realFns) (c := withOpt c (randomOptimizer (counterRng ℝ) 7) B) .regression
    realArith_euclidean (by decide) (ht B le_rfl) [] t (nodeAt_nil t)
  have e : hRowsAt X t 9 [] = List.range 9 := by
    unfold hRowsAt
    exact List.filter_eq_self.2 fun i _ => by cases t <;> rfl
  have e' : hRowsAt (withOpt c (randomOptimizer (counterRng ℝ) 7) B).X t 9 [] = List.range 9 := e
  rw [e'] at h
  exact ⟨t, _, rfl, rfl, ht B le_rfl, h.1, h.2.2⟩

/-- The direction of a vector with an infinite and a NaN entry is the first axis. -/
example (q : HProb ℝ (List ℝ) ℝ) (h : q.nDim = 2) (hc : q.hypercube = false) :
    hNormal realArith q ⟨false, [.pinf, .nan]⟩ = .ok [1, 0] := by
  rw [C48_closed_direction realArith_euclidean hc]
  refine ⟨h.symm, rfl, by simp, .inl ⟨2 ^ 1024 - 2 ^ 971, ?_, by simp [finite]⟩⟩
  have : (2 : ℝ) ^ 971 < 2 ^ 1024 := pow_lt_pow_right₀ (by norm_num) (by norm_num)
  exact sub_pos.2 this

/-- The middle of the unit interval is mapped to the first axis. -/
example (q : HProb ℝ (List ℝ) ℝ) (h : q.nDim = 2) (hc : q.hypercube = true) :
    ∃ w, hNormal (exactArith (insArgsort (exactOps ℝ).le)) q ⟨false, [.fin (1/2)]⟩ = .ok w ∧
      hypersphere [.fin (1/2)] true = .ok w := by
  have hcube : InCube ([.fin (1/2)] : List (XF ℝ)) := by
    intro x hx
    rw [List.mem_singleton.1 hx]
    exact ⟨1/2, rfl, by norm_num, by norm_num⟩
  obtain ⟨w, hw, -⟩ := C55_on_sphere _ true (by simp) hcube
  exact ⟨w, (C48_closed_cube exactArith_euclidean (fun _ => rfl) hc _ w).2
    ⟨hcube, by simp [h], hw⟩, hw⟩

end BT
