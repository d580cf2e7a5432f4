import Verif.Spec.Trim
import Verif.Lemmas.Sim
import Verif.Lemmas.Walk

/-!
# Greedy trees of two training situations, one of which splits more readily
-/

namespace BT
open Spec

set_option linter.unusedSectionVars false

section
variable {V K P S O : Type}

/-- `CutBack` by recursion. -/
inductive Trimmed {Sp : Type} (same : Sp → Sp → Prop) : Node Sp S K P → Node Sp S K P → Prop
  | leaf (i : Info K P) (t' : Node Sp S K P) (h : SameStats i t'.info) : Trimmed same (.leaf i) t'
  | split (i i' : Info K P) (sp sp' : Sp) (l l' b b' : S) (c1 c2 c1' c2' : Node Sp S K P)
      (h : SameStats i i') (hsp : same sp sp') (h1 : Trimmed same c1 c1') (h2 : Trimmed same c2 c2') :
      Trimmed same (.split i sp l b c1 c2) (.split i' sp' l' b' c1' c2')

section
variable {Sp : Type} {same : Sp → Sp → Prop} {t t' : Node Sp S K P}

theorem Trimmed.cutBack (h : Trimmed same t t') : CutBack same t t' := by
  induction h with
  | leaf i t' h =>
    intro addr u hu
    cases addr with
    | cons b bs => simp [nodeAt] at hu
    | nil =>
      simp only [nodeAt, Option.some.injEq] at hu
      subst hu
      exact ⟨t', nodeAt_nil t', h, fun _ _ _ _ _ _ e => by cases e⟩
  | split i i' sp sp' l l' b b' c1 c2 c1' c2' h hsp h1 h2 ih1 ih2 =>
    intro addr u hu
    cases addr with
    | nil =>
      simp only [nodeAt, Option.some.injEq] at hu
      subst hu
      refine ⟨_, nodeAt_nil _, h, ?_⟩
      rintro _ _ _ _ _ _ ⟨⟩
      exact ⟨_, _, _, _, _, _, rfl, hsp⟩
    | cons q bs =>
      cases q with
      | false =>
        simp only [nodeAt, Bool.false_eq_true, if_false] at hu ⊢
        exact ih1 bs u hu
      | true =>
        simp only [nodeAt, if_true] at hu ⊢
        exact ih2 bs u hu

theorem Trimmed.leaves (h : Trimmed same t t') : leaves t ≤ leaves t' := by
  induction h with
  | leaf i t' h =>
    clear h
    induction t' with
    | leaf => exact le_refl _
    | split _ _ _ _ c1 c2 ih1 ih2 => simp only [Spec.leaves] at *; omega
  | split => simp only [Spec.leaves] at *; omega

theorem Trimmed.height (h : Trimmed same t t') : height t ≤ height t' := by
  induction h with
  | leaf i t' h => simp [Spec.height]
  | split => simp only [Spec.height] at *; omega

/-- Pruning keeps the relation. -/
theorem Trimmed.merge {O : Type} [DecidableEq O] (pred : P → O) (h : Trimmed same t t') :
    Trimmed same (merge pred t) (merge pred t') := by
  induction h with
  | leaf i t' h => exact .leaf i _ (by rw [merge_info]; exact h)
  | split i i' sp sp' l l' b b' c1 c2 c1' c2' h hsp h1 h2 ih1 ih2 =>
    rw [Spec.merge, Spec.merge]
    generalize Spec.merge pred c1 = m1 at ih1 ⊢
    generalize Spec.merge pred c2 = m2 at ih2 ⊢
    generalize Spec.merge pred c1' = m1' at ih1 ⊢
    generalize Spec.merge pred c2' = m2' at ih2 ⊢
    cases ih1 with
    | leaf j1 m1' e1 =>
      cases ih2 with
      | leaf j2 m2' e2 =>
        dsimp only
        split
        · next hp =>
          refine .leaf _ _ ?_
          cases m1' with
          | split => exact h
          | leaf k1 =>
            cases m2' with
            | split => exact h
            | leaf k2 =>
              dsimp only
              split
              · exact h
              · exact h
        · next hp =>
          cases m1' with
          | split => exact .split _ _ _ _ _ _ _ _ _ _ _ _ h hsp (.leaf _ _ e1) (.leaf _ _ e2)
          | leaf k1 =>
            cases m2' with
            | split => exact .split _ _ _ _ _ _ _ _ _ _ _ _ h hsp (.leaf _ _ e1) (.leaf _ _ e2)
            | leaf k2 =>
              dsimp only
              have q1 : j1.posterior = k1.posterior := e1.2.2.2
              have q2 : j2.posterior = k2.posterior := e2.2.2.2
              rw [if_neg (by rw [← q1, ← q2]; exact hp)]
              exact .split _ _ _ _ _ _ _ _ _ _ _ _ h hsp (.leaf _ _ e1) (.leaf _ _ e2)
      | split _ _ _ _ _ _ _ _ _ _ _ _ e es f1 f2 =>
        cases m1' <;> exact .split _ _ _ _ _ _ _ _ _ _ _ _ h hsp (.leaf _ _ e1) (.split _ _ _ _ _ _ _ _ _ _ _ _ e es f1 f2)
    | split _ _ _ _ _ _ _ _ _ _ _ _ e es f1 f2 =>
      exact .split _ _ _ _ _ _ _ _ _ _ _ _ h hsp (.split _ _ _ _ _ _ _ _ _ _ _ _ e es f1 f2) ih2

end

/-- `c'` splits more readily than `c`: the features of `c'` are features of `c`, the other features of `c` are
redundant, cuts are ordered alike, they gain at least as much in `c'`, and staying is worth at most as much. -/
structure Readier [LinearOrder S] [DecidableEq K] [Zero K] [One K] (c c' : Ctx V K P S O) (n : Nat)
    (ι : Nat → Nat) : Prop where
  o : c'.o = c.o
  T : c'.T = c.T
  precision : c'.hp.splitPrecision = c.hp.splitPrecision
  delta : c'.hp.delta = c.hp.delta
  y : c'.y = c.y
  mono : ∀ d d', d < d' → d' < c'.nDim → ι d < ι d'
  dims : ∀ d < c'.nDim, ι d < c.nDim
  X : ∀ i < n, ∀ d < c'.nDim, c'.X i d = c.X i (ι d)
  names : ∀ d < c'.nDim, c'.names[d]? = c.names[ι d]?
  others : ∀ d < c.nDim, (∀ d' < c'.nDim, ι d' ≠ d) → Redundant c.X n d
  stay : ∀ lv ys p, ys ≠ [] → c'.T.logNoSplit c'.hp.partitionPrior lv ys p ≤ c.T.logNoSplit c.hp.partitionPrior lv ys p
  gain : ∀ lv p ns a b, 0 < ns →
    c.pair c.hp.partitionPrior lv p c.nDim ns a b ≤ c'.pair c'.hp.partitionPrior lv p c'.nDim ns a b
  order : ∀ lv p ns a b ns2 a2 b2, 0 < ns → 0 < ns2 →
    (c'.pair c'.hp.partitionPrior lv p c'.nDim ns a b < c'.pair c'.hp.partitionPrior lv p c'.nDim ns2 a2 b2 ↔
      c.pair c.hp.partitionPrior lv p c.nDim ns a b < c.pair c.hp.partitionPrior lv p c.nDim ns2 a2 b2)

section
variable [LinearOrder S] [DecidableEq K] [Zero K] [One K] {ok : V → Prop} {c c' : Ctx V K P S O} {n : Nat}
  {ι : Nat → Nat}

theorem cuts_congr {o : XOps V K} {prec : K} {X X' : Nat → Nat → V} {R : List Nat} {d d' : Nat}
    (h : ∀ i ∈ R, X' i d' = X i d) : cuts o prec X' R d' = cuts o prec X R d := by
  unfold cuts column
  rw [List.map_congr_left h]

theorem score_congr {c : Ctx V K P S O} {pa : Option P} {lv : Nat} {R : List Nat} {d d' : Nat} {cut : V × V}
    (h : ∀ i ∈ R, c.X i d' = c.X i d) : c.score pa lv R d' cut = c.score pa lv R d cut := by
  unfold Ctx.score
  rw [cuts_congr h, List.filter_congr (fun i hi => by rw [h i hi] : ∀ i ∈ R, c.o.le (c.X i d') cut.1 = c.o.le (c.X i d) cut.1),
    List.filter_congr (fun i hi => by rw [h i hi] : ∀ i ∈ R, (!c.o.le (c.X i d') cut.1) = !c.o.le (c.X i d) cut.1)]

theorem Readier.bestCut (hr : Readier c c' n ι) (ho : LawfulOps c.o ok c.hp.splitPrecision)
    (hokX : ∀ i < n, ∀ d < c.nDim, ok (c.X i d))
    {pa : Option P} {lv : Nat} {R : List Nat} {d : Nat} {cut : V × V} (hR : ∀ i ∈ R, i < n) (hne : R ≠ [])
    (hpr : c'.prior pa R = c.prior pa R) (h : BestCut c pa lv R d cut) :
    ∃ d' < c'.nDim, ι d' = d ∧ BestCut c' pa lv R d' cut := by
  have hys : ∀ A, c'.ys A = c.ys A := fun A => by unfold Ctx.ys; rw [hr.y]
  have hcuts : ∀ d' < c'.nDim, cuts c'.o c'.hp.splitPrecision c'.X R d' = cuts c.o c.hp.splitPrecision c.X R (ι d') := by
    intro d' hd'
    rw [hr.o, hr.precision]
    exact cuts_congr fun i hi => hr.X i (hR i hi) d' hd'
  have hsc' : ∀ d' < c'.nDim, ∀ cut', c'.score pa lv R d' cut' =
      c'.pair c'.hp.partitionPrior lv (c.prior pa R) c'.nDim (cuts c.o c.hp.splitPrecision c.X R (ι d')).length
        (c.ys (R.filter fun i => c.o.le (c.X i (ι d')) cut'.1))
        (c.ys (R.filter fun i => !c.o.le (c.X i (ι d')) cut'.1)) := by
    intro d' hd' cut'
    unfold Ctx.score
    rw [hpr, hcuts d' hd', hys, hys, hr.o]
    rw [List.filter_congr (fun i hi => by rw [hr.X i (hR i hi) d' hd'] :
        ∀ i ∈ R, c.o.le (c'.X i d') cut'.1 = c.o.le (c.X i (ι d')) cut'.1),
      List.filter_congr (fun i hi => by rw [hr.X i (hR i hi) d' hd'] :
        ∀ i ∈ R, (!c.o.le (c'.X i d') cut'.1) = !c.o.le (c.X i (ι d')) cut'.1)]
  have hlt : ∀ d1 < c'.nDim, ∀ d2 < c'.nDim, ∀ cut1 ∈ cuts c.o c.hp.splitPrecision c.X R (ι d1),
      ∀ cut2 ∈ cuts c.o c.hp.splitPrecision c.X R (ι d2),
      (c'.score pa lv R d1 cut1 < c'.score pa lv R d2 cut2 ↔
        c.score pa lv R (ι d1) cut1 < c.score pa lv R (ι d2) cut2) := by
    intro d1 h1 d2 h2 cut1 hc1 cut2 hc2
    rw [hsc' d1 h1, hsc' d2 h2]
    exact hr.order _ _ _ _ _ _ _ _ (List.length_pos_of_mem hc1) (List.length_pos_of_mem hc2)
  -- the chosen feature is one of `c'`
  have hd' : ∃ d' < c'.nDim, ι d' = d := by
    by_contra hno
    have hno' : ∀ d' < c'.nDim, ι d' ≠ d := fun d' h1 h2 => hno ⟨d', h1, h2⟩
    rcases hr.others d h.hd hno' with hc | ⟨d0, hd0, hc⟩
    · obtain ⟨⟨i, hi, ei⟩, ⟨j, hj, ej⟩, -, -, hle, hnle, -⟩ :=
        cut_values ho (fun i hi => hokX i (hR i hi) d h.hd) h.hcut
      rw [← ei, ← ej, hc i (hR i hi) j (hR j hj)] at hle hnle
      rw [hle] at hnle; cases hnle
    · have hs := h.hfirstDim d0 hd0 cut (by
        rw [← cuts_congr fun i hi => hc i (hR i hi)]; exact h.hcut)
      rw [score_congr (d' := d) (d := d0) fun i hi => hc i (hR i hi)] at hs
      exact lt_irrefl _ hs
  obtain ⟨d', hd', rfl⟩ := hd'
  refine ⟨d', hd', rfl, ⟨hd', by rw [hcuts d' hd']; exact h.hcut, ?_, ?_, ?_, ?_⟩⟩
  · have h1 : c'.noSplit pa lv R ≤ c.noSplit pa lv R := by
      unfold Ctx.noSplit
      rw [hpr, hys]
      exact hr.stay _ _ _ fun e => hne (List.map_eq_nil_iff.1 e)
    have h2 : c.score pa lv R (ι d') cut ≤ c'.score pa lv R d' cut := by
      rw [hsc' d' hd']
      exact hr.gain _ _ _ _ _ (List.length_pos_of_mem h.hcut)
    exact lt_of_le_of_lt h1 (lt_of_lt_of_le h.hgain h2)
  · intro d2 hd2 cut2 hcut2
    rw [hcuts d2 hd2] at hcut2
    rw [← not_lt, hlt d' hd' d2 hd2 _ h.hcut _ hcut2, not_lt]
    exact h.hmax _ (hr.dims d2 hd2) cut2 hcut2
  · intro d2 hd2 cut2 hcut2
    have hd2' : d2 < c'.nDim := lt_trans hd2 hd'
    rw [hcuts d2 hd2'] at hcut2
    rw [hlt d2 hd2' d' hd' _ hcut2 _ h.hcut]
    exact h.hfirstDim _ (hr.mono d2 d' hd2 hd') cut2 hcut2
  · intro cut2 hcut2 hle
    rw [hcuts d' hd'] at hcut2
    rw [hlt d' hd' d' hd' _ hcut2 _ h.hcut]
    rw [hr.o] at hle
    exact h.hfirstCut cut2 hcut2 hle

theorem bestCut_unique (ho : LawfulOps c.o ok c.hp.splitPrecision) {pa : Option P} {lv : Nat} {R : List Nat}
    (hok : ∀ i ∈ R, ∀ d < c.nDim, ok (c.X i d)) {d d' : Nat} {cut cut' : V × V}
    (h : BestCut c pa lv R d cut) (h' : BestCut c pa lv R d' cut') : d = d' ∧ cut = cut' := by
  have hd : d = d' := by
    rcases Nat.lt_trichotomy d d' with hlt | heq | hgt
    · exact absurd (h'.hfirstDim d hlt cut h.hcut) (not_lt.2 (h.hmax d' h'.hd cut' h'.hcut))
    · exact heq
    · exact absurd (h.hfirstDim d' hgt cut' h'.hcut) (not_lt.2 (h'.hmax d h.hd cut h.hcut))
  subst hd
  have hokd : ∀ i ∈ R, ok (c.X i d) := fun i hi => hok i hi d h.hd
  obtain ⟨L, hL⟩ := exists_sortedRows ho hokd
  have o1 := cut_ok ho hokd hL h.hcut
  have o2 := cut_ok ho hokd hL h'.hcut
  refine ⟨rfl, cut_ext ho hokd hL h.hcut h'.hcut ?_⟩
  apply ho.le_antisymm _ _ o1.1 o2.1
  · by_contra hc
    have := h.hfirstCut cut' h'.hcut (by simpa using hc)
    exact absurd this (not_lt.2 (h'.hmax d h.hd cut h.hcut))
  · by_contra hc
    have := h'.hfirstCut cut h.hcut (by simpa using hc)
    exact absurd this (not_lt.2 (h.hmax d h.hd cut' h'.hcut))

/-- The greedy tree of the situation that splits less readily is the other one cut back. -/
theorem Built.trimmed (hr : Readier c c' n ι) (ho : LawfulOps c.o ok c.hp.splitPrecision)
    (hT : LawfulTarget c.T c.pair) (hokX : ∀ i < n, ∀ d < c.nDim, ok (c.X i d))
    {par pa : Option P} {lv : Nat} {R : List Nat} {t t' : PNode V S K P}
    (hb : Built c par pa lv R t) (hb' : Built c' par pa lv R t') (hR : ∀ i ∈ R, i < n) (hne : R ≠ [])
    (hpr : c'.prior pa R = c.prior pa R) : Trimmed (SameCut ι) t t' := by
  have hys : ∀ A, c'.ys A = c.ys A := fun A => by unfold Ctx.ys; rw [hr.y]
  have hdv : ∀ A, c'.Divisible A ↔ c.Divisible A := fun A => by unfold Ctx.Divisible; rw [hr.y]
  have hfi : ∀ (pa : Option P) (lv : Nat) (R : List Nat), c'.prior pa R = c.prior pa R →
      SameStats (c.fitInfo pa lv R) (c'.fitInfo pa lv R) := by
    intro pa lv R hp
    refine ⟨rfl, rfl, rfl, ?_⟩
    show c.T.posterior (c.ys R) (c.prior pa R) 1 = c'.T.posterior (c'.ys R) (c'.prior pa R) 1
    rw [hp, hys, hr.T]
  induction hb generalizing t' with
  | direct par pa lv R hsmall =>
    refine .leaf _ _ ?_
    cases hb' with
    | direct _ _ _ _ h =>
      refine ⟨rfl, rfl, rfl, ?_⟩
      show c.T.posterior (c.ys R) par 1 = c'.T.posterior (c'.ys R) par 1
      rw [hys, hr.T]
    | stay _ _ _ _ h => exact absurd ((hdv R).1 (h rfl)) hsmall
    | split _ _ _ _ _ _ _ _ _ h => exact absurd ((hdv R).1 (h rfl)) hsmall
  | stay par pa lv R hd hno =>
    refine .leaf _ _ ?_
    cases hb' with
    | direct _ _ _ _ h => exact absurd ((hdv R).2 (hd rfl)) h
    | stay _ _ _ _ h => exact hfi pa lv R hpr
    | split _ _ _ _ _ _ _ _ _ h => exact hfi pa lv R hpr
  | split par pa lv R d cut name c1 c2 hd hdd hcut hgain hmax hfd hfc hname h1 h2 ih1 ih2 =>
    obtain ⟨d', hd', rfl, hB⟩ := hr.bestCut ho hokX hR hne hpr ⟨hdd, hcut, hgain, hmax, hfd, hfc⟩
    have hps : ∀ (p : P) (A : List Nat), c.prior (some p) A = p := fun p A => hT.getPrior_some _ _ _
    have hps' : ∀ (p : P) (A : List Nat), c'.prior (some p) A = p := fun p A => by
      unfold Ctx.prior; rw [hr.T]; exact hT.getPrior_some _ _ _
    have ho' : LawfulOps c'.o ok c'.hp.splitPrecision := by rw [hr.o, hr.precision]; exact ho
    cases hb' with
    | direct _ _ _ _ h => exact absurd ((hdv R).2 (hd rfl)) h
    | stay _ _ _ _ _ h => exact absurd hB.hgain (not_lt.2 (h d' hd' cut hB.hcut))
    | split _ _ _ _ e cut' name' c1' c2' _ g1 g2 g3 g4 g5 g6 g7 b1 b2 =>
      obtain ⟨rfl, rfl⟩ := bestCut_unique ho' (fun i hi d hd => by
        rw [hr.X i (hR i hi) d hd]; exact hokX i (hR i hi) _ (hr.dims d hd)) hB ⟨g1, g2, g3, g4, g5, g6⟩
      have hokd : ∀ i ∈ R, ok (c.X i (ι d')) := fun i hi => hokX i (hR i hi) _ hdd
      obtain ⟨⟨i, hi, ei⟩, ⟨j, hj, ej⟩, ok1, ok2, hle, hnle, hg, -⟩ := cut_values ho hokd hcut
      have hn1 : c.rows1 R (ι d') (c.o.mid cut.1 cut.2) ≠ [] := by
        refine List.ne_nil_of_mem (a := i) (List.mem_filter.2 ⟨hi, ?_⟩)
        rw [ei]
        exact (ho.below _ _ _ ok1 ok2 ok1 hle hg ((ho.le_total _ _ ok1 ok1).elim id id)).1
      have hn2 : c.rows2 R (ι d') (c.o.mid cut.1 cut.2) ≠ [] := by
        refine List.ne_nil_of_mem (a := j) (List.mem_filter.2 ⟨hj, ?_⟩)
        rw [ej]
        exact (ho.above _ _ _ ok1 ok2 ok2 hle hg ((ho.le_total _ _ ok2 ok2).elim id id)).2
      have hm : c'.o.mid cut.1 cut.2 = c.o.mid cut.1 cut.2 := by rw [hr.o]
      have hr1 : c'.rows1 R d' (c'.o.mid cut.1 cut.2) = c.rows1 R (ι d') (c.o.mid cut.1 cut.2) := by
        unfold Ctx.rows1
        rw [hr.o]
        exact List.filter_congr fun k hk => by rw [hr.X k (hR k hk) d' hd']
      have hr2 : c'.rows2 R d' (c'.o.mid cut.1 cut.2) = c.rows2 R (ι d') (c.o.mid cut.1 cut.2) := by
        unfold Ctx.rows2
        rw [hr.o]
        exact List.filter_congr fun k hk => by rw [hr.X k (hR k hk) d' hd']
      have hcp : ∀ A, c'.childPrior (c'.prior pa R) A = c.childPrior (c.prior pa R) A := by
        intro A
        unfold Ctx.childPrior
        rw [hr.delta, hr.T, hpr, hys]
      rw [hr1, hcp, hpr] at b1
      rw [hr2, hcp, hpr] at b2
      have hnm : name = name' := by
        rw [hr.names d' hd', hname] at g7
        exact Option.some.inj g7
      subst hnm
      rw [hm]
      exact .split _ _ _ _ _ _ _ _ _ _ _ _ (hfi pa lv R hpr) ⟨rfl, rfl, rfl⟩
        (ih1 b1 (fun i hi => hR i (List.mem_filter.1 hi).1) hn1 (by rw [hps, hps']))
        (ih2 b2 (fun i hi => hR i (List.mem_filter.1 hi).1) hn2 (by rw [hps, hps']))

/-- The same for fits, pruned or not. -/
theorem fit_trimmed (hr : Readier c c' n ι) {argsort argsort' : List V → List Nat} {ok' : V → Prop}
    (hv : Valid ok c argsort n) (hv' : Valid ok' c' argsort' n) (hn : 0 < n) (hprune : c'.hp.prune = c.hp.prune)
    {prior : Option P} (hpr : c.T.getPrior prior n c'.nDim = c.T.getPrior prior n c.nDim)
    {t t' : PNode V S K P} (h : fitIn c argsort prior n = .ok t) (h' : fitIn c' argsort' prior n = .ok t') :
    Trimmed (SameCut ι) t t' := by
  obtain ⟨t0, hb, -, e1, e2⟩ := fit_cutOff hv h
  obtain ⟨t0', hb', -, e1', e2'⟩ := fit_cutOff hv' h'
  have hT : Trimmed (SameCut ι) t0 t0' := Built.trimmed hr hv.ops hv.target hv.vals hb hb'
    (fun i hi => List.mem_range.1 hi) (by simp; omega)
    (by unfold Ctx.prior; rw [hr.T]; simpa using hpr)
  cases hp : c.hp.prune with
  | false => rw [e1 hp, e1' (hprune.trans hp)]; exact hT
  | true =>
    rw [e2 hp, e2' (hprune.trans hp), hr.T]
    exact hT.merge _

end

end

end BT
