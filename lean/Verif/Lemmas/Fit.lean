import Verif.Lemmas.Built
import Verif.Lemmas.Ops

/-!
# The fit as a whole: soundness, completeness, independence of sort order and row order
-/

namespace BT
open Spec

section
variable {V K P S O : Type}

/-- Rows with comparable values can be listed in ascending order. -/
theorem exists_sortedRows {o : XOps V K} {ok : V → Prop} {prec : K} (ho : LawfulOps o ok prec)
    {X : Nat → Nat → V} {d : Nat} {R : List Nat} (hok : ∀ i ∈ R, ok (X i d)) :
    ∃ L, SortedRows o X d L R := by
  have hs := stableArgsort_spec ho
  have hxs : ∀ x ∈ R.map (fun i => X i d), ok x := by
    intro x hx; obtain ⟨i, hi, rfl⟩ := List.mem_map.1 hx; exact hok i hi
  refine ⟨(stableArgsort o.le (R.map fun i => X i d)).map fun j => R.getD j 0, ?_, ?_⟩
  · have h1 := (hs.perm _ hxs).map fun j => R.getD j 0
    refine h1.trans ?_
    rw [List.length_map]
    have : (List.range R.length).map (fun j => R.getD j 0) = R := by
      apply List.ext_getElem
      · simp
      · intro i h1 h2; simp [h2]
    rw [this]
  · rw [List.pairwise_map]
    refine (hs.sorted _ hxs).imp_of_mem ?_
    intro i j hi hj hij
    have hi' := List.mem_range.1 ((hs.perm _ hxs).mem_iff.1 hi)
    have hj' := List.mem_range.1 ((hs.perm _ hxs).mem_iff.1 hj)
    rw [List.length_map] at hi' hj'
    exact hij _ _ (by simp [hi']) (by simp [hj'])

/-- A cut is determined by its lower value. -/
theorem cut_ext {o : XOps V K} {ok : V → Prop} {prec : K} (ho : LawfulOps o ok prec)
    {X : Nat → Nat → V} {d : Nat} {R L : List Nat} (hok : ∀ i ∈ R, ok (X i d))
    (hL : SortedRows o X d L R) {c c' : V × V} (h : c ∈ cuts o prec X R d)
    (h' : c' ∈ cuts o prec X R d) (e : c.1 = c'.1) : c = c' := by
  obtain ⟨k, hk, h1, h2⟩ := (mem_cuts_iff ho hok hL).1 h
  obtain ⟨k', hk', h1', h2'⟩ := (mem_cuts_iff ho hok hL).1 h'
  obtain ⟨a, b, g1, g2, g3, g4⟩ := mem_splitIndices.1 hk
  obtain ⟨a', b', g1', g2', g3', g4'⟩ := mem_splitIndices.1 hk'
  rw [h1] at g2; rw [h2] at g3; rw [h1'] at g2'; rw [h2'] at g3'
  cases g2; cases g3; cases g2'; cases g3'
  have p := split_position ho hok hL g1 h1 h2 g4
  have p' := split_position ho hok hL g1' h1' h2' g4'
  have get : ∀ {m : Nat} {v : V}, (L.map fun i => X i d)[m]? = some v → ∃ i, L[m]? = some i ∧ X i d = v := by
    intro m v hv
    rw [List.getElem?_map, Option.map_eq_some_iff] at hv
    exact hv
  have key : k = k' := by
    rcases Nat.lt_trichotomy k k' with hlt | heq | hgt
    · -- then `c'.1` sits at or after position `k`, hence is not below `c.1`
      obtain ⟨i, hi, hv⟩ := get h1'
      have hm : i ∈ L.drop k := by
        rw [List.mem_iff_getElem?]
        exact ⟨k' - 1 - k, by rw [List.getElem?_drop]; rw [← hi]; congr 1; omega⟩
      have := p.2.2.2.2.2.2 i hm
      rw [hv, ← e] at this
      have hr := (ho.le_total c.1 c.1 p.1 p.1).elim id id
      rw [hr] at this; exact absurd this (by simp)
    · exact heq
    · obtain ⟨i, hi, hv⟩ := get h1
      have hm : i ∈ L.drop k' := by
        rw [List.mem_iff_getElem?]
        exact ⟨k - 1 - k', by rw [List.getElem?_drop]; rw [← hi]; congr 1; omega⟩
      have := p'.2.2.2.2.2.2 i hm
      rw [hv, e] at this
      have hr := (ho.le_total c'.1 c'.1 p'.1 p'.1).elim id id
      rw [hr] at this; exact absurd this (by simp)
  subst key
  rw [h2] at h2'
  exact Prod.ext e (Option.some.inj h2')

theorem cut_ok {o : XOps V K} {ok : V → Prop} {prec : K} (ho : LawfulOps o ok prec)
    {X : Nat → Nat → V} {d : Nat} {R L : List Nat} (hok : ∀ i ∈ R, ok (X i d))
    (hL : SortedRows o X d L R) {c : V × V} (h : c ∈ cuts o prec X R d) :
    ok c.1 ∧ ok c.2 ∧ o.le c.1 c.2 = true ∧ o.le c.2 c.1 = false := by
  obtain ⟨k, hk, h1, h2⟩ := (mem_cuts_iff ho hok hL).1 h
  obtain ⟨a, b, g1, g2, g3, g4⟩ := mem_splitIndices.1 hk
  rw [h1] at g2; rw [h2] at g3
  cases g2; cases g3
  have p := split_position ho hok hL g1 h1 h2 g4
  exact ⟨p.1, p.2.1, p.2.2.1, p.2.2.2.1⟩

/-- Every row of a split node passes exactly one of the two tests. -/
theorem cut_routes {o : XOps V K} {ok : V → Prop} {prec : K} (ho : LawfulOps o ok prec)
    {X : Nat → Nat → V} {d : Nat} {R : List Nat} (hok : ∀ i ∈ R, ok (X i d))
    {cut : V × V} (h : cut ∈ cuts o prec X R d) (i : Nat) (hi : i ∈ R) :
    o.ge (X i d) (o.mid cut.1 cut.2) = !o.lt (X i d) (o.mid cut.1 cut.2) ∧
    o.lt (X i d) (o.mid cut.1 cut.2) = o.le (X i d) cut.1 := by
  obtain ⟨L, hL⟩ := exists_sortedRows ho hok
  obtain ⟨k, hk, h1, h2⟩ := (mem_cuts_iff ho hok hL).1 h
  obtain ⟨a, b, g1, g2, g3, g4⟩ := mem_splitIndices.1 hk
  rw [h1] at g2; rw [h2] at g3
  cases g2; cases g3
  obtain ⟨oka, okb, hab, hba, p1, p2, p3⟩ := split_position ho hok hL g1 h1 h2 g4
  have hm := hL.perm.mem_iff.2 hi
  rw [← List.take_append_drop k L, List.mem_append] at hm
  rcases hm with hm | hm
  · have := ho.below _ _ _ oka okb (hok i hi) hab g4 (p1 i hm)
    rw [this.1, this.2, p1 i hm]; simp
  · have := ho.above _ _ _ oka okb (hok i hi) hab g4 (p2 i hm)
    rw [this.1, this.2, p3 i hm]; simp

/-- The values of a cut are attained, adjacent and separated, with nothing in between. -/
theorem cut_values {o : XOps V K} {ok : V → Prop} {prec : K} (ho : LawfulOps o ok prec)
    {X : Nat → Nat → V} {d : Nat} {R : List Nat} (hok : ∀ i ∈ R, ok (X i d))
    {cut : V × V} (h : cut ∈ cuts o prec X R d) :
    (∃ i ∈ R, X i d = cut.1) ∧ (∃ j ∈ R, X j d = cut.2) ∧ ok cut.1 ∧ ok cut.2 ∧
    o.le cut.1 cut.2 = true ∧ o.le cut.2 cut.1 = false ∧ o.gap prec cut.1 cut.2 = true ∧
    ∀ i ∈ R, o.le (X i d) cut.1 = true ∨ o.le cut.2 (X i d) = true := by
  obtain ⟨L, hL⟩ := exists_sortedRows ho hok
  obtain ⟨k, hk, h1, h2⟩ := (mem_cuts_iff ho hok hL).1 h
  obtain ⟨a, b, g1, g2, g3, g4⟩ := mem_splitIndices.1 hk
  rw [h1] at g2; rw [h2] at g3
  cases g2; cases g3
  obtain ⟨oka, okb, hab, hba, p1, p2, p3⟩ := split_position ho hok hL g1 h1 h2 g4
  rw [List.getElem?_map, Option.map_eq_some_iff] at h1 h2
  obtain ⟨i, hi, hiv⟩ := h1
  obtain ⟨j, hj, hjv⟩ := h2
  refine ⟨⟨i, hL.perm.mem_iff.1 (List.mem_of_getElem? hi), hiv⟩,
    ⟨j, hL.perm.mem_iff.1 (List.mem_of_getElem? hj), hjv⟩, oka, okb, hab, hba, g4, ?_⟩
  intro m hm
  have hm := hL.perm.mem_iff.2 hm
  rw [← List.take_append_drop k L, List.mem_append] at hm
  exact hm.imp (p1 m) (p2 m)

/-- Conversely, adjacent separated attained values form a cut. -/
theorem mem_cuts_of {o : XOps V K} {ok : V → Prop} {prec : K} (ho : LawfulOps o ok prec)
    {X : Nat → Nat → V} {d : Nat} {R : List Nat} (hok : ∀ i ∈ R, ok (X i d)) {a b : V}
    (ha : ∃ i ∈ R, X i d = a) (hb : ∃ j ∈ R, X j d = b)
    (hab : o.le b a = false) (hg : o.gap prec a b = true)
    (hadj : ∀ i ∈ R, o.le (X i d) a = true ∨ o.le b (X i d) = true) : (a, b) ∈ cuts o prec X R d := by
  obtain ⟨L, hL⟩ := exists_sortedRows ho hok
  have hokL : ∀ i ∈ L, ok (X i d) := fun i hi => hok i (hL.perm.mem_iff.1 hi)
  obtain ⟨i, hi, rfl⟩ := ha
  obtain ⟨j, hj, rfl⟩ := hb
  have oka := hok i hi
  have okb := hok j hj
  -- the number of rows at or below `a` is the position
  let p : Nat → Bool := fun m => o.le (X m d) (X i d)
  have hsplit : ∀ (l : List Nat), (l.Pairwise fun i j => o.le (X i d) (X j d) = true) → (∀ m ∈ l, ok (X m d)) →
      l = l.filter p ++ l.filter (fun m => !p m) := by
    intro l hl hokl
    induction l with
    | nil => rfl
    | cons m l ih =>
      rw [List.pairwise_cons] at hl
      have ih' := ih hl.2 fun m hm => hokl m (by simp [hm])
      by_cases hm : p m = true
      · rw [List.filter_cons_of_pos hm, List.filter_cons_of_neg (by simp [hm]), List.cons_append, ← ih']
      · have hnone : l.filter p = [] := by
          rw [List.filter_eq_nil_iff]
          intro q hq hpq
          exact hm (ho.le_trans _ _ _ (hokl m (by simp)) (hokl q (by simp [hq])) oka (hl.1 q hq) hpq)
        rw [List.filter_cons_of_neg hm, List.filter_cons_of_pos (by simpa using hm), hnone, List.nil_append]
        rw [hnone, List.nil_append] at ih'
        rw [← ih']
  have hLs := hsplit L hL.sorted hokL
  have hmap : (L.map fun m => X m d) =
      (L.filter p).map (fun m => X m d) ++ (L.filter fun m => !p m).map fun m => X m d := by
    rw [← List.map_append, ← hLs]
  have hLen : L.length = (L.filter p).length + (L.filter fun m => !p m).length := by
    have := congrArg List.length hLs
    rwa [List.length_append] at this
  have hrefl : ∀ v, ok v → o.le v v = true := fun v hv => (ho.le_total v v hv hv).elim id id
  have him : i ∈ L.filter p :=
    List.mem_filter.2 ⟨hL.perm.mem_iff.2 hi, hrefl _ oka⟩
  have hjm : j ∈ L.filter fun m => !p m :=
    List.mem_filter.2 ⟨hL.perm.mem_iff.2 hj, by show (!o.le (X j d) (X i d)) = true; rw [hab]; rfl⟩
  have hk1 : 1 ≤ (L.filter p).length := List.length_pos_of_mem him
  have hk2 : 0 < (L.filter fun m => !p m).length := List.length_pos_of_mem hjm
  -- the neighbours at that position are `a` and `b`
  have h1 : (L.map fun m => X m d)[(L.filter p).length - 1]? = some (X i d) := by
    rw [hmap, List.getElem?_append_left (by rw [List.length_map]; omega), List.getElem?_map]
    have hl : (L.filter p).length - 1 < (L.filter p).length := by omega
    rw [List.getElem?_eq_getElem hl, Option.map_some]
    congr 1
    have hmem := List.getElem_mem hl
    obtain ⟨q, hq, hqi⟩ := List.getElem_of_mem him
    have hpw : (L.filter p).Pairwise fun i j => o.le (X i d) (X j d) = true := hL.sorted.filter _
    have hok1 : ok (X (L.filter p)[(L.filter p).length - 1] d) := hokL _ (List.mem_filter.1 hmem).1
    apply ho.le_antisymm _ _ hok1 oka (List.mem_filter.1 hmem).2
    rcases Nat.lt_or_ge q ((L.filter p).length - 1) with h | h
    · have := List.pairwise_iff_getElem.1 hpw q _ hq hl h
      rwa [hqi] at this
    · have : q = (L.filter p).length - 1 := by omega
      subst this
      rw [hqi]; exact hrefl _ oka
  have h2 : (L.map fun m => X m d)[(L.filter p).length]? = some (X j d) := by
    rw [hmap, List.getElem?_append_right (by simp), List.getElem?_map]
    simp only [List.length_map]
    rw [Nat.sub_self, List.getElem?_eq_getElem hk2, Option.map_some]
    congr 1
    have hmem := List.getElem_mem hk2
    obtain ⟨q, hq, hqj⟩ := List.getElem_of_mem hjm
    have hpw : (L.filter fun m => !p m).Pairwise fun i j => o.le (X i d) (X j d) = true :=
      hL.sorted.filter _
    have hmL := (List.mem_filter.1 hmem).1
    have hok1 : ok (X (L.filter fun m => !p m)[0] d) := hokL _ hmL
    have hle : o.le (X j d) (X (L.filter fun m => !p m)[0] d) = true := by
      rcases hadj _ (hL.perm.mem_iff.1 hmL) with h | h
      · have := (List.mem_filter.1 hmem).2
        simp only [p, h] at this
        exact absurd this (by simp)
      · exact h
    apply ho.le_antisymm _ _ hok1 okb _ hle
    rcases Nat.eq_zero_or_pos q with h | h
    · subst h; rw [hqj]; exact hrefl _ okb
    · have := List.pairwise_iff_getElem.1 hpw 0 q hk2 hq h
      rwa [hqj] at this
  exact (mem_cuts_iff ho hok hL).2
    ⟨_, mem_splitIndices.2 ⟨_, _, hk1, h1, h2, hg⟩, h1, h2⟩

end

section
variable {V K P S O : Type} [LinearOrder S]

theorem BestCut.unique {c : Ctx V K P S O} {ok : V → Prop}
    (ho : LawfulOps c.o ok c.hp.splitPrecision) {pa : Option P} {lv : Nat} {R : List Nat}
    {sid : List (List Nat)} (hsid : GoodSid c.o c.X c.nDim sid R)
    (hok : ∀ i ∈ R, ∀ d < c.nDim, ok (c.X i d)) {d d' : Nat} {cut cut' : V × V}
    (h : BestCut c pa lv R d cut) (h' : BestCut c pa lv R d' cut') : d = d' ∧ cut = cut' := by
  have hd : d = d' := by
    rcases Nat.lt_trichotomy d d' with hlt | heq | hgt
    · exact absurd (h'.hfirstDim d hlt cut h.hcut) (not_lt.2 (h.hmax d' h'.hd cut' h'.hcut))
    · exact heq
    · exact absurd (h.hfirstDim d' hgt cut' h'.hcut) (not_lt.2 (h'.hmax d h.hd cut h.hcut))
  subst hd
  have hL : SortedRows c.o c.X d (sid.getD d []) R := ⟨hsid.perm d h.hd, hsid.sorted d h.hd⟩
  have hokd : ∀ i ∈ R, ok (c.X i d) := fun i hi => hok i hi d h.hd
  have o1 := cut_ok ho hokd hL h.hcut
  have o2 := cut_ok ho hokd hL h'.hcut
  refine ⟨rfl, cut_ext ho hokd hL h.hcut h'.hcut ?_⟩
  apply ho.le_antisymm _ _ o1.1 o2.1
  · by_contra hc
    have := h.hfirstCut cut' h'.hcut (by simpa using hc)
    exact absurd this (not_lt.2 (h'.hmax d h.hd cut h.hcut))
  · by_contra hc
    have := h'.hfirstCut cut h.hcut (by simpa using hc)
    exact absurd this (not_lt.2 (h.hmax d h.hd cut' h'.hcut))

variable [DecidableEq K] [Zero K] [One K]

/-- Completeness: every greedy tree is the one the fit returns. -/
theorem perpFit_complete (c : Ctx V K P S O) {ok : V → Prop}
    (ho : LawfulOps c.o ok c.hp.splitPrecision) (hT : LawfulTarget c.T c.pair) (hpos : 0 < c.nDim)
    (par pa : Option P) (lv : Nat) (R : List Nat) (t : PNode V S K P)
    (hb : Built c par pa lv R t) (hdiv : par.isSome → c.Divisible R)
    (fuel : Nat) (hfuel : R.length < fuel) (sid : List (List Nat))
    (hsid : GoodSid c.o c.X c.nDim sid R) (hok : ∀ i ∈ R, ∀ d < c.nDim, ok (c.X i d)) :
    perpFit c.o c.T c.hp c.X c.y c.nDim c.names fuel pa lv sid = .ok t := by
  induction hb generalizing fuel sid with
  | direct par pa lv R hsmall => exact absurd (hdiv rfl) hsmall
  | stay par pa lv R hdv hno =>
    cases fuel with
    | zero => omega
    | succ fuel =>
      rcases perpFit_step c ho hT fuel pa lv sid R hpos hsid hok with ⟨_, e⟩ |
        ⟨d, cut, hb, -, -, -⟩
      · exact e
      · exact absurd hb.hgain (not_lt.2 (hno d hb.hd cut hb.hcut))
  | split par pa lv R d cut name c1 c2 hdv hd hcut hgain hmax hfd hfc hname h1 h2 ih1 ih2 =>
    cases fuel with
    | zero => omega
    | succ fuel =>
      rcases perpFit_step c ho hT fuel pa lv sid R hpos hsid hok with ⟨hno, e⟩ |
        ⟨d', cut', hb, hl1, hl2, sid1, sid2, r1, r2, hg1, hg2, hr1, hr2, e⟩
      · exact absurd hgain (not_lt.2 (hno d hd cut hcut))
      · obtain ⟨rfl, rfl⟩ := BestCut.unique ho hsid hok ⟨hd, hcut, hgain, hmax, hfd, hfc⟩ hb
        rw [e, hname]
        have key : ∀ (R' : List Nat) (sid' : List (List Nat)) (r : Except Err (PNode V S K P))
            (t' : PNode V S K P), Built c (some (c.prior pa R)) (some (c.childPrior (c.prior pa R) R'))
              (lv + 1) R' t' →
            (((some (c.prior pa R)).isSome → c.Divisible R') →
              perpFit c.o c.T c.hp c.X c.y c.nDim c.names fuel
                (some (c.childPrior (c.prior pa R) R')) (lv + 1) sid' = .ok t') →
            childRes c fuel lv (c.prior pa R) R' sid' r → r = .ok t' := by
          intro R' sid' r t' hbt hih hr
          rcases hr with ⟨hd, rfl⟩ | ⟨hd, rfl⟩
          · exact hih fun _ => hd
          · cases hbt with
            | direct => rfl
            | stay _ _ _ _ hdv => exact absurd (hdv rfl) hd
            | split _ _ _ _ _ _ _ _ _ hdv => exact absurd (hdv rfl) hd
        have e1 := key _ sid1 r1 c1 h1 (fun h => ih1 h fuel (by omega) sid1 hg1
          (fun i hi => hok i (List.mem_filter.1 hi).1)) hr1
        have e2 := key _ sid2 r2 c2 h2 (fun h => ih2 h fuel (by omega) sid2 hg2
          (fun i hi => hok i (List.mem_filter.1 hi).1)) hr2
        rw [e1, e2]

/-- With enough fuel the only possible failure is a missing feature name. -/
theorem perpFit_error (c : Ctx V K P S O) {ok : V → Prop}
    (ho : LawfulOps c.o ok c.hp.splitPrecision) (hT : LawfulTarget c.T c.pair) (hpos : 0 < c.nDim)
    (fuel : Nat) (pa : Option P) (lv : Nat) (sid : List (List Nat)) (R : List Nat)
    (hsid : GoodSid c.o c.X c.nDim sid R) (hok : ∀ i ∈ R, ∀ d < c.nDim, ok (c.X i d))
    (hfuel : R.length < fuel) (e : Err)
    (h : perpFit c.o c.T c.hp c.X c.y c.nDim c.names fuel pa lv sid = .error e) :
    e = .indexError ∧ c.names.length < c.nDim := by
  induction fuel generalizing pa lv sid R with
  | zero => omega
  | succ fuel ih =>
    rcases perpFit_step c ho hT fuel pa lv sid R hpos hsid hok with ⟨hno, e'⟩ |
      ⟨d, cut, hb, hl1, hl2, sid1, sid2, r1, r2, hg1, hg2, hr1, hr2, e'⟩
    · rw [e'] at h; cases h
    · rw [e'] at h
      have key : ∀ (R' : List Nat) (sid' : List (List Nat)) (r : Except Err (PNode V S K P)),
          (∀ i ∈ R', i ∈ R) → R'.length < R.length → GoodSid c.o c.X c.nDim sid' R' →
          childRes c fuel lv (c.prior pa R) R' sid' r → r = .error e →
          e = .indexError ∧ c.names.length < c.nDim := by
        intro R' sid' r hsub hlen hg hr he
        rcases hr with ⟨hd, rfl⟩ | ⟨hd, rfl⟩
        · exact ih _ _ sid' R' hg (fun i hi => hok i (hsub i hi)) (by omega) he
        · cases he
      cases hn : c.names[d]? with
      | none =>
        rw [hn] at h; cases h
        exact ⟨rfl, lt_of_le_of_lt (List.getElem?_eq_none_iff.1 hn) hb.hd⟩
      | some name =>
        rw [hn] at h
        cases r1 with
        | error e1 =>
          cases h
          exact key _ _ _ (fun i hi => (List.mem_filter.1 hi).1) hl1 hg1 hr1 rfl
        | ok c1 =>
          cases r2 with
          | error e2 =>
            cases h
            exact key _ _ _ (fun i hi => (List.mem_filter.1 hi).1) hl2 hg2 hr2 rfl
          | ok c2 => cases h

/-- Built trees do not depend on names of rows: transport along a renaming `σ`. -/
theorem Built.transport {c c' : Ctx V K P S O} {ok : V → Prop}
    (ho : LawfulOps c.o ok c.hp.splitPrecision) (hT : LawfulTarget c.T c.pair)
    (σ : Nat → Nat) (hc : c' = { c with X := fun i => c.X (σ i), y := fun i => c.y (σ i) })
    {par pa : Option P} {lv : Nat} {R' : List Nat} {t : PNode V S K P}
    (hb : Built c' par pa lv R' t) (R : List Nat) (hR : (R'.map σ).Perm R)
    (hok : ∀ i ∈ R, ∀ d < c.nDim, ok (c.X i d)) : Built c par pa lv R t := by
  subst hc
  -- basic transport facts
  have ysP : ∀ (A' A : List Nat), (A'.map σ).Perm A →
      (A'.map fun i => c.y (σ i)).Perm (A.map c.y) := by
    intro A' A h
    have := h.map c.y
    rwa [List.map_map] at this
  have filt : ∀ (A' A : List Nat) (p : Nat → Bool), (A'.map σ).Perm A →
      ((A'.filter fun i => p (σ i)).map σ).Perm (A.filter p) := by
    intro A' A p h
    have := h.filter p
    rwa [List.filter_map] at this
  have hlen : ∀ (A' A : List Nat), (A'.map σ).Perm A → A'.length = A.length := by
    intro A' A h; simpa using h.length_eq
  have hpri : ∀ (A' A : List Nat) (pa : Option P), (A'.map σ).Perm A →
      Ctx.prior { c with X := fun i => c.X (σ i), y := fun i => c.y (σ i) } pa A' = c.prior pa A := by
    intro A' A pa h; unfold Ctx.prior; rw [hlen A' A h]
  have hcol : ∀ (A' A : List Nat) (d : Nat), (A'.map σ).Perm A → (∀ i ∈ A, ok (c.X i d)) →
      cuts c.o c.hp.splitPrecision (fun i => c.X (σ i)) A' d = cuts c.o c.hp.splitPrecision c.X A d := by
    intro A' A d h hokA
    -- both columns are sorted permutations of the same values
    have hv : (A'.map fun i => c.X (σ i) d).Perm (A.map fun i => c.X i d) := by
      have := h.map fun i => c.X i d
      rwa [List.map_map] at this
    obtain ⟨L, hLp, hLs⟩ := exists_sortedRows ho hokA
    obtain ⟨L', hLp', hLs'⟩ := exists_sortedRows (X := fun i => c.X (σ i)) ho (R := A')
      (fun i hi => hokA _ (h.mem_iff.1 (List.mem_map_of_mem hi)))
    unfold cuts
    have e1 := column_eq ho hokA hLp hLs
    have hokA' : ∀ i ∈ A', ok (c.X (σ i) d) := fun i hi => hokA _ (h.mem_iff.1 (List.mem_map_of_mem hi))
    have e2 := column_eq (X := fun i => c.X (σ i)) ho hokA' hLp' hLs'
    have : column c.o (fun i => c.X (σ i)) A' d = column c.o c.X A d := by
      rw [e1, e2]
      have hp : (L'.map fun i => c.X (σ i) d).Perm (L.map fun i => c.X i d) :=
        ((hLp'.map _).trans hv).trans (hLp.map _).symm
      refine List.Perm.eq_of_pairwise (le := fun a b => c.o.le a b = true) ?_
        (List.pairwise_map.2 hLs') (List.pairwise_map.2 hLs) hp
      intro a b ha hb h1 h2
      have oka : ∀ v ∈ L.map (fun i => c.X i d), ok v := by
        intro v hv; obtain ⟨i, hi, rfl⟩ := List.mem_map.1 hv; exact hokA i (hLp.mem_iff.1 hi)
      exact ho.le_antisymm a b (oka a (hp.mem_iff.1 ha)) (oka b hb) h1 h2
    simp only [this]
  have hscore : ∀ (A' A : List Nat) (pa : Option P) (lv d : Nat) (cut : V × V), (A'.map σ).Perm A →
      (∀ i ∈ A, ok (c.X i d)) →
      Ctx.score { c with X := fun i => c.X (σ i), y := fun i => c.y (σ i) } pa lv A' d cut =
        c.score pa lv A d cut := by
    intro A' A pa lv d cut h hokA
    unfold Ctx.score
    rw [hpri A' A pa h]
    simp only [hcol A' A d h hokA]
    apply hT.pair_perm
    · exact ysP _ _ (filt A' A (fun i => c.o.le (c.X i d) cut.1) h)
    · exact ysP _ _ (filt A' A (fun i => !c.o.le (c.X i d) cut.1) h)
  have hnoS : ∀ (A' A : List Nat) (pa : Option P) (lv : Nat), (A'.map σ).Perm A →
      Ctx.noSplit { c with X := fun i => c.X (σ i), y := fun i => c.y (σ i) } pa lv A' =
        c.noSplit pa lv A := by
    intro A' A pa lv h
    unfold Ctx.noSplit
    rw [hpri A' A pa h]
    exact hT.noSplit_perm _ _ _ _ _ (ysP A' A h)
  have hfi : ∀ (A' A : List Nat) (pa : Option P) (lv : Nat), (A'.map σ).Perm A →
      Ctx.fitInfo { c with X := fun i => c.X (σ i), y := fun i => c.y (σ i) } pa lv A' =
        c.fitInfo pa lv A := by
    intro A' A pa lv h
    unfold Ctx.fitInfo
    rw [hpri A' A pa h, hlen A' A h]
    simp only [Info.mk.injEq, true_and]
    exact hT.posterior_perm _ _ _ _ (ysP A' A h)
  have hdi : ∀ (A' A : List Nat) (par pa : P) (lv : Nat), (A'.map σ).Perm A →
      Ctx.directInfo { c with X := fun i => c.X (σ i), y := fun i => c.y (σ i) } par pa lv A' =
        c.directInfo par pa lv A := by
    intro A' A par pa lv h
    unfold Ctx.directInfo
    rw [hlen A' A h]
    simp only [Info.mk.injEq, true_and]
    exact hT.posterior_perm _ _ _ _ (ysP A' A h)
  have hcp : ∀ (A' A : List Nat) (p : P), (A'.map σ).Perm A →
      Ctx.childPrior { c with X := fun i => c.X (σ i), y := fun i => c.y (σ i) } p A' =
        c.childPrior p A := by
    intro A' A p h
    unfold Ctx.childPrior
    have : c.T.posterior (Ctx.ys { c with X := fun i => c.X (σ i), y := fun i => c.y (σ i) } A') p
        c.hp.delta = c.T.posterior (c.ys A) p c.hp.delta := hT.posterior_perm _ _ _ _ (ysP A' A h)
    simp only [this]
  have hdivI : ∀ (A' A : List Nat), (A'.map σ).Perm A →
      (Ctx.Divisible { c with X := fun i => c.X (σ i), y := fun i => c.y (σ i) } A' ↔
        c.Divisible A) := by
    intro A' A h
    unfold Ctx.Divisible
    rw [hlen A' A h]
    apply and_congr_right
    intro _
    constructor
    · rintro ⟨i, hi, j, hj, hij⟩
      exact ⟨σ i, h.mem_iff.1 (List.mem_map_of_mem hi), σ j, h.mem_iff.1 (List.mem_map_of_mem hj), hij⟩
    · rintro ⟨i, hi, j, hj, hij⟩
      obtain ⟨i', hi', rfl⟩ := List.mem_map.1 (h.mem_iff.2 hi)
      obtain ⟨j', hj', rfl⟩ := List.mem_map.1 (h.mem_iff.2 hj)
      exact ⟨i', hi', j', hj', hij⟩
  induction hb generalizing R with
  | direct par pa lv R' hsmall =>
    rw [hdi R' R par pa lv hR]
    exact Built.direct par pa lv R fun h => hsmall ((hdivI R' R hR).2 h)
  | stay par pa lv R' hdv hno =>
    rw [hfi R' R pa lv hR]
    refine Built.stay par pa lv R (fun h => (hdivI R' R hR).1 (hdv h)) ?_
    intro d hd cut hcut
    have hokd : ∀ i ∈ R, ok (c.X i d) := fun i hi => hok i hi d hd
    rw [← hscore R' R pa lv d cut hR hokd, ← hnoS R' R pa lv hR]
    exact hno d hd cut (by simp only [hcol R' R d hR hokd]; exact hcut)
  | split par pa lv R' d cut name c1 c2 hdv hd hcut hgain hmax hfd hfc hname h1 h2 ih1 ih2 =>
    have hokd : ∀ d < c.nDim, ∀ i ∈ R, ok (c.X i d) := fun d hd i hi => hok i hi d hd
    rw [hfi R' R pa lv hR, hnoS R' R pa lv hR, hscore R' R pa lv d cut hR (hokd d hd)]
    have r1 := filt R' R (fun i => c.o.lt (c.X i d) (c.o.mid cut.1 cut.2)) hR
    have r2 := filt R' R (fun i => c.o.ge (c.X i d) (c.o.mid cut.1 cut.2)) hR
    have i1 := ih1 (c.rows1 R d (c.o.mid cut.1 cut.2)) r1
      (fun i hi => hok i (List.mem_filter.1 hi).1)
    have i2 := ih2 (c.rows2 R d (c.o.mid cut.1 cut.2)) r2
      (fun i hi => hok i (List.mem_filter.1 hi).1)
    rw [hpri R' R pa hR] at i1 i2
    have q1 : _ = c.childPrior (c.prior pa R) (c.rows1 R d (c.o.mid cut.1 cut.2)) :=
      hcp _ _ (c.prior pa R) r1
    have q2 : _ = c.childPrior (c.prior pa R) (c.rows2 R d (c.o.mid cut.1 cut.2)) :=
      hcp _ _ (c.prior pa R) r2
    refine Built.split par pa lv R d cut name c1 c2 (fun h => (hdivI R' R hR).1 (hdv h)) hd
      (by rw [← hcol R' R d hR (hokd d hd)]; exact hcut) ?_ ?_ ?_ ?_ hname ?_ ?_
    · rw [← hscore R' R pa lv d cut hR (hokd d hd), ← hnoS R' R pa lv hR]; exact hgain
    · intro d' hd' cut' hcut'
      rw [← hscore R' R pa lv d cut hR (hokd d hd), ← hscore R' R pa lv d' cut' hR (hokd d' hd')]
      exact hmax d' hd' cut' (by simp only [hcol R' R d' hR (hokd d' hd')]; exact hcut')
    · intro d' hd' cut' hcut'
      have hd'' : d' < c.nDim := lt_trans hd' hd
      rw [← hscore R' R pa lv d cut hR (hokd d hd), ← hscore R' R pa lv d' cut' hR (hokd d' hd'')]
      exact hfd d' hd' cut' (by simp only [hcol R' R d' hR (hokd d' hd'')]; exact hcut')
    · intro cut' hcut' hle
      rw [← hscore R' R pa lv d cut hR (hokd d hd), ← hscore R' R pa lv d cut' hR (hokd d hd)]
      exact hfc cut' (by simp only [hcol R' R d hR (hokd d hd)]; exact hcut') hle
    · rw [← q1]; exact i1
    · rw [← q2]; exact i2

end

end BT
