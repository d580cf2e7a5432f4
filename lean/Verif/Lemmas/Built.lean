import Verif.Lemmas.PerpFit

/-!
# The recursive fit builds greedy trees
-/

namespace BT
open Spec

section
variable {V K P S O : Type} [LinearOrder S] [DecidableEq K] [Zero K] [One K]

/-- The model's result for one child. -/
def childRes (c : Ctx V K P S O) (fuel : Nat) (lv : Nat) (par : P) (R' : List Nat)
    (sid' : List (List Nat)) (r : Except Err (PNode V S K P)) : Prop :=
  (c.Divisible R' ∧
    r = perpFit c.o c.T c.hp c.X c.y c.nDim c.names fuel (some (c.childPrior par R')) (lv + 1) sid') ∨
  (¬ c.Divisible R' ∧ r = .ok (.leaf (c.directInfo par (c.childPrior par R') (lv + 1) R')))

omit [LinearOrder S] [Zero K] [One K] in
theorem divisible_iff (c : Ctx V K P S O) {R R' : List Nat} (h : R'.Perm R) :
    (R'.length > 1 ∧ (distinct (R'.map c.y)).length > 1) ↔ c.Divisible R := by
  unfold Ctx.Divisible
  rw [h.length_eq]
  apply and_congr_right
  intro _
  rw [gt_iff_lt, one_lt_distinct]
  constructor
  · rintro ⟨a, ha, b, hb, hab⟩
    obtain ⟨i, hi, rfl⟩ := List.mem_map.1 ha
    obtain ⟨j, hj, rfl⟩ := List.mem_map.1 hb
    exact ⟨i, h.mem_iff.1 hi, j, h.mem_iff.1 hj, hab⟩
  · rintro ⟨i, hi, j, hj, hab⟩
    exact ⟨_, List.mem_map_of_mem (h.mem_iff.2 hi), _, List.mem_map_of_mem (h.mem_iff.2 hj), hab⟩

/-- Conditions on the chosen cut. -/
structure BestCut (c : Ctx V K P S O) (pa : Option P) (lv : Nat) (R : List Nat) (d : Nat)
    (cut : V × V) : Prop where
  hd : d < c.nDim
  hcut : cut ∈ cuts c.o c.hp.splitPrecision c.X R d
  hgain : c.noSplit pa lv R < c.score pa lv R d cut
  hmax : ∀ d' < c.nDim, ∀ cut' ∈ cuts c.o c.hp.splitPrecision c.X R d',
    c.score pa lv R d' cut' ≤ c.score pa lv R d cut
  hfirstDim : ∀ d' < d, ∀ cut' ∈ cuts c.o c.hp.splitPrecision c.X R d',
    c.score pa lv R d' cut' < c.score pa lv R d cut
  hfirstCut : ∀ cut' ∈ cuts c.o c.hp.splitPrecision c.X R d, c.o.le cut.1 cut'.1 = false →
    c.score pa lv R d cut' < c.score pa lv R d cut

omit [LinearOrder S] [DecidableEq K] [Zero K] [One K] in
theorem candScore_eq (c : Ctx V K P S O) {ok : V → Prop}
    (ho : LawfulOps c.o ok c.hp.splitPrecision) (hT : LawfulTarget c.T c.pair)
    (pa : Option P) (lv : Nat) (sid : List (List Nat)) (R : List Nat)
    (hsid : GoodSid c.o c.X c.nDim sid R) (hok : ∀ i ∈ R, ∀ d < c.nDim, ok (c.X i d))
    {d k : Nat} (hd : d < c.nDim) {a b : V}
    (hk : 1 ≤ k) (ha : ((sid.getD d []).map fun i => c.X i d)[k - 1]? = some a)
    (hb : ((sid.getD d []).map fun i => c.X i d)[k]? = some b)
    (hg : c.o.gap c.hp.splitPrecision a b = true) :
    candScore c.o c.hp lv c.X c.y c.nDim (c.prior pa R) sid c.pair d k = c.score pa lv R d (a, b) := by
  have hL : SortedRows c.o c.X d (sid.getD d []) R := ⟨hsid.perm d hd, hsid.sorted d hd⟩
  have hokd : ∀ i ∈ R, ok (c.X i d) := fun i hi => hok i hi d hd
  have hf := split_filters ho hokd hL hk ha hb hg
  unfold candScore Ctx.score candPos
  rw [← cuts_length ho hokd hL, ← List.map_take, ← List.map_drop]
  exact hT.pair_perm _ _ _ _ _ _ _ _ _ (hf.1.map _) (hf.2.1.map _)

/-- One level of the fit, in terms of rows and cuts. -/
theorem perpFit_step (c : Ctx V K P S O) {ok : V → Prop}
    (ho : LawfulOps c.o ok c.hp.splitPrecision) (hT : LawfulTarget c.T c.pair)
    (fuel : Nat) (pa : Option P) (lv : Nat) (sid : List (List Nat)) (R : List Nat)
    (hpos : 0 < c.nDim) (hsid : GoodSid c.o c.X c.nDim sid R)
    (hok : ∀ i ∈ R, ∀ d < c.nDim, ok (c.X i d)) :
    ((∀ d < c.nDim, ∀ cut ∈ cuts c.o c.hp.splitPrecision c.X R d,
        c.score pa lv R d cut ≤ c.noSplit pa lv R) ∧
      perpFit c.o c.T c.hp c.X c.y c.nDim c.names (fuel + 1) pa lv sid = .ok (.leaf (c.fitInfo pa lv R))) ∨
    (∃ d cut, BestCut c pa lv R d cut ∧
      (c.rows1 R d (c.o.mid cut.1 cut.2)).length < R.length ∧
      (c.rows2 R d (c.o.mid cut.1 cut.2)).length < R.length ∧
      ∃ sid1 sid2 r1 r2,
        GoodSid c.o c.X c.nDim sid1 (c.rows1 R d (c.o.mid cut.1 cut.2)) ∧
        GoodSid c.o c.X c.nDim sid2 (c.rows2 R d (c.o.mid cut.1 cut.2)) ∧
        childRes c fuel lv (c.prior pa R) (c.rows1 R d (c.o.mid cut.1 cut.2)) sid1 r1 ∧
        childRes c fuel lv (c.prior pa R) (c.rows2 R d (c.o.mid cut.1 cut.2)) sid2 r2 ∧
        perpFit c.o c.T c.hp c.X c.y c.nDim c.names (fuel + 1) pa lv sid =
          match c.names[d]? with
          | none => .error .indexError
          | some name =>
            match r1 with
            | .error e => .error e
            | .ok c1 =>
              match r2 with
              | .error e => .error e
              | .ok c2 => .ok (.split (c.fitInfo pa lv R) ⟨d, name, c.o.mid cut.1 cut.2⟩
                  (c.noSplit pa lv R) (c.score pa lv R d cut) c1 c2)) := by
  have hok' : ∀ d < c.nDim, ∀ i ∈ R, ok (c.X i d) := fun d hd i hi => hok i hi d hd
  have hL : ∀ d < c.nDim, SortedRows c.o c.X d (sid.getD d []) R :=
    fun d hd => ⟨hsid.perm d hd, hsid.sorted d hd⟩
  have hsh : shape1 sid = R.length := hsid.shape1 hpos
  obtain ⟨row0, rest, rfl⟩ : ∃ row0 rest, sid = row0 :: rest := by
    cases sid with
    | nil => exact absurd hsid.len (by simp; omega)
    | cons a l => exact ⟨a, l, rfl⟩
  have hrow0 : (row0.map c.y).Perm (c.ys R) := by
    have := (hsid.perm 0 hpos).map c.y
    simpa [Ctx.ys] using this
  have hprior : c.T.getPrior pa (shape1 (row0 :: rest)) c.nDim = c.prior pa R := by
    rw [hsh]; rfl
  have hno : c.T.logNoSplit c.hp.partitionPrior lv (row0.map c.y) (c.prior pa R) =
      c.noSplit pa lv R := hT.noSplit_perm _ _ _ _ _ hrow0
  have hpost : c.T.posterior (row0.map c.y) (c.prior pa R) 1 =
      c.T.posterior (c.ys R) (c.prior pa R) 1 := hT.posterior_perm _ _ _ _ hrow0
  -- candidates as cuts
  have hcand : ∀ d < c.nDim, ∀ k ∈ candPos c.o c.hp c.X (row0 :: rest) d, ∃ a b,
      1 ≤ k ∧ (((row0 :: rest).getD d []).map fun i => c.X i d)[k - 1]? = some a ∧
      (((row0 :: rest).getD d []).map fun i => c.X i d)[k]? = some b ∧
      c.o.gap c.hp.splitPrecision a b = true ∧ (a, b) ∈ cuts c.o c.hp.splitPrecision c.X R d ∧
      candScore c.o c.hp lv c.X c.y c.nDim (c.prior pa R) (row0 :: rest) c.pair d k =
        c.score pa lv R d (a, b) := by
    intro d hd k hk
    obtain ⟨a, b, h1, h2, h3, h4⟩ := mem_splitIndices.1 hk
    exact ⟨a, b, h1, h2, h3, h4, (mem_cuts_iff ho (hok' d hd) (hL d hd)).2 ⟨k, hk, h2, h3⟩,
      candScore_eq c ho hT pa lv _ R hsid hok hd h1 h2 h3 h4⟩
  have hcutc : ∀ d < c.nDim, ∀ cut ∈ cuts c.o c.hp.splitPrecision c.X R d,
      ∃ k ∈ candPos c.o c.hp c.X (row0 :: rest) d,
        (((row0 :: rest).getD d []).map fun i => c.X i d)[k - 1]? = some cut.1 ∧
        (((row0 :: rest).getD d []).map fun i => c.X i d)[k]? = some cut.2 ∧
        candScore c.o c.hp lv c.X c.y c.nDim (c.prior pa R) (row0 :: rest) c.pair d k =
          c.score pa lv R d cut := by
    intro d hd cut hcut
    obtain ⟨k, hk, h2, h3⟩ := (mem_cuts_iff ho (hok' d hd) (hL d hd)).1 hcut
    obtain ⟨a, b, g1, g2, g3, g4, g5, g6⟩ := hcand d hd k hk
    rw [h2] at g2; rw [h3] at g3
    cases g2; cases g3
    exact ⟨k, hk, h2, h3, g6⟩
  have hs := search_spec c.o c.T c.hp lv c.X c.y c.nDim (c.prior pa R) (row0 :: rest) hT
    (c.noSplit pa lv R) c.nDim
  simp only at hs
  rw [perpFit]
  simp only [hprior, hno]
  rcases hs with ⟨e, hle⟩ | ⟨d, hd, k, hk, e, hgt, hmax, hfd, hfk⟩
  · left
    refine ⟨?_, ?_⟩
    · intro d hd cut hcut
      obtain ⟨k, hk, _, _, hsc⟩ := hcutc d hd cut hcut
      rw [← hsc]; exact hle d hd k hk
    · simp only [e, hpost, hsh]
      rfl
  · right
    obtain ⟨a, b, hk1, ha, hb, hg, hmem, hsc⟩ := hcand d hd k hk
    rw [hsc] at hgt hmax hfd hfk e
    have hf := split_filters ho (hok' d hd) (hL d hd) hk1 ha hb hg
    have hspos := split_position ho (hok' d hd) (hL d hd) hk1 ha hb hg
    set L := (row0 :: rest).getD d [] with hLdef
    have hkl : k < L.length := by
      have := (List.getElem?_eq_some_iff.1 hb).1
      simpa using this
    have hlenL : L.length = R.length := (hL d hd).perm.length_eq
    have hr1 : (L.take k).Perm (c.rows1 R d (c.o.mid a b)) := hf.2.2.1
    have hr2 : (L.drop k).Perm (c.rows2 R d (c.o.mid a b)) := hf.2.2.2
    have hm1 : R.filter (fun i => decide (i ∈ L.take k)) = c.rows1 R d (c.o.mid a b) := by
      apply List.filter_congr
      intro i hi
      rw [Bool.eq_iff_iff]
      have := hr1.mem_iff (a := i)
      unfold Ctx.rows1 at this
      rw [List.mem_filter] at this
      simp only [decide_eq_true_eq, this, hi, true_and]
    have hm2 : R.filter (fun i => decide (i ∈ L.drop k)) = c.rows2 R d (c.o.mid a b) := by
      apply List.filter_congr
      intro i hi
      rw [Bool.eq_iff_iff]
      have := hr2.mem_iff (a := i)
      unfold Ctx.rows2 at this
      rw [List.mem_filter] at this
      simp only [decide_eq_true_eq, this, hi, true_and]
    have hg1 := hsid.restrict hpos (L.take k)
    have hg2 := hsid.restrict hpos (L.drop k)
    rw [hm1] at hg1
    rw [hm2] at hg2
    have hn1 := hg1.shape1 hpos
    have hn2 := hg2.shape1 hpos
    have hcp1 : (if c.hp.delta ≠ 0 then c.T.posterior ((L.take k).map c.y) (c.prior pa R) c.hp.delta
        else c.prior pa R) = c.childPrior (c.prior pa R) (c.rows1 R d (c.o.mid a b)) := by
      unfold Ctx.childPrior
      rw [hT.posterior_perm _ _ _ _ (hr1.map c.y)]; rfl
    have hcp2 : (if c.hp.delta ≠ 0 then c.T.posterior ((L.drop k).map c.y) (c.prior pa R) c.hp.delta
        else c.prior pa R) = c.childPrior (c.prior pa R) (c.rows2 R d (c.o.mid a b)) := by
      unfold Ctx.childPrior
      rw [hT.posterior_perm _ _ _ _ (hr2.map c.y)]; rfl
    have hp1 : c.T.posterior ((L.take k).map c.y) (c.prior pa R) 1 =
        c.T.posterior (c.ys (c.rows1 R d (c.o.mid a b))) (c.prior pa R) 1 :=
      hT.posterior_perm _ _ _ _ (hr1.map c.y)
    have hp2 : c.T.posterior ((L.drop k).map c.y) (c.prior pa R) 1 =
        c.T.posterior (c.ys (c.rows2 R d (c.o.mid a b))) (c.prior pa R) 1 :=
      hT.posterior_perm _ _ _ _ (hr2.map c.y)
    have hd1 := divisible_iff c hr1
    have hd2 := divisible_iff c hr2
    rw [hr1.length_eq] at hd1
    rw [hr2.length_eq] at hd2
    have hlast : ∃ i, (L.take k).getLast? = some i ∧ c.X i d = a := by
      rw [List.getElem?_map, Option.map_eq_some_iff] at ha
      obtain ⟨i, hi, hia⟩ := ha
      refine ⟨i, ?_, hia⟩
      rw [List.getLast?_eq_getElem?, List.length_take, min_eq_left hkl.le, List.getElem?_take,
        if_pos (by omega), hi]
    have hfirst : ∃ i, (L.drop k).head? = some i ∧ c.X i d = b := by
      rw [List.getElem?_map, Option.map_eq_some_iff] at hb
      obtain ⟨i, hi, hib⟩ := hb
      exact ⟨i, by rw [List.head?_drop, hi], hib⟩
    obtain ⟨last, hlast, hlastv⟩ := hlast
    obtain ⟨first, hfirst, hfirstv⟩ := hfirst
    have hbest : BestCut c pa lv R d (a, b) := by
      refine ⟨hd, hmem, hgt, ?_, ?_, ?_⟩
      · intro d' hd' cut' hcut'
        obtain ⟨k', hk', _, _, hsc'⟩ := hcutc d' hd' cut' hcut'
        rw [← hsc']; exact hmax d' hd' k' hk'
      · intro d' hd' cut' hcut'
        obtain ⟨k', hk', _, _, hsc'⟩ := hcutc d' (by omega) cut' hcut'
        rw [← hsc']; exact hfd d' hd' k' hk'
      · intro cut' hcut' hlt
        obtain ⟨k', hk', h1', h2', hsc'⟩ := hcutc d hd cut' hcut'
        rw [← hsc']
        apply hfk k' hk'
        by_contra hge
        -- the cut's lower value is then at or above `a`
        obtain ⟨a', b', hk1', ha', hb', hg', -, -⟩ := hcand d hd k' hk'
        rw [← hLdef, h1'] at ha'
        cases ha'
        rw [List.getElem?_map, Option.map_eq_some_iff] at h1' ha
        obtain ⟨i', hi', hv'⟩ := h1'
        obtain ⟨i, hi, hv⟩ := ha
        have hle' : c.o.le a cut'.1 = true := by
          rw [← hv, ← hv']
          rcases Nat.lt_or_eq_of_le (show k - 1 ≤ k' - 1 by omega) with h | h
          · have e1 := List.getElem?_eq_some_iff.1 hi
            have e2 := List.getElem?_eq_some_iff.1 hi'
            rw [← e1.2, ← e2.2]
            exact List.pairwise_iff_getElem.1 (hL d hd).sorted _ _ e1.1 e2.1 h
          · rw [h, hi'] at hi
            cases hi
            have hoki := hok' d hd i' ((hL d hd).perm.mem_iff.1 (List.mem_of_getElem? hi'))
            exact (ho.le_total _ _ hoki hoki).elim id id
        rw [hle'] at hlt
        exact absurd hlt (by simp)
    have hlen1 : (c.rows1 R d (c.o.mid a b)).length < R.length := by
      rw [← hr1.length_eq, List.length_take]; omega
    have hlen2 : (c.rows2 R d (c.o.mid a b)).length < R.length := by
      rw [← hr2.length_eq, List.length_drop]; omega
    have hc : ∀ (R' : List Nat) (sid' : List (List Nat)), ∃ r,
        childRes c fuel lv (c.prior pa R) R' sid' r := by
      intro R' sid'
      by_cases h : c.Divisible R'
      · exact ⟨_, Or.inl ⟨h, rfl⟩⟩
      · exact ⟨_, Or.inr ⟨h, rfl⟩⟩
    obtain ⟨r1, hres1⟩ := hc (c.rows1 R d (c.o.mid a b)) (restrictSid c.nDim (row0 :: rest) (L.take k))
    obtain ⟨r2, hres2⟩ := hc (c.rows2 R d (c.o.mid a b)) (restrictSid c.nDim (row0 :: rest) (L.drop k))
    refine ⟨d, (a, b), hbest, hlen1, hlen2, _, _, r1, r2, hg1, hg2, hres1, hres2, ?_⟩
    simp only [e, ← hLdef, hcp1, hcp2, hp1, hp2, hn1, hn2, hlast, hfirst, hpost, hsh]
    cases c.names[d]? with
    | none => rfl
    | some name =>
      simp only [hlastv, hfirstv]
      rcases hres1 with ⟨h1, rfl⟩ | ⟨h1, rfl⟩ <;> rcases hres2 with ⟨h2, rfl⟩ | ⟨h2, rfl⟩
      · rw [if_pos (hd1.2 h1), if_pos (hd2.2 h2)]; rfl
      · rw [if_pos (hd1.2 h1), if_neg (fun h => h2 (hd2.1 h))]; rfl
      · rw [if_neg (fun h => h1 (hd1.1 h)), if_pos (hd2.2 h2)]; rfl
      · rw [if_neg (fun h => h1 (hd1.1 h)), if_neg (fun h => h2 (hd2.1 h))]; rfl

/-- Soundness: whatever the fit returns is a greedy tree for the node's rows. -/
theorem perpFit_built (c : Ctx V K P S O) {ok : V → Prop}
    (ho : LawfulOps c.o ok c.hp.splitPrecision) (hT : LawfulTarget c.T c.pair) (hpos : 0 < c.nDim)
    (fuel : Nat) (par pa : Option P) (lv : Nat) (sid : List (List Nat)) (R : List Nat)
    (hsid : GoodSid c.o c.X c.nDim sid R) (hok : ∀ i ∈ R, ∀ d < c.nDim, ok (c.X i d))
    (hdiv : par.isSome → c.Divisible R) (t : PNode V S K P)
    (h : perpFit c.o c.T c.hp c.X c.y c.nDim c.names fuel pa lv sid = .ok t) :
    Built c par pa lv R t := by
  induction fuel generalizing par pa lv sid R t with
  | zero => simp [perpFit] at h
  | succ fuel ih =>
    rcases perpFit_step c ho hT fuel pa lv sid R hpos hsid hok with ⟨hno, e⟩ |
      ⟨d, cut, hb, -, -, sid1, sid2, r1, r2, hg1, hg2, hr1, hr2, e⟩
    · rw [e] at h
      cases h
      exact Built.stay par pa lv R hdiv hno
    · rw [e] at h
      cases hn : c.names[d]? with
      | none => rw [hn] at h; cases h
      | some name =>
        rw [hn] at h
        simp only at h
        have key : ∀ (R' : List Nat) (sid' : List (List Nat)) (r : Except Err (PNode V S K P)) (t' : PNode V S K P),
            (∀ i ∈ R', i ∈ R) → GoodSid c.o c.X c.nDim sid' R' →
            childRes c fuel lv (c.prior pa R) R' sid' r → r = .ok t' →
            Built c (some (c.prior pa R)) (some (c.childPrior (c.prior pa R) R')) (lv + 1) R' t' := by
          intro R' sid' r t' hsub hg hr ht
          rcases hr with ⟨hd, rfl⟩ | ⟨hd, rfl⟩
          · exact ih (some (c.prior pa R)) _ _ sid' R' hg (fun i hi => hok i (hsub i hi)) (fun _ => hd) _ ht
          · cases ht
            exact Built.direct _ _ _ _ hd
        cases r1 with
        | error e1 => cases h
        | ok c1 =>
          cases r2 with
          | error e2 => cases h
          | ok c2 =>
            cases h
            exact Built.split par pa lv R d cut name c1 c2 hdiv hb.hd hb.hcut hb.hgain hb.hmax
              hb.hfirstDim hb.hfirstCut hn
              (key _ _ _ _ (fun i hi => (List.mem_filter.1 hi).1) hg1 hr1 rfl)
              (key _ _ _ _ (fun i hi => (List.mem_filter.1 hi).1) hg2 hr2 rfl)

/-- Termination: with a name for every feature and fuel above the number of rows, a tree comes out. -/
theorem perpFit_total (c : Ctx V K P S O) {ok : V → Prop}
    (ho : LawfulOps c.o ok c.hp.splitPrecision) (hT : LawfulTarget c.T c.pair) (hpos : 0 < c.nDim)
    (hnames : c.nDim ≤ c.names.length)
    (fuel : Nat) (pa : Option P) (lv : Nat) (sid : List (List Nat)) (R : List Nat)
    (hsid : GoodSid c.o c.X c.nDim sid R) (hok : ∀ i ∈ R, ∀ d < c.nDim, ok (c.X i d))
    (hfuel : R.length < fuel) :
    ∃ t, perpFit c.o c.T c.hp c.X c.y c.nDim c.names fuel pa lv sid = .ok t := by
  induction fuel generalizing pa lv sid R with
  | zero => omega
  | succ fuel ih =>
    rcases perpFit_step c ho hT fuel pa lv sid R hpos hsid hok with ⟨hno, e⟩ |
      ⟨d, cut, hb, hl1, hl2, sid1, sid2, r1, r2, hg1, hg2, hr1, hr2, e⟩
    · exact ⟨_, e⟩
    · rw [e]
      have hd := hb.hd
      rw [List.getElem?_eq_getElem (show d < c.names.length by omega)]
      have key : ∀ (R' : List Nat) (sid' : List (List Nat)) (r : Except Err (PNode V S K P)),
          (∀ i ∈ R', i ∈ R) → R'.length < R.length → GoodSid c.o c.X c.nDim sid' R' →
          childRes c fuel lv (c.prior pa R) R' sid' r → ∃ t, r = .ok t := by
        intro R' sid' r hsub hlen hg hr
        rcases hr with ⟨hd, rfl⟩ | ⟨hd, rfl⟩
        · exact ih _ _ sid' R' hg (fun i hi => hok i (hsub i hi)) (by omega)
        · exact ⟨_, rfl⟩
      obtain ⟨c1, rfl⟩ := key _ _ _ (fun i hi => (List.mem_filter.1 hi).1) hl1 hg1 hr1
      obtain ⟨c2, rfl⟩ := key _ _ _ (fun i hi => (List.mem_filter.1 hi).1) hl2 hg2 hr2
      exact ⟨_, rfl⟩

omit [DecidableEq K] [Zero K] [One K] in
/-- The initial sort matrix is good. -/
theorem sortMatrix_good {o : XOps V K} {ok : V → Prop} {argsort : List V → List Nat}
    (ha : IsArgsort o.le ok argsort) (X : Nat → Nat → V) (n nDim : Nat)
    (hok : ∀ i < n, ∀ d < nDim, ok (X i d)) (hn : n ≤ 2 ^ 64) :
    GoodSid o X nDim (sortMatrix argsort X n nDim) (List.range n) := by
  have hb : n ≤ 2 ^ sortIndexBits n := by
    unfold sortIndexBits
    split
    · rename_i h; simp only [Nat.shiftLeft_eq] at h; omega
    · split
      · rename_i h; simp only [Nat.shiftLeft_eq] at h; omega
      · exact hn
  have hcol : ∀ d < nDim, ∀ x ∈ (List.range n).map (fun i => X i d), ok x := by
    intro d hd x hx
    obtain ⟨i, hi, rfl⟩ := List.mem_map.1 hx
    exact hok i (List.mem_range.1 hi) d hd
  have hperm : ∀ d < nDim, (argsort ((List.range n).map fun i => X i d)).Perm (List.range n) := by
    intro d hd
    simpa using ha.perm _ (hcol d hd)
  have hcast : ∀ d < nDim, castIndices n (argsort ((List.range n).map fun i => X i d)) =
      argsort ((List.range n).map fun i => X i d) := by
    intro d hd
    unfold castIndices
    conv_rhs => rw [← List.map_id (argsort _)]
    apply List.map_congr_left
    intro i hi
    have := List.mem_range.1 ((hperm d hd).mem_iff.1 hi)
    exact Nat.mod_eq_of_lt (by omega)
  have hget : ∀ d < nDim, (sortMatrix argsort X n nDim).getD d [] =
      argsort ((List.range n).map fun i => X i d) := by
    intro d hd
    unfold sortMatrix
    simp only [List.getD_eq_getElem?_getD, List.getElem?_map, List.getElem?_range hd, Option.map_some,
      Option.getD_some]
    exact hcast d hd
  refine ⟨by simp [sortMatrix], List.nodup_range, ?_, ?_⟩
  · intro d hd
    rw [hget d hd]; exact hperm d hd
  · intro d hd
    rw [hget d hd]
    refine (ha.sorted _ (hcol d hd)).imp_of_mem ?_
    intro i j hi hj h
    have hi' := List.mem_range.1 ((hperm d hd).mem_iff.1 hi)
    have hj' := List.mem_range.1 ((hperm d hd).mem_iff.1 hj)
    exact h _ _ (by simp [hi']) (by simp [hj'])

end

end BT
