import Verif.Model.Series
import Verif.Model.Real
import Verif.Lemmas.RealSample
import Verif.Props.Greedy

/-!
# C69: targets given as a pandas Series
-/

namespace BT
open Spec

set_option linter.unusedSectionVars false

section
variable {V K P S O : Type} [Field K] [LinearOrder K]

theorem Ser.locs_error {α : Type} (s : Ser α) : ∀ (l : List Nat) (e : Err), s.locs l = .error e → e = .keyError
  | [], e, h => by cases h
  | l :: ls, e, h => by
    rw [Ser.locs] at h
    cases h1 : s.loc l with
    | error e' =>
      rw [h1] at h
      injection h with h
      subst h
      unfold Ser.loc at h1
      split at h1
      · cases h1
      · injection h1 with h1; exact h1.symm
    | ok v =>
      rw [h1] at h
      dsimp only at h
      cases h2 : s.locs ls with
      | error e' =>
        rw [h2] at h
        injection h with h
        subst h
        exact Ser.locs_error s ls _ h2
      | ok r => rw [h2] at h; cases h

/-- The labels of `s[idx]` are the entries of `idx`. -/
theorem Ser.locs_labels {α : Type} (s : Ser α) : ∀ (l : List Nat) (r : Ser α), s.locs l = .ok r →
    r.labels = l.map fun (i : Nat) => (i : Int)
  | [], r, h => by
    injection h with h
    subst h; rfl
  | l :: ls, r, h => by
    rw [Ser.locs] at h
    cases h1 : s.loc l with
    | error e' => rw [h1] at h; cases h
    | ok v =>
      rw [h1] at h
      dsimp only at h
      cases h2 : s.locs ls with
      | error e' => rw [h2] at h; cases h
      | ok r' =>
        rw [h2] at h
        injection h with h
        subst h
        have := Ser.locs_labels s ls r' h2
        simp only [Ser.labels, List.map_cons] at *
        rw [this]

/-- A Series without the label `l`. -/
theorem Ser.loc_missing {α : Type} (s : Ser α) (l : Int) (h : l ∉ s.labels) : s.loc l = .error .keyError := by
  unfold Ser.loc
  have : s.lookup l = none := by
    rw [List.lookup_eq_none_iff]
    intro p hp
    have : l ≠ p.1 := fun e => h (by rw [e]; exact List.mem_map_of_mem hp)
    simpa using this
  rw [this]

/-- `k1_and_total[-1]` fails: the labels are row numbers. -/
theorem clsLogSplitSer_keyError (F : Fns K) (pp : K) (lv : Nat) (y r : Ser K) (idx : List Nat)
    (hr : y.locs idx = .ok r) (prior : List K) (hp : prior ≠ []) (nDim : Nat) (si : List Nat) :
    clsLogSplitSer F pp lv r prior nDim si = .error .keyError := by
  have hm : ∀ i, clsCountsSer r si i = .error .keyError := by
    intro i
    unfold clsCountsSer
    dsimp only
    rw [Ser.loc_missing]
    intro h
    unfold Ser.withVals Ser.labels at h
    obtain ⟨p, hp, e⟩ := List.mem_map.1 h
    have := (List.of_mem_zip hp).1
    rw [show List.map Prod.fst r = r.labels from rfl, Ser.locs_labels y idx r hr, e] at this
    obtain ⟨j, _, hj⟩ := List.mem_map.1 this
    omega
  unfold clsLogSplitSer
  obtain ⟨m, hm'⟩ : ∃ m, prior.length = m + 1 :=
    ⟨prior.length - 1, by have := List.length_pos_iff.2 hp; omega⟩
  rw [hm', List.range_succ_eq_map, List.mapM_cons, hm]
  rfl

/-- A candidate split exists in dimension `d` of the sorted data. -/
def HasCandidate (o : XOps V K) (prec : K) (X : Nat → Nat → V) (sid : List (List Nat)) (d : Nat) : Prop :=
  splitIndices o prec ((sid.getD d []).map fun i => X i d) ≠ []

theorem searchDimSer_keyError (F : Fns K) (o : XOps V K) (hp : Hyper K) (lv : Nat) (X : Nat → Nat → V)
    (y : Ser K) (nDim : Nat) (prior : List K) (hprior : prior ≠ []) (sid : List (List Nat)) (b : Best K)
    (d : Nat) (h : HasCandidate o hp.splitPrecision X sid d) :
    searchDimSer o (clsSer F) hp lv X y nDim prior sid b d = .error .keyError := by
  unfold searchDimSer
  dsimp only
  rw [if_neg (by rw [List.length_eq_zero_iff]; exact h)]
  cases hl : y.locs (sid.getD d []) with
  | error e => rw [Ser.locs_error y _ e hl]
  | ok r =>
    dsimp only
    rw [show (clsSer F).logSplit = clsLogSplitSer F from rfl,
      clsLogSplitSer_keyError F _ _ y r _ hl prior hprior]

theorem searchDimSer_none (T : SerTarget K P S O) [LinearOrder S] (o : XOps V K) (hp : Hyper K) (lv : Nat)
    (X : Nat → Nat → V) (y : Ser K) (nDim : Nat) (prior : P) (sid : List (List Nat)) (b : Best S) (d : Nat)
    (h : ¬ HasCandidate o hp.splitPrecision X sid d) :
    searchDimSer o T hp lv X y nDim prior sid b d = .ok b := by
  unfold searchDimSer
  dsimp only
  unfold HasCandidate at h
  rw [if_pos (by rw [List.length_eq_zero_iff]; exact not_not.1 h)]

theorem searchSer_keyError (F : Fns K) (o : XOps V K) (hp : Hyper K) (lv : Nat) (X : Nat → Nat → V)
    (y : Ser K) (nDim : Nat) (prior : List K) (hprior : prior ≠ []) (sid : List (List Nat)) :
    ∀ (ds : List Nat) (b : Best K), (∃ d ∈ ds, HasCandidate o hp.splitPrecision X sid d) →
      ds.foldlM (searchDimSer o (clsSer F) hp lv X y nDim prior sid) b = .error .keyError
  | [], _, h => by obtain ⟨d, hd, _⟩ := h; cases hd
  | d :: ds, b, h => by
    rw [List.foldlM_cons]
    by_cases hd : HasCandidate o hp.splitPrecision X sid d
    · rw [searchDimSer_keyError F o hp lv X y nDim prior hprior sid b d hd]; rfl
    · rw [searchDimSer_none (clsSer F) o hp lv X y nDim prior sid b d hd]
      obtain ⟨e, he, hc⟩ := h
      rcases List.mem_cons.1 he with rfl | he
      · exact absurd hc hd
      · exact searchSer_keyError F o hp lv X y nDim prior hprior sid ds b ⟨e, he, hc⟩

/-- C69, classification: whenever two rows differ in some feature by more than the split precision, the
fit with a Series as target raises `KeyError`, whatever its labels and values. -/
theorem C69_classification (F : Fns K) (o : XOps V K) (argsort : List V → List Nat) (hp : Hyper K)
    (prior : List K) (hprior : prior ≠ []) (X : Nat → Nat → V) (y : Ser K) (nDim : Nat)
    (names : List String) (d : Nat) (hd : d < nDim)
    (hc : HasCandidate o hp.splitPrecision X (sortMatrix argsort X y.length nDim) d) :
    perpFitRootSer o (clsSer F) argsort hp (some prior) X y nDim names = .error .keyError := by
  unfold perpFitRootSer
  rw [perpFitSer.eq_def]
  dsimp only
  cases hs : sortMatrix argsort X y.length nDim with
  | nil =>
    unfold sortMatrix at hs
    rw [List.map_eq_nil_iff, List.range_eq_nil] at hs
    omega
  | cons row0 rest =>
    dsimp only
    cases hl : y.locs row0 with
    | error e => rw [Ser.locs_error y _ e hl]
    | ok r =>
      dsimp only
      rw [show (clsSer F).base.getPrior (some prior) (shape1 (row0 :: rest)) nDim = prior from rfl,
        searchSer_keyError F o hp 0 X y nDim prior hprior (row0 :: rest) (List.range nDim) _
        ⟨d, List.mem_range.2 hd, hs ▸ hc⟩]

theorem all_equal_of_neighbours : ∀ (xs : List K), (∀ p ∈ xs.zip xs.tail, p.1 = p.2) →
    ∀ a ∈ xs, ∀ b ∈ xs, a = b
  | [], _, a, ha, _, _ => by cases ha
  | [x], _, a, ha, b, hb => by
    rw [List.mem_singleton] at ha hb
    rw [ha, hb]
  | x :: z :: l, h, a, ha, b, hb => by
    have hxz : x = z := h (x, z) (by simp)
    have ih := all_equal_of_neighbours (z :: l) fun p hp => h p (by
      simp only [List.tail_cons, List.zip_cons_cons, List.mem_cons]
      exact .inr hp)
    have hz : ∀ c ∈ x :: z :: l, c = z := by
      intro c hc
      rcases List.mem_cons.1 hc with rfl | hc
      · exact hxz
      · exact ih c hc z (by simp)
    rw [hz a ha, hz b hb]

/-- With exact arithmetic and precision 0, two rows with different values of feature `d` make a candidate
split. -/
theorem hasCandidate_of_ne [IsStrictOrderedRing K] {argsort : List K → List Nat}
    (hs : IsArgsort (exactOps K).le (fun _ => True) argsort) (X : Nat → Nat → K) {n nDim d i j : Nat}
    (hn : n < 2 ^ 64) (hd : d < nDim) (hi : i < n) (hj : j < n) (hij : X i d ≠ X j d) :
    HasCandidate (exactOps K) 0 X (sortMatrix argsort X n nDim) d := by
  intro he
  have hrow : (sortMatrix argsort X n nDim).getD d [] =
      castIndices n (argsort ((List.range n).map fun i => X i d)) := by
    rw [List.getD_eq_getElem?_getD]
    unfold sortMatrix
    rw [List.getElem?_map, List.getElem?_range hd]
    rfl
  have hperm := hs.perm ((List.range n).map fun i => X i d) fun _ _ => trivial
  rw [List.length_map, List.length_range] at hperm
  have hcast : castIndices n (argsort ((List.range n).map fun i => X i d)) =
      argsort ((List.range n).map fun i => X i d) := by
    exact (C41_index_dtype n hn.le _ fun a ha => List.mem_range.1 (hperm.subset ha)).1
  rw [hrow, hcast] at he
  unfold splitIndices at he
  rw [List.map_eq_nil_iff] at he
  refine hij (all_equal_of_neighbours _ ?_ _ (List.mem_map_of_mem (f := fun i => X i d)
    (hperm.mem_iff.2 (List.mem_range.2 hi))) _ (List.mem_map_of_mem (f := fun i => X i d)
    (hperm.mem_iff.2 (List.mem_range.2 hj))))
  intro p hp
  obtain ⟨k, hk, rfl⟩ := List.getElem_of_mem hp
  by_contra hne
  have : k ∈ npWhere ((((argsort ((List.range n).map fun i => X i d)).map fun i => X i d).zip
      ((argsort ((List.range n).map fun i => X i d)).map fun i => X i d).tail).map
        fun p => (exactOps K).gap 0 p.1 p.2) := by
    unfold npWhere
    rw [List.mem_filter, List.mem_range, List.length_map, List.getD_eq_getElem?_getD, List.getElem?_map,
      List.getElem?_eq_getElem hk]
    refine ⟨hk, ?_⟩
    simp only [Option.map_some, Option.getD_some, exactOps, decide_eq_true_eq, abs_pos]
    exact sub_ne_zero.2 (Ne.symm hne)
  rw [he] at this
  cases this

/-- C69, classification, in terms of the data: with the default split precision, a Series as target makes
every fit fail on data in which some feature takes two values. -/
theorem C69_classification_data [IsStrictOrderedRing K] (F : Fns K) (argsort : List K → List Nat)
    (hs : IsArgsort (exactOps K).le (fun _ => True) argsort) (hp : Hyper K) (h0 : hp.splitPrecision = 0)
    (prior : List K) (hprior : prior ≠ []) (X : Nat → Nat → K) (y : Ser K) (nDim : Nat)
    (names : List String) (hn : y.length < 2 ^ 64) (d i j : Nat) (hd : d < nDim) (hi : i < y.length)
    (hj : j < y.length) (hij : X i d ≠ X j d) :
    perpFitRootSer (exactOps K) (clsSer F) argsort hp (some prior) X y nDim names = .error .keyError :=
  C69_classification F _ argsort hp prior hprior X y nDim names d hd
    (h0 ▸ hasCandidate_of_ne hs X hn hd hi hj hij)

theorem rangeSeries_loc (y : Nat → K) (n i : Nat) (hi : i < n) :
    (rangeSeries y n).loc i = .ok (y i) := by
  have : ∀ l : List Nat, i ∈ l →
      List.lookup (i : Int) (l.map fun (j : Nat) => ((j : Int), y j)) = some (y i) := by
    intro l
    induction l with
    | nil => intro h; cases h
    | cons a l ih =>
      intro h
      rw [List.map_cons, List.lookup_cons]
      by_cases e : i = a
      · subst e; simp
      · have : ((i : Int) == (a : Int)) = false := by
          simp only [beq_eq_false_iff_ne]; exact_mod_cast e
        rw [this]
        exact ih ((List.mem_cons.1 h).resolve_left e)
  unfold Ser.loc rangeSeries
  rw [this _ (List.mem_range.2 hi)]

theorem rangeSeries_locs (y : Nat → K) (n : Nat) : ∀ l : List Nat, (∀ i ∈ l, i < n) →
    (rangeSeries y n).locs l = .ok (l.map fun (i : Nat) => ((i : Int), y i))
  | [], _ => rfl
  | i :: l, h => by
    rw [Ser.locs, rangeSeries_loc y n i (h i (by simp)),
      rangeSeries_locs y n l fun j hj => h j (by simp [hj])]
    rfl

theorem searchDim_none (T : Target K P S O) [LinearOrder S] (o : XOps V K) (hp : Hyper K) (lv : Nat)
    (X : Nat → Nat → V) (y : Nat → K) (nDim : Nat) (prior : P) (sid : List (List Nat)) (b : Best S) (d : Nat)
    (h : ¬ HasCandidate o hp.splitPrecision X sid d) :
    searchDim o T hp lv X y nDim prior sid b d = b := by
  unfold searchDim
  dsimp only
  unfold HasCandidate at h
  rw [if_pos (by rw [List.length_eq_zero_iff]; exact not_not.1 h)]

/-- C69, partial: if no split is possible (all features constant up to the split precision), then the fit
on `pd.Series(y)` gives the same leaf as the fit on the array.  Missing: everything else, where
classification always fails (`C69_classification`) and regression may fail (`C69_refuted`). -/
theorem C69_leaf_partial [LinearOrder S] (T : SerTarget K P S O) (o : XOps V K) (argsort : List V → List Nat)
    (hs : ∀ l, ∀ i ∈ argsort l, i < l.length) (hp : Hyper K) (prior : Option P) (X : Nat → Nat → V)
    (y : Nat → K) (n nDim : Nat) (names : List String)
    (hc : ∀ d, d < nDim → ¬ HasCandidate o hp.splitPrecision X (sortMatrix argsort X n nDim) d) :
    perpFitRootSer o T argsort hp prior X (rangeSeries y n) nDim names =
      perpFitRoot o T.base argsort hp prior X y n nDim names := by
  have hlen : (rangeSeries y n).length = n := by simp [rangeSeries]
  unfold perpFitRootSer perpFitRoot
  rw [hlen, perpFitSer.eq_def, perpFit.eq_def]
  dsimp only
  cases hm : sortMatrix argsort X n nDim with
  | nil => rfl
  | cons row0 rest =>
    have hrow : ∀ i ∈ row0, i < n := by
      intro i hi
      have hmem : row0 ∈ sortMatrix argsort X n nDim := by rw [hm]; simp
      unfold sortMatrix at hmem
      obtain ⟨d, _, rfl⟩ := List.mem_map.1 hmem
      unfold castIndices at hi
      obtain ⟨j, hj, rfl⟩ := List.mem_map.1 hi
      have := hs _ j hj
      simp only [List.length_map, List.length_range] at this
      exact (Nat.mod_le _ _).trans_lt this
    dsimp only
    rw [rangeSeries_locs y n row0 hrow]
    dsimp only
    have hv : (row0.map fun (i : Nat) => ((i : Int), y i)).map Prod.snd = row0.map y := by
      rw [List.map_map]; rfl
    unfold Ser.vals
    rw [hv]
    have f1 : ∀ (ds : List Nat) (b : Best S) (pr : P), (∀ d ∈ ds, d < nDim) →
        ds.foldlM (searchDimSer o T hp 0 X (rangeSeries y n) nDim pr (row0 :: rest)) b = .ok b := by
      intro ds
      induction ds with
      | nil => intros; rfl
      | cons d ds ih =>
        intro b pr h
        rw [List.foldlM_cons, searchDimSer_none T o hp 0 X _ nDim pr _ b d
          (hm ▸ hc d (h d (by simp)))]
        exact ih b pr fun e he => h e (by simp [he])
    have f2 : ∀ (ds : List Nat) (b : Best S) (pr : P), (∀ d ∈ ds, d < nDim) →
        ds.foldl (searchDim o T.base hp 0 X y nDim pr (row0 :: rest)) b = b := by
      intro ds
      induction ds with
      | nil => intros; rfl
      | cons d ds ih =>
        intro b pr h
        rw [List.foldl_cons, searchDim_none T.base o hp 0 X _ nDim pr _ b d (hm ▸ hc d (h d (by simp)))]
        exact ih b pr fun e he => h e (by simp [he])
    rw [f1 _ _ _ fun d hd => List.mem_range.1 hd, f2 _ _ _ fun d hd => List.mem_range.1 hd]
    rfl

/-- C69, regression: two rows in descending order of the only feature.  The scores are labelled `[1]`,
the position of the best one is 0: `KeyError`. -/
theorem C69_regression_two [IsStrictOrderedRing K] (F : Fns K) (argsort : List K → List Nat)
    (hs : argsort [1, 0] = [1, 0]) (hp : Hyper K) (h0 : hp.splitPrecision = 0) (prior : Option (NG K))
    (y : Nat → K) (names : List String) :
    perpFitRootSer (exactOps K) (regSer F) argsort hp prior (fun i _ => if i = 0 then 1 else 0)
      (rangeSeries y 2) 1 names = .error .keyError := by
  have hsid : sortMatrix argsort (fun i _ => if i = 0 then (1 : K) else 0) 2 1 = [[1, 0]] := by
    simp [sortMatrix, List.range_succ, hs, castIndices, sortIndexBits]
  have hsi : splitIndices (exactOps K) 0 [(0 : K), 1] = [1] := by
    simp [splitIndices, npWhere, exactOps, List.range_succ]
  have hlen : (rangeSeries y 2).length = 2 := by simp [rangeSeries]
  unfold perpFitRootSer
  rw [hlen, hsid, perpFitSer]
  dsimp only
  rw [rangeSeries_locs y 2 [1, 0] (by simp)]
  dsimp only
  rw [show List.range 1 = [0] from rfl, List.foldlM_cons]
  unfold searchDimSer
  simp only [List.getD_cons_zero, List.map_cons, List.map_nil, h0, hsi, one_ne_zero, if_false, if_true,
    List.length_cons, List.length_nil, zero_add]
  rw [rangeSeries_locs y 2 [1, 0] (by simp)]
  simp [regSer, regLogSplitSer, Ser.vals, Ser.labels, Ser.withVals, Ser.loc, cumsum, cumsumFrom, argmax,
    argmaxAux, bind, Except.bind, List.lookup]

/-- C69, regression: two rows in ascending order of the only feature.  The label of the best score is its
position, and the fit is that of the array. -/
theorem C69_regression_ascending_partial [IsStrictOrderedRing K] (F : Fns K) (argsort : List K → List Nat) (a b : K)
    (hab : a < b) (hs : argsort [a, b] = [0, 1]) (hp : Hyper K) (h0 : hp.splitPrecision = 0) (prior : Option (NG K))
    (y : Nat → K) (names : List String) :
    perpFitRootSer (exactOps K) (regSer F) argsort hp prior (fun i _ => if i = 0 then a else b)
      (rangeSeries y 2) 1 names =
    perpFitRoot (exactOps K) (regTarget F) argsort hp prior (fun i _ => if i = 0 then a else b) y 2 1 names := by
  have hsid : sortMatrix argsort (fun i _ => if i = 0 then a else b) 2 1 = [[0, 1]] := by
    simp [sortMatrix, List.range_succ, hs, castIndices, sortIndexBits]
  have hsi : splitIndices (exactOps K) 0 [a, b] = [1] := by
    simp [splitIndices, npWhere, exactOps, List.range_succ, sub_ne_zero.2 hab.ne']
  have hlen : (rangeSeries y 2).length = 2 := by simp [rangeSeries]
  unfold perpFitRootSer perpFitRoot
  rw [hlen, hsid, perpFitSer, perpFit]
  dsimp only
  rw [rangeSeries_locs y 2 [0, 1] (by simp)]
  dsimp only
  rw [show List.range 1 = [0] from rfl, List.foldlM_cons, List.foldl_cons, List.foldl_nil]
  have hx : ([0, 1].map fun i => (if i = 0 then a else b : K)) = [a, b] := by simp
  have e1 := rangeSeries_locs y 2 [0, 1] (by simp)
  have e2 := rangeSeries_locs y 2 [0] (by simp)
  have e3 := rangeSeries_locs y 2 [1] (by simp)
  have hk : ∀ (pr : NG K) (bst : Best K), searchDimSer (exactOps K) (regSer F) hp 0 (fun i _ => if i = 0 then a else b)
      (rangeSeries y 2) 1 pr [[0, 1]] bst 0 = .ok (searchDim (exactOps K) (regTarget F) hp 0
        (fun i _ => if i = 0 then a else b) y 1 pr [[0, 1]] bst 0) := by
    intro pr bst
    unfold searchDimSer searchDim
    simp only [List.getD_cons_zero, hx, h0, hsi]
    rw [e1]
    simp [regSer, regTarget, regLogSplitSer, regLogSplit, Ser.vals, Ser.labels, Ser.withVals, Ser.loc, cumsum, cumsumFrom,
      argmax, argmaxAux, List.lookup]
    split_ifs <;> rfl
  have hsp : ∀ (pr : NG K) (v : K), (searchDim (exactOps K) (regTarget F) hp 0 (fun i _ => if i = 0 then a else b) y 1 pr
      [[0, 1]] ⟨v, none⟩ 0).split = none ∨ (searchDim (exactOps K) (regTarget F) hp 0
        (fun i _ => if i = 0 then a else b) y 1 pr [[0, 1]] ⟨v, none⟩ 0).split = some (0, 1) := by
    intro pr v
    unfold searchDim
    simp only [List.getD_cons_zero, hx, h0, hsi]
    simp only [regTarget, regLogSplit, List.length_cons, List.length_nil, argmax, List.range_succ, List.range_zero,
      List.nil_append, List.map_cons, List.map_nil, argmaxAux, zero_add, one_ne_zero, if_false, List.getElem?_cons_zero]
    split_ifs <;> first | exact Or.inl rfl | exact Or.inr rfl
  have hv : Ser.vals ([0, 1].map fun i : Nat => ((i : Int), y i)) = [0, 1].map y := rfl
  simp only [bind, Except.bind, List.foldlM_nil, pure, Except.pure, hk, hv, show (regSer F).base = regTarget F from rfl]
  have h1 := hsp ((regTarget F).getPrior prior (shape1 [[0, 1]]) 1) ((regTarget F).logNoSplit hp.partitionPrior 0
    ([0, 1].map y) ((regTarget F).getPrior prior (shape1 [[0, 1]]) 1))
  generalize searchDim (exactOps K) (regTarget F) hp 0 (fun i _ => if i = 0 then a else b) y 1
    ((regTarget F).getPrior prior (shape1 [[0, 1]]) 1) [[0, 1]] ⟨(regTarget F).logNoSplit hp.partitionPrior 0
    ([0, 1].map y) ((regTarget F).getPrior prior (shape1 [[0, 1]]) 1), none⟩ 0 = B at h1 ⊢
  rcases h1 with h1 | h1
  · rw [h1]
  · rw [h1]
    have r1 : shape1 (restrictSid 1 [[0, 1]] [0]) = 1 := by decide
    have r2 : shape1 (restrictSid 1 [[0, 1]] [1]) = 1 := by decide
    simp only [List.getD_cons_zero, List.take_succ_cons, List.take_zero, List.drop_succ_cons, List.drop_zero, e2, e3, r1, r2,
      gt_iff_lt, lt_irrefl, false_and, if_false]
    cases names[0]? <;> rfl

end

/-- The claim of C69: a Series with the default index gives the tree of the array. -/
def C69_claim : Prop :=
  ∀ (argsort : List ℝ → List Nat), IsArgsort (exactOps ℝ).le (fun _ => True) argsort →
  ∀ (hp : Hyper ℝ) (prior : Option (NG ℝ)) (X : Nat → Nat → ℝ) (y : Nat → ℝ) (n nDim : Nat)
    (names : List String),
    perpFitRootSer (exactOps ℝ) (regSer realFns) argsort hp prior X (rangeSeries y n) nDim names =
      perpFitRoot (exactOps ℝ) (regTarget realFns) argsort hp prior X y n nDim names

/-- C69 as claimed is false of the code. -/
theorem C69_refuted : ¬ C69_claim := by
  intro h
  have h1 := h realSort realSort_spec ⟨1 / 2, 0, false, 0⟩ none (fun i _ => if i = 0 then 1 else 0)
    (fun i => i) 2 1 ["x0"]
  rw [C69_regression_two realFns realSort (by
    simp [realSort, insArgsort, insPos, exactOps, List.range_succ]) _ rfl none] at h1
  have hv : Valid (fun _ => True) (⟨exactOps ℝ, regTarget realFns, regPair realFns, ⟨1 / 2, 0, false, 0⟩,
      fun i _ => if i = 0 then 1 else 0, fun i => i, 1, ["x0"]⟩ : Ctx ℝ ℝ (NG ℝ) ℝ ℝ) realSort 2 :=
    { ops := exact_lawful (le_refl _), target := reg_lawful realFns, sort := realSort_spec,
      dims := Nat.zero_lt_one, rows := by decide, vals := fun _ _ _ _ => trivial }
  obtain ⟨t, ht⟩ := C12_fit_terminates hv none (by simp)
  unfold fitIn at ht
  dsimp only at ht
  rw [ht] at h1
  cases h1

/-- Also the claim for classification is false. -/
theorem C69_refuted_classification :
    ∃ (argsort : List ℝ → List Nat) (hp : Hyper ℝ) (X : Nat → Nat → ℝ) (y : Nat → ℝ) (t : PNode ℝ ℝ ℝ (List ℝ)),
      IsArgsort (exactOps ℝ).le (fun _ => True) argsort ∧
      perpFitRoot (exactOps ℝ) (clsTarget realFns) argsort hp (some [1, 1]) X y 2 1 ["x0"] = .ok t ∧
      perpFitRootSer (exactOps ℝ) (clsSer realFns) argsort hp (some [1, 1]) X (rangeSeries y 2) 1 ["x0"] =
        .error .keyError := by
  have hv : Valid (fun _ => True) (⟨exactOps ℝ, clsTarget realFns, clsPair realFns, ⟨1 / 2, 0, false, 0⟩,
      fun i _ => (i : ℝ), fun i => i, 1, ["x0"]⟩ : Ctx ℝ ℝ (List ℝ) ℝ (List ℝ)) realSort 2 :=
    { ops := exact_lawful (le_refl _), target := cls_lawful realFns, sort := realSort_spec,
      dims := Nat.zero_lt_one, rows := by decide, vals := fun _ _ _ _ => trivial }
  obtain ⟨t, ht⟩ := C12_fit_terminates hv (some [1, 1]) (by simp)
  refine ⟨realSort, ⟨1 / 2, 0, false, 0⟩, fun i _ => i, fun i => i, t, realSort_spec, ht, ?_⟩
  refine C69_classification_data realFns realSort realSort_spec _ rfl [1, 1] (by simp) _ _ 1 _ ?_ 0 0 1
    Nat.zero_lt_one ?_ ?_ ?_ <;> simp [rangeSeries]

/-- Two rows in ascending order, and a sorting routine that leaves them there. -/
example : (0 : ℝ) < 1 ∧ realSort [0, 1] = [0, 1] :=
  ⟨one_pos, by simp [realSort, insArgsort, insPos, exactOps, List.range_succ]⟩

end BT
