import Verif.Lemmas.Noise
import Verif.Spec.RegScore

/-!
# Fits whose scores may be NaN or infinite in principle but are numbers
-/

namespace BT
open Spec

set_option linter.unusedSectionVars false

section
variable {V K P O : Type} [Field K] [LinearOrder K]

/-- The number, 0 if there is none. -/
def XF.num : XF K → K
  | .fin a => a
  | _ => 0

/-- The same methods with scores that are numbers. -/
def Target.num (T : Target K P (XF K) O) : Target K P K O where
  getPrior := T.getPrior
  logNoSplit pp lv y p := (T.logNoSplit pp lv y p).num
  logSplit pp lv y p nd si := (T.logSplit pp lv y p nd si).map XF.num
  posterior := T.posterior
  predictLeaf := T.predictLeaf
  posteriorMean := T.posteriorMean

/-- All scores of training rows are numbers. -/
structure Finite (T : Target K P (XF K) O) (hp : Hyper K) (y : Nat → K) (n nDim : Nat) (prior : P) : Prop where
  given : ∀ m, T.getPrior (some prior) m nDim = prior
  stay : ∀ lv L, lv < n → RowList n L → ∃ v, T.logNoSplit hp.partitionPrior lv (L.map y) prior = .fin v
  split : ∀ lv L si, lv < n → RowList n L → (∀ k ∈ si, 1 ≤ k ∧ k < L.length) → si.Pairwise (· < ·) →
    ∀ s ∈ T.logSplit hp.partitionPrior lv (L.map y) prior nDim si, ∃ v, s = .fin v

theorem XF.fin_lt_fin {a b : K} : (XF.fin a < XF.fin b) ↔ a < b := by
  show XF.lt (.fin a) (.fin b) = true ↔ _
  simp [XF.lt]

theorem argmaxAux_fin (x : K) (l : List K) :
    argmaxAux (XF.fin x) (l.map XF.fin) = ((argmaxAux x l).1, XF.fin (argmaxAux x l).2) := by
  induction l generalizing x with
  | nil => rfl
  | cons y l ih =>
    simp only [List.map_cons, argmaxAux]
    rw [ih y]
    by_cases h : x < (argmaxAux y l).2
    · rw [if_pos h, if_pos (XF.fin_lt_fin.2 h)]
    · rw [if_neg h, if_neg (fun h' => h (XF.fin_lt_fin.1 h'))]

theorem argmax_fin (l : List K) : argmax (l.map XF.fin) = argmax l := by
  cases l with
  | nil => rfl
  | cons x l => simp only [List.map_cons, argmax]; rw [argmaxAux_fin]

theorem map_num {l : List (XF K)} (h : ∀ s ∈ l, ∃ v, s = .fin v) : (l.map XF.num).map XF.fin = l := by
  rw [List.map_map]
  conv_rhs => rw [← List.map_id l]
  refine List.map_congr_left fun s hs => ?_
  obtain ⟨v, rfl⟩ := h s hs
  rfl

variable (o : XOps V K) (T : Target K P (XF K) O) (hp : Hyper K) (lv : Nat) (X : Nat → Nat → V) (y : Nat → K)
  (nDim : Nat) (prior : P) (sid : List (List Nat))

theorem searchDim_fin (s : K) (sp : Option (Nat × Nat)) (d : Nat)
    (h : ∀ s ∈ T.logSplit hp.partitionPrior lv ((sid.getD d []).map y) prior nDim
      (splitIndices o hp.splitPrecision ((sid.getD d []).map fun i => X i d)), ∃ v, s = .fin v) :
    searchDim o T hp lv X y nDim prior sid ⟨.fin s, sp⟩ d =
      ⟨.fin (searchDim o T.num hp lv X y nDim prior sid ⟨s, sp⟩ d).score,
        (searchDim o T.num hp lv X y nDim prior sid ⟨s, sp⟩ d).split⟩ := by
  unfold searchDim
  simp only
  have e : T.num.logSplit hp.partitionPrior lv ((sid.getD d []).map y) prior nDim
      (splitIndices o hp.splitPrecision ((sid.getD d []).map fun i => X i d)) =
      (T.logSplit hp.partitionPrior lv ((sid.getD d []).map y) prior nDim
      (splitIndices o hp.splitPrecision ((sid.getD d []).map fun i => X i d))).map XF.num := rfl
  rw [e]
  rw [← map_num h]
  generalize (T.logSplit hp.partitionPrior lv ((sid.getD d []).map y) prior nDim
      (splitIndices o hp.splitPrecision ((sid.getD d []).map fun i => X i d))).map XF.num = l
  have e2 : (l.map XF.fin).map XF.num = l := by
    rw [List.map_map]; conv_rhs => rw [← List.map_id l]
    rfl
  rw [e2, argmax_fin, List.getElem?_map]
  split
  · rfl
  · cases l[argmax l]? with
    | none => rfl
    | some v =>
      cases (splitIndices o hp.splitPrecision ((sid.getD d []).map fun i => X i d))[argmax l]? with
      | none => rfl
      | some k =>
        simp only [Option.map_some]
        by_cases hlt : s < v
        · rw [if_pos hlt, if_pos (XF.fin_lt_fin.2 hlt)]
        · rw [if_neg hlt, if_neg (fun h' => hlt (XF.fin_lt_fin.1 h'))]

theorem search_fin (s : K) (m : Nat)
    (h : ∀ d < m, ∀ s ∈ T.logSplit hp.partitionPrior lv ((sid.getD d []).map y) prior nDim
      (splitIndices o hp.splitPrecision ((sid.getD d []).map fun i => X i d)), ∃ v, s = .fin v) :
    (List.range m).foldl (searchDim o T hp lv X y nDim prior sid) ⟨.fin s, none⟩ =
      ⟨.fin ((List.range m).foldl (searchDim o T.num hp lv X y nDim prior sid) ⟨s, none⟩).score,
        ((List.range m).foldl (searchDim o T.num hp lv X y nDim prior sid) ⟨s, none⟩).split⟩ := by
  induction m with
  | zero => rfl
  | succ m ih =>
    rw [List.range_succ, List.foldl_append, List.foldl_append, ih fun d hd => h d (by omega)]
    simp only [List.foldl_cons, List.foldl_nil]
    exact searchDim_fin o T hp lv X y nDim prior sid _ _ m (h m (by omega))

/-- The chosen split is one of the candidates. -/
theorem search_mem {S : Type} [LT S] [DecidableLT S] (T : Target K P S O) (s : S) (m d k : Nat)
    (h : ((List.range m).foldl (searchDim o T hp lv X y nDim prior sid) ⟨s, none⟩).split = some (d, k)) :
    d < m ∧ k ∈ splitIndices o hp.splitPrecision ((sid.getD d []).map fun i => X i d) := by
  induction m with
  | zero => cases h
  | succ m ih =>
    rw [List.range_succ, List.foldl_append] at h
    simp only [List.foldl_cons, List.foldl_nil] at h
    generalize (List.range m).foldl (searchDim o T hp lv X y nDim prior sid) ⟨s, none⟩ = b at h ih
    have key : b.split = some (d, k) → d < m + 1 ∧
        k ∈ splitIndices o hp.splitPrecision ((sid.getD d []).map fun i => X i d) := fun hb => by
      obtain ⟨h1, h2⟩ := ih hb
      exact ⟨by omega, h2⟩
    unfold searchDim at h
    simp only at h
    split at h
    · exact key h
    · split at h
      · rename_i s' k' hs' hk'
        split at h
        · cases h
          exact ⟨by omega, List.mem_of_getElem? hk'⟩
        · exact key h
      · exact key h

variable {o T hp X y nDim prior} {n : Nat}

/-- Restricting the rows to a part of one dimension's order. -/
theorem rowList_part {L R A B : List Nat} (hR : RowList n R) (hL : L.Perm R) (hA : A ≠ []) (hB : B ≠ [])
    (hsA : ∀ i ∈ A, i ∈ L) (hsB : ∀ i ∈ B, i ∈ L) (hd : A.Disjoint B) :
    RowList n (R.filter fun i => decide (i ∈ A)) ∧ (R.filter fun i => decide (i ∈ A)).length < R.length := by
  obtain ⟨a, ha⟩ := List.exists_mem_of_ne_nil A hA
  obtain ⟨b, hb⟩ := List.exists_mem_of_ne_nil B hB
  refine ⟨⟨?_, hR.2.1.filter _, fun i hi => hR.2.2 i (List.mem_filter.1 hi).1⟩, ?_⟩
  · exact List.ne_nil_of_mem (a := a) (List.mem_filter.2 ⟨hL.mem_iff.1 (hsA a ha), by simpa using ha⟩)
  · rw [List.length_filter_lt_length_iff_exists]
    exact ⟨b, hL.mem_iff.1 (hsB b hb), by simpa using fun h => hd h hb⟩

/-- Then the fit is the one with the scores as numbers. -/
theorem perpFit_fin (hf : Finite T hp y n nDim prior) (hδ : hp.delta = 0) (names : List String) (hpos : 0 < nDim)
    (fuel lv : Nat) (sid : List (List Nat)) (R : List Nat) (hsid : GoodSid o X nDim sid R) (hR : RowList n R) (hlv : lv + R.length ≤ n) :
    perpFit o T hp X y nDim names fuel (some prior) lv sid =
      (perpFit o T.num hp X y nDim names fuel (some prior) lv sid).map finTree := by
  induction fuel generalizing lv sid R with
  | zero => rfl
  | succ fuel ih =>
    obtain ⟨row0, rest, rfl⟩ : ∃ row0 rest, sid = row0 :: rest := by
      cases sid with
      | nil => exact absurd hsid.len (by simp; omega)
      | cons a l => exact ⟨a, l, rfl⟩
    have hRpos := List.length_pos_iff.2 hR.1
    have hrow0 : row0.Perm R := by simpa using hsid.perm 0 hpos
    obtain ⟨s, hs⟩ := hf.stay lv row0 (by omega) (hR.of_perm hrow0)
    have hs' : T.num.logNoSplit hp.partitionPrior lv (row0.map y) prior = s := by
      show (T.logNoSplit hp.partitionPrior lv (row0.map y) prior).num = s
      rw [hs]; rfl
    have hgp : T.num.getPrior (some prior) (shape1 (row0 :: rest)) nDim = prior := hf.given _
    have hsearch := search_fin o T hp lv X y nDim prior (row0 :: rest) s nDim fun d hd =>
      hf.split lv _ _ (by omega) (hR.of_perm (hsid.perm d hd))
        (fun k hk => by simpa using splitIndices_range hk) (splitIndices_sorted _ _ _)
    have hmem := search_mem o hp lv X y nDim prior (row0 :: rest) T.num s nDim
    rw [perpFit, perpFit]
    simp only [hf.given, hgp, hs, hs', hsearch]
    generalize (List.range nDim).foldl (searchDim o T.num hp lv X y nDim prior (row0 :: rest)) ⟨s, none⟩ = b at hmem ⊢
    obtain ⟨bs, bsp⟩ := b
    cases bsp with
    | none => rfl
    | some dk =>
      obtain ⟨d, k⟩ := dk
      obtain ⟨hd, hk⟩ := hmem d k rfl
      have hkr : 1 ≤ k ∧ k < ((row0 :: rest).getD d []).length := by simpa using splitIndices_range hk
      have hLp := hsid.perm d hd
      have hLn : ((row0 :: rest).getD d []).Nodup := hLp.nodup_iff.2 hR.2.1
      have hdis := List.disjoint_take_drop hLn (le_refl k)
      set L := (row0 :: rest).getD d [] with hLdef
      have ne1 : L.take k ≠ [] := by
        intro h; have := congrArg List.length h; rw [List.length_take, List.length_nil] at this; omega
      have ne2 : L.drop k ≠ [] := by
        intro h; have := congrArg List.length h; rw [List.length_drop, List.length_nil] at this; omega
      obtain ⟨r1, l1⟩ := rowList_part hR hLp ne1 ne2 (fun i hi => List.mem_of_mem_take hi)
        (fun i hi => List.mem_of_mem_drop hi) hdis
      obtain ⟨r2, l2⟩ := rowList_part hR hLp ne2 ne1 (fun i hi => List.mem_of_mem_drop hi)
        (fun i hi => List.mem_of_mem_take hi) hdis.symm
      have i1 := ih (lv + 1) _ _ (hsid.restrict hpos (L.take k)) r1 (by omega)
      have i2 := ih (lv + 1) _ _ (hsid.restrict hpos (L.drop k)) r2 (by omega)
      have h0 : ¬ hp.delta ≠ 0 := not_not.2 hδ
      simp only [if_neg h0]
      rw [i1, i2]
      cases names[d]? with
      | none => rfl
      | some name =>
        cases (L.take k).getLast? with
        | none => rfl
        | some last =>
          cases (L.drop k).head? with
          | none => rfl
          | some first =>
            simp only
            split_ifs <;>
              generalize perpFit o T.num hp X y nDim names fuel (some prior) (lv + 1) (restrictSid nDim (row0 :: rest) (L.take k)) = z <;>
              generalize perpFit o T.num hp X y nDim names fuel (some prior) (lv + 1) (restrictSid nDim (row0 :: rest) (L.drop k)) = w <;>
              cases z <;> cases w <;> rfl

theorem merge_fin {Sp O : Type} [DecidableEq O] (pred : P → O) (t : Node Sp K K P) :
    Spec.merge pred (finTree t) = finTree (Spec.merge pred t) := by
  induction t with
  | leaf i => rfl
  | split i sp l b c1 c2 ih1 ih2 =>
    show Spec.merge pred (.split i sp (.fin l) (.fin b) (finTree c1) (finTree c2)) = _
    rw [Spec.merge, Spec.merge, ih1, ih2]
    cases Spec.merge pred c1 <;> cases Spec.merge pred c2 <;> simp only [finTree]
    split <;> rfl

theorem walk_fin {Sp Row : Type} (rt : Router Sp Row) (t : Node Sp K K P) (x : Row) :
    Spec.walk rt (finTree t) x = Spec.walk rt t x := by
  induction t with
  | leaf i => rfl
  | split i sp l b c1 c2 ih1 ih2 => simp only [finTree, Spec.walk, ih1, ih2]

theorem nodeAt_fin {Sp : Type} (t : Node Sp K K P) (addr : List Bool) : nodeAt (finTree t) addr = (nodeAt t addr).map finTree := by
  induction addr generalizing t with
  | nil => cases t <;> rfl
  | cons b bs ih =>
    cases t with
    | leaf i => rfl
    | split i sp l b' c1 c2 =>
      simp only [finTree, nodeAt, ih]
      split <;> rfl

theorem follows_fin (t : PNode K K K P) (addr : List Bool) (x : Nat → K) :
    follows (finTree t) addr x = follows t addr x := by
  induction addr generalizing t with
  | nil => cases t <;> rfl
  | cons b bs ih =>
    cases t with
    | leaf i => rfl
    | split i sp l b' c1 c2 => simp only [finTree, follows, ih]

theorem rowsAt_fin (X : Nat → Nat → K) (t : PNode K K K P) (n : Nat) (addr : List Bool) :
    rowsAt X (finTree t) n addr = rowsAt X t n addr := by
  unfold rowsAt
  simp only [follows_fin]

/-- The whole fit. -/
theorem perpFitRoot_fin {O : Type} [DecidableEq O] {T : Target K P (XF K) O} (hf : Finite T hp y n nDim prior) (hδ : hp.delta = 0)
    {argsort : List V → List Nat} (names : List String) (hpos : 0 < nDim) (hn : 0 < n)
    (hsid : GoodSid o X nDim (sortMatrix argsort X n nDim) (List.range n)) :
    perpFitRoot o T argsort hp (some prior) X y n nDim names =
      (perpFitRoot o T.num argsort hp (some prior) X y n nDim names).map finTree := by
  unfold perpFitRoot
  rw [perpFit_fin hf hδ names hpos (n + 1) 0 _ _ hsid ⟨by simp; omega, List.nodup_range, fun _ hi => List.mem_range.1 hi⟩ (by simp)]
  cases perpFit o T.num hp X y nDim names (n + 1) (some prior) 0 (sortMatrix argsort X n nDim) with
  | error e => rfl
  | ok t =>
    show (if hp.prune then prune T.predictLeaf (finTree t) else pure (finTree t)) =
      (if hp.prune then prune T.predictLeaf t else pure t).map finTree
    split
    · rw [prune_eq, prune_eq, merge_fin]; rfl
    · rfl

end
end BT
