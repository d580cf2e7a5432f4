import Verif.Spec.Perp
import Verif.Lemmas.Npy
import Mathlib.Data.List.Sort
import Mathlib.Tactic.Ring

namespace BT
open Spec

/-! ### reshape -/

theorem flatten_take_drop {α : Type} (w : Nat) (ls : List (List α)) (h : ∀ l ∈ ls, l.length = w)
    (r : Nat) (hr : r < ls.length) : (ls.flatten.drop (r * w)).take w = ls[r] := by
  induction ls generalizing r with
  | nil => simp at hr
  | cons a ls ih =>
    have ha : a.length = w := h a (by simp)
    have h' : ∀ l ∈ ls, l.length = w := fun l hl => h l (by simp [hl])
    cases r with
    | zero => simp [← ha]
    | succ r =>
      have : (r + 1) * w = a.length + r * w := by rw [ha]; ring
      rw [List.flatten_cons, this, List.drop_append]
      simp only [List.getElem_cons_succ]
      rw [List.drop_eq_nil_of_le (by omega), List.nil_append]
      rw [Nat.add_sub_cancel_left]
      exact ih h' r (by simpa using hr)

theorem reshape_flatten {α : Type} (w n : Nat) (ls : List (List α)) (h : ∀ l ∈ ls, l.length = w)
    (hn : ls.length = n) (hpos : 0 < n) : reshape n ls.flatten = ls := by
  have hlen : ls.flatten.length = n * w := by
    rw [← hn]
    clear hn hpos
    induction ls with
    | nil => simp
    | cons a ls ih =>
      rw [List.flatten_cons, List.length_append, ih fun l hl => h l (by simp [hl]), h a (by simp)]
      simp only [List.length_cons]; ring
  unfold reshape
  rw [hlen, Nat.mul_div_cancel_left w hpos]
  apply List.ext_getElem
  · simp [hn]
  · intro i h1 h2
    simp only [List.getElem_map, List.getElem_range]
    exact flatten_take_drop w ls h i h2

/-! ### sort matrices -/

section
variable {V K P S O : Type}

/-- Every row of the sort matrix is a permutation of the node's rows, sorted by its dimension. -/
structure GoodSid (o : XOps V K) (X : Nat → Nat → V) (nDim : Nat) (sid : List (List Nat))
    (R : List Nat) : Prop where
  len : sid.length = nDim
  nodup : R.Nodup
  perm : ∀ d < nDim, (sid.getD d []).Perm R
  sorted : ∀ d < nDim, (sid.getD d []).Pairwise fun i j => o.le (X i d) (X j d) = true

theorem GoodSid.shape1 {o : XOps V K} {X : Nat → Nat → V} {nDim : Nat} {sid : List (List Nat)}
    {R : List Nat} (h : GoodSid o X nDim sid R) (hpos : 0 < nDim) : shape1 sid = R.length := by
  have := (h.perm 0 hpos).length_eq
  unfold BT.shape1
  cases sid with
  | nil => exact absurd h.len (by simp; omega)
  | cons a l => simpa using this

theorem GoodSid.permR {o : XOps V K} {X : Nat → Nat → V} {nDim : Nat} {sid : List (List Nat)}
    {R R' : List Nat} (h : GoodSid o X nDim sid R) (hp : R.Perm R') : GoodSid o X nDim sid R' :=
  ⟨h.len, hp.nodup_iff.1 h.nodup, fun d hd => (h.perm d hd).trans hp, h.sorted⟩

/-- Restriction to a subset of the rows is row-wise filtering, and keeps the sort matrix good. -/
theorem restrictSid_eq {o : XOps V K} {X : Nat → Nat → V} {nDim : Nat} {sid : List (List Nat)}
    {R : List Nat} (h : GoodSid o X nDim sid R) (hpos : 0 < nDim) (I : List Nat) :
    restrictSid nDim sid I = sid.map fun l => l.filter fun i => decide (i ∈ I) := by
  unfold restrictSid
  rw [List.filter_flatten]
  apply reshape_flatten (R.filter fun i => decide (i ∈ I)).length _ _ _ (by simp [h.len]) hpos
  intro l hl
  rw [List.mem_map] at hl
  obtain ⟨m, hm, rfl⟩ := hl
  obtain ⟨d, hd, rfl⟩ := List.getElem_of_mem hm
  have := (h.perm d (h.len ▸ hd)).filter fun i => decide (i ∈ I)
  simp only [List.getD_eq_getElem?_getD, List.getElem?_eq_getElem hd, Option.getD_some] at this
  exact this.length_eq

theorem GoodSid.restrict {o : XOps V K} {X : Nat → Nat → V} {nDim : Nat} {sid : List (List Nat)}
    {R : List Nat} (h : GoodSid o X nDim sid R) (hpos : 0 < nDim) (I : List Nat) :
    GoodSid o X nDim (restrictSid nDim sid I) (R.filter fun i => decide (i ∈ I)) := by
  rw [restrictSid_eq h hpos]
  have key : ∀ d < nDim, (sid.map fun l => l.filter fun i => decide (i ∈ I)).getD d [] =
      (sid.getD d []).filter fun i => decide (i ∈ I) := by
    intro d hd
    have hd' : d < sid.length := h.len ▸ hd
    simp [hd']
  refine ⟨by simp [h.len], h.nodup.filter _, ?_, ?_⟩
  · intro d hd
    rw [key d hd]
    exact (h.perm d hd).filter _
  · intro d hd
    rw [key d hd]
    exact (h.sorted d hd).filter _

/-! ### sorted columns and cuts -/

theorem column_sorted {o : XOps V K} {ok : V → Prop} {prec : K} (ho : LawfulOps o ok prec)
    {X : Nat → Nat → V} {d : Nat} {R : List Nat} (hok : ∀ i ∈ R, ok (X i d)) :
    (column o X R d).Pairwise fun a b => o.le a b = true := by
  -- work in the subtype of ok values, where the order is total
  classical
  let le' : {v // ok v} → {v // ok v} → Bool := fun a b => o.le a.1 b.1
  have hmem : ∀ x ∈ R.map (fun i => X i d), ok x := by
    intro x hx
    obtain ⟨i, hi, rfl⟩ := List.mem_map.1 hx
    exact hok i hi
  unfold column
  have e : (R.map fun i => X i d) =
      ((R.map fun i => X i d).attachWith ok hmem).map Subtype.val := by
    simp
  rw [e, ← List.map_mergeSort (r := le') (s := o.le)]
  · have h1 := List.pairwise_mergeSort (le := le')
      (fun a b c h1 h2 => ho.le_trans a.1 b.1 c.1 a.2 b.2 c.2 h1 h2)
      (fun a b => by
        have := ho.le_total a.1 b.1 a.2 b.2
        simpa [le'] using this)
      ((R.map fun i => X i d).attachWith ok hmem)
    exact List.pairwise_map.2 h1
  · intro a _ b _; rfl

theorem column_eq {o : XOps V K} {ok : V → Prop} {prec : K} (ho : LawfulOps o ok prec)
    {X : Nat → Nat → V} {d : Nat} {R L : List Nat} (hok : ∀ i ∈ R, ok (X i d)) (hp : L.Perm R)
    (hs : L.Pairwise fun i j => o.le (X i d) (X j d) = true) :
    column o X R d = L.map fun i => X i d := by
  have hsort := column_sorted ho hok
  have hperm : (column o X R d).Perm (L.map fun i => X i d) :=
    (List.mergeSort_perm _ _).trans (hp.map _).symm
  have hokL : ∀ x ∈ L.map (fun i => X i d), ok x := by
    intro x hx
    obtain ⟨i, hi, rfl⟩ := List.mem_map.1 hx
    exact hok i (hp.mem_iff.1 hi)
  apply List.Perm.eq_of_pairwise (le := fun a b => o.le a b = true) _ hsort
    (List.pairwise_map.2 hs) hperm
  intro a b ha hb h1 h2
  exact ho.le_antisymm a b (hokL a (hperm.mem_iff.1 ha)) (hokL b hb) h1 h2

theorem mem_splitIndices {o : XOps V K} {prec : K} {xs : List V} {k : Nat} :
    k ∈ splitIndices o prec xs ↔
      ∃ a b, 1 ≤ k ∧ xs[k - 1]? = some a ∧ xs[k]? = some b ∧ o.gap prec a b = true := by
  unfold splitIndices
  simp only [List.mem_map, mem_npWhere, List.getElem?_map, Option.map_eq_some_iff]
  constructor
  · rintro ⟨i, ⟨⟨a, b⟩, hab, hg⟩, rfl⟩
    rw [List.getElem?_zip_eq_some] at hab
    refine ⟨a, b, by omega, ?_, ?_, hg⟩
    · simpa using hab.1
    · have := hab.2
      rw [List.getElem?_tail] at this
      rw [Nat.add_comm]; exact this
  · rintro ⟨a, b, hk, ha, hb, hg⟩
    refine ⟨k - 1, ⟨(a, b), ?_, hg⟩, by omega⟩
    rw [List.getElem?_zip_eq_some]
    refine ⟨ha, ?_⟩
    rw [List.getElem?_tail, Nat.sub_add_cancel hk]
    exact hb

theorem splitIndices_sorted (o : XOps V K) (prec : K) (xs : List V) :
    (splitIndices o prec xs).Pairwise (· < ·) := by
  unfold splitIndices npWhere
  rw [List.pairwise_map]
  refine List.Pairwise.imp (R := (· < ·)) (fun h => by omega) ?_
  exact List.pairwise_lt_range.filter _

theorem splitIndices_length (o : XOps V K) (prec : K) (xs : List V) :
    (splitIndices o prec xs).length = ((xs.zip xs.tail).filter fun c => o.gap prec c.1 c.2).length := by
  unfold splitIndices
  rw [List.length_map, npWhere_map_length]

theorem splitIndices_range {o : XOps V K} {prec : K} {xs : List V} {k : Nat}
    (h : k ∈ splitIndices o prec xs) : 1 ≤ k ∧ k < xs.length := by
  obtain ⟨a, b, h1, _, h3, _⟩ := mem_splitIndices.1 h
  exact ⟨h1, (List.getElem?_eq_some_iff.1 h3).1⟩

/-- `L` lists the rows `R` in ascending order of feature `d`. -/
structure SortedRows (o : XOps V K) (X : Nat → Nat → V) (d : Nat) (L R : List Nat) : Prop where
  perm : L.Perm R
  sorted : L.Pairwise fun i j => o.le (X i d) (X j d) = true

theorem mem_cuts_iff {o : XOps V K} {ok : V → Prop} {prec : K} (ho : LawfulOps o ok prec)
    {X : Nat → Nat → V} {d : Nat} {R L : List Nat} (hok : ∀ i ∈ R, ok (X i d))
    (hL : SortedRows o X d L R) {cut : V × V} :
    cut ∈ cuts o prec X R d ↔ ∃ k ∈ splitIndices o prec (L.map fun i => X i d),
      (L.map fun i => X i d)[k - 1]? = some cut.1 ∧ (L.map fun i => X i d)[k]? = some cut.2 := by
  unfold cuts
  rw [column_eq ho hok hL.perm hL.sorted]
  generalize (L.map fun i => X i d) = xs
  simp only [List.mem_filter]
  constructor
  · rintro ⟨hm, hg⟩
    obtain ⟨i, hi⟩ := List.mem_iff_getElem?.1 hm
    rw [List.getElem?_zip_eq_some, List.getElem?_tail] at hi
    refine ⟨i + 1, mem_splitIndices.2 ⟨cut.1, cut.2, by omega, ?_, ?_, hg⟩, ?_, ?_⟩
    all_goals simp [hi]
  · rintro ⟨k, hk, h1, h2⟩
    obtain ⟨a, b, hk1, ha, hb, hg⟩ := mem_splitIndices.1 hk
    rw [ha] at h1; rw [hb] at h2
    cases h1; cases h2
    refine ⟨List.mem_iff_getElem?.2 ⟨k - 1, ?_⟩, hg⟩
    rw [List.getElem?_zip_eq_some, List.getElem?_tail, Nat.sub_add_cancel hk1]
    exact ⟨ha, hb⟩

theorem cuts_length {o : XOps V K} {ok : V → Prop} {prec : K} (ho : LawfulOps o ok prec)
    {X : Nat → Nat → V} {d : Nat} {R L : List Nat} (hok : ∀ i ∈ R, ok (X i d))
    (hL : SortedRows o X d L R) :
    (cuts o prec X R d).length = (splitIndices o prec (L.map fun i => X i d)).length := by
  unfold cuts
  rw [column_eq ho hok hL.perm hL.sorted, splitIndices_length]

theorem filter_take_drop {α : Type} (L : List α) (p : α → Bool) (k : Nat)
    (h1 : ∀ x ∈ L.take k, p x = true) (h2 : ∀ x ∈ L.drop k, p x = false) :
    L.filter p = L.take k ∧ (L.filter fun x => !p x) = L.drop k := by
  constructor
  · conv_lhs => rw [← List.take_append_drop k L]
    rw [List.filter_append, List.filter_eq_self.2 h1,
      List.filter_eq_nil_iff.2 (fun x hx => by simp [h2 x hx]), List.append_nil]
  · conv_lhs => rw [← List.take_append_drop k L]
    rw [List.filter_append, List.filter_eq_nil_iff.2 (fun x hx => by simp [h1 x hx]),
      List.filter_eq_self.2 (fun x hx => by simp [h2 x hx]), List.nil_append]

/-- At a candidate position the prefix is exactly what lies at or below the lower neighbour. -/
theorem split_position {o : XOps V K} {ok : V → Prop} {prec : K} (ho : LawfulOps o ok prec)
    {X : Nat → Nat → V} {d : Nat} {R L : List Nat} (hok : ∀ i ∈ R, ok (X i d))
    (hL : SortedRows o X d L R) {k : Nat} {a b : V} (hk : 1 ≤ k)
    (ha : (L.map fun i => X i d)[k - 1]? = some a) (hb : (L.map fun i => X i d)[k]? = some b)
    (hg : o.gap prec a b = true) :
    ok a ∧ ok b ∧ o.le a b = true ∧ o.le b a = false ∧
    (∀ i ∈ L.take k, o.le (X i d) a = true) ∧ (∀ i ∈ L.drop k, o.le b (X i d) = true) ∧
    (∀ i ∈ L.drop k, o.le (X i d) a = false) := by
  have hokL : ∀ i ∈ L, ok (X i d) := fun i hi => hok i (hL.perm.mem_iff.1 hi)
  have hlb : k < L.length := by
    have := (List.getElem?_eq_some_iff.1 hb).1
    simpa using this
  have hla : k - 1 < L.length := by omega
  have ea : X L[k - 1] d = a := by simpa [hla] using ha
  have eb : X L[k] d = b := by simpa [hlb] using hb
  have oka : ok a := ea ▸ hokL _ (List.getElem_mem _)
  have okb : ok b := eb ▸ hokL _ (List.getElem_mem _)
  have hrefl : ∀ v, ok v → o.le v v = true := fun v hv => (ho.le_total v v hv hv).elim id id
  have hget : ∀ i j (hi : i < L.length) (hj : j < L.length), i ≤ j →
      o.le (X L[i] d) (X L[j] d) = true := by
    intro i j hi hj hij
    rcases Nat.lt_or_eq_of_le hij with h | h
    · exact List.pairwise_iff_getElem.1 hL.sorted i j hi hj h
    · subst h; exact hrefl _ (hokL _ (List.getElem_mem _))
  have hab : o.le a b = true := by
    rw [← ea, ← eb]; exact hget _ _ hla hlb (by omega)
  have hba : o.le b a = false := by
    by_contra hc
    have hc' : o.le b a = true := by simpa using hc
    have h1 := ho.below a b b oka okb okb hab hg hc'
    have h2 := ho.above a b b oka okb okb hab hg (hrefl b okb)
    rw [h1.1] at h2
    exact absurd h2.1 (by simp)
  have hup : ∀ i ∈ L.drop k, o.le b (X i d) = true := by
    intro i hi
    obtain ⟨j, hj, rfl⟩ := List.getElem_of_mem hi
    rw [List.getElem_drop, ← eb]
    exact hget _ _ hlb (by simp at hj; omega) (by omega)
  refine ⟨oka, okb, hab, hba, ?_, hup, ?_⟩
  · intro i hi
    obtain ⟨j, hj, rfl⟩ := List.getElem_of_mem hi
    rw [List.getElem_take, ← ea]
    simp at hj
    exact hget _ _ (by omega) hla (by omega)
  · intro i hi
    by_contra hc
    have hc' : o.le (X i d) a = true := by simpa using hc
    have := ho.le_trans b (X i d) a okb (hokL i (List.mem_of_mem_drop hi)) oka (hup i hi) hc'
    rw [hba] at this; exact absurd this (by simp)

/-- Prefix and suffix at a candidate position, as filters of the node's rows. -/
theorem split_filters {o : XOps V K} {ok : V → Prop} {prec : K} (ho : LawfulOps o ok prec)
    {X : Nat → Nat → V} {d : Nat} {R L : List Nat} (hok : ∀ i ∈ R, ok (X i d))
    (hL : SortedRows o X d L R) {k : Nat} {a b : V} (hk : 1 ≤ k)
    (ha : (L.map fun i => X i d)[k - 1]? = some a) (hb : (L.map fun i => X i d)[k]? = some b)
    (hg : o.gap prec a b = true) :
    (L.take k).Perm (R.filter fun i => o.le (X i d) a) ∧
    (L.drop k).Perm (R.filter fun i => !o.le (X i d) a) ∧
    (L.take k).Perm (R.filter fun i => o.lt (X i d) (o.mid a b)) ∧
    (L.drop k).Perm (R.filter fun i => o.ge (X i d) (o.mid a b)) := by
  obtain ⟨oka, okb, hab, hba, h1, h2, h3⟩ := split_position ho hok hL hk ha hb hg
  have hokL : ∀ i ∈ L, ok (X i d) := fun i hi => hok i (hL.perm.mem_iff.1 hi)
  have f1 := filter_take_drop L (fun i => o.le (X i d) a) k h1 h3
  have f2 := filter_take_drop L (fun i => o.lt (X i d) (o.mid a b)) k
    (fun i hi => (ho.below a b _ oka okb (hokL i (List.mem_of_mem_take hi)) hab hg (h1 i hi)).1)
    (fun i hi => (ho.above a b _ oka okb (hokL i (List.mem_of_mem_drop hi)) hab hg (h2 i hi)).1)
  have f3 : (L.filter fun i => o.ge (X i d) (o.mid a b)) = L.drop k := by
    rw [← f2.2]
    apply List.filter_congr
    intro i hi
    rw [← List.take_append_drop k L, List.mem_append] at hi
    rcases hi with hi | hi
    · have := ho.below a b _ oka okb (hokL i (List.mem_of_mem_take hi)) hab hg (h1 i hi)
      simp [this]
    · have := ho.above a b _ oka okb (hokL i (List.mem_of_mem_drop hi)) hab hg (h2 i hi)
      simp [this]
  refine ⟨?_, ?_, ?_, ?_⟩
  · rw [← f1.1]; exact hL.perm.filter _
  · rw [← f1.2]; exact hL.perm.filter _
  · rw [← f2.1]; exact hL.perm.filter _
  · rw [← f3]; exact hL.perm.filter _

/-! ### the search loop -/

section search
variable [LinearOrder S] (o : XOps V K) (T : Target K P S O) (hp : Hyper K) (lv : Nat)
  (X : Nat → Nat → V) (y : Nat → K) (nDim : Nat) (prior : P) (sid : List (List Nat))

/-- candidate positions along `d` -/
def candPos (d : Nat) : List Nat :=
  splitIndices o hp.splitPrecision ((sid.getD d []).map fun i => X i d)

/-- score of a candidate position -/
def candScore (pair : PairScore K P S) (d k : Nat) : S :=
  pair hp.partitionPrior lv prior nDim (candPos o hp X sid d).length
    (((sid.getD d []).map y).take k) (((sid.getD d []).map y).drop k)

theorem searchDim_spec {pair : PairScore K P S} (hT : LawfulTarget T pair) (b : Best S) (d : Nat) :
    let b' := searchDim o T hp lv X y nDim prior sid b d
    let sc := candScore o hp lv X y nDim prior sid pair d
    (b' = b ∧ ∀ k ∈ candPos o hp X sid d, sc k ≤ b.score) ∨
    (∃ k ∈ candPos o hp X sid d, b' = ⟨sc k, some (d, k)⟩ ∧ b.score < sc k ∧
      (∀ k' ∈ candPos o hp X sid d, sc k' ≤ sc k) ∧
      ∀ k' ∈ candPos o hp X sid d, k' < k → sc k' < sc k) := by
  intro b' sc
  have hb' : b' = if (candPos o hp X sid d).length = 0 then b else
      match (T.logSplit hp.partitionPrior lv ((sid.getD d []).map y) prior nDim
          (candPos o hp X sid d))[argmax (T.logSplit hp.partitionPrior lv ((sid.getD d []).map y) prior
            nDim (candPos o hp X sid d))]?,
        (candPos o hp X sid d)[argmax (T.logSplit hp.partitionPrior lv ((sid.getD d []).map y) prior
            nDim (candPos o hp X sid d))]? with
      | some s, some k => if b.score < s then ⟨s, some (d, k)⟩ else b
      | _, _ => b := rfl
  by_cases hnil : (candPos o hp X sid d).length = 0
  · rw [if_pos hnil] at hb'
    left
    refine ⟨hb', ?_⟩
    intro k hk
    rw [List.eq_nil_of_length_eq_zero hnil] at hk
    simp at hk
  · rw [if_neg hnil] at hb'
    have hrange : ∀ k ∈ candPos o hp X sid d, 1 ≤ k ∧ k < ((sid.getD d []).map y).length := by
      intro k hk
      have := splitIndices_range hk
      simpa using this
    have hsorted : (candPos o hp X sid d).Pairwise (· < ·) := splitIndices_sorted _ _ _
    have hs : T.logSplit hp.partitionPrior lv ((sid.getD d []).map y) prior nDim
        (candPos o hp X sid d) = (candPos o hp X sid d).map sc :=
      hT.logSplit_eq _ _ _ _ _ _ hrange hsorted
    rw [hs] at hb'
    have hne : (candPos o hp X sid d).map sc ≠ [] := by
      intro h; simp at h; simp [h] at hnil
    obtain ⟨v, hv, hmax, hfirst⟩ := argmax_spec hne
    rw [hv] at hb'
    have hv' := hv
    rw [List.getElem?_map, Option.map_eq_some_iff] at hv'
    obtain ⟨k, hk, hkv⟩ := hv'
    rw [hk] at hb'
    simp only at hb'
    have hkm : k ∈ candPos o hp X sid d := List.mem_of_getElem? hk
    have hall : ∀ k' ∈ candPos o hp X sid d, sc k' ≤ v := fun k' hk' =>
      hmax _ (List.mem_map_of_mem hk')
    by_cases hlt : b.score < v
    · rw [if_pos hlt] at hb'
      right
      subst hkv
      refine ⟨k, hkm, hb', hlt, hall, ?_⟩
      intro k' hk' hkk
      obtain ⟨j, hj⟩ := List.mem_iff_getElem?.1 hk'
      have hjlt : j < argmax ((candPos o hp X sid d).map sc) := by
        by_contra hge
        have hl1 := (List.getElem?_eq_some_iff.1 hk).1
        have hl2 := (List.getElem?_eq_some_iff.1 hj).1
        rcases Nat.lt_or_eq_of_le (not_lt.1 hge) with h | h
        · have := List.pairwise_iff_getElem.1 hsorted _ _ hl1 hl2 h
          rw [(List.getElem?_eq_some_iff.1 hk).2, (List.getElem?_eq_some_iff.1 hj).2] at this
          omega
        · rw [← h, hk] at hj; cases hj; omega
      exact hfirst j hjlt _ (by rw [List.getElem?_map, hj]; rfl)
    · rw [if_neg hlt] at hb'
      left
      exact ⟨hb', fun k' hk' => (hall k' hk').trans (not_lt.1 hlt)⟩

/-- Result of the whole loop: either nothing beats the start value, or the first best candidate. -/
theorem search_spec {pair : PairScore K P S} (hT : LawfulTarget T pair) (s0 : S) (m : Nat) :
    let b := (List.range m).foldl (searchDim o T hp lv X y nDim prior sid) ⟨s0, none⟩
    let sc := candScore o hp lv X y nDim prior sid pair
    (b = ⟨s0, none⟩ ∧ ∀ d < m, ∀ k ∈ candPos o hp X sid d, sc d k ≤ s0) ∨
    (∃ d < m, ∃ k ∈ candPos o hp X sid d, b = ⟨sc d k, some (d, k)⟩ ∧ s0 < sc d k ∧
      (∀ d' < m, ∀ k' ∈ candPos o hp X sid d', sc d' k' ≤ sc d k) ∧
      (∀ d' < d, ∀ k' ∈ candPos o hp X sid d', sc d' k' < sc d k) ∧
      ∀ k' ∈ candPos o hp X sid d, k' < k → sc d k' < sc d k) := by
  intro b sc
  induction m with
  | zero => left; exact ⟨rfl, by simp⟩
  | succ m ih =>
    have hb : b = searchDim o T hp lv X y nDim prior sid
        ((List.range m).foldl (searchDim o T hp lv X y nDim prior sid) ⟨s0, none⟩) m := by
      show (List.range (m + 1)).foldl _ _ = _
      rw [List.range_succ, List.foldl_append]; rfl
    simp only at ih
    set b0 := (List.range m).foldl (searchDim o T hp lv X y nDim prior sid) ⟨s0, none⟩ with hb0
    have hstep := searchDim_spec o T hp lv X y nDim prior sid hT b0 m
    simp only at hstep
    rw [← hb] at hstep
    rcases ih with ⟨e0, hle⟩ | ⟨d, hd, k, hk, e0, hgt, hmax, hfd, hfk⟩
    · rcases hstep with ⟨e, hle'⟩ | ⟨k, hk, e, hgt, hmax, hfk⟩
      · left
        refine ⟨e.trans e0, ?_⟩
        intro d hd k hk
        rcases Nat.lt_succ_iff_lt_or_eq.1 hd with h | rfl
        · exact hle d h k hk
        · have := hle' k hk; rw [e0] at this; exact this
      · right
        rw [e0] at hgt
        refine ⟨m, by omega, k, hk, e, hgt, ?_, ?_, hfk⟩
        · intro d' hd' k' hk'
          rcases Nat.lt_succ_iff_lt_or_eq.1 hd' with h | rfl
          · exact (hle d' h k' hk').trans hgt.le
          · exact hmax k' hk'
        · intro d' hd' k' hk'
          exact (hle d' hd' k' hk').trans_lt hgt
    · rcases hstep with ⟨e, hle'⟩ | ⟨k2, hk2, e, hgt2, hmax2, hfk2⟩
      · right
        refine ⟨d, by omega, k, hk, e.trans e0, hgt, ?_, hfd, hfk⟩
        intro d' hd' k' hk'
        rcases Nat.lt_succ_iff_lt_or_eq.1 hd' with h | rfl
        · exact hmax d' h k' hk'
        · have := hle' k' hk'; rw [e0] at this; exact this
      · right
        rw [e0] at hgt2
        simp only at hgt2
        refine ⟨m, by omega, k2, hk2, e, hgt.trans hgt2, ?_, ?_, hfk2⟩
        · intro d' hd' k' hk'
          rcases Nat.lt_succ_iff_lt_or_eq.1 hd' with h | rfl
          · exact (hmax d' h k' hk').trans hgt2.le
          · exact hmax2 k' hk'
        · intro d' hd' k' hk'
          exact (hmax d' hd' k' hk').trans_lt hgt2

end search

end

end BT
