import Verif.Lemmas.Prog
import Mathlib.Data.Finset.Card
import Mathlib.Data.List.Sort

/-!
# Dictionaries of candidates and the rounds of the annealing and descent loops
-/

set_option linter.unusedSectionVars false

namespace BT
open BT.Spec

section dict
variable {S β : Type} [LinearOrder S]

theorem mem_dictSet {d : List (S × β)} {v : S} {c : β} {e : S × β} (h : e ∈ dictSet d v c) :
    e = (v, c) ∨ e ∈ d := by
  unfold dictSet at h
  split at h
  · obtain ⟨e', he', rfl⟩ := List.mem_map.1 h
    split
    · next hv => left; rw [hv]
    · exact .inr he'
  · rcases List.mem_append.1 h with h | h
    · exact .inr h
    · left; simpa using h

theorem key_dictSet (d : List (S × β)) (v : S) (c : β) (w : S) :
    w ∈ (dictSet d v c).map Prod.fst ↔ w = v ∨ w ∈ d.map Prod.fst := by
  unfold dictSet
  split
  · next h =>
    have e : (d.map fun e => if e.1 = v then (e.1, c) else e).map Prod.fst = d.map Prod.fst := by
      rw [List.map_map]
      apply List.map_congr_left
      intro e _
      simp only [Function.comp]
      split <;> rfl
    rw [e]
    constructor
    · exact .inr
    · rintro (rfl | h')
      · obtain ⟨e, he, hv⟩ := List.any_eq_true.1 h
        rw [← of_decide_eq_true hv]
        exact List.mem_map_of_mem he
      · exact h'
  · simp [or_comm]

theorem dictGet_of_key {d : List (S × β)} {v : S} (h : v ∈ d.map Prod.fst) :
    ∃ c, dictGet d v = some c ∧ (v, c) ∈ d := by
  unfold dictGet
  cases hf : d.find? fun e => decide (e.1 = v) with
  | none =>
    obtain ⟨e, he, rfl⟩ := List.mem_map.1 h
    have := List.find?_eq_none.1 hf e he
    simp at this
  | some e =>
    have h1 : e.1 = v := of_decide_eq_true (List.find?_some (p := fun e : S × β => decide (e.1 = v)) hf)
    have h2 := List.mem_of_find?_eq_some hf
    exact ⟨e.2, rfl, by rw [← h1]; exact h2⟩

theorem mem_sortedKeys (d : List (S × β)) (v : S) : v ∈ sortedKeys d ↔ v ∈ d.map Prod.fst := by
  unfold sortedKeys
  exact List.mem_mergeSort

theorem sortedKeys_length (d : List (S × β)) : (sortedKeys d).length = d.length := by
  unfold sortedKeys
  rw [List.length_mergeSort, List.length_map]

theorem sortedKeys_sorted (d : List (S × β)) : (sortedKeys d).Pairwise (· ≤ ·) := by
  have h := List.pairwise_mergeSort (le := fun a b : S => decide (a ≤ b))
    (fun a b c h1 h2 => by
      simp only [decide_eq_true_eq] at *
      exact le_trans h1 h2)
    (fun a b => by
      simp only [Bool.or_eq_true, decide_eq_true_eq]
      exact le_total a b) (d.map Prod.fst)
  exact h.imp fun hab => by simpa using hab

/-- The smallest key. -/
def MinKey (d : List (S × β)) (m : S) : Prop := m ∈ d.map Prod.fst ∧ ∀ v ∈ d.map Prod.fst, m ≤ v

theorem minKey_unique {d : List (S × β)} {m m' : S} (h : MinKey d m) (h' : MinKey d m') : m = m' :=
  le_antisymm (h.2 _ h'.1) (h'.2 _ h.1)

theorem sortedKeys_head {d : List (S × β)} (hd : d ≠ []) :
    ∃ m l, sortedKeys d = m :: l ∧ MinKey d m := by
  cases hs : sortedKeys d with
  | nil =>
    have := sortedKeys_length d
    rw [hs] at this
    exact absurd (List.length_eq_zero_iff.1 this.symm) hd
  | cons m l =>
    have hm : ∀ v, v ∈ d.map Prod.fst ↔ v ∈ m :: l := fun v => by rw [← hs, mem_sortedKeys]
    have hp := sortedKeys_sorted d
    rw [hs] at hp
    refine ⟨m, l, rfl, (hm m).2 (by simp), fun v hv => ?_⟩
    rcases List.mem_cons.1 ((hm v).1 hv) with h | h
    · exact h.ge
    · exact (List.pairwise_cons.1 hp).1 v h

theorem mem_dictRestrict {d : List (S × β)} {vs : List S} {e : S × β} (h : e ∈ dictRestrict d vs) :
    e ∈ d ∧ e.1 ∈ vs := by
  unfold dictRestrict at h
  obtain ⟨v, hv, he⟩ := List.mem_filterMap.1 h
  obtain ⟨c, hc, rfl⟩ := Option.map_eq_some_iff.1 he
  refine ⟨?_, hv⟩
  unfold dictGet at hc
  obtain ⟨e, hf, rfl⟩ := Option.map_eq_some_iff.1 hc
  have h1 : e.1 = v := of_decide_eq_true (List.find?_some (p := fun e : S × β => decide (e.1 = v)) hf)
  rw [← h1]
  exact List.mem_of_find?_eq_some hf

theorem key_dictRestrict {d : List (S × β)} {vs : List S} {v : S} (hv : v ∈ vs)
    (hd : v ∈ d.map Prod.fst) : v ∈ (dictRestrict d vs).map Prod.fst := by
  obtain ⟨c, hc, -⟩ := dictGet_of_key hd
  refine List.mem_map.2 ⟨(v, c), ?_, rfl⟩
  unfold dictRestrict
  exact List.mem_filterMap.2 ⟨v, hv, by rw [hc]; rfl⟩

/-- The end of a round: if there are candidates and `n_keep ≥ 1`, the best one is kept. -/
theorem keepBest_spec {d : List (S × β)} (hd : d ≠ []) {nKeep : Nat} (hk : 0 < nKeep) (noImp : Nat)
    (best : Option S) :
    ∃ d' m, keepBest d nKeep noImp best = .ok (d', if ltBest m best then 0 else noImp + 1) ∧
      MinKey d m ∧ MinKey d' m ∧ d' ≠ [] ∧ ∀ e ∈ d', e ∈ d := by
  obtain ⟨m, l, hs, hm⟩ := sortedKeys_head hd
  obtain ⟨k, rfl⟩ : ∃ k, nKeep = k + 1 := ⟨nKeep - 1, by omega⟩
  have hkey : m ∈ (dictRestrict d (m :: l.take k)).map Prod.fst := key_dictRestrict (by simp) hm.1
  refine ⟨dictRestrict d (m :: l.take k), m, ?_, hm, ⟨hkey, ?_⟩, ?_, fun e he => (mem_dictRestrict he).1⟩
  · unfold keepBest
    rw [hs]
    rfl
  · intro v hv
    obtain ⟨e, he, rfl⟩ := List.mem_map.1 hv
    exact hm.2 _ (List.mem_map_of_mem (mem_dictRestrict he).1)
  · intro h
    rw [h] at hkey
    cases hkey

/-- Without candidates, or with `n_keep = 0`, indexing the sorted values fails. -/
theorem keepBest_error (d : List (S × β)) (nKeep noImp : Nat) (best : Option S)
    (h : d = [] ∨ nKeep = 0) : keepBest d nKeep noImp best = .error .indexError := by
  unfold keepBest
  rcases h with rfl | rfl
  · have : sortedKeys ([] : List (S × β)) = [] := List.length_eq_zero_iff.1 (sortedKeys_length _)
    rw [this, List.take_nil]
  · rfl

/-- Number of values of the objective below the current best. -/
def rankIn (L : List S) (m : S) : Nat := (L.toFinset.filter (· < m)).card

theorem rankIn_lt {L : List S} {m m' : S} (h : m' < m) (hm : m' ∈ L) : rankIn L m' < rankIn L m := by
  apply Finset.card_lt_card
  rw [Finset.ssubset_iff_of_subset]
  · exact ⟨m', by simp [hm, h], by simp⟩
  · intro v hv
    simp only [Finset.mem_filter] at hv ⊢
    exact ⟨hv.1, hv.2.trans h⟩

theorem rankIn_le {L : List S} {m m' : S} (h : m' ≤ m) : rankIn L m' ≤ rankIn L m := by
  apply Finset.card_le_card
  intro v hv
  simp only [Finset.mem_filter] at hv ⊢
  exact ⟨hv.1, lt_of_lt_of_le hv.2 h⟩

theorem rankIn_le_length (L : List S) (m : S) : rankIn L m ≤ L.length :=
  (Finset.card_filter_le _ _).trans (List.toFinset_card_le L)

end dict

/-- What is assumed about the random generator: requested sizes and ranges. -/
structure LawfulRng {R K : Type} [Field K] [LinearOrder K] (G : Rng R K) : Prop where
  uniform_length : ∀ lo hi n g, (G.uniform lo hi n g).1.length = n
  uniform_mem : ∀ lo hi n g, lo ≤ hi → ∀ a ∈ (G.uniform lo hi n g).1, lo ≤ a ∧ a ≤ hi
  randint_lt : ∀ n g, 0 < n → (G.randint n g).1 < n
  normal_length : ∀ n g, (G.normal n g).1.length = n

section sa
variable {K P S R : Type} [Field K] [LinearOrder K] [IsStrictOrderedRing K] [LinearOrder S]

/-- A point of the `m`-dimensional unit cube. -/
def CubePoint (m : Nat) (u : List K) : Prop := u.length = m ∧ ∀ a ∈ u, 0 ≤ a ∧ a ≤ 1

/-- A vector handed to `compute` that is a point of the unit cube. -/
def CubeVec (m : Nat) (r : RawVec K) : Prop := ∃ u, r = fvec u ∧ CubePoint m u

theorem clip01_mem (x : K) : 0 ≤ clip01 x ∧ clip01 x ≤ 1 := by
  unfold clip01
  exact ⟨le_min (le_max_right _ _) zero_le_one, min_le_right _ _⟩

/-- Candidates are cube points and their values satisfy `W`. -/
def GoodCands (m : Nat) (W : S → Prop) (d : List (S × List K)) : Prop :=
  ∀ e ∈ d, CubePoint m e.2 ∧ W e.1

theorem goodCands_set {m : Nat} {W : S → Prop} {d : List (S × List K)} (hd : GoodCands m W d) {v : S}
    {u : List K} (hu : CubePoint m u) (hv : W v) : GoodCands m W (dictSet d v u) := by
  intro e he
  rcases mem_dictSet he with rfl | h
  · exact ⟨hu, hv⟩
  · exact hd e h

variable {G : Rng R K} {q : HProb K P S} {V : RawVec K → S → Prop} {W : S → Prop} {E : Err → Prop}

theorem scan_sat (hG : LawfulRng G) (hV : ∀ r v, V r v → W v) (hdim : 0 < q.nDim) (n : Nat) (g : R) :
    (scan G n q g).Sat (CubeVec (q.nDim - 1)) V E
      (fun s => GoodCands (q.nDim - 1) W s.1 ∧ (0 < n → s.1 ≠ [])) := by
  unfold scan
  have key : ∀ (l : List Nat) (s : List (S × List K) × R), GoodCands (q.nDim - 1) W s.1 →
      (Prog.loop (fun (s : List (S × List K) × R) (_ : Nat) =>
        if q.nDim = 0 then .raise .valueError
        else
          let d := G.uniform 0 1 (q.nDim - 1) s.2
          .eval (fvec d.1) fun v => .ret (dictSet s.1 v d.1, d.2)) l s).Sat (CubeVec (q.nDim - 1)) V E
        (fun s' => GoodCands (q.nDim - 1) W s'.1 ∧ ((l ≠ [] ∨ s.1 ≠ []) → s'.1 ≠ [])) := by
    intro l
    induction l with
    | nil => intro s hs; exact ⟨hs, by simp⟩
    | cons x l ih =>
      intro s hs
      have hu : CubePoint (q.nDim - 1) (G.uniform 0 1 (q.nDim - 1) s.2).1 :=
        ⟨hG.uniform_length _ _ _ _, hG.uniform_mem _ _ _ _ zero_le_one⟩
      unfold Prog.loop
      rw [if_neg (by omega)]
      refine ⟨⟨_, rfl, hu⟩, fun v hv => ?_⟩
      have := ih (dictSet s.1 v (G.uniform 0 1 (q.nDim - 1) s.2).1, (G.uniform 0 1 (q.nDim - 1) s.2).2)
        (goodCands_set hs hu (hV _ _ hv))
      refine Prog.sat_mono this ?_
      rintro a ⟨h1, h2⟩
      refine ⟨h1, fun _ => h2 (.inr ?_)⟩
      intro he
      have : v ∈ (dictSet s.1 v (G.uniform 0 1 (q.nDim - 1) s.2).1).map Prod.fst :=
        (key_dictSet _ _ _ _).2 (.inl rfl)
      simp only at he
      rw [he] at this
      cases this
  refine Prog.sat_mono (key (List.range n) ([], g) (by intro e he; cases he)) ?_
  rintro a ⟨h1, h2⟩
  exact ⟨h1, fun hn => h2 (.inl (by simp; omega))⟩

/-- The evolution only adds candidates. -/
theorem saEvolve_sat (hG : LawfulRng G) (hV : ∀ r v, V r v → W v) {nKeep : Nat} (f : K)
    {d0 : List (S × List K)} (hd0 : d0 ≠ []) (g : R) (hgood : GoodCands (q.nDim - 1) W d0) :
    (Prog.loop (saEvolve G nKeep f q (sortedKeys d0)) (List.range nKeep) (d0, g)).Sat
      (CubeVec (q.nDim - 1)) V E
      (fun s => GoodCands (q.nDim - 1) W s.1 ∧ ∀ v ∈ d0.map Prod.fst, v ∈ s.1.map Prod.fst) := by
  apply Prog.sat_loop
  · rintro s ⟨hs1, hs2⟩ i hi
    have hi' : i < nKeep := List.mem_range.1 hi
    have hpos : 0 < (sortedKeys d0).length := by
      rw [sortedKeys_length]; exact List.length_pos_of_ne_nil hd0
    have hlt : i * (sortedKeys d0).length / nKeep < (sortedKeys d0).length := by
      rw [Nat.div_lt_iff_lt_mul (by omega), Nat.mul_comm]
      exact Nat.mul_lt_mul_of_pos_left hi' hpos
    unfold saEvolve
    rw [List.getElem?_eq_getElem hlt]
    simp only
    have hk := hs2 _ ((mem_sortedKeys d0 _).1 (List.getElem_mem hlt))
    obtain ⟨c, hc, hcm⟩ := dictGet_of_key hk
    rw [hc]
    have hcube := (hs1 _ hcm).1
    have hu : CubePoint (q.nDim - 1)
        ((List.zipWith (fun c p => c + f * p) c (G.uniform (-1) 1 (q.nDim - 1) s.2).1).map clip01) := by
      refine ⟨?_, ?_⟩
      · rw [List.length_map, List.length_zipWith, hG.uniform_length, hcube.1, Nat.min_self]
      · intro a ha
        obtain ⟨b, -, rfl⟩ := List.mem_map.1 ha
        exact clip01_mem b
    refine ⟨⟨_, rfl, hu⟩, fun v hv => ?_⟩
    exact ⟨goodCands_set hs1 hu (hV _ _ hv), fun w hw => (key_dictSet _ _ _ _).2 (.inr (hs2 w hw))⟩
  · exact ⟨hgood, fun v hv => hv⟩

/-- Progress of one round: nothing kept gets worse, and `no_improvements` counts the rounds without a
better candidate. -/
def Progress (d : List (S × List K)) (no : Nat) (d' : List (S × List K)) (no' : Nat) : Prop :=
  ∃ m m', MinKey d m ∧ MinKey d' m' ∧ m' ≤ m ∧ ((m' < m ∧ no' = 0) ∨ no' = no + 1)

theorem saRound_sat (hG : LawfulRng G) (hV : ∀ r v, V r v → W v) (hdim : 0 < q.nDim) {nScan nKeep : Nat}
    (hscan : 0 < nScan) (hkeep : 0 < nKeep) (spread : K) (st : SAState S K R)
    (hst : GoodCands (q.nDim - 1) W st.cands) :
    (saRound G nScan nKeep spread q st).Sat (CubeVec (q.nDim - 1)) V E (fun st' =>
      GoodCands (q.nDim - 1) W st'.cands ∧ st'.cands ≠ [] ∧
      (st.cands = [] → st.best = none → st'.noImp = 0) ∧
      (st.cands ≠ [] → Progress st.cands st.noImp st'.cands st'.noImp)) := by
  unfold saRound
  split
  · next hlen =>
    have hnil := List.length_eq_zero_iff.1 hlen
    refine Prog.sat_bind (scan_sat (E := E) hG hV hdim nScan st.g) ?_
    rintro s ⟨h1, h2⟩
    obtain ⟨d', m, hk, -, -, hne, hsub⟩ := keepBest_spec (h2 hscan) hkeep st.noImp st.best
    rw [hk]
    refine ⟨fun e he => h1 e (hsub e he), hne, ?_, fun h => absurd hnil h⟩
    intro _ hb
    simp [hb, ltBest]
  · next hlen =>
    have hne : st.cands ≠ [] := fun h => hlen (by rw [h]; rfl)
    obtain ⟨m0, l0, hs0, hm0⟩ := sortedKeys_head hne
    simp only [hs0, List.getElem?_cons_zero]
    rw [← hs0]
    refine Prog.sat_bind (saEvolve_sat (E := E) hG hV st.f hne st.g hst) ?_
    rintro s ⟨h1, h2⟩
    have hsne : s.1 ≠ [] := by
      intro h
      have := h2 _ hm0.1
      rw [h] at this
      cases this
    obtain ⟨d', m, hk, hm, hm', hne', hsub⟩ := keepBest_spec hsne hkeep st.noImp (some m0)
    simp only [hk]
    refine ⟨fun e he => h1 e (hsub e he), hne', fun h => absurd h hne, fun _ => ?_⟩
    refine ⟨m0, m, hm0, hm', hm.2 _ (h2 _ hm0.1), ?_⟩
    by_cases hlt : m < m0
    · left; exact ⟨hlt, by simp [ltBest, hlt]⟩
    · right; simp [ltBest, hlt]

/-- The loop stays in the cube and raises nothing but (in the model) running out of fuel. -/
theorem saLoop_sat (hG : LawfulRng G) (hV : ∀ r v, V r v → W v) (hE : E .noTermination) (hdim : 0 < q.nDim)
    {nScan nKeep : Nat} (hscan : 0 < nScan) (hkeep : 0 < nKeep) (spread : K) (fuel : Nat)
    (st : SAState S K R) (hst : GoodCands (q.nDim - 1) W st.cands) :
    (saLoop G nScan nKeep spread q fuel st).Sat (CubeVec (q.nDim - 1)) V E (fun _ => True) := by
  induction fuel generalizing st with
  | zero => exact hE
  | succ fuel ih =>
    unfold saLoop
    split
    · exact Prog.sat_bind (saRound_sat hG hV hdim hscan hkeep spread st hst) fun st' h => ih st' h.1
    · trivial

theorem saLoop_terminates (hG : LawfulRng G) {L : List S} (hV : ∀ r v, V r v → v ∈ L) (hdim : 0 < q.nDim)
    {nScan nKeep : Nat} (hscan : 0 < nScan) (hkeep : 0 < nKeep) (spread : K) (fuel : Nat)
    (st : SAState S K R) (hst : GoodCands (q.nDim - 1) (· ∈ L) st.cands) {m : S} (hm : MinKey st.cands m)
    (hno : st.noImp ≤ 50) (hfuel : 50 * rankIn L m + (50 - st.noImp) < fuel) :
    (saLoop G nScan nKeep spread q fuel st).Sat (CubeVec (q.nDim - 1)) V (fun _ => False)
      (fun st' => st'.cands ≠ []) := by
  have hne : st.cands ≠ [] := by
    intro h
    have := hm.1
    rw [h] at this
    cases this
  induction fuel generalizing st m with
  | zero => omega
  | succ fuel ih =>
    unfold saLoop
    split
    · next hlt =>
      refine Prog.sat_bind (saRound_sat hG hV hdim hscan hkeep spread st hst) fun st' h => ?_
      obtain ⟨h1, h2, -, h3⟩ := h
      obtain ⟨m1, m', hm1, hm', hle, hcase⟩ := h3 hne
      have e := minKey_unique hm hm1
      subst e
      have hmem : m' ∈ L := by
        obtain ⟨x, hx, hxe⟩ := List.mem_map.1 hm'.1
        rw [← hxe]
        exact (h1 x hx).2
      rcases hcase with ⟨hl, h0⟩ | h0
      · have := rankIn_lt hl hmem
        exact ih st' h1 hm' (by omega) (by omega) h2
      · have := rankIn_le (L := L) hle
        exact ih st' h1 hm' (by omega) (by omega) h2
    · exact hne

/-- Annealing over an objective with the values `L`. -/
theorem saSolve_terminates (hG : LawfulRng G) {L : List S} (hV : ∀ r v, V r v → v ∈ L) (hdim : 0 < q.nDim)
    {nScan nKeep : Nat} (hscan : 0 < nScan) (hkeep : 0 < nKeep) (spread : K) (fuel : Nat)
    (hfuel : 50 * L.length + 51 < fuel) :
    (saSolve G nScan nKeep spread fuel q).Sat (CubeVec (q.nDim - 1)) V (fun _ => False)
      (fun st' => st'.cands ≠ []) := by
  unfold saSolve
  obtain ⟨fuel, rfl⟩ : ∃ f, fuel = f + 1 := ⟨fuel - 1, by omega⟩
  unfold saLoop
  rw [if_pos (show (0 : Nat) < 50 by decide)]
  refine Prog.sat_bind (saRound_sat (W := (· ∈ L)) hG hV hdim hscan hkeep spread _
    (by intro e he; cases he)) fun st' h => ?_
  obtain ⟨h1, h2, h3, -⟩ := h
  obtain ⟨m, l, -, hm⟩ := sortedKeys_head h2
  have h0 := h3 rfl rfl
  have := rankIn_le_length L m
  exact saLoop_terminates hG hV hdim hscan hkeep spread fuel st' h1 hm (by omega) (by omega)

/-- More fuel, same run. -/
theorem saLoop_le (G : Rng R K) (nScan nKeep : Nat) (spread : K) (q : HProb K P S) (fuel : Nat)
    (st : SAState S K R) :
    (saLoop G nScan nKeep spread q fuel st).Le (saLoop G nScan nKeep spread q (fuel + 1) st) := by
  induction fuel generalizing st with
  | zero => exact .inl rfl
  | succ fuel ih =>
    unfold saLoop
    split
    · exact Prog.le_bind (Prog.le_refl _) fun st' => ih st'
    · exact Prog.le_refl _

end sa

/-! ## The objective has finitely many values -/

section range
variable {K P S O : Type} [Field K] [LinearOrder K] [IsStrictOrderedRing K] [LinearOrder S] [Neg S]
variable {A : HArith K} {T : Target K P S O} {pair : PairScore K P S} {q : HProb K P S}

/-- All values `compute` can return: not splitting, and every cut of every ordering of the rows with
every number of candidates. -/
def objectiveValues (pair : PairScore K P S) (q : HProb K P S) : List S :=
  -q.noSplit :: (q.rows.permutations.flatMap fun l => (List.range (q.rows.length + 1)).flatMap fun ns =>
    (List.range (q.rows.length + 1)).map fun k =>
      -(pair q.partitionPrior q.level q.prior q.nDim ns ((l.take k).map q.y) ((l.drop k).map q.y)))

theorem returns_mem (hT : LawfulTarget T pair) (hs : IsArgsort (exactOps K).le (fun _ => True) A.argsort)
    {r : RawVec K} {v : S} (h : Returns A T q r v) : v ∈ objectiveValues pair q := by
  obtain ⟨st, st', h⟩ := h
  rcases hCompute_spec hT hs h with ⟨w, -, -, -, rfl⟩ | ⟨s, sp, ho, -, rfl⟩
  · exact List.mem_cons_self
  · obtain ⟨k, hk, rfl, -⟩ := ho.cut
    have hk' : k < q.rows.length := by
      have := (List.mem_filter.1 hk).1
      exact List.mem_range.1 this
    apply List.mem_cons_of_mem
    refine List.mem_flatMap.2 ⟨byCoordinate A.argsort q sp.normal,
      List.mem_permutations.2 (argsort_perm_rows hs _), ?_⟩
    refine List.mem_flatMap.2 ⟨(jumps q sp.normal).length, List.mem_range.2 ?_, ?_⟩
    · have : (jumps q sp.normal).length ≤ (List.range q.rows.length).length := List.length_filter_le _ _
      rw [List.length_range] at this
      omega
    · exact List.mem_map.2 ⟨k, List.mem_range.2 (by omega), rfl⟩

/-- `compute` succeeds whenever a normal can be computed. -/
theorem hCompute_ok (hT : LawfulTarget T pair) (hs : IsArgsort (exactOps K).le (fun _ => True) A.argsort)
    {r : RawVec K} {w : List K} (h : hNormal A q r = .ok w) (st : HState S K) :
    ∃ x, hCompute A T q st r = .ok x := by
  by_cases hj : jumps q w = []
  · exact ⟨_, hCompute_flat h hj⟩
  · obtain ⟨s, sp, -, h'⟩ := hCompute_cut (T := T) (pair := pair) hT hs (st := st) h hj
    exact ⟨_, h'⟩

end range

end BT
