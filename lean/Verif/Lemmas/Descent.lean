import Verif.Lemmas.Optimize
import Mathlib.Tactic.Linarith
import Mathlib.Tactic.Ring
import Mathlib.Tactic.FieldSimp

/-!
# Gradient descent
-/

set_option linter.unusedSectionVars false

namespace BT
open BT.Spec

section gd
variable {K P R : Type} [Field K] [LinearOrder K] [IsStrictOrderedRing K]

/-- A negative power of ten. -/
def TenPow (k : Nat) (δ : K) : Prop := 0 < k ∧ δ * 10 ^ k = 1

theorem TenPow.pos {k : Nat} {δ : K} (h : TenPow k δ) : 0 < δ := by
  have h10 : (0 : K) < 10 ^ k := by positivity
  by_contra hn
  have : δ * 10 ^ k ≤ 0 := mul_nonpos_of_nonpos_of_nonneg (not_lt.1 hn) h10.le
  rw [h.2] at this
  linarith

theorem TenPow.le {k : Nat} {δ : K} (h : TenPow k δ) : δ * 10 ≤ 1 := by
  have h1 : (1 : K) ≤ 10 ^ (k - 1) := one_le_pow₀ (by norm_num)
  have e : (10 : K) ^ k = 10 * 10 ^ (k - 1) := by
    rw [← pow_succ']
    congr 1
    have := h.1
    omega
  have h2 := h.2
  rw [e] at h2
  nlinarith [h.pos]

theorem TenPow.up {k : Nat} {δ : K} (h : TenPow k δ) (hlt : δ * 10 < 1) : TenPow (k - 1) (δ * 10) := by
  obtain ⟨h0, h1⟩ := h
  obtain ⟨j, rfl⟩ : ∃ j, k = j + 1 := ⟨k - 1, by omega⟩
  have e : δ * 10 * 10 ^ j = 1 := by rw [← h1, pow_succ]; ring
  refine ⟨?_, e⟩
  rcases Nat.eq_zero_or_pos j with rfl | hj
  · simp only [pow_zero, mul_one] at e
    linarith
  · simpa using hj

theorem TenPow.down {k : Nat} {δ : K} (h : TenPow k δ) : TenPow (k + 1) (δ / 10) := by
  refine ⟨by omega, ?_⟩
  rw [pow_succ, ← h.2]
  field_simp

variable {G : Rng R K} {q : HProb K P K} {V : RawVec K → K → Prop} {W : K → Prop} {E : Err → Prop}

theorem gdQuotients_sat {m k : Nat} {candidate : List K} (hc : CubePoint m candidate) (value : K)
    (is : List Nat) (his : ∀ i ∈ is, i < m) {δ : K} (hδ : TenPow k δ) (grad : List K) :
    (gdQuotients candidate value is δ grad).Sat (CubeVec m) V E (fun r =>
      r.2 = δ ∧ ∀ g, r.1 = some g → g.length = grad.length + is.length) := by
  induction is generalizing grad with
  | nil =>
    refine ⟨rfl, fun g hg => ?_⟩
    cases hg
    rfl
  | cons i is ih =>
    have hi : i < candidate.length := by rw [hc.1]; exact his i (by simp)
    unfold gdQuotients
    rw [List.getElem?_eq_getElem hi]
    simp only
    have hci := hc.2 _ (List.getElem_mem hi)
    have hpos := hδ.pos
    have hle := hδ.le
    have habs : |if 1 < candidate[i] + δ then δ * (-1) else δ| = δ := by
      split
      · rw [mul_neg_one, abs_neg, abs_of_pos hpos]
      · rw [abs_of_pos hpos]
    have hmem : 0 ≤ candidate[i] + (if 1 < candidate[i] + δ then δ * (-1) else δ) ∧
        candidate[i] + (if 1 < candidate[i] + δ then δ * (-1) else δ) ≤ 1 := by
      split
      · constructor <;> linarith
      · next h => constructor <;> linarith [not_lt.1 h]
    refine ⟨⟨_, rfl, ?_, ?_⟩, ?_⟩
    · rw [List.length_set]; exact hc.1
    · intro a ha
      rcases List.mem_or_eq_of_mem_set ha with h | h
      · exact hc.2 a h
      · rw [h]; exact hmem
    · intro v hv
      rw [habs]
      dsimp only
      by_cases h0 : (v - value) / (if 1 < candidate[i] + δ then δ * (-1) else δ) = 0
      · rw [if_pos h0]
        exact ⟨rfl, fun g hg => by cases hg⟩
      · rw [if_neg h0]
        refine Prog.sat_mono (ih (fun j hj => his j (by simp [hj])) _) ?_
        rintro a ⟨h1, h2⟩
        refine ⟨h1, fun g hg => ?_⟩
        rw [h2 g hg]
        simp
        omega

theorem gdGradient_sat {k : Nat} {candidate : List K} (hc : CubePoint (q.nDim - 1) candidate) (value : K)
    (fuel : Nat) (hF : E .noTermination ∨ k ≤ fuel) {δ : K} (hδ : TenPow k δ) :
    (gdGradient q candidate value fuel δ).Sat (CubeVec (q.nDim - 1)) V E (fun r =>
      ∀ g δ', r = some (g, δ') → g.length = q.nDim - 1 ∧ ∃ j, j ≤ k ∧ TenPow j δ') := by
  induction fuel generalizing k δ with
  | zero =>
    rcases hF with h | h
    · exact h
    · have := hδ.1; omega
  | succ fuel ih =>
    unfold gdGradient
    refine Prog.sat_bind (gdQuotients_sat hc value (List.range (q.nDim - 1))
      (fun i hi => List.mem_range.1 hi) hδ []) ?_
    rintro ⟨r1, r2⟩ ⟨h1, h2⟩
    simp only at h1 h2
    subst h1
    cases r1 with
    | some grad =>
      intro g δ' hg
      cases hg
      refine ⟨by simpa using h2 _ rfl, k, le_refl _, hδ⟩
    | none =>
      simp only
      split
      · intro g δ' hg; cases hg
      · next hlt =>
        refine Prog.sat_mono (ih (k := k - 1) ?_ (hδ.up (not_le.1 hlt))) ?_
        · rcases hF with h | h
          · exact .inl h
          · right; omega
        · intro a ha g δ' hg
          obtain ⟨h3, j, hj, h4⟩ := ha g δ' hg
          exact ⟨h3, j, by omega, h4⟩

theorem gdDescend_sat {m : Nat} {candidate grad : List K} (hc : CubePoint m candidate)
    (hg : grad.length = m) (hV : ∀ r v, V r v → W v) (fuel : Nat) (lambda : K) {bestVec : List K}
    {bestValue : K} (hb : CubePoint m bestVec) (hw : W bestValue)
    (hF : E .noTermination ∨ ∃ L : List K, (∀ v, W v → v ∈ L) ∧ rankIn L bestValue < fuel) :
    (gdDescend candidate grad fuel lambda bestVec bestValue).Sat (CubeVec m) V E (fun r =>
      CubePoint m r.1 ∧ W r.2) := by
  induction fuel generalizing lambda bestVec bestValue with
  | zero =>
    rcases hF with h | ⟨L, -, h⟩
    · exact h
    · omega
  | succ fuel ih =>
    unfold gdDescend
    have hu : CubePoint m ((List.zipWith (fun c g => c - lambda * g) candidate grad).map clip01) := by
      refine ⟨?_, ?_⟩
      · rw [List.length_map, List.length_zipWith, hc.1, hg, Nat.min_self]
      · intro a ha
        obtain ⟨b, -, rfl⟩ := List.mem_map.1 ha
        exact clip01_mem b
    refine ⟨⟨_, rfl, hu⟩, fun v hv => ?_⟩
    dsimp only
    split
    · next hlt =>
      refine ih _ hu (hV _ _ hv) ?_
      rcases hF with h | ⟨L, hL, h⟩
      · exact .inl h
      · have := rankIn_lt hlt (hL _ (hV _ _ hv))
        exact .inr ⟨L, hL, by omega⟩
    · exact ⟨hb, hw⟩

theorem gdCandidates_sat (hV : ∀ r v, V r v → W v) {nKeep k : Nat} {d0 : List (K × List K)} (hd0 : d0 ≠ [])
    (hgood : GoodCands (q.nDim - 1) W d0) (fuel : Nat)
    (hF : E .noTermination ∨ (k + nKeep ≤ fuel ∧ ∃ L : List K, (∀ v, W v → v ∈ L) ∧ L.length < fuel))
    {δ : K} (hδ : TenPow k δ) :
    (Prog.loop (gdCandidate fuel nKeep q (sortedKeys d0)) (List.range nKeep) (d0, δ)).Sat
      (CubeVec (q.nDim - 1)) V E (fun s => GoodCands (q.nDim - 1) W s.1 ∧
        (∀ v ∈ d0.map Prod.fst, v ∈ s.1.map Prod.fst) ∧ ∃ j, j ≤ k + nKeep ∧ TenPow j s.2) := by
  have key : ∀ (l : List Nat), (∀ i ∈ l, i < nKeep) → ∀ (s : List (K × List K) × K) (j : Nat),
      j + l.length ≤ k + nKeep → GoodCands (q.nDim - 1) W s.1 →
      (∀ v ∈ d0.map Prod.fst, v ∈ s.1.map Prod.fst) → TenPow j s.2 →
      (Prog.loop (gdCandidate fuel nKeep q (sortedKeys d0)) l s).Sat
      (CubeVec (q.nDim - 1)) V E (fun s => GoodCands (q.nDim - 1) W s.1 ∧
        (∀ v ∈ d0.map Prod.fst, v ∈ s.1.map Prod.fst) ∧ ∃ j, j ≤ k + nKeep ∧ TenPow j s.2) := by
    intro l
    induction l with
    | nil =>
      intro _ s j hj h1 h2 h3
      exact ⟨h1, h2, j, by simpa using hj, h3⟩
    | cons i l ih =>
      intro hl s j hj h1 h2 h3
      rw [List.length_cons] at hj
      have hi' : i < nKeep := hl i (by simp)
      have hpos : 0 < (sortedKeys d0).length := by
        rw [sortedKeys_length]; exact List.length_pos_of_ne_nil hd0
      have hlt : i * (sortedKeys d0).length / nKeep < (sortedKeys d0).length := by
        rw [Nat.div_lt_iff_lt_mul (by omega), Nat.mul_comm]
        exact Nat.mul_lt_mul_of_pos_left hi' hpos
      unfold Prog.loop
      refine Prog.sat_bind (Z := fun s => GoodCands (q.nDim - 1) W s.1 ∧
        (∀ v ∈ d0.map Prod.fst, v ∈ s.1.map Prod.fst) ∧ ∃ j', j' ≤ j + 1 ∧ TenPow j' s.2) ?_ ?_
      · unfold gdCandidate
        rw [List.getElem?_eq_getElem hlt]
        simp only
        obtain ⟨c, hc, hcm⟩ := dictGet_of_key (h2 _ ((mem_sortedKeys d0 _).1 (List.getElem_mem hlt)))
        rw [hc]
        simp only
        obtain ⟨hcube, hwv⟩ := h1 _ hcm
        refine Prog.sat_bind (gdGradient_sat hcube _ fuel (hF.imp id fun h => by omega) h3) ?_
        rintro r hr
        cases r with
        | none => exact ⟨h1, h2, j, by omega, h3⟩
        | some gd =>
          obtain ⟨hgl, j', hj', hten⟩ := hr gd.1 gd.2 rfl
          refine Prog.sat_bind (gdDescend_sat hcube hgl hV fuel _ hcube hwv ?_) ?_
          · refine hF.imp id ?_
            rintro ⟨-, L, hL, hlen⟩
            exact ⟨L, hL, lt_of_le_of_lt (rankIn_le_length _ _) hlen⟩
          · rintro b ⟨hb1, hb2⟩
            exact ⟨goodCands_set h1 hb1 hb2, fun w hw => (key_dictSet _ _ _ _).2 (.inr (h2 w hw)),
              j' + 1, by omega, hten.down⟩
      · rintro s' ⟨g1, g2, j', hj', g3⟩
        exact ih (fun x hx => hl x (by simp [hx])) s' j' (by omega) g1 g2 g3
  exact key (List.range nKeep) (fun i hi => List.mem_range.1 hi) (d0, δ) k (by simp) hgood
    (fun v hv => hv) hδ

theorem gdRound_sat (hG : LawfulRng G) (hV : ∀ r v, V r v → W v) (hdim : 0 < q.nDim) {nInit nKeep k : Nat}
    (hinit : 0 < nInit) (hkeep : 0 < nKeep) (fuel : Nat)
    (hF : E .noTermination ∨ (k + nKeep ≤ fuel ∧ ∃ L : List K, (∀ v, W v → v ∈ L) ∧ L.length < fuel))
    (st : GDState K R) (hδ : TenPow k st.startDelta) (hst : GoodCands (q.nDim - 1) W st.cands) :
    (gdRound G fuel nInit nKeep q st).Sat (CubeVec (q.nDim - 1)) V E (fun st' =>
      GoodCands (q.nDim - 1) W st'.cands ∧ st'.cands ≠ [] ∧
      (∃ j, j ≤ k + nKeep ∧ TenPow j st'.startDelta) ∧
      (st.cands = [] → st.best = none → st'.noImp = 0) ∧
      (st.cands ≠ [] → Progress st.cands st.noImp st'.cands st'.noImp)) := by
  unfold gdRound
  split
  · next hlen =>
    have hnil := List.length_eq_zero_iff.1 hlen
    refine Prog.sat_bind (scan_sat (E := E) hG hV hdim nInit st.g) ?_
    rintro s ⟨h1, h2⟩
    obtain ⟨d', m, hk, -, -, hne, hsub⟩ := keepBest_spec (h2 hinit) hkeep st.noImp st.best
    rw [hk]
    refine ⟨fun e he => h1 e (hsub e he), hne, ⟨k, by omega, hδ⟩, ?_, fun h => absurd hnil h⟩
    intro _ hb
    simp [hb, ltBest]
  · next hlen =>
    have hne : st.cands ≠ [] := fun h => hlen (by rw [h]; rfl)
    obtain ⟨m0, l0, hs0, hm0⟩ := sortedKeys_head hne
    simp only [hs0, List.getElem?_cons_zero]
    rw [← hs0]
    refine Prog.sat_bind (gdCandidates_sat hV hne hst fuel hF hδ) ?_
    rintro s ⟨h1, h2, h3⟩
    have hsne : s.1 ≠ [] := by
      intro h
      have := h2 _ hm0.1
      rw [h] at this
      cases this
    obtain ⟨d', m, hk, hm, hm', hne', hsub⟩ := keepBest_spec hsne hkeep st.noImp (some m0)
    simp only [hk]
    refine ⟨fun e he => h1 e (hsub e he), hne', h3, fun h => absurd h hne, fun _ => ?_⟩
    refine ⟨m0, m, hm0, hm', hm.2 _ (h2 _ hm0.1), ?_⟩
    by_cases hlt : m < m0
    · left; exact ⟨hlt, by simp [ltBest, hlt]⟩
    · right; simp [ltBest, hlt]

theorem gdLoop_sat (hG : LawfulRng G) (hV : ∀ r v, V r v → W v) (hE : E .noTermination) (hdim : 0 < q.nDim)
    {nInit nKeep : Nat} (hinit : 0 < nInit) (hkeep : 0 < nKeep) (fuelIn fuel : Nat) (st : GDState K R)
    {k : Nat} (hδ : TenPow k st.startDelta) (hst : GoodCands (q.nDim - 1) W st.cands) :
    (gdLoop G fuelIn nInit nKeep q fuel st).Sat (CubeVec (q.nDim - 1)) V E (fun _ => True) := by
  induction fuel generalizing st k with
  | zero => exact hE
  | succ fuel ih =>
    unfold gdLoop
    split
    · refine Prog.sat_bind (gdRound_sat hG hV hdim hinit hkeep fuelIn (.inl hE) st hδ hst) fun st' h => ?_
      obtain ⟨h1, -, ⟨j, -, hj⟩, -⟩ := h
      exact ih st' hj h1
    · trivial

theorem gdLoop_terminates (hG : LawfulRng G) {L : List K} (hV : ∀ r v, V r v → v ∈ L) (hdim : 0 < q.nDim)
    {nInit nKeep : Nat} (hinit : 0 < nInit) (hkeep : 0 < nKeep) (fuelIn fuel : Nat) (st : GDState K R)
    {k : Nat} (hδ : TenPow k st.startDelta) (hst : GoodCands (q.nDim - 1) (· ∈ L) st.cands)
    {m : K} (hm : MinKey st.cands m) (hno : st.noImp ≤ 3)
    (hfuel : 3 * rankIn L m + (3 - st.noImp) < fuel) (hL : L.length < fuelIn)
    (hin : k + nKeep * (3 * rankIn L m + (3 - st.noImp)) ≤ fuelIn) :
    (gdLoop G fuelIn nInit nKeep q fuel st).Sat (CubeVec (q.nDim - 1)) V (fun _ => False)
      (fun st' => st'.cands ≠ []) := by
  have hne : st.cands ≠ [] := by
    intro h
    have := hm.1
    rw [h] at this
    cases this
  induction fuel generalizing st m k with
  | zero => omega
  | succ fuel ih =>
    unfold gdLoop
    split
    · next hlt =>
      have hmu : 1 ≤ 3 * rankIn L m + (3 - st.noImp) := by omega
      have hone : nKeep * 1 ≤ nKeep * (3 * rankIn L m + (3 - st.noImp)) := Nat.mul_le_mul_left _ hmu
      refine Prog.sat_bind (gdRound_sat (W := (· ∈ L)) hG hV hdim hinit hkeep fuelIn
        (.inr ⟨by omega, L, fun v hv => hv, hL⟩) st hδ hst) fun st' h => ?_
      obtain ⟨h1, h2, ⟨j, hj, hten⟩, -, h3⟩ := h
      obtain ⟨m1, m', hm1, hm', hle, hcase⟩ := h3 hne
      have e := minKey_unique hm hm1
      subst e
      have hmem : m' ∈ L := by
        obtain ⟨x, hx, hxe⟩ := List.mem_map.1 hm'.1
        rw [← hxe]
        exact (h1 x hx).2
      have hmeas : 3 * rankIn L m' + (3 - st'.noImp) + 1 ≤ 3 * rankIn L m + (3 - st.noImp) := by
        rcases hcase with ⟨hl, h0⟩ | h0
        · have := rankIn_lt hl hmem
          omega
        · have := rankIn_le (L := L) hle
          omega
      have hmul := Nat.mul_le_mul_left nKeep hmeas
      rw [Nat.mul_add, Nat.mul_one] at hmul
      have hno' : st'.noImp ≤ 3 := by
        rcases hcase with ⟨-, h0⟩ | h0 <;> omega
      exact ih st' hten h1 hm' hno' (by omega) (by omega) h2
    · exact hne

/-- Gradient descent over an objective with the values `L`. -/
theorem gdSolve_terminates (hG : LawfulRng G) {L : List K} (hV : ∀ r v, V r v → v ∈ L) (hdim : 0 < q.nDim)
    {nInit nKeep : Nat} (hinit : 0 < nInit) (hkeep : 0 < nKeep) (fuel : Nat)
    (hfuel : 6 + nKeep + (nKeep + 1) * (3 * L.length + 3) < fuel) :
    (gdSolve G nInit nKeep fuel q).Sat (CubeVec (q.nDim - 1)) V (fun _ => False)
      (fun st' => st'.cands ≠ []) := by
  unfold gdSolve
  have hexp : (nKeep + 1) * (3 * L.length + 3) = nKeep * (3 * L.length + 3) + (3 * L.length + 3) := by ring
  obtain ⟨f, hf⟩ : ∃ f, fuel = f + 1 := ⟨fuel - 1, by omega⟩
  have hstep : ∀ st : GDState K R, gdLoop G fuel nInit nKeep q fuel st =
      gdLoop G fuel nInit nKeep q (f + 1) st := fun st => by rw [← hf]
  rw [hstep]
  unfold gdLoop
  rw [if_pos (show (0 : Nat) < 3 by decide)]
  have hten : TenPow 6 ((1 : K) / 1000000) := ⟨by decide, by norm_num⟩
  refine Prog.sat_bind (gdRound_sat (W := (· ∈ L)) (k := 6) hG hV hdim hinit hkeep fuel
    (.inr ⟨by omega, L, fun v hv => hv, by omega⟩) _ hten (by intro e he; cases he)) fun st' h => ?_
  obtain ⟨h1, h2, ⟨j, hj, hj'⟩, h3, -⟩ := h
  obtain ⟨m, l, -, hm⟩ := sortedKeys_head h2
  have h0 := h3 rfl rfl
  have hr := rankIn_le_length L m
  have hmul : nKeep * (3 * rankIn L m + (3 - st'.noImp)) ≤ nKeep * (3 * L.length + 3) :=
    Nat.mul_le_mul_left _ (by omega)
  exact gdLoop_terminates hG hV hdim hinit hkeep fuel f st' hj' h1 hm (by omega) (by omega) (by omega)
    (by omega)

/-! More fuel, same run. -/

theorem gdGradient_le (q : HProb K P K) (candidate : List K) (value : K) (fuel : Nat) (δ : K) :
    (gdGradient q candidate value fuel δ).Le (gdGradient q candidate value (fuel + 1) δ) := by
  induction fuel generalizing δ with
  | zero => exact .inl rfl
  | succ fuel ih =>
    unfold gdGradient
    refine Prog.le_bind (Prog.le_refl _) fun r => ?_
    split
    · exact Prog.le_refl _
    · dsimp only
      split
      · exact Prog.le_refl _
      · exact ih _

theorem gdDescend_le (candidate grad : List K) (fuel : Nat) (l : K) (b : List K) (v : K) :
    (gdDescend candidate grad fuel l b v).Le (gdDescend candidate grad (fuel + 1) l b v) := by
  induction fuel generalizing l b v with
  | zero => exact .inl rfl
  | succ fuel ih =>
    unfold gdDescend
    refine ⟨_, rfl, fun w => ?_⟩
    dsimp only
    split
    · exact ih _ _ _
    · exact Prog.le_refl _

theorem gdCandidate_le (fuel nKeep : Nat) (q : HProb K P K) (sorted : List K) (s : List (K × List K) × K)
    (i : Nat) : (gdCandidate fuel nKeep q sorted s i).Le (gdCandidate (fuel + 1) nKeep q sorted s i) := by
  unfold gdCandidate
  split
  · exact Prog.le_refl _
  · split
    · exact Prog.le_refl _
    · refine Prog.le_bind (gdGradient_le _ _ _ _ _) fun r => ?_
      split
      · exact Prog.le_refl _
      · exact Prog.le_bind (gdDescend_le _ _ _ _ _ _) fun _ => Prog.le_refl _

theorem gdRound_le (G : Rng R K) (fuel nInit nKeep : Nat) (q : HProb K P K) (st : GDState K R) :
    (gdRound G fuel nInit nKeep q st).Le (gdRound G (fuel + 1) nInit nKeep q st) := by
  unfold gdRound
  split
  · exact Prog.le_refl _
  · simp only
    split
    · exact Prog.le_refl _
    · exact Prog.le_bind (Prog.le_loop _ (fun a x => gdCandidate_le _ _ _ _ _ _) _) fun _ => Prog.le_refl _

theorem gdSolve_le (G : Rng R K) (nInit nKeep fuel : Nat) (q : HProb K P K) :
    (gdSolve G nInit nKeep fuel q).Le (gdSolve G nInit nKeep (fuel + 1) q) := by
  have key : ∀ f (st : GDState K R),
      (gdLoop G fuel nInit nKeep q f st).Le (gdLoop G (fuel + 1) nInit nKeep q (f + 1) st) := by
    intro f
    induction f with
    | zero => intro st; exact .inl rfl
    | succ f ih =>
      intro st
      unfold gdLoop
      split
      · exact Prog.le_bind (gdRound_le _ _ _ _ _ _) fun st' => ih st'
      · exact Prog.le_refl _
  exact key fuel _

end gd

end BT
