import Verif.Lemmas.ProgHist
import Verif.Props.Optimize

/-!
# Simulated annealing narrows its search: C54
-/

set_option linter.unusedSectionVars false

namespace BT
open BT.Spec

section
variable {K P S R : Type} [Field K] [LinearOrder K] [IsStrictOrderedRing K] [LinearOrder S]

/-- Two points of the same dimension differ by at most `e` in every coordinate. -/
def Spec.Near (e : K) (u w : List K) : Prop :=
  u.length = w.length ∧ ∀ c (hu : c < u.length) (hw : c < w.length), |u[c] - w[c]| ≤ e

theorem clip01_near {c d : K} (h0 : 0 ≤ c) (h1 : c ≤ 1) : |clip01 (c + d) - c| ≤ |d| := by
  unfold clip01
  rcases max_cases (c + d) 0 with ⟨h, h'⟩ | ⟨h, h'⟩ <;> rw [h]
  · rcases min_cases (c + d) 1 with ⟨g, g'⟩ | ⟨g, g'⟩ <;> rw [g]
    · rw [add_sub_cancel_left]
    · rw [abs_of_nonneg (by linarith)]
      exact le_trans (by linarith) (le_abs_self d)
  · rw [min_eq_left zero_le_one, zero_sub, abs_neg, abs_of_nonneg h0]
    exact le_trans (by linarith) (neg_le_abs d)

/-- The candidates kept are points of the cube that have been evaluated. -/
def KeptCands (m : Nat) (h : List (RawVec K)) (d : List (S × List K)) : Prop :=
  ∀ e ∈ d, CubePoint m e.2 ∧ fvec e.2 ∈ h

theorem keptCands_set {m : Nat} {h : List (RawVec K)} {d : List (S × List K)} (hd : KeptCands m h d)
    {u : List K} (hu : CubePoint m u) (v : S) : KeptCands m (h ++ [fvec u]) (dictSet d v u) := by
  intro e he
  rcases mem_dictSet he with rfl | h'
  · exact ⟨hu, by simp⟩
  · exact ⟨(hd e h').1, List.mem_append_left _ (hd e h').2⟩

/-- After the scan every evaluated point is near an earlier one. -/
def NearEarlier (nScan nKeep : Nat) (spread : K) (h : List (RawVec K)) (r : RawVec K) : Prop :=
  nScan ≤ h.length → ∃ u w, r = fvec u ∧ fvec w ∈ h ∧
    Near (|spread| ^ ((h.length - nScan) / nKeep)) u w

variable {G : Rng R K} {q : HProb K P S} {nScan nKeep : Nat} {spread : K}

theorem scan_satH (hG : LawfulRng G) (hdim : 0 < q.nDim) (g : R) :
    (scan G nScan q g).SatH (NearEarlier nScan nKeep spread)
      (fun h s => h.length = nScan ∧ KeptCands (q.nDim - 1) h s.1) [] := by
  unfold scan
  refine Prog.satH_loop_range (I := fun i h (s : List (S × List K) × R) => h.length = i ∧ KeptCands (q.nDim - 1) h s.1) ?_
    ⟨rfl, fun e he => by cases he⟩
  rintro i hi h s ⟨h1, h2⟩
  rw [if_neg (by omega)]
  have hu : CubePoint (q.nDim - 1) (G.uniform 0 1 (q.nDim - 1) s.2).1 :=
    ⟨hG.uniform_length _ _ _ _, hG.uniform_mem _ _ _ _ zero_le_one⟩
  exact ⟨fun hh => by omega, fun v => ⟨by simp [h1], keptCands_set h2 hu v⟩⟩

theorem saEvolve_satH (hG : LawfulRng G) (k : Nat) {d0 : List (S × List K)} (sorted : List S)
    (g : R) {h0 : List (RawVec K)} (hlen : h0.length = nScan + k * nKeep) (hd0 : KeptCands (q.nDim - 1) h0 d0) :
    (Prog.loop (saEvolve G nKeep (spread ^ k) q sorted) (List.range nKeep) (d0, g)).SatH
      (NearEarlier nScan nKeep spread)
      (fun h s => h.length = nScan + (k + 1) * nKeep ∧ KeptCands (q.nDim - 1) h s.1) h0 := by
  rw [show (k + 1) * nKeep = k * nKeep + nKeep by ring, ← Nat.add_assoc]
  refine Prog.satH_loop_range (I := fun i h (s : List (S × List K) × R) =>
    h.length = nScan + k * nKeep + i ∧ KeptCands (q.nDim - 1) h s.1) ?_ ⟨hlen, hd0⟩
  rintro i hi h s ⟨h1, h2⟩
  unfold saEvolve
  cases hv : sorted[i * sorted.length / nKeep]? with
  | none => trivial
  | some v =>
    simp only
    cases hc : dictGet s.1 v with
    | none => trivial
    | some c =>
      simp only
      have hcm : ∃ v', (v', c) ∈ s.1 := by
        unfold dictGet at hc
        obtain ⟨e, he, rfl⟩ := Option.map_eq_some_iff.1 hc
        exact ⟨e.1, List.mem_of_find?_eq_some he⟩
      obtain ⟨v', hcm⟩ := hcm
      obtain ⟨hcube, hhist⟩ := h2 _ hcm
      have hl := hG.uniform_length (-1) 1 (q.nDim - 1) s.2
      have hlen' : ((List.zipWith (fun c p => c + spread ^ k * p) c
          (G.uniform (-1) 1 (q.nDim - 1) s.2).1).map clip01).length = c.length := by
        rw [List.length_map, List.length_zipWith, hl, hcube.1, Nat.min_self]
      have hu : CubePoint (q.nDim - 1) ((List.zipWith (fun c p => c + spread ^ k * p) c
          (G.uniform (-1) 1 (q.nDim - 1) s.2).1).map clip01) := by
        refine ⟨hlen'.trans hcube.1, fun a ha => ?_⟩
        obtain ⟨b, -, rfl⟩ := List.mem_map.1 ha
        exact clip01_mem b
      refine ⟨fun _ => ⟨_, c, rfl, hhist, hlen', ?_⟩, fun w => ⟨by simp [h1, Nat.add_assoc], keptCands_set h2 hu w⟩⟩
      intro j hj hj'
      have hk : (h.length - nScan) / nKeep = k := by
        rw [h1, show nScan + k * nKeep + i - nScan = i + k * nKeep by omega,
          Nat.add_mul_div_right _ _ (by omega), Nat.div_eq_of_lt hi, Nat.zero_add]
      rw [hk]
      simp only [List.getElem_map, List.getElem_zipWith]
      have hcj := hcube.2 _ (List.getElem_mem hj')
      refine le_trans (clip01_near hcj.1 hcj.2) ?_
      rw [abs_mul, abs_pow]
      have hp := hG.uniform_mem (-1) 1 (q.nDim - 1) s.2 (by linarith [zero_le_one (α := K)]) _
        (List.getElem_mem (n := j) (by rw [hl, ← hcube.1]; exact hj'))
      exact mul_le_of_le_one_right (pow_nonneg (abs_nonneg _) _) (abs_le.2 hp)

/-- At the start of a pass of the loop: nothing has happened, or the scan and `k` rounds. -/
def SAInv (m nScan nKeep : Nat) (spread : K) (h : List (RawVec K)) (st : SAState S K R) : Prop :=
  (h = [] ∧ st.cands = [] ∧ st.f = 1) ∨
  ∃ k, h.length = nScan + k * nKeep ∧ st.f = spread ^ k ∧ st.cands ≠ [] ∧ KeptCands m h st.cands

theorem saRound_satH (hG : LawfulRng G) (hdim : 0 < q.nDim) (hkeep : 0 < nKeep)
    (st : SAState S K R) {h : List (RawVec K)} (hst : SAInv (q.nDim - 1) nScan nKeep spread h st) :
    (saRound G nScan nKeep spread q st).SatH (NearEarlier nScan nKeep spread)
      (SAInv (q.nDim - 1) nScan nKeep spread) h := by
  unfold saRound
  rcases hst with ⟨rfl, hc, hf⟩ | ⟨k, hlen, hf, hne, hk⟩
  · rw [if_pos (by rw [hc]; rfl)]
    refine Prog.satH_bind (scan_satH hG hdim st.g) ?_
    rintro h' s ⟨h1, h2⟩
    rcases eq_or_ne s.1 [] with he | hne
    · rw [keepBest_error s.1 nKeep _ _ (.inl he)]
      trivial
    · obtain ⟨d', m, hkb, -, -, hne', hsub⟩ := keepBest_spec hne hkeep st.noImp st.best
      rw [hkb]
      exact .inr ⟨0, by simpa using h1, by rw [pow_zero]; exact hf, hne', fun e he => h2 e (hsub e he)⟩
  · rw [if_neg (by rw [List.length_eq_zero_iff]; exact hne)]
    simp only
    cases (sortedKeys st.cands)[0]? with
    | none => trivial
    | some best =>
      simp only
      rw [hf]
      refine Prog.satH_bind (saEvolve_satH hG k _ st.g hlen hk) ?_
      rintro h' s ⟨h1, h2⟩
      rcases eq_or_ne s.1 [] with he | hne
      · rw [keepBest_error s.1 nKeep _ _ (.inl he)]
        trivial
      · obtain ⟨d', m, hkb, -, -, hne', hsub⟩ := keepBest_spec hne hkeep st.noImp (some best)
        rw [hkb]
        exact .inr ⟨k + 1, h1, (pow_succ _ _).symm, hne', fun e he => h2 e (hsub e he)⟩

theorem saLoop_satH (hG : LawfulRng G) (hdim : 0 < q.nDim) (hkeep : 0 < nKeep) (fuel : Nat)
    (st : SAState S K R) {h : List (RawVec K)} (hst : SAInv (q.nDim - 1) nScan nKeep spread h st) :
    (saLoop G nScan nKeep spread q fuel st).SatH (NearEarlier nScan nKeep spread) (fun _ _ => True) h := by
  induction fuel generalizing st h with
  | zero => trivial
  | succ fuel ih =>
    unfold saLoop
    split
    · exact Prog.satH_bind (saRound_satH hG hdim hkeep st hst) fun h' st' h => ih st' h
    · trivial

/-- C54: annealing narrows its search geometrically.  The evaluation that follows the `n_scan` evaluations
of the scan and `k` full rounds of `n_keep` evaluations (and any part of the next round) is made at a point
that differs by at most `|spread_factor|^k` in every coordinate from a point evaluated before — whatever
values `compute` has returned. -/
theorem C54_local (hG : LawfulRng G) (hdim : 0 < q.nDim) (hkeep : 0 < nKeep) (fuel : Nat)
    (hist : List (RawVec K × S)) (hscan : nScan ≤ hist.length) {r : RawVec K}
    (hr : (saSolve G nScan nKeep spread fuel q).strategy hist = .eval r) :
    ∃ u w : List K, r = ⟨false, u.map XF.fin⟩ ∧
      (∃ j, 0 < j ∧ j ≤ hist.length ∧
        (saSolve G nScan nKeep spread fuel q).strategy (hist.drop j) = .eval ⟨false, w.map XF.fin⟩) ∧
      Near (|spread| ^ ((hist.length - nScan) / nKeep)) u w := by
  have h := saLoop_satH (nScan := nScan) (spread := spread) (q := q) hG hdim hkeep fuel
    ⟨[], 0, none, 1, G.init⟩ (h := []) (.inl ⟨rfl, rfl, rfl⟩)
  obtain ⟨rs, h1, h2, h3⟩ := Prog.satH_resume h (hist.reverse.map Prod.snd) hr
  rw [List.nil_append] at h3
  have hl : rs.length = hist.length := by simpa using h1
  obtain ⟨u, w, hu, hw, hnear⟩ := h3 (by omega)
  rw [hl] at hnear
  obtain ⟨j, hj, hjw⟩ := List.getElem_of_mem hw
  refine ⟨u, w, hu, ⟨hist.length - j, by omega, by omega, ?_⟩, hnear⟩
  have := h2 j hj
  rw [hjw] at this
  rw [← show fvec w = ⟨false, w.map XF.fin⟩ from rfl, ← this]
  show (saLoop _ _ _ _ _ _ _).resume _ = _
  congr 1
  rw [← List.map_take, List.take_reverse]

/-- A generator whose uniform numbers lie at five eighths of the interval. -/
def steadyRng : Rng Nat ℚ where
  init := 0
  uniform lo hi n g := (List.replicate n (lo + (hi - lo) * (5/8)), g + 1)
  randint _ g := (0, g + 1)
  normal n g := (List.replicate n 1, g + 1)

theorem steadyRng_lawful : LawfulRng steadyRng where
  uniform_length lo hi n g := by simp [steadyRng]
  uniform_mem lo hi n g h a ha := by
    have := List.eq_of_mem_replicate ha
    constructor <;> rw [this] <;> linarith
  randint_lt n g hn := hn
  normal_length n g := by simp [steadyRng]

/-- One scanned point 5/8, one round from it to 7/8 which is worse; the next round starts from 5/8 again with
half the step and evaluates 3/4. -/
example : (saSolve steadyRng 1 1 (1/2) 5 { hangProb with nDim := 2 }).strategy [(fvec [7/8], 2), (fvec [5/8], 1)]
    = .eval (fvec [3/4]) := by
  have h1 : ∀ x : List ℚ, sortedKeys [((1 : ℚ), x)] = [1] := fun x => List.mergeSort_singleton _
  have h2 : ∀ x y : List ℚ, sortedKeys [((1 : ℚ), x), (2, y)] = [1, 2] := fun x y =>
    List.mergeSort_of_pairwise (by norm_num)
  simp [saSolve, saLoop, saRound, scan, saEvolve, Prog.strategy, Prog.resume, Prog.loop, Prog.bind, steadyRng,
    hangProb, List.range_succ, dictSet, dictGet, keepBest, h1, h2, dictRestrict, ltBest, clip01, fvec]
  norm_num

end

end BT
