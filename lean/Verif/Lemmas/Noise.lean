import Verif.Lemmas.Trim
import Verif.Lemmas.Closed
import Verif.Spec.Noise
import Mathlib.Tactic.Linarith

/-!
# Fits whose scores are only approximately right

`T'` computes scores up to an error `ε`, possibly depending on the order in which targets are added up.
-/

namespace BT
open Spec

set_option linter.unusedSectionVars false

section
variable {V K P O : Type}

section search
variable {S : Type} [LinearOrder S] (o : XOps V K) (T : Target K P S O) (hp : Hyper K) (lv : Nat)
  (X : Nat → Nat → V) (y : Nat → K) (nDim : Nat) (prior : P) (sid : List (List Nat))

/-- `searchDim_spec` for any scores. -/
theorem searchDim_spec_of (sc : Nat → S) (b : Best S) (d : Nat)
    (hs : T.logSplit hp.partitionPrior lv ((sid.getD d []).map y) prior nDim
        (candPos o hp X sid d) = (candPos o hp X sid d).map sc) :
    let b' := searchDim o T hp lv X y nDim prior sid b d
    (b' = b ∧ ∀ k ∈ candPos o hp X sid d, sc k ≤ b.score) ∨
    (∃ k ∈ candPos o hp X sid d, b' = ⟨sc k, some (d, k)⟩ ∧ b.score < sc k ∧
      (∀ k' ∈ candPos o hp X sid d, sc k' ≤ sc k)) := by
  intro b'
  have hb' : b' = if (candPos o hp X sid d).length = 0 then b else
      match (T.logSplit hp.partitionPrior lv ((sid.getD d []).map y) prior nDim
          (candPos o hp X sid d))[argmax (T.logSplit hp.partitionPrior lv ((sid.getD d []).map y) prior
            nDim (candPos o hp X sid d))]?,
        (candPos o hp X sid d)[argmax (T.logSplit hp.partitionPrior lv ((sid.getD d []).map y) prior
            nDim (candPos o hp X sid d))]? with
      | some s, some k => if b.score < s then ⟨s, some (d, k)⟩ else b
      | _, _ => b := rfl
  by_cases hnil : (candPos o hp X sid d).length = 0
  · rw [if_pos hnil] at hb'
    left
    refine ⟨hb', ?_⟩
    intro k hk
    rw [List.eq_nil_of_length_eq_zero hnil] at hk
    simp at hk
  · rw [if_neg hnil, hs] at hb'
    have hne : (candPos o hp X sid d).map sc ≠ [] := by
      intro h; simp at h; simp [h] at hnil
    obtain ⟨v, hv, hmax, hfirst⟩ := argmax_spec hne
    rw [hv] at hb'
    have hv' := hv
    rw [List.getElem?_map, Option.map_eq_some_iff] at hv'
    obtain ⟨k, hk, hkv⟩ := hv'
    rw [hk] at hb'
    simp only at hb'
    have hkm : k ∈ candPos o hp X sid d := List.mem_of_getElem? hk
    have hall : ∀ k' ∈ candPos o hp X sid d, sc k' ≤ v := fun k' hk' =>
      hmax _ (List.mem_map_of_mem hk')
    by_cases hlt : b.score < v
    · rw [if_pos hlt] at hb'
      right
      subst hkv
      exact ⟨k, hkm, hb', hlt, hall⟩
    · rw [if_neg hlt] at hb'
      left
      exact ⟨hb', fun k' hk' => (hall k' hk').trans (not_lt.1 hlt)⟩

/-- `search_spec` for any scores. -/
theorem search_spec_of (sc : Nat → Nat → S) (s0 : S) (m : Nat)
    (hs : ∀ d < m, T.logSplit hp.partitionPrior lv ((sid.getD d []).map y) prior nDim
        (candPos o hp X sid d) = (candPos o hp X sid d).map (sc d)) :
    let b := (List.range m).foldl (searchDim o T hp lv X y nDim prior sid) ⟨s0, none⟩
    (b = ⟨s0, none⟩ ∧ ∀ d < m, ∀ k ∈ candPos o hp X sid d, sc d k ≤ s0) ∨
    (∃ d < m, ∃ k ∈ candPos o hp X sid d, b = ⟨sc d k, some (d, k)⟩ ∧ s0 < sc d k ∧
      (∀ d' < m, ∀ k' ∈ candPos o hp X sid d', sc d' k' ≤ sc d k)) := by
  intro b
  induction m with
  | zero => left; exact ⟨rfl, by simp⟩
  | succ m ih =>
    have hb : b = searchDim o T hp lv X y nDim prior sid
        ((List.range m).foldl (searchDim o T hp lv X y nDim prior sid) ⟨s0, none⟩) m := by
      show (List.range (m + 1)).foldl _ _ = _
      rw [List.range_succ, List.foldl_append]
      rfl
    have hstep := searchDim_spec_of o T hp lv X y nDim prior sid (sc m)
      ((List.range m).foldl (searchDim o T hp lv X y nDim prior sid) ⟨s0, none⟩) m (hs m (by omega))
    simp only at hstep
    rw [← hb] at hstep
    rcases ih fun d hd => hs d (by omega) with ⟨e0, hle⟩ | ⟨d, hd, k, hk, e0, hgt, hmax⟩
    · rw [e0] at hstep
      rcases hstep with ⟨e, hle'⟩ | ⟨k, hk, e, hgt, hmax⟩
      · left
        refine ⟨e, fun d' hd' k' hk' => ?_⟩
        rcases Nat.lt_succ_iff_lt_or_eq.1 hd' with h | rfl
        · exact hle d' h k' hk'
        · exact hle' k' hk'
      · right
        refine ⟨m, by omega, k, hk, e, hgt, fun d' hd' k' hk' => ?_⟩
        rcases Nat.lt_succ_iff_lt_or_eq.1 hd' with h | rfl
        · exact (hle d' h k' hk').trans hgt.le
        · exact hmax k' hk'
    · rw [e0] at hstep
      rcases hstep with ⟨e, hle'⟩ | ⟨k2, hk2, e, hgt2, hmax2⟩
      · right
        refine ⟨d, by omega, k, hk, e, hgt, fun d' hd' k' hk' => ?_⟩
        rcases Nat.lt_succ_iff_lt_or_eq.1 hd' with h | rfl
        · exact hmax d' h k' hk'
        · exact hle' k' hk'
      · right
        refine ⟨m, by omega, k2, hk2, e, hgt.trans hgt2, fun d' hd' k' hk' => ?_⟩
        rcases Nat.lt_succ_iff_lt_or_eq.1 hd' with h | rfl
        · exact (hmax d' h k' hk').trans hgt2.le
        · exact hmax2 k' hk'

end search

/-- A list of scores for different positions is a function of the position. -/
theorem exists_score {S : Type} [Inhabited S] (si : List Nat) (h : si.Nodup) (ls : List S) (hl : ls.length = si.length) :
    ∃ sc : Nat → S, ls = si.map sc ∧ ∀ i k : Nat, si[i]? = some k → ls[i]? = some (sc k) := by
  refine ⟨fun k => ls.getD (si.idxOf k) default, ?_, ?_⟩
  · apply List.ext_getElem
    · simp [hl]
    · intro i h1 h2
      have hi : i < si.length := hl ▸ h1
      rw [List.getElem_map, List.Nodup.idxOf_getElem h i hi]
      simp [h1]
  · intro i k hk
    obtain ⟨hi, rfl⟩ := List.getElem?_eq_some_iff.1 hk
    have h1 : i < ls.length := hl ▸ hi
    beta_reduce
    rw [List.Nodup.idxOf_getElem h i hi]
    simp [h1]

variable [Field K] [LinearOrder K] [IsStrictOrderedRing K]

/-- `T'` computes the scores of `c` up to `ε`, the priors of children exactly, and posteriors up to `Q`. -/
structure Noise (ε : K) (Q : P → P → Prop) (okP : P → Prop) (c : Ctx V K P K O) (T' : Target K P K O)
    (n : Nat) : Prop where
  getPrior : ∀ p m, okP p → T'.getPrior (some p) m c.nDim = p
  stay : ∀ lv L p, lv < n → RowList n L → okP p → |T'.logNoSplit c.hp.partitionPrior lv (L.map c.y) p
    - c.T.logNoSplit c.hp.partitionPrior lv (L.map c.y) p| ≤ ε
  len : ∀ lv L p si, RowList n L → okP p → (∀ k ∈ si, 1 ≤ k ∧ k < L.length) → si.Pairwise (· < ·) →
    (T'.logSplit c.hp.partitionPrior lv (L.map c.y) p c.nDim si).length = si.length
  split : ∀ lv L p si, lv < n → RowList n L → okP p → (∀ k ∈ si, 1 ≤ k ∧ k < L.length) → si.Pairwise (· < ·) →
    ∀ (i k : Nat) (s : K), si[i]? = some k →
    (T'.logSplit c.hp.partitionPrior lv (L.map c.y) p c.nDim si)[i]? = some s →
    |s - c.pair c.hp.partitionPrior lv p c.nDim si.length ((L.map c.y).take k) ((L.map c.y).drop k)| ≤ ε
  child : c.hp.delta ≠ 0 → ∀ L p, RowList n L → okP p →
    T'.posterior (L.map c.y) p c.hp.delta = c.T.posterior (L.map c.y) p c.hp.delta ∧
      okP (c.T.posterior (L.map c.y) p c.hp.delta)
  post : ∀ L p, RowList n L → okP p → Q (c.T.posterior (L.map c.y) p 1) (T'.posterior (L.map c.y) p 1)

/-- `Built` up to errors of the scores. -/
inductive NearBuilt (ε : K) (Q : P → P → Prop) (c : Ctx V K P K O) :
    Option P → P → Nat → List Nat → PNode V K K P → Prop
  | direct (par pa : P) (lv : Nat) (R : List Nat) (post : P) (hsmall : ¬ c.Divisible R)
      (hq : Q (c.T.posterior (c.ys R) par 1) post) :
      NearBuilt ε Q c (some par) pa lv R (.leaf { c.directInfo par pa lv R with posterior := post })
  | stay (par : Option P) (pa : P) (lv : Nat) (R : List Nat) (post : P)
      (hdiv : par.isSome → c.Divisible R)
      (hq : Q (c.T.posterior (c.ys R) pa 1) post)
      (hno : ∀ d < c.nDim, ∀ cut ∈ cuts c.o c.hp.splitPrecision c.X R d,
        c.score (some pa) lv R d cut ≤ c.noSplit (some pa) lv R + 2 * ε) :
      NearBuilt ε Q c par pa lv R (.leaf { c.fitInfo (some pa) lv R with posterior := post })
  | split (par : Option P) (pa : P) (lv : Nat) (R : List Nat) (d : Nat) (cut : V × V) (name : String)
      (post : P) (l b : K) (c1 c2 : PNode V K K P)
      (hdiv : par.isSome → c.Divisible R)
      (hq : Q (c.T.posterior (c.ys R) pa 1) post)
      (hd : d < c.nDim)
      (hcut : cut ∈ cuts c.o c.hp.splitPrecision c.X R d)
      (hl : |l - c.noSplit (some pa) lv R| ≤ ε)
      (hb : |b - c.score (some pa) lv R d cut| ≤ ε)
      (hlb : l < b)
      (hmax : ∀ d' < c.nDim, ∀ cut' ∈ cuts c.o c.hp.splitPrecision c.X R d',
        c.score (some pa) lv R d' cut' ≤ b + ε)
      (hname : c.names[d]? = some name)
      (h1 : NearBuilt ε Q c (some pa) (c.childPrior pa (c.rows1 R d (c.o.mid cut.1 cut.2))) (lv + 1)
        (c.rows1 R d (c.o.mid cut.1 cut.2)) c1)
      (h2 : NearBuilt ε Q c (some pa) (c.childPrior pa (c.rows2 R d (c.o.mid cut.1 cut.2))) (lv + 1)
        (c.rows2 R d (c.o.mid cut.1 cut.2)) c2) :
      NearBuilt ε Q c par pa lv R
        (.split { c.fitInfo (some pa) lv R with posterior := post } ⟨d, name, c.o.mid cut.1 cut.2⟩ l b c1 c2)

/-- The result for one child. -/
def childNear (Q : P → P → Prop) (c : Ctx V K P K O) (T' : Target K P K O) (fuel : Nat) (lv : Nat) (par : P)
    (R' : List Nat) (sid' : List (List Nat)) (r : Except Err (PNode V K K P)) : Prop :=
  (c.Divisible R' ∧
    r = perpFit c.o T' c.hp c.X c.y c.nDim c.names fuel (some (c.childPrior par R')) (lv + 1) sid') ∨
  (¬ c.Divisible R' ∧ ∃ post, Q (c.T.posterior (c.ys R') par 1) post ∧
    r = .ok (.leaf { c.directInfo par (c.childPrior par R') (lv + 1) R' with posterior := post }))

variable {ok : V → Prop} {c : Ctx V K P K O} {T' : Target K P K O} {ε : K} {Q : P → P → Prop} {okP : P → Prop}
  {n : Nat}

theorem Spec.RowList.of_perm {L R : List Nat} (h : RowList n R) (hp : L.Perm R) : RowList n L :=
  ⟨fun e => h.1 (by rw [e] at hp; exact hp.symm.eq_nil), hp.nodup_iff.2 h.2.1, fun i hi => h.2.2 i (hp.mem_iff.1 hi)⟩

/-- One level of the fit with approximate scores. -/
theorem near_step (hN : Noise ε Q okP c T' n)
    (ho : LawfulOps c.o ok c.hp.splitPrecision) (hT : LawfulTarget c.T c.pair)
    (fuel : Nat) (pa : P) (lv : Nat) (sid : List (List Nat)) (R : List Nat)
    (hpos : 0 < c.nDim) (hsid : GoodSid c.o c.X c.nDim sid R)
    (hok : ∀ i ∈ R, ∀ d < c.nDim, ok (c.X i d)) (hR : RowList n R) (hpa : okP pa) (hlv : lv < n) :
    (∃ post, Q (c.T.posterior (c.ys R) pa 1) post ∧
      (∀ d < c.nDim, ∀ cut ∈ cuts c.o c.hp.splitPrecision c.X R d,
        c.score (some pa) lv R d cut ≤ c.noSplit (some pa) lv R + 2 * ε) ∧
      perpFit c.o T' c.hp c.X c.y c.nDim c.names (fuel + 1) (some pa) lv sid =
        .ok (.leaf { c.fitInfo (some pa) lv R with posterior := post })) ∨
    (∃ d cut post l b, d < c.nDim ∧ cut ∈ cuts c.o c.hp.splitPrecision c.X R d ∧
      Q (c.T.posterior (c.ys R) pa 1) post ∧ |l - c.noSplit (some pa) lv R| ≤ ε ∧
      |b - c.score (some pa) lv R d cut| ≤ ε ∧ l < b ∧
      (∀ d' < c.nDim, ∀ cut' ∈ cuts c.o c.hp.splitPrecision c.X R d',
        c.score (some pa) lv R d' cut' ≤ b + ε) ∧
      (c.rows1 R d (c.o.mid cut.1 cut.2)).length < R.length ∧
      (c.rows2 R d (c.o.mid cut.1 cut.2)).length < R.length ∧
      RowList n (c.rows1 R d (c.o.mid cut.1 cut.2)) ∧ RowList n (c.rows2 R d (c.o.mid cut.1 cut.2)) ∧
      okP (c.childPrior pa (c.rows1 R d (c.o.mid cut.1 cut.2))) ∧
      okP (c.childPrior pa (c.rows2 R d (c.o.mid cut.1 cut.2))) ∧
      ∃ sid1 sid2 r1 r2,
        GoodSid c.o c.X c.nDim sid1 (c.rows1 R d (c.o.mid cut.1 cut.2)) ∧
        GoodSid c.o c.X c.nDim sid2 (c.rows2 R d (c.o.mid cut.1 cut.2)) ∧
        childNear Q c T' fuel lv pa (c.rows1 R d (c.o.mid cut.1 cut.2)) sid1 r1 ∧
        childNear Q c T' fuel lv pa (c.rows2 R d (c.o.mid cut.1 cut.2)) sid2 r2 ∧
        perpFit c.o T' c.hp c.X c.y c.nDim c.names (fuel + 1) (some pa) lv sid =
          match c.names[d]? with
          | none => .error .indexError
          | some name =>
            match r1 with
            | .error e => .error e
            | .ok c1 =>
              match r2 with
              | .error e => .error e
              | .ok c2 => .ok (.split { c.fitInfo (some pa) lv R with posterior := post }
                  ⟨d, name, c.o.mid cut.1 cut.2⟩ l b c1 c2)) := by
  have hok' : ∀ d < c.nDim, ∀ i ∈ R, ok (c.X i d) := fun d hd i hi => hok i hi d hd
  have hL : ∀ d < c.nDim, SortedRows c.o c.X d (sid.getD d []) R :=
    fun d hd => ⟨hsid.perm d hd, hsid.sorted d hd⟩
  have hsh : shape1 sid = R.length := hsid.shape1 hpos
  have hcpr : c.prior (some pa) R = pa := hT.getPrior_some _ _ _
  obtain ⟨row0, rest, rfl⟩ : ∃ row0 rest, sid = row0 :: rest := by
    cases sid with
    | nil => exact absurd hsid.len (by simp; omega)
    | cons a l => exact ⟨a, l, rfl⟩
  have hrow0 : row0.Perm R := by simpa using hsid.perm 0 hpos
  have hrl : RowList n row0 := hR.of_perm hrow0
  have hprior : T'.getPrior (some pa) (shape1 (row0 :: rest)) c.nDim = pa := hN.getPrior _ _ hpa
  have hno : |T'.logNoSplit c.hp.partitionPrior lv (row0.map c.y) pa - c.noSplit (some pa) lv R| ≤ ε := by
    have := hN.stay lv row0 pa hlv hrl hpa
    rw [hT.noSplit_perm _ _ _ _ _ (hrow0.map c.y)] at this
    unfold Ctx.noSplit
    rw [hcpr]
    exact this
  have hpost : Q (c.T.posterior (c.ys R) pa 1) (T'.posterior (row0.map c.y) pa 1) := by
    have := hN.post row0 pa hrl hpa
    rwa [hT.posterior_perm _ _ _ _ (hrow0.map c.y)] at this
  -- the computed scores as functions of the position
  have hrange : ∀ d < c.nDim, ∀ k ∈ candPos c.o c.hp c.X (row0 :: rest) d,
      1 ≤ k ∧ k < ((row0 :: rest).getD d []).length := by
    intro d hd k hk
    have := splitIndices_range hk
    simpa using this
  have hsc0 : ∀ d, ∃ sc : Nat → K, d < c.nDim →
      T'.logSplit c.hp.partitionPrior lv (((row0 :: rest).getD d []).map c.y) pa c.nDim
        (candPos c.o c.hp c.X (row0 :: rest) d) = (candPos c.o c.hp c.X (row0 :: rest) d).map sc ∧
      ∀ k ∈ candPos c.o c.hp c.X (row0 :: rest) d,
        |sc k - candScore c.o c.hp lv c.X c.y c.nDim pa (row0 :: rest) c.pair d k| ≤ ε := by
    intro d
    by_cases hd : d < c.nDim
    · have hrl' : RowList n ((row0 :: rest).getD d []) := hR.of_perm (hsid.perm d hd)
      have hnd : (candPos c.o c.hp c.X (row0 :: rest) d).Nodup :=
        (splitIndices_sorted _ _ _).imp fun h => ne_of_lt h
      have hlen := hN.len lv _ pa (candPos c.o c.hp c.X (row0 :: rest) d) hrl' hpa (hrange d hd)
        (splitIndices_sorted _ _ _)
      have : Inhabited K := ⟨0⟩
      obtain ⟨sc, h1, h2⟩ := exists_score _ hnd _ hlen
      refine ⟨sc, fun _ => ⟨h1, fun k hk => ?_⟩⟩
      obtain ⟨i, hi⟩ := List.mem_iff_getElem?.1 hk
      exact hN.split lv _ pa _ hlv hrl' hpa (hrange d hd) (splitIndices_sorted _ _ _) i k _ hi (h2 i k hi)
    · exact ⟨fun _ => 0, fun h => absurd h hd⟩
  choose sc hsc using hsc0
  -- candidates as cuts
  have hcand : ∀ d < c.nDim, ∀ k ∈ candPos c.o c.hp c.X (row0 :: rest) d, ∃ a b,
      1 ≤ k ∧ (((row0 :: rest).getD d []).map fun i => c.X i d)[k - 1]? = some a ∧
      (((row0 :: rest).getD d []).map fun i => c.X i d)[k]? = some b ∧
      c.o.gap c.hp.splitPrecision a b = true ∧ (a, b) ∈ cuts c.o c.hp.splitPrecision c.X R d ∧
      |sc d k - c.score (some pa) lv R d (a, b)| ≤ ε := by
    intro d hd k hk
    obtain ⟨a, b, h1, h2, h3, h4⟩ := mem_splitIndices.1 hk
    refine ⟨a, b, h1, h2, h3, h4, (mem_cuts_iff ho (hok' d hd) (hL d hd)).2 ⟨k, hk, h2, h3⟩, ?_⟩
    have e := candScore_eq c ho hT (some pa) lv _ R hsid hok hd h1 h2 h3 h4
    rw [hcpr] at e
    rw [← e]
    exact (hsc d hd).2 k hk
  have hcutc : ∀ d < c.nDim, ∀ cut ∈ cuts c.o c.hp.splitPrecision c.X R d,
      ∃ k ∈ candPos c.o c.hp c.X (row0 :: rest) d, |sc d k - c.score (some pa) lv R d cut| ≤ ε := by
    intro d hd cut hcut
    obtain ⟨k, hk, h2, h3⟩ := (mem_cuts_iff ho (hok' d hd) (hL d hd)).1 hcut
    obtain ⟨a, b, g1, g2, g3, g4, g5, g6⟩ := hcand d hd k hk
    rw [h2] at g2; rw [h3] at g3
    cases g2; cases g3
    exact ⟨k, hk, g6⟩
  have hs := search_spec_of c.o T' c.hp lv c.X c.y c.nDim pa (row0 :: rest) sc
    (T'.logNoSplit c.hp.partitionPrior lv (row0.map c.y) pa) c.nDim fun d hd => (hsc d hd).1
  simp only at hs
  rw [perpFit]
  simp only [hprior]
  rcases hs with ⟨e, hle⟩ | ⟨d, hd, k, hk, e, hgt, hmax⟩
  · left
    refine ⟨_, hpost, ?_, ?_⟩
    · intro d hd cut hcut
      obtain ⟨k, hk, hsc'⟩ := hcutc d hd cut hcut
      have h1 := hle d hd k hk
      have h2 := abs_le.1 hsc'
      have h3 := abs_le.1 hno
      linarith [h2.1, h3.2]
    · simp only [e, hsh]
      rfl
  · right
    obtain ⟨a, b, hk1, ha, hb, hg, hmem, hscd⟩ := hcand d hd k hk
    have hf := split_filters ho (hok' d hd) (hL d hd) hk1 ha hb hg
    set L := (row0 :: rest).getD d [] with hLdef
    have hkl : k < L.length := by
      have := (List.getElem?_eq_some_iff.1 hb).1
      simpa using this
    have hlenL : L.length = R.length := (hL d hd).perm.length_eq
    have hr1 : (L.take k).Perm (c.rows1 R d (c.o.mid a b)) := hf.2.2.1
    have hr2 : (L.drop k).Perm (c.rows2 R d (c.o.mid a b)) := hf.2.2.2
    have hLl : RowList n L := hR.of_perm (hL d hd).perm
    have hl1 : RowList n (L.take k) := ⟨by
        intro e0
        have := congrArg List.length e0
        rw [List.length_take, List.length_nil] at this
        omega, hLl.2.1.sublist (List.take_sublist _ _), fun i hi => hLl.2.2 i (List.mem_of_mem_take hi)⟩
    have hl2 : RowList n (L.drop k) := ⟨by
        intro e0
        have := congrArg List.length e0
        rw [List.length_drop, List.length_nil] at this
        omega, hLl.2.1.sublist (List.drop_sublist _ _), fun i hi => hLl.2.2 i (List.mem_of_mem_drop hi)⟩
    have hm1 : R.filter (fun i => decide (i ∈ L.take k)) = c.rows1 R d (c.o.mid a b) := by
      apply List.filter_congr
      intro i hi
      rw [Bool.eq_iff_iff]
      have := hr1.mem_iff (a := i)
      unfold Ctx.rows1 at this
      rw [List.mem_filter] at this
      simp only [decide_eq_true_eq, this, hi, true_and]
    have hm2 : R.filter (fun i => decide (i ∈ L.drop k)) = c.rows2 R d (c.o.mid a b) := by
      apply List.filter_congr
      intro i hi
      rw [Bool.eq_iff_iff]
      have := hr2.mem_iff (a := i)
      unfold Ctx.rows2 at this
      rw [List.mem_filter] at this
      simp only [decide_eq_true_eq, this, hi, true_and]
    have hg1 := hsid.restrict hpos (L.take k)
    have hg2 := hsid.restrict hpos (L.drop k)
    rw [hm1] at hg1
    rw [hm2] at hg2
    have hn1 := hg1.shape1 hpos
    have hn2 := hg2.shape1 hpos
    have hcp : ∀ (A A' : List Nat), RowList n A → A.Perm A' →
        (if c.hp.delta ≠ 0 then T'.posterior (A.map c.y) pa c.hp.delta else pa) = c.childPrior pa A' ∧
          okP (c.childPrior pa A') := by
      intro A A' hA hAA
      unfold Ctx.childPrior
      by_cases h0 : c.hp.delta ≠ 0
      · rw [if_pos h0, if_pos h0, (hN.child h0 A pa hA hpa).1, hT.posterior_perm _ _ _ _ (hAA.map c.y)]
        refine ⟨rfl, ?_⟩
        have := (hN.child h0 A pa hA hpa).2
        rwa [hT.posterior_perm _ _ _ _ (hAA.map c.y)] at this
      · rw [if_neg h0, if_neg h0]
        exact ⟨rfl, hpa⟩
    have hq : ∀ (A A' : List Nat), RowList n A → A.Perm A' →
        Q (c.T.posterior (c.ys A') pa 1) (T'.posterior (A.map c.y) pa 1) := by
      intro A A' hA hAA
      have := hN.post A pa hA hpa
      rwa [hT.posterior_perm _ _ _ _ (hAA.map c.y)] at this
    have hd1 := divisible_iff c hr1
    have hd2 := divisible_iff c hr2
    rw [hr1.length_eq] at hd1
    rw [hr2.length_eq] at hd2
    have hlast : ∃ i, (L.take k).getLast? = some i ∧ c.X i d = a := by
      rw [List.getElem?_map, Option.map_eq_some_iff] at ha
      obtain ⟨i, hi, hia⟩ := ha
      refine ⟨i, ?_, hia⟩
      rw [List.getLast?_eq_getElem?, List.length_take, min_eq_left hkl.le, List.getElem?_take,
        if_pos (by omega), hi]
    have hfirst : ∃ i, (L.drop k).head? = some i ∧ c.X i d = b := by
      rw [List.getElem?_map, Option.map_eq_some_iff] at hb
      obtain ⟨i, hi, hib⟩ := hb
      exact ⟨i, by rw [List.head?_drop, hi], hib⟩
    obtain ⟨last, hlast, hlastv⟩ := hlast
    obtain ⟨first, hfirst, hfirstv⟩ := hfirst
    have hlen1 : (c.rows1 R d (c.o.mid a b)).length < R.length := by
      rw [← hr1.length_eq, List.length_take]; omega
    have hlen2 : (c.rows2 R d (c.o.mid a b)).length < R.length := by
      rw [← hr2.length_eq, List.length_drop]; omega
    have hc : ∀ (A A' : List Nat) (sid' : List (List Nat)), RowList n A → A.Perm A' → ∃ r,
        childNear Q c T' fuel lv pa A' sid' r ∧
        ((¬ c.Divisible A' ∧ r = .ok (.leaf { c.directInfo pa (c.childPrior pa A') (lv + 1) A' with
            posterior := T'.posterior (A.map c.y) pa 1 })) ∨
          (c.Divisible A' ∧ r = perpFit c.o T' c.hp c.X c.y c.nDim c.names fuel (some (c.childPrior pa A'))
            (lv + 1) sid')) := by
      intro A A' sid' hA hAA
      by_cases h : c.Divisible A'
      · exact ⟨_, Or.inl ⟨h, rfl⟩, Or.inr ⟨h, rfl⟩⟩
      · exact ⟨_, Or.inr ⟨h, _, hq A A' hA hAA, rfl⟩, Or.inl ⟨h, rfl⟩⟩
    obtain ⟨r1, hres1, hr1'⟩ := hc (L.take k) (c.rows1 R d (c.o.mid a b))
      (restrictSid c.nDim (row0 :: rest) (L.take k)) hl1 hr1
    obtain ⟨r2, hres2, hr2'⟩ := hc (L.drop k) (c.rows2 R d (c.o.mid a b))
      (restrictSid c.nDim (row0 :: rest) (L.drop k)) hl2 hr2
    refine ⟨d, (a, b), _, _, _, hd, hmem, hpost, hno, hscd, hgt, ?_, hlen1, hlen2, hl1.of_perm hr1.symm,
      hl2.of_perm hr2.symm, (hcp _ _ hl1 hr1).2, (hcp _ _ hl2 hr2).2, _, _, r1, r2, hg1, hg2, hres1, hres2, ?_⟩
    · intro d' hd' cut' hcut'
      obtain ⟨k', hk', hsc'⟩ := hcutc d' hd' cut' hcut'
      have h1 := hmax d' hd' k' hk'
      have h2 := abs_le.1 hsc'
      linarith [h2.1]
    · simp only [e, ← hLdef, (hcp _ _ hl1 hr1).1, (hcp _ _ hl2 hr2).1, hn1, hn2, hlast, hfirst, hsh]
      cases c.names[d]? with
      | none => rfl
      | some name =>
        simp only [hlastv, hfirstv]
        rcases hr1' with ⟨h1, rfl⟩ | ⟨h1, rfl⟩ <;> rcases hr2' with ⟨h2, rfl⟩ | ⟨h2, rfl⟩
        · rw [if_neg (fun h => h1 (hd1.1 h)), if_neg (fun h => h2 (hd2.1 h))]; rfl
        · rw [if_neg (fun h => h1 (hd1.1 h)), if_pos (hd2.2 h2)]
          generalize perpFit c.o T' c.hp c.X c.y c.nDim c.names fuel _ (lv + 1) _ = z
          cases z <;> rfl
        · rw [if_pos (hd1.2 h1), if_neg (fun h => h2 (hd2.1 h))]
          generalize perpFit c.o T' c.hp c.X c.y c.nDim c.names fuel _ (lv + 1) _ = z
          cases z <;> rfl
        · rw [if_pos (hd1.2 h1), if_pos (hd2.2 h2)]
          generalize perpFit c.o T' c.hp c.X c.y c.nDim c.names fuel _ (lv + 1) _ = z
          generalize perpFit c.o T' c.hp c.X c.y c.nDim c.names fuel _ (lv + 1) _ = w
          cases z <;> cases w <;> rfl

/-- Whatever the fit returns is a greedy tree up to the errors of the scores. -/
theorem perpFit_near (hN : Noise ε Q okP c T' n)
    (ho : LawfulOps c.o ok c.hp.splitPrecision) (hT : LawfulTarget c.T c.pair) (hpos : 0 < c.nDim)
    (fuel : Nat) (par : Option P) (pa : P) (lv : Nat) (sid : List (List Nat)) (R : List Nat)
    (hsid : GoodSid c.o c.X c.nDim sid R) (hok : ∀ i ∈ R, ∀ d < c.nDim, ok (c.X i d))
    (hR : RowList n R) (hpa : okP pa) (hlv : lv + R.length ≤ n)
    (hdiv : par.isSome → c.Divisible R) (t : PNode V K K P)
    (h : perpFit c.o T' c.hp c.X c.y c.nDim c.names fuel (some pa) lv sid = .ok t) :
    NearBuilt ε Q c par pa lv R t := by
  induction fuel generalizing par pa lv sid R t with
  | zero => simp [perpFit] at h
  | succ fuel ih =>
    rcases near_step hN ho hT fuel pa lv sid R hpos hsid hok hR hpa (by have := List.length_pos_iff.2 hR.1; omega) with ⟨post, hq, hno, e⟩ |
      ⟨d, cut, post, l, b, hd, hcut, hq, hl, hb, hlb, hmax, hl1, hl2, hR1, hR2, ho1, ho2, sid1, sid2, r1, r2, hg1, hg2,
        hr1, hr2, e⟩
    · rw [e] at h
      cases h
      exact .stay par pa lv R post hdiv hq hno
    · rw [e] at h
      cases hn : c.names[d]? with
      | none => rw [hn] at h; cases h
      | some name =>
        rw [hn] at h
        simp only at h
        have key : ∀ (R' : List Nat) (sid' : List (List Nat)) (r : Except Err (PNode V K K P)) (t' : PNode V K K P),
            (∀ i ∈ R', i ∈ R) → R'.length < R.length → GoodSid c.o c.X c.nDim sid' R' → RowList n R' →
            okP (c.childPrior pa R') → childNear Q c T' fuel lv pa R' sid' r → r = .ok t' →
            NearBuilt ε Q c (some pa) (c.childPrior pa R') (lv + 1) R' t' := by
          intro R' sid' r t' hsub hlen hg hR' ho' hr ht
          rcases hr with ⟨hd, rfl⟩ | ⟨hd, post', hq', rfl⟩
          · exact ih (some pa) _ _ sid' R' hg (fun i hi => hok i (hsub i hi)) hR' ho' (by omega) (fun _ => hd) _ ht
          · cases ht
            exact .direct _ _ _ _ _ hd hq'
        cases r1 with
        | error e1 => cases h
        | ok c1 =>
          cases r2 with
          | error e2 => cases h
          | ok c2 =>
            cases h
            exact .split par pa lv R d cut name post l b c1 c2 hdiv hq hd hcut hl hb hlb hmax hn
              (key _ _ _ _ (fun i hi => (List.mem_filter.1 hi).1) hl1 hg1 hR1 ho1 hr1 rfl)
              (key _ _ _ _ (fun i hi => (List.mem_filter.1 hi).1) hl2 hg2 hR2 ho2 hr2 rfl)

/-- With a name for every feature a tree comes out. -/
theorem perpFit_near_total (hN : Noise ε Q okP c T' n)
    (ho : LawfulOps c.o ok c.hp.splitPrecision) (hT : LawfulTarget c.T c.pair) (hpos : 0 < c.nDim)
    (hnames : c.nDim ≤ c.names.length)
    (fuel : Nat) (pa : P) (lv : Nat) (sid : List (List Nat)) (R : List Nat)
    (hsid : GoodSid c.o c.X c.nDim sid R) (hok : ∀ i ∈ R, ∀ d < c.nDim, ok (c.X i d))
    (hR : RowList n R) (hpa : okP pa) (hlv : lv + R.length ≤ n) (hfuel : R.length < fuel) :
    ∃ t, perpFit c.o T' c.hp c.X c.y c.nDim c.names fuel (some pa) lv sid = .ok t := by
  induction fuel generalizing pa lv sid R with
  | zero => omega
  | succ fuel ih =>
    rcases near_step hN ho hT fuel pa lv sid R hpos hsid hok hR hpa (by have := List.length_pos_iff.2 hR.1; omega) with ⟨post, hq, hno, e⟩ |
      ⟨d, cut, post, l, b, hd, hcut, hq, hl, hb, hlb, hmax, hl1, hl2, hR1, hR2, ho1, ho2, sid1, sid2, r1, r2, hg1, hg2,
        hr1, hr2, e⟩
    · exact ⟨_, e⟩
    · rw [e]
      rw [List.getElem?_eq_getElem (show d < c.names.length by omega)]
      have key : ∀ (R' : List Nat) (sid' : List (List Nat)) (r : Except Err (PNode V K K P)),
          (∀ i ∈ R', i ∈ R) → R'.length < R.length → GoodSid c.o c.X c.nDim sid' R' → RowList n R' →
          okP (c.childPrior pa R') → childNear Q c T' fuel lv pa R' sid' r → ∃ t, r = .ok t := by
        intro R' sid' r hsub hlen hg hR' ho' hr
        rcases hr with ⟨hd, rfl⟩ | ⟨hd, post', hq', rfl⟩
        · exact ih _ _ sid' R' hg (fun i hi => hok i (hsub i hi)) hR' ho' (by omega) (by omega)
        · exact ⟨_, rfl⟩
      obtain ⟨c1, rfl⟩ := key _ _ _ (fun i hi => (List.mem_filter.1 hi).1) hl1 hg1 hR1 ho1 hr1
      obtain ⟨c2, rfl⟩ := key _ _ _ (fun i hi => (List.mem_filter.1 hi).1) hl2 hg2 hR2 ho2 hr2
      exact ⟨_, rfl⟩

/-- Rows routed through child 1 and child 2 of a split at a cut. -/
theorem passes_false {R : List Nat} {d : Nat} {cut : V × V} (i0 : Info K P)
    (name : String) (l b : K) (c1 c2 : PNode V K K P) (bs : List Bool) :
    (R.filter fun i => passes (perpRouter c.o) (.split i0 ⟨d, name, c.o.mid cut.1 cut.2⟩ l b c1 c2)
      (false :: bs) (c.X i)) =
      (c.rows1 R d (c.o.mid cut.1 cut.2)).filter fun i => passes (perpRouter c.o) c1 bs (c.X i) := by
  unfold Ctx.rows1
  rw [List.filter_filter]
  apply List.filter_congr
  intro i hi
  simp only [passes, perpRouter]
  by_cases hl : c.o.lt (c.X i d) (c.o.mid cut.1 cut.2) = true
  · simp [hl]
  · simp [hl]

theorem passes_true (ho : LawfulOps c.o ok c.hp.splitPrecision) {R : List Nat} {d : Nat} {cut : V × V}
    (hok : ∀ i ∈ R, ok (c.X i d)) (hcut : cut ∈ cuts c.o c.hp.splitPrecision c.X R d) (i0 : Info K P)
    (name : String) (l b : K) (c1 c2 : PNode V K K P) (bs : List Bool) :
    (R.filter fun i => passes (perpRouter c.o) (.split i0 ⟨d, name, c.o.mid cut.1 cut.2⟩ l b c1 c2)
      (true :: bs) (c.X i)) =
      (c.rows2 R d (c.o.mid cut.1 cut.2)).filter fun i => passes (perpRouter c.o) c2 bs (c.X i) := by
  rw [rows_routed ho hok hcut, List.filter_filter]
  apply List.filter_congr
  intro i hi
  simp only [passes, perpRouter]
  have := (cut_routes ho hok hcut i hi).1
  by_cases hl : c.o.lt (c.X i d) (c.o.mid cut.1 cut.2) = true
  · simp [hl]
  · simp [hl, this]

/-- The subtree at any address, with the prior it has if `delta = 0`. -/
theorem NearBuilt.at (ho : LawfulOps c.o ok c.hp.splitPrecision) {par : Option P} {pa : P} {lv : Nat} {R : List Nat}
    {t : PNode V K K P} (hb : NearBuilt ε Q c par pa lv R t) (hδ : c.hp.delta = 0)
    (hok : ∀ i ∈ R, ∀ d < c.nDim, ok (c.X i d)) (addr : List Bool) (u : PNode V K K P)
    (hu : nodeAt t addr = some u) :
    ∃ par', NearBuilt ε Q c par' pa (lv + addr.length)
      (R.filter fun i => passes (perpRouter c.o) t addr (c.X i)) u ∧ (addr = [] → par' = par) ∧
      (addr ≠ [] → par' = some pa) := by
  induction hb generalizing addr u with
  | direct par pa lv R post hs hq =>
    cases addr with
    | nil =>
      simp only [nodeAt, Option.some.injEq] at hu
      subst hu
      exact ⟨_, by simpa [passes] using NearBuilt.direct par pa lv R post hs hq, fun _ => rfl, by simp⟩
    | cons b bs => simp [nodeAt] at hu
  | stay par pa lv R post hd hq hno =>
    cases addr with
    | nil =>
      simp only [nodeAt, Option.some.injEq] at hu
      subst hu
      exact ⟨_, by simpa [passes] using NearBuilt.stay par pa lv R post hd hq hno, fun _ => rfl, by simp⟩
    | cons b bs => simp [nodeAt] at hu
  | split par pa lv R d cut name post l b c1 c2 hdv hq hd hcut hl hb hlb hmax hname h1 h2 ih1 ih2 =>
    have hokd : ∀ i ∈ R, ok (c.X i d) := fun i hi => hok i hi d hd
    have hcp : ∀ A, c.childPrior pa A = pa := fun A => by unfold Ctx.childPrior; rw [if_neg (by simpa using hδ)]
    cases addr with
    | nil =>
      simp only [nodeAt, Option.some.injEq] at hu
      subst hu
      have hB := NearBuilt.split par pa lv R d cut name post l b c1 c2 hdv hq hd hcut hl hb hlb hmax hname h1 h2
      exact ⟨_, by simpa [passes] using hB, fun _ => rfl, by simp⟩
    | cons q bs =>
      have e1 : lv + (q :: bs).length = lv + 1 + bs.length := by rw [List.length_cons]; omega
      rw [e1]
      cases q with
      | false =>
        simp only [nodeAt, Bool.false_eq_true, if_false] at hu
        rw [hcp] at ih1
        obtain ⟨par', hB, hnil, hne⟩ := ih1 (fun i hi => hok i (List.mem_filter.1 hi).1) bs u hu
        rw [passes_false]
        refine ⟨par', hB, by simp, fun _ => ?_⟩
        cases bs with
        | nil => exact hnil rfl
        | cons _ _ => exact hne (by simp)
      | true =>
        simp only [nodeAt, if_true] at hu
        rw [hcp] at ih2
        obtain ⟨par', hB, hnil, hne⟩ := ih2 (fun i hi => hok i (List.mem_filter.1 hi).1) bs u hu
        rw [passes_true ho hokd hcut]
        refine ⟨par', hB, by simp, fun _ => ?_⟩
        cases bs with
        | nil => exact hnil rfl
        | cons _ _ => exact hne (by simp)

theorem Spec.Alike.merge {Sp : Type} {t t' : Node Sp K K P} {pred pred' : P → K}
    (hQ : ∀ p p', Q p p' → pred' p' = pred p) (h : Alike ε Q t t') :
    Alike ε Q (Spec.merge pred t) (Spec.merge pred' t') := by
  induction h with
  | leaf i i' hl hn hp hq => exact .leaf i i' hl hn hp hq
  | split i i' sp l b l' b' c1 c2 c1' c2' hl hn hp hq hll hbb _ _ ih1 ih2 =>
    rcases merge_split pred i sp l b c1 c2 with ⟨j1, j2, e1, e2, hj, e⟩ | ⟨hne, e⟩
    · rw [e]
      rw [e1] at ih1
      rw [e2] at ih2
      rcases merge_split pred' i' sp l' b' c1' c2' with ⟨k1, k2, f1, f2, hk, f⟩ | ⟨hne, f⟩
      · rw [f]; exact .leaf _ _ hl hn hp hq
      · generalize Spec.merge pred' c1' = m1 at *
        generalize Spec.merge pred' c2' = m2 at *
        cases ih1 with
        | leaf _ k1 _ _ _ q1 =>
          cases ih2 with
          | leaf _ k2 _ _ _ q2 =>
            exact absurd (by rw [hQ _ _ q1, hQ _ _ q2]; exact hj) (hne k1 k2 rfl rfl)
    · rw [e]
      rcases merge_split pred' i' sp l' b' c1' c2' with ⟨k1, k2, f1, f2, hk, f⟩ | ⟨hne', f⟩
      · rw [f1] at ih1
        rw [f2] at ih2
        generalize Spec.merge pred c1 = m1 at *
        generalize Spec.merge pred c2 = m2 at *
        cases ih1 with
        | leaf j1 _ _ _ _ q1 =>
          cases ih2 with
          | leaf j2 _ _ _ _ q2 =>
            exact absurd (by rw [← hQ _ _ q1, ← hQ _ _ q2]; exact hk) (hne j1 j2 rfl rfl)
      · rw [f]
        exact .split _ _ _ _ _ _ _ _ _ _ _ hl hn hp hq hll hbb ih1 ih2

theorem Spec.Alike.walk {Sp Row : Type} {t t' : Node Sp K K P} (h : Alike ε Q t t') (rt : Router Sp Row) (x : Row) :
    (Spec.walk rt t x = none ∧ Spec.walk rt t' x = none) ∨
      ∃ i i', Spec.walk rt t x = some i ∧ Spec.walk rt t' x = some i' ∧ Q i.posterior i'.posterior := by
  induction h with
  | leaf i i' _ _ _ hq => exact .inr ⟨i, i', rfl, rfl, hq⟩
  | split i i' sp l b l' b' c1 c2 c1' c2' _ _ _ _ _ _ _ _ ih1 ih2 =>
    simp only [Spec.walk]
    split
    · exact ih1
    · split
      · exact ih2
      · exact .inl ⟨rfl, rfl⟩

end

/-! ### exact features -/

section
variable {K P O : Type} [Field K] [LinearOrder K] [IsStrictOrderedRing K]

theorem isCut_mid {prec : K} {X : Nat → Nat → K} {R : List Nat} {d : Nat} {a c a' c' : K}
    (h : IsCut prec X R d a c) (h' : IsCut prec X R d a' c') (e : (a + c) / 2 = (a' + c') / 2) :
    a = a' ∧ c = c' := by
  obtain ⟨⟨i, hi, rfl⟩, ⟨j, hj, rfl⟩, h1, -, h2⟩ := h
  obtain ⟨⟨i', hi', rfl⟩, ⟨j', hj', rfl⟩, h1', -, h2'⟩ := h'
  have e' : X i d + X j d = X i' d + X j' d := by linarith
  rcases h2 i' hi' with g | g
  · rcases h2' i hi with g' | g'
    · have : X i d = X i' d := le_antisymm g' g
      exact ⟨this, by linarith⟩
    · exfalso
      linarith
  · exfalso
    linarith

variable {T T' : Target K P K O} {pair : PairScore K P K} {hp : Hyper K} {X : Nat → Nat → K} {y : Nat → K}
  {nDim : Nat} {names : List String} {ε : K} {Q : P → P → Prop}

/-- The same with the flag for pruning set differently. -/
theorem clear_alike (hT : LawfulTarget T pair) (hprec : 0 ≤ hp.splitPrecision) {q : Bool}
    {par pa : Option P} {p : P} {lv : Nat} {R : List Nat} {t t' : PNode K K K P}
    (hb : Built (exactCtx T pair { hp with prune := q } X y nDim names) par pa lv R t) (hpa : pa = some p)
    (hn : NearBuilt ε Q (exactCtx T pair hp X y nDim names) par p lv R t') (hlv : par = none → lv = 0)
    (hleaf : ∀ addr i, nodeAt t addr = some (.leaf i) →
      (lv + addr.length = 0 ∨ (exactCtx T pair hp X y nDim names).Divisible
        (R.filter fun i => follows t addr (X i))) →
      ∀ d < nDim, ∀ cut ∈ cuts (exactOps K) hp.splitPrecision X (R.filter fun i => follows t addr (X i)) d,
        (exactCtx T pair hp X y nDim names).score i.prior (lv + addr.length)
            (R.filter fun i => follows t addr (X i)) d cut + 2 * ε
          ≤ (exactCtx T pair hp X y nDim names).noSplit i.prior (lv + addr.length)
            (R.filter fun i => follows t addr (X i)))
    (hsplit : ∀ addr i sp l b c1 c2, nodeAt t addr = some (.split i sp l b c1 c2) →
      l + 2 * ε < b ∧
      ∀ d < nDim, ∀ cut ∈ cuts (exactOps K) hp.splitPrecision X (R.filter fun i => follows t addr (X i)) d,
        ¬ (d = sp.dim ∧ (exactOps K).mid cut.1 cut.2 = sp.value) →
        (exactCtx T pair hp X y nDim names).score i.prior (lv + addr.length)
            (R.filter fun i => follows t addr (X i)) d cut + 2 * ε < b) :
    Alike ε Q t t' := by
  have hprior : ∀ (p : P) (A : List Nat), (exactCtx T pair { hp with prune := q } X y nDim names).prior (some p) A = p :=
    fun p A => hT.getPrior_some _ _ _
  induction hb generalizing t' p with
  | direct par pa lv R hsmall =>
    cases hpa
    cases hn with
    | direct _ _ _ _ post _ hq => exact .leaf _ _ rfl rfl rfl hq
    | stay _ _ _ _ post hd _ _ => exact absurd (hd rfl) hsmall
    | split _ _ _ _ _ _ _ _ _ _ _ _ hd => exact absurd (hd rfl) hsmall
  | stay par pa lv R hd hno =>
    subst hpa
    cases hn with
    | direct _ _ _ _ post hs _ => exact absurd (hd rfl) hs
    | stay _ _ _ _ post hd' hq hno' =>
      refine .leaf _ _ rfl rfl rfl ?_
      show Q (T.posterior _ ((exactCtx T pair { hp with prune := q } X y nDim names).prior (some p) R) 1) post
      rw [hprior]
      exact hq
    | split _ _ _ _ d cut name post l b c1 c2 hd' hq hdd hcut hl hb hlb hmax hname h1 h2 =>
      exfalso
      have hc : lv + ([] : List Bool).length = 0 ∨ (exactCtx T pair hp X y nDim names).Divisible
          (R.filter fun i => follows (S := K) (.leaf ((exactCtx T pair { hp with prune := q } X y nDim names).fitInfo
            (some p) lv R)) [] (X i)) := by
        cases par with
        | none => exact .inl (by rw [hlv rfl]; rfl)
        | some p0 =>
          refine .inr ?_
          simp only [follows, List.filter_true]
          exact hd rfl
      have := hleaf [] _ rfl hc d hdd cut (by simpa only [follows, List.filter_true] using hcut)
      simp only [follows, List.filter_true, List.length_nil, Nat.add_zero] at this
      have g1 := abs_le.1 hl
      have g2 := abs_le.1 hb
      have g3 : (exactCtx T pair hp X y nDim names).score (some p) lv R d cut + 2 * ε ≤
        (exactCtx T pair hp X y nDim names).noSplit (some p) lv R := this
      linarith [g1.1, g2.2]
  | split par pa lv R d cut name c1 c2 hd hdd hcut hgain hmax hfd hfc hname h1 h2 ih1 ih2 =>
    subst hpa
    obtain ⟨hclear, hother⟩ := hsplit [] _ _ _ _ _ _ rfl
    simp only [follows, List.filter_true, List.length_nil, Nat.add_zero] at hother
    cases hn with
    | direct _ _ _ _ post hs _ => exact absurd (hd rfl) hs
    | stay _ _ _ _ post hd' hq hno' =>
      exfalso
      have g := hno' d hdd cut hcut
      have g' : (exactCtx T pair hp X y nDim names).noSplit (some p) lv R + 2 * ε <
        (exactCtx T pair hp X y nDim names).score (some p) lv R d cut := hclear
      linarith
    | split _ _ _ _ d' cut' name' post l b c1' c2' hd' hq hdd' hcut' hl hb hlb hmax' hname' k1 k2 =>
      have hsame : d' = d ∧ (exactOps K).mid cut'.1 cut'.2 = (exactOps K).mid cut.1 cut.2 := by
        by_contra hne
        have g1 : (exactCtx T pair hp X y nDim names).score (some p) lv R d' cut' + 2 * ε <
          (exactCtx T pair hp X y nDim names).score (some p) lv R d cut := hother d' hdd' cut' hcut' hne
        have g2 := hmax' d hdd cut hcut
        have g3 := (abs_le.1 hb).2
        linarith
      obtain ⟨rfl, hmid⟩ := hsame
      have hc1 := (isCut_iff hprec X R d' cut).1 hcut
      have hc2 := (isCut_iff hprec X R d' cut').1 hcut'
      have hcc : cut' = cut := by
        have e : (cut'.1 + cut'.2) / 2 = (cut.1 + cut.2) / 2 := by
          have : (1 / 2 : K) * (cut'.1 + cut'.2) = (1 / 2) * (cut.1 + cut.2) := hmid
          linarith
        obtain ⟨e1, e2⟩ := isCut_mid hc2 hc1 e
        exact Prod.ext e1 e2
      subst hcc
      have hnm : name = name' := by
        have g1 : names[d']? = some name := hname
        have g2 : names[d']? = some name' := hname'
        rw [g1] at g2
        exact Option.some.inj g2
      subst hnm
      have hf1 := fun i0 l b c1 c2 bs => passes_false (c := exactCtx T pair hp X y nDim names) (P := P)
        (R := R) (d := d') (cut := cut') i0 name l b c1 c2 bs
      have hf2 := fun i0 l b c1 c2 bs => passes_true (c := exactCtx T pair hp X y nDim names) (P := P)
        (exact_lawful hprec) (fun _ _ => trivial) hcut' i0 name l b c1 c2 bs
      simp only [passes_eq] at hf1 hf2
      refine .split _ _ _ _ _ _ _ _ _ _ _ rfl rfl rfl ?_ hl hb ?_ ?_
      · show Q (T.posterior _ ((exactCtx T pair { hp with prune := q } X y nDim names).prior (some p) R) 1) post
        rw [hprior]
        exact hq
      · rw [hprior] at ih1
        refine ih1 rfl k1 (by simp) ?_ ?_
        · intro addr i hu
          have := hleaf (false :: addr) i hu
          rw [hf1] at this
          rw [show lv + (false :: addr).length = lv + 1 + addr.length by rw [List.length_cons]; omega] at this
          exact this
        · intro addr i sp l b c1 c2 hu
          have := hsplit (false :: addr) i sp l b c1 c2 hu
          rw [hf1] at this
          rw [show lv + (false :: addr).length = lv + 1 + addr.length by rw [List.length_cons]; omega] at this
          exact this
      · rw [hprior] at ih2
        refine ih2 rfl k2 (by simp) ?_ ?_
        · intro addr i hu
          have := hleaf (true :: addr) i hu
          rw [hf2] at this
          rw [show lv + (true :: addr).length = lv + 1 + addr.length by rw [List.length_cons]; omega] at this
          exact this
        · intro addr i sp l b c1 c2 hu
          have := hsplit (true :: addr) i sp l b c1 c2 hu
          rw [hf2] at this
          rw [show lv + (true :: addr).length = lv + 1 + addr.length by rw [List.length_cons]; omega] at this
          exact this

end

end BT
