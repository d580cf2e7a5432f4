import Verif.Spec.Image
import Verif.Lemmas.Sim

/-!
# Simulation up to ties, with scores mapped per number of rows
-/

namespace BT
open Spec

set_option linter.unusedSectionVars false

section
variable {V V' K K' P P' S S' O O' : Type}

/-- Everything in `c'` corresponds to something in `c` (on rows `< n`). -/
structure SimImage [LinearOrder S] [LinearOrder S'] [DecidableEq K] [DecidableEq K'] [Zero K] [One K]
    [Zero K'] [One K'] (ok : V → Prop) (c : Ctx V K P S O) (c' : Ctx V' K' P' S' O') (n : Nat)
    (τ : Nat → Nat) (fV : Nat → V → V') (fK : K → K') (fP : P → P') (fS : Nat → S → S')
    (okP : P → Prop) (okY : K → Prop) : Prop where
  nDim : c'.nDim = c.nDim
  dims : ∀ d < c.nDim, τ d < c.nDim
  dimsInj : ∀ d < c.nDim, ∀ d' < c.nDim, τ d = τ d' → d = d'
  dimsSurj : ∀ d' < c.nDim, ∃ d < c.nDim, τ d = d'
  names : ∀ d < c.nDim, c'.names[τ d]? = c.names[d]?
  X : ∀ i d, i < n → d < c.nDim → c'.X i (τ d) = fV d (c.X i d)
  y : ∀ i, i < n → c'.y i = fK (c.y i)
  le : ∀ d a b, ok a → ok b → c'.o.le (fV d a) (fV d b) = c.o.le a b
  gap : ∀ d a b, ok a → ok b → c.o.le a b = true →
    c'.o.gap c'.hp.splitPrecision (fV d a) (fV d b) = c.o.gap c.hp.splitPrecision a b
  okTarget : ∀ i, i < n → okY (c.y i)
  inj : ∀ a b, okY a → okY b → fK a = fK b → a = b
  delta : c'.hp.delta = 0 ↔ c.hp.delta = 0
  posterior1 : ∀ ys p, okP p → ys ≠ [] → (∀ v ∈ ys, okY v) →
    c'.T.posterior (ys.map fK) (fP p) 1 = fP (c.T.posterior ys p 1)
  posteriorD : c.hp.delta ≠ 0 → ∀ ys p, okP p → ys ≠ [] → (∀ v ∈ ys, okY v) →
    c'.T.posterior (ys.map fK) (fP p) c'.hp.delta = fP (c.T.posterior ys p c.hp.delta) ∧
      okP (c.T.posterior ys p c.hp.delta)
  noSplit : ∀ lv ys p, okP p → ys ≠ [] → (∀ v ∈ ys, okY v) →
    c'.T.logNoSplit c'.hp.partitionPrior lv (ys.map fK) (fP p) =
      fS ys.length (c.T.logNoSplit c.hp.partitionPrior lv ys p)
  pair : ∀ lv p ns a b, okP p → 0 < ns → a ≠ [] → b ≠ [] → (∀ v ∈ a, okY v) → (∀ v ∈ b, okY v) →
    c'.pair c'.hp.partitionPrior lv (fP p) c.nDim ns (a.map fK) (b.map fK) =
      fS (a.length + b.length) (c.pair c.hp.partitionPrior lv p c.nDim ns a b)
  mono : ∀ k a b, fS k a < fS k b ↔ a < b

section
variable [LinearOrder S] [LinearOrder S'] [DecidableEq K] [DecidableEq K'] [Zero K] [One K]
  [Zero K'] [One K'] {ok : V → Prop} {ok' : V' → Prop} {c : Ctx V K P S O} {c' : Ctx V' K' P' S' O'} {n : Nat}
  {τ : Nat → Nat} {fV : Nat → V → V'} {fK : K → K'} {fP : P → P'} {fS : Nat → S → S'}
  {okP : P → Prop} {okY : K → Prop}

omit [LinearOrder S'] [DecidableEq K] [DecidableEq K'] [Zero K] [One K] [Zero K'] [One K'] in
theorem NoTies.child {lv : Nat} {R : List Nat} {i : Info K P} {sp : PSplit V} {l b : S} {c1 c2 : PNode V S K P}
    (h : NoTies c lv R (.split i sp l b c1 c2))
    (hex : ∀ r ∈ R, c.o.ge (c.X r sp.dim) sp.value = !c.o.lt (c.X r sp.dim) sp.value) :
    NoTies c (lv + 1) (c.rows1 R sp.dim sp.value) c1 ∧ NoTies c (lv + 1) (c.rows2 R sp.dim sp.value) c2 := by
  constructor
  · intro addr i' sp' l' b' d1 d2 hu
    have hr : (c.rows1 R sp.dim sp.value).filter (fun r => passes (perpRouter c.o) c1 addr (c.X r)) =
        R.filter fun r => passes (perpRouter c.o) (.split i sp l b c1 c2) (false :: addr) (c.X r) := by
      unfold Ctx.rows1
      rw [List.filter_filter]
      refine List.filter_congr fun r hr => ?_
      have hx := hex r hr
      rw [passes]
      show _ = if c.o.lt (c.X r sp.dim) sp.value = true then _ else _
      cases c.o.lt (c.X r sp.dim) sp.value <;> simp [perpRouter, hx]
    intro R' d hd hne cut hcut
    have := h (false :: addr) i' sp' l' b' d1 d2 hu
    simp only [← hr, List.length_cons] at this
    rw [show lv + 1 + addr.length = lv + (addr.length + 1) by omega]
    exact this d hd hne cut hcut
  · intro addr i' sp' l' b' d1 d2 hu
    have hr : (c.rows2 R sp.dim sp.value).filter (fun r => passes (perpRouter c.o) c2 addr (c.X r)) =
        R.filter fun r => passes (perpRouter c.o) (.split i sp l b c1 c2) (true :: addr) (c.X r) := by
      unfold Ctx.rows2
      rw [List.filter_filter]
      refine List.filter_congr fun r hr => ?_
      have hx := hex r hr
      rw [passes]
      show _ = if c.o.lt (c.X r sp.dim) sp.value = true then _ else _
      cases hlt : c.o.lt (c.X r sp.dim) sp.value <;> simp [perpRouter, hx, hlt]
    intro R' d hd hne cut hcut
    have := h (true :: addr) i' sp' l' b' d1 d2 hu
    simp only [← hr, List.length_cons] at this
    rw [show lv + 1 + addr.length = lv + (addr.length + 1) by omega]
    exact this d hd hne cut hcut

theorem Built.image (hs : SimImage ok c c' n τ fV fK fP fS okP okY)
    (ho : LawfulOps c.o ok c.hp.splitPrecision) (ho' : LawfulOps c'.o ok' c'.hp.splitPrecision)
    (hT : LawfulTarget c.T c.pair) (hT' : LawfulTarget c'.T c'.pair)
    (hokX : ∀ i < n, ∀ d < c.nDim, ok (c.X i d)) (hokX' : ∀ i < n, ∀ d < c'.nDim, ok' (c'.X i d))
    {par pa : Option P} {par' pa' : Option P'} {lv : Nat} {R : List Nat} {t : PNode V S K P}
    (hb : Built c par pa lv R t)
    (hR : ∀ i ∈ R, i < n) (hne : R ≠ []) (hpar : par' = par.map fP) (hpa : pa' = pa.map fP)
    (hpr : c'.prior pa' R = fP (c.prior pa R)) (hokP : okP (c.prior pa R))
    (hokpar : ∀ p, par = some p → okP p)
    (hties : (∀ d d', d < d' → d' < c.nDim → τ d < τ d') ∨ NoTies c lv R t) :
    ∃ t', Built c' par' pa' lv R t' ∧ Image c.o c'.o ok c'.hp c.nDim τ fV fP fS t t' ∧
      ∀ r ∈ R, ∀ addr, passes (perpRouter c'.o) t' addr (c'.X r) = passes (perpRouter c.o) t addr (c.X r) := by
  have hys : ∀ A : List Nat, (∀ i ∈ A, i < n) → c'.ys A = (c.ys A).map fK := by
    intro A hA
    unfold Ctx.ys
    rw [List.map_map]
    exact List.map_congr_left fun i hi => hs.y i (hA i hi)
  have hysY : ∀ A : List Nat, (∀ i ∈ A, i < n) → ∀ v ∈ c.ys A, okY v := by
    intro A hA v hv
    obtain ⟨i, hi, rfl⟩ := List.mem_map.1 hv
    exact hs.okTarget i (hA i hi)
  have hysne : ∀ A : List Nat, A ≠ [] → c.ys A ≠ [] := by
    intro A hA h; exact hA (List.map_eq_nil_iff.1 h)
  have hdivI : ∀ A : List Nat, (∀ i ∈ A, i < n) → (c'.Divisible A ↔ c.Divisible A) := by
    intro A hA
    unfold Ctx.Divisible
    apply and_congr_right
    intro _
    constructor
    · rintro ⟨i, hi, j, hj, h⟩
      exact ⟨i, hi, j, hj, fun e => h (by rw [hs.y i (hA i hi), hs.y j (hA j hj), e])⟩
    · rintro ⟨i, hi, j, hj, h⟩
      refine ⟨i, hi, j, hj, fun e => h ?_⟩
      rw [hs.y i (hA i hi), hs.y j (hA j hj)] at e
      exact hs.inj _ _ (hs.okTarget i (hA i hi)) (hs.okTarget j (hA j hj)) e
  have hcuts : ∀ (A : List Nat) (d : Nat), (∀ i ∈ A, i < n) → d < c.nDim →
      cuts c'.o c'.hp.splitPrecision c'.X A (τ d) =
        (cuts c.o c.hp.splitPrecision c.X A d).map (Prod.map (fV d) (fV d)) := by
    intro A d hA hd
    show cuts c'.o c'.hp.splitPrecision (fun i _ => c'.X i (τ d)) A d = _
    exact cuts_map c.X (fun i _ => c'.X i (τ d)) A d (fun i hi => hs.X i d (hA i hi) hd)
      (fun i hi j hj => hs.le d _ _ (hokX i (hA i hi) d hd) (hokX j (hA j hj) d hd))
      (fun i hi j hj => hs.gap d _ _ (hokX i (hA i hi) d hd) (hokX j (hA j hj) d hd))
      (column_sorted ho fun i hi => hokX i (hA i hi) d hd)
  have hscore : ∀ (A : List Nat) (pa : Option P) (pa' : Option P') (lv d : Nat) (cut : V × V),
      (∀ i ∈ A, i < n) → d < c.nDim → cut ∈ cuts c.o c.hp.splitPrecision c.X A d →
      c'.prior pa' A = fP (c.prior pa A) → okP (c.prior pa A) →
      c'.score pa' lv A (τ d) (Prod.map (fV d) (fV d) cut) = fS A.length (c.score pa lv A d cut) := by
    intro A pa pa' lv d cut hA hd hcut hp hokp
    obtain ⟨⟨i, hi, ei⟩, ⟨j, hj, ej⟩, ok1, ok2, hle, hnle, -, -⟩ :=
      cut_values ho (fun i hi => hokX i (hA i hi) d hd) hcut
    have e1 : (A.filter fun i => c'.o.le (c'.X i (τ d)) (Prod.map (fV d) (fV d) cut).1) =
        A.filter fun i => c.o.le (c.X i d) cut.1 := by
      apply List.filter_congr
      intro k hk
      rw [hs.X k d (hA k hk) hd]
      exact hs.le d _ _ (hokX k (hA k hk) d hd) ok1
    have e2 : (A.filter fun i => !c'.o.le (c'.X i (τ d)) (Prod.map (fV d) (fV d) cut).1) =
        A.filter fun i => !c.o.le (c.X i d) cut.1 := by
      apply List.filter_congr
      intro k hk
      rw [hs.X k d (hA k hk) hd]
      exact congrArg _ (hs.le d _ _ (hokX k (hA k hk) d hd) ok1)
    unfold Ctx.score
    rw [hp, e1, e2, hcuts A d hA hd, List.length_map, hs.nDim,
      hys _ fun k hk => hA k (List.mem_filter.1 hk).1, hys _ fun k hk => hA k (List.mem_filter.1 hk).1]
    rw [hs.pair _ _ _ _ _ hokp (List.length_pos_of_mem hcut)]
    · congr 1
      unfold Ctx.ys
      rw [List.length_map, List.length_map]
      exact (List.length_eq_length_filter_add _).symm
    · apply hysne
      refine List.ne_nil_of_mem (a := i) (List.mem_filter.2 ⟨hi, ?_⟩)
      rw [ei]
      exact (ho.le_total _ _ ok1 ok1).elim id id
    · apply hysne
      refine List.ne_nil_of_mem (a := j) (List.mem_filter.2 ⟨hj, ?_⟩)
      rw [ej, hnle]; rfl
    · exact hysY _ fun k hk => hA k (List.mem_filter.1 hk).1
    · exact hysY _ fun k hk => hA k (List.mem_filter.1 hk).1
  have hnoS : ∀ (A : List Nat) (pa : Option P) (pa' : Option P') (lv : Nat),
      (∀ i ∈ A, i < n) → A ≠ [] → c'.prior pa' A = fP (c.prior pa A) → okP (c.prior pa A) →
      c'.noSplit pa' lv A = fS A.length (c.noSplit pa lv A) := by
    intro A pa pa' lv hA hAn hp hokp
    unfold Ctx.noSplit
    rw [hp, hys A hA, hs.noSplit _ _ _ hokp (hysne A hAn) (hysY A hA), Ctx.ys, List.length_map]
  have hfi : ∀ (A : List Nat) (pa : Option P) (lv : Nat),
      (∀ i ∈ A, i < n) → A ≠ [] → c'.prior (pa.map fP) A = fP (c.prior pa A) → okP (c.prior pa A) →
      c'.fitInfo (pa.map fP) lv A = imageInfo c'.hp fP (c.fitInfo pa lv A) := by
    intro A pa lv hA hAn hp hokp
    unfold Ctx.fitInfo imageInfo
    rw [hp, hys A hA, hs.posterior1 _ _ hokp (hysne A hAn) (hysY A hA), hs.nDim]
  have hleI : ∀ k a b, fS k a ≤ fS k b ↔ a ≤ b := by
    intro k a b
    rw [← not_lt, ← not_lt, hs.mono k b a]
  induction hb generalizing par' pa' with
  | direct par pa lv R hsmall =>
    subst hpar hpa
    have : c'.directInfo (fP par) (fP pa) lv R = imageInfo c'.hp fP (c.directInfo par pa lv R) := by
      unfold Ctx.directInfo imageInfo
      rw [hys R hR, hs.posterior1 _ _ (hokpar par rfl) (hysne R hne) (hysY R hR)]
      rfl
    refine ⟨_, ?_, .leaf _, fun r _ addr => by cases addr <;> rfl⟩
    rw [← this]
    exact Built.direct (fP par) (fP pa) lv R fun h => hsmall ((hdivI R hR).1 h)
  | stay par pa lv R hdv hno =>
    subst hpar hpa
    refine ⟨_, ?_, .leaf _, fun r _ addr => by cases addr <;> rfl⟩
    rw [← hfi R pa lv hR hne hpr hokP]
    refine Built.stay _ _ lv R (fun h => (hdivI R hR).2 (hdv (by simpa using h))) ?_
    intro d hd cut hcut
    obtain ⟨d, hd', rfl⟩ := hs.dimsSurj d (hs.nDim ▸ hd)
    rw [hcuts R d hR hd'] at hcut
    obtain ⟨cut0, hcut0, rfl⟩ := List.mem_map.1 hcut
    rw [hscore R pa _ lv d cut0 hR hd' hcut0 hpr hokP, hnoS R pa _ lv hR hne hpr hokP, hleI]
    exact hno d hd' cut0 hcut0
  | split par pa lv R d cut name c1 c2 hdv hd hcut hgain hmax hfd hfc hname h1 h2 ih1 ih2 =>
    subst hpar hpa
    have hokd : ∀ i ∈ R, ok (c.X i d) := fun i hi => hokX i (hR i hi) d hd
    have hokd' : ∀ i ∈ R, ok' (c'.X i (τ d)) := fun i hi => hokX' i (hR i hi) _ (hs.nDim ▸ hs.dims d hd)
    have e1 := hscore R pa _ lv d cut hR hd hcut hpr hokP
    have e2 := hnoS R pa _ lv hR hne hpr hokP
    obtain ⟨⟨i, hi, ei⟩, ⟨j, hj, ej⟩, ok1, ok2, hle, hnle, hg, -⟩ := cut_values ho hokd hcut
    have hcut' : Prod.map (fV d) (fV d) cut ∈ cuts c'.o c'.hp.splitPrecision c'.X R (τ d) := by
      rw [hcuts R d hR hd]; exact List.mem_map_of_mem hcut
    have hrt := cut_routes ho hokd hcut
    have hrt' := cut_routes ho' hokd' hcut'
    have hr1 : c'.rows1 R (τ d) (c'.o.mid (fV d cut.1) (fV d cut.2)) = c.rows1 R d (c.o.mid cut.1 cut.2) := by
      unfold Ctx.rows1
      apply List.filter_congr
      intro k hk
      rw [(hrt k hk).2]
      refine (hrt' k hk).2.trans ?_
      rw [hs.X k d (hR k hk) hd]
      exact hs.le d _ _ (hokd k hk) ok1
    have hr2 : c'.rows2 R (τ d) (c'.o.mid (fV d cut.1) (fV d cut.2)) = c.rows2 R d (c.o.mid cut.1 cut.2) := by
      unfold Ctx.rows2
      apply List.filter_congr
      intro k hk
      rw [(hrt k hk).1, (hrt k hk).2]
      refine (hrt' k hk).1.trans ?_
      rw [(hrt' k hk).2, hs.X k d (hR k hk) hd]
      exact congrArg _ (hs.le d _ _ (hokd k hk) ok1)
    have hn1 : c.rows1 R d (c.o.mid cut.1 cut.2) ≠ [] := by
      refine List.ne_nil_of_mem (a := i) (List.mem_filter.2 ⟨hi, ?_⟩)
      rw [ei]
      exact (ho.below _ _ _ ok1 ok2 ok1 hle hg ((ho.le_total _ _ ok1 ok1).elim id id)).1
    have hn2 : c.rows2 R d (c.o.mid cut.1 cut.2) ≠ [] := by
      refine List.ne_nil_of_mem (a := j) (List.mem_filter.2 ⟨hj, ?_⟩)
      rw [ej]
      exact (ho.above _ _ _ ok1 ok2 ok2 hle hg ((ho.le_total _ _ ok2 ok2).elim id id)).2
    have hcp : ∀ A : List Nat, (∀ i ∈ A, i < n) → A ≠ [] →
        c'.childPrior (c'.prior (pa.map fP) R) A = fP (c.childPrior (c.prior pa R) A) ∧
          okP (c.childPrior (c.prior pa R) A) := by
      intro A hA hAn
      unfold Ctx.childPrior
      by_cases hdz : c.hp.delta = 0
      · rw [if_neg (not_not.2 hdz), if_neg (not_not.2 (hs.delta.2 hdz))]
        exact ⟨hpr, hokP⟩
      · rw [if_pos hdz, if_pos (fun h => hdz (hs.delta.1 h)), hpr, hys A hA]
        exact hs.posteriorD hdz _ _ hokP (hysne A hAn) (hysY A hA)
    have hR1 : ∀ i ∈ c.rows1 R d (c.o.mid cut.1 cut.2), i < n := fun i hi => hR i (List.mem_filter.1 hi).1
    have hR2 : ∀ i ∈ c.rows2 R d (c.o.mid cut.1 cut.2), i < n := fun i hi => hR i (List.mem_filter.1 hi).1
    obtain ⟨q1, p1⟩ := hcp _ hR1 hn1
    obtain ⟨q2, p2⟩ := hcp _ hR2 hn2
    have hps : ∀ (p : P) (A : List Nat), c.prior (some p) A = p := fun p A => hT.getPrior_some _ _ _
    have hps' : ∀ (p : P') (A : List Nat), c'.prior (some p) A = p := fun p A => hT'.getPrior_some _ _ _
    have ht1 : _ ∨ NoTies c (lv + 1) (c.rows1 R d (c.o.mid cut.1 cut.2)) c1 :=
      hties.imp_right fun h => (NoTies.child h fun r hr => (hrt r hr).1).1
    have ht2 : _ ∨ NoTies c (lv + 1) (c.rows2 R d (c.o.mid cut.1 cut.2)) c2 :=
      hties.imp_right fun h => (NoTies.child h fun r hr => (hrt r hr).1).2
    obtain ⟨t1, b1, m1, w1⟩ := ih1 (par' := some (c'.prior (pa.map fP) R)) (pa' := some (fP _)) hR1 hn1 (by rw [hpr]; rfl)
      rfl (by rw [hps, hps']) (by rw [hps]; exact p1) (by rintro p ⟨⟩; exact hokP) ht1
    obtain ⟨t2, b2, m2, w2⟩ := ih2 (par' := some (c'.prior (pa.map fP) R)) (pa' := some (fP _)) hR2 hn2 (by rw [hpr]; rfl)
      rfl (by rw [hps, hps']) (by rw [hps]; exact p2) (by rintro p ⟨⟩; exact hokP) ht2
    have hB := Built.split (c := c') (par.map fP) (pa.map fP) lv R (τ d) (Prod.map (fV d) (fV d) cut) name t1 t2
      (fun h => (hdivI R hR).2 (hdv (by simpa using h))) (hs.nDim ▸ hs.dims d hd) hcut'
      (by rw [e1, e2, hs.mono]; exact hgain)
      (by
        intro d' hd' cut' hcut'
        obtain ⟨d', hd'', rfl⟩ := hs.dimsSurj d' (hs.nDim ▸ hd')
        rw [hcuts R d' hR hd''] at hcut'
        obtain ⟨cut0, hcut0, rfl⟩ := List.mem_map.1 hcut'
        rw [e1, hscore R pa _ lv d' cut0 hR hd'' hcut0 hpr hokP, hleI]
        exact hmax d' hd'' cut0 hcut0)
      (by
        intro d' hd' cut' hcut'
        obtain ⟨d', hd'', rfl⟩ := hs.dimsSurj d' (lt_trans hd' (hs.dims d hd))
        rw [hcuts R d' hR hd''] at hcut'
        obtain ⟨cut0, hcut0, rfl⟩ := List.mem_map.1 hcut'
        rw [e1, hscore R pa _ lv d' cut0 hR hd'' hcut0 hpr hokP, hs.mono]
        have hdd : d' ≠ d := by rintro rfl; exact lt_irrefl _ hd'
        rcases hties with hm | hno
        · refine hfd d' ?_ cut0 hcut0
          by_contra hge
          exact absurd (hm d d' (by omega) hd'') (by omega)
        · have := hno [] _ _ _ _ _ _ rfl d' hd'' hdd
          simp only [passes, List.filter_true, List.length_nil, Nat.add_zero] at this
          exact this cut0 hcut0)
      (by
        intro cut' hcut' hle'
        rw [hcuts R d hR hd] at hcut'
        obtain ⟨cut0, hcut0, rfl⟩ := List.mem_map.1 hcut'
        rw [e1, hscore R pa _ lv d cut0 hR hd hcut0 hpr hokP, hs.mono]
        apply hfc cut0 hcut0
        obtain ⟨-, -, ok1', -⟩ := cut_values ho hokd hcut0
        rw [← hs.le d _ _ ok1 ok1']; exact hle')
      (by rw [hs.names d hd]; exact hname)
      (by
        show Built c' _ (some (c'.childPrior _ (c'.rows1 R (τ d) (c'.o.mid (fV d cut.1) (fV d cut.2)))))
          _ (c'.rows1 R (τ d) (c'.o.mid (fV d cut.1) (fV d cut.2))) _
        rw [hr1, q1]; exact b1)
      (by
        show Built c' _ (some (c'.childPrior _ (c'.rows2 R (τ d) (c'.o.mid (fV d cut.1) (fV d cut.2)))))
          _ (c'.rows2 R (τ d) (c'.o.mid (fV d cut.1) (fV d cut.2))) _
        rw [hr2, q2]; exact b2)
    refine ⟨_, hB, ?_, fun r hr addr => ?_⟩
    · rw [e1, e2, hfi R pa lv hR hne hpr hokP]
      exact .split (c.fitInfo pa lv R) d name cut.1 cut.2 _ _ c1 c2 t1 t2 hd ok1 ok2 hle m1 m2
    · cases addr with
      | nil => rfl
      | cons q bs =>
        have hlt : c'.o.lt (c'.X r (τ d)) (c'.o.mid (fV d cut.1) (fV d cut.2)) =
            c.o.lt (c.X r d) (c.o.mid cut.1 cut.2) := by
          rw [(hrt r hr).2]
          refine (hrt' r hr).2.trans ?_
          rw [hs.X r d (hR r hr) hd]
          exact hs.le d _ _ (hokd r hr) ok1
        have hge : c'.o.ge (c'.X r (τ d)) (c'.o.mid (fV d cut.1) (fV d cut.2)) =
            c.o.ge (c.X r d) (c.o.mid cut.1 cut.2) := by
          rw [(hrt r hr).1, ← hlt]
          exact (hrt' r hr).1
        rw [passes, passes]
        show (if c'.o.lt (c'.X r (τ d)) (c'.o.mid (fV d cut.1) (fV d cut.2)) = true then _
          else if c'.o.ge (c'.X r (τ d)) (c'.o.mid (fV d cut.1) (fV d cut.2)) = true then _ else _) =
          if c.o.lt (c.X r d) (c.o.mid cut.1 cut.2) = true then _
          else if c.o.ge (c.X r d) (c.o.mid cut.1 cut.2) = true then _ else _
        rw [hlt, hge]
        by_cases g1 : c.o.lt (c.X r d) (c.o.mid cut.1 cut.2) = true
        · rw [if_pos g1, if_pos g1, w1 r (List.mem_filter.2 ⟨hr, g1⟩)]
        · rw [if_neg g1, if_neg g1]
          by_cases g2 : c.o.ge (c.X r d) (c.o.mid cut.1 cut.2) = true
          · rw [if_pos g2, if_pos g2, w2 r (List.mem_filter.2 ⟨hr, g2⟩)]
          · rw [if_neg g2, if_neg g2]

omit [LinearOrder S] [LinearOrder S'] [Zero K] [One K] [Zero K'] [One K'] in
/-- Merging respects the correspondence if predictions stay equal exactly when they were. -/
theorem Image.merge {o : XOps V K} {o' : XOps V' K'} {hp' : Hyper K'} {nD : Nat} {pred : P → K} {pred' : P' → K'}
    {t : PNode V S K P} {t' : PNode V' S' K' P'} (hi : Image o o' ok hp' nD τ fV fP fS t t')
    (h : ∀ p ∈ posts t, ∀ q ∈ posts t, pred' (fP p) = pred' (fP q) ↔ pred p = pred q) :
    Image o o' ok hp' nD τ fV fP fS (Spec.merge pred t) (Spec.merge pred' t') := by
  induction hi with
  | leaf i => exact .leaf i
  | split i d name a b l s c1 c2 c1' c2' hd oka okb hle _ _ ih1 ih2 =>
    have m1 : ∀ p ∈ posts c1, p ∈ posts (.split i ⟨d, name, o.mid a b⟩ l s c1 c2 : PNode V S K P) := by
      intro p hp; simp [posts, hp]
    have m2 : ∀ p ∈ posts c2, p ∈ posts (.split i ⟨d, name, o.mid a b⟩ l s c1 c2 : PNode V S K P) := by
      intro p hp; simp [posts, hp]
    replace ih1 := ih1 fun p hp q hq => h p (m1 p hp) q (m1 q hq)
    replace ih2 := ih2 fun p hp q hq => h p (m2 p hp) q (m2 q hq)
    have k1 : ∀ j, Spec.merge pred c1 = .leaf j → j.posterior ∈ posts c1 := fun j e => merge_leaf_post e
    have k2 : ∀ j, Spec.merge pred c2 = .leaf j → j.posterior ∈ posts c2 := fun j e => merge_leaf_post e
    simp only [Spec.merge]
    generalize Spec.merge pred c1 = n1 at *
    generalize Spec.merge pred' c1' = n1' at *
    generalize Spec.merge pred c2 = n2 at *
    generalize Spec.merge pred' c2' = n2' at *
    cases ih1 with
    | leaf j1 =>
      cases ih2 with
      | leaf j2 =>
        have := h _ (m1 _ (k1 _ rfl)) _ (m2 _ (k2 _ rfl))
        dsimp only [imageInfo]
        by_cases e : pred j1.posterior = pred j2.posterior
        · rw [if_pos e, if_pos (this.2 e)]
          exact .leaf i
        · rw [if_neg e, if_neg fun e' => e (this.1 e')]
          exact .split i d name a b l s _ _ _ _ hd oka okb hle (.leaf _) (.leaf _)
      | split => exact .split i d name a b l s _ _ _ _ hd oka okb hle (.leaf _) (.split _ _ _ _ _ _ _ _ _ _ _ ‹_› ‹_› ‹_› ‹_› ‹_› ‹_›)
    | split =>
      exact .split i d name a b l s _ _ _ _ hd oka okb hle (.split _ _ _ _ _ _ _ _ _ _ _ ‹_› ‹_› ‹_› ‹_› ‹_› ‹_›) ih2

theorem passes_none {Sp Row : Type} (rt : Router Sp Row) (t : Node Sp S K P) (addr : List Bool)
    (h : nodeAt t addr = none) (x : Row) : passes rt t addr x = false := by
  induction t generalizing addr with
  | leaf i =>
    cases addr with
    | nil => simp [nodeAt] at h
    | cons => rfl
  | split i sp l b c1 c2 ih1 ih2 =>
    cases addr with
    | nil => simp [nodeAt] at h
    | cons q bs =>
      rw [passes]
      cases q with
      | false =>
        rw [ih1 bs (by simpa [nodeAt] using h)]
        split <;> simp
      | true =>
        rw [ih2 bs (by simpa [nodeAt] using h)]
        split <;> simp

/-- Corresponding nodes. -/
theorem image_nodeAt {o : XOps V K} {o' : XOps V' K'} {hp' : Hyper K'} {nD : Nat} {t : PNode V S K P} {t' : PNode V' S' K' P'}
    (hi : Image o o' ok hp' nD τ fV fP fS t t') (addr : List Bool) :
    match nodeAt t addr with
    | none => nodeAt t' addr = none
    | some u => ∃ u', nodeAt t' addr = some u' ∧ Image o o' ok hp' nD τ fV fP fS u u' := by
  induction hi generalizing addr with
  | leaf i =>
    cases addr with
    | nil => exact ⟨_, by rw [nodeAt], .leaf i⟩
    | cons => simp [nodeAt]
  | split i d name a b l s c1 c2 c1' c2' hd oka okb hle h1 h2 ih1 ih2 =>
    cases addr with
    | nil => exact ⟨_, by rw [nodeAt], .split i d name a b l s c1 c2 c1' c2' hd oka okb hle h1 h2⟩
    | cons q bs => cases q <;> simpa [nodeAt] using (by first | exact ih1 bs | exact ih2 bs)

/-- The fitted tree of the transformed data corresponds to the fitted tree. -/
theorem fit_image {argsort : List V → List Nat} {argsort' : List V' → List Nat}
    (hs : SimImage ok c c' n τ fV fK fP fS okP okY)
    (hv : Valid ok c argsort n) (hv' : Valid ok' c' argsort' n) (hn : 0 < n)
    {prior : Option P} (hpr : c'.T.getPrior (prior.map fP) n c.nDim = fP (c.T.getPrior prior n c.nDim))
    (hokP : okP (c.T.getPrior prior n c.nDim))
    (hprune : c'.hp.prune = c.hp.prune)
    (hpred : c.hp.prune = true → ∀ t0, Built c none prior 0 (List.range n) t0 →
      ∀ p ∈ posts t0, ∀ q ∈ posts t0, c'.T.predictLeaf (fP p) = c'.T.predictLeaf (fP q) ↔
      c.T.predictLeaf p = c.T.predictLeaf q)
    {t : PNode V S K P} (h : fitIn c argsort prior n = .ok t)
    (hties : (∀ d d', d < d' → d' < c.nDim → τ d < τ d') ∨
      (c.hp.prune = false ∧ NoTies c 0 (List.range n) t)) :
    ∃ t', fitIn c' argsort' (prior.map fP) n = .ok t' ∧ Image c.o c'.o ok c'.hp c.nDim τ fV fP fS t t' ∧
      ∀ r < n, ∀ addr, passes (perpRouter c'.o) t' addr (c'.X r) = passes (perpRouter c.o) t addr (c.X r) := by
  obtain ⟨t0, hb, -, h0, h1⟩ := fit_cutOff hv h
  obtain ⟨t', hb', hi, hw⟩ := Built.image hs hv.ops hv'.ops hv.target hv'.target hv.vals hv'.vals (par' := none)
    (pa' := prior.map fP) hb
    (fun i hi => List.mem_range.1 hi) (by simp; omega) rfl rfl
    (by unfold Ctx.prior; simpa [hs.nDim] using hpr) (by unfold Ctx.prior; simpa using hokP) (by simp)
    (hties.imp_right fun ⟨hp, h⟩ => by rw [← h0 hp]; exact h)
  refine ⟨_, fit_of_built hv' hb', ?_⟩
  rw [hprune]
  have hw' : ∀ r < n, ∀ addr, passes (perpRouter c'.o) t' addr (c'.X r) = passes (perpRouter c.o) t0 addr (c.X r) :=
    fun r hr => hw r (List.mem_range.2 hr)
  cases hp : c.hp.prune with
  | false => rw [h0 hp]; exact ⟨hi, hw'⟩
  | true =>
    rw [h1 hp]
    simp only [if_true]
    have hm := Image.merge hi (hpred hp t0 hb)
    refine ⟨hm, fun r hr addr => ?_⟩
    have hnode := image_nodeAt hm addr
    cases hu : nodeAt (Spec.merge c.T.predictLeaf t0) addr with
    | none =>
      rw [hu] at hnode
      rw [passes_none _ _ _ hu, passes_none _ _ _ hnode]
    | some u =>
      rw [hu] at hnode
      obtain ⟨u', hu', -⟩ := hnode
      rw [passes_merge _ _ _ _ _ hu, passes_merge _ _ _ _ _ hu', hw' r hr]

/-- The same starting from the unpruned tree, whether the transformed fit prunes or not. -/
theorem fit_image_merge {argsort : List V → List Nat} {argsort' : List V' → List Nat}
    (hs : SimImage ok c c' n τ fV fK fP fS okP okY)
    (hv : Valid ok c argsort n) (hv' : Valid ok' c' argsort' n) (hn : 0 < n)
    {prior : Option P} (hpr : c'.T.getPrior (prior.map fP) n c.nDim = fP (c.T.getPrior prior n c.nDim))
    (hokP : okP (c.T.getPrior prior n c.nDim)) (hprune : c.hp.prune = false)
    (hpred : ∀ p q, c'.T.predictLeaf (fP p) = c'.T.predictLeaf (fP q) ↔ c.T.predictLeaf p = c.T.predictLeaf q)
    {t : PNode V S K P} (h : fitIn c argsort prior n = .ok t)
    (hties : (∀ d d', d < d' → d' < c.nDim → τ d < τ d') ∨ NoTies c 0 (List.range n) t) :
    ∃ t', fitIn c' argsort' (prior.map fP) n = .ok t' ∧
      Image c.o c'.o ok c'.hp c.nDim τ fV fP fS
        (if c'.hp.prune then Spec.merge c.T.predictLeaf t else t) t' := by
  obtain ⟨t0, hb, -, h0, -⟩ := fit_cutOff hv h
  rw [h0 hprune] at hties ⊢
  obtain ⟨t', hb', hi, -⟩ := Built.image hs hv.ops hv'.ops hv.target hv'.target hv.vals hv'.vals (par' := none)
    (pa' := prior.map fP) hb
    (fun i hi => List.mem_range.1 hi) (by simp; omega) rfl rfl
    (by unfold Ctx.prior; simpa [hs.nDim] using hpr) (by unfold Ctx.prior; simpa using hokP) (by simp) hties
  refine ⟨_, fit_of_built hv' hb', ?_⟩
  cases c'.hp.prune with
  | false => exact hi
  | true => exact Image.merge hi fun p _ q _ => hpred p q

end

end

end BT
