import Verif.Lemmas.Prune

/-!
# Simulation: mapping features, targets, priors and scores maps the fitted tree
-/

namespace BT
open Spec

section
variable {V V' K K' P P' S S' O O' : Type}

/-- Node attributes under a map of priors. -/
def mapInfo (hp' : Hyper K') (fP : P → P') (i : Info K P) : Info K' P' :=
  { hp := hp', prior := i.prior.map fP, level := i.level, nDim := i.nDim, nData := i.nData,
    posterior := fP i.posterior }

/-- A tree under maps of thresholds (per dimension), priors and scores. -/
def mapTree (hp' : Hyper K') (fV : Nat → V → V') (fP : P → P') (fS : S → S') :
    PNode V S K P → PNode V' S' K' P'
  | .leaf i => .leaf (mapInfo hp' fP i)
  | .split i sp l b c1 c2 => .split (mapInfo hp' fP i) ⟨sp.dim, sp.name, fV sp.dim sp.value⟩
      (fS l) (fS b) (mapTree hp' fV fP fS c1) (mapTree hp' fV fP fS c2)

/-- Everything in `c'` is the image of `c` (on rows `< n`). -/
structure Sim [LinearOrder S] [LinearOrder S'] [DecidableEq K] [DecidableEq K'] [Zero K] [One K]
    [Zero K'] [One K'] (ok : V → Prop) (c : Ctx V K P S O) (c' : Ctx V' K' P' S' O') (n : Nat)
    (fV : Nat → V → V') (fK : K → K') (fP : P → P') (fS : S → S')
    (okP : P → Prop) (okY : K → Prop) (okS : S → Prop) : Prop where
  nDim : c'.nDim = c.nDim
  names : c'.names = c.names
  X : ∀ i d, i < n → d < c.nDim → c'.X i d = fV d (c.X i d)
  y : ∀ i, i < n → c'.y i = fK (c.y i)
  le : ∀ d a b, ok a → ok b → c'.o.le (fV d a) (fV d b) = c.o.le a b
  gap : ∀ d a b, ok a → ok b → c.o.le a b = true →
    c'.o.gap c'.hp.splitPrecision (fV d a) (fV d b) = c.o.gap c.hp.splitPrecision a b
  mid : ∀ d a b, ok a → ok b → c'.o.mid (fV d a) (fV d b) = fV d (c.o.mid a b)
  lt : ∀ d a v, ok a → c'.o.lt (fV d a) (fV d v) = c.o.lt a v
  ge : ∀ d a v, ok a → c'.o.ge (fV d a) (fV d v) = c.o.ge a v
  okTarget : ∀ i, i < n → okY (c.y i)
  inj : ∀ a b, okY a → okY b → fK a = fK b → a = b
  delta : c'.hp.delta = 0 ↔ c.hp.delta = 0
  posterior1 : ∀ ys p, okP p → ys ≠ [] → (∀ v ∈ ys, okY v) →
    c'.T.posterior (ys.map fK) (fP p) 1 = fP (c.T.posterior ys p 1)
  posteriorD : c.hp.delta ≠ 0 → ∀ ys p, okP p → ys ≠ [] → (∀ v ∈ ys, okY v) →
    c'.T.posterior (ys.map fK) (fP p) c'.hp.delta = fP (c.T.posterior ys p c.hp.delta) ∧
      okP (c.T.posterior ys p c.hp.delta)
  noSplit : ∀ lv ys p, okP p → ys ≠ [] → (∀ v ∈ ys, okY v) →
    c'.T.logNoSplit c'.hp.partitionPrior lv (ys.map fK) (fP p) =
      fS (c.T.logNoSplit c.hp.partitionPrior lv ys p) ∧
      okS (c.T.logNoSplit c.hp.partitionPrior lv ys p)
  pair : ∀ lv p ns a b, okP p → 0 < ns → a ≠ [] → b ≠ [] → (∀ v ∈ a, okY v) → (∀ v ∈ b, okY v) →
    c'.pair c'.hp.partitionPrior lv (fP p) c.nDim ns (a.map fK) (b.map fK) =
      fS (c.pair c.hp.partitionPrior lv p c.nDim ns a b) ∧
      okS (c.pair c.hp.partitionPrior lv p c.nDim ns a b)
  mono : ∀ a b, okS a → okS b → (fS a < fS b ↔ a < b)

section
variable [LinearOrder S] [LinearOrder S'] [DecidableEq K] [DecidableEq K'] [Zero K] [One K]
  [Zero K'] [One K'] {ok : V → Prop} {c : Ctx V K P S O} {c' : Ctx V' K' P' S' O'} {n : Nat}
  {fV : Nat → V → V'} {fK : K → K'} {fP : P → P'} {fS : S → S'}
  {okP : P → Prop} {okY : K → Prop} {okS : S → Prop}

omit [DecidableEq K] [DecidableEq K'] [Zero K] [One K] [Zero K'] [One K'] in
theorem cuts_map {o : XOps V K} {o' : XOps V' K'} {prec : K} {prec' : K'} {f : V → V'}
    (X : Nat → Nat → V) (X' : Nat → Nat → V') (R : List Nat) (d : Nat)
    (hX : ∀ i ∈ R, X' i d = f (X i d))
    (hle : ∀ i ∈ R, ∀ j ∈ R, o'.le (f (X i d)) (f (X j d)) = o.le (X i d) (X j d))
    (hgap : ∀ i ∈ R, ∀ j ∈ R, o.le (X i d) (X j d) = true →
      o'.gap prec' (f (X i d)) (f (X j d)) = o.gap prec (X i d) (X j d))
    (hsort : (column o X R d).Pairwise fun a b => o.le a b = true) :
    cuts o' prec' X' R d = (cuts o prec X R d).map (Prod.map f f) := by
  have hcol : column o' X' R d = (column o X R d).map f := by
    unfold column
    rw [List.map_mergeSort (s := o'.le)]
    · rw [List.map_map]
      congr 1
      exact List.map_congr_left fun i hi => hX i hi
    · intro a ha b hb
      obtain ⟨i, hi, rfl⟩ := List.mem_map.1 ha
      obtain ⟨j, hj, rfl⟩ := List.mem_map.1 hb
      exact (hle i hi j hj).symm
  unfold cuts
  simp only [hcol]
  rw [← List.map_tail, List.zip_map, List.filter_map]
  congr 1
  apply List.filter_congr
  intro p hp
  have hmem : ∀ v ∈ column o X R d, ∃ i ∈ R, X i d = v := by
    intro v hv
    unfold column at hv
    exact List.mem_map.1 ((List.mergeSort_perm _ _).mem_iff.1 hv)
  obtain ⟨i, hi, e1⟩ := hmem p.1 (List.of_mem_zip hp).1
  obtain ⟨j, hj, e2⟩ := hmem p.2 (List.mem_of_mem_tail (List.of_mem_zip hp).2)
  have hle : o.le p.1 p.2 = true := by
    obtain ⟨k, hk⟩ := List.mem_iff_getElem?.1 hp
    rw [List.getElem?_zip_eq_some, List.getElem?_tail] at hk
    obtain ⟨l1, g1⟩ := List.getElem?_eq_some_iff.1 hk.1
    obtain ⟨l2, g2⟩ := List.getElem?_eq_some_iff.1 hk.2
    have := List.pairwise_iff_getElem.1 hsort k (k + 1) l1 l2 (by omega)
    rwa [g1, g2] at this
  have := hgap i hi j hj (by rw [e1, e2]; exact hle)
  rw [e1, e2] at this
  exact this

theorem Built.sim (hs : Sim ok c c' n fV fK fP fS okP okY okS)
    (ho : LawfulOps c.o ok c.hp.splitPrecision) (hT : LawfulTarget c.T c.pair)
    (hT' : LawfulTarget c'.T c'.pair)
    (hokX : ∀ i < n, ∀ d < c.nDim, ok (c.X i d))
    {par pa : Option P} {par' pa' : Option P'} {lv : Nat} {R : List Nat} {t : PNode V S K P}
    (hb : Built c par pa lv R t)
    (hR : ∀ i ∈ R, i < n) (hne : R ≠ []) (hpar : par' = par.map fP) (hpa : pa' = pa.map fP)
    (hpr : c'.prior pa' R = fP (c.prior pa R)) (hokP : okP (c.prior pa R))
    (hokpar : ∀ p, par = some p → okP p) :
    Built c' par' pa' lv R (mapTree c'.hp fV fP fS t) := by
  have hys : ∀ A : List Nat, (∀ i ∈ A, i < n) → c'.ys A = (c.ys A).map fK := by
    intro A hA
    unfold Ctx.ys
    rw [List.map_map]
    exact List.map_congr_left fun i hi => hs.y i (hA i hi)
  have hysY : ∀ A : List Nat, (∀ i ∈ A, i < n) → ∀ v ∈ c.ys A, okY v := by
    intro A hA v hv
    obtain ⟨i, hi, rfl⟩ := List.mem_map.1 hv
    exact hs.okTarget i (hA i hi)
  have hysne : ∀ A : List Nat, A ≠ [] → c.ys A ≠ [] := by
    intro A hA h; exact hA (List.map_eq_nil_iff.1 h)
  have hdivI : ∀ A : List Nat, (∀ i ∈ A, i < n) → (c'.Divisible A ↔ c.Divisible A) := by
    intro A hA
    unfold Ctx.Divisible
    apply and_congr_right
    intro _
    constructor
    · rintro ⟨i, hi, j, hj, h⟩
      exact ⟨i, hi, j, hj, fun e => h (by rw [hs.y i (hA i hi), hs.y j (hA j hj), e])⟩
    · rintro ⟨i, hi, j, hj, h⟩
      refine ⟨i, hi, j, hj, fun e => h ?_⟩
      rw [hs.y i (hA i hi), hs.y j (hA j hj)] at e
      exact hs.inj _ _ (hs.okTarget i (hA i hi)) (hs.okTarget j (hA j hj)) e
  have hcuts : ∀ (A : List Nat) (d : Nat), (∀ i ∈ A, i < n) → d < c.nDim →
      cuts c'.o c'.hp.splitPrecision c'.X A d =
        (cuts c.o c.hp.splitPrecision c.X A d).map (Prod.map (fV d) (fV d)) := by
    intro A d hA hd
    exact cuts_map c.X c'.X A d (fun i hi => hs.X i d (hA i hi) hd)
      (fun i hi j hj => hs.le d _ _ (hokX i (hA i hi) d hd) (hokX j (hA j hj) d hd))
      (fun i hi j hj => hs.gap d _ _ (hokX i (hA i hi) d hd) (hokX j (hA j hj) d hd))
      (column_sorted ho fun i hi => hokX i (hA i hi) d hd)
  have hscore : ∀ (A : List Nat) (pa : Option P) (pa' : Option P') (lv d : Nat) (cut : V × V),
      (∀ i ∈ A, i < n) → d < c.nDim → cut ∈ cuts c.o c.hp.splitPrecision c.X A d →
      c'.prior pa' A = fP (c.prior pa A) → okP (c.prior pa A) →
      c'.score pa' lv A d (Prod.map (fV d) (fV d) cut) = fS (c.score pa lv A d cut) ∧
        okS (c.score pa lv A d cut) := by
    intro A pa pa' lv d cut hA hd hcut hp hokp
    obtain ⟨⟨i, hi, ei⟩, ⟨j, hj, ej⟩, ok1, ok2, hle, hnle, -, -⟩ :=
      cut_values ho (fun i hi => hokX i (hA i hi) d hd) hcut
    have e1 : (A.filter fun i => c'.o.le (c'.X i d) (Prod.map (fV d) (fV d) cut).1) =
        A.filter fun i => c.o.le (c.X i d) cut.1 := by
      apply List.filter_congr
      intro k hk
      rw [hs.X k d (hA k hk) hd]
      exact hs.le d _ _ (hokX k (hA k hk) d hd) ok1
    have e2 : (A.filter fun i => !c'.o.le (c'.X i d) (Prod.map (fV d) (fV d) cut).1) =
        A.filter fun i => !c.o.le (c.X i d) cut.1 := by
      apply List.filter_congr
      intro k hk
      rw [hs.X k d (hA k hk) hd]
      exact congrArg _ (hs.le d _ _ (hokX k (hA k hk) d hd) ok1)
    unfold Ctx.score
    rw [hp, e1, e2, hcuts A d hA hd, List.length_map, hs.nDim,
      hys _ fun k hk => hA k (List.mem_filter.1 hk).1, hys _ fun k hk => hA k (List.mem_filter.1 hk).1]
    apply hs.pair _ _ _ _ _ hokp (List.length_pos_of_mem hcut)
    · apply hysne
      refine List.ne_nil_of_mem (a := i) (List.mem_filter.2 ⟨hi, ?_⟩)
      rw [ei]
      exact (ho.le_total _ _ ok1 ok1).elim id id
    · apply hysne
      refine List.ne_nil_of_mem (a := j) (List.mem_filter.2 ⟨hj, ?_⟩)
      rw [ej, hnle]; rfl
    · exact hysY _ fun k hk => hA k (List.mem_filter.1 hk).1
    · exact hysY _ fun k hk => hA k (List.mem_filter.1 hk).1
  have hnoS : ∀ (A : List Nat) (pa : Option P) (pa' : Option P') (lv : Nat),
      (∀ i ∈ A, i < n) → A ≠ [] → c'.prior pa' A = fP (c.prior pa A) → okP (c.prior pa A) →
      c'.noSplit pa' lv A = fS (c.noSplit pa lv A) ∧ okS (c.noSplit pa lv A) := by
    intro A pa pa' lv hA hAn hp hokp
    unfold Ctx.noSplit
    rw [hp, hys A hA]
    exact hs.noSplit _ _ _ hokp (hysne A hAn) (hysY A hA)
  have hfi : ∀ (A : List Nat) (pa : Option P) (lv : Nat),
      (∀ i ∈ A, i < n) → A ≠ [] → c'.prior (pa.map fP) A = fP (c.prior pa A) → okP (c.prior pa A) →
      c'.fitInfo (pa.map fP) lv A = mapInfo c'.hp fP (c.fitInfo pa lv A) := by
    intro A pa lv hA hAn hp hokp
    unfold Ctx.fitInfo mapInfo
    rw [hp, hys A hA, hs.posterior1 _ _ hokp (hysne A hAn) (hysY A hA), hs.nDim]
  have hleI : ∀ a b, okS a → okS b → (fS a ≤ fS b ↔ a ≤ b) := by
    intro a b ha hb
    rw [← not_lt, ← not_lt, hs.mono b a hb ha]
  induction hb generalizing par' pa' with
  | direct par pa lv R hsmall =>
    subst hpar hpa
    have : c'.directInfo (fP par) (fP pa) lv R = mapInfo c'.hp fP (c.directInfo par pa lv R) := by
      unfold Ctx.directInfo mapInfo
      rw [hys R hR, hs.posterior1 _ _ (hokpar par rfl) (hysne R hne) (hysY R hR)]
      rfl
    show Built c' (some (fP par)) (some (fP pa)) lv R (.leaf (mapInfo c'.hp fP (c.directInfo par pa lv R)))
    rw [← this]
    exact Built.direct (fP par) (fP pa) lv R fun h => hsmall ((hdivI R hR).1 h)
  | stay par pa lv R hdv hno =>
    subst hpar hpa
    show Built c' _ _ lv R (.leaf (mapInfo c'.hp fP (c.fitInfo pa lv R)))
    rw [← hfi R pa lv hR hne hpr hokP]
    refine Built.stay _ _ lv R (fun h => (hdivI R hR).2 (hdv (by simpa using h))) ?_
    intro d hd cut hcut
    have hd' : d < c.nDim := hs.nDim ▸ hd
    rw [hcuts R d hR hd'] at hcut
    obtain ⟨cut0, hcut0, rfl⟩ := List.mem_map.1 hcut
    obtain ⟨e1, o1⟩ := hscore R pa _ lv d cut0 hR hd' hcut0 hpr hokP
    obtain ⟨e2, o2⟩ := hnoS R pa _ lv hR hne hpr hokP
    rw [e1, e2, hleI _ _ o1 o2]
    exact hno d hd' cut0 hcut0
  | split par pa lv R d cut name c1 c2 hdv hd hcut hgain hmax hfd hfc hname h1 h2 ih1 ih2 =>
    subst hpar hpa
    have hokd : ∀ i ∈ R, ok (c.X i d) := fun i hi => hokX i (hR i hi) d hd
    obtain ⟨e1, o1⟩ := hscore R pa _ lv d cut hR hd hcut hpr hokP
    obtain ⟨e2, o2⟩ := hnoS R pa _ lv hR hne hpr hokP
    obtain ⟨⟨i, hi, ei⟩, ⟨j, hj, ej⟩, ok1, ok2, hle, hnle, hg, -⟩ := cut_values ho hokd hcut
    have hmid := hs.mid d _ _ ok1 ok2
    have hr1 : c'.rows1 R d (fV d (c.o.mid cut.1 cut.2)) = c.rows1 R d (c.o.mid cut.1 cut.2) := by
      unfold Ctx.rows1
      apply List.filter_congr
      intro k hk
      rw [hs.X k d (hR k hk) hd]
      exact hs.lt d _ _ (hokd k hk)
    have hr2 : c'.rows2 R d (fV d (c.o.mid cut.1 cut.2)) = c.rows2 R d (c.o.mid cut.1 cut.2) := by
      unfold Ctx.rows2
      apply List.filter_congr
      intro k hk
      rw [hs.X k d (hR k hk) hd]
      exact hs.ge d _ _ (hokd k hk)
    have hn1 : c.rows1 R d (c.o.mid cut.1 cut.2) ≠ [] := by
      refine List.ne_nil_of_mem (a := i) (List.mem_filter.2 ⟨hi, ?_⟩)
      rw [ei]
      exact (ho.below _ _ _ ok1 ok2 ok1 hle hg ((ho.le_total _ _ ok1 ok1).elim id id)).1
    have hn2 : c.rows2 R d (c.o.mid cut.1 cut.2) ≠ [] := by
      refine List.ne_nil_of_mem (a := j) (List.mem_filter.2 ⟨hj, ?_⟩)
      rw [ej]
      exact (ho.above _ _ _ ok1 ok2 ok2 hle hg ((ho.le_total _ _ ok2 ok2).elim id id)).2
    have hcp : ∀ A : List Nat, (∀ i ∈ A, i < n) → A ≠ [] →
        c'.childPrior (c'.prior (pa.map fP) R) A = fP (c.childPrior (c.prior pa R) A) ∧
          okP (c.childPrior (c.prior pa R) A) := by
      intro A hA hAn
      unfold Ctx.childPrior
      by_cases hdz : c.hp.delta = 0
      · rw [if_neg (not_not.2 hdz), if_neg (not_not.2 (hs.delta.2 hdz))]
        exact ⟨hpr, hokP⟩
      · rw [if_pos hdz, if_pos (fun h => hdz (hs.delta.1 h)), hpr, hys A hA]
        exact hs.posteriorD hdz _ _ hokP (hysne A hAn) (hysY A hA)
    have hR1 : ∀ i ∈ c.rows1 R d (c.o.mid cut.1 cut.2), i < n := fun i hi => hR i (List.mem_filter.1 hi).1
    have hR2 : ∀ i ∈ c.rows2 R d (c.o.mid cut.1 cut.2), i < n := fun i hi => hR i (List.mem_filter.1 hi).1
    obtain ⟨q1, p1⟩ := hcp _ hR1 hn1
    obtain ⟨q2, p2⟩ := hcp _ hR2 hn2
    have hps : ∀ (p : P) (A : List Nat), c.prior (some p) A = p := fun p A => hT.getPrior_some _ _ _
    have hps' : ∀ (p : P') (A : List Nat), c'.prior (some p) A = p := fun p A => hT'.getPrior_some _ _ _
    have i1 := ih1 (par' := some (c'.prior (pa.map fP) R)) (pa' := some (fP _)) hR1 hn1 (by rw [hpr]; rfl)
      rfl (by rw [hps, hps']) (by rw [hps]; exact p1) (by rintro p ⟨⟩; exact hokP)
    have i2 := ih2 (par' := some (c'.prior (pa.map fP) R)) (pa' := some (fP _)) hR2 hn2 (by rw [hpr]; rfl)
      rfl (by rw [hps, hps']) (by rw [hps]; exact p2) (by rintro p ⟨⟩; exact hokP)
    have hB := Built.split (c := c') (par.map fP) (pa.map fP) lv R d (Prod.map (fV d) (fV d) cut) name
      (mapTree c'.hp fV fP fS c1) (mapTree c'.hp fV fP fS c2)
      (fun h => (hdivI R hR).2 (hdv (by simpa using h))) (hs.nDim ▸ hd)
      (by rw [hcuts R d hR hd]; exact List.mem_map_of_mem hcut)
      (by rw [e1, e2, hs.mono _ _ o2 o1]; exact hgain)
      (by
        intro d' hd' cut' hcut'
        have hd'' : d' < c.nDim := hs.nDim ▸ hd'
        rw [hcuts R d' hR hd''] at hcut'
        obtain ⟨cut0, hcut0, rfl⟩ := List.mem_map.1 hcut'
        obtain ⟨e3, o3⟩ := hscore R pa _ lv d' cut0 hR hd'' hcut0 hpr hokP
        rw [e1, e3, hleI _ _ o3 o1]
        exact hmax d' hd'' cut0 hcut0)
      (by
        intro d' hd' cut' hcut'
        have hd'' : d' < c.nDim := lt_trans hd' hd
        rw [hcuts R d' hR hd''] at hcut'
        obtain ⟨cut0, hcut0, rfl⟩ := List.mem_map.1 hcut'
        obtain ⟨e3, o3⟩ := hscore R pa _ lv d' cut0 hR hd'' hcut0 hpr hokP
        rw [e1, e3, hs.mono _ _ o3 o1]
        exact hfd d' hd' cut0 hcut0)
      (by
        intro cut' hcut' hle'
        rw [hcuts R d hR hd] at hcut'
        obtain ⟨cut0, hcut0, rfl⟩ := List.mem_map.1 hcut'
        obtain ⟨e3, o3⟩ := hscore R pa _ lv d cut0 hR hd hcut0 hpr hokP
        rw [e1, e3, hs.mono _ _ o3 o1]
        apply hfc cut0 hcut0
        obtain ⟨-, -, ok1', -⟩ := cut_values ho hokd hcut0
        rw [← hs.le d _ _ ok1 ok1']; exact hle')
      (by rw [hs.names]; exact hname)
      (by
        show Built c' _ (some (c'.childPrior _ (c'.rows1 R d (c'.o.mid (fV d cut.1) (fV d cut.2)))))
          _ (c'.rows1 R d (c'.o.mid (fV d cut.1) (fV d cut.2))) _
        rw [hmid, hr1, q1]; exact i1)
      (by
        show Built c' _ (some (c'.childPrior _ (c'.rows2 R d (c'.o.mid (fV d cut.1) (fV d cut.2)))))
          _ (c'.rows2 R d (c'.o.mid (fV d cut.1) (fV d cut.2))) _
        rw [hmid, hr2, q2]; exact i2)
    rw [e1, e2, hfi R pa lv hR hne hpr hokP] at hB
    show Built c' _ _ lv R (.split (mapInfo c'.hp fP (c.fitInfo pa lv R))
      ⟨d, name, fV d (c.o.mid cut.1 cut.2)⟩ _ _ _ _)
    rw [← hmid]
    exact hB

/-- Posteriors of all nodes. -/
def posts {Sp : Type} : Node Sp S K P → List P
  | .leaf i => [i.posterior]
  | .split i _ _ _ c1 c2 => i.posterior :: (posts c1 ++ posts c2)

omit [LinearOrder S] [Zero K] [One K] in
theorem merge_leaf_post {Sp : Type} {pred : P → K} {t : Node Sp S K P} {j : Info K P}
    (h : Spec.merge pred t = .leaf j) : j.posterior ∈ posts t := by
  cases t with
  | leaf i => cases h; simp [posts]
  | split i sp l b c1 c2 =>
    rcases merge_split pred i sp l b c1 c2 with ⟨j1, j2, e1, e2, hp, em⟩ | ⟨hn, em⟩
    · rw [em] at h; cases h; simp [posts]
    · rw [em] at h; cases h

omit [LinearOrder S] [LinearOrder S'] [Zero K] [One K] [Zero K'] [One K'] in
/-- Merging commutes with the map if predictions stay equal exactly when they were. -/
theorem merge_mapTree (hp' : Hyper K') {pred : P → K} {pred' : P' → K'} (t : PNode V S K P)
    (h : ∀ p ∈ posts t, ∀ q ∈ posts t, pred' (fP p) = pred' (fP q) ↔ pred p = pred q) :
    Spec.merge pred' (mapTree hp' fV fP fS t) = mapTree hp' fV fP fS (Spec.merge pred t) := by
  induction t with
  | leaf i => rfl
  | split i sp l b c1 c2 ih1 ih2 =>
    have e : mapTree hp' fV fP fS (.split i sp l b c1 c2) = .split (mapInfo hp' fP i)
      ⟨sp.dim, sp.name, fV sp.dim sp.value⟩ (fS l) (fS b) (mapTree hp' fV fP fS c1)
      (mapTree hp' fV fP fS c2) := rfl
    have m1 : ∀ p ∈ posts c1, p ∈ posts (.split i sp l b c1 c2) := by
      intro p hp; simp [posts, hp]
    have m2 : ∀ p ∈ posts c2, p ∈ posts (.split i sp l b c1 c2) := by
      intro p hp; simp [posts, hp]
    replace ih1 := ih1 fun p hp q hq => h p (m1 p hp) q (m1 q hq)
    replace ih2 := ih2 fun p hp q hq => h p (m2 p hp) q (m2 q hq)
    rw [e]
    rcases merge_split pred i sp l b c1 c2 with ⟨j1, j2, e1, e2, hp, em⟩ | ⟨hn, em⟩ <;>
    rcases merge_split pred' (mapInfo hp' fP i) (⟨sp.dim, sp.name, fV sp.dim sp.value⟩ : PSplit V')
      (fS l) (fS b) (mapTree hp' fV fP fS c1) (mapTree hp' fV fP fS c2) with
      ⟨k1, k2, f1, f2, hq, en⟩ | ⟨hm, en⟩ <;> rw [em, en]
    · rfl
    · rw [ih1, e1] at hm
      rw [ih2, e2] at hm
      exact absurd ((h _ (m1 _ (merge_leaf_post e1)) _ (m2 _ (merge_leaf_post e2))).2 hp) (hm _ _ rfl rfl)
    · rw [ih1] at f1
      rw [ih2] at f2
      cases n1 : Spec.merge pred c1 with
      | split => rw [n1] at f1; cases f1
      | leaf j1 =>
        cases n2 : Spec.merge pred c2 with
        | split => rw [n2] at f2; cases f2
        | leaf j2 =>
          rw [n1] at f1; rw [n2] at f2
          cases f1; cases f2
          exact absurd ((h _ (m1 _ (merge_leaf_post n1)) _ (m2 _ (merge_leaf_post n2))).1 hq)
            (hn _ _ n1 n2)
    · rw [ih1, ih2]; rfl

/-- Completeness of the fit at the root: a greedy tree of all rows is what `fit` returns. -/
theorem fit_of_built {argsort : List V → List Nat} (hv : Valid ok c argsort n)
    {prior : Option P} {t : PNode V S K P} (hb : Built c none prior 0 (List.range n) t) :
    fitIn c argsort prior n =
      .ok (if c.hp.prune then Spec.merge c.T.predictLeaf t else t) := by
  have := perpFit_complete c hv.ops hv.target hv.dims none prior 0 _ t hb (by simp) (n + 1)
    (by simp) _ (sortMatrix_good hv.sort c.X n c.nDim hv.vals hv.rows)
    (fun i hi => hv.vals i (List.mem_range.1 hi))
  unfold fitIn perpFitRoot
  rw [this]
  cases c.hp.prune with
  | false => rfl
  | true => exact prune_eq _ t

/-- The fitted tree of the image is the image of the fitted tree; predictions only need to be
compared for posteriors occurring in the unpruned tree. -/
theorem fit_sim_on {ok' : V' → Prop} {argsort : List V → List Nat} {argsort' : List V' → List Nat}
    (hs : Sim ok c c' n fV fK fP fS okP okY okS)
    (hv : Valid ok c argsort n) (hv' : Valid ok' c' argsort' n) (hn : 0 < n)
    {prior : Option P} (hpr : c'.T.getPrior (prior.map fP) n c.nDim = fP (c.T.getPrior prior n c.nDim))
    (hokP : okP (c.T.getPrior prior n c.nDim))
    (hprune : c'.hp.prune = c.hp.prune)
    (hpred : c.hp.prune = true → ∀ t0, Built c none prior 0 (List.range n) t0 →
      ∀ p ∈ posts t0, ∀ q ∈ posts t0, c'.T.predictLeaf (fP p) = c'.T.predictLeaf (fP q) ↔
      c.T.predictLeaf p = c.T.predictLeaf q)
    {t : PNode V S K P} (h : fitIn c argsort prior n = .ok t) :
    fitIn c' argsort' (prior.map fP) n = .ok (mapTree c'.hp fV fP fS t) := by
  obtain ⟨t0, hb, -, h0, h1⟩ := fit_cutOff hv h
  have hb' := Built.sim hs hv.ops hv.target hv'.target hv.vals (par' := none) (pa' := prior.map fP) hb
    (fun i hi => List.mem_range.1 hi) (by simp; omega) rfl rfl
    (by unfold Ctx.prior; simpa [hs.nDim] using hpr) (by unfold Ctx.prior; simpa using hokP) (by simp)
  rw [fit_of_built hv' hb', hprune]
  cases hp : c.hp.prune with
  | false => rw [h0 hp]; rfl
  | true =>
    rw [h1 hp]
    simp only [if_true]
    rw [merge_mapTree _ _ (hpred hp t0 hb)]

/-- The fitted tree of the image is the image of the fitted tree. -/
theorem fit_sim {ok' : V' → Prop} {argsort : List V → List Nat} {argsort' : List V' → List Nat}
    (hs : Sim ok c c' n fV fK fP fS okP okY okS)
    (hv : Valid ok c argsort n) (hv' : Valid ok' c' argsort' n) (hn : 0 < n)
    {prior : Option P} (hpr : c'.T.getPrior (prior.map fP) n c.nDim = fP (c.T.getPrior prior n c.nDim))
    (hokP : okP (c.T.getPrior prior n c.nDim))
    (hprune : c'.hp.prune = c.hp.prune)
    (hpred : c.hp.prune = true → ∀ p q, c'.T.predictLeaf (fP p) = c'.T.predictLeaf (fP q) ↔
      c.T.predictLeaf p = c.T.predictLeaf q)
    {t : PNode V S K P} (h : fitIn c argsort prior n = .ok t) :
    fitIn c' argsort' (prior.map fP) n = .ok (mapTree c'.hp fV fP fS t) :=
  fit_sim_on hs hv hv' hn hpr hokP hprune (fun hp _ _ p _ q _ => hpred hp p q) h

end

end

end BT
