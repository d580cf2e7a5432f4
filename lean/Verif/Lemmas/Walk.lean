import Verif.Spec.Walk
import Verif.Model.Predict
import Verif.Model.XF
import Verif.Lemmas.Predict
import Verif.Lemmas.Prune

/-!
# Walks, addresses, and invariants of all nodes
-/

namespace BT
open Spec

section
variable {Sp S K P Row O : Type}

/-- The walk ends in the leaf whose address the row passes. -/
theorem walk_iff (rt : Router Sp Row) (t : Node Sp S K P) (x : Row) (i : Info K P) :
    walk rt t x = some i ↔ ∃ addr, nodeAt t addr = some (.leaf i) ∧ passes rt t addr x = true := by
  induction t with
  | leaf j =>
    constructor
    · intro h
      simp only [walk, Option.some.injEq] at h
      subst h
      exact ⟨[], rfl, rfl⟩
    · rintro ⟨addr, h, -⟩
      cases addr with
      | nil => simpa [nodeAt, walk] using h
      | cons b bs => simp [nodeAt] at h
  | split j sp l b c1 c2 ih1 ih2 =>
    by_cases h1 : rt.goes1 sp x = true
    · simp only [walk, h1, if_true]
      rw [ih1]
      constructor
      · rintro ⟨addr, ha, hp⟩
        exact ⟨false :: addr, by simpa [nodeAt] using ha, by simp [passes, h1, hp]⟩
      · rintro ⟨addr, ha, hp⟩
        cases addr with
        | nil => simp [nodeAt] at ha
        | cons b bs =>
          cases b with
          | false => exact ⟨bs, by simpa [nodeAt] using ha, by simpa [passes, h1] using hp⟩
          | true => simp [passes, h1] at hp
    · by_cases h2 : rt.goes2 sp x = true
      · simp only [walk, h1, h2, if_true]
        rw [if_neg (by simp), ih2]
        constructor
        · rintro ⟨addr, ha, hp⟩
          exact ⟨true :: addr, by simpa [nodeAt] using ha, by simp [passes, h1, h2, hp]⟩
        · rintro ⟨addr, ha, hp⟩
          cases addr with
          | nil => simp [nodeAt] at ha
          | cons b bs =>
            cases b with
            | true => exact ⟨bs, by simpa [nodeAt] using ha, by simpa [passes, h1, h2] using hp⟩
            | false => simp [passes, h1, h2] at hp
      · simp only [walk, h1, h2]
        simp only [Bool.false_eq_true, if_false, reduceCtorEq, false_iff]
        rintro ⟨addr, ha, hp⟩
        cases addr with
        | nil => simp [nodeAt] at ha
        | cons b bs => simp [passes, h1, h2] at hp

/-- A row passes at most one leaf address. -/
theorem passes_unique (rt : Router Sp Row) (t : Node Sp S K P) (x : Row) (a a' : List Bool)
    {i i' : Info K P} (h : nodeAt t a = some (.leaf i)) (hp : passes rt t a x = true)
    (h' : nodeAt t a' = some (.leaf i')) (hp' : passes rt t a' x = true) : a = a' := by
  induction t generalizing a a' with
  | leaf j =>
    cases a with
    | cons b bs => simp [nodeAt] at h
    | nil =>
      cases a' with
      | cons b bs => simp [nodeAt] at h'
      | nil => rfl
  | split j sp l b c1 c2 ih1 ih2 =>
    cases a with
    | nil => simp [nodeAt] at h
    | cons b bs =>
      cases a' with
      | nil => simp [nodeAt] at h'
      | cons b' bs' =>
        by_cases h1 : rt.goes1 sp x = true
        · simp only [passes, h1, if_true, Bool.and_eq_true, Bool.not_eq_true'] at hp hp'
          obtain ⟨rfl, hp⟩ := hp
          obtain ⟨rfl, hp'⟩ := hp'
          simp only [nodeAt, Bool.false_eq_true, if_false] at h h'
          rw [ih1 bs bs' h hp h' hp']
        · by_cases h2 : rt.goes2 sp x = true
          · simp only [passes, h1, h2, if_true, Bool.false_eq_true, if_false, Bool.and_eq_true] at hp hp'
            obtain ⟨rfl, hp⟩ := hp
            obtain ⟨rfl, hp'⟩ := hp'
            simp only [nodeAt, if_true] at h h'
            rw [ih2 bs bs' h hp h' hp']
          · simp [passes, h1, h2] at hp

/-- With complementary tests every row reaches a leaf. -/
theorem walk_total (rt : Router Sp Row) (x : Row)
    (h : ∀ sp, rt.goes1 sp x = false → rt.goes2 sp x = true) (t : Node Sp S K P) :
    ∃ i, walk rt t x = some i := by
  induction t with
  | leaf i => exact ⟨i, rfl⟩
  | split i sp l b c1 c2 ih1 ih2 =>
    by_cases h1 : rt.goes1 sp x = true
    · simpa [walk, h1] using ih1
    · simpa [walk, h1, h sp (by simpa using h1)] using ih2

theorem predictRows_getElem? (rt : Router Sp Row) (hex : Exclusive rt) (val : Info K P → O) (init : O)
    (X : Nat → Row) (m : Nat) (t : Node Sp S K P) (i : Nat) (hi : i < m) :
    (predictRows rt val init X m t)[i]? = some (match walk rt t (X i) with
      | some l => val l
      | none => init) := by
  unfold predictRows
  rw [predictInto_getElem? rt hex, if_pos (List.mem_range.2 hi), List.getElem?_replicate, if_pos hi]
  rfl

end

theorem exact_exclusive {K : Type} [Field K] [LinearOrder K] : Exclusive (perpRouter (exactOps K)) := by
  intro sp x ⟨h1, h2⟩
  simp only [perpRouter, exactOps, decide_eq_true_eq] at h1 h2
  exact absurd h2 (not_le.2 h1)

theorem exact_complementary {K : Type} [Field K] [LinearOrder K] (sp : PSplit K) (x : Nat → K)
    (h : (perpRouter (exactOps K)).goes1 sp x = false) : (perpRouter (exactOps K)).goes2 sp x = true := by
  simp only [perpRouter, exactOps, decide_eq_false_iff_not, not_lt] at h
  simpa only [perpRouter, exactOps, decide_eq_true_eq] using h

theorem xf_exclusive {K : Type} [Field K] [LinearOrder K] : Exclusive (perpRouter (xfOps K)) := by
  intro sp x ⟨h1, h2⟩
  simp only [perpRouter, xfOps] at h1 h2
  cases hx : x sp.dim <;> cases hv : sp.value <;> simp [XF.lt, XF.ge, hx, hv] at h1 h2
  exact absurd h2 (not_le.2 h1)

section
variable {V K P S O : Type} [LinearOrder S] [DecidableEq K] [Zero K] [One K]

/-- Facts about every node of a greedy tree, by address. -/
theorem Built.inv {c : Ctx V K P S O} {ok : V → Prop} (ho : LawfulOps c.o ok c.hp.splitPrecision)
    (hT : LawfulTarget c.T c.pair) {par pa : Option P} {lv : Nat} {R : List Nat} {t : PNode V S K P}
    (hb : Built c par pa lv R t)
    (hok : ∀ i ∈ R, ∀ d < c.nDim, ok (c.X i d)) (hne : R ≠ [])
    (Q : P → Prop) (hQ : Q (c.prior pa R)) (hpar : ∀ p, par = some p → Q p)
    (step1 : ∀ R' : List Nat, R' ≠ [] → (∀ i ∈ R', i ∈ R) → ∀ p, Q p → Q (c.T.posterior (c.ys R') p 1))
    (stepD : c.hp.delta ≠ 0 → ∀ R' : List Nat, R' ≠ [] → (∀ i ∈ R', i ∈ R) → ∀ p, Q p →
      Q (c.T.posterior (c.ys R') p c.hp.delta))
    (addr : List Bool) (u : PNode V S K P) (hu : nodeAt t addr = some u) :
    Q u.info.posterior ∧ ((∃ p, pa = some p) ∨ addr ≠ [] → ∃ p, u.info.prior = some p ∧ Q p) ∧
      u.info.hp = c.hp ∧ u.info.level = lv + addr.length ∧ 0 < u.info.nData := by
  induction hb generalizing addr u with
  | direct par pa lv R hs =>
    cases addr with
    | cons b bs => simp [nodeAt] at hu
    | nil =>
      simp only [nodeAt, Option.some.injEq] at hu
      subst hu
      refine ⟨step1 R hne (fun i hi => hi) par (hpar par rfl), fun _ => ⟨pa, rfl, ?_⟩, rfl, rfl,
        List.length_pos_iff.2 hne⟩
      have : c.prior (some pa) R = pa := hT.getPrior_some _ _ _
      rwa [this] at hQ
  | stay par pa lv R hd hno =>
    cases addr with
    | cons b bs => simp [nodeAt] at hu
    | nil =>
      simp only [nodeAt, Option.some.injEq] at hu
      subst hu
      refine ⟨step1 R hne (fun i hi => hi) _ hQ, ?_, rfl, rfl, List.length_pos_iff.2 hne⟩
      rintro (⟨p, rfl⟩ | h)
      · have : c.prior (some p) R = p := hT.getPrior_some _ _ _
        rw [this] at hQ
        exact ⟨p, rfl, hQ⟩
      · exact absurd rfl h
  | split par pa lv R d cut name c1 c2 hdv hd hcut hgain hmax hfd hfc hname h1 h2 ih1 ih2 =>
    have hokd : ∀ i ∈ R, ok (c.X i d) := fun i hi => hok i hi d hd
    obtain ⟨⟨i, hi, ei⟩, ⟨j, hj, ej⟩, ok1, ok2, hle, hnle, hg, -⟩ := cut_values ho hokd hcut
    have hn1 : c.rows1 R d (c.o.mid cut.1 cut.2) ≠ [] := by
      refine List.ne_nil_of_mem (a := i) (List.mem_filter.2 ⟨hi, ?_⟩)
      rw [ei]
      exact (ho.below _ _ _ ok1 ok2 ok1 hle hg ((ho.le_total _ _ ok1 ok1).elim id id)).1
    have hn2 : c.rows2 R d (c.o.mid cut.1 cut.2) ≠ [] := by
      refine List.ne_nil_of_mem (a := j) (List.mem_filter.2 ⟨hj, ?_⟩)
      rw [ej]
      exact (ho.above _ _ _ ok1 ok2 ok2 hle hg ((ho.le_total _ _ ok2 ok2).elim id id)).2
    have hR1 : ∀ i ∈ c.rows1 R d (c.o.mid cut.1 cut.2), i ∈ R := fun i hi => (List.mem_filter.1 hi).1
    have hR2 : ∀ i ∈ c.rows2 R d (c.o.mid cut.1 cut.2), i ∈ R := fun i hi => (List.mem_filter.1 hi).1
    have hcp : ∀ R' : List Nat, R' ≠ [] → (∀ i ∈ R', i ∈ R) → Q (c.childPrior (c.prior pa R) R') := by
      intro R' hn hs
      unfold Ctx.childPrior
      split
      · next h => exact stepD h R' hn hs _ hQ
      · exact hQ
    have hps : ∀ (p : P) (A : List Nat), c.prior (some p) A = p := fun p A => hT.getPrior_some _ _ _
    cases addr with
    | nil =>
      simp only [nodeAt, Option.some.injEq] at hu
      subst hu
      refine ⟨step1 R hne (fun i hi => hi) _ hQ, ?_, rfl, rfl, List.length_pos_iff.2 hne⟩
      rintro (⟨p, rfl⟩ | h)
      · have : c.prior (some p) R = p := hT.getPrior_some _ _ _
        rw [this] at hQ
        exact ⟨p, rfl, hQ⟩
      · exact absurd rfl h
    | cons b bs =>
      cases b with
      | false =>
        simp only [nodeAt, Bool.false_eq_true, if_false] at hu
        obtain ⟨q1, q2, q3, q4, q5⟩ := ih1 (fun i hi => hok i (hR1 i hi)) hn1 (by rw [hps]; exact hcp _ hn1 hR1)
          (by rintro p ⟨⟩; exact hQ) (fun R' hn hs => step1 R' hn fun i hi => hR1 i (hs i hi))
          (fun hδ R' hn hs => stepD hδ R' hn fun i hi => hR1 i (hs i hi)) bs u hu
        exact ⟨q1, fun _ => q2 (Or.inl ⟨_, rfl⟩), q3, by rw [q4, List.length_cons]; omega, q5⟩
      | true =>
        simp only [nodeAt, if_true] at hu
        obtain ⟨q1, q2, q3, q4, q5⟩ := ih2 (fun i hi => hok i (hR2 i hi)) hn2 (by rw [hps]; exact hcp _ hn2 hR2)
          (by rintro p ⟨⟩; exact hQ) (fun R' hn hs => step1 R' hn fun i hi => hR2 i (hs i hi))
          (fun hδ R' hn hs => stepD hδ R' hn fun i hi => hR2 i (hs i hi)) bs u hu
        exact ⟨q1, fun _ => q2 (Or.inl ⟨_, rfl⟩), q3, by rw [q4, List.length_cons]; omega, q5⟩

/-- The same for fitted trees, pruned or not. -/
theorem fit_inv {ok : V → Prop} {c : Ctx V K P S O} {argsort : List V → List Nat} {n : Nat}
    (hv : Valid ok c argsort n) (hn : 0 < n) {prior : Option P} {t : PNode V S K P}
    (h : fitIn c argsort prior n = .ok t)
    (Q : P → Prop) (hQ : Q (c.T.getPrior prior n c.nDim))
    (step1 : ∀ R' : List Nat, R' ≠ [] → (∀ i ∈ R', i < n) → ∀ p, Q p → Q (c.T.posterior (c.ys R') p 1))
    (stepD : c.hp.delta ≠ 0 → ∀ R' : List Nat, R' ≠ [] → (∀ i ∈ R', i < n) → ∀ p, Q p →
      Q (c.T.posterior (c.ys R') p c.hp.delta))
    (addr : List Bool) (u : PNode V S K P) (hu : nodeAt t addr = some u) :
    Q u.info.posterior ∧ ((∃ p, prior = some p) ∨ addr ≠ [] → ∃ p, u.info.prior = some p ∧ Q p) ∧
      u.info.hp = c.hp ∧ u.info.level = addr.length ∧ 0 < u.info.nData := by
  obtain ⟨t0, hb, hc, -⟩ := fit_cutOff hv h
  obtain ⟨u0, h0, e, -⟩ := hc.node addr u hu
  rw [e]
  have := Built.inv hv.ops hv.target hb (fun i hi => hv.vals i (List.mem_range.1 hi))
    (by simp; omega) Q (by unfold Ctx.prior; simpa using hQ) (by simp)
    (fun R' hn hs => step1 R' hn fun i hi => List.mem_range.1 (hs i hi))
    (fun hδ R' hn hs => stepD hδ R' hn fun i hi => List.mem_range.1 (hs i hi)) addr u0 h0
  simpa using this

end

end BT

namespace BT
open Spec

theorem nodeAt_nil {Sp S K P : Type} (t : Node Sp S K P) : nodeAt t [] = some t := by
  cases t <;> rfl

theorem nodeAt_append {Sp S K P : Type} (t : Node Sp S K P) (a b : List Bool) :
    nodeAt t (a ++ b) = (nodeAt t a).bind fun u => nodeAt u b := by
  induction a generalizing t with
  | nil => cases t <;> rfl
  | cons x xs ih =>
    cases t with
    | leaf i => rfl
    | split i sp l bb c1 c2 =>
      simp only [List.cons_append, nodeAt]
      split
      · exact ih c2
      · exact ih c1

theorem Built.nData {V K P S O : Type} [LinearOrder S] [DecidableEq K] [Zero K] [One K]
    {c : Ctx V K P S O} {par pa : Option P} {lv : Nat} {R : List Nat} {t : PNode V S K P}
    (h : Built c par pa lv R t) : t.info.nData = R.length := by
  cases h <;> rfl

/-- Every node of a fitted tree, pruned or not, belongs to a greedy subtree for exactly the training
rows that are routed through it; `I` as in `Built.atInv`. -/
theorem fit_nodeInv {V K P S O : Type} [LinearOrder S] [DecidableEq K] [Zero K] [One K] {ok : V → Prop}
    {c : Ctx V K P S O} {argsort : List V → List Nat} {n : Nat}
    (hv : Valid ok c argsort n) {prior : Option P} {t : PNode V S K P}
    (h : fitIn c argsort prior n = .ok t)
    (I : Option P → Option P → List Nat → Prop)
    (hI : ∀ par pa R R', I par pa R → (∀ i ∈ R', i ∈ R) →
      I (some (c.prior pa R)) (some (c.childPrior (c.prior pa R) R')) R')
    (hI0 : I none prior (List.range n)) {addr : List Bool} {u : PNode V S K P}
    (hu : nodeAt t addr = some u) :
    ∃ par' pa' u0, Built c par' pa' addr.length
        ((List.range n).filter fun i => passes (perpRouter c.o) t addr (c.X i)) u0 ∧
      u.info = u0.info ∧
      (∀ i sp l b c1 c2, u = .split i sp l b c1 c2 → ∃ d1 d2, u0 = .split i sp l b d1 d2 ∧
        c1.info = d1.info ∧ c2.info = d2.info) ∧
      (c.hp.prune = false → u = u0) ∧
      I par' pa' ((List.range n).filter fun i => passes (perpRouter c.o) t addr (c.X i)) ∧
      (addr = [] → par' = none ∧ pa' = prior) ∧ (addr ≠ [] → par'.isSome ∧ pa'.isSome) := by
  obtain ⟨t0, hb, hc, hp, hp'⟩ := fit_cutOff hv h
  obtain ⟨u0, h0, e, hs⟩ := hc.node addr u hu
  obtain ⟨par', pa', hB, hi, r1, r2⟩ := Built.atInv hv.ops I hI hb
    (fun i hi => hv.vals i (List.mem_range.1 hi)) hI0 addr _ h0
  have e2 : ((List.range n).filter fun i => passes (perpRouter c.o) t addr (c.X i)) =
      (List.range n).filter fun i => passes (perpRouter c.o) t0 addr (c.X i) :=
    List.filter_congr fun i _ => hc.passes _ addr u hu (c.X i)
  rw [Nat.zero_add] at hB
  rw [e2]
  refine ⟨par', pa', u0, hB, e, ?_, ?_, hi, r1, r2⟩
  · rintro i sp l b c1 c2 rfl
    obtain ⟨d1, d2, rfl⟩ := hs i sp l b c1 c2 rfl
    refine ⟨d1, d2, rfl, ?_, ?_⟩
    · obtain ⟨w, hw, e3, -⟩ := hc.node (addr ++ [false]) c1 (by rw [nodeAt_append, hu]; simp [nodeAt, nodeAt_nil])
      rw [nodeAt_append, h0] at hw
      simp only [Option.bind_some, nodeAt, nodeAt_nil, Bool.false_eq_true, if_false,
        Option.some.injEq] at hw
      rw [hw]; exact e3
    · obtain ⟨w, hw, e3, -⟩ := hc.node (addr ++ [true]) c2 (by rw [nodeAt_append, hu]; simp [nodeAt, nodeAt_nil])
      rw [nodeAt_append, h0] at hw
      simp only [Option.bind_some, nodeAt, nodeAt_nil, if_true,
        Option.some.injEq] at hw
      rw [hw]; exact e3
  · intro hpr
    have e := hp hpr
    subst e
    rw [hu] at h0; exact Option.some.inj h0

theorem fit_node {V K P S O : Type} [LinearOrder S] [DecidableEq K] [Zero K] [One K] {ok : V → Prop}
    {c : Ctx V K P S O} {argsort : List V → List Nat} {n : Nat}
    (hv : Valid ok c argsort n) {prior : Option P} {t : PNode V S K P}
    (h : fitIn c argsort prior n = .ok t) {addr : List Bool} {u : PNode V S K P}
    (hu : nodeAt t addr = some u) :
    ∃ par' pa' u0, Built c par' pa' addr.length
        ((List.range n).filter fun i => passes (perpRouter c.o) t addr (c.X i)) u0 ∧
      u.info = u0.info ∧
      (∀ i sp l b c1 c2, u = .split i sp l b c1 c2 → ∃ d1 d2, u0 = .split i sp l b d1 d2 ∧
        c1.info = d1.info ∧ c2.info = d2.info) ∧
      (c.hp.prune = false → u = u0) ∧
      (addr = [] → par' = none ∧ pa' = prior) ∧ (addr ≠ [] → par'.isSome ∧ pa'.isSome) := by
  obtain ⟨par', pa', u0, hB, e, hs, hp, -, r⟩ := fit_nodeInv hv h (fun _ _ _ => True)
    (fun _ _ _ _ _ _ => trivial) trivial hu
  exact ⟨par', pa', u0, hB, e, hs, hp, r⟩

end BT
