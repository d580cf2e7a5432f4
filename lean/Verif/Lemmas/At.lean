import Verif.Lemmas.Fit
import Verif.Spec.Walk

/-!
# Subtrees of greedy trees
-/

namespace BT
open Spec

section
variable {V K P S O : Type} [LinearOrder S] [DecidableEq K] [Zero K] [One K]

/-- The root theorem: an unpruned fit is a greedy tree of all rows. -/
theorem fit_built {ok : V → Prop} {c : Ctx V K P S O} {argsort : List V → List Nat} {n : Nat}
    (hv : Valid ok c argsort n) (hpr : c.hp.prune = false) {prior : Option P} {t : PNode V S K P}
    (h : fitIn c argsort prior n = .ok t) : Built c none prior 0 (List.range n) t := by
  unfold fitIn perpFitRoot at h
  rw [hpr] at h
  have h' : perpFit c.o c.T c.hp c.X c.y c.nDim c.names (n + 1) prior 0
      (sortMatrix argsort c.X n c.nDim) = .ok t := by
    cases hp : perpFit c.o c.T c.hp c.X c.y c.nDim c.names (n + 1) prior 0
      (sortMatrix argsort c.X n c.nDim) with
    | error e => rw [hp] at h; cases h
    | ok t' => rw [hp] at h; cases h; rfl
  exact perpFit_built c hv.ops hv.target hv.dims _ none prior 0 _ _
    (sortMatrix_good hv.sort c.X n c.nDim hv.vals hv.rows)
    (fun i hi => hv.vals i (List.mem_range.1 hi)) (by simp) t h'

/-- With pruning, the fitted tree is the pruned greedy tree. -/
theorem fit_pruned {ok : V → Prop} {c : Ctx V K P S O} {argsort : List V → List Nat} {n : Nat}
    (hv : Valid ok c argsort n) (hpr : c.hp.prune = true) {prior : Option P} {t : PNode V S K P}
    (h : fitIn c argsort prior n = .ok t) :
    ∃ t0, Built c none prior 0 (List.range n) t0 ∧ prune c.T.predictLeaf t0 = .ok t := by
  unfold fitIn perpFitRoot at h
  rw [hpr] at h
  cases hp : perpFit c.o c.T c.hp c.X c.y c.nDim c.names (n + 1) prior 0
      (sortMatrix argsort c.X n c.nDim) with
  | error e => rw [hp] at h; cases h
  | ok t0 =>
    rw [hp] at h
    exact ⟨t0, perpFit_built c hv.ops hv.target hv.dims _ none prior 0 _ _
      (sortMatrix_good hv.sort c.X n c.nDim hv.vals hv.rows)
      (fun i hi => hv.vals i (List.mem_range.1 hi)) (by simp) t0 hp, h⟩

omit [LinearOrder S] [DecidableEq K] [Zero K] [One K] in
/-- Rows of child 1 and 2 are the rows routed there. -/
theorem rows_routed {c : Ctx V K P S O} {ok : V → Prop} (ho : LawfulOps c.o ok c.hp.splitPrecision)
    {R : List Nat} {d : Nat} (hok : ∀ i ∈ R, ok (c.X i d)) {cut : V × V}
    (hcut : cut ∈ cuts c.o c.hp.splitPrecision c.X R d) :
    c.rows2 R d (c.o.mid cut.1 cut.2) = R.filter fun i => !c.o.lt (c.X i d) (c.o.mid cut.1 cut.2) := by
  unfold Ctx.rows2
  apply List.filter_congr
  intro i hi
  exact (cut_routes ho hok hcut i hi).1

/-- The subtree at any address is again a greedy tree, for exactly the rows whose walk passes there;
`I` is any relation between the parent's prior, the own prior and the rows that children inherit. -/
theorem Built.atInv {c : Ctx V K P S O} {ok : V → Prop} (ho : LawfulOps c.o ok c.hp.splitPrecision)
    (I : Option P → Option P → List Nat → Prop)
    (hI : ∀ par pa R R', I par pa R → (∀ i ∈ R', i ∈ R) →
      I (some (c.prior pa R)) (some (c.childPrior (c.prior pa R) R')) R')
    {par pa : Option P} {lv : Nat} {R : List Nat} {t : PNode V S K P} (hb : Built c par pa lv R t)
    (hok : ∀ i ∈ R, ∀ d < c.nDim, ok (c.X i d)) (h0 : I par pa R) (addr : List Bool) (u : PNode V S K P)
    (hu : nodeAt t addr = some u) :
    ∃ par' pa', Built c par' pa' (lv + addr.length)
      (R.filter fun i => passes (perpRouter c.o) t addr (c.X i)) u ∧
      I par' pa' (R.filter fun i => passes (perpRouter c.o) t addr (c.X i)) ∧
      (addr = [] → par' = par ∧ pa' = pa) ∧ (addr ≠ [] → par'.isSome ∧ pa'.isSome) := by
  induction hb generalizing addr u with
  | direct par pa lv R hs =>
    cases addr with
    | nil =>
      simp only [nodeAt, Option.some.injEq] at hu
      subst hu
      exact ⟨_, _, by simpa [passes] using Built.direct par pa lv R hs, by simpa [passes] using h0, fun _ => ⟨rfl, rfl⟩, by simp⟩
    | cons b bs => simp [nodeAt] at hu
  | stay par pa lv R hd hno =>
    cases addr with
    | nil =>
      simp only [nodeAt, Option.some.injEq] at hu
      subst hu
      exact ⟨_, _, by simpa [passes] using Built.stay par pa lv R hd hno, by simpa [passes] using h0, fun _ => ⟨rfl, rfl⟩, by simp⟩
    | cons b bs => simp [nodeAt] at hu
  | split par pa lv R d cut name c1 c2 hdv hd hcut hgain hmax hfd hfc hname h1 h2 ih1 ih2 =>
    have hokd : ∀ i ∈ R, ok (c.X i d) := fun i hi => hok i hi d hd
    cases addr with
    | nil =>
      simp only [nodeAt, Option.some.injEq] at hu
      subst hu
      have hB := Built.split par pa lv R d cut name c1 c2 hdv hd hcut hgain hmax hfd hfc hname h1 h2
      exact ⟨_, _, by simpa [passes] using hB, by simpa [passes] using h0, fun _ => ⟨rfl, rfl⟩, by simp⟩
    | cons b bs =>
      cases b with
      | false =>
        simp only [nodeAt, Bool.false_eq_true, if_false] at hu
        obtain ⟨par', pa', hB, hi', hnil, hne⟩ := ih1 (fun i hi => hok i (List.mem_filter.1 hi).1)
          (hI _ _ _ _ h0 fun i hi => (List.mem_filter.1 hi).1) bs u hu
        refine ⟨par', pa', ?_⟩
        have e1 : lv + (bs.length + 1) = lv + 1 + bs.length := by omega
        rw [List.length_cons, e1]
        have e2 : (R.filter fun i => passes (perpRouter c.o)
              (.split (c.fitInfo pa lv R) ⟨d, name, c.o.mid cut.1 cut.2⟩ (c.noSplit pa lv R)
                (c.score pa lv R d cut) c1 c2) (false :: bs) (c.X i)) =
              (c.rows1 R d (c.o.mid cut.1 cut.2)).filter fun i => passes (perpRouter c.o) c1 bs (c.X i) := by
            unfold Ctx.rows1
            rw [List.filter_filter]
            apply List.filter_congr
            intro i hi
            simp only [passes, perpRouter]
            have := (cut_routes ho hokd hcut i hi).1
            by_cases hl : c.o.lt (c.X i d) (c.o.mid cut.1 cut.2) = true
            · simp [hl]
            · simp [hl]
        rw [e2]; refine ⟨hB, hi', by simp, fun _ => ?_⟩
        · cases bs with
          | nil => obtain ⟨rfl, rfl⟩ := hnil rfl; simp
          | cons _ _ => exact hne (by simp)
      | true =>
        simp only [nodeAt, if_true] at hu
        obtain ⟨par', pa', hB, hi', hnil, hne⟩ := ih2 (fun i hi => hok i (List.mem_filter.1 hi).1)
          (hI _ _ _ _ h0 fun i hi => (List.mem_filter.1 hi).1) bs u hu
        refine ⟨par', pa', ?_⟩
        have e1 : lv + (bs.length + 1) = lv + 1 + bs.length := by omega
        rw [List.length_cons, e1]
        have e2 : (R.filter fun i => passes (perpRouter c.o)
              (.split (c.fitInfo pa lv R) ⟨d, name, c.o.mid cut.1 cut.2⟩ (c.noSplit pa lv R)
                (c.score pa lv R d cut) c1 c2) (true :: bs) (c.X i)) =
              (c.rows2 R d (c.o.mid cut.1 cut.2)).filter fun i => passes (perpRouter c.o) c2 bs (c.X i) := by
            rw [rows_routed ho hokd hcut, List.filter_filter]
            apply List.filter_congr
            intro i hi
            simp only [passes, perpRouter]
            have := (cut_routes ho hokd hcut i hi).1
            by_cases hl : c.o.lt (c.X i d) (c.o.mid cut.1 cut.2) = true
            · simp [hl]
            · simp [hl, this]
        rw [e2]; refine ⟨hB, hi', by simp, fun _ => ?_⟩
        · cases bs with
          | nil => obtain ⟨rfl, rfl⟩ := hnil rfl; simp
          | cons _ _ => exact hne (by simp)

/-- The subtree at any address is again a greedy tree, for exactly the rows whose walk passes there. -/
theorem Built.at {c : Ctx V K P S O} {ok : V → Prop} (ho : LawfulOps c.o ok c.hp.splitPrecision)
    {par pa : Option P} {lv : Nat} {R : List Nat} {t : PNode V S K P} (hb : Built c par pa lv R t)
    (hok : ∀ i ∈ R, ∀ d < c.nDim, ok (c.X i d)) (addr : List Bool) (u : PNode V S K P)
    (hu : nodeAt t addr = some u) :
    ∃ par' pa', Built c par' pa' (lv + addr.length)
      (R.filter fun i => passes (perpRouter c.o) t addr (c.X i)) u ∧
      (addr = [] → par' = par ∧ pa' = pa) ∧ (addr ≠ [] → par'.isSome ∧ pa'.isSome) := by
  obtain ⟨par', pa', hB, -, h⟩ := Built.atInv ho (fun _ _ _ => True) (fun _ _ _ _ _ _ => trivial) hb hok trivial
    addr u hu
  exact ⟨par', pa', hB, h⟩

end

end BT
