import Verif.Model.Level
import Verif.Lemmas.HyperFit
import Verif.Lemmas.Sim
import Verif.Lemmas.Image
import Verif.Props.SparseHyper

/-!
# Subtrees as fits of their rows
-/

namespace BT
open Spec

set_option linter.unusedSectionVars false

/-! ## Perpendicular trees -/

section
variable {V K P S O : Type} [LinearOrder S] [DecidableEq K] [Zero K] [One K] {c : Ctx V K P S O} {ok : V → Prop}

theorem Spec.Built.mapId {par pa : Option P} {lv : Nat} {R : List Nat} {t : PNode V S K P}
    (h : Built c par pa lv R t) : mapTree c.hp (fun _ => id) id id t = t := by
  induction h with
  | direct => rfl
  | stay par pa lv R hdiv hno => simp [mapTree, mapInfo, Ctx.fitInfo]
  | split par pa lv R d cut name c1 c2 _ _ _ _ _ _ _ _ h1 h2 ih1 ih2 =>
    simp only [mapTree, ih1, ih2]
    simp [mapInfo, Ctx.fitInfo]

theorem Spec.Built.info {par pa : Option P} {lv : Nat} {R : List Nat} {t : PNode V S K P}
    (h : Built c par pa lv R t) : t.info.prior = pa ∧ t.info.level = lv := by
  cases h <;> exact ⟨rfl, rfl⟩

theorem Spec.Built.root {par pa : Option P} {lv : Nat} {R : List Nat} {t : PNode V S K P}
    (h : Built c par pa lv R t) (hd : c.Divisible R) : Built c none pa lv R t := by
  cases h with
  | direct _ _ _ _ hs => exact absurd hd hs
  | stay _ _ _ _ _ hno => exact .stay none _ _ _ (by simp) hno
  | split _ _ _ _ d cut name c1 c2 _ h1 h2 h3 h4 h5 h6 h7 h8 h9 =>
    exact .split none _ _ _ d cut name c1 c2 (by simp) h1 h2 h3 h4 h5 h6 h7 h8 h9

/-- The context restricted to the rows `R`, renumbered from 0. -/
def Ctx.take (c : Ctx V K P S O) (R : List Nat) : Ctx V K P S O :=
  { c with X := fun i => c.X (R.getD i 0), y := fun i => c.y (R.getD i 0) }

/-- Renumbering the rows of a greedy tree from 0. -/
theorem Spec.Built.take (ho : LawfulOps c.o ok c.hp.splitPrecision) (hT : LawfulTarget c.T c.pair)
    {par pa : Option P} {lv : Nat} {R : List Nat} (hnd : R.Nodup) (hne : R ≠ []) {t : PNode V S K P}
    (h : Built c par pa lv R t) (hok : ∀ i ∈ R, ∀ d < c.nDim, ok (c.X i d)) :
    Built (Ctx.take c R) par pa lv (List.range R.length) t := by
  -- an extension in which every old row still occurs
  set τ : Nat → Nat := fun i => if i ∈ R then R.idxOf i else R.length + i with hτ
  set ρ : Nat → Nat := fun k => if k < R.length then R.getD k 0 else k - R.length with hρ
  have hinv : ∀ i, ρ (τ i) = i := by
    intro i
    by_cases hi : i ∈ R
    · have hlt := List.idxOf_lt_length_of_mem hi
      simp only [hτ, hρ, if_pos hi, if_pos hlt]
      rw [List.getD_eq_getElem?_getD, List.getElem?_eq_getElem hlt, Option.getD_some]
      exact List.getElem_idxOf hlt
    · simp only [hτ, hρ, if_neg hi]
      rw [if_neg (by omega)]
      omega
  set c1 : Ctx V K P S O := { c with X := fun k => c.X (ρ k), y := fun k => c.y (ρ k) } with hc1
  have hget : ∀ k < R.length, ρ k = R.getD k 0 := fun k hk => by simp only [hρ, if_pos hk]
  have hmem : ∀ k < R.length, R.getD k 0 ∈ R := fun k hk => by
    rw [List.getD_eq_getElem?_getD, List.getElem?_eq_getElem hk]; simp
  have hmap : R.map τ = List.range R.length := by
    apply List.ext_getElem?
    intro k
    rw [List.getElem?_map]
    by_cases hk : k < R.length
    · rw [List.getElem?_eq_getElem hk, List.getElem?_range hk]
      simp only [Option.map_some, Option.some.injEq, hτ, List.getElem_mem hk, if_true]
      exact hnd.idxOf_getElem k hk
    · rw [List.getElem?_eq_none (by omega), List.getElem?_eq_none (by simpa using hk)]
      rfl
  have hb1 : Built c1 par pa lv (List.range R.length) t := by
    refine Built.transport (c := c1) (c' := c) (ok := ok) ho hT τ ?_ h _ (by rw [hmap]) ?_
    · simp only [hc1, hinv]
    · intro k hk d hd
      have hk := List.mem_range.1 hk
      show ok (c.X (ρ k) d)
      rw [hget k hk]
      exact hok _ (hmem k hk) d hd
  have hs : Sim ok c1 (Ctx.take c R) R.length (fun _ => id) id id id (fun _ => True) (fun _ => True) (fun _ => True) :=
    { nDim := rfl
      names := rfl
      X := fun i d hi _ => by show c.X (R.getD i 0) d = c.X (ρ i) d; rw [hget i hi]
      y := fun i hi => by show c.y (R.getD i 0) = c.y (ρ i); rw [hget i hi]
      le := fun _ _ _ _ _ => rfl
      gap := fun _ _ _ _ _ _ => rfl
      mid := fun _ _ _ _ _ => rfl
      lt := fun _ _ _ _ => rfl
      ge := fun _ _ _ _ => rfl
      okTarget := fun _ _ => trivial
      inj := fun _ _ _ _ e => e
      delta := Iff.rfl
      posterior1 := fun ys p _ _ _ => by rw [List.map_id]; rfl
      posteriorD := fun _ ys p _ _ _ => ⟨by rw [List.map_id]; rfl, trivial⟩
      noSplit := fun lv ys p _ _ _ => ⟨by rw [List.map_id]; rfl, trivial⟩
      pair := fun lv p ns a b _ _ _ _ _ _ => ⟨by rw [List.map_id, List.map_id]; rfl, trivial⟩
      mono := fun _ _ _ _ => Iff.rfl }
  have := Built.sim hs ho hT hT (fun k hk d hd => by
      show ok (c.X (ρ k) d)
      rw [hget k hk]
      exact hok _ (hmem k hk) d hd) hb1 (fun i hi => List.mem_range.1 hi)
    (by
      intro h0
      have := congrArg List.length h0
      rw [List.length_range] at this
      exact hne (List.length_eq_zero_iff.1 this))
    (par' := par) (pa' := pa) (by simp) (by simp) rfl trivial (fun _ _ => trivial)
  rwa [show mapTree (Ctx.take c R).hp (fun _ => id) id id t = t from hb1.mapId] at this

/-- `fit` of a model with a level, in a context. -/
def fitFrom (c : Ctx V K P S O) (argsort : List V → List Nat) (prior : Option P) (lv n : Nat) :
    Except Err (PNode V S K P) :=
  perpFitFrom c.o c.T argsort c.hp prior lv c.X c.y n c.nDim c.names

theorem fitFrom_of_built {argsort : List V → List Nat} {n lv : Nat} (hv : Valid ok c argsort n)
    {prior : Option P} {t : PNode V S K P} (hb : Built c none prior lv (List.range n) t) :
    fitFrom c argsort prior lv n = .ok (if c.hp.prune then Spec.merge c.T.predictLeaf t else t) := by
  have := perpFit_complete c hv.ops hv.target hv.dims none prior lv _ t hb (by simp) (n + 1)
    (by simp) _ (sortMatrix_good hv.sort c.X n c.nDim hv.vals hv.rows)
    (fun i hi => hv.vals i (List.mem_range.1 hi))
  unfold fitFrom perpFitFrom
  rw [this]
  cases c.hp.prune with
  | false => rfl
  | true => exact prune_eq _ t

theorem built_of_fitFrom {argsort : List V → List Nat} {n lv : Nat} (hv : Valid ok c argsort n)
    {prior : Option P} {t : PNode V S K P} (h : fitFrom c argsort prior lv n = .ok t) :
    ∃ t0, Built c none prior lv (List.range n) t0 ∧
      t = if c.hp.prune then Spec.merge c.T.predictLeaf t0 else t0 := by
  unfold fitFrom perpFitFrom at h
  cases hp : perpFit c.o c.T c.hp c.X c.y c.nDim c.names (n + 1) prior lv
      (sortMatrix argsort c.X n c.nDim) with
  | error e => rw [hp] at h; cases h
  | ok t0 =>
    rw [hp] at h
    refine ⟨t0, perpFit_built c hv.ops hv.target hv.dims _ none prior lv _ _
      (sortMatrix_good hv.sort c.X n c.nDim hv.vals hv.rows)
      (fun i hi => hv.vals i (List.mem_range.1 hi)) (by simp) t0 hp, ?_⟩
    cases hpr : c.hp.prune with
    | false =>
      simp only [hpr] at h
      cases h
      rfl
    | true =>
      simp only [hpr] at h
      have h' : prune c.T.predictLeaf t0 = .ok t := h
      rw [prune_eq] at h'
      cases h'
      rfl

theorem nodeAt_pruned {Sp O : Type} [DecidableEq O] {pr : Bool} {pred : P → O} {t0 u : Node Sp S K P} {addr : List Bool}
    (hu : nodeAt (if pr then Spec.merge pred t0 else t0) addr = some u) :
    ∃ u0, nodeAt t0 addr = some u0 ∧ u = (if pr then Spec.merge pred u0 else u0) ∧ u.info = u0.info ∧
      ∀ {Row : Type} (rt : Router Sp Row) (x : Row),
        passes rt (if pr then Spec.merge pred t0 else t0) addr x = passes rt t0 addr x := by
  cases pr with
  | false => exact ⟨u, hu, rfl, rfl, fun _ _ => rfl⟩
  | true =>
    obtain ⟨u0, h0, rfl⟩ := nodeAt_merge pred t0 addr u hu
    exact ⟨u0, h0, rfl, merge_info pred u0, fun rt x => passes_merge pred rt t0 addr _ hu x⟩

/-- Every node of a fitted tree that is split or whose rows can be split (and the root) is what a fresh model with its prior and level
fits to the rows that reach it. -/
theorem fitFrom_subtree {argsort : List V → List Nat} {n lv : Nat} (hv : Valid ok c argsort n) (hn : 0 < n)
    {prior : Option P} {t : PNode V S K P} (h : fitFrom c argsort prior lv n = .ok t) (addr : List Bool)
    (u : PNode V S K P) (hu : nodeAt t addr = some u)
    (hd : addr = [] ∨ (∀ j, u ≠ .leaf j) ∨ c.Divisible (routed c t n addr)) :
    fitFrom (Ctx.take c (routed c t n addr)) argsort u.info.prior u.info.level (routed c t n addr).length = .ok u := by
  obtain ⟨t0, hb, rfl⟩ := built_of_fitFrom hv h
  obtain ⟨u0, hu0, rfl, hinfo, hpass⟩ := nodeAt_pruned hu
  obtain ⟨par', pa', hB, hnil, hsome⟩ := Built.at hv.ops hb (fun i hi => hv.vals i (List.mem_range.1 hi)) addr u0 hu0
  have hR : ((List.range n).filter fun i => passes (perpRouter c.o) t0 addr (c.X i)) =
      routed c (if c.hp.prune then Spec.merge c.T.predictLeaf t0 else t0) n addr :=
    List.filter_congr fun i _ => (hpass (perpRouter c.o) (c.X i)).symm
  rw [hR] at hB
  generalize routed c (if c.hp.prune then Spec.merge c.T.predictLeaf t0 else t0) n addr = R at hB hd hR ⊢
  have hd : addr = [] ∨ c.Divisible R := by
    rcases hd with h0 | hs | hd
    · exact .inl h0
    · by_cases h0 : addr = []
      · exact .inl h0
      · refine .inr ?_
        have hp := (hsome h0).1
        cases hB with
        | direct par pa => exact absurd (by split <;> rfl) (hs (c.directInfo par pa (lv + addr.length) R))
        | stay _ _ _ _ hdiv => exact hdiv hp
        | split _ _ _ _ _ _ _ _ _ hdiv => exact hdiv hp
    · exact .inr hd
  have hB' : Built c none pa' (lv + addr.length) R u0 := by
    rcases hd with h0 | hd
    · obtain ⟨e, -⟩ := hnil h0
      rw [e] at hB
      exact hB
    · exact hB.root hd
  have hlt : ∀ i ∈ R, i < n := fun i hi => by
    rw [← hR] at hi
    exact List.mem_range.1 (List.mem_filter.1 hi).1
  have hlen : R.length ≤ n := by
    rw [← hR]
    exact (List.length_filter_le _ _).trans (by simp)
  have hne : R ≠ [] := by
    rcases hd with h0 | hd
    · rw [← hR, h0]
      intro he
      have : 0 ∈ (List.range n).filter fun i => passes (perpRouter c.o) t0 [] (c.X i) :=
        List.mem_filter.2 ⟨List.mem_range.2 hn, by simp [passes]⟩
      rw [he] at this
      cases this
    · rintro rfl
      exact absurd hd.1 (by simp)
  have hnd : R.Nodup := by rw [← hR]; exact List.nodup_range.filter _
  have hB2 := hB'.take hv.ops hv.target hnd hne (fun i hi => hv.vals i (hlt i hi))
  have hmem : ∀ k < R.length, R.getD k 0 ∈ R := fun k hk => by
    rw [List.getD_eq_getElem?_getD, List.getElem?_eq_getElem hk]; simp
  have hv2 : Valid ok (Ctx.take c R) argsort R.length :=
    ⟨hv.ops, hv.target, hv.sort, hv.dims, hlen.trans hv.rows, fun i hi d hd => hv.vals _ (hlt _ (hmem i hi)) d hd⟩
  rw [hinfo, hB.info.1, hB.info.2, fitFrom_of_built hv2 hB2]
  rfl

end

/-! ## Hyperplane trees -/

section
variable {K P S O : Type} [Field K] [LinearOrder K] [IsStrictOrderedRing K] [LinearOrder S] [Neg S]
  {c : HCtx K P S O}

/-- The context with rows renumbered by `σ`. -/
def HCtx.pull (c : HCtx K P S O) (σ : Nat → Nat) : HCtx K P S O :=
  { c with X := fun i => c.X (σ i), y := fun i => c.y (σ i) }

variable (c) (σ : Nat → Nat)

theorem getD_map_lt {R : List Nat} {j : Nat} (h : j < R.length) : (R.map σ).getD j 0 = σ (R.getD j 0) := by
  rw [List.getD_eq_getElem?_getD, List.getD_eq_getElem?_getD, List.getElem?_map, List.getElem?_eq_getElem h]
  rfl

theorem hProj_pull (p : P) (lv : Nat) (R : List Nat) (w : List K) :
    hProj (hProblem (HCtx.pull c σ) p lv R) w = hProj (hProblem c p lv (R.map σ)) w := by
  simp only [hProj, hProblem, HCtx.pull, List.map_map]
  rfl

theorem noSplit_pull (p : P) (lv : Nat) (R : List Nat) :
    (hProblem (HCtx.pull c σ) p lv R).noSplit = (hProblem c p lv (R.map σ)).noSplit := by
  simp only [hProblem, HCtx.pull, List.map_map]
  rfl

theorem hCompute_pull (hlt : ∀ l, ∀ i ∈ c.A.argsort l, i < l.length) (p : P) (lv : Nat) (R : List Nat)
    (st : HState S K) (r : RawVec K) :
    hCompute c.A c.T (hProblem (HCtx.pull c σ) p lv R) st r = hCompute c.A c.T (hProblem c p lv (R.map σ)) st r := by
  have hN : hNormal c.A (hProblem (HCtx.pull c σ) p lv R) r = hNormal c.A (hProblem c p lv (R.map σ)) r := rfl
  unfold hCompute
  rw [hN]
  cases hNormal c.A (hProblem c p lv (R.map σ)) r with
  | error e => rfl
  | ok w =>
    have hI : hSplitIndices (hProblem (HCtx.pull c σ) p lv R) w = hSplitIndices (hProblem c p lv (R.map σ)) w := by
      unfold hSplitIndices
      rw [hProj_pull]
      rfl
    have hlen : ∀ j ∈ c.A.argsort (hProj (hProblem c p lv (R.map σ)) w), j < R.length := fun j hj => by
      have := hlt _ j hj
      simpa [hProj, hProblem] using this
    have hY : ((c.A.argsort (hProj (hProblem c p lv (R.map σ)) w)).map fun j =>
          (hProblem (HCtx.pull c σ) p lv R).y ((hProblem (HCtx.pull c σ) p lv R).rows.getD j 0)) =
        (c.A.argsort (hProj (hProblem c p lv (R.map σ)) w)).map fun j =>
          (hProblem c p lv (R.map σ)).y ((hProblem c p lv (R.map σ)).rows.getD j 0) := by
      refine List.map_congr_left fun j hj => ?_
      show c.y (σ (R.getD j 0)) = c.y ((R.map σ).getD j 0)
      rw [getD_map_lt σ (hlen j hj)]
    have hO : ∀ a b, a < R.length → b < R.length →
        hOrigin (hProblem (HCtx.pull c σ) p lv R) a b = hOrigin (hProblem c p lv (R.map σ)) a b := by
      intro a b ha hb
      show List.zipWith _ (rowVec c.nDim (c.X (σ (R.getD a 0)))) (rowVec c.nDim (c.X (σ (R.getD b 0)))) =
        List.zipWith _ (rowVec c.nDim (c.X ((R.map σ).getD a 0))) (rowVec c.nDim (c.X ((R.map σ).getD b 0)))
      rw [getD_map_lt σ ha, getD_map_lt σ hb]
    have hD : ∀ sp, hDist (hProblem (HCtx.pull c σ) p lv R) sp = hDist (hProblem c p lv (R.map σ)) sp := by
      intro sp
      unfold hDist
      rw [hProj_pull]
    simp only [hProj_pull, hI, hY, noSplit_pull, hD]
    split
    · rfl
    · simp only [show (hProblem (HCtx.pull c σ) p lv R).partitionPrior = (hProblem c p lv (R.map σ)).partitionPrior
          from rfl, show (hProblem (HCtx.pull c σ) p lv R).level = (hProblem c p lv (R.map σ)).level from rfl,
        show (hProblem (HCtx.pull c σ) p lv R).prior = (hProblem c p lv (R.map σ)).prior from rfl,
        show (hProblem (HCtx.pull c σ) p lv R).nDim = (hProblem c p lv (R.map σ)).nDim from rfl]
      split
      · split
        · split
          · next a b ha hb =>
            rw [hO a b (hlen _ (List.mem_of_getElem? ha)) (hlen _ (List.mem_of_getElem? hb))]
          · rfl
        · rfl
      · rfl

theorem hSolve_pull (hlt : ∀ l, ∀ i ∈ c.A.argsort l, i < l.length) (p : P) (lv : Nat) (R : List Nat)
    (strat : Strategy K S) (b : Nat) (hist : List (RawVec K × S)) (st : HState S K) :
    hSolve c.A c.T (hProblem (HCtx.pull c σ) p lv R) strat b hist st =
      hSolve c.A c.T (hProblem c p lv (R.map σ)) strat b hist st := by
  induction b generalizing hist st with
  | zero => rfl
  | succ b ih => simp only [hSolve, hCompute_pull c σ hlt, ih]

theorem sameData_pull (p : P) (lv : Nat) (R : List Nat) :
    SameData (hProblem (HCtx.pull c σ) p lv R) (hProblem c p lv (R.map σ)) where
  nDim := rfl
  len := by simp [hProblem]
  X k hk d _ := by
    show c.X (σ (R.getD k 0)) d = c.X ((R.map σ).getD k 0) d
    rw [getD_map_lt (R := R) σ hk]
  y := by
    show R.map (fun i => c.y (σ i)) = (R.map σ).map c.y
    rw [List.map_map]
    rfl
  prior := rfl
  partitionPrior := rfl
  level := rfl
  noSplit := noSplit_pull c σ p lv R
  hypercube := rfl
  prec := rfl

/-- Fitting renumbered rows. -/
theorem hFit_pull (hlt : ∀ l, ∀ i ∈ c.A.argsort l, i < l.length) (hr : Reads c.opt) (fuel : Nat) (pa : Option P)
    (lv : Nat) (R : List Nat) : hFit (HCtx.pull c σ) fuel pa lv R = hFit c fuel pa lv (R.map σ) := by
  induction fuel generalizing pa lv R with
  | zero => rfl
  | succ fuel ih =>
    have hf : ∀ g : (Nat → K) → Bool, (R.map σ).filter (fun i => g (c.X i)) =
        (R.filter fun i => g ((HCtx.pull c σ).X i)).map σ := fun g => by
      rw [List.filter_map]
      rfl
    have hy : ∀ R : List Nat, (R.map σ).map c.y = R.map (HCtx.pull c σ).y := fun R => by
      rw [List.map_map]
      rfl
    have hs : hSolve (HCtx.pull c σ).A (HCtx.pull c σ).T
          (hProblem (HCtx.pull c σ) (c.T.getPrior pa R.length c.nDim) lv R)
          ((HCtx.pull c σ).opt.solve (hProblem (HCtx.pull c σ) (c.T.getPrior pa R.length c.nDim) lv R))
          (HCtx.pull c σ).budget [] (hInit (hProblem (HCtx.pull c σ) (c.T.getPrior pa R.length c.nDim) lv R)) =
        hSolve c.A c.T (hProblem c (c.T.getPrior pa R.length c.nDim) lv (R.map σ))
          (c.opt.solve (hProblem c (c.T.getPrior pa R.length c.nDim) lv (R.map σ))) c.budget []
          (hInit (hProblem c (c.T.getPrior pa R.length c.nDim) lv (R.map σ))) := by
      have e1 := hSolve_pull c σ hlt (c.T.getPrior pa R.length c.nDim) lv R
        (c.opt.solve (hProblem c (c.T.getPrior pa R.length c.nDim) lv (R.map σ))) c.budget []
          (hInit (hProblem c (c.T.getPrior pa R.length c.nDim) lv (R.map σ)))
      rw [← e1]
      have e2 : hInit (hProblem (HCtx.pull c σ) (c.T.getPrior pa R.length c.nDim) lv R) =
          hInit (hProblem c (c.T.getPrior pa R.length c.nDim) lv (R.map σ)) := by
        unfold hInit
        rw [noSplit_pull]
      rw [e2, ← hr _ _ (sameData_pull c σ _ lv R)]
      rfl
    simp only [hFit, List.length_map, hf, hy, ← ih]
    have hs' := hs
    simp only [show (HCtx.pull c σ).T = c.T from rfl, show (HCtx.pull c σ).nDim = c.nDim from rfl] at hs' ⊢
    rw [hs']
    split
    · rfl
    · simp only [noSplit_pull]
      rfl

variable {c σ}

/-- More fuel than rows makes no difference. -/
theorem hFit_fuel {f g : Nat} {pa : Option P} {lv : Nat} {R : List Nat} (hf : R.length < f) (hg : R.length < g) :
    hFit c f pa lv R = hFit c g pa lv R := by
  induction f generalizing g pa lv R with
  | zero => exact absurd hf (by omega)
  | succ f ih =>
    cases g with
    | zero => exact absurd hg (by omega)
    | succ g =>
      rw [hFit, hFit]
      dsimp only
      split
      · rfl
      · next st hst =>
        split
        · rfl
        · next sp hb =>
          split
          · next hlen =>
            have hl := above_below_length (c := c) R sp
            rw [below_eq, above_eq] at hlen
            rw [below_eq, above_eq]
            rw [ih (g := g) (R := below c R sp) (by omega) (by omega),
              ih (g := g) (R := above c R sp) (by omega) (by omega)]
          · rfl

/-- Subtrees of a fit that are split or whose rows can be split are fits. -/
theorem hFit_sub {fuel : Nat} {pa : Option P} {lv : Nat} {R : List Nat} {t : HNode S K P} (hfuel : R.length < fuel)
    (h : hFit c fuel pa lv R = .ok t) (addr : List Bool) (u : HNode S K P) (hu : nodeAt t addr = some u)
    (hd : addr = [] ∨ (∀ j, u ≠ .leaf j) ∨
      HDivisible c (R.filter fun i => passes hyperRouter t addr (c.X i))) :
    ∃ fuel', (R.filter fun i => passes hyperRouter t addr (c.X i)).length < fuel' ∧
      hFit c fuel' u.info.prior u.info.level (R.filter fun i => passes hyperRouter t addr (c.X i)) = .ok u := by
  induction addr generalizing fuel pa lv R t with
  | nil =>
    rw [nodeAt, Option.some.injEq] at hu
    subst hu
    have hR : (R.filter fun i => passes hyperRouter t [] (c.X i)) = R := by simp [passes]
    rw [hR]
    refine ⟨fuel, hfuel, ?_⟩
    have hi : t.info.prior = pa ∧ t.info.level = lv := by
      obtain ⟨fuel, rfl⟩ : ∃ k, fuel = k + 1 := ⟨fuel - 1, by omega⟩
      obtain ⟨st, -, hc⟩ := hFit_step h
      rcases hc with ⟨rfl, -⟩ | ⟨sp, c1, c2, -, -, -, rfl, -⟩ <;> exact ⟨rfl, rfl⟩
    rw [hi.1, hi.2, h]
  | cons b addr ih =>
    obtain ⟨fuel, rfl⟩ : ∃ k, fuel = k + 1 := ⟨fuel - 1, by omega⟩
    obtain ⟨st, -, hc⟩ := hFit_step h
    rcases hc with ⟨rfl, -⟩ | ⟨sp, c1, c2, -, hne1, hne2, rfl, hch⟩
    · cases b <;> cases hu
    · have hl := above_below_length (c := c) R sp
      have h1 : 0 < (below c R sp).length := List.length_pos_iff.2 hne1
      have h2 : 0 < (above c R sp).length := List.length_pos_iff.2 hne2
      have key : ∀ (R' : List Nat) (d : HNode S K P), R'.length < fuel → nodeAt d addr = some u →
          (R.filter fun i => passes hyperRouter (.split (hFitInfo c pa lv R) sp
            (c.T.logNoSplit c.hp.partitionPrior lv (R.map c.y) (hPrior c pa R)) st.bestScore c1 c2) (b :: addr)
              (c.X i)) = R'.filter (fun i => passes hyperRouter d addr (c.X i)) →
          ((HDivisible c R' ∧ hFit c fuel (some (c.T.posterior (R'.map c.y) (hPrior c pa R) 0)) (lv + 1) R' = .ok d) ∨
              (¬ HDivisible c R' ∧ d = .leaf (hDirectInfo c (hPrior c pa R)
                (c.T.posterior (R'.map c.y) (hPrior c pa R) 0) (lv + 1) R'))) →
          ∃ fuel', (R'.filter fun i => passes hyperRouter d addr (c.X i)).length < fuel' ∧
            hFit c fuel' u.info.prior u.info.level (R'.filter fun i => passes hyperRouter d addr (c.X i)) = .ok u := by
        intro R' d hlen hn hE hor
        rw [hE] at hd
        have hdv := hd.resolve_left (by simp)
        rcases hor with ⟨hdR, hfit⟩ | ⟨hnd, rfl⟩
        · exact ih hlen hfit hn (Or.inr hdv)
        · cases addr with
          | nil =>
            rcases hdv with hs | hdv
            · exact absurd (Option.some.inj hn).symm (hs _)
            · refine absurd ?_ hnd
              simpa [passes] using hdv
          | cons b' addr => cases b' <;> cases hn
      cases b with
      | false =>
        have hE : (R.filter fun i => passes hyperRouter (.split (hFitInfo c pa lv R) sp
            (c.T.logNoSplit c.hp.partitionPrior lv (R.map c.y) (hPrior c pa R)) st.bestScore c1 c2) (false :: addr)
              (c.X i)) = (below c R sp).filter (fun i => passes hyperRouter c1 addr (c.X i)) := by
          rw [← below_eq, List.filter_filter]
          refine List.filter_congr fun i _ => ?_
          simp [passes, Bool.and_comm]
        obtain ⟨f, hf⟩ := key (below c R sp) c1 (by omega) hu hE (hch false)
        exact ⟨f, by rw [hE]; exact hf⟩
      | true =>
        have hE : (R.filter fun i => passes hyperRouter (.split (hFitInfo c pa lv R) sp
            (c.T.logNoSplit c.hp.partitionPrior lv (R.map c.y) (hPrior c pa R)) st.bestScore c1 c2) (true :: addr)
              (c.X i)) = (above c R sp).filter (fun i => passes hyperRouter c2 addr (c.X i)) := by
          rw [← above_eq, List.filter_filter]
          refine List.filter_congr fun i _ => ?_
          simp [passes, hyper_complementary, Bool.and_comm]
        obtain ⟨f, hf⟩ := key (above c R sp) c2 (by omega) hu hE (hch true)
        exact ⟨f, by rw [hE]; exact hf⟩

/-- The context restricted to the rows `R`, renumbered from 0. -/
def HCtx.take (c : HCtx K P S O) (R : List Nat) : HCtx K P S O :=
  { c with X := fun i => c.X (R.getD i 0), y := fun i => c.y (R.getD i 0) }

theorem map_getD_range (R : List Nat) : (List.range R.length).map (fun i => R.getD i 0) = R := by
  apply List.ext_getElem?
  intro k
  rw [List.getElem?_map]
  by_cases hk : k < R.length
  · rw [List.getElem?_range hk, List.getElem?_eq_getElem hk]
    simp [hk]
  · rw [List.getElem?_eq_none (by simpa using hk), List.getElem?_eq_none (by omega)]
    rfl

theorem hFitFrom_subtree (hlt : ∀ l, ∀ i ∈ c.A.argsort l, i < l.length) (hr : Reads c.opt) {prior : Option P}
    {lv n : Nat} {t : HNode S K P} (h : hFitFrom c prior lv n = .ok t) (addr : List Bool) (u : HNode S K P)
    (hu : nodeAt t addr = some u) (hd : addr = [] ∨ (∀ j, u ≠ .leaf j) ∨ HDivisible c (hRouted c t n addr)) :
    hFitFrom (HCtx.take c (hRouted c t n addr)) u.info.prior u.info.level (hRouted c t n addr).length = .ok u := by
  unfold hFitFrom at h
  cases h0 : hFit c (n + 1) prior lv (List.range n) with
  | error e => rw [h0] at h; cases h
  | ok t0 =>
    rw [h0] at h
    have ht : t = if c.hp.prune then Spec.merge c.T.predictLeaf t0 else t0 := by
      cases hpr : c.hp.prune with
      | false =>
        simp only [hpr] at h
        cases h
        rfl
      | true =>
        simp only [hpr] at h
        have h' : prune c.T.predictLeaf t0 = .ok t := h
        rw [prune_eq] at h'
        cases h'
        rfl
    subst ht
    obtain ⟨u0, hu0, rfl, hinfo, hpass⟩ := nodeAt_pruned hu
    have hR : ((List.range n).filter fun i => passes hyperRouter t0 addr (c.X i)) =
        hRouted c (if c.hp.prune then Spec.merge c.T.predictLeaf t0 else t0) n addr :=
      List.filter_congr fun i _ => (hpass hyperRouter (c.X i)).symm
    obtain ⟨f, hf, hfit⟩ := hFit_sub (by simp) h0 addr u0 hu0 (by
      rw [hR]
      refine hd.imp_right fun h => h.imp_left fun hs j hj => hs j ?_
      rw [hj]
      split <;> rfl)
    rw [hR] at hf hfit
    generalize hRouted c (if c.hp.prune then Spec.merge c.T.predictLeaf t0 else t0) n addr = R at hf hfit ⊢
    unfold hFitFrom
    have e : hFit (HCtx.take c R) (R.length + 1) u0.info.prior u0.info.level (List.range R.length) = .ok u0 := by
      rw [show HCtx.take c R = HCtx.pull c (fun i => R.getD i 0) from rfl, hFit_pull c _ hlt hr, map_getD_range,
        ← hfit]
      exact hFit_fuel (by omega) hf
    rw [hinfo, e]
    show (if c.hp.prune = true then prune c.T.predictLeaf u0 else pure u0) = _
    cases c.hp.prune with
    | false => rfl
    | true => exact prune_eq _ u0

end

end BT
