import Verif.Lemmas.HyperFit
import Verif.Lemmas.Target

/-! # Nodes of fitted hyperplane trees -/

set_option linter.unusedSectionVars false

namespace BT
open Spec

theorem cls_delta_zero {K : Type} [Field K] [LinearOrder K] (F : Fns K) (y p : List K) :
    (clsTarget F).posterior y p 0 = p := by
  show clsPosterior y p 0 = p
  unfold clsPosterior
  rw [if_pos rfl]

theorem reg_delta_zero {K : Type} [Field K] [LinearOrder K] (F : Fns K) (y : List K) (p : NG K) :
    (regTarget F).posterior y p 0 = p := by
  show regPosterior y p 0 = p
  unfold regPosterior
  rw [if_pos rfl]

theorem passes_snoc {Sp S K P Row : Type} (rt : Router Sp Row) (t : Node Sp S K P) (addr : List Bool)
    (b : Bool) (x : Row) {i : Info K P} {sp : Sp} {l s : S} {c1 c2 : Node Sp S K P}
    (hu : nodeAt t addr = some (.split i sp l s c1 c2)) :
    passes rt t (addr ++ [b]) x = (passes rt t addr x &&
      (if b then !rt.goes1 sp x && rt.goes2 sp x else rt.goes1 sp x)) := by
  induction addr generalizing t with
  | nil =>
    rw [nodeAt_nil] at hu
    cases Option.some.inj hu
    cases b <;> cases h1 : rt.goes1 sp x <;> cases h2 : rt.goes2 sp x <;>
      simp [passes, h1, h2]
  | cons a as ih =>
    cases t with
    | leaf j => cases hu
    | split j sp' l' s' d1 d2 =>
      simp only [List.cons_append, passes]
      cases a with
      | false =>
        have hu' : nodeAt d1 as = some (.split i sp l s c1 c2) := hu
        rw [ih d1 hu']
        cases rt.goes1 sp' x <;> cases rt.goes2 sp' x <;> simp
      | true =>
        have hu' : nodeAt d2 as = some (.split i sp l s c1 c2) := hu
        rw [ih d2 hu']
        cases rt.goes1 sp' x <;> cases rt.goes2 sp' x <;> simp

variable {K P S O : Type} [Field K] [LinearOrder K] [IsStrictOrderedRing K] [LinearOrder S] [Neg S]
  {c : HCtx K P S O} {pair : PairScore K P S}

/-- Rows routed to the children of a split node. -/
theorem hRouted_snoc {t : HNode S K P} {n : Nat} {addr : List Bool} {i : Info K P} {sp : HSplit K} {l s : S}
    {c1 c2 : HNode S K P} (hu : nodeAt t addr = some (.split i sp l s c1 c2)) :
    hRouted c t n (addr ++ [false]) = below c (hRouted c t n addr) sp ∧
    hRouted c t n (addr ++ [true]) = above c (hRouted c t n addr) sp := by
  rw [← below_eq, ← above_eq]
  unfold hRouted
  rw [List.filter_filter, List.filter_filter]
  constructor
  · apply List.filter_congr
    intro j _
    rw [passes_snoc hyperRouter t addr false _ hu, Bool.and_comm]
    rfl
  · apply List.filter_congr
    intro j _
    rw [passes_snoc hyperRouter t addr true _ hu, Bool.and_comm, hyper_complementary]
    simp

/-- Nodes of a fitted tree, with the prior that reaches them. -/
theorem hFit_node_prior {n : Nat} {prior : Option P} {t : HNode S K P} (hT : LawfulTarget c.T pair)
    (hs : IsArgsort (exactOps K).le (fun _ => True) c.A.argsort)
    (hd0 : ∀ y p, c.T.posterior y p 0 = p) (h : hFitRoot c prior n = .ok t)
    {addr : List Bool} {u : HNode S K P} (hu : nodeAt t addr = some u) :
    ∃ par pa u0, HBuilt c pair par pa addr.length (hRouted c t n addr) u0 ∧
      (∀ p, par = some p → p = c.T.getPrior prior n c.nDim) ∧
      hPrior c pa (hRouted c t n addr) = c.T.getPrior prior n c.nDim ∧ u.info = u0.info ∧
      ∀ i sp l b c1 c2, u = .split i sp l b c1 c2 → ∃ d1 d2, u0 = .split i sp l b d1 d2 := by
  obtain ⟨par, pa, u0, hB, ⟨hq1, hq2⟩, hi, hsp⟩ := hFit_node hT hs h
    (fun par pa R => (∀ p, par = some p → p = c.T.getPrior prior n c.nDim) ∧
      hPrior c pa R = c.T.getPrior prior n c.nDim)
    ⟨by simp, by unfold hPrior; rw [List.length_range]⟩
    (by
      intro par pa R R' hQ _
      refine ⟨?_, ?_⟩
      · intro p hp
        cases hp
        exact hQ.2
      · rw [hd0, hQ.2]
        unfold hPrior
        rw [hT.getPrior_some]) hu
  exact ⟨par, pa, u0, hB, hq1, hq2, hi, hsp⟩

/-- Prior attributes below the root. -/
theorem hBuilt_child_prior (hT : LawfulTarget c.T pair) (hd0 : ∀ y p, c.T.posterior y p 0 = p)
    {par pa : Option P} {lv : Nat} {R : List Nat} {t : HNode S K P} (h : HBuilt c pair par pa lv R t)
    {addr : List Bool} (hne : addr ≠ []) {u : HNode S K P} (hu : nodeAt t addr = some u) :
    u.info.prior = some (hPrior c pa R) := by
  cases addr with
  | nil => exact absurd rfl hne
  | cons b bs =>
    have key : ∀ (R' : List Nat) (d : HNode S K P),
        HBuilt c pair (some (hPrior c pa R)) (some (c.T.posterior (R'.map c.y) (hPrior c pa R) 0)) (lv + 1) R' d →
        nodeAt d bs = some u → u.info.prior = some (hPrior c pa R) := by
      intro R' d hd hud
      obtain ⟨par', pa', hB, hq⟩ := hBuilt_at hd (fun _ pa' _ => pa' = some (hPrior c pa R))
        (by rw [hd0]) (by
          intro par2 pa2 R2 R3 hq _
          rw [hd0, hq]
          unfold hPrior
          rw [hT.getPrior_some]) bs u hud
      rw [← hq]
      cases hB <;> rfl
    cases h with
    | direct => cases hu
    | stay => cases hu
    | split _ _ _ _ st sp c1 c2 hdiv hst hbest hne1 hne2 h1 h2 =>
      cases b with
      | false => exact key _ _ h1 hu
      | true => exact key _ _ h2 hu

/-- What is known of a split node of a fitted tree. -/
theorem hFit_split {n : Nat} {prior : Option P} {t : HNode S K P} (hT : LawfulTarget c.T pair)
    (hs : IsArgsort (exactOps K).le (fun _ => True) c.A.argsort)
    (hd0 : ∀ y p, c.T.posterior y p 0 = p) (h : hFitRoot c prior n = .ok t)
    {addr : List Bool} {i : Info K P} {sp : HSplit K} {l b : S} {c1 c2 : HNode S K P}
    (hu : nodeAt t addr = some (.split i sp l b c1 c2)) :
    ∃ st vs, st.best = some sp ∧ st.bestScore = b ∧
      l = c.T.logNoSplit c.hp.partitionPrior addr.length ((hRouted c t n addr).map c.y)
        (c.T.getPrior prior n c.nDim) ∧
      Follows (c.opt.solve (hProblem c (c.T.getPrior prior n c.nDim) addr.length (hRouted c t n addr))) vs ∧
      Searched c.A pair (hProblem c (c.T.getPrior prior n c.nDim) addr.length (hRouted c t n addr))
        (vs.map Prod.fst) st ∧
      below c (hRouted c t n addr) sp ≠ [] ∧ above c (hRouted c t n addr) sp ≠ [] := by
  obtain ⟨par, pa, u0, hB, -, hp, -, hsp⟩ := hFit_node_prior hT hs hd0 h hu
  obtain ⟨d1, d2, rfl⟩ := hsp _ _ _ _ _ _ rfl
  cases hB with
  | split _ _ _ _ st _ _ _ hdiv hst hbest hne1 hne2 h1 h2 =>
    obtain ⟨vs, hf, hse⟩ := hst
    rw [hp] at hf hse
    exact ⟨st, vs, hbest, rfl, by rw [hp], hf, hse, hne1, hne2⟩

end BT
