import Verif.Props.Greedy

/-!
# C20: Normal-gamma parameters stay in their domain
-/

namespace BT
open Spec

section
variable {K : Type} [Field K] [LinearOrder K] [IsStrictOrderedRing K]

/-- Proper Normal-gamma parameters. -/
def NGProper (p : NG K) : Prop := 0 < p.kappa ∧ 0 < p.alpha ∧ 0 < p.beta

theorem ngPosterior_proper (p : NG K) (ys : List K) (δ : K) (hδ : 0 ≤ δ) (hp : NGProper p) (hne : ys ≠ []) :
    NGProper (BT.ngPosterior p ys.length ys.sum (ys.map fun v => v ^ 2).sum δ) := by
  obtain ⟨hk, ha, hb⟩ := hp
  have hn : (0 : K) < (ys.length : K) := by exact_mod_cast List.length_pos_iff.2 hne
  have hs : 0 ≤ (ys.map fun v => v ^ 2).sum - ys.sum ^ 2 / (ys.length : K) := by
    rw [← sqDev_eq ys hne]
    unfold sqDev
    apply List.sum_nonneg
    intro v hv
    obtain ⟨w, -, rfl⟩ := List.mem_map.1 hv
    exact sq_nonneg _
  have hnd : 0 ≤ (ys.length : K) * δ := mul_nonneg hn.le hδ
  refine ⟨?_, ?_, ?_⟩
  · show 0 < p.kappa + (ys.length : K) * δ
    linarith
  · show 0 < p.alpha + 1 / 2 * ((ys.length : K) * δ)
    linarith
  · show 0 < p.beta + 1 / 2 * δ * ((ys.map fun v => v ^ 2).sum - ys.sum ^ 2 / (ys.length : K))
      + 1 / 2 * p.kappa * ((ys.length : K) * δ) * (ys.sum / (ys.length : K) - p.mu) ^ 2
        / (p.kappa + (ys.length : K))
    have h1 : 0 ≤ 1 / 2 * δ * ((ys.map fun v => v ^ 2).sum - ys.sum ^ 2 / (ys.length : K)) :=
      mul_nonneg (mul_nonneg (by norm_num) hδ) hs
    have h2 : 0 ≤ 1 / 2 * p.kappa * ((ys.length : K) * δ) * (ys.sum / (ys.length : K) - p.mu) ^ 2
        / (p.kappa + (ys.length : K)) := by
      apply div_nonneg
      · apply mul_nonneg
        · apply mul_nonneg
          · linarith
          · exact hnd
        · exact sq_nonneg _
      · linarith
    linarith

theorem regGetPrior_proper (n d : Nat) : NGProper (regGetPrior (none : Option (NG K)) n d) := by
  have h : (0 : K) < ((max 1 (n / 100) : Nat) : K) := by
    exact_mod_cast lt_of_lt_of_le Nat.zero_lt_one (le_max_left _ _)
  refine ⟨h, ?_, ?_⟩
  · show 0 < ((max 1 (n / 100) : Nat) : K) / 2
    linarith
  · show 0 < ((max 1 (n / 100) : Nat) : K) / 2 / 1
    rw [div_one]; linarith

variable {V : Type} {ok : V → Prop} {F : Fns K} {c : Ctx V K (NG K) K K} {argsort : List V → List Nat}
  {n : Nat} {prior : Option (NG K)} {t : PNode V K K (NG K)}

/-- C20: with a proper (or default) root prior and `delta ≥ 0` every node has a proper effective prior
and a proper posterior. -/
theorem C20_proper (hT : c.T = regTarget F) (hv : Valid ok c argsort n) (hn : 0 < n)
    (h : fitIn c argsort prior n = .ok t) (hδ : 0 ≤ c.hp.delta)
    (hprior : ∀ p, prior = some p → NGProper p) (addr : List Bool) (u : PNode V K K (NG K))
    (hu : nodeAt t addr = some u) :
    NGProper (regGetPrior u.info.prior u.info.nData c.nDim) ∧ NGProper u.info.posterior := by
  have hQ : NGProper (c.T.getPrior prior n c.nDim) := by
    rw [hT]
    cases hp : prior with
    | none => exact regGetPrior_proper n c.nDim
    | some p => exact hprior p hp
  have hne : ∀ R' : List Nat, R' ≠ [] → c.ys R' ≠ [] := fun R' h h0 => h (List.map_eq_nil_iff.1 h0)
  have step : ∀ δ : K, 0 ≤ δ → ∀ R' : List Nat, R' ≠ [] → ∀ p, NGProper p →
      NGProper (c.T.posterior (c.ys R') p δ) := by
    intro δ hδ R' hR' p hp
    rw [hT]
    show NGProper (regPosterior (c.ys R') p δ)
    unfold regPosterior
    split
    · exact hp
    · exact ngPosterior_proper p _ δ hδ hp (hne R' hR')
  obtain ⟨h1, h2, -⟩ := fit_inv hv hn h NGProper hQ (fun R' hR' _ p hp => step 1 zero_le_one R' hR' p hp)
    (fun _ R' hR' _ p hp => step _ hδ R' hR' p hp) addr u hu
  refine ⟨?_, h1⟩
  cases hp : u.info.prior with
  | none => exact regGetPrior_proper _ _
  | some p =>
    show NGProper p
    by_cases hc : (∃ p, prior = some p) ∨ addr ≠ []
    · obtain ⟨q, hq, hq'⟩ := h2 hc
      rw [hp] at hq; cases hq; exact hq'
    · exfalso
      obtain ⟨hc1, hc2⟩ := not_or.1 hc
      have hc2 := not_not.1 hc2
      obtain ⟨par', pa', u0, hB, e, -, -, hr, -⟩ := fit_node hv h hu
      obtain ⟨-, rfl⟩ := hr hc2
      have : u0.info.prior = pa' := by cases hB <;> rfl
      rw [e, this] at hp
      exact hc1 ⟨p, hp⟩

/-- C20: hence every log-likelihood term of a fitted node - of not splitting and of both sides of every
candidate split - evaluates logarithms and log-gammas at positive arguments only: `q` is the posterior
of any non-empty list of targets, as computed from its length, sum and sum of squares. -/
theorem C20_domains (hT : c.T = regTarget F) (hv : Valid ok c argsort n) (hn : 0 < n)
    (h : fitIn c argsort prior n = .ok t) (hδ : 0 ≤ c.hp.delta)
    (hpp : 0 < c.hp.partitionPrior ∧ c.hp.partitionPrior < 1)
    (hprior : ∀ p, prior = some p → NGProper p) (addr : List Bool) (u : PNode V K K (NG K))
    (hu : nodeAt t addr = some u) (ys : List K) (hys : ys ≠ []) :
    let p := regGetPrior u.info.prior u.info.nData c.nDim
    let q := BT.ngPosterior p ys.length ys.sum (ys.map fun v => v ^ 2).sum 1
    0 < p.alpha ∧ 0 < q.alpha ∧ 0 < p.beta ∧ 0 < q.beta ∧ 0 < p.kappa / q.kappa ∧
    0 < 1 - c.hp.partitionPrior ^ (1 + u.info.level) ∧
    ∀ nSplits : Nat, 0 < nSplits →
      0 < c.hp.partitionPrior ^ (1 + u.info.level) / ((nSplits : K) * (c.nDim : K)) := by
  intro p q
  obtain ⟨hk, ha, hb⟩ := (C20_proper hT hv hn h hδ hprior addr u hu).1
  obtain ⟨qk, qa, qb⟩ := ngPosterior_proper p ys 1 zero_le_one ⟨hk, ha, hb⟩ hys
  have hd : (0 : K) < (c.nDim : K) := by exact_mod_cast hv.dims
  refine ⟨ha, qa, hb, qb, div_pos hk qk, ?_, fun ns hns => ?_⟩
  · exact sub_pos.2 (pow_lt_one₀ hpp.1.le hpp.2 (by omega))
  · have : (0 : K) < (ns : K) := by exact_mod_cast hns
    exact div_pos (pow_pos hpp.1 _) (mul_pos this hd)

end

/-- C20 applied to a fit with a split and `delta = 1`. -/
example : ∃ (c : Ctx ℝ ℝ (NG ℝ) ℝ ℝ) (t : PNode ℝ ℝ ℝ (NG ℝ)), c.hp.delta = 1 ∧ t.isLeaf = false ∧
    fitIn c realSort (some ⟨0, 1, 1, 1⟩) 2 = .ok t ∧
    ∀ addr u, nodeAt t addr = some u → NGProper u.info.posterior := by
  refine ⟨regCtx2 ⟨0, 1, 1, 1⟩ 3 5 1 false, _, rfl, rfl, regTree2_fit _ 3 5 1, fun addr u hu => ?_⟩
  refine (C20_proper rfl (regCtx2_valid _ 3 5 1 false) (by decide) (regTree2_fit _ 3 5 1) zero_le_one ?_
    addr u hu).2
  rintro p h
  cases h
  exact ⟨one_pos, one_pos, one_pos⟩

/-- C20_domains applies there too. -/
example : 0 < regPP ⟨0, 1, 1, 1⟩ 3 5 ∧ regPP ⟨0, 1, 1, 1⟩ 3 5 < 1 := ⟨regPP_pos _ _ _, regPP_lt_one _ _ _⟩

end BT
