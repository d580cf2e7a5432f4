import Verif.Lemmas.ProbSim

/-!
# From rational computations to fits with real log-gamma scores

Concrete training sets are evaluated with exact rational probabilities (kernel computation) and the
result is transferred to the classification tree over the reals.
-/

namespace BT
open Spec

theorem argmaxAux_map {S S' : Type} [LinearOrder S] [LinearOrder S'] {f : S → S'} (hf : StrictMono f)
    (x : S) (l : List S) : argmaxAux (f x) (l.map f) = ((argmaxAux x l).1, f (argmaxAux x l).2) := by
  induction l generalizing x with
  | nil => rfl
  | cons y l ih =>
    simp only [List.map_cons, argmaxAux, ih]
    by_cases h : x < (argmaxAux y l).2
    · rw [if_pos h, if_pos (hf h)]
    · rw [if_neg h, if_neg (fun h' => h (hf.lt_iff_lt.1 h'))]

theorem argmax_map {S S' : Type} [LinearOrder S] [LinearOrder S'] {f : S → S'} (hf : StrictMono f)
    (l : List S) : argmax (l.map f) = argmax l := by
  cases l with
  | nil => rfl
  | cons x l => simp [argmax, argmaxAux_map hf]

theorem castHom_strictMono : StrictMono (Rat.castHom ℝ) := by
  intro a b h
  simpa using h

/-- A list of rationals as reals. -/
noncomputable def castL (l : List ℚ) : List ℝ := l.map fun (a : ℚ) => (a : ℝ)

/-- Hyper-parameters as reals. -/
noncomputable def castHp (hp : Hyper ℚ) : Hyper ℝ :=
  ⟨(hp.partitionPrior : ℝ), (hp.delta : ℝ), hp.prune, (hp.splitPrecision : ℝ)⟩

/-- The real classification problem belonging to a rational one. -/
noncomputable def castCtx (c : Ctx ℚ ℚ (List ℚ) ℚ (List ℚ)) : Ctx ℝ ℝ (List ℝ) ℝ (List ℝ) where
  o := exactOps ℝ
  T := clsTarget realFns
  pair := clsPair realFns
  hp := castHp c.hp
  X := fun i d => (c.X i d : ℝ)
  y := fun i => (c.y i : ℝ)
  nDim := c.nDim
  names := c.names

/-- A rational tree with probability scores as a real tree with log-probability scores. -/
noncomputable def castTree (hp : Hyper ℚ) : PNode ℚ ℚ ℚ (List ℚ) → PNode ℝ ℝ ℝ (List ℝ) :=
  mapTree (castHp hp) (fun _ (v : ℚ) => (v : ℝ)) castL (fun (s : ℚ) => Real.log (s : ℝ))

theorem castCtx_valid {c : Ctx ℚ ℚ (List ℚ) ℚ (List ℚ)} {n : Nat} (hd : 0 < c.nDim) (hn : n ≤ 2 ^ 64)
    (hprec : 0 ≤ c.hp.splitPrecision) {argsort : List ℝ → List Nat}
    (hs : IsArgsort (exactOps ℝ).le (fun _ => True) argsort) :
    Valid (fun _ => True) (castCtx c) argsort n where
  ops := exact_lawful (by show (0 : ℝ) ≤ (c.hp.splitPrecision : ℝ); exact_mod_cast hprec)
  target := cls_lawful realFns
  sort := hs
  dims := hd
  rows := hn
  vals _ _ _ _ := trivial

/-- The transfer theorem. -/
theorem cast_fit {c : Ctx ℚ ℚ (List ℚ) ℚ (List ℚ)} {n : Nat} {prior : List ℚ} {t : PNode ℚ ℚ ℚ (List ℚ)}
    (h : fitIn c (insArgsort (exactOps ℚ).le) (some prior) n = .ok t)
    (ho : c.o = exactOps ℚ) (hT : c.T = probTarget ℚ) (hpair : c.pair = probPair)
    (hd : 0 < c.nDim) (hn0 : 0 < n) (hn : n ≤ 2 ^ 64) (hprec : 0 ≤ c.hp.splitPrecision)
    (pp0 : 0 < c.hp.partitionPrior) (pp1 : c.hp.partitionPrior < 1) (δ0 : 0 ≤ c.hp.delta)
    (hprior : GoodPrior prior)
    {argsort : List ℝ → List Nat} (hs : IsArgsort (exactOps ℝ).le (fun _ => True) argsort) :
    fitIn (castCtx c) argsort (some (castL prior)) n = .ok (castTree c.hp t) := by
  have hv : Valid (fun _ => True) c (insArgsort (exactOps ℚ).le) n :=
    { ops := by rw [ho]; exact exact_lawful hprec
      target := by rw [hT, hpair]; exact prob_lawful ℚ
      sort := by rw [ho]; exact insArgsort_spec (exact_lawful (le_refl (0 : ℚ)))
      dims := hd
      rows := hn
      vals := fun _ _ _ _ => trivial }
  have hv' := castCtx_valid (c := c) hd hn hprec hs
  have hsim := prob_sim (ok := fun _ => True) (n := n) (Rat.castHom ℝ) castHom_strictMono
    (fun _ (v : ℚ) => (v : ℝ)) c (castCtx c) hT hpair rfl rfl rfl rfl hd (fun _ _ _ _ => rfl) (fun _ _ => rfl)
    (by intro d a b _ _; rw [ho]; simp [castCtx, exactOps])
    (by
      intro d a b _ _; rw [ho]; simp only [castCtx, exactOps, castHp, decide_eq_decide]
      norm_cast)
    (by intro d a b _ _; rw [ho]; simp [castCtx, exactOps])
    (by intro d a b _; rw [ho]; simp [castCtx, exactOps])
    (by intro d a b _; rw [ho]; simp [castCtx, exactOps])
    rfl rfl pp0 pp1 δ0
  have hgp : ∀ m d, c.T.getPrior (some prior) m d = prior := fun m d => by rw [hT]; rfl
  refine fit_sim hsim hv hv' hn0 (prior := some prior) ?_ (by rw [hgp]; exact hprior) rfl ?_ h
  · rw [hgp]; rfl
  · intro _ p q
    rw [hT]
    show ((argmax (p.map (Rat.castHom ℝ)) : Nat) : ℝ) = ((argmax (q.map (Rat.castHom ℝ)) : Nat) : ℝ) ↔
      ((argmax p : Nat) : ℚ) = ((argmax q : Nat) : ℚ)
    rw [argmax_map castHom_strictMono, argmax_map castHom_strictMono, Nat.cast_inj, Nat.cast_inj]

/-- A sorting routine over the reals. -/
noncomputable abbrev realSort : List ℝ → List Nat := insArgsort (exactOps ℝ).le

theorem realSort_spec : IsArgsort (exactOps ℝ).le (fun _ => True) realSort :=
  insArgsort_spec (exact_lawful (le_refl (0 : ℝ)))

/-- The sample with real log-gamma scores. -/
theorem sampleReal_valid : Valid (fun _ => True) (castCtx sampleCtx) realSort 12 :=
  castCtx_valid (by decide) (by decide) (le_refl _) realSort_spec

theorem sampleReal_fit :
    fitIn (castCtx sampleCtx) realSort (some (castL [1, 1])) 12 = .ok (castTree sampleHp sampleTree) :=
  cast_fit sampleFit_eq rfl rfl rfl (by decide) (by decide) (by decide) (le_refl _) (by decide +kernel)
    (by decide +kernel) (le_refl _) ⟨by simp, by decide +kernel⟩ realSort_spec

end BT
