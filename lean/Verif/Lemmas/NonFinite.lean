import Verif.Spec.NonFinite
import Verif.Lemmas.Prune
import Verif.Lemmas.Walk
import Verif.Lemmas.Ops
import Verif.Lemmas.RealSample
import Verif.Lemmas.HyperCast

/-!
# Fits to NaN and infinite values
-/

set_option linter.unusedSectionVars false

namespace BT
open Spec

section
variable {V K P S O : Type}

theorem splitIndices_ops {o o' : XOps V K} (hg : o'.gap = o.gap) (prec : K) (xs : List V) :
    splitIndices o' prec xs = splitIndices o prec xs := by
  unfold splitIndices
  rw [hg]

theorem searchDim_ops [LT S] [DecidableLT S] {o o' : XOps V K} (hg : o'.gap = o.gap) (T : Target K P S O)
    (hp : Hyper K) (level : Nat) (X : Nat → Nat → V) (y : Nat → K) (nDim : Nat) (prior : P) (sid : List (List Nat)) :
    searchDim o' T hp level X y nDim prior sid = searchDim o T hp level X y nDim prior sid := by
  funext b dim
  unfold searchDim
  simp only [splitIndices_ops hg]

/-- `_fit` looks at feature values only through `split_indices` and the split value. -/
theorem perpFit_ops [LT S] [DecidableLT S] [DecidableEq K] [Zero K] [One K] {o o' : XOps V K}
    (hg : o'.gap = o.gap) (hm : o'.mid = o.mid) (T : Target K P S O) (hp : Hyper K) (X : Nat → Nat → V) (y : Nat → K)
    (nDim : Nat) (names : List String) (fuel : Nat) (pa : Option P) (level : Nat) (sid : List (List Nat)) :
    perpFit o' T hp X y nDim names fuel pa level sid = perpFit o T hp X y nDim names fuel pa level sid := by
  induction fuel generalizing pa level sid with
  | zero => rw [perpFit, perpFit]
  | succ fuel ih =>
    cases sid with
    | nil => rw [perpFit, perpFit]
    | cons row0 rest =>
      rw [perpFit, perpFit]
      simp only [searchDim_ops hg, hm, ih]

theorem perpFitRoot_ops [LT S] [DecidableLT S] [DecidableEq K] [Zero K] [One K] {o o' : XOps V K}
    (hg : o'.gap = o.gap) (hm : o'.mid = o.mid) (T : Target K P S O) (argsort : List V → List Nat) (hp : Hyper K)
    (prior : Option P) (X : Nat → Nat → V) (y : Nat → K) (n nDim : Nat) (names : List String) :
    perpFitRoot o' T argsort hp prior X y n nDim names = perpFitRoot o T argsort hp prior X y n nDim names := by
  unfold perpFitRoot
  rw [perpFit_ops hg hm]

end

section
variable {K : Type} [Field K] [LinearOrder K]

/-- The comparisons which route every training row to the nodes it was used in. -/
def sideOps (K : Type) [Field K] [LinearOrder K] : XOps (XF K) K :=
  { xfOps K with lt := fun x v => trainedLeft v x, ge := fun x v => !trainedLeft v x }

variable [IsStrictOrderedRing K]

theorem xf_le_trans (a b c : XF K) (h1 : XF.sortLe a b = true) (h2 : XF.sortLe b c = true) : XF.sortLe a c = true := by
  cases a <;> cases b <;> cases c <;> simp_all [XF.sortLe]
  exact h1.trans h2

theorem xf_le_total (a b : XF K) : XF.sortLe a b = true ∨ XF.sortLe b a = true := by
  cases a <;> cases b <;> simp [XF.sortLe]
  exact le_total _ _

theorem xf_le_antisymm (a b : XF K) (h1 : XF.sortLe a b = true) (h2 : XF.sortLe b a = true) : a = b := by
  cases a <;> cases b <;> simp_all [XF.sortLe]
  exact le_antisymm h1 h2

/-- Between which neighbours there is a cut, and its threshold. -/
theorem xf_gap {prec : K} (hp : 0 ≤ prec) {a b : XF K} (hle : XF.sortLe a b = true) (hg : (xfOps K).gap prec a b = true) :
    (∃ x y, a = .fin x ∧ b = .fin y ∧ x < y ∧ (xfOps K).mid a b = .fin (1 / 2 * (x + y))) ∨
    (∃ x, a = .fin x ∧ b = .pinf ∧ (xfOps K).mid a b = .pinf) ∨
    (∃ y, a = .ninf ∧ b = .fin y ∧ (xfOps K).mid a b = .ninf) ∨
    (a = .ninf ∧ b = .pinf ∧ (xfOps K).mid a b = .nan) := by
  cases a <;> cases b <;> simp_all [xfOps, XF.add, XF.neg, XF.absGt, XF.sortLe, XF.half]
  rename_i x y
  exact exact_gap_lt hp hle (by rw [sub_eq_add_neg]; exact hg)

/-- All values are lawful for these comparisons. -/
theorem side_lawful {prec : K} (hp : 0 ≤ prec) : LawfulOps (sideOps K) (fun _ => True) prec where
  le_trans a b c _ _ _ h1 h2 := xf_le_trans a b c h1 h2
  le_total a b _ _ := xf_le_total a b
  le_antisymm a b _ _ h1 h2 := xf_le_antisymm a b h1 h2
  below a b x _ _ _ hle hg hx := by
    have hx' : XF.sortLe x a = true := hx
    show trainedLeft ((xfOps K).mid a b) x = true ∧ (!trainedLeft ((xfOps K).mid a b) x) = false
    have : trainedLeft ((xfOps K).mid a b) x = true := by
      rcases xf_gap hp hle hg with ⟨u, v, rfl, rfl, h, e⟩ | ⟨u, rfl, rfl, e⟩ | ⟨v, rfl, rfl, e⟩ | ⟨rfl, rfl, e⟩ <;>
        rw [e] <;> cases x <;> simp_all [trainedLeft, XF.lt, XF.sortLe]
      linarith
    rw [this]
    exact ⟨rfl, rfl⟩
  above a b x _ _ _ hle hg hx := by
    have hx' : XF.sortLe b x = true := hx
    show trainedLeft ((xfOps K).mid a b) x = false ∧ (!trainedLeft ((xfOps K).mid a b) x) = true
    have : trainedLeft ((xfOps K).mid a b) x = false := by
      rcases xf_gap hp hle hg with ⟨u, v, rfl, rfl, h, e⟩ | ⟨u, rfl, rfl, e⟩ | ⟨v, rfl, rfl, e⟩ | ⟨rfl, rfl, e⟩ <;>
        rw [e] <;> cases x <;> simp_all [trainedLeft, XF.lt, XF.sortLe]
      linarith
    rw [this]
    exact ⟨rfl, rfl⟩

/-- For a threshold that is a finite number or `+inf`, prediction agrees with the training rows except on NaN. -/
theorem router_agrees {v : XF K} (h1 : v ≠ .ninf) (h2 : v ≠ .nan) (x : XF K) :
    (x ≠ .nan → XF.lt x v = trainedLeft v x ∧ XF.ge x v = !trainedLeft v x) ∧
    (x = .nan → XF.lt x v = false ∧ XF.ge x v = false) := by
  refine ⟨fun hx => ?_, fun hx => by subst hx; exact ⟨rfl, rfl⟩⟩
  unfold trainedLeft
  rw [if_neg (by simp [h1, h2])]
  refine ⟨rfl, ?_⟩
  cases x <;> cases v <;> simp_all [XF.lt, XF.ge]
  rw [← decide_not, decide_eq_decide, not_lt]

/-- The real classification problem belonging to a rational one with any feature values. -/
noncomputable def castXCtx (c : Ctx (XF ℚ) ℚ (List ℚ) ℚ (List ℚ)) : Ctx (XF ℝ) ℝ (List ℝ) ℝ (List ℝ) where
  o := sideOps ℝ
  T := clsTarget realFns
  pair := clsPair realFns
  hp := castHp c.hp
  X := fun i d => castXF (c.X i d)
  y := fun i => (c.y i : ℝ)
  nDim := c.nDim
  names := c.names

/-- A rational tree with probability scores as a real tree with log-probability scores. -/
noncomputable def castXTree (hp : Hyper ℚ) : PNode (XF ℚ) ℚ ℚ (List ℚ) → PNode (XF ℝ) ℝ ℝ (List ℝ) :=
  mapTree (castHp hp) (fun _ v => castXF v) castL (fun (s : ℚ) => Real.log (s : ℝ))

theorem castXF_left (v x : XF ℚ) : trainedLeft (castXF v) (castXF x) = trainedLeft v x := by
  cases v <;> cases x <;> simp [trainedLeft, castXF, XF.lt]

/-- The transfer theorem for any feature values. -/
theorem castX_fit {c : Ctx (XF ℚ) ℚ (List ℚ) ℚ (List ℚ)} {n : Nat} {prior : List ℚ} {t : PNode (XF ℚ) ℚ ℚ (List ℚ)}
    (h : fitIn c (insArgsort (sideOps ℚ).le) (some prior) n = .ok t)
    (ho : c.o = sideOps ℚ) (hT : c.T = probTarget ℚ) (hpair : c.pair = probPair)
    (hd : 0 < c.nDim) (hn0 : 0 < n) (hn : n ≤ 2 ^ 64) (hprec : 0 ≤ c.hp.splitPrecision)
    (pp0 : 0 < c.hp.partitionPrior) (pp1 : c.hp.partitionPrior < 1) (δ0 : 0 ≤ c.hp.delta)
    (hprior : GoodPrior prior)
    {argsort : List (XF ℝ) → List Nat} (hs : IsArgsort (sideOps ℝ).le (fun _ => True) argsort) :
    fitIn (castXCtx c) argsort (some (castL prior)) n = .ok (castXTree c.hp t) := by
  have hv : Valid (fun _ => True) c (insArgsort (sideOps ℚ).le) n :=
    { ops := by rw [ho]; exact side_lawful hprec
      target := by rw [hT, hpair]; exact prob_lawful ℚ
      sort := by rw [ho]; exact insArgsort_spec (side_lawful (le_refl (0 : ℚ)))
      dims := hd
      rows := hn
      vals := fun _ _ _ _ => trivial }
  have hv' : Valid (fun _ => True) (castXCtx c) argsort n :=
    { ops := side_lawful (by show (0 : ℝ) ≤ (c.hp.splitPrecision : ℝ); exact_mod_cast hprec)
      target := cls_lawful realFns
      sort := hs
      dims := hd
      rows := hn
      vals := fun _ _ _ _ => trivial }
  have hsim := prob_sim (ok := fun _ => True) (n := n) (Rat.castHom ℝ) castHom_strictMono
    (fun _ v => castXF v) c (castXCtx c) hT hpair rfl rfl rfl rfl hd (fun _ _ _ _ => rfl) (fun _ _ => rfl)
    (by
      intro d a b _ _
      rw [ho]
      show XF.sortLe (castXF a) (castXF b) = XF.sortLe a b
      cases a <;> cases b <;> simp [castXF, XF.sortLe])
    (by
      intro d a b _ _
      rw [ho]
      show XF.absGt (c.hp.splitPrecision : ℝ) (XF.add (castXF b) (XF.neg (castXF a))) =
        XF.absGt c.hp.splitPrecision (XF.add b (XF.neg a))
      cases a <;> cases b <;> simp only [castXF, XF.add, XF.neg, XF.absGt]
      rw [decide_eq_decide]
      norm_cast)
    (by
      intro d a b _ _
      rw [ho]
      show XF.half (XF.add (castXF a) (castXF b)) = castXF (XF.half (XF.add a b))
      cases a <;> cases b <;> simp [castXF, XF.add, XF.half])
    (by
      intro d a b _
      rw [ho]
      exact castXF_left b a)
    (by
      intro d a b _
      rw [ho]
      show (!trainedLeft (castXF b) (castXF a)) = !trainedLeft b a
      rw [castXF_left])
    rfl rfl pp0 pp1 δ0
  have hgp : ∀ m d, c.T.getPrior (some prior) m d = prior := fun m d => by rw [hT]; rfl
  refine fit_sim hsim hv hv' hn0 (prior := some prior) ?_ (by rw [hgp]; exact hprior) rfl ?_ h
  · rw [hgp]; rfl
  · intro _ p q
    rw [hT]
    show ((argmax (p.map (Rat.castHom ℝ)) : Nat) : ℝ) = ((argmax (q.map (Rat.castHom ℝ)) : Nat) : ℝ) ↔
      ((argmax p : Nat) : ℚ) = ((argmax q : Nat) : ℚ)
    rw [argmax_map castHom_strictMono, argmax_map castHom_strictMono, Nat.cast_inj, Nat.cast_inj]

end

end BT
