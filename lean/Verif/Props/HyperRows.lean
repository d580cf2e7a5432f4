import Verif.Lemmas.HyperRows
import Verif.Props.HyperTransform

/-!
# C82: hyperplane trees and the order of the training rows
-/

namespace BT
open Spec

set_option linter.unusedSectionVars false

/-- The data of `c` with row `σ i` as row `i`. -/
def reordered {K P S O : Type} (c : HCtx K P S O) (σ : Nat → Nat) : HCtx K P S O :=
  { c with X := fun i => c.X (σ i), y := fun i => c.y (σ i) }

section
variable {F : Fns ℝ} {P O : Type} {ml : P → List ℝ → ℝ} {post : P → List ℝ → P}

/-- No two of the first `n` rows are within `split_precision` of each other along a direction the search may ask for. -/
def Spread (c : HCtx ℝ P ℝ O) (n : Nat) : Prop :=
  ∀ q hist r, q.nDim = c.nDim → q.hypercube = c.opt.hypercube → c.opt.solve q hist = .eval r →
    ∀ w, hNormal c.A q r = .ok w → ∀ i j, i < j → j < n →
      c.hp.splitPrecision < |along w (c.X i) - along w (c.X j)|

/-- C82, restricted to data without (near) ties along the evaluated directions: the order of the rows does not matter.
Missing: data with ties, for which the claim is false (`C82_row_order_refuted`). -/
theorem C82_row_order_partial [DecidableEq O] {c : HCtx ℝ P ℝ O} (hT : CodeTarget F c.T ml post) (he : Euclidean c.A)
    (hprec : 0 ≤ c.hp.splitPrecision) (hopt : Blind c.opt) {n : Nat} (hd : Spread c n) (σ : Nat → Nat)
    (hσ : ((List.range n).map σ).Perm (List.range n)) (prior : Option P) :
    hFitRoot (reordered c σ) prior n = hFitRoot c prior n := by
  refine hFitRoot_perm (c := c) (c' := reordered c σ) (σ := σ) ⟨rfl, rfl, rfl, rfl, rfl, rfl, fun _ => rfl, fun _ => rfl⟩ hT.textbook.lawful
    he.isArgsort hprec hopt (fun q hist r h1 h2 h3 w hw => ?_) prior hσ
  rw [Apart, List.pairwise_iff_getElem]
  intro i j hi hj hij
  rw [List.length_range] at hi hj
  simpa using hd q hist r h1 h2 h3 w hw i j hij hj

end

/-! ## The same four rows in two orders -/

def hOrdHp : Hyper ℚ := ⟨1/4, 0, false, 0⟩

def hOrdCtx : HCtx ℚ (List ℚ) ℚ (List ℚ) where
  A := ratArith
  T := probTarget ℚ
  hp := hOrdHp
  opt := listOpt false hTieVs
  budget := 3
  X := fun i _ => (([0, 0, 1, 1] : List ℚ).getD i 0)
  y := fun i => (([0, 0, 1, 1] : List ℚ).getD i 0)
  nDim := 1

/-- Exchanges rows 1 and 2. -/
def hOrdPerm : Nat → Nat := fun i => if i = 1 then 2 else if i = 2 then 1 else i

def hOrdTree : HNode ℚ ℚ (List ℚ) :=
  .split ⟨hOrdHp, some [1, 1], 0, some 1, 4, [3, 3]⟩ ⟨[1], [1/2]⟩ (1/40) (1/36)
    (.leaf ⟨hOrdHp, some [1, 1], 1, none, 2, [3, 1]⟩)
    (.leaf ⟨hOrdHp, some [1, 1], 1, none, 2, [1, 3]⟩)

def hOrdLeaf : HNode ℚ ℚ (List ℚ) := .leaf ⟨hOrdHp, some [1, 1], 0, some 1, 4, [3, 3]⟩

theorem hOrd_fit : hFitRoot hOrdCtx (some [1, 1]) 4 = .ok hOrdTree := by decide +kernel
theorem hOrd_fit' : hFitRoot (reordered hOrdCtx hOrdPerm) (some [1, 1]) 4 = .ok hOrdLeaf := by decide +kernel

noncomputable def hOrdReal : HCtx ℝ (List ℝ) ℝ (List ℝ) := castHCtx realArith hTieVs hOrdCtx

theorem hOrdReal_fit :
    hFitRoot hOrdReal (some (castL [1, 1])) 4 = .ok (castHTree hOrdHp hOrdTree) :=
  hFitRoot_cast hOrdCtx hTieVs false rfl rfl rfl rfl ⟨by decide +kernel, by decide +kernel, by decide⟩
    (fun r hr q _ hq => hTie_normals r hr q hq) ⟨by simp, by decide +kernel⟩ (by decide) hOrd_fit

theorem hOrdReal_fit' :
    hFitRoot (reordered hOrdReal hOrdPerm) (some (castL [1, 1])) 4 = .ok (castHTree hOrdHp hOrdLeaf) :=
  hFitRoot_cast (reordered hOrdCtx hOrdPerm) hTieVs false rfl rfl rfl rfl
    ⟨by decide +kernel, by decide +kernel, by decide⟩
    (fun r hr q _ hq => hTie_normals r hr q hq) ⟨by simp, by decide +kernel⟩ (by decide) hOrd_fit'

/-- Leaves found by the transported tree. -/
theorem hWalk_cast (hp : Hyper ℚ) (t : HNode ℚ ℚ (List ℚ)) (x : Nat → ℚ) :
    walk hyperRouter (castHTree hp t) (fun d => (x d : ℝ)) =
      (walk hyperRouter t x).map (mapInfo (castHp hp) castL) := by
  induction t with
  | leaf i => rfl
  | split i sp l b c1 c2 ih1 ih2 =>
    unfold castHTree at ih1 ih2 ⊢
    simp only [mapNode, walk, ih1, ih2, goes1_cast, goes2_cast]
    split
    · rfl
    · split <;> rfl

theorem hPredict_cast (hp : Hyper ℚ) (t : HNode ℚ ℚ (List ℚ)) (X : Nat → Nat → ℚ) (m : Nat) :
    predict hyperRouter (clsTarget realFns) (castHTree hp t) (fun i d => (X i d : ℝ)) m =
      castL (predict hyperRouter (probTarget ℚ) t X m) := by
  unfold castL
  apply List.ext_getElem?
  intro i
  rw [List.getElem?_map]
  by_cases hi : i < m
  · unfold predict
    rw [predictRows_getElem? _ hyper_exclusive _ _ _ _ _ _ hi,
      predictRows_getElem? _ hyper_exclusive _ _ _ _ _ _ hi, hWalk_cast]
    cases walk hyperRouter t (X i) with
    | none => simp
    | some l =>
      simp only [Option.map_some, Option.some.injEq]
      show ((argmax (l.posterior.map (Rat.castHom ℝ)) : Nat) : ℝ) = (((argmax l.posterior : Nat) : ℚ) : ℝ)
      rw [argmax_map castHom_strictMono]
      simp
  · rw [List.getElem?_eq_none (by unfold predict; rw [predictRows_length]; omega),
      List.getElem?_eq_none (by unfold predict; rw [predictRows_length]; omega)]
    rfl

/-- C82 is false: exchanging two of four training rows turns a split into a leaf, and the predicted class of the
point 1 changes from 1 to 0. -/
theorem C82_row_order_refuted :
    ∃ (c : HCtx ℝ (List ℝ) ℝ (List ℝ)) (σ : Nat → Nat) (prior : List ℝ) (t t' : HNode ℝ ℝ (List ℝ)),
      c.T = clsTarget realFns ∧ Euclidean c.A ∧ c.hp.splitPrecision = 0 ∧ Blind c.opt ∧ GoodPrior prior ∧
      ((List.range 4).map σ).Perm (List.range 4) ∧
      hFitRoot c (some prior) 4 = .ok t ∧ hFitRoot (reordered c σ) (some prior) 4 = .ok t' ∧
      predict hyperRouter c.T t (fun _ _ => 1) 1 = [1] ∧ predict hyperRouter c.T t' (fun _ _ => 1) 1 = [0] := by
  have hx : (fun _ _ => 1 : Nat → Nat → ℝ) = fun i d => (((fun _ _ => 1 : Nat → Nat → ℚ) i d : ℚ) : ℝ) := by
    funext i d
    simp
  refine ⟨hOrdReal, hOrdPerm, castL [1, 1], _, _, rfl, realArith_euclidean, ?_, blind_list _ _,
    ⟨by simp [castL], by intro a ha; simp [castL] at ha; rw [ha]; norm_num⟩, by decide,
    hOrdReal_fit, hOrdReal_fit', ?_, ?_⟩
  · show ((0 : ℚ) : ℝ) = 0
    simp
  · show predict hyperRouter (clsTarget realFns) _ _ 1 = _
    rw [hx, hPredict_cast,
      show predict hyperRouter (probTarget ℚ) hOrdTree (fun _ _ => 1) 1 = [1] by decide +kernel]
    simp [castL]
  · show predict hyperRouter (clsTarget realFns) _ _ 1 = _
    rw [hx, hPredict_cast,
      show predict hyperRouter (probTarget ℚ) hOrdLeaf (fun _ _ => 1) 1 = [0] by decide +kernel]
    simp [castL]

/-! ## Five rows without ties -/

def hLineCtx : HCtx ℚ (List ℚ) ℚ (List ℚ) where
  A := ratArith
  T := probTarget ℚ
  hp := hSampleHp 0
  opt := listOpt false hTieVs
  budget := 3
  X := fun i _ => (([0, 3, 1, 2, 5] : List ℚ).getD i 0)
  y := fun i => (([0, 1, 0, 0, 1] : List ℚ).getD i 0)
  nDim := 1

def hLineTree : HNode ℚ ℚ (List ℚ) :=
  .split ⟨hSampleHp 0, some [1, 1], 0, some 1, 5, [4, 3]⟩ ⟨[1], [5/2]⟩ (1/600) (3/160)
    (.leaf ⟨hSampleHp 0, some [1, 1], 1, none, 3, [4, 1]⟩)
    (.leaf ⟨hSampleHp 0, some [1, 1], 1, none, 2, [1, 3]⟩)

theorem hLine_fit : hFitRoot hLineCtx (some [1, 1]) 5 = .ok hLineTree := by decide +kernel

noncomputable def hLineReal : HCtx ℝ (List ℝ) ℝ (List ℝ) := castHCtx realArith hTieVs hLineCtx

theorem hLineReal_fit :
    hFitRoot hLineReal (some (castL [1, 1])) 5 = .ok (castHTree (hSampleHp 0) hLineTree) :=
  hFitRoot_cast hLineCtx hTieVs false rfl rfl rfl rfl ⟨by decide +kernel, by decide +kernel, by decide⟩
    (fun r hr q _ hq => hTie_normals r hr q hq) ⟨by simp, by decide +kernel⟩ (by decide) hLine_fit

theorem hLineReal_spread : Spread hLineReal 5 := by
  intro q hist r hd hc hr w hw i j hij hj
  have hv : r = castRaw (floatVec [1]) := by
    cases hist with
    | nil => exact (Step.eval.inj hr).symm
    | cons a l => simp [hLineReal, castHCtx, listOpt, hTieVs] at hr
  have hw1 : w = [1] := by
    have h1 : realArith.norm [1] = 1 := by simp [realArith]
    have hc' : q.hypercube = false := hc
    have hd' : q.nDim = 1 := hd
    have hA : hLineReal.A = realArith := rfl
    have hv' : castRaw (floatVec [1]) = floatVec [1] := by simp [castRaw, floatVec, castXF]
    rw [hv, hv', hA] at hw
    simp [hNormal, normalizeVec, floatVec, nanToNum, hc', hd', h1] at hw
    exact hw.symm
  subst hw1
  have hX : ∀ i, along [1] (hLineReal.X i) = ((([0, 3, 1, 2, 5] : List ℚ).getD i 0 : ℚ) : ℝ) := by
    intro i
    simp [along, hLineReal, castHCtx, hLineCtx]
  have hfin : ∀ j < 5, ∀ i < j, (0 : ℚ) <
      |([0, 3, 1, 2, 5] : List ℚ).getD i 0 - ([0, 3, 1, 2, 5] : List ℚ).getD j 0| := by decide +kernel
  rw [hX, hX]
  show ((0 : ℚ) : ℝ) < _
  exact_mod_cast hfin j hj i hij

/-- The hypotheses of `C82_row_order_partial` hold for five unsorted rows that are split; here they are reversed. -/
example : hFitRoot (reordered hLineReal fun i => 4 - i) (some (castL [1, 1])) 5 =
    .ok (castHTree (hSampleHp 0) hLineTree) :=
  (C82_row_order_partial .classification realArith_euclidean
    (by show (0 : ℝ) ≤ ((0 : ℚ) : ℝ); simp) (blind_list _ _) hLineReal_spread _ (by decide) _).trans hLineReal_fit

end BT
