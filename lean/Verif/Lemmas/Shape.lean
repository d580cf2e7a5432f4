import Verif.Spec.Shape
import Verif.Lemmas.Prune
import Verif.Lemmas.Walk
import Verif.Lemmas.RealSample
import Verif.Lemmas.Cast

/-!
# The fit uses midpoints only as stored thresholds

The training rows are divided by position in the sorted columns, so changing the rounding or
wrap-around of the midpoint changes nothing but the thresholds.
-/

namespace BT
open Spec

section
variable {V K P S O : Type}

/-- Same dimension and feature name, thresholds related by `R`. -/
def SplitRel {V V' : Type} (R : V → V' → Prop) (sp : PSplit V) (sp' : PSplit V') : Prop :=
  sp.dim = sp'.dim ∧ sp.name = sp'.name ∧ R sp.value sp'.value

/-- Both fail alike, or both succeed with related trees. -/
def SameResult {V V' : Type} (R : V → V' → Prop) :
    Except Err (PNode V S K P) → Except Err (PNode V' S K P) → Prop
  | .ok t, .ok t' => SameShape (SplitRel R) t t'
  | .error e, .error e' => e = e'
  | _, _ => False

theorem SameShape.isLeaf_eq {Sp Sp' : Type} {R : Sp → Sp' → Prop} {t : Node Sp S K P}
    {t' : Node Sp' S K P} (h : SameShape R t t') : t.info = t'.info := by
  cases h <;> rfl

theorem SameShape.merge {Sp Sp' : Type} {R : Sp → Sp' → Prop} {O : Type} [DecidableEq O] (pred : P → O)
    {t : Node Sp S K P} {t' : Node Sp' S K P} (h : SameShape R t t') :
    SameShape R (Spec.merge pred t) (Spec.merge pred t') := by
  induction h with
  | leaf i => exact .leaf i
  | split i sp sp' l b c1 c2 c1' c2' hR _ _ ih1 ih2 =>
    simp only [Spec.merge]
    generalize Spec.merge pred c1 = m1 at *
    generalize Spec.merge pred c1' = m1' at *
    generalize Spec.merge pred c2 = m2 at *
    generalize Spec.merge pred c2' = m2' at *
    cases ih1 with
    | leaf j1 =>
      cases ih2 with
      | leaf j2 =>
        dsimp only
        split
        · exact .leaf i
        · exact .split _ _ _ _ _ _ _ _ _ hR (.leaf _) (.leaf _)
      | split => exact .split _ _ _ _ _ _ _ _ _ hR (.leaf _) (.split _ _ _ _ _ _ _ _ _ ‹_› ‹_› ‹_›)
    | split =>
      exact .split _ _ _ _ _ _ _ _ _ hR (.split _ _ _ _ _ _ _ _ _ ‹_› ‹_› ‹_›) ih2

variable [LinearOrder S] [DecidableEq K] [Zero K] [One K]

omit [LinearOrder S] [DecidableEq K] [Zero K] [One K] in
theorem splitIndices_congr {o o' : XOps V K} (hgap : o.gap = o'.gap) (prec : K) (xs : List V) :
    splitIndices o prec xs = splitIndices o' prec xs := by
  unfold splitIndices
  rw [hgap]

omit [DecidableEq K] [Zero K] [One K] in
theorem searchDim_congr {o o' : XOps V K} (hgap : o.gap = o'.gap) (T : Target K P S O) (hp : Hyper K) :
    searchDim o T hp = searchDim o' T hp := by
  funext level X y nDim prior sid b dim
  unfold searchDim
  rw [show splitIndices o = splitIndices o' from
    funext fun prec => funext fun xs => splitIndices_congr hgap prec xs]

theorem perpFit_mid {o o' : XOps V K} {R : V → V → Prop} (hgap : o.gap = o'.gap)
    (hR : ∀ a b, R (o.mid a b) (o'.mid a b)) (T : Target K P S O) (hp : Hyper K)
    (X : Nat → Nat → V) (y : Nat → K) (nDim : Nat) (names : List String) (fuel : Nat)
    (pa : Option P) (lv : Nat) (sid : List (List Nat)) :
    SameResult R (perpFit o T hp X y nDim names fuel pa lv sid)
      (perpFit o' T hp X y nDim names fuel pa lv sid) := by
  induction fuel generalizing pa lv sid with
  | zero => exact rfl
  | succ fuel ih =>
    unfold perpFit
    rw [searchDim_congr hgap]
    cases sid with
    | nil => exact rfl
    | cons row0 rest =>
      dsimp only
      split
      · exact .leaf _
      · rename_i dim k _
        split
        · rename_i name last1 first2 _ _ _
          have key : ∀ {a b : Prop} [Decidable a] {x x' : Except Err (PNode V S K P)} {i : Info K P},
              SameResult R x x' →
              SameResult R (if a then x else .ok (.leaf i)) (if a then x' else .ok (.leaf i)) := by
            intro a b _ x x' i h
            split
            · exact h
            · exact .leaf i
          have final : ∀ {r1 r1' r2 r2' : Except Err (PNode V S K P)} {i : Info K P} {l b : S},
              SameResult R r1 r1' → SameResult R r2 r2' →
              SameResult R
                (match r1 with
                  | .error e => .error e
                  | .ok c1 => match r2 with
                    | .error e => .error e
                    | .ok c2 => .ok (.split i ⟨dim, name, o.mid (X last1 dim) (X first2 dim)⟩ l b c1 c2))
                (match r1' with
                  | .error e => .error e
                  | .ok c1 => match r2' with
                    | .error e => .error e
                    | .ok c2 => .ok (.split i ⟨dim, name, o'.mid (X last1 dim) (X first2 dim)⟩ l b c1 c2)) := by
            intro r1 r1' r2 r2' i l b h1 h2
            cases r1 <;> cases r1' <;> simp only [SameResult] at h1
            · exact h1
            · cases r2 <;> cases r2' <;> simp only [SameResult] at h2
              · exact h2
              · exact .split _ _ _ _ _ _ _ _ _ ⟨rfl, rfl, hR _ _⟩ h1 h2
          exact final (key (b := True) (ih _ _ _)) (key (b := True) (ih _ _ _))
        · exact rfl

/-- The whole fit, pruning included. -/
theorem fitIn_mid {c : Ctx V K P S O} {o' : XOps V K} {R : V → V → Prop} (hgap : c.o.gap = o'.gap)
    (hR : ∀ a b, R (c.o.mid a b) (o'.mid a b)) (argsort : List V → List Nat) (prior : Option P) (n : Nat) :
    SameResult R (fitIn c argsort prior n) (fitIn { c with o := o' } argsort prior n) := by
  have := perpFit_mid hgap hR c.T c.hp c.X c.y c.nDim c.names (n + 1) prior 0
    (sortMatrix argsort c.X n c.nDim)
  unfold fitIn perpFitRoot
  dsimp only
  cases h1 : perpFit c.o c.T c.hp c.X c.y c.nDim c.names (n + 1) prior 0 (sortMatrix argsort c.X n c.nDim) <;>
  cases h2 : perpFit o' c.T c.hp c.X c.y c.nDim c.names (n + 1) prior 0 (sortMatrix argsort c.X n c.nDim) <;>
  rw [h1, h2] at this <;> simp only [SameResult] at this
  · exact this
  · cases c.hp.prune with
    | false => exact this
    | true =>
      show SameResult R (prune _ _) (prune _ _)
      rw [prune_eq, prune_eq]
      exact SameShape.merge _ this

/-- If every row goes right and the right child is a leaf, all predictions are that leaf's. -/
theorem predictRows_right {Sp S K P Row O : Type} (rt : Router Sp Row) (hex : Exclusive rt)
    (val : Info K P → O) (init : O) (X : Nat → Row) (m : Nat) (i j : Info K P) (sp : Sp) (l b : S)
    (c1 : Node Sp S K P) (h1 : ∀ r < m, rt.goes1 sp (X r) = false)
    (h2 : ∀ r < m, rt.goes2 sp (X r) = true) :
    predictRows rt val init X m (.split i sp l b c1 (.leaf j)) = List.replicate m (val j) := by
  apply List.ext_getElem?
  intro r
  by_cases hr : r < m
  · rw [predictRows_getElem? _ hex _ _ _ _ _ _ hr, List.getElem?_replicate, if_pos hr]
    simp [walk, h1 r hr, h2 r hr]
  · rw [List.getElem?_eq_none (by rw [predictRows_length]; omega),
      List.getElem?_eq_none (by simp; omega)]

/-- Prediction of class 1 at a leaf with posterior `[1, 2]`. -/
theorem predictLeaf_12 : (clsTarget realFns).predictLeaf (castL [1, 2]) = 1 := by
  show ((argmax (([1, 2] : List ℚ).map (Rat.castHom ℝ)) : Nat) : ℝ) = 1
  rw [argmax_map castHom_strictMono, show argmax ([1, 2] : List ℚ) = 1 by decide +kernel]
  simp

end

end BT
