import Verif.Spec.Routed
import Verif.Lemmas.RealSample
import Verif.Lemmas.Walk

/-!
# Nodes and routing of a tree transported from rational to real numbers
-/

namespace BT
open Spec

section
variable {V V' K K' S S' P P' : Type}

theorem nodeAt_map (hp' : Hyper K') (fV : Nat → V → V') (fP : P → P') (fS : S → S') (t : PNode V S K P)
    (addr : List Bool) :
    nodeAt (mapTree hp' fV fP fS t) addr = (nodeAt t addr).map (mapTree hp' fV fP fS) := by
  induction addr generalizing t with
  | nil => rw [nodeAt_nil, nodeAt_nil]; rfl
  | cons b bs ih =>
    cases t with
    | leaf i => rfl
    | split i sp l s c1 c2 => cases b <;> simp [mapTree, nodeAt, ih]

theorem passes_map {o : XOps V K} {o' : XOps V' K'} (hp' : Hyper K') (fV : Nat → V → V') (fP : P → P')
    (fS : S → S') (hlt : ∀ d a v, o'.lt (fV d a) (fV d v) = o.lt a v)
    (hge : ∀ d a v, o'.ge (fV d a) (fV d v) = o.ge a v) (x : Nat → V) (t : PNode V S K P)
    (addr : List Bool) :
    passes (perpRouter o') (mapTree hp' fV fP fS t) addr (fun d => fV d (x d)) =
      passes (perpRouter o) t addr x := by
  induction addr generalizing t with
  | nil => simp [passes]
  | cons b bs ih =>
    cases t with
    | leaf i => rfl
    | split i sp l s c1 c2 =>
      have g1 : (perpRouter o').goes1 ⟨sp.dim, sp.name, fV sp.dim sp.value⟩ (fun d => fV d (x d)) =
        (perpRouter o).goes1 sp x := hlt _ _ _
      have g2 : (perpRouter o').goes2 ⟨sp.dim, sp.name, fV sp.dim sp.value⟩ (fun d => fV d (x d)) =
        (perpRouter o).goes2 sp x := hge _ _ _
      simp only [mapTree, passes, ih, g1, g2]

theorem walk_map {o : XOps V K} {o' : XOps V' K'} (hp' : Hyper K') (fV : Nat → V → V') (fP : P → P')
    (fS : S → S') (hlt : ∀ d a v, o'.lt (fV d a) (fV d v) = o.lt a v)
    (hge : ∀ d a v, o'.ge (fV d a) (fV d v) = o.ge a v) (x : Nat → V) (t : PNode V S K P) :
    walk (perpRouter o') (mapTree hp' fV fP fS t) (fun d => fV d (x d)) =
      (walk (perpRouter o) t x).map (mapInfo hp' fP) := by
  induction t with
  | leaf i => rfl
  | split i sp l s c1 c2 ih1 ih2 =>
    have g1 : (perpRouter o').goes1 ⟨sp.dim, sp.name, fV sp.dim sp.value⟩ (fun d => fV d (x d)) =
      (perpRouter o).goes1 sp x := hlt _ _ _
    have g2 : (perpRouter o').goes2 ⟨sp.dim, sp.name, fV sp.dim sp.value⟩ (fun d => fV d (x d)) =
      (perpRouter o).goes2 sp x := hge _ _ _
    simp only [mapTree, walk, ih1, ih2, g1, g2]
    split
    · rfl
    · split <;> rfl

end

theorem cast_lt (_ : Nat) (a v : ℚ) : (exactOps ℝ).lt (a : ℝ) (v : ℝ) = (exactOps ℚ).lt a v := by
  simp [exactOps]

theorem cast_ge (_ : Nat) (a v : ℚ) : (exactOps ℝ).ge (a : ℝ) (v : ℝ) = (exactOps ℚ).ge a v := by
  simp [exactOps]

theorem routed_cast {c : Ctx ℚ ℚ (List ℚ) ℚ (List ℚ)} (ho : c.o = exactOps ℚ) (hp : Hyper ℚ)
    (t : PNode ℚ ℚ ℚ (List ℚ)) (n : Nat) (addr : List Bool) :
    routed (castCtx c) (castTree hp t) n addr = routed c t n addr := by
  unfold routed
  rw [ho]
  apply List.filter_congr
  intro i _
  exact passes_map (o := exactOps ℚ) (o' := exactOps ℝ) (castHp hp)
    (fun _ (v : ℚ) => (v : ℝ)) castL (fun (s : ℚ) => Real.log (s : ℝ)) cast_lt cast_ge (c.X i) t addr

theorem ys_cast (c : Ctx ℚ ℚ (List ℚ) ℚ (List ℚ)) (R : List Nat) :
    (castCtx c).ys R = castL (c.ys R) := by
  simp [Ctx.ys, castL, castCtx, Function.comp_def]

theorem castL_inj {a b : List ℚ} (h : castL a = castL b) : a = b :=
  List.map_injective_iff.2 (fun x y h => by exact_mod_cast h) h

theorem predictRows_length {Sp S K P Row O : Type} (rt : Router Sp Row) (val : Info K P → O) (init : O)
    (X : Nat → Row) (m : Nat) (t : Node Sp S K P) : (predictRows rt val init X m t).length = m := by
  unfold predictRows
  rw [predictInto_length, List.length_replicate]

/-- Predictions of the transported tree. -/
theorem predict_cast (hp : Hyper ℚ) (t : PNode ℚ ℚ ℚ (List ℚ)) (X : Nat → Nat → ℚ) (m : Nat) :
    predict (perpRouter (exactOps ℝ)) (clsTarget realFns) (castTree hp t) (fun i d => (X i d : ℝ)) m =
      castL (predict (perpRouter (exactOps ℚ)) (probTarget ℚ) t X m) := by
  unfold castL
  apply List.ext_getElem?
  intro i
  rw [List.getElem?_map]
  by_cases hi : i < m
  · unfold predict
    rw [predictRows_getElem? _ exact_exclusive _ _ _ _ _ _ hi,
      predictRows_getElem? _ exact_exclusive _ _ _ _ _ _ hi]
    have := walk_map (o := exactOps ℚ) (o' := exactOps ℝ) (castHp hp)
      (fun _ (v : ℚ) => (v : ℝ)) castL (fun (s : ℚ) => Real.log (s : ℝ)) cast_lt cast_ge (X i) t
    unfold castTree
    rw [this]
    cases walk (perpRouter (exactOps ℚ)) t (X i) with
    | none => simp
    | some l =>
      simp only [Option.map_some, Option.some.injEq]
      show ((argmax (l.posterior.map (Rat.castHom ℝ)) : Nat) : ℝ) = (((argmax l.posterior : Nat) : ℚ) : ℝ)
      rw [argmax_map castHom_strictMono]
      simp
  · rw [List.getElem?_eq_none (by unfold predict; rw [predictRows_length]; omega),
      List.getElem?_eq_none (by unfold predict; rw [predictRows_length]; omega)]
    rfl

end BT
