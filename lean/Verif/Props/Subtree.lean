import Verif.Lemmas.Subtree
import Verif.Props.HyperTransform

/-!
# C85: subtrees are fits of the rows that reach them
-/

namespace BT
open Spec

set_option linter.unusedSectionVars false

theorem two_le_of_ne {R : List Nat} {i j : Nat} (hi : i ∈ R) (hj : j ∈ R) (hij : i ≠ j) : 1 < R.length := by
  match R with
  | [] => cases hi
  | [a] =>
    rw [List.mem_singleton] at hi hj
    exact absurd (hi.trans hj.symm) hij
  | _ :: _ :: _ => simp

section
variable {K P O : Type} [Field K] [LinearOrder K] [IsStrictOrderedRing K] {F : Fns K} {T : Target K P K O}
  {ml : P → List K → K} {post : P → List K → P} {hp : Hyper K} {argsort : List K → List Nat} {X : Nat → Nat → K}
  {y : Nat → K} {n nDim : Nat} {names : List String}

/-- Constructing a model without `level` is constructing it with level 0. -/
theorem C85_level_zero {V S : Type} [LinearOrder S] (o : XOps V K) (T : Target K P S O)
    (argsort : List V → List Nat) (prior : Option P) (X : Nat → Nat → V) :
    perpFitFrom o T argsort hp prior 0 X y n nDim names = perpFitRoot o T argsort hp prior X y n nDim names := by
  unfold perpFitFrom perpFitRoot
  cases perpFit o T hp X y nDim names (n + 1) prior 0 (sortMatrix argsort X n nDim) with
  | error e => rfl
  | ok t => cases hp.prune <;> rfl

theorem C85_level_zero_hyper {S : Type} [LinearOrder S] [Neg S] (c : HCtx K P S O) (prior : Option P) (n : Nat) :
    hFitFrom c prior 0 n = hFitRoot c prior n := by
  unfold hFitFrom hFitRoot
  cases hFit c (n + 1) prior 0 (List.range n) with
  | error e => rfl
  | ok t => cases c.hp.prune <;> rfl

/-- C85 for perpendicular trees: take the root, a node with children, or a node whose rows have two different targets.
The subtree below it is exactly the tree that a fresh model with the node's `prior` and `level` fits to the rows
that reach the node. -/
theorem C85_subtree (hT : CodeTarget F T ml post) (hr : Training hp argsort n nDim) {prior : Option P} {lv : Nat}
    {t : PNode K K K P} (h : perpFitFrom (exactOps K) T argsort hp prior lv X y n nDim names = .ok t)
    (addr : List Bool) (u : PNode K K K P) (hu : nodeAt t addr = some u)
    (hd : let R := rowsAt X t n addr
      addr = [] ∨ (∃ i sp l b c1 c2, u = .split i sp l b c1 c2) ∨ ∃ i ∈ R, ∃ j ∈ R, y i ≠ y j) :
    let R := rowsAt X t n addr
    perpFitFrom (exactOps K) T argsort hp u.info.prior u.info.level (fun i => X (R.getD i 0))
      (fun i => y (R.getD i 0)) R.length nDim names = .ok u := by
  intro R
  have hR : routed (exactCtx T (mlPair F ml) hp X y nDim names) t n addr = R := routed_eq ..
  have := fitFrom_subtree (c := exactCtx T (mlPair F ml) hp X y nDim names) (hr.valid hT) hr.someRow h addr u hu ?_
  · rw [hR] at this
    exact this
  · rw [hR]
    rcases hd with h0 | ⟨i, sp, l, b, c1, c2, rfl⟩ | ⟨i, hi, j, hj, hij⟩
    · exact .inl h0
    · exact .inr (.inl fun _ => by simp)
    · exact .inr (.inr ⟨two_le_of_ne hi hj fun e => hij (congrArg _ e), i, hi, j, hj, hij⟩)

end

section
variable {P O : Type} {F : Fns ℝ} {ml : P → List ℝ → ℝ} {post : P → List ℝ → P}

/-- C85 for hyperplane trees, with any optimizer that only looks at the sub-matrix, the targets and the parameters it is
given (`reads_random`, `reads_quasi`, `reads_sa`, `reads_gd`, `reads_twoPoint`). -/
theorem C85_subtree_hyper {c : HCtx ℝ P ℝ O} (he : Euclidean c.A) (hopt : Reads c.opt) {prior : Option P} {lv n : Nat}
    {t : HNode ℝ ℝ P} (h : hFitFrom c prior lv n = .ok t) (addr : List Bool) (u : HNode ℝ ℝ P)
    (hu : nodeAt t addr = some u)
    (hd : let R := hRowsAt c.X t n addr
      addr = [] ∨ (∃ i sp l b c1 c2, u = .split i sp l b c1 c2) ∨ ∃ i ∈ R, ∃ j ∈ R, c.y i ≠ c.y j) :
    let R := hRowsAt c.X t n addr
    hFitFrom { c with X := fun i => c.X (R.getD i 0), y := fun i => c.y (R.getD i 0) } u.info.prior u.info.level
      R.length = .ok u := by
  intro R
  have hR : hRouted c t n addr = R := (hRowsAt_eq c t n addr).symm
  have := hFitFrom_subtree (c := c) (fun l i hi => List.mem_range.1 ((he.sort l).1.mem_iff.1 hi)) hopt h addr u hu ?_
  · rw [hR] at this
    exact this
  · rw [hR]
    rcases hd with h0 | ⟨i, sp, l, b, c1, c2, rfl⟩ | ⟨i, hi, j, hj, hij⟩
    · exact .inl h0
    · exact .inr (.inl fun _ => by simp)
    · exact .inr (.inr ⟨two_le_of_ne hi hj fun e => hij (congrArg _ e), i, hi, j, hj, hij⟩)

end

/-- The right child of the sample's root, which is split again, is what a model at level 1 fits to the eight rows above
3/2. -/
example : let R := rowsAt (castCtx sampleCtx).X (castTree sampleHp sampleTree) 12 [true]
    ∃ i sp l b c1 c2, perpFitFrom (exactOps ℝ) (clsTarget realFns) realSort (castHp sampleHp) (some (castL [1, 1])) 1
      (fun i => (castCtx sampleCtx).X (R.getD i 0)) (fun i => (castCtx sampleCtx).y (R.getD i 0)) R.length 2
      (castCtx sampleCtx).names = .ok (.split i sp l b c1 c2) := by
  intro R
  have hr : Training (castHp sampleHp) realSort 12 2 :=
    ⟨by simp [castHp, sampleHp], realSort_sorts, by decide, by decide, by decide⟩
  have h := sampleReal_fit
  rw [fitIn, ← C85_level_zero] at h
  have := C85_subtree (CodeTarget.classification (F := realFns)) hr h [true] _ rfl
    (.inr (.inl ⟨_, _, _, _, _, _, rfl⟩))
  exact ⟨_, _, _, _, _, _, this⟩

theorem reads_list {K P S : Type} (cube : Bool) (vs : List (RawVec K)) : Reads (listOpt cube vs : Optimizer K P S) :=
  fun _ _ _ => rfl

/-- The right child of the root of the nine-point hyperplane sample. -/
example : let R := hRowsAt (hSampleReal 0).X (castHTree (hSampleHp 0) (hSampleTree 0)) 9 [true]
    ∃ i sp l b c1 c2, hFitFrom
      { hSampleReal 0 with
        X := fun i => (hSampleReal 0).X (R.getD i 0)
        y := fun i => (hSampleReal 0).y (R.getD i 0) } (some (castL [1, 1])) 1 R.length = .ok (.split i sp l b c1 c2) := by
  intro R
  have h := hSampleReal_fit
  rw [← C85_level_zero_hyper] at h
  have := C85_subtree_hyper (c := hSampleReal 0) realArith_euclidean (reads_list _ _) h [true] _ rfl
    (.inr (.inl ⟨_, _, _, _, _, _, rfl⟩))
  exact ⟨_, _, _, _, _, _, this⟩

end BT
