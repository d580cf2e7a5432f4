import Verif.Props.Str
import Verif.Props.Optimize
import Verif.Lemmas.HyperNode

/-!
# C57, C65: what the printed lines say, and evaluation counts of new optimization functions

The condition in front of a printed node is the comparison that sends a row to that node.
-/

set_option linter.unusedSectionVars false

namespace BT
open Spec

section lines
variable {K S P : Type} [Field K] [LinearOrder K]

theorem lineAt_snoc {Sp : Type} (f : Fmt Sp P) {t : Node Sp S K P} {addr : List Bool} {i : Info K P} {sp : Sp} {l s : S}
    {c1 c2 : Node Sp S K P} (hu : nodeAt t addr = some (.split i sp l s c1 c2)) (b : Bool) :
    lineAt f t (addr ++ [b]) = some (String.join ((guides (addr ++ [b])).map (" " ++ ·)) ++ " " ++ f.head sp (!b) ++
      ": " ++ describe f (if b then c2 else c1)) := by
  have h1 : nodeAt t (addr ++ [b]) = some (if b then c2 else c1) := by
    rw [nodeAt_append, hu]
    cases b <;> simp [nodeAt, nodeAt_nil]
  unfold lineAt
  rw [h1, List.getLast?_concat, List.dropLast_concat, hu]

/-- C57 (conditions of perpendicular trees): below a split `name=v`, the first child's line says `<v` and the rows with a
smaller feature value are the ones that go there; the second child's line says `≥v`, and the others go there. -/
theorem C57_perp_conditions (fmtV : K → String) (leafValue leafMean : P → String) (reg : Bool) {t : PNode K S K P}
    {addr : List Bool} {i : Info K P} {sp : PSplit K} {l s : S} {c1 c2 : PNode K S K P}
    (hu : nodeAt t addr = some (.split i sp l s c1 c2)) :
    let f := perpFmt fmtV leafValue leafMean reg
    describe f (Node.split i sp l s c1 c2) = sp.name ++ "=" ++ fmtV sp.value ∧
    lineAt f t (addr ++ [false]) = some (String.join ((guides (addr ++ [false])).map (" " ++ ·)) ++ " " ++
      ("<" ++ fmtV sp.value) ++ ": " ++ describe f c1) ∧
    lineAt f t (addr ++ [true]) = some (String.join ((guides (addr ++ [true])).map (" " ++ ·)) ++ " " ++
      ("≥" ++ fmtV sp.value) ++ ": " ++ describe f c2) ∧
    ∀ x, passes (perpRouter (exactOps K)) t addr x = true →
      (passes (perpRouter (exactOps K)) t (addr ++ [false]) x = true ↔ x sp.dim < sp.value) ∧
      (passes (perpRouter (exactOps K)) t (addr ++ [true]) x = true ↔ sp.value ≤ x sp.dim) := by
  refine ⟨rfl, lineAt_snoc _ hu false, lineAt_snoc _ hu true, fun x hx => ?_⟩
  rw [passes_snoc _ _ _ _ _ hu, passes_snoc _ _ _ _ _ hu, hx]
  simp [perpRouter, exactOps]

/-- C57 (sides of hyperplane trees): the first child's line says `back` and the rows strictly on the side away from the
normal go there; the second child's line says `front`. -/
theorem C57_hyper_sides (fmtVec : List K → String) (leafValue leafMean : P → String) (reg : Bool) {t : HNode S K P}
    {addr : List Bool} {i : Info K P} {sp : HSplit K} {l s : S} {c1 c2 : HNode S K P}
    (hu : nodeAt t addr = some (.split i sp l s c1 c2)) :
    let f := hyperFmt fmtVec leafValue leafMean reg
    describe f (Node.split i sp l s c1 c2) =
      "HP(origin=" ++ fmtVec sp.origin ++ ", normal=" ++ fmtVec sp.normal ++ ")" ∧
    lineAt f t (addr ++ [false]) = some (String.join ((guides (addr ++ [false])).map (" " ++ ·)) ++ " " ++
      "back " ++ ": " ++ describe f c1) ∧
    lineAt f t (addr ++ [true]) = some (String.join ((guides (addr ++ [true])).map (" " ++ ·)) ++ " " ++
      "front" ++ ": " ++ describe f c2) ∧
    ∀ x, passes hyperRouter t addr x = true →
      (passes hyperRouter t (addr ++ [false]) x = true ↔
        dot (rowVec sp.normal.length x) sp.normal - dot sp.normal sp.origin < 0) ∧
      (passes hyperRouter t (addr ++ [true]) x = true ↔
        0 ≤ dot (rowVec sp.normal.length x) sp.normal - dot sp.normal sp.origin) := by
  refine ⟨rfl, lineAt_snoc _ hu false, lineAt_snoc _ hu true, fun x hx => ?_⟩
  rw [passes_snoc _ _ _ _ _ hu, passes_snoc _ _ _ _ _ hu, hx]
  simp only [hyperRouter, signedDistance, Bool.true_and, Bool.false_eq_true, if_false, if_true, Bool.and_eq_true,
    Bool.not_eq_true']
  exact ⟨decide_eq_true_iff, ⟨fun h => of_decide_eq_true h.2, fun h => ⟨decide_eq_false (not_lt.2 h), decide_eq_true h⟩⟩⟩

end lines

section evals
variable {K P S O R : Type}

/-- C65 (random search, from the start): a search on a new optimization function makes exactly the requested number of
evaluations. -/
theorem C65_random_new [Field K] [LinearOrder K] [IsStrictOrderedRing K] [LinearOrder S] [Neg S] {A : HArith K}
    {T : Target K P S O} {pair : PairScore K P S} (G : Rng R K) (nMc : Nat) (q : HProb K P S) (hG : LawfulRng G)
    (hT : LawfulTarget T pair) (hs : IsArgsort (exactOps K).le (fun _ => True) A.argsort) (hcube : q.hypercube = false)
    (hdim : 0 < q.nDim) :
    ∃ st, st.evals = nMc ∧ ∃ B, ∀ b, B ≤ b → hSolve A T q (randomSolve G nMc q).strategy b [] (hInit q) = .ok st := by
  obtain ⟨st, h, hB⟩ := C65_random G nMc q hG hT hs hcube hdim (hInit q)
  exact ⟨st, h.trans (Nat.zero_add _), hB⟩

/-- C65 (quasi-random search, from the start). -/
theorem C65_quasi_new [LinearOrder S] [Neg S] {T : Target ℝ P S O} {pair : PairScore ℝ P S}
    {argsort : List ℝ → List Nat} (phi : ℝ) (n : Nat) (q : HProb ℝ P S) (hT : LawfulTarget T pair)
    (hs : IsArgsort (exactOps ℝ).le (fun _ => True) argsort) (hcube : q.hypercube = true) (hdim : 2 ≤ q.nDim) :
    ∃ st, st.evals = n ∧ ∃ B, ∀ b, B ≤ b →
      hSolve (exactArith argsort) T q (quasiSolve phi n q).strategy b [] (hInit q) = .ok st := by
  obtain ⟨st, h, hB⟩ := C65_quasi phi n q hT hs hcube hdim (hInit q)
  exact ⟨st, h.trans (Nat.zero_add _), hB⟩

end evals

/-- A tree with one split `a=1` (feature 0): the rows with a smaller first entry go to the line `<1`. -/
example (x : Nat → ℚ) (i : Info ℚ (List ℚ)) :
    let t : PNode ℚ ℚ ℚ (List ℚ) := .split i ⟨0, "a", 1⟩ 0 1 (.leaf i) (.leaf i)
    let f : Fmt (PSplit ℚ) (List ℚ) := perpFmt (fun _ => "1") (fun _ => "0") (fun _ => "p") false
    lineAt f t [false] = some (" ├ <1: " ++ describe f (Node.leaf i : PNode ℚ ℚ ℚ (List ℚ))) ∧
    (passes (perpRouter (exactOps ℚ)) t [false] x = true ↔ x 0 < 1) := by
  intro t f
  have h := C57_perp_conditions (fun _ => "1") (fun _ => "0") (fun _ => "p") false (t := t) (addr := []) rfl
  exact ⟨h.2.1, (h.2.2.2 x rfl).1⟩

end BT
