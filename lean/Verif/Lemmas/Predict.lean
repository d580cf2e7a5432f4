import Verif.Lemmas.Npy
import Verif.Spec.Walk

namespace BT
variable {Sp S K P Row O : Type}

theorem writeAll_length (idx : List Nat) (v : O) (y : List O) : (writeAll idx v y).length = y.length := by
  unfold writeAll
  induction idx generalizing y with
  | nil => rfl
  | cons i idx ih => simp [ih]

theorem writeAll_getElem? (idx : List Nat) (v : O) (y : List O) (j : Nat) :
    (writeAll idx v y)[j]? = if j ∈ idx then y[j]?.map (fun _ => v) else y[j]? := by
  unfold writeAll
  induction idx generalizing y with
  | nil => simp
  | cons i idx ih =>
    rw [List.foldl_cons, ih, List.getElem?_set]
    by_cases hj : j ∈ idx
    · simp only [hj, if_true, List.mem_cons, or_true]
      by_cases hij : i = j
      · subst hij
        by_cases hl : i < y.length
        · simp [hl]
        · simp [hl]
      · simp [hij]
    · by_cases hij : i = j
      · subst hij
        by_cases hl : i < y.length
        · simp [hj, hl]
        · simp [hj, hl]
      · have : ¬ j = i := fun h => hij h.symm
        simp [hj, hij, this]

/-- the value `_predict` writes for row `x`, given the previous content -/
def outcome (rt : Router Sp Row) (val : Info K P → O) (t : Node Sp S K P) (x : Row) (old : O) : O :=
  match Spec.walk rt t x with
  | some i => val i
  | none => old

theorem predictInto_getElem? (rt : Router Sp Row) (hex : Spec.Exclusive rt) (val : Info K P → O)
    (X : Nat → Row) (t : Node Sp S K P) (indices : List Nat) (y : List O) (j : Nat) :
    (predictInto rt val X t indices y)[j]? =
      if j ∈ indices then y[j]?.map (outcome rt val t (X j)) else y[j]? := by
  induction t generalizing indices y with
  | leaf i =>
    simp only [predictInto, writeAll_getElem?]
    rfl
  | split i sp l b c1 c2 ih1 ih2 =>
    simp only [predictInto, childIndices, take1_npWhere, npWhere_map_length]
    set f1 := indices.filter fun i => rt.goes1 sp (X i) with hf1
    set f2 := indices.filter fun i => rt.goes2 sp (X i) with hf2
    have e1 : (if f1.length > 0 then predictInto rt val X c1 f1 y else y)[j]? =
        if j ∈ f1 then y[j]?.map (outcome rt val c1 (X j)) else y[j]? := by
      split
      · exact ih1 _ _
      · next h =>
        have : f1 = [] := List.eq_nil_of_length_eq_zero (by omega)
        simp [this]
    have e2 : ∀ y' : List O, (if f2.length > 0 then predictInto rt val X c2 f2 y' else y')[j]? =
        if j ∈ f2 then y'[j]?.map (outcome rt val c2 (X j)) else y'[j]? := by
      intro y'
      split
      · exact ih2 _ _
      · next h =>
        have : f2 = [] := List.eq_nil_of_length_eq_zero (by omega)
        simp [this]
    rw [e2, e1]
    have hnot := hex sp (X j)
    simp only [hf1, hf2, List.mem_filter]
    by_cases hj : j ∈ indices
    · have hw : outcome rt val (Node.split i sp l b c1 c2) (X j) =
          if rt.goes1 sp (X j) then outcome rt val c1 (X j)
          else if rt.goes2 sp (X j) then outcome rt val c2 (X j) else id := by
        funext o
        cases h1 : rt.goes1 sp (X j) <;> cases h2 : rt.goes2 sp (X j) <;>
          simp [outcome, Spec.walk, h1, h2]
      rw [hw]
      cases h1 : rt.goes1 sp (X j) <;> cases h2 : rt.goes2 sp (X j) <;> simp_all
    · simp [hj]

theorem predictInto_length (rt : Router Sp Row) (val : Info K P → O)
    (X : Nat → Row) (t : Node Sp S K P) (indices : List Nat) (y : List O) :
    (predictInto rt val X t indices y).length = y.length := by
  induction t generalizing indices y with
  | leaf i => simp [predictInto, writeAll_length]
  | split i sp l b c1 c2 ih1 ih2 =>
    simp only [predictInto]
    split <;> split <;> simp [ih1, ih2]

end BT
