import Verif.Model.Api

/-!
# Matrices given as rows: C91
-/

namespace BT

/-- C91: a native array made from `rows`, all of length `m`, is read as these rows: entry `(i, j)` is entry `j` of
row `i`. -/
theorem C91_row_major {V : Type} [Inhabited V] (dt : DType) (rows : List (List V)) (m : Nat)
    (hm : ∀ r ∈ rows, r.length = m) (i j : Nat) (hi : i < rows.length) (hj : j < m) :
    (⟨[rows.length, m], dt, rows.flatten⟩ : NArr V).mat i j = (rows[i].getD j default) := by
  show rows.flatten.getD (i * m + j) default = _
  induction rows generalizing i with
  | nil => simp at hi
  | cons r rows ih =>
    have hr : r.length = m := hm r (by simp)
    cases i with
    | zero =>
      rw [Nat.zero_mul, Nat.zero_add, List.flatten_cons, List.getD_eq_getElem?_getD,
        List.getElem?_append_left (by omega), ← List.getD_eq_getElem?_getD]
      rfl
    | succ i =>
      have hi' : i < rows.length := by simpa using hi
      rw [List.flatten_cons, List.getD_eq_getElem?_getD,
        List.getElem?_append_right (by rw [hr, Nat.succ_mul]; omega), hr, ← List.getD_eq_getElem?_getD,
        show (i + 1) * m + j - m = i * m + j by rw [Nat.succ_mul]; omega]
      exact ih (fun r h => hm r (by simp [h])) i hi'

/-- Two rows of three entries. -/
example : (⟨[2, 3], .float64, [1, 2, 3, 4, 5, 6]⟩ : NArr Nat).mat 1 0 = 4 := rfl

end BT
