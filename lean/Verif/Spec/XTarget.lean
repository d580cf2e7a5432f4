import Verif.Model.XTarget

/-!
# Specification: sums of float64 values
-/

namespace BT.Spec

/-- The value is an ordinary number. -/
def IsFinite {K : Type} (v : XF K) : Prop := ∃ a, v = .fin a

/-- The IEEE sum of a list with a non-finite entry, in any order of summation: NaN if there is a NaN or infinities of both
signs, else the infinity that occurs. -/
def nonFiniteSum {K : Type} [DecidableEq K] (y : List (XF K)) : XF K :=
  if .nan ∈ y ∨ (.pinf ∈ y ∧ .ninf ∈ y) then .nan else if .pinf ∈ y then .pinf else .ninf

end BT.Spec
