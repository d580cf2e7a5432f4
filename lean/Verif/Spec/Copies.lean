import Mathlib.Data.List.Basic

/-!
# Specification: a data set repeated several times
-/

namespace BT.Spec

/-- Row `i` of a data set of `n` rows repeated over and over. -/
def repeated {α : Type} (n : Nat) (f : Nat → α) : Nat → α := fun i => f (i % n)

/-- A list repeated `k` times. -/
def copies {α : Type} (k : Nat) (l : List α) : List α := (List.replicate k l).flatten

end BT.Spec
