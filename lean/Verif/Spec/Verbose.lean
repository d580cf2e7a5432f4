import Verif.Model.Verbose

/-!
# Progress reports
-/

namespace BT.Spec
open Verbose (line)
open Version (Text)

/-- Targets of the rows differ. -/
def Mixed {K : Type} (y : Nat → K) (R : List Nat) : Prop := ∃ i ∈ R, ∃ j ∈ R, y i ≠ y j

open Classical in
/-- The report on a node with rows `R` at level `lv`, and everything below it: a line for each node that is the root or
whose rows have different targets, the node first, then the rows for which `first` holds, then the others. -/
noncomputable def report {Sp S K P : Type} (side1 side2 : Text) (first : Sp → Nat → Bool) (y : Nat → K) :
    Text → Nat → List Nat → Node Sp S K P → List Text
  | side, lv, R, .leaf _ => if lv = 0 ∨ Mixed y R then [line lv side R.length] else []
  | side, lv, R, .split _ sp _ _ c1 c2 =>
    line lv side R.length ::
      (report side1 side2 first y side1 (lv + 1) (R.filter (first sp)) c1 ++
        report side1 side2 first y side2 (lv + 1) (R.filter fun i => !first sp i) c2)

end BT.Spec
