import Verif.Spec.Walk
import Verif.Model.Str

/-!
# What the printed tree should look like

A node is identified by the list of turns leading to it (`false`: first child).
-/

namespace BT.Spec
variable {Sp S K P : Type}

/-- The addresses of all nodes, parents before children, first child's subtree before the second's. -/
def preorder : Node Sp S K P → List (List Bool)
  | .leaf _ => [[]]
  | .split _ _ _ _ c1 c2 => [] :: ((preorder c1).map (false :: ·) ++ (preorder c2).map (true :: ·))

/-- The text describing a node by itself. -/
def describe (f : Fmt Sp P) : Node Sp S K P → String
  | .leaf i => "y=" ++ f.leafValue i.posterior ++ ", n=" ++ toString i.nData ++
      (if f.isRegression then "" else ", p(y)=" ++ f.leafMean i.posterior)
  | .split _ sp _ _ _ _ => f.splitDesc sp

/-- The guide marks in front of a node: a bar for every ancestor that is a first child, two blanks for
every other one, and a corner for the node itself. -/
def guides : List Bool → List String
  | [] => []
  | [b] => [if b then "└" else "├"]
  | b :: bs => (if b then "  " else "│") :: guides bs

/-- The printed line of the node at a given address: marks, the parent's test, the node's text. -/
def lineAt (f : Fmt Sp P) (t : Node Sp S K P) (addr : List Bool) : Option String :=
  match nodeAt t addr with
  | none => none
  | some u =>
    match addr.getLast? with
    | none => some (describe f u)
    | some b =>
      match nodeAt t addr.dropLast with
      | some (.split _ sp _ _ _ _) =>
        some (String.join ((guides addr).map (" " ++ ·)) ++ " " ++ f.head sp (!b) ++ ": " ++ describe f u)
      | _ => none

/-- Lines joined by newline characters. -/
def joinLines : List String → String
  | [] => ""
  | [l] => l
  | l :: ls => l ++ "\n" ++ joinLines ls

end BT.Spec
