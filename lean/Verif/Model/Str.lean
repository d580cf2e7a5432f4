import Verif.Model.Object

/-!
# `str(model)`

`Fmt` collects Python's formatting of numbers and arrays (`'{}'.format(...)`), which is library code and
stays a parameter.
-/

namespace BT

/-- Text pieces produced by formatting: `splitDesc` a split node's own text, `head` the text in front of a
child (`true`: first child), `leafValue` and `leafMean` the formatted prediction and posterior mean. -/
structure Fmt (Sp P : Type) where
  splitDesc : Sp → String
  head : Sp → Bool → String
  leafValue : P → String
  leafMean : P → String
  isRegression : Bool

/-- Formatting of a perpendicular tree (base_perpendicular.py:231-251): `fmtV` formats a split value. -/
def perpFmt {V P : Type} (fmtV : V → String) (leafValue leafMean : P → String) (isRegression : Bool) :
    Fmt (PSplit V) P where
  splitDesc sp := sp.name ++ "=" ++ fmtV sp.value
  head sp isLeft := (if isLeft then "<" else "≥") ++ fmtV sp.value
  leafValue := leafValue
  leafMean := leafMean
  isRegression := isRegression

/-- Formatting of a hyperplane tree (base_hyperplane.py:168-190): `fmtVec` formats a vector; `'{:5s}'`
pads to five characters. -/
def hyperFmt {K P : Type} (fmtVec : List K → String) (leafValue leafMean : P → String)
    (isRegression : Bool) : Fmt (HSplit K) P where
  splitDesc sp := "HP(origin=" ++ fmtVec sp.origin ++ ", normal=" ++ fmtVec sp.normal ++ ")"
  head _ isBack := if isBack then "back " else "front"
  leafValue := leafValue
  leafMean := leafMean
  isRegression := isRegression

section
variable {A Sp S K P : Type}

/-- `''.join(' ' + a for a in anchor)` (base_perpendicular.py:232, base_hyperplane.py:169). -/
def anchorStr (anchor : List String) : String := String.join (anchor.map (" " ++ ·))

/-- `anchor_child1`, `anchor_child2` (base_perpendicular.py:244, 248, base_hyperplane.py:182, 187). -/
def childAnchor (anchor : List String) (isLeft : Option Bool) (corner : String) : List String :=
  if anchor.length = 0 then [corner]
  else anchor.dropLast ++ [if isLeft = some true then "│" else "  ", corner]

/-- The text in front of a node that is not the root (base_perpendicular.py:233-235,
base_hyperplane.py:170-172). -/
def strHead (f : Fmt Sp P) (anchor : List String) : Option (Sp × Bool) → String
  | none => ""
  | some (sp, isLeft) => anchorStr anchor ++ " " ++ f.head sp isLeft ++ ": "

/-- `_str` (base_perpendicular.py:231-251, base_hyperplane.py:168-190) on an object.  `parent` is the
parent's split and `isLeft` the argument `is_left_child` / `is_back_child`, `none` at the root. -/
def strInto (f : Fmt Sp P) (view : A → Option Sp) :
    Obj A S K P → List String → Option (Sp × Bool) → Except Err String
  | .absent, _, _ => .error .attributeError
  | .mk _ _ _ a c1 c2, anchor, parent =>
    let s := strHead f anchor parent
    match a.posterior with
    | none => .error .valueError
    | some post =>
      match view a.split with
      | none =>
        .ok (s ++ "y=" ++ f.leafValue post ++ ", n=" ++ toString (a.nData.getD 0) ++
          (if f.isRegression then "" else ", p(y)=" ++ f.leafMean post))
      | some sp =>
        let isLeft := parent.map (·.2)
        match strInto f view c1 (childAnchor anchor isLeft "├") (some (sp, true)) with
        | .error e => .error e
        | .ok s1 =>
          match strInto f view c2 (childAnchor anchor isLeft "└") (some (sp, false)) with
          | .error e => .error e
          | .ok s2 => .ok (s ++ f.splitDesc sp ++ "\n" ++ s1 ++ "\n" ++ s2)

/-- `__str__` and `__repr__` (base_perpendicular.py:225-229, base_hyperplane.py:162-166, base.py:338-339). -/
def str (f : Fmt Sp P) (view : A → Option Sp) (self : Obj A S K P) : Except Err String :=
  if self.isFitted then strInto f view self [] none else .ok "Unfitted model"

end

end BT
