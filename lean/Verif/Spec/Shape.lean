import Verif.Model.Tree

/-!
# Trees that differ in their split descriptions only
-/

namespace BT.Spec

/-- Same shape, same attributes, same likelihoods; the split descriptions are related by `R`. -/
inductive SameShape {Sp Sp' S K P : Type} (R : Sp → Sp' → Prop) :
    Node Sp S K P → Node Sp' S K P → Prop
  | leaf (i : Info K P) : SameShape R (.leaf i) (.leaf i)
  | split (i : Info K P) (sp : Sp) (sp' : Sp') (l b : S) (c1 c2 : Node Sp S K P)
      (c1' c2' : Node Sp' S K P) (hR : R sp sp') (h1 : SameShape R c1 c1') (h2 : SameShape R c2 c2') :
      SameShape R (.split i sp l b c1 c2) (.split i sp' l b c1' c2')

end BT.Spec
