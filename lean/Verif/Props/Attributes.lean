import Verif.Props.EndToEnd

/-!
# The attributes of fitted nodes: C24, in terms of the objects
-/

set_option linter.unusedSectionVars false

namespace BT
open Spec

/-- Every node of an object, with its attributes and whether it has children. -/
def Spec.Every {A S K P : Type} (Q : Attrs A S P → Bool → Prop) : Obj A S K P → Prop
  | .absent => True
  | .mk _ _ _ a c1 c2 => Q a (!c1.isAbsent || !c2.isAbsent) ∧ Spec.Every Q c1 ∧ Spec.Every Q c2

/-- The attributes of a node of a fitted perpendicular tree. -/
def Spec.PerpAttributes {V S P : Type} (a : Attrs (PAttr V) S P) (children : Bool) : Prop :=
  a.nData.isSome ∧ a.posterior.isSome ∧
  if children then (∃ (d : Nat) (name : String) (v : V), a.split.dim = d ∧ a.split.name = some name ∧ a.split.value = some v) ∧
    a.logNoSplit.isSome ∧ a.bestLogSplit.isSome
  else a.split.dim = -1 ∧ a.split.name = none ∧ a.split.value = none ∧ a.logNoSplit = none ∧ a.bestLogSplit = none

/-- The attributes of a node of a fitted hyperplane tree. -/
def Spec.HyperAttributes {K S P : Type} (a : Attrs (Option (HSplit K)) S P) (children : Bool) : Prop :=
  a.nData.isSome ∧ a.posterior.isSome ∧ a.split.isSome = children ∧ a.logNoSplit.isSome = children ∧
    a.bestLogSplit.isSome = children

section
variable {E V E' K P O : Type} [Field K] [LinearOrder K] [Inhabited V] [Inhabited K] {obX : ObjOps E V}
  {obY : ObjOps E' K} {check : Option P → NArr K → Except Err Unit} {o : XOps V K} {T : Target K P K O}
  {argsort : List V → List Nat} {fmt : Fmt (PSplit V) P}

/-- C24 for perpendicular trees: after a successful call of `fit`, on a model with any history, the nodes with
children have all split attributes; those without, also those that pruning made so, have none and dimension -1. -/
theorem C24_attributes_perp (hp : Hyper K) (prior : Option P) (level : Nat) (cs : List (Call E V E' K)) (X : XInput E V)
    (y : YInput E' K) (names : Option (List String)) :
    let k := perpKit obX obY check o T argsort fmt
    let call := fitCall k (runCalls k (.fresh .erased hp prior level) cs).1 X y names
    call.2 = none → Spec.Every Spec.PerpAttributes call.1 := by
  intro k call h
  have hk : LawfulKit k PAttr.ofSplit (perpTree o T argsort) := perpKit_lawful obX obY check o T argsort fmt
  obtain ⟨x, z, ns, t0, -, -, -, -, -, he⟩ := fitCall_tree hk hp prior level cs X y names h
  change call.1 = perpObj (pruned T.predictLeaf hp t0) at he
  rw [he]
  generalize pruned T.predictLeaf hp t0 = t
  induction t with
  | leaf i => exact ⟨⟨rfl, rfl, rfl, rfl, rfl, rfl, rfl⟩, trivial, trivial⟩
  | split i sp l b c1 c2 h1 h2 =>
    refine ⟨⟨rfl, rfl, ?_⟩, h1, h2⟩
    rw [show (!(Obj.ofNode PAttr.erased PAttr.ofSplit c1).isAbsent || !(Obj.ofNode PAttr.erased PAttr.ofSplit c2).isAbsent)
      = true by rw [ofNode_isAbsent]; rfl]
    exact ⟨⟨sp.dim, sp.name, sp.value, rfl, rfl, rfl⟩, rfl, rfl⟩

end

section
variable {E E' K P O : Type} [Field K] [LinearOrder K] [Inhabited K] {obX : ObjOps E K} {obY : ObjOps E' K}
  {check : Option P → NArr K → Except Err Unit} {ar : HArith K} {T : Target K P K O} {opt : Optimizer K P K}
  {budget : Nat} {fmt : Fmt (HSplit K) P}

/-- C24 for hyperplane trees. -/
theorem C24_attributes_hyper (hp : Hyper K) (prior : Option P) (level : Nat) (cs : List (Call E K E' K)) (X : XInput E K)
    (y : YInput E' K) (names : Option (List String)) :
    let k := hyperKit obX obY check ar T opt budget fmt
    let call := fitCall k (runCalls k (.fresh none hp prior level) cs).1 X y names
    call.2 = none → Spec.Every Spec.HyperAttributes call.1 := by
  intro k call h
  have hk : LawfulKit k some (hyperTree ar T opt budget) := hyperKit_lawful obX obY check ar T opt budget fmt
  obtain ⟨x, z, ns, t0, -, -, -, -, -, he⟩ := fitCall_tree hk hp prior level cs X y names h
  change call.1 = hyperObj (pruned T.predictLeaf hp t0) at he
  rw [he]
  generalize pruned T.predictLeaf hp t0 = t
  induction t with
  | leaf i => exact ⟨⟨rfl, rfl, rfl, rfl, rfl⟩, trivial, trivial⟩
  | split i sp l b c1 c2 h1 h2 =>
    refine ⟨⟨rfl, rfl, ?_⟩, h1, h2⟩
    rw [show (!(Obj.ofNode none some c1).isAbsent || !(Obj.ofNode none some c2).isAbsent) = true by
      rw [ofNode_isAbsent]; rfl]
    exact ⟨rfl, rfl, rfl⟩

end

end BT
