import Verif.Model.Hyper
import Verif.Model.Predict

/-!
# Model objects with mutable attributes

`Model/Tree.lean` describes the outcome of a successful fit.  Here a model is an object whose attributes
are assigned one after the other, so that the state left behind by an exception is visible.  The
functions below follow the same Python code; `Lemmas/Object.lean` proves that on success they agree with
the functions of `Model/Tree.lean`, `Model/Perp.lean` and `Model/Hyper.lean`.
-/

namespace BT

/-- Attributes assigned by `_fit` (base_perpendicular.py:144-152, 187-189, base_hyperplane.py:87-94,
119-121, base.py:292-296).  `split` bundles the split attributes proper.  A value `None` and an attribute
that was never assigned are not distinguished, except for `posterior_`, whose existence is what
`is_fitted` tests (base.py:247-248) and which is never `None`. -/
structure Attrs (A S P : Type) where
  split : A
  logNoSplit : Option S
  bestLogSplit : Option S
  nDim : Option Nat
  nData : Option Nat
  posterior : Option P
  deriving DecidableEq, Repr

/-- A model object: constructor arguments (base.py:18-26), attributes and the two children `child1_`,
`child2_`.  `absent` is a child that is `None` (or was never assigned). -/
inductive Obj (A S K P : Type) where
  | absent
  | mk (hp : Hyper K) (prior : Option P) (level : Nat) (a : Attrs A S P) (c1 c2 : Obj A S K P)
  deriving DecidableEq, Repr

namespace Obj
variable {A Sp S K P O Row : Type}

/-- A freshly constructed object (base.py:18-26); `erased` are the split attributes after
`_erase_split_info`. -/
def fresh (erased : A) (hp : Hyper K) (prior : Option P) (level : Nat) : Obj A S K P :=
  .mk hp prior level ⟨erased, none, none, none, none, none⟩ .absent .absent

/-- `self.child1_ is None`. -/
def isAbsent : Obj A S K P → Bool
  | .absent => true
  | .mk _ _ _ _ _ _ => false

/-- `is_fitted()` (base.py:247-248). -/
def isFitted : Obj A S K P → Bool
  | .absent => false
  | .mk _ _ _ a _ _ => a.posterior.isSome

/-- `self.n_dim_`. -/
def nDim : Obj A S K P → Option Nat
  | .absent => none
  | .mk _ _ _ a _ _ => a.nDim

/-- `self.prior`. -/
def prior : Obj A S K P → Option P
  | .absent => none
  | .mk _ p _ _ _ _ => p

/-- `self.prune`. -/
def pruneFlag : Obj A S K P → Bool
  | .absent => false
  | .mk hp _ _ _ _ _ => hp.prune

/-- Upper bound for the number of nested calls of `_prune`; only used as fuel. -/
def size : Obj A S K P → Nat
  | .absent => 0
  | .mk _ _ _ _ c1 c2 => c1.size + c2.size + 1

/-- `is_leaf()` (base_perpendicular.py:201-203, base_hyperplane.py:130-132): raises `ValueError` on an
object that is not fitted.  `view` reads the split attributes, `none` if the object has no split.
Calling a method of `None` is an `AttributeError`. -/
def isLeaf (view : A → Option Sp) : Obj A S K P → Except Err Bool
  | .absent => .error .attributeError
  | .mk _ _ _ a _ _ =>
    match a.posterior with
    | none => .error .valueError
    | some _ => .ok (view a.split).isNone

/-- `_update_depth` (base.py:272-280). -/
def updateDepth (view : A → Option Sp) : Obj A S K P → Nat → Except Err Nat
  | .absent, _ => .error .attributeError
  | .mk _ _ level a c1 c2, depth =>
    match a.posterior with
    | none => .error .valueError
    | some _ =>
      match view a.split with
      | none => .ok (max depth level)
      | some _ =>
        if c1.isAbsent then .ok depth
        else
          match updateDepth view c1 depth with
          | .error e => .error e
          | .ok d => updateDepth view c2 d

/-- `_update_n_leaves` (base.py:282-290). -/
def updateNLeaves (view : A → Option Sp) : Obj A S K P → Nat → Except Err Nat
  | .absent, _ => .error .attributeError
  | .mk _ _ _ a c1 c2, n =>
    match a.posterior with
    | none => .error .valueError
    | some _ =>
      match view a.split with
      | none => .ok (n + 1)
      | some _ =>
        if c1.isAbsent then .ok n
        else
          match updateNLeaves view c1 n with
          | .error e => .error e
          | .ok m => updateNLeaves view c2 m

/-- `_predict(X, indices, predict_class, y)` (base.py:125-145) on an object; `val` is the leaf value
selected by `predict_class`, computed from `self.prior` and `self.posterior_`. -/
def predictInto (view : A → Option Sp) (rt : Router Sp Row) (val : Option P → P → O) (X : Nat → Row) :
    Obj A S K P → List Nat → List O → Except Err (List O)
  | .absent, _, _ => .error .attributeError
  | .mk _ prior _ a c1 c2, indices, y =>
    match a.posterior with
    | none => .error .valueError
    | some post =>
      match view a.split with
      | none => .ok (writeAll indices (val prior post) y)
      | some sp =>
        let r := childIndices rt sp X indices
        match (if r.1.length > 0 then predictInto view rt val X c1 (take1 indices r.1) y else .ok y) with
        | .error e => .error e
        | .ok y => if r.2.length > 0 then predictInto view rt val X c2 (take1 indices r.2) y else .ok y

/-- `self._erase_split_info_base(); self._erase_split_info()` (base.py:292-296,
base_perpendicular.py:215-218, base_hyperplane.py:158-160). -/
def erase (erased : A) : Obj A S K P → Obj A S K P
  | .absent => .absent
  | .mk hp prior level a _ _ =>
    .mk hp prior level { a with split := erased, logNoSplit := none, bestLogSplit := none } .absent .absent

/-- `_predict_leaf()` (classification.py:110-112, regression.py:117-119): `AttributeError` if there is no
`posterior_`. -/
def predictLeaf (pred : P → O) : Obj A S K P → Except Err O
  | .absent => .error .attributeError
  | .mk _ _ _ a _ _ =>
    match a.posterior with
    | none => .error .attributeError
    | some p => .ok (pred p)

/-- `_prune` (base.py:147-165) on an object.  If a call inside raises, the exception propagates; the
state is then not tracked further (`Lemmas/Object.lean`: after a successful `_fit` nothing raises). -/
def pruneFuel [DecidableEq O] (view : A → Option Sp) (erased : A) (pred : P → O) :
    Nat → Obj A S K P → Except Err (Obj A S K P)
  | 0, _ => .error .noTermination
  | _ + 1, .absent => .error .attributeError
  | fuel + 1, .mk hp prior level a c1 c2 => do
    let self : Obj A S K P := .mk hp prior level a c1 c2
    if (← self.isLeaf view) then pure self
    else
      let depthStart ← self.updateDepth view 0
      let nLeavesStart ← self.updateNLeaves view 0
      let leaf1 ← c1.isLeaf view
      let leaf2 ← (if leaf1 then c2.isLeaf view else pure false)
      let self' ←
        if leaf1 && leaf2 then do
          let p1 ← c1.predictLeaf pred
          let p2 ← c2.predictLeaf pred
          if p1 = p2 then pure (self.erase erased) else pure self
        else do
          let c1' ← pruneFuel view erased pred fuel c1
          let c2' ← pruneFuel view erased pred fuel c2
          pure (.mk hp prior level a c1' c2')
      let depthEnd ← self'.updateDepth view 0
      -- `or` does not evaluate its second operand if the first holds
      if depthStart ≠ depthEnd then pruneFuel view erased pred fuel self'
      else
        let nLeavesEnd ← self'.updateNLeaves view 0
        if nLeavesStart ≠ nLeavesEnd then pruneFuel view erased pred fuel self' else pure self'

/-- The object a fitted tree stands for. -/
def ofNode (erased : A) (attr : Sp → A) : Node Sp S K P → Obj A S K P
  | .leaf i => .mk i.hp i.prior i.level ⟨erased, none, none, i.nDim, some i.nData, some i.posterior⟩
      .absent .absent
  | .split i sp l b c1 c2 =>
    .mk i.hp i.prior i.level ⟨attr sp, some l, some b, i.nDim, some i.nData, some i.posterior⟩
      (ofNode erased attr c1) (ofNode erased attr c2)

end Obj

/-- `child.posterior_ = ...; child.n_data_ = ...` for a new child that is not fitted further
(base_perpendicular.py:153-161, 173-174, base_hyperplane.py:95-103, 109-110). -/
def directChild {A S K P : Type} (erased : A) (hp : Hyper K) (prior : P) (level nData : Nat)
    (posterior : P) : Obj A S K P :=
  .mk hp (some prior) level ⟨erased, none, none, none, some nData, some posterior⟩ .absent .absent

section perp
variable {V K P S O : Type}

/-- Split attributes of a perpendicular object: `split_dimension_`, `split_feature_name_`,
`split_value_` (base_perpendicular.py:144-149, 215-218). -/
structure PAttr (V : Type) where
  dim : Int
  name : Option String
  value : Option V
  deriving DecidableEq, Repr

/-- Their values after `_erase_split_info` (base_perpendicular.py:215-218). -/
def PAttr.erased : PAttr V := ⟨-1, none, none⟩

/-- Their values on a node with the given split. -/
def PAttr.ofSplit (sp : PSplit V) : PAttr V := ⟨sp.dim, some sp.name, some sp.value⟩

/-- Reading the split attributes; `is_leaf` looks at `split_value_` only (base_perpendicular.py:203). -/
def PAttr.view (a : PAttr V) : Option (PSplit V) :=
  a.value.map fun v => ⟨a.dim.toNat, a.name.getD "None", v⟩

/-- A perpendicular model object. -/
abbrev PObj (V S K P : Type) := Obj (PAttr V) S K P

/-- `_fit` (base_perpendicular.py:76-189) as a state change of the object, with the exception raised, if
any.  The attributes are assigned in the order of the code: `split_dimension_` (144) before
`feature_names[...]` is evaluated (145), the children (153-161) before they are fitted, `n_dim_`,
`n_data_`, `posterior_` last (187-189). -/
def perpFitObj [LT S] [DecidableLT S] [DecidableEq K] [Zero K] [One K]
    (o : XOps V K) (T : Target K P S O)
    (X : Nat → Nat → V) (y : Nat → K) (nDim : Nat) (names : List String) :
    Nat → PObj V S K P → List (List Nat) → PObj V S K P × Option Err
  | 0, self, _ => (self, some .noTermination)
  | _ + 1, .absent, _ => (.absent, some .attributeError)
  | fuel + 1, .mk hp priorAttr level a c1 c2, sid =>
    match sid with
    | [] => (.mk hp priorAttr level a c1 c2, some .indexError)
    | row0 :: _ =>
      let nData := shape1 sid
      let prior := T.getPrior priorAttr nData nDim
      let yAny := row0.map y
      let logNoSplit := T.logNoSplit hp.partitionPrior level yAny prior
      let best := (List.range nDim).foldl
        (searchDim o T hp level X y nDim prior sid) ⟨logNoSplit, none⟩
      match best.split with
      | none =>
        (.mk hp priorAttr level
          ⟨.erased, none, none, some nDim, some nData, some (T.posterior yAny prior 1)⟩ .absent .absent, none)
      | some (dim, k) =>
        let indices1 := (sid.getD dim []).take k
        let indices2 := (sid.getD dim []).drop k
        let prior1 := if hp.delta ≠ 0 then T.posterior (indices1.map y) prior hp.delta else prior
        let prior2 := if hp.delta ≠ 0 then T.posterior (indices2.map y) prior hp.delta else prior
        let a1 := { a with split := { a.split with dim := (dim : Int) } }
        match names[dim]? with
        | none => (.mk hp priorAttr level a1 c1 c2, some .indexError)
        | some name =>
          let a2 := { a1 with split := { a1.split with name := some name } }
          match indices1.getLast?, indices2.head? with
          | some last1, some first2 =>
            let a3 : Attrs (PAttr V) S P :=
              { a2 with split := { a2.split with value := some (o.mid (X last1 dim) (X first2 dim)) },
                        logNoSplit := some logNoSplit, bestLogSplit := some best.score }
            let new1 : PObj V S K P := .fresh .erased hp (some prior1) (level + 1)
            let new2 : PObj V S K P := .fresh .erased hp (some prior2) (level + 1)
            let sid1 := restrictSid nDim sid indices1
            let sid2 := restrictSid nDim sid indices2
            let y1 := indices1.map y
            let y2 := indices2.map y
            let r1 : PObj V S K P × Option Err :=
              if shape1 sid1 > 1 ∧ (distinct y1).length > 1 then
                perpFitObj o T X y nDim names fuel new1 sid1
              else (directChild .erased hp prior1 (level + 1) (shape1 sid1) (T.posterior y1 prior 1), none)
            match r1.2 with
            | some e => (.mk hp priorAttr level a3 r1.1 new2, some e)
            | none =>
              let r2 : PObj V S K P × Option Err :=
                if shape1 sid2 > 1 ∧ (distinct y2).length > 1 then
                  perpFitObj o T X y nDim names fuel new2 sid2
                else (directChild .erased hp prior2 (level + 1) (shape1 sid2) (T.posterior y2 prior 1), none)
              match r2.2 with
              | some e => (.mk hp priorAttr level a3 r1.1 r2.1, some e)
              | none =>
                (.mk hp priorAttr level
                  { a3 with nDim := some nDim, nData := some nData,
                            posterior := some (T.posterior yAny prior 1) } r1.1 r2.1, none)
          | _, _ => (.mk hp priorAttr level a2 c1 c2, some .indexError)

/-- `_update_prediction_paths(X, indices, paths)` (base_perpendicular.py:45-70) on an object. -/
def updatePathsObj (o : XOps V K) (X : Nat → Nat → V) :
    PObj V S K P → List Nat → List (List (PathStep V)) → Except Err (List (List (PathStep V)))
  | .absent, _, _ => .error .attributeError
  | .mk _ _ _ a c1 c2, indices, paths =>
    match a.posterior with
    | none => .error .valueError
    | some _ =>
      match a.split.view with
      | none => .ok paths
      | some sp =>
        let r := childIndices (perpRouter o) sp X indices
        let paths := if r.1.length > 0 then
          appendAll r.1 (⟨sp.dim, sp.name, sp.value, false⟩ : PathStep V) paths else paths
        let paths := if r.2.length > 0 then
          appendAll r.2 (⟨sp.dim, sp.name, sp.value, true⟩ : PathStep V) paths else paths
        let step1 : Except Err (List (List (PathStep V))) :=
          if r.1.length > 0 then
            match c1.isLeaf PAttr.view with
            | .error e => .error e
            | .ok true => .ok paths
            | .ok false =>
              (updatePathsObj o X c1 r.1 (r.1.map fun i => paths.getD i [])).map fun s => writeBack r.1 s paths
          else .ok paths
        match step1 with
        | .error e => .error e
        | .ok paths =>
          if r.2.length > 0 then
            match c2.isLeaf PAttr.view with
            | .error e => .error e
            | .ok true => .ok paths
            | .ok false =>
              (updatePathsObj o X c2 r.2 (r.2.map fun i => paths.getD i [])).map fun s => writeBack r.2 s paths
          else .ok paths

/-- `_update_feature_importance` (base_perpendicular.py:205-213) on an object. -/
def perpUpdateImportanceObj [Field K] : PObj V K K P → List K → Except Err (List K)
  | .absent, _ => .error .attributeError
  | .mk _ _ _ a c1 c2, fi =>
    match a.posterior with
    | none => .error .valueError
    | some _ =>
      match a.split.view, a.bestLogSplit, a.logNoSplit with
      | none, _, _ => .ok fi
      | some sp, some b, some l =>
        if c1.isAbsent then .ok (addAt fi sp.dim (b - l))
        else
          match perpUpdateImportanceObj c1 (addAt fi sp.dim (b - l)) with
          | .error e => .error e
          | .ok fi => perpUpdateImportanceObj c2 fi
      | some _, _, _ => .error .typeError

end perp

section hyper
variable {K P S O : Type} [Field K] [LinearOrder K]

/-- A hyperplane model object; the split attributes are `best_hyperplane_normal_` and
`best_hyperplane_origin_`, assigned together (base_hyperplane.py:89-90, 158-160). -/
abbrev HObj (S K P : Type) := Obj (Option (HSplit K)) S K P

/-- `_fit` (base_hyperplane.py:22-121) as a state change.  The optimizer runs first (54), then the split
information is erased (59-60); the rest is assigned in the order of the code. -/
def hFitObj [Neg S] [LT S] [LE S] [DecidableLT S] [DecidableLE S] (c : HCtx K P S O) :
    Nat → HObj S K P → List Nat → HObj S K P × Option Err
  | 0, self, _ => (self, some .noTermination)
  | _ + 1, .absent, _ => (.absent, some .attributeError)
  | fuel + 1, .mk hp priorAttr level a c1 c2, rows =>
    let cs := { c with hp := hp }
    let prior := c.T.getPrior priorAttr rows.length c.nDim
    let q := hProblem cs prior level rows
    match hSolve c.A c.T q (c.opt.solve q) c.budget [] (hInit q) with
    | .error e => (.mk hp priorAttr level a c1 c2, some e)
    | .ok st =>
      let a0 : Attrs (Option (HSplit K)) S P :=
        { a with split := none, logNoSplit := none, bestLogSplit := none }
      let finish (a : Attrs (Option (HSplit K)) S P) (d1 d2 : HObj S K P) : HObj S K P × Option Err :=
        (.mk hp priorAttr level
          { a with nDim := some c.nDim, nData := some rows.length,
                   posterior := some (c.T.posterior (rows.map c.y) prior 1) } d1 d2, none)
      match st.best with
      | none => finish a0 .absent .absent
      | some sp =>
        let indices1 := rows.filter fun i => hyperRouter.goes1 sp (c.X i)
        let indices2 := rows.filter fun i => hyperRouter.goes2 sp (c.X i)
        if indices1.length > 0 ∧ indices2.length > 0 then
          let y1 := indices1.map c.y
          let y2 := indices2.map c.y
          let prior1 := c.T.posterior y1 prior 0
          let prior2 := c.T.posterior y2 prior 0
          let a1 : Attrs (Option (HSplit K)) S P :=
            { a0 with split := some sp, logNoSplit := some q.noSplit, bestLogSplit := some st.bestScore }
          let new1 : HObj S K P := .fresh none hp (some prior1) (level + 1)
          let new2 : HObj S K P := .fresh none hp (some prior2) (level + 1)
          let r1 : HObj S K P × Option Err :=
            if indices1.length > 1 ∧ (distinct y1).length > 1 then hFitObj c fuel new1 indices1
            else (directChild none hp prior1 (level + 1) indices1.length (c.T.posterior y1 prior 1), none)
          match r1.2 with
          | some e => (.mk hp priorAttr level a1 r1.1 new2, some e)
          | none =>
            let r2 : HObj S K P × Option Err :=
              if indices2.length > 1 ∧ (distinct y2).length > 1 then hFitObj c fuel new2 indices2
              else (directChild none hp prior2 (level + 1) indices2.length (c.T.posterior y2 prior 1), none)
            match r2.2 with
            | some e => (.mk hp priorAttr level a1 r1.1 r2.1, some e)
            | none => finish a1 r1.1 r2.1
        else finish a0 .absent .absent

/-- `_update_feature_importance` (base_hyperplane.py:143-156) on an object. -/
def hyperUpdateImportanceObj : HObj K K P → List K → Except Err (List K)
  | .absent, _ => .error .attributeError
  | .mk _ _ _ a c1 c2, fi =>
    match a.posterior with
    | none => .error .valueError
    | some _ =>
      match a.split, a.bestLogSplit, a.logNoSplit with
      | none, _, _ => .ok fi
      | some sp, some b, some l =>
        let fi := List.zipWith (fun f v => f + (b - l) * |v|) fi sp.normal
        if c1.isAbsent then .ok fi
        else
          match hyperUpdateImportanceObj c1 fi with
          | .error e => .error e
          | .ok fi => hyperUpdateImportanceObj c2 fi
      | some _, _, _ => .error .typeError

end hyper

end BT
