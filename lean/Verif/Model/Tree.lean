import Verif.Model.Basic

/-!
# Fitted trees and the algorithms of `BaseTree` (base.py)

A fitted tree object is a value of `Node`.  Split descriptions are abstract (`Sp`), perpendicular and
hyperplane trees instantiate them.
-/

namespace BT

/-- Constructor parameters shared by all nodes of a tree (base.py:18-26).  `child_type` and
`is_regression` are fixed by the concrete class and not stored. -/
structure Hyper (K : Type) where
  partitionPrior : K
  delta : K
  prune : Bool
  splitPrecision : K
  deriving DecidableEq, Repr

/-- Attributes every fitted node has, leaf or not: the constructor arguments (base.py:18-26), and
`n_data_`, `posterior_` (base_perpendicular.py:188-189).  `n_dim_` is only set on nodes whose `_fit`
ran (base_perpendicular.py:187), not on children that get their posterior directly (ibid. 173-174). -/
structure Info (K P : Type) where
  hp : Hyper K
  prior : Option P
  level : Nat
  nDim : Option Nat
  nData : Nat
  posterior : P
  deriving DecidableEq, Repr

/-- A fitted node.  `leaf`: `split_value_` (perpendicular) or `best_hyperplane_normal_` (hyperplane)
is `None` and so are the children and both log-likelihoods (base.py:292-296).  `split`: all of them
are set (base_perpendicular.py:144-155). -/
inductive Node (Sp S K P : Type) where
  | leaf (info : Info K P)
  | split (info : Info K P) (sp : Sp) (logNoSplit bestLogSplit : S) (child1 child2 : Node Sp S K P)
  deriving DecidableEq, Repr

namespace Node
variable {Sp S K P : Type}

/-- The node's own attributes. -/
def info : Node Sp S K P → Info K P
  | leaf i => i
  | split i _ _ _ _ _ => i

/-- `is_leaf()` (base_perpendicular.py:201-203, base_hyperplane.py:130-132). -/
def isLeaf : Node Sp S K P → Bool
  | leaf _ => true
  | split _ _ _ _ _ _ => false

/-- `_update_depth` (base.py:272-280). -/
def updateDepth : Node Sp S K P → Nat → Nat
  | leaf i, depth => max depth i.level
  | split _ _ _ _ c1 c2, depth => c2.updateDepth (c1.updateDepth depth)

/-- `get_depth` (base.py:250-259). -/
def getDepth (t : Node Sp S K P) : Nat := t.updateDepth 0

/-- `_update_n_leaves` (base.py:282-290). -/
def updateNLeaves : Node Sp S K P → Nat → Nat
  | leaf _, n => n + 1
  | split _ _ _ _ c1 c2, n => c2.updateNLeaves (c1.updateNLeaves n)

/-- `get_n_leaves` (base.py:261-270). -/
def getNLeaves (t : Node Sp S K P) : Nat := t.updateNLeaves 0

end Node

/-- How a split sends rows to its children: two independent tests
(base_perpendicular.py:196-197 and base_hyperplane.py:125-126). -/
structure Router (Sp Row : Type) where
  goes1 : Sp → Row → Bool
  goes2 : Sp → Row → Bool

section predict
variable {Sp S K P Row O : Type}

/-- `_compute_child1_and_child2_indices(X, indices, dense)` (base_perpendicular.py:191-199,
base_hyperplane.py:123-128): positions *within* `indices` of the rows going to each child. -/
def childIndices (rt : Router Sp Row) (sp : Sp) (X : Nat → Row) (indices : List Nat) :
    List Nat × List Nat :=
  (npWhere (indices.map fun i => rt.goes1 sp (X i)),
   npWhere (indices.map fun i => rt.goes2 sp (X i)))

/-- numpy fancy indexing `a[idx]`.  Out-of-range indices raise in numpy; the positions the code uses
come from `np.where` on an array of the same length, so they are in range (`npWhere_lt`). -/
def take1 (a idx : List Nat) : List Nat := idx.map fun j => a.getD j 0

/-- The loop `for i in indices: y[i] = prediction` (base.py:130-131). -/
def writeAll (indices : List Nat) (v : O) (y : List O) : List O :=
  indices.foldl (fun y i => y.set i v) y

/-- `_predict(X, indices, predict_class, y)` (base.py:125-145).  `val` is the leaf value selected by
`predict_class` (raw data, class/value, or posterior mean).  The array `y` is returned updated. -/
def predictInto (rt : Router Sp Row) (val : Info K P → O) (X : Nat → Row) :
    Node Sp S K P → List Nat → List O → List O
  | .leaf i, indices, y => writeAll indices (val i) y
  | .split _ sp _ _ c1 c2, indices, y =>
    let r := childIndices rt sp X indices
    let y := if r.1.length > 0 then predictInto rt val X c1 (take1 indices r.1) y else y
    if r.2.length > 0 then predictInto rt val X c2 (take1 indices r.2) y else y

/-- Common body of `predict` (base.py:98-102), `predict_proba` (classification.py:43-46) and
`_get_raw_leaf_data` (base.py:189-193): `m` rows, result array initialised with `init`. -/
def predictRows (rt : Router Sp Row) (val : Info K P → O) (init : O) (X : Nat → Row) (m : Nat)
    (t : Node Sp S K P) : List O :=
  predictInto rt val X t (List.range m) (List.replicate m init)

end predict

section prune
variable {Sp S K P : Type}

/-- `_prune` (base.py:147-165), with fuel for the nested recursion.  `pred` is `_predict_leaf` of a
node.  A merged node keeps its own attributes, its split information is erased. -/
def pruneFuel {O : Type} [DecidableEq O] (pred : P → O) :
    Nat → Node Sp S K P → Except Err (Node Sp S K P)
  | 0, _ => .error .noTermination
  | _ + 1, .leaf i => .ok (.leaf i)
  | fuel + 1, .split i sp l b c1 c2 => do
    let t : Node Sp S K P := .split i sp l b c1 c2
    let depthStart := t.getDepth
    let nLeavesStart := t.getNLeaves
    let t' ←
      if c1.isLeaf && c2.isLeaf then
        if pred c1.info.posterior = pred c2.info.posterior then pure (Node.leaf i) else pure t
      else do
        let c1' ← pruneFuel pred fuel c1
        let c2' ← pruneFuel pred fuel c2
        pure (Node.split i sp l b c1' c2')
    if depthStart ≠ t'.getDepth ∨ nLeavesStart ≠ t'.getNLeaves then
      pruneFuel pred fuel t'
    else pure t'

/-- Number of nodes; only used to choose the fuel. -/
def Node.size : Node Sp S K P → Nat
  | .leaf _ => 1
  | .split _ _ _ _ c1 c2 => c1.size + c2.size + 1

/-- `_prune` run with fuel equal to the number of nodes (base.py:147-165).  That this fuel always
suffices is theorem `C21_prune`. -/
def prune {O : Type} [DecidableEq O] (pred : P → O) (t : Node Sp S K P) :
    Except Err (Node Sp S K P) :=
  pruneFuel pred t.size t

end prune

end BT
