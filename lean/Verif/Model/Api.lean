import Verif.Model.Str
import Mathlib.Data.List.Sort

/-!
# The public methods: validation, fitting, queries

Arrays are given by shape and flat content in row-major order.  Numeric arrays hold values of type `V`
(features) or `K` (targets, finite numbers); the dtype only matters for `_ensure_float64`, arithmetic on
the values is that of the fit's operations.  Arrays of any other dtype hold opaque elements `E`.
Not modelled: `verbose` printing, ragged lists, sparse matrices of a non-numeric dtype, pandas targets
(see `Model/Series.lean`), numeric dtypes other than those listed in base.py:228-230 with sparse storage.
-/

namespace BT

/-- The dtypes that are kept as they are (base.py:227-230). -/
inductive DType where
  | int8 | int16 | int32 | int64 | uint8 | uint16 | uint32 | uint64 | float32 | float64
  deriving DecidableEq, Repr

/-- An array of one of these dtypes. -/
structure NArr (V : Type) where
  shape : List Nat
  dt : DType
  data : List V
  deriving DecidableEq, Repr

/-- Any numpy array: numeric, or of another dtype (bool, object, str, float16, ...) with elements `E`. -/
inductive Arr (E V : Type) where
  | native (a : NArr V)
  | other (shape : List Nat) (data : List E)
  deriving DecidableEq, Repr

namespace Arr
variable {E V : Type}

/-- `a.shape`. -/
def shape : Arr E V → List Nat
  | native a => a.shape
  | other s _ => s

/-- `a` with another shape (same entries in the same order). -/
def withShape (s : List Nat) : Arr E V → Arr E V
  | native a => native { a with shape := s }
  | other _ d => other s d

/-- `a.squeeze()`: axes of length one are removed. -/
def squeeze (a : Arr E V) : Arr E V := a.withShape (a.shape.filter (· ≠ 1))

end Arr

/-- What numpy does with an element of another dtype: conversion to float64 (`astype`), which may raise,
and comparison with the converted value. -/
structure ObjOps (E V : Type) where
  toFloat : E → Except Err V
  same : E → V → Bool

section
variable {E V E' K P S O A Sp : Type}

/-- `data.astype(np.float64)`: the first element that cannot be converted raises. -/
def convertAll (ob : ObjOps E V) : List E → Except Err (List V)
  | [] => .ok []
  | e :: es =>
    match ob.toFloat e with
    | .error err => .error err
    | .ok v =>
      match convertAll ob es with
      | .error err => .error err
      | .ok vs => .ok (v :: vs)

/-- `_ensure_float64(data)` (base.py:225-238). -/
def ensureFloat64 (ob : ObjOps E V) : Arr E V → Except Err (NArr V)
  | .native a => .ok a
  | .other shape data =>
    match convertAll ob data with
    | .error e => .error e
    | .ok vs =>
      if (List.zipWith ob.same data vs).all id then .ok ⟨shape, .float64, vs⟩ else .error .valueError

/-- Argument `y` of `fit`: a list (given by what `np.array` makes of it), an array, or an object without a
method `squeeze`. -/
inductive YInput (E K : Type) where
  | list (a : Arr E K)
  | array (a : Arr E K)
  | other

/-- Argument `X` of the public methods: a data frame (column names and its `values`), a list (given by
what `np.array` makes of it), a scalar (given by its one-element content), an array, a sparse matrix
(given by shape and entries), or an object without `ndim`. -/
inductive XInput (E V : Type) where
  | frame (columns : List String) (values : Arr E V)
  | list (a : Arr E V)
  | scalar (a : Arr E V)
  | array (a : Arr E V)
  | sparse (a : NArr V)
  | other

/-- `['x{}'.format(i) for i in range(n)]` (base.py:216). -/
def defaultNames (n : Nat) : List String := (List.range n).map fun i => "x" ++ toString i

/-- `np.expand_dims(X, 0)` for a 1-D array (base.py:212-213): one row. -/
def expandRow (a : Arr E V) : Arr E V :=
  match a.shape with
  | [n] => a.withShape [1, n]
  | _ => a

/-- Branch for anything but data frames (base.py:206-216), for an array `a`: a 1-D array becomes one row,
missing names are generated, where `X.shape[1]` raises `IndexError` for a 0-d array. -/
def expandAndName (a : Arr E V) (names : Option (List String)) : Except Err (Arr E V × List String) :=
  match names with
  | some ns => .ok (expandRow a, ns)
  | none =>
    match (expandRow a).shape[1]? with
    | none => .error .indexError
    | some m => .ok (expandRow a, defaultNames m)

/-- The part of `_normalize_data_and_feature_names` before the dtype conversion (base.py:201-216). -/
def toArrayAndNames (X : XInput E V) (names : Option (List String)) :
    Except Err (Arr E V × List String) :=
  match X with
  | .frame columns values => .ok (values, names.getD columns)
  | .list a => expandAndName a names
  | .scalar a => expandAndName (a.withShape [1]) names
  | .array a => expandAndName a names
  | .sparse a => expandAndName (.native a) names
  | .other => .error .attributeError

/-- `_normalize_data_and_feature_names(X, feature_names)` (base.py:199-223). -/
def normalize (ob : ObjOps E V) (X : XInput E V) (names : Option (List String)) :
    Except Err (NArr V × List String) :=
  match toArrayAndNames X names with
  | .error e => .error e
  | .ok (a, names) =>
    match ensureFloat64 ob a with
    | .error e => .error e
    | .ok x => if x.shape.length ≠ 2 then .error .valueError else .ok (x, names)

/-- First part of the validation of `fit` (base.py:57-61). -/
def normalizeTarget (ob : ObjOps E K) (y : YInput E K) : Except Err (NArr K) :=
  match y with
  | .list a => ensureFloat64 ob a.squeeze
  | .array a => ensureFloat64 ob a.squeeze
  | .other => .error .attributeError

/-- `X.shape[0]` of a normalised matrix, `len(y)` of a vector. -/
def NArr.rows (a : NArr V) : Nat := a.shape.getD 0 0

/-- `X.shape[1]` of a normalised matrix. -/
def NArr.cols (a : NArr V) : Nat := a.shape.getD 1 0

/-- Entries of a matrix. -/
def NArr.mat [Inhabited V] (a : NArr V) : Nat → Nat → V := fun i j => a.data.getD (i * a.cols + j) default

/-- Entries of a vector. -/
def NArr.vec [Inhabited V] (a : NArr V) : Nat → V := fun i => a.data.getD i default

end

section targets
variable {K : Type} [LinearOrder K] [NatCast K]

/-- `np.unique(l)`: the distinct values in ascending order. -/
def npUnique (l : List K) : List K := (distinct l).insertionSort (· ≤ ·)

/-- `np.all(u == a)` for 1-D arrays with numpy broadcasting: an array of length one is compared with every
element of the other.  For other differing lengths numpy returns `False` or (newer versions) raises
`ValueError`; in `_check_target` both lead to a `ValueError`. -/
def allEqual (u a : List K) : Bool :=
  if u.length = a.length then (List.zipWith (fun x y => decide (x = y)) u a).all id
  else match u, a with
    | [x], a => a.all fun y => decide (x = y)
    | u, [y] => u.all fun x => decide (x = y)
    | _, _ => false

/-- `_check_target` of classification trees (classification.py:48-54); `len(None)` raises `TypeError`. -/
def clsCheckTarget (prior : Option (List K)) (y : NArr K) : Except Err Unit :=
  if y.shape.length ≠ 1 then .error .valueError
  else match prior with
    | none => .error .typeError
    | some p =>
      if allEqual (npUnique y.data) ((List.range p.length).map fun (i : Nat) => (i : K)) then .ok ()
      else .error .valueError

/-- `_check_target` of regression trees (regression.py:25-27). -/
def regCheckTarget {P K : Type} (_prior : Option P) (y : NArr K) : Except Err Unit :=
  if y.shape.length ≠ 1 then .error .valueError else .ok ()

end targets

section calls
variable {E V E' K P S O A Sp : Type}

/-- What a concrete class supplies to the public methods of `BaseTree`. -/
structure Kit (E V E' K P S O A Sp : Type) where
  /-- conversion of features and targets of unusual dtype -/
  obX : ObjOps E V
  obY : ObjOps E' K
  /-- `_check_target` with `self.prior` as first argument -/
  check : Option P → NArr K → Except Err Unit
  /-- `_fit(X, y, verbose, feature_names, 'root')` -/
  core : NArr V → NArr K → List String → Obj A S K P → Obj A S K P × Option Err
  /-- reading and erasing the split attributes -/
  view : A → Option Sp
  erased : A
  /-- `_compute_child1_and_child2_indices` -/
  router : Router Sp (Nat → V)
  T : Target K P S O
  /-- `_update_feature_importance` -/
  importance : Obj A S K P → List K → Except Err (List K)
  /-- `_update_prediction_paths` from empty paths for all rows, if the class has `prediction_paths` -/
  paths : Option (Obj A S K P → NArr V → Except Err (List (List (PathStep V))))
  /-- formatting for `str` -/
  fmt : Fmt Sp P

/-- Validation in `fit` (base.py:57-66). -/
def validate (k : Kit E V E' K P S O A Sp) (prior : Option P) (X : XInput E V) (y : YInput E' K)
    (names : Option (List String)) : Except Err (NArr V × NArr K × List String) :=
  match normalizeTarget k.obY y with
  | .error e => .error e
  | .ok y =>
    match k.check prior y with
    | .error e => .error e
    | .ok () =>
      match normalize k.obX X names with
      | .error e => .error e
      | .ok (X, names) => if X.rows ≠ y.rows then .error .valueError else .ok (X, y, names)

/-- `fit(X, y, verbose, feature_names)` (base.py:28-74) as a state change of the model, with the exception
raised, if any.  `fit` returns `self`. -/
def fitCall [DecidableEq K] (k : Kit E V E' K P S O A Sp) (self : Obj A S K P) (X : XInput E V)
    (y : YInput E' K) (names : Option (List String)) : Obj A S K P × Option Err :=
  match validate k self.prior X y names with
  | .error e => (self, some e)
  | .ok (X, y, names) =>
    let r := k.core X y names self
    match r.2 with
    | some e => (r.1, some e)
    | none =>
      if r.1.pruneFlag then
        match r.1.pruneFuel k.view k.erased k.T.predictLeaf r.1.size with
        | .error e => (r.1, some e)
        | .ok o => (o, none)
      else (r.1, none)

/-- `_ensure_is_fitted(X)` (base.py:240-245) with the number of columns of `X`. -/
def ensureIsFitted (self : Obj A S K P) (cols : Option Nat) : Except Err Unit :=
  if !self.isFitted then .error .valueError
  else match cols with
    | none => .ok ()
    | some c =>
      match self.nDim with
      | none => .error .attributeError
      | some d => if c ≠ d then .error .valueError else .ok ()

/-- Input transformation and checks of the prediction methods (base.py:94-96, 185-187,
classification.py:40-42, base_perpendicular.py:37-38). -/
def checkedX (k : Kit E V E' K P S O A Sp) (self : Obj A S K P) (X : XInput E V) : Except Err (NArr V) :=
  match normalize k.obX X none with
  | .error e => .error e
  | .ok (X, _) =>
    match ensureIsFitted self (some X.cols) with
    | .error e => .error e
    | .ok () => .ok X

/-- A prediction method: checks, then `_predict` on all rows into an array filled with `init`. -/
def predictCall {R : Type} [Inhabited V] (k : Kit E V E' K P S O A Sp) (val : Option P → P → R) (init : R)
    (self : Obj A S K P) (X : XInput E V) : Except Err (List R) :=
  match checkedX k self X with
  | .error e => .error e
  | .ok X => self.predictInto k.view k.router val X.mat (List.range X.rows) (List.replicate X.rows init)

/-- The queries; `paths` exists on perpendicular trees only. -/
inductive Query (E V : Type) where
  | predict (X : XInput E V)
  | predictProba (X : XInput E V)
  | rawLeafData (X : XInput E V)
  | featureImportance
  | depth
  | nLeaves
  | str
  | paths (X : XInput E V)

/-- Their results. -/
inductive Answer (V K P O : Type) where
  | values (l : List K)
  | means (l : List (Option O))
  | raw (l : List (Option (Option P × P)))
  | importance (l : List (Option K))
  | number (n : Nat)
  | text (s : String)
  | paths (l : List (List (PathStep V)))
  deriving DecidableEq

/-- `fi /= fi.sum()` (base.py:121), `none` standing for NaN. -/
def normalizeAll [Field K] [DecidableEq K] (fi : List K) : List (Option K) := normalizeImportance fi

/-- Answering a query on a model: `predict` (base.py:76-102), `predict_proba` (classification.py:26-46),
`_get_raw_leaf_data` (base.py:167-193), `feature_importance` (base.py:104-123, base_hyperplane.py:134-141),
`get_depth` (base.py:250-259), `get_n_leaves` (base.py:261-270), `__str__`, `prediction_paths`
(base_perpendicular.py:22-43). -/
def ask [Inhabited V] [Field K] [DecidableEq K] (k : Kit E V E' K P S O A Sp) (self : Obj A S K P) :
    Query E V → Except Err (Answer V K P O)
  | .predict X => (predictCall k (fun _ p => k.T.predictLeaf p) 0 self X).map .values
  | .predictProba X => (predictCall k (fun _ p => some (k.T.posteriorMean p)) none self X).map .means
  | .rawLeafData X => (predictCall k (fun q p => some (q, p)) none self X).map .raw
  | .featureImportance =>
    match ensureIsFitted self none with
    | .error e => .error e
    | .ok () =>
      match self.nDim with
      | none => .error .attributeError
      | some d => (k.importance self (List.replicate d 0)).map fun fi => .importance (normalizeAll fi)
  | .depth => (self.updateDepth k.view 0).map .number
  | .nLeaves => (self.updateNLeaves k.view 0).map .number
  | .str => (str k.fmt k.view self).map .text
  | .paths X =>
    match k.paths with
    | none => .error .attributeError
    | some f =>
      match checkedX k self X with
      | .error e => .error e
      | .ok X => (f self X).map .paths

/-- Calls of the public interface. -/
inductive Call (E V E' K : Type) where
  | fit (X : XInput E V) (y : YInput E' K) (names : Option (List String))
  | query (q : Query E V)

/-- One call on a model: new state and result (`fit` returns the model itself, `none`). -/
def step [Inhabited V] [Field K] [DecidableEq K] (k : Kit E V E' K P S O A Sp) (self : Obj A S K P) :
    Call E V E' K → Obj A S K P × Except Err (Option (Answer V K P O))
  | .fit X y names =>
    let r := fitCall k self X y names
    (r.1, match r.2 with
      | none => .ok none
      | some e => .error e)
  | .query q => (self, (ask k self q).map some)

/-- A history of calls: final state and all results. -/
def runCalls [Inhabited V] [Field K] [DecidableEq K] (k : Kit E V E' K P S O A Sp) :
    Obj A S K P → List (Call E V E' K) → Obj A S K P × List (Except Err (Option (Answer V K P O)))
  | self, [] => (self, [])
  | self, c :: cs =>
    let r := step k self c
    let rs := runCalls k r.1 cs
    (rs.1, r.2 :: rs.2)

end calls

section kits
variable {E V E' K P S O : Type}

/-- `_fit` of a perpendicular root (base_perpendicular.py:76-99 computes the sort indices first). -/
def perpCore [LT S] [DecidableLT S] [DecidableEq K] [Zero K] [One K] [Inhabited V] [Inhabited K]
    (o : XOps V K) (T : Target K P S O) (argsort : List V → List Nat) (X : NArr V) (y : NArr K)
    (names : List String) (self : PObj V S K P) : PObj V S K P × Option Err :=
  perpFitObj o T X.mat y.vec X.cols names (X.rows + 1) self (sortMatrix argsort X.mat X.rows X.cols)

/-- A perpendicular class. -/
def perpKit [Field K] [LinearOrder K] [Inhabited V] [Inhabited K] (obX : ObjOps E V) (obY : ObjOps E' K)
    (check : Option P → NArr K → Except Err Unit) (o : XOps V K) (T : Target K P K O)
    (argsort : List V → List Nat) (fmt : Fmt (PSplit V) P) : Kit E V E' K P K O (PAttr V) (PSplit V) where
  obX := obX
  obY := obY
  check := check
  core := perpCore o T argsort
  view := PAttr.view
  erased := .erased
  router := perpRouter o
  T := T
  importance := perpUpdateImportanceObj
  paths := some fun self X =>
    updatePathsObj o X.mat self (List.range X.rows) (List.replicate X.rows [])
  fmt := fmt

/-- `_fit` of a hyperplane root. -/
def hyperCore [Field K] [LinearOrder K] [Inhabited K] [Neg S] [LT S] [LE S] [DecidableLT S] [DecidableLE S]
    (ar : HArith K) (T : Target K P S O) (opt : Optimizer K P S) (budget : Nat) (X : NArr K) (y : NArr K)
    (_names : List String) (self : HObj S K P) : HObj S K P × Option Err :=
  match self with
  | .absent => (.absent, some .attributeError)
  | .mk hp prior level a c1 c2 =>
    hFitObj ⟨ar, T, hp, opt, budget, X.mat, y.vec, X.cols⟩ (X.rows + 1) (.mk hp prior level a c1 c2)
      (List.range X.rows)

/-- A hyperplane class. -/
def hyperKit [Field K] [LinearOrder K] [Inhabited K] (obX : ObjOps E K) (obY : ObjOps E' K)
    (check : Option P → NArr K → Except Err Unit) (ar : HArith K) (T : Target K P K O)
    (opt : Optimizer K P K) (budget : Nat) (fmt : Fmt (HSplit K) P) :
    Kit E K E' K P K O (Option (HSplit K)) (HSplit K) where
  obX := obX
  obY := obY
  check := check
  core := hyperCore ar T opt budget
  view := id
  erased := none
  router := hyperRouter
  T := T
  importance := hyperUpdateImportanceObj
  paths := none
  fmt := fmt

end kits

end BT
