import Verif.Model.Basic
import Mathlib.Data.Rat.Defs

/-!
# Constructors of the model classes

The four concrete classes inherit from two base classes each and call both base constructors with
positional arguments.  Python's argument binding is modelled (`bindArgs`), the instance dictionary is an
association list.  `get_params` and `clone` are those of sklearn's `BaseEstimator`.
-/

namespace BT

/-- The four concrete classes. -/
inductive Cls where
  | perpClassification
  | hyperClassification
  | perpRegression
  | hyperRegression
  deriving DecidableEq, Repr

/-- Python values met by the constructors: the user's objects `A`, literals and classes. -/
inductive CVal (A : Type) where
  | obj (a : A)
  | none
  | int (z : Int)
  | float (q : ℚ)
  | bool (b : Bool)
  | cls (c : Cls)
  deriving DecidableEq, Repr

/-- Names with values: an instance dictionary, keyword arguments or local variables. -/
abbrev Dict (A : Type) := List (String × CVal A)

/-- A signature: parameter names with optional default values. -/
abbrev Sig (A : Type) := List (String × Option (CVal A))

variable {A : Type}

/-- The value of the parameter at position `i`: positional, keyword or default. -/
def bindOne (args : List (CVal A)) (kw : Dict A) (i : Nat) (p : String × Option (CVal A)) :
    Except Err (String × CVal A) :=
  match args[i]?, kw.lookup p.1, p.2 with
  | some v, _, _ => .ok (p.1, v)
  | .none, some v, _ => .ok (p.1, v)
  | .none, .none, some v => .ok (p.1, v)
  | .none, .none, .none => .error .typeError

/-- The parameters from position `i` on. -/
def bindFrom (args : List (CVal A)) (kw : Dict A) : Nat → Sig A → Except Err (Dict A)
  | _, [] => .ok []
  | i, p :: sig =>
    match bindOne args kw i p with
    | .error e => .error e
    | .ok v =>
      match bindFrom args kw (i + 1) sig with
      | .error e => .error e
      | .ok env => .ok (v :: env)

/-- Binding of a call's arguments: too many positional, unknown keyword, doubly given or missing
arguments raise `TypeError`. -/
def bindArgs (sig : Sig A) (args : List (CVal A)) (kw : Dict A) : Except Err (Dict A) :=
  if args.length > sig.length then .error .typeError
  else if kw.any fun k => !(sig.map Prod.fst).contains k.1 then .error .typeError
  else if kw.any fun k => ((sig.take args.length).map Prod.fst).contains k.1 then .error .typeError
  else bindFrom args kw 0 sig

/-- `self.attr = v`. -/
def setattr (self : Dict A) (attr : String) (v : CVal A) : Dict A :=
  match self with
  | [] => [(attr, v)]
  | (a, w) :: rest => if a = attr then (a, v) :: rest else (a, w) :: setattr rest attr v

/-- `self.attr = var` for a local variable. -/
def assign (env self : Dict A) (attr var : String) : Except Err (Dict A) :=
  match env.lookup var with
  | some v => .ok (setattr self attr v)
  | .none => .error .attributeError

/-- The local variables passed on as positional arguments. -/
def vars (env : Dict A) (names : List String) : List (CVal A) :=
  names.map fun n => (env.lookup n).getD .none

/-- `BaseTree.__init__` (base.py:18-26). -/
def baseTreeInit (self : Dict A) (args : List (CVal A)) : Except Err (Dict A) := do
  let env ← bindArgs [("partition_prior", .none), ("prior", .none), ("delta", .none), ("prune", .none),
    ("child_type", .none), ("is_regression", .none), ("split_precision", .none), ("level", .none)] args []
  let self ← assign env self "partition_prior" "partition_prior"
  let self ← assign env self "prior" "prior"
  let self ← assign env self "delta" "delta"
  let self ← assign env self "prune" "prune"
  let self ← assign env self "child_type" "child_type"
  let self ← assign env self "is_regression" "is_regression"
  let self ← assign env self "split_precision" "split_precision"
  assign env self "level" "level"

/-- `BasePerpendicularTree.__init__` (base_perpendicular.py:15-16). -/
def basePerpInit (self : Dict A) (args : List (CVal A)) : Except Err (Dict A) := do
  let env ← bindArgs [("partition_prior", .none), ("prior", .none), ("delta", .none), ("prune", .none),
    ("child_type", .none), ("is_regression", .none), ("split_precision", .none), ("level", .none)] args []
  baseTreeInit self (vars env ["partition_prior", "prior", "delta", "prune", "child_type", "is_regression",
    "split_precision", "level"])

/-- `BaseHyperplaneTree.__init__` (base_hyperplane.py:17-20). -/
def baseHyperInit (self : Dict A) (args : List (CVal A)) : Except Err (Dict A) := do
  let env ← bindArgs [("partition_prior", .none), ("prior", .none), ("delta", .none), ("prune", .none),
    ("child_type", .none), ("is_regression", .none), ("optimizer", .none), ("split_precision", .none),
    ("level", .none)] args []
  let self ← baseTreeInit self (vars env ["partition_prior", "prior", "delta", "prune", "child_type",
    "is_regression", "split_precision", "level"])
  assign env self "optimizer" "optimizer"

/-- `BaseClassificationTree.__init__` and `BaseRegressionTree.__init__`
(classification.py:22-23, regression.py:22-23). -/
def baseTargetInit (isRegression : Bool) (self : Dict A) (args : List (CVal A)) :
    Except Err (Dict A) := do
  let env ← bindArgs [("partition_prior", .none), ("prior", .none), ("delta", .none), ("prune", .none),
    ("child_type", .none), ("split_precision", .none), ("level", some (.int 0))] args []
  baseTreeInit self (vars env ["partition_prior", "prior", "delta", "prune", "child_type"] ++
    [.bool isRegression] ++ vars env ["split_precision", "level"])

/-- The signature of the constructor (classification.py:182, 262, regression.py:202, 279). -/
def ctorSig : Cls → Sig A
  | .perpClassification => [("partition_prior", some (.float (99 / 100))), ("prior", some .none),
      ("delta", some (.int 0)), ("prune", some (.bool false)), ("split_precision", some (.float 0)),
      ("level", some (.int 0))]
  | .hyperClassification => [("partition_prior", some (.float (99 / 100))), ("prior", some .none),
      ("delta", some .none), ("prune", some (.bool false)), ("optimizer", some .none),
      ("split_precision", some (.float 0)), ("level", some (.int 0))]
  | .perpRegression => [("partition_prior", some (.float (99 / 100))), ("prior", some .none),
      ("delta", some (.int 0)), ("prune", some (.bool false)), ("split_precision", some (.float 0)),
      ("level", some (.int 0))]
  | .hyperRegression => [("partition_prior", some (.float (99 / 100))), ("prior", some .none),
      ("delta", some (.int 0)), ("prune", some (.bool false)), ("optimizer", some .none),
      ("split_precision", some (.float 0)), ("level", some (.int 0))]

/-- The body of the constructor (classification.py:183-185, 263-265, regression.py:203-205, 280-282). -/
def ctorBody (c : Cls) (env : Dict A) : Except Err (Dict A) :=
  match c with
  | .perpClassification => do
    let self ← basePerpInit [] (vars env ["partition_prior", "prior", "delta", "prune"] ++
      [.cls .perpClassification, .bool false] ++ vars env ["split_precision", "level"])
    baseTargetInit false self (vars env ["partition_prior", "prior", "delta", "prune"] ++
      [.cls .perpClassification] ++ vars env ["split_precision", "level"])
  | .hyperClassification => do
    let self ← baseHyperInit [] (vars env ["partition_prior", "prior", "delta", "prune"] ++
      [.cls .hyperClassification, .bool false] ++ vars env ["optimizer", "split_precision", "level"])
    baseTargetInit false self (vars env ["partition_prior", "prior", "delta", "prune"] ++
      [.cls .hyperClassification] ++ vars env ["split_precision", "level"])
  | .perpRegression => do
    let self ← basePerpInit [] (vars env ["partition_prior", "prior", "delta", "prune"] ++
      [.cls .perpRegression, .bool true] ++ vars env ["split_precision", "level"])
    baseTargetInit true self (vars env ["partition_prior", "prior", "delta", "prune"] ++
      [.cls .perpRegression] ++ vars env ["split_precision", "level"])
  | .hyperRegression => do
    let self ← baseHyperInit [] (vars env ["partition_prior", "prior", "delta", "prune"] ++
      [.cls .hyperRegression, .bool true] ++ vars env ["optimizer", "split_precision", "level"])
    baseTargetInit true self (vars env ["partition_prior", "prior", "delta", "prune"] ++
      [.cls .hyperRegression] ++ vars env ["split_precision", "level"])

/-- `Class(*args, **kw)`: the new instance dictionary. -/
def construct (c : Cls) (args : List (CVal A)) (kw : Dict A) : Except Err (Dict A) :=
  match bindArgs (ctorSig c) args kw with
  | .error e => .error e
  | .ok env => ctorBody c env

/-- `getattr` for each name. -/
def getattrs (self : Dict A) : List String → Except Err (Dict A)
  | [] => .ok []
  | n :: names =>
    match self.lookup n with
    | .none => .error .attributeError
    | some v =>
      match getattrs self names with
      | .error e => .error e
      | .ok d => .ok ((n, v) :: d)

/-- `get_params(deep=False)` of sklearn's `BaseEstimator`: the attributes named like the constructor's
parameters (in the order of the signature). -/
def getParams (c : Cls) (self : Dict A) : Except Err (Dict A) :=
  getattrs self ((ctorSig (A := A) c).map Prod.fst)

/-- `sklearn.base.clone`: construct from copies of the parameters; `RuntimeError` (here `assertionError`)
unless the new object's parameters are the copies. -/
def clone [DecidableEq A] (copy : CVal A → CVal A) (c : Cls) (self : Dict A) : Except Err (Dict A) :=
  match getParams c self with
  | .error e => .error e
  | .ok params =>
    let params := params.map fun p => (p.1, copy p.2)
    match construct c [] params with
    | .error e => .error e
    | .ok new =>
      match getParams c new with
      | .error e => .error e
      | .ok params' => if params' = params then .ok new else .error .assertionError

/-- The call that creates a child node: `self.child_type(self.partition_prior, prior, self.delta,
self.prune, [optimizer,] self.split_precision, self.level+1)`
(base_perpendicular.py:153-156, base_hyperplane.py:95-98). -/
def childArgs (c : Cls) (pp prior delta prune opt prec level : CVal A) : List (CVal A) :=
  match c with
  | .perpClassification | .perpRegression => [pp, prior, delta, prune, prec, level]
  | .hyperClassification | .hyperRegression => [pp, prior, delta, prune, opt, prec, level]

end BT
