import Verif.Model.Hyper
import Verif.Model.Sphere
import Mathlib.Algebra.Order.Floor.Ring

/-!
# The optimizers (hyperplane_optimization.py:114-442)

`solve` is a program that evaluates vectors (`optimization_function.compute`) and looks at the returned
values: a value of `Prog`.  Random numbers come from a generator object with an explicit state (`Rng`);
every seeded generator is of this form.  Integer parameters (`n_mc`, `n_scan`, ...) are natural numbers.
Unbounded loops take a fuel argument and raise `noTermination` when it is used up.
Of the wrappers around scipy and optuna (hyperplane_optimization.py:114-142, 254-278) the code in this
repository is modelled; the third-party search is a parameter (any program, any sampler).
-/

namespace BT

/-- A program calling `compute`. -/
inductive Prog (K S α : Type) where
  | ret (a : α)
  | raise (e : Err)
  | eval (r : RawVec K) (k : S → Prog K S α)

namespace Prog
variable {K S α β : Type}

/-- Sequencing. -/
def bind : Prog K S α → (α → Prog K S β) → Prog K S β
  | ret a, f => f a
  | raise e, _ => raise e
  | eval r k, f => eval r fun v => (k v).bind f

/-- `for x in l`, with the loop's local variables as accumulator. -/
def loop {ι : Type} (f : α → ι → Prog K S α) : List ι → α → Prog K S α
  | [], a => ret a
  | x :: xs, a => (f a x).bind (loop f xs)

/-- The next interaction after `compute` has returned the given values (oldest first). -/
def resume : Prog K S α → List S → Step K
  | ret _, _ => .stop
  | raise e, _ => .raise e
  | eval r _, [] => .eval r
  | eval _ k, v :: vs => (k v).resume vs

/-- The program as a strategy. -/
def strategy (p : Prog K S α) : Strategy K S := fun hist => p.resume (hist.reverse.map Prod.snd)

end Prog

/-- `np.random.RandomState`: the calls used by the optimizers, with explicit generator state `R`. -/
structure Rng (R K : Type) where
  /-- `RandomState(seed)` -/
  init : R
  /-- `rand.uniform(lo, hi, n)` -/
  uniform : K → K → Nat → R → List K × R
  /-- `rand.randint(0, n)`, `n ≥ 1` -/
  randint : Nat → R → Nat × R
  /-- `rand.normal(0, 1, n)` -/
  normal : Nat → R → List K × R

section
variable {K P S R : Type} [Field K] [LinearOrder K]

/-- A float vector. -/
def fvec (v : List K) : RawVec K := ⟨false, v.map XF.fin⟩

/-! ## Random and quasi-random normals -/

/-- `RandomHyperplaneOptimizer.solve` (hyperplane_optimization.py:218-227). -/
def randomSolve (G : Rng R K) (nMc : Nat) (q : HProb K P S) : Prog K S R :=
  Prog.loop (fun g (_ : Nat) =>
    let d := G.normal q.nDim g
    .eval (fvec d.1) fun _ => .ret d.2) (List.range nMc) G.init

/-- `QuasiRandomHyperplaneOptimizer.solve` (hyperplane_optimization.py:242-251); `phi` is the number the
generator's loop ends with.  (`n_dim - 1` is truncated at 0; matrices without columns are not modelled.) -/
noncomputable def quasiSolve (phi : ℝ) (n : Nat) (q : HProb ℝ P S) : Prog ℝ S Unit :=
  Prog.loop (fun _ i =>
    match r2Next (q.nDim - 1) phi i with
    | .error e => .raise e
    | .ok u => .eval (fvec u) fun _ => .ret ()) (List.range n) ()

/-! ## Two points of different classes -/

/-- `np.round`: to the nearest integer, halves to the even one. -/
def npRound [FloorRing K] (x : K) : K :=
  let f := ⌊x⌋
  if x - (f : K) < 1 / 2 then (f : K)
  else if 1 / 2 < x - (f : K) then (f : K) + 1
  else if f % 2 = 0 then (f : K) else (f : K) + 1

/-- `while class2 == class1: class2 = rand.randint(0, n_classes)` (hyperplane_optimization.py:188-189). -/
def drawOther (G : Rng R K) (n class1 : Nat) : Nat → R → Except Err (Nat × R)
  | 0, _ => .error .noTermination
  | fuel + 1, g =>
    let d := G.randint n g
    if d.1 = class1 then drawOther G n class1 fuel d.2 else .ok d

/-- `while len(indices1) == 0 or len(indices2) == 0` (hyperplane_optimization.py:183-191): the two index
lists and the generator afterwards.  `rand.randint(0, n_classes)` raises `ValueError` for
`n_classes ≤ 0`. -/
def drawClasses (G : Rng R K) (fuelIn : Nat) (cls : List (List Nat)) :
    Nat → R → Except Err ((List Nat × List Nat) × R)
  | 0, _ => .error .noTermination
  | fuel + 1, g =>
    if cls.length = 0 then .error .valueError
    else
      let d1 := G.randint cls.length g
      let indices1 := cls.getD d1.1 []
      match drawOther G cls.length d1.1 fuelIn d1.2 with
      | .error e => .error e
      | .ok d2 =>
        let indices2 := cls.getD d2.1 []
        if indices1.length = 0 ∨ indices2.length = 0 then drawClasses G fuelIn cls fuel d2.2
        else .ok ((indices1, indices2), d2.2)

/-- `class_indices` (hyperplane_optimization.py:175-176): row positions of each class below
`int(y.max()) + 1`. -/
def classIndices [FloorRing K] (ys : List K) : List (List Nat) :=
  let nClasses := (⌊ys.foldl max (ys.getD 0 0)⌋ + 1).toNat
  (List.range nClasses).map fun (c : Nat) => npWhere (ys.map fun v => decide (v = (c : K)))

/-- The normal through two rows (hyperplane_optimization.py:193-203); `isInt` is the dtype kind of `X`.
`normal[0]` fails on a matrix without columns. -/
def twoPointNormal (isInt : Bool) (q : HProb K P S) (i j : Nat) : Except Err (RawVec K) :=
  let p1 := rowVec q.nDim (q.X (q.rows.getD i 0))
  let p2 := rowVec q.nDim (q.X (q.rows.getD j 0))
  let normal := List.zipWith (· - ·) p2 p1
  match normal[0]? with
  | none => .error .indexError
  | some a =>
    let normal := if a < 0 then normal.map (· * (-1)) else normal
    .ok ⟨isInt, normal.map XF.fin⟩

/-- `RandomTwoPointOptimizer.solve` (hyperplane_optimization.py:158-203). -/
def twoPointSolve [FloorRing K] (G : Rng R K) (isInt : Bool) (nMc fuel : Nat) (q : HProb K P S) :
    Prog K S R :=
  let ys := q.rows.map q.y
  if ys.any (fun v => decide (npRound v ≠ v)) then .raise .typeError
  else if (distinct ys).length ≤ 1 then .ret G.init
  else
    let cls := classIndices ys
    Prog.loop (fun g (_ : Nat) =>
      match drawClasses G fuel cls fuel g with
      | .error e => .raise e
      | .ok (ij, g) =>
        let d1 := G.randint ij.1.length g
        let d2 := G.randint ij.2.length d1.2
        match twoPointNormal isInt q (ij.1.getD d1.1 0) (ij.2.getD d2.1 0) with
        | .error e => .raise e
        | .ok r => .eval r fun _ => .ret d2.2) (List.range nMc) G.init

/-! ## Dictionaries keyed by objective values -/

/-- `d[v] = c`. -/
def dictSet {β : Type} [DecidableEq S] (d : List (S × β)) (v : S) (c : β) : List (S × β) :=
  if d.any (fun e => decide (e.1 = v)) then d.map fun e => if e.1 = v then (e.1, c) else e
  else d ++ [(v, c)]

/-- `d[v]`. -/
def dictGet {β : Type} [DecidableEq S] (d : List (S × β)) (v : S) : Option β :=
  (d.find? fun e => decide (e.1 = v)).map Prod.snd

/-- `sorted(d.keys())`. -/
def sortedKeys {β : Type} [LE S] [DecidableLE S] (d : List (S × β)) : List S :=
  (d.map Prod.fst).mergeSort fun a b => decide (a ≤ b)

/-- `{v: d[v] for v in vs}`. -/
def dictRestrict {β : Type} [DecidableEq S] (d : List (S × β)) (vs : List S) : List (S × β) :=
  vs.filterMap fun v => (dictGet d v).map fun c => (v, c)

/-- `v < best` where `best` starts as `np.inf` (`none`). -/
def ltBest [LT S] [DecidableLT S] (v : S) : Option S → Bool
  | none => true
  | some b => decide (v < b)

/-- `np.clip(x, 0, 1)`. -/
def clip01 (x : K) : K := min (max x 0) 1

/-! ## Simulated annealing -/

/-- Local variables of `SimulatedAnnealingOptimizer.solve` (hyperplane_optimization.py:302-307). -/
structure SAState (S K R : Type) where
  cands : List (S × List K)
  noImp : Nat
  best : Option S
  f : K
  g : R

/-- "only keep the best candidates" (hyperplane_optimization.py:333-341, 434-442): the kept dictionary and
the new value of `no_improvements`. -/
def keepBest {β : Type} [LinearOrder S] (d : List (S × β)) (nKeep noImp : Nat) (best : Option S) :
    Except Err (List (S × β) × Nat) :=
  let vs := (sortedKeys d).take nKeep
  match vs with
  | [] => .error .indexError
  | v :: _ => .ok (dictRestrict d vs, if ltBest v best then 0 else noImp + 1)

/-- First run (hyperplane_optimization.py:310-314; 369-372): `n` random points of the cube.
`rand.uniform(0, 1, -1)` raises `ValueError` (matrix without columns). -/
def scan [LinearOrder S] (G : Rng R K) (n : Nat) (q : HProb K P S) (g : R) :
    Prog K S (List (S × List K) × R) :=
  Prog.loop (fun (s : List (S × List K) × R) (_ : Nat) =>
    if q.nDim = 0 then .raise .valueError
    else
      let d := G.uniform 0 1 (q.nDim - 1) s.2
      .eval (fvec d.1) fun v => .ret (dictSet s.1 v d.1, d.2)) (List.range n) ([], g)

/-- One perturbed candidate (hyperplane_optimization.py:322-329). -/
def saEvolve [LinearOrder S] (G : Rng R K) (nKeep : Nat) (f : K) (q : HProb K P S) (sorted : List S)
    (s : List (S × List K) × R) (i : Nat) : Prog K S (List (S × List K) × R) :=
  match sorted[i * sorted.length / nKeep]? with
  | none => .raise .indexError
  | some v =>
    match dictGet s.1 v with
    | none => .raise .indexError
    | some candidate =>
      let d := G.uniform (-1) 1 (q.nDim - 1) s.2
      let new := (List.zipWith (fun c p => c + f * p) candidate d.1).map clip01
      .eval (fvec new) fun value => .ret (dictSet s.1 value new, d.2)

/-- One pass of the outer loop (hyperplane_optimization.py:308-341). -/
def saRound [LinearOrder S] (G : Rng R K) (nScan nKeep : Nat) (spread : K) (q : HProb K P S)
    (st : SAState S K R) : Prog K S (SAState S K R) :=
  if st.cands.length = 0 then
    (scan G nScan q st.g).bind fun s =>
      match keepBest s.1 nKeep st.noImp st.best with
      | .error e => .raise e
      | .ok (d, noImp) => .ret { st with cands := d, noImp := noImp, g := s.2 }
  else
    let sorted := sortedKeys st.cands
    match sorted[0]? with
    | none => .raise .indexError
    | some best =>
      (Prog.loop (saEvolve G nKeep st.f q sorted) (List.range nKeep) (st.cands, st.g)).bind fun s =>
        match keepBest s.1 nKeep st.noImp (some best) with
        | .error e => .raise e
        | .ok (d, noImp) => .ret ⟨d, noImp, some best, st.f * spread, s.2⟩

/-- The outer loop (hyperplane_optimization.py:308). -/
def saLoop [LinearOrder S] (G : Rng R K) (nScan nKeep : Nat) (spread : K) (q : HProb K P S) :
    Nat → SAState S K R → Prog K S (SAState S K R)
  | 0, _ => .raise .noTermination
  | fuel + 1, st =>
    if st.noImp < 50 then (saRound G nScan nKeep spread q st).bind (saLoop G nScan nKeep spread q fuel)
    else .ret st

/-- `SimulatedAnnealingOptimizer.solve` (hyperplane_optimization.py:295-341). -/
def saSolve [LinearOrder S] (G : Rng R K) (nScan nKeep : Nat) (spread : K) (fuel : Nat) (q : HProb K P S) :
    Prog K S (SAState S K R) :=
  saLoop G nScan nKeep spread q fuel ⟨[], 0, none, 1, G.init⟩

/-! ## Gradient descent -/

/-- Local variables of `GradientDescentOptimizer.solve` (hyperplane_optimization.py:362-367). -/
structure GDState (K R : Type) where
  cands : List (K × List K)
  noImp : Nat
  best : Option K
  startDelta : K
  g : R

/-- `for i_dim in range(n_dim)` (hyperplane_optimization.py:389-402): one difference quotient per
dimension; stops at the first zero.  Returns the quotients (`none` if `delta_too_small`) and `delta`. -/
def gdQuotients (candidate : List K) (value : K) :
    List Nat → K → List K → Prog K K (Option (List K) × K)
  | [], delta, grad => .ret (some grad, delta)
  | i :: is, delta, grad =>
    match candidate[i]? with
    | none => .raise .indexError
    | some c =>
      let delta := if 1 < c + delta then delta * (-1) else delta
      .eval (fvec (candidate.set i (c + delta))) fun newValue =>
        let gi := (newValue - value) / delta
        let delta := |delta|
        if gi = 0 then .ret (none, delta) else gdQuotients candidate value is delta (grad ++ [gi])

/-- The loop over `delta` (hyperplane_optimization.py:386-410); `none`: "can't compute gradient". -/
def gdGradient (q : HProb K P K) (candidate : List K) (value : K) :
    Nat → K → Prog K K (Option (List K × K))
  | 0, _ => .raise .noTermination
  | fuel + 1, delta =>
    (gdQuotients candidate value (List.range (q.nDim - 1)) delta []).bind fun r =>
      match r.1 with
      | some grad => .ret (some (grad, r.2))
      | none =>
        let delta := r.2 * 10
        if 1 ≤ delta then .ret none else gdGradient q candidate value fuel delta

/-- The line search (hyperplane_optimization.py:418-430). -/
def gdDescend (candidate grad : List K) : Nat → K → List K → K → Prog K K (List K × K)
  | 0, _, _, _ => .raise .noTermination
  | fuel + 1, lambda, bestVec, bestValue =>
    let new := (List.zipWith (fun c g => c - lambda * g) candidate grad).map clip01
    .eval (fvec new) fun v =>
      if v < bestValue then gdDescend candidate grad fuel (lambda * 2) new v
      else .ret (bestVec, bestValue)

/-- One kept candidate (hyperplane_optimization.py:378-432). -/
def gdCandidate (fuel nKeep : Nat) (q : HProb K P K) (sorted : List K)
    (s : List (K × List K) × K) (i : Nat) : Prog K K (List (K × List K) × K) :=
  match sorted[i * sorted.length / nKeep]? with
  | none => .raise .indexError
  | some value =>
    match dictGet s.1 value with
    | none => .raise .indexError
    | some candidate =>
      (gdGradient q candidate value fuel s.2).bind fun r =>
        match r with
        | none => .ret s
        | some (grad, delta) =>
          (gdDescend candidate grad fuel (1 / 1000000) candidate value).bind fun b =>
            .ret (dictSet s.1 b.2 b.1, delta / 10)

/-- One pass of the outer loop (hyperplane_optimization.py:366-442). -/
def gdRound (G : Rng R K) (fuel nInit nKeep : Nat) (q : HProb K P K) (st : GDState K R) :
    Prog K K (GDState K R) :=
  if st.cands.length = 0 then
    (scan G nInit q st.g).bind fun s =>
      match keepBest s.1 nKeep st.noImp st.best with
      | .error e => .raise e
      | .ok (d, noImp) => .ret { st with cands := d, noImp := noImp, g := s.2 }
  else
    let sorted := sortedKeys st.cands
    match sorted[0]? with
    | none => .raise .indexError
    | some best =>
      (Prog.loop (gdCandidate fuel nKeep q sorted) (List.range nKeep) (st.cands, st.startDelta)).bind
        fun s =>
          match keepBest s.1 nKeep st.noImp (some best) with
          | .error e => .raise e
          | .ok (d, noImp) => .ret ⟨d, noImp, some best, s.2, st.g⟩

/-- The outer loop (hyperplane_optimization.py:366). -/
def gdLoop (G : Rng R K) (fuelIn nInit nKeep : Nat) (q : HProb K P K) :
    Nat → GDState K R → Prog K K (GDState K R)
  | 0, _ => .raise .noTermination
  | fuel + 1, st =>
    if st.noImp < 3 then
      (gdRound G fuelIn nInit nKeep q st).bind (gdLoop G fuelIn nInit nKeep q fuel)
    else .ret st

/-- `GradientDescentOptimizer.solve` (hyperplane_optimization.py:356-442). -/
def gdSolve (G : Rng R K) (nInit nKeep fuel : Nat) (q : HProb K P K) : Prog K K (GDState K R) :=
  gdLoop G fuel nInit nKeep q fuel ⟨[], 0, none, 1 / 1000000, G.init⟩

/-! ## Wrappers around third-party searches -/

/-- `ScipyOptimizer.solve` (hyperplane_optimization.py:129-142): `n_dim - 1` pairs of bounds `(0, 1)` are
handed to `solver_type` together with `compute`; `solver` is what the third-party object does with them in
its constructor and in `solver.solve()`.  `np.zeros(-1)` raises `ValueError` (matrix without columns). -/
def scipySolve {α : Type} (solver : List (K × K) → Prog K S α) (q : HProb K P S) : Prog K S α :=
  if q.nDim = 0 then .raise .valueError
  else solver (List.replicate (q.nDim - 1) (0, 1))

/-- `for i in range(n_dim_surface): uniform[i] = trial.suggest_uniform(..., 0, 1)`
(hyperplane_optimization.py:271-273); the sampler sees the coordinates suggested so far. -/
def optunaPoint (suggest : List K → K) : Nat → List K → List K
  | 0, u => u
  | n + 1, u => optunaPoint suggest n (u ++ [suggest u])

/-- `OptunaOptimizer.solve` (hyperplane_optimization.py:261-278): `n_trials` calls of `objective`; the
sampler sees the trials completed so far.  An exception in `objective` ends `study.optimize`. -/
def optunaSolve (suggest : List (List K × S) → List K → K) (nTrials : Nat) (q : HProb K P S) :
    Prog K S (List (List K × S)) :=
  Prog.loop (fun trials (_ : Nat) =>
    if q.nDim = 0 then .raise .valueError
    else
      let u := optunaPoint (suggest trials) (q.nDim - 1) []
      .eval (fvec u) fun v => .ret (trials ++ [(u, v)])) (List.range nTrials) []

/-! ## The optimizer objects -/

/-- `ScipyOptimizer(solver_type, seed, **kwargs)` (hyperplane_optimization.py:122-127); with
`DifferentialEvolutionSolver` and seed 666 this is what `_fit` uses when no optimizer is given
(base_hyperplane.py:38-41). -/
def scipyOptimizer {α : Type} (solver : List (K × K) → Prog K S α) : Optimizer K P S :=
  ⟨true, fun q => (scipySolve solver q).strategy⟩

/-- `OptunaOptimizer(n_trials, seed)` (hyperplane_optimization.py:255-259). -/
def optunaOptimizer (suggest : List (List K × S) → List K → K) (nTrials : Nat) : Optimizer K P S :=
  ⟨true, fun q => (optunaSolve suggest nTrials q).strategy⟩

/-- `RandomTwoPointOptimizer(n_mc, seed)` (hyperplane_optimization.py:152-156). -/
def twoPointOptimizer [FloorRing K] (G : Rng R K) (isInt : Bool) (nMc fuel : Nat) : Optimizer K P S :=
  ⟨false, fun q => (twoPointSolve G isInt nMc fuel q).strategy⟩

/-- `RandomHyperplaneOptimizer(n_mc, seed)` (hyperplane_optimization.py:213-217). -/
def randomOptimizer (G : Rng R K) (nMc : Nat) : Optimizer K P S :=
  ⟨false, fun q => (randomSolve G nMc q).strategy⟩

/-- `QuasiRandomHyperplaneOptimizer(n)` (hyperplane_optimization.py:237-240). -/
noncomputable def quasiOptimizer (phi : ℝ) (n : Nat) : Optimizer ℝ P S :=
  ⟨true, fun q => (quasiSolve phi n q).strategy⟩

/-- `SimulatedAnnealingOptimizer(n_scan, n_keep, spread_factor, seed)` (hyperplane_optimization.py:287-293). -/
def saOptimizer [LinearOrder S] (G : Rng R K) (nScan nKeep : Nat) (spread : K) (fuel : Nat) :
    Optimizer K P S :=
  ⟨true, fun q => (saSolve G nScan nKeep spread fuel q).strategy⟩

/-- `GradientDescentOptimizer(n_init, n_keep)` (hyperplane_optimization.py:350-354). -/
def gdOptimizer (G : Rng R K) (nInit nKeep fuel : Nat) : Optimizer K P K :=
  ⟨true, fun q => (gdSolve G nInit nKeep fuel q).strategy⟩

end

end BT
