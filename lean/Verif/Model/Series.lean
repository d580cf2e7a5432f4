import Verif.Model.Perp

/-!
# Targets given as a pandas `Series`

`fit` accepts `y` as it is (base.py:58-59): `squeeze` and `_ensure_float64` return a numeric Series with
more than one element unchanged.  Indexing a Series with an integer index is by label, not by position
(pandas ≥ 1; slices such as `[:-1]` are by position), and arithmetic keeps the labels.  A Series is
modelled by its labels and values in order.  Labels are meant to be distinct, so that a label selects one
value.  The functions follow the same lines of code as `Model/Perp.lean` and `Model/Target.lean`.
-/

namespace BT

/-- A Series with integer index: pairs of label and value. -/
abbrev Ser (α : Type) := List (Int × α)

namespace Ser
variable {α β : Type}

/-- The values, by position. -/
def vals (s : Ser α) : List α := s.map Prod.snd

/-- The labels, by position. -/
def labels (s : Ser α) : List Int := s.map Prod.fst

/-- `s[l]` for an integer `l`: `KeyError` if there is no such label. -/
def loc (s : Ser α) (l : Int) : Except Err α :=
  match s.lookup l with
  | some v => .ok v
  | none => .error .keyError

/-- `s[idx]` for an array of integers: the values with these labels, labelled alike. -/
def locs (s : Ser α) : List Nat → Except Err (Ser α)
  | [] => .ok []
  | l :: ls =>
    match s.loc l with
    | .error e => .error e
    | .ok v =>
      match s.locs ls with
      | .error e => .error e
      | .ok r => .ok (((l : Int), v) :: r)

/-- A Series with other values for the same labels. -/
def withVals (s : Ser α) (v : List β) : Ser β := s.labels.zip v

end Ser

section
variable {V K P S O : Type}

/-- A target implementation together with `_compute_log_p_data_split` for Series; the other methods only
use the values (`np.broadcast_to(y, ...)`, `y.sum()`, `len(y)`; classification.py:95, regression.py:30-32,
87-89). -/
structure SerTarget (K P S O : Type) where
  base : Target K P S O
  logSplit : K → Nat → Ser K → P → Nat → List Nat → Except Err (Ser S)

variable [Field K] [LinearOrder K]

/-- The loop body classification.py:75-79 for class `i`: the counts `k1[i]`, `k2[i]`. -/
def clsCountsSer (y : Ser K) (splitIndices : List Nat) (i : Nat) : Except Err (Ser Nat × Ser Nat) :=
  let k1AndTotal : Ser Nat := y.withVals (classCumsum y.vals i)
  match k1AndTotal.loc (-1) with
  | .error e => .error e
  | .ok total =>
    match k1AndTotal.locs (splitIndices.map (· - 1)) with
    | .error e => .error e
    | .ok k1 => .ok (k1, k1.map fun e => (e.1, total - e.2))

/-- `_compute_log_p_data_split` of classification trees for a Series (classification.py:71-88). -/
def clsLogSplitSer (F : Fns K) (partitionPrior : K) (level : Nat) (y : Ser K) (prior : List K)
    (nDim : Nat) (splitIndices : List Nat) : Except Err (Ser K) :=
  match (List.range prior.length).mapM (clsCountsSer y splitIndices) with
  | .error e => .error e
  | .ok ks =>
    let nSplits := splitIndices.length
    let logPPrior := F.log (partitionPrior ^ (1 + level) / ((nSplits : K) * (nDim : K)))
    let betalnPrior := multivariateBetaln F prior
    .ok ((List.range nSplits).map fun j =>
      (((splitIndices.getD j 0 : Nat) : Int) - 1,
        logPPrior + clsLogPData F (ks.map fun r => r.1.vals.getD j 0) prior betalnPrior
          + clsLogPData F (ks.map fun r => r.2.vals.getD j 0) prior betalnPrior))

/-- Classification on Series. -/
def clsSer (F : Fns K) : SerTarget K (List K) K (List K) := ⟨clsTarget F, clsLogSplitSer F⟩

/-- `_compute_log_p_data_split` of regression trees for a Series (regression.py:39-68). -/
def regLogSplitSer (F : Fns K) (partitionPrior : K) (level : Nat) (y : Ser K) (prior : NG K)
    (nDim : Nat) (splitIndices : List Nat) : Except Err (Ser K) :=
  let ys := y.vals
  let n := ys.length
  let n1 : List Nat := (List.range (n - 1)).map (1 + ·)
  let n2 : List Nat := n1.map (n - ·)
  let ySum1 : Ser K := (y.withVals (cumsum ys)).dropLast
  let ySum2 : Ser K := ySum1.map fun e => (e.1, ys.sum - e.2)
  let ySq1 : Ser K := Ser.withVals y.dropLast (cumsum (ys.dropLast.map fun v => v ^ 2))
  let ySq2 : Ser K := ySq1.map fun e => (e.1, (ys.map fun v => v ^ 2).sum - e.2)
  let nSplits := splitIndices.length
  let logPPrior := F.log (partitionPrior ^ (1 + level) / ((nSplits : K) * (nDim : K)))
  let result (labels : List Int) (n1 n2 : List Nat) (s1 s2 q1 q2 : List K) : Ser K :=
    labels.zip ((List.range nSplits).map fun j =>
      let p1 := ngPosterior prior (n1.getD j 0) (s1.getD j 0) (q1.getD j 0) 1
      let p2 := ngPosterior prior (n2.getD j 0) (s2.getD j 0) (q2.getD j 0) 1
      logPPrior + ngLogPData F prior p1.alpha p1.beta p1.kappa (n1.getD j 0)
        + ngLogPData F prior p2.alpha p2.beta p2.kappa (n2.getD j 0))
  if splitIndices.length = n - 1 then
    .ok (result ySum1.labels n1 n2 ySum1.vals ySum2.vals ySq1.vals ySq2.vals)
  else do
    let sm1 := splitIndices.map (· - 1)
    let s1 ← ySum1.locs sm1
    let s2 ← ySum2.locs sm1
    let q1 ← ySq1.locs sm1
    let q2 ← ySq2.locs sm1
    pure (result s1.labels (gatherD 0 n1 sm1) (gatherD 0 n2 sm1) s1.vals s2.vals q1.vals q2.vals)

/-- Regression on Series. -/
def regSer (F : Fns K) : SerTarget K (NG K) K K := ⟨regTarget F, regLogSplitSer F⟩

/-- One iteration of the loop over dimensions (base_perpendicular.py:110-130): `argmax` is a position,
`log_p_data_split[i_max]` looks it up as a label. -/
def searchDimSer [LT S] [DecidableLT S] (o : XOps V K) (T : SerTarget K P S O) (hp : Hyper K) (level : Nat)
    (X : Nat → Nat → V) (y : Ser K) (nDim : Nat) (prior : P) (sid : List (List Nat))
    (b : Best S) (dim : Nat) : Except Err (Best S) :=
  let sortIdx := sid.getD dim []
  let xs := sortIdx.map fun i => X i dim
  let si := splitIndices o hp.splitPrecision xs
  if si.length = 0 then .ok b
  else
    match y.locs sortIdx with
    | .error e => .error e
    | .ok ySorted =>
      match T.logSplit hp.partitionPrior level ySorted prior nDim si with
      | .error e => .error e
      | .ok scores =>
        let iMax := argmax scores.vals
        match scores.loc iMax with
        | .error e => .error e
        | .ok s =>
          match si[iMax]? with
          | none => .error .indexError
          | some k => if b.score < s then .ok ⟨s, some (dim, k)⟩ else .ok b

/-- `_fit` (base_perpendicular.py:76-189) on a Series. -/
def perpFitSer [LT S] [DecidableLT S] (o : XOps V K) (T : SerTarget K P S O) (hp : Hyper K)
    (X : Nat → Nat → V) (y : Ser K) (nDim : Nat) (names : List String) :
    Nat → Option P → Nat → List (List Nat) → Except Err (PNode V S K P)
  | 0, _, _, _ => .error .noTermination
  | fuel + 1, priorAttr, level, sid =>
    match sid with
    | [] => .error .indexError
    | row0 :: _ =>
      let nData := shape1 sid
      let prior := T.base.getPrior priorAttr nData nDim
      match y.locs row0 with
      | .error e => .error e
      | .ok yAny =>
        let logNoSplit := T.base.logNoSplit hp.partitionPrior level yAny.vals prior
        match (List.range nDim).foldlM (searchDimSer o T hp level X y nDim prior sid)
            (⟨logNoSplit, none⟩ : Best S) with
        | .error e => .error e
        | .ok best =>
          let info : Info K P :=
            { hp := hp, prior := priorAttr, level := level, nDim := some nDim, nData := nData,
              posterior := T.base.posterior yAny.vals prior 1 }
          match best.split with
          | none => .ok (.leaf info)
          | some (dim, k) =>
            let indices1 := (sid.getD dim []).take k
            let indices2 := (sid.getD dim []).drop k
            match y.locs indices1, y.locs indices2 with
            | .ok y1, .ok y2 =>
              let prior1 := if hp.delta ≠ 0 then T.base.posterior y1.vals prior hp.delta else prior
              let prior2 := if hp.delta ≠ 0 then T.base.posterior y2.vals prior hp.delta else prior
              match names[dim]?, indices1.getLast?, indices2.head? with
              | some name, some last1, some first2 =>
                let value := o.mid (X last1 dim) (X first2 dim)
                let sid1 := restrictSid nDim sid indices1
                let sid2 := restrictSid nDim sid indices2
                let child1 : Except Err (PNode V S K P) :=
                  if shape1 sid1 > 1 ∧ (distinct y1.vals).length > 1 then
                    perpFitSer o T hp X y nDim names fuel (some prior1) (level + 1) sid1
                  else
                    .ok (.leaf (mkChildInfo hp.partitionPrior prior1 hp.delta hp.prune hp.splitPrecision
                      (level + 1) (shape1 sid1) (T.base.posterior y1.vals prior 1)))
                let child2 : Except Err (PNode V S K P) :=
                  if shape1 sid2 > 1 ∧ (distinct y2.vals).length > 1 then
                    perpFitSer o T hp X y nDim names fuel (some prior2) (level + 1) sid2
                  else
                    .ok (.leaf (mkChildInfo hp.partitionPrior prior2 hp.delta hp.prune hp.splitPrecision
                      (level + 1) (shape1 sid2) (T.base.posterior y2.vals prior 1)))
                match child1 with
                | .error e => .error e
                | .ok c1 =>
                  match child2 with
                  | .error e => .error e
                  | .ok c2 => .ok (.split info ⟨dim, name, value⟩ logNoSplit best.score c1 c2)
              | _, _, _ => .error .indexError
            | _, _ => .error .keyError

/-- `fit` with a Series `y` of `n` elements, after validation (base.py:69-72). -/
def perpFitRootSer [LT S] [DecidableLT S] (o : XOps V K) (T : SerTarget K P S O)
    (argsort : List V → List Nat) (hp : Hyper K) (prior : Option P) (X : Nat → Nat → V) (y : Ser K)
    (nDim : Nat) (names : List String) : Except Err (PNode V S K P) :=
  match perpFitSer o T hp X y nDim names (y.length + 1) prior 0 (sortMatrix argsort X y.length nDim) with
  | .error e => .error e
  | .ok t => if hp.prune then prune T.base.predictLeaf t else .ok t

/-- `pd.Series(values)`: labels `0, 1, ...` -/
def rangeSeries (y : Nat → K) (n : Nat) : Ser K := (List.range n).map fun (i : Nat) => ((i : Int), y i)

end

end BT
