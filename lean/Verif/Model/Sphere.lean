import Verif.Model.Hyper
import Mathlib.Analysis.SpecialFunctions.Pow.Real
import Mathlib.Analysis.SpecialFunctions.Trigonometric.Inverse
import Mathlib.Analysis.Real.Sqrt
import Mathlib.Algebra.Order.Floor.Ring

/-!
# `hypercube_to_hypersphere_surface` and `r2_series_generator` (utils.py:15-139)

Exact real arithmetic; rounding is not modelled.  The preallocated array `surface_points` is modelled as
a list that grows: before step `i` it holds the prefix `surface_points[:2*i]` (even) or
`surface_points[:2*i-1]` (odd), the only part the code has written.  One point is mapped at a time; a
two-dimensional array is mapped row by row (`sphereMany`).
-/

noncomputable section

namespace BT

/-- One pass of the loops utils.py:85-93 and 126-134: the coordinates so far are shrunk by
`u ** (1/m)` (`m` of them) and two new ones are added at angle `2*pi*v`. -/
def sphereExtend (x : List ℝ) (m : Nat) (u v : ℝ) : List ℝ :=
  let h := u ^ ((1 : ℝ) / (m : ℝ))
  let x := x.map (· * h)
  let sqrtRho := Real.sqrt (max 0 (1 - (x.map (· ^ 2)).sum))
  let phi := 2 * Real.pi * v
  x ++ [sqrtRho * Real.cos phi, sqrtRho * Real.sin phi]

/-- The loop `for i in range(1, n_dim_embedding//2)` (utils.py:85-93). -/
def sphereEven (p : List ℝ) : List Nat → List ℝ → Except Err (List ℝ)
  | [], x => .ok x
  | i :: is, x =>
    match p[2 * i - 1]?, p[2 * i]? with
    | some u, some v => sphereEven p is (sphereExtend x (2 * i) u v)
    | _, _ => .error .indexError

/-- The loop `for i in range(next_dim, (n_dim_embedding + 1) // 2)` (utils.py:126-134). -/
def sphereOdd (p : List ℝ) : List Nat → List ℝ → Except Err (List ℝ)
  | [], x => .ok x
  | i :: is, x =>
    match p[2 * i - 2]?, p[2 * i - 1]? with
    | some u, some v => sphereOdd p is (sphereExtend x (2 * i - 1) u v)
    | _, _ => .error .indexError

/-- `range(a, b)`. -/
def pyRange (a b : Nat) : List Nat := (List.range (b - a)).map (a + ·)

/-- The coordinates before the final normalisation (utils.py:67-134). -/
def spherePoint (p : List ℝ) (half : Bool) : Except Err (List ℝ) :=
  let emb := 1 + p.length
  if emb % 2 = 0 then
    match p[0]? with
    | none => .error .indexError
    | some u =>
      let phi := if half then Real.pi * (u - 1 / 2) else 2 * Real.pi * u
      sphereEven p (pyRange 1 (emb / 2)) [Real.cos phi, Real.sin phi]
  else if half then sphereOdd p (pyRange 1 ((emb + 1) / 2)) [1]
  else if emb < 3 then .error .assertionError
  else
    match p[0]?, p[1]? with
    | some u, some v =>
      let phi := Real.arccos (2 * u - 1)
      let theta := 2 * Real.pi * v
      sphereOdd p (pyRange 2 ((emb + 1) / 2))
        [Real.sin phi * Real.cos theta, Real.sin phi * Real.sin theta, Real.cos phi]
    | _, _ => .error .indexError

/-- The real number behind a finite float. -/
def XF.toReal : XF ℝ → ℝ
  | .fin x => x
  | _ => 0

/-- `hypercube_to_hypersphere_surface` of a one-dimensional array (utils.py:63-139): the two assertions on
the range (false for NaN), the coordinates and the division by their Euclidean norm (utils.py:136-137).
For `D = 0` the array after `squeeze` is 0-dimensional and `np.linalg.norm(..., axis=-1)` raises
`AxisError`. -/
def hypersphere (p : List (XF ℝ)) (half : Bool) : Except Err (List ℝ) :=
  if !p.all (fun x => XF.ge x (.fin 0)) then .error .assertionError
  else if !p.all (fun x => XF.ge (.fin 1) x) then .error .assertionError
  else
    match spherePoint (p.map XF.toReal) half with
    | .error e => .error e
    | .ok x => if p.length = 0 then .error .axisError else .ok (x.map (· / Real.sqrt (x.map (· ^ 2)).sum))

/-- The same for a two-dimensional array with at least one column: the assertions concern all rows
(utils.py:64-65).  (A single row comes back as a one-dimensional array because of `squeeze`, utils.py:136.) -/
def sphereMany (ps : List (List (XF ℝ))) (half : Bool) : Except Err (List (List ℝ)) :=
  if !ps.all (fun p => p.all fun x => XF.ge x (.fin 0)) then .error .assertionError
  else if !ps.all (fun p => p.all fun x => XF.ge (.fin 1) x) then .error .assertionError
  else ps.mapM fun p => hypersphere p half

/-- The library functions of the hyperplane code over the reals, with the exact Euclidean norm, the
largest float64 and the half hypersphere (hyperplane_optimization.py:37-44, 52). -/
def exactArith (argsort : List ℝ → List Nat) : HArith ℝ where
  norm v := Real.sqrt (v.map fun a => a * a).sum
  big := 2 ^ 1024 - 2 ^ 971
  sphere p := (hypersphere p true).map fun x => x.map XF.fin
  argsort := argsort

/-! ## The R2 sequence -/

/-- One pass of `phi = pow(1+phi, 1/(n_dim+1))` (utils.py:31). -/
def phiNext (nDim : Nat) (phi : ℝ) : ℝ := (1 + phi) ^ ((1 : ℝ) / ((nDim : ℝ) + 1))

/-- Value of `phi` after `k` passes, starting from 2 (utils.py:28-35). -/
def phiSeq (nDim : Nat) : Nat → ℝ
  | 0 => 2
  | k + 1 => phiNext nDim (phiSeq nDim k)

/-- The loop utils.py:30-35: stops as soon as `phi` does not change; `k` passes have been made. -/
def phiLoop (nDim : Nat) : Nat → ℝ → Except Err ℝ
  | 0, _ => .error .noTermination
  | fuel + 1, phiOld =>
    let phi := phiNext nDim phiOld
    if phi = phiOld then .ok phi else phiLoop nDim fuel phi

/-- `alpha = 1/phi**(1+np.arange(n_dim))` (utils.py:38). -/
def r2Alpha (nDim : Nat) (phi : ℝ) : List ℝ := (List.range nDim).map fun j => 1 / phi ^ (1 + j)

/-- Element `i` of the sequence (utils.py:43), for the `phi` the loop has ended with. -/
def r2Element (alpha : List ℝ) (i : Nat) : List ℝ := alpha.map fun a => Int.fract (1 / 2 + a * ((i : ℝ) + 1))

/-- `next` on the generator for the `(i+1)`-th time (utils.py:24-44): the check of `n_dim` happens at the
first `next`; `phi` is the value the floating-point loop ends with. -/
def r2Next (nDim : Nat) (phi : ℝ) (i : Nat) : Except Err (List ℝ) :=
  if nDim = 0 then .error .valueError else .ok (r2Element (r2Alpha nDim phi) i)

end BT
