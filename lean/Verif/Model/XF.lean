import Verif.Model.Basic

/-!
# IEEE-like feature values: NaN, infinities and exact finite numbers

Rounding and signed zero are not modelled here (see `Model/Rounding.lean` for rounding).
-/

namespace BT

/-- A float64 feature value up to rounding. -/
inductive XF (K : Type) where
  | nan
  | ninf
  | fin (x : K)
  | pinf
  deriving DecidableEq, Repr

namespace XF
variable {K : Type} [Field K] [LinearOrder K]

/-- IEEE `a < b`: false as soon as one operand is NaN. -/
def lt : XF K → XF K → Bool
  | nan, _ => false
  | _, nan => false
  | ninf, ninf => false
  | ninf, _ => true
  | _, ninf => false
  | pinf, _ => false
  | fin _, pinf => true
  | fin a, fin b => decide (a < b)

/-- IEEE `a >= b`: false as soon as one operand is NaN. -/
def ge : XF K → XF K → Bool
  | nan, _ => false
  | _, nan => false
  | _, ninf => true
  | ninf, _ => false
  | pinf, _ => true
  | fin _, pinf => false
  | fin a, fin b => decide (b ≤ a)

/-- Order of `np.sort`: like `<=`, with NaN after everything else. -/
def sortLe : XF K → XF K → Bool
  | _, nan => true
  | nan, _ => false
  | ninf, _ => true
  | _, ninf => false
  | _, pinf => true
  | pinf, _ => false
  | fin a, fin b => decide (a ≤ b)

/-- IEEE `a + b`. -/
def add : XF K → XF K → XF K
  | nan, _ => nan
  | _, nan => nan
  | ninf, pinf => nan
  | pinf, ninf => nan
  | ninf, _ => ninf
  | _, ninf => ninf
  | pinf, _ => pinf
  | _, pinf => pinf
  | fin a, fin b => fin (a + b)

/-- `0.5 * a`. -/
def half : XF K → XF K
  | fin a => fin ((1 / 2) * a)
  | a => a

/-- `-a`. -/
def neg : XF K → XF K
  | fin a => fin (-a)
  | ninf => pinf
  | pinf => ninf
  | nan => nan

/-- `abs(a) > prec` for a finite threshold. -/
def absGt (prec : K) : XF K → Bool
  | nan => false
  | ninf => true
  | pinf => true
  | fin a => decide (prec < |a|)

end XF

/-- The operations of `base_perpendicular.py:99, 116, 146-149, 196-197` on such values. -/
def xfOps (K : Type) [Field K] [LinearOrder K] : XOps (XF K) K where
  le := XF.sortLe
  lt := XF.lt
  ge := XF.ge
  gap prec a b := XF.absGt prec (XF.add b (XF.neg a))
  mid a b := XF.half (XF.add a b)

end BT
