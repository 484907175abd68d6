import Mathlib.Analysis.SpecialFunctions.Log.Basic
/-!
Numbers with the IEEE-754 special values. Finite values are exact reals (no rounding, no overflow);
`inf`, `-inf` and `nan` follow IEEE-754. Used where tslearn relies on the special values, i.e. in
tslearn/metrics/_soft_dtw.py and soft_dtw_fast.py.
-/
namespace Verif

/-- A real number or an IEEE special value. -/
inductive Fl
  | num (x : ℝ) | inf | ninf | nan

namespace Fl
noncomputable section
open Classical

/-- `x + y`; `inf + (-inf)` is NaN. -/
def add : Fl → Fl → Fl
  | nan, _ => nan
  | _, nan => nan
  | num x, num y => num (x + y)
  | inf, ninf => nan
  | ninf, inf => nan
  | inf, _ => inf
  | _, inf => inf
  | ninf, _ => ninf
  | _, ninf => ninf

/-- `-x`. -/
def neg : Fl → Fl
  | num x => num (-x)
  | inf => ninf
  | ninf => inf
  | nan => nan

/-- `x - y`. -/
def sub (x y : Fl) : Fl := add x (neg y)

/-- `c * x` for a finite `c`; `0 * inf` is NaN. -/
def scale (c : ℝ) : Fl → Fl
  | num x => num (c * x)
  | inf => if 0 < c then inf else if c < 0 then ninf else nan
  | ninf => if 0 < c then ninf else if c < 0 then inf else nan
  | nan => nan

/-- `x / c` for a finite non-zero `c`. -/
def div (x : Fl) (c : ℝ) : Fl := scale c⁻¹ x

/-- `x * y`; `0 * inf` is NaN. -/
def mul (x y : Fl) : Fl :=
  match x with
  | num c => scale c y
  | nan => nan
  | inf => match y with
    | num c => scale c inf
    | inf => inf
    | ninf => ninf
    | nan => nan
  | ninf => match y with
    | num c => scale c ninf
    | inf => ninf
    | ninf => inf
    | nan => nan

/-- `x < y`, false as soon as one side is NaN. -/
def lt : Fl → Fl → Bool
  | num x, num y => decide (x < y)
  | num _, inf => true
  | ninf, inf => true
  | ninf, num _ => true
  | _, _ => false

/-- Python's `max(x, y)`: `y` if `y > x`, else `x`. -/
def max (x y : Fl) : Fl := if lt x y then y else x

/-- `exp`. -/
def exp : Fl → Fl
  | num x => num (Real.exp x)
  | inf => inf
  | ninf => num 0
  | nan => nan

/-- `log`: `log 0 = -inf`, NaN on negative numbers. -/
def log : Fl → Fl
  | num x => if x = 0 then ninf else if x < 0 then nan else num (Real.log x)
  | inf => inf
  | ninf => nan
  | nan => nan

/-- `isnan`. -/
def isNan : Fl → Bool
  | nan => true
  | _ => false

/-- `isinf`. -/
def isInf : Fl → Bool
  | inf => true
  | ninf => true
  | _ => false
end
end Fl
end Verif
