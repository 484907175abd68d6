import Verif.Model.Loop
import Verif.Model.Py
import Mathlib.Data.Rat.Floor
/-!
Global constraint masks, tslearn/metrics/_masks.py.
-/
namespace Verif

/-- `GLOBAL_CONSTRAINT_CODE[global_constraint]`, tslearn/metrics/_masks.py:10
(`KeyError` for unknown names). -/
def gcCode : Option String → Except PyErr Nat
  | none => .ok 0
  | some "" => .ok 0
  | some "itakura" => .ok 1
  | some "sakoe_chiba" => .ok 2
  | some _ => .error .keyError

/-- `_sakoe_chiba_mask_generic(sz1, sz2, radius)`, tslearn/metrics/_masks.py:15-29.
The radius is a documented non-negative int, hence a natural number; `max(0, i - radius)` is the
truncated difference. -/
def sakoeChibaMask (sz1 sz2 radius : Nat) : Mat Bool :=
  if sz1 > sz2 then
    let width := sz1 - sz2 + radius
    forRange sz2 (Mat.full false) fun i mask =>
      let lower := i - radius
      let upper := min sz1 (i + width) + 1
      fun a b => if b = i ∧ lower ≤ a ∧ a < upper then true else mask a b
  else
    let width := sz2 - sz1 + radius
    forRange sz1 (Mat.full false) fun i mask =>
      let lower := i - radius
      let upper := min sz2 (i + width) + 1
      fun a b => if a = i ∧ lower ≤ b ∧ b < upper then true else mask a b

/-- `numpy.rint`: nearest integer, ties to even. -/
def rint (q : ℚ) : ℤ :=
  let f := ⌊q⌋
  let r := q - f
  if r < 1 / 2 then f else if 1 / 2 < r then f + 1 else if f % 2 = 0 then f else f + 1

/-- `numpy.round(x, decimals=2)`. -/
def round2 (q : ℚ) : ℚ := (rint (q * 100) : ℚ) / 100

/-- `lower_bound_[j]` as an int, tslearn/metrics/_masks.py:92-105. Exact rational arithmetic. -/
def itakuraLower (sz1 sz2 : Nat) (maxSlope : ℚ) (j : Nat) : ℤ :=
  let minS := 1 / maxSlope * (sz1 / sz2)
  let maxS := maxSlope * (sz1 / sz2)
  ⌈max (round2 (minS * j)) (round2 (((sz1 : ℚ) - 1) - maxS * ((sz2 : ℚ) - 1) + maxS * j))⌉

/-- `upper_bound_[j]` as an int, tslearn/metrics/_masks.py:107-116. -/
def itakuraUpper (sz1 sz2 : Nat) (maxSlope : ℚ) (j : Nat) : ℤ :=
  let minS := 1 / maxSlope * (sz1 / sz2)
  let maxS := maxSlope * (sz1 / sz2)
  ⌊min (round2 (maxS * j)) (round2 (((sz1 : ℚ) - 1) - minS * ((sz2 : ℚ) - 1) + minS * j)) + 1⌋

/-- The fill loop and the post-check of `_itakura_mask_generic`, tslearn/metrics/_masks.py:118-140,
for given integer bounds. -/
def itakuraFill (sz1 sz2 : Nat) (lo up : Nat → ℤ) : Except PyErr (Mat Bool) :=
  let mask : Mat Bool := forRange sz2 (Mat.full false) fun i mask =>
    fun a b => if b = i ∧ inSlice sz1 (lo i) (up i) a = true then true else mask a b
  if ((List.range sz1).all fun i => (List.range sz2).any fun j => mask i j) &&
     ((List.range sz2).all fun j => (List.range sz1).any fun i => mask i j)
  then .ok mask else .error .runtimeWarning

/-- `_itakura_mask_generic(sz1, sz2, max_slope)`, tslearn/metrics/_masks.py:91-140.
`max_slope = 0` raises `ZeroDivisionError` (`1 / float(max_slope)`). -/
def itakuraMask (sz1 sz2 : Nat) (maxSlope : ℚ) : Except PyErr (Mat Bool) :=
  if maxSlope = 0 then .error .zeroDivision
  else itakuraFill sz1 sz2 (itakuraLower sz1 sz2 maxSlope) (itakuraUpper sz1 sz2 maxSlope)

/-- `_compute_mask_generic`, tslearn/metrics/_masks.py:318-351. `gc` is the integer code. -/
def computeMask (sz1 sz2 : Nat) (gc : Nat) (radius : Option Nat) (slope : Option ℚ) :
    Except PyErr (Mat Bool) :=
  if gc = 0 ∧ radius.isSome ∧ slope.isSome then .error .runtimeWarning
  else if gc = 2 ∨ (gc = 0 ∧ radius.isSome) then
    .ok (sakoeChibaMask sz1 sz2 (radius.getD 1))
  else if gc = 1 ∨ (gc = 0 ∧ slope.isSome) then
    itakuraMask sz1 sz2 (slope.getD 2)
  else .ok (Mat.full true)

end Verif
