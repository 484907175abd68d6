import Verif.Model.Masks
/-!
The Itakura band in rounded arithmetic, tslearn/metrics/_masks.py. `rnd` is the rounding of each operation, in the order of the source (Numba
compiles it without reassociation; integers are exact). Simplification: overflow and underflow are not modelled.
-/
namespace Verif

/-- `backend.round(x, decimals=2)`, tslearn/metrics/_masks.py:101-103: multiply by 100, round to the nearest integer (ties to even), divide by 100. -/
def rRound2 (rnd : ℚ → ℚ) (x : ℚ) : ℚ := rnd ((rint (rnd (x * 100)) : ℚ) / 100)

/-- `min_slope` after its update, tslearn/metrics/_masks.py:92-94. -/
def rMinSlope (rnd : ℚ → ℚ) (sz1 sz2 : ℕ) (maxSlope : ℚ) : ℚ := rnd (rnd (1 / maxSlope) * rnd ((sz1 : ℚ) / (sz2 : ℚ)))

/-- `max_slope` after its update, tslearn/metrics/_masks.py:93. -/
def rMaxSlope (rnd : ℚ → ℚ) (sz1 sz2 : ℕ) (maxSlope : ℚ) : ℚ := rnd (maxSlope * rnd ((sz1 : ℚ) / (sz2 : ℚ)))

/-- The line of slope `a` through the last corner, `(sz1 - 1) - a * (sz2 - 1) + a * j`, tslearn/metrics/_masks.py:98 and 109. -/
def rLastLine (rnd : ℚ → ℚ) (sz1 sz2 : ℕ) (a : ℚ) (j : ℕ) : ℚ :=
  rnd (rnd (((sz1 : ℚ) - 1) - rnd (a * ((sz2 : ℚ) - 1))) + rnd (a * (j : ℚ)))

/-- `lower_bound_[j]` as an int in rounded arithmetic, tslearn/metrics/_masks.py:96-105. -/
def rItakuraLower (rnd : ℚ → ℚ) (sz1 sz2 : ℕ) (maxSlope : ℚ) (j : ℕ) : ℤ :=
  ⌈max (rRound2 rnd (rnd (rMinSlope rnd sz1 sz2 maxSlope * (j : ℚ))))
    (rRound2 rnd (rLastLine rnd sz1 sz2 (rMaxSlope rnd sz1 sz2 maxSlope) j))⌉

/-- `upper_bound_[j]` as an int in rounded arithmetic, tslearn/metrics/_masks.py:107-116. -/
def rItakuraUpper (rnd : ℚ → ℚ) (sz1 sz2 : ℕ) (maxSlope : ℚ) (j : ℕ) : ℤ :=
  ⌊rnd (min (rRound2 rnd (rnd (rMaxSlope rnd sz1 sz2 maxSlope * (j : ℚ))))
    (rRound2 rnd (rLastLine rnd sz1 sz2 (rMinSlope rnd sz1 sz2 maxSlope) j)) + 1)⌋

/-- `itakura_mask(sz1, sz2, max_slope)`, tslearn/metrics/_masks.py:91-140 and 189-196, in rounded arithmetic. -/
def rItakuraMask (rnd : ℚ → ℚ) (sz1 sz2 : ℕ) (maxSlope : ℚ) : Except PyErr (Mat Bool) :=
  if maxSlope = 0 then .error .zeroDivision
  else itakuraFill sz1 sz2 (rItakuraLower rnd sz1 sz2 maxSlope) (rItakuraUpper rnd sz1 sz2 maxSlope)

end Verif
