import Verif.Model.FloatGak
import Verif.Model.SoftDtw
/-!
Soft-DTW of the NumPy backend, tslearn/metrics/_soft_dtw.py and soft_dtw_fast.py, in floating-point arithmetic with a limited
range.
-/
namespace Verif
noncomputable section
open Classical
namespace Arith
variable (A : Arith)

/-- `_njit_softmin3(a, b, c, gamma)`, tslearn/metrics/soft_dtw_fast.py:15-48. -/
def softmin3 (a b c : Fl) (γ : ℝ) : Fl :=
  let a := A.div a (.num (-γ))
  let b := A.div b (.num (-γ))
  let c := A.div c (.num (-γ))
  let maxVal := Fl.max (Fl.max a b) c
  let tmp := Fl.num 0
  let tmp := A.add tmp (A.expF (A.sub a maxVal))
  let tmp := A.add tmp (A.expF (A.sub b maxVal))
  let tmp := A.add tmp (A.expF (A.sub c maxVal))
  A.mul (.num (-γ)) (A.add (A.logF tmp) maxVal)

/-- `_njit_accumulated_matrix(s1, s2, mask, gamma)`, tslearn/metrics/_soft_dtw.py:349-370. The local distance is computed as
in `Arith.sqDist`. -/
def softAcc (s1 s2 : List (List ℝ)) (mask : Mat Bool) (γ : ℝ) : Mat Fl :=
  (dpLoop s1.length s2.length mask
    (fun i j up left diag => A.add (A.sqDist (s1.getD i []) (s2.getD j [])) (A.softmin3 up left diag γ))
    ((Mat.full Fl.inf).set 0 0 (Fl.num 0))).tail

/-- `_njit_soft_dtw(s1, s2, gamma, ...)`, tslearn/metrics/_soft_dtw.py:431-441. -/
def softGeneric (s1 s2 : List (List ℝ)) (γ : ℝ) (gc : ℕ) (radius : Option ℕ) (slope : Option ℚ) : Except PyErr Fl := do
  let mask ← computeMask s1.length s2.length gc radius slope
  return lastEntry (A.softAcc s1 s2 mask γ) s1.length s2.length

/-- `soft_dtw(s1, s2, gamma, ...)`, tslearn/metrics/_soft_dtw.py:40-198, for `gamma` other than 0 (for 0 it is the square of
`dtw`). -/
def softDtw (s1 s2 : TsInput (Option ℝ)) (γ : ℝ) (gc : Option String) (radius : Option ℕ) (slope : Option ℚ) :
    Except PyErr Fl := do
  let (x1, x2, code) ← validatePair s1 s2 gc
  if γ = 0 then throw .notModelled
  A.softGeneric x1 x2 γ code radius slope

/-- `_njit_soft_dtw_normalized`, tslearn/metrics/_soft_dtw.py:462-493. -/
def softNormalizedGeneric (s1 s2 : List (List ℝ)) (γ : ℝ) (gc : ℕ) (radius : Option ℕ) (slope : Option ℚ) : Except PyErr Fl := do
  let a ← A.softGeneric s1 s2 γ gc radius slope
  let b ← A.softGeneric s1 s1 γ gc radius slope
  let c ← A.softGeneric s2 s2 γ gc radius slope
  return A.sub a (A.mul (.num (1 / 2)) (A.add b c))

end Arith
end
end Verif
