import Verif.Model.Dp
import Verif.Model.Path
import Verif.Model.Masks
import Verif.Model.Series
import Mathlib.Algebra.Order.Monoid.WithTop
import Mathlib.Analysis.Real.Sqrt
/-!
Dynamic time warping, tslearn/metrics/_dtw.py.
-/
namespace Verif

section
variable {K : Type}

/-- Local squared distance loop, tslearn/metrics/_dtw.py:334-337:
`dist = 0; for di: diff = a[di] - b[di]; dist += diff * diff`. -/
def sqDist [Zero K] [Add K] [Sub K] [Mul K] (a b : List K) : K :=
  (List.zipWith (fun u v => (u - v) * (u - v)) a b).foldl (· + ·) 0

/-- Local cost matrix of two series. Reads `s1[i]`, `s2[j]` (in range in all uses). -/
def localCost [Zero K] [Add K] [Sub K] [Mul K] (s1 s2 : List (List K)) : ℕ → ℕ → K :=
  fun i j => sqDist (s1.getD i []) (s2.getD j [])

variable [LinearOrder K] [Add K] [Zero K]

/-- Accumulated cost table (with its border) of tslearn/metrics/_dtw.py:325-344 and 357-371.
`cum_sum` is filled with `inf`, `cum_sum[0, 0] = 0`, and
`cum_sum[i+1, j+1] = dist + min(cum_sum[i, j+1], cum_sum[i+1, j], cum_sum[i, j])` where the mask
allows it. `add d c` is the addition used for `dist + min`; it is a parameter so that rounded
(floating point) addition is covered too. -/
def accTableWith {D C : Type*} [LinearOrder C] [OrderTop C] (add : D → C → C) (zero : C)
    (l1 l2 : ℕ) (mask : Mat Bool) (dist : ℕ → ℕ → D) : Mat C :=
  dpLoop l1 l2 mask
    (fun i j up left diag => add (dist i j) (min (min up left) diag))
    ((Mat.full ⊤).set 0 0 zero)

/-- `_njit_acc_matrix_from_dist_matrix(D, mask)`, tslearn/metrics/_dtw.py:357-371, exact arithmetic. -/
def accFromDist (l1 l2 : ℕ) (mask : Mat Bool) (D : ℕ → ℕ → K) : Mat (WithTop K) :=
  (accTableWith (fun (d : K) (c : WithTop K) => (d : WithTop K) + c) 0 l1 l2 mask D).tail

/-- PyTorch engine, tslearn/metrics/utils.py:200-230 with the `acc_fun` of
tslearn/metrics/_dtw.py:374-378: `D[~mask] = inf` then anti-diagonals of `D + min(predecessors)`. -/
def torchAccFromDist (l1 l2 : ℕ) (mask : Mat Bool) (D : ℕ → ℕ → K) : Mat (WithTop K) :=
  let D' : ℕ → ℕ → WithTop K := fun i j => if mask i j then (D i j : WithTop K) else ⊤
  (diagLoop l1 l2 (fun i j up left diag => D' i j + min (min up left) diag)
    ((Mat.full ⊤).set 0 0 0)).tail
end

section
variable {K : Type} [LinearOrder K] [Add K] [Zero K] [Sub K] [Mul K]

/-- `_njit_accumulated_matrix(s1, s2, mask)`, tslearn/metrics/_dtw.py:325-344. -/
def accumulatedMatrix (s1 s2 : List (List K)) (mask : Mat Bool) : Mat (WithTop K) :=
  accFromDist s1.length s2.length mask (localCost s1 s2)

/-- `cum_sum[-1, -1]`. -/
def lastEntry {C : Type*} (acc : Mat C) (l1 l2 : ℕ) : C := acc (l1 - 1) (l2 - 1)

/-- The square of `_dtw_generic(s1, s2, gc, radius, slope)`, tslearn/metrics/_dtw.py:391-400,
i.e. `cum_sum[-1, -1]` before the square root. -/
def dtwSqGeneric (s1 s2 : List (List K)) (gc : ℕ) (radius : Option ℕ) (slope : Option ℚ) :
    Except PyErr (WithTop K) := do
  let mask ← computeMask s1.length s2.length gc radius slope
  return lastEntry (accumulatedMatrix s1 s2 mask) s1.length s2.length

/-- Input validation shared by `dtw`, `dtw_path`, `frechet`, ..., tslearn/metrics/_dtw.py:145-157
(and 258-270): NaN removal, emptiness and feature checks, constraint name lookup. -/
def validatePair {α : Type} (s1 s2 : TsInput (Option α)) (gc : Option String) :
    Except PyErr (List (List α) × List (List α) × ℕ) := do
  let t1 := toTimeSeries s1 true
  let t2 := toTimeSeries s2 true
  if t1.length = 0 ∨ t2.length = 0 then throw .valueError
  if nFeatures t1 ≠ nFeatures t2 then throw .valueError
  let code ← gcCode gc
  match denan t1, denan t2 with
  | some x1, some x2 => return (x1, x2, code)
  | _, _ => throw .notModelled

/-- Squared value of `dtw(s1, s2, ...)`, tslearn/metrics/_dtw.py:145-163. -/
def dtwSq (s1 s2 : TsInput (Option K)) (gc : Option String) (radius : Option ℕ)
    (slope : Option ℚ) : Except PyErr (WithTop K) := do
  let (x1, x2, code) ← validatePair s1 s2 gc
  dtwSqGeneric x1 x2 code radius slope

/-- Squared cost and path of `_dtw_path_generic`, tslearn/metrics/_dtw.py:425-435. -/
def dtwPathGeneric (s1 s2 : List (List K)) (gc : ℕ) (radius : Option ℕ) (slope : Option ℚ)
    (am : WithTop K → WithTop K → WithTop K → ℕ) :
    Except PyErr (WithTop K × Option (List (ℕ × ℕ))) := do
  let mask ← computeMask s1.length s2.length gc radius slope
  let acc := accumulatedMatrix s1 s2 mask
  return (lastEntry acc s1.length s2.length,
    computePath am acc s1.length s2.length (s1.length + s2.length))

/-- `dtw_path_from_metric` on its cost matrix, tslearn/metrics/_dtw.py:602-636 (the pairwise
distances `D` of a third-party metric are an arbitrary matrix). -/
def dtwPathFromMetric (l1 l2 : ℕ) (D : ℕ → ℕ → K) (gc : Option String) (radius : Option ℕ)
    (slope : Option ℚ) (am : WithTop K → WithTop K → WithTop K → ℕ) :
    Except PyErr (Option (List (ℕ × ℕ)) × WithTop K) := do
  let code ← gcCode gc
  let mask ← computeMask l1 l2 code radius slope
  let acc := accFromDist l1 l2 mask D
  return (computePath am acc l1 l2 (l1 + l2), lastEntry acc l1 l2)
end

/-- `backend.sqrt`, extended to `+inf`. -/
noncomputable def sqrtTop (c : WithTop ℝ) : WithTop ℝ := c.map Real.sqrt

/-- `dtw(s1, s2, ...)`, tslearn/metrics/_dtw.py:30-163. -/
noncomputable def dtw (s1 s2 : TsInput (Option ℝ)) (gc : Option String) (radius : Option ℕ)
    (slope : Option ℚ) : Except PyErr (WithTop ℝ) := do
  let v ← dtwSq s1 s2 gc radius slope
  return sqrtTop v

/-- `dtw_path(s1, s2, ...)`, tslearn/metrics/_dtw.py:166-283. -/
noncomputable def dtwPath (s1 s2 : TsInput (Option ℝ)) (gc : Option String) (radius : Option ℕ)
    (slope : Option ℚ) (am : WithTop ℝ → WithTop ℝ → WithTop ℝ → ℕ) :
    Except PyErr (Option (List (ℕ × ℕ)) × WithTop ℝ) := do
  let (x1, x2, code) ← validatePair s1 s2 gc
  let (v, path) ← dtwPathGeneric x1 x2 code radius slope am
  return (path, sqrtTop v)

end Verif
