import Verif.Model.Frechet
/-!
DTW and the discrete Fréchet distance in rounded arithmetic, tslearn/metrics/_dtw.py and
tslearn/metrics/_frechet.py.

`rnd` is the rounding applied to the exact result of each subtraction, product, addition and square
root, in the order of the source (the kernels are compiled without `fastmath`). Simplification:
overflow and NaN are not modelled, `+inf` is the mark of a cell without a path.
-/
namespace Verif

section
variable {K : Type} [LinearOrder K] [Add K] [Zero K] [Sub K] [Mul K]

/-- Local squared distance loop in rounded arithmetic, tslearn/metrics/_dtw.py:334-337 (and
_frechet.py:335-338): `diff = s1[i][di] - s2[j][di]`, `dist += diff * diff`. -/
def rSqDist (rnd : K → K) (a b : List K) : K :=
  (List.zipWith (fun u v => rnd (u - v)) a b).foldl (fun s diff => rnd (s + rnd (diff * diff))) 0

/-- Rounded local cost of the samples `s1[i]`, `s2[j]`, tslearn/metrics/_dtw.py:334-337. -/
def rLocalCost (rnd : K → K) (s1 s2 : List (List K)) : ℕ → ℕ → K :=
  fun i j => rSqDist rnd (s1.getD i []) (s2.getD j [])

/-- The rounded addition `dist + min(...)`, tslearn/metrics/_dtw.py:338-343. -/
def rAdd (rnd : K → K) (d : K) (c : WithTop K) : WithTop K := c.map fun x => rnd (d + x)

/-- `_njit_accumulated_matrix(s1, s2, mask)` in rounded arithmetic, tslearn/metrics/_dtw.py:325-344. -/
def rAccumulated (rnd : K → K) (s1 s2 : List (List K)) (mask : Mat Bool) : Mat (WithTop K) :=
  (accTableWith (rAdd rnd) 0 s1.length s2.length mask (rLocalCost rnd s1 s2)).tail

/-- `_dtw_generic` before the square root, in rounded arithmetic, tslearn/metrics/_dtw.py:391-400. -/
def rDtwSq (rnd : K → K) (s1 s2 : List (List K)) (gc : ℕ) (radius : Option ℕ)
    (slope : Option ℚ) : Except PyErr (WithTop K) := do
  let mask ← computeMask s1.length s2.length gc radius slope
  return lastEntry (rAccumulated rnd s1 s2 mask) s1.length s2.length

/-- `_dtw_path_generic` before the square root, in rounded arithmetic,
tslearn/metrics/_dtw.py:425-435. -/
def rDtwPathSq (rnd : K → K) (s1 s2 : List (List K)) (gc : ℕ) (radius : Option ℕ)
    (slope : Option ℚ) (am : WithTop K → WithTop K → WithTop K → ℕ) :
    Except PyErr (WithTop K × Option (List (ℕ × ℕ))) := do
  let mask ← computeMask s1.length s2.length gc radius slope
  let acc := rAccumulated rnd s1 s2 mask
  return (lastEntry acc s1.length s2.length,
    computePath am acc s1.length s2.length (s1.length + s2.length))

/-- `_njit_accumulated_matrix(s1, s2, mask)` of the Fréchet distance in rounded arithmetic,
tslearn/metrics/_frechet.py:326-348. `max` and `min` do not round. -/
def rFrechetAccumulated (rnd : K → K) (s1 s2 : List (List K)) (mask : Mat Bool) : Mat (WithTop K) :=
  frechetAccFromDist s1.length s2.length mask (rLocalCost rnd s1 s2)

/-- `_frechet_generic` before the square root, in rounded arithmetic,
tslearn/metrics/_frechet.py:398-407. -/
def rFrechetSq (rnd : K → K) (s1 s2 : List (List K)) (gc : ℕ) (radius : Option ℕ)
    (slope : Option ℚ) : Except PyErr (WithTop K) := do
  let mask ← computeMask s1.length s2.length gc radius slope
  return lastEntry (rFrechetAccumulated rnd s1 s2 mask) s1.length s2.length
end

/-- The rounded `backend.sqrt`, extended to `+inf`, tslearn/metrics/_dtw.py:400 and
_frechet.py:407. -/
noncomputable def rSqrt (rnd : ℝ → ℝ) (c : WithTop ℝ) : WithTop ℝ := c.map fun x => rnd (Real.sqrt x)

/-- `dtw(s1, s2, ...)` in rounded arithmetic, tslearn/metrics/_dtw.py:145-163. -/
noncomputable def rDtw (rnd : ℝ → ℝ) (s1 s2 : TsInput (Option ℝ)) (gc : Option String)
    (radius : Option ℕ) (slope : Option ℚ) : Except PyErr (WithTop ℝ) := do
  let (x1, x2, code) ← validatePair s1 s2 gc
  let v ← rDtwSq rnd x1 x2 code radius slope
  return rSqrt rnd v

/-- `frechet(s1, s2, ...)` in rounded arithmetic, tslearn/metrics/_frechet.py:148-168. -/
noncomputable def rFrechet (rnd : ℝ → ℝ) (s1 s2 : TsInput (Option ℝ)) (gc : Option String)
    (radius : Option ℕ) (slope : Option ℚ) : Except PyErr (WithTop ℝ) := do
  let (x1, x2, code) ← validatePair s1 s2 gc
  let v ← rFrechetSq rnd x1 x2 code radius slope
  return rSqrt rnd v

end Verif
