import Verif.Model.Dtw
/-!
Discrete Fréchet distance, tslearn/metrics/_frechet.py.
-/
namespace Verif

section
variable {K : Type} [LinearOrder K] [Zero K]

/-- `max(dist, ·)`, tslearn/metrics/_frechet.py:341-346 and 371-376. -/
def frechetStep (d : K) (c : WithTop K) : WithTop K := max (d : WithTop K) c

/-- `_njit_acc_matrix_from_dist_matrix(D, mask)`, tslearn/metrics/_frechet.py:360-378. -/
def frechetAccFromDist (l1 l2 : ℕ) (mask : Mat Bool) (D : ℕ → ℕ → K) : Mat (WithTop K) :=
  (accTableWith frechetStep 0 l1 l2 mask D).tail

/-- PyTorch engine, tslearn/metrics/utils.py:200-230 with the `acc_fun` of _frechet.py:381-385. -/
def torchFrechetAccFromDist (l1 l2 : ℕ) (mask : Mat Bool) (D : ℕ → ℕ → K) : Mat (WithTop K) :=
  let D' : ℕ → ℕ → WithTop K := fun i j => if mask i j then (D i j : WithTop K) else ⊤
  (diagLoop l1 l2 (fun i j up left diag => max (D' i j) (min (min up left) diag))
    ((Mat.full ⊤).set 0 0 0)).tail

/-- `frechet_path_from_metric` on its cost matrix, tslearn/metrics/_frechet.py:610-644. -/
def frechetPathFromMetric (l1 l2 : ℕ) (D : ℕ → ℕ → K) (gc : Option String) (radius : Option ℕ)
    (slope : Option ℚ) (am : WithTop K → WithTop K → WithTop K → ℕ) :
    Except PyErr (Option (List (ℕ × ℕ)) × WithTop K) := do
  let code ← gcCode gc
  let mask ← computeMask l1 l2 code radius slope
  let acc := frechetAccFromDist l1 l2 mask D
  return (computePath am acc l1 l2 (l1 + l2), lastEntry acc l1 l2)
end

section
variable {K : Type} [LinearOrder K] [Add K] [Zero K] [Sub K] [Mul K]

/-- `_njit_accumulated_matrix(s1, s2, mask)`, tslearn/metrics/_frechet.py:326-348. -/
def frechetAccumulatedMatrix (s1 s2 : List (List K)) (mask : Mat Bool) : Mat (WithTop K) :=
  frechetAccFromDist s1.length s2.length mask (localCost s1 s2)

/-- Square of `_frechet_generic`, tslearn/metrics/_frechet.py:398-407. -/
def frechetSqGeneric (s1 s2 : List (List K)) (gc : ℕ) (radius : Option ℕ) (slope : Option ℚ) :
    Except PyErr (WithTop K) := do
  let mask ← computeMask s1.length s2.length gc radius slope
  return lastEntry (frechetAccumulatedMatrix s1 s2 mask) s1.length s2.length

/-- Square of `frechet(s1, s2, ...)`, tslearn/metrics/_frechet.py:148-168 (same validation as
`dtw`). -/
def frechetSq (s1 s2 : TsInput (Option K)) (gc : Option String) (radius : Option ℕ)
    (slope : Option ℚ) : Except PyErr (WithTop K) := do
  let (x1, x2, code) ← validatePair s1 s2 gc
  frechetSqGeneric x1 x2 code radius slope

/-- Squared value and path of `_frechet_path_generic`, tslearn/metrics/_frechet.py:432-442. -/
def frechetPathGeneric (s1 s2 : List (List K)) (gc : ℕ) (radius : Option ℕ) (slope : Option ℚ)
    (am : WithTop K → WithTop K → WithTop K → ℕ) :
    Except PyErr (WithTop K × Option (List (ℕ × ℕ))) := do
  let mask ← computeMask s1.length s2.length gc radius slope
  let acc := frechetAccumulatedMatrix s1 s2 mask
  return (lastEntry acc s1.length s2.length,
    computePath am acc s1.length s2.length (s1.length + s2.length))
end

/-- `frechet(s1, s2, ...)`, tslearn/metrics/_frechet.py:30-168. -/
noncomputable def frechet (s1 s2 : TsInput (Option ℝ)) (gc : Option String) (radius : Option ℕ)
    (slope : Option ℚ) : Except PyErr (WithTop ℝ) := do
  let v ← frechetSq s1 s2 gc radius slope
  return sqrtTop v

/-- `frechet_path(s1, s2, ...)`, tslearn/metrics/_frechet.py:171-285. -/
noncomputable def frechetPath (s1 s2 : TsInput (Option ℝ)) (gc : Option String) (radius : Option ℕ)
    (slope : Option ℚ) (am : WithTop ℝ → WithTop ℝ → WithTop ℝ → ℕ) :
    Except PyErr (Option (List (ℕ × ℕ)) × WithTop ℝ) := do
  let (x1, x2, code) ← validatePair s1 s2 gc
  let (v, path) ← frechetPathGeneric x1 x2 code radius slope am
  return (path, sqrtTop v)

end Verif
