import Verif.Model.Rounded
import Verif.Model.Subsequence
import Verif.Model.Lcss
import Verif.Model.Keogh
/-!
Subsequence DTW, LCSS and LB_Keogh in rounded arithmetic, tslearn/metrics/dtw_variants.py.

`rnd` is the rounding of each arithmetic operation, as in `Verif.Model.Rounded`.
-/
namespace Verif

section
variable {K : Type} [LinearOrder K] [Add K] [Zero K]

/-- `_njit_subsequence_cost_matrix` in rounded arithmetic, tslearn/metrics/dtw_variants.py:419-430
(and 456-470 for the other backend), on the rounded local costs `D`. -/
def rSubseqCost (rnd : K → K) (l1 l2 : ℕ) (D : ℕ → ℕ → K) : Mat (WithTop K) :=
  (dpLoop l1 l2 (fun _ _ => true)
    (fun i j up left diag => rAdd rnd (D i j) (min (min up left) diag)) subseqInit).tail
end

section
variable {K : Type} [LinearOrder K] [Add K] [Zero K] [Sub K] [Mul K]

/-- `dtw_subsequence_path(subseq, longseq)` before the square root, in rounded arithmetic,
tslearn/metrics/dtw_variants.py:714-720. -/
def rDtwSubsequencePath (rnd : K → K) (q x : List (List K))
    (am : WithTop K → WithTop K → WithTop K → ℕ) (aml : List (WithTop K) → ℕ) :
    Except PyErr (Option (List (ℕ × ℕ)) × WithTop K) :=
  if q = [] then .error .indexError
  else if x = [] then .error .valueError
  else if nFeatures q ≠ nFeatures x then .error .notModelled
  else
    let acc := rSubseqCost rnd q.length x.length (rLocalCost rnd q x)
    let row := (List.range x.length).map fun j => acc (q.length - 1) j
    let best := aml row
    .ok (subsequencePath am acc q.length best (q.length + x.length), row.getD best ⊤)
end

/-- `numpy.sqrt(_njit_local_squared_dist(s1[i], s2[j])) <= eps` in rounded arithmetic,
tslearn/metrics/dtw_variants.py:975-977 (and 1021-1027). -/
noncomputable def rLcssHit (rnd : ℝ → ℝ) (x y : List (List ℝ)) (eps : ℝ) (i j : ℕ) : Bool :=
  decide (rnd (Real.sqrt (rLocalCost rnd x y i j)) ≤ eps)

/-- `lcss(s1, s2, eps, ...)` in rounded arithmetic, tslearn/metrics/dtw_variants.py:1056-1062 and
1098-1214: the counts are integers, the final division is rounded. -/
noncomputable def rLcss (rnd : ℝ → ℝ) (s1 s2 : TsInput (Option ℝ)) (eps : ℝ) (gc : Option String)
    (radius : Option ℕ) (slope : Option ℚ) : Except PyErr ℝ := do
  let (x, y, mask) ← lcssArgs s1 s2 gc radius slope
  return rnd (lcssScore (lcssAcc x.length y.length mask (rLcssHit rnd x y eps)) x.length y.length)

/-- `numpy.linalg.norm(v) ** 2` in rounded arithmetic, tslearn/metrics/dtw_variants.py:795-797: NumPy
takes the root of `v.dot(v)`, whose summation order belongs to the linear algebra library and is the
parameter `dot`. -/
noncomputable def rNormSq (rnd : ℝ → ℝ) (dot : List ℝ → ℝ) (v : List ℝ) : ℝ :=
  let norm := rnd (Real.sqrt (dot v))
  rnd (norm * norm)

/-- The value of `lb_keogh` from a query column and an envelope in rounded arithmetic,
tslearn/metrics/dtw_variants.py:792-798. Comparisons do not round. -/
noncomputable def rKeogh (rnd : ℝ → ℝ) (dot : List ℝ → ℝ) (q down up : List ℝ) : ℝ :=
  let ups := ((q.zip up).filter fun e => decide (e.2 < e.1)).map fun e => rnd (e.1 - e.2)
  let downs := ((q.zip down).filter fun e => decide (e.1 < e.2)).map fun e => rnd (e.1 - e.2)
  rnd (Real.sqrt (rnd (rNormSq rnd dot ups + rNormSq rnd dot downs)))

/-- `lb_keogh(ts_query, ts_candidate, radius)` in rounded arithmetic,
tslearn/metrics/dtw_variants.py:780-798. The envelope needs no arithmetic. -/
noncomputable def rLbKeogh (rnd : ℝ → ℝ) (dot : List ℝ → ℝ) (q c : List ℝ) (radius : ℕ) :
    Except PyErr ℝ := do
  let (down, up) ← lbEnvelope c radius
  if q.length ≠ down.length then throw .notModelled
  return rKeogh rnd dot q down up

end Verif
