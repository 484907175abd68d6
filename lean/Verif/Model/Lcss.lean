import Verif.Model.Dtw
/-!
Longest common subsequence, tslearn/metrics/dtw_variants.py.
-/
namespace Verif

/-- `njit_lcss_accumulated_matrix` / `lcss_accumulated_matrix`, tslearn/metrics/dtw_variants.py:948-1033
(and 1546-1620 from a distance matrix): an integer table of zeros; cells outside the mask keep 0.
`hit i j` is the comparison `distance(s1[i], s2[j]) <= eps`. -/
def lcssAcc (l1 l2 : ℕ) (mask : Mat Bool) (hit : ℕ → ℕ → Bool) : Mat ℕ :=
  dpLoop l1 l2 mask (fun i j up left diag => if hit i j then 1 + diag else max left up) (Mat.full 0)

/-- The `while i > 0 and j > 0` loop shared by `_return_lcss_path`,
`_return_lcss_path_from_dist_matrix` and their `_njit` twins,
tslearn/metrics/dtw_variants.py:1242-1256, 1293-1312, 1348-1360, 1396-1409. `test i j` is the
condition guarding the body: `mask[i, j]`, or `numpy.isfinite(mask[i, j])` in the `_njit` twins.
When it is false the body does nothing and the loop repeats in the same state.
`none`: the fuel ran out, the loop has not finished. The list is kept reversed. -/
def lcssPathLoop (test hit : ℕ → ℕ → Bool) (acc : Mat ℕ) :
    ℕ → ℕ → ℕ → List (ℕ × ℕ) → Option (List (ℕ × ℕ))
  | 0, _, _, _ => none
  | fuel + 1, i, j, rest =>
    if 0 < i ∧ 0 < j then
      if test (i - 1) (j - 1) then
        if hit (i - 1) (j - 1) then
          lcssPathLoop test hit acc fuel (i - 1) (j - 1) ((i - 1, j - 1) :: rest)
        else if acc i (j - 1) < acc (i - 1) j then lcssPathLoop test hit acc fuel (i - 1) j rest
        else lcssPathLoop test hit acc fuel i (j - 1) rest
      else lcssPathLoop test hit acc fuel i j rest
    else some rest

/-- `_return_lcss_path(s1, s2, eps, mask, acc, sz1, sz2)`, tslearn/metrics/dtw_variants.py:1259-1312:
the guard is `if mask[i - 1, j - 1]`. Also `_return_lcss_path_from_dist_matrix` (1363-1409). -/
def returnLcssPath (mask : Mat Bool) (hit : ℕ → ℕ → Bool) (acc : Mat ℕ) (sz1 sz2 fuel : ℕ) :
    Option (List (ℕ × ℕ)) :=
  lcssPathLoop mask hit acc fuel sz1 sz2 []

/-- `_njit_return_lcss_path_from_dist_matrix`, tslearn/metrics/dtw_variants.py:1315-1360: the guard
is `numpy.isfinite(mask[i - 1, j - 1])`, true for both Booleans. -/
def njitReturnLcssPath (_mask : Mat Bool) (hit : ℕ → ℕ → Bool) (acc : Mat ℕ) (sz1 sz2 fuel : ℕ) :
    Option (List (ℕ × ℕ)) :=
  lcssPathLoop (fun _ _ => true) hit acc fuel sz1 sz2 []

/-- `numpy.sqrt(_njit_local_squared_dist(s1[i], s2[j])) <= eps`. -/
noncomputable def lcssHit (x y : List (List ℝ)) (eps : ℝ) (i j : ℕ) : Bool :=
  decide (Real.sqrt (localCost x y i j) ≤ eps)

/-- Formatting shared by `lcss` and `lcss_path`, tslearn/metrics/dtw_variants.py:1200-1211: NaN
removal, constraint lookup, mask. There is no emptiness or width check in the code: empty series and
series of different widths leave the model. -/
def lcssArgs {K : Type} (s1 s2 : TsInput (Option K)) (gc : Option String) (radius : Option ℕ)
    (slope : Option ℚ) : Except PyErr (List (List K) × List (List K) × Mat Bool) := do
  let t1 := toTimeSeries s1 true
  let t2 := toTimeSeries s2 true
  match denan t1, denan t2 with
  | some x, some y =>
    if x = [] ∨ y = [] ∨ nFeatures x ≠ nFeatures y then throw .notModelled
    let code ← gcCode gc
    let mask ← computeMask x.length y.length code radius slope
    return (x, y, mask)
  | _, _ => throw .notModelled

/-- `float(acc[-1][-1]) / min([l1, l2])`, tslearn/metrics/dtw_variants.py:1062, 1095. -/
noncomputable def lcssScore (acc : Mat ℕ) (l1 l2 : ℕ) : ℝ := (acc l1 l2 : ℝ) / ((min l1 l2 : ℕ) : ℝ)

/-- `lcss(s1, s2, eps, ...)`, tslearn/metrics/dtw_variants.py:1098-1214. -/
noncomputable def lcss (s1 s2 : TsInput (Option ℝ)) (eps : ℝ) (gc : Option String)
    (radius : Option ℕ) (slope : Option ℚ) : Except PyErr ℝ := do
  let (x, y, mask) ← lcssArgs s1 s2 gc radius slope
  return lcssScore (lcssAcc x.length y.length mask (lcssHit x y eps)) x.length y.length

/-- `lcss_path(s1, s2, eps, ...)`, tslearn/metrics/dtw_variants.py:1412-1542. The path is `none`
while the traceback loop has not finished after `fuel` iterations. -/
noncomputable def lcssPath (s1 s2 : TsInput (Option ℝ)) (eps : ℝ) (gc : Option String)
    (radius : Option ℕ) (slope : Option ℚ) (fuel : ℕ) : Except PyErr (Option (List (ℕ × ℕ)) × ℝ) := do
  let (x, y, mask) ← lcssArgs s1 s2 gc radius slope
  let acc := lcssAcc x.length y.length mask (lcssHit x y eps)
  return (returnLcssPath mask (lcssHit x y eps) acc x.length y.length fuel,
    lcssScore acc x.length y.length)

/-- `lcss_path_from_metric` on a given distance matrix, tslearn/metrics/dtw_variants.py:1772-1812.
`numpyBackend` selects the guard. -/
def lcssPathFromMetric (l1 l2 : ℕ) (hit : ℕ → ℕ → Bool) (gc : Option String) (radius : Option ℕ)
    (slope : Option ℚ) (numpyBackend : Bool) (fuel : ℕ) :
    Except PyErr (Option (List (ℕ × ℕ)) × ℕ) := do
  let code ← gcCode gc
  let mask ← computeMask l1 l2 code radius slope
  let acc := lcssAcc l1 l2 mask hit
  return (if numpyBackend then njitReturnLcssPath mask hit acc l1 l2 fuel
    else returnLcssPath mask hit acc l1 l2 fuel, acc l1 l2)

end Verif
