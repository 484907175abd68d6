import Verif.Model.SoftDtw
import Verif.Model.SoftObj
/-!
The deprecated functions of tslearn/metrics/softdtw_variants.py:91-650, which compute through the class `SoftDTW`. `B` is the largest
float, `DBL_MAX`; arithmetic is exact. The warnings are not modelled. `compute_with_backend` chooses between two copies of the same
loops.
-/
namespace Verif
noncomputable section
open Classical

/-- `SquaredEuclidean(_to_time_series(ts1, True), _to_time_series(ts2, True)).compute()`, tslearn/metrics/softdtw_variants.py:196-200 and
801 (library: scikit-learn's `euclidean_distances` refuses a series without samples and different numbers of features, `torch.cdist`
only the latter). An empty series counts as having the features of the other one. -/
def oldDist (be : Backend) (x y : List (List ℝ)) : Except PyErr (Mat ℝ) :=
  if x = [] ∨ y = [] then
    match be with
    | .numpy => .error .valueError
    | .pytorch => .ok (sqEucCompute x y)
  else if nFeatures x ≠ nFeatures y then
    match be with
    | .numpy => .error .valueError
    | .pytorch => .error .runtimeError
  else .ok (sqEucCompute x y)

/-- `soft_dtw(ts1, ts2, gamma)` for `gamma ≠ 0`, tslearn/metrics/softdtw_variants.py:194-205, on series without NaN. -/
def oldSoftDtwGeneric (be : Backend) (B : ℝ) (x y : List (List ℝ)) (γ : ℝ) : Except PyErr Fl := do
  let D ← oldDist be x y
  let o := SoftObj.new x.length y.length D γ
  return Fl.num (o.compute B).2

/-- `soft_dtw(ts1, ts2, gamma)`, tslearn/metrics/softdtw_variants.py:189-205. NaN inside a series are not modelled. -/
def oldSoftDtw (be : Backend) (B : ℝ) (s1 s2 : TsInput (Option ℝ)) (γ : ℝ) : Except PyErr Fl := do
  if γ = 0 then
    let v ← dtw s1 s2 none none none
    return (flOfTop v).mul (flOfTop v)
  else
    match denan (toTimeSeries s1 true), denan (toTimeSeries s2 true) with
    | some x, some y => oldSoftDtwGeneric be B x y γ
    | _, _ => throw .notModelled

/-- `soft_dtw_alignment(ts1, ts2, gamma)`, tslearn/metrics/softdtw_variants.py:313-335. For `gamma ≠ 0` an empty series is not
modelled. -/
def oldSoftDtwAlignment (be : Backend) (B : ℝ) (s1 s2 : TsInput (Option ℝ)) (γ : ℝ)
    (am : WithTop ℝ → WithTop ℝ → WithTop ℝ → ℕ) : Except PyErr (Mat Fl × Fl) := do
  if γ = 0 then
    let (path, dist) ← dtwPath s1 s2 none none none am
    let distSq := (flOfTop dist).mul (flOfTop dist)
    match path with
    | some path => return (path.foldl (fun a ij => a.set ij.1 ij.2 (Fl.num 1)) (Mat.full (Fl.num 0)), distSq)
    | none => throw .notModelled
  else
    match denan (toTimeSeries s1 true), denan (toTimeSeries s2 true) with
    | some x, some y =>
      let D ← oldDist be x y
      if x = [] ∨ y = [] then throw .notModelled
      let o := SoftObj.new x.length y.length D γ
      let (o, distSq) := o.compute B
      let a ← (o.grad B).2
      return (fun i j => Fl.num (a i j), Fl.num distSq)
    | _, _ => throw .notModelled

/-- `ts_short` of `_cdist_soft_dtw`, tslearn/metrics/softdtw_variants.py:472-479: padding is removed unless all series have the same
length. -/
def oldShort (equalSize : Bool) (t : Ts ℝ) : TsInput (Option ℝ) :=
  if equalSize then .twoD t.rows else .twoD (toTimeSeries (.twoD t.rows) true)

/-- `_cdist_soft_dtw(dataset1, dataset2, gamma)`, tslearn/metrics/softdtw_variants.py:457-487; `junk` is the uninitialised array. -/
def oldCdistArr (be : Backend) (B : ℝ) (X : Arr3 ℝ) (Y : Option (Arr3 ℝ)) (γ : ℝ) (junk : Mat Fl) : Except PyErr (Mat Fl) :=
  let selfSim := Y.isNone
  let Y := Y.getD X
  let eq1 := checkEqualSizeArr X
  let eq2 := checkEqualSizeArr Y
  forRange X.slots.length (.ok junk) fun i M => forRange Y.slots.length M fun j M => do
    let dists ← M
    if selfSim ∧ j < i then return dists.set i j (dists j i)
    else
      let v ← oldSoftDtw be B (oldShort eq1 (X.slots.getD i ⟨X.d, []⟩)) (oldShort eq2 (Y.slots.getD j ⟨Y.d, []⟩)) γ
      return dists.set i j v

/-- `cdist_soft_dtw(dataset1, dataset2, gamma)`, tslearn/metrics/softdtw_variants.py:437-447. -/
def oldCdist (be : Backend) (B : ℝ) (X : DsInput ℝ) (Y : Option (DsInput ℝ)) (γ : ℝ) (junk : Mat Fl) : Except PyErr (Mat Fl) := do
  let X ← toDataset X
  match Y with
  | none => oldCdistArr be B X none γ junk
  | some Y =>
    let Y ← toDataset Y
    oldCdistArr be B X (some Y) γ junk

/-- The loops of `_cdist_soft_dtw_normalized` over one dataset, tslearn/metrics/softdtw_variants.py:633-638 and 641-645. -/
def oldSelf (be : Backend) (B : ℝ) (X : Arr3 ℝ) (γ : ℝ) : Except PyErr (List Fl) :=
  X.slots.mapM fun t =>
    let short : TsInput (Option ℝ) := .twoD (toTimeSeries (.twoD t.rows) true)
    oldSoftDtw be B short short γ

/-- `cdist_soft_dtw_normalized(dataset1, dataset2, gamma)`, tslearn/metrics/softdtw_variants.py:601-650. -/
def oldCdistNormalized (be : Backend) (B : ℝ) (X : DsInput ℝ) (Y : Option (DsInput ℝ)) (γ : ℝ) (junk : Mat Fl) :
    Except PyErr (Mat Fl) := do
  let X ← toDataset X
  match Y with
  | none =>
    let dists ← oldCdistArr be B X none γ junk
    return fun i j => (dists i j).add (Fl.scale (-(1/2)) ((dists i i).add (dists j j)))
  | some Y =>
    let Y ← toDataset Y
    let dists ← oldCdistArr be B X (some Y) γ junk
    let self1 ← oldSelf be B X γ
    let self2 ← oldSelf be B Y γ
    return fun i j => (dists i j).add (Fl.scale (-(1/2)) ((self1.getD i (Fl.num 0)).add (self2.getD j (Fl.num 0))))

end
end Verif
