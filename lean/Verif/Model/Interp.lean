import Verif.Model.Scaler
import Mathlib.Data.List.Sort
/-!
One-dimensional interpolation, the resampler and the imputer (tslearn/preprocessing/preprocessing.py).
NaN is `none`.
-/
namespace Verif
variable {K : Type} [Field K] [LinearOrder K]

/-- `numpy.interp(x, xp, fp)` at one finite `x`, for increasing `xp`: called at
tslearn/preprocessing/preprocessing.py:122-126 and 535-539 and tslearn/preprocessing/_synchronizer.py.
NumPy finds `j` with `xp[j] ≤ x < xp[j+1]`, returns the first or last value outside, `fp[j]` if
`xp[j] = x`, and otherwise the point on the segment (NaN if one of its ends is). -/
def interp1 (xp : List K) (fp : List (Option K)) (x : K) : Option K :=
  let j := (xp.takeWhile fun y => decide (y ≤ x)).length
  if j = 0 then fp.getD 0 none
  else if j = xp.length then fp.getD (j - 1) none
  else if xp.getD (j - 1) 0 = x then fp.getD (j - 1) none
  else
    match fp.getD (j - 1) none, fp.getD j none with
    | some a, some b =>
      some ((b - a) / (xp.getD j 0 - xp.getD (j - 1) 0) * (x - xp.getD (j - 1) 0) + a)
    | _, _ => none

/-- `numpy.interp` over an array of points; without sample points it is a `ValueError`. -/
def interp (xs : List K) (xp : List K) (fp : List (Option K)) : Except PyErr (List (Option K)) :=
  if xp = [] then .error .valueError else .ok (xs.map (interp1 xp fp))

/-- `numpy.linspace(0, 1, n)`, tslearn/preprocessing/preprocessing.py:123-124. -/
def linspace01 (n : ℕ) : List K :=
  (List.range n).map fun (i : ℕ) => if n = 1 then 0 else (i : K) / ((n - 1 : ℕ) : K)

/-- `numpy.nanmean` over an ordered field (NaN when nothing is observed). -/
def nanMeanK (l : List (Option K)) : Option K :=
  let o := l.filterMap id
  if o = [] then none else some (o.sum / (o.length : K))

/-- Column `f` of the first `n` rows of series `i`: `X[i, :n, f]`. -/
def Arr3.col {α : Type} (X : Arr3 α) (i n f : ℕ) : List (Option α) := (List.range n).map fun t => X.entry i t f

/-- `TimeSeriesResampler(sz).fit(Xfit).transform(X)`, tslearn/preprocessing/preprocessing.py:45-127.
`Xfit` only matters for its number of features. -/
def resample (sz : ℤ) (Xfit X : DsInput K) : Except PyErr (Arr3 K) := do
  let F ← toDataset Xfit
  let X ← toDataset X
  if F.d ≠ X.d then throw .valueError
  let target : ℕ := if sz > 0 then sz.toNat else X.sz
  if target = 1 then
    return Arr3.build X.data.length 1 X.d fun i _ f => nanMeanK (X.col i X.sz f)
  else
    let equalSize := checkEqualSizeArr X
    let out ← (List.range X.data.length).mapM fun i => do
      let n := if equalSize then X.sz else tsSize (X.data.getD i [])
      (List.range X.d).mapM fun f => interp (linspace01 target) (linspace01 n) (X.col i n f)
    return Arr3.build X.data.length target X.d fun i t f => ((out.getD i []).getD f []).getD t none

/-- The imputation methods, tslearn/preprocessing/preprocessing.py:446-456 and 510-517 (callables are not modelled, any other
name is `unknown`). -/
inductive ImpMethod (K : Type)
  | constant (value : Option K)
  | mean
  | median
  | linear
  | ffill
  | bfill
  | unknown

/-- `numpy.nanmedian` (NaN when nothing is observed), tslearn/preprocessing/preprocessing.py:528. -/
def nanMedian (l : List (Option K)) : Option K :=
  let o := (l.filterMap id).insertionSort (· ≤ ·)
  if o = [] then none
  else if o.length % 2 = 1 then some (o.getD (o.length / 2) 0)
  else some ((o.getD (o.length / 2 - 1) 0 + o.getD (o.length / 2) 0) / 2)

/-- `numpy.where(numpy.isnan(col), v, col)`, tslearn/preprocessing/preprocessing.py:519-528. -/
def fillWith (v : Option K) (c : List (Option K)) : List (Option K) :=
  c.map fun x => if x.isNone then v else x

/-- `numpy.maximum.accumulate`, tslearn/preprocessing/preprocessing.py:551 (`minimum` at 569). -/
def accumulate (op : ℕ → ℕ → ℕ) : List ℕ → List ℕ
  | [] => []
  | x :: xs => x :: go x xs
where
  go (acc : ℕ) : List ℕ → List ℕ
    | [] => []
    | x :: xs => op acc x :: go (op acc x) xs

/-- `idx` of the forward fill, tslearn/preprocessing/preprocessing.py:545-551. -/
def ffillIdx (c : List (Option K)) : List ℕ :=
  accumulate max ((List.range c.length).map fun t => if (c.getD t none).isNone then 0 else t)

/-- `idx` of the backward fill, tslearn/preprocessing/preprocessing.py:563-570. -/
def bfillIdx (c : List (Option K)) : List ℕ :=
  (accumulate min
    ((List.range c.length).map fun t => if (c.getD t none).isNone then c.length - 1 else t).reverse).reverse

/-- `ts[mask] = ts[idx[mask]]`, tslearn/preprocessing/preprocessing.py:552-557 and 571-576. -/
def takeIdx (c : List (Option K)) (idx : List ℕ) : List (Option K) :=
  (List.range c.length).map fun t =>
    if (c.getD t none).isNone then c.getD (idx.getD t 0) none else c.getD t none

/-- Imputation of one feature, tslearn/preprocessing/preprocessing.py:519-577. All the methods work feature by
feature. -/
def imputeCol (m : ImpMethod K) (c : List (Option K)) : Except PyErr (List (Option K)) :=
  match m with
  | .constant v => .ok (fillWith v c)
  | .mean => .ok (fillWith (nanMeanK c) c)
  | .median => .ok (fillWith (nanMedian c) c)
  | .linear => do
    let obs := (List.range c.length).filter fun t => (c.getD t none).isSome
    let mis := (List.range c.length).filter fun t => (c.getD t none).isNone
    let vals ← interp (mis.map (Nat.cast : ℕ → K)) (obs.map (Nat.cast : ℕ → K)) (obs.map fun t => c.getD t none)
    return (List.range c.length).map fun t =>
      if (c.getD t none).isNone then vals.getD (mis.idxOf t) none else c.getD t none
  | .ffill => .ok (takeIdx c (ffillIdx c))
  | .bfill => .ok (takeIdx c (bfillIdx c))
  | .unknown => .error .valueError

/-- `TimeSeriesImputer(method, value, keep_trailing_nans).fit(Xfit).transform(X)`,
tslearn/preprocessing/preprocessing.py:579-647. -/
def impute (m : ImpMethod K) (keep : Bool) (Xfit X : DsInput K) : Except PyErr (Arr3 K) := do
  let F ← toDataset Xfit
  let X ← toDataset X
  if F.d ≠ X.d then throw .valueError
  if m matches .unknown then throw .valueError
  let out ← (List.range X.data.length).mapM fun i => do
    let stop := if keep then tsSize (X.data.getD i []) else X.sz
    (List.range X.d).mapM fun f => imputeCol m (X.col i stop f)
  let Y := Arr3.build X.data.length X.sz X.d fun i t f =>
    let stop := if keep then tsSize (X.data.getD i []) else X.sz
    if t < stop then ((out.getD i []).getD f []).getD t none else X.entry i t f
  toDataset (.series Y.slots)

end Verif
