import Verif.Model.Series
/-!
Datasets of time series, tslearn/utils/utils.py. Arrays carry their shape, so that empty axes are
handled as NumPy does.
-/
namespace Verif

/-- A 2-D array of shape `(rows.length, d)` (a formatted time series). `none` is NaN. -/
structure Ts (α : Type) where
  d : Nat
  rows : List (List (Option α))

/-- Every row has `d` entries (what being a NumPy array means). -/
def Ts.WF {α : Type} (t : Ts α) : Prop := ∀ r ∈ t.rows, r.length = t.d

/-- A 3-D array of shape `(data.length, sz, d)`. -/
structure Arr3 (α : Type) where
  sz : Nat
  d : Nat
  data : List (List (List (Option α)))

/-- Being a NumPy array of that shape. -/
def Arr3.WF {α : Type} (X : Arr3 α) : Prop :=
  ∀ s ∈ X.data, s.length = X.sz ∧ ∀ r ∈ s, r.length = X.d

/-- `X[i]` as a 2-D array. -/
def Arr3.slots {α : Type} (X : Arr3 α) : List (Ts α) := X.data.map fun s => ⟨X.d, s⟩

/-- Array-like datasets: a flat list of numbers, or a list (or 3-D array) of series. -/
inductive DsInput (α : Type)
  | scalars (xs : List (Option α))
  | series (l : List (Ts α))

variable {α : Type}

/-- `to_time_series(ts, remove_nans=True)` on a formatted series, tslearn/utils/utils.py:203-212. -/
def Ts.trim (t : Ts α) : Ts α := ⟨t.d, t.rows.take (tsSize t.rows)⟩

/-- NumPy broadcasting of one row of an assignment `out[i, :k] = ts` into rows of width `d`. -/
def bcastRow (d : Nat) (r : List (Option α)) : Except PyErr (List (Option α)) :=
  if r.length = d then .ok r
  else match r with
    | [v] => .ok (List.replicate d v)
    | _ => .error .valueError

/-- `dataset_out[i, : ts.shape[0]] = ts`, tslearn/utils/utils.py:284: the assigned rows followed by
the NaN rows the slot was created with. The shapes `(k, ts.d)` and `(k, d)` must be broadcastable
even when `k = 0`. -/
def fillSlot (maxSz d : Nat) (ts : Ts α) : Except PyErr (List (List (Option α))) := do
  if ts.d ≠ d ∧ ts.d ≠ 1 then throw .valueError
  let rows ← ts.rows.mapM (bcastRow d)
  return rows ++ List.replicate (maxSz - rows.length) (List.replicate d none)

/-- The body of `to_time_series_dataset` once the dataset is a list of series,
tslearn/utils/utils.py:267-286. -/
def toDatasetSeries (l : List (Ts α)) : Except PyErr (Arr3 α) :=
  match l with
  | [] => .ok ⟨0, 0, []⟩
  | t0 :: _ => do
    let maxSz := (l.map fun t => tsSize t.rows).foldr max 0
    let d := t0.d
    let data ← l.mapM fun t => fillSlot maxSz d t.trim
    return ⟨maxSz, d, data⟩

/-- `to_time_series_dataset(dataset)`, tslearn/utils/utils.py:215-286 (`be.ndim(dataset[0]) == 0`
wraps a flat list into a single series). -/
def toDataset : DsInput α → Except PyErr (Arr3 α)
  | .scalars [] => .ok ⟨0, 0, []⟩
  | .scalars xs => toDatasetSeries [⟨1, xs.map fun x => [x]⟩]
  | .series l => toDatasetSeries l

/-- `_check_equal_size(dataset)`, tslearn/utils/utils.py:452-461. -/
def checkEqualSizeArr (X : Arr3 α) : Bool :=
  match X.data with
  | [] => true
  | s0 :: rest => rest.all fun s => tsSize s == tsSize s0

/-- `check_equal_size(dataset)`, tslearn/utils/utils.py:425-449. -/
def checkEqualSize (x : DsInput α) : Except PyErr Bool := do
  return checkEqualSizeArr (← toDataset x)

/-- `check_dataset(X, force_univariate, force_equal_length, force_single_time_series)`,
tslearn/utils/utils.py:548-621. -/
def checkDataset (x : DsInput α) (uni eq single : Bool) : Except PyErr (Arr3 α) := do
  let X ← toDataset x
  if uni ∧ X.d ≠ 1 then throw .valueError
  if eq ∧ ¬ checkEqualSizeArr X then throw .valueError
  if single ∧ X.data.length ≠ 1 then throw .valueError
  return X

/-- `check_dims(X, X_fit_dims, extend, check_n_features_only)`, tslearn/utils/utils.py:65-151, on
shapes (the data is only reshaped, never changed). `X_fit_dims` is a tuple; reading index 2 of a
shorter tuple or shape is an `IndexError`. -/
def checkDims (shape : Option (List Nat)) (fitDims : Option (List Nat)) (extend featOnly : Bool) :
    Except PyErr (List Nat) :=
  match shape with
  | none => .error .valueError
  | some s =>
    let s := if extend ∧ s.length = 2 then s ++ [1] else s
    match fitDims with
    | none => .ok s
    | some f =>
      if featOnly then
        match f[2]?, s[2]? with
        | some a, some b => if a ≠ b then .error .valueError else .ok s
        | _, _ => .error .indexError
      else if f.tail ≠ s.tail then .error .valueError else .ok s

end Verif
