import Verif.Model.Text
import Mathlib.Data.Nat.Notation
/-!
Conversions to and from the formats of other libraries, tslearn/utils/cast.py. A 2-D array is a `Ts`
(rows and number of columns). pandas data frames are lists of named columns or of rows.
-/
namespace Verif
variable {α : Type}

/-- `a.transpose()` of a 2-D array. -/
def Ts.transpose (t : Ts α) : Ts α := ⟨t.rows.length, t.columns⟩

/-- An `(n, sz, d)` array filled entry by entry. -/
def Arr3.build (n sz d : ℕ) (get : ℕ → ℕ → ℕ → Option α) : Arr3 α :=
  ⟨sz, d, (List.range n).map fun i => (List.range sz).map fun t => (List.range d).map fun f => get i t f⟩

/-- Entry `[i, t, f]` (NaN outside). -/
def Arr3.entry (X : Arr3 α) (i t f : ℕ) : Option α := ((X.data.getD i []).getD t []).getD f none

/-- `to_sklearn_dataset(dataset, return_dim=True)`, tslearn/utils/cast.py:21-61: row-major flattening.
`reshape((0, -1))` is a `ValueError`. -/
def toSklearn (x : DsInput α) : Except PyErr (List (List (Option α)) × ℕ) := do
  let X ← toDataset x
  if X.data = [] then throw .valueError
  return (X.data.map List.flatten, X.d)

/-- A pyts array: 2-D `(n, sz)` or 3-D `(n, d, sz)`. -/
inductive PytsArr (α : Type)
  | flat (t : Ts α)
  | cube (X : Arr3 α)

/-- `X.transpose((0, 2, 1))`. -/
def Arr3.swapLast (X : Arr3 α) : Arr3 α := ⟨X.d, X.sz, X.data.map fun s => (Ts.transpose ⟨X.d, s⟩).rows⟩

/-- `to_pyts_dataset(X)`, tslearn/utils/cast.py:64-97. -/
def toPyts (x : DsInput α) : Except PyErr (PytsArr α) := do
  let X ← checkDataset x false true false
  if X.d = 1 then return .flat ⟨X.sz, X.data.map List.flatten⟩
  else return .cube X.swapLast

/-- `from_pyts_dataset(X)`, tslearn/utils/cast.py:100-138: scikit-learn's `check_array` refuses empty
arrays and NaN. -/
def fromPyts : PytsArr α → Except PyErr (Arr3 α)
  | .flat t =>
    if t.rows = [] ∨ t.d = 0 ∨ (t.rows.any fun r => r.any Option.isNone) then .error .valueError
    else .ok ⟨t.d, 1, t.rows.map fun r => r.map fun v => [v]⟩
  | .cube X =>
    if X.data = [] ∨ (X.data.any fun s => s.any fun r => r.any Option.isNone) then .error .valueError
    else .ok X.swapLast

/-- `to_seglearn_dataset(X)`, tslearn/utils/cast.py:141-179. -/
def toSeglearn (x : DsInput α) : Except PyErr (List (Ts α)) := do
  let X ← checkDataset x false false false
  return X.slots.map Ts.trim

/-- `from_seglearn_dataset(X)`, tslearn/utils/cast.py:182-211. -/
def fromSeglearn (l : List (Ts α)) : Except PyErr (Arr3 α) := toDataset (.series l)

/-- A 1-D or 2-D array. -/
inductive Arr12 (α : Type)
  | one (xs : List (Option α))
  | two (t : Ts α)

/-- `transpose_or_flatten`, tslearn/utils/cast.py:245-249. -/
def transposeOrFlatten (t : Ts α) : Arr12 α :=
  if t.d = 1 then .one t.rows.flatten else .two t.transpose

/-- `transpose_or_expand`, tslearn/utils/cast.py:280-284. -/
def transposeOrExpand : Arr12 α → Ts α
  | .one xs => ⟨1, xs.map fun v => [v]⟩
  | .two t => t.transpose

/-- `to_stumpy_dataset(X)`, tslearn/utils/cast.py:214-253. -/
def toStumpy (x : DsInput α) : Except PyErr (List (Arr12 α)) := do
  let X ← checkDataset x false false false
  return X.slots.map fun t => transposeOrFlatten t.trim

/-- `from_stumpy_dataset(X)`, tslearn/utils/cast.py:256-285. -/
def fromStumpy (l : List (Arr12 α)) : Except PyErr (Arr3 α) :=
  toDataset (.series (l.map transposeOrExpand))

/-- Column names of a data frame: `"dim_<k>"` for a decimal `k`, another name starting with `"dim_"`, or
any other name. -/
inductive ColName
  | dim (k : ℕ)
  | dimOther (s : String)
  | other (s : String)
  deriving DecidableEq

/-- `col_name.startswith("dim_")`. -/
def ColName.startsWithDim : ColName → Bool
  | .other _ => false
  | _ => true

/-- A data frame whose cells are series: named columns. -/
abbrev FrameOfSeries (α : Type) := List (ColName × List (List (Option α)))

/-- `to_sktime_dataset(X)`, tslearn/utils/cast.py:288-332. -/
def toSktime (x : DsInput α) : Except PyErr (FrameOfSeries α) := do
  let X ← checkDataset x false false false
  return (List.range X.d).map fun f =>
    (.dim f, X.data.map fun s => (s.take (tsSize s)).map fun r => r.getD f none)

/-- `X[name]`. -/
def frameCol {β : Type} (X : List (ColName × List β)) (name : ColName) : Option (List β) :=
  (X.find? fun c => c.1 == name).map Prod.snd

/-- `from_sktime_dataset(X)`, tslearn/utils/cast.py:335-406. Comparing the sorted name lists is
comparing them up to order. A data frame has one length for all columns. -/
def fromSktime (X : FrameOfSeries α) : Except PyErr (Arr3 α) := do
  let dims := (X.map Prod.fst).filter ColName.startsWithDim
  let d := dims.length
  let ordered := (List.range d).map fun f => ColName.dim f
  if ¬ (ordered.isPerm dims) then throw .valueError
  match frameCol X (.dim 0) with
  | none => throw .keyError
  | some c0 =>
    let n := c0.length
    let cols := ordered.map fun nm => (frameCol X nm).getD []
    let maxSz := ((cols.map fun c => c.map List.length).flatten).foldr max 0
    -- `max_sz` starts at -1: with no cell `numpy.empty` refuses a negative dimension
    if n = 0 then throw .valueError
    return Arr3.build n maxSz d fun i t f => ((cols.getD f []).getD i []).getD t none

/-- `to_pyflux_dataset(X)`, tslearn/utils/cast.py:409-457: the validated dataset only provides the
number of columns, the values come from `X[0]`. -/
def toPyflux (l : List (Ts α)) : Except PyErr (List (ColName × List (Option α))) := do
  let X ← checkDataset (.series l) false true true
  match l with
  | [] => throw .indexError
  | t :: _ =>
    if t.d ≠ X.d then throw .valueError
    return (List.range t.d).map fun f => (.dim f, t.rows.map fun r => r.getD f none)

/-- `from_pyflux_dataset(X)`, tslearn/utils/cast.py:460-524 (column order kept). -/
def fromPyflux (X : List (ColName × List (Option α))) : Except PyErr (Arr3 α) := do
  let d := X.length
  if d = 0 then throw .valueError
  let maxSz := (X.map fun c => c.2.length).foldr max 0
  return Arr3.build 1 maxSz d fun _ t f => ((X.getD f (.other "", [])).2).getD t none

/-- A row of a flat data frame: `id`, `time`, one value per dimension. -/
structure FlatRow (α : Type) where
  id : ℕ
  time : ℕ
  vals : List (Option α)

/-- The data frame of one series, tslearn/utils/cast.py:563-574. -/
def flatRows (i : ℕ) (t : Ts α) : List (FlatRow α) :=
  (List.range t.rows.length).map fun k => ⟨i, k, t.rows.getD k []⟩

/-- `to_tsfresh_dataset(X)`, tslearn/utils/cast.py:527-575: number of data columns and rows. -/
def toTsfresh (x : DsInput α) : Except PyErr (ℕ × List (FlatRow α)) := do
  let X ← checkDataset x false false false
  -- `pd.concat([])` raises
  if X.data = [] then throw .valueError
  return (X.d, ((List.range X.slots.length).map fun i => flatRows i (X.slots.getD i ⟨X.d, []⟩).trim).flatten)

/-- `from_tsfresh_dataset(X)`, tslearn/utils/cast.py:578-652. `enum` lists the elements of the Python
set of ids in its iteration order. -/
def fromTsfresh (enum : List ℕ → List ℕ) (X : ℕ × List (FlatRow α)) : Except PyErr (Arr3 α) := do
  let d := X.1
  let ids := enum (X.2.map FlatRow.id)
  if ids = [] then throw .valueError
  let maxSz := (ids.map fun k => (X.2.filter fun r => r.id == k).length).foldr max 0
  return Arr3.build ids.length maxSz d fun i t f =>
    match (X.2.filter fun r => r.id == ids.getD i 0)[t]? with
    | some r => r.vals.getD f none
    | none => none

/-- `to_cesium_dataset(X)`, tslearn/utils/cast.py:655-710: the measurements of the `TimeSeries`. -/
def toCesium (x : DsInput α) : Except PyErr (List (Arr12 α)) := do
  let X ← checkDataset x false false false
  return X.slots.map fun t => if t.d = 1 then .one t.trim.rows.flatten else .two t.trim.transpose

/-- `format_to_tslearn`, tslearn/utils/cast.py:752-770; sorting by time leaves the measurements of a
series built without times unchanged. `max` of an empty list is a `ValueError`. -/
def formatToTslearn (m : Arr12 α) : Except PyErr (Ts α) :=
  let data := match m with
    | .one xs => [xs]
    | .two t => t.rows
  if data = [] then .error .valueError
  else
    let maxSz := (data.map List.length).foldr max 0
    .ok ⟨data.length, (List.range maxSz).map fun t => (List.range data.length).map fun f =>
      (data.getD f []).getD t none⟩

/-- `from_cesium_dataset(X)`, tslearn/utils/cast.py:713-777. -/
def fromCesium (l : List (Arr12 α)) : Except PyErr (Arr3 α) := do
  let l ← l.mapM formatToTslearn
  toDataset (.series l)

end Verif
