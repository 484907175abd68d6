import Verif.Model.Py
/-!
Time series with NaN, tslearn/utils/utils.py. A sample is `Option K`, `none` being NaN.
A series is the list of its timestamps, each the list of its features.
-/
namespace Verif

/-- Array-like input of `to_time_series`: 1-D or 2-D. -/
inductive TsInput (α : Type _)
  | oneD (xs : List α)
  | twoD (rows : List (List α))
  deriving Repr

variable {α : Type _}

/-- The `while sz > 0 and all(isnan(ts[sz - 1])): sz -= 1` loop of `_ts_size`,
tslearn/utils/utils.py:511-518. -/
def tsSizeLoop (ts : List (List (Option α))) : Nat → Nat
  | 0 => 0
  | sz + 1 => if (ts.getD sz []).all Option.isNone then tsSizeLoop ts sz else sz + 1

/-- `_ts_size(ts)`, tslearn/utils/utils.py:511-518. -/
def tsSize (ts : List (List (Option α))) : Nat := tsSizeLoop ts ts.length

/-- `to_time_series(ts, remove_nans)`, tslearn/utils/utils.py:154-212. -/
def toTimeSeries (ts : TsInput (Option α)) (removeNans : Bool) : List (List (Option α)) :=
  let rows := match ts with
    | .oneD xs => xs.map fun x => [x]
    | .twoD rows => rows
  if removeNans then rows.take (tsSize rows) else rows

/-- All samples observed: the series without NaN (`none` if some sample is NaN). -/
def denan (ts : List (List (Option α))) : Option (List (List α)) :=
  ts.mapM fun row => row.mapM id

/-- `ts.shape[1]` of a 2-D array given by its rows. -/
def nFeatures (ts : List (List α)) : Nat := (ts.headD []).length

end Verif
