import Verif.Model.Py
import Mathlib.Data.Nat.Notation
/-!
`LearningShapelets` as far as lengths of series go: tslearn/shapelets/shapelets.py:482-718. Scaling, layers and training are left out.
-/
namespace Verif

/-- A dataset: number of samples of the array, of features, and the sizes of its series (`_ts_size`, NaN at the end not counted). -/
structure ShpData where
  sz : ℕ
  d : ℕ
  sizes : List ℕ
  deriving DecidableEq

/-- Parameters `max_size` and the keys of `n_shapelets_per_size`, and the attribute `_X_fit_dims` (samples, features). -/
structure ShpObj where
  maxSize : Option ℕ
  lengths : Option (List ℕ)
  fitDims : Option (ℕ × ℕ)
  deriving DecidableEq

/-- `max_size` as used, tslearn/shapelets/shapelets.py:688-690 and 708-710. -/
def ShpObj.limit (o : ShpObj) (sz : ℕ) : ℕ :=
  match o.maxSize with
  | some m => m
  | none =>
    match o.fitDims with
    | some (m, _) => m
    | none => sz

/-- `_preprocess_series`, tslearn/shapelets/shapelets.py:701-718: padding at the end does not change the sizes of the series. -/
def shpPreprocess (o : ShpObj) (X : ShpData) : ShpData := if o.limit X.sz > X.sz then { X with sz := o.limit X.sz } else X

/-- `max_sz_shp > self._min_sz_fit`, tslearn/shapelets/shapelets.py:678-682, for at least one series and one length. -/
def shpShort (o : ShpObj) (X : ShpData) : Bool :=
  match o.lengths with
  | none => false
  | some ls => X.sizes.any fun s => ls.any fun l => l > s

/-- `_check_series_length`, tslearn/shapelets/shapelets.py:670-699. -/
def shpCheck (o : ShpObj) (X : ShpData) : Option PyErr :=
  if shpShort o X then some .valueError
  else if X.sz > o.limit X.sz then some .valueError
  else none

/-- `fit(X, y)`, tslearn/shapelets/shapelets.py:482-538: the object afterwards and the array that training sees. `check` stands for the
checks of `X` and `y` before and of the labels after those of the lengths; nothing is stored before all of them pass. -/
def shpFit (check : ShpData → Option PyErr) (labels : Option PyErr) (o : ShpObj) (X : ShpData) : ShpObj × Except PyErr ShpData :=
  match check X with
  | some e => (o, .error e)
  | none =>
    let X := shpPreprocess o X
    match shpCheck o X with
    | some e => (o, .error e)
    | none =>
      match labels with
      | some e => (o, .error e)
      | none => ({ o with fitDims := some (X.sz, X.d) }, .ok X)

/-- `predict`, `predict_proba`, `transform` and `locate` up to the call of the network, tslearn/shapelets/shapelets.py:554-560, 581-586,
612-617, 656-661: the array the network gets. -/
def shpQuery (check : ShpData → Option PyErr) (o : ShpObj) (X : ShpData) : Except PyErr ShpData :=
  match o.fitDims with
  | none => .error .notFitted
  | some (_, d) =>
    match check X with
    | some e => .error e
    | none =>
      let X := shpPreprocess o X
      if X.d ≠ d then .error .valueError
      else
        match shpCheck o X with
        | some e => .error e
        | none => .ok X

/-- The object after a sequence of fits, whether they raise or not; with each dataset the outcome of the check of its labels. -/
def shpRun (check : ShpData → Option PyErr) (o : ShpObj) (h : List (ShpData × Option PyErr)) : ShpObj :=
  h.foldl (fun o c => (shpFit check c.2 o c.1).1) o

end Verif
