import Verif.Model.Py
import Verif.Model.Argmin
import Mathlib.Data.Rat.Floor
import Mathlib.Data.List.Sort
import Mathlib.Data.List.Dedup
import Mathlib.Data.Nat.Log
/-!
`LearningShapelets`: numbers and lengths of shapelets, windows that initialise them, and labels. Lengths of series are in `ShapeletFit`, layers
in `Shapelets`; training is a parameter.
-/
namespace Verif

/-- `int(numpy.log10(x))` of an integer, in exact arithmetic. -/
def intLog10 (x : ℤ) : Except PyErr ℕ :=
  if x = 0 then .error .overflow
  else if x < 0 then .error .valueError
  else .ok (Nat.log 10 x.toNat)

/-- `base_size`, tslearn/shapelets/shapelets.py:275-276. -/
def grabockaBase (tsSz : ℕ) (l : ℚ) : ℕ := max ⌊l * tsSz⌋₊ 1

/-- `grabocka_params_to_shapelet_size_dict(n_ts, ts_sz, n_classes, l, r)`, tslearn/shapelets/shapelets.py:235-287: lengths and numbers, in order of
insertion. -/
def grabocka (nTs tsSz nClasses : ℕ) (l : ℚ) (r : ℤ) : Except PyErr (List (ℕ × ℕ)) :=
  (List.range (min r tsSz).toNat).mapM fun i => do
    let shp := grabockaBase tsSz l * (i + 1)
    let n ← intLog10 ((nTs : ℤ) * ((tsSz : ℤ) - shp + 1) * ((nClasses : ℤ) - 1))
    return (shp, max 1 n)

/-- `_kmeans_init_shapelets`, tslearn/shapelets/shapelets.py:49-62, up to the call of k-means: series `ts j` and start drawn `j`-th, the latter
from `choice m` (an index below `m`; `numpy.random.choice` refuses `m <= 0`). `sizes` are the sizes of the series without trailing NaN. -/
def initWindows (sizes : List ℕ) (shpLen : ℕ) (ts : ℕ → ℕ) (choice : ℕ → ℕ → ℕ) (nDraw : ℕ) : Except PyErr (List (ℕ × ℕ)) :=
  (List.range nDraw).mapM fun j =>
    let size := sizes.getD (ts j) 0
    if size < shpLen then .error .valueError else .ok (ts j, choice j (size - shpLen + 1))

section
variable {L : Type} [LinearOrder L]

/-- `unique_labels(y)`, tslearn/shapelets/shapelets.py:721. -/
def shpClasses (y : List L) : List L := y.dedup.insertionSort (· ≤ ·)

/-- `_preprocess_labels` after the check, tslearn/shapelets/shapelets.py:726-738: `to_categorical` has one column more than the largest index;
with two labels the first column is dropped. -/
def shpTargets (y : List L) : List (List ℚ) :=
  let classes := shpClasses y
  let ind := y.map fun lab => classes.idxOf lab
  let cols := ind.foldl max 0 + 1
  let rows := ind.map fun k => (List.range cols).map fun c => if c = k then 1 else 0
  if classes.length = 2 then rows.map (List.drop 1) else rows

/-- Attributes `classes_`, `_X_fit_dims` (set or not) and `model_`, tslearn/shapelets/shapelets.py:504-524; a network gives the row of outputs of a
series. -/
structure ShpClf (L Q K : Type) where
  classes : Option (List L) := none
  fitted : Bool := false
  net : Option (Q → List K) := none

variable {Q K : Type}

/-- `fit` after the checks of `X`, tslearn/shapelets/shapelets.py:503-538: `sizes` is `n_shapelets_per_size`, `l` and `r` are `shapelet_length` and
`total_lengths`, `nTs` and `minSz` the number of series and the least of their sizes, `train` what Keras does. -/
def shpClfFit (train : List (List ℚ) → List (ℕ × ℕ) → Q → List K) (sizes : Option (List (ℕ × ℕ))) (l : ℚ) (r : ℤ) (o : ShpClf L Q K) (nTs minSz : ℕ)
    (y : List L) : ShpClf L Q K × Option PyErr :=
  let o := { o with classes := some (shpClasses y) }
  if (shpClasses y).length = 1 then (o, some .valueError)
  else
    let o := { o with fitted := true, net := none }
    match (match sizes with
      | none => grabocka nTs minSz (shpClasses y).length l r
      | some s => .ok s) with
    | .error e => (o, some e)
    | .ok s => ({ o with net := some (train (shpTargets y) s) }, none)

/-- `predict_proba` of one series, tslearn/shapelets/shapelets.py:569-600, after the checks of `X`. -/
def shpProba [Ring K] (o : ShpClf L Q K) (x : Q) : Except PyErr (List K) :=
  if o.fitted then
    match o.net with
    | none => .error .attributeError
    | some net =>
      match net x with
      | [p] => if (o.classes.getD []).length = 2 then .ok [1 - p, p] else .ok [p]
      | ps => .ok ps
  else .error .notFitted

/-- `predict` of one series, tslearn/shapelets/shapelets.py:540-567: `argmax`, then the label of that index. -/
def shpPredict [Ring K] [LinearOrder K] (o : ShpClf L Q K) (x : Q) : Except PyErr L := do
  let ps ← shpProba o x
  match (o.classes.getD [])[argminL (ps.map fun p => -p)]? with
  | some lab => .ok lab
  | none => .error .indexError

end
end Verif
