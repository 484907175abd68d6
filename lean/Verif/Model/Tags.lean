import Verif.Model.Py
import Mathlib.Data.Nat.Notation
import Mathlib.Tactic.Common
/-!
What the estimators say about series of different lengths (tags) and what the validation at the beginning of `fit` accepts:
tslearn/bases/bases.py:28-75, tslearn/utils/utils.py:24-62 and the estimators. Simplified: three axes only, kinds of samples only;
refusals that depend on sizes or values (too few samples, wrong parameters) are not part of it.
-/
namespace Verif

/-- A sample: a finite number, NaN or an infinity. -/
inductive TCell (K : Type)
  | num (x : K) | nan | inf
  deriving DecidableEq

variable {K : Type}

/-- A dataset given by the user: nested lists, or a NumPy array, which is regular. -/
structure XIn (K : Type) where
  isList : Bool
  series : List (List (List (TCell K)))

/-- Whether nested lists make an array of three axes (library: `numpy.array`). -/
def regularCells (X : List (List (List (TCell K)))) : Bool :=
  X.all fun s => s.length == (X.headD []).length && s.all fun v => v.length == ((X.headD []).headD []).length

/-- Whether some sample is NaN. -/
def hasNan [DecidableEq K] (X : List (List (List (TCell K)))) : Bool := X.any fun s => s.any fun v => v.any fun c => c = .nan

/-- Whether some sample is infinite. -/
def hasInf [DecidableEq K] (X : List (List (List (TCell K)))) : Bool := X.any fun s => s.any fun v => v.any fun c => c = .inf

/-- Values of `force_all_finite` (`ensure_all_finite`): `True`, `"allow-nan"`, `False`. -/
inductive Finite
  | yes | allowNan | no
  deriving DecidableEq

/-- `check_array(X, allow_nd=True, force_all_finite=f)`, tslearn/utils/utils.py:24-35 (library: scikit-learn): ragged lists, no series,
and samples that `f` forbids are refused. -/
def checkArray [DecidableEq K] (f : Finite) (X : XIn K) : Except PyErr (List (List (List (TCell K)))) :=
  if X.series = [] then .error .valueError
  else if X.isList && !regularCells X.series then .error .valueError
  else if (f = .yes && hasNan X.series) || (f ≠ .no && hasInf X.series) then .error .valueError
  else .ok X.series

/-- `to_time_series_dataset`, tslearn/utils/utils.py:262-286 (C23), here on lists of series of `d` features: rows of NaN are added up to the
longest series. Simplified: rows of NaN that end all series are kept, all series have `d` features. -/
def padCells (X : List (List (List (TCell K)))) : List (List (List (TCell K))) :=
  let sz := (X.map List.length).foldr max 0
  let d := ((X.headD []).headD []).length
  X.map fun s => s ++ List.replicate (sz - s.length) (List.replicate d .nan)

/-- `check_variable_length_input`, tslearn/utils/utils.py:52-62: lists are checked series by series. Simplified: `NotAnArray`, a class of
scikit-learn's tests, is left out. -/
def checkVariableLength [DecidableEq K] (X : XIn K) : Except PyErr (List (List (List (TCell K)))) :=
  if X.isList then do
    X.series.forM fun ts => do
      if ts = [] then throw .valueError
      let _ ← checkArray .no ⟨true, [ts]⟩
    return padCells X.series
  else (checkArray .no X).map padCells

/-- The estimators, with the parameter that decides about lengths (`metric` or `kernel`). -/
inductive EstCfg
  | kernelKMeans (kernel : String) | kMeans (metric : String) | dbscan (metric : String) | kShape
  | neighbors (metric : String) | svm (kernel : String) | shapelets
  | paa | sax | oneDSax | minMax | meanVariance | resampler | imputer | synchronizer
  | mlp | early | varima | autoVarima | matrixProfile
  deriving DecidableEq

/-- `VARIABLE_LENGTH_METRICS`, tslearn/metrics/__init__.py:79-80. -/
def variableLengthMetrics : List String := ["ctw", "dtw", "gak", "sax", "softdtw", "softdtw_normalized", "lcss", "frechet"]

/-- `TSLEARN_VALID_METRICS`, tslearn/metrics/__init__.py:77-78. -/
def tslearnValidMetrics : List String := ["ctw", "dtw", "gak", "sax", "softdtw", "softdtw_normalized", "lcss", "frechet"]

/-- `VALID_METRICS` of DBSCAN, tslearn/clustering/dbscan.py:81-82. -/
def dbscanMetrics : List String := ["dtw", "ctw", "frechet", "softdtw_normalized", "euclidean", "precomputed"]

/-- Tags `allow_nan` and `allow_variable_length`. -/
structure LenTags where
  allowNan : Bool
  variableLength : Bool
  deriving DecidableEq

/-- `_DEFAULT_TAGS`, tslearn/bases/bases.py:43-50; `allow_nan` is missing there and false in scikit-learn. -/
def defaultTags : LenTags := ⟨false, false⟩

/-- `_more_tags` (scikit-learn before 1.6): tslearn/bases/bases.py:65-66, tslearn/clustering/kmeans.py:458-467 and 939-944,
tslearn/clustering/dbscan.py:215-220, tslearn/neighbors/neighbors.py:190-195, tslearn/svm/svm.py:92-101,
tslearn/shapelets/shapelets.py:992-994, tslearn/piecewise/piecewise.py:262-267, 519-523 and 806-810,
tslearn/preprocessing/preprocessing.py:130-132, 272-274, 411-413 and 650-655, tslearn/preprocessing/_synchronizer.py:170-172,
tslearn/early_classification/early_classification.py:775-777, tslearn/forecasting/_arima.py:458-463 and 799-803,
tslearn/matrix_profile/matrix_profile.py:255-257. -/
def moreTags : EstCfg → LenTags
  | .kernelKMeans _ => ⟨true, true⟩
  | .kMeans m => ⟨m ≠ "euclidean", m ≠ "euclidean"⟩
  | .dbscan m => ⟨variableLengthMetrics.contains m, variableLengthMetrics.contains m⟩
  | .kShape => defaultTags
  | .neighbors _ => ⟨true, true⟩
  | .svm _ => ⟨false, true⟩
  | .shapelets => ⟨true, true⟩
  | .paa => ⟨true, true⟩
  | .sax => ⟨true, true⟩
  | .oneDSax => ⟨true, true⟩
  | .minMax => ⟨true, true⟩
  | .meanVariance => ⟨true, true⟩
  | .resampler => ⟨true, true⟩
  | .imputer => ⟨true, true⟩
  | .synchronizer => ⟨true, true⟩
  | .mlp => defaultTags
  | .early => defaultTags
  | .varima => ⟨true, true⟩
  | .autoVarima => ⟨true, true⟩
  | .matrixProfile => ⟨true, true⟩

/-- `TsLearnTags` and `TimeSeriesMixin.__sklearn_tags__`, tslearn/bases/bases.py:28-35 and 68-75: the tags of scikit-learn, where
`allow_nan` is false, with `allow_variable_length` false. -/
def newTags : LenTags := ⟨false, false⟩

/-- `__sklearn_tags__` (scikit-learn 1.6 and later): tslearn/clustering/kmeans.py:470-473 and 947-950, tslearn/clustering/dbscan.py:223-226,
tslearn/neighbors/neighbors.py:198-201, tslearn/svm/svm.py:104-107, tslearn/shapelets/shapelets.py:997-1000,
tslearn/piecewise/piecewise.py:270-273, 526-527 and 813-814, tslearn/preprocessing/preprocessing.py:135-138, 277-280, 416-419 and 658-661,
tslearn/preprocessing/_synchronizer.py:175-178, tslearn/early_classification/early_classification.py:783-785,
tslearn/forecasting/_arima.py:452-456 and 792-796, tslearn/matrix_profile/matrix_profile.py:260-263. -/
def sklearnTags : EstCfg → LenTags
  | .kernelKMeans _ => { newTags with allowNan := true, variableLength := true }
  | .kMeans m => { newTags with allowNan := m ≠ "euclidean", variableLength := m ≠ "euclidean" }
  | .dbscan m => { newTags with allowNan := variableLengthMetrics.contains m, variableLength := variableLengthMetrics.contains m }
  | .kShape => newTags
  | .neighbors _ => { newTags with allowNan := true, variableLength := true }
  | .svm _ => { newTags with allowNan := false, variableLength := true }
  | .shapelets => { newTags with allowNan := true, variableLength := true }
  | .paa => { newTags with allowNan := true, variableLength := true }
  | .sax => { newTags with allowNan := true, variableLength := true }
  | .oneDSax => { newTags with allowNan := true, variableLength := true }
  | .minMax => { newTags with allowNan := true, variableLength := true }
  | .meanVariance => { newTags with allowNan := true, variableLength := true }
  | .resampler => { newTags with allowNan := true, variableLength := true }
  | .imputer => { newTags with allowNan := true, variableLength := true }
  | .synchronizer => { newTags with allowNan := true, variableLength := true }
  | .mlp => newTags
  | .early => newTags
  | .varima => { newTags with allowNan := true, variableLength := true }
  | .autoVarima => { newTags with allowNan := true, variableLength := true }
  | .matrixProfile => { newTags with allowNan := true, variableLength := true }

/-- scikit-learn's own validation of the flattened dataset (library: `pairwise_kernels`, `SVC.fit`, `NearestNeighbors.fit`). -/
def sklearnFinite [DecidableEq K] (X : List (List (List (TCell K)))) : Except PyErr Unit :=
  if hasNan X || hasInf X then .error .valueError else .ok ()

/-- `KernelKMeans.fit` up to the kernel matrix, tslearn/clustering/kmeans.py:336 and 267-292. -/
def fitKernelKMeans [DecidableEq K] (kernel : String) (X : XIn K) : Except PyErr Unit := do
  let s ← checkArray .no X
  if kernel = "gak" then return ()
  sklearnFinite s

/-- `TimeSeriesKMeans.fit`, tslearn/clustering/kmeans.py:796-801; the metric is looked at in the first attempt, 680-684 (an unknown one raises). -/
def fitKMeans [DecidableEq K] (metric : String) (X : XIn K) : Except PyErr Unit := do
  let _ ← checkArray (if metric ≠ "euclidean" then .allowNan else .yes) X
  if metric = "euclidean" ∨ metric = "dtw" ∨ metric = "softdtw" then return ()
  throw .valueError

/-- `TimeSeriesDBSCAN.fit`, tslearn/clustering/dbscan.py:127-147: its metrics, its own validation, and that of `KNeighborsTimeSeries.fit`
(scikit-learn's for a matrix). -/
def fitDbscan [DecidableEq K] (metric : String) (X : XIn K) : Except PyErr Unit := do
  if !dbscanMetrics.contains metric then throw .valueError
  let _ ← checkArray (if tslearnValidMetrics.contains metric then .allowNan else .yes) X
  return ()

/-- `fit` of the nearest-neighbour estimators, tslearn/neighbors/neighbors.py:330-350, 554-580 and 715-735, for an estimator that was not
fitted before: metrics of tslearn become `"precomputed"` first, and scikit-learn sees zeros then. -/
def fitNeighbors [DecidableEq K] (metric : String) (X : XIn K) : Except PyErr Unit := do
  let recorded := tslearnValidMetrics.contains metric
  let m := if recorded then "precomputed" else metric
  let s ← checkArray (if m ≠ "precomputed" then .yes else .no) X
  if recorded then return ()
  sklearnFinite s

/-- `_preprocess_sklearn` of the support vector machines at the time of `fit`, tslearn/svm/svm.py:43-89, and scikit-learn's validation. -/
def fitSvm [DecidableEq K] (kernel : String) (X : XIn K) : Except PyErr Unit := do
  let s ← checkArray (if variableLengthMetrics.contains kernel then .no else .yes) X
  if variableLengthMetrics.contains kernel then
    if kernel = "gak" then return () else throw .assertion
  sklearnFinite s

/-- The validation at the beginning of `fit`: as above, and tslearn/clustering/kshape.py:211, tslearn/shapelets/shapelets.py:498,
tslearn/piecewise/piecewise.py:143, 381 and 656, tslearn/preprocessing/preprocessing.py:61, 201, 345 and 592,
tslearn/preprocessing/_synchronizer.py:73, tslearn/neural_network/neural_network.py:54 and 174,
tslearn/early_classification/early_classification.py:150, tslearn/forecasting/_arima.py:197 and 551,
tslearn/matrix_profile/matrix_profile.py:151. -/
def fitValidate [DecidableEq K] : EstCfg → XIn K → Except PyErr Unit
  | .kernelKMeans k, X => fitKernelKMeans k X
  | .kMeans m, X => fitKMeans m X
  | .dbscan m, X => fitDbscan m X
  | .kShape, X => (checkArray .yes X).map fun _ => ()
  | .neighbors m, X => fitNeighbors m X
  | .svm k, X => fitSvm k X
  | .shapelets, X => (checkArray .no X).map fun _ => ()
  | .paa, X => (checkArray .no X).map fun _ => ()
  | .sax, X => (checkArray .no X).map fun _ => ()
  | .oneDSax, X => (checkArray .no X).map fun _ => ()
  | .minMax, X => (checkArray .no X).map fun _ => ()
  | .meanVariance, X => (checkArray .no X).map fun _ => ()
  | .resampler, X => (checkVariableLength X).map fun _ => ()
  | .imputer, X => (checkVariableLength X).map fun _ => ()
  | .synchronizer, X => (checkVariableLength X).map fun _ => ()
  | .mlp, X => (checkArray .yes X).map fun _ => ()
  | .early, X => (checkArray .yes X).map fun _ => ()
  | .varima, X => (checkArray .allowNan X).map fun _ => ()
  | .autoVarima, X => (checkArray .allowNan X).map fun _ => ()
  | .matrixProfile, X => (checkArray .no X).map fun _ => ()

end Verif
