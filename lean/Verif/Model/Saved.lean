import Verif.Model.Package
import Verif.Model.KnnSup
/-!
Which attributes of an estimator are written to a file, and which are needed for an answer afterwards. Values and file formats are those of
`Verif.Model.Package`; here attributes are looked at by name. `LearningShapelets`, which loads its network in its own way, is in
`Verif.Model.ShapeletNet`.
-/
namespace Verif

/-- The other estimators with `to_json`, `to_hdf5` and `to_pickle`; those of tslearn/neighbors with a metric of tslearn (`true`; for classifiers not
`"sax"`) or one of scipy (`false`), symbolic ones with `scale`. -/
inductive PkgClass where
  | kernelKMeans | kMeans | kShape | dbscan | matrixProfile | paa
  | sax (scale : Bool) | oneDSax (scale : Bool)
  | neighbors (elastic : Bool) | knnClassifier (elastic : Bool) | knnRegressor (elastic : Bool)
  | varima | autoVarima
  deriving DecidableEq

/-- The attributes set so far, by name. -/
abbrev Attrs (V : Type) := String → Option V

/-- All the names have values. -/
def hasAll {V : Type} (o : Attrs V) (names : List String) : Bool := names.all fun n => (o n).isSome

/-- Attributes that scikit-learn's `fit` of the supervised neighbours sets and reads (library), tslearn/neighbors/neighbors.py:532-536. -/
def skNames : List String := ["classes_", "_y", "outputs_2d_", "_fit_X", "_fit_method"]

/-- Attributes set by a successful first `fit`: tslearn/clustering/kmeans.py:346-387, 811-850 with tslearn/clustering/utils.py:226-235,
tslearn/clustering/kshape.py:218-255, tslearn/clustering/dbscan.py:182-192, tslearn/matrix_profile/matrix_profile.py:134-135,
tslearn/piecewise/piecewise.py:126-127, 356-366, 637-641, tslearn/neighbors/neighbors.py:330-348, 554-580, 715-735,
tslearn/forecasting/_arima.py:205-243, 555-568. A regressor has no `classes_`. -/
def fitNames : PkgClass → List String
  | .kernelKMeans => ["sigma_gak_", "labels_", "inertia_", "sample_weight_", "_X_fit", "n_iter_", "n_features_in_"]
  | .kMeans => ["labels_", "inertia_", "cluster_centers_", "_X_fit", "n_iter_", "n_features_in_"]
  | .kShape => ["labels_", "inertia_", "cluster_centers_", "norms_", "norms_centroids_", "_X_fit", "n_iter_", "n_features_in_"]
  | .dbscan => ["core_ts_indices_", "labels_", "components_", "n_features_in_"]
  | .matrixProfile => ["_X_fit_dims", "n_features_in_"]
  | .paa => ["_X_fit_dims_", "n_features_in_"]
  | .sax s => ["_X_fit_dims_", "n_features_in_", "breakpoints_avg_", "breakpoints_avg_middle_"] ++ if s then ["mu_", "std_"] else []
  | .oneDSax s => ["_X_fit_dims_", "n_features_in_", "breakpoints_avg_", "breakpoints_avg_middle_", "breakpoints_slope_", "breakpoints_slope_middle_"] ++
      if s then ["mu_", "std_"] else []
  | .neighbors e => ["_X_fit", "_d"] ++ ["_fit_X", "_fit_method"] ++ if e then ["_ts_metric", "_ts_fit"] else []
  | .knnClassifier e => ["_X_fit", "_d", "n_features_in_"] ++ skNames ++ if e then ["_ts_metric", "_ts_fit"] else []
  | .knnRegressor e => ["_X_fit", "_d", "n_features_in_", "_y", "_fit_X", "_fit_method"] ++ if e then ["_ts_metric", "_ts_fit"] else []
  | .varima => ["_min_samples", "_ts_sizes", "intercept_", "ar_coeffs_", "ma_coeffs_", "_last_residuals", "_last_timestamps", "lle_", "n_ts_", "n_samples_",
      "n_features_in_"]
  | .autoVarima => ["_min_samples", "_ts_sizes", "best_estimator_", "n_ts_", "n_samples_", "n_features_in_"]

/-- A name ends with an underscore and does not begin with two, tslearn/bases/bases.py:104-105. -/
def packedName (n : String) : Bool := !(['_', '_'].isPrefixOf n.toList) && ['_'].isSuffixOf n.toList

/-- `_is_fitted()`: tslearn/clustering/kmeans.py:248-250, 629-631, tslearn/clustering/kshape.py:106-117, tslearn/clustering/dbscan.py:99-100 (any name of
that kind, here one of those `fit` sets), tslearn/matrix_profile/matrix_profile.py:129-131, tslearn/piecewise/piecewise.py:121-123, 349-353, 622-625,
tslearn/neighbors/neighbors.py:308-313, 523-525. The others inherit the placeholder, tslearn/bases/bases.py:81-94, which answers `None`. -/
def isFittedOf {V : Type} (c : PkgClass) (o : Attrs V) : Except PyErr (Option Bool) :=
  let check (names : List String) : Except PyErr (Option Bool) := if hasAll o names then .ok (some true) else .error .notFitted
  match c with
  | .kernelKMeans => check ["_X_fit"]
  | .kMeans => check ["cluster_centers_"]
  | .kShape => check ["cluster_centers_", "norms_", "norms_centroids_"]
  | .dbscan => if (fitNames .dbscan).any fun n => packedName n && (o n).isSome then .ok (some true) else .error .notFitted
  | .matrixProfile => check ["_X_fit_dims"]
  | .paa => check ["_X_fit_dims_"]
  | .sax s => check (["breakpoints_avg_", "breakpoints_avg_middle_"] ++ (if s then ["mu_", "std_"] else []) ++ ["_X_fit_dims_"])
  | .oneDSax s => check (["breakpoints_slope_", "breakpoints_slope_middle_", "breakpoints_avg_", "breakpoints_avg_middle_"] ++
      (if s then ["mu_", "std_"] else []) ++ ["_X_fit_dims_"])
  | .neighbors e => check [if e then "_ts_fit" else "_X_fit"]
  | .knnClassifier _ => check ["_ts_fit"]
  | .knnRegressor _ | .varima | .autoVarima => .ok none

/-- `_get_model_params()`: tslearn/bases/bases.py:96-108, tslearn/clustering/kmeans.py:252-255, tslearn/neighbors/neighbors.py:315-319, 527-537: the
attributes written. Reading a missing one raises. -/
def modelParamsOf {V : Type} (c : PkgClass) (o : Attrs V) : Except PyErr (Attrs V) :=
  let exactly (names : List String) : Except PyErr (Attrs V) :=
    if hasAll o names then .ok fun n => if n ∈ names then o n else none else .error .attributeError
  match c with
  | .kernelKMeans => if hasAll o ["_X_fit"] then .ok fun n => if packedName n ∨ n = "_X_fit" then o n else none else .error .attributeError
  | .neighbors e => exactly [if e then "_ts_fit" else "_X_fit"]
  | .knnClassifier _ => exactly (["_X_fit", "_ts_fit", "_d"] ++ skNames)
  | _ => .ok fun n => if packedName n then o n else none

/-- `_to_dict`, tslearn/bases/bases.py:110-139: what is written, or the exception. -/
def saveOf {V : Type} (c : PkgClass) (o : Attrs V) : Except PyErr (Attrs V) :=
  match isFittedOf c o with
  | .error e => .error e
  | .ok b =>
    match checkFitted b with
    | .error e => .error e
    | .ok _ => modelParamsOf c o

/-- `_organize_model`, tslearn/bases/bases.py:166-199: a new estimator with the attributes that were written (and the hyper-parameters). -/
def loadOf {V : Type} (s : Attrs V) : Attrs V := s

/-- Attributes tested by `check_is_fitted` in the call that answers: `predict` of the clusterings (tslearn/clustering/kmeans.py:449, 899,
tslearn/clustering/kshape.py:293-296), `transform` of the representations (tslearn/matrix_profile/matrix_profile.py:229,
tslearn/piecewise/piecewise.py:172, 438, 719), `kneighbors` (tslearn/neighbors/neighbors.py:381, 413), `predict` of the supervised neighbours (216, 229).
DBSCAN has no such call. VARIMA looks for any attribute. -/
def testedNames : PkgClass → List String
  | .kernelKMeans => ["_X_fit"]
  | .kMeans => ["cluster_centers_"]
  | .kShape => ["cluster_centers_", "norms_", "norms_centroids_"]
  | .matrixProfile => ["_X_fit_dims"]
  | .paa => ["_X_fit_dims_"]
  | .sax s => ["breakpoints_avg_", "breakpoints_avg_middle_"] ++ (if s then ["mu_", "std_"] else []) ++ ["_X_fit_dims_"]
  | .oneDSax s => ["breakpoints_slope_", "breakpoints_slope_middle_", "breakpoints_avg_", "breakpoints_avg_middle_"] ++
      (if s then ["mu_", "std_"] else []) ++ ["_X_fit_dims_"]
  | .neighbors e | .knnClassifier e | .knnRegressor e => [if e then "_ts_fit" else "_X_fit"]
  | .dbscan | .varima | .autoVarima => []

/-- Attributes the same calls read: tslearn/clustering/kmeans.py:257-290, 390-407, 450-455 and 900-906, tslearn/clustering/kshape.py:154-157,
tslearn/matrix_profile/matrix_profile.py:231, tslearn/piecewise/piecewise.py:149-157, 371-423, 643-704, tslearn/neighbors/neighbors.py:382-428, 131-152,
215-232. For DBSCAN its attributes. -/
def readNames : PkgClass → List String
  | .kernelKMeans => ["_X_fit", "labels_", "sample_weight_", "sigma_gak_"]
  | .kMeans => ["cluster_centers_"]
  | .kShape => ["cluster_centers_", "norms_", "norms_centroids_"]
  | .dbscan => ["core_ts_indices_", "labels_", "components_"]
  | .matrixProfile => ["_X_fit_dims"]
  | .paa => ["_X_fit_dims_"]
  | .sax s => ["_X_fit_dims_", "breakpoints_avg_", "breakpoints_avg_middle_"] ++ if s then ["mu_", "std_"] else []
  | .oneDSax s => ["_X_fit_dims_", "breakpoints_avg_", "breakpoints_avg_middle_", "breakpoints_slope_", "breakpoints_slope_middle_"] ++
      if s then ["mu_", "std_"] else []
  | .neighbors e => if e then ["_ts_fit"] else ["_X_fit", "_d"]
  | .knnClassifier e => (if e then ["_ts_fit"] else ["_X_fit", "_d"]) ++ skNames
  | .knnRegressor e => (if e then ["_ts_fit"] else ["_X_fit", "_d"]) ++ ["_y", "_fit_X", "_fit_method"]
  | .varima => ["intercept_", "ar_coeffs_", "ma_coeffs_", "_last_residuals", "_last_timestamps"]
  | .autoVarima => ["best_estimator_"]

/-- A call that answers: `f` is what it computes from the attributes it reads and from the query. Simplified: a query refused before the attributes are
read is refused by `f`. -/
def answerOf {V Q R : Type} (c : PkgClass) (f : List V → Q → Except PyErr R) (o : Attrs V) (q : Q) : Except PyErr R :=
  if hasAll o (testedNames c) then
    match (readNames c).mapM o with
    | some vs => f vs q
    | none => .error .attributeError
  else .error .notFitted

/-- A classifier with any metric of tslearn, saved and loaded, tslearn/neighbors/neighbors.py:527-537 with tslearn/bases/bases.py:166-199: `_sax` and
`_ts_metric` are not written. -/
def KnnSup.reloaded (o : KnnSup) : KnnSup := { o with sax := none, tsMetric := none }

end Verif
