import Verif.Model.Cast
import Mathlib.Data.Real.Basic
import Mathlib.Data.List.Sort
import Mathlib.Data.List.Dedup
/-!
`silhouette_score`: tslearn/clustering/utils.py, and what it calls in scikit-learn (sklearn/metrics/cluster/_unsupervised.py: `silhouette_score`,
`silhouette_samples`, `_silhouette_reduce`, `check_number_of_labels`), from its source. Sampling (`sample_size`) is left out.
-/
namespace Verif
noncomputable section

variable {L : Type} [LinearOrder L]

/-- `LabelEncoder().fit(labels).classes_`: the different labels, in order. -/
def silClasses (n : ℕ) (lab : ℕ → L) : List L := (((List.range n).map lab).dedup).insertionSort (· ≤ ·)

/-- `label_freqs[c]`. -/
def silFreq (n : ℕ) (lab : ℕ → L) (c : L) : ℕ := (List.range n).countP fun j => lab j = c

/-- Row `i` of `cluster_distances`: `np.bincount(labels, weights=D[i])` at label `c`. -/
def silBin (n : ℕ) (lab : ℕ → L) (D : ℕ → ℕ → ℝ) (i : ℕ) (c : L) : ℝ :=
  ((List.range n).map fun j => if lab j = c then D i j else 0).sum

/-- `intra_clust_dists[i]`, for a cluster of two series at least. -/
def silIntra (n : ℕ) (lab : ℕ → L) (D : ℕ → ℕ → ℝ) (i : ℕ) : ℝ := silBin n lab D i (lab i) / (silFreq n lab (lab i) - 1 : ℝ)

/-- `inter_clust_dists[i]`: the least mean, that of the own cluster being set to infinity. -/
def silInter (n : ℕ) (lab : ℕ → L) (D : ℕ → ℕ → ℝ) (i : ℕ) : ℝ :=
  match ((silClasses n lab).filter fun c => c ≠ lab i).map fun c => silBin n lab D i c / (silFreq n lab c : ℝ) with
  | [] => 0
  | x :: xs => xs.foldl min x

/-- `sil_samples[i]`: NaN (a cluster of one series, or 0 / 0) becomes 0. Distances are not negative. -/
def silSample (n : ℕ) (lab : ℕ → L) (D : ℕ → ℕ → ℝ) (i : ℕ) : ℝ :=
  if silFreq n lab (lab i) = 1 then 0
  else (silInter n lab D i - silIntra n lab D i) / max (silIntra n lab D i) (silInter n lab D i)

/-- `sklearn.metrics.silhouette_score` of a matrix: `check_number_of_labels`, then the mean. -/
def silScore (n : ℕ) (lab : ℕ → L) (D : ℕ → ℕ → ℝ) : Except PyErr ℝ :=
  if 1 < (silClasses n lab).length ∧ (silClasses n lab).length < n then
    .ok (((List.range n).map (silSample n lab D)).sum / (n : ℝ))
  else .error .valueError

/-- `metric`, tslearn/clustering/utils.py:169-212. -/
inductive SilMetric (V : Type)
  /-- `"precomputed"` (`X` is then the matrix) -/
  | precomputed (D : ℕ → ℕ → ℝ)
  /-- `"dtw"` or `None` -/
  | dtw
  | softdtw
  | euclidean
  /-- a function of two series, to which keyword arguments may be given -/
  | callable (f : List (String × V) → List (List (Option ℝ)) → List (List (Option ℝ)) → ℝ)

/-- `metric_params_`, tslearn/clustering/utils.py:161-168: `kwds` win over `metric_params`, and `n_jobs` is dropped. A dictionary is a list of
keys and values, the first entry of a key being the one that counts. -/
def silParams {V : Type} (params kwds : List (String × V)) : List (String × V) := (kwds ++ params).filter fun p => p.1 ≠ "n_jobs"

/-- What the functions of tslearn compute from a dataset: `_cdist_dtw(X, **params)`, `_cdist_soft_dtw_normalized(X, **params)`. -/
structure SilCdist (V : Type) where
  dtw : List (String × V) → Arr3 ℝ → Except PyErr (ℕ → ℕ → ℝ)
  soft : List (String × V) → Arr3 ℝ → Except PyErr (ℕ → ℕ → ℝ)
  euclid : List (Option ℝ) → List (Option ℝ) → ℝ

/-- Keys that `_cdist_dtw` is given already, tslearn/clustering/utils.py:173-179. -/
def silTaken : List String := ["verbose", "be"]

/-- Series `i` without trailing NaN, tslearn/clustering/utils.py:196-204 (`_to_time_series(.., remove_nans=True)`). -/
def silSeries (X : Arr3 ℝ) (i : ℕ) : List (List (Option ℝ)) := (X.data.getD i []).take (tsSize (X.data.getD i []))

/-- `silhouette_score(X, labels, metric, None, metric_params, n_jobs, verbose, None, **kwds)`, tslearn/clustering/utils.py:70-214. For a callable,
scikit-learn refuses NaN (`check_X_y`), gives `kwds` to `sklearn_metric`, which takes none, and calls it for pairs `i <= j` only
(`_pairwise_callable`, if the matrix fits in one chunk of working memory); for a matrix it refuses NaN and diagonals that are not
zero, and ignores `kwds`. -/
def silhouetteScore {V : Type} (cd : SilCdist V) (X : Arr3 ℝ) (lab : ℕ → L) (metric : SilMetric V) (params kwds : List (String × V)) : Except PyErr ℝ :=
  let n := X.data.length
  let hasNan : Bool := X.data.any fun s => s.any fun r => r.any Option.isNone
  let ps := silParams params kwds
  let score (D : ℕ → ℕ → ℝ) : Except PyErr ℝ :=
    if ∀ i < n, D i i = 0 then silScore n lab D else .error .valueError
  match metric with
  | .precomputed D => score D
  | .dtw => if ps.any fun p => decide (p.1 ∈ silTaken) then .error .typeError else do score (← cd.dtw ps X)
  | .softdtw => if ps.any fun p => decide (p.1 = "be") then .error .typeError else do score (← cd.soft ps X)
  | .euclidean =>
    if hasNan then .error .valueError
    else score fun i j => cd.euclid (X.data.getD i []).flatten (X.data.getD j []).flatten
  | .callable f =>
    if hasNan then .error .valueError
    else if ¬ (1 < (silClasses n lab).length ∧ (silClasses n lab).length < n) then .error .valueError
    else if kwds ≠ [] then .error .typeError
    else silScore n lab fun i j => if i ≤ j then f [] (silSeries X i) (silSeries X j) else f [] (silSeries X j) (silSeries X i)

end
end Verif
