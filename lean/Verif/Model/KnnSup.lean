import Verif.Model.Knn
import Verif.Model.Piecewise
/-!
`KNeighborsTimeSeriesClassifier` and `KNeighborsTimeSeriesRegressor` with the metrics of tslearn, and the symbolic representation used by
the metric `"sax"`: tslearn/neighbors/neighbors.py. Arrays are formatted datasets (`to_time_series_dataset`, which keeps them). The checks
of scikit-learn on targets, and the metrics handled by scipy, are left out. The distances of the other metrics are a parameter `dist`.
-/
namespace Verif

/-- SAX words of a dataset. -/
abbrev Words := List (List (List ℕ))

/-- Hyper-parameters of `SymbolicAggregateApproximation`, tslearn/piecewise/piecewise.py:343-347. -/
structure SaxParams where
  segments : ℕ
  alphabet : ℕ
  scale : Bool
  deriving DecidableEq

/-- A `SymbolicAggregateApproximation`: hyper-parameters and `_X_fit_dims_[1:]`. Breakpoints only depend on the hyper-parameters
(tslearn/piecewise/piecewise.py:356); `mu_` and `std_` are only read between a fit and its transform. -/
structure SaxObj where
  params : SaxParams
  dims : Option (ℕ × ℕ)
  deriving DecidableEq

/-- `SymbolicAggregateApproximation.fit_transform`, tslearn/piecewise/piecewise.py:385-400 (and 355-366, 420-423). -/
noncomputable def saxFitTransform (ppf : ℝ → ℝ) (s : SaxObj) (X : Arr3 ℝ) : SaxObj × Except PyErr Words :=
  if X.data = [] then (s, .error .valueError)
  else
    let s := { s with dims := some (X.sz, X.d) }
    if s.params.segments = 0 then (s, .error .zeroDivision)
    else (s, .ok (saxRaw (if s.params.scale then some (fitScaling X) else none) (breakpoints ppf s.params.alphabet 1) s.params.segments X))

/-- `metric_params` (`None` and `{}` are all keys absent): the keyword arguments of `_sax_preprocess`, and which of the other keys named in
tslearn/neighbors/neighbors.py:49-56 are present. -/
structure KnnParams where
  segments : Option ℕ := none
  alphabet : Option ℕ := none
  scale : Option Bool := none
  nJobs : Bool := false
  verbose : Bool := false
  gamma : Bool := false
  deriving DecidableEq

/-- `_get_metric_params`, tslearn/neighbors/neighbors.py:44-57 (`gamma_sdtw` is renamed). -/
def KnnParams.cleaned (p : KnnParams) : KnnParams := { p with nJobs := false, verbose := false }

/-- Binding `**metric_params` to `_sax_preprocess(self, X, n_segments=10, alphabet_size_avg=4, scale=False)`,
tslearn/neighbors/neighbors.py:31-32. -/
def KnnParams.sax (p : KnnParams) : Except PyErr SaxParams :=
  if p.nJobs ∨ p.verbose ∨ p.gamma then .error .typeError
  else .ok ⟨p.segments.getD 10, p.alphabet.getD 4, p.scale.getD false⟩

/-- `_ts_fit`: series or words. -/
inductive TsFit where
  | series (X : Arr3 ℝ)
  | words (sz d : ℕ) (W : Words)

/-- Number of series. -/
def TsFit.count : TsFit → ℕ
  | .series X => X.data.length
  | .words _ _ W => W.length

/-- `_ts_fit.shape[2]`. -/
def TsFit.features : TsFit → ℕ
  | .series X => X.d
  | .words _ d _ => d

/-- Words read as series of numbers (by a metric other than `"sax"`). -/
def TsFit.toSeries : TsFit → Arr3 ℝ
  | .series X => X
  | .words sz d W => ⟨sz, d, W.map (List.map (List.map fun c : ℕ => some (c : ℝ)))⟩

/-- Attributes of the supervised estimators, tslearn/neighbors/neighbors.py:505-521, 683-698 and 541-578, 700-735. `xFit` is the shape
`(n, n)` of the zeros in `_X_fit` and the number of features `_d`. -/
structure KnnSup where
  regressor : Bool
  metric : Metric
  params : KnnParams
  sax : Option SaxObj := none
  tsMetric : Option Metric := none
  tsFit : Option TsFit := none
  xFit : Option (ℕ × ℕ) := none

/-- `_sax_preprocess`, tslearn/neighbors/neighbors.py:31-42, with the bound arguments `p`. -/
noncomputable def saxPreprocess (ppf : ℝ → ℝ) (o : KnnSup) (p : SaxParams) (X : Arr3 ℝ) : KnnSup × Except PyErr Words :=
  let s := o.sax.getD ⟨p, none⟩
  let r := saxFitTransform ppf s X
  ({ o with sax := some r.1 }, r.2)

/-- `fit`, tslearn/neighbors/neighbors.py:541-578 (classifier) and 700-735 (regressor), for the metrics of tslearn. -/
noncomputable def knnSupFit (ppf : ℝ → ℝ) (o : KnnSup) (X : Arr3 ℝ) : KnnSup × Option PyErr :=
  if o.metric.elastic then
    let m := o.metric
    let o := { o with tsMetric := some m, metric := .precomputed }
    if X.data = [] then (o, some .valueError)
    else
      let o := { o with tsFit := some (.series X) }
      if m = .sax ∧ o.regressor = false then
        match o.params.sax with
        | .error e => (o, some e)
        | .ok p =>
          let (o, W) := saxPreprocess ppf o p X
          match W with
          | .error e => (o, some e)
          | .ok W => ({ o with tsFit := some (.words ((o.sax.map fun s => s.params.segments).getD 0) X.d W), xFit := some (W.length, X.d), metric := m }, none)
      else ({ o with xFit := some (X.data.length, X.d), metric := m }, none)
  else (o, some .notModelled)

/-- The elements of the training data a query is compared with and the query: distance matrices. -/
abbrev DistFun := Metric → Arr3 ℝ → Arr3 ℝ → ℕ → ℕ → ℝ

/-- Two lists of words have series of the same shape (`assert sax1.shape == sax2.shape`, tslearn/metrics/cysax.py:62). -/
def sameShape (W W' : Words) : Bool := (W ++ W').all fun w => (W ++ W').all fun w' => w.map List.length == w'.map List.length

/-- `_precompute_cross_dist`, tslearn/neighbors/neighbors.py:59-102. Words are integers and series are floats: numba refuses to compile
`cydist_sax` (tslearn/metrics/cysax.py:38-73, an index would be a float) when a query of words is compared with series. -/
noncomputable def precomputeCross (ppf : ℝ → ℝ) (dist : DistFun) (o : KnnSup) (Q : Arr3 ℝ) (other : TsFit) :
    KnnSup × Except PyErr (ℕ → ℕ → ℝ) :=
  let m := o.metric
  let o := { o with tsMetric := some m, metric := .precomputed }
  if Q.data = [] then (o, .error .valueError)
  else if m = .sax then
    match o.params.cleaned.sax with
    | .error e => (o, .error e)
    | .ok p =>
      let (o, W) := saxPreprocess ppf o p Q
      match W, o.sax, other with
      | .error e, _, _ => (o, .error e)
      | .ok W, some s, .words _ _ W' =>
        if sameShape W W' then
          (o, .ok fun i j => cydistSax (breakpoints ppf s.params.alphabet 1) (s.dims.getD (0, 0)).1 s.params.segments Q.d
            (W.getD i []) (W'.getD j []))
        else (o, .error .valueError)
      | .ok _, _, _ => (o, .error .typeError)
  else if m = .dtw ∨ m = .ctw ∨ m = .softdtw ∨ m = .frechet then (o, .ok (dist m Q other.toSeries))
  else (o, .error .valueError)

/-- The matrix handed to scikit-learn by `predict` and `predict_proba`, tslearn/neighbors/neighbors.py:215-226: the estimator gets its
metric back only if nothing was raised. -/
noncomputable def knnSupMatrix (ppf : ℝ → ℝ) (dist : DistFun) (o : KnnSup) (Q : Arr3 ℝ) : KnnSup × Except PyErr (ℕ → ℕ → ℝ) :=
  if o.metric.elastic then
    match o.tsFit with
    | none => (o, .error .notFitted)
    | some T =>
      if Q.data = [] then (o, .error .valueError)
      else if Q.d ≠ T.features then (o, .error .valueError)
      else
        match precomputeCross ppf dist o Q T with
        | (o', .ok M) => ({ o' with metric := o'.tsMetric.getD o'.metric }, .ok M)
        | (o', .error e) => (o', .error e)
  else (o, .error .notModelled)

/-- Zeros of shape `(n, n)` reshaped to `(n, -1, d)`, tslearn/neighbors/neighbors.py:136-140. -/
def zeroSeries (n d : ℕ) : Arr3 ℝ := Arr3.build n (n / d) d fun _ _ _ => some 0

/-- The distance matrix of `KNeighborsTimeSeriesMixin.kneighbors`, tslearn/neighbors/neighbors.py:126-152, inherited by the supervised
estimators, for a 3-D query or no query. -/
noncomputable def knnSupCross (ppf : ℝ → ℝ) (dist : DistFun) (o : KnnSup) (q : Option (Arr3 ℝ)) : KnnSup × Except PyErr (ℕ → ℕ → ℝ) :=
  if o.metric.elastic then
    match q with
    | none =>
      match o.xFit with
      | none => (o, .error .attributeError)
      | some (n, d) =>
        if n * n % (n * d) ≠ 0 then (o, .error .valueError)
        else precomputeCross ppf dist o (zeroSeries n d) (.series (zeroSeries n d))
    | some Q =>
      match o.tsFit with
      | none => (o, .error .attributeError)
      | some T => precomputeCross ppf dist o Q T
  else (o, .error .notModelled)

/-- `kneighbors` of the supervised estimators, tslearn/neighbors/neighbors.py:104-188: indices and distances of query `i`. -/
noncomputable def knnSupKneighbors (ppf : ℝ → ℝ) (dist : DistFun) (sel : Selector ℝ) (k : ℕ) (o : KnnSup) (q : Option (Arr3 ℝ)) :
    KnnSup × Except PyErr (ℕ → List ℕ × List ℝ) :=
  match knnSupCross ppf dist o q with
  | (o', .error e) => (o', .error e)
  | (o', .ok M) =>
    let n := match q with
      | none => (o.xFit.getD (0, 0)).1
      | some _ => (o.tsFit.map TsFit.count).getD 0
    ({ o' with metric := o'.tsMetric.getD o'.metric }, .ok fun i => (knnRow sel (M i) n k q.isNone, knnDist sel (M i) n k q.isNone))

end Verif
