import Verif.Model.Py
import Mathlib.Order.Defs.LinearOrder
import Mathlib.Data.Nat.Notation
/-!
Nearest neighbours: tslearn/neighbors/neighbors.py.
-/
namespace Verif

/-- `numpy.argpartition(row, kth)` and `numpy.argsort(row)` of a row of `n` values: any functions, see `Spec.Selector.Valid`. -/
structure Selector (K : Type) where
  part : (ℕ → K) → ℕ → ℕ → List ℕ
  sort : (ℕ → K) → ℕ → List ℕ

/-- One row of `ind` in `KNeighborsTimeSeriesMixin.kneighbors`, tslearn/neighbors/neighbors.py:161-179, for `n` distances, `k` neighbours;
`self` tells that `X` was omitted. `kbin = -1` (no neighbours asked for) is read as 0; nothing is kept then. -/
def knnRow {K : Type} (S : Selector K) (row : ℕ → K) (n k : ℕ) (self : Bool) : List ℕ :=
  let ind := S.part row n (min (k - 1) (n - 1))
  let ind := if self then ind.drop 1 else ind
  let ind := ind.take (if n < k then n else k)
  (S.sort (fun j => row (ind.getD j 0)) ind.length).map fun j => ind.getD j 0

/-- One row of `dist`, tslearn/neighbors/neighbors.py:180. -/
def knnDist {K : Type} (S : Selector K) (row : ℕ → K) (n k : ℕ) (self : Bool) : List K := (knnRow S row n k self).map row

/-- `metric`: the names in `TSLEARN_VALID_METRICS` (tslearn/metrics/__init__.py:77), those handled by scipy, `"precomputed"`, and any
other. -/
inductive Metric where
  | dtw | ctw | softdtw | frechet | sax | gak | softdtwNormalized | lcss
  | euclidean | sqeuclidean | cityblock
  | precomputed
  | other (name : ℕ)
  deriving DecidableEq

/-- `self.metric in TSLEARN_VALID_METRICS`. -/
def Metric.elastic : Metric → Bool
  | .dtw | .ctw | .softdtw | .frechet | .sax | .gak | .softdtwNormalized | .lcss => true
  | _ => false

/-- Metrics `KNeighborsTimeSeries.kneighbors` can compute, tslearn/neighbors/neighbors.py:386-407. -/
def Metric.handled : Metric → Bool
  | .dtw | .ctw | .softdtw | .frechet => true
  | _ => false

/-- Metrics handled by scipy, tslearn/neighbors/neighbors.py:149. -/
def Metric.flat : Metric → Bool
  | .euclidean | .sqeuclidean | .cityblock => true
  | _ => false

/-- `_X_fit`: the flattened dataset, or a square matrix of zeros of the size of the dataset. -/
inductive XFit (D : Type) where
  | flat (X : D)
  | zeros (X : D)
  deriving DecidableEq

/-- Attributes of `KNeighborsTimeSeries`: tslearn/neighbors/neighbors.py:299-346. -/
structure KnnObj (D : Type) where
  metric : Metric
  tsMetric : Option Metric
  tsFit : Option D
  xFit : Option (XFit D)
  deriving DecidableEq

/-- A new estimator, tslearn/neighbors/neighbors.py:299-308. -/
def KnnObj.new {D : Type} (m : Metric) : KnnObj D := ⟨m, none, none, none⟩

/-- The checks that may refuse data: `check_array` and conversions in `fit` (without and with finiteness), sklearn's `fit`, checks of a
query against the data in the elastic and in the flat case, and errors of the metric itself (e.g. unexpected `metric_params`). -/
structure KnnChecks (D Q : Type) where
  fit : Bool → D → Option PyErr
  sk : Metric → XFit D → Option PyErr
  query : D → Q → Option PyErr
  dist : Metric → D → Q → Option PyErr
  flat : XFit D → Q → Option PyErr

/-- What an answer was computed from: distances of the query to a dataset, of a dataset to itself, or the query itself read as a matrix
of distances. -/
inductive KnnAnswer (D Q : Type) where
  | near (m : Metric) (X : XFit D) (q : Q)
  | self (m : Metric) (X : XFit D)
  | raw (q : Option Q)
  deriving DecidableEq

variable {D Q : Type}

/-- `KNeighborsTimeSeries.fit`, tslearn/neighbors/neighbors.py:325-350. -/
def knnFit (c : KnnChecks D Q) (o : KnnObj D) (X : D) : KnnObj D × Option PyErr :=
  let o := if o.metric.elastic then { o with tsMetric := some o.metric, metric := .precomputed } else o
  match c.fit (o.metric ≠ .precomputed) X with
  | some err => (o, some err)
  | none =>
    let o := if o.metric = .precomputed ∧ o.tsMetric.isSome then { o with tsFit := some X, xFit := some (.zeros X) }
      else { o with xFit := some (.flat X) }
    match c.sk o.metric (o.xFit.getD (.flat X)) with
    | some err => (o, some err)
    | none => ({ o with metric := o.tsMetric.getD o.metric }, none)

/-- `KNeighborsTimeSeriesMixin.kneighbors` on flattened data, tslearn/neighbors/neighbors.py:124-188: with `"precomputed"` the query is the
matrix of distances. -/
def knnMixin (o : KnnObj D) (x : XFit D) (q : Option Q) : KnnObj D × Except PyErr (KnnAnswer D Q) :=
  if o.metric = .precomputed then ({ o with metric := o.tsMetric.getD o.metric }, .ok (.raw q))
  else if o.metric.flat then ({ o with metric := o.tsMetric.getD o.metric }, .ok (match q with
    | some q => .near o.metric x q
    | none => .self o.metric x))
  else (o, .error .valueError)

/-- `KNeighborsTimeSeries.kneighbors`, tslearn/neighbors/neighbors.py:352-428; `q = none` is `X=None`, which `check_array` refuses. -/
def knnKneighbors (c : KnnChecks D Q) (o : KnnObj D) (q : Option Q) : KnnObj D × Except PyErr (KnnAnswer D Q) :=
  if o.metric.elastic then
    let m := o.metric
    let o := { o with tsMetric := some m, metric := .precomputed }
    match o.tsFit, q with
    | none, _ => (o, .error .notFitted)
    | some _, none => (o, .error .valueError)
    | some X, some q =>
      match c.query X q with
      | some err => (o, .error err)
      | none =>
        if m.handled then
          match c.dist m X q with
          | some err => (o, .error err)
          | none => ({ o with metric := m }, .ok (.near m (.flat X) q))
        else (o, .error .valueError)
  else
    match o.xFit, q with
    | none, _ => (o, .error .notFitted)
    | some x, none => knnMixin o x none
    | some x, some q =>
      match c.flat x q with
      | some err => (o, .error err)
      | none => knnMixin o x (some q)

/-- One call by the user. -/
inductive KnnCall (D Q : Type) where
  | setMetric (m : Metric)
  | fit (X : D)
  | kneighbors (q : Option Q)

/-- State after a call, whether or not it raised. -/
def knnStep (c : KnnChecks D Q) (o : KnnObj D) : KnnCall D Q → KnnObj D
  | .setMetric m => { o with metric := m }
  | .fit X => (knnFit c o X).1
  | .kneighbors q => (knnKneighbors c o q).1

/-- State after a history. -/
def knnRun (c : KnnChecks D Q) (o : KnnObj D) (h : List (KnnCall D Q)) : KnnObj D := h.foldl (knnStep c) o

end Verif
