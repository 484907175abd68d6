import Verif.Model.Argmin
import Verif.Model.Py
import Mathlib.Algebra.Order.Field.Basic
import Mathlib.Data.List.DropRight
/-!
`NonMyopicEarlyClassifier`: tslearn/early_classification/early_classification.py:18-769. Samples are of any type `S`; what a classifier
answers is of any type `L`, a label for `predict` and `early_predict`, a row of probabilities for `predict_proba` and
`early_predict_proba`. Cluster probabilities and the classifiers fitted for each length are functions of the observed prefix.
-/
namespace Verif

/-- A fitted early classifier: length of the training series (`_X_fit_dims[1]`), `min_t`, `n_clusters`, number of classes, `pyhatyck_`
(indexed by time from `min_t`, cluster, class, predicted class), `pyck_` (class, cluster), `cost_time_parameter`, `get_cluster_probas`
(`none` for an array of NaN), `classifiers_[t].predict([X])[0]`, and which samples are NaN. -/
structure EarlyModel (K S L : Type) where
  T : ℕ
  minT : ℕ
  nClusters : ℕ
  nClasses : ℕ
  pyhatyck : ℕ → ℕ → ℕ → ℕ → K
  pyck : ℕ → ℕ → K
  costTime : K
  probas : List S → Option (ℕ → K)
  clf : ℕ → List S → Except PyErr L
  isNan : S → Bool

section
variable {K : Type} [Field K]

/-- `self.pyck_ /= self.pyck_.sum(axis=0, keepdims=True)`, tslearn/early_classification/early_classification.py:178-182, from the number of
training series of each class in each cluster. -/
def ecPyck (nClasses : ℕ) (count : ℕ → ℕ → ℕ) (y k : ℕ) : K :=
  (count y k : K) / ((List.range nClasses).map fun z => (count z k : K)).sum

/-- Normalisation of the confusion matrix (rows: true class, columns: predicted class) of one time and cluster,
tslearn/early_classification/early_classification.py:193-206. -/
def ecPyhat (nClasses : ℕ) (conf : ℕ → ℕ → ℕ) (y yhat : ℕ) : K :=
  let normalizer := ((List.range nClasses).map fun z => conf z yhat).sum
  let normalizer := if normalizer = 0 then 1 else normalizer
  if y = yhat then 0 else (conf y yhat : K) / normalizer

end

variable {K S L : Type} [Field K] [LinearOrder K]

/-- `_cost_time(t)`, tslearn/early_classification/early_classification.py:514-515. -/
def ecCostTime (m : EarlyModel K S L) (t : ℕ) : K := t * m.costTime

/-- `_expected_costs(Xi)`, tslearn/early_classification/early_classification.py:334-348, for at least `min_t` samples; with fewer, negative
indices are used, which is left out. `p` are the cluster probabilities, `t` the number of samples. -/
def ecCosts (m : EarlyModel K S L) (p : ℕ → K) (t : ℕ) : List K :=
  (List.range (m.T + 1 - t)).map fun τ =>
    ((List.range m.nClusters).map fun k =>
      ((List.range m.nClasses).map fun y =>
        ((List.range m.nClasses).map fun yhat => m.pyhatyck (t - m.minT + τ) k y yhat).sum * m.pyck y k).sum * p k).sum +
      ecCostTime m (t + τ)

/-- `np.argmin(self._expected_costs(Xi))`, tslearn/early_classification/early_classification.py:355 and 767; the first NaN is the least. -/
def ecDelay (m : EarlyModel K S L) (xs : List S) : ℕ :=
  match m.probas xs with
  | none => 0
  | some p => argminL (ecCosts m p xs.length)

/-- The loop of `_get_prediction_time`, tslearn/early_classification/early_classification.py:354-358: `n` times left, the next is `t`. -/
def ecTimeFrom (m : EarlyModel K S L) (xs : List S) : ℕ → ℕ → Option ℕ
  | 0, _ => none
  | n + 1, t =>
    let tauStar := ecDelay m (xs.take t)
    if t = m.T ∨ tauStar = 0 then some t else ecTimeFrom m xs n (t + 1)

/-- `_get_prediction_time(Xi)`, tslearn/early_classification/early_classification.py:350-359. -/
def ecTime (m : EarlyModel K S L) (xs : List S) : Option ℕ := ecTimeFrom m xs (m.T + 1 - m.minT) m.minT

/-- `_predict_single_series(Xi)`, tslearn/early_classification/early_classification.py:361-377. -/
def ecPredict (m : EarlyModel K S L) (xs : List S) : Except PyErr (L × ℕ) :=
  match ecTime m xs with
  | none => .error .keyError
  | some t =>
    if xs.length < m.minT then .error .notModelled
    else match m.clf t (xs.take t) with
      | .error err => .error err
      | .ok y => .ok (y, t)

/-- `predict_class_and_earliness(X)` after its checks, tslearn/early_classification/early_classification.py:426-432. -/
def ecPredictAll (m : EarlyModel K S L) (X : List (List S)) : Except PyErr (List (L × ℕ)) := X.mapM (ecPredict m)

/-- One series of `_early_predict`, tslearn/early_classification/early_classification.py:754-767: `none` is a pair of NaN. -/
def ecEarlyOne (m : EarlyModel K S L) (ts : List S) : Except PyErr (Option (L × ℕ)) :=
  let ts := ts.rdropWhile m.isNan
  if ts.length < m.minT then .ok none
  else match m.clf ts.length ts with
    | .error err => .error err
    | .ok y => .ok (some (y, ecDelay m ts))

/-- `_early_predict(X)`, tslearn/early_classification/early_classification.py:745-769; `sz` is `X.shape[1]`. -/
def ecEarly (m : EarlyModel K S L) (sz : ℕ) (X : List (List S)) : Except PyErr (List (Option (L × ℕ))) :=
  if m.T < sz then .error .valueError else X.mapM (ecEarlyOne m)

/-- State of a generator of `_generate_early_predictions`: the shape `data.shape[1]` and the rows of `data`, or `none` once it has ended. -/
abbrev EcGen (S : Type) := Option (ℕ × List (List S))

/-- `get_early_predict_generator(n_ts)`, tslearn/early_classification/early_classification.py:727-738: an empty array, one step made. -/
def ecGen (m : EarlyModel K S L) (nTs : ℕ) : EcGen S × Except PyErr (List (Option (L × ℕ))) :=
  match ecEarly m 0 (List.replicate nTs []) with
  | .error err => (none, .error err)
  | .ok r => (some (0, List.replicate nTs []), .ok r)

/-- `np.append(data, incoming_timestamp, axis=1)`, tslearn/early_classification/early_classification.py:740-743: the chunk is its second
dimension and its rows; it is refused, and `data` kept, unless it has as many rows as `data`, all of that length. -/
def ecAppend {S : Type} (data x : ℕ × List (List S)) : ℕ × List (List S) :=
  if x.2.length = data.2.length ∧ ∀ q ∈ x.2, q.length = x.1 then (data.1 + x.1, data.2.zipWith (· ++ ·) x.2) else data

/-- `gen.send(x)`, tslearn/early_classification/early_classification.py:737-743: the answer `none` is `StopIteration`. -/
def ecSend (m : EarlyModel K S L) (g : EcGen S) (x : Option (ℕ × List (List S))) :
    EcGen S × Option (Except PyErr (List (Option (L × ℕ)))) :=
  match g with
  | none => (none, none)
  | some data =>
    let data := match x with
      | none => data
      | some x => ecAppend data x
    match ecEarly m data.1 data.2 with
    | .error err => (none, some (.error err))
    | .ok r => (some data, some (.ok r))

/-- A generator sent one chunk after another: its final state and all its answers. -/
def ecFeed (m : EarlyModel K S L) :
    EcGen S → List (Option (ℕ × List (List S))) → EcGen S × List (Option (Except PyErr (List (Option (L × ℕ)))))
  | g, [] => (g, [])
  | g, x :: rest => ((ecFeed m (ecSend m g x).1 rest).1, (ecSend m g x).2 :: (ecFeed m (ecSend m g x).1 rest).2)

/-- `early_classification_cost(X, y)` from predictions, tslearn/early_classification/early_classification.py:570-572. -/
def ecScore [DecidableEq L] (m : EarlyModel K S L) (pred : List (L × ℕ)) (y : List L) : K :=
  (1 - (((pred.zip y).filter fun p => p.1.1 = p.2).length : K) / y.length) + (pred.map fun p => ecCostTime m p.2).sum / pred.length

end Verif
