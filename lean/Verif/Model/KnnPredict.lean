import Verif.Model.Knn
import Mathlib.Algebra.Order.Field.Basic
import Mathlib.Algebra.BigOperators.Group.List.Basic
/-!
Predictions of `KNeighborsTimeSeriesClassifier` and `KNeighborsTimeSeriesRegressor`: tslearn/neighbors/neighbors.py:578-605 and 735-750. What
scikit-learn does with the neighbours (`KNeighborsClassifier.predict`, `predict_proba`, `KNeighborsRegressor.predict`, `_get_weights`,
`weighted_mode`) is modelled from its source: it calls `kneighbors` of tslearn.
-/
namespace Verif
variable {K : Type} [Field K] [LinearOrder K]

/-- `weights`, tslearn/neighbors/neighbors.py:438-448: `"uniform"`, `"distance"` or a function of the distances. -/
inductive KnnWeights (K : Type) where
  | uniform
  | distance
  | fn (f : List K → List K)

/-- `_get_weights(dist, weights)` of scikit-learn for one row: `1 / dist`, or indicators of the zeros when there is one. -/
def knnWeights (w : KnnWeights K) (dist : List K) : List K :=
  match w with
  | .uniform => dist.map fun _ => 1
  | .distance => if dist.any (· = 0) then dist.map fun d => if d = 0 then 1 else 0 else dist.map fun d => 1 / d
  | .fn f => f dist

/-- Weight of the class `c`: the sum of a row of `template` in `weighted_mode`, and `proba_k` before normalisation. -/
def knnScore (ws : List K) (cs : List ℕ) (c : ℕ) : K := (List.zipWith (fun w c' => if c' = c then w else 0) ws cs).sum

/-- One round of `weighted_mode`: `(oldmostfreq, oldcounts)`. -/
def modeStep (score : ℕ → K) (acc : ℕ × K) (c : ℕ) : ℕ × K := (if score c > acc.2 then c else acc.1, max (score c) acc.2)

/-- `weighted_mode`, and `mode` with weights 1, over class indices below `m`. Classes without a neighbour have weight 0 and change nothing. -/
def knnMode (m : ℕ) (score : ℕ → K) : ℕ := ((List.range m).foldl (modeStep score) (0, 0)).1

/-- `KNeighborsClassifier.predict` for one row of neighbours: an index into `classes_`. -/
def knnClass (w : KnnWeights K) (m : ℕ) (dist : List K) (cs : List ℕ) : ℕ := knnMode m (knnScore (knnWeights w dist) cs)

/-- `KNeighborsClassifier.predict_proba` for one row: entry of class `c` of `m`. -/
def knnProba (w : KnnWeights K) (m : ℕ) (dist : List K) (cs : List ℕ) (c : ℕ) : K :=
  let s := knnScore (knnWeights w dist) cs
  let norm := ((List.range m).map s).sum
  s c / (if norm = 0 then 1 else norm)

/-- `KNeighborsRegressor.predict` for one row. -/
def knnRegress (w : KnnWeights K) (dist : List K) (ys : List K) : K :=
  match w with
  | .uniform => ys.sum / ys.length
  | _ => (List.zipWith (· * ·) ys (knnWeights w dist)).sum / (knnWeights w dist).sum

/-- `predict` of the classifier for a query whose distances to the `n` training series of classes `y` are `row`: `_predict_generic`,
tslearn/neighbors/neighbors.py:204-233, then `kneighbors` with `n_neighbors = k`. -/
def knnPredict (S : Selector K) (w : KnnWeights K) (m n k : ℕ) (row : ℕ → K) (y : ℕ → ℕ) : ℕ :=
  knnClass w m (knnDist S row n k false) ((knnRow S row n k false).map y)

/-- `predict_proba` of the classifier. -/
def knnPredictProba (S : Selector K) (w : KnnWeights K) (m n k : ℕ) (row : ℕ → K) (y : ℕ → ℕ) : ℕ → K :=
  knnProba w m (knnDist S row n k false) ((knnRow S row n k false).map y)

/-- `predict` of the regressor. -/
def knnPredictTarget (S : Selector K) (w : KnnWeights K) (n k : ℕ) (row : ℕ → K) (y : ℕ → K) : K :=
  knnRegress w (knnDist S row n k false) ((knnRow S row n k false).map y)

end Verif
