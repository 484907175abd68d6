import Verif.Model.KMeans
import Verif.Model.Dba
/-!
Metrics of `TimeSeriesKMeans`, tslearn/clustering/kmeans.py:712-790, on NaN-free series.
-/
namespace Verif
noncomputable section

/-- An entry of `cdist(X.reshape(…), centers.reshape(…), metric="euclidean")`, tslearn/clustering/kmeans.py:714-719. -/
def kmEucDist (x c : List (List ℝ)) : ℝ := √((List.zipWith (fun r s => (List.zipWith (fun u v => (u - v) * (u - v)) r s).sum) x c).sum)

/-- `numpy.average(X[self.labels_ == k], axis=0)`, tslearn/clustering/kmeans.py:786-789, for `(n, d)` series. -/
def kmMean (n d : ℕ) (M : List (List (List ℝ))) (_ : List (List ℝ)) : List (List ℝ) :=
  (List.range n).map fun t => (List.range d).map fun f => (M.map fun x => (x.getD t []).getD f 0).sum / (M.length : ℝ)

/-- An entry of `_cdist_dtw(X, self.cluster_centers_, **metric_params)`, tslearn/clustering/kmeans.py:720-727, for the resolved
constraint `gc` (tslearn/metrics/_dtw.py:769-793); infinite and failing entries are not modelled. -/
def kmDtwDist (gc : ℕ) (radius : Option ℕ) (slope : Option ℚ) (x c : List (List ℝ)) : ℝ :=
  match dtwSqGeneric x c gc radius slope with
  | .ok v => √(v.untopD 0)
  | .error _ => 0

/-- `dtw_barycenter_averaging_petitjean(X=X[self.labels_ == k], barycenter_size=None, init_barycenter=self.cluster_centers_[k],
metric_params=metric_params)`, tslearn/clustering/kmeans.py:767-775: `max_iter_barycenter` is not passed, so the default of 30
rounds applies (tslearn/barycenters/dba.py:96), with weights 1. Failing calls are not modelled. -/
def kmDtwBary (cfg : DbaCfg ℝ) (size d : ℕ) (M : List (List (List ℝ))) (c : List (List ℝ)) : List (List ℝ) :=
  match petitjeanLoop cfg M (setWeights none M.length) size d 30 c with
  | .ok r => r.1
  | .error _ => c

end
end Verif
