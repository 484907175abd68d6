import Verif.Model.Missing
import Verif.Model.Cdist
import Verif.Model.Knn
import Verif.Model.KMeans
import Verif.Model.FloatKernelKMeans
/-!
Cross-distances, nearest neighbours and k-means under DTW for datasets whose series may have NaN samples before their last observed one. Finite values are
exact. `TimeSeriesKMeans` is the model of `Model/KMeans.lean` with distances that may be NaN or infinite.
-/
namespace Verif

section
variable {K : Type} [LinearOrder K] [Zero K] [Add K] [Sub K] [Mul K]

/-- Square of `_njit_dtw(s1, s2, ...)` (NumPy) or `_dtw` (PyTorch), tslearn/metrics/_dtw.py:391-400: no validation. -/
def gapDtwKernel (be : Backend) (code : ℕ) (radius : Option ℕ) (slope : Option ℚ) (x y : List (List (Option K))) : Except PyErr (Nv K) := do
  let mask ← computeMask x.length y.length code radius slope
  return match be with
    | .numpy => lastEntry (nanTable nvAdd x.length y.length mask (nanCost x y)) x.length y.length
    | .pytorch => lastEntry (torchNanTable nvAdd x.length y.length mask (nanCost x y)) x.length y.length

/-- A kernel applied to two slots after `_to_time_series(·, True)` of each, tslearn/metrics/utils.py:136-156 and 166-187. Series without any observed sample
leave the model. -/
def onGaps {W : Type} (f : List (List (Option K)) → List (List (Option K)) → Except PyErr W) (t1 t2 : Ts K) : Except PyErr W :=
  if t1.trim.rows = [] ∨ t2.trim.rows = [] then .error .notModelled else f t1.trim.rows t2.trim.rows

/-- Entry-wise square of `cdist_dtw(dataset1, dataset2, ...)`, tslearn/metrics/_dtw.py:751-793. -/
def gapCdistDtw (be : Backend) (X : DsInput K) (Y : Option (DsInput K)) (gc : Option String) (radius : Option ℕ) (slope : Option ℚ)
    (run : List (Except PyErr (Nv K)) → Except PyErr (List (Nv K))) : Except PyErr (Mat (Nv K)) := do
  let X ← toDataset X
  let Y ← match Y with
    | none => pure none
    | some Y => (toDataset Y).map fun Y => some Y.slots
  let code ← gcCode gc
  cdistGeneric (onGaps (gapDtwKernel be code radius slope)) (some 0) X.slots Y false run

/-- The order of `numpy.argpartition` and `numpy.argsort`, tslearn/neighbors/neighbors.py:165-179: NaN comes last (library). -/
def nanLast : Nv K → WithTop (WithTop K)
  | some a => (a : WithTop (WithTop K))
  | none => ⊤

/-- `kneighbors(X, n_neighbors=k)` of an estimator with `metric="dtw"` fitted to `train`, tslearn/neighbors/neighbors.py:124-188 and 352-428: for every query
the indices and the squared distances. -/
def gapKneighbors (S : Selector (WithTop (WithTop K))) (train queries : List (Ts K)) (k : ℕ) (gc : Option String) (radius : Option ℕ)
    (slope : Option ℚ) (run : List (Except PyErr (Nv K)) → Except PyErr (List (Nv K))) : Except PyErr (List (List ℕ × List (Nv K))) := do
  let M ← gapCdistDtw .numpy (.series queries) (some (.series train)) gc radius slope run
  return (List.range queries.length).map fun i =>
    let row := (List.range train.length).map (M i)
    let ind := knnRow S (fun j => nanLast (row.getD j none)) train.length k false
    (ind, ind.map fun j => row.getD j none)
end

noncomputable section
open Classical

/-- Hyper-parameters and training data of `TimeSeriesKMeans`, as `KmEnv`: entries of `_transform` and the distances of the inertia,
tslearn/clustering/kmeans.py:712-740 and 752-757, may be NaN, infinite or raise; so may the barycenter, 759-782. -/
structure GapEnv (P C : Type) where
  data : List P
  nClusters : ℕ
  maxIter : ℕ
  nInit : ℕ
  tol : ℝ
  dist : P → C → Except PyErr Fl
  idist : P → C → Except PyErr Fl
  bary : List P → C → Except PyErr C

/-- Attributes of the estimator, tslearn/clustering/kmeans.py:810-817; `xfit` tells whether `_X_fit` is not `None`, `iter` is `_iter`. -/
structure GapState (C : Type) where
  labels : Option (List ℕ)
  inertia : Fl
  centers : Option (List C)
  xfit : Bool
  nIter : ℕ
  iter : ℕ

variable {P C : Type}

/-- `self._transform(X).argmin(axis=1)`, tslearn/clustering/kmeans.py:742-744. -/
def gapLabels (e : GapEnv P C) (X : List P) (cs : List C) : Except PyErr (List ℕ) :=
  X.mapM fun x => do
    let r ← cs.mapM (e.dist x)
    return argminF r

/-- `_compute_inertia(distances, assignments)`, tslearn/clustering/utils.py:51-67. -/
def gapInertia (e : GapEnv P C) (labels : List ℕ) (cs : List C) : Except PyErr Fl := do
  let ds ← (e.data.zip labels).mapM fun xl => match cs[xl.2]? with
    | some c => e.idist xl.1 c
    | none => .error .indexError
  return ((ds.map fun v => v.mul v).foldl Fl.add (.num 0)).div e.data.length

/-- `_assign(X)` on the training data, tslearn/clustering/kmeans.py:742-757. -/
def gapAssign (e : GapEnv P C) (s : GapState C) : GapState C × Option PyErr :=
  match s.centers with
  | none => (s, some .attributeError)
  | some cs =>
    match gapLabels e e.data cs with
    | .error err => (s, some err)
    | .ok labels =>
      let s := { s with labels := some labels }
      if hasEmpty labels e.nClusters then (s, some .emptyCluster)
      else match gapInertia e labels cs with
        | .ok v => ({ s with inertia := v }, none)
        | .error err => (s, some err)

/-- `_update_centroids(X)`, tslearn/clustering/kmeans.py:759-782. An error leaves the estimator as it was (in Python the centroids
before the failing one are already replaced). -/
def gapUpdate (e : GapEnv P C) (labels : List ℕ) (cs : List C) : Except PyErr (List C) :=
  cs.zipIdx.mapM fun ck => e.bary (((e.data.zip labels).filter fun xl => xl.2 = ck.2).map Prod.fst) ck.1

/-- The loop of `_fit_one_init`, tslearn/clustering/kmeans.py:693-709: `n` rounds left, `it` done. -/
def gapLoop (e : GapEnv P C) : ℕ → ℕ → Fl → GapState C → GapState C × Option PyErr
  | 0, it, _, s => ({ s with iter := it }, none)
  | n + 1, it, old, s =>
    match gapAssign e s with
    | (s, some err) => (s, some err)
    | (s, none) =>
      match gapUpdate e (s.labels.getD []) (s.centers.getD []) with
      | .error err => (s, some err)
      | .ok cs =>
        let s := { s with centers := some cs }
        if Fl.lt (Fl.abs (old.sub s.inertia)) (.num e.tol) then ({ s with iter := it + 1 }, none)
        else gapLoop e n (it + 1) s.inertia s

/-- `_fit_one_init(X, x_squared_norms, rs)` from given initial centroids, tslearn/clustering/kmeans.py:642-710. -/
def gapFitOne (e : GapEnv P C) (init : List C) (s : GapState C) : GapState C × Option PyErr :=
  let s := { s with centers := some init }
  if e.maxIter = 0 then (s, some .unboundLocal) else gapLoop e e.maxIter 0 .inf s

/-- The loop of `fit`, tslearn/clustering/kmeans.py:833-853: `fuel` attempts left, `a` done, `n` successful, the best centroids and inertia so far. -/
def gapFitLoop (e : GapEnv P C) (inits : ℕ → List C) :
    ℕ → ℕ → ℕ → Option (List C) → Fl → GapState C → (Option (List C) × Fl) × GapState C × Option PyErr
  | 0, _, _, best, least, s => ((best, least), s, none)
  | fuel + 1, a, n, best, least, s =>
    if n < e.nInit then
      match gapFitOne e (inits a) s with
      | (s, none) =>
        if Fl.lt s.inertia least then gapFitLoop e inits fuel (a + 1) (n + 1) s.centers s.inertia { s with nIter := s.iter }
        else gapFitLoop e inits fuel (a + 1) (n + 1) best least s
      | (s, some .emptyCluster) => gapFitLoop e inits fuel (a + 1) n best least s
      | (s, some err) => ((best, least), s, some err)
    else ((best, least), s, none)

/-- `_post_fit(X_fitted, centroids, inertia)`, tslearn/clustering/utils.py:227-235. -/
def gapPostFit (e : GapEnv P C) (best : Option (List C)) (least : Fl) (s : GapState C) : GapState C × Option PyErr :=
  match best, least with
  | some cs, .num v =>
    match gapAssign e { s with centers := some cs } with
    | (s, none) => ({ s with xfit := true, inertia := .num v }, none)
    | r => r
  | _, _ => ({ s with xfit := false }, none)

/-- `fit(X)`, tslearn/clustering/kmeans.py:784-856, after validation; `s` are the attributes left by earlier calls. -/
def gapFit (e : GapEnv P C) (inits : ℕ → List C) (s : GapState C) : GapState C × Option PyErr :=
  match gapFitLoop e inits (max e.nInit 10) 0 0 none .inf
      { s with labels := none, inertia := .inf, centers := none, xfit := false, nIter := 0 } with
  | (_, s, some err) => (s, some err)
  | ((best, least), s, none) => gapPostFit e best least s

/-- `predict(X)`, tslearn/clustering/kmeans.py:881-906, after validation. -/
def gapPredict (e : GapEnv P C) (s : GapState C) (X : List P) : Except PyErr (List ℕ) :=
  match s.centers with
  | some cs => gapLabels e X cs
  | none => .error .attributeError

/-- `numpy.sqrt` of a squared cost, tslearn/metrics/_dtw.py:400. -/
def flSqrt : Nv ℝ → Fl
  | none => .nan
  | some none => .inf
  | some (some v) => .num (Real.sqrt v)

/-- An entry of `_transform` with the metric "dtw", tslearn/clustering/kmeans.py:720-727: the series comes first, the centroid second. -/
def gapDtwDist (gc : Option String) (radius : Option ℕ) (slope : Option ℚ) (x c : Ts ℝ) : Except PyErr Fl := do
  let code ← gcCode gc
  (onGaps (gapDtwKernel .numpy code radius slope) x c).map flSqrt

/-- An entry of `_transform` with the metric "softdtw", tslearn/clustering/kmeans.py:728-735. Series without any observed sample leave the model. -/
def gapSoftDist (γ : ℝ) (x c : Ts ℝ) : Except PyErr Fl :=
  if x.trim.rows = [] ∨ c.trim.rows = [] then .error .notModelled else nanSoftDtw .numpy (.twoD x.rows) (.twoD c.rows) γ none none none

end
end Verif
