import Verif.Model.Argmin
import Verif.Model.Py
import Mathlib.Algebra.Order.Field.Basic
import Mathlib.Order.WithBot
/-!
`TimeSeriesKMeans`: tslearn/clustering/kmeans.py:476-936 and tslearn/clustering/utils.py. The metric and the barycenter are
parameters (instances: Euclidean and DTW), for configurations in which they are computed without error. Random
initialisations are an arbitrary sequence of initial centroids, one per attempt.
-/
namespace Verif
variable {P C K : Type} [Field K] [LinearOrder K]

/-- Hyper-parameters and training data. `dist` is an entry of `_transform`, tslearn/clustering/kmeans.py:712-744; `idist` is
the distance of the inertia (`cdist_dtw` with `dtw_inertia`, otherwise the same), tslearn/clustering/kmeans.py:753-758;
`bary` is the new centroid of a cluster from its members and the old one, tslearn/clustering/kmeans.py:764-790. -/
structure KmEnv (P C K : Type) where
  data : List P
  nClusters : ℕ
  maxIter : ℕ
  nInit : ℕ
  tol : K
  dist : P → C → K
  idist : P → C → K
  bary : List P → C → C

/-- Attributes of the estimator; `xfit` tells whether `_X_fit` is not `None`, `iter` is `_iter`. -/
structure KmState (C K : Type) where
  labels : Option (List ℕ)
  inertia : WithTop K
  centers : Option (List C)
  xfit : Bool
  nIter : ℕ
  iter : ℕ

/-- `_assign(X, update_class_attributes=False)`: `self._transform(X).argmin(axis=1)`,
tslearn/clustering/kmeans.py:746-748, 762. -/
def kmLabels (e : KmEnv P C K) (X : List P) (cs : List C) : List ℕ :=
  X.map fun x => argminL (cs.map (e.dist x))

/-- `_check_no_empty_cluster(labels, n_clusters)`, tslearn/clustering/utils.py:31-37. -/
def hasEmpty (labels : List ℕ) (k : ℕ) : Bool := (List.range k).any fun c => labels.count c == 0

/-- `_compute_inertia(distances, assignments, squared=True)`, tslearn/clustering/utils.py:51-67 (`_squared_inertia` is set
by `fit`, tslearn/clustering/kmeans.py:816). `none` is an index outside the matrix. -/
def kmInertia (e : KmEnv P C K) (labels : List ℕ) (cs : List C) : Option K := do
  let ds ← (e.data.zip labels).mapM fun xl => cs[xl.2]?.map (e.idist xl.1)
  return (ds.map fun d => d ^ 2).sum / (e.data.length : K)

/-- `_assign(X)` on the training data, tslearn/clustering/kmeans.py:746-762: `labels_` is written before the check for empty
clusters. -/
def kmAssign (e : KmEnv P C K) (s : KmState C K) : KmState C K × Option PyErr :=
  match s.centers with
  | none => (s, some .attributeError)
  | some cs =>
    let labels := kmLabels e e.data cs
    let s := { s with labels := some labels }
    if hasEmpty labels e.nClusters then (s, some .emptyCluster)
    else match kmInertia e labels cs with
      | some v => ({ s with inertia := (v : WithTop K) }, none)
      | none => (s, some .indexError)

/-- `X[self.labels_ == k]`. -/
def kmMembers (e : KmEnv P C K) (labels : List ℕ) (k : ℕ) : List P :=
  ((e.data.zip labels).filter fun xl => xl.2 = k).map Prod.fst

/-- `_update_centroids(X)`, tslearn/clustering/kmeans.py:764-790. -/
def kmUpdate (e : KmEnv P C K) (labels : List ℕ) (cs : List C) : List C :=
  cs.mapIdx fun k c => e.bary (kmMembers e labels k) c

/-- `numpy.abs(old_inertia - self.inertia_) < self.tol`, tslearn/clustering/kmeans.py:703; `old_inertia` is `inf` at first. -/
def kmClose (tol : K) : WithTop K → WithTop K → Bool
  | some a, some b => decide (|a - b| < tol)
  | _, _ => false

/-- The loop of `_fit_one_init`, tslearn/clustering/kmeans.py:696-709: `n` rounds left, `it` done. -/
def kmLoop (e : KmEnv P C K) : ℕ → ℕ → WithTop K → KmState C K → KmState C K × Option PyErr
  | 0, it, _, s => ({ s with iter := it }, none)
  | n + 1, it, old, s =>
    match kmAssign e s with
    | (s, some err) => (s, some err)
    | (s, none) =>
      let s := { s with centers := s.centers.map (kmUpdate e (s.labels.getD [])) }
      if kmClose e.tol old s.inertia then ({ s with iter := it + 1 }, none)
      else kmLoop e n (it + 1) s.inertia s

/-- `_fit_one_init(X, x_squared_norms, rs)` for the initial centroids `init` (after `_check_full_length`),
tslearn/clustering/kmeans.py:643-710. Without rounds `it` is unbound. -/
def kmFitOne (e : KmEnv P C K) (init : List C) (s : KmState C K) : KmState C K × Option PyErr :=
  let s := { s with centers := some init }
  if e.maxIter = 0 then (s, some .unboundLocal) else kmLoop e e.maxIter 0 ⊤ s

/-- Local variables of the loop of `fit`, tslearn/clustering/kmeans.py:833-853. -/
structure KmBest (C K : Type) where
  best : Option (List C)
  minInertia : WithTop K
  nSuccessful : ℕ
  nAttempts : ℕ

/-- The loop of `fit`, tslearn/clustering/kmeans.py:837-853; `fuel` bounds the number of attempts, `inits a` are the initial
centroids of attempt `a`. -/
def kmFitLoop (e : KmEnv P C K) (inits : ℕ → List C) :
    ℕ → KmBest C K → KmState C K → KmBest C K × KmState C K × Option PyErr
  | 0, b, s => (b, s, none)
  | fuel + 1, b, s =>
    if b.nSuccessful < e.nInit then
      let a := b.nAttempts
      let b := { b with nAttempts := a + 1 }
      match kmFitOne e (inits a) s with
      | (s, none) =>
        if s.inertia < b.minInertia then
          kmFitLoop e inits fuel
            { b with best := s.centers, minInertia := s.inertia, nSuccessful := b.nSuccessful + 1 } { s with nIter := s.iter }
        else kmFitLoop e inits fuel { b with nSuccessful := b.nSuccessful + 1 } s
      | (s, some .emptyCluster) => kmFitLoop e inits fuel b s
      | (s, some err) => (b, s, some err)
    else (b, s, none)

/-- `_post_fit(X_fitted, centroids, inertia)`, tslearn/clustering/utils.py:225-235. -/
def kmPostFit (e : KmEnv P C K) (b : KmBest C K) (s : KmState C K) : KmState C K × Option PyErr :=
  match b.best with
  | some cs =>
    if b.minInertia ≠ ⊤ then
      match kmAssign e { s with centers := some cs } with
      | (s, none) => ({ s with xfit := true, inertia := b.minInertia }, none)
      | r => r
    else ({ s with xfit := false }, none)
  | none => ({ s with xfit := false }, none)

/-- `fit(X)`, tslearn/clustering/kmeans.py:792-855, after validation; `s` are the attributes left by earlier calls. -/
def kmFit (e : KmEnv P C K) (inits : ℕ → List C) (s : KmState C K) : KmBest C K × KmState C K × Option PyErr :=
  let s := { s with labels := none, inertia := ⊤, centers := none, xfit := false, nIter := 0 }
  match kmFitLoop e inits (max e.nInit 10) ⟨none, ⊤, 0, 0⟩ s with
  | (b, s, some err) => (b, s, some err)
  | (b, s, none) => (b, kmPostFit e b s)

/-- `predict(X)`, tslearn/clustering/kmeans.py:882-906, after validation. `check_is_fitted` only looks for the attribute, so
`cluster_centers_ = None` (left by `n_init=0`) fails in `self.cluster_centers_.shape`. -/
def kmPredict (e : KmEnv P C K) (s : KmState C K) (X : List P) : Except PyErr (List ℕ) :=
  match s.centers with
  | some cs => .ok (kmLabels e X cs)
  | none => .error .attributeError

end Verif
