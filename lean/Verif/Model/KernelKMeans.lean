import Verif.Model.KMeans
/-!
`KernelKMeans`: tslearn/clustering/kmeans.py:129-455, after the validation of its arguments (`check_array`, `check_dims`,
`_check_sample_weight`). The kernels themselves (`_cdist_gak`, sklearn's `pairwise_kernels`) and `sigma_gak` are parameters.
Labels drawn by `rs.randint` are an arbitrary sequence, one list per attempt.
-/
namespace Verif
variable {K : Type} [Field K] [LinearOrder K]

/-- A Python value of `sigma`: `None`, `"auto"` or a number. -/
inductive PySigma (K : Type) where
  | none
  | auto
  | num (v : K)
  deriving DecidableEq

/-- A dict of kernel parameters: its entry `"sigma"`, if any, and the other entries. -/
structure KkDict (K : Type) where
  sigma : Option (PySigma K)
  rest : List (String × ℕ)
  deriving DecidableEq

/-- The object: hyper-parameters (tslearn/clustering/kmeans.py:226-246; `kernel_params` is the dict itself, shared with the user)
and attributes. `gak` is `kernel == "gak"`. `sigma` is `sigma_gak_` when the attribute exists; `fitted` tells that `_X_fit`
exists, `xfit` that it is not `None`. -/
structure KkObj (K : Type) where
  nClusters : ℕ
  gak : Bool
  maxIter : ℕ
  tol : K
  nInit : ℕ
  kernelParams : Option (KkDict K)
  sigma : Option (PySigma K)
  labels : Option (List ℕ)
  inertia : WithTop K
  fitted : Bool
  xfit : Bool
  nIter : ℕ
  iter : ℕ
  deriving DecidableEq

/-- Data of one call of `fit`: number of series, GAK and other kernel matrices of the data, `sigma_gak(X, random_state=rs)`,
weights, and the labels drawn for each attempt. -/
structure KkData (K : Type) where
  n : ℕ
  gakMat : K → ℕ → ℕ → K
  pairMat : KkDict K → Except PyErr (ℕ → ℕ → K)
  autoSigma : K
  sw : ℕ → K
  inits : ℕ → List ℕ

/-- `_get_kernel_params()`, tslearn/clustering/kmeans.py:257-265: the dict, and the object afterwards — the user's dict is written
to. -/
def kkGetParams (o : KkObj K) : KkDict K × KkObj K :=
  match o.kernelParams with
  | none => (⟨if o.gak then o.sigma else none, []⟩, o)
  | some kp =>
    let kp := if o.gak then (match o.sigma with
      | some s => { kp with sigma := some s }
      | none => kp) else kp
    (kp, { o with kernelParams := some kp })

/-- `_cdist_gak(X, Y, sigma=…)` in `_get_kernel`, tslearn/clustering/kmeans.py:267-279 and tslearn/metrics/_gak.py:384-385: `math.isclose`
takes numbers only, and is `sigma == 0` here. A zero `sigma` is reported as `RuntimeError` through `self.kernel_params.get`.
Entries of the dict other than `sigma` are refused as unexpected arguments (`n_jobs`, `verbose`, `be` are left out). -/
def kkGakMatrix (o : KkObj K) (kp : KkDict K) (mat : K → ℕ → ℕ → K) : Except PyErr (ℕ → ℕ → K) :=
  if kp.rest ≠ [] then .error .typeError
  else match kp.sigma.getD (.num 1) with
    | .num s => if s = 0 then .error (if o.kernelParams = none then .attributeError else .runtimeError) else .ok (mat s)
    | _ => .error .typeError

/-- `_get_kernel(X, Y)`, tslearn/clustering/kmeans.py:267-292. -/
def kkGetKernel (o : KkObj K) (gakMat : K → ℕ → ℕ → K) (pairMat : KkDict K → Except PyErr (ℕ → ℕ → K)) :
    KkObj K × Except PyErr (ℕ → ℕ → K) :=
  let (kp, o) := kkGetParams o
  (o, if o.gak then kkGakMatrix o kp gakMat else pairMat kp)

/-- Indices of the training series with label `j`: `mask = self.labels_ == j`, tslearn/clustering/kmeans.py:396. -/
def kkMask (labels : List ℕ) (j : ℕ) : List ℕ := (List.range labels.length).filter fun i => labels.getD i 0 = j

/-- Entry `(x, j)` of `dist`, tslearn/clustering/kmeans.py:403-407. -/
def kkEntry (sw : ℕ → K) (M : ℕ → ℕ → K) (labels : List ℕ) (x j : ℕ) : K :=
  2 - 2 * ((kkMask labels j).map fun i => sw i * M x i).sum / ((kkMask labels j).map sw).sum

/-- `_compute_dist(K, dist)`, tslearn/clustering/kmeans.py:390-407, for `m` rows. A cluster of total weight zero gives NaN, which is
left out. -/
def kkDist (k m : ℕ) (sw : ℕ → K) (M : ℕ → ℕ → K) (labels : List ℕ) : Except PyErr (List (List K)) :=
  if hasEmpty labels k then .error .emptyCluster
  else if (List.range k).any fun j => ((kkMask labels j).map sw).sum = 0 then .error .notModelled
  else .ok ((List.range m).map fun x => (List.range k).map fun j => kkEntry sw M labels x j)

/-- Least entry of a row, `dist_sq.min(axis=1)`. -/
def rowMin (r : List K) : K := (r[argminL r]?).getD 0

/-- `_compute_inertia(dist)`, tslearn/clustering/kmeans.py:409-411. -/
def kkInertia (ds : List (List K)) : K := (ds.map rowMin).sum

/-- The loop of `_fit_one_init`, tslearn/clustering/kmeans.py:302-314: `n` rounds left, `it` done. -/
def kkLoop (D : KkData K) (M : ℕ → ℕ → K) : ℕ → ℕ → WithTop K → KkObj K → KkObj K × Option PyErr
  | 0, it, _, o => ({ o with iter := it }, none)
  | n + 1, it, old, o =>
    match kkDist o.nClusters D.n D.sw M (o.labels.getD []) with
    | .error err => (o, some err)
    | .ok ds =>
      let o := { o with labels := some (ds.map argminL) }
      if hasEmpty (ds.map argminL) o.nClusters then (o, some .emptyCluster)
      else
        let o := { o with inertia := (kkInertia ds : K) }
        if kmClose o.tol old o.inertia then ({ o with iter := it + 1 }, none)
        else kkLoop D M n (it + 1) o.inertia o

/-- `_fit_one_init(K, rs)` from drawn labels, tslearn/clustering/kmeans.py:294-319. Without rounds `it` is unbound. -/
def kkFitOne (D : KkData K) (M : ℕ → ℕ → K) (init : List ℕ) (o : KkObj K) : KkObj K × Option PyErr :=
  let o := { o with labels := some init }
  if o.maxIter = 0 then (o, some .unboundLocal) else kkLoop D M o.maxIter 0 ⊤ o

/-- Local variables of the loop of `fit`, tslearn/clustering/kmeans.py:365-368. -/
structure KkBest (K : Type) where
  best : Option (List ℕ)
  minInertia : WithTop K
  nSuccessful : ℕ
  nAttempts : ℕ

/-- The loop of `fit`, tslearn/clustering/kmeans.py:369-382; `fuel` bounds the number of attempts. -/
def kkFitLoop (D : KkData K) (M : ℕ → ℕ → K) : ℕ → KkBest K → KkObj K → KkBest K × KkObj K × Option PyErr
  | 0, b, o => (b, o, none)
  | fuel + 1, b, o =>
    if b.nSuccessful < o.nInit then
      let a := b.nAttempts
      let b := { b with nAttempts := a + 1 }
      match kkFitOne D M (D.inits a) o with
      | (o, none) =>
        if o.inertia < b.minInertia then
          kkFitLoop D M fuel
            { b with best := o.labels, minInertia := o.inertia, nSuccessful := b.nSuccessful + 1 } { o with nIter := o.iter }
        else kkFitLoop D M fuel { b with nSuccessful := b.nSuccessful + 1 } o
      | (o, some .emptyCluster) => kkFitLoop D M fuel b o
      | (o, some err) => (b, o, some err)
    else (b, o, none)

/-- Choice of `sigma_gak_` in `fit`, tslearn/clustering/kmeans.py:344-350. -/
def kkSigma (o : KkObj K) (auto : K) : KkObj K :=
  let (kp, o) := kkGetParams o
  { o with sigma := some (if o.gak then (match kp.sigma.getD (.num 1) with
      | .auto => .num auto
      | s => s) else .none) }

/-- `fit(X, y, sample_weight)`, tslearn/clustering/kmeans.py:321-388. `inertia_ = None` is rendered `⊤`. -/
def kkFit (o : KkObj K) (D : KkData K) : KkObj K × Option PyErr :=
  let o := kkSigma o D.autoSigma
  let o := { o with labels := none, inertia := ⊤, fitted := true, xfit := false, nIter := 0 }
  match kkGetKernel o D.gakMat D.pairMat with
  | (o, .error err) => (o, some err)
  | (o, .ok M) =>
    match kkFitLoop D M (max o.nInit 10) ⟨none, ⊤, 0, 0⟩ o with
    | (_, o, some err) => (o, some err)
    | (b, o, none) =>
      if 0 < b.nSuccessful then ({ o with labels := b.best, inertia := b.minInertia, xfit := true }, none) else (o, none)

/-- Data of one call of `predict`: number of queries, and the kernel matrices between queries and training series; `sw` is
`sample_weight_`. -/
structure KkQuery (K : Type) where
  m : ℕ
  gakMat : K → ℕ → ℕ → K
  pairMat : KkDict K → Except PyErr (ℕ → ℕ → K)
  sw : ℕ → K

/-- `predict(X)`, tslearn/clustering/kmeans.py:435-455. `_X_fit` may be `None`: `None.shape` fails. -/
def kkPredict (o : KkObj K) (Q : KkQuery K) : KkObj K × Except PyErr (List ℕ) :=
  if o.fitted then
    if o.xfit then
      match kkGetKernel o Q.gakMat Q.pairMat with
      | (o, .error err) => (o, .error err)
      | (o, .ok M) =>
        match kkDist o.nClusters Q.m Q.sw M (o.labels.getD []) with
        | .error err => (o, .error err)
        | .ok ds => (o, .ok (ds.map argminL))
    else (o, .error .attributeError)
  else (o, .error .notFitted)

end Verif
