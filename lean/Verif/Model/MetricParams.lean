import Verif.Model.Py
import Mathlib.Data.List.Nodup
/-!
How `metric_params` reaches the functions that compute distances and centroids: tslearn/clustering/kmeans.py, tslearn/clustering/dbscan.py,
tslearn/neighbors/neighbors.py. Only the binding of arguments to parameters is modelled, and the table of constraint names.
-/
namespace Verif

/-- Values handed over: `None`, an integer, a name, any other object. -/
inductive PyArg
  | none
  | int (n : Int)
  | str (s : String)
  | obj (n : Nat)
  deriving DecidableEq

/-- A dictionary of keyword arguments. -/
abbrev Kw := List (String × PyArg)

/-- The names and defaults of the parameters of a function. -/
abbrev Sig := List (String × Option PyArg)

/-- `del d[k]` when `k` is there. -/
def Kw.del (d : Kw) (k : String) : Kw := d.filter fun p => p.1 ≠ k

/-- `d[k] = v`. -/
def Kw.put (d : Kw) (k : String) (v : PyArg) : Kw :=
  if d.any fun p => p.1 = k then d.map fun p => if p.1 = k then (k, v) else p else d ++ [(k, v)]

/-- A call `f(*pos, **kw)` of a function with signature `sig` (Python's rules): `TypeError` for too many positional arguments, for unknown
keywords, for a parameter given twice and for a missing one. Otherwise the value of every parameter. -/
def pyBind (sig : Sig) (pos : List PyArg) (kw : Kw) : Except PyErr Kw :=
  let names := sig.map Prod.fst
  let bound := names.zip pos ++ kw
  if sig.length < pos.length ∨ (∃ p ∈ kw, p.1 ∉ names) ∨ ¬ (bound.map Prod.fst).Nodup ∨ (∃ p ∈ sig, p.2 = none ∧ bound.lookup p.1 = none) then
    .error .typeError
  else .ok (sig.map fun p => (p.1, ((bound.lookup p.1).or p.2).getD .none))

/-- `_cdist_dtw`, tslearn/metrics/_dtw.py:769-778; `_cdist_frechet`, tslearn/metrics/_frechet.py:780-789, has the same parameters. -/
def sigCdistDtw : Sig :=
  [("dataset1", none), ("dataset2", some .none), ("global_constraint", some .none), ("sakoe_chiba_radius", some .none),
    ("itakura_max_slope", some .none), ("n_jobs", some .none), ("verbose", some (.int 0)), ("be", some .none)]

/-- `_cdist_ctw`, tslearn/metrics/ctw.py:426-437. -/
def sigCdistCtw : Sig :=
  [("dataset1", none), ("dataset2", some .none), ("max_iter", some (.int 100)), ("n_components", some .none),
    ("global_constraint", some .none), ("sakoe_chiba_radius", some .none), ("itakura_max_slope", some .none), ("n_jobs", some .none),
    ("verbose", some (.int 0)), ("be", some .none)]

/-- `_cdist_soft_dtw`, tslearn/metrics/_soft_dtw.py:901-911, and `_cdist_soft_dtw_normalized`, tslearn/metrics/_soft_dtw.py:1118-1128. The default
of `gamma` is the number 1. -/
def sigCdistSoftDtw : Sig :=
  [("dataset1", none), ("dataset2", some .none), ("gamma", some (.int 1)), ("global_constraint", some .none),
    ("sakoe_chiba_radius", some .none), ("itakura_max_slope", some .none), ("n_jobs", some .none), ("verbose", some (.int 0)),
    ("be", some .none)]

/-- `_njit_dtw_path`, tslearn/metrics/_dtw.py:425-431. -/
def sigDtwPath : Sig :=
  [("s1", none), ("s2", none), ("global_constraint", some (.int 0)), ("sakoe_chiba_radius", some .none), ("itakura_max_slope", some .none)]

/-- The parameters of `softdtw_barycenter` with a name, tslearn/barycenters/softdtw.py:115-124 (`tol=1e-3` is an object). Others are collected
in `**metric_params`. -/
def sigSoftBary : Sig :=
  [("X", none), ("gamma", some (.int 1)), ("weights", some .none), ("tol", some (.obj 0)), ("max_iter", some (.int 50)),
    ("init", some .none), ("n_jobs", some .none)]

/-- `_acc_softdtw_func`, tslearn/barycenters/softdtw.py:24-33. -/
def sigAccSoftDtw : Sig :=
  [("Z", none), ("X", none), ("weights", none), ("gamma", none), ("global_constraint", some (.int 0)), ("sakoe_chiba_radius", some .none),
    ("itakura_max_slope", some .none), ("n_jobs", some .none)]

/-- `KNeighborsTimeSeriesMixin._sax_preprocess` without `self`, tslearn/neighbors/neighbors.py:31-32 (`scale=False` is an object). -/
def sigSaxPreprocess : Sig :=
  [("X", none), ("n_segments", some (.int 10)), ("alphabet_size_avg", some (.int 4)), ("scale", some (.obj 1))]

/-- `GLOBAL_CONSTRAINT_CODE[name]`, tslearn/metrics/_masks.py:16. -/
def constraintCode : PyArg → Except PyErr PyArg
  | .none => .ok (.int 0)
  | .str "" => .ok (.int 0)
  | .str "itakura" => .ok (.int 1)
  | .str "sakoe_chiba" => .ok (.int 2)
  | _ => .error .keyError

/-- A call that took place: the function and the values of its parameters. -/
structure CallRec where
  fn : String
  args : Kw
  deriving DecidableEq

/-- A call of one of the functions for matrices of distances, up to the translation of the constraint (tslearn/metrics/_dtw.py:790,
tslearn/metrics/_soft_dtw.py:934, tslearn/metrics/_frechet.py:801, and `ctw_path` for each pair): the record holds the code. -/
def cdistCall (fn : String) (sig : Sig) (pos : List PyArg) (kw : Kw) : Except PyErr CallRec := do
  let args ← pyBind sig pos kw
  let code ← constraintCode ((args.lookup "global_constraint").getD .none)
  return ⟨fn, Kw.put args "global_constraint" code⟩

/-- `TimeSeriesKMeans._get_metric_params`, tslearn/clustering/kmeans.py:633-640. -/
def kmMetricParams (mp : Option Kw) : Kw := (mp.getD []).del "n_jobs"

/-- `softdtw_barycenter(X=…, max_iter=…, init=…, n_jobs=…, **metric_params)` up to the objective, tslearn/clustering/kmeans.py:776-783 and
tslearn/barycenters/softdtw.py:191-208. -/
def softBaryCall (X maxIter init nJobs : PyArg) (mp : Kw) : Except PyErr CallRec := do
  let kw : Kw := [("X", X), ("max_iter", maxIter), ("init", init), ("n_jobs", nJobs)] ++ mp
  if ¬ (kw.map Prod.fst).Nodup then throw .typeError
  let own ← pyBind sigSoftBary [] (kw.filter fun p => p.1 ∈ sigSoftBary.map Prod.fst)
  let rest := kw.filter fun p => p.1 ∉ sigSoftBary.map Prod.fst
  let code ← constraintCode ((rest.lookup "global_constraint").getD .none)
  let args ← pyBind sigAccSoftDtw [.obj 10, .obj 11, .obj 12, (own.lookup "gamma").getD .none]
    (("n_jobs", (own.lookup "n_jobs").getD .none) :: Kw.put rest "global_constraint" code)
  return ⟨"_acc_softdtw_func", args⟩

/-- The calls of one round of `TimeSeriesKMeans.fit` (assignment, then the centroid of a cluster), tslearn/clustering/kmeans.py:712-790.
`X`, `C`, `M`, `c` are the dataset, the centroids, the members of the cluster and its centroid. -/
def kmRoundCalls (metric : String) (mp : Option Kw) (nJobs verbose maxIterBary X C M c : PyArg) : Except PyErr (List CallRec) := do
  let kw := kmMetricParams mp
  if metric = "euclidean" then return []
  else if metric = "dtw" then
    let a ← cdistCall "_cdist_dtw" sigCdistDtw [X, C] ([("n_jobs", nJobs), ("verbose", verbose)] ++ kw)
    let b ← pyBind sigDtwPath [M, c] kw
    return [a, ⟨"_njit_dtw_path", b⟩]
  else if metric = "softdtw" then
    let a ← cdistCall "_cdist_soft_dtw" sigCdistSoftDtw [X, C] ([("n_jobs", nJobs), ("verbose", verbose)] ++ kw)
    let b ← softBaryCall M maxIterBary c nJobs kw
    return [a, b]
  else throw .valueError

/-- `KNeighborsTimeSeriesMixin._get_metric_params`, tslearn/neighbors/neighbors.py:44-56. -/
def knnMetricParams (mp : Option Kw) : Kw :=
  let d := mp.getD []
  let d := match d.lookup "gamma_sdtw" with
    | some g => (Kw.put d "gamma" g).del "gamma_sdtw"
    | none => d
  (d.del "n_jobs").del "verbose"

/-- The call for the distances of queries `X` to the training series `Y`. `kneighbors` of `KNeighborsTimeSeries`,
tslearn/neighbors/neighbors.py:380-407 (`unsup`), or `_precompute_cross_dist`, tslearn/neighbors/neighbors.py:65-97, which does not
pass `verbose`; the metric `sax` of the latter is `knnSaxCall`. -/
def knnCall (unsup : Bool) (metric : String) (mp : Option Kw) (nJobs verbose X Y : PyArg) : Except PyErr CallRec :=
  let kw := knnMetricParams mp
  let own : Kw := if unsup then [("n_jobs", nJobs), ("verbose", verbose)] else [("n_jobs", nJobs)]
  if metric = "dtw" then cdistCall "_cdist_dtw" sigCdistDtw [X, Y] (own ++ kw)
  else if metric = "ctw" then cdistCall "_cdist_ctw" sigCdistCtw [X, Y] kw
  else if metric = "softdtw" then cdistCall "_cdist_soft_dtw" sigCdistSoftDtw [X, Y] kw
  else if metric = "frechet" then cdistCall "_cdist_frechet" sigCdistDtw [X, Y] (own ++ kw)
  else .error .valueError

/-- The call of `_sax_preprocess` by `KNeighborsTimeSeriesClassifier.fit`, tslearn/neighbors/neighbors.py:565-570, with `metric_params` as
given (`fit`), or by `_precompute_cross_dist`, tslearn/neighbors/neighbors.py:81. -/
def knnSaxCall (fit : Bool) (mp : Option Kw) (X : PyArg) : Except PyErr CallRec := do
  let args ← pyBind sigSaxPreprocess [X] (if fit then mp.getD [] else knnMetricParams mp)
  return ⟨"_sax_preprocess", args⟩

/-- `TimeSeriesDBSCAN._get_metric_params`, tslearn/clustering/dbscan.py:102-109. -/
def dbMetricParams (mp : Option Kw) (nJobs : PyArg) : Kw :=
  if nJobs ≠ .none then Kw.put (mp.getD []) "n_jobs" nJobs else mp.getD []

/-- `METRIC_TO_FUNCTION` for the metrics that DBSCAN accepts, tslearn/metrics/__init__.py:83-91 and tslearn/clustering/dbscan.py:82-83. -/
def dbFunction (metric : String) : Option (String × Sig) :=
  if metric = "dtw" then some ("_cdist_dtw", sigCdistDtw)
  else if metric = "ctw" then some ("_cdist_ctw", sigCdistCtw)
  else if metric = "frechet" then some ("_cdist_frechet", sigCdistDtw)
  else if metric = "softdtw_normalized" then some ("_cdist_soft_dtw_normalized", sigCdistSoftDtw)
  else none

/-- The call for the matrix of distances, tslearn/clustering/dbscan.py:149-159: entries that the function does not know are dropped. `none`: no
call (metrics `euclidean` and `precomputed`). -/
def dbCall (metric : String) (mp : Option Kw) (nJobs X : PyArg) : Except PyErr (Option CallRec) :=
  match dbFunction metric with
  | some (fn, sig) => do
    let r ← cdistCall fn sig [X] ((dbMetricParams mp nJobs).filter fun p => p.1 ∈ sig.map Prod.fst)
    return some r
  | none => if metric = "euclidean" ∨ metric = "precomputed" then .ok none else .error .valueError

end Verif
