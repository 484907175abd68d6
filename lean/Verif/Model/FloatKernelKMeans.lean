import Verif.Model.FloatGak
import Verif.Model.KernelKMeans
/-!
`KernelKMeans` with the kernel "gak", tslearn/clustering/kmeans.py:129-455, in floating-point arithmetic: kernel values, distances
and inertias may be infinite or not-a-number. `sum` is `numpy.sum`; labels drawn by `rs.randint` are an arbitrary sequence, one
list per attempt. The bandwidth is a number given by the user.
-/
namespace Verif
noncomputable section
open Classical

/-- `|x|`. -/
def Fl.abs : Fl → Fl
  | .num x => .num |x|
  | .ninf => .inf
  | x => x

/-- `numpy.argmin` of a row: the first NaN if there is one (library), else the first least entry; used at
tslearn/clustering/kmeans.py:305 and 455. -/
def argminF (r : List Fl) : ℕ :=
  match r.findIdx? Fl.isNan with
  | some i => i
  | none => ((r.zipIdx).foldl (fun best p => if Fl.lt p.1 best.1 then p else best) (r.headD .nan, 0)).2

/-- `numpy.min` of a row: NaN if there is one (library); used at tslearn/clustering/kmeans.py:411. -/
def minF (r : List Fl) : Fl := r.getD (argminF r) .nan

/-- The attributes of the object that matter here, tslearn/clustering/kmeans.py:226-246 and 352-388. `inertia` and `labels` are
`none` for the value `None`; `xfit` tells that `_X_fit` is not `None`. -/
structure KkfObj where
  nClusters : ℕ
  maxIter : ℕ
  tol : ℝ
  nInit : ℕ
  labels : Option (List ℕ)
  inertia : Option Fl
  fitted : Bool
  xfit : Bool
  nIter : ℕ
  iter : ℕ

namespace Arith
variable (A : Arith) (sum : List Fl → Fl)

/-- Entry `(x, j)` of `dist`, tslearn/clustering/kmeans.py:403-407. -/
def kkEntry (sw : ℕ → ℝ) (M : Mat Fl) (labels : List ℕ) (x j : ℕ) : Fl :=
  A.sub (.num 2) (A.div (A.mul (.num 2) (sum ((kkMask labels j).map fun i => A.mul (.num (sw i)) (M x i))))
    (sum ((kkMask labels j).map fun i => .num (sw i))))

/-- `_compute_dist(K, dist)`, tslearn/clustering/kmeans.py:390-407, for `m` rows; with `labels_` set to `None` no series has
any label (`None == j` is false). -/
def kkDist (k m : ℕ) (sw : ℕ → ℝ) (M : Mat Fl) (labels : Option (List ℕ)) : Except PyErr (List (List Fl)) :=
  if hasEmpty (labels.getD []) k then .error .emptyCluster
  else .ok ((List.range m).map fun x => (List.range k).map fun j => A.kkEntry sum sw M (labels.getD []) x j)

/-- `_compute_inertia(dist)`, tslearn/clustering/kmeans.py:409-411. -/
def kkInertia (ds : List (List Fl)) : Fl := sum (ds.map minF)

/-- The loop of `_fit_one_init`, tslearn/clustering/kmeans.py:302-314: `n` rounds left, `it` done. -/
def kkLoop (m : ℕ) (sw : ℕ → ℝ) (M : Mat Fl) : ℕ → ℕ → Fl → KkfObj → KkfObj × Option PyErr
  | 0, it, _, o => ({ o with iter := it }, none)
  | n + 1, it, old, o =>
    match A.kkDist sum o.nClusters m sw M o.labels with
    | .error err => (o, some err)
    | .ok ds =>
      let o := { o with labels := some (ds.map argminF) }
      if hasEmpty (ds.map argminF) o.nClusters then (o, some .emptyCluster)
      else
        let o := { o with inertia := some (kkInertia sum ds) }
        if Fl.lt (A.sub old (kkInertia sum ds)).abs (.num o.tol) then ({ o with iter := it + 1 }, none)
        else kkLoop m sw M n (it + 1) (kkInertia sum ds) o

/-- `_fit_one_init(K, rs)` from drawn labels, tslearn/clustering/kmeans.py:294-319. Without rounds `it` is unbound. -/
def kkFitOne (m : ℕ) (sw : ℕ → ℝ) (M : Mat Fl) (init : List ℕ) (o : KkfObj) : KkfObj × Option PyErr :=
  let o := { o with labels := some init }
  if o.maxIter = 0 then (o, some .unboundLocal) else A.kkLoop sum m sw M o.maxIter 0 .inf o

/-- The loop of `fit`, tslearn/clustering/kmeans.py:369-382: `fuel` attempts left, `a` done, `s` successful, the best labels and
inertia so far. -/
def kkFitLoop (m : ℕ) (sw : ℕ → ℝ) (M : Mat Fl) (inits : ℕ → List ℕ) :
    ℕ → ℕ → ℕ → Option (List ℕ) → Fl → KkfObj → (ℕ × Option (List ℕ) × Fl) × KkfObj × Option PyErr
  | 0, _, s, best, least, o => ((s, best, least), o, none)
  | fuel + 1, a, s, best, least, o =>
    if s < o.nInit then
      match A.kkFitOne sum m sw M (inits a) o with
      | (o, none) =>
        if Fl.lt (o.inertia.getD .nan) least then
          kkFitLoop m sw M inits fuel (a + 1) (s + 1) o.labels (o.inertia.getD .nan) { o with nIter := o.iter }
        else kkFitLoop m sw M inits fuel (a + 1) (s + 1) best least o
      | (o, some .emptyCluster) => kkFitLoop m sw M inits fuel (a + 1) s best least o
      | (o, some err) => ((s, best, least), o, some err)
    else ((s, best, least), o, none)

/-- `fit` from the kernel matrix on, tslearn/clustering/kmeans.py:352-388. -/
def kkFitMat (m : ℕ) (sw : ℕ → ℝ) (M : Mat Fl) (inits : ℕ → List ℕ) (o : KkfObj) : KkfObj × Option PyErr :=
  let o := { o with labels := none, inertia := none, fitted := true, xfit := false, nIter := 0 }
  match A.kkFitLoop sum m sw M inits (max o.nInit 10) 0 0 none .inf o with
  | (_, o, some err) => (o, some err)
  | ((s, best, least), o, none) =>
    if 0 < s then ({ o with labels := best, inertia := some least, xfit := true }, none) else (o, none)

/-- `fit(X, y, sample_weight)` with the kernel "gak" and a bandwidth `sigma`, tslearn/clustering/kmeans.py:321-388 and 267-279. -/
def kkFit (σ : ℝ) (sw : ℕ → ℝ) (inits : ℕ → List ℕ) (run : List (Except PyErr Fl) → Except PyErr (List Fl)) (l : List (Ts ℝ))
    (o : KkfObj) : KkfObj × Option PyErr :=
  match A.cdistGak sum (.series l) none σ run with
  | .error err => ({ o with labels := none, inertia := none, fitted := true, xfit := false, nIter := 0 },
      some (if err = .zeroDivision then .runtimeError else err))
  | .ok M => A.kkFitMat sum l.length sw M inits o

/-- `predict(X)`, tslearn/clustering/kmeans.py:435-455, from the matrix of kernel values between queries and training series:
`_X_fit` may be `None`, which has no shape. -/
def kkPredictMat (m : ℕ) (sw : ℕ → ℝ) (M : Mat Fl) (o : KkfObj) : Except PyErr (List ℕ) :=
  if o.fitted then
    if o.xfit then
      match A.kkDist sum o.nClusters m sw M o.labels with
      | .error err => .error err
      | .ok ds => .ok (ds.map argminF)
    else .error .attributeError
  else .error .notFitted

end Arith
end
end Verif
