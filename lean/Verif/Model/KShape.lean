import Verif.Model.Cc
import Verif.Model.KMeans
import Verif.Model.Scaler
/-!
`KShape`: tslearn/clustering/kshape.py:19-300, over the reals, for arrays of shape `(n_ts, sz, d)` without NaN (`check_array`
refuses NaN). The last column of `numpy.linalg.eigh` is a parameter.
-/
namespace Verif
noncomputable section

/-- A series of shape `(sz, d)`. -/
abbrev KsSer := List (List ℝ)

/-- Hyper-parameters and the data of `fit`, tslearn/clustering/kshape.py:96-104. `top M` is `numpy.linalg.eigh(M)[1][:, -1]`,
tslearn/clustering/kshape.py:130-131. `initArray` tells that `init` is an array. -/
structure KsEnv where
  data : List KsSer
  sz : ℕ
  d : ℕ
  nClusters : ℕ
  maxIter : ℕ
  nInit : ℕ
  tol : ℝ
  initArray : Bool
  top : (ℕ → ℕ → ℝ) → List ℝ

/-- Attributes of the estimator; `xfit` tells whether `_X_fit` is not `None`, `iter` is `_iter`. -/
structure KsState where
  labels : Option (List ℕ)
  inertia : WithTop ℝ
  centers : Option (List KsSer)
  norms : List ℝ
  normsC : List ℝ
  xfit : Bool
  nIter : ℕ
  iter : ℕ

/-- `TimeSeriesScalerMeanVariance(mu=0., std=1.).fit_transform(X)`, tslearn/clustering/kshape.py:148-149, 298; the result has no
NaN because the argument has none. -/
def ksScale (sz d : ℕ) (X : List KsSer) : Except PyErr (List KsSer) := do
  let A : Arr3 ℝ := { sz := sz, d := d, data := X.map fun s => s.map fun r => r.map some }
  let Y ← meanVarTransform ⟨0, 1, true, true⟩ A A
  return Y.data.map fun s => s.map fun r => r.map fun v => v.getD 0

/-- Entry `(a, b)` of `S = numpy.dot(Xp[:, :, i].T, Xp[:, :, i])`, tslearn/clustering/kshape.py:127. -/
def ksGram (Xp : List KsSer) (i a b : ℕ) : ℝ := (Xp.map fun x => ent x a i * ent x b i).sum

/-- Entry of `Q = numpy.eye(sz) - numpy.ones((sz, sz)) / sz`, tslearn/clustering/kshape.py:128. -/
def ksCenter (sz a b : ℕ) : ℝ := (if a = b then 1 else 0) - 1 / sz

/-- Entry of `numpy.dot(A, B)` for `sz × sz` matrices, tslearn/clustering/kshape.py:129. -/
def ksDot (sz : ℕ) (A B : ℕ → ℕ → ℝ) (a b : ℕ) : ℝ := ((List.range sz).map fun c => A a c * B c b).sum

/-- `M = numpy.dot(Q.T, numpy.dot(S, Q))`, tslearn/clustering/kshape.py:129. -/
def ksM (sz : ℕ) (Xp : List KsSer) (i : ℕ) : ℕ → ℕ → ℝ :=
  ksDot sz (fun a b => ksCenter sz b a) (ksDot sz (ksGram Xp i) (ksCenter sz))

/-- `numpy.sum(numpy.linalg.norm(Xp - c * mu_k, axis=(1, 2)))` with `c = 1` or `c = -1`: the column `mu_k` is subtracted from
every feature, tslearn/clustering/kshape.py:136-137. -/
def ksSpread (Xp : List KsSer) (c : ℝ) (mu : List ℝ) : ℝ :=
  (Xp.map fun x => frobNorm (x.mapIdx fun t r => r.map fun v => v - c * mu.getD t 0)).sum

/-- One column of `_shape_extraction`, tslearn/clustering/kshape.py:127-140. -/
def ksColumn (e : KsEnv) (Xp : List KsSer) (i : ℕ) : List ℝ :=
  let mu := e.top (ksM e.sz Xp i)
  if ksSpread Xp (-1) mu < ksSpread Xp 1 mu then mu.map fun v => -v else mu

/-- `_shape_extraction(X, k)`, tslearn/clustering/kshape.py:119-143, from the old centroid and the members of the cluster with
their entries of `norms_`. -/
def ksExtract (e : KsEnv) (center : KsSer) (members : List (KsSer × ℝ)) : KsSer :=
  let Xp := yShifted e.d center (members.map Prod.fst) (-1) (members.map Prod.snd)
  (List.range e.sz).map fun t => (List.range e.d).map fun i => (ksColumn e Xp i).getD t 0

/-- `X[self.labels_ == k]` with `self.norms_[self.labels_ == k]`, tslearn/clustering/kshape.py:121-123. -/
def ksMembers (e : KsEnv) (s : KsState) (k : ℕ) : List (KsSer × ℝ) :=
  (((e.data.zip s.norms).zip (s.labels.getD [])).filter fun xl => xl.2 = k).map Prod.fst

/-- `numpy.linalg.norm(X, axis=(1, 2))`, tslearn/clustering/kshape.py:150-151, 229. -/
def ksNorms (X : List KsSer) : List ℝ := X.map frobNorm

/-- `_update_centroids(X)`, tslearn/clustering/kshape.py:145-151. -/
def ksUpdate (e : KsEnv) (s : KsState) (cs : List KsSer) : Except PyErr KsState := do
  let cs ← ksScale e.sz e.d (cs.mapIdx fun k c => ksExtract e c (ksMembers e s k))
  return { s with centers := some cs, normsC := ksNorms cs }

/-- One row of `_cross_dists(X)`, tslearn/clustering/kshape.py:153-157: the distances of series `i`. -/
def ksRow (d : ℕ) (X cs : List KsSer) (norms normsC : List ℝ) (i : ℕ) : Except PyErr (List ℝ) :=
  (List.range cs.length).mapM fun k => do
    let v ← cdistCcEntry d X cs norms normsC false i k
    return 1 - v

/-- `_cross_dists(X)`, tslearn/clustering/kshape.py:153-157. -/
def ksDists (d : ℕ) (X cs : List KsSer) (norms normsC : List ℝ) : Except PyErr (List (List ℝ)) :=
  (List.range X.length).mapM fun i => ksRow d X cs norms normsC i

/-- `_compute_inertia(distances, assignments)`, tslearn/clustering/utils.py:51-67, with `squared=True` by default. -/
def ksInertia (dists : List (List ℝ)) (labels : List ℕ) : ℝ :=
  ((dists.zip labels).map fun rl => rl.1.getD rl.2 0 ^ 2).sum / dists.length

/-- `_assign(X)`, tslearn/clustering/kshape.py:159-163: the attributes afterwards, also when `EmptyClusterError` is raised. -/
def ksAssign (e : KsEnv) (s : KsState) : KsState × Option PyErr :=
  match s.centers with
  | none => (s, some .attributeError)
  | some cs =>
    match ksDists e.d e.data cs s.norms s.normsC with
    | .error err => (s, some err)
    | .ok ds =>
      let labels := ds.map argminL
      let s := { s with labels := some labels }
      if hasEmpty labels e.nClusters then (s, some .emptyCluster)
      else ({ s with inertia := (ksInertia ds labels : ℝ) }, none)

/-- `numpy.abs(old_inertia - self.inertia_) < self.tol or (old_inertia - self.inertia_ < 0)`,
tslearn/clustering/kshape.py:186-187; `old_inertia` is `inf` at first. -/
def ksStop (tol : ℝ) : WithTop ℝ → WithTop ℝ → Bool
  | some a, some b => decide (|a - b| < tol ∨ a - b < 0)
  | _, _ => false

/-- The loop of `_fit_one_init`, tslearn/clustering/kshape.py:179-192: `n` rounds left, `it` done. -/
def ksLoop (e : KsEnv) : ℕ → ℕ → WithTop ℝ → KsState → KsState × Option PyErr
  | 0, it, _, s => ({ s with iter := it }, none)
  | n + 1, it, old, s =>
    match ksUpdate e s (s.centers.getD []) with
    | .error err => (s, some err)
    | .ok s1 =>
      match ksAssign e s1 with
      | (s2, some err) => (s2, some err)
      | (s2, none) =>
        if ksStop e.tol old s2.inertia then
          match ksAssign e { s2 with centers := s.centers } with
          | (s3, some err) => (s3, some err)
          | (s3, none) => ({ s3 with iter := it + 1 }, none)
        else ksLoop e n (it + 1) s2.inertia s2

/-- `_fit_one_init(X, rs)` for the initial centroids `init`, tslearn/clustering/kshape.py:165-198. Without rounds `it` is
unbound. -/
def ksFitOne (e : KsEnv) (init : List KsSer) (s : KsState) : KsState × Option PyErr :=
  let s := { s with centers := some init, normsC := ksNorms init }
  match ksAssign e s with
  | (s, some err) => (s, some err)
  | (s, none) => if e.maxIter = 0 then (s, some .unboundLocal) else ksLoop e e.maxIter 0 ⊤ s

/-- Local variables of the loop of `fit`, tslearn/clustering/kshape.py:235-238. -/
structure KsBest where
  best : Option (List KsSer)
  minInertia : WithTop ℝ
  nSuccessful : ℕ
  nAttempts : ℕ

/-- The loop of `fit`, tslearn/clustering/kshape.py:239-252; `fuel` bounds the number of attempts, `inits a` are the initial
centroids of attempt `a`. -/
def ksFitLoop (e : KsEnv) (inits : ℕ → List KsSer) : ℕ → KsBest → KsState → KsBest × KsState × Option PyErr
  | 0, b, s => (b, s, none)
  | fuel + 1, b, s =>
    if b.nSuccessful < e.nInit then
      let a := b.nAttempts
      let b := { b with nAttempts := a + 1 }
      match ksFitOne e (inits a) s with
      | (s, none) =>
        if s.inertia < b.minInertia then
          ksFitLoop e inits fuel
            { b with best := s.centers, minInertia := s.inertia, nSuccessful := b.nSuccessful + 1 } { s with nIter := s.iter }
        else ksFitLoop e inits fuel { b with nSuccessful := b.nSuccessful + 1 } s
      | (s, some .emptyCluster) => ksFitLoop e inits fuel b s
      | (s, some err) => (b, s, some err)
    else (b, s, none)

/-- `_post_fit(X_fitted, centroids, inertia)`, tslearn/clustering/utils.py:225-235. -/
def ksPostFit (e : KsEnv) (b : KsBest) (s : KsState) : KsState × Option PyErr :=
  match b.best with
  | some cs =>
    if b.minInertia ≠ ⊤ then
      match ksAssign e { s with centers := some cs } with
      | (s, none) => ({ s with xfit := true, inertia := b.minInertia }, none)
      | r => r
    else ({ s with xfit := false }, none)
  | none => ({ s with xfit := false }, none)

/-- End of `fit`, tslearn/clustering/kshape.py:253-255: `norms_centroids_` is computed from the centroids of the last attempt,
before `_post_fit` brings back the best ones. Without attempts (`n_init=0`) there are none. -/
def ksFinish (e : KsEnv) (b : KsBest) (s : KsState) : KsState × Option PyErr :=
  match s.centers with
  | none => (s, some .notModelled)
  | some cs => ksPostFit e b { s with normsC := ksNorms cs }

/-- `fit(X)`, tslearn/clustering/kshape.py:200-256, after validation. -/
def ksFit (e : KsEnv) (inits : ℕ → List KsSer) (iter0 : ℕ) : KsState × Option PyErr :=
  let s : KsState := { labels := none, inertia := ⊤, centers := none, norms := ksNorms e.data, normsC := [], xfit := true,
                       nIter := 0, iter := iter0 }
  match ksFitLoop e inits (if e.initArray then 1 else max e.nInit 10) ⟨none, ⊤, 0, 0⟩ s with
  | (_, s, some err) => (s, some err)
  | (b, s, none) => ksFinish e b s

/-- `predict(X)` for queries of shape `(n_ts, sz, d)`, tslearn/clustering/kshape.py:280-300: the queries are standardised, then
compared to the centroids with `norms_`, the norms of the *training* series. -/
def ksPredict (sz d : ℕ) (s : KsState) (X : List KsSer) : Except PyErr (List ℕ) :=
  match s.centers with
  | none => .error .attributeError
  | some cs => do
    let X ← ksScale sz d X
    let ds ← ksDists d X cs s.norms s.normsC
    return ds.map argminL

end
end Verif
