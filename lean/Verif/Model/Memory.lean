import Verif.Model.Sync
import Verif.Model.Dba
import Verif.Model.KernelKMeans
/-!
Memory: which arrays the functions of the library write to, and which arrays they keep or give back.

The memory is a collection of buffers. An array object is a window on a buffer: NumPy's and PyTorch's rows
`X[i]`, leading slices `ts[:k]`, `X[:, :k]` and `reshape(-1, 1)` are other windows on the same buffer, with the same
coordinates (series, time, feature) in this model. An assignment `a[...] = v` evaluates `v` first. NaN is `none`.
Temporary arrays that no one can see afterwards are left out.
-/
namespace Verif

section
variable {K : Type}

/-- The memory: buffers are numbered in the order of their allocation, `next` is the next number. -/
structure Heap (K : Type) where
  next : ℕ
  mem : ℕ → ℕ → ℕ → ℕ → Option K

/-- A 3-D array object of shape `(n, sz, d)`. -/
structure DArr where
  buf : ℕ
  n : ℕ
  sz : ℕ
  d : ℕ
  deriving DecidableEq

/-- A 2-D array object of shape `(sz, d)`: (the first samples of) one series of a buffer. -/
structure SArr where
  buf : ℕ
  row : ℕ
  sz : ℕ
  d : ℕ
  deriving DecidableEq

/-- The content of a 3-D array. -/
def Heap.ds (h : Heap K) (a : DArr) : Arr3 K := Arr3.build a.n a.sz a.d (h.mem a.buf)

/-- The content of a 2-D array. -/
def Heap.ts (h : Heap K) (s : SArr) : List (List (Option K)) :=
  (List.range s.sz).map fun t => (List.range s.d).map fun f => h.mem s.buf s.row t f

/-- The content of `s[:, f]`. -/
def Heap.col (h : Heap K) (s : SArr) (f : ℕ) : List (Option K) := (List.range s.sz).map fun t => h.mem s.buf s.row t f

/-- `a[i]`. -/
def DArr.row (a : DArr) (i : ℕ) : SArr := ⟨a.buf, i, a.sz, a.d⟩

/-- `s[:k]`. -/
def SArr.take (s : SArr) (k : ℕ) : SArr := { s with sz := min k s.sz }

/-- A new 3-D array with the given content. -/
def Heap.newDs (h : Heap K) (X : Arr3 K) : DArr × Heap K :=
  (⟨h.next, X.data.length, X.sz, X.d⟩, ⟨h.next + 1, Function.update h.mem h.next X.entry⟩)

/-- A new 2-D array with the given content. -/
def Heap.newTs (h : Heap K) (sz d : ℕ) (g : ℕ → ℕ → Option K) : SArr × Heap K :=
  (⟨h.next, 0, sz, d⟩, ⟨h.next + 1, Function.update h.mem h.next fun _ => g⟩)

/-- `s[...] = g`, or `s[m] = g[m]` for a choice `m` of entries. -/
def Heap.assign (h : Heap K) (s : SArr) (m : ℕ → ℕ → Bool) (g : ℕ → ℕ → Option K) : Heap K :=
  { h with mem := fun b i t f =>
      if b = s.buf ∧ i = s.row ∧ t < s.sz ∧ f < s.d ∧ m t f = true then g t f else h.mem b i t f }

/-! ### Formatting -/

/-- The library an array is made with. -/
inductive Be where
  | numpy
  | torch
  deriving DecidableEq

/-- A series given by the caller: an array of NumPy or PyTorch (`f64`: 64-bit floats) or nested lists of width `d`. -/
inductive SSrc (K : Type) where
  | arr (be : Be) (s : SArr) (f64 : Bool)
  | list (t : Ts K)

/-- The argument `dtype`: `None`, Python's `float` (the default of `to_time_series`), or a data type object that
equals that of the array. -/
inductive DtArg where
  | none
  | pyFloat
  | same
  deriving DecidableEq

/-- The content of a series given by the caller. -/
def SSrc.content (h : Heap K) : SSrc K → Ts K
  | .arr _ s _ => ⟨s.d, h.ts s⟩
  | .list t => t

/-- A copy in a new buffer. -/
def SSrc.copy (h : Heap K) (x : SSrc K) : SArr × Heap K :=
  h.newTs (x.content h).rows.length (x.content h).d fun t f => ((x.content h).rows.getD t []).getD f none

/-- `be.array(val, dtype=dtype)`. `numpy.array` (tslearn/backend/numpy_backend.py:48) copies. For PyTorch,
tslearn/backend/pytorch_backend.py:106-123: tensors are cloned when `dtype` is `None` or equals theirs, and handed
to `Tensor.to` otherwise, which returns the tensor itself when nothing is to be converted (`torch.float64 == float` is
false); `torch.from_numpy` shares the memory of the NumPy array. -/
def beArray (be : Be) (dt : DtArg) (h : Heap K) (x : SSrc K) : SArr × Heap K :=
  match be, x with
  | .torch, .arr .torch s f64 =>
    match dt with
    | .none => x.copy h
    | .same => x.copy h
    | .pyFloat => if f64 then (s, h) else x.copy h
  | .torch, .arr .numpy s f64 =>
    match dt with
    | .none => (s, h)
    | .same => (s, h)
    | .pyFloat => if f64 then (s, h) else x.copy h
  | _, _ => x.copy h

/-- `to_time_series(ts, remove_nans, be, dtype)`, tslearn/utils/utils.py:154-212: `reshape` and the slice are views. -/
def toTimeSeriesM (be : Be) (dt : DtArg) (removeNans : Bool) (h : Heap K) (x : SSrc K) : SArr × Heap K :=
  let r := beArray be dt h x
  (if removeNans then r.1.take (tsSize (r.2.ts r.1)) else r.1, r.2)

/-- A dataset given by the caller: a 3-D array or a list of series. -/
inductive DSrc (K : Type) where
  | arr (be : Be) (a : DArr)
  | list (l : List (SSrc K))

/-- The content of a dataset given by the caller. -/
def DSrc.content (h : Heap K) : DSrc K → List (Ts K)
  | .arr _ a => (h.ds a).slots
  | .list l => l.map (SSrc.content h)

/-- `to_time_series_dataset(dataset)`, tslearn/utils/utils.py:215-286: the result is written into an array made by
`be.full`, line 282. -/
def toDatasetM (h : Heap K) (x : DSrc K) : Except PyErr (DArr × Heap K) :=
  (toDataset (.series (x.content h))).map h.newDs

/-- `check_array(X, allow_nd=True)` of scikit-learn for 3-D input, tslearn/utils/utils.py:36: `copy=False`, so that an
array is returned as it is (for a tensor, a NumPy array on the same memory); lists are converted. -/
def checkArrayM (h : Heap K) (x : DSrc K) : DArr × Heap K :=
  match x with
  | .arr _ a => (a, h)
  | .list l =>
    let c := l.map (SSrc.content h)
    h.newDs ⟨(c.headD ⟨0, []⟩).rows.length, (c.headD ⟨0, []⟩).d, c.map Ts.rows⟩

end

/-! ### Preprocessing -/

section
variable {K : Type} [Field K] [LinearOrder K]

/-- A function that imputes a series: it gets an array and returns one, possibly the same. -/
abbrev Imputer (K : Type) := Heap K → SArr → Except PyErr (SArr × Heap K)

/-- The loop of `_linear_impute`, tslearn/preprocessing/preprocessing.py:530-540: each feature in place. -/
def linearImputeM (s : SArr) : List ℕ → Heap K → Except PyErr (Heap K)
  | [], h => .ok h
  | f :: fs, h => do
    let c := h.col s f
    let c' ← imputeCol .linear c
    linearImputeM s fs (h.assign s (fun t f' => f' = f && (c.getD t none).isNone) fun t _ => c'.getD t none)

/-- `self._imputer` for the named methods, tslearn/preprocessing/preprocessing.py:519-577: `numpy.where` makes a new
array; the other methods write into the array they get. -/
def builtinImputer (m : ImpMethod K) : Imputer K := fun h s =>
  match m with
  | .unknown => .error .valueError
  | .linear => do
    let h ← linearImputeM s (List.range s.d) h
    return (s, h)
  | .ffill => do
    let cols ← (List.range s.d).mapM fun f => imputeCol .ffill (h.col s f)
    return (s, h.assign s (fun t f => (h.mem s.buf s.row t f).isNone) fun t f => (cols.getD f []).getD t none)
  | .bfill => do
    let cols ← (List.range s.d).mapM fun f => imputeCol .bfill (h.col s f)
    return (s, h.assign s (fun t f => (h.mem s.buf s.row t f).isNone) fun t f => (cols.getD f []).getD t none)
  | m => do
    let cols ← (List.range s.d).mapM fun f => imputeCol m (h.col s f)
    return h.newTs s.sz s.d fun t f => (cols.getD f []).getD t none

/-- `X_[i, :stop] = imputer(X_[i, :stop])`, tslearn/preprocessing/preprocessing.py:639-645. Results of another shape are
not modelled. -/
def imputeRow (imp : Imputer K) (keep : Bool) (X : DArr) (h : Heap K) (i : ℕ) : Except PyErr (Heap K) := do
  let ts := X.row i
  let v := if keep then ts.take (tsSize (h.ts ts)) else ts
  let (r, h) ← imp h v
  if r.sz ≠ v.sz ∨ r.d ≠ v.d then throw .notModelled
  return h.assign v (fun _ _ => true) fun t f => h.mem r.buf r.row t f

/-- `TimeSeriesImputer.transform(X)`, tslearn/preprocessing/preprocessing.py:611-647, after a fit on data of `fitD`
features. -/
def imputeM (imp : Imputer K) (known keep : Bool) (fitD : ℕ) (h : Heap K) (x : DSrc K) :
    Except PyErr (DArr × Heap K) := do
  let (X, h) ← toDatasetM h x
  if fitD ≠ X.d then throw .valueError
  if known = false then throw .valueError
  let h ← (List.range X.n).foldlM (imputeRow imp keep X) h
  toDatasetM h (.arr .numpy X)

/-- One feature of one series in `TimeSeriesFeatureSynchronizer.transform`, written in place,
tslearn/preprocessing/_synchronizer.py:134-147. -/
def syncCell (times : Option (Arr3 K)) (ref refSize maxRef : ℕ) (X : DArr) (i : ℕ) (h : Heap K) (f : ℕ) :
    Except PyErr (Heap K) := do
  let n := colSize (h.col (X.row i) f)
  let v ← interp (syncCoords times i refSize ref) (syncCoords times i n f) ((h.col (X.row i) f).take n)
  return h.assign (X.row i) (fun t f' => f' = f && t < maxRef) fun t _ => if t < refSize then v.getD t none else none

/-- `TimeSeriesFeatureSynchronizer.transform(X, timestamps)`, tslearn/preprocessing/_synchronizer.py:100-149, after a fit
on data of `fitD` features. The result is a view of the working copy. -/
def syncM (ref fitD : ℕ) (times : Option (Arr3 K)) (h : Heap K) (x : DSrc K) : Except PyErr (DArr × Heap K) := do
  let (X, h) ← toDatasetM h x
  if fitD ≠ X.d then throw .valueError
  match times with
  | some T =>
    let T' ← toDataset (.series T.slots)
    if T'.data.length ≠ X.n ∨ T'.sz ≠ X.sz ∨ T'.d ≠ X.d then throw .valueError
    if ¬ increasingTimes T then throw .valueError
  | none => pure ()
  if X.n = 0 then throw .valueError
  if X.d ≤ ref then throw .indexError
  let refSizes := (List.range X.n).map fun i => colSize (h.col (X.row i) ref)
  let maxRef := refSizes.foldr max 0
  let h ← (List.range X.n).foldlM (fun h i =>
    (List.range X.d).foldlM (syncCell times ref (refSizes.getD i 0) maxRef X i) h) h
  return ({ X with sz := maxRef }, h)

end

/-! ### Forecasting -/

section
variable {K : Type}

/-- `X[i] = np.roll(ts, sz - ts_sizes[i], axis=0)` for every series, tslearn/forecasting/_arima.py:270-271. -/
def rollRows (X : DArr) (sizes : List ℕ) (h : Heap K) : Heap K :=
  (List.range X.n).foldl (fun h i =>
    h.assign (X.row i) (fun _ _ => true) fun t f => h.mem X.buf i ((t + sizes.getD i 0) % X.sz) f) h

/-- The parameters of a VARIMA model that decide whether the data are rolled, tslearn/forecasting/_arima.py:268. -/
structure VarimaOrders where
  p : ℕ
  q : ℕ
  d : ℕ
  s : ℕ

/-- `_get_last_timestamps(X, ts_sizes)`, tslearn/forecasting/_arima.py:266-277, as far as memory is concerned: it works
on the array it is given. -/
def lastTimestampsM (o : VarimaOrders) (X : DArr) (sizes : List ℕ) (h : Heap K) : Heap K :=
  if max o.p (max o.q (max o.d o.s)) ≠ 0 then rollRows X sizes h else h

/-- `VARIMA._fit(X, ts_sizes)`, tslearn/forecasting/_arima.py:202-246: the coefficients `est` are estimated from the data
before these are rolled. -/
def varimaFitM {β : Type} (est : VarimaOrders → Arr3 K → Except PyErr β) (o : VarimaOrders) (X : DArr) (sizes : List ℕ)
    (h : Heap K) : Except PyErr β × Heap K :=
  if sizes.any fun n => n < o.p + o.q + o.d + 1 + o.s then (.error .valueError, h)
  else
    match est o (h.ds X) with
    | .error e => (.error e, h)
    | .ok b => (.ok b, lastTimestampsM o X sizes h)

/-- `VARIMA.fit(X)`, tslearn/forecasting/_arima.py:181-200, and the data preparation of `VARIMA.predict(X)`, 376-391
(`est` is then the rest of `predict`, which reads the rolled data only). -/
def varimaM {β : Type} (est : VarimaOrders → Arr3 K → Except PyErr β) (predict : Bool) (o : VarimaOrders) (h : Heap K)
    (x : DSrc K) : Except PyErr β × Heap K :=
  match toDatasetM h x with
  | .error e => (.error e, h)
  | .ok (X, h) =>
    let sizes := (List.range X.n).map fun i => tsSize (h.ts (X.row i))
    if predict then
      if sizes.any fun n => n < o.p + o.q + o.d + 1 + o.s then (.error .valueError, h)
      else
        let h := lastTimestampsM o X sizes h
        (est o (h.ds X), h)
    else varimaFitM est o X sizes h

/-- The candidate models of `AutoVARIMA`, each fitted to `X.copy()`, tslearn/forecasting/_arima.py:757-775: what each
fit answers, in the order of the trials. -/
def candidatesM {β : Type} (est : VarimaOrders → Arr3 K → Except PyErr β) (X : DArr) (sizes : List ℕ) :
    List VarimaOrders → Heap K → List (Except PyErr β) × Heap K
  | [], h => ([], h)
  | o :: os, h =>
    let (c, h) := h.newDs (h.ds X)
    let (r, h) := varimaFitM est o c sizes h
    let (rs, h) := candidatesM est X sizes os h
    (r :: rs, h)

end

/-! ### Barycenters -/

section
variable {K : Type} [Field K] [LinearOrder K]

/-- The numbers of a 2-D array without NaN. -/
def Heap.nums (h : Heap K) (s : SArr) : List (List K) :=
  (List.range s.sz).map fun t => (List.range s.d).map fun f => (h.mem s.buf s.row t f).getD 0

/-- `barycenter -= …` with the outcome `b`, tslearn/barycenters/dba.py:483. -/
def Heap.store (h : Heap K) (s : SArr) (b : List (List K)) : Heap K :=
  h.assign s (fun _ _ => true) fun t f => some ((b.getD t []).getD f 0)

/-- One epoch of the subgradient method, tslearn/barycenters/dba.py:866-883, updating the barycenter in place. -/
def subgradEpochM (cfg : DbaCfg K) (xs : List (List (List K))) (ws : List K) (delta : K) (s : SArr) :
    List ℕ → K × WithTop K → Heap K → Except PyErr ((K × WithTop K) × Heap K)
  | [], st, h => .ok (st, h)
  | idx :: rest, (eta, _), h => do
    let (cost, b') ← subgradStep cfg xs ws eta idx (h.nums s)
    subgradEpochM cfg xs ws delta s rest (eta - delta, cost) (h.store s b')

/-- The loop of the subgradient method, tslearn/barycenters/dba.py:862-892. -/
def subgradLoopM (cfg : DbaCfg K) (xs : List (List (List K))) (ws : List K) (delta : K) (perms : ℕ → List ℕ) (s : SArr) :
    ℕ → ℕ → K × WithTop K → WithTop K → Heap K → Except PyErr (Heap K)
  | 0, _, _, _, h => .ok h
  | n + 1, it, st, prev, h => do
    let ((eta, cost), h) ← subgradEpochM cfg xs ws (if it = 0 then delta else 0) s (perms it) st h
    if closeTo cfg.tol prev cost then return h
    else if prev < cost then return h
    else subgradLoopM cfg xs ws delta perms s n (it + 1) (eta, cost) cost h

/-- `dtw_barycenter_averaging_subgradient` with an initial barycenter, tslearn/barycenters/dba.py:846-892: the start is
`to_time_series(init_barycenter, remove_nans=True, be=backend)` with the NumPy backend. -/
def subgradM (cfg : DbaCfg K) (xs : List (List (List K))) (ws : List K) (step final : K) (perms : ℕ → List ℕ)
    (maxIter : ℕ) (h : Heap K) (init : SSrc K) : Except PyErr (SArr × Heap K) := do
  let (s, h) := toTimeSeriesM .numpy .pyFloat true h init
  let h ← subgradLoopM cfg xs ws ((step - final) / (xs.length : K)) perms s maxIter 0 (step, ⊤) ⊤ h
  return (s, h)

/-- `softdtw_barycenter`, tslearn/barycenters/softdtw.py:188-215: `average` is the default start, `minimise` the outcome of
`scipy.optimize.minimize`, which works on its own copy. Without iterations the start itself is returned. -/
def softBarycenterM (average : List (List K)) (minimise : List (List K) → List (List K)) (maxIter : ℤ)
    (h : Heap K) (init : Option SArr) : SArr × Heap K :=
  let fresh (h : Heap K) (b : List (List K)) : SArr × Heap K :=
    h.newTs b.length (b.headD []).length fun t f => some ((b.getD t []).getD f 0)
  let (s, h) := match init with
    | none => fresh h average
    | some s => (s, h)
  if 0 < maxIter then fresh h (minimise (h.nums s)) else (s, h)

end

/-! ### Estimators -/

section
variable {K : Type}

/-- Estimators that keep training series to answer questions with. -/
inductive Keeper where
  | knn
  | svm
  | kmeans
  | kshape
  | dbscan

/-- The series an estimator keeps after `fit(X)`: `_ts_fit` (tslearn/neighbors/neighbors.py:335-340, 558-564, 719-725),
`_X_fit` of the support vector machines (tslearn/svm/svm.py:46-55), of `TimeSeriesKMeans`
(tslearn/clustering/kmeans.py:795-822 with tslearn/clustering/utils.py:227-231) and of `KShape`
(tslearn/clustering/kshape.py:211-228), `components_` of `TimeSeriesDBSCAN` (tslearn/clustering/dbscan.py:136 and 187; `core`
are the core series). -/
def Keeper.keepM (k : Keeper) (core : List ℕ) (h : Heap K) (x : DSrc K) : Except PyErr (DArr × Heap K) :=
  let r := checkArrayM h x
  match k with
  | .dbscan => (toDatasetM r.2 (.arr .numpy r.1)).map fun q =>
      q.2.newDs ⟨q.1.sz, q.1.d, core.map fun i => q.2.ts (q.1.row i)⟩
  | _ => toDatasetM r.2 (.arr .numpy r.1)

variable [Field K] [LinearOrder K]

/-- A fitted `KernelKMeans`: the attributes of `KkObj`, `_X_fit` and `sample_weight_`. -/
structure KkMem (K : Type) where
  obj : KkObj K
  xfit : DArr
  sw : SArr

/-- A kernel other than GAK between series of a dataset, `_get_kernel`, tslearn/clustering/kmeans.py:283-290. -/
def kkKernel (kern : List (List (Option K)) → List (List (Option K)) → K) (h : Heap K) (a b : DArr) (x y : ℕ) : K :=
  kern (h.ts (a.row x)) (h.ts (b.row y))

/-- `KernelKMeans.fit(X, sample_weight)`, tslearn/clustering/kmeans.py:337-388, with a kernel that is not GAK and needs no
parameters: `X` is what `check_array` and `check_dims` return, and is kept. `_check_sample_weight` of scikit-learn
returns an array of weights as it is. -/
def kkFitM (kern : List (List (Option K)) → List (List (Option K)) → K) (inits : ℕ → List ℕ) (o : KkObj K) (h : Heap K)
    (x : DSrc K) (w : Option SArr) : (KkMem K × Option PyErr) × Heap K :=
  let (X, h) := checkArrayM h x
  let (sw, h) := match w with
    | some w => (w, h)
    | none => h.newTs X.n 1 fun _ _ => some 1
  let r := kkFit o ⟨X.n, fun _ _ _ => 0, fun _ => .ok (kkKernel kern h X X), 1,
    fun i => (h.mem sw.buf sw.row i 0).getD 0, inits⟩
  ((⟨r.1, X, sw⟩, r.2), h)

/-- `KernelKMeans.predict(X)`, tslearn/clustering/kmeans.py:435-455, with a kernel that is not GAK. -/
def kkPredictM (kern : List (List (Option K)) → List (List (Option K)) → K) (m : KkMem K) (h : Heap K) (Q : DArr) :
    Except PyErr (List ℕ) :=
  (kkPredict m.obj ⟨Q.n, fun _ _ _ => 0, fun _ => .ok (kkKernel kern h Q m.xfit),
    fun i => (h.mem m.sw.buf m.sw.row i 0).getD 0⟩).2

end

end Verif
