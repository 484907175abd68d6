import Verif.Model.Scaler
/-!
The matrix profile: tslearn/matrix_profile/matrix_profile.py. NaN is `none`, `inf` is `⊤`.
-/
namespace Verif

/-- The value of `implementation`, tslearn/matrix_profile/matrix_profile.py:79-91. -/
inductive MpImpl
  | numpy | stump | gpuStump | other
  deriving DecidableEq

/-- `_series_to_segments` on one series, tslearn/matrix_profile/matrix_profile.py:54-66 (`as_strided` with equal
strides: entry `[i, k]` is sample `i + k`). -/
def mpSegments {α : Type} (X : Arr3 α) (l m : ℕ) : Arr3 α :=
  Arr3.build (X.sz - m + 1) m X.d fun i k f => X.entry l (i + k) f

/-- `segments.reshape((-1, m))` of a univariate array: number of rows and entries,
tslearn/matrix_profile/matrix_profile.py:192. -/
def mpReshape {α : Type} (m : ℕ) (S : Arr3 α) : Except PyErr (ℕ × (ℕ → ℕ → Option α)) :=
  let flat := (S.data.map List.flatten).flatten
  if m = 0 ∨ flat.length % m ≠ 0 then .error .valueError
  else .ok (flat.length / m, fun i k => flat.getD (i * m + k) none)

/-- `squareform(pdist(segments_2d, "euclidean"))`, tslearn/matrix_profile/matrix_profile.py:193: each pair is computed
once, the diagonal is zero. -/
noncomputable def mpDist (m : ℕ) (z : ℕ → ℕ → Option ℝ) (i j : ℕ) : Option ℝ :=
  if i = j then some 0
  else (((List.range m).map fun k => (z (min i j) k).bind fun x => (z (max i j) k).map fun y => (x - y) ^ 2).mapM id).map
    fun l => Real.sqrt l.sum

/-- `numpy.tri(n, n, k)`, used at tslearn/matrix_profile/matrix_profile.py:194-197. -/
def tri (k : ℤ) (i j : ℕ) : Bool := decide ((j : ℤ) ≤ (i : ℤ) + k)

/-- `band`, tslearn/matrix_profile/matrix_profile.py:194-197. -/
def mpBand (bw i j : ℕ) : Bool := tri bw i j && !tri (-((bw : ℤ) + 1)) i j

/-- `min` of two floats of which the first may be NaN or `inf` (NaN propagates). -/
noncomputable def nanMin2 (a b : Option (WithTop ℝ)) : Option (WithTop ℝ) :=
  a.bind fun x => b.map fun y => min x y

/-- Row `i` of `dists` after `dists[band] = inf`, tslearn/matrix_profile/matrix_profile.py:198. -/
noncomputable def mpRow (m bw n : ℕ) (z : ℕ → ℕ → Option ℝ) (i : ℕ) : List (Option (WithTop ℝ)) :=
  (List.range n).map fun j => if mpBand bw i j then some ⊤ else (mpDist m z i j).map WithTop.some

/-- `if self.scale: segments = scaler.fit_transform(segments)`, tslearn/matrix_profile/matrix_profile.py:189-190. -/
noncomputable def mpScaled (scale : Bool) (segs : Arr3 ℝ) : Except PyErr (Arr3 ℝ) :=
  if scale then meanVarTransform ⟨0, 1, true, true⟩ segs segs else .ok segs

/-- The profile of one series, tslearn/matrix_profile/matrix_profile.py:188-199. `dists` has the number of rows of
the reshaped array and `band` the number of segments, a boolean mask of another shape is an `IndexError`.
Of an empty vector `squareform` makes a `1 × 1` matrix, also an `IndexError`. -/
noncomputable def mpSeries (m : ℕ) (scale : Bool) (X : Arr3 ℝ) (l : ℕ) : Except PyErr (List (Option (WithTop ℝ))) := do
  let bw := (m + 3) / 4
  let segs ← mpScaled scale (mpSegments X l m)
  let n := segs.data.length
  let (n', z) ← mpReshape m segs
  if max n' 1 ≠ n then throw .indexError
  return (List.range n).map fun i => (mpRow m bw n z i).foldl nanMin2 (some ⊤)

/-- `MatrixProfile.fit_transform(X)` on a 3-D array, tslearn/matrix_profile/matrix_profile.py:155-212. The stumpy
implementations are third-party code. An output with no entries is not modelled. -/
noncomputable def mpTransform (impl : MpImpl) (m : ℕ) (scale : Bool) (X : Arr3 ℝ) :
    Except PyErr (List (List (Option (WithTop ℝ)))) := do
  if X.data = [] then throw .valueError
  if X.d > 1 then throw .notImplemented
  if X.sz + 1 < m then throw .valueError
  match impl with
  | .numpy =>
    if X.sz < m ∨ X.d = 0 then throw .notModelled
    (List.range X.data.length).mapM fun l => mpSeries m scale X l
  | .other => throw .valueError
  | _ => throw .notModelled

/-- A `MatrixProfile` object: its parameters, tslearn/matrix_profile/matrix_profile.py:122-127, and the number of features in `_X_fit_dims`
once fitted. -/
structure MpEst where
  m : ℕ
  impl : MpImpl
  scale : Bool
  dims : Option ℕ

/-- `fit`, tslearn/matrix_profile/matrix_profile.py:133-153: `check_array` refuses an empty dataset. -/
def MpEst.fit (e : MpEst) (X : Arr3 ℝ) : MpEst × Except PyErr Unit :=
  if X.data = [] then (e, .error .valueError) else ({ e with dims := some X.d }, .ok ())

/-- `transform`, tslearn/matrix_profile/matrix_profile.py:214-233. -/
noncomputable def MpEst.transform (e : MpEst) (X : Arr3 ℝ) : Except PyErr (List (List (Option (WithTop ℝ)))) :=
  match e.dims with
  | none => .error .notFitted
  | some d =>
    if X.data = [] then .error .valueError
    else if X.d ≠ d then .error .valueError
    else mpTransform e.impl e.m e.scale X

/-- `fit_transform`, tslearn/matrix_profile/matrix_profile.py:235-252: the dimensions are stored before the profile is computed. -/
noncomputable def MpEst.fitTransform (e : MpEst) (X : Arr3 ℝ) : MpEst × Except PyErr (List (List (Option (WithTop ℝ)))) :=
  if X.data = [] then (e, .error .valueError)
  else ({ e with dims := some X.d }, mpTransform e.impl e.m e.scale X)

/-- A call on the object. -/
inductive MpCmd
  | setParams (m : ℕ) (impl : MpImpl) (scale : Bool)
  | fit (X : Arr3 ℝ)
  | transform (X : Arr3 ℝ)
  | fitTransform (X : Arr3 ℝ)

/-- The object after a call. `set_params` assigns attributes. -/
noncomputable def MpEst.step (e : MpEst) : MpCmd → MpEst
  | .setParams m impl scale => { e with m := m, impl := impl, scale := scale }
  | .fit X => (e.fit X).1
  | .transform _ => e
  | .fitTransform X => (e.fitTransform X).1

end Verif
