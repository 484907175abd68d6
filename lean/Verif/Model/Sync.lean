import Verif.Model.Interp
/-!
`TimeSeriesFeatureSynchronizer`, tslearn/preprocessing/_synchronizer.py. NaN and NaT are `none`.
-/
namespace Verif
variable {K : Type} [Field K] [LinearOrder K]

/-- `_ts_size` of a single feature (1-D array), tslearn/utils/utils.py:511-518, called at
tslearn/preprocessing/_synchronizer.py:120 and 135. -/
def colSize {α : Type} (c : List (Option α)) : ℕ := tsSize (c.map fun x => [x])

/-- Are two consecutive timestamps of a feature both present? tslearn/preprocessing/_synchronizer.py:115. -/
def validPair (T : Arr3 K) (i t f : ℕ) : Bool := (T.entry i t f).isSome && (T.entry i (t + 1) f).isSome

/-- Valid consecutive timestamps increase strictly, tslearn/preprocessing/_synchronizer.py:115-118. When every
comparison is masked `np.ma.all` returns `masked`, whose truth value is false, so that at least one valid pair is
needed. -/
def increasingTimes (T : Arr3 K) : Bool :=
  ((List.range T.data.length).any fun i => (List.range (T.sz - 1)).any fun t => (List.range T.d).any fun f =>
    validPair T i t f) &&
  ((List.range T.data.length).all fun i => (List.range (T.sz - 1)).all fun t => (List.range T.d).all fun f =>
    match T.entry i t f, T.entry i (t + 1) f with
    | some a, some b => decide (a < b)
    | _, _ => true)

/-- Interpolation coordinates of the first `n` samples of a feature: timestamps as floats (a missing timestamp
of an observed sample is not modelled), or `n` equally spaced positions,
tslearn/preprocessing/_synchronizer.py:126-141. -/
def syncCoords (times : Option (Arr3 K)) (i n f : ℕ) : List K :=
  match times with
  | some T => (T.col i n f).map fun x => x.getD 0
  | none => linspace01 n

/-- `TimeSeriesFeatureSynchronizer(ref).fit(Xfit).transform(X, timestamps=times)`,
tslearn/preprocessing/_synchronizer.py:59-149 (non-negative reference indices). -/
def synchronize (ref : ℕ) (xF x : DsInput K) (times : Option (Arr3 K)) : Except PyErr (Arr3 K) := do
  let F ← toDataset xF
  let X ← toDataset x
  if F.d ≠ X.d then throw .valueError
  match times with
  | some T =>
    let T' ← toDataset (.series T.slots)
    if T'.data.length ≠ X.data.length ∨ T'.sz ≠ X.sz ∨ T'.d ≠ X.d then throw .valueError
    if ¬ increasingTimes T then throw .valueError
  | none => pure ()
  if X.data = [] then throw .valueError
  if X.d ≤ ref then throw .indexError
  let refSizes := (List.range X.data.length).map fun i => colSize (X.col i X.sz ref)
  let maxRef := refSizes.foldr max 0
  let out ← (List.range X.data.length).mapM fun i =>
    (List.range X.d).mapM fun f =>
      let n := colSize (X.col i X.sz f)
      interp (syncCoords times i (refSizes.getD i 0) ref) (syncCoords times i n f) (X.col i n f)
  return Arr3.build X.data.length maxRef X.d fun i t f =>
    if t < refSizes.getD i 0 then ((out.getD i []).getD f []).getD t none else none

end Verif
