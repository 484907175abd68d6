import Verif.Model.Dataset
import Verif.Model.Dtw
import Mathlib.Data.List.Sort
import Mathlib.Algebra.Order.Field.Basic
import Mathlib.Analysis.SpecialFunctions.Sqrt
/-!
Bandwidths of the global alignment kernel and of soft-DTW chosen from data: tslearn/metrics/_gak.py:73-96 and
tslearn/metrics/softdtw_variants.py:36-88. Values are finite or NaN (infinities are dropped like NaN and not modelled). The draw of samples is a
parameter.
-/
namespace Verif
variable {K : Type} [Field K] [LinearOrder K]

/-- The backends, as far as their medians differ. -/
inductive MedianOf
  | numpy
  | torch

/-- `be.median` of a non-empty list: `numpy.median` (tslearn/backend/numpy_backend.py:66) takes the mean of the two middle values,
`torch.median` (tslearn/backend/pytorch_backend.py:78) the lower of them. -/
def medianOf (be : MedianOf) (l : List K) : K :=
  let s := l.insertionSort (· ≤ ·)
  match be with
  | .numpy => if s.length % 2 = 1 then s.getD (s.length / 2) 0 else (s.getD (s.length / 2 - 1) 0 + s.getD (s.length / 2) 0) / 2
  | .torch => s.getD ((s.length - 1) / 2) 0

/-- `be.pdist`: distances of the pairs `i < j`, row by row. -/
def pdistOf {P : Type} (dist : P → P → K) : List P → List K
  | [] => []
  | p :: ps => ps.map (dist p) ++ pdistOf dist ps

/-- `dataset.reshape((-1, d))[isfinite(sum(dataset, axis=-1))]`, tslearn/metrics/_gak.py:79-82. -/
def validPoints {α : Type} (X : Arr3 α) : List (List α) := X.data.flatten.filterMap fun r => r.mapM id

/-- What `RandomState.choice(n_valid, size=n_samples, replace=n_valid < n_samples)` may return, tslearn/metrics/_gak.py:84-91. -/
structure IsDraw (nValid nSamples : ℕ) (idx : List ℕ) : Prop where
  len : idx.length = nSamples
  lt : ∀ i ∈ idx, i < nValid
  nodup : nSamples ≤ nValid → idx.Nodup

/-- The points that were drawn: `dataset[sample_indices]`, tslearn/metrics/_gak.py:93. -/
def drawn {α : Type} (X : Arr3 α) (idx : List ℕ) : List (List α) := idx.map fun i => (validPoints X).getD i []

/-- `be.median(dists)`, tslearn/metrics/_gak.py:84-96: `choice` refuses to draw from nothing. The median of no distance is not modelled. -/
def medianDist (be : MedianOf) (dist : List K → List K → K) (X : Arr3 K) (idx : List ℕ) : Except PyErr K :=
  if validPoints X = [] then .error .valueError
  else if idx.length < 2 then .error .notModelled
  else .ok (medianOf be (pdistOf dist (drawn X idx)))

noncomputable section

/-- Euclidean distance of two points. -/
def euclid (a b : List ℝ) : ℝ := Real.sqrt (sqDist a b)

/-- `sigma_gak(dataset, n_samples, random_state)`, tslearn/metrics/_gak.py:20-96. `idx` is the draw. -/
def sigmaGak (be : MedianOf) (x : DsInput ℝ) (idx : List ℕ) : Except PyErr ℝ := do
  let X ← toDataset x
  let m ← medianDist be euclid X idx
  return m * Real.sqrt X.sz

/-- `gamma_soft_dtw(dataset, n_samples, random_state)`, tslearn/metrics/softdtw_variants.py:36-88. -/
def gammaSoftDtw (be : MedianOf) (x : DsInput ℝ) (idx : List ℕ) : Except PyErr ℝ := do
  let s ← sigmaGak be x idx
  return 2 * s ^ 2

end
end Verif
