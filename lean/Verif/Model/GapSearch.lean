import Verif.Model.Missing
import Verif.Model.Subsequence
import Verif.Model.Keogh
/-!
Subsequence search and LB_Keogh on series with NaN samples, tslearn/metrics/dtw_variants.py. Finite values are exact; a cost is `Nv K` (NaN, `inf` or a
number) as in `Model/Missing.lean`. Infinite samples are left out.
-/
namespace Verif
section
variable {K : Type} [LinearOrder K] [Zero K]

/-- `_njit_subsequence_cost_matrix` on the local costs `D`, tslearn/metrics/dtw_variants.py:419-430, and its twin `_subsequence_cost_matrix`, 456-470: both
call Python's `min`. -/
def gapSubseqCost [Add K] (l1 l2 : ℕ) (D : Mat (Nv K)) : Mat (Nv K) :=
  (dpLoop l1 l2 (fun _ _ => true) (fun i j up left diag => nvAdd (D i j) (pyMin (pyMin up left) diag))
    (fun i _ => if i = 0 then some 0 else some ⊤)).tail

/-- `numpy.argmin` on floats, called at tslearn/metrics/dtw_variants.py:540 and 718: the position of the first NaN, without NaN that of the first smallest
entry (library). -/
def nanArgmin (l : List (Nv K)) : ℕ :=
  if l.any Option.isNone then l.findIdx Option.isNone else argminL (l.map fun v => v.getD ⊤)

/-- `numpy.argmin(arr)` of three entries, tslearn/metrics/dtw_variants.py:533-540. -/
def nanArgmin3 (a b c : Nv K) : ℕ := nanArgmin [a, b, c]

/-- `subsequence_cost_matrix(subseq, longseq)`, tslearn/metrics/dtw_variants.py:496-501. Different numbers of features leave the model. -/
def gapSubsequenceCostMatrix [Add K] [Sub K] [Mul K] (s1 s2 : TsInput (Option K)) : Except PyErr (ℕ × ℕ × Mat (Nv K)) :=
  let q := toTimeSeries s1 true
  let x := toTimeSeries s2 true
  if q ≠ [] ∧ x ≠ [] ∧ nFeatures q ≠ nFeatures x then .error .notModelled
  else .ok (q.length, x.length, gapSubseqCost q.length x.length (nanCost q x))

/-- `dtw_subsequence_path(subseq, longseq)` with the squared cost, tslearn/metrics/dtw_variants.py:714-720, and `subsequence_path`, 505-547 and 576-601. The
first call of `to_time_series` keeps NaN, the second one, inside `subsequence_cost_matrix`, removes them at the end: only the second is modelled. `am` and
`aml` are the backend's `argmin`. -/
def gapSubsequencePath [Add K] [Sub K] [Mul K] (am : Nv K → Nv K → Nv K → ℕ) (aml : List (Nv K) → ℕ) (s1 s2 : TsInput (Option K)) :
    Except PyErr (Option (List (ℕ × ℕ)) × Nv K) := do
  let (n, m, acc) ← gapSubsequenceCostMatrix s1 s2
  if n = 0 then throw .indexError
  if m = 0 then throw .valueError
  let row := (List.range m).map fun j => acc (n - 1) j
  let best := aml row
  return (subsequencePath am acc n best (n + m), row.getD best none)

/-- `numpy.min` or `numpy.max` of a slice with NaN, tslearn/metrics/dtw_variants.py:835-836: NaN if the slice has one (library; also Numba's). -/
def npNan (f : List K → Except PyErr K) (w : List (Option K)) : Except PyErr (Option K) :=
  if w = [] then .error .valueError
  else match w.mapM id with
    | none => .ok none
    | some l => (f l).map some

/-- `lb_envelope(ts, radius)` on one column, tslearn/metrics/dtw_variants.py:822-838 and 938-943: `to_time_series` keeps NaN, at the end too. -/
def gapEnvelope (col : List (Option K)) (radius : ℕ) : Except PyErr (List (Option K) × List (Option K)) := do
  let w := fun i =>
    let minIdx := i - radius
    let maxIdx := min (i + radius + 1) col.length
    (col.drop minIdx).take (maxIdx - minIdx)
  let down ← (List.range col.length).mapM fun i => npNan npMin (w i)
  let up ← (List.range col.length).mapM fun i => npNan npMax (w i)
  return (down, up)

/-- `a > b` of two arrays with NaN, as an index, and the squared norm of the selected differences, tslearn/metrics/dtw_variants.py:792-798. A comparison with
NaN is false. -/
def gapExcess [Add K] [Sub K] [Mul K] (above : K → K → Bool) (q e : List (Option K)) : K :=
  ((q.zip e).filterMap fun p => match p with
    | (some a, some b) => if above a b then some ((a - b) * (a - b)) else none
    | _ => none).foldl (· + ·) 0

/-- Square of `lb_keogh(ts_query, ts_candidate, radius)` for univariate series, tslearn/metrics/dtw_variants.py:780-798. Arrays of different lengths leave
the model. -/
def gapKeoghSq [Add K] [Sub K] [Mul K] (q c : List (Option K)) (radius : ℕ) : Except PyErr K := do
  let (down, up) ← gapEnvelope c radius
  if q.length ≠ down.length then throw .notModelled
  return gapExcess (fun a b => decide (b < a)) q up + gapExcess (fun a b => decide (a < b)) q down
end
end Verif
