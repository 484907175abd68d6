import Verif.Model.Dtw
/-!
LB_Keogh, tslearn/metrics/dtw_variants.py.
-/
namespace Verif
section
variable {K : Type} [LinearOrder K]

/-- `numpy.min` / `numpy.max` of a slice; an empty slice is a `ValueError`. -/
def npMin : List K → Except PyErr K
  | [] => .error .valueError
  | a :: l => .ok (l.foldl min a)

/-- See `npMin`. -/
def npMax : List K → Except PyErr K
  | [] => .error .valueError
  | a :: l => .ok (l.foldl max a)

/-- `time_series[min_idx:max_idx, di]` for the window of index `i`, where `min_idx`, `max_idx` are
`i - radius`, `i + radius + 1` clipped to `[0, sz]`, tslearn/metrics/dtw_variants.py:826-833.
`col` is the column `time_series[:, di]`. -/
def envWindow (col : List K) (radius i : ℕ) : List K :=
  let minIdx := i - radius
  let maxIdx := min (i + radius + 1) col.length
  (col.drop minIdx).take (maxIdx - minIdx)

/-- `lb_envelope(ts, radius)`, tslearn/metrics/dtw_variants.py:802-944, on one column (columns are
treated independently): `(envelope_down[:, di], envelope_up[:, di])`. -/
def lbEnvelope (col : List K) (radius : ℕ) : Except PyErr (List K × List K) := do
  let down ← (List.range col.length).mapM fun i => npMin (envWindow col radius i)
  let up ← (List.range col.length).mapM fun i => npMax (envWindow col radius i)
  return (down, up)

/-- Square of the value computed at tslearn/metrics/dtw_variants.py:792-798 from a query column and
an envelope: `norm(q[q > up] - up[q > up])**2 + norm(q[q < down] - down[q < down])**2`. -/
def keoghSq [Zero K] [Add K] [Sub K] [Mul K] (q down up : List K) : K :=
  let ups := (q.zip up).filter fun e => decide (e.2 < e.1)
  let downs := (q.zip down).filter fun e => decide (e.1 < e.2)
  (ups.map fun e => (e.1 - e.2) * (e.1 - e.2)).foldl (· + ·) 0 +
    (downs.map fun e => (e.1 - e.2) * (e.1 - e.2)).foldl (· + ·) 0

/-- Square of `lb_keogh(ts_query, ts_candidate, radius)` for univariate series,
tslearn/metrics/dtw_variants.py:780-798. Series of different lengths leave the model (NumPy raises,
or broadcasts a length of one). -/
def lbKeoghSq [Zero K] [Add K] [Sub K] [Mul K] (q c : List K) (radius : ℕ) : Except PyErr K := do
  let (down, up) ← lbEnvelope c radius
  if q.length ≠ down.length then throw .notModelled
  return keoghSq q down up

/-- Square of `lb_keogh(ts_query, envelope_candidate=(down, up))`. -/
def lbKeoghEnvSq [Zero K] [Add K] [Sub K] [Mul K] (q down up : List K) : Except PyErr K :=
  if q.length ≠ down.length ∨ q.length ≠ up.length then .error .notModelled
  else .ok (keoghSq q down up)
end

/-- `lb_keogh`, tslearn/metrics/dtw_variants.py:723-798. -/
noncomputable def lbKeogh (q c : List ℝ) (radius : ℕ) : Except PyErr ℝ := do
  let v ← lbKeoghSq q c radius
  return Real.sqrt v

end Verif
