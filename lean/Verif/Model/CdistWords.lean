import Verif.Model.Cdist
import Verif.Model.Ctw
import Verif.Model.Piecewise
/-!
`cdist_sax` and `cdist_ctw`, tslearn/metrics/sax.py and tslearn/metrics/ctw.py. Words are arrays of 64-bit integers.
-/
namespace Verif
noncomputable section

/-- What NumPy makes of `nan` in an array of 64-bit integers (x86; library behaviour): the smallest integer. -/
def intNan : ℤ := -2 ^ 63

/-- A result of 64-bit integer arithmetic (wraps around). -/
def wrap64 (x : ℤ) : ℤ := x.bmod (2 ^ 64)

/-- `dataset_out[i, : ts.shape[0]] = ts` for integers, tslearn/utils/utils.py:281-284: the slot was filled with `nan` cast to an
integer. A word of one column is broadcast. -/
def fillWord (maxSz d : ℕ) (w : List (List ℤ)) : Except PyErr (List (List ℤ)) := do
  let rows ← w.mapM fun r =>
    if r.length = d then .ok r
    else match r with
      | [v] => .ok (List.replicate d v)
      | _ => .error .valueError
  return rows ++ List.replicate (maxSz - rows.length) (List.replicate d intNan)

/-- `to_time_series_dataset(dataset, dtype=int)` on a list of integer words, each a list of rows, tslearn/utils/utils.py:260-286: the
words and the numbers of rows and columns. There is no NaN in a word, its size is the number of its rows. -/
def wordDataset (ws : List (List (List ℤ))) : Except PyErr (ℕ × ℕ × List (List (List ℤ))) :=
  match ws with
  | [] => .ok (0, 0, [])
  | w0 :: _ => do
    let maxSz := (ws.map List.length).foldr max 0
    let d := (w0.headD []).length
    let out ← ws.mapM (fillWord maxSz d)
    return (maxSz, d, out)

/-- `breakpoints[k]`; numba does not check bounds. Reading outside of the array is undefined and leaves the model; negative indices
count from the end. -/
def readBp (bps : List ℝ) (k : ℤ) : Except PyErr ℝ :=
  let k := if k < 0 then k + bps.length else k
  if 0 ≤ k ∧ k < bps.length then .ok (bps.getD k.toNat 0) else .error .notModelled

/-- The body of the loops of `cydist_sax`, tslearn/metrics/cysax.py:67-71, on 64-bit integers. -/
def saxCellInt (bps : List ℝ) (a b : ℤ) : Except PyErr ℝ := do
  let diff := wrap64 (a - b)
  let abs := if diff < 0 then wrap64 (-diff) else diff
  if 1 < abs then
    let hi ← readBp bps (wrap64 (max a b - 1))
    let lo ← readBp bps (min a b)
    return (hi - lo) ^ 2
  else return 0

/-- Symbol `[t, f]`. -/
def intAt (w : List (List ℤ)) (t f : ℕ) : ℤ := (w.getD t []).getD f 0

/-- `cydist_sax(sax1, sax2, breakpoints, original_size)` on arrays of shapes `(sz1, d1)` and `(sz2, d2)`,
tslearn/metrics/cysax.py:63-74. -/
def cydistSaxInt (bps : List ℝ) (size : ℕ) (sh1 sh2 : ℕ × ℕ) (w1 w2 : List (List ℤ)) : Except PyErr ℝ := do
  if sh1 ≠ sh2 then throw .assertion
  let cells ← ((List.range sh1.1).flatMap fun t => (List.range sh1.2).map fun f => (t, f)).mapM fun c =>
    saxCellInt bps (intAt w1 c.1 c.2) (intAt w2 c.1 c.2)
  if sh1.1 = 0 then throw .zeroDivision
  return Real.sqrt (cells.sum * (size : ℝ) / (sh1.1 : ℝ))

/-- `cdist_sax(dataset1, breakpoints_avg, size_fitted, dataset2, n_jobs)`, tslearn/metrics/sax.py:10-106. Integer arrays have no NaN:
`_to_time_series(·, True)` keeps all rows. -/
def cdistSax (X : List (List (List ℤ))) (bps : List ℝ) (size : ℕ) (Y : Option (List (List (List ℤ))))
    (run : List (Except PyErr ℝ) → Except PyErr (List ℝ)) : Except PyErr (Mat ℝ) := do
  let (sz, d, X) ← wordDataset X
  match Y with
  | none => cdistGeneric (cydistSaxInt bps size (sz, d) (sz, d)) 0 X none false run
  | some Y =>
    let (sz', d', Y) ← wordDataset Y
    cdistGeneric (cydistSaxInt bps size (sz, d) (sz', d')) 0 X (some Y) false run

/-- `cdist_ctw(dataset1, dataset2, max_iter, n_components, ...)`, tslearn/metrics/ctw.py:301-454: `ctw` of the trimmed slots, the
diagonal is not computed. -/
def cdistCtw (fit : List (List ℝ) → List (List ℝ) → Except PyErr (Proj ℝ)) (X : DsInput ℝ) (Y : Option (DsInput ℝ)) (maxIter : ℕ)
    (nComp : Option ℕ) (gc : Option String) (radius : Option ℕ) (slope : Option ℚ) (am : WithTop ℝ → WithTop ℝ → WithTop ℝ → ℕ)
    (run : List (Except PyErr (WithTop ℝ)) → Except PyErr (List (WithTop ℝ))) : Except PyErr (Mat (WithTop ℝ)) := do
  let dist := fun t t' : Ts ℝ => ctw fit (.twoD t.trim.rows) (.twoD t'.trim.rows) maxIter nComp gc radius slope am
  let X ← toDataset X
  match Y with
  | none => cdistGeneric dist 0 X.slots none false run
  | some Y =>
    let Y ← toDataset Y
    cdistGeneric dist 0 X.slots (some Y.slots) false run

end
end Verif
