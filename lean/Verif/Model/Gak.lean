import Verif.Model.Dtw
import Verif.Model.Cdist
import Mathlib.Analysis.SpecialFunctions.Log.Basic
import Mathlib.Analysis.SpecialFunctions.Sqrt
/-!
Global alignment kernel, tslearn/metrics/_gak.py. All intermediate values are finite reals (the
argument of the logarithm is at least 1), so the special values of `Fl` are not needed.
-/
namespace Verif
noncomputable section
open Classical

/-- `gram` of `_unnormalized_gak`, tslearn/metrics/_gak.py:247-250. -/
def gakGram (s1 s2 : List (List ℝ)) (σ : ℝ) (i j : ℕ) : ℝ :=
  let g := -localCost s1 s2 i j / (2 * σ * σ)
  let g := g - Real.log (2 - Real.exp g)
  Real.exp g

/-- `_gak_from_gram_matrix_generic(gram)`, tslearn/metrics/_gak.py:257-274 (the same code is used for
NumPy and PyTorch). -/
def gakFromGram (sz1 sz2 : ℕ) (gram : Mat ℝ) : ℝ :=
  (dpLoop sz1 sz2 (Mat.full true) (fun i j up left diag => (up + left + diag) * gram i j)
    ((Mat.full (0 : ℝ)).set 0 0 1)) sz1 sz2

/-- `_unnormalized_gak(s1, s2, sigma)`, tslearn/metrics/_gak.py:247-254. -/
def unnormGak (s1 s2 : List (List ℝ)) (σ : ℝ) : ℝ :=
  gakFromGram s1.length s2.length (gakGram s1 s2 σ)

/-- Argument formatting of `gak` and `unnormalized_gak`, tslearn/metrics/_gak.py:155-160, 237-242;
`cdist` raises `ValueError` when the numbers of features differ. Empty series and interior NaN are not
modelled. -/
def gakArgs (s1 s2 : TsInput (Option ℝ)) (σ : ℝ) :
    Except PyErr (List (List ℝ) × List (List ℝ)) := do
  if σ = 0 then throw .zeroDivision
  let t1 := toTimeSeries s1 true
  let t2 := toTimeSeries s2 true
  if t1.length = 0 ∨ t2.length = 0 then throw .notModelled
  if nFeatures t1 ≠ nFeatures t2 then throw .valueError
  match denan t1, denan t2 with
  | some x, some y => return (x, y)
  | _, _ => throw .notModelled

/-- `unnormalized_gak(s1, s2, sigma)`, tslearn/metrics/_gak.py:178-244. -/
def unnormalizedGak (s1 s2 : TsInput (Option ℝ)) (σ : ℝ) : Except PyErr ℝ := do
  let (x, y) ← gakArgs s1 s2 σ
  return unnormGak x y σ

/-- `gak` on formatted series, tslearn/metrics/_gak.py:162-169. -/
def gakGeneric (x y : List (List ℝ)) (σ : ℝ) : ℝ :=
  let denom := Real.sqrt (unnormGak x x σ) * Real.sqrt (unnormGak y y σ)
  unnormGak x y σ / denom

/-- `gak(s1, s2, sigma)`, tslearn/metrics/_gak.py:99-175. -/
def gak (s1 s2 : TsInput (Option ℝ)) (σ : ℝ) : Except PyErr ℝ := do
  let (x, y) ← gakArgs s1 s2 σ
  return gakGeneric x y σ

/-- `diag(v)`. -/
def diagMat (v : ℕ → ℝ) : Mat ℝ := fun i j => if i = j then v i else 0

/-- `A @ B` with inner dimension `n`. -/
def matMul (n : ℕ) (A B : Mat ℝ) : Mat ℝ := fun i j => ∑ k ∈ Finset.range n, A i k * B k j

/-- `_unnormalized_gak(ts, ts)` of a slot, tslearn/metrics/_gak.py:402-422. -/
def gakSelf (σ : ℝ) (t : Ts ℝ) : Except PyErr ℝ := onSlots (fun x y => .ok (unnormGak x y σ)) t t

/-- `cdist_gak(dataset1, dataset2, sigma, n_jobs)`, tslearn/metrics/_gak.py:284-427. -/
def cdistGak (X : DsInput ℝ) (Y : Option (DsInput ℝ)) (σ : ℝ)
    (run : List (Except PyErr ℝ) → Except PyErr (List ℝ)) : Except PyErr (Mat ℝ) := do
  if σ = 0 then throw .zeroDivision
  let X' ← toDataset X
  let n1 := X'.slots.length
  match Y with
  | none =>
    let M ← cdistOf (fun x y => .ok (unnormGak x y σ)) 0 true X none run
    let D := diagMat fun i => Real.sqrt (1 / M i i)
    return matMul n1 (matMul n1 D M) D
  | some Y =>
    let M ← cdistOf (fun x y => .ok (unnormGak x y σ)) 0 true X (some Y) run
    let Y' ← toDataset Y
    let n2 := Y'.slots.length
    let l ← run (X'.slots.map (gakSelf σ))
    let r ← run (Y'.slots.map (gakSelf σ))
    let L := diagMat fun i => 1 / Real.sqrt (l.getD i 0)
    let R := diagMat fun j => 1 / Real.sqrt (r.getD j 0)
    return matMul n2 (matMul n1 L M) R

end
end Verif
