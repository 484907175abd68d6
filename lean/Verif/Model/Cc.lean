import Verif.Model.Argmin
import Verif.Model.Py
import Mathlib.Analysis.SpecialFunctions.Complex.Circle
import Mathlib.Analysis.Real.Sqrt
/-!
Normalised cross-correlation, tslearn/metrics/cycc.py, over the reals. Series are rows of features; the FFT is the exact discrete
Fourier transform.
-/
namespace Verif
noncomputable section

/-- Entry `(t, f)` of a series, zero outside, tslearn/metrics/cycc.py:43-44 (the padding of `np.fft.fft(s, fft_sz, axis=0)`). -/
def ent (s : List (List ℝ)) (t f : ℕ) : ℝ := (s.getD t []).getD f 0

/-- `np.fft.fft(s, N, axis=0)[k, f]`, tslearn/metrics/cycc.py:43-44: rows beyond `N` are cropped, missing rows are zero. -/
def fftEntry (N : ℕ) (s : List (List ℝ)) (f k : ℕ) : ℂ :=
  ∑ t ∈ Finset.range N, (ent s t f : ℂ) * Complex.exp (-(2 * Real.pi * Complex.I * k * t / N))

/-- `np.fft.ifft(Z, axis=0)[n]` of a column `Z` of length `N`, tslearn/metrics/cycc.py:42, 45. -/
def ifftEntry (N : ℕ) (Z : ℕ → ℂ) (n : ℕ) : ℂ :=
  (∑ k ∈ Finset.range N, Z k * Complex.exp (2 * Real.pi * Complex.I * k * n / N)) / N

/-- Entry `(n, f)` of `cc` as computed through the FFT, tslearn/metrics/cycc.py:40-47. -/
def ccFft (N : ℕ) (s1 s2 : List (List ℝ)) (n f : ℕ) : ℝ :=
  (ifftEntry N (fun k => fftEntry N s1 f k * (starRingEnd ℂ) (fftEntry N s2 f k)) n).re

/-- `fft_sz = 2**(1 + int(np.log2(2 * sz - 1)))`, tslearn/metrics/cycc.py:28-29. -/
def fftSize (sz : ℕ) : ℕ := 2 ^ (1 + Nat.log 2 (2 * sz - 1))

/-- `np.linalg.norm(s)`, tslearn/metrics/cycc.py:31-34: the root of the sum of all squares. -/
def frobNorm (s : List (List ℝ)) : ℝ := √((s.map fun r => (r.map fun x => x * x).sum).sum)

/-- Rows of `np.vstack((cc[-(sz - 1):], cc[:sz]))`, tslearn/metrics/cycc.py:48: a slice from `-0` is the whole array. -/
def ccRows (N sz : ℕ) : List ℕ :=
  (if sz - 1 = 0 then List.range N else (List.range N).drop (N - (sz - 1))) ++ (List.range N).take sz

/-- `normalized_cc(s1, s2, norm1, norm2)` for series with `d` features, tslearn/metrics/cycc.py:9-50; division by `inf` is 0. -/
def normalizedCc (d : ℕ) (s1 s2 : List (List ℝ)) (norm1 norm2 : ℝ) : List ℝ :=
  let sz := s1.length
  let N := fftSize sz
  let norm1 := if norm1 < 0 then frobNorm s1 else norm1
  let norm2 := if norm2 < 0 then frobNorm s2 else norm2
  let denom := norm1 * norm2
  (ccRows N sz).map fun n =>
    if denom < 1 / 1000000000 then 0 else ((List.range d).map fun f => ccFft N s1 s2 n f).sum / denom

/-- `cc.max()`, tslearn/metrics/cycc.py:85-87; the list is never empty. -/
def listMax : List ℝ → ℝ
  | [] => 0
  | a :: l => l.foldl max a

/-- Recomputation of all norms when one of them is negative, tslearn/metrics/cycc.py:76-81, 125-127. -/
def fillNorms (D : List (List (List ℝ))) (norms : List ℝ) : List ℝ :=
  if ∃ n ∈ norms, n < 0 then D.map frobNorm else norms

/-- Entry `(i, j)` of `cdist_normalized_cc`, tslearn/metrics/cycc.py:53-95. Compiled code does not check the bounds of
`norms1` and `norms2`: reading past their end is an `indexError` here. -/
def cdistCcEntry (d : ℕ) (D1 D2 : List (List (List ℝ))) (norms1 norms2 : List ℝ) (selfSim : Bool) (i j : ℕ) : Except PyErr ℝ :=
  let n1 := fillNorms D1 norms1
  let n2 := fillNorms D2 norms2
  let cell (i j : ℕ) : Except PyErr ℝ :=
    match n1[i]?, n2[j]? with
    | some a, some b => .ok (listMax (normalizedCc d (D1.getD i []) (D2.getD j []) a b))
    | _, _ => .error .indexError
  if selfSim then if j < i then cell i j else if i < j then cell j i else .ok 0
  else cell i j

/-- First index of a maximum, `np.argmax`, tslearn/metrics/cycc.py:131. -/
def argmaxL (l : List ℝ) : ℕ := argminL (l.map fun x => -x)

/-- One series of `y_shifted_sbd_vec`, tslearn/metrics/cycc.py:129-138, `norm` its entry of `norms_dataset`. Entry `(t, f)` of
the result. -/
def shiftedEntry (d : ℕ) (ref x : List (List ℝ)) (normRef norm : ℝ) (t f : ℕ) : ℝ :=
  let sz := x.length
  let normRef := if normRef < 0 then frobNorm ref else normRef
  let idx := argmaxL (normalizedCc d ref x normRef norm)
  if sz < idx + 1 then if idx + 1 - sz ≤ t then ent (x.take (sz - (idx + 1 - sz))) (t - (idx + 1 - sz)) f else 0
  else if idx + 1 < sz then if t < sz - (sz - (idx + 1)) then ent (x.drop (sz - (idx + 1))) t f else 0
  else ent x t f

/-- `y_shifted_sbd_vec(ref_ts, dataset, norm_ref, norms_dataset)`, tslearn/metrics/cycc.py:98-140. -/
def yShifted (d : ℕ) (ref : List (List ℝ)) (D : List (List (List ℝ))) (normRef : ℝ) (norms : List ℝ) : List (List (List ℝ)) :=
  D.mapIdx fun i x => (List.range x.length).map fun t => (List.range d).map fun f =>
    shiftedEntry d ref x normRef ((fillNorms D norms).getD i 0) t f

end
end Verif
