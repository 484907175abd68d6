import Verif.Model.Dp
import Verif.Model.Py
import Mathlib.Analysis.SpecialFunctions.Log.Basic
/-!
The classes `SoftDTW` and `SquaredEuclidean`, tslearn/metrics/softdtw_variants.py:653-835, with their loops in
tslearn/metrics/soft_dtw_fast.py. The largest float `DBL_MAX` is a parameter `B`; arithmetic is exact. Both series have at least one
sample and `gamma` is not zero. The NumPy and PyTorch variants run the same loops.
-/
namespace Verif
noncomputable section

/-- `_njit_softmin3` and `_softmin3`, tslearn/metrics/soft_dtw_fast.py:15-48 and 51-97, on finite values. -/
def softmin3R (a b c γ : ℝ) : ℝ :=
  let a := a / -γ
  let b := b / -γ
  let c := c / -γ
  let maxVal := max (max a b) c
  let tmp := 0
  let tmp := tmp + Real.exp (a - maxVal)
  let tmp := tmp + Real.exp (b - maxVal)
  let tmp := tmp + Real.exp (c - maxVal)
  let value := -γ * (Real.log tmp + maxVal)
  value

/-- `_njit_soft_dtw(D, R, gamma)` and `_soft_dtw`, tslearn/metrics/soft_dtw_fast.py:101-125 and 128-164: the new `R`. -/
def objForward (B γ : ℝ) (m n : ℕ) (D R : Mat ℝ) : Mat ℝ :=
  let R : Mat ℝ := fun i j => if i < m + 1 ∧ j = 0 then B else R i j
  let R : Mat ℝ := fun i j => if i = 0 ∧ j < n + 1 then B else R i j
  let R := Mat.set R 0 0 0
  dpLoop m n (Mat.full true) (fun i j up left diag => D i j + softmin3R up diag left γ) R

/-- What `_njit_soft_dtw_grad` and `_soft_dtw_grad` write into `R`, tslearn/metrics/soft_dtw_fast.py:216-226 and 255-267; `m`, `n` are
the sizes of the original matrix. -/
def objBackR (B : ℝ) (m n : ℕ) (R : Mat ℝ) : Mat ℝ :=
  let R : Mat ℝ := fun i j => if 1 ≤ i ∧ i < m + 1 ∧ j = n + 1 then -B else R i j
  let R : Mat ℝ := fun i j => if i = m + 1 ∧ 1 ≤ j ∧ j < n + 1 then -B else R i j
  Mat.set R (m + 1) (n + 1) (R m n)

/-- `_njit_soft_dtw_grad(D, R, E, gamma)` and `_soft_dtw_grad`, tslearn/metrics/soft_dtw_fast.py:216-234 and 255-275: the new `E`.
`D` has an extra row and column, set to zero; the loops run `j` from `n` to 1 and `i` from `m` to 1. -/
def objBackward (B γ : ℝ) (m n : ℕ) (D R E : Mat ℝ) : Mat ℝ :=
  let D : Mat ℝ := fun i j => if i < m ∧ j = n then 0 else D i j
  let D : Mat ℝ := fun i j => if i = m ∧ j < n then 0 else D i j
  let R := objBackR B m n R
  let E := Mat.set E (m + 1) (n + 1) 1
  let D := Mat.set D m n 0
  forRange n E fun b E => forRange m E fun a E =>
    let i := m - a
    let j := n - b
    let a := Real.exp ((R (i + 1) j - R i j - D i (j - 1)) / γ)
    let b := Real.exp ((R i (j + 1) - R i j - D (i - 1) j) / γ)
    let c := Real.exp ((R (i + 1) (j + 1) - R i j - D i j) / γ)
    Mat.set E i j (E (i + 1) j * a + E i (j + 1) * b + E (i + 1) (j + 1) * c)

/-- Attributes of a `SoftDTW` object, tslearn/metrics/softdtw_variants.py:678-694. -/
structure SoftObj where
  m : ℕ
  n : ℕ
  D : Mat ℝ
  R : Mat ℝ
  computed : Bool
  γ : ℝ

/-- `SoftDTW(D, gamma)`, tslearn/metrics/softdtw_variants.py:678-694. -/
def SoftObj.new (m n : ℕ) (D : Mat ℝ) (γ : ℝ) : SoftObj := ⟨m, n, D, Mat.full 0, false, γ⟩

/-- `SoftDTW.compute()`, tslearn/metrics/softdtw_variants.py:704-720. -/
def SoftObj.compute (B : ℝ) (o : SoftObj) : SoftObj × ℝ :=
  let R := objForward B o.γ o.m o.n o.D o.R
  ({ o with R := R, computed := true }, R o.m o.n)

/-- `SoftDTW.grad()`, tslearn/metrics/softdtw_variants.py:730-758. -/
def SoftObj.grad (B : ℝ) (o : SoftObj) : SoftObj × Except PyErr (Mat ℝ) :=
  if !o.computed then (o, .error .valueError)
  else
    let D : Mat ℝ := fun i j => if i < o.m ∧ j < o.n then o.D i j else 0
    let E := objBackward B o.γ o.m o.n D o.R (Mat.full 0)
    ({ o with R := objBackR B o.m o.n o.R }, .ok fun i j => E (i + 1) (j + 1))

/-- `SquaredEuclidean(X, Y).compute()`, tslearn/metrics/softdtw_variants.py:788-801: squared Euclidean distances of the samples
(library: `euclidean_distances`, `torch.cdist`). -/
def sqEucCompute (x y : List (List ℝ)) : Mat ℝ := fun i j =>
  (List.zipWith (fun a b => (a - b) ^ 2) (x.getD i []) (y.getD j [])).sum

/-- `SquaredEuclidean(X, Y).jacobian_product(E)`, tslearn/metrics/softdtw_variants.py:818-835, with `_njit_jacobian_product_sq_euc` and
`_jacobian_product_sq_euc`, tslearn/metrics/soft_dtw_fast.py:333-340 and 358-365. -/
def jacProduct (x y : List (List ℝ)) (E : Mat ℝ) : Mat ℝ :=
  let d := (x.headD []).length
  forRange x.length (Mat.full 0) fun i G => forRange y.length G fun j G => forRange d G fun k G =>
    Mat.set G i k (G i k + E i j * 2 * ((x.getD i []).getD k 0 - (y.getD j []).getD k 0))

end
end Verif
