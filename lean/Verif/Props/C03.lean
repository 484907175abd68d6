import Verif.Proofs.Dtw
import Mathlib.Algebra.Order.Ring.Int
/-!
# C03 — NumPy (row-major) and PyTorch (anti-diagonal) engines agree
-/
namespace Verif
open Spec

/-- For any cell update and any initial table the two traversal orders give the same table, hence
the same values and paths. -/
theorem C03_traversal_orders_agree {C : Type*} (l1 l2 : ℕ) (cell : ℕ → ℕ → C → C → C → C)
    (init : Mat C) (i j : ℕ) (hi : i ≤ l1) (hj : j ≤ l2) :
    dpLoop l1 l2 (fun _ _ => true) cell init i j = diagLoop l1 l2 cell init i j :=
  (dpLoop_isDP l1 l2 _ cell init).unique (diagLoop_isDP l1 l2 cell init) i j hi hj

/-- DTW: skipping masked cells (NumPy) and giving them infinite local cost (PyTorch) agree. -/
theorem C03_dtw_backends_agree {K : Type} [CommRing K] [LinearOrder K] [IsStrictOrderedRing K]
    (l1 l2 : ℕ) (mask : Mat Bool) (D : ℕ → ℕ → K) (i j : ℕ) (hi : i < l1) (hj : j < l2) :
    accFromDist l1 l2 mask D i j = torchAccFromDist l1 l2 mask D i j := by
  unfold accFromDist torchAccFromDist accTableWith Mat.tail
  refine IsDP.congr (dpLoop_isDP l1 l2 mask _ _) (diagLoop_isDP l1 l2 _ _) (fun _ => rfl)
    (fun _ => rfl) ?_ _ _ (by omega) (by omega)
  intro i j a b c hi hj
  by_cases hm : mask i j = true
  · simp [hm]
  · simp [hm, Mat.set, Mat.full]

/-- The agreed table on a concrete masked `3 × 4` problem is not trivial. -/
example : torchAccFromDist 3 4 (fun i j => decide (i ≤ j + 1) && decide (j ≤ i + 1))
      (fun i j => ((i : ℤ) - j) ^ 2) 2 3 = ((1 : ℤ) : WithTop ℤ) ∧
    torchAccFromDist 3 4 (fun i j => decide (i ≤ j + 1) && decide (j ≤ i + 1))
      (fun i j => ((i : ℤ) - j) ^ 2) 0 2 = ⊤ := ⟨rfl, rfl⟩

end Verif
