import Verif.Proofs.Masks
/-!
# C05 — the Sakoe-Chiba mask is exactly the documented band and is always feasible
-/
namespace Verif
open Spec

/-- Membership, case `n ≤ m`: `i - r ≤ j ≤ i + (m - n) + r`. -/
theorem C05_band_wide (n m r i j : ℕ) (h : n ≤ m) (hi : i < n) (hj : j < m) :
    sakoeChibaMask n m r i j = true ↔ (i : ℤ) - r ≤ j ∧ (j : ℤ) ≤ i + (m - n) + r := by
  rw [sakoeChibaMask_iff _ _ _ _ _ hi hj]
  unfold InBand
  omega

/-- Membership, case `m ≤ n`: `j - r ≤ i ≤ j + (n - m) + r`. -/
theorem C05_band_tall (n m r i j : ℕ) (h : m ≤ n) (hi : i < n) (hj : j < m) :
    sakoeChibaMask n m r i j = true ↔ (j : ℤ) - r ≤ i ∧ (i : ℤ) ≤ j + (n - m) + r := by
  rw [sakoeChibaMask_iff _ _ _ _ _ hi hj]
  unfold InBand
  omega

/-- Transposing the mask is swapping the lengths. -/
theorem C05_transpose (n m r i j : ℕ) (hi : i < n) (hj : j < m) :
    sakoeChibaMask n m r i j = sakoeChibaMask m n r j i := by
  rw [Bool.eq_iff_iff, sakoeChibaMask_iff _ _ _ _ _ hi hj, sakoeChibaMask_iff _ _ _ _ _ hj hi]
  unfold InBand
  omega

/-- The corners are allowed and the band contains a complete warping path. -/
theorem C05_feasible (n m r : ℕ) (hn : 0 < n) (hm : 0 < m) :
    ∃ p, IsWarpingPath n m p ∧ InMask (sakoeChibaMask n m r) p :=
  sakoeChiba_feasible n m r hn hm

/-- Hence band-constrained DTW never fails and is finite, for every radius and all lengths. -/
theorem C05_dtw_finite {K : Type} [CommRing K] [LinearOrder K] [IsStrictOrderedRing K]
    (x y : List (List K)) (hx : x ≠ []) (hy : y ≠ []) (radius : Option ℕ) (slope : Option ℚ) :
    ∃ w : K, dtwSqGeneric x y 2 radius slope = .ok (w : WithTop K) := by
  have hx' := List.length_pos_iff.2 hx
  have hy' := List.length_pos_iff.2 hy
  unfold dtwSqGeneric computeMask
  simp only [bind, Except.bind, pure, Except.pure]
  set mask := sakoeChibaMask x.length y.length (radius.getD 1)
  have s := accFromDist_spec mask (localCost x y) x.length y.length (x.length - 1) (y.length - 1)
    (by omega) (by omega)
  have hne : lastEntry (accumulatedMatrix x y mask) x.length y.length ≠ ⊤ := by
    intro h
    refine s.1.1 h ?_
    rw [show x.length - 1 + 1 = x.length by omega, show y.length - 1 + 1 = y.length by omega]
    exact sakoeChiba_feasible _ _ _ hx' hy'
  obtain ⟨w, hw⟩ := WithTop.ne_top_iff_exists.1 hne
  refine ⟨w, ?_⟩
  simp [hw]

/-- A 3×5 band of radius 1: row 0 allows columns 0..3, row 2 allows columns 1..4. -/
example : (List.range 5).map (sakoeChibaMask 3 5 1 0) = [true, true, true, true, false] ∧
    (List.range 5).map (sakoeChibaMask 3 5 1 2) = [false, true, true, true, true] := by decide

end Verif
