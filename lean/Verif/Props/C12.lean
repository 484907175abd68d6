import Verif.Proofs.LimitedWarping
import Mathlib.Algebra.Order.Ring.Int
/-!
# C12 — DTW with limited warping length is optimal among short paths
-/
set_option linter.unusedSectionVars false
namespace Verif
open Spec

variable {K : Type} [CommRing K] [LinearOrder K] [IsStrictOrderedRing K]

/-- Costs of the alignments of `x` and `y` with at most `L` pairs. -/
def ShortCosts (x y : List (List K)) (L : ℕ) : Set K :=
  {c | ∃ p, IsWarpingPath x.length y.length p ∧ p.length ≤ L ∧ c = sumCost (sampleCost x y) p}

/-- The squared value is the least cost over all warping paths of at most `L` pairs, and the path
function returns such a path with that cost, for every tie-breaking of `argmin`. -/
theorem C12_optimal (x y : List (List K)) (hx : x ≠ []) (hy : y ≠ []) (hd : nFeatures x = nFeatures y)
    (L : ℕ) (hL : max x.length y.length ≤ L) (am) (ham : IsArgmin3 am) :
    ∃ (w : K) (p : List (ℕ × ℕ)), IsLeast (ShortCosts x y L) w ∧
      dtwLimitedSq x y L = .ok (w : WithTop K) ∧
      dtwPathLimitedSq x y L am = .ok (some p, (w : WithTop K)) ∧
      IsWarpingPath x.length y.length p ∧ p.length ≤ L ∧ sumCost (sampleCost x y) p = w := by
  obtain ⟨w, k, p, h1, h2, h3, h4, h5, h6, h7⟩ := lwlCost_spec L x.length y.length (localCost x y)
    (List.length_pos_iff.2 hx) (List.length_pos_iff.2 hy) hL ham
  rw [localCost_eq] at h1 h7
  refine ⟨w, p, h1, ?_, ?_, h5, h6, h7⟩
  · simp only [dtwLimitedSq, not_lt.2 hL, if_false, hx, hy, or_self, hd, ne_eq, not_true]
    exact h2
  · simp only [dtwPathLimitedSq, not_lt.2 hL, if_false, hx, hy, or_self, hd, ne_eq, not_true, h3,
      Option.getD_some, h4]

/-- A budget below the longer length is rejected by both functions, and no path would fit in it. -/
theorem C12_rejects (x y : List (List K)) (L : ℕ) (hL : L < max x.length y.length) (am) :
    dtwLimitedSq x y L = .error .valueError ∧ dtwPathLimitedSq x y L am = .error .valueError ∧
      ¬ ∃ p, IsWarpingPath x.length y.length p ∧ p.length ≤ L := by
  refine ⟨by simp only [dtwLimitedSq, hL, if_true], by simp only [dtwPathLimitedSq, hL, if_true], ?_⟩
  rintro ⟨p, hp, hl⟩
  obtain ⟨i, j, hi, hj, hw⟩ := isWarpingPath_iff.1 hp
  have := hw.length_bounds
  omega

/-- A larger budget never increases the value. -/
theorem C12_monotone (x y : List (List K)) (L L' : ℕ) (hLL : L ≤ L') (v v' : WithTop K)
    (h : dtwLimitedSq x y L = .ok v) (h' : dtwLimitedSq x y L' = .ok v') : v' ≤ v := by
  have key : ∀ (L : ℕ) (v : WithTop K), dtwLimitedSq x y L = .ok v → x ≠ [] ∧ y ≠ [] ∧
      nFeatures x = nFeatures y ∧ max x.length y.length ≤ L := by
    intro L v h
    unfold dtwLimitedSq at h
    split_ifs at h with h1 h2 h3
    push Not at h2 h3
    exact ⟨h2.1, h2.2, h3, not_lt.1 h1⟩
  obtain ⟨hx, hy, hd, hL⟩ := key L v h
  obtain ⟨w, p, h1, h2, -⟩ := C12_optimal x y hx hy hd L hL _ argmin3_isArgmin
  obtain ⟨w', p', h1', h2', -⟩ := C12_optimal x y hx hy hd L' (hL.trans hLL) _ argmin3_isArgmin
  rw [h] at h2; rw [h'] at h2'
  cases h2; cases h2'
  rw [WithTop.coe_le_coe]
  obtain ⟨q, hq, hql, hqc⟩ := h1.1
  exact h1'.2 ⟨q, hq, hql.trans hLL, hqc⟩

/-- With a budget of at least `len(x) + len(y) - 1` it is plain DTW; in general it is not below it. -/
theorem C12_eq_dtw (x y : List (List K)) (hx : x ≠ []) (hy : y ≠ []) (hd : nFeatures x = nFeatures y)
    (L : ℕ) (hL : max x.length y.length ≤ L) :
    (x.length + y.length ≤ L + 1 → dtwLimitedSq x y L = dtwSqGeneric x y 0 none none) ∧
    ∃ v v', dtwLimitedSq x y L = .ok v ∧ dtwSqGeneric x y 0 none none = .ok v' ∧ v' ≤ v := by
  have hx' := List.length_pos_iff.2 hx
  have hy' := List.length_pos_iff.2 hy
  obtain ⟨w, p, h1, h2, -⟩ := C12_optimal x y hx hy hd L hL _ argmin3_isArgmin
  have hs := accFromDist_spec (Mat.full true) (sampleCost x y) x.length y.length (x.length - 1)
    (y.length - 1) (by omega) (by omega)
  rw [show x.length - 1 + 1 = x.length by omega, show y.length - 1 + 1 = y.length by omega] at hs
  have hdtw : dtwSqGeneric x y 0 none none =
      .ok (accFromDist x.length y.length (Mat.full true) (sampleCost x y) (x.length - 1) (y.length - 1)) := by
    simp [dtwSqGeneric, computeMask, accumulatedMatrix, lastEntry, localCost_eq, bind, Except.bind,
      pure, Except.pure]
  have hadm : ∀ q, Admissible x.length y.length (Mat.full true) q ↔ IsWarpingPath x.length y.length q :=
    fun q => ⟨fun h => h.1, fun h => ⟨h, fun _ _ => rfl⟩⟩
  obtain ⟨v, hv⟩ : ∃ v : K, accFromDist x.length y.length (Mat.full true) (sampleCost x y)
      (x.length - 1) (y.length - 1) = (v : WithTop K) := by
    refine WithTop.ne_top_iff_exists.1 (fun h => ?_) |>.imp fun _ h => h.symm
    obtain ⟨q, hq, -⟩ := h1.1
    exact hs.1.1 h ⟨q, (hadm q).2 hq⟩
  have hleast := (hs.2 v).1 hv
  have hvw : v ≤ w := by
    obtain ⟨q, hq, -, hqc⟩ := h1.1
    exact hleast.2 ⟨q, (hadm q).2 hq, hqc⟩
  refine ⟨fun hbig => ?_, (w : WithTop K), (v : WithTop K), h2, by rw [hdtw, hv], WithTop.coe_le_coe.2 hvw⟩
  have hwv : w ≤ v := by
    obtain ⟨q, hq, hqc⟩ := hleast.1
    refine h1.2 ⟨q, hq.1, ?_, hqc⟩
    obtain ⟨i, j, hi, hj, hw⟩ := isWarpingPath_iff.1 hq.1
    have := hw.length_bounds
    omega
  rw [h2, hdtw, hv, le_antisymm hwv hvw]

/-- A budget that matters: unconstrained squared DTW is 0 (path of 5 pairs), 4 pairs cost 1. -/
example : dtwLimitedSq ([[0],[0],[1],[2]] : List (List ℤ)) [[0],[1],[1],[2]] 4
      = .ok ((1 : ℤ) : WithTop ℤ) ∧
    dtwLimitedSq ([[0],[0],[1],[2]] : List (List ℤ)) [[0],[1],[1],[2]] 5 = .ok ((0 : ℤ) : WithTop ℤ) ∧
    dtwPathLimitedSq ([[0],[0],[1],[2]] : List (List ℤ)) [[0],[1],[1],[2]] 5 argmin3
      = .ok (some [(0,0),(1,0),(2,1),(2,2),(3,3)], ((0 : ℤ) : WithTop ℤ)) := by decide +kernel

end Verif
