import Verif.Proofs.Subsequence
import Mathlib.Algebra.Order.Ring.Int
/-!
# C13 — Subsequence DTW is the best DTW over all contiguous subsequences
-/
set_option linter.unusedSectionVars false
namespace Verif
open Spec

/-- The contiguous part `x[a..b]` (both ends included). -/
def window {α : Type} (x : List α) (a b : ℕ) : List α := (x.drop a).take (b + 1 - a)

variable {K : Type} [CommRing K] [LinearOrder K] [IsStrictOrderedRing K]

theorem window_length {α : Type} (x : List α) (a b : ℕ) (_ : a ≤ b) (hb : b < x.length) :
    (window x a b).length = b + 1 - a := by simp [window]; omega

/-- Costs in a window are costs of the translated path. -/
theorem sumCost_window (q x : List (List K)) (a b : ℕ) (p : List (ℕ × ℕ))
    (hp : ∀ c ∈ p, a + c.2 ≤ b) :
    sumCost (sampleCost q (window x a b)) p = sumCost (sampleCost q x) (p.map (shift a)) := by
  unfold sumCost
  rw [List.map_map]
  congr 1
  apply List.map_congr_left
  intro c hc
  have := hp c hc
  have e : (window x a b).getD c.2 [] = x.getD (a + c.2) [] := by
    simp only [window, List.getD_eq_getElem?_getD]
    rw [List.getElem?_take_of_lt (by omega), List.getElem?_drop]
  simp only [Function.comp, shift, sampleCost, e]

/-- Unconstrained DTW of nonempty series is attained and minimal. -/
theorem dtw_least (x y : List (List K)) (hx : x ≠ []) (hy : y ≠ []) : ∃ w : K,
    dtwSqGeneric x y 0 none none = .ok (w : WithTop K) ∧
    IsLeast {c | ∃ p, IsWarpingPath x.length y.length p ∧ c = sumCost (sampleCost x y) p} w := by
  have hx' := List.length_pos_iff.2 hx
  have hy' := List.length_pos_iff.2 hy
  have hs := accFromDist_spec (Mat.full true) (sampleCost x y) x.length y.length (x.length - 1)
    (y.length - 1) (by omega) (by omega)
  rw [show x.length - 1 + 1 = x.length by omega, show y.length - 1 + 1 = y.length by omega] at hs
  have hadm : ∀ q, Admissible x.length y.length (Mat.full true) q ↔ IsWarpingPath x.length y.length q :=
    fun q => ⟨fun h => h.1, fun h => ⟨h, fun _ _ => rfl⟩⟩
  simp only [hadm] at hs
  have hdtw : dtwSqGeneric x y 0 none none =
      .ok (accFromDist x.length y.length (Mat.full true) (sampleCost x y) (x.length - 1) (y.length - 1)) := by
    simp [dtwSqGeneric, computeMask, accumulatedMatrix, lastEntry, localCost_eq, bind, Except.bind,
      pure, Except.pure]
  cases hv : accFromDist x.length y.length (Mat.full true) (sampleCost x y) (x.length - 1) (y.length - 1) with
  | top =>
    exfalso
    have := (computePathLoop_shape (C := ℕ) (fun _ _ _ => 0) (fun _ _ => 0) (x.length - 1 + (y.length - 1))
      (x.length - 1) (y.length - 1) (x.length + y.length) [] rfl (by omega))
    obtain ⟨p, hp, -⟩ := this
    exact hs.1.1 hv ⟨p, isWarpingPath_iff.2 ⟨_, _, by omega, by omega, hp⟩⟩
  | coe w => exact ⟨w, by rw [hdtw, hv], (hs.2 w).1 hv⟩

/-- The (squared) value is the least DTW between the query and a contiguous subsequence, and the
path is an optimal alignment of the whole query with one of the best subsequences, given in the
indices of the long series; for every tie-breaking. -/
theorem C13_optimal (q x : List (List K)) (hq : q ≠ []) (hx : x ≠ []) (hd : nFeatures q = nFeatures x)
    (am) (ham : IsArgmin3 am) (aml) (haml : IsArgminL aml) :
    ∃ (v : WithTop K) (p : List (ℕ × ℕ)) (a b : ℕ), a ≤ b ∧ b < x.length ∧
      dtwSubsequencePath q x am aml = .ok (some (p.map fun c => (c.1, a + c.2)), v) ∧
      IsWarpingPath q.length (window x a b).length p ∧
      ((sumCost (sampleCost q (window x a b)) p : K) : WithTop K) = v ∧
      dtwSqGeneric q (window x a b) 0 none none = .ok v ∧
      ∀ a' b', a' ≤ b' → b' < x.length → ∀ v', dtwSqGeneric q (window x a' b') 0 none none = .ok v' →
        v ≤ v' := by
  have hq' := List.length_pos_iff.2 hq
  have hx' := List.length_pos_iff.2 hx
  set acc := subseqCost q.length x.length (localCost q x) with hacc
  set row := (List.range x.length).map fun j => acc (q.length - 1) j with hrow
  have hrowne : row ≠ [] := by
    intro h
    have := congrArg List.length h
    simp [hrow] at this
    exact hx this
  have hb : aml row < x.length := by simpa [hrow] using haml.lt hrowne
  obtain ⟨v, hv1, hv2⟩ := haml row hrowne
  have hrv : v = acc (q.length - 1) (aml row) := by
    rw [hrow, List.getElem?_map, List.getElem?_range hb] at hv1
    simpa using hv1.symm
  have hD : ∀ i j, 0 ≤ localCost q x i j := by rw [localCost_eq]; exact sampleCost_nonneg q x
  -- lower bound over all windows
  have hlow : ∀ a' b', a' ≤ b' → b' < x.length → ∀ v', dtwSqGeneric q (window x a' b') 0 none none = .ok v' →
      v ≤ v' := by
    intro a' b' hab' hb' v' hv'
    have hwl := window_length x a' b' hab' hb'
    have hwne : window x a' b' ≠ [] := by
      intro h
      rw [h] at hwl
      simp at hwl
      omega
    obtain ⟨w, hw, hleast⟩ := dtw_least q (window x a' b') hq hwne
    rw [hv'] at hw
    cases hw
    obtain ⟨p, hp, rfl⟩ := hleast.1
    obtain ⟨i, j, hi, hj, hwp⟩ := isWarpingPath_iff.1 hp
    rw [hwl] at hj
    obtain rfl : i = q.length - 1 := by omega
    have hfree : WP true (p.map (shift a')) (q.length - 1) b' :=
      WP.free_iff.2 ⟨a', p, j, by omega, hwp, rfl⟩
    rw [sumCost_window q x a' b' p (fun c hc => by have := (hwp.mem_le c hc).2; omega)]
    have h1 : acc (q.length - 1) b' ≤ _ := subseqCost_le (by omega) hb' hfree
    rw [localCost_eq] at h1
    exact (hv2 _ (List.mem_map.2 ⟨b', by simpa using hb', rfl⟩)).trans h1
  -- the traced path
  obtain ⟨M, hMt, hM⟩ := subseq_isDP q.length x.length (localCost q x)
  obtain ⟨p', hp', hc', hpath⟩ := subseq_traceback hD hM ham (q.length - 1 + aml row) (q.length - 1)
    (aml row) (q.length + x.length) [] rfl (by omega) (by omega) hb
  obtain ⟨a, p, k, hk, hwp, rfl⟩ := WP.free_iff.1 hp'
  have hwl := window_length x a (aml row) (by omega) hb
  have hwne : window x a (aml row) ≠ [] := by
    intro h
    rw [h] at hwl
    simp at hwl
    omega
  have hpw : IsWarpingPath q.length (window x a (aml row)).length p :=
    isWarpingPath_iff.2 ⟨q.length - 1, k, by omega, by omega, hwp⟩
  have hcost : ((sumCost (sampleCost q (window x a (aml row))) p : K) : WithTop K) = v := by
    rw [sumCost_window q x a _ p (fun c hc => by have := (hwp.mem_le c hc).2; omega), ← localCost_eq,
      hc', hrv, hacc, ← hMt]
    rfl
  refine ⟨v, p, a, aml row, by omega, hb, ?_, hpw, hcost, ?_, hlow⟩
  · simp only [dtwSubsequencePath, hq, hx, hd, if_false, ne_eq, not_true]
    rw [← hacc, ← hrow]
    congr 2
    · unfold subsequencePath
      rw [hacc, ← hMt, hpath]
      simp only [List.append_nil]
      rfl
    · rw [List.getD_eq_getElem?_getD, hv1]; rfl
  · obtain ⟨w, hw, hleast⟩ := dtw_least q (window x a (aml row)) hq hwne
    have h1 := hlow a (aml row) (by omega) hb _ hw
    have h2 : (w : WithTop K) ≤ v := by
      rw [← hcost, WithTop.coe_le_coe]
      exact hleast.2 ⟨p, hpw, rfl⟩
    rw [hw, le_antisymm h2 h1]

/-- Query `(1, 2, 1)` inside a longer series. -/
example : dtwSubsequencePath ([[1],[2],[1]] : List (List ℤ)) [[5],[1],[2],[2],[1],[7]] argmin3 argminL
    = .ok (some [(0,1),(1,2),(1,3),(2,4)], ((0 : ℤ) : WithTop ℤ)) := by decide +kernel

/-- An inexact match: value 1, first reached on the window `x[2..2]`. -/
example : dtwSubsequencePath ([[1],[2],[1]] : List (List ℤ)) [[9],[5],[1],[3],[1],[7]] argmin3 argminL
    = .ok (some [(0,2),(1,2),(2,2)], ((1 : ℤ) : WithTop ℤ)) := by decide +kernel

end Verif
