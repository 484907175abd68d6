import Verif.Proofs.VarimaLoss
/-!
C43: VARIMA forecasts, differenced again, are the forecasts of the differenced model.
-/
set_option linter.unusedSectionVars false
namespace Verif
open Spec Finset
variable {V : Type} [AddCommGroup V]

/-- The residuals `_loss` computes for a series without padding, or with padding at the end, are those of the recursion on its differences. -/
theorem C43_residuals (m : Varima V) (sz : ℕ) (xs : List V) (hlen : m.minSamples ≤ xs.length) :
    fitResiduals m sz xs = residuals m (differenced m.s m.d (timeline xs)) (xs.length - m.s - m.d) := by
  unfold Varima.minSamples at hlen
  unfold fitResiduals padBack
  rw [seasonalNan_back _ _ _ (by omega), diffNan_back _ _ _ (by rw [seasonalDiff_length]; omega),
    loss_back _ _ _ (by rw [diffN_length, seasonalDiff_length]; omega), diffN_length, seasonalDiff_length]
  apply residuals_congr
  intro i hi
  exact differenced_getD m.s m.d xs i (by omega)

theorem predictResiduals_full (m : Varima V) (xs : List V) (sz : ℕ) (h : sz = xs.length) : predictResiduals m sz xs = fitResiduals m sz xs := by
  unfold predictResiduals fitResiduals padFront padBack
  rw [h, Nat.sub_self]
  simp

theorem fitResiduals_list (m : Varima V) (sz : ℕ) (xs : List V) (hlen : m.minSamples ≤ xs.length) :
    fitResiduals m sz xs = residuals m (timeline (diffN m.d (seasonalDiff m.s xs))) (diffN m.d (seasonalDiff m.s xs)).length := by
  unfold Varima.minSamples at hlen
  unfold fitResiduals padBack
  rw [seasonalNan_back _ _ _ (by omega), diffNan_back _ _ _ (by rw [seasonalDiff_length]; omega),
    loss_back _ _ _ (by rw [diffN_length, seasonalDiff_length]; omega)]

theorem fitPredict_forecasts (m : Varima V) (sz : ℕ) (xs : List V) (n : ℕ) (hlen : m.minSamples ≤ xs.length) :
    varimaFitPredict m sz xs n = .ok (forecasts m n xs (diffN m.d (seasonalDiff m.s xs)) (fitResiduals m sz xs)) := by
  unfold varimaFitPredict
  rw [if_neg (by omega)]
  have hr : (fitResiduals m sz xs).length = m.q := by rw [C43_residuals m sz xs hlen, residuals_length]
  unfold Varima.minSamples at hlen
  rw [loop_roll n (start_inv m xs _ (by omega) hr)]

/-- A series with fewer than `p + q + d + 1 + s` samples is refused, any other is forecast as far as asked. -/
theorem C43_refused (m : Varima V) (sz : ℕ) (xs : List V) (n : ℕ) :
    (varimaFitPredict m sz xs n = .error .valueError ↔ xs.length < m.p + m.q + m.d + 1 + m.s) ∧
    ∀ fs, varimaFitPredict m sz xs n = .ok fs → fs.length = n := by
  constructor
  · constructor
    · intro h
      by_contra hc
      rw [fitPredict_forecasts m sz xs n (by unfold Varima.minSamples; omega)] at h
      cases h
    · intro h
      unfold varimaFitPredict
      exact if_pos h
  · intro fs h
    by_cases hl : xs.length < m.minSamples
    · unfold varimaFitPredict at h
      rw [if_pos hl] at h
      cases h
    · rw [fitPredict_forecasts m sz xs n (by omega)] at h
      cases h
      exact forecasts_length _ _ _ _ _

/-- Without differencing of order 2 or more: history and forecasts together, differenced, follow the recursion of the fitted model from the
end of the history on, with the residuals of the history. The seasonal period is any. -/
theorem C43_partial (m : Varima V) (sz : ℕ) (xs fs : List V) (n : ℕ) (hd : m.d ≤ 1) (h : varimaFitPredict m sz xs n = .ok fs) :
    fs.length = n ∧
    Continues m (residuals m (differenced m.s m.d (timeline xs)) (xs.length - m.s - m.d)) (differenced m.s m.d (timeline (xs ++ fs)))
      (xs.length - m.s - m.d) (xs.length - m.s - m.d + n) := by
  have hlen : m.minSamples ≤ xs.length := by
    by_contra hc
    unfold varimaFitPredict at h
    rw [if_pos (by omega)] at h
    cases h
  have hres := C43_residuals m sz xs hlen
  rw [fitPredict_forecasts m sz xs n hlen] at h
  cases h
  refine ⟨forecasts_length _ _ _ _ _, ?_⟩
  rw [← hres]
  have hfl := forecasts_length m n xs (diffN m.d (seasonalDiff m.s xs)) (fitResiduals m sz xs)
  have hcat : diffN m.d (seasonalDiff m.s (xs ++ forecasts m n xs (diffN m.d (seasonalDiff m.s xs)) (fitResiduals m sz xs))) =
      diffN m.d (seasonalDiff m.s xs) ++ innovations m n (diffN m.d (seasonalDiff m.s xs)) (fitResiduals m sz xs) := by
    unfold Varima.minSamples at hlen
    rcases Nat.eq_zero_or_pos m.d with h0 | h0
    · rw [forecasts_sd m n xs _ _ (by omega) h0, h0]
      rfl
    · have h1 : m.d = 1 := by omega
      have := forecasts_dd m n xs (diffN m.d (seasonalDiff m.s xs)) (fitResiduals m sz xs) (by omega) (by omega)
      rw [h1] at this ⊢
      exact this
  unfold Varima.minSamples at hlen
  have hlW : (diffN m.d (seasonalDiff m.s xs)).length = xs.length - m.s - m.d := by rw [diffN_length, seasonalDiff_length]
  have hc := innovations_continue m n (diffN m.d (seasonalDiff m.s xs)) (fitResiduals m sz xs) (by omega)
  rw [hlW] at hc
  rw [← hcat] at hc
  have hpt : ∀ i < xs.length - m.s - m.d + n,
      timeline (diffN m.d (seasonalDiff m.s (xs ++ forecasts m n xs (diffN m.d (seasonalDiff m.s xs)) (fitResiduals m sz xs)))) i =
        differenced m.s m.d (timeline (xs ++ forecasts m n xs (diffN m.d (seasonalDiff m.s xs)) (fitResiduals m sz xs))) i := by
    intro i hi
    exact differenced_getD _ _ _ i (by rw [List.length_append, hfl]; omega)
  intro i h1 h2
  have hi := hc i h1 h2
  rw [hpt i h2] at hi
  rw [hi]
  unfold armaNext
  congr 2
  refine Finset.sum_congr rfl fun k hk => ?_
  rw [Finset.mem_range] at hk
  rw [hpt _ (by omega)]

/-- For every order `d ≥ 1`, what the forecasts really are: they are integrated once, so it is their first differences that follow the
recursion of the `d`-th differences. -/
theorem C43_actual (m : Varima V) (sz : ℕ) (xs fs : List V) (n : ℕ) (hd : m.d ≠ 0) (h : varimaFitPredict m sz xs n = .ok fs) :
    ∃ ws : List V, ws.length = n ∧
      (∀ j < n, differenced m.s 1 (timeline (xs ++ fs)) (xs.length - m.s - 1 + j) = ws.getD j 0) ∧
      Continues m (residuals m (differenced m.s m.d (timeline xs)) (xs.length - m.s - m.d))
        (timeline (diffN m.d (seasonalDiff m.s xs) ++ ws)) (xs.length - m.s - m.d) (xs.length - m.s - m.d + n) := by
  have hlen : m.minSamples ≤ xs.length := by
    by_contra hc
    unfold varimaFitPredict at h
    rw [if_pos (by omega)] at h
    cases h
  have hres := C43_residuals m sz xs hlen
  rw [fitPredict_forecasts m sz xs n hlen] at h
  cases h
  unfold Varima.minSamples at hlen
  refine ⟨innovations m n (diffN m.d (seasonalDiff m.s xs)) (fitResiduals m sz xs), innovations_length _ _ _ _, ?_, ?_⟩
  · intro j hj
    have hdd := forecasts_dd m n xs (diffN m.d (seasonalDiff m.s xs)) (fitResiduals m sz xs) (by omega) hd
    have hfl := forecasts_length m n xs (diffN m.d (seasonalDiff m.s xs)) (fitResiduals m sz xs)
    rw [← differenced_getD m.s 1 _ _ (by rw [List.length_append, hfl]; omega)]
    change (diffOnce _).getD _ 0 = _
    have hl : (diffOnce (seasonalDiff m.s xs)).length = xs.length - m.s - 1 := by rw [diffOnce_length, seasonalDiff_length]
    rw [hdd, List.getD_eq_getElem?_getD, List.getElem?_append_right (by omega), List.getD_eq_getElem?_getD, hl]
    congr 2
    omega
  · rw [← hres]
    have hlW : (diffN m.d (seasonalDiff m.s xs)).length = xs.length - m.s - m.d := by rw [diffN_length, seasonalDiff_length]
    rw [← hlW]
    exact innovations_continue m n _ _ (by omega)

/-- With `d = 2` the claim is false: a line is not continued. The model `Δ²x = 0` forecasts 3 after 1, 2, 3; the second difference of the
forecast is -1. -/
theorem C43_false_order_two : ∃ (m : Varima ℤ), m.d = 2 ∧ m.p = 0 ∧ m.q = 0 ∧ m.s = 0 ∧ m.c = 0 ∧
    varimaFitPredict m 3 [1, 2, 3] 1 = .ok [3] ∧ differenced 0 2 (timeline [1, 2, 3, 3]) 1 = -1 :=
  ⟨⟨0, 2, 0, 0, fun _ x => x, fun _ x => x, 0⟩, rfl, rfl, rfl, rfl, rfl, by decide +kernel, by decide +kernel⟩

/-- A seasonal model with differencing, autoregression and moving average. -/
def varimaDemo : Varima ℤ := ⟨1, 1, 1, 2, fun _ x => 2 * x, fun _ x => x, 1⟩

example : varimaFitPredict varimaDemo 7 [0, 1, 0, 2, 1, 5, 3] 3 = .ok [-4, -27, -75] := by decide +kernel
example : fitResiduals varimaDemo 7 [0, 1, 0, 2, 1, 5, 3] = [-10] := by decide +kernel

end Verif
