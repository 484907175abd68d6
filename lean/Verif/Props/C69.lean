import Verif.Props.C43
/-!
C69: forecasts of VARIMA are consistent between horizons and between calls.
-/
set_option linter.unusedSectionVars false
namespace Verif
open Spec Finset
variable {V : Type} [AddCommGroup V]

theorem predictResiduals_padded (m : Varima V) (sz : ℕ) (xs : List V) (hlen : m.minSamples ≤ xs.length) (h : m.q ≤ m.p ∨ sz ≤ xs.length) :
    predictResiduals m sz xs = fitResiduals m sz xs := by
  rcases h with hpq | hsz
  · rw [fitResiduals_list m sz xs hlen]
    unfold Varima.minSamples at hlen
    unfold predictResiduals
    split
    · unfold padFront
      rw [seasonalNan_front _ _ _ (by omega), diffNan_front _ _ _ (by rw [seasonalDiff_length]; omega),
        loss_front _ _ _ hpq (by rw [diffN_length, seasonalDiff_length]; omega)]
    · unfold padBack
      rw [seasonalNan_back _ _ _ (by omega), diffNan_back _ _ _ (by rw [seasonalDiff_length]; omega),
        loss_back _ _ _ (by rw [diffN_length, seasonalDiff_length]; omega)]
  · unfold predictResiduals fitResiduals padFront padBack
    have : sz - xs.length = 0 := by omega
    rw [this]
    simp

/-- `fit(X).predict(n)` and `fit(X).predict(X, n)` agree for a series as long as the longest one, and for every series when `q ≤ p`. -/
theorem C69_train_partial (m : Varima V) (sz : ℕ) (xs : List V) (n : ℕ) (h : m.q ≤ m.p ∨ sz ≤ xs.length) :
    varimaPredict m sz xs n = varimaFitPredict m sz xs n := by
  unfold varimaPredict varimaFitPredict
  split
  · rfl
  · next hl => rw [predictResiduals_padded m sz xs (by omega) h]

/-- They need not agree for a shorter series when `q > p`: once moved to the front, the padding lets `_loss` start on samples it skipped in
`fit`. -/
theorem C69_false_train : ∃ (m : Varima ℤ), m.p = 0 ∧ m.q = 1 ∧ m.d = 0 ∧ m.s = 0 ∧
    varimaFitPredict m 3 [1, 0] 1 = .ok [0] ∧ varimaPredict m 3 [1, 0] 1 = .ok [-1] :=
  ⟨⟨0, 0, 1, 0, fun _ x => x, fun _ x => x, 0⟩, rfl, rfl, rfl, rfl, by decide +kernel, by decide +kernel⟩

/-- The forecasts for a horizon are the first ones of any greater horizon. -/
theorem C69_horizon (m : Varima V) (sz : ℕ) (xs fs gs : List V) (n k : ℕ) (h1 : varimaFitPredict m sz xs n = .ok fs)
    (h2 : varimaFitPredict m sz xs (n + k) = .ok gs) : gs.take n = fs := by
  have hlen : m.minSamples ≤ xs.length := by
    by_contra hc
    unfold varimaFitPredict at h1
    rw [if_pos (by omega)] at h1
    cases h1
  rw [fitPredict_forecasts m sz xs _ hlen] at h1 h2
  cases h1
  cases h2
  rw [forecasts_add, List.take_append_of_le_length (by rw [forecasts_length]), List.take_of_length_le (by rw [forecasts_length])]

/-- With `d ≤ 1`, forecasting `n + k` steps is forecasting `n` steps and then, the forecasts taken for observations, `k` more. -/
theorem C69_recursive_partial (m : Varima V) (xs fs gs : List V) (n k : ℕ) (hd : m.d ≤ 1)
    (h1 : varimaPredict m xs.length xs n = .ok fs) (h2 : varimaPredict m xs.length xs (n + k) = .ok gs) :
    ∃ ks, varimaPredict m (xs ++ fs).length (xs ++ fs) k = .ok ks ∧ gs = fs ++ ks := by
  rw [C69_train_partial m _ _ _ (.inr (le_refl _))] at h1 h2
  have hlen : m.minSamples ≤ xs.length := by
    by_contra hc
    unfold varimaFitPredict at h1
    rw [if_pos (by omega)] at h1
    cases h1
  have hlen' : m.minSamples ≤ (xs ++ fs).length := by rw [List.length_append]; omega
  rw [fitPredict_forecasts m _ xs _ hlen] at h1 h2
  rw [C69_train_partial m _ _ _ (.inr (le_refl _)), fitPredict_forecasts m _ _ _ hlen']
  cases h1
  cases h2
  refine ⟨_, rfl, ?_⟩
  rw [forecasts_add]
  have hcat : diffN m.d (seasonalDiff m.s (xs ++ forecasts m n xs (diffN m.d (seasonalDiff m.s xs)) (fitResiduals m xs.length xs))) =
      diffN m.d (seasonalDiff m.s xs) ++ innovations m n (diffN m.d (seasonalDiff m.s xs)) (fitResiduals m xs.length xs) := by
    unfold Varima.minSamples at hlen
    rcases Nat.eq_zero_or_pos m.d with h0 | h0
    · rw [forecasts_sd m n xs _ _ (by omega) h0, h0]
      rfl
    · have h1 : m.d = 1 := by omega
      have := forecasts_dd m n xs (diffN m.d (seasonalDiff m.s xs)) (fitResiduals m xs.length xs) (by omega) (by omega)
      rw [h1] at this ⊢
      exact this
  have hr : fitResiduals m (xs ++ forecasts m n xs (diffN m.d (seasonalDiff m.s xs)) (fitResiduals m xs.length xs)).length
      (xs ++ forecasts m n xs (diffN m.d (seasonalDiff m.s xs)) (fitResiduals m xs.length xs)) = shiftRes^[n] (fitResiduals m xs.length xs) := by
    rw [fitResiduals_list m _ _ hlen', hcat]
    rw [fitResiduals_list m _ _ hlen]
    unfold Varima.minSamples at hlen
    rw [← residuals_innovations m n _ (by rw [diffN_length, seasonalDiff_length]; omega)]
    rw [List.length_append, innovations_length]
  rw [hr, hcat]

/-- With `d = 2` it is not: the model says that second differences stay what they are. -/
theorem C69_false_recursive : ∃ (m : Varima ℤ), m.d = 2 ∧ m.p = 1 ∧ m.q = 0 ∧ m.s = 0 ∧
    varimaPredict m 4 [0, 0, 0, 1] 1 = .ok [2] ∧ varimaPredict m 4 [0, 0, 0, 1] 2 = .ok [2, 3] ∧
    varimaPredict m 5 [0, 0, 0, 1, 2] 1 = .ok [2] :=
  ⟨⟨1, 2, 0, 0, fun _ x => x, fun _ x => x, 0⟩, rfl, rfl, rfl, rfl, by decide +kernel, by decide +kernel, by decide +kernel⟩

example : varimaPredict varimaDemo 7 [0, 1, 0, 2, 1, 5, 3] 1 = .ok [-4] ∧ varimaPredict varimaDemo 8 [0, 1, 0, 2, 1, 5, 3, -4] 2 = .ok [-27, -75] := by
  decide +kernel
example : varimaPredict varimaDemo 9 [0, 1, 0, 2, 1, 5, 3] 2 = .ok [-4, -27] ∧ varimaDemo.q ≤ varimaDemo.p := by decide +kernel

end Verif
