import Verif.Proofs.Piecewise
import Mathlib.Tactic.NormNum
import Mathlib.Tactic.FinCases
import Mathlib.Tactic.IntervalCases
/-!
# C32 — the PAA distance lower-bounds the Euclidean distance
-/
namespace Verif
open Spec

theorem paaTransform_ok {K : Type} [Field K] [LinearOrder K] {S : ℕ} {X : Arr3 K} (hne : X.data ≠ []) (hS : 0 < S) :
    paaTransform X.d S X = .ok (paaRaw S X) := by
  simp only [paaTransform, hne, if_false, ne_eq, not_true_eq_false, Nat.pos_iff_ne_zero.1 hS, pure, Except.pure,
    bind, Except.bind]

theorem Spec.Series.ne {K : Type} {X : Arr3 K} {i n : ℕ} {x : ℕ → ℕ → K} (h : Series X i n x) : X.data ≠ [] := by
  intro e
  have := h.1
  rw [e] at this
  simp at this

/-- The value of the PAA distance: the means of the segments, whatever the number of segments. -/
theorem C32_value (X : Arr3 ℝ) (hX : X.WF) (S n i j N : ℕ) (x y : ℕ → ℕ → ℝ) (hi : Series X i n x)
    (hj : Series X j n y) (hS : 0 < S) (hSn : S ≤ n) :
    ∃ P, paaTransform X.d S X = .ok P ∧ distancePaa N S P i j = some
      (Real.sqrt (∑ s ∈ Finset.range S, ∑ f ∈ Finset.range X.d,
        (segMean (n / S) s f x - segMean (n / S) s f y) ^ 2) * Real.sqrt ((N : ℝ) / S)) := by
  refine ⟨paaRaw S X, paaTransform_ok hi.ne hS, ?_⟩
  unfold distancePaa
  have : sqDistOpt (paaRaw S X).sz (paaRaw S X).d ((paaRaw S X).entry i) ((paaRaw S X).entry j) = _ :=
    sqDistOpt_some S X.d _ _ (fun s f => segMean (n / S) s f x) (fun s f => segMean (n / S) s f y)
      (fun s hs f hf => by rw [paaRaw_entry hX hi hSn hs hf]; rfl)
      (fun s hs f hf => by rw [paaRaw_entry hX hj hSn hs hf]; rfl)
  rw [this]
  rfl

/-- In general the PAA distance exceeds the Euclidean distance of the covered prefixes by at most the factor
`sqrt (N / (S q))`, `N` being the size seen at fit time and `S q` the number of covered samples. -/
theorem C32_bound (X : Arr3 ℝ) (hX : X.WF) (S n i j N : ℕ) (x y : ℕ → ℕ → ℝ) (hi : Series X i n x)
    (hj : Series X j n y) (hS : 0 < S) (hSn : S ≤ n) :
    ∃ P D, paaTransform X.d S X = .ok P ∧ distancePaa N S P i j = some D ∧
      D ≤ Real.sqrt ((N : ℝ) / (S * (n / S) : ℕ)) * euclid (S * (n / S)) X.d x y := by
  obtain ⟨P, hP, hD⟩ := C32_value X hX S n i j N x y hi hj hS hSn
  refine ⟨P, _, hP, hD, ?_⟩
  set q := n / S with hq
  have hq0 : 0 < q := Nat.div_pos hSn hS
  have hqr : (0 : ℝ) < q := by exact_mod_cast hq0
  have hSr : (0 : ℝ) < S := by exact_mod_cast hS
  have key : ∑ s ∈ Finset.range S, ∑ f ∈ Finset.range X.d, (segMean q s f x - segMean q s f y) ^ 2 ≤
      (∑ t ∈ Finset.range (S * q), ∑ f ∈ Finset.range X.d, (x t f - y t f) ^ 2) / q := by
    rw [le_div_iff₀ hqr, sum_segments, Finset.sum_mul]
    apply Finset.sum_le_sum
    intro s _
    rw [Finset.sum_comm, Finset.sum_mul]
    apply Finset.sum_le_sum
    intro f _
    have := segMean_sq_le q s f hq0 x y
    linarith
  unfold euclid
  rw [← Real.sqrt_mul (by positivity), ← Real.sqrt_mul (by positivity)]
  apply Real.sqrt_le_sqrt
  have h1 := mul_le_mul_of_nonneg_right key (show (0 : ℝ) ≤ (N : ℝ) / S by positivity)
  refine h1.trans (le_of_eq ?_)
  push_cast
  field_simp

/-- When the segments tile the series and the model was fitted on series of the same size, the PAA distance is a
lower bound of the Euclidean distance. -/
theorem C32_lower_bound (X : Arr3 ℝ) (hX : X.WF) (S n i j : ℕ) (x y : ℕ → ℕ → ℝ) (hi : Series X i n x)
    (hj : Series X j n y) (hn : 0 < n) (hS : S ∣ n) :
    ∃ P D, paaTransform X.d S X = .ok P ∧ distancePaa n S P i j = some D ∧ D ≤ euclid n X.d x y := by
  have hS0 : 0 < S := Nat.pos_of_dvd_of_pos hS hn
  obtain ⟨P, D, hP, hD, hle⟩ := C32_bound X hX S n i j n x y hi hj hS0 (Nat.le_of_dvd hn hS)
  refine ⟨P, D, hP, hD, ?_⟩
  rw [Nat.mul_div_cancel' hS, div_self (by exact_mod_cast hn.ne'), Real.sqrt_one, one_mul] at hle
  exact hle

/-- When the segments tile the fitted size, the distance of two PAA representations is the Euclidean distance of
the reconstructed series, in whatever order the parallel loop fills the segments. -/
theorem C32_reconstruction (P : Arr3 ℝ) (N i j : ℕ) (p r : ℕ → ℕ → ℝ) (hi : Series P i P.sz p)
    (hj : Series P j P.sz r) (hN : 0 < N) (hS : P.sz ∣ N) (order : List ℕ) (ho : order.Perm (List.range P.sz)) :
    ∃ u v, Series (invPaa order P N) i N u ∧ Series (invPaa order P N) j N v ∧ (invPaa order P N).d = P.d ∧
      distancePaa N P.sz P i j = some (euclid N P.d u v) := by
  set q := N / P.sz with hq
  have hS0 : 0 < P.sz := Nat.pos_of_dvd_of_pos hS hN
  have hNq : P.sz * q = N := Nat.mul_div_cancel' hS
  have hq0 : 0 < q := Nat.div_pos (Nat.le_of_dvd hN hS) hS0
  have hser : ∀ k (w : ℕ → ℕ → ℝ), Series P k P.sz w → Series (invPaa order P N) k N (fun t f => w (t / q) f) := by
    intro k w hk
    refine ⟨by unfold invPaa; rw [Arr3.build_length]; exact hk.1, le_rfl, ?_, ?_⟩
    · intro t ht f hf
      have hf : f < P.d := hf
      unfold invPaa
      rw [Arr3.build_entry hk.1 ht hf, fillSegs_perm ho, ← hq, if_pos (by omega)]
      exact hk.2.2.1 _ ((Nat.div_lt_iff_lt_mul hq0).2 (by omega)) f hf
    · intro t ht f
      apply entry_none
      refine le_trans (tsSize_le _) ?_
      have hk' : k < (invPaa order P N).data.length := by unfold invPaa; rw [Arr3.build_length]; exact hk.1
      rw [List.getD_eq_getElem _ _ hk', (Arr3.build_wf _ _ _ _ _ (List.getElem_mem hk')).1]
      exact ht
  refine ⟨_, _, hser i p hi, hser j r hj, rfl, ?_⟩
  unfold distancePaa
  rw [sqDistOpt_some P.sz P.d _ _ p r hi.2.2.1 hj.2.2.1]
  simp only [Option.map_some, Option.some.injEq]
  have hSr : (0 : ℝ) < P.sz := by exact_mod_cast hS0
  rw [← Real.sqrt_mul (by positivity)]
  unfold euclid
  congr 1
  rw [← hNq, sum_segments, Finset.sum_mul]
  apply Finset.sum_congr rfl
  intro s _
  have : ∀ k ∈ Finset.range q, ∑ f ∈ Finset.range P.d, (p ((s * q + k) / q) f - r ((s * q + k) / q) f) ^ 2 =
      ∑ f ∈ Finset.range P.d, (p s f - r s f) ^ 2 := by
    intro k hk
    rw [Finset.mem_range] at hk
    rw [show (s * q + k) / q = s by
      rw [Nat.mul_comm, Nat.mul_add_div hq0, Nat.div_eq_of_lt hk, Nat.add_zero]]
  rw [Finset.sum_congr rfl this, Finset.sum_const, Finset.card_range, nsmul_eq_mul]
  push_cast
  field_simp

/-- Two series of three samples, `(1, 1, 0)` and `(0, 0, 0)`. -/
def exPaa : Arr3 ℝ := ⟨3, 1, [[[some 1], [some 1], [some 0]], [[some 0], [some 0], [some 0]]]⟩

theorem exPaa_wf : exPaa.WF := by
  intro s hs
  simp only [exPaa, List.mem_cons, List.not_mem_nil, or_false] at hs
  rcases hs with rfl | rfl
  all_goals
    refine ⟨rfl, ?_⟩
    intro r hr
    fin_cases hr <;> rfl

theorem exPaa_out (i : ℕ) (hi : i < 2) (t : ℕ) (ht : 3 ≤ t) (f : ℕ) : exPaa.entry i t f = none := by
  apply entry_none
  refine le_trans (tsSize_le _) ?_
  have hi' : i < exPaa.data.length := hi
  rw [List.getD_eq_getElem _ _ hi', (exPaa_wf _ (List.getElem_mem hi')).1]
  exact ht

theorem exPaa_series0 : Series exPaa 0 3 (fun t _ => if t < 2 then 1 else 0) := by
  refine ⟨by simp [exPaa], le_rfl, ?_, exPaa_out 0 (by omega)⟩
  intro t ht f hf
  have : f = 0 := by simp [exPaa] at hf; omega
  subst this
  interval_cases t <;> simp [exPaa, Arr3.entry]

theorem exPaa_series1 : Series exPaa 1 3 (fun _ _ => 0) := by
  refine ⟨by simp [exPaa], le_rfl, ?_, exPaa_out 1 (by omega)⟩
  intro t ht f hf
  have : f = 0 := by simp [exPaa] at hf; omega
  subst this
  interval_cases t <;> simp [exPaa, Arr3.entry]

/-- The claim is false when the segments do not tile the series: with two segments for three samples the PAA
distance of `(1, 1, 0)` and `(0, 0, 0)` is `sqrt 3`, their Euclidean distance is `sqrt 2`. -/
theorem C32_false : ¬ ∀ (X : Arr3 ℝ) (S n i j : ℕ) (x y : ℕ → ℕ → ℝ), X.WF → Series X i n x → Series X j n y →
    0 < S → S ≤ n → ∀ P D, paaTransform X.d S X = .ok P → distancePaa n S P i j = some D → D ≤ euclid n X.d x y := by
  intro h
  obtain ⟨P, hP, hD⟩ := C32_value exPaa exPaa_wf 2 3 0 1 3 _ _ exPaa_series0 exPaa_series1 (by omega) (by omega)
  have := h exPaa 2 3 0 1 _ _ exPaa_wf exPaa_series0 exPaa_series1 (by omega) (by omega) P _ hP hD
  unfold euclid at this
  rw [← Real.sqrt_mul (by positivity)] at this
  have h2 := (Real.sqrt_le_sqrt_iff (by positivity)).1 this
  rw [show exPaa.d = 1 from rfl] at h2
  simp only [segMean, Finset.sum_range_succ, Finset.sum_range_zero] at h2
  norm_num [Finset.sum_range_succ] at h2

/-- One segment tiles the same series. -/
example : ∃ P D, paaTransform 1 1 exPaa = .ok P ∧ distancePaa 3 1 P 0 1 = some D ∧
    D ≤ euclid 3 1 (fun t _ => if t < 2 then 1 else 0) (fun _ _ => 0) :=
  C32_lower_bound exPaa exPaa_wf 1 3 0 1 _ _ exPaa_series0 exPaa_series1 (by omega) (by omega)

/-- Reconstruction of six samples from three segments, filled backwards. -/
example : ∃ u v, Series (invPaa [2, 1, 0] exPaa 6) 0 6 u ∧ Series (invPaa [2, 1, 0] exPaa 6) 1 6 v ∧
    (invPaa [2, 1, 0] exPaa 6).d = 1 ∧ distancePaa 6 3 exPaa 0 1 = some (euclid 6 1 u v) :=
  C32_reconstruction exPaa 6 0 1 _ _ exPaa_series0 exPaa_series1 (by omega) (by decide) [2, 1, 0] (by decide)

end Verif
