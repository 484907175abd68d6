import Verif.Proofs.Scaler
import Verif.Spec.Moments
import Mathlib.Algebra.Order.BigOperators.Group.List
import Mathlib.Algebra.BigOperators.Ring.List
/-!
Sums over groups.
-/
namespace Verif
open Spec

theorem sum_flatMap_range (n : ℕ) (g : ℕ → List ℝ) (h : ℝ → ℝ) :
    (((List.range n).flatMap g).map h).sum = ∑ k ∈ Finset.range n, ((g k).map h).sum := by
  induction n with
  | zero => simp
  | succ n ih => rw [List.range_succ, List.flatMap_append, List.map_append, List.sum_append, ih,
      Finset.sum_range_succ]; simp

theorem sum_filterMap_range (n : ℕ) (g : ℕ → Option ℝ) (h : ℝ → ℝ) :
    (((List.range n).filterMap g).map h).sum = ∑ k ∈ Finset.range n, (g k).elim 0 h := by
  induction n with
  | zero => simp
  | succ n ih =>
    rw [List.range_succ, List.filterMap_append, List.map_append, List.sum_append, ih, Finset.sum_range_succ]
    cases e : g n <;> simp [e]

theorem group_sum (X : Arr3 ℝ) (pt pf : Bool) (i f : ℕ) (h : ℝ → ℝ) :
    ((X.group pt pf i f).map h).sum = obsSum X pt pf i f h := by
  unfold Arr3.group obsSum
  rw [sum_flatMap_range]
  apply Finset.sum_congr rfl
  intro i' _
  split_ifs with h1
  · symm
    rw [List.map_nil, List.sum_nil]
    apply Finset.sum_eq_zero
    intro t _
    apply Finset.sum_eq_zero
    intro f' _
    rw [if_neg fun hc => h1.2 (hc.1 h1.1)]
  · rw [sum_flatMap_range]
    apply Finset.sum_congr rfl
    intro t _
    rw [sum_filterMap_range]
    apply Finset.sum_congr rfl
    intro f' _
    by_cases h2 : pf = true ∧ f' ≠ f
    · rw [if_pos h2, if_neg fun hc => h2.2 (hc.2 h2.1)]; rfl
    · rw [if_neg h2, if_pos]
      exact ⟨fun e => by by_contra hc; exact h1 ⟨e, hc⟩, fun e => by by_contra hc; exact h2 ⟨e, hc⟩⟩

theorem group_length (X : Arr3 ℝ) (pt pf : Bool) (i f : ℕ) :
    ((X.group pt pf i f).length : ℝ) = obsSum X pt pf i f fun _ => 1 := by
  rw [← group_sum]; simp

/-- `nanmean` and `nanstd` are the mean and standard deviation. -/
theorem nanMean_isMean (X : Arr3 ℝ) (pt pf : Bool) (i f : ℕ) (hne : X.group pt pf i f ≠ []) :
    ∃ m s, nanMean (X.group pt pf i f) = some m ∧ nanStd (X.group pt pf i f) = some s ∧
      IsMean X pt pf i f m ∧ IsStd X pt pf i f m s := by
  have hpos : (0 : ℝ) < (X.group pt pf i f).length := by
    exact_mod_cast List.length_pos_iff.2 hne
  have hm : nanMean (X.group pt pf i f) = some ((X.group pt pf i f).sum / (X.group pt pf i f).length) := by
    rw [nanMean, if_neg hne]
  refine ⟨_, _, hm, by rw [nanStd, hm, Option.map_some], ⟨?_, ?_⟩, Real.sqrt_nonneg _, ?_⟩
  · rw [← group_length]; exact hpos
  · rw [← group_length, ← group_sum, List.map_id, div_mul_cancel₀ _ hpos.ne']
  · rw [Real.sq_sqrt, ← group_length, ← group_sum, div_mul_cancel₀ _ hpos.ne']
    apply div_nonneg _ hpos.le
    apply List.sum_nonneg
    intro x hx
    obtain ⟨y, -, rfl⟩ := List.mem_map.1 hx
    positivity

theorem Spec.IsMean.unique {X : Arr3 ℝ} {pt pf : Bool} {i f : ℕ} {m m' : ℝ} (h : IsMean X pt pf i f m)
    (h' : IsMean X pt pf i f m') : m = m' :=
  mul_right_cancel₀ h.1.ne' (h.2.trans h'.2.symm)

theorem Spec.IsStd.unique {X : Arr3 ℝ} {pt pf : Bool} {i f : ℕ} {m s s' : ℝ} (hm : IsMean X pt pf i f m)
    (h : IsStd X pt pf i f m s) (h' : IsStd X pt pf i f m s') : s = s' := by
  have := mul_right_cancel₀ hm.1.ne' (h.2.trans h'.2.symm)
  exact (pow_left_inj₀ h.1 h'.1 two_ne_zero).1 this

theorem sum_sq_zero (l : List ℝ) (m : ℝ) (h : (l.map fun v => (v - m) ^ 2).sum = 0) : ∀ v ∈ l, v = m := by
  induction l with
  | nil => simp
  | cons a l ih =>
    have h1 : 0 ≤ (l.map fun v => (v - m) ^ 2).sum := by
      apply List.sum_nonneg
      intro x hx
      obtain ⟨y, -, rfl⟩ := List.mem_map.1 hx
      positivity
    rw [List.map_cons, List.sum_cons] at h
    have h2 : (a - m) ^ 2 = 0 := by nlinarith [sq_nonneg (a - m)]
    intro v hv
    rcases List.mem_cons.1 hv with rfl | hv
    · have := pow_eq_zero_iff (two_ne_zero) |>.1 h2
      linarith
    · exact ih (by linarith) v hv

/-- Zero deviation means a constant group. -/
theorem Spec.IsStd.zero_const {X : Arr3 ℝ} {pt pf : Bool} {i f : ℕ} {m : ℝ} (h : IsStd X pt pf i f m 0) :
    ∀ v ∈ X.group pt pf i f, v = m := by
  apply sum_sq_zero
  rw [group_sum, ← h.2]; ring

end Verif
