import Verif.Model.EarlyProba
import Verif.Model.Early
import Mathlib.Algebra.BigOperators.Field
import Mathlib.Algebra.Order.BigOperators.Group.Finset
import Mathlib.Tactic.Positivity
import Mathlib.Tactic.Linarith
import Mathlib.Tactic.FieldSimp
import Mathlib.Tactic.NormNum
import Mathlib.Algebra.Order.Ring.Rat
import Mathlib.Algebra.Field.Rat
/-!
C68: the probabilities an early classifier works with.
-/
set_option linter.unusedSectionVars false
namespace Verif
open Finset

theorem sum_range_list {K : Type} [AddCommMonoid K] (n : ℕ) (f : ℕ → K) : ((List.range n).map f).sum = ∑ i ∈ range n, f i := by
  induction n with
  | zero => simp
  | succ n ih => simp [List.range_succ, Finset.sum_range_succ, ih]

theorem ecScoreOf_pos (lamb avg dist : ℝ) : 0 < ecScoreOf lamb avg dist := by unfold ecScoreOf; positivity

/-- The probabilities exist as soon as one center differs from the observed samples. -/
theorem C68_defined (lamb : ℝ) (n t d : ℕ) (c : ℕ → ℕ → ℕ → ℝ) (x : ℕ → ℕ → ℝ) (k i j : ℕ) (hk : k < n) (hi : i < t) (hj : j < d)
    (hne : x i j ≠ c k i j) : ∃ p, ecClusterProbas lamb n t d c x = some p := by
  unfold ecClusterProbas ecProbas
  have hn : (0 : ℝ) < n := by exact_mod_cast Nat.lt_of_le_of_lt (Nat.zero_le _) hk
  have hd : ∀ q, 0 ≤ ecDist t d x (c q) := fun q => Real.sqrt_nonneg _
  have hpos : 0 < ecDist t d x (c k) := by
    unfold ecDist
    rw [Real.sqrt_pos, sum_range_list]
    refine Finset.sum_pos' (fun a _ => ?_) ⟨i, mem_range.mpr hi, ?_⟩
    · rw [sum_range_list]; exact Finset.sum_nonneg fun b _ => sq_nonneg _
    · rw [sum_range_list]
      exact Finset.sum_pos' (fun b _ => sq_nonneg _) ⟨j, mem_range.mpr hj, by have := sub_ne_zero.mpr hne; positivity⟩
  have hs : 0 < ∑ q ∈ range n, ecDist t d x (c q) := Finset.sum_pos' (fun q _ => hd q) ⟨k, mem_range.mpr hk, hpos⟩
  simp only [sum_range_list]
  rw [if_neg (div_pos hs hn).ne']
  exact ⟨_, rfl⟩

/-- Otherwise they are NaN. -/
theorem C68_nan (lamb : ℝ) (n t d : ℕ) (c : ℕ → ℕ → ℕ → ℝ) (x : ℕ → ℕ → ℝ) (h : ∀ k < n, ∀ i < t, ∀ j < d, x i j = c k i j) :
    ecClusterProbas lamb n t d c x = none := by
  unfold ecClusterProbas ecProbas
  have : ∀ k ∈ range n, ecDist t d x (c k) = 0 := by
    intro k hk
    unfold ecDist
    simp only [sum_range_list]
    rw [Finset.sum_eq_zero, Real.sqrt_zero]
    intro i hi
    refine Finset.sum_eq_zero fun j hj => ?_
    rw [h k (mem_range.mp hk) i (mem_range.mp hi) j (mem_range.mp hj), sub_self]
    norm_num
  simp only [sum_range_list]
  rw [Finset.sum_eq_zero this, zero_div, if_pos rfl]

/-- Cluster probabilities are positive and sum to 1. -/
theorem C68_distribution (lamb : ℝ) (n t d : ℕ) (c : ℕ → ℕ → ℕ → ℝ) (x : ℕ → ℕ → ℝ) (p : ℕ → ℝ)
    (h : ecClusterProbas lamb n t d c x = some p) : (∀ k < n, 0 < p k ∧ p k ≤ 1) ∧ ∑ k ∈ range n, p k = 1 := by
  unfold ecClusterProbas ecProbas at h
  simp only [sum_range_list] at h
  split at h
  · cases h
  · next hne =>
    cases h
    have hn : 0 < n := by
      rcases Nat.eq_zero_or_pos n with rfl | hn
      · simp at hne
      · exact hn
    have hs : 0 < ∑ j ∈ range n, ecScoreOf lamb ((∑ q ∈ range n, ecDist t d x (c q)) / n) (ecDist t d x (c j)) :=
      Finset.sum_pos (fun _ _ => ecScoreOf_pos _ _ _) ⟨0, mem_range.mpr hn⟩
    refine ⟨fun k hk => ⟨div_pos (ecScoreOf_pos _ _ _) hs, ?_⟩, ?_⟩
    · rw [div_le_one hs]
      exact Finset.single_le_sum (f := fun j => ecScoreOf lamb ((∑ q ∈ range n, ecDist t d x (c q)) / n) (ecDist t d x (c j)))
        (fun j _ => (ecScoreOf_pos _ _ _).le) (mem_range.mpr hk)
    · rw [← Finset.sum_div, div_self hs.ne']

/-- With `lamb` positive, one cluster is more probable than another exactly when its center is nearer; with `lamb = 0` all are equally
probable. -/
theorem C68_order (lamb : ℝ) (n t d : ℕ) (c : ℕ → ℕ → ℕ → ℝ) (x : ℕ → ℕ → ℝ) (p : ℕ → ℝ) (h : ecClusterProbas lamb n t d c x = some p)
    (a b : ℕ) : (0 < lamb → (p a < p b ↔ ecDist t d x (c b) < ecDist t d x (c a))) ∧ (lamb = 0 → p a = 1 / n) := by
  have h0 := h
  unfold ecClusterProbas ecProbas at h
  simp only [sum_range_list] at h
  split at h
  · cases h
  · next hne =>
    cases h
    have hn : 0 < n := by
      rcases Nat.eq_zero_or_pos n with rfl | hn
      · simp at hne
      · exact hn
    have hs : 0 < ∑ j ∈ range n, ecScoreOf lamb ((∑ q ∈ range n, ecDist t d x (c q)) / n) (ecDist t d x (c j)) :=
      Finset.sum_pos (fun _ _ => ecScoreOf_pos _ _ _) ⟨0, mem_range.mpr hn⟩
    have havg : 0 < (∑ q ∈ range n, ecDist t d x (c q)) / (n : ℝ) := by
      refine lt_of_le_of_ne ?_ (Ne.symm hne)
      exact div_nonneg (Finset.sum_nonneg fun q _ => Real.sqrt_nonneg _) (Nat.cast_nonneg _)
    constructor
    · intro hl
      rw [div_lt_div_iff_of_pos_right hs]
      unfold ecScoreOf
      rw [one_div_lt_one_div (by positivity) (by positivity), add_lt_add_iff_left, Real.exp_lt_exp]
      generalize (∑ q ∈ range n, ecDist t d x (c q)) / (n : ℝ) = v at *
      rw [neg_mul, neg_mul, neg_lt_neg_iff, mul_lt_mul_iff_right₀ hl, sub_lt_sub_iff_left, div_lt_div_iff_of_pos_right havg]
    · intro hl
      simp only [hl, ecScoreOf, neg_zero, zero_mul, Real.exp_zero, Finset.sum_const, card_range, nsmul_eq_mul]
      have : (n : ℝ) ≠ 0 := by exact_mod_cast hn.ne'
      field_simp

section
variable {K : Type} [Field K] [LinearOrder K] [IsStrictOrderedRing K]

/-- `pyck_` is the proportion of each class in the cluster: for a cluster with a training series, a distribution over classes. -/
theorem C68_pyck (nClasses : ℕ) (count : ℕ → ℕ → ℕ) (k y0 : ℕ) (hy : y0 < nClasses) (hc : 0 < count y0 k) :
    (∀ y, 0 ≤ (ecPyck nClasses count y k : K)) ∧ ∑ y ∈ range nClasses, (ecPyck nClasses count y k : K) = 1 ∧
    ∀ y, (ecPyck nClasses count y k : K) * ∑ z ∈ range nClasses, (count z k : K) = count y k := by
  have hs : (0 : K) < ∑ z ∈ range nClasses, (count z k : K) :=
    Finset.sum_pos' (fun z _ => Nat.cast_nonneg _) ⟨y0, mem_range.mpr hy, by exact_mod_cast hc⟩
  unfold ecPyck
  simp only [sum_range_list]
  refine ⟨fun y => div_nonneg (Nat.cast_nonneg _) hs.le, ?_, fun y => div_mul_cancel₀ _ hs.ne'⟩
  rw [← Finset.sum_div, div_self hs.ne']

/-- What `pyhatyck_` stores for a time and cluster: zero on the diagonal, and elsewhere the proportion, among the validation series
predicted `ŷ`, of those of class `y`. -/
theorem C68_pyhat_partial (nClasses : ℕ) (conf : ℕ → ℕ → ℕ) (y yhat : ℕ) (hy : y < nClasses) :
    (y = yhat → (ecPyhat nClasses conf y yhat : K) = 0) ∧
    (y ≠ yhat → (ecPyhat nClasses conf y yhat : K) * ∑ z ∈ range nClasses, (conf z yhat : K) = conf y yhat) ∧
    0 ≤ (ecPyhat nClasses conf y yhat : K) ∧ (ecPyhat nClasses conf y yhat : K) ≤ 1 := by
  unfold ecPyhat
  simp only [sum_range_list]
  have hle : conf y yhat ≤ ∑ z ∈ range nClasses, conf z yhat :=
    Finset.single_le_sum (f := fun z => conf z yhat) (fun _ _ => Nat.zero_le _) (mem_range.mpr hy)
  by_cases he : y = yhat
  · simp [he]
  · simp only [he, if_false, IsEmpty.forall_iff, true_and, not_false_eq_true, true_implies, ne_eq]
    by_cases h0 : ∑ z ∈ range nClasses, conf z yhat = 0
    · have hc : conf y yhat = 0 := by omega
      simp [hc]
    · rw [if_neg h0]
      have hpos : (0 : K) < ((∑ z ∈ range nClasses, conf z yhat : ℕ) : K) := by exact_mod_cast Nat.pos_of_ne_zero h0
      refine ⟨?_, div_nonneg (Nat.cast_nonneg _) hpos.le, (div_le_one hpos).mpr (by exact_mod_cast hle)⟩
      rw [← Nat.cast_sum]
      exact div_mul_cancel₀ _ hpos.ne'

end

/-- `pyhatyck_` is documented as `P(ŷ | y, c_k)`. It is not: of four series of class 0, one is predicted 1, and the entry is 1, not 1/4. -/
theorem C68_false_conditional : ∃ conf : ℕ → ℕ → ℕ, conf 0 0 = 3 ∧ conf 0 1 = 1 ∧ conf 1 0 = 0 ∧ conf 1 1 = 0 ∧
    (ecPyhat 2 conf 0 1 : ℚ) = 1 :=
  ⟨fun y z => if y = 0 then (if z = 0 then 3 else 1) else 0, by decide, by decide, by decide, by decide, by decide +kernel⟩

/-- So the expected cost, before the cost of time, is no probability of error: with three classes it can be 2. -/
theorem C68_false_cost : ∃ (m : EarlyModel ℚ ℕ ℕ) (conf : ℕ → ℕ → ℕ) (count : ℕ → ℕ → ℕ),
    (∀ t k y z, m.pyhatyck t k y z = ecPyhat m.nClasses conf y z) ∧ (∀ y k, m.pyck y k = ecPyck m.nClasses count y k) ∧
    m.costTime = 0 ∧ ecCosts m (fun _ => 1) 1 = [2] :=
  ⟨⟨1, 1, 1, 3, fun _ _ y z => ecPyhat 3 (fun y _ => if y = 0 then 1 else 0) y z, fun y k => ecPyck 3 (fun y _ => if y = 0 then 1 else 0) y k,
    0, fun _ => none, fun _ _ => .ok 0, fun _ => false⟩, fun y _ => if y = 0 then 1 else 0, fun y _ => if y = 0 then 1 else 0,
    fun _ _ _ _ => rfl, fun _ _ => rfl, rfl, by decide +kernel⟩

example : ∃ p, ecClusterProbas 1 2 1 1 (fun k _ _ => k) (fun _ _ => 0) = some p ∧ 0 < p 0 ∧ p 1 < p 0 ∧ p 0 + p 1 = 1 := by
  obtain ⟨p, hp⟩ := C68_defined 1 2 1 1 (fun k _ _ => k) (fun _ _ => 0) 1 0 0 (by norm_num) (by norm_num) (by norm_num) (by norm_num)
  obtain ⟨h1, h2⟩ := C68_distribution 1 2 1 1 _ _ p hp
  refine ⟨p, hp, (h1 0 (by norm_num)).1, ((C68_order 1 2 1 1 _ _ p hp 1 0).1 one_pos).mpr ?_, ?_⟩
  · simp [ecDist]
  · simpa [Finset.sum_range_succ] using h2

example : (ecPyck 2 (fun y k => if y = k then 3 else 1) 0 0 : ℚ) = 3 / 4 ∧ (ecPyhat 2 (fun y z => if y = z then 3 else 1) 0 1 : ℚ) = 1 / 4 := by
  decide +kernel

end Verif
