import Verif.Model.Piecewise
import Verif.Spec.Piecewise
import Verif.Proofs.Scaler
import Verif.Proofs.Impute
import Mathlib.Algebra.Order.Chebyshev
import Mathlib.Algebra.BigOperators.Field
import Mathlib.Algebra.BigOperators.Intervals
import Mathlib.Tactic.FieldSimp
import Mathlib.Tactic.Linarith
/-! Lemmas on the piecewise representations. -/
set_option linter.unusedSectionVars false
namespace Verif
open Spec

section
variable {K : Type} [Field K] [LinearOrder K]

theorem mapM_id_some_of {α β : Type} (l : List α) (g : α → β) : (l.map fun t => some (g t)).mapM id = some (l.map g) := by
  induction l with
  | nil => rfl
  | cons a l ih => simp [ih]

theorem listsum_range {M : Type} [AddCommMonoid M] (n : ℕ) (f : ℕ → M) :
    ((List.range n).map f).sum = ∑ i ∈ Finset.range n, f i := by
  induction n with
  | zero => simp
  | succ n ih => rw [List.range_succ, Finset.sum_range_succ]; simp [ih]

theorem meanOpt_some (q : ℕ) (g : ℕ → K) (hq : 0 < q) :
    meanOpt ((List.range q).map fun t => some (g t)) = some ((∑ k ∈ Finset.range q, g k) / (q : K)) := by
  unfold meanOpt
  rw [mapM_id_some_of]
  simp only [List.map_eq_nil_iff, List.range_eq_nil, List.length_map, List.length_range]
  rw [if_neg (by omega), listsum_range]

theorem sum_segments {M : Type} [AddCommMonoid M] (S q : ℕ) (g : ℕ → M) :
    ∑ t ∈ Finset.range (S * q), g t = ∑ s ∈ Finset.range S, ∑ k ∈ Finset.range q, g (s * q + k) := by
  induction S with
  | zero => simp
  | succ S ih => rw [Nat.succ_mul, Finset.sum_range_add, Finset.sum_range_succ, ih]

theorem fillSegs_mem {α : Type} (order : List ℕ) (q : ℕ) (v : ℕ → ℕ → α) (t : ℕ) : ∀ out0 : ℕ → α,
    fillSegs order q v out0 t = if 0 < q ∧ t / q ∈ order then v (t / q) t else out0 t := by
  unfold fillSegs
  induction order using List.reverseRecOn with
  | nil => intro out0; simp
  | append_singleton l s ih =>
    intro out0
    rw [List.foldl_append, List.foldl_cons, List.foldl_nil, ih]
    rcases Nat.eq_zero_or_pos q with h0 | h0
    · subst h0
      rw [if_neg (by omega), if_neg (by omega), if_neg (by omega)]
    · have key : (s * q ≤ t ∧ t < s * q + q) ↔ t / q = s := by
        rw [Nat.div_eq_iff h0]
        constructor
        · rintro ⟨h1, h2⟩; exact ⟨h1, by omega⟩
        · rintro ⟨h1, h2⟩; exact ⟨h1, by omega⟩
      simp only [key, List.mem_append, List.mem_singleton, h0, true_and]
      by_cases h1 : t / q = s
      · rw [if_pos h1, if_pos (.inr h1), h1]
      · simp [h1]

/-- The segments may be filled in any order. -/
theorem fillSegs_perm {α : Type} {order : List ℕ} {S : ℕ} (h : order.Perm (List.range S)) (q : ℕ) (v : ℕ → ℕ → α)
    (out0 : ℕ → α) (t : ℕ) : fillSegs order q v out0 t = if t < S * q then v (t / q) t else out0 t := by
  rw [fillSegs_mem]
  have : (0 < q ∧ t / q ∈ order) ↔ t < S * q := by
    rw [h.mem_iff, List.mem_range]
    constructor
    · rintro ⟨h1, h2⟩; exact (Nat.div_lt_iff_lt_mul h1).1 h2
    · intro h1
      have hq : 0 < q := by
        rcases Nat.eq_zero_or_pos q with e | e
        · subst e; simp at h1
        · exact e
      exact ⟨hq, (Nat.div_lt_iff_lt_mul hq).2 h1⟩
  by_cases h1 : t < S * q
  · rw [if_pos h1, if_pos (this.2 h1)]
  · rw [if_neg h1, if_neg (fun h' => h1 (this.1 h'))]

theorem Spec.Series.tsSize {X : Arr3 K} (hX : X.WF) (hd : 0 < X.d) {i n : ℕ} {x : ℕ → ℕ → K} (h : Series X i n x) :
    tsSize (X.data.getD i []) = n := by
  obtain ⟨hi, hn, hs, hno⟩ := h
  apply IsSize.unique (tsSize_isSize _)
  constructor
  · rcases Nat.eq_zero_or_pos n with h0 | h0
    · exact .inl h0
    · right
      rw [observed_entry hX]
      exact ⟨0, hd, by rw [hs (n - 1) (by omega) 0 hd]; simp⟩
  · intro t ht
    rw [observed_entry hX]
    rintro ⟨f, -, hf⟩
    rw [hno t ht f] at hf
    simp at hf

theorem entry_outside {α : Type} {X : Arr3 α} (hX : X.WF) {i t f : ℕ} (h : ¬ (t < X.sz ∧ f < X.d)) :
    X.entry i t f = none := by
  unfold Arr3.entry
  by_cases hi : i < X.data.length
  · have hw := hX _ (List.getElem_mem hi)
    rw [List.getD_eq_getElem _ _ hi]
    by_cases ht : t < X.sz
    · have ht' : t < (X.data[i]).length := by rw [hw.1]; exact ht
      rw [List.getD_eq_getElem _ _ ht', List.getD_eq_default]
      rw [hw.2 _ (List.getElem_mem ht')]
      by_contra hc
      exact h ⟨ht, by omega⟩
    · have : (X.data[i]).getD t [] = [] := List.getD_eq_default _ _ (by rw [hw.1]; omega)
      rw [this]
      rfl
  · have : X.data.getD i [] = [] := List.getD_eq_default _ _ (by omega)
    rw [this]
    rfl

theorem paaRaw_entry {X : Arr3 K} (hX : X.WF) {S i n s f : ℕ} {x : ℕ → ℕ → K} (h : Series X i n x) (hS : S ≤ n)
    (hs : s < S) (hf : f < X.d) :
    (paaRaw S X).entry i s f = some ((∑ k ∈ Finset.range (n / S), x (s * (n / S) + k) f) / ((n / S : ℕ) : K)) := by
  have hd : 0 < X.d := by omega
  unfold paaRaw
  rw [Arr3.build_entry h.1 hs hf]
  simp only
  rw [h.tsSize hX hd]
  have hq : 0 < n / S := Nat.div_pos hS (by omega)
  have : ((List.range (n / S)).map fun t => X.entry i (s * (n / S) + t) f) =
      (List.range (n / S)).map fun t => some (x (s * (n / S) + t) f) := by
    apply List.map_congr_left
    intro t ht
    rw [List.mem_range] at ht
    refine h.2.2.1 _ ?_ f hf
    calc s * (n / S) + t < s * (n / S) + n / S := by omega
      _ = (s + 1) * (n / S) := by ring
      _ ≤ S * (n / S) := Nat.mul_le_mul_right _ hs
      _ ≤ n := Nat.mul_div_le n S
  rw [this, meanOpt_some _ _ hq]

theorem sqDistOpt_some (S d : ℕ) (a b : ℕ → ℕ → Option K) (u v : ℕ → ℕ → K)
    (ha : ∀ s < S, ∀ f < d, a s f = some (u s f)) (hb : ∀ s < S, ∀ f < d, b s f = some (v s f)) :
    sqDistOpt S d a b = some (∑ s ∈ Finset.range S, ∑ f ∈ Finset.range d, (u s f - v s f) ^ 2) := by
  unfold sqDistOpt
  have : ((List.range S).flatMap fun s => (List.range d).map fun f =>
      (a s f).bind fun x => (b s f).map fun y => (x - y) ^ 2) =
      ((List.range S).flatMap fun s => (List.range d).map fun f => (u s f - v s f) ^ 2).map some := by
    rw [List.map_flatMap]
    refine List.flatMap_congr fun s hs => ?_
    rw [List.map_map]
    apply List.map_congr_left
    intro f hf
    rw [List.mem_range] at hs hf
    rw [ha s hs f hf, hb s hs f hf]
    rfl
  rw [this]
  have h2 := mapM_id_some_of ((List.range S).flatMap fun s => (List.range d).map fun f => (u s f - v s f) ^ 2) (fun x => x)
  rw [show ((List.range S).flatMap fun s => (List.range d).map fun f => (u s f - v s f) ^ 2).map some =
    ((List.range S).flatMap fun s => (List.range d).map fun f => (u s f - v s f) ^ 2).map (fun t => some t) from rfl, h2]
  simp only [Option.map_some, List.map_id', Option.some.injEq]
  rw [List.flatMap_def, List.sum_flatten, List.map_map, ← listsum_range]
  congr 1

end

/-- Jensen on one segment. -/
theorem segMean_sq_le (q s f : ℕ) (hq : 0 < q) (x y : ℕ → ℕ → ℝ) :
    (q : ℝ) * (segMean q s f x - segMean q s f y) ^ 2 ≤ ∑ k ∈ Finset.range q, (x (s * q + k) f - y (s * q + k) f) ^ 2 := by
  have hq' : (0 : ℝ) < q := by exact_mod_cast hq
  have h := sq_sum_le_card_mul_sum_sq (s := Finset.range q) (f := fun k => x (s * q + k) f - y (s * q + k) f)
  rw [Finset.card_range, Finset.sum_sub_distrib] at h
  unfold segMean
  rw [← sub_div, div_pow, mul_div_assoc', div_le_iff₀ (by positivity)]
  nlinarith [h]

end Verif
