import Verif.Model.Cc
import Verif.Spec.Cc
import Verif.Proofs.Argmin
import Mathlib.RingTheory.RootsOfUnity.Complex
import Mathlib.Algebra.Order.BigOperators.Ring.Finset
import Mathlib.Algebra.Field.GeomSum
import Mathlib.Tactic.Ring
import Mathlib.Tactic.FieldSimp
import Mathlib.Tactic.Linarith
/-!
Lemmas on normalised cross-correlation.
-/
set_option linter.unusedSectionVars false
namespace Verif
open Spec Finset

/-- The `c`-th power of the basic root of unity. -/
noncomputable def rootW (N : ℕ) (c : ℤ) : ℂ := Complex.exp (2 * Real.pi * Complex.I / N) ^ c

theorem rootW_exp (N : ℕ) (c : ℤ) : rootW N c = Complex.exp (2 * Real.pi * Complex.I * c / N) := by
  unfold rootW
  rw [← Complex.exp_int_mul]
  congr 1; ring

theorem rootW_add {N : ℕ} (a b : ℤ) : rootW N (a + b) = rootW N a * rootW N b :=
  zpow_add₀ (Complex.exp_ne_zero _) a b

theorem rootW_sum {N : ℕ} (hN : 0 < N) (c : ℤ) : ∑ k ∈ range N, rootW N (k * c) = if (N : ℤ) ∣ c then (N : ℂ) else 0 := by
  have hp := Complex.isPrimitiveRoot_exp N hN.ne'
  have hk : ∀ k : ℕ, rootW N (k * c) = (rootW N c) ^ k := by
    intro k
    unfold rootW
    rw [mul_comm (k : ℤ), zpow_mul, zpow_natCast]
  simp only [hk]
  by_cases h : (N : ℤ) ∣ c
  · have : rootW N c = 1 := (hp.zpow_eq_one_iff_dvd c).2 h
    simp [this, h]
  · have hne : rootW N c ≠ 1 := fun h1 => h ((hp.zpow_eq_one_iff_dvd c).1 h1)
    rw [if_neg h, geom_sum_eq hne]
    have : (rootW N c) ^ N = 1 := by
      rw [← hk]
      exact (hp.zpow_eq_one_iff_dvd _).2 (dvd_mul_right _ _)
    rw [this]; simp

/-- The correlation theorem: the FFT computes circular correlation. -/
theorem ccFft_eq {N : ℕ} (hN : 0 < N) (s1 s2 : List (List ℝ)) (n f : ℕ) :
    ccFft N s1 s2 n f = ∑ b ∈ range N, ent s1 ((b + n) % N) f * ent s2 b f := by
  have h1 : ∀ k, fftEntry N s1 f k = ∑ a ∈ range N, (ent s1 a f : ℂ) * rootW N (-(k * a : ℤ)) := fun k => by
    unfold fftEntry
    refine sum_congr rfl fun a _ => ?_
    rw [rootW_exp]
    congr 2
    push_cast; ring
  have h2 : ∀ k, (starRingEnd ℂ) (fftEntry N s2 f k) = ∑ b ∈ range N, (ent s2 b f : ℂ) * rootW N (k * b : ℤ) := fun k => by
    unfold fftEntry
    rw [map_sum]
    refine sum_congr rfl fun b _ => ?_
    rw [map_mul, Complex.conj_ofReal, ← Complex.exp_conj, rootW_exp]
    congr 2
    simp only [map_neg, map_div₀, map_mul, Complex.conj_I, Complex.conj_ofReal, map_natCast, map_ofNat]
    push_cast; ring
  have h3 : ∀ k : ℕ, Complex.exp (2 * Real.pi * Complex.I * k * n / N) = rootW N (k * n : ℤ) := fun k => by
    rw [rootW_exp]; congr 1; push_cast; ring
  have key : ifftEntry N (fun k => fftEntry N s1 f k * (starRingEnd ℂ) (fftEntry N s2 f k)) n =
      ((∑ b ∈ range N, ent s1 ((b + n) % N) f * ent s2 b f : ℝ) : ℂ) := by
    unfold ifftEntry
    simp only [h1, h2, h3]
    have e1 : ∀ k : ℕ, (∑ a ∈ range N, (ent s1 a f : ℂ) * rootW N (-(k * a : ℤ))) *
        (∑ b ∈ range N, (ent s2 b f : ℂ) * rootW N (k * b : ℤ)) * rootW N (k * n : ℤ) =
        ∑ b ∈ range N, ∑ a ∈ range N, (ent s1 a f : ℂ) * (ent s2 b f : ℂ) * rootW N (k * (b + n - a) : ℤ) := by
      intro k
      rw [sum_mul_sum, sum_comm, sum_mul]
      refine sum_congr rfl fun b _ => ?_
      rw [sum_mul]
      refine sum_congr rfl fun a _ => ?_
      have : (k * (b + n - a) : ℤ) = -(k * a) + k * b + k * n := by ring
      rw [this, rootW_add, rootW_add]
      ring
    simp only [e1]
    rw [sum_comm]
    have e2 : ∀ b ∈ range N, (∑ k ∈ range N, ∑ a ∈ range N, (ent s1 a f : ℂ) * (ent s2 b f : ℂ) *
        rootW N (k * (b + n - a) : ℤ)) = (ent s1 ((b + n) % N) f : ℂ) * (ent s2 b f : ℂ) * N := by
      intro b _
      rw [sum_comm]
      have : ∀ a ∈ range N, (∑ k ∈ range N, (ent s1 a f : ℂ) * (ent s2 b f : ℂ) * rootW N (k * (b + n - a) : ℤ)) =
          if a = (b + n) % N then (ent s1 a f : ℂ) * (ent s2 b f : ℂ) * N else 0 := by
        intro a ha
        rw [← mul_sum, rootW_sum hN]
        have hdvd : (N : ℤ) ∣ ((b : ℤ) + n - a) ↔ a = (b + n) % N := by
          have ha' := mem_range.1 ha
          have := @Nat.modEq_iff_dvd N a (b + n)
          push_cast at this
          rw [← this, Nat.ModEq, Nat.mod_eq_of_lt ha']
        by_cases hc : a = (b + n) % N
        · rw [if_pos (hdvd.2 hc), if_pos hc]
        · rw [if_neg (fun h => hc (hdvd.1 h)), if_neg hc, mul_zero]
      rw [sum_congr rfl this, sum_ite_eq' , if_pos (mem_range.2 (Nat.mod_lt _ hN))]
    rw [sum_congr rfl e2, ← sum_mul, mul_div_assoc, div_self (Nat.cast_ne_zero.2 hN.ne'), mul_one]
    push_cast
    rfl
  unfold ccFft
  rw [key, Complex.ofReal_re]

theorem ent_zero (s : List (List ℝ)) {t : ℕ} (h : s.length ≤ t) (f : ℕ) : ent s t f = 0 := by
  unfold ent
  have : s.getD t [] = [] := by
    rw [List.getD_eq_getElem?_getD, List.getElem?_eq_none h]; rfl
  rw [this]
  simp

theorem val_nat (s : List (List ℝ)) (t f : ℕ) : val s t f = ent s t f := by
  unfold Spec.val ent
  simp

theorem val_neg (s : List (List ℝ)) {t : ℤ} (h : t < 0) (f : ℕ) : val s t f = 0 := by
  unfold Spec.val
  rw [if_neg (not_le.2 h)]

theorem val_ge (s : List (List ℝ)) {t : ℤ} (h : (s.length : ℤ) ≤ t) (f : ℕ) : val s t f = 0 := by
  obtain ⟨n, rfl⟩ := Int.eq_ofNat_of_zero_le (le_trans (Int.natCast_nonneg _) h)
  rw [val_nat, ent_zero s (by exact_mod_cast h)]

theorem fftSize_ge {sz : ℕ} (h : 0 < sz) : 2 * sz ≤ fftSize sz := by
  have := Nat.lt_pow_succ_log_self (b := 2) (by norm_num) (2 * sz - 1)
  unfold fftSize
  rw [Nat.add_comm]
  simp only [Nat.succ_eq_add_one] at this
  omega

/-- Rows of the circular correlation are lagged products. -/
theorem cc_lag_nonneg {N : ℕ} {s1 s2 : List (List ℝ)} (h1 : s1.length ≤ N) (h2 : s2.length ≤ s1.length) (hN : 2 * s1.length ≤ N)
    {n : ℕ} (hn : n < s1.length) (f : ℕ) :
    ∑ b ∈ range N, ent s1 ((b + n) % N) f * ent s2 b f = ∑ t ∈ range s2.length, val s1 (t + (n : ℤ)) f * val s2 t f := by
  rw [← sum_subset (range_subset_range.2 (h2.trans h1)) (fun b _ hb => by
    rw [ent_zero s2 (by simpa using hb), mul_zero])]
  refine sum_congr rfl fun t ht => ?_
  have := mem_range.1 ht
  rw [val_nat, Nat.mod_eq_of_lt (by omega), ← val_nat s1]
  push_cast
  rfl

theorem cc_lag_neg {N : ℕ} {s1 s2 : List (List ℝ)} (h1 : s1.length ≤ N) (h2 : s2.length ≤ s1.length) (hN : 2 * s1.length ≤ N)
    {j : ℕ} (hj0 : 0 < j) (hj : j < s1.length) (f : ℕ) :
    ∑ b ∈ range N, ent s1 ((b + (N - j)) % N) f * ent s2 b f = ∑ t ∈ range s2.length, val s1 (t + -(j : ℤ)) f * val s2 t f := by
  rw [← sum_subset (range_subset_range.2 (h2.trans h1)) (fun b _ hb => by
    rw [ent_zero s2 (by simpa using hb), mul_zero])]
  refine sum_congr rfl fun t ht => ?_
  have := mem_range.1 ht
  rw [val_nat s2]
  congr 1
  rcases Nat.lt_or_ge t j with hlt | hge
  · rw [Nat.mod_eq_of_lt (by omega), ent_zero s1 (by omega), val_neg s1 (by omega)]
  · have e : t + (N - j) = (t - j) + N := by omega
    have e2 : (t : ℤ) + -(j : ℤ) = ((t - j : ℕ) : ℤ) := by omega
    rw [e, Nat.add_mod_right, Nat.mod_eq_of_lt (by omega), e2, val_nat]

theorem ccRows_get {N sz : ℕ} (h : 2 ≤ sz) (hN : 2 * sz ≤ N) : (ccRows N sz).length = 2 * sz - 1 ∧
    ∀ k < 2 * sz - 1, (ccRows N sz)[k]? = some (if k < sz - 1 then N - (sz - 1 - k) else k - (sz - 1)) := by
  have hlen : (ccRows N sz).length = 2 * sz - 1 := by
    unfold ccRows
    rw [if_neg (by omega)]
    simp; omega
  refine ⟨hlen, fun k hk => ?_⟩
  unfold ccRows
  rw [if_neg (by omega)]
  have hl : ((List.range N).drop (N - (sz - 1))).length = sz - 1 := by simp; omega
  by_cases hk1 : k < sz - 1
  · rw [if_pos hk1, List.getElem?_append_left (by omega), List.getElem?_drop, List.getElem?_range (by omega)]
    congr 1; omega
  · rw [if_neg hk1, List.getElem?_append_right (by omega), hl, List.getElem?_take_of_lt (by omega), List.getElem?_range (by omega)]

/-- Each summed row is the lagged product. -/
theorem ccSum_eq (d : ℕ) {s1 s2 : List (List ℝ)} (h : 2 ≤ s1.length) (h2 : s2.length ≤ s1.length) {k : ℕ} (hk : k < 2 * s1.length - 1) :
    ((List.range d).map fun f => ccFft (fftSize s1.length) s1 s2
      (if k < s1.length - 1 then fftSize s1.length - (s1.length - 1 - k) else k - (s1.length - 1)) f).sum =
      lagProd d s1 s2 ((k : ℤ) - (s1.length - 1 : ℕ)) := by
  have hN := fftSize_ge (sz := s1.length) (by omega)
  have hr : ∀ g : ℕ → ℝ, ((List.range d).map g).sum = ∑ f ∈ range d, g f := fun g => by
    rw [Finset.sum_range, ← List.sum_ofFn]
    congr 1
    rw [List.ofFn_eq_map]
    exact (List.ext_getElem (by simp) fun i h1 h2 => by simp)
  rw [hr]
  unfold lagProd
  rw [sum_comm]
  refine sum_congr rfl fun f _ => ?_
  rw [ccFft_eq (by omega)]
  by_cases hk1 : k < s1.length - 1
  · rw [if_pos hk1, cc_lag_neg (by omega) h2 hN (by omega) (by omega)]
    refine sum_congr rfl fun t _ => ?_
    have : (t : ℤ) + -((s1.length - 1 - k : ℕ) : ℤ) = (t : ℤ) + ((k : ℤ) - (s1.length - 1 : ℕ)) := by omega
    rw [this]
  · rw [if_neg hk1, cc_lag_nonneg (by omega) h2 hN (by omega)]
    refine sum_congr rfl fun t _ => ?_
    have : (t : ℤ) + ((k - (s1.length - 1) : ℕ) : ℤ) = (t : ℤ) + ((k : ℤ) - (s1.length - 1 : ℕ)) := by omega
    rw [this]

theorem energy_ext (d : ℕ) (s : List (List ℝ)) {N : ℕ} (h : s.length ≤ N) :
    energy d s = ∑ t ∈ range N, ∑ f ∈ range d, ent s t f ^ 2 := by
  unfold energy
  rw [sum_subset (range_subset_range.2 h) fun t _ ht => by
    refine sum_eq_zero fun f _ => ?_
    rw [val_nat, ent_zero s (by simpa using ht)]; simp]
  simp only [val_nat]

theorem energy_crop (d : ℕ) (s : List (List ℝ)) (N : ℕ) : ∑ t ∈ range N, ∑ f ∈ range d, ent s t f ^ 2 ≤ energy d s := by
  rcases Nat.le_total s.length N with h | h
  · exact (energy_ext d s h).ge
  · rw [energy_ext d s le_rfl]
    exact sum_le_sum_of_subset_of_nonneg (range_subset_range.2 h) fun t _ _ => sum_nonneg fun f _ => sq_nonneg _

/-- Cauchy–Schwarz for circular correlations. -/
theorem cc_cauchy (d : ℕ) {N : ℕ} (hN : 0 < N) (s1 s2 : List (List ℝ)) (n : ℕ) :
    (∑ f ∈ range d, ccFft N s1 s2 n f) ^ 2 ≤ energy d s1 * energy d s2 := by
  simp only [ccFft_eq hN]
  rw [sum_comm, ← sum_product' (f := fun b f => ent s1 ((b + n) % N) f * ent s2 b f)]
  refine (sum_mul_sq_le_sq_mul_sq _ _ _).trans ?_
  refine mul_le_mul ?_ ?_ (sum_nonneg fun _ _ => sq_nonneg _) (sum_nonneg fun _ _ => sum_nonneg fun _ _ => sq_nonneg _)
  · rw [sum_product' (f := fun b f => ent s1 ((b + n) % N) f ^ 2)]
    refine le_trans (le_of_eq ?_) (energy_crop d s1 N)
    refine sum_nbij (fun b => (b + n) % N) (fun b _ => mem_range.2 (Nat.mod_lt _ hN)) ?_ ?_ (fun _ _ => rfl)
    · intro a ha b hb hab
      have ha' := mem_range.1 ha
      have hb' := mem_range.1 hb
      have : a ≡ b [MOD N] := Nat.ModEq.add_right_cancel' n hab
      rwa [Nat.ModEq, Nat.mod_eq_of_lt ha', Nat.mod_eq_of_lt hb'] at this
    · intro c hc
      have hc' := mem_range.1 hc
      refine ⟨(c + (N - n % N)) % N, mem_coe.2 (mem_range.2 (Nat.mod_lt _ hN)), ?_⟩
      have hn := Nat.mod_lt n hN
      have : ((c + (N - n % N)) % N + n) % N = c := by
        rw [Nat.mod_add_mod]
        have e : c + (N - n % N) + n = c + N * (n / N + 1) := by
          have h1 := Nat.div_add_mod n N
          have h2 : N * (n / N + 1) = N * (n / N) + N := by ring
          omega
        rw [e, Nat.add_mul_mod_self_left, Nat.mod_eq_of_lt hc']
      exact this
  · rw [sum_product' (f := fun b f => ent s2 b f ^ 2)]
    exact energy_crop d s2 N

end Verif
