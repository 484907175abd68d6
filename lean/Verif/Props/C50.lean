import Verif.Proofs.Cc
import Mathlib.Tactic.NormNum
/-!
C50: normalised cross-correlation is computed through the FFT. The theorems below identify it with the lagged inner products,
bound it, and describe the shift applied by `y_shifted_sbd_vec`.
-/
set_option linter.unusedSectionVars false
namespace Verif
open Spec Finset

theorem list_range_sum (d : ℕ) (g : ℕ → ℝ) : ((List.range d).map g).sum = ∑ f ∈ range d, g f := by
  induction d with
  | zero => simp
  | succ n ih => rw [List.range_succ, List.map_append, List.sum_append, ih, sum_range_succ]; simp

theorem list_sum_getD {A : Type*} (z : A) (g : A → ℝ) (l : List A) : (l.map g).sum = ∑ t ∈ range l.length, g (l.getD t z) := by
  rw [← list_range_sum]
  congr 1
  refine List.ext_getElem (by simp) fun i h1 h2 => ?_
  simp at h1
  simp [List.getD_eq_getElem?_getD, h1]

theorem frobNorm_sq {d : ℕ} {s : List (List ℝ)} (h : Wide d s) : frobNorm s = √(energy d s) := by
  unfold frobNorm energy
  congr 1
  rw [list_sum_getD ([] : List ℝ)]
  refine sum_congr rfl fun t ht => ?_
  have ht' := mem_range.1 ht
  have hr : (s.getD t []).length = d := by
    rw [List.getD_eq_getElem?_getD, List.getElem?_eq_getElem ht']
    exact h _ (List.getElem_mem ht')
  rw [list_sum_getD (0 : ℝ), hr]
  refine sum_congr rfl fun f _ => ?_
  rw [val_nat, sq]; rfl

theorem energy_nonneg (d : ℕ) (s : List (List ℝ)) : 0 ≤ energy d s := sum_nonneg fun _ _ => sum_nonneg fun _ _ => sq_nonneg _

theorem honest_norm {d : ℕ} {s : List (List ℝ)} (h : Wide d s) {n : ℝ} (hn : Honest d s n) :
    (if n < 0 then frobNorm s else n) = √(energy d s) := by
  rcases hn with hn | hn
  · rw [if_pos hn, frobNorm_sq h]
  · rw [if_neg (not_lt.2 (by rw [hn]; exact Real.sqrt_nonneg _)), hn]

theorem normalizedCc_honest {d : ℕ} {s1 s2 : List (List ℝ)} (w1 : Wide d s1) (w2 : Wide d s2) {n1 n2 : ℝ} (hn1 : Honest d s1 n1)
    (hn2 : Honest d s2 n2) : normalizedCc d s1 s2 n1 n2 = (ccRows (fftSize s1.length) s1.length).map fun n =>
      if √(energy d s1) * √(energy d s2) < 1 / 1000000000 then 0
      else (∑ f ∈ range d, ccFft (fftSize s1.length) s1 s2 n f) / (√(energy d s1) * √(energy d s2)) := by
  unfold normalizedCc
  rw [honest_norm w1 hn1, honest_norm w2 hn2]
  simp only [list_range_sum]

/-- For series of the same length `sz ≥ 2` the result has `2 sz - 1` entries, entry `k` being the inner product of `s1` advanced
by `k - (sz - 1)` with `s2`, over the product of the two norms — or 0 when that product is below `1e-9`. -/
theorem C50_value {d : ℕ} {s1 s2 : List (List ℝ)} (w1 : Wide d s1) (w2 : Wide d s2) (h : 2 ≤ s1.length)
    (h2 : s2.length = s1.length) {n1 n2 : ℝ} (hn1 : Honest d s1 n1) (hn2 : Honest d s2 n2) :
    (normalizedCc d s1 s2 n1 n2).length = 2 * s1.length - 1 ∧
    ∀ k < 2 * s1.length - 1, (normalizedCc d s1 s2 n1 n2)[k]? =
      some (if √(energy d s1) * √(energy d s2) < 1 / 1000000000 then 0
        else lagProd d s1 s2 ((k : ℤ) - (s1.length - 1 : ℕ)) / (√(energy d s1) * √(energy d s2))) := by
  obtain ⟨hl, hg⟩ := ccRows_get h (fftSize_ge (sz := s1.length) (by omega))
  unfold normalizedCc
  rw [honest_norm w1 hn1, honest_norm w2 hn2]
  refine ⟨by rw [List.length_map]; exact hl, fun k hk => ?_⟩
  rw [List.getElem?_map, hg k hk, Option.map_some, ccSum_eq d h h2.le hk]

example : Wide 1 [[3], [4]] ∧ Wide 1 [[1], [0]] ∧ 2 ≤ ([[3], [4]] : List (List ℝ)).length ∧ Honest 1 [[3], [4]] 5 ∧
    Honest 1 [[1], [0]] (-1) ∧ lagProd 1 [[3], [4]] [[1], [0]] 1 = 4 := by
  refine ⟨by simp [Wide], by simp [Wide], by simp, .inr ?_, .inl (by norm_num), by simp [lagProd, sum_range_succ, Spec.val]⟩
  have : energy 1 [[3], [4]] = 5 ^ 2 := by simp [energy, sum_range_succ, Spec.val]; norm_num
  rw [this, Real.sqrt_sq (by norm_num)]

/-- Every value lies in `[-1, 1]`, for series of any lengths, and is 0 when a norm is 0. -/
theorem C50_bounds {d : ℕ} {s1 s2 : List (List ℝ)} (w1 : Wide d s1) (w2 : Wide d s2)
    {n1 n2 : ℝ} (hn1 : Honest d s1 n1) (hn2 : Honest d s2 n2) {v : ℝ} (hv : v ∈ normalizedCc d s1 s2 n1 n2) :
    -1 ≤ v ∧ v ≤ 1 ∧ (energy d s1 = 0 ∨ energy d s2 = 0 → v = 0) := by
  unfold normalizedCc at hv
  rw [honest_norm w1 hn1, honest_norm w2 hn2] at hv
  obtain ⟨n, _, rfl⟩ := List.mem_map.1 hv
  have hz : energy d s1 = 0 ∨ energy d s2 = 0 → √(energy d s1) * √(energy d s2) < 1 / 1000000000 := by
    rintro (h | h) <;> rw [h] <;> norm_num
  by_cases hc : √(energy d s1) * √(energy d s2) < 1 / 1000000000
  · simp only [if_pos hc]; norm_num
  · simp only [if_neg hc]
    have hpos : 0 < √(energy d s1) * √(energy d s2) := lt_of_lt_of_le (by norm_num) (not_lt.1 hc)
    rw [list_range_sum]
    have hcs := cc_cauchy d (N := fftSize s1.length) (by unfold fftSize; positivity) s1 s2 n
    have habs : |∑ f ∈ range d, ccFft (fftSize s1.length) s1 s2 n f| ≤ √(energy d s1) * √(energy d s2) := by
      rw [← Real.sqrt_mul (energy_nonneg d s1)]
      exact Real.abs_le_sqrt hcs
    obtain ⟨ha, hb⟩ := abs_le.1 habs
    refine ⟨?_, ?_, fun h => absurd (hz h) hc⟩
    · rw [le_div_iff₀ hpos]; linarith
    · rw [div_le_one hpos]; exact hb

theorem foldl_max_ge (l : List ℝ) (a : ℝ) : a ≤ l.foldl max a ∧ ∀ x ∈ l, x ≤ l.foldl max a := by
  induction l generalizing a with
  | nil => simp
  | cons b l ih =>
    obtain ⟨h1, h2⟩ := ih (max a b)
    refine ⟨(le_max_left a b).trans h1, fun x hx => ?_⟩
    rcases List.mem_cons.1 hx with rfl | hx
    · exact (le_max_right a x).trans h1
    · exact h2 x hx

theorem foldl_max_mem (l : List ℝ) (a : ℝ) : l.foldl max a = a ∨ l.foldl max a ∈ l := by
  induction l generalizing a with
  | nil => simp
  | cons b l ih =>
    rcases ih (max a b) with h | h
    · rcases max_choice a b with hm | hm
      · left; rw [List.foldl_cons, h, hm]
      · right; rw [List.foldl_cons, h, hm]; simp
    · right; rw [List.foldl_cons]; exact List.mem_cons_of_mem _ h

/-- `listMax` is the greatest element. -/
theorem listMax_spec {l : List ℝ} (h : l ≠ []) : listMax l ∈ l ∧ ∀ x ∈ l, x ≤ listMax l := by
  cases l with
  | nil => exact absurd rfl h
  | cons a l =>
    obtain ⟨h1, h2⟩ := foldl_max_ge l a
    refine ⟨?_, fun x hx => ?_⟩
    · rcases foldl_max_mem l a with h | h
      · exact List.mem_cons.2 (.inl h)
      · exact List.mem_cons_of_mem _ h
    · rcases List.mem_cons.1 hx with rfl | hx
      · exact h1
      · exact h2 x hx

theorem normalizedCc_ne (d : ℕ) {s1 s2 : List (List ℝ)} (h : 0 < s1.length) (n1 n2 : ℝ) : normalizedCc d s1 s2 n1 n2 ≠ [] := by
  unfold normalizedCc
  simp only [ne_eq, List.map_eq_nil_iff]
  unfold ccRows
  intro he
  obtain ⟨_, he⟩ := List.append_eq_nil_iff.1 he
  have := congrArg List.length he
  have hN := fftSize_ge h
  rw [List.length_take, List.length_range, List.length_nil] at this
  omega

/-- A series compared with itself attains 1, provided its energy is not below `1e-9`; below, everything is 0. -/
theorem C50_self {d : ℕ} {s : List (List ℝ)} (w : Wide d s) (h : 0 < s.length) {n1 n2 : ℝ} (hn1 : Honest d s n1)
    (hn2 : Honest d s n2) :
    listMax (normalizedCc d s s n1 n2) = if energy d s < 1 / 1000000000 then 0 else 1 := by
  have hsq : √(energy d s) * √(energy d s) = energy d s := Real.mul_self_sqrt (energy_nonneg d s)
  obtain ⟨hm, hmax⟩ := listMax_spec (normalizedCc_ne d (s2 := s) h n1 n2)
  by_cases hc : energy d s < 1 / 1000000000
  · rw [if_pos hc]
    rw [normalizedCc_honest w w hn1 hn2] at hm ⊢
    simp only [hsq, if_pos hc] at hm ⊢
    obtain ⟨n, _, hn⟩ := List.mem_map.1 hm
    exact hn.symm
  · rw [if_neg hc]
    refine le_antisymm (C50_bounds w w hn1 hn2 hm).2.1 (hmax 1 ?_)
    rw [normalizedCc_honest w w hn1 hn2]
    simp only [hsq]
    have hN := fftSize_ge h
    refine List.mem_map.2 ⟨0, ?_, ?_⟩
    · unfold ccRows
      refine List.mem_append_right _ ?_
      rw [List.mem_take_iff_getElem]
      exact ⟨0, by simp; omega, by simp⟩
    · rw [if_neg hc, div_eq_one_iff_eq (by intro h0; rw [h0] at hc; exact hc (by norm_num)),
        energy_ext d s (N := fftSize s.length) (by omega), sum_comm]
      refine sum_congr rfl fun f _ => ?_
      rw [ccFft_eq (by omega)]
      refine sum_congr rfl fun b hb => ?_
      rw [Nat.add_zero, Nat.mod_eq_of_lt (mem_range.1 hb), sq]

example : listMax (normalizedCc 1 [[3], [4]] [[3], [4]] (-1) (-1)) = 1 := by
  rw [C50_self (by simp [Wide]) (by simp) (.inl (by norm_num)) (.inl (by norm_num))]
  rw [if_neg]
  simp [energy, sum_range_succ, Spec.val]; norm_num

/-- "Identical series attain 1" is false of a non-zero series with small energy: `[1e-5, 0]` has similarity 0 to itself. -/
theorem C50_false_self : listMax (normalizedCc 1 [[1 / 100000], [0]] [[1 / 100000], [0]] (-1) (-1)) = 0 := by
  rw [C50_self (by simp [Wide]) (by simp) (.inl (by norm_num)) (.inl (by norm_num))]
  rw [if_pos]
  simp [energy, sum_range_succ, Spec.val]; norm_num

/-- Lagged products are symmetric under exchange and reversal of the lag. -/
theorem lagProd_swap (d : ℕ) {s1 s2 : List (List ℝ)} (lag : ℤ) : lagProd d s1 s2 lag = lagProd d s2 s1 (-lag) := by
  have key : ∀ (a b : List (List ℝ)) (l : ℤ), lagProd d a b l =
      ∑ p ∈ (range b.length ×ˢ range a.length).filter (fun p => (p.2 : ℤ) = p.1 + l), ∑ f ∈ range d, ent a p.2 f * ent b p.1 f := by
    intro a b l
    rw [sum_filter, sum_product]
    unfold lagProd
    refine sum_congr rfl fun t _ => ?_
    by_cases h0 : (t : ℤ) + l < 0
    · rw [sum_eq_zero (fun f _ => by rw [val_neg a h0, zero_mul])]
      refine (sum_eq_zero fun u _ => ?_).symm
      rw [if_neg (by omega)]
    · obtain ⟨u, hu⟩ := Int.eq_ofNat_of_zero_le (not_lt.1 h0)
      rw [hu]
      simp only [val_nat]
      by_cases hu' : u < a.length
      · rw [sum_eq_single_of_mem u (mem_range.2 hu')]
        · rw [if_pos hu.symm]
        · intro v _ hv
          rw [if_neg (fun h : (v : ℤ) = t + l => hv (by omega))]
      · rw [sum_eq_zero (fun f _ => by rw [ent_zero a (by omega), zero_mul])]
        refine (sum_eq_zero fun v hv => ?_).symm
        have := mem_range.1 hv
        rw [if_neg (fun h : (v : ℤ) = t + l => by omega)]
  rw [key, key]
  refine sum_nbij' (fun p => (p.2, p.1)) (fun p => (p.2, p.1)) ?_ ?_ (by simp) (by simp) ?_
  · intro p hp
    simp only [mem_filter, mem_product] at hp ⊢
    exact ⟨⟨hp.1.2, hp.1.1⟩, by omega⟩
  · intro p hp
    simp only [mem_filter, mem_product] at hp ⊢
    exact ⟨⟨hp.1.2, hp.1.1⟩, by omega⟩
  · intro p _
    exact sum_congr rfl fun f _ => mul_comm _ _

/-- Exchanging the series reverses the sequence, so the greatest value does not depend on the order. -/
theorem C50_swap {d : ℕ} {s1 s2 : List (List ℝ)} (w1 : Wide d s1) (w2 : Wide d s2) (h : 2 ≤ s1.length)
    (h2 : s2.length = s1.length) {n1 n2 : ℝ} (hn1 : Honest d s1 n1) (hn2 : Honest d s2 n2) :
    normalizedCc d s2 s1 n2 n1 = (normalizedCc d s1 s2 n1 n2).reverse ∧
      listMax (normalizedCc d s2 s1 n2 n1) = listMax (normalizedCc d s1 s2 n1 n2) := by
  have hrev : normalizedCc d s2 s1 n2 n1 = (normalizedCc d s1 s2 n1 n2).reverse := by
    obtain ⟨l1, g1⟩ := C50_value w1 w2 h h2 hn1 hn2
    obtain ⟨l2, g2⟩ := C50_value w2 w1 (by omega) h2.symm hn2 hn1
    refine List.ext_getElem? fun k => ?_
    by_cases hk : k < 2 * s1.length - 1
    · rw [g2 k (by omega), List.getElem?_reverse (by omega), l1, g1 _ (by omega), mul_comm, lagProd_swap d, h2]
      congr 4
      omega
    · rw [List.getElem?_eq_none (by omega), List.getElem?_eq_none (by simp; omega)]
  refine ⟨hrev, ?_⟩
  have hne := normalizedCc_ne d (s2 := s2) (show 0 < s1.length by omega) n1 n2
  obtain ⟨a, b⟩ := listMax_spec hne
  rw [hrev]
  obtain ⟨a', b'⟩ := listMax_spec (l := (normalizedCc d s1 s2 n1 n2).reverse) (by simpa using hne)
  exact le_antisymm (b _ (by simpa using a')) (b' _ (by simpa using a))

example : Wide 1 [[3], [4]] ∧ Wide 1 [[1], [0]] ∧ Honest 1 [[3], [4]] (-1) :=
  ⟨by simp [Wide], by simp [Wide], .inl (by norm_num)⟩

/-- `self_similarity=True` on one dataset of equal-length series (`sz ≥ 2`) gives the same entries as `False` off the diagonal,
and 0 on it. -/
theorem C50_cdist_self {d : ℕ} {D : List (List (List ℝ))} {sz : ℕ} (hsz : 2 ≤ sz) (hD : ∀ s ∈ D, s.length = sz ∧ Wide d s)
    {norms : List ℝ} (hh : (∃ n ∈ norms, n < 0) ∨ norms = D.map fun s => √(energy d s)) {i j : ℕ} (hi : i < D.length) (hj : j < D.length) :
    cdistCcEntry d D D norms norms true i j = if i = j then .ok 0 else cdistCcEntry d D D norms norms false i j := by
  have hfill : ∀ i < D.length, (fillNorms D norms)[i]? = some √(energy d (D.getD i [])) := by
    intro i hi
    have hget : D.getD i [] = D[i] := by rw [List.getD_eq_getElem?_getD, List.getElem?_eq_getElem hi]; rfl
    have hw := (hD _ (List.getElem_mem hi)).2
    unfold fillNorms
    by_cases hc : ∃ n ∈ norms, n < 0
    · rw [if_pos hc, List.getElem?_map, List.getElem?_eq_getElem hi, Option.map_some, frobNorm_sq hw, hget]
    · rw [if_neg hc, hh.resolve_left hc, List.getElem?_map, List.getElem?_eq_getElem hi, Option.map_some, hget]
  have hmem : ∀ i < D.length, (D.getD i []).length = sz ∧ Wide d (D.getD i []) := by
    intro i hi
    rw [show D.getD i [] = D[i] by rw [List.getD_eq_getElem?_getD, List.getElem?_eq_getElem hi]; rfl]
    exact hD _ (List.getElem_mem hi)
  unfold cdistCcEntry
  simp only [hfill i hi, hfill j hj, if_true]
  rcases lt_trichotomy i j with h | h | h
  · rw [if_neg (by omega), if_pos h, if_neg (by omega)]
    simp only [Bool.false_eq_true, if_false]
    rw [(C50_swap (hmem i hi).2 (hmem j hj).2 (by rw [(hmem i hi).1]; exact hsz) (by rw [(hmem i hi).1, (hmem j hj).1])
      (.inr rfl) (.inr rfl)).2]
  · rw [if_neg (by omega), if_neg (by omega), if_pos h]
  · rw [if_pos h, if_neg (by omega)]
    simp

example : (∀ s ∈ [[[3], [4]], [[1], [0]]], s.length = 2 ∧ Wide 1 s) ∧ ∃ n ∈ [(-1 : ℝ), -1], n < 0 := by
  constructor
  · simp [Wide]
  · exact ⟨-1, by simp, by norm_num⟩

/-- Between datasets (`self_similarity=False`) an entry is the greatest similarity over all lags; the norms are recomputed when
one of those given is negative. -/
theorem C50_cdist {d : ℕ} {D1 D2 : List (List (List ℝ))} {sz : ℕ} (hsz : 2 ≤ sz) (hD1 : ∀ s ∈ D1, s.length = sz ∧ Wide d s)
    (hD2 : ∀ s ∈ D2, s.length = sz ∧ Wide d s) {norms1 norms2 : List ℝ}
    (hh1 : (∃ n ∈ norms1, n < 0) ∨ norms1 = D1.map fun s => √(energy d s))
    (hh2 : (∃ n ∈ norms2, n < 0) ∨ norms2 = D2.map fun s => √(energy d s)) {i j : ℕ} (hi : i < D1.length) (hj : j < D2.length)
    (hbig : 1 / 1000000000 ≤ √(energy d D1[i]) * √(energy d D2[j])) :
    ∃ v, cdistCcEntry d D1 D2 norms1 norms2 false i j = .ok v ∧ -1 ≤ v ∧ v ≤ 1 ∧
      (∃ lag : ℤ, -(sz : ℤ) < lag ∧ lag < sz ∧ v = lagProd d D1[i] D2[j] lag / (√(energy d D1[i]) * √(energy d D2[j]))) ∧
      ∀ lag : ℤ, -(sz : ℤ) < lag → lag < sz → lagProd d D1[i] D2[j] lag / (√(energy d D1[i]) * √(energy d D2[j])) ≤ v := by
  have hfill : ∀ (D : List (List (List ℝ))) (norms : List ℝ), (∀ s ∈ D, s.length = sz ∧ Wide d s) →
      ((∃ n ∈ norms, n < 0) ∨ norms = D.map fun s => √(energy d s)) → ∀ (i : ℕ) (hi : i < D.length),
      (fillNorms D norms)[i]? = some √(energy d D[i]) ∧ D.getD i [] = D[i] := by
    intro D norms hD hh i hi
    refine ⟨?_, by rw [List.getD_eq_getElem?_getD, List.getElem?_eq_getElem hi]; rfl⟩
    have hw := (hD _ (List.getElem_mem hi)).2
    unfold fillNorms
    by_cases hc : ∃ n ∈ norms, n < 0
    · rw [if_pos hc, List.getElem?_map, List.getElem?_eq_getElem hi, Option.map_some, frobNorm_sq hw]
    · rw [if_neg hc, hh.resolve_left hc, List.getElem?_map, List.getElem?_eq_getElem hi, Option.map_some]
  obtain ⟨a1, b1⟩ := hfill D1 norms1 hD1 hh1 i hi
  obtain ⟨a2, b2⟩ := hfill D2 norms2 hD2 hh2 j hj
  obtain ⟨l1, w1⟩ := hD1 _ (List.getElem_mem hi)
  obtain ⟨l2, w2⟩ := hD2 _ (List.getElem_mem hj)
  have hn1 : Honest d D1[i] √(energy d D1[i]) := .inr rfl
  have hn2 : Honest d D2[j] √(energy d D2[j]) := .inr rfl
  obtain ⟨hlen, hval⟩ := C50_value w1 w2 (by omega) (by omega) hn1 hn2
  obtain ⟨hm, hmax⟩ := listMax_spec (normalizedCc_ne d (s2 := D2[j]) (show 0 < D1[i].length by omega) √(energy d D1[i]) √(energy d D2[j]))
  refine ⟨_, by unfold cdistCcEntry; simp only [a1, a2, b1, b2]; rfl, ?_, ?_, ?_, ?_⟩
  · exact (C50_bounds w1 w2 hn1 hn2 hm).1
  · exact (C50_bounds w1 w2 hn1 hn2 hm).2.1
  · obtain ⟨k, hk⟩ := List.mem_iff_getElem?.1 hm
    have hk' : k < 2 * D1[i].length - 1 := by
      by_contra hge
      rw [List.getElem?_eq_none (by omega)] at hk
      cases hk
    rw [hval k hk', if_neg (not_lt.2 hbig)] at hk
    exact ⟨_, by omega, by omega, (Option.some.inj hk).symm⟩
  · intro lag hl hu
    obtain ⟨k, hk⟩ := Int.eq_ofNat_of_zero_le (show 0 ≤ lag + (sz - 1 : ℕ) by omega)
    have hv := hval k (by omega)
    rw [if_neg (not_lt.2 hbig), show (k : ℤ) - (D1[i].length - 1 : ℕ) = lag by omega] at hv
    exact hmax _ (List.mem_iff_getElem?.2 ⟨k, hv⟩)

/-- `y_shifted_sbd_vec` for length `sz ≥ 2`: each series comes back shifted by one lag in `(-sz, sz)`, zeros entering; when the
norms are not too small that lag is the first with the greatest inner product with the reference. -/
theorem C50_shift {d : ℕ} {ref : List (List ℝ)} {D : List (List (List ℝ))} (hsz : 2 ≤ ref.length) (wr : Wide d ref)
    (hD : ∀ s ∈ D, s.length = ref.length ∧ Wide d s) {normRef : ℝ} {norms : List ℝ} (hr : Honest d ref normRef)
    (hh : (∃ n ∈ norms, n < 0) ∨ norms = D.map fun s => √(energy d s)) :
    (yShifted d ref D normRef norms).length = D.length ∧
    ∀ (i : ℕ) (hi : i < D.length), ∃ out, (yShifted d ref D normRef norms)[i]? = some out ∧ out.length = ref.length ∧ Wide d out ∧
      ∃ lag : ℤ, -(ref.length : ℤ) < lag ∧ lag < ref.length ∧
        (∀ t < ref.length, ∀ f < d, ent out t f = val D[i] (t - lag) f) ∧
        (1 / 1000000000 ≤ √(energy d ref) * √(energy d D[i]) →
          (∀ l : ℤ, -(ref.length : ℤ) < l → l < ref.length → lagProd d ref D[i] l ≤ lagProd d ref D[i] lag) ∧
          ∀ l : ℤ, -(ref.length : ℤ) < l → l < lag → lagProd d ref D[i] l < lagProd d ref D[i] lag) := by
  refine ⟨by simp [yShifted], fun i hi => ?_⟩
  obtain ⟨hl, w⟩ := hD _ (List.getElem_mem hi)
  have hfill : (fillNorms D norms).getD i 0 = √(energy d D[i]) := by
    rw [List.getD_eq_getElem?_getD]
    unfold fillNorms
    by_cases hc : ∃ n ∈ norms, n < 0
    · rw [if_pos hc, List.getElem?_map, List.getElem?_eq_getElem hi, Option.map_some, frobNorm_sq w]; rfl
    · rw [if_neg hc, hh.resolve_left hc, List.getElem?_map, List.getElem?_eq_getElem hi, Option.map_some]; rfl
  have hget : (yShifted d ref D normRef norms)[i]? = some ((List.range D[i].length).map fun t => (List.range d).map fun f =>
      shiftedEntry d ref D[i] normRef √(energy d D[i]) t f) := by
    unfold yShifted
    rw [List.getElem?_mapIdx, List.getElem?_eq_getElem hi, Option.map_some, hfill]
  refine ⟨_, hget, by simp [hl], ?_, ?_⟩
  · intro r hr
    obtain ⟨t, _, rfl⟩ := List.mem_map.1 hr
    simp
  have hnr : Honest d ref (if normRef < 0 then frobNorm ref else normRef) := by
    rw [honest_norm wr hr]; exact .inr rfl
  have hnx : Honest d D[i] √(energy d D[i]) := .inr rfl
  generalize hx : D[i] = x at *
  obtain ⟨hlen, hval⟩ := C50_value wr w hsz hl hnr hnx
  have hne := normalizedCc_ne d (s2 := x) (show 0 < ref.length by omega) (if normRef < 0 then frobNorm ref else normRef) √(energy d x)
  set cc := normalizedCc d ref x (if normRef < 0 then frobNorm ref else normRef) √(energy d x) with hcc
  have hspec := argminL_spec (cc.map fun x => -x) (by simpa using hne)
  obtain ⟨idx, hidx⟩ : ∃ idx, argminL (cc.map fun x => -x) = idx := ⟨_, rfl⟩
  rw [hidx] at hspec
  obtain ⟨v, h1, h2, h3⟩ := hspec
  have hlt : idx < 2 * ref.length - 1 := by
    have := (List.getElem?_eq_some_iff.1 h1).1
    rw [List.length_map, hlen] at this
    exact this
  refine ⟨(idx : ℤ) - (ref.length - 1 : ℕ), by omega, by omega, ?_, ?_⟩
  · intro t ht f hf
    have he : ent ((List.range x.length).map fun t => (List.range d).map fun f =>
        shiftedEntry d ref x normRef √(energy d x) t f) t f = shiftedEntry d ref x normRef √(energy d x) t f := by
      simp [ent, List.getD_eq_getElem?_getD, hl, ht, hf]
    rw [he]
    have hax : argmaxL (normalizedCc d ref x (if normRef < 0 then frobNorm ref else normRef) √(energy d x)) = idx := by
      rw [← hcc]; exact hidx
    unfold shiftedEntry
    simp only [hax, hl]
    by_cases ha : ref.length < idx + 1
    · rw [if_pos ha]
      by_cases hb : idx + 1 - ref.length ≤ t
      · rw [if_pos hb, show (t : ℤ) - ((idx : ℤ) - (ref.length - 1 : ℕ)) = ((t - (idx + 1 - ref.length) : ℕ) : ℤ) by omega, val_nat]
        unfold ent
        rw [List.getD_eq_getElem?_getD (l := x.take _), List.getElem?_take_of_lt (by omega), ← List.getD_eq_getElem?_getD]
      · rw [if_neg hb, val_neg x (by omega)]
    · rw [if_neg ha]
      by_cases hb : idx + 1 < ref.length
      · rw [if_pos hb]
        by_cases hc : t < ref.length - (ref.length - (idx + 1))
        · rw [if_pos hc, show (t : ℤ) - ((idx : ℤ) - (ref.length - 1 : ℕ)) = ((ref.length - (idx + 1) + t : ℕ) : ℤ) by omega, val_nat]
          unfold ent
          rw [List.getD_eq_getElem?_getD (l := x.drop _), List.getElem?_drop, ← List.getD_eq_getElem?_getD]
        · rw [if_neg hc, val_ge x (by omega)]
      · rw [if_neg hb, show (t : ℤ) - ((idx : ℤ) - (ref.length - 1 : ℕ)) = ((t : ℕ) : ℤ) by omega, val_nat]
  · intro hbig
    have hpos : 0 < √(energy d ref) * √(energy d x) := lt_of_lt_of_le (by norm_num) hbig
    simp only [if_neg (not_lt.2 hbig)] at hval
    have hv : v = -(lagProd d ref x ((idx : ℤ) - (ref.length - 1 : ℕ)) / (√(energy d ref) * √(energy d x))) := by
      rw [List.getElem?_map, hval idx hlt, Option.map_some] at h1
      exact (Option.some.inj h1).symm
    have hat : ∀ l : ℤ, -(ref.length : ℤ) < l → l < ref.length → ∃ k : ℕ, (k : ℤ) = l + (ref.length - 1 : ℕ) ∧
        (cc.map fun x => -x)[k]? = some (-(lagProd d ref x l / (√(energy d ref) * √(energy d x)))) := by
      intro l hl hu
      obtain ⟨k, hk⟩ := Int.eq_ofNat_of_zero_le (show 0 ≤ l + (ref.length - 1 : ℕ) by omega)
      refine ⟨k, hk.symm, ?_⟩
      rw [List.getElem?_map, hval k (by omega), Option.map_some, show (k : ℤ) - (ref.length - 1 : ℕ) = l by omega]
    refine ⟨fun l hl hu => ?_, fun l hl hu => ?_⟩
    · obtain ⟨k, -, hk⟩ := hat l hl hu
      have := h2 _ (List.mem_iff_getElem?.2 ⟨k, hk⟩)
      rw [hv, neg_le_neg_iff, div_le_div_iff_of_pos_right hpos] at this
      exact this
    · obtain ⟨k, hk1, hk⟩ := hat l hl (by omega)
      have := h3 k (by omega) _ hk
      rw [hv, neg_lt_neg_iff, div_lt_div_iff_of_pos_right hpos] at this
      exact this

example : 2 ≤ ([[1], [2], [0]] : List (List ℝ)).length ∧ Wide 1 [[1], [2], [0]] ∧
    (∀ s ∈ ([[[0], [1], [2]]] : List (List (List ℝ))), s.length = 3 ∧ Wide 1 s) ∧ Honest 1 [[1], [2], [0]] (-1) ∧
    (∃ n ∈ [(-1 : ℝ)], n < 0) ∧ lagProd 1 [[1], [2], [0]] [[0], [1], [2]] (-1) = 5 := by
  refine ⟨by simp, by simp [Wide], by simp [Wide], .inl (by norm_num), ⟨-1, by simp, by norm_num⟩, ?_⟩
  simp [lagProd, sum_range_succ, Spec.val]; norm_num

/-- The inner product of the reference with the shifted series is the lagged product: the shift returned by
`y_shifted_sbd_vec` aligns the series with the reference as well as any shift can. -/
theorem C50_align {d : ℕ} (ref x : List (List ℝ)) (lag : ℤ) :
    ∑ t ∈ range ref.length, ∑ f ∈ range d, ent ref t f * val x (t - lag) f = lagProd d ref x lag := by
  rw [lagProd_swap]
  unfold lagProd
  refine sum_congr rfl fun t _ => sum_congr rfl fun f _ => ?_
  rw [val_nat ref, mul_comm, sub_eq_add_neg]

/-- A zero reference moves every series as far left as possible: of the input only the last sample survives, as the first of
the output. -/
theorem C50_zero_ref {d : ℕ} {ref x : List (List ℝ)} (hsz : 2 ≤ ref.length) (wr : Wide d ref) (wx : Wide d x)
    (hl : x.length = ref.length) (h0 : energy d ref = 0) (t f : ℕ) :
    shiftedEntry d ref x (-1) √(energy d x) t f = if t = 0 then ent x (ref.length - 1) f else 0 := by
  have hnr : Honest d ref (if (-1 : ℝ) < 0 then frobNorm ref else -1) := by
    rw [honest_norm wr (.inl (by norm_num))]; exact .inr rfl
  have hne := normalizedCc_ne d (s2 := x) (show 0 < ref.length by omega) (if (-1 : ℝ) < 0 then frobNorm ref else -1) √(energy d x)
  have hidx : argmaxL (normalizedCc d ref x (if (-1 : ℝ) < 0 then frobNorm ref else -1) √(energy d x)) = 0 := by
    obtain ⟨v, h1, -, h3⟩ := argminL_spec ((normalizedCc d ref x (if (-1 : ℝ) < 0 then frobNorm ref else -1)
      √(energy d x)).map fun x => -x) (by simpa using hne)
    unfold argmaxL
    by_contra hk
    have hz : ∀ w ∈ (normalizedCc d ref x (if (-1 : ℝ) < 0 then frobNorm ref else -1) √(energy d x)).map fun x => -x, w = 0 := by
      intro w hw
      obtain ⟨u, hu, rfl⟩ := List.mem_map.1 hw
      rw [(C50_bounds wr wx hnr (.inr rfl) hu).2.2 (.inl h0), neg_zero]
    have hlen := List.length_pos_iff.2 (show (normalizedCc d ref x (if (-1 : ℝ) < 0 then frobNorm ref else -1)
      √(energy d x)).map (fun x => -x) ≠ [] by simpa using hne)
    have := h3 0 (by omega) _ (List.getElem?_eq_getElem hlen)
    rw [hz _ (List.mem_iff_getElem?.2 ⟨_, h1⟩), hz _ (List.getElem_mem hlen)] at this
    exact lt_irrefl _ this
  unfold shiftedEntry
  simp only [hidx, hl]
  rw [if_neg (by omega), if_pos (by omega)]
  by_cases h : t = 0
  · rw [if_pos (by omega), if_pos h, h]
    unfold ent
    rw [List.getD_eq_getElem?_getD (l := x.drop _), List.getElem?_drop, ← List.getD_eq_getElem?_getD]
    rfl
  · rw [if_neg (by omega), if_neg h]

example : Wide 1 [[0], [0]] ∧ Wide 1 [[5], [7]] ∧ energy 1 [[0], [0]] = 0 := by
  refine ⟨by simp [Wide], by simp [Wide], by simp [energy, sum_range_succ, Spec.val]⟩

/-- For series of length one the documented shape `(2 * sz - 1,)` is wrong: three values come back, since `cc[-0:]` is the whole
array. -/
theorem C50_false_length (d : ℕ) {s1 s2 : List (List ℝ)} (h : s1.length = 1) (n1 n2 : ℝ) :
    (normalizedCc d s1 s2 n1 n2).length = 3 := by
  unfold normalizedCc
  rw [List.length_map, h]
  simp [ccRows, fftSize]

/-- Length one again: the series `[-1]` is shifted out entirely against the reference `[1]`. -/
theorem C50_false_shift : yShifted 1 [[1]] [[[-1]]] (-1) [-1] = [[[0]]] := by
  have hN : fftSize 1 = 2 := by simp [fftSize]
  have w1 : Wide 1 [[1]] := by simp [Wide]
  have w2 : Wide 1 [[-1]] := by simp [Wide]
  have e1 : energy 1 [[1]] = 1 := by simp [energy, Spec.val]
  have e2 : energy 1 [[-1]] = 1 := by simp [energy, Spec.val]
  have hcc : normalizedCc 1 [[1]] [[-1]] (if (-1 : ℝ) < 0 then frobNorm [[1]] else -1) (frobNorm [[-1]]) = [-1, 0, -1] := by
    have : Honest 1 [[1]] (if (-1 : ℝ) < 0 then frobNorm [[1]] else -1) := by
      rw [honest_norm w1 (.inl (by norm_num))]; exact .inr rfl
    rw [normalizedCc_honest w1 w2 this (.inr (frobNorm_sq w2)), e1, e2]
    simp only [List.length_singleton, hN, ccFft_eq (show 0 < 2 by norm_num)]
    have hr : ccRows 2 1 = [0, 1, 0] := by decide
    rw [hr]
    norm_num [sum_range_succ, ent]
  have hn : fillNorms [[[-1]]] [-1] = [frobNorm [[-1]]] := by
    unfold fillNorms
    rw [if_pos ⟨-1, by simp, by norm_num⟩]; rfl
  have hidx : argmaxL [-1, 0, -1] = 1 := by
    have : ¬ (1 : ℝ) < 0 := by norm_num
    simp [argmaxL, argminL, this]
  unfold yShifted
  rw [hn]
  simp only [List.mapIdx_cons, List.mapIdx_nil, List.getD_cons_zero, List.length_singleton]
  unfold shiftedEntry
  simp only [hcc, hidx]
  simp

end Verif
