import Verif.Proofs.Sax
import Verif.Spec.Sax
import Mathlib.Tactic.Ring
import Mathlib.Tactic.Linarith
/-! The summand of MINDIST is the squared gap of the two values. -/
set_option linter.unusedSectionVars false
namespace Verif
open Spec

theorem separating_eq {bps : List ℝ} (hs : bps.Pairwise (· ≤ ·)) {u v : ℝ} (huv : u ≤ v) :
    separating bps u v = (bps.take (paaToSymbol bps (some v))).drop (paaToSymbol bps (some u)) := by
  have hab := paaToSymbol_mono bps huv
  have hb := paaToSymbol_le bps (some v)
  set a := paaToSymbol bps (some u) with ha
  set b := paaToSymbol bps (some v) with hb'
  have hsplit : bps = bps.take a ++ ((bps.take b).drop a ++ bps.drop b) := by
    have h1 : bps.take a = (bps.take b).take a := by rw [List.take_take, min_eq_left hab]
    rw [← List.append_assoc, h1, List.take_append_drop, List.take_append_drop]
  have e1 : (bps.take a).filter (fun c => decide (u < c ∧ c ≤ v)) = [] := by
    rw [List.filter_eq_nil_iff]
    intro c hc
    obtain ⟨k, hk, rfl⟩ := List.getElem_of_mem hc
    rw [List.length_take] at hk
    have := paaToSymbol_ge (bps := bps) (x := u) (j := k) (by omega)
    rw [List.getD_eq_getElem _ _ (by omega)] at this
    rw [List.getElem_take]
    simp only [decide_eq_true_eq, not_and]
    intro h
    exact absurd h (not_lt.2 this)
  have e3 : (bps.drop b).filter (fun c => decide (u < c ∧ c ≤ v)) = [] := by
    rw [List.filter_eq_nil_iff]
    intro c hc
    obtain ⟨k, hk, rfl⟩ := List.getElem_of_mem hc
    rw [List.length_drop] at hk
    have h1 := paaToSymbol_lt (bps := bps) (x := v) (by omega)
    rw [← hb', List.getD_eq_getElem _ _ (by omega)] at h1
    rw [List.getElem_drop]
    have h2 : bps[b]'(by omega) ≤ bps[b + k]'(by omega) := by
      rcases Nat.eq_zero_or_pos k with rfl | hk0
      · exact le_refl _
      · exact List.pairwise_iff_getElem.1 hs _ _ _ _ (by omega)
    simp only [decide_eq_true_eq, not_and]
    intro _
    exact not_le.2 (h1.trans_le h2)
  have e2 : ((bps.take b).drop a).filter (fun c => decide (u < c ∧ c ≤ v)) = (bps.take b).drop a := by
    rw [List.filter_eq_self]
    intro c hc
    obtain ⟨k, hk, rfl⟩ := List.getElem_of_mem hc
    rw [List.length_drop, List.length_take] at hk
    rw [List.getElem_drop, List.getElem_take]
    have h1 := paaToSymbol_lt (bps := bps) (x := u) (by omega)
    rw [← ha, List.getD_eq_getElem _ _ (by omega)] at h1
    have h2 := paaToSymbol_ge (bps := bps) (x := v) (j := a + k) (by omega)
    rw [List.getD_eq_getElem _ _ (by omega)] at h2
    have h3 : bps[a]'(by omega) ≤ bps[a + k]'(by omega) := by
      rcases Nat.eq_zero_or_pos k with rfl | hk0
      · exact le_refl _
      · exact List.pairwise_iff_getElem.1 hs _ _ _ _ (by omega)
    simp only [decide_eq_true_eq]
    exact ⟨h1.trans_le h3, h2⟩
  unfold separating
  conv_lhs => rw [hsplit]
  rw [List.filter_append, List.filter_append, e1, e2, e3, List.nil_append, List.append_nil]

theorem gap_sorted {bps : List ℝ} (hs : bps.Pairwise (· ≤ ·)) {u v : ℝ} (huv : u ≤ v) :
    gap bps u v = if paaToSymbol bps (some u) + 1 < paaToSymbol bps (some v) then
      bps.getD (paaToSymbol bps (some v) - 1) 0 - bps.getD (paaToSymbol bps (some u)) 0 else 0 := by
  have hb := paaToSymbol_le bps (some v)
  unfold gap
  rw [min_eq_left huv, max_eq_right huv, separating_eq hs huv, List.head?_drop, List.getLast?_drop, List.length_take, List.getLast?_take]
  rcases lt_or_ge (paaToSymbol bps (some u)) (paaToSymbol bps (some v)) with h | h
  · rw [List.getElem?_take_of_lt h, if_neg (by omega), if_neg (by omega),
      List.getD_eq_getElem?_getD, List.getD_eq_getElem?_getD]
    rw [List.getElem?_eq_getElem (by omega : paaToSymbol bps (some v) - 1 < bps.length),
      List.getElem?_eq_getElem (by omega : paaToSymbol bps (some u) < bps.length)]
    simp only [Option.some_or, Option.getD_some]
    split_ifs with h1
    · rfl
    · have e : paaToSymbol bps (some v) - 1 = paaToSymbol bps (some u) := by omega
      simp only [e, sub_self]
  · rw [if_pos (by omega), if_neg (by omega), List.getElem?_eq_none (by rw [List.length_take]; omega)]
    simp

theorem gap_comm (bps : List ℝ) (u v : ℝ) : gap bps u v = gap bps v u := by
  unfold gap; rw [min_comm, max_comm]

theorem saxCell_comm (bps : List ℝ) (a b : ℕ) : saxCell bps a b = saxCell bps b a := by
  unfold saxCell; rw [max_comm, min_comm]; simp only [or_comm]

theorem saxCell_gap {bps : List ℝ} (hs : bps.Pairwise (· ≤ ·)) (u v : ℝ) :
    saxCell bps (paaToSymbol bps (some u)) (paaToSymbol bps (some v)) = gap bps u v ^ 2 := by
  wlog huv : u ≤ v with H
  · rw [saxCell_comm, gap_comm]; exact H hs v u (le_of_not_ge huv)
  have hab := paaToSymbol_mono bps huv
  rw [gap_sorted hs huv]
  unfold saxCell
  rw [max_eq_right hab, min_eq_left hab]
  by_cases h : paaToSymbol bps (some u) + 1 < paaToSymbol bps (some v)
  · rw [if_pos (.inl h), if_pos h]
  · rw [if_neg (by omega), if_neg h]; ring

/-- The words of a series of `n` observed samples: symbols of its segment means. -/
theorem saxRaw_word {bps : List ℝ} {X : Arr3 ℝ} (hX : X.WF) {S n i s f : ℕ} {x : ℕ → ℕ → ℝ} (hi : Series X i n x) (hS : S ≤ n)
    (hs : s < S) (hf : f < X.d) : wordAt ((saxRaw none bps S X).getD i []) s f = paaToSymbol bps (some (segMean (n / S) s f x)) := by
  have hlen : i < (paaRaw S X).data.length := by unfold paaRaw; rw [Arr3.build_length]; exact hi.1
  have := wordAt_symbols (bps := bps) (P := paaRaw S X) (Arr3.build_wf _ _ _ _) hlen hs hf
  rw [show saxRaw none bps S X = paaToSymbols bps (paaRaw S X) from rfl, this, paaRaw_entry hX hi hS hs hf]
  rfl

/-- The distance of words is the symbolic distance of the series. -/
theorem cydistSax_words {bps : List ℝ} (hb : bps.Pairwise (· ≤ ·)) {X Y : Arr3 ℝ} (hX : X.WF) (hY : Y.WF) (hd : Y.d = X.d) {S n i j : ℕ}
    {x y : ℕ → ℕ → ℝ} (hi : Series X i n x) (hj : Series Y j n y) (hS : S ≤ n) :
    cydistSax bps n S X.d ((saxRaw none bps S X).getD i []) ((saxRaw none bps S Y).getD j []) = symbolicDist bps n S X.d x y := by
  unfold cydistSax symbolicDist
  congr 1
  rw [mul_div_assoc, mul_comm, listsum_range]
  congr 1
  apply Finset.sum_congr rfl
  intro s hs
  rw [Finset.mem_range] at hs
  rw [listsum_range]
  apply Finset.sum_congr rfl
  intro f hf
  rw [Finset.mem_range] at hf
  rw [saxRaw_word hX hi hS hs hf, saxRaw_word hY hj hS hs (hd ▸ hf), saxCell_gap hb]

end Verif
