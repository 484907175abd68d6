import Verif.Proofs.Sax
import Mathlib.Algebra.Order.BigOperators.Ring.Finset
/-! Lemmas on reconstruction and slopes. -/
set_option linter.unusedSectionVars false
namespace Verif
open Spec

/-- A word table of the given shape. -/
def Shaped (W : List (List (List ℕ))) (S d : ℕ) : Prop := ∀ w ∈ W, w.length = S ∧ ∀ r ∈ w, r.length = d

theorem words_eq {W : List (List (List ℕ))} {S d : ℕ} (h : Shaped W S d) :
    W = (List.range W.length).map fun i => (List.range S).map fun s => (List.range d).map fun f =>
      wordAt (W.getD i []) s f := by
  apply List.ext_getElem (by simp)
  intro i h1 h2
  simp only [List.getElem_map, List.getElem_range]
  have hw := h _ (List.getElem_mem h1)
  rw [List.getD_eq_getElem _ _ h1]
  apply List.ext_getElem (by simp [hw.1])
  intro s h3 h4
  simp only [List.getElem_map, List.getElem_range]
  have hr := hw.2 _ (List.getElem_mem h3)
  apply List.ext_getElem (by simp [hr])
  intro f h5 h6
  simp only [List.getElem_map, List.getElem_range, wordAt]
  rw [List.getD_eq_getElem _ _ h3, List.getD_eq_getElem _ _ h5]

section
variable {K : Type} [Field K] [LinearOrder K] [IsStrictOrderedRing K]

theorem symbols_build (bps : List K) (n S d : ℕ) (g : ℕ → ℕ → ℕ → Option K) :
    paaToSymbols bps (Arr3.build n S d g) = (List.range n).map fun i => (List.range S).map fun s =>
      (List.range d).map fun f => paaToSymbol bps (g i s f) := by
  simp [paaToSymbols, Arr3.build, List.map_map, Function.comp_def]

/-- Representations of the same shape whose entries have the wanted symbols. -/
theorem symbols_eq {bps : List K} {P : Arr3 K} (hP : P.WF) {W : List (List (List ℕ))} (h : Shaped W P.sz P.d)
    (hl : P.data.length = W.length)
    (he : ∀ i < W.length, ∀ s < P.sz, ∀ f < P.d, paaToSymbol bps (P.entry i s f) = wordAt (W.getD i []) s f) :
    paaToSymbols bps P = W := by
  have hb := Arr3.eq_build hP (fun i t f => P.entry i t f) (fun _ _ _ _ _ _ => rfl)
  rw [show paaToSymbols bps P = paaToSymbols bps (Arr3.build P.data.length P.sz P.d fun i t f => P.entry i t f) by rw [hb],
    symbols_build, hl]
  conv_rhs => rw [words_eq h]
  apply List.map_congr_left
  intro i hi
  apply List.map_congr_left
  intro s hs
  apply List.map_congr_left
  intro f hf
  exact he i (List.mem_range.1 hi) s (List.mem_range.1 hs) f (List.mem_range.1 hf)

theorem paaRaw_const {X : Arr3 K} (hX : X.WF) {S q i s f : ℕ} {x : ℕ → ℕ → K} (h : Series X i (S * q) x) (hq : 0 < q)
    (hs : s < S) (hf : f < X.d) (c : K) (hc : ∑ k ∈ Finset.range q, x (s * q + k) f = q * c) :
    (paaRaw S X).entry i s f = some c := by
  have hdiv : S * q / S = q := Nat.mul_div_cancel_left q (by omega)
  rw [paaRaw_entry hX h (Nat.le_mul_of_pos_right S hq) hs hf, hdiv, hc]
  have : (q : K) ≠ 0 := by exact_mod_cast hq.ne'
  rw [mul_div_cancel_left₀ _ this]

theorem sum_range_cast (q : ℕ) : ∑ k ∈ Finset.range q, (k : K) = q * ((q : K) - 1) / 2 := by
  induction q with
  | zero => simp
  | succ q ih =>
    rw [Finset.sum_range_succ, ih]
    push_cast
    field_simp
    ring

theorem sum_centered (q : ℕ) : ∑ k ∈ Finset.range q, ((k : K) - 1 / 2 * ((q : K) - 1)) = 0 := by
  rw [Finset.sum_sub_distrib, sum_range_cast, Finset.sum_const, Finset.card_range, nsmul_eq_mul]
  ring

/-- The regression slope of an affine segment of at least two samples. -/
theorem lsSlope_affine (t0 q : ℕ) (a b : K) (hq : 2 ≤ q) :
    lsSlope t0 ((List.range q).map fun (k : ℕ) => a + b * ((k : K) - 1 / 2 * ((q : K) - 1))) = b := by
  have hq0 : (q : K) ≠ 0 := by exact_mod_cast (by omega : q ≠ 0)
  unfold lsSlope
  simp only [List.length_map, List.length_range]
  have hmt : ((List.range q).map fun (k : ℕ) => ((t0 + k : ℕ) : K)).sum / (q : K) = t0 + 1 / 2 * ((q : K) - 1) := by
    rw [listsum_range]
    push_cast
    rw [Finset.sum_add_distrib, sum_range_cast, Finset.sum_const, Finset.card_range, nsmul_eq_mul]
    field_simp
  have hmx : ((List.range q).map fun (k : ℕ) => a + b * ((k : K) - 1 / 2 * ((q : K) - 1))).sum / (q : K) = a := by
    rw [listsum_range, Finset.sum_add_distrib, ← Finset.mul_sum, sum_centered, Finset.sum_const, Finset.card_range,
      nsmul_eq_mul]
    field_simp
    ring
  rw [hmt, hmx]
  have e1 : ((List.range q).map fun k => (((List.range q).map fun (k : ℕ) => ((t0 + k : ℕ) : K)).getD k 0 -
        ((t0 : K) + 1 / 2 * ((q : K) - 1))) *
        (((List.range q).map fun (k : ℕ) => a + b * ((k : K) - 1 / 2 * ((q : K) - 1))).getD k 0 - a)) =
      (List.range q).map fun (k : ℕ) => b * ((k : K) - 1 / 2 * ((q : K) - 1)) ^ 2 := by
    apply List.map_congr_left
    intro k hk
    rw [List.mem_range] at hk
    rw [range_map_getD _ _ _ hk, range_map_getD _ _ _ hk]
    push_cast
    ring
  have e2 : ((List.range q).map fun k => (((List.range q).map fun (k : ℕ) => ((t0 + k : ℕ) : K)).getD k 0 -
        ((t0 : K) + 1 / 2 * ((q : K) - 1))) ^ 2) =
      (List.range q).map fun (k : ℕ) => ((k : K) - 1 / 2 * ((q : K) - 1)) ^ 2 := by
    apply List.map_congr_left
    intro k hk
    rw [List.mem_range] at hk
    rw [range_map_getD _ _ _ hk]
    push_cast
    ring
  rw [e1, e2, listsum_range, listsum_range, ← Finset.mul_sum, mul_div_assoc, div_self, mul_one]
  apply ne_of_gt
  apply Finset.sum_pos' (fun _ _ => sq_nonneg _)
  refine ⟨0, Finset.mem_range.2 (by omega), ?_⟩
  have : (1 : K) < q := by exact_mod_cast (by omega : 1 < q)
  have h2 : (0 : K) - 1 / 2 * ((q : K) - 1) < 0 := by linarith
  push_cast
  exact pow_pos_of_ne h2.ne
where
  pow_pos_of_ne {y : K} (h : y ≠ 0) : 0 < y ^ 2 := by positivity

theorem getSlopes_ok {X : Arr3 K} {S q : ℕ} (x : ℕ → ℕ → ℕ → K) (h : ∀ i < X.data.length, Series X i (S * q) (x i))
    (hsz : X.sz = S * q) (hq : 0 < q) (hS : 0 < S) :
    getSlopes S X = .ok (Arr3.build X.data.length S X.d fun i s f =>
      some (lsSlope (s * q) ((List.range q).map fun k => x i (s * q + k) f))) := by
  have hdiv : X.sz / S = q := by rw [hsz]; exact Nat.mul_div_cancel_left q hS
  unfold getSlopes
  simp only [hdiv]
  have key : ((List.range X.data.length).mapM fun i => (List.range S).mapM fun s => (List.range X.d).mapM fun f =>
      slopeCell (s * q) ((List.range q).map fun t => X.entry i (s * q + t) f)) =
      Except.ok (ε := PyErr) ((List.range X.data.length).map fun i => (List.range S).map fun s => (List.range X.d).map fun f =>
        some (lsSlope (s * q) ((List.range q).map fun k => x i (s * q + k) f))) := by
    apply mapM_except_ok
    intro i hi
    apply mapM_except_ok
    intro s hs
    apply mapM_except_ok
    intro f hf
    rw [List.mem_range] at hi hs hf
    have e : ((List.range q).map fun t => X.entry i (s * q + t) f) = (List.range q).map fun t => some (x i (s * q + t) f) := by
      apply List.map_congr_left
      intro t ht
      rw [List.mem_range] at ht
      refine (h i hi).2.2.1 _ ?_ f hf
      calc s * q + t < s * q + q := by omega
        _ = (s + 1) * q := by ring
        _ ≤ S * q := Nat.mul_le_mul_right _ hs
    rw [e, slopeCell, mapM_id_some_of]
    simp only [List.map_eq_nil_iff, List.range_eq_nil]
    rw [if_neg (by omega)]
  rw [key]
  rfl
end
end Verif
