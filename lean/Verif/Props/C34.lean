import Verif.Proofs.Sax
import Verif.Props.C32
import Mathlib.Tactic.NormNum
/-!
# C34 — what `inverse_transform` of the piecewise representations puts at every timestamp
-/
set_option linter.unusedSectionVars false
namespace Verif
open Spec
section
variable {K : Type} [Field K] [LinearOrder K]

/-- PAA: the reconstruction has the fitted size; the samples covered by the segments hold the value of their
segment and the remaining ones hold zero. -/
theorem C34_paa_partial (P : Arr3 K) (N : ℕ) (order : List ℕ) (ho : order.Perm (List.range P.sz)) :
    (invPaa order P N).WF ∧ (invPaa order P N).sz = N ∧ (invPaa order P N).d = P.d ∧
    (invPaa order P N).data.length = P.data.length ∧
    ∀ i < P.data.length, ∀ t < N, ∀ f < P.d, (invPaa order P N).entry i t f =
      if t < P.sz * (N / P.sz) then P.entry i (t / (N / P.sz)) f else some 0 := by
  refine ⟨Arr3.build_wf _ _ _ _, rfl, rfl, Arr3.build_length .., ?_⟩
  intro i hi t ht f hf
  unfold invPaa
  rw [Arr3.build_entry hi ht hf, fillSegs_perm ho]

/-- SAX without scaling: the covered samples hold the median of the bin of their symbol, the others zero. -/
theorem C34_sax_partial (med : List K) (S d N : ℕ) (W : List (List (List ℕ))) :
    (saxInverse none med S d W N).sz = N ∧ (saxInverse none med S d W N).data.length = W.length ∧
    ∀ i < W.length, ∀ t < N, ∀ f < d, (saxInverse none med S d W N).entry i t f =
      some (if t < S * (N / S) then med.getD (wordAt (W.getD i []) (t / (N / S)) f) 0 else 0) := by
  refine ⟨rfl, Arr3.build_length .., ?_⟩
  intro i hi t ht f hf
  simp only [saxInverse, saxUnscale, invSaxRaw]
  rw [Arr3.build_entry hi ht hf, fillSegs_perm (List.Perm.refl _)]
  split_ifs <;> rfl

/-- SAX with scaling: medians are scaled back; the samples no segment covers hold the mean of the feature. -/
theorem C34_sax_scaled_partial (med : List K) (S d N : ℕ) (W : List (List (List ℕ))) (m : Scaling K) (mu sd : ℕ → K)
    (hm : ∀ f < d, m f = (some (mu f), some (sd f))) :
    (saxInverse (some m) med S d W N).sz = N ∧ (saxInverse (some m) med S d W N).data.length = W.length ∧
    ∀ i < W.length, ∀ t < N, ∀ f < d, (saxInverse (some m) med S d W N).entry i t f =
      some (if t < S * (N / S) then med.getD (wordAt (W.getD i []) (t / (N / S)) f) 0 * sd f + mu f else mu f) := by
  refine ⟨rfl, by simp only [saxInverse, saxUnscale]; rw [Arr3.build_length]; exact Arr3.build_length .., ?_⟩
  intro i hi t ht f hf
  have hi' : i < (invSaxRaw med S d W N).data.length := by unfold invSaxRaw; rw [Arr3.build_length]; exact hi
  have h0 := (C34_sax_partial med S d N W).2.2 i hi t ht f hf
  simp only [saxInverse, saxUnscale] at h0 ⊢
  rw [Arr3.build_entry hi' (show t < (invSaxRaw med S d W N).sz from ht) (show f < (invSaxRaw med S d W N).d from hf),
    h0, hm f hf]
  split_ifs <;> simp

/-- 1d-SAX: the covered samples lie on the line of their segment, through the average at the middle of the
segment; the others are whatever the uninitialised memory held. -/
theorem C34_oned_partial (junk : ℕ → ℕ → ℕ → Option K) (med medsl : List K) (S d N : ℕ) (W : List (List (List ℕ))) :
    (oneDInverse junk none med medsl S d W N).sz = N ∧ (oneDInverse junk none med medsl S d W N).data.length = W.length ∧
    ∀ i < W.length, ∀ t < N, ∀ f < d, (oneDInverse junk none med medsl S d W N).entry i t f =
      if t < S * (N / S) then
        some (med.getD (wordAt (W.getD i []) (t / (N / S)) f) 0 + medsl.getD (wordAt (W.getD i []) (t / (N / S)) (f + d)) 0 *
          ((t : K) - (((t / (N / S) * (N / S) : ℕ) : K) + 1 / 2 * (((N / S : ℕ) : K) - 1))))
      else junk i t f := by
  refine ⟨rfl, Arr3.build_length .., ?_⟩
  intro i hi t ht f hf
  simp only [oneDInverse, saxUnscale, inv1dRaw]
  rw [Arr3.build_entry hi ht hf, fillSegs_perm (List.Perm.refl _)]

end

/-- When the segments tile the fitted size, every timestamp of `inverse_transform(transform(X))` holds the mean of
its segment. -/
theorem C34_paa_tiled (X : Arr3 ℝ) (hX : X.WF) (S N i : ℕ) (x : ℕ → ℕ → ℝ) (hi : Series X i N x) (hN : 0 < N)
    (hS : S ∣ N) (order : List ℕ) (ho : order.Perm (List.range S)) :
    ∃ P, paaTransform X.d S X = .ok P ∧ (invPaa order P N).sz = N ∧
      ∀ t < N, ∀ f < X.d, (invPaa order P N).entry i t f = some (segMean (N / S) (t / (N / S)) f x) := by
  have hS0 := Nat.pos_of_dvd_of_pos hS hN
  refine ⟨_, paaTransform_ok hi.ne hS0, rfl, ?_⟩
  intro t ht f hf
  have hNS : S * (N / S) = N := Nat.mul_div_cancel' hS
  have hq : 0 < N / S := Nat.div_pos (Nat.le_of_dvd hN hS) hS0
  have h := (C34_paa_partial (paaRaw S X) N order ho).2.2.2.2 i
    (by unfold paaRaw; rw [Arr3.build_length]; exact hi.1) t ht f hf
  rw [h, show (paaRaw S X).sz = S from rfl, if_pos (by omega),
    paaRaw_entry hX hi (Nat.le_of_dvd hN hS) ((Nat.div_lt_iff_lt_mul hq).2 (by omega)) hf]
  rfl

/-- `(1, 1, 0)` becomes `(1, 1, ·)` with two segments; its third sample is reconstructed as zero although all
segments have mean one. -/
theorem C34_false : ¬ ∀ (X : Arr3 ℝ) (S N i : ℕ) (x : ℕ → ℕ → ℝ) (order : List ℕ) (P : Arr3 ℝ), X.WF → Series X i N x →
    0 < S → S ≤ N → order.Perm (List.range S) → paaTransform X.d S X = .ok P →
    ∀ t < N, ∀ f < X.d, ∃ s < S, (invPaa order P N).entry i t f = P.entry i s f := by
  intro h
  obtain ⟨s, hs, he⟩ := h exPaa 2 3 0 _ [0, 1] _ exPaa_wf exPaa_series0 (by omega) (by omega) (List.Perm.refl _)
    (paaTransform_ok exPaa_series0.ne (by omega)) 2 (by omega) 0 (by simp [exPaa])
  have h1 := (C34_paa_partial (paaRaw 2 exPaa) 3 [0, 1] (List.Perm.refl _)).2.2.2.2 0
    (by unfold paaRaw; rw [Arr3.build_length]; simp [exPaa]) 2 (by omega) 0 (by simp [paaRaw, Arr3.build, exPaa])
  rw [h1, show (paaRaw 2 exPaa).sz = 2 from rfl, if_neg (by omega),
    paaRaw_entry exPaa_wf exPaa_series0 (by omega) hs (by simp [exPaa])] at he
  obtain rfl | rfl : s = 0 ∨ s = 1 := by omega
  all_goals
    simp only [Nat.reduceDiv, Finset.sum_range_succ, Finset.sum_range_zero, Option.some.injEq] at he
    norm_num at he

/-- Two symbols for five samples: the last sample is zero. -/
example : (saxInverse none [(-1 : ℚ), 1] 2 1 [[[1], [0]]] 5).entry 0 1 0 = some 1 ∧
    (saxInverse none [(-1 : ℚ), 1] 2 1 [[[1], [0]]] 5).entry 0 4 0 = some 0 := by
  have h := (C34_sax_partial [(-1 : ℚ), 1] 2 1 5 [[[1], [0]]]).2.2 0 (by simp)
  exact ⟨h 1 (by omega) 0 (by omega), h 4 (by omega) 0 (by omega)⟩

/-- The same with unknown memory for 1d-SAX. -/
example (junk : ℕ → ℕ → ℕ → Option ℚ) :
    (oneDInverse junk none [(-1 : ℚ), 1] [-1, 1] 2 1 [[[1, 1], [0, 0]]] 5).entry 0 1 0 = some (3 / 2) ∧
    (oneDInverse junk none [(-1 : ℚ), 1] [-1, 1] 2 1 [[[1, 1], [0, 0]]] 5).entry 0 4 0 = junk 0 4 0 := by
  have h := (C34_oned_partial junk [(-1 : ℚ), 1] [-1, 1] 2 1 5 [[[1, 1], [0, 0]]]).2.2 0 (by simp)
  refine ⟨(h 1 (by omega) 0 (by omega)).trans ?_, h 4 (by omega) 0 (by omega)⟩
  norm_num [wordAt]

example : ∃ P, paaTransform 1 1 exPaa = .ok P ∧ (invPaa [0] P 3).sz = 3 ∧
    ∀ t < 3, ∀ f < 1, (invPaa [0] P 3).entry 0 t f = some (segMean 3 (t / 3) f fun t _ => if t < 2 then 1 else 0) :=
  C34_paa_tiled exPaa exPaa_wf 1 3 0 _ exPaa_series0 (by omega) (by omega) [0] (List.Perm.refl _)

end Verif
