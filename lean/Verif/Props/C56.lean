import Verif.Props.C55
/-!
# C56 — the 1d-SAX distance and the Euclidean distance of the reconstructions

`cydist_1d_sax` places the middle of a segment half a sample later than `inv_transform_1d_sax` does, so that the
claim only holds for words whose slopes agree; the exact difference is given.
-/
set_option linter.unusedSectionVars false
namespace Verif
open Spec

section
variable {K : Type} [Field K] [LinearOrder K] [IsStrictOrderedRing K]

theorem shifted_sum (q : ℕ) (a b : K) :
    ∑ k ∈ Finset.range q, (a + b * ((k : K) - 1 / 2 * (q : K))) ^ 2 =
      ∑ k ∈ Finset.range q, (a + b * ((k : K) - 1 / 2 * ((q : K) - 1))) ^ 2 + q * (b ^ 2 / 4 - a * b) := by
  have h := sum_centered (K := K) q
  have : ∀ k ∈ Finset.range q, (a + b * ((k : K) - 1 / 2 * (q : K))) ^ 2 =
      (a + b * ((k : K) - 1 / 2 * ((q : K) - 1))) ^ 2 + ((b ^ 2 / 4 - a * b) - b ^ 2 * ((k : K) - 1 / 2 * ((q : K) - 1))) := by
    intro k _
    ring
  rw [Finset.sum_congr rfl this, Finset.sum_add_distrib, Finset.sum_sub_distrib, ← Finset.mul_sum, h, Finset.sum_const,
    Finset.card_range, nsmul_eq_mul]
  ring

/-- Differences of averages and of slopes of two words. -/
def avgGap (med : List K) (w1 w2 : List (List ℕ)) (s f : ℕ) : K :=
  med.getD (wordAt w1 s f) 0 - med.getD (wordAt w2 s f) 0

def slopeGap (medsl : List K) (d : ℕ) (w1 w2 : List (List ℕ)) (s f : ℕ) : K :=
  medsl.getD (wordAt w1 s (f + d)) 0 - medsl.getD (wordAt w2 s (f + d)) 0

theorem sqDist1d_eq (med medsl : List K) (S q d : ℕ) (hS : 0 < S) (w1 w2 : List (List ℕ)) :
    sqDist1d med medsl (S * q) S d w1 w2 = ∑ s ∈ Finset.range S, ∑ f ∈ Finset.range d,
      (∑ k ∈ Finset.range q, (avgGap med w1 w2 s f + slopeGap medsl d w1 w2 s f * ((k : K) - 1 / 2 * ((q : K) - 1))) ^ 2 +
        q * (slopeGap medsl d w1 w2 s f ^ 2 / 4 - avgGap med w1 w2 s f * slopeGap medsl d w1 w2 s f)) := by
  unfold sqDist1d
  rw [Nat.mul_div_cancel_left q hS]
  simp only [listsum_range]
  refine Finset.sum_congr rfl fun s _ => Finset.sum_congr rfl fun f _ => ?_
  rw [← shifted_sum]
  refine Finset.sum_congr rfl fun k _ => ?_
  unfold avgGap slopeGap
  push_cast
  ring
end

/-- The squared distance exceeds the squared Euclidean distance of the reconstructions by
`q * (b² / 4 - a * b)` per segment and feature, where `a` and `b` are the differences of the averages and of the slopes. -/
theorem C56_gap (junk : ℕ → ℕ → ℕ → Option ℝ) (med medsl : List ℝ) (S q d : ℕ) (hS : 0 < S) (W : List (List (List ℕ)))
    (i j : ℕ) (x y : ℕ → ℕ → ℝ)
    (hx : Series (oneDInverse junk none med medsl S d W (S * q)) i (S * q) x)
    (hy : Series (oneDInverse junk none med medsl S d W (S * q)) j (S * q) y) :
    cydist1dSax med medsl (S * q) S d (W.getD i []) (W.getD j []) ^ 2 = euclid (S * q) d x y ^ 2 +
      ∑ s ∈ Finset.range S, ∑ f ∈ Finset.range d, (q : ℝ) *
        ((medsl.getD (wordAt (W.getD i []) s (f + d)) 0 - medsl.getD (wordAt (W.getD j []) s (f + d)) 0) ^ 2 / 4 -
          (med.getD (wordAt (W.getD i []) s f) 0 - med.getD (wordAt (W.getD j []) s f) 0) *
          (medsl.getD (wordAt (W.getD i []) s (f + d)) 0 - medsl.getD (wordAt (W.getD j []) s (f + d)) 0)) := by
  have hl : (oneDInverse junk none med medsl S d W (S * q)).data.length = W.length :=
    (C34_oned_partial junk med medsl S d (S * q) W).2.1
  have hx' := oned_series junk med medsl S q d hS W i (by rw [← hl]; exact hx.1)
  have hy' := oned_series junk med medsl S q d hS W j (by rw [← hl]; exact hy.1)
  have hxv : ∀ t < S * q, ∀ f < d, x t f = _ := fun t ht f hf =>
    Option.some.inj ((hx.2.2.1 t ht f hf).symm.trans (hx'.2.2.1 t ht f hf))
  have hyv : ∀ t < S * q, ∀ f < d, y t f = _ := fun t ht f hf =>
    Option.some.inj ((hy.2.2.1 t ht f hf).symm.trans (hy'.2.2.1 t ht f hf))
  have hnn : 0 ≤ sqDist1d med medsl (S * q) S d (W.getD i []) (W.getD j []) := by
    unfold sqDist1d
    simp only [listsum_range]
    exact Finset.sum_nonneg fun _ _ => Finset.sum_nonneg fun _ _ => Finset.sum_nonneg fun _ _ => sq_nonneg _
  unfold cydist1dSax euclid
  rw [Real.sq_sqrt hnn, Real.sq_sqrt (Finset.sum_nonneg fun _ _ => Finset.sum_nonneg fun _ _ => sq_nonneg _),
    sqDist1d_eq med medsl S q d hS]
  simp only [Finset.sum_add_distrib]
  congr 1
  rw [sum_segments]
  refine Finset.sum_congr rfl fun s hs => ?_
  rw [Finset.sum_comm]
  refine Finset.sum_congr rfl fun k hk => Finset.sum_congr rfl fun f hf => ?_
  rw [Finset.mem_range] at hs hk hf
  have ht : s * q + k < S * q := by
    calc s * q + k < s * q + q := by omega
      _ = (s + 1) * q := by ring
      _ ≤ S * q := Nat.mul_le_mul_right q hs
  rw [hxv _ ht f hf, hyv _ ht f hf]
  simp only [div_block hk]
  unfold avgGap slopeGap
  push_cast
  ring

/-- The distance equals the Euclidean distance of the reconstructions for words with the same slopes.
Missing: words with different slopes, for which it is false (`C56_false`). -/
theorem C56_partial (junk : ℕ → ℕ → ℕ → Option ℝ) (med medsl : List ℝ) (S q d : ℕ) (hS : 0 < S) (W : List (List (List ℕ)))
    (i j : ℕ) (x y : ℕ → ℕ → ℝ)
    (hx : Series (oneDInverse junk none med medsl S d W (S * q)) i (S * q) x)
    (hy : Series (oneDInverse junk none med medsl S d W (S * q)) j (S * q) y)
    (hsl : ∀ s < S, ∀ f < d, wordAt (W.getD i []) s (f + d) = wordAt (W.getD j []) s (f + d)) :
    cydist1dSax med medsl (S * q) S d (W.getD i []) (W.getD j []) = euclid (S * q) d x y := by
  have h := C56_gap junk med medsl S q d hS W i j x y hx hy
  rw [Finset.sum_eq_zero fun s hs => Finset.sum_eq_zero fun f hf => by
    rw [hsl s (Finset.mem_range.1 hs) f (Finset.mem_range.1 hf)]; ring, add_zero] at h
  exact (sq_eq_sq₀ (Real.sqrt_nonneg _) (Real.sqrt_nonneg _)).1 h

/-- Two words over one segment of two samples that differ in their slope symbol only are further apart than their
reconstructions, whatever the increasing quantile function and the width of the slope distribution. -/
theorem C56_false (ppf : ℝ → ℝ) (hp : StrictMonoOn ppf (Set.Ioo 0 1)) (sigma : ℝ) (hs : 0 < sigma)
    (junk : ℕ → ℕ → ℕ → Option ℝ) : ∃ (x y : ℕ → ℕ → ℝ),
    Series (oneDInverse junk none (binMedians ppf 2 1) (binMedians ppf 2 sigma) 1 1 [[[0, 0]], [[0, 1]]] 2) 0 2 x ∧
    Series (oneDInverse junk none (binMedians ppf 2 1) (binMedians ppf 2 sigma) 1 1 [[[0, 0]], [[0, 1]]] 2) 1 2 y ∧
    euclid 2 1 x y < cydist1dSax (binMedians ppf 2 1) (binMedians ppf 2 sigma) 2 1 1 [[0, 0]] [[0, 1]] := by
  have hx := oned_series junk (binMedians ppf 2 1) (binMedians ppf 2 sigma) 1 2 1 one_pos [[[0, 0]], [[0, 1]]] 0 (by simp)
  have hy := oned_series junk (binMedians ppf 2 1) (binMedians ppf 2 sigma) 1 2 1 one_pos [[[0, 0]], [[0, 1]]] 1 (by simp)
  refine ⟨_, _, hx, hy, ?_⟩
  have h := C56_gap junk (binMedians ppf 2 1) (binMedians ppf 2 sigma) 1 2 1 one_pos [[[0, 0]], [[0, 1]]] 0 1 _ _ hx hy
  refine lt_of_pow_lt_pow_left₀ 2 (Real.sqrt_nonneg _) ?_
  refine lt_of_lt_of_eq ?_ h.symm
  refine lt_add_of_pos_right _ ?_
  simp only [Finset.sum_range_one, wordAt, List.getD_cons_zero, List.getD_cons_succ, sub_self, zero_mul, sub_zero]
  rw [binMedians_getD _ _ _ (by omega), binMedians_getD _ _ _ (by omega)]
  have hlt := hp (a := 1 / 4) (b := 3 / 4) ⟨by norm_num, by norm_num⟩ ⟨by norm_num, by norm_num⟩ (by norm_num)
  have : (ppf (1 / 4) * sigma - ppf (3 / 4) * sigma) ≠ 0 := by
    rw [← sub_mul]
    exact mul_ne_zero (sub_ne_zero.2 hlt.ne) hs.ne'
  have := pow_pos (abs_pos.2 this) 2
  rw [sq_abs] at this
  norm_num
  norm_num at this
  linarith

/-- Words with the same slope: the distance is that of the reconstructions. -/
example (junk : ℕ → ℕ → ℕ → Option ℝ) (x y : ℕ → ℕ → ℝ)
    (hx : Series (oneDInverse junk none [-1, 1] [0, 2] 1 1 [[[0, 1]], [[1, 1]]] (1 * 2)) 0 (1 * 2) x)
    (hy : Series (oneDInverse junk none [-1, 1] [0, 2] 1 1 [[[0, 1]], [[1, 1]]] (1 * 2)) 1 (1 * 2) y) :
    cydist1dSax [-1, 1] [0, 2] 2 1 1 [[0, 1]] [[1, 1]] = euclid 2 1 x y :=
  C56_partial junk [-1, 1] [0, 2] 1 2 1 one_pos [[[0, 1]], [[1, 1]]] 0 1 x y hx hy
    (by intro s hs f hf; interval_cases s; interval_cases f; rfl)
end Verif
