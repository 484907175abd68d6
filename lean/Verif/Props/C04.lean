import Verif.Proofs.Masks
import Verif.Proofs.Series
import Mathlib.Algebra.Order.Ring.Int
/-!
# C04 — DTW is non-negative, reflexive and symmetric
Non-negativity holds for every constraint; reflexivity and symmetry without constraint and under a
Sakoe-Chiba band. Under an Itakura constraint symmetry is false (`C04_itakura_not_symmetric`).
-/
namespace Verif
open Spec

variable {K : Type} [CommRing K] [LinearOrder K] [IsStrictOrderedRing K]

/-- Non-negativity under every constraint. -/
theorem C04_nonneg (x y : List (List K)) (hx : x ≠ []) (hy : y ≠ []) (gc : ℕ) (radius : Option ℕ)
    (slope : Option ℚ) (v : WithTop K) (h : dtwSqGeneric x y gc radius slope = .ok v) : 0 ≤ v := by
  unfold dtwSqGeneric at h
  cases hm : computeMask x.length y.length gc radius slope with
  | error e => simp [hm, bind, Except.bind] at h
  | ok mask =>
    simp only [hm, bind, Except.bind, pure, Except.pure, Except.ok.injEq] at h
    have hx' := List.length_pos_iff.2 hx
    have hy' := List.length_pos_iff.2 hy
    have s := accFromDist_spec mask (localCost x y) x.length y.length (x.length - 1) (y.length - 1)
      (by omega) (by omega)
    subst h
    cases hv : lastEntry (accumulatedMatrix x y mask) x.length y.length with
    | top => exact le_top
    | coe w =>
      obtain ⟨⟨p, -, rfl⟩, -⟩ := (s.2 w).1 hv
      rw [localCost_eq, ← WithTop.coe_zero, WithTop.coe_le_coe]
      exact sumCost_nonneg (sampleCost_nonneg x y) p

/-- `dtw(x, x) = 0` for every mask containing the diagonal. -/
theorem C04_self_of_diagonal (x : List (List K)) (hx : x ≠ []) (mask : Mat Bool)
    (hd : ∀ i < x.length, mask i i = true) :
    lastEntry (accumulatedMatrix x x mask) x.length x.length = 0 := by
  have hx' := List.length_pos_iff.2 hx
  have s := (accFromDist_spec mask (localCost x x) x.length x.length (x.length - 1) (x.length - 1)
      (by omega) (by omega)).2 0
  rw [show x.length - 1 + 1 = x.length by omega] at s
  have h0 : sumCost (sampleCost x x) ((List.range x.length).map fun i => (i, i)) = 0 := by
    unfold sumCost
    rw [List.map_map]
    apply List.sum_eq_zero
    intro c hc
    simp only [List.mem_map, Function.comp] at hc
    obtain ⟨i, -, rfl⟩ := hc
    exact sqEuclid_self _
  refine (s.2 ⟨⟨(List.range x.length).map fun i => (i, i), ⟨?_, ?_⟩, ?_⟩, ?_⟩)
  · have := diag_path (x.length - 1)
    rw [show x.length - 1 + 1 = x.length by omega] at this
    exact isWarpingPath_iff.2 ⟨x.length - 1, x.length - 1, by omega, by omega, this⟩
  · intro c hc
    simp only [List.mem_map, List.mem_range] at hc
    obtain ⟨i, hi, rfl⟩ := hc
    exact hd i hi
  · rw [localCost_eq, h0]
  · rintro c ⟨p, -, rfl⟩
    rw [localCost_eq]
    exact sumCost_nonneg (sampleCost_nonneg x x) p

/-- `dtw(x, x) = 0` without constraint and with a Sakoe-Chiba band of any radius. -/
theorem C04_self (x : List (List K)) (hx : x ≠ []) (radius : Option ℕ) :
    dtwSqGeneric x x 0 radius none = .ok 0 ∧ dtwSqGeneric x x 2 radius none = .ok 0 := by
  have hband : ∀ r, ∀ i < x.length, sakoeChibaMask x.length x.length r i i = true := by
    intro r i hi
    rw [sakoeChibaMask_iff _ _ _ _ _ hi hi]
    simp only [InBand]
    omega
  constructor
  · unfold dtwSqGeneric computeMask
    cases radius with
    | none =>
      simp only [Option.isSome, bind, Except.bind, pure, Except.pure]
      exact congrArg _ (C04_self_of_diagonal x hx _ (fun _ _ => rfl))
    | some r =>
      simp only [Option.isSome, bind, Except.bind, pure, Except.pure]
      exact congrArg _ (C04_self_of_diagonal x hx _ (hband r))
  · unfold dtwSqGeneric computeMask
    simp only [bind, Except.bind, pure, Except.pure]
    exact congrArg _ (C04_self_of_diagonal x hx _ (hband _))

/-- Swapping the series and transposing the mask does not change the value. -/
theorem C04_transpose (x y : List (List K)) (hx : x ≠ []) (hy : y ≠ []) (mask mask' : Mat Bool)
    (hm : ∀ i < x.length, ∀ j < y.length, mask' j i = mask i j) :
    lastEntry (accumulatedMatrix x y mask) x.length y.length =
      lastEntry (accumulatedMatrix y x mask') y.length x.length := by
  have hx' := List.length_pos_iff.2 hx
  have hy' := List.length_pos_iff.2 hy
  unfold accumulatedMatrix
  rw [localCost_eq, localCost_eq]
  apply le_antisymm
  · apply accFromDist_le hx' hy' hy' hx'
    rintro p ⟨hp, hin⟩
    refine ⟨p.map Prod.swap, ⟨hp.swap, ?_⟩, ?_⟩
    · intro c hc
      simp only [List.mem_map] at hc
      obtain ⟨c, hc, rfl⟩ := hc
      have hlt := hp.mem_lt c hc
      rw [Prod.fst_swap, Prod.snd_swap, ← hm _ hlt.2 _ hlt.1]
      exact hin c hc
    · rw [← sumCost_swap (sampleCost y x), sampleCost_swap]
  · apply accFromDist_le hy' hx' hx' hy'
    rintro p ⟨hp, hin⟩
    refine ⟨p.map Prod.swap, ⟨hp.swap, ?_⟩, ?_⟩
    · intro c hc
      simp only [List.mem_map] at hc
      obtain ⟨c, hc, rfl⟩ := hc
      have hlt := hp.mem_lt c hc
      rw [Prod.fst_swap, Prod.snd_swap, hm _ hlt.1 _ hlt.2]
      exact hin c hc
    · rw [← sumCost_swap (sampleCost x y), sampleCost_swap]

/-- Symmetry without constraint and with a Sakoe-Chiba band of any radius, any lengths. -/
theorem C04_symm (x y : List (List K)) (hx : x ≠ []) (hy : y ≠ []) (radius : Option ℕ) :
    dtwSqGeneric x y 0 radius none = dtwSqGeneric y x 0 radius none ∧
    dtwSqGeneric x y 2 radius none = dtwSqGeneric y x 2 radius none := by
  have hband : ∀ r, ∀ i < x.length, ∀ j < y.length,
      sakoeChibaMask y.length x.length r j i = sakoeChibaMask x.length y.length r i j := by
    intro r i hi j hj
    rw [Bool.eq_iff_iff, sakoeChibaMask_iff _ _ _ _ _ hi hj, sakoeChibaMask_iff _ _ _ _ _ hj hi]
    simp only [InBand]
    omega
  constructor
  · unfold dtwSqGeneric computeMask
    cases radius with
    | none =>
      simp only [Option.isSome, bind, Except.bind, pure, Except.pure]
      exact congrArg _ (C04_transpose x y hx hy _ _ (fun _ _ _ _ => rfl))
    | some r =>
      simp only [Option.isSome, bind, Except.bind, pure, Except.pure]
      exact congrArg _ (C04_transpose x y hx hy _ _ (hband r))
  · unfold dtwSqGeneric computeMask
    simp only [bind, Except.bind, pure, Except.pure]
    exact congrArg _ (C04_transpose x y hx hy _ _ (hband _))

/-- The public function is symmetric, errors included: any inputs (NaN padding, different lengths,
invalid shapes), no constraint or a Sakoe-Chiba band. -/
theorem C04_dtw_symm (s1 s2 : TsInput (Option ℝ)) (g : Option String) (radius : Option ℕ)
    (hg : g = none ∨ g = some "sakoe_chiba") :
    dtw s1 s2 g radius none = dtw s2 s1 g radius none := by
  unfold dtw dtwSq
  rw [validatePair_swap s2 s1 g]
  cases h12 : validatePair s1 s2 g with
  | error e => rfl
  | ok t =>
    obtain ⟨x, y, code⟩ := t
    obtain ⟨-, -, hcode, hx, hy, -⟩ := validatePair_ok h12
    simp only [Except.map, bind, Except.bind]
    rcases hg with rfl | rfl
    · obtain rfl : 0 = code := by simpa [gcCode] using hcode
      rw [(C04_symm x y hx hy radius).1]
    · obtain rfl : 2 = code := by simpa [gcCode] using hcode
      rw [(C04_symm x y hx hy radius).2]

/-- Under an Itakura constraint DTW is **not** symmetric: lengths 4 and 7, maximum slope 2.28
(the masks of the two orders are not transposes of each other because the bounds are rounded
along one axis only). Squared values 3 and 4. -/
theorem C04_itakura_not_symmetric :
    dtwSqGeneric ([[0],[0],[1],[0]] : List (List ℤ)) [[1],[0],[1],[1],[0],[0],[0]] 1 none
        (some (57/25)) = .ok ((3 : ℤ) : WithTop ℤ) ∧
    dtwSqGeneric ([[1],[0],[1],[1],[0],[0],[0]] : List (List ℤ)) [[0],[0],[1],[0]] 1 none
        (some (57/25)) = .ok ((4 : ℤ) : WithTop ℤ) := by
  constructor <;> decide +kernel

/-- Non-trivial instance: different lengths, band of radius 1, squared value 4 both ways. -/
example : dtwSqGeneric ([[0],[3],[1]] : List (List ℤ)) [[1],[1],[3],[0],[2]] 2 (some 1) none
      = .ok ((4 : ℤ) : WithTop ℤ) ∧
    dtwSqGeneric ([[1],[1],[3],[0],[2]] : List (List ℤ)) [[0],[3],[1]] 2 (some 1) none
      = .ok ((4 : ℤ) : WithTop ℤ) := ⟨rfl, rfl⟩

end Verif
