import Verif.Proofs.Itakura
import Mathlib.Algebra.Order.Ring.Int
/-!
# C06 — relaxing the constraint never increases DTW; the extremes
-/
set_option linter.unusedSectionVars false
namespace Verif
open Spec

variable {K : Type} [CommRing K] [LinearOrder K] [IsStrictOrderedRing K]

/-- Any enlargement of the set of allowed cells. -/
theorem C06_mask_monotone (x y : List (List K)) (hx : x ≠ []) (hy : y ≠ []) (mask mask' : Mat Bool)
    (h : ∀ i < x.length, ∀ j < y.length, mask i j = true → mask' i j = true) :
    lastEntry (accumulatedMatrix x y mask') x.length y.length ≤
      lastEntry (accumulatedMatrix x y mask) x.length y.length := by
  have hx' := List.length_pos_iff.2 hx
  have hy' := List.length_pos_iff.2 hy
  apply accFromDist_le hx' hy' hx' hy'
  rintro p ⟨hp, hin⟩
  refine ⟨p, ⟨hp, fun c hc => ?_⟩, le_rfl⟩
  have := hp.mem_lt c hc
  exact h _ this.1 _ this.2 (hin c hc)

/-- Larger Sakoe-Chiba radius: smaller DTW. -/
theorem C06_radius_monotone (x y : List (List K)) (hx : x ≠ []) (hy : y ≠ []) (r r' : ℕ)
    (hr : r ≤ r') (slope slope' : Option ℚ) (v v' : WithTop K)
    (h : dtwSqGeneric x y 2 (some r) slope = .ok v)
    (h' : dtwSqGeneric x y 2 (some r') slope' = .ok v') : v' ≤ v := by
  simp only [dtwSqGeneric, computeMask, bind, Except.bind, pure, Except.pure] at h h'
  simp at h h'
  subst h h'
  apply C06_mask_monotone x y hx hy
  intro i hi j hj
  rw [sakoeChibaMask_iff _ _ _ _ _ hi hj, sakoeChibaMask_iff _ _ _ _ _ hi hj]
  simp only [InBand]
  omega

/-- Any constraint: at least the unconstrained value. -/
theorem C06_unconstrained_least (x y : List (List K)) (hx : x ≠ []) (hy : y ≠ []) (gc : ℕ)
    (radius : Option ℕ) (slope : Option ℚ) (v v0 : WithTop K)
    (h : dtwSqGeneric x y gc radius slope = .ok v)
    (h0 : dtwSqGeneric x y 0 none none = .ok v0) : v0 ≤ v := by
  unfold dtwSqGeneric at h
  cases hm : computeMask x.length y.length gc radius slope with
  | error e => simp [hm, bind, Except.bind] at h
  | ok mask =>
    simp only [hm, bind, Except.bind, pure, Except.pure, Except.ok.injEq] at h
    simp only [dtwSqGeneric, computeMask, bind, Except.bind, pure, Except.pure] at h0
    simp at h0
    subst h h0
    apply C06_mask_monotone x y hx hy
    intros
    rfl

/-- Larger Itakura slope: smaller DTW. -/
theorem C06_slope_monotone (x y : List (List K)) (hx : x ≠ []) (hy : y ≠ []) (s s' : ℚ)
    (hs1 : 1 ≤ s) (hs : s ≤ s') (radius radius' : Option ℕ) (v v' : WithTop K)
    (h : dtwSqGeneric x y 1 radius (some s) = .ok v)
    (h' : dtwSqGeneric x y 1 radius' (some s') = .ok v') : v' ≤ v := by
  have hx' := List.length_pos_iff.2 hx
  have hy' := List.length_pos_iff.2 hy
  have hs0 : 0 < s := by linarith
  have hs0' : 0 < s' := by linarith
  simp only [dtwSqGeneric, computeMask, itakuraMask, hs0.ne', hs0'.ne', itakuraFill, bind,
    Except.bind, pure, Except.pure, Option.getD_some, if_false] at h h'
  simp only [Nat.one_ne_zero, false_and, if_false, or_false, OfNat.one_ne_ofNat,
    if_true] at h h'
  split_ifs at h h'
  simp only [Except.ok.injEq] at h h'
  subst h h'
  apply C06_mask_monotone x y hx hy
  intro i hi j hj
  have hxq : (0 : ℚ) < x.length := by exact_mod_cast hx'
  have hyq : (0 : ℚ) < y.length := by exact_mod_cast hy'
  have hjq : (j : ℚ) + 1 ≤ y.length := by exact_mod_cast hj
  rw [itakuraFill_mask _ _ _ _ (itakuraLower_nonneg _ _ s hs0)
      (itakuraUpper_nonneg _ _ hx' hy' s hs1) i j hi hj,
    itakuraFill_mask _ _ _ _ (itakuraLower_nonneg _ _ s' hs0')
      (itakuraUpper_nonneg _ _ hx' hy' s' (by linarith)) i j hi hj]
  have hinv : 1 / s' * ((x.length : ℚ) / y.length) ≤ 1 / s * (x.length / y.length) := by
    apply mul_le_mul_of_nonneg_right _ (by positivity)
    exact one_div_le_one_div_of_le hs0 hs
  have hmul : s * ((x.length : ℚ) / y.length) ≤ s' * (x.length / y.length) :=
    mul_le_mul_of_nonneg_right hs (by positivity)
  have hj0 : (0 : ℚ) ≤ j := by positivity
  have hj1 : (0 : ℚ) ≤ (y.length : ℚ) - 1 - j := by linarith
  have e1 := mul_le_mul_of_nonneg_right hinv hj0
  have e2 := mul_le_mul_of_nonneg_right hinv hj1
  have e3 := mul_le_mul_of_nonneg_right hmul hj0
  have e4 := mul_le_mul_of_nonneg_right hmul hj1
  have hL : itakuraLower x.length y.length s' j ≤ itakuraLower x.length y.length s j := by
    unfold itakuraLower
    apply Int.ceil_le_ceil
    apply max_le_max <;> apply round2_mono
    · exact e1
    · linarith
  have hU : itakuraUpper x.length y.length s j ≤ itakuraUpper x.length y.length s' j := by
    unfold itakuraUpper
    apply Int.floor_le_floor
    apply add_le_add_left
    apply min_le_min <;> apply round2_mono
    · exact e3
    · linarith
  omega

theorem sumCost_diagonal (x y : List (List K)) (h : x.length = y.length) :
    sumCost (sampleCost x y) ((List.range x.length).map fun i => (i, i)) = seriesSqEuclid x y := by
  unfold sumCost seriesSqEuclid
  rw [List.map_map]
  congr 1
  apply List.ext_getElem
  · simp [h]
  · intro i h1 h2
    simp at h1 h2
    simp [sampleCost, h1, h2.2]

/-- Radius 0, equal lengths: exactly the (squared) Euclidean distance. -/
theorem C06_radius_zero (x y : List (List K)) (hx : x ≠ []) (h : x.length = y.length)
    (slope : Option ℚ) :
    dtwSqGeneric x y 2 (some 0) slope = .ok ((seriesSqEuclid x y : K) : WithTop K) := by
  have hx' := List.length_pos_iff.2 hx
  simp only [dtwSqGeneric, computeMask, bind, Except.bind, pure, Except.pure]
  simp
  have s := (accFromDist_spec (sakoeChibaMask x.length y.length 0) (localCost x y) x.length y.length
      (x.length - 1) (y.length - 1) (by omega) (by omega)).2 (seriesSqEuclid x y)
  rw [show x.length - 1 + 1 = x.length by omega, show y.length - 1 + 1 = y.length by omega] at s
  have hdiag : IsWarpingPath x.length y.length ((List.range x.length).map fun i => (i, i)) := by
    have := diag_path (x.length - 1)
    rw [show x.length - 1 + 1 = x.length by omega] at this
    exact isWarpingPath_iff.2 ⟨x.length - 1, x.length - 1, by omega, by omega, this⟩
  have hband : ∀ i < x.length, ∀ j < y.length,
      (sakoeChibaMask x.length y.length 0 i j = true ↔ i = j) := by
    intro i hi j hj
    rw [sakoeChibaMask_iff _ _ _ _ _ hi hj]
    simp only [InBand]
    omega
  -- a path inside the diagonal is the diagonal
  have huniq : ∀ {p i j}, WP false p i j → InMask (fun a b => decide (a = b)) p →
      p = (List.range (i+1)).map fun i => (i, i) := by
    intro p i j hp
    have key : ∀ {p i j}, WP false p i j → InMask (fun a b => decide (a = b)) p → i = j := by
      intro p i j hp hin
      have := hin (i, j) hp.last_mem
      simpa using this
    induction hp with
    | start j0 h => simp at h; subst h; intro _; rfl
    | @down p i j h ih =>
      intro hin
      have h1 := key h.down hin
      have h2 := key h (inMask_append.1 hin).1
      omega
    | @right p i j h ih =>
      intro hin
      have h1 := key h.right hin
      have h2 := key h (inMask_append.1 hin).1
      omega
    | @diag p i j h ih =>
      intro hin
      have h1 := key h.diag hin
      rw [List.range_succ, List.map_append, ← ih (inMask_append.1 hin).1]
      simp [← h1]
  apply s.2
  rw [localCost_eq]
  have honly : ∀ p, Admissible x.length y.length (sakoeChibaMask x.length y.length 0) p →
      p = (List.range x.length).map fun i => (i, i) := by
    rintro p ⟨hp, hin⟩
    obtain ⟨i, j, hi, hj, hw⟩ := isWarpingPath_iff.1 hp
    rw [← hi]
    apply huniq hw
    intro c hc
    have hlt := hp.mem_lt c hc
    have := (hband _ hlt.1 _ hlt.2).1 (hin c hc)
    simpa using this
  constructor
  · refine ⟨_, ⟨hdiag, ?_⟩, (sumCost_diagonal x y h).symm⟩
    intro c hc
    have hlt := hdiag.mem_lt c hc
    simp only [List.mem_map] at hc
    obtain ⟨i, -, rfl⟩ := hc
    exact (hband _ hlt.1 _ hlt.2).2 rfl
  · rintro c ⟨p, hp, rfl⟩
    rw [honly p hp, sumCost_diagonal x y h]

/-- A radius of at least `max(len) - 1` is no constraint. -/
theorem C06_radius_large (x y : List (List K)) (hx : x ≠ []) (hy : y ≠ []) (r : ℕ)
    (hr : max x.length y.length ≤ r + 1) (slope : Option ℚ) :
    dtwSqGeneric x y 2 (some r) slope = dtwSqGeneric x y 0 none none := by
  simp only [dtwSqGeneric, computeMask, bind, Except.bind, pure, Except.pure]
  simp
  have hfull : ∀ i < x.length, ∀ j < y.length,
      sakoeChibaMask x.length y.length r i j = true := by
    intro i hi j hj
    rw [sakoeChibaMask_iff _ _ _ _ _ hi hj]
    simp only [InBand]
    omega
  apply le_antisymm
  · exact C06_mask_monotone x y hx hy _ _ (fun i hi j hj _ => hfull i hi j hj)
  · exact C06_mask_monotone x y hx hy _ _ (fun i hi j hj _ => rfl)

/-- Unconstrained DTW of equal-length series never exceeds the Euclidean distance. -/
theorem C06_le_euclidean (x y : List (List K)) (hx : x ≠ []) (h : x.length = y.length)
    (v : WithTop K) (hv : dtwSqGeneric x y 0 none none = .ok v) :
    v ≤ ((seriesSqEuclid x y : K) : WithTop K) := by
  have hy : y ≠ [] := by
    intro h'; subst h'; exact hx (List.length_eq_zero_iff.1 (by simpa using h))
  exact C06_unconstrained_least x y hx hy 2 (some 0) none _ v (C06_radius_zero x y hx h none) hv

/-- Radius 0 gives 2, radius 1 gives 0. -/
example : dtwSqGeneric ([[0],[0],[1],[2]] : List (List ℤ)) [[0],[1],[2],[2]] 2 (some 0) none
      = .ok ((2 : ℤ) : WithTop ℤ) ∧
    dtwSqGeneric ([[0],[0],[1],[2]] : List (List ℤ)) [[0],[1],[2],[2]] 2 (some 1) none
      = .ok ((0 : ℤ) : WithTop ℤ) := ⟨rfl, rfl⟩

end Verif
