import Verif.Proofs.Itakura
/-!
# C51 — the Itakura mask is the documented parallelogram and its feasibility check is exact
-/
namespace Verif
open Spec

/-- Membership test of the mask returned for `max_slope ≥ 1`. -/
theorem itakuraMask_iff {n m : ℕ} {s : ℚ} (hn : 0 < n) (hm : 0 < m) (hs : 1 ≤ s) {mask : Mat Bool}
    (h : itakuraMask n m s = .ok mask) (i j : ℕ) (hi : i < n) (hj : j < m) :
    mask i j = true ↔ itakuraLower n m s j ≤ i ∧ (i : ℤ) < itakuraUpper n m s j := by
  have hs0 : 0 < s := by linarith
  unfold itakuraMask itakuraFill at h
  simp only [hs0.ne', if_false] at h
  split_ifs at h
  simp only [Except.ok.injEq] at h
  subst h
  exact itakuraFill_mask _ _ _ _ (itakuraLower_nonneg n m s hs0) (itakuraUpper_nonneg n m hn hm s hs)
    i j hi hj

/-- The mask contains the exact parallelogram and is contained in the parallelogram with a
tolerance of half a hundredth on each side (the bounds are rounded to two decimals). -/
theorem C51_parallelogram {n m : ℕ} {s : ℚ} (hn : 0 < n) (hm : 0 < m) (hs : 1 ≤ s)
    {mask : Mat Bool} (h : itakuraMask n m s = .ok mask) (i j : ℕ) (hi : i < n) (hj : j < m) :
    (InParallelogram n m s 0 i j → mask i j = true) ∧
    (mask i j = true → InParallelogram n m s (1/200) i j) := by
  rw [itakuraMask_iff hn hm hs h i j hi hj]
  unfold itakuraLower itakuraUpper InParallelogram
  dsimp only
  rw [Int.ceil_le, ← Int.add_one_le_iff, Int.le_floor, max_le_iff]
  push_cast
  constructor
  · rintro ⟨h1, h2, h3, h4⟩
    refine ⟨⟨?_, ?_⟩, ?_⟩
    · exact round2_le_int (z := i) (by push_cast; linarith)
    · exact round2_le_int (z := i) (by push_cast; linarith)
    · have : ((i : ℤ) : ℚ) ≤ min (round2 (s * (n / m) * j))
          (round2 ((n : ℚ) - 1 - 1 / s * (n / m) * (m - 1) + 1 / s * (n / m) * j)) := by
        apply le_min
        · exact int_le_round2 (by push_cast; linarith)
        · exact int_le_round2 (by push_cast; linarith)
      push_cast at this
      linarith
  · rintro ⟨⟨h1, h2⟩, h3⟩
    have h3' : (i : ℚ) ≤ min (round2 (s * (n / m) * j))
          (round2 ((n : ℚ) - 1 - 1 / s * (n / m) * (m - 1) + 1 / s * (n / m) * j)) := by linarith
    obtain ⟨h5, h6⟩ := le_min_iff.1 h3'
    have b1 := (round2_bounds (1 / s * ((n : ℚ) / m) * j)).1
    have b2 := (round2_bounds ((n : ℚ) - 1 - s * (n / m) * (m - 1) + s * (n / m) * j)).1
    have b3 := (round2_bounds (s * ((n : ℚ) / m) * j)).2
    have b4 := (round2_bounds ((n : ℚ) - 1 - 1 / s * (n / m) * (m - 1) + 1 / s * (n / m) * j)).2
    refine ⟨?_, ?_, ?_, ?_⟩ <;> linarith

/-- The call succeeds exactly when the corridor of the rounded bounds contains a complete warping
path; it raises the "unfeasible" warning otherwise. No other outcome for `max_slope ≥ 1`. -/
theorem C51_feasibility_exact (n m : ℕ) (s : ℚ) (hn : 0 < n) (hm : 0 < m) (hs : 1 ≤ s) :
    let corridor : ℕ → ℕ → Bool := fun i j =>
      decide (itakuraLower n m s j ≤ i ∧ (i : ℤ) < itakuraUpper n m s j)
    ((∃ mask, itakuraMask n m s = .ok mask) ↔ ∃ p, Admissible n m corridor p) ∧
    (itakuraMask n m s = .error .runtimeWarning ↔ ¬ ∃ p, Admissible n m corridor p) := by
  intro corridor
  have hs0 : 0 < s := by linarith
  have key : (∃ mask, itakuraMask n m s = .ok mask) ↔ ∃ p, Admissible n m corridor p := by
    constructor
    · rintro ⟨mask, h⟩
      have hiff := itakuraMask_iff hn hm hs h
      unfold itakuraMask itakuraFill at h
      simp only [hs0.ne', if_false] at h
      split_ifs at h with hc
      simp only [Except.ok.injEq] at h
      rw [h] at hc
      simp only [Bool.and_eq_true, List.all_eq_true, List.mem_range, List.any_eq_true] at hc
      obtain ⟨p, hp, hpm⟩ := corridor_feasible n m hn hm _ _ (itakuraLower_mono n m s hs0)
        (itakuraUpper_mono n m s hs0) (itakuraLower_nonneg n m s hs0) mask
        (fun a ha b hb => hiff a b ha hb) hc.1 hc.2
      refine ⟨p, hp, fun c hcm => ?_⟩
      have hlt := hp.mem_lt c hcm
      simpa [corridor] using (hiff _ _ hlt.1 hlt.2).1 (hpm c hcm)
    · rintro ⟨p, hp, hpm⟩
      obtain ⟨i, j, hi, hj, hw⟩ := isWarpingPath_iff.1 hp
      obtain ⟨hrow, hcol⟩ := hw.visits
      unfold itakuraMask itakuraFill
      simp only [hs0.ne', if_false]
      have hm' := itakuraFill_mask n m _ _ (itakuraLower_nonneg n m s hs0)
        (itakuraUpper_nonneg n m hn hm s hs)
      rw [if_pos]
      · exact ⟨_, rfl⟩
      · simp only [Bool.and_eq_true, List.all_eq_true, List.mem_range, List.any_eq_true]
        constructor
        · intro a ha
          obtain ⟨b, hb⟩ := hrow a (by omega)
          have hlt := hp.mem_lt _ hb
          refine ⟨b, hlt.2, (hm' a b ha hlt.2).2 ?_⟩
          simpa [corridor] using hpm _ hb
        · intro b hb'
          obtain ⟨a, ha⟩ := hcol b (by omega)
          have hlt := hp.mem_lt _ ha
          refine ⟨a, hlt.1, (hm' a b hlt.1 hb').2 ?_⟩
          simpa [corridor] using hpm _ ha
  refine ⟨key, ?_⟩
  rw [← key]
  unfold itakuraMask itakuraFill
  simp only [hs0.ne', if_false]
  split_ifs <;> simp

/-- Consequence: when an Itakura constrained DTW with `max_slope ≥ 1` returns, its value is finite. -/
theorem C51_dtw_finite {K : Type} [CommRing K] [LinearOrder K] [IsStrictOrderedRing K]
    (x y : List (List K)) (hx : x ≠ []) (hy : y ≠ []) (s : ℚ) (hs : 1 ≤ s) (radius : Option ℕ)
    (v : WithTop K) (h : dtwSqGeneric x y 1 radius (some s) = .ok v) : v ≠ ⊤ := by
  have hx' := List.length_pos_iff.2 hx
  have hy' := List.length_pos_iff.2 hy
  unfold dtwSqGeneric at h
  have e : computeMask x.length y.length 1 radius (some s) = itakuraMask x.length y.length s := by
    simp [computeMask]
  rw [e] at h
  cases hmk : itakuraMask x.length y.length s with
  | error e => simp [hmk, bind, Except.bind] at h
  | ok mask =>
    simp only [hmk, bind, Except.bind, pure, Except.pure, Except.ok.injEq] at h
    subst h
    obtain ⟨p, hp, hpm⟩ := (C51_feasibility_exact _ _ s hx' hy' hs).1.1 ⟨mask, hmk⟩
    intro htop
    have s' := accFromDist_spec mask (localCost x y) x.length y.length (x.length - 1)
      (y.length - 1) (by omega) (by omega)
    refine s'.1.1 htop ⟨p, ?_⟩
    rw [show x.length - 1 + 1 = x.length by omega, show y.length - 1 + 1 = y.length by omega]
    refine ⟨hp, fun c hc => ?_⟩
    have hlt := hp.mem_lt c hc
    rw [itakuraMask_iff hx' hy' hs hmk _ _ hlt.1 hlt.2]
    simpa using hpm c hc

/-- Equal lengths and `max_slope ≥ 1`: always feasible (the diagonal is in the parallelogram), so
the call never raises. -/
theorem C51_equal_lengths (n : ℕ) (s : ℚ) (hn : 0 < n) (hs : 1 ≤ s) :
    ∃ mask, itakuraMask n n s = .ok mask ∧ ∀ i < n, mask i i = true := by
  have hs0 : 0 < s := by linarith
  have hnq : (0 : ℚ) < n := by exact_mod_cast hn
  have hpar : ∀ i < n, InParallelogram n n s 0 i i := by
    intro i hi
    have hiq : (i : ℚ) + 1 ≤ n := by exact_mod_cast hi
    have hi0 : (0 : ℚ) ≤ i := by positivity
    have e : (n : ℚ) / n = 1 := div_self hnq.ne'
    have h3 : 1 / s ≤ 1 := by rw [div_le_one hs0]; exact hs
    unfold InParallelogram
    rw [e]
    refine ⟨?_, ?_, ?_, ?_⟩ <;> nlinarith
  have hcor : ∀ i < n, itakuraLower n n s i ≤ i ∧ (i : ℤ) < itakuraUpper n n s i := by
    intro i hi
    obtain ⟨h1, h2, h3, h4⟩ := hpar i hi
    unfold itakuraLower itakuraUpper
    dsimp only
    rw [Int.ceil_le, ← Int.add_one_le_iff, Int.le_floor, max_le_iff]
    push_cast
    refine ⟨⟨round2_le_int (z := i) (by push_cast; linarith),
      round2_le_int (z := i) (by push_cast; linarith)⟩, ?_⟩
    have : ((i : ℤ) : ℚ) ≤ min (round2 (s * (n / n) * i))
        (round2 ((n : ℚ) - 1 - 1 / s * (n / n) * (n - 1) + 1 / s * (n / n) * i)) := by
      apply le_min
      · exact int_le_round2 (by push_cast; linarith)
      · exact int_le_round2 (by push_cast; linarith)
    push_cast at this
    linarith
  have hdiag : IsWarpingPath n n ((List.range n).map fun i => (i, i)) := by
    have := diag_path (n - 1)
    rw [show n - 1 + 1 = n by omega] at this
    exact isWarpingPath_iff.2 ⟨n - 1, n - 1, by omega, by omega, this⟩
  obtain ⟨mask, hmask⟩ := (C51_feasibility_exact n n s hn hn hs).1.2 ⟨_, hdiag, by
    intro c hc
    simp only [List.mem_map, List.mem_range] at hc
    obtain ⟨i, hi, rfl⟩ := hc
    simpa using hcor i hi⟩
  exact ⟨mask, hmask, fun i hi => (itakuraMask_iff hn hn hs hmask i i hi hi).2 (hcor i hi)⟩

/-- The documented 6×6 example, `max_slope = 2`: third row. And an unfeasible case: lengths 6 and 2,
slope 1.2 leaves no path. -/
example : (match itakuraMask 6 6 2 with
      | .ok M => some ((List.range 6).map (M 2))
      | .error _ => none) = some [false, true, true, true, false, false] := by decide +kernel

example : (∃ mask, itakuraMask 4 4 2 = .ok mask) ∧
    itakuraMask 9 2 (6/5) = .error .runtimeWarning := by
  refine ⟨(C51_equal_lengths 4 2 (by norm_num) (by norm_num)).imp fun _ h => h.1, ?_⟩
  unfold itakuraMask itakuraFill
  rw [if_neg (by norm_num), if_neg]
  decide +kernel

end Verif
