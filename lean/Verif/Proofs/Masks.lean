import Verif.Proofs.Dtw
import Verif.Spec.Band
/-!
Masks: exact characterisation of the Sakoe-Chiba band, feasibility, transposition.
-/
set_option linter.unusedSectionVars false

namespace Verif
open Spec

theorem forRange_fill (n : ℕ) (Q : ℕ → ℕ → ℕ → Prop) [∀ i a b, Decidable (Q i a b)] (a b : ℕ) :
    forRange n (Mat.full false) (fun i (mask : Mat Bool) =>
      fun a b => if Q i a b then true else mask a b) a b = true ↔ ∃ i < n, Q i a b := by
  induction n with
  | zero => simp [Mat.full]
  | succ n ih =>
    rw [forRange_succ]
    by_cases h : Q n a b
    · simp only [h, if_true, true_iff]
      exact ⟨n, by omega, h⟩
    · simp only [h, if_false, ih]
      constructor
      · rintro ⟨i, hi, hq⟩; exact ⟨i, by omega, hq⟩
      · rintro ⟨i, hi, hq⟩
        refine ⟨i, ?_, hq⟩
        rcases Nat.lt_succ_iff_lt_or_eq.1 hi with h' | rfl
        · exact h'
        · exact absurd hq h

theorem sakoeChibaMask_iff (sz1 sz2 r a b : ℕ) (ha : a < sz1) (hb : b < sz2) :
    sakoeChibaMask sz1 sz2 r a b = true ↔ InBand sz1 sz2 r a b := by
  unfold sakoeChibaMask InBand
  by_cases h : sz1 > sz2
  · simp only [h, if_true]
    rw [forRange_fill]
    constructor
    · rintro ⟨i, hi, rfl, h1, h2⟩; omega
    · rintro ⟨h1, h2⟩; exact ⟨b, hb, rfl, by omega, by omega⟩
  · simp only [h, if_false]
    rw [forRange_fill]
    constructor
    · rintro ⟨i, hi, rfl, h1, h2⟩; omega
    · rintro ⟨h1, h2⟩; exact ⟨a, ha, rfl, by omega, by omega⟩

theorem WP.last_mem {free : Bool} {p : List (ℕ × ℕ)} {i j : ℕ} (h : WP free p i j) :
    (i, j) ∈ p := by
  cases h <;> simp

/-- The diagonal path. -/
theorem diag_path (k : ℕ) : WP false ((List.range (k+1)).map fun i => (i, i)) k k := by
  induction k with
  | zero => exact .start 0 (Or.inr rfl)
  | succ k ih =>
    rw [List.range_succ, List.map_append]
    exact ih.diag

theorem right_path {p i j} (h : WP false p i j) (k : ℕ) :
    ∃ q, WP false (p ++ q) i (j + k) ∧ ∀ c ∈ q, c.1 = i ∧ j < c.2 ∧ c.2 ≤ j + k := by
  induction k with
  | zero => exact ⟨[], by simpa using h, by simp⟩
  | succ k ih =>
    obtain ⟨q, hq, hc⟩ := ih
    refine ⟨q ++ [(i, j + k + 1)], by simpa [Nat.add_assoc] using hq.right, ?_⟩
    intro c hc'
    rcases List.mem_append.1 hc' with h' | h'
    · have := hc c h'; omega
    · simp at h'; subst h'; refine ⟨rfl, ?_, ?_⟩ <;> simp only <;> omega

theorem down_path {p i j} (h : WP false p i j) (k : ℕ) :
    ∃ q, WP false (p ++ q) (i + k) j ∧ ∀ c ∈ q, c.2 = j ∧ i < c.1 ∧ c.1 ≤ i + k := by
  induction k with
  | zero => exact ⟨[], by simpa using h, by simp⟩
  | succ k ih =>
    obtain ⟨q, hq, hc⟩ := ih
    refine ⟨q ++ [(i + k + 1, j)], by simpa [Nat.add_assoc] using hq.down, ?_⟩
    intro c hc'
    rcases List.mem_append.1 hc' with h' | h'
    · have := hc c h'; omega
    · simp at h'; subst h'; refine ⟨rfl, ?_, ?_⟩ <;> simp only <;> omega

/-- In-range path cells. -/
theorem Spec.IsWarpingPath.mem_lt {n m : ℕ} {p : List (ℕ × ℕ)} (h : IsWarpingPath n m p) :
    ∀ c ∈ p, c.1 < n ∧ c.2 < m := by
  obtain ⟨i, j, hi, hj, hw⟩ := isWarpingPath_iff.1 h
  intro c hc
  have := hw.mem_le c hc
  omega

theorem sakoeChiba_feasible (n m r : ℕ) (hn : 0 < n) (hm : 0 < m) :
    ∃ p, Admissible n m (sakoeChibaMask n m r) p := by
  rcases Nat.le_total n m with h | h
  · obtain ⟨q, hq, hc⟩ := right_path (diag_path (n-1)) (m - n)
    have hw : IsWarpingPath n m (((List.range (n-1+1)).map fun i => (i, i)) ++ q) :=
      isWarpingPath_iff.2 ⟨n-1, n-1+(m-n), by omega, by omega, hq⟩
    refine ⟨_, hw, fun c hcm => ?_⟩
    have hlt := hw.mem_lt c hcm
    rw [sakoeChibaMask_iff _ _ _ _ _ hlt.1 hlt.2]
    unfold InBand
    rcases List.mem_append.1 hcm with h' | h'
    · simp at h'
      obtain ⟨a, ha, rfl⟩ := h'
      simp; omega
    · have := hc c h'; omega
  · obtain ⟨q, hq, hc⟩ := down_path (diag_path (m-1)) (n - m)
    have hw : IsWarpingPath n m (((List.range (m-1+1)).map fun i => (i, i)) ++ q) :=
      isWarpingPath_iff.2 ⟨m-1+(n-m), m-1, by omega, by omega, hq⟩
    refine ⟨_, hw, fun c hcm => ?_⟩
    have hlt := hw.mem_lt c hcm
    rw [sakoeChibaMask_iff _ _ _ _ _ hlt.1 hlt.2]
    unfold InBand
    rcases List.mem_append.1 hcm with h' | h'
    · simp at h'
      obtain ⟨a, ha, rfl⟩ := h'
      simp; omega
    · have := hc c h'; omega

theorem full_feasible (n m : ℕ) (hn : 0 < n) (hm : 0 < m) :
    ∃ p, Admissible n m (Mat.full true) p := by
  obtain ⟨p, hp, -⟩ := sakoeChiba_feasible n m 0 hn hm
  exact ⟨p, hp, fun _ _ => rfl⟩

/-- Transposing a path. -/
theorem WP.swap {p i j} (h : WP false p i j) : WP false (p.map Prod.swap) j i := by
  induction h with
  | start j0 h => simp at h; subst h; exact .start 0 (Or.inr rfl)
  | down h ih => simpa using ih.right
  | right h ih => simpa using ih.down
  | diag h ih => simpa using ih.diag

theorem Spec.IsWarpingPath.swap {n m p} (h : IsWarpingPath n m p) :
    IsWarpingPath m n (p.map Prod.swap) := by
  obtain ⟨i, j, hi, hj, hw⟩ := isWarpingPath_iff.1 h
  exact isWarpingPath_iff.2 ⟨j, i, hj, hi, hw.swap⟩

section
variable {K : Type} [CommRing K] [LinearOrder K] [IsStrictOrderedRing K]

theorem sumCost_swap (d : ℕ → ℕ → K) (p : List (ℕ × ℕ)) :
    sumCost (fun i j => d j i) (p.map Prod.swap) = sumCost d p := by
  simp [sumCost, List.map_map, Function.comp_def]

theorem sqEuclid_comm (a b : List K) : sqEuclid a b = sqEuclid b a := by
  unfold sqEuclid
  rw [← List.zip_swap, List.map_map]
  congr 1
  apply List.map_congr_left
  intro c _
  simp
  ring

theorem sampleCost_swap (x y : List (List K)) :
    (fun i j => sampleCost x y j i) = sampleCost y x := by
  funext i j
  simp [sampleCost, sqEuclid_comm]

theorem sqEuclid_self (a : List K) : sqEuclid a a = 0 := by
  unfold sqEuclid
  induction a with
  | nil => simp
  | cons u a ih => simpa using ih

/-- Comparison principle: if each admissible path of problem 2 is matched by an admissible path
of problem 1 that costs no more, then value 1 ≤ value 2. -/
theorem accFromDist_le {n m n' m' : ℕ} {mask mask' : Mat Bool} {d d' : ℕ → ℕ → K}
    (hn : 0 < n) (hm : 0 < m) (hn' : 0 < n') (hm' : 0 < m')
    (h : ∀ p', Admissible n' m' mask' p' →
      ∃ p, Admissible n m mask p ∧ sumCost d p ≤ sumCost d' p') :
    lastEntry (accFromDist n m mask d) n m ≤ lastEntry (accFromDist n' m' mask' d') n' m' := by
  have s1 := accFromDist_spec mask d n m (n-1) (m-1) (by omega) (by omega)
  have s2 := accFromDist_spec mask' d' n' m' (n'-1) (m'-1) (by omega) (by omega)
  rw [show n - 1 + 1 = n by omega, show m - 1 + 1 = m by omega] at s1
  rw [show n' - 1 + 1 = n' by omega, show m' - 1 + 1 = m' by omega] at s2
  unfold lastEntry
  rcases eq_or_ne (accFromDist n' m' mask' d' (n'-1) (m'-1)) ⊤ with h2 | h2
  · rw [h2]; exact le_top
  · obtain ⟨w2, hw2⟩ := WithTop.ne_top_iff_exists.1 h2
    obtain ⟨⟨p', hp', rfl⟩, -⟩ := (s2.2 w2).1 hw2.symm
    obtain ⟨p, hp, hle⟩ := h p' hp'
    have h1 : accFromDist n m mask d (n-1) (m-1) ≠ ⊤ := fun h1 => (s1.1.1 h1) ⟨p, hp⟩
    obtain ⟨w1, hw1⟩ := WithTop.ne_top_iff_exists.1 h1
    have hl := (s1.2 w1).1 hw1.symm
    rw [← hw1, ← hw2, WithTop.coe_le_coe]
    exact (hl.2 ⟨p, hp, rfl⟩).trans hle

end
end Verif
