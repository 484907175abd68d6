import Verif.Model.Dtw
import Verif.Proofs.Path
import Verif.Spec.Cost
import Mathlib.Algebra.Order.Ring.Defs
import Mathlib.Algebra.Order.BigOperators.Group.List
import Mathlib.Order.Bounds.Basic
import Mathlib.Tactic.Ring
import Mathlib.Tactic.Linarith
/-!
DTW lemmas.
-/
set_option linter.unusedSectionVars false

namespace Verif
open Spec

theorem accTableWith_isDP {D C : Type*} [LinearOrder C] [OrderTop C] (add : D → C → C) (z : C)
    (l1 l2 : ℕ) (mask : Mat Bool) (dist : ℕ → ℕ → D) :
    IsDP l1 l2 mask (minCell add dist) (dpInit z false) (accTableWith add z l1 l2 mask dist) := by
  have h := dpLoop_isDP l1 l2 mask (minCell add dist) ((Mat.full ⊤).set 0 0 z)
  have e : ((Mat.full ⊤).set 0 0 z : Mat C) = dpInit z false := by
    funext i j
    simp [Mat.set, Mat.full, dpInit]
  rw [e] at h
  have e2 : accTableWith add z l1 l2 mask dist = dpLoop l1 l2 mask (minCell add dist) (dpInit z false) := by
    rw [← e]; rfl
  rw [e2]
  exact h

section
variable {K : Type} [CommRing K] [LinearOrder K] [IsStrictOrderedRing K]

theorem foldl_add_eq_sum (l : List K) (a : K) : l.foldl (· + ·) a = a + l.sum := by
  induction l generalizing a with
  | nil => simp
  | cons x l ih => simp [ih, add_assoc]

theorem sqDist_eq (a b : List K) : sqDist a b = sqEuclid a b := by
  unfold sqDist sqEuclid
  rw [foldl_add_eq_sum, zero_add]
  congr 1
  rw [List.zip, List.map_zipWith]
  congr 1
  funext u v
  ring

theorem localCost_eq (s1 s2 : List (List K)) : localCost s1 s2 = sampleCost s1 s2 := by
  funext i j
  simp [localCost, sampleCost, sqDist_eq]

theorem sqEuclid_nonneg (a b : List K) : 0 ≤ sqEuclid a b := by
  unfold sqEuclid
  apply List.sum_nonneg
  intro x hx
  simp only [List.mem_map] at hx
  obtain ⟨uv, -, rfl⟩ := hx
  positivity

theorem sampleCost_nonneg (s1 s2 : List (List K)) (i j : ℕ) : 0 ≤ sampleCost s1 s2 i j :=
  sqEuclid_nonneg _ _

theorem sumCost_nonneg {d : ℕ → ℕ → K} (h : ∀ i j, 0 ≤ d i j) (p) : 0 ≤ sumCost d p := by
  apply List.sum_nonneg
  intro x hx
  simp only [List.mem_map] at hx
  obtain ⟨c, -, rfl⟩ := hx
  exact h _ _

theorem pathCost_add_eq (d : ℕ → ℕ → K) (p : List (ℕ × ℕ)) :
    pathCost (fun (d : K) (c : WithTop K) => (d : WithTop K) + c) 0 d p = ((sumCost d p : K) : WithTop K) := by
  induction p using List.reverseRecOn with
  | nil => simp [pathCost, sumCost]
  | append_singleton q c ih =>
    rw [pathCost_append, ih]
    simp [sumCost, add_comm]

theorem add_mono_top (d : K) : Monotone (fun c : WithTop K => (d : WithTop K) + c) := by
  intro a b h
  exact add_le_add_right h _

theorem add_top' (d : K) : (d : WithTop K) + ⊤ = ⊤ := by simp

/-- Core statement for cost matrices: finite iff feasible, and then the least path cost. -/
theorem accFromDist_spec (mask : Mat Bool) (d : ℕ → ℕ → K) (l1 l2 i j : ℕ)
    (hi : i < l1) (hj : j < l2) :
    (accFromDist l1 l2 mask d i j = ⊤ ↔ ¬ ∃ p, Admissible (i+1) (j+1) mask p) ∧
    ∀ w : K, accFromDist l1 l2 mask d i j = (w : WithTop K) ↔
      IsLeast {c | ∃ p, Admissible (i+1) (j+1) mask p ∧ c = sumCost d p} w := by
  have hM := accTableWith_isDP (fun (d : K) (c : WithTop K) => (d : WithTop K) + c) 0 l1 l2 mask d
  have hle : ∀ p, Admissible (i+1) (j+1) mask p →
      accFromDist l1 l2 mask d i j ≤ ((sumCost d p : K) : WithTop K) := by
    rintro p ⟨hp, hm⟩
    obtain ⟨i', j', hi', hj', hw⟩ := isWarpingPath_iff.1 hp
    obtain rfl : i' = i := by omega
    obtain rfl : j' = j := by omega
    rw [← pathCost_add_eq]
    exact hM.le_cost add_mono_top hw hi hj hm
  have hex : accFromDist l1 l2 mask d i j ≠ ⊤ → ∃ p, Admissible (i+1) (j+1) mask p ∧
      ((sumCost d p : K) : WithTop K) = accFromDist l1 l2 mask d i j := by
    intro hf
    obtain ⟨p, hw, hm, hc⟩ := hM.attained (fun d => add_top' d) (i+j) i j rfl hi hj hf
    exact ⟨p, ⟨isWarpingPath_iff.2 ⟨i, j, rfl, rfl, hw⟩, hm⟩, by rw [← pathCost_add_eq]; exact hc⟩
  refine ⟨⟨fun h => ?_, fun h => ?_⟩, fun w => ⟨fun h => ⟨?_, ?_⟩, fun h => ?_⟩⟩
  · rintro ⟨p, hp⟩
    have := hle p hp
    rw [h] at this
    simp at this
  · by_contra hf
    obtain ⟨p, hp, -⟩ := hex hf
    exact h ⟨p, hp⟩
  · obtain ⟨p, hp, hc⟩ := hex (by rw [h]; simp)
    rw [h, WithTop.coe_inj] at hc
    exact ⟨p, hp, hc.symm⟩
  · rintro c ⟨p, hp, rfl⟩
    have := hle p hp
    rw [h, WithTop.coe_le_coe] at this
    exact this
  · obtain ⟨⟨p, hp, rfl⟩, hlb⟩ := h
    have h1 := hle p hp
    have hf : accFromDist l1 l2 mask d i j ≠ ⊤ := ne_top_of_le_ne_top (by simp) h1
    obtain ⟨q, hq, hc⟩ := hex hf
    apply le_antisymm h1
    rw [← hc, WithTop.coe_le_coe]
    exact hlb ⟨q, hq, rfl⟩

end
end Verif
