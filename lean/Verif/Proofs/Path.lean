import Verif.Model.Path
import Verif.Proofs.Warp
/-!
The traceback returns an admissible path of the reported cost.
-/
namespace Verif
open Spec

/-- Contract of an `argmin` over three values. -/
def IsArgmin3 {C : Type*} [LE C] (am : C → C → C → ℕ) : Prop :=
  ∀ a b c, (am a b c = 0 ∧ a ≤ b ∧ a ≤ c) ∨ (am a b c = 1 ∧ b ≤ a ∧ b ≤ c) ∨
    (am a b c = 2 ∧ c ≤ a ∧ c ≤ b)

theorem argmin3_isArgmin {C : Type*} [LinearOrder C] : IsArgmin3 (argmin3 (C := C)) := by
  intro a b c
  unfold argmin3
  split_ifs with h1 h2
  · exact Or.inl ⟨rfl, h1⟩
  · refine Or.inr (Or.inl ⟨rfl, ?_, h2⟩)
    by_contra hab
    push Not at hab h1
    exact absurd (h1 hab.le) (not_lt.2 (hab.le.trans h2))
  · push Not at h1 h2
    refine Or.inr (Or.inr ⟨rfl, ?_, h2.le⟩)
    by_contra hca
    push Not at hca
    exact absurd (h1 (hca.le.trans h2.le)) (not_lt.2 hca.le)

theorem pathNext_zero_left {C : Type*} (am : C → C → C → ℕ) (acc : Mat C) (j : ℕ) :
    pathNext am acc 0 (j+1) = (0, j) := by simp [pathNext]
theorem pathNext_zero_right {C : Type*} (am : C → C → C → ℕ) (acc : Mat C) (i : ℕ) :
    pathNext am acc (i+1) 0 = (i, 0) := by simp [pathNext]
theorem pathNext_succ {C : Type*} (am : C → C → C → ℕ) (acc : Mat C) (i j : ℕ) :
    pathNext am acc (i+1) (j+1) = (i, j) ∨ pathNext am acc (i+1) (j+1) = (i, j+1) ∨
      pathNext am acc (i+1) (j+1) = (i+1, j) := by
  simp only [pathNext]
  split_ifs <;> simp_all

/-- The loop always terminates (with fuel `i + j + 1`) and returns a warping path to `(i, j)`
followed by what was already collected, whatever the matrix holds. -/
theorem computePathLoop_shape {C : Type*} (am : C → C → C → ℕ) (acc : Mat C) :
    ∀ (n i j fuel : ℕ) (rest : List (ℕ × ℕ)), i + j = n → n < fuel →
      ∃ p, WP false p i j ∧ computePathLoop am acc fuel (i, j) rest = some (p ++ rest) := by
  intro n
  induction n using Nat.strong_induction_on with
  | _ n ih =>
    intro i j fuel rest hn hf
    obtain ⟨fuel, rfl⟩ : ∃ f, fuel = f + 1 := ⟨fuel - 1, by omega⟩
    rcases i with _ | i <;> rcases j with _ | j
    · exact ⟨[(0,0)], .start 0 (Or.inr rfl), by simp [computePathLoop]⟩
    · obtain ⟨p, hp, hr⟩ := ih j (by omega) 0 j fuel ((0, j+1) :: rest) (by omega) (by omega)
      exact ⟨_, hp.right, by simp [computePathLoop, pathNext_zero_left, hr]⟩
    · obtain ⟨p, hp, hr⟩ := ih i (by omega) i 0 fuel ((i+1, 0) :: rest) (by omega) (by omega)
      exact ⟨_, hp.down, by simp [computePathLoop, pathNext_zero_right, hr]⟩
    · rcases pathNext_succ am acc i j with h | h | h
      · obtain ⟨p, hp, hr⟩ := ih (i+j) (by omega) i j fuel ((i+1, j+1) :: rest) rfl (by omega)
        exact ⟨_, hp.diag, by simp [computePathLoop, h, hr]⟩
      · obtain ⟨p, hp, hr⟩ := ih (i+(j+1)) (by omega) i (j+1) fuel ((i+1, j+1) :: rest) rfl (by omega)
        exact ⟨_, hp.down, by simp [computePathLoop, h, hr]⟩
      · obtain ⟨p, hp, hr⟩ := ih (i+1+j) (by omega) (i+1) j fuel ((i+1, j+1) :: rest) rfl (by omega)
        exact ⟨_, hp.right, by simp [computePathLoop, h, hr]⟩

section
variable {D C : Type*} {step : D → C → C} {z : C} {dist : ℕ → ℕ → D}
variable [LinearOrder C] [OrderTop C]
variable {l1 l2 : ℕ} {mask : ℕ → ℕ → Bool} {M : Mat C}

/-- On a finite entry the traceback stays in the mask and its cost is that entry. -/
theorem IsDP.traceback (hM : IsDP l1 l2 mask (minCell step dist) (dpInit z false) M)
    (htop : ∀ d, step d ⊤ = ⊤) {am : C → C → C → ℕ} (ham : IsArgmin3 am) :
    ∀ (n i j fuel : ℕ) (rest : List (ℕ × ℕ)), i + j = n → n < fuel → i < l1 → j < l2 →
      M (i+1) (j+1) ≠ ⊤ →
      ∃ p, WP false p i j ∧ InMask mask p ∧ pathCost step z dist p = M (i+1) (j+1) ∧
        computePathLoop am M.tail fuel (i, j) rest = some (p ++ rest) := by
  intro n
  induction n using Nat.strong_induction_on with
  | _ n ih =>
    intro i j fuel rest hn hf hi hj hfin
    obtain ⟨fuel, rfl⟩ : ∃ f, fuel = f + 1 := ⟨fuel - 1, by omega⟩
    obtain ⟨hm, hb, hmin⟩ := hM.finite_cell htop hi hj hfin
    rcases i with _ | i <;> rcases j with _ | j
    · refine ⟨[(0,0)], .start 0 (Or.inr rfl), by simp [hm], ?_, by simp [computePathLoop]⟩
      rw [pathCost_singleton, hb, hM.row0, hM.row0, hM.col0]
      simp [dpInit]
    · have e : min (min (M 0 (j+1+1)) (M (0+1) (j+1))) (M 0 (j+1)) = M (0+1) (j+1) := by
        rw [hM.row0, hM.row0]; simp [dpInit]
      rw [e] at hb hmin
      obtain ⟨p, hp, hpm, hc, hr⟩ := ih j (by omega) 0 j fuel ((0, j+1) :: rest) (by omega)
        (by omega) hi (by omega) hmin
      refine ⟨_, hp.right, inMask_append.2 ⟨hpm, by simp [hm]⟩, ?_,
        by simp [computePathLoop, pathNext_zero_left, hr]⟩
      rw [pathCost_append, hc, hb]
    · have e : min (min (M (i+1) (0+1)) (M (i+1+1) 0)) (M (i+1) 0) = M (i+1) (0+1) := by
        rw [hM.col0, hM.col0]; simp [dpInit]
      rw [e] at hb hmin
      obtain ⟨p, hp, hpm, hc, hr⟩ := ih i (by omega) i 0 fuel ((i+1, 0) :: rest) (by omega)
        (by omega) (by omega) hj hmin
      refine ⟨_, hp.down, inMask_append.2 ⟨hpm, by simp [hm]⟩, ?_,
        by simp [computePathLoop, pathNext_zero_right, hr]⟩
      rw [pathCost_append, hc, hb]
    · have hspec := ham (M.tail i j) (M.tail i (j+1)) (M.tail (i+1) j)
      simp only [Mat.tail] at hspec
      rcases hspec with ⟨h0, h1, h2⟩ | ⟨h0, h1, h2⟩ | ⟨h0, h1, h2⟩
      · have e : min (min (M (i+1) (j+1+1)) (M (i+1+1) (j+1))) (M (i+1) (j+1)) = M (i+1) (j+1) := by
          rw [min_eq_right (le_min h1 h2)]
        rw [e] at hb hmin
        obtain ⟨p, hp, hpm, hc, hr⟩ := ih (i+j) (by omega) i j fuel ((i+1, j+1) :: rest) rfl
          (by omega) (by omega) (by omega) hmin
        refine ⟨_, hp.diag, inMask_append.2 ⟨hpm, by simp [hm]⟩, ?_, ?_⟩
        · rw [pathCost_append, hc, hb]
        · have : pathNext am M.tail (i+1) (j+1) = (i, j) := by
            simp [pathNext, Mat.tail, h0]
          simp [computePathLoop, this, hr]
      · have e : min (min (M (i+1) (j+1+1)) (M (i+1+1) (j+1))) (M (i+1) (j+1)) = M (i+1) (j+1+1) := by
          rw [min_eq_left h2, min_eq_left h1]
        rw [e] at hb hmin
        obtain ⟨p, hp, hpm, hc, hr⟩ := ih (i+(j+1)) (by omega) i (j+1) fuel ((i+1, j+1) :: rest) rfl
          (by omega) (by omega) (by omega) hmin
        refine ⟨_, hp.down, inMask_append.2 ⟨hpm, by simp [hm]⟩, ?_, ?_⟩
        · rw [pathCost_append, hc, hb]
        · have : pathNext am M.tail (i+1) (j+1) = (i, j+1) := by
            simp [pathNext, Mat.tail, h0]
          simp [computePathLoop, this, hr]
      · have e : min (min (M (i+1) (j+1+1)) (M (i+1+1) (j+1))) (M (i+1) (j+1)) = M (i+1+1) (j+1) := by
          rw [min_eq_right h2, min_eq_left h1]
        rw [e] at hb hmin
        obtain ⟨p, hp, hpm, hc, hr⟩ := ih (i+1+j) (by omega) (i+1) j fuel ((i+1, j+1) :: rest) rfl
          (by omega) (by omega) (by omega) hmin
        refine ⟨_, hp.right, inMask_append.2 ⟨hpm, by simp [hm]⟩, ?_, ?_⟩
        · rw [pathCost_append, hc, hb]
        · have : pathNext am M.tail (i+1) (j+1) = (i+1, j) := by
            simp [pathNext, Mat.tail, h0]
          simp [computePathLoop, this, hr]
end

end Verif
