import Verif.Model.SoftObj
import Verif.Proofs.SoftGrad
import Verif.Props.C20
import Verif.Props.C79
/-!
The tables of the class `SoftDTW` are those of soft-DTW on a grid with one more row and column.
-/
set_option linter.unusedSectionVars false
namespace Verif
open Spec
noncomputable section

/-- Costs on the grid that includes the border: entering the border costs `B`, moving along it is free. -/
def extCost (B : ℝ) (D : ℕ → ℕ → ℝ) : ℕ → ℕ → ℝ
  | 0, 0 => 0
  | i + 1, j + 1 => D i j
  | i + 1, 0 => if i = 0 then B else 0
  | 0, j + 1 => if j = 0 then B else 0

theorem softmin3R_eq {γ : ℝ} (hγ : 0 < γ) {a b c : ℝ} (ha : 0 < a) (hb : 0 < b) (hc : 0 < c) :
    softmin3R (-γ * Real.log a) (-γ * Real.log b) (-γ * Real.log c) γ = -γ * Real.log (a + b + c) := by
  have e : ∀ z : ℝ, -γ * Real.log z / -γ = Real.log z := fun z => by field_simp
  simp only [softmin3R, e]
  set M := max (max (Real.log a) (Real.log b)) (Real.log c)
  have ex : ∀ z, 0 < z → Real.exp (Real.log z - M) = z * Real.exp (-M) := fun z hz => by
    rw [sub_eq_add_neg, Real.exp_add, Real.exp_log hz]
  rw [ex a ha, ex b hb, ex c hc, show 0 + a * Real.exp (-M) + b * Real.exp (-M) + c * Real.exp (-M) = (a + b + c) * Real.exp (-M) by ring,
    Real.log_mul (by positivity) (by positivity), Real.log_exp]
  ring

/-- Path sums on the grid that includes the border. -/
def extZ (B : ℝ) (D : ℕ → ℕ → ℝ) (γ : ℝ) (i j : ℕ) : ℝ :=
  zsum (Mat.full true) (softK (Mat.full true) (extCost B D) γ) (i + 1) (j + 1)

theorem softK_full (D : ℕ → ℕ → ℝ) (γ : ℝ) (i j : ℕ) : softK (Mat.full true) D γ i j = Real.exp (-D i j / γ) := by
  simp [softK, Mat.full]

theorem extZ_pos (B : ℝ) (D : ℕ → ℕ → ℝ) (γ : ℝ) (i j : ℕ) : 0 < extZ B D γ i j :=
  (full_reachable (i + 1) (j + 1)).zpos _ _ (by omega) (by omega) rfl

theorem extZ_step (B : ℝ) (D : ℕ → ℕ → ℝ) (γ : ℝ) (i j : ℕ) : extZ B D γ i j =
    (zsum (Mat.full true) (softK (Mat.full true) (extCost B D) γ) i (j + 1) +
      zsum (Mat.full true) (softK (Mat.full true) (extCost B D) γ) (i + 1) j +
      zsum (Mat.full true) (softK (Mat.full true) (extCost B D) γ) i j) * Real.exp (-extCost B D i j / γ) := by
  unfold extZ
  rw [zsum_softK_succ, softK_full]

theorem extZ_zero (B : ℝ) (D : ℕ → ℕ → ℝ) (γ : ℝ) : extZ B D γ 0 0 = 1 := by
  rw [extZ_step, zsum_zero_succ, zsum_succ_zero, zsum_zero_zero]
  simp [extCost]

theorem extZ_row (B : ℝ) (D : ℕ → ℕ → ℝ) (γ : ℝ) (j : ℕ) : extZ B D γ 0 (j + 1) = Real.exp (-B / γ) := by
  have e : extZ B D γ 0 (j + 1) = extZ B D γ 0 j * Real.exp (-extCost B D 0 (j + 1) / γ) := by
    rw [extZ_step, zsum_zero_succ, zsum_zero_succ, zero_add, add_zero]; rfl
  induction j with
  | zero => rw [e, extZ_zero]; simp [extCost]
  | succ j ih =>
    rw [e, ih (by rw [extZ_step, zsum_zero_succ, zsum_zero_succ, zero_add, add_zero]; rfl)]; simp [extCost]

theorem extZ_col (B : ℝ) (D : ℕ → ℕ → ℝ) (γ : ℝ) (i : ℕ) : extZ B D γ (i + 1) 0 = Real.exp (-B / γ) := by
  have e : ∀ i, extZ B D γ (i + 1) 0 = extZ B D γ i 0 * Real.exp (-extCost B D (i + 1) 0 / γ) := fun i => by
    rw [extZ_step, zsum_succ_zero, zsum_succ_zero, add_zero, add_zero]; rfl
  induction i with
  | zero => rw [e, extZ_zero]; simp [extCost]
  | succ i ih => rw [e, ih]; simp [extCost]

theorem extZ_succ (B : ℝ) (D : ℕ → ℕ → ℝ) (γ : ℝ) (i j : ℕ) :
    extZ B D γ (i + 1) (j + 1) = (extZ B D γ i (j + 1) + extZ B D γ (i + 1) j + extZ B D γ i j) * Real.exp (-D i j / γ) := by
  rw [extZ_step]; rfl

/-- The table of `compute`. -/
theorem objForward_eq {B γ : ℝ} (hγ : 0 < γ) {m n : ℕ} (D R : Mat ℝ) (i j : ℕ) (hi : i ≤ m) (hj : j ≤ n) :
    objForward B γ m n D R i j = -γ * Real.log (extZ B D γ i j) := by
  have hdp := dpLoop_isDP m n (Mat.full true) (fun i j up left diag => D i j + softmin3R up diag left γ)
    (Mat.set (fun i j => if i = 0 ∧ j < n + 1 then B else if i < m + 1 ∧ j = 0 then B else R i j) 0 0 0)
  have hdef : objForward B γ m n D R = dpLoop m n (Mat.full true) (fun i j up left diag => D i j + softmin3R up diag left γ)
    (Mat.set (fun i j => if i = 0 ∧ j < n + 1 then B else if i < m + 1 ∧ j = 0 then B else R i j) 0 0 0) := rfl
  rw [hdef]
  set M := dpLoop m n (Mat.full true) (fun i j up left diag => D i j + softmin3R up diag left γ)
    (Mat.set (fun i j => if i = 0 ∧ j < n + 1 then B else if i < m + 1 ∧ j = 0 then B else R i j) 0 0 0)
  induction hs : i + j using Nat.strong_induction_on generalizing i j with
  | _ s ih =>
    have logB : -γ * Real.log (Real.exp (-B / γ)) = B := by rw [Real.log_exp]; field_simp
    rcases i with _ | i
    · rcases j with _ | j
      · rw [hdp.row0, extZ_zero]; simp [Mat.set]
      · rw [hdp.row0, extZ_row, logB]; simp [Mat.set]; omega
    · rcases j with _ | j
      · rw [hdp.col0, extZ_col, logB]; simp [Mat.set]; omega
      · rw [hdp.body i j (by omega) (by omega), if_pos (show Mat.full true i j = true from rfl), ih _ (by omega) i (j + 1) (by omega) hj rfl,
          ih _ (by omega) (i + 1) j hi (by omega) rfl, ih _ (by omega) i j (by omega) (by omega) rfl,
          softmin3R_eq hγ (extZ_pos ..) (extZ_pos ..) (extZ_pos ..), extZ_succ]
        rw [Real.log_mul (by have := extZ_pos B D γ i (j+1); have := extZ_pos B D γ (i+1) j; have := extZ_pos B D γ i j; positivity)
          (by positivity), Real.log_exp, show extZ B D γ i (j + 1) + extZ B D γ i j + extZ B D γ (i + 1) j =
            extZ B D γ i (j + 1) + extZ B D γ (i + 1) j + extZ B D γ i j by ring]
        field_simp
        ring

/-- The table of `grad`. -/
theorem objBackward_eq {B γ : ℝ} (hγ : 0 < γ) {m n : ℕ} (hm : 0 < m) (hn : 0 < n) (D D' R : Mat ℝ)
    (hD : ∀ i j, i < m → j < n → D' i j = D i j)
    (hR : ∀ i j, i ≤ m → j ≤ n → R i j = -γ * Real.log (extZ B D γ i j)) (i j : ℕ) (hi : i < m) (hj : j < n) :
    objBackward B γ m n D' R (Mat.full 0) (i + 1) (j + 1) = gradT (m + 1) (n + 1) (Mat.full true) (extCost B D) γ (i + 1) (j + 1) := by
  set k := softK (Mat.full true) (extCost B D) γ with hk
  set T := gradT (m + 1) (n + 1) (Mat.full true) (extCost B D) γ with hT
  set RR := objBackR B m n R with hRR
  set DD : Mat ℝ := Mat.set (fun i j => if i = m ∧ j < n then 0 else if i < m ∧ j = n then 0 else D' i j) m n 0 with hDD
  have hRin : ∀ i j, i ≤ m → j ≤ n → RR i j = -γ * Real.log (extZ B D γ i j) := by
    intro i j hi hj
    rw [← hR i j hi hj, hRR]
    simp only [objBackR, Mat.set]
    rw [if_neg (by omega), if_neg (by omega), if_neg (by omega)]
  have hRc : RR (m + 1) (n + 1) = RR m n := by
    simp [hRR, objBackR, Mat.set]
  have hDin : ∀ i j, i < m → j < n → DD i j = D i j := by
    intro i j hi hj
    rw [← hD i j hi hj, hDD]
    simp only [Mat.set]
    rw [if_neg (by omega), if_neg (by omega), if_neg (by omega)]
  have hDc : DD m n = 0 := by simp [hDD, Mat.set]
  have hTe : ∀ i j, T i j = extZ B D γ i j * hsum k (i, j) (m + 1) (n + 1) / extZ B D γ m n := fun _ _ => rfl
  -- what one step writes
  have step : ∀ (E : Mat ℝ) (i j : ℕ), i < m → j < n →
      (∀ j, j < n + 1 → E (m + 1) j = 0) → (∀ i, i < m + 1 → E i (n + 1) = 0) → E (m + 1) (n + 1) = 1 →
      (i + 1 < m → E (i + 2) (j + 1) = T (i + 2) (j + 1)) → (j + 1 < n → E (i + 1) (j + 2) = T (i + 1) (j + 2)) →
      (i + 1 < m → j + 1 < n → E (i + 2) (j + 2) = T (i + 2) (j + 2)) →
      E (i + 2) (j + 1) * Real.exp ((RR (i + 2) (j + 1) - RR (i + 1) (j + 1) - DD (i + 1) j) / γ) +
        E (i + 1) (j + 2) * Real.exp ((RR (i + 1) (j + 2) - RR (i + 1) (j + 1) - DD i (j + 1)) / γ) +
        E (i + 2) (j + 2) * Real.exp ((RR (i + 2) (j + 2) - RR (i + 1) (j + 1) - DD (i + 1) (j + 1)) / γ) = T (i + 1) (j + 1) := by
    intro E i j hi hj h1 h2 h3 h4 h5 h6
    have inside : ∀ i' j', i' < m → j' < n →
        T (i' + 1) (j' + 1) * Real.exp ((RR (i' + 1) (j' + 1) - RR (i + 1) (j + 1) - DD i' j') / γ) =
        extZ B D γ (i + 1) (j + 1) * (k (i' + 1) (j' + 1) * hsum k (i' + 1, j' + 1) (m + 1) (n + 1)) / extZ B D γ m n := by
      intro i' j' hi' hj'
      rw [hRin _ _ (by omega) (by omega), hRin _ _ (by omega) (by omega), hDin _ _ hi' hj']
      have z1 := extZ_pos B D γ (i' + 1) (j' + 1)
      have z2 := extZ_pos B D γ (i + 1) (j + 1)
      have z3 := extZ_pos B D γ m n
      have ek : k (i' + 1) (j' + 1) = Real.exp (-D i' j' / γ) := by rw [hk, softK_full]; rfl
      rw [show (-γ * Real.log (extZ B D γ (i' + 1) (j' + 1)) - -γ * Real.log (extZ B D γ (i + 1) (j + 1)) - D i' j') / γ =
        Real.log (extZ B D γ (i + 1) (j + 1)) + (-Real.log (extZ B D γ (i' + 1) (j' + 1)) + -D i' j' / γ) by field_simp; ring,
        Real.exp_add, Real.exp_add, Real.exp_neg, Real.exp_log z1, Real.exp_log z2, ek, hTe]
      field_simp
    have t1 : E (i + 2) (j + 1) * Real.exp ((RR (i + 2) (j + 1) - RR (i + 1) (j + 1) - DD (i + 1) j) / γ) =
        extZ B D γ (i + 1) (j + 1) * (k (i + 2) (j + 1) * hsum k (i + 2, j + 1) (m + 1) (n + 1)) / extZ B D γ m n := by
      by_cases h : i + 1 < m
      · rw [h4 h, inside (i + 1) j h hj]
      · obtain rfl : m = i + 1 := by omega
        rw [h1 (j + 1) (by omega), hsum_eq_zero _ _ _ _ (.inl (by simp))]; simp
    have t2 : E (i + 1) (j + 2) * Real.exp ((RR (i + 1) (j + 2) - RR (i + 1) (j + 1) - DD i (j + 1)) / γ) =
        extZ B D γ (i + 1) (j + 1) * (k (i + 1) (j + 2) * hsum k (i + 1, j + 2) (m + 1) (n + 1)) / extZ B D γ m n := by
      by_cases h : j + 1 < n
      · rw [h5 h, inside i (j + 1) hi h]
      · obtain rfl : n = j + 1 := by omega
        rw [h2 (i + 1) (by omega), hsum_eq_zero _ _ _ _ (.inr (by simp))]; simp
    by_cases hl : i + 1 = m ∧ j + 1 = n
    · obtain ⟨rfl, rfl⟩ := hl
      rw [t1, t2, h3, hRc, hDc, hsum_eq_zero _ _ _ _ (.inl (by simp)), hsum_eq_zero _ _ _ _ (.inr (by simp))]
      have := gradT_last (m := i + 1) (n := j + 1) (extZ_pos B D γ (i + 1) (j + 1))
      rw [← hT] at this
      rw [this]
      simp
    · have t3 : E (i + 2) (j + 2) * Real.exp ((RR (i + 2) (j + 2) - RR (i + 1) (j + 1) - DD (i + 1) (j + 1)) / γ) =
          extZ B D γ (i + 1) (j + 1) * (k (i + 2) (j + 2) * hsum k (i + 2, j + 2) (m + 1) (n + 1)) / extZ B D γ m n := by
        by_cases h : i + 1 < m ∧ j + 1 < n
        · rw [h6 h.1 h.2, inside (i + 1) (j + 1) h.1 h.2]
        · by_cases h' : i + 1 < m
          · rw [show j + 2 = n + 1 by omega, h2 (i + 2) (by omega), hsum_eq_zero _ _ _ _ (.inr (by simp))]; simp
          · rw [show i + 2 = m + 1 by omega, h1 (j + 2) (by omega), hsum_eq_zero _ _ _ _ (.inl (by simp))]; simp
      rw [t1, t2, t3, hTe, hsum_backward k (i + 1) (j + 1) m n, if_neg (fun h => hl (by simpa using h))]
      ring
  have key := forRange_inv (fun b (E : Mat ℝ) => ((∀ j, j < n + 1 → E (m + 1) j = 0) ∧ (∀ i, i < m + 1 → E i (n + 1) = 0) ∧
      E (m + 1) (n + 1) = 1) ∧ ∀ i j, i < m → j < n → n ≤ j + b → E (i + 1) (j + 1) = T (i + 1) (j + 1)) n
      (Mat.set (Mat.full 0) (m + 1) (n + 1) 1) (fun b E => forRange m E fun a E =>
        Mat.set E (m - a) (n - b) (E (m - a + 1) (n - b) * Real.exp ((RR (m - a + 1) (n - b) - RR (m - a) (n - b) - DD (m - a) (n - b - 1)) / γ) +
          E (m - a) (n - b + 1) * Real.exp ((RR (m - a) (n - b + 1) - RR (m - a) (n - b) - DD (m - a - 1) (n - b)) / γ) +
          E (m - a + 1) (n - b + 1) * Real.exp ((RR (m - a + 1) (n - b + 1) - RR (m - a) (n - b) - DD (m - a) (n - b)) / γ))) ?_ ?_
  · exact key.2 i j hi hj (by omega)
  · refine ⟨⟨fun j hj => ?_, fun i hi => ?_, by simp [Mat.set]⟩, fun i j _ hj h => by omega⟩
    · simp [Mat.set, Mat.full]; omega
    · simp [Mat.set, Mat.full]; omega
  · intro b E hb hE
    have key2 := forRange_inv (fun a (E : Mat ℝ) => ((∀ j, j < n + 1 → E (m + 1) j = 0) ∧ (∀ i, i < m + 1 → E i (n + 1) = 0) ∧
      E (m + 1) (n + 1) = 1) ∧ ∀ i j, i < m → j < n → (n ≤ j + b ∨ (j + b + 1 = n ∧ m ≤ i + a)) → E (i + 1) (j + 1) = T (i + 1) (j + 1)) m
      E (fun a E =>
        Mat.set E (m - a) (n - b) (E (m - a + 1) (n - b) * Real.exp ((RR (m - a + 1) (n - b) - RR (m - a) (n - b) - DD (m - a) (n - b - 1)) / γ) +
          E (m - a) (n - b + 1) * Real.exp ((RR (m - a) (n - b + 1) - RR (m - a) (n - b) - DD (m - a - 1) (n - b)) / γ) +
          E (m - a + 1) (n - b + 1) * Real.exp ((RR (m - a + 1) (n - b + 1) - RR (m - a) (n - b) - DD (m - a) (n - b)) / γ)))
      ⟨hE.1, fun i j hi hj h => hE.2 i j hi hj (by omega)⟩ ?_
    · exact ⟨key2.1, fun i j hi hj h => key2.2 i j hi hj (by omega)⟩
    · intro a E ha ⟨⟨g1, g2, g3⟩, hE⟩
      obtain ⟨i, hi⟩ : ∃ i, m - a = i + 1 := ⟨m - a - 1, by omega⟩
      obtain ⟨j, hj⟩ : ∃ j, n - b = j + 1 := ⟨n - b - 1, by omega⟩
      simp only [hi, hj, Nat.add_sub_cancel]
      rw [step E i j (by omega) (by omega) g1 g2 g3 (fun h => hE (i + 1) j h (by omega) (by omega))
        (fun h => hE i (j + 1) (by omega) h (by omega)) (fun h h' => hE (i + 1) (j + 1) h h' (by omega))]
      refine ⟨⟨fun j' hj' => ?_, fun i' hi' => ?_, ?_⟩, fun i' j' hi' hj' h => ?_⟩
      · rw [Mat.set_apply, if_neg (by omega)]; exact g1 j' hj'
      · rw [Mat.set_apply, if_neg (by omega)]; exact g2 i' hi'
      · rw [Mat.set_apply, if_neg (by omega)]; exact g3
      · rw [Mat.set_apply]
        by_cases e : i' + 1 = i + 1 ∧ j' + 1 = j + 1
        · rw [if_pos e]
          obtain ⟨e1, e2⟩ := e
          rw [e1, e2]
        · rw [if_neg e]
          exact hE i' j' hi' hj' (by omega)

end
end Verif
