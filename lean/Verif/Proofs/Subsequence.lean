import Verif.Model.Subsequence
import Verif.Proofs.Dtw
import Verif.Proofs.Argmin
/-!
Subsequence DTW.
-/
set_option linter.unusedSectionVars false
namespace Verif
open Spec

/-- Translate the second index. -/
def shift (a : ℕ) (c : ℕ × ℕ) : ℕ × ℕ := (c.1, a + c.2)

/-- A path starting anywhere in row 0 is a translated warping path, and conversely. -/
theorem WP.free_iff {p : List (ℕ × ℕ)} {i j : ℕ} : WP true p i j ↔
    ∃ a q k, a + k = j ∧ WP false q i k ∧ p = q.map (shift a) := by
  constructor
  · intro h
    induction h with
    | start j0 h => exact ⟨j0, [(0,0)], 0, rfl, .start 0 (.inr rfl), by simp [shift]⟩
    | down h ih =>
      obtain ⟨a, q, k, rfl, hq, rfl⟩ := ih
      exact ⟨a, _, k, rfl, hq.down, by simp [shift]⟩
    | right h ih =>
      obtain ⟨a, q, k, rfl, hq, rfl⟩ := ih
      exact ⟨a, _, k+1, rfl, hq.right, by simp [shift, add_assoc]⟩
    | diag h ih =>
      obtain ⟨a, q, k, rfl, hq, rfl⟩ := ih
      exact ⟨a, _, k+1, rfl, hq.diag, by simp [shift, add_assoc]⟩
  · rintro ⟨a, q, k, rfl, hq, rfl⟩
    induction hq with
    | start j0 h => simp at h; subst h; exact .start a (.inl rfl)
    | down h ih => simpa [shift] using ih.down
    | @right q i k h ih =>
      have := ih.right
      simpa [shift, add_assoc] using this
    | diag h ih =>
      have := ih.diag
      simpa [shift, add_assoc] using this

section
variable {K : Type} [CommRing K] [LinearOrder K] [IsStrictOrderedRing K]

theorem subseqInit_eq : (subseqInit : Mat (WithTop K)) = dpInit 0 true := by
  funext i j
  simp [subseqInit, dpInit]

variable {l1 l2 : ℕ} {D : ℕ → ℕ → K}

theorem subseq_isDP (l1 l2 : ℕ) (D : ℕ → ℕ → K) : ∃ M : Mat (WithTop K), M.tail = subseqCost l1 l2 D ∧
    IsDP l1 l2 (fun _ _ => true) (minCell (fun (d : K) (c : WithTop K) => (d : WithTop K) + c) D)
      (dpInit 0 true) M := by
  refine ⟨_, rfl, ?_⟩
  rw [← subseqInit_eq]
  exact dpLoop_isDP _ _ _ _ _

theorem subseq_nonneg {M : Mat (WithTop K)} (hD : ∀ i j, 0 ≤ D i j)
    (hM : IsDP l1 l2 (fun _ _ => true) (minCell (fun (d : K) (c : WithTop K) => (d : WithTop K) + c) D)
      (dpInit 0 true) M) : ∀ i j, i ≤ l1 → j ≤ l2 → 0 ≤ M i j := by
  intro i
  induction i with
  | zero => intro j _ _; rw [hM.row0]; simp [dpInit]
  | succ i ih =>
    intro j
    induction j with
    | zero => intro _ _; rw [hM.col0]; simp [dpInit]
    | succ j ihj =>
      intro hi hj
      rw [hM.body i j (by omega) (by omega)]
      simp only [if_true, minCell]
      have h0 : (0 : WithTop K) ≤ (D i j : WithTop K) := by
        rw [← WithTop.coe_zero, WithTop.coe_le_coe]; exact hD i j
      exact add_nonneg h0 (le_min (le_min (ih _ (by omega) hj) (ihj hi (by omega)))
        (ih _ (by omega) (by omega)))

/-- Row 0 of the table: the start is free. -/
theorem subseq_row0 {M : Mat (WithTop K)} (hD : ∀ i j, 0 ≤ D i j)
    (hM : IsDP l1 l2 (fun _ _ => true) (minCell (fun (d : K) (c : WithTop K) => (d : WithTop K) + c) D)
      (dpInit 0 true) M) {j : ℕ} (h1 : 0 < l1) (hj : j < l2) : M 1 (j+1) = (D 0 j : WithTop K) := by
  rw [hM.body 0 j h1 hj]
  simp only [if_true, minCell]
  rw [hM.row0, hM.row0, min_eq_right]
  · simp [dpInit]
  · have := subseq_nonneg hD hM (0+1) j (by omega) (by omega)
    simp [dpInit, this]

/-- The traceback ends with an optimal path. -/
theorem subseq_traceback {M : Mat (WithTop K)} (hD : ∀ i j, 0 ≤ D i j)
    (hM : IsDP l1 l2 (fun _ _ => true) (minCell (fun (d : K) (c : WithTop K) => (d : WithTop K) + c) D)
      (dpInit 0 true) M) {am} (ham : IsArgmin3 am) :
    ∀ (n i j fuel : ℕ) (rest : List (ℕ × ℕ)), i + j = n → n < fuel → i < l1 → j < l2 →
      ∃ p, WP true p i j ∧ ((sumCost D p : K) : WithTop K) = M (i+1) (j+1) ∧
        subseqPathLoop am M.tail fuel (i, j) rest = some (p ++ rest) := by
  intro n
  induction n using Nat.strong_induction_on with
  | _ n ih =>
    intro i j fuel rest hn hf hi hj
    obtain ⟨fuel, rfl⟩ : ∃ f, fuel = f + 1 := ⟨fuel - 1, by omega⟩
    have app : ∀ (p : List (ℕ × ℕ)) (c : ℕ × ℕ), ((sumCost D (p ++ [c]) : K) : WithTop K) =
        (D c.1 c.2 : WithTop K) + ((sumCost D p : K) : WithTop K) := by
      intro p c
      rw [← WithTop.coe_add, add_comm]
      simp [sumCost]
    rcases i with _ | i
    · refine ⟨[(0, j)], .start j (.inl rfl), ?_, by simp [subseqPathLoop]⟩
      rw [subseq_row0 hD hM hi hj]; simp [sumCost]
    · have hstep : subseqPathLoop am M.tail (fuel+1) (i+1, j) rest =
          subseqPathLoop am M.tail fuel (pathNext am M.tail (i+1) j) ((i+1, j) :: rest) := by
        simp [subseqPathLoop]
      rw [hstep, hM.body (i+1) j hi hj]
      simp only [if_true, minCell]
      rcases j with _ | j
      · obtain ⟨p, hp, hc, hpath⟩ := ih (i + 0) (by omega) i 0 fuel ((i+1, 0) :: rest) rfl (by omega)
          (by omega) hj
        refine ⟨p ++ [(i+1, 0)], hp.down, ?_, ?_⟩
        · rw [app, hc]
          have h1 : M (i+1+1) 0 = ⊤ := by rw [hM.col0]; simp [dpInit]
          have h2 : M (i+1) 0 = ⊤ := by rw [hM.col0]; simp [dpInit]
          simp only [h1, h2, min_top_right]
        · simp [pathNext, hpath]
      · set a := M (i+1) (j+1) with ha
        set b := M (i+1) (j+1+1) with hb
        set c := M (i+1+1) (j+1) with hc'
        have hnext : pathNext am M.tail (i+1) (j+1) =
            if am a b c = 0 then (i, j) else if am a b c = 1 then (i, j+1) else (i+1, j) := by
          simp [pathNext, Mat.tail, ha, hb, hc']
        rw [hnext]
        rcases ham a b c with ⟨h0, h1, h2⟩ | ⟨h0, h1, h2⟩ | ⟨h0, h1, h2⟩
        · obtain ⟨p, hp, hc, hpath⟩ := ih (i + j) (by omega) i j fuel ((i+1, j+1) :: rest) rfl
            (by omega) (by omega) (by omega)
          refine ⟨p ++ [(i+1, j+1)], hp.diag, ?_, ?_⟩
          · rw [app, hc, min_eq_right (le_min h1 h2)]
          · rw [h0, if_pos rfl, hpath]; simp
        · obtain ⟨p, hp, hc, hpath⟩ := ih (i + (j+1)) (by omega) i (j+1) fuel ((i+1, j+1) :: rest) rfl
            (by omega) (by omega) (by omega)
          refine ⟨p ++ [(i+1, j+1)], hp.down, ?_, ?_⟩
          · rw [app, hc, min_eq_left (h2 : b ≤ c), min_eq_left h1]
          · rw [h0, if_neg (by omega), if_pos rfl, hpath]; simp
        · obtain ⟨p, hp, hc, hpath⟩ := ih (i + 1 + j) (by omega) (i+1) j fuel ((i+1, j+1) :: rest) rfl
            (by omega) (by omega) (by omega)
          refine ⟨p ++ [(i+1, j+1)], hp.right, ?_, ?_⟩
          · rw [app, hc, min_eq_right (h2 : c ≤ b), min_eq_left h1]
          · rw [h0, if_neg (by omega), if_neg (by omega), hpath]; simp

/-- Each entry of the cost matrix is the least cost of the paths ending there. -/
theorem subseqCost_le {i j : ℕ} (hi : i < l1) (hj : j < l2) {p : List (ℕ × ℕ)} (hp : WP true p i j) :
    subseqCost l1 l2 D i j ≤ ((sumCost D p : K) : WithTop K) := by
  obtain ⟨M, hM, h⟩ := subseq_isDP l1 l2 D
  rw [← hM, ← pathCost_add_eq]
  exact h.le_cost add_mono_top hp hi hj (fun _ _ => rfl)

end
end Verif
