import Verif.Model.Gak
import Verif.Spec.Gak
import Verif.Proofs.PathSum
import Verif.Proofs.Dtw
import Verif.Proofs.Masks
import Mathlib.Tactic.Positivity
import Mathlib.Tactic.Linarith
import Mathlib.Tactic.FieldSimp
import Mathlib.Tactic.Ring
/-!
The GAK table holds path sums.
-/
set_option linter.unusedSectionVars false
namespace Verif
open Spec
noncomputable section
open Classical

theorem gakDP_eq {n m : ℕ} {gram : Mat ℝ} {M : Mat ℝ}
    (hM : IsDP n m (Mat.full true) (fun i j up left diag => (up + left + diag) * gram i j)
      ((Mat.full (0 : ℝ)).set 0 0 1) M) (i j : ℕ) (hi : i ≤ n) (hj : j ≤ m) :
    M i j = zsum (Mat.full true) gram i j := by
  induction hs : i + j using Nat.strong_induction_on generalizing i j with
  | _ s ih =>
    rcases i with _ | i
    · rw [hM.row0]
      rcases j with _ | j
      · rw [zsum_zero_zero]; rfl
      · rw [zsum_zero_succ]; rfl
    · rcases j with _ | j
      · rw [hM.col0, zsum_succ_zero]; rfl
      · rw [hM.body i j (by omega) (by omega), if_pos (show Mat.full true i j = true from rfl),
          ih _ (by omega) i (j+1) (by omega) hj rfl,
          ih _ (by omega) (i+1) j hi (by omega) rfl, ih _ (by omega) i j (by omega) (by omega) rfl,
          zsum_succ_succ]
        rfl

theorem gakFromGram_eq (n m : ℕ) (gram : Mat ℝ) : gakFromGram n m gram = zsum (Mat.full true) gram n m :=
  gakDP_eq (dpLoop_isDP ..) n m le_rfl le_rfl

theorem gaussian_pos (σ : ℝ) (u v : List ℝ) : 0 < gaussian σ u v := Real.exp_pos _

theorem gaussian_le_one (σ : ℝ) (u v : List ℝ) : gaussian σ u v ≤ 1 := by
  unfold gaussian
  rw [Real.exp_le_one_iff]
  have := sqEuclid_nonneg u v
  exact div_nonpos_of_nonpos_of_nonneg (by linarith) (by positivity)

theorem gakGram_eq (x y : List (List ℝ)) (σ : ℝ) (i j : ℕ) : gakGram x y σ i j = localKernel σ x y (i, j) := by
  have h1 := gaussian_le_one σ (x.getD i []) (y.getD j [])
  have e : -localCost x y i j / (2 * σ * σ) = -sqEuclid (x.getD i []) (y.getD j []) / (2 * σ ^ 2) := by
    rw [localCost_eq, sampleCost, mul_assoc, pow_two]
  unfold gakGram localKernel
  simp only [e]
  rw [Real.exp_sub, Real.exp_log (by unfold gaussian at h1; linarith)]
  rfl

theorem localKernel_pos (σ : ℝ) (x y : List (List ℝ)) (c : ℕ × ℕ) : 0 < localKernel σ x y c := by
  have h1 := gaussian_le_one σ (x.getD c.1 []) (y.getD c.2 [])
  have h2 := gaussian_pos σ (x.getD c.1 []) (y.getD c.2 [])
  exact div_pos h2 (by linarith)

theorem alignmentKernel_pos (σ : ℝ) (x y : List (List ℝ)) (p : List (ℕ × ℕ)) :
    0 < alignmentKernel σ x y p := by
  unfold alignmentKernel
  apply List.prod_pos
  intro c hc
  obtain ⟨c, -, rfl⟩ := List.mem_map.1 hc
  exact localKernel_pos ..

theorem localKernel_swap (σ : ℝ) (x y : List (List ℝ)) (i j : ℕ) :
    localKernel σ y x (j, i) = localKernel σ x y (i, j) := by
  simp only [localKernel, gaussian, sqEuclid_comm (y.getD j []) (x.getD i [])]

theorem unnormGak_eq_zsum (x y : List (List ℝ)) (σ : ℝ) :
    unnormGak x y σ = zsum (Mat.full true) (fun i j => localKernel σ x y (i, j)) x.length y.length := by
  unfold unnormGak
  rw [gakFromGram_eq]
  congr 1
  funext i j
  exact gakGram_eq x y σ i j

theorem unnormGak_eq_sum {x y : List (List ℝ)} (hx : x ≠ []) (hy : y ≠ []) (σ : ℝ)
    {S : Finset (List (ℕ × ℕ))} (hS : ∀ p, p ∈ S ↔ IsWarpingPath x.length y.length p) :
    unnormGak x y σ = ∑ p ∈ S, alignmentKernel σ x y p := by
  have hx' := List.length_pos_iff.2 hx
  have hy' := List.length_pos_iff.2 hy
  have hP : pathsB (Mat.full true) x.length y.length = S := by
    ext p
    rw [hS, mem_pathsB_admissible hx' hy']
    exact ⟨fun h => h.1, fun h => ⟨h, fun _ _ => rfl⟩⟩
  rw [unnormGak_eq_zsum, zsum, hP]
  rfl

theorem zsum_swap (k : ℕ → ℕ → ℝ) (a b : ℕ) :
    zsum (Mat.full true) k a b = zsum (Mat.full true) (fun i j => k j i) b a := by
  induction hs : a + b using Nat.strong_induction_on generalizing a b with
  | _ s ih =>
    rcases a with _ | a <;> rcases b with _ | b
    · rw [zsum_zero_zero, zsum_zero_zero]
    · rw [zsum_zero_succ, zsum_succ_zero]
    · rw [zsum_zero_succ, zsum_succ_zero]
    · rw [zsum_succ_succ, zsum_succ_succ, ih _ (by omega) a (b+1) rfl, ih _ (by omega) (a+1) b rfl,
        ih _ (by omega) a b rfl]
      simp only [Mat.full, if_true]
      ring

theorem unnormGak_comm (x y : List (List ℝ)) (σ : ℝ) : unnormGak x y σ = unnormGak y x σ := by
  rw [unnormGak_eq_zsum, unnormGak_eq_zsum, zsum_swap]
  congr 1
  funext i j
  exact (localKernel_swap σ x y j i).symm

theorem unnormGak_pos {x y : List (List ℝ)} (hx : x ≠ []) (hy : y ≠ []) (σ : ℝ) : 0 < unnormGak x y σ := by
  have hx' := List.length_pos_iff.2 hx
  have hy' := List.length_pos_iff.2 hy
  have hS : ∀ p, p ∈ pathsB (Mat.full true) x.length y.length ↔ IsWarpingPath x.length y.length p := by
    intro p
    rw [mem_pathsB_admissible hx' hy']
    exact ⟨fun h => h.1, fun h => ⟨h, fun _ _ => rfl⟩⟩
  rw [unnormGak_eq_sum hx hy σ hS]
  obtain ⟨p, hp⟩ := full_feasible _ _ hx' hy'
  exact Finset.sum_pos (fun _ _ => alignmentKernel_pos ..) ⟨p, (hS p).2 hp.1⟩

theorem gakGeneric_comm (x y : List (List ℝ)) (σ : ℝ) : gakGeneric x y σ = gakGeneric y x σ := by
  unfold gakGeneric
  simp only
  rw [unnormGak_comm x y, mul_comm]

theorem gakGeneric_self {x : List (List ℝ)} (hx : x ≠ []) (σ : ℝ) : gakGeneric x x σ = 1 := by
  unfold gakGeneric
  simp only
  rw [Real.mul_self_sqrt (unnormGak_pos hx hx σ).le]
  exact div_self (unnormGak_pos hx hx σ).ne'

theorem gakGeneric_pos {x y : List (List ℝ)} (hx : x ≠ []) (hy : y ≠ []) (σ : ℝ) : 0 < gakGeneric x y σ :=
  div_pos (unnormGak_pos hx hy σ)
    (mul_pos (Real.sqrt_pos.2 (unnormGak_pos hx hx σ)) (Real.sqrt_pos.2 (unnormGak_pos hy hy σ)))

/-- `diag(a) @ M @ diag(b)`. -/
theorem diag_matMul_diag {n m : ℕ} (a b : ℕ → ℝ) (M : Mat ℝ) {i j : ℕ} (hi : i < n) (hj : j < m) :
    matMul m (matMul n (diagMat a) M) (diagMat b) i j = a i * M i j * b j := by
  unfold matMul diagMat
  rw [Finset.sum_eq_single j]
  · rw [if_pos rfl, Finset.sum_eq_single i]
    · rw [if_pos rfl]
    · intro k _ hk; rw [if_neg (Ne.symm hk), zero_mul]
    · intro h; exact absurd (Finset.mem_range.2 hi) h
  · intro k _ hk; rw [if_neg hk, mul_zero]
  · intro h; exact absurd (Finset.mem_range.2 hj) h

end
end Verif
