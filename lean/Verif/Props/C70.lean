import Verif.Model.Varima
import Mathlib.Algebra.BigOperators.Group.Finset.Basic
import Mathlib.Algebra.Order.Ring.Rat
import Mathlib.Algebra.Field.Rat
import Mathlib.Algebra.Order.Ring.Int
import Mathlib.Tactic.Ring
import Mathlib.Tactic.Linarith
import Mathlib.Tactic.IntervalCases
import Mathlib.Algebra.Order.BigOperators.Group.Finset
/-!
C70: the coefficients a VARIMA model without moving average is given are those of its regression.
-/
set_option linter.unusedSectionVars false
namespace Verif
open Finset
variable {K : Type} [CommRing K]

theorem sumRangeL {A : Type} [AddCommMonoid A] (n : ℕ) (f : ℕ → A) : ((List.range n).map f).sum = ∑ i ∈ range n, f i := by
  induction n with
  | zero => simp
  | succ n ih => simp [List.range_succ, Finset.sum_range_succ, ih]

/-- With one feature, the fitted model predicts what the regression fitted, for every history and time. -/
theorem C70_partial (p : ℕ) (coeffs : ℕ → ℕ → K) (X : ℕ → ℕ → K) (t : ℕ) :
    arNext p 1 (arCoeffs p 1 coeffs) X t 0 = varFitted p 1 coeffs X t 0 := by
  unfold arNext varFitted
  rw [sumRangeL, sumRangeL, Nat.mul_one]
  refine Finset.sum_congr rfl fun k hk => ?_
  rw [Finset.mem_range] at hk
  simp [arCoeffs, reshape3, ravelT, varRow, Nat.mod_eq_of_lt hk, Nat.div_eq_of_lt hk, Nat.mod_one]

/-- With lag 1 and any number of features, the coefficient matrix is the transpose of that of the regression. -/
theorem C70_transposed (f : ℕ) (coeffs : ℕ → ℕ → K) (a b : ℕ) (hb : b < f) : arCoeffs 1 f coeffs 0 a b = coeffs b a := by
  have hf : 0 < f := by omega
  simp only [arCoeffs, reshape3, ravelT, Nat.zero_mul, Nat.zero_add, Nat.one_mul]
  rw [Nat.mul_comm a f, Nat.mul_add_mod, Nat.mod_eq_of_lt hb, Nat.mul_add_div hf, Nat.div_eq_of_lt hb, Nat.add_zero]

/-- Sum of squared one-step errors of the predictions `pred` for the samples from `p` on. -/
def Spec.stepErrors (p f n : ℕ) (X pred : ℕ → ℕ → K) : K := ∑ t ∈ range (n - p), ∑ b ∈ range f, (X (p + t) b - pred (p + t) b) ^ 2

/-- With one feature: if the regression returned coefficients of least squares, no autoregressive model makes smaller one-step errors on
the series than the fitted one. -/
theorem C70_optimal_partial [LinearOrder K] (p n : ℕ) (X : ℕ → ℕ → K) (coeffs : ℕ → ℕ → K)
    (hmin : ∀ c', Spec.stepErrors p 1 n X (varFitted p 1 coeffs X) ≤ Spec.stepErrors p 1 n X (varFitted p 1 c' X)) (ar : ℕ → ℕ → ℕ → K) :
    Spec.stepErrors p 1 n X (arNext p 1 (arCoeffs p 1 coeffs) X) ≤ Spec.stepErrors p 1 n X (arNext p 1 ar X) := by
  have h1 : Spec.stepErrors p 1 n X (arNext p 1 (arCoeffs p 1 coeffs) X) = Spec.stepErrors p 1 n X (varFitted p 1 coeffs X) := by
    unfold Spec.stepErrors
    simp only [Finset.sum_range_one, C70_partial]
  have h2 : Spec.stepErrors p 1 n X (arNext p 1 ar X) = Spec.stepErrors p 1 n X (varFitted p 1 (fun i b => ar i 0 b) X) := by
    unfold Spec.stepErrors
    simp only [Finset.sum_range_one]
    refine Finset.sum_congr rfl fun t _ => ?_
    congr 2
    unfold arNext varFitted
    rw [sumRangeL, sumRangeL, Nat.mul_one]
    refine Finset.sum_congr rfl fun k _ => ?_
    simp [varRow, Nat.mod_one]
  rw [h1, h2]
  exact hmin _

/-- With two features it is false: three samples of `(u, v) ↦ (u, u + v)`. The regression recovers the map, and it alone, without any
error; the fitted model is the transposed map and predicts `(2, 1)` where the sample is `(1, 2)`. -/
theorem C70_false : ∃ (X coeffs : ℕ → ℕ → ℤ), Spec.stepErrors 1 2 3 X (varFitted 1 2 coeffs X) = 0 ∧
    (∀ c', Spec.stepErrors 1 2 3 X (varFitted 1 2 c' X) = 0 → ∀ i < 2, ∀ b < 2, c' i b = coeffs i b) ∧
    Spec.stepErrors 1 2 3 X (arNext 1 2 (arCoeffs 1 2 coeffs) X) = 3 ∧
    arNext 1 2 (arCoeffs 1 2 coeffs) X 2 0 = 2 ∧ arNext 1 2 (arCoeffs 1 2 coeffs) X 2 1 = 1 ∧ X 2 0 = 1 ∧ X 2 1 = 2 := by
  refine ⟨fun t b => if b = 0 then 1 else t, fun i b => if i = 1 ∧ b = 0 then 0 else 1, by decide +kernel, ?_, by decide +kernel,
    by decide +kernel, by decide +kernel, by decide, by decide⟩
  intro c' h i hi b hb
  have h' : (1 - c' 0 0) ^ 2 + (1 - c' 0 1) ^ 2 + ((1 - (c' 0 0 + c' 1 0)) ^ 2 + (2 - (c' 0 1 + c' 1 1)) ^ 2) = 0 := by
    rw [← h]
    simp [Spec.stepErrors, varFitted, varRow, Finset.sum_range_succ, List.range_succ]
  have e1 := sq_nonneg (1 - c' 0 0)
  have e2 := sq_nonneg (1 - c' 0 1)
  have e3 := sq_nonneg (1 - (c' 0 0 + c' 1 0))
  have e4 := sq_nonneg (2 - (c' 0 1 + c' 1 1))
  have z1 := pow_eq_zero_iff (two_ne_zero) |>.mp (by linarith : (1 - c' 0 0) ^ 2 = 0)
  have z2 := pow_eq_zero_iff (two_ne_zero) |>.mp (by linarith : (1 - c' 0 1) ^ 2 = 0)
  have z3 := pow_eq_zero_iff (two_ne_zero) |>.mp (by linarith : (1 - (c' 0 0 + c' 1 0)) ^ 2 = 0)
  have z4 := pow_eq_zero_iff (two_ne_zero) |>.mp (by linarith : (2 - (c' 0 1 + c' 1 1)) ^ 2 = 0)
  interval_cases i <;> interval_cases b <;> simp <;> linarith

example : (arNext 2 1 (arCoeffs 2 1 fun i _ => if i = 0 then 1 else 3) (fun t _ => t) 5 0 : ℤ) = 4 + 3 * 3 := by decide +kernel
example : (arCoeffs 1 3 (fun a b => (10 * a + b : ℤ)) 0 1 2) = 21 := by decide +kernel
example : ∀ c' : ℕ → ℕ → ℤ, Spec.stepErrors 1 1 3 (fun t _ => 2 ^ t) (varFitted 1 1 (fun _ _ => 2) fun t _ => 2 ^ t) ≤
    Spec.stepErrors 1 1 3 (fun t _ => 2 ^ t) (varFitted 1 1 c' fun t _ => 2 ^ t) := by
  intro c'
  have h0 : Spec.stepErrors 1 1 3 (fun t _ => 2 ^ t) (varFitted 1 1 (fun _ _ => 2) fun t _ => 2 ^ t) = (0 : ℤ) := by decide +kernel
  rw [h0]
  exact Finset.sum_nonneg fun _ _ => Finset.sum_nonneg fun _ _ => sq_nonneg _

end Verif
