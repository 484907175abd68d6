import Verif.Spec.Wiggle
import Verif.Proofs.MetricLaws
import Verif.Proofs.Rounded
/-!
# Costs of series that differ little
-/
set_option linter.unusedSectionVars false
namespace Verif
open Spec

theorem sqEuclid_comm_real (u v : List ℝ) : sqEuclid u v = sqEuclid v u := by
  induction u generalizing v with
  | nil => simp [sqEuclid]
  | cons a u ih =>
    cases v with
    | nil => simp [sqEuclid]
    | cons b v =>
      have := ih v
      simp only [sqEuclid, List.zip_cons_cons, List.map_cons, List.sum_cons] at this ⊢
      rw [this]; ring

theorem Spec.Wiggle.symm {d : ℕ} {ε : ℝ} {x x' : List (List ℝ)} (h : Wiggle d ε x x') : Wiggle d ε x' x := by
  refine ⟨h.1.symm, fun i hi => ?_⟩
  obtain ⟨a, b, c⟩ := h.2 i (h.1 ▸ hi)
  exact ⟨b, a, by rwa [sqEuclid_comm_real]⟩

/-- Distances of samples change by at most the changes of both samples. -/
theorem Spec.Wiggle.cost {d : ℕ} {ε δ : ℝ} {x x' y y' : List (List ℝ)} (hx : Wiggle d ε x x') (hy : Wiggle d δ y y')
    {i j : ℕ} (hi : i < x.length) (hj : j < y.length) :
    Real.sqrt (sampleCost x' y' i j) ≤ Real.sqrt (sampleCost x y i j) + (ε + δ) := by
  obtain ⟨a1, a2, a3⟩ := hx.2 i hi
  obtain ⟨b1, b2, b3⟩ := hy.2 j hj
  have t1 := sqrt_sqEuclid_triangle (x'.getD i []) (x.getD i []) (y'.getD j []) (by rw [a1, a2]) (by rw [a1, b2])
  have t2 := sqrt_sqEuclid_triangle (x.getD i []) (y.getD j []) (y'.getD j []) (by rw [a1, b1]) (by rw [b1, b2])
  rw [sqEuclid_comm_real (x'.getD i []) (x.getD i [])] at t1
  unfold sampleCost
  linarith

/-- Minkowski: if every term grows by at most `η`, the root of the sum of squares grows by at most `√L · η`. -/
theorem sqrt_sum_sq_le {α : Type} (p : List α) (a a' : α → ℝ) (η : ℝ) (hη : 0 ≤ η)
    (h : ∀ c ∈ p, 0 ≤ a' c ∧ a' c ≤ a c + η) :
    Real.sqrt ((p.map fun c => a' c ^ 2).sum) ≤
      Real.sqrt ((p.map fun c => a c ^ 2).sum) + Real.sqrt p.length * η := by
  have t := sqrt_sqEuclid_triangle (p.map fun c => a c + η) (p.map fun _ => η) (p.map fun _ => (0 : ℝ)) (by simp) (by simp)
  have e : ∀ f g : α → ℝ, sqEuclid (p.map f) (p.map g) = (p.map fun c => (f c - g c) ^ 2).sum := by
    intro f g
    unfold sqEuclid
    rw [List.zip_map', List.map_map]
    rfl
  simp only [e, sub_zero, add_sub_cancel_right] at t
  have s : ((p.map fun _ => η ^ 2).sum : ℝ) = p.length * η ^ 2 := by simp [List.sum_replicate]
  rw [s, Real.sqrt_mul (by positivity), Real.sqrt_sq hη] at t
  refine le_trans (Real.sqrt_le_sqrt ?_) t
  apply List.sum_le_sum
  intro c hc
  obtain ⟨h1, h2⟩ := h c hc
  exact pow_le_pow_left₀ h1 h2 2

/-- The root of the cost of a path changes by at most `√(n+m-1)` times the change of the samples. -/
theorem sqrt_sumCost_wiggle {d : ℕ} {ε δ : ℝ} {x x' y y' : List (List ℝ)} (hx : Wiggle d ε x x') (hy : Wiggle d δ y y')
    (h0 : 0 ≤ ε + δ) {p : List (ℕ × ℕ)} (hp : ∀ c ∈ p, c.1 < x.length ∧ c.2 < y.length) (L : ℕ) (hL : p.length ≤ L) :
    Real.sqrt (sumCost (sampleCost x' y') p) ≤
      Real.sqrt (sumCost (sampleCost x y) p) + Real.sqrt L * (ε + δ) := by
  have := sqrt_sum_sq_le p (fun c => Real.sqrt (sampleCost x y c.1 c.2)) (fun c => Real.sqrt (sampleCost x' y' c.1 c.2))
    (ε + δ) h0 (fun c hc => ⟨Real.sqrt_nonneg _, hx.cost hy (hp c hc).1 (hp c hc).2⟩)
  simp only [Real.sq_sqrt (sampleCost_nonneg _ _ _ _)] at this
  refine this.trans (add_le_add le_rfl (mul_le_mul_of_nonneg_right (Real.sqrt_le_sqrt (by exact_mod_cast hL)) h0))

theorem Spec.Wiggle.nonneg {d : ℕ} {ε : ℝ} {x x' : List (List ℝ)} (h : Wiggle d ε x x') (hx : x ≠ []) : 0 ≤ ε :=
  (Real.sqrt_nonneg _).trans (h.2 0 (List.length_pos_iff.2 hx)).2.2

/-- Parts of series that differ little differ little. -/
theorem Spec.Wiggle.drop_take {d : ℕ} {ε : ℝ} {x x' : List (List ℝ)} (h : Wiggle d ε x x') (a k : ℕ) :
    Wiggle d ε ((x.drop a).take k) ((x'.drop a).take k) := by
  refine ⟨by simp [h.1], fun i hi => ?_⟩
  simp at hi
  have e : ∀ z : List (List ℝ), ((z.drop a).take k).getD i [] = z.getD (a + i) [] := by
    intro z
    simp only [List.getD_eq_getElem?_getD]
    rw [List.getElem?_take_of_lt (by omega), List.getElem?_drop]
  simpa only [e] using h.2 (a + i) (by omega)

end Verif
