import Mathlib.Analysis.Matrix.Order
import Mathlib.Analysis.SpecialFunctions.Exponential
import Mathlib.Topology.Algebra.InfiniteSum.Real
import Mathlib.Topology.Order.MonotoneConvergence
import Mathlib.Tactic.Linarith
import Mathlib.Tactic.Positivity
import Mathlib.Tactic.Ring
/-!
Positive semidefinite kernels on an arbitrary type.
-/
namespace Verif
noncomputable section
open Classical Filter

/-- Symmetric, and every finite quadratic form is non-negative. -/
structure IsPsd {α : Type} (k : α → α → ℝ) : Prop where
  symm : ∀ a b, k a b = k b a
  nonneg : ∀ {ι : Type} [Fintype ι] (e : ι → α) (c : ι → ℝ), 0 ≤ ∑ p, ∑ q, c p * c q * k (e p) (e q)

variable {α β : Type}

theorem IsPsd.comp {k : α → α → ℝ} (h : IsPsd k) (f : β → α) : IsPsd fun a b => k (f a) (f b) :=
  ⟨fun _ _ => h.symm _ _, fun e c => h.nonneg (f ∘ e) c⟩

theorem IsPsd.zero : IsPsd (fun _ _ : α => (0:ℝ)) := ⟨fun _ _ => rfl, fun e c => by simp⟩

theorem IsPsd.add {k l : α → α → ℝ} (hk : IsPsd k) (hl : IsPsd l) : IsPsd fun a b => k a b + l a b := by
  refine ⟨fun a b => by rw [hk.symm, hl.symm], fun e c => ?_⟩
  have := add_nonneg (hk.nonneg e c) (hl.nonneg e c)
  simpa only [mul_add, Finset.sum_add_distrib] using this

theorem IsPsd.rankOne (f : α → ℝ) : IsPsd fun a b => f a * f b := by
  refine ⟨fun a b => mul_comm _ _, fun e c => ?_⟩
  have : ∑ p, ∑ q, c p * c q * (f (e p) * f (e q)) = (∑ p, c p * f (e p)) * (∑ q, c q * f (e q)) := by
    rw [Finset.sum_mul_sum]
    refine Finset.sum_congr rfl fun p _ => Finset.sum_congr rfl fun q _ => by ring
  rw [this]
  exact mul_self_nonneg _

theorem IsPsd.posSemidef {k : α → α → ℝ} (h : IsPsd k) {ι : Type} [Fintype ι] (e : ι → α) :
    (Matrix.of fun p q => k (e p) (e q)).PosSemidef := by
  refine Matrix.PosSemidef.of_dotProduct_mulVec_nonneg ?_ ?_
  · ext p q
    simp [h.symm (e q) (e p)]
  · intro c
    have := h.nonneg e c
    simp only [dotProduct, Matrix.mulVec, Matrix.of_apply, Pi.star_apply, star_trivial, Finset.mul_sum]
    refine this.trans_eq (Finset.sum_congr rfl fun p _ => Finset.sum_congr rfl fun q _ => by ring)

/-- Schur product. -/
theorem IsPsd.mul {k l : α → α → ℝ} (hk : IsPsd k) (hl : IsPsd l) : IsPsd fun a b => k a b * l a b := by
  refine ⟨fun a b => by rw [hk.symm, hl.symm], fun e c => ?_⟩
  have := ((hk.posSemidef e).hadamard (hl.posSemidef e)).dotProduct_mulVec_nonneg c
  simp only [dotProduct, Matrix.mulVec, Matrix.hadamard_apply, Matrix.of_apply, Pi.star_apply, star_trivial,
    Finset.mul_sum] at this
  refine this.trans_eq (Finset.sum_congr rfl fun p _ => Finset.sum_congr rfl fun q _ => by ring)

theorem IsPsd.smul {k : α → α → ℝ} (hk : IsPsd k) {t : ℝ} (ht : 0 ≤ t) : IsPsd fun a b => t * k a b := by
  have := (IsPsd.rankOne (fun _ : α => Real.sqrt t)).mul hk
  simpa only [Real.mul_self_sqrt ht] using this

theorem IsPsd.pow {k : α → α → ℝ} (hk : IsPsd k) (n : ℕ) : IsPsd fun a b => k a b ^ n := by
  induction n with
  | zero => simpa using IsPsd.rankOne (fun _ : α => (1:ℝ))
  | succ n ih => simpa only [pow_succ] using ih.mul hk

theorem IsPsd.sum {γ : Type} (s : Finset γ) {k : γ → α → α → ℝ} (h : ∀ g ∈ s, IsPsd (k g)) :
    IsPsd fun a b => ∑ g ∈ s, k g a b := by
  induction s using Finset.induction_on with
  | empty => simpa using IsPsd.zero
  | insert g s hg ih =>
    simp only [Finset.sum_insert hg]
    exact (h g (by simp)).add (ih fun g' hg' => h g' (by simp [hg']))

theorem IsPsd.lim {k : ℕ → α → α → ℝ} {l : α → α → ℝ} (h : ∀ n, IsPsd (k n))
    (hl : ∀ a b, Tendsto (fun n => k n a b) atTop (nhds (l a b))) : IsPsd l := by
  refine ⟨fun a b => ?_, fun e c => ?_⟩
  · refine tendsto_nhds_unique (hl a b) ?_
    simpa only [fun n => (h n).symm a b] using hl b a
  · have : Tendsto (fun n => ∑ p, ∑ q, c p * c q * k n (e p) (e q)) atTop
        (nhds (∑ p, ∑ q, c p * c q * l (e p) (e q))) :=
      tendsto_finsetSum _ fun p _ => tendsto_finsetSum _ fun q _ => (hl _ _).const_mul _
    exact ge_of_tendsto' this fun n => (h n).nonneg e c

theorem IsPsd.exp {k : α → α → ℝ} (hk : IsPsd k) : IsPsd fun a b => Real.exp (k a b) := by
  refine IsPsd.lim (k := fun n a b => ∑ i ∈ Finset.range n, (i.factorial : ℝ)⁻¹ * k a b ^ i)
    (fun n => IsPsd.sum _ fun i _ => (hk.pow i).smul (by positivity)) fun a b => ?_
  have := (NormedSpace.expSeries_div_hasSum_exp (𝔸 := ℝ) (k a b)).tendsto_sum_nat
  rw [← Real.exp_eq_exp_ℝ] at this
  refine this.congr fun n => Finset.sum_congr rfl fun i _ => by
    rw [div_eq_inv_mul]

/-- Adding up a kernel over each point and its predecessor. -/
theorem IsPsd.pred {k : α → α → ℝ} (hk : IsPsd k) (P : α → α) :
    IsPsd fun a b => k a b + k (P a) b + k a (P b) + k (P a) (P b) := by
  refine ⟨fun a b => ?_, fun {ι} _ e c => ?_⟩
  · rw [hk.symm a b, hk.symm (P a) b, hk.symm a (P b), hk.symm (P a) (P b)]; ring
  · have := hk.nonneg (ι := ι ⊕ ι) (Sum.elim e (P ∘ e)) (Sum.elim c c)
    simp only [Fintype.sum_sum_type, Sum.elim_inl, Sum.elim_inr, Function.comp] at this
    refine this.trans_eq ?_
    simp only [← Finset.sum_add_distrib]
    refine Finset.sum_congr rfl fun p _ => Finset.sum_congr rfl fun q _ => by ring

/-- Cauchy–Schwarz for kernels. -/
theorem IsPsd.cauchySchwarz {k : α → α → ℝ} (hk : IsPsd k) (a b : α) (hb : 0 < k b b) :
    k a b ^ 2 ≤ k a a * k b b := by
  have := hk.nonneg (ι := Fin 2) ![a, b] ![k b b, -k a b]
  simp only [Fin.sum_univ_two, Matrix.cons_val_zero, Matrix.cons_val_one] at this
  rw [hk.symm b a] at this
  have h2 : 0 ≤ k b b * (k a a * k b b - k a b ^ 2) := by
    refine this.trans_eq ?_
    ring
  have := nonneg_of_mul_nonneg_right h2 hb
  linarith

/-- Gaussian kernel on vectors with `d` coordinates. -/
theorem IsPsd.gaussian (d : ℕ) (t : ℝ) (ht : 0 ≤ t) :
    IsPsd fun u v : ℕ → ℝ => Real.exp (-(∑ f ∈ Finset.range d, (u f - v f) ^ 2) * t) := by
  have hG : IsPsd fun u v : ℕ → ℝ => (2 * t) * ∑ f ∈ Finset.range d, u f * v f :=
    (IsPsd.sum _ fun f _ => IsPsd.rankOne (fun u : ℕ → ℝ => u f)).smul (by positivity)
  have := (IsPsd.rankOne (fun u : ℕ → ℝ => Real.exp (-(∑ f ∈ Finset.range d, u f ^ 2) * t))).mul hG.exp
  convert this using 3 with u v
  rw [← Real.exp_add, ← Real.exp_add]
  congr 1
  have : ∑ f ∈ Finset.range d, (u f - v f) ^ 2 = ∑ f ∈ Finset.range d, u f ^ 2 +
      ∑ f ∈ Finset.range d, v f ^ 2 - 2 * ∑ f ∈ Finset.range d, u f * v f := by
    rw [Finset.mul_sum, ← Finset.sum_add_distrib, ← Finset.sum_sub_distrib]
    refine Finset.sum_congr rfl fun f _ => by ring
  rw [this]
  ring

end
end Verif
