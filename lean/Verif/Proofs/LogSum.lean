import Mathlib.Analysis.SpecialFunctions.Pow.Real
import Mathlib.Algebra.Order.BigOperators.Group.Finset
import Mathlib.Algebra.BigOperators.Ring.Finset
import Mathlib.Algebra.BigOperators.Field
import Mathlib.Tactic.Positivity
import Mathlib.Tactic.FieldSimp
import Mathlib.Tactic.Linarith
import Mathlib.Topology.Order.Basic
/-!
The soft minimum `-γ log Σ exp(-c/γ)` of a finite family of costs.
-/
namespace Verif
noncomputable section

/-- Soft minimum of the costs `c p`, `p ∈ S`. -/
def softMin {ι : Type*} (S : Finset ι) (c : ι → ℝ) (γ : ℝ) : ℝ :=
  -γ * Real.log (∑ p ∈ S, Real.exp (-c p / γ))

variable {ι : Type*} {S : Finset ι} {c : ι → ℝ}

theorem sum_exp_pos {γ : ℝ} (hS : S.Nonempty) : 0 < ∑ p ∈ S, Real.exp (-c p / γ) :=
  Finset.sum_pos (fun _ _ => Real.exp_pos _) hS

/-- Below every cost. -/
theorem softMin_le {γ : ℝ} (hγ : 0 < γ) {q : ι} (hq : q ∈ S) : softMin S c γ ≤ c q := by
  have h1 : Real.exp (-c q / γ) ≤ ∑ p ∈ S, Real.exp (-c p / γ) :=
    Finset.single_le_sum (f := fun p => Real.exp (-c p / γ)) (fun _ _ => (Real.exp_pos _).le) hq
  have h2 := Real.log_le_log (Real.exp_pos _) h1
  rw [Real.log_exp] at h2
  unfold softMin
  have : -c q / γ * γ ≤ Real.log (∑ p ∈ S, Real.exp (-c p / γ)) * γ :=
    mul_le_mul_of_nonneg_right h2 hγ.le
  rw [div_mul_cancel₀ _ hγ.ne'] at this
  linarith

/-- At most `γ log |S|` below the least cost. -/
theorem le_softMin {γ : ℝ} (hγ : 0 < γ) (hS : S.Nonempty) {w : ℝ} (hw : ∀ q ∈ S, w ≤ c q) :
    w - γ * Real.log S.card ≤ softMin S c γ := by
  have h1 : ∑ p ∈ S, Real.exp (-c p / γ) ≤ S.card * Real.exp (-w / γ) := by
    rw [← nsmul_eq_mul]
    refine Finset.sum_le_card_nsmul _ _ _ fun p hp => Real.exp_le_exp.2 ?_
    rw [div_le_div_iff_of_pos_right hγ]
    linarith [hw p hp]
  have hc : (0 : ℝ) < S.card := by exact_mod_cast hS.card_pos
  have h2 := Real.log_le_log (sum_exp_pos hS) h1
  rw [Real.log_mul hc.ne' (Real.exp_pos _).ne', Real.log_exp] at h2
  unfold softMin
  have := mul_le_mul_of_nonneg_left h2 hγ.le
  have e : γ * (Real.log S.card + -w / γ) = γ * Real.log S.card - w := by field_simp; ring
  rw [e] at this
  linarith

/-- Non-increasing in `γ`. -/
theorem softMin_anti {γ γ' : ℝ} (hγ : 0 < γ) (h : γ ≤ γ') (hS : S.Nonempty) :
    softMin S c γ' ≤ softMin S c γ := by
  have hγ' : 0 < γ' := hγ.trans_le h
  set Z := ∑ p ∈ S, Real.exp (-c p / γ') with hZ
  have hZp : 0 < Z := sum_exp_pos hS
  set t := γ' / γ with ht
  have ht1 : 1 ≤ t := (one_le_div hγ).2 h
  have key : ∑ p ∈ S, Real.exp (-c p / γ) ≤ Z ^ t := by
    have h1 : ∀ p ∈ S, Real.exp (-c p / γ) ≤ Z ^ t * (Real.exp (-c p / γ') / Z) := by
      intro p hp
      have ha0 : 0 ≤ Real.exp (-c p / γ') / Z := by positivity
      have ha1 : Real.exp (-c p / γ') / Z ≤ 1 := by
        rw [div_le_one hZp]
        exact Finset.single_le_sum (f := fun p => Real.exp (-c p / γ'))
          (fun _ _ => (Real.exp_pos _).le) hp
      have h2 : (Real.exp (-c p / γ') / Z) ^ t ≤ Real.exp (-c p / γ') / Z := by
        have := Real.rpow_le_rpow_of_exponent_ge (div_pos (Real.exp_pos _) hZp) ha1 ht1
        rwa [Real.rpow_one] at this
      have h3 : Real.exp (-c p / γ) = Z ^ t * (Real.exp (-c p / γ') / Z) ^ t := by
        rw [← Real.mul_rpow hZp.le ha0, mul_div_cancel₀ _ hZp.ne', ← Real.exp_mul]
        congr 1
        rw [ht]
        field_simp
      rw [h3]
      exact mul_le_mul_of_nonneg_left h2 (Real.rpow_nonneg hZp.le _)
    refine (Finset.sum_le_sum h1).trans ?_
    rw [← Finset.mul_sum, ← Finset.sum_div, ← hZ, div_self hZp.ne', mul_one]
  have h2 := Real.log_le_log (sum_exp_pos hS) key
  rw [Real.log_rpow hZp] at h2
  unfold softMin
  rw [← hZ]
  have := mul_le_mul_of_nonneg_left h2 hγ.le
  have e : γ * (t * Real.log Z) = γ' * Real.log Z := by rw [ht]; field_simp
  rw [e] at this
  linarith

/-- Reindexing. -/
theorem softMin_bij {κ : Type*} {T : Finset κ} {d : κ → ℝ} (γ : ℝ) (f : ι → κ) (g : κ → ι)
    (hf : ∀ p ∈ S, f p ∈ T) (hg : ∀ q ∈ T, g q ∈ S) (hgf : ∀ p ∈ S, g (f p) = p)
    (hfg : ∀ q ∈ T, f (g q) = q) (hc : ∀ p ∈ S, c p = d (f p)) : softMin S c γ = softMin T d γ := by
  unfold softMin
  have : ∑ p ∈ S, Real.exp (-c p / γ) = ∑ q ∈ T, Real.exp (-d q / γ) :=
    Finset.sum_bij' (fun p _ => f p) (fun q _ => g q) hf hg hgf hfg
      (fun p hp => by rw [hc p hp])
  rw [this]

end
end Verif
