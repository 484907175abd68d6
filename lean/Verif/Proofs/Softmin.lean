import Verif.Model.SoftDtw
import Mathlib.Tactic.Positivity
import Mathlib.Tactic.FieldSimp
import Mathlib.Tactic.Linarith
/-!
The softmin operators on costs written as `-γ log z` (`inf` for `z = 0`).
-/
namespace Verif
noncomputable section
open Classical

/-- The cost of total weight `z`. -/
def ofW (γ z : ℝ) : Fl := if z = 0 then .inf else .num (-γ * Real.log z)

/-- The logarithm of a weight. -/
def lw (z : ℝ) : Fl := if z = 0 then .ninf else .num (Real.log z)

theorem num_add_num (x y : ℝ) : (Fl.num x).add (.num y) = .num (x + y) := rfl

theorem ofW_div {γ : ℝ} (hγ : 0 < γ) (z : ℝ) : (ofW γ z).div (-γ) = lw z := by
  unfold ofW lw
  split
  · have h1 : ¬ (0 < (-γ)⁻¹) := by rw [inv_pos]; linarith
    have h2 : (-γ)⁻¹ < 0 := by rw [inv_lt_zero]; linarith
    simp only [Fl.div, Fl.scale, h1, h2, if_true, if_false]
  · simp only [Fl.div, Fl.scale, Fl.num.injEq]
    field_simp

theorem ofW_neg_div {γ : ℝ} (hγ : 0 < γ) (z : ℝ) : (ofW γ z).neg.div γ = lw z := by
  unfold ofW lw
  split
  · have h1 : 0 < γ⁻¹ := by positivity
    simp only [Fl.neg, Fl.div, Fl.scale, h1, if_true]
  · simp only [Fl.neg, Fl.div, Fl.scale, Fl.num.injEq]
    field_simp

theorem lw_max {a b : ℝ} (ha : 0 ≤ a) (hb : 0 ≤ b) : Fl.max (lw a) (lw b) = lw (max a b) := by
  rcases ha.eq_or_lt with rfl | ha' <;> rcases hb.eq_or_lt with rfl | hb'
  · simp [lw, Fl.max, Fl.lt]
  · simp [lw, Fl.max, Fl.lt, hb'.ne', max_eq_right hb]
  · simp [lw, Fl.max, Fl.lt, ha'.ne', max_eq_left ha]
  · have h : max a b ≠ 0 := (lt_max_of_lt_left ha').ne'
    simp only [lw, ha'.ne', hb'.ne', h, if_false, Fl.max, Fl.lt, decide_eq_true_eq]
    split
    · rename_i hl
      have := (Real.log_lt_log_iff ha' hb').1 hl
      rw [max_eq_right this.le]
    · rename_i hl
      rw [Real.log_lt_log_iff ha' hb'] at hl
      rw [max_eq_left (not_lt.1 hl)]

theorem exp_lw_sub {z M : ℝ} (hz : 0 ≤ z) (hM : 0 < M) :
    Fl.exp ((lw z).sub (lw M)) = .num (z / M) := by
  rcases hz.eq_or_lt with rfl | hz'
  · simp [lw, hM.ne', Fl.sub, Fl.neg, Fl.add, Fl.exp]
  · simp only [lw, hM.ne', hz'.ne', if_false, Fl.sub, Fl.neg, Fl.add, Fl.exp, Fl.num.injEq]
    rw [← sub_eq_add_neg, Real.exp_sub, Real.exp_log hz', Real.exp_log hM]

theorem scale_lw {γ : ℝ} (hγ : 0 < γ) (z : ℝ) : Fl.scale (-γ) (lw z) = ofW γ z := by
  unfold ofW lw
  split
  · have h1 : ¬ (0 < -γ) := by linarith
    have h2 : -γ < 0 := by linarith
    simp only [Fl.scale, h1, h2, if_true, if_false]
  · simp [Fl.scale]

theorem log_div_add {s M : ℝ} (hs : 0 < s) (hM : 0 < M) :
    (Fl.log (.num (s / M))).add (lw M) = lw s := by
  have h : 0 < s / M := by positivity
  simp only [Fl.log, h.ne', not_lt.2 h.le, lw, hM.ne', hs.ne', if_false, Fl.add, Fl.num.injEq]
  rw [Real.log_div hs.ne' hM.ne']
  ring

theorem softmin3_ofW {γ : ℝ} (hγ : 0 < γ) {a b c : ℝ} (ha : 0 ≤ a) (hb : 0 ≤ b) (hc : 0 ≤ c)
    (h : a + b + c ≠ 0) : softmin3 (ofW γ a) (ofW γ b) (ofW γ c) γ = ofW γ (a + b + c) := by
  have hs : 0 < a + b + c := lt_of_le_of_ne (by positivity) (Ne.symm h)
  have hM : 0 < max (max a b) c := by
    rcases lt_or_ge 0 (max (max a b) c) with hM | hM
    · exact hM
    · have h1 := le_max_left (max a b) c
      have h2 := le_max_right (max a b) c
      have h3 := le_max_left a b
      have h4 := le_max_right a b
      linarith
  unfold softmin3
  simp only [ofW_div hγ, lw_max ha hb, lw_max (le_max_of_le_left ha) hc, exp_lw_sub ha hM,
    exp_lw_sub hb hM, exp_lw_sub hc hM, num_add_num, zero_add]
  rw [← add_div, ← add_div, log_div_add hs hM, scale_lw hγ]

theorem softmin3_inf {γ : ℝ} (hγ : 0 < γ) : softmin3 (ofW γ 0) (ofW γ 0) (ofW γ 0) γ = .nan := by
  unfold softmin3
  simp only [ofW_div hγ]
  simp [lw, Fl.max, Fl.lt, Fl.sub, Fl.neg, Fl.add, Fl.exp, Fl.log, Fl.scale]

theorem softminTorch_ofW {γ : ℝ} (hγ : 0 < γ) {a b c : ℝ} (ha : 0 ≤ a) (hb : 0 ≤ b) (hc : 0 ≤ c) :
    softminTorch (ofW γ a) (ofW γ b) (ofW γ c) γ = ofW γ (a + b + c) := by
  have hs : 0 ≤ a + b + c := by positivity
  have hM0 : 0 ≤ max (max a b) c := le_max_of_le_right hc
  rcases hM0.eq_or_lt with hM | hM
  · have h1 := le_max_left (max a b) c
    have h2 := le_max_right (max a b) c
    have h3 := le_max_left a b
    have h4 := le_max_right a b
    obtain rfl : a = 0 := by linarith
    obtain rfl : b = 0 := by linarith
    obtain rfl : c = 0 := by linarith
    unfold softminTorch
    simp only [ofW_neg_div hγ]
    have h1 : ¬ (0 < -γ) := by linarith
    have h2 : -γ < 0 := by linarith
    simp only [lw, ofW, Fl.max, Fl.lt, Fl.isInf, Fl.sub, Fl.neg, Fl.add, Fl.exp, Fl.log, Fl.scale,
      if_true, h1, h2, add_zero, if_false, Bool.false_eq_true]
  · have hs' : 0 < a + b + c := by
      rcases hs.eq_or_lt with h | h
      · have e1 : a = 0 := by linarith
        have e2 : b = 0 := by linarith
        have e3 : c = 0 := by linarith
        rw [e1, e2, e3, max_self, max_self] at hM
        exact absurd hM (lt_irrefl 0)
      · exact h
    unfold softminTorch
    have hi : (lw (max (max a b) c)).isInf = false := by simp [lw, hM.ne', Fl.isInf]
    simp only [ofW_neg_div hγ, lw_max ha hb, lw_max (le_max_of_le_left ha) hc, hi,
      Bool.false_eq_true, if_false, exp_lw_sub ha hM,
      exp_lw_sub hb hM, exp_lw_sub hc hM, num_add_num]
    rw [← add_div, ← add_div, log_div_add hs' hM, scale_lw hγ]

theorem num_add_ofW {γ : ℝ} (hγ : 0 < γ) (d z : ℝ) :
    (Fl.num d).add (ofW γ z) = ofW γ (z * Real.exp (-d / γ)) := by
  have he := (Real.exp_pos (-d / γ)).ne'
  unfold ofW
  by_cases hz : z = 0
  · simp [hz, Fl.add]
  · simp only [hz, mul_eq_zero, he, or_self, if_false, Fl.add, Fl.num.injEq]
    rw [Real.log_mul hz he, Real.log_exp]
    field_simp
    ring

theorem inf_add_ofW {γ : ℝ} (z : ℝ) : Fl.inf.add (ofW γ z) = .inf := by
  unfold ofW
  split <;> simp [Fl.add]

theorem ofW_one (γ : ℝ) : ofW γ 1 = .num 0 := by simp [ofW]
theorem ofW_zero (γ : ℝ) : ofW γ 0 = .inf := by simp [ofW]

end
end Verif
