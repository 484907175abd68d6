import Verif.Proofs.SoftDtw
/-!
The backward recursion of soft-DTW: forward path sums times backward path sums.
-/
set_option linter.unusedSectionVars false
namespace Verif
open Spec
noncomputable section
open Classical

theorem num_mul_num (x y : ℝ) : (Fl.num x).mul (.num y) = .num (x * y) := rfl

/-- The coefficient of the recursion, NaN replaced by zero. -/
theorem grad_coef {γ : ℝ} (hγ : 0 < γ) {z z' d' : ℝ} {b : Bool} (hz : 0 ≤ z) (hz' : 0 ≤ z')
    (hb : b = false → z' = 0) (hb' : b = true → 0 < z') :
    (let a := Fl.exp ((((ofW γ z').sub (ofW γ z)).sub (if b then Fl.num d' else Fl.inf)).div γ)
     if a.isNan then Fl.num 0 else a) =
      .num (z * (if b then Real.exp (-d' / γ) else 0) / z') := by
  have hg : 0 < γ⁻¹ := by positivity
  cases b with
  | false =>
    obtain rfl := hb rfl
    by_cases h : z = 0
    · simp [ofW, h, Fl.sub, Fl.neg, Fl.add, Fl.div, Fl.scale, Fl.exp, Fl.isNan]
    · simp [ofW, h, Fl.sub, Fl.neg, Fl.add, Fl.div, Fl.scale, Fl.exp, Fl.isNan]
  | true =>
    have hp := hb' rfl
    by_cases h : z = 0
    · simp [ofW, h, hp.ne', Fl.sub, Fl.neg, Fl.add, Fl.div, Fl.scale, Fl.exp, Fl.isNan, hg]
    · have hz1 : 0 < z := lt_of_le_of_ne hz (Ne.symm h)
      simp only [ofW, h, hp.ne', Fl.sub, Fl.neg, Fl.add, Fl.div, Fl.scale, Fl.exp, Fl.isNan, if_false, if_true,
        Bool.false_eq_true, Fl.num.injEq]
      have : γ⁻¹ * (-γ * Real.log z' + -(-γ * Real.log z) + -d') =
          Real.log z + -d' / γ - Real.log z' := by field_simp; ring
      rw [this, Real.exp_sub, Real.exp_add, Real.exp_log hz1, Real.exp_log hp]

/-- The coefficient beyond the last row or column. -/
theorem grad_coef_border {γ : ℝ} (hγ : 0 < γ) (z : ℝ) :
    (let a := Fl.exp (((Fl.ninf.sub (ofW γ z)).sub (Fl.num 0)).div γ)
     if a.isNan then Fl.num 0 else a) = .num 0 := by
  have hg : 0 < γ⁻¹ := by positivity
  unfold ofW
  split <;> simp [Fl.sub, Fl.neg, Fl.add, Fl.div, Fl.scale, Fl.exp, Fl.isNan, hg]

/-- One neighbour's contribution, inside the table. -/
theorem grad_term {γ : ℝ} (hγ : 0 < γ) {z z' d' h' Z : ℝ} {b : Bool} (hz : 0 ≤ z) (hz' : 0 ≤ z')
    (hb : b = false → z' = 0) (hb' : b = true → 0 < z') :
    (Fl.num (z' * h' / Z)).mul
      (if (Fl.exp ((((ofW γ z').sub (ofW γ z)).sub (if b then Fl.num d' else Fl.inf)).div γ)).isNan then Fl.num 0
        else Fl.exp ((((ofW γ z').sub (ofW γ z)).sub (if b then Fl.num d' else Fl.inf)).div γ)) =
      .num (z * ((if b then Real.exp (-d' / γ) else 0) * h') / Z) := by
  have := grad_coef (d' := d') hγ hz hz' hb hb'
  simp only at this
  rw [this, num_mul_num]
  cases b with
  | false => simp
  | true =>
    have hp := hb' rfl
    simp only [if_true]
    congr 1
    by_cases hZ : Z = 0
    · simp [hZ]
    · field_simp

theorem grad_term_border {γ : ℝ} (hγ : 0 < γ) (z : ℝ) :
    (Fl.num 0).mul
      (if (Fl.exp (((Fl.ninf.sub (ofW γ z)).sub (Fl.num 0)).div γ)).isNan then Fl.num 0
        else Fl.exp (((Fl.ninf.sub (ofW γ z)).sub (Fl.num 0)).div γ)) = .num 0 := by
  have := grad_coef_border hγ z
  simp only at this
  rw [this, num_mul_num, mul_zero]

/-- Value of the backward table. -/
def gradT (m n : ℕ) (mask : Mat Bool) (D : ℕ → ℕ → ℝ) (γ : ℝ) (i j : ℕ) : ℝ :=
  zsum mask (softK mask D γ) (i+1) (j+1) * hsum (softK mask D γ) (i, j) m n /
    zsum mask (softK mask D γ) m n

theorem gradT_last {m n : ℕ} {mask : Mat Bool} {D : ℕ → ℕ → ℝ} {γ : ℝ}
    (hZ : 0 < zsum mask (softK mask D γ) (m+1) (n+1)) : gradT (m+1) (n+1) mask D γ m n = 1 := by
  unfold gradT
  rw [hsum_backward, if_pos rfl, hsum_eq_zero _ _ _ _ (.inl (by simp)),
    hsum_eq_zero _ _ _ _ (.inr (by simp)), hsum_eq_zero _ _ _ _ (.inl (by simp))]
  simp only [mul_zero, add_zero, mul_one]
  exact div_self hZ.ne'

theorem zsum_masked {mask : Mat Bool} {D : ℕ → ℕ → ℝ} {γ : ℝ} {i j : ℕ} (h : mask i j = false) :
    zsum mask (softK mask D γ) (i+1) (j+1) = 0 := by
  rw [zsum_softK_succ, softK, if_neg (by simp [h]), mul_zero]

theorem AllReachable.zpos {m n : ℕ} {mask : Mat Bool} (hr : AllReachable m n mask) (D : ℕ → ℕ → ℝ)
    (γ : ℝ) {i j : ℕ} (hi : i < m) (hj : j < n) (h : mask i j = true) :
    0 < zsum mask (softK mask D γ) (i+1) (j+1) := by
  rw [zsum_softK_succ]
  exact mul_pos (hr.pos D γ hi hj h) (softK_pos D γ h)

theorem softGrad_eq {m n : ℕ} {mask : Mat Bool} {D : ℕ → ℕ → ℝ} {D' R : Mat Fl} {γ : ℝ} (hγ : 0 < γ)
    (hr : AllReachable (m+1) (n+1) mask) (hZ : 0 < zsum mask (softK mask D γ) (m+1) (n+1))
    (hD : ∀ i j, i < m+1 → j < n+1 → D' i j = if mask i j then Fl.num (D i j) else Fl.inf)
    (hR : ∀ i j, i < m+1 → j < n+1 → R i j = ofW γ (zsum mask (softK mask D γ) (i+1) (j+1)))
    (junk : Mat Fl) (i j : ℕ) (hi : i < m+1) (hj : j < n+1) :
    softGrad (m+1) (n+1) D' R γ junk i j = .num (gradT (m+1) (n+1) mask D γ i j) := by
  unfold softGrad
  have key := forRange_inv (fun b (E : Mat Fl) => E m n = .num 1 ∧ ∀ i j, i < m+1 → j < n+1 → n+1 ≤ j + b →
      E i j = .num (gradT (m+1) (n+1) mask D γ i j)) (n+1)
      (junk.set (m + 1 - 1) (n + 1 - 1) (Fl.num 1)) (fun b E =>
    forRange (m+1) E fun a E =>
      let i := m+1 - a
      let j := n+1 - b
      if j = n+1 ∧ i = m+1 then E
      else
        let r_i_jm := if i ≠ m+1 then R i (j - 1) else Fl.ninf
        let r_im_j := if j ≠ n+1 then R (i - 1) j else Fl.ninf
        let r_i_j := if i ≠ m+1 ∧ j ≠ n+1 then R i j else Fl.ninf
        let d_i_jm := if i ≠ m+1 then D' i (j - 1) else Fl.num 0
        let d_im_j := if j ≠ n+1 then D' (i - 1) j else Fl.num 0
        let d_i_j := if i ≠ m+1 ∧ j ≠ n+1 then D' i j else Fl.num 0
        let a := Fl.exp (((r_i_jm.sub (R (i - 1) (j - 1))).sub d_i_jm).div γ)
        let b := Fl.exp (((r_im_j.sub (R (i - 1) (j - 1))).sub d_im_j).div γ)
        let c := Fl.exp (((r_i_j.sub (R (i - 1) (j - 1))).sub d_i_j).div γ)
        let a := if a.isNan then Fl.num 0 else a
        let b := if b.isNan then Fl.num 0 else b
        let c := if c.isNan then Fl.num 0 else c
        let e_i_jm := if i ≠ m+1 then E i (j - 1) else Fl.num 0
        let e_im_j := if j ≠ n+1 then E (i - 1) j else Fl.num 0
        let e_i_j := if i ≠ m+1 ∧ j ≠ n+1 then E i j else Fl.num 0
        E.set (i - 1) (j - 1) (((e_i_jm.mul a).add (e_im_j.mul b)).add (e_i_j.mul c)))
    ⟨by simp [Mat.set], fun i j _ hj hb => by omega⟩ ?_
  · exact key.2 i j hi hj (by omega)
  · intro b E hb ⟨hE1, hE⟩
    have key2 := forRange_inv (fun a (E : Mat Fl) => E m n = .num 1 ∧ ∀ i j, i < m+1 → j < n+1 →
      (n+1 ≤ j + b ∨ (j + b + 1 = n+1 ∧ m+1 ≤ i + a)) →
      E i j = .num (gradT (m+1) (n+1) mask D γ i j)) (m+1) E (fun a E =>
      let i := m+1 - a
      let j := n+1 - b
      if j = n+1 ∧ i = m+1 then E
      else
        let r_i_jm := if i ≠ m+1 then R i (j - 1) else Fl.ninf
        let r_im_j := if j ≠ n+1 then R (i - 1) j else Fl.ninf
        let r_i_j := if i ≠ m+1 ∧ j ≠ n+1 then R i j else Fl.ninf
        let d_i_jm := if i ≠ m+1 then D' i (j - 1) else Fl.num 0
        let d_im_j := if j ≠ n+1 then D' (i - 1) j else Fl.num 0
        let d_i_j := if i ≠ m+1 ∧ j ≠ n+1 then D' i j else Fl.num 0
        let a := Fl.exp (((r_i_jm.sub (R (i - 1) (j - 1))).sub d_i_jm).div γ)
        let b := Fl.exp (((r_im_j.sub (R (i - 1) (j - 1))).sub d_im_j).div γ)
        let c := Fl.exp (((r_i_j.sub (R (i - 1) (j - 1))).sub d_i_j).div γ)
        let a := if a.isNan then Fl.num 0 else a
        let b := if b.isNan then Fl.num 0 else b
        let c := if c.isNan then Fl.num 0 else c
        let e_i_jm := if i ≠ m+1 then E i (j - 1) else Fl.num 0
        let e_im_j := if j ≠ n+1 then E (i - 1) j else Fl.num 0
        let e_i_j := if i ≠ m+1 ∧ j ≠ n+1 then E i j else Fl.num 0
        E.set (i - 1) (j - 1) (((e_i_jm.mul a).add (e_im_j.mul b)).add (e_i_j.mul c)))
      ⟨hE1, fun i j hi hj h => hE i j hi hj (by omega)⟩ ?_
    · refine ⟨key2.1, fun i j hi hj h => key2.2 i j hi hj (by omega)⟩
    · intro a E ha ⟨hE1, hE⟩
      obtain ⟨i, hi⟩ : ∃ i, i + a = m := ⟨m - a, by omega⟩
      obtain ⟨j, hj⟩ : ∃ j, j + b = n := ⟨n - b, by omega⟩
      have ei : m + 1 - a = i + 1 := by omega
      have ej : n + 1 - b = j + 1 := by omega
      simp only [ei, ej, Nat.add_right_cancel_iff, Nat.add_sub_cancel, ne_eq]
      by_cases hlast : j = n ∧ i = m
      · rw [if_pos hlast]
        refine ⟨hE1, fun i' j' hi' hj' h => ?_⟩
        by_cases h0 : i' = m ∧ j' = n
        · obtain ⟨rfl, rfl⟩ := h0
          rw [hE1, gradT_last hZ]
        · exact hE i' j' hi' hj' (by omega)
      · rw [if_neg hlast]
        have hval : ((((if i ≠ m then E (i+1) j else Fl.num 0).mul
            (if (Fl.exp ((((if i ≠ m then R (i+1) j else Fl.ninf).sub (R i j)).sub
              (if i ≠ m then D' (i+1) j else Fl.num 0)).div γ)).isNan then Fl.num 0 else
              (Fl.exp ((((if i ≠ m then R (i+1) j else Fl.ninf).sub (R i j)).sub
              (if i ≠ m then D' (i+1) j else Fl.num 0)).div γ))))).add
            ((if j ≠ n then E i (j+1) else Fl.num 0).mul
            (if (Fl.exp ((((if j ≠ n then R i (j+1) else Fl.ninf).sub (R i j)).sub
              (if j ≠ n then D' i (j+1) else Fl.num 0)).div γ)).isNan then Fl.num 0 else
              (Fl.exp ((((if j ≠ n then R i (j+1) else Fl.ninf).sub (R i j)).sub
              (if j ≠ n then D' i (j+1) else Fl.num 0)).div γ))))).add
            ((if i ≠ m ∧ j ≠ n then E (i+1) (j+1) else Fl.num 0).mul
            (if (Fl.exp ((((if i ≠ m ∧ j ≠ n then R (i+1) (j+1) else Fl.ninf).sub (R i j)).sub
              (if i ≠ m ∧ j ≠ n then D' (i+1) (j+1) else Fl.num 0)).div γ)).isNan then Fl.num 0 else
              (Fl.exp ((((if i ≠ m ∧ j ≠ n then R (i+1) (j+1) else Fl.ninf).sub (R i j)).sub
              (if i ≠ m ∧ j ≠ n then D' (i+1) (j+1) else Fl.num 0)).div γ)))) =
            .num (gradT (m+1) (n+1) mask D γ i j) := by
          -- a neighbour inside the table
          have inside : ∀ i' j', i' < m+1 → j' < n+1 → E i' j' = .num (gradT (m+1) (n+1) mask D γ i' j') →
              (E i' j').mul (if (Fl.exp (((( R i' j').sub (R i j)).sub (D' i' j')).div γ)).isNan then Fl.num 0
                else (Fl.exp (((( R i' j').sub (R i j)).sub (D' i' j')).div γ))) =
              .num (zsum mask (softK mask D γ) (i+1) (j+1) * (softK mask D γ i' j' *
                hsum (softK mask D γ) (i', j') (m+1) (n+1)) / zsum mask (softK mask D γ) (m+1) (n+1)) := by
            intro i' j' hi' hj' he
            rw [he, hR _ _ hi' hj', hR i j (by omega) (by omega), hD _ _ hi' hj', gradT]
            exact grad_term hγ (zsum_nonneg ..) (zsum_nonneg ..) (fun h => zsum_masked h)
              (fun h => hr.zpos D γ hi' hj' h)
          have outside : (Fl.num 0).mul
              (if (Fl.exp (((Fl.ninf.sub (R i j)).sub (Fl.num 0)).div γ)).isNan then Fl.num 0
                else Fl.exp (((Fl.ninf.sub (R i j)).sub (Fl.num 0)).div γ)) = .num 0 := by
            rw [hR i j (by omega) (by omega)]
            exact grad_term_border hγ _
          have e1 : ((if i ≠ m then E (i+1) j else Fl.num 0).mul
            (if (Fl.exp ((((if i ≠ m then R (i+1) j else Fl.ninf).sub (R i j)).sub
              (if i ≠ m then D' (i+1) j else Fl.num 0)).div γ)).isNan then Fl.num 0 else
              (Fl.exp ((((if i ≠ m then R (i+1) j else Fl.ninf).sub (R i j)).sub
              (if i ≠ m then D' (i+1) j else Fl.num 0)).div γ)))) =
              .num (zsum mask (softK mask D γ) (i+1) (j+1) * (softK mask D γ (i+1) j *
                hsum (softK mask D γ) (i+1, j) (m+1) (n+1)) / zsum mask (softK mask D γ) (m+1) (n+1)) := by
            by_cases h : i = m
            · simp only [h, ne_eq, not_true_eq_false, if_false]
              rw [hsum_eq_zero _ (m+1, j) _ _ (.inl (by simp)), mul_zero, mul_zero, zero_div, ← h]
              exact outside
            · simp only [ne_eq, h, not_false_eq_true, if_true]
              exact inside _ _ (by omega) (by omega) (hE _ _ (by omega) (by omega) (by omega))
          have e2 : ((if j ≠ n then E i (j+1) else Fl.num 0).mul
            (if (Fl.exp ((((if j ≠ n then R i (j+1) else Fl.ninf).sub (R i j)).sub
              (if j ≠ n then D' i (j+1) else Fl.num 0)).div γ)).isNan then Fl.num 0 else
              (Fl.exp ((((if j ≠ n then R i (j+1) else Fl.ninf).sub (R i j)).sub
              (if j ≠ n then D' i (j+1) else Fl.num 0)).div γ)))) =
              .num (zsum mask (softK mask D γ) (i+1) (j+1) * (softK mask D γ i (j+1) *
                hsum (softK mask D γ) (i, j+1) (m+1) (n+1)) / zsum mask (softK mask D γ) (m+1) (n+1)) := by
            by_cases h : j = n
            · simp only [h, ne_eq, not_true_eq_false, if_false]
              rw [hsum_eq_zero _ (i, n+1) _ _ (.inr (by simp)), mul_zero, mul_zero, zero_div, ← h]
              exact outside
            · simp only [ne_eq, h, not_false_eq_true, if_true]
              exact inside _ _ (by omega) (by omega) (hE _ _ (by omega) (by omega) (by omega))
          have e3 : ((if i ≠ m ∧ j ≠ n then E (i+1) (j+1) else Fl.num 0).mul
            (if (Fl.exp ((((if i ≠ m ∧ j ≠ n then R (i+1) (j+1) else Fl.ninf).sub (R i j)).sub
              (if i ≠ m ∧ j ≠ n then D' (i+1) (j+1) else Fl.num 0)).div γ)).isNan then Fl.num 0 else
              (Fl.exp ((((if i ≠ m ∧ j ≠ n then R (i+1) (j+1) else Fl.ninf).sub (R i j)).sub
              (if i ≠ m ∧ j ≠ n then D' (i+1) (j+1) else Fl.num 0)).div γ)))) =
              .num (zsum mask (softK mask D γ) (i+1) (j+1) * (softK mask D γ (i+1) (j+1) *
                hsum (softK mask D γ) (i+1, j+1) (m+1) (n+1)) / zsum mask (softK mask D γ) (m+1) (n+1)) := by
            by_cases h : i ≠ m ∧ j ≠ n
            · simp only [if_pos h]
              exact inside _ _ (by omega) (by omega) (hE _ _ (by omega) (by omega) (by omega))
            · simp only [if_neg h]
              rw [hsum_eq_zero _ (i+1, j+1) _ _ (by simp only; omega), mul_zero, mul_zero, zero_div]
              exact outside
          rw [e1, e2, e3, num_add_num, num_add_num, gradT, hsum_backward _ i j]
          have hne : ¬ ((i, j) = (m, n)) := by
            rw [Prod.mk.injEq]; tauto
          rw [if_neg hne]
          congr 1
          ring
        simp only [ne_eq] at hval
        rw [hval]
        refine ⟨?_, fun i' j' hi' hj' h => ?_⟩
        · simp only [Mat.set]
          rw [if_neg (by tauto)]
          exact hE1
        · simp only [Mat.set]
          split_ifs with h0
          · rw [h0.1, h0.2]
          · exact hE i' j' hi' hj' (by omega)

end
end Verif
