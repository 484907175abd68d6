import Verif.Model.Dp
import Mathlib.Tactic.Common
import Mathlib.Order.Basic
/-!
Both traversal orders satisfy the same recursion equations.
-/
namespace Verif

variable {C : Type*}

@[simp] theorem forRange_zero {σ} (s : σ) (f) : forRange 0 s f = s := rfl
theorem forRange_succ {σ} (n) (s : σ) (f) : forRange (n+1) s f = f n (forRange n s f) := rfl

/-- Invariant rule for `for` loops. -/
theorem forRange_inv {σ} (P : Nat → σ → Prop) (n : Nat) (s : σ) (f : Nat → σ → σ)
    (h0 : P 0 s) (hs : ∀ i s, i < n → P i s → P (i+1) (f i s)) : P n (forRange n s f) := by
  induction n with
  | zero => simpa
  | succ n ih =>
    rw [forRange_succ]
    exact hs n _ (Nat.lt_succ_self n) (ih (fun i s hi => hs i s (Nat.lt_succ_of_lt hi)))

theorem Mat.set_apply (M : Mat C) (a b : Nat) (v : C) (i j : Nat) :
    M.set a b v i j = if i = a ∧ j = b then v else M i j := rfl

/-- The recursion equations of a dynamic programme over an `(l1+1) × (l2+1)` table. -/
structure IsDP (l1 l2 : Nat) (mask : Nat → Nat → Bool) (cell : Nat → Nat → C → C → C → C)
    (init M : Mat C) : Prop where
  row0 : ∀ j, M 0 j = init 0 j
  col0 : ∀ i, M i 0 = init i 0
  body : ∀ i j, i < l1 → j < l2 → M (i+1) (j+1) =
    if mask i j then cell i j (M i (j+1)) (M (i+1) j) (M i j) else init (i+1) (j+1)

theorem dpLoop_isDP (l1 l2 : Nat) (mask : Nat → Nat → Bool) (cell : Nat → Nat → C → C → C → C)
    (init : Mat C) : IsDP l1 l2 mask cell init (dpLoop l1 l2 mask cell init) := by
  let P : (Nat → Nat → Prop) → Mat C → Prop := fun done M =>
    (∀ j, M 0 j = init 0 j) ∧ (∀ i, M i 0 = init i 0) ∧
    ∀ a b, (done a b → M (a+1) (b+1) =
      if mask a b then cell a b (M a (b+1)) (M (a+1) b) (M a b) else init (a+1) (b+1)) ∧
      (¬ done a b → M (a+1) (b+1) = init (a+1) (b+1))
  have key : P (fun a b => a < l1 ∧ b < l2) (dpLoop l1 l2 mask cell init) := by
    unfold dpLoop
    apply forRange_inv (fun i M => P (fun a b => a < i ∧ b < l2) M)
    · exact ⟨fun _ => rfl, fun _ => rfl, fun a b => ⟨fun h => by omega, fun _ => rfl⟩⟩
    · intro i M hi hM
      have := forRange_inv (fun j M => P (fun a b => (a < i ∧ b < l2) ∨ (a = i ∧ b < j)) M) l2 M
        (fun j M => if mask i j then
          M.set (i + 1) (j + 1) (cell i j (M i (j + 1)) (M (i + 1) j) (M i j)) else M) ?_ ?_
      · refine ⟨this.1, this.2.1, fun a b => ⟨fun h => (this.2.2 a b).1 (by omega),
          fun h => (this.2.2 a b).2 (by omega)⟩⟩
      · refine ⟨hM.1, hM.2.1, fun a b => ⟨fun h => (hM.2.2 a b).1 (by omega),
          fun h => (hM.2.2 a b).2 (by omega)⟩⟩
      · intro j M hj hM
        by_cases hm : mask i j
        · simp only [hm, if_true]
          refine ⟨fun b => ?_, fun a => ?_, fun a b => ⟨fun h => ?_, fun h => ?_⟩⟩
          · simp [Mat.set_apply, hM.1]
          · simp [Mat.set_apply, hM.2.1]
          · by_cases hab : a = i ∧ b = j
            · obtain ⟨rfl, rfl⟩ := hab
              simp [Mat.set_apply, hm]
            · have h1 : (a < i ∧ b < l2) ∨ (a = i ∧ b < j) := by omega
              have e1 : ¬ (a + 1 = i + 1 ∧ b + 1 = j + 1) := by omega
              have e2 : ¬ (a = i + 1 ∧ b + 1 = j + 1) := by omega
              have e3 : ¬ (a + 1 = i + 1 ∧ b = j + 1) := by omega
              have e4 : ¬ (a = i + 1 ∧ b = j + 1) := by omega
              simp only [Mat.set_apply, e1, e2, e3, e4, if_false]
              exact (hM.2.2 a b).1 h1
          · have e1 : ¬ (a + 1 = i + 1 ∧ b + 1 = j + 1) := by omega
            simp only [Mat.set_apply, e1, if_false]
            exact (hM.2.2 a b).2 (by omega)
        · simp only [hm]
          refine ⟨hM.1, hM.2.1, fun a b => ⟨fun h => ?_, fun h => (hM.2.2 a b).2 (by omega)⟩⟩
          by_cases hab : a = i ∧ b = j
          · obtain ⟨rfl, rfl⟩ := hab
            simp only [hm]
            exact (hM.2.2 a b).2 (by omega)
          · exact (hM.2.2 a b).1 (by omega)
  exact ⟨key.1, key.2.1, fun i j hi hj => (key.2.2 i j).1 ⟨hi, hj⟩⟩

theorem diagLoop_isDP (l1 l2 : Nat) (cell : Nat → Nat → C → C → C → C)
    (init : Mat C) : IsDP l1 l2 (fun _ _ => true) cell init (diagLoop l1 l2 cell init) := by
  have key : (∀ j, diagLoop l1 l2 cell init 0 j = init 0 j) ∧
      (∀ i, diagLoop l1 l2 cell init i 0 = init i 0) ∧
      ∀ a b, a < l1 → b < l2 → a + b < l1 + l2 - 1 → diagLoop l1 l2 cell init (a+1) (b+1) =
        cell a b (diagLoop l1 l2 cell init a (b+1)) (diagLoop l1 l2 cell init (a+1) b)
          (diagLoop l1 l2 cell init a b) := by
    unfold diagLoop
    refine forRange_inv (fun k (M : Mat C) => (∀ j, M 0 j = init 0 j) ∧ (∀ i, M i 0 = init i 0) ∧
      ∀ a b, a < l1 → b < l2 → a + b < k → M (a+1) (b+1) =
        cell a b (M a (b+1)) (M (a+1) b) (M a b)) _ _ _ ?_ ?_
    · exact ⟨fun _ => rfl, fun _ => rfl, fun a b _ _ h => by omega⟩
    · intro k M hk hM
      refine ⟨fun j => ?_, fun i => ?_, fun a b ha hb hab => ?_⟩
      · simp [hM.1]
      · simp [hM.2.1]
      · have e2 : ¬ (1 ≤ a ∧ k + 1 - l2 ≤ a - 1 ∧ a - 1 < min (l1 - 1) k + 1 ∧
            b + 1 = (k - (a - 1)) + 1) := by omega
        have e3 : ¬ (1 ≤ a + 1 ∧ k + 1 - l2 ≤ a + 1 - 1 ∧ a + 1 - 1 < min (l1 - 1) k + 1 ∧
            b = (k - (a + 1 - 1)) + 1) := by omega
        have e4 : ¬ (1 ≤ a ∧ k + 1 - l2 ≤ a - 1 ∧ a - 1 < min (l1 - 1) k + 1 ∧
            b = (k - (a - 1)) + 1) := by omega
        simp only [e2, e3, e4, if_false]
        by_cases h : a + b = k
        · have e1 : (1 ≤ a + 1 ∧ k + 1 - l2 ≤ a + 1 - 1 ∧ a + 1 - 1 < min (l1 - 1) k + 1 ∧
            b + 1 = (k - (a + 1 - 1)) + 1) := by omega
          rw [if_pos e1]
          simp
        · have e1 : ¬ (1 ≤ a + 1 ∧ k + 1 - l2 ≤ a + 1 - 1 ∧ a + 1 - 1 < min (l1 - 1) k + 1 ∧
            b + 1 = (k - (a + 1 - 1)) + 1) := by omega
          rw [if_neg e1]
          exact hM.2.2 a b ha hb (by omega)
  refine ⟨key.1, key.2.1, fun i j hi hj => ?_⟩
  simp only [if_true]
  exact key.2.2 i j hi hj (by omega)

/-- The recursion equations determine the table. -/
theorem IsDP.unique {l1 l2 : Nat} {mask : Nat → Nat → Bool} {cell : Nat → Nat → C → C → C → C}
    {init M N : Mat C} (hM : IsDP l1 l2 mask cell init M) (hN : IsDP l1 l2 mask cell init N) :
    ∀ i j, i ≤ l1 → j ≤ l2 → M i j = N i j := by
  intro i
  induction i with
  | zero => intro j _ _; rw [hM.row0, hN.row0]
  | succ i ih =>
    intro j
    induction j with
    | zero => intro _ _; rw [hM.col0, hN.col0]
    | succ j ihj =>
      intro hi hj
      rw [hM.body i j (by omega) (by omega), hN.body i j (by omega) (by omega),
        ih (j+1) (by omega) hj, ihj hi (by omega), ih j (by omega) (by omega)]

/-- Two programmes whose cells agree in range have the same table. -/
theorem IsDP.congr {l1 l2 : Nat} {mask mask' : Nat → Nat → Bool}
    {cell cell' : Nat → Nat → C → C → C → C} {init init' M N : Mat C}
    (hM : IsDP l1 l2 mask cell init M) (hN : IsDP l1 l2 mask' cell' init' N)
    (h0 : ∀ j, init 0 j = init' 0 j) (h1 : ∀ i, init i 0 = init' i 0)
    (hb : ∀ i j a b c, i < l1 → j < l2 →
      (if mask i j then cell i j a b c else init (i+1) (j+1)) =
      (if mask' i j then cell' i j a b c else init' (i+1) (j+1))) :
    ∀ i j, i ≤ l1 → j ≤ l2 → M i j = N i j := by
  intro i
  induction i with
  | zero => intro j _ _; rw [hM.row0, hN.row0, h0]
  | succ i ih =>
    intro j
    induction j with
    | zero => intro _ _; rw [hM.col0, hN.col0, h1]
    | succ j ihj =>
      intro hi hj
      rw [hM.body i j (by omega) (by omega), hN.body i j (by omega) (by omega),
        ih (j+1) (by omega) hj, ihj hi (by omega), ih j (by omega) (by omega)]
      exact hb i j _ _ _ (by omega) (by omega)

end Verif
