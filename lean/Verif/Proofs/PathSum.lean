import Verif.Proofs.Dp
import Verif.Proofs.Warp
import Verif.Spec.Cost
import Mathlib.Algebra.BigOperators.Group.Finset.Basic
import Mathlib.Algebra.BigOperators.Ring.Finset
import Mathlib.Tactic.Ring
import Mathlib.Tactic.LinearCombination
import Mathlib.Data.Finset.Image
/-!
Sums over warping paths as a three-term recursion.
-/
namespace Verif
open Spec

/-- Admissible paths by end cell; indices are shifted by one, `(0, 0)` standing for "before the
first pair". -/
def pathsB (mask : ℕ → ℕ → Bool) : ℕ → ℕ → Finset (List (ℕ × ℕ))
  | 0, 0 => {[]}
  | 0, _ + 1 => ∅
  | _ + 1, 0 => ∅
  | i + 1, j + 1 =>
    if mask i j then
      (pathsB mask i (j+1) ∪ pathsB mask (i+1) j ∪ pathsB mask i j).image (· ++ [(i, j)])
    else ∅
  termination_by i j => i + j

theorem mem_pathsB_zero_zero {mask : ℕ → ℕ → Bool} {p} : p ∈ pathsB mask 0 0 ↔ p = [] := by
  rw [pathsB]; simp

theorem mem_pathsB_zero_succ {mask : ℕ → ℕ → Bool} {p j} : p ∉ pathsB mask 0 (j+1) := by
  rw [pathsB]; simp

theorem mem_pathsB_succ_zero {mask : ℕ → ℕ → Bool} {p i} : p ∉ pathsB mask (i+1) 0 := by
  rw [pathsB]; simp

theorem mem_pathsB {mask : ℕ → ℕ → Bool} {i j : ℕ} {p} :
    p ∈ pathsB mask (i+1) (j+1) ↔ WP false p i j ∧ InMask mask p := by
  induction hs : i + j using Nat.strong_induction_on generalizing i j p with
  | _ s ih =>
    rw [pathsB]
    by_cases hm : mask i j
    · simp only [hm, if_true, Finset.mem_image, Finset.mem_union]
      constructor
      · rintro ⟨q, hq, rfl⟩
        rcases hq with (hq | hq) | hq
        · rcases i with _ | i
          · exact absurd hq mem_pathsB_zero_succ
          · obtain ⟨h1, h2⟩ := (ih (i + j) (by omega) rfl).1 hq
            exact ⟨h1.down, inMask_append.2 ⟨h2, by simpa using hm⟩⟩
        · rcases j with _ | j
          · exact absurd hq mem_pathsB_succ_zero
          · obtain ⟨h1, h2⟩ := (ih (i + j) (by omega) rfl).1 hq
            exact ⟨h1.right, inMask_append.2 ⟨h2, by simpa using hm⟩⟩
        · rcases i with _ | i <;> rcases j with _ | j
          · rw [mem_pathsB_zero_zero] at hq
            subst hq
            exact ⟨WP.start 0 (.inr rfl), by simpa using hm⟩
          · exact absurd hq mem_pathsB_zero_succ
          · exact absurd hq mem_pathsB_succ_zero
          · obtain ⟨h1, h2⟩ := (ih (i + j) (by omega) rfl).1 hq
            exact ⟨h1.diag, inMask_append.2 ⟨h2, by simpa using hm⟩⟩
      · rintro ⟨hw, hmask⟩
        cases hw with
        | start j0 h =>
          simp at h; subst h
          exact ⟨[], .inr (mem_pathsB_zero_zero.2 rfl), rfl⟩
        | @down q i _ h =>
          exact ⟨q, .inl (.inl ((ih _ (by omega) rfl).2 ⟨h, (inMask_append.1 hmask).1⟩)), rfl⟩
        | @right q _ j h =>
          exact ⟨q, .inl (.inr ((ih _ (by omega) rfl).2 ⟨h, (inMask_append.1 hmask).1⟩)), rfl⟩
        | @diag q i j h =>
          exact ⟨q, .inr ((ih _ (by omega) rfl).2 ⟨h, (inMask_append.1 hmask).1⟩), rfl⟩
    · simp only [hm]
      constructor
      · intro h; simp at h
      · rintro ⟨hw, hmask⟩
        have := hmask (i, j) (List.mem_of_getLast? hw.getLast)
        exact absurd this hm

theorem mem_pathsB_admissible {mask : ℕ → ℕ → Bool} {n m : ℕ} (hn : 0 < n) (hm : 0 < m) {p} :
    p ∈ pathsB mask n m ↔ Admissible n m mask p := by
  obtain ⟨n, rfl⟩ : ∃ k, n = k + 1 := ⟨n - 1, by omega⟩
  obtain ⟨m, rfl⟩ : ∃ k, m = k + 1 := ⟨m - 1, by omega⟩
  rw [mem_pathsB]
  constructor
  · rintro ⟨h1, h2⟩
    exact ⟨isWarpingPath_iff.2 ⟨n, m, rfl, rfl, h1⟩, h2⟩
  · rintro ⟨h1, h2⟩
    obtain ⟨i, j, hi, hj, hw⟩ := isWarpingPath_iff.1 h1
    obtain rfl : i = n := by omega
    obtain rfl : j = m := by omega
    exact ⟨hw, h2⟩

theorem pathsB_last {mask : ℕ → ℕ → Bool} {a b : ℕ} {p} (h : p ∈ pathsB mask a b) :
    (a = 0 ∧ b = 0 ∧ p = []) ∨ (0 < a ∧ 0 < b ∧ p.getLast? = some (a - 1, b - 1)) := by
  rcases a with _ | a <;> rcases b with _ | b
  · exact .inl ⟨rfl, rfl, mem_pathsB_zero_zero.1 h⟩
  · exact absurd h mem_pathsB_zero_succ
  · exact absurd h mem_pathsB_succ_zero
  · exact .inr ⟨by omega, by omega, by simpa using (mem_pathsB.1 h).1.getLast⟩

theorem pathsB_disjoint {mask : ℕ → ℕ → Bool} {a b a' b' : ℕ} (h : (a, b) ≠ (a', b')) :
    Disjoint (pathsB mask a b) (pathsB mask a' b') := by
  rw [Finset.disjoint_left]
  intro p h1 h2
  apply h
  rcases pathsB_last h1 with ⟨rfl, rfl, hp⟩ | ⟨ha, hb, hp⟩ <;>
    rcases pathsB_last h2 with ⟨rfl, rfl, hp'⟩ | ⟨ha', hb', hp'⟩
  · rfl
  · simp [hp] at hp'
  · simp [hp'] at hp
  · rw [hp] at hp'
    simp only [Option.some.injEq, Prod.mk.injEq] at hp' ⊢
    omega

section
variable {R : Type*} [CommRing R]

/-- Product of the local weights along a path. -/
def prodW (k : ℕ → ℕ → R) (p : List (ℕ × ℕ)) : R := (p.map fun c => k c.1 c.2).prod

theorem prodW_append (k : ℕ → ℕ → R) (p : List (ℕ × ℕ)) (c : ℕ × ℕ) :
    prodW k (p ++ [c]) = prodW k p * k c.1 c.2 := by simp [prodW]

/-- Any summand `f` over the paths ending at a cell, split by the last move. -/
theorem sum_pathsB (mask : ℕ → ℕ → Bool) {M : Type*} [AddCommMonoid M] (f : List (ℕ × ℕ) → M) (i j : ℕ) :
    ∑ p ∈ pathsB mask (i+1) (j+1), f p = if mask i j then
      ∑ p ∈ pathsB mask i (j+1), f (p ++ [(i, j)]) + ∑ p ∈ pathsB mask (i+1) j, f (p ++ [(i, j)]) +
        ∑ p ∈ pathsB mask i j, f (p ++ [(i, j)]) else 0 := by
  rw [pathsB]
  by_cases hm : mask i j
  · simp only [hm, if_true]
    rw [Finset.sum_image (by intro a _ b _ h; simpa using h), Finset.sum_union, Finset.sum_union]
    · exact pathsB_disjoint (by simp)
    · rw [Finset.disjoint_union_left]
      exact ⟨pathsB_disjoint (by simp), pathsB_disjoint (by simp)⟩
  · simp [hm]

/-- Path sum `Z`. -/
def zsum (mask : ℕ → ℕ → Bool) (k : ℕ → ℕ → R) (a b : ℕ) : R := ∑ p ∈ pathsB mask a b, prodW k p

theorem zsum_zero_zero (mask : ℕ → ℕ → Bool) (k : ℕ → ℕ → R) : zsum mask k 0 0 = 1 := by
  rw [zsum, pathsB]; simp [prodW]

theorem zsum_zero_succ (mask : ℕ → ℕ → Bool) (k : ℕ → ℕ → R) (j) : zsum mask k 0 (j+1) = 0 := by
  rw [zsum, pathsB]; simp

theorem zsum_succ_zero (mask : ℕ → ℕ → Bool) (k : ℕ → ℕ → R) (i) : zsum mask k (i+1) 0 = 0 := by
  rw [zsum, pathsB]; simp

theorem zsum_succ_succ (mask : ℕ → ℕ → Bool) (k : ℕ → ℕ → R) (i j : ℕ) :
    zsum mask k (i+1) (j+1) = if mask i j then
      (zsum mask k i (j+1) + zsum mask k (i+1) j + zsum mask k i j) * k i j else 0 := by
  unfold zsum
  rw [sum_pathsB]
  simp only [prodW_append, ← Finset.sum_mul, add_mul]

/-- Sum over paths through a given cell. -/
def gsum (mask : ℕ → ℕ → Bool) (k : ℕ → ℕ → R) (c : ℕ × ℕ) (a b : ℕ) : R :=
  ∑ p ∈ pathsB mask a b, if c ∈ p then prodW k p else 0

/-- Weight of the continuations from cell `c` to a cell (shifted), `c` itself not counted. -/
def hsum (k : ℕ → ℕ → R) (c : ℕ × ℕ) : ℕ → ℕ → R
  | 0, _ => 0
  | _ + 1, 0 => 0
  | a + 1, b + 1 => (if c = (a, b) then 1 else 0) +
      k a b * (hsum k c a (b+1) + hsum k c (a+1) b + hsum k c a b)
  termination_by a b => a + b

theorem hsum_zero_left (k : ℕ → ℕ → R) (c b) : hsum k c 0 b = 0 := by rw [hsum]
theorem hsum_zero_right (k : ℕ → ℕ → R) (c a) : hsum k c a 0 = 0 := by
  rcases a with _ | a <;> rw [hsum]
theorem hsum_succ_succ (k : ℕ → ℕ → R) (c a b) : hsum k c (a+1) (b+1) =
    (if c = (a, b) then 1 else 0) +
      k a b * (hsum k c a (b+1) + hsum k c (a+1) b + hsum k c a b) := by rw [hsum]

/-- No continuation goes backwards. -/
theorem hsum_eq_zero (k : ℕ → ℕ → R) (c : ℕ × ℕ) (a b : ℕ) (h : a ≤ c.1 ∨ b ≤ c.2) : hsum k c a b = 0 := by
  induction hs : a + b using Nat.strong_induction_on generalizing a b with
  | _ s ih =>
    rcases a with _ | a
    · exact hsum_zero_left ..
    · rcases b with _ | b
      · exact hsum_zero_right ..
      · rw [hsum_succ_succ, ih (a + (b+1)) (by omega) _ _ (by omega) rfl,
          ih (a + 1 + b) (by omega) _ _ (by omega) rfl, ih (a + b) (by omega) _ _ (by omega) rfl]
        rw [if_neg (by rintro rfl; simp at h)]
        ring

theorem gsum_border_left (mask : ℕ → ℕ → Bool) (k : ℕ → ℕ → R) (c b) : gsum mask k c 0 b = 0 := by
  rcases b with _ | b <;> (rw [gsum, pathsB]; simp)

theorem gsum_border_right (mask : ℕ → ℕ → Bool) (k : ℕ → ℕ → R) (c a) : gsum mask k c a 0 = 0 := by
  rcases a with _ | a <;> (rw [gsum, pathsB]; simp)

/-- Paths through a cell: prefixes times continuations. -/
theorem gsum_eq (mask : ℕ → ℕ → Bool) (k : ℕ → ℕ → R) (hk : ∀ i j, mask i j = false → k i j = 0)
    (i j a b : ℕ) : gsum mask k (i, j) a b = zsum mask k (i+1) (j+1) * hsum k (i, j) a b := by
  induction hs : a + b using Nat.strong_induction_on generalizing a b with
  | _ s ih =>
    rcases a with _ | a
    · rw [gsum_border_left, hsum_zero_left, mul_zero]
    · rcases b with _ | b
      · rw [gsum_border_right, hsum_zero_right, mul_zero]
      · by_cases hab : (i, j) = (a, b)
        · cases hab
          rw [hsum_succ_succ, hsum_eq_zero _ _ _ _ (.inl le_rfl), hsum_eq_zero _ _ _ _ (.inr le_rfl),
            hsum_eq_zero _ _ _ _ (.inl le_rfl)]
          simp only [if_true, add_zero, mul_zero, mul_one]
          unfold gsum zsum
          apply Finset.sum_congr rfl
          intro p hp
          rw [if_pos]
          exact List.mem_of_getLast? (mem_pathsB.1 hp).1.getLast
        · have e : ∀ (x y : ℕ), (∑ p ∈ pathsB mask x y,
              if (i, j) ∈ p ++ [(a, b)] then prodW k (p ++ [(a, b)]) else 0) = gsum mask k (i, j) x y * k a b := by
            intro x y
            unfold gsum
            rw [Finset.sum_mul]
            apply Finset.sum_congr rfl
            intro p _
            have : (i, j) ∈ p ++ [(a, b)] ↔ (i, j) ∈ p := by
              simp only [List.mem_append, List.mem_singleton, hab, or_false]
            rw [prodW_append]
            by_cases hp : (i, j) ∈ p
            · rw [if_pos (this.2 hp), if_pos hp]
            · rw [if_neg (fun h => hp (this.1 h)), if_neg hp, zero_mul]
          rw [gsum, sum_pathsB]
          simp only [e]
          rw [hsum_succ_succ, if_neg hab, zero_add]
          by_cases hm : mask a b
          · simp only [hm, if_true]
            rw [ih (a + (b+1)) (by omega) _ _ rfl, ih (a + 1 + b) (by omega) _ _ rfl,
              ih (a + b) (by omega) _ _ rfl]
            ring
          · rw [if_neg hm, hk a b (by simpa using hm)]
            ring

/-- Backward form of the continuation weights. -/
theorem hsum_backward (k : ℕ → ℕ → R) (i j a b : ℕ) : hsum k (i, j) (a+1) (b+1) =
    (if (i, j) = (a, b) then 1 else 0) + (k (i+1) j * hsum k (i+1, j) (a+1) (b+1) +
      k i (j+1) * hsum k (i, j+1) (a+1) (b+1) + k (i+1) (j+1) * hsum k (i+1, j+1) (a+1) (b+1)) := by
  -- stated for all shifted indices: the Kronecker term at `(x, y)` is `(i+1, j+1) = (x, y)`
  have key : ∀ s x y, x + y = s → hsum k (i, j) x y =
      (if (i+1, j+1) = (x, y) then 1 else 0) + (k (i+1) j * hsum k (i+1, j) x y +
      k i (j+1) * hsum k (i, j+1) x y + k (i+1) (j+1) * hsum k (i+1, j+1) x y) := by
    intro s
    induction s using Nat.strong_induction_on with
    | _ s ih =>
      intro x y hs
      rcases x with _ | x
      · simp [hsum_zero_left]
      · rcases y with _ | y
        · simp [hsum_zero_right]
        · rw [hsum_succ_succ k (i, j), hsum_succ_succ k (i+1, j), hsum_succ_succ k (i, j+1),
            hsum_succ_succ k (i+1, j+1)]
          have e1 := ih (x + (y+1)) (by omega) x (y+1) rfl
          have e2 := ih (x + 1 + y) (by omega) (x+1) y rfl
          have e3 := ih (x + y) (by omega) x y rfl
          rw [e1, e2, e3]
          have d : (k x y : R) * ((if (i+1, j+1) = (x, y+1) then 1 else 0) +
              (if (i+1, j+1) = (x+1, y) then 1 else 0) + (if (i+1, j+1) = (x, y) then 1 else 0)) =
              k (i+1) j * (if (i+1, j) = (x, y) then 1 else 0) +
              k i (j+1) * (if (i, j+1) = (x, y) then 1 else 0) +
              k (i+1) (j+1) * (if (i+1, j+1) = (x, y) then 1 else 0) := by
            simp only [Prod.mk.injEq, Nat.add_right_cancel_iff]
            by_cases h1 : i + 1 = x ∧ j = y
            · obtain ⟨rfl, rfl⟩ := h1; simp
            · by_cases h2 : i = x ∧ j + 1 = y
              · obtain ⟨rfl, rfl⟩ := h2; simp
              · by_cases h3 : i + 1 = x ∧ j + 1 = y
                · obtain ⟨rfl, rfl⟩ := h3; simp
                · simp [h1, h2, h3]
          have e0 : ((if (i, j) = (x, y) then 1 else 0 : R)) = if (i+1, j+1) = (x+1, y+1) then 1 else 0 := by
            simp
          rw [e0]
          generalize (if (i+1, j+1) = (x, y+1) then (1:R) else 0) = δ1 at d ⊢
          generalize (if (i+1, j+1) = (x+1, y) then (1:R) else 0) = δ2 at d ⊢
          generalize (if (i+1, j+1) = (x, y) then (1:R) else 0) = δ3 at d ⊢
          generalize (if (i+1, j) = (x, y) then (1:R) else 0) = δ4 at d ⊢
          generalize (if (i, j+1) = (x, y) then (1:R) else 0) = δ5 at d ⊢
          generalize (if (i+1, j+1) = (x+1, y+1) then (1:R) else 0) = δ6
          linear_combination d
  have := key _ (a+1) (b+1) rfl
  simpa using this
end

end Verif
