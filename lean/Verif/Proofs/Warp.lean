import Verif.Spec.Warping
import Verif.Proofs.Dp
import Mathlib.Order.BoundedOrder.Basic
import Mathlib.Order.MinMax
import Mathlib.Order.Monotone.Basic
/-!
Optimality of min-type dynamic programmes over warping paths.
-/
namespace Verif
open Spec

/-- Paths built by appending a cell; `free` allows the start to be any cell of row `0`. -/
inductive WP (free : Bool) : List (ℕ × ℕ) → ℕ → ℕ → Prop
  | start (j0 : ℕ) : (free = true ∨ j0 = 0) → WP free [(0, j0)] 0 j0
  | down {p i j} : WP free p i j → WP free (p ++ [(i + 1, j)]) (i + 1) j
  | right {p i j} : WP free p i j → WP free (p ++ [(i, j + 1)]) i (j + 1)
  | diag {p i j} : WP free p i j → WP free (p ++ [(i + 1, j + 1)]) (i + 1) (j + 1)

theorem WP.ne_nil {free p i j} (h : WP free p i j) : p ≠ [] := by
  cases h <;> simp

theorem WP.getLast {free p i j} (h : WP free p i j) : p.getLast? = some (i, j) := by
  cases h <;> simp

theorem WP.head {free p i j} (h : WP free p i j) :
    ∃ j0, p.head? = some (0, j0) ∧ (free = true ∨ j0 = 0) := by
  induction h with
  | start j0 h => exact ⟨j0, by simp, h⟩
  | down h ih => obtain ⟨j0, h1, h2⟩ := ih; exact ⟨j0, by simp [List.head?_append, h1], h2⟩
  | right h ih => obtain ⟨j0, h1, h2⟩ := ih; exact ⟨j0, by simp [List.head?_append, h1], h2⟩
  | diag h ih => obtain ⟨j0, h1, h2⟩ := ih; exact ⟨j0, by simp [List.head?_append, h1], h2⟩

theorem WP.chain {free p i j} (h : WP free p i j) : p.IsChain WStep := by
  induction h with
  | start j0 h => simp
  | down h ih =>
    rw [List.isChain_append]; refine ⟨ih, by simp, ?_⟩
    rw [h.getLast]; simp [WStep]
  | right h ih =>
    rw [List.isChain_append]; refine ⟨ih, by simp, ?_⟩
    rw [h.getLast]; simp [WStep]
  | diag h ih =>
    rw [List.isChain_append]; refine ⟨ih, by simp, ?_⟩
    rw [h.getLast]; simp [WStep]

theorem WP.of_chain {free : Bool} (p : List (ℕ × ℕ)) : ∀ (i j j0 : ℕ), p.head? = some (0, j0) →
    (free = true ∨ j0 = 0) → p.getLast? = some (i, j) → p.IsChain WStep → WP free p i j := by
  induction p using List.reverseRecOn with
  | nil => intro i j j0 h; simp at h
  | append_singleton q c ih =>
    intro i j j0 hh hf hl hc
    simp at hl
    subst hl
    rw [List.isChain_append] at hc
    obtain ⟨hc1, -, hc2⟩ := hc
    rcases List.eq_nil_or_concat' q with rfl | ⟨q', c', rfl⟩
    · simp at hh
      obtain ⟨rfl, rfl⟩ := hh
      exact .start _ hf
    · have hh' : (q' ++ [c']).head? = some (0, j0) := by
        cases q' <;> simpa using hh
      have hw := ih c'.1 c'.2 j0 hh' hf (by simp) hc1
      have hs : WStep c' (i, j) := hc2 c' (by simp) (i, j) (by simp)
      rcases hs with hs | hs | hs <;> simp only [Prod.mk.injEq] at hs <;> obtain ⟨rfl, rfl⟩ := hs
      · exact hw.down
      · exact hw.right
      · exact hw.diag

theorem isWarpingPath_iff {n m : ℕ} {p : List (ℕ × ℕ)} :
    IsWarpingPath n m p ↔ ∃ i j, i + 1 = n ∧ j + 1 = m ∧ WP false p i j := by
  constructor
  · rintro ⟨h1, ⟨i, j, h2, hi, hj⟩, h3⟩
    exact ⟨i, j, hi, hj, WP.of_chain p i j 0 h1 (Or.inr rfl) h2 h3⟩
  · rintro ⟨i, j, hi, hj, h⟩
    obtain ⟨j0, h1, h2⟩ := h.head
    simp at h2
    subst h2
    exact ⟨h1, ⟨i, j, h.getLast, hi, hj⟩, h.chain⟩

theorem WP.mem_le {free p i j} (h : WP free p i j) : ∀ c ∈ p, c.1 ≤ i ∧ c.2 ≤ j := by
  induction h with
  | start j0 h => intro c hc; simp at hc; subst hc; simp
  | down h ih =>
    intro c hc; simp at hc
    rcases hc with hc | rfl
    · have := ih c hc; omega
    · simp
  | right h ih =>
    intro c hc; simp at hc
    rcases hc with hc | rfl
    · have := ih c hc; omega
    · simp
  | diag h ih =>
    intro c hc; simp at hc
    rcases hc with hc | rfl
    · have := ih c hc; omega
    · simp

theorem WP.nodup {p i j} (h : WP false p i j) : p.Nodup := by
  have snoc : ∀ {p : List (ℕ × ℕ)} {c}, p.Nodup → c ∉ p → (p ++ [c]).Nodup := by
    intro p c h1 h2
    rw [List.nodup_append]
    refine ⟨h1, by simp, fun a ha b hb => ?_⟩
    rw [List.mem_singleton] at hb
    rintro rfl
    exact h2 (hb ▸ ha)
  induction h with
  | start j0 h => simp
  | down h ih => exact snoc ih fun hc => by have := h.mem_le _ hc; simp only at this; omega
  | right h ih => exact snoc ih fun hc => by have := h.mem_le _ hc; simp only at this; omega
  | diag h ih => exact snoc ih fun hc => by have := h.mem_le _ hc; simp only at this; omega

theorem inMask_append {mask : ℕ → ℕ → Bool} {p q : List (ℕ × ℕ)} :
    InMask mask (p ++ q) ↔ InMask mask p ∧ InMask mask q := by
  unfold InMask
  constructor
  · intro h
    exact ⟨fun c hc => h c (by simp [hc]), fun c hc => h c (by simp [hc])⟩
  · rintro ⟨h1, h2⟩ c hc
    rcases List.mem_append.1 hc with hc | hc
    · exact h1 c hc
    · exact h2 c hc

@[simp] theorem inMask_singleton {mask : ℕ → ℕ → Bool} {c : ℕ × ℕ} :
    InMask mask [c] ↔ mask c.1 c.2 = true := by
  simp [InMask]

section
variable {D C : Type*} (step : D → C → C) (z : C) (dist : ℕ → ℕ → D)

theorem pathCost_append (p : List (ℕ × ℕ)) (c : ℕ × ℕ) :
    pathCost step z dist (p ++ [c]) = step (dist c.1 c.2) (pathCost step z dist p) := by
  simp [pathCost]

theorem pathCost_singleton (c : ℕ × ℕ) :
    pathCost step z dist [c] = step (dist c.1 c.2) z := by
  simp [pathCost]

variable [LinearOrder C] [OrderTop C]

/-- Initial table: `z` at the origin (on the whole row 0 when `free`), `+inf` elsewhere. -/
def dpInit (free : Bool) : Mat C := fun i j => if i = 0 ∧ (free = true ∨ j = 0) then z else ⊤

/-- The min-type cell update. -/
def minCell : ℕ → ℕ → C → C → C → C := fun i j up left dg => step (dist i j) (min (min up left) dg)

variable {step z dist}
variable {l1 l2 : ℕ} {mask : ℕ → ℕ → Bool} {free : Bool} {M : Mat C}

/-- Every admissible path costs at least the table entry of its last cell. -/
theorem IsDP.le_cost (hM : IsDP l1 l2 mask (minCell step dist) (dpInit z free) M)
    (hmono : ∀ d, Monotone (step d)) {p : List (ℕ × ℕ)} {i j : ℕ} (hp : WP free p i j)
    (hi : i < l1) (hj : j < l2) (hm : InMask mask p) :
    M (i+1) (j+1) ≤ pathCost step z dist p := by
  induction hp with
  | start j0 h =>
    rw [hM.body _ _ hi hj, pathCost_singleton]
    rw [inMask_singleton] at hm
    simp only [hm, if_true, minCell]
    apply hmono
    apply min_le_of_right_le
    rw [hM.row0]; simp [dpInit, h]
  | @down p i j h ih =>
    rw [inMask_append, inMask_singleton] at hm
    rw [hM.body _ _ hi hj, pathCost_append]
    simp only [hm.2, if_true, minCell]
    apply hmono
    exact (min_le_of_left_le (min_le_left _ _)).trans (ih (by omega) hj hm.1)
  | @right p i j h ih =>
    rw [inMask_append, inMask_singleton] at hm
    rw [hM.body _ _ hi hj, pathCost_append]
    simp only [hm.2, if_true, minCell]
    apply hmono
    exact (min_le_of_left_le (min_le_right _ _)).trans (ih hi (by omega) hm.1)
  | @diag p i j h ih =>
    rw [inMask_append, inMask_singleton] at hm
    rw [hM.body _ _ hi hj, pathCost_append]
    simp only [hm.2, if_true, minCell]
    apply hmono
    exact (min_le_right _ _).trans (ih (by omega) (by omega) hm.1)

/-- Finite entries: the cell is allowed and the min of the predecessors is finite. -/
theorem IsDP.finite_cell (hM : IsDP l1 l2 mask (minCell step dist) (dpInit z free) M)
    (htop : ∀ d, step d ⊤ = ⊤) {i j : ℕ} (hi : i < l1) (hj : j < l2) (hf : M (i+1) (j+1) ≠ ⊤) :
    mask i j = true ∧ M (i+1) (j+1) = step (dist i j) (min (min (M i (j+1)) (M (i+1) j)) (M i j)) ∧
      min (min (M i (j+1)) (M (i+1) j)) (M i j) ≠ ⊤ := by
  have hb := hM.body i j hi hj
  by_cases hm : mask i j
  · simp only [hm, if_true, minCell] at hb
    refine ⟨hm, hb, fun h => hf ?_⟩
    rw [hb, h, htop]
  · simp [hm, dpInit] at hb
    exact absurd hb hf

/-- A finite entry is the cost of some admissible path. -/
theorem IsDP.attained (hM : IsDP l1 l2 mask (minCell step dist) (dpInit z free) M)
    (htop : ∀ d, step d ⊤ = ⊤) : ∀ (n i j : ℕ), i + j = n → i < l1 → j < l2 →
    M (i+1) (j+1) ≠ ⊤ →
    ∃ p, WP free p i j ∧ InMask mask p ∧ pathCost step z dist p = M (i+1) (j+1) := by
  intro n
  induction n using Nat.strong_induction_on with
  | _ n ih =>
    intro i j hn hi hj hf
    obtain ⟨hm, hb, hmin⟩ := hM.finite_cell htop hi hj hf
    rcases min_choice (min (M i (j+1)) (M (i+1) j)) (M i j) with h | h
    · rcases min_choice (M i (j+1)) (M (i+1) j) with h' | h'
      · -- up
        rw [h, h'] at hb hmin
        cases i with
        | zero =>
          rw [hM.row0] at hb hmin
          have hfree : free = true := by
            by_contra hc
            exact hmin (by simp [dpInit, hc])
          refine ⟨[(0, j)], .start j (Or.inl hfree), by simp [hm], ?_⟩
          rw [pathCost_singleton, hb]; simp [dpInit, hfree]
        | succ i =>
          obtain ⟨p, h1, h2, h3⟩ := ih (i + j) (by omega) i j rfl (by omega) hj hmin
          exact ⟨_, h1.down, inMask_append.2 ⟨h2, by simp [hm]⟩, by
            rw [pathCost_append, h3, hb]⟩
      · -- left
        rw [h, h'] at hb hmin
        cases j with
        | zero =>
          rw [hM.col0] at hmin
          exact absurd (by simp [dpInit]) hmin
        | succ j =>
          obtain ⟨p, h1, h2, h3⟩ := ih (i + j) (by omega) i j rfl hi (by omega) hmin
          exact ⟨_, h1.right, inMask_append.2 ⟨h2, by simp [hm]⟩, by
            rw [pathCost_append, h3, hb]⟩
    · rw [h] at hb hmin
      cases i with
      | zero =>
        rw [hM.row0] at hb hmin
        have hfree : free = true ∨ j = 0 := by
          by_contra hc
          exact hmin (by simp only [dpInit]; rw [if_neg (by tauto)])
        refine ⟨[(0, j)], .start j hfree, by simp [hm], ?_⟩
        rw [pathCost_singleton, hb]; simp [dpInit, hfree]
      | succ i =>
        cases j with
        | zero =>
          rw [hM.col0] at hmin
          exact absurd (by simp [dpInit]) hmin
        | succ j =>
          obtain ⟨p, h1, h2, h3⟩ := ih (i + j) (by omega) i j rfl (by omega) (by omega) hmin
          exact ⟨_, h1.diag, inMask_append.2 ⟨h2, by simp [hm]⟩, by
            rw [pathCost_append, h3, hb]⟩

end

end Verif
