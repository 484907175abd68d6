import Verif.Proofs.Masks
import Verif.Spec.Parallelogram
import Mathlib.Tactic.Linarith
import Mathlib.Tactic.FieldSimp
import Mathlib.Tactic.Positivity
import Mathlib.Algebra.Order.Field.Rat
/-!
The Itakura mask: rounding, bounds, feasibility of staircase corridors.
-/
namespace Verif
open Spec

/-! ### rounding -/

theorem rint_bounds (q : ℚ) : q - 1/2 ≤ rint q ∧ (rint q : ℚ) ≤ q + 1/2 := by
  unfold rint
  have h1 := Int.floor_le q
  have h2 := Int.lt_floor_add_one q
  dsimp only
  split_ifs <;> push_cast <;> constructor <;> linarith

theorem rint_int (z : ℤ) : rint (z : ℚ) = z := by
  simp [rint]

theorem rint_mono {a b : ℚ} (h : a ≤ b) : rint a ≤ rint b := by
  by_contra hlt
  push Not at hlt
  have ha := rint_bounds a
  have hb := rint_bounds b
  have h1 : (rint b : ℚ) + 1 ≤ rint a := by exact_mod_cast hlt
  -- then `a = b` exactly half way, contradiction
  have : a = b := by linarith
  subst this
  exact lt_irrefl _ hlt

theorem round2_mono {a b : ℚ} (h : a ≤ b) : round2 a ≤ round2 b := by
  unfold round2
  have : (rint (a * 100) : ℚ) ≤ rint (b * 100) := by
    exact_mod_cast rint_mono (by linarith)
  linarith

theorem round2_int (z : ℤ) : round2 (z : ℚ) = z := by
  unfold round2
  have : rint ((z : ℚ) * 100) = z * 100 := by
    have := rint_int (z * 100)
    push_cast at this
    exact this
  rw [this]
  push_cast
  linarith

theorem round2_bounds (q : ℚ) : q - 1/200 ≤ round2 q ∧ round2 q ≤ q + 1/200 := by
  unfold round2
  have := rint_bounds (q * 100)
  constructor <;> linarith [this.1, this.2]

theorem round2_le_int {q : ℚ} {z : ℤ} (h : q ≤ z) : round2 q ≤ z :=
  (round2_mono h).trans_eq (round2_int z)

theorem int_le_round2 {q : ℚ} {z : ℤ} (h : (z : ℚ) ≤ q) : (z : ℚ) ≤ round2 q :=
  (round2_int z).symm.trans_le (round2_mono h)

/-! ### bounds -/

theorem itakuraLower_mono (n m : ℕ) (s : ℚ) (hs : 0 < s) : Monotone (itakuraLower n m s) := by
  intro a b hab
  have hab' : (a : ℚ) ≤ b := by exact_mod_cast hab
  have hnm : (0 : ℚ) ≤ n / m := by positivity
  unfold itakuraLower
  apply Int.ceil_le_ceil
  apply max_le_max
  · apply round2_mono
    exact mul_le_mul_of_nonneg_left hab' (by positivity)
  · apply round2_mono
    have := mul_le_mul_of_nonneg_left hab' (mul_nonneg hs.le hnm)
    linarith

theorem itakuraUpper_mono (n m : ℕ) (s : ℚ) (hs : 0 < s) : Monotone (itakuraUpper n m s) := by
  intro a b hab
  have hab' : (a : ℚ) ≤ b := by exact_mod_cast hab
  have hnm : (0 : ℚ) ≤ n / m := by positivity
  unfold itakuraUpper
  apply Int.floor_le_floor
  apply add_le_add_left
  apply min_le_min
  · apply round2_mono
    exact mul_le_mul_of_nonneg_left hab' (by positivity)
  · apply round2_mono
    have := mul_le_mul_of_nonneg_left hab' (show (0:ℚ) ≤ 1 / s * (n/m) by positivity)
    linarith

theorem itakuraLower_nonneg (n m : ℕ) (s : ℚ) (hs : 0 < s) (j : ℕ) : 0 ≤ itakuraLower n m s j := by
  unfold itakuraLower
  apply Int.ceil_nonneg
  apply le_max_of_le_left
  have : ((0 : ℤ) : ℚ) ≤ round2 (1 / s * (n / m) * j) := int_le_round2 (by push_cast; positivity)
  simpa using this

theorem itakuraUpper_nonneg (n m : ℕ) (hn : 0 < n) (hm : 0 < m) (s : ℚ) (hs : 1 ≤ s) (j : ℕ) :
    0 ≤ itakuraUpper n m s j := by
  have hm' : (0 : ℚ) < m := by exact_mod_cast hm
  have hn' : (0 : ℚ) < n := by exact_mod_cast hn
  have hs0 : 0 < s := by linarith
  unfold itakuraUpper
  apply Int.floor_nonneg.2
  have h : ((-1 : ℤ) : ℚ) ≤ min (round2 (s * (n / m) * j))
      (round2 ((n : ℚ) - 1 - 1 / s * (n / m) * (m - 1) + 1 / s * (n / m) * j)) := by
    apply le_min
    · apply int_le_round2
      have : 0 ≤ s * (n / m) * (j : ℚ) := by positivity
      push_cast; linarith
    · apply int_le_round2
      push_cast
      have h1 : 1 / s * ((n : ℚ) / m) * (m - 1) ≤ n := by
        have hm1 : (1 : ℚ) ≤ m := by exact_mod_cast hm
        have e1 : 1 / s * ((n : ℚ) / m) * (m - 1) = (1 / s) * (n * ((m - 1) / m)) := by
          field_simp
        rw [e1]
        have h2 : ((m : ℚ) - 1) / m ≤ 1 := by rw [div_le_one hm']; linarith
        have h20 : 0 ≤ ((m : ℚ) - 1) / m := div_nonneg (by linarith) hm'.le
        have h3 : 1 / s ≤ 1 := by rw [div_le_one hs0]; exact hs
        have h4 : n * (((m : ℚ) - 1) / m) ≤ n := by nlinarith
        have h5 : 0 ≤ n * (((m : ℚ) - 1) / m) := by positivity
        nlinarith [show 0 < 1 / s by positivity]
      have : 0 ≤ 1 / s * ((n : ℚ) / m) * j := by positivity
      linarith
  push_cast at h
  linarith

/-- The corridor of the fill loop. -/
theorem itakuraFill_mask (n m : ℕ) (lo up : ℕ → ℤ) (hlo : ∀ j, 0 ≤ lo j) (hup : ∀ j, 0 ≤ up j)
    (a b : ℕ) (ha : a < n) (hb : b < m) :
    forRange m (Mat.full false) (fun i (mask : Mat Bool) =>
      fun a b => if b = i ∧ inSlice n (lo i) (up i) a = true then true else mask a b) a b = true ↔
    lo b ≤ a ∧ (a : ℤ) < up b := by
  rw [forRange_fill m (fun i a b => b = i ∧ inSlice n (lo i) (up i) a = true)]
  have h1 := hlo b
  have h2 := hup b
  constructor
  · rintro ⟨i, hi, rfl, h⟩
    unfold inSlice at h
    simp only [Bool.and_eq_true, decide_eq_true_eq] at h
    split_ifs at h <;> omega
  · intro h
    refine ⟨b, hb, rfl, ?_⟩
    unfold inSlice
    simp only [Bool.and_eq_true, decide_eq_true_eq]
    split_ifs <;> omega

theorem down_in_col {mask : Mat Bool} {p : List (ℕ × ℕ)} {i j : ℕ} (h : WP false p i j)
    (hm : InMask mask p) (k : ℕ) (hk : ∀ a, i < a → a ≤ i + k → mask a j = true) :
    ∃ q, WP false q (i + k) j ∧ InMask mask q := by
  obtain ⟨q, hq, hc⟩ := down_path h k
  refine ⟨p ++ q, hq, ?_⟩
  intro c hcm
  rcases List.mem_append.1 hcm with h' | h'
  · exact hm c h'
  · obtain ⟨h1, h2, h3⟩ := hc c h'
    rw [h1]
    exact hk _ h2 h3

/-- In a staircase corridor with nondecreasing bounds in which every row and every column has a
cell, every allowed cell is reachable. -/
theorem corridor_reachable (n m : ℕ) (hn : 0 < n) (lo up : ℕ → ℤ)
    (hlom : Monotone lo) (hupm : Monotone up) (hlo : ∀ j, 0 ≤ lo j) (mask : Mat Bool)
    (hmask : ∀ a < n, ∀ b < m, mask a b = true ↔ lo b ≤ a ∧ (a : ℤ) < up b)
    (hrow : ∀ a < n, ∃ b < m, mask a b = true) (hcol : ∀ b < m, ∃ a < n, mask a b = true) :
    ∀ j < m, ∀ i < n, mask i j = true → ∃ p, WP false p i j ∧ InMask mask p := by
  intro j
  induction j with
  | zero =>
    intro hj i hi hij
    have h0 : lo 0 ≤ 0 := by
      obtain ⟨b, hb, hb'⟩ := hrow 0 hn
      have := ((hmask 0 hn b hb).1 hb').1
      exact (hlom (Nat.zero_le b)).trans (by simpa using this)
    have hu := ((hmask i hi 0 hj).1 hij).2
    have hcell : ∀ a ≤ i, mask a 0 = true := by
      intro a ha
      rw [hmask a (by omega) 0 hj]
      omega
    obtain ⟨q, hq, hqm⟩ := down_in_col (mask := mask) (WP.start (free := false) 0 (Or.inr rfl))
      (by intro c hc; simp at hc; subst hc; exact hcell 0 (by omega)) i
      (fun a _ h2 => hcell a (by omega))
    rw [Nat.zero_add] at hq
    exact ⟨q, hq, hqm⟩
  | succ j ih =>
    intro hj i hi hij
    obtain ⟨hl, hu⟩ := (hmask i hi (j+1) hj).1 hij
    have hlon := hlo (j+1)
    have hlm := hlom (show j ≤ j + 1 by omega)
    have hum := hupm (show j ≤ j + 1 by omega)
    -- the first row of column `j+1`
    obtain ⟨l, hl'⟩ := Int.eq_ofNat_of_zero_le hlon
    have hlj : mask l (j+1) = true := by
      rw [hmask l (by omega) (j+1) hj]; omega
    -- the nonempty column `j`
    obtain ⟨a0, ha0, ha0'⟩ := hcol j (by omega)
    obtain ⟨hal, hau⟩ := (hmask a0 ha0 j (by omega)).1 ha0'
    have hstart : ∃ p, WP false p l (j+1) ∧ InMask mask p := by
      by_cases hcase : (l : ℤ) < up j
      · have : mask l j = true := by rw [hmask l (by omega) j (by omega)]; omega
        obtain ⟨p, hp, hpm⟩ := ih (by omega) l (by omega) this
        refine ⟨_, hp.right, ?_⟩
        intro c hc
        rcases List.mem_append.1 hc with h' | h'
        · exact hpm c h'
        · simp at h'; subst h'; exact hlj
      · push Not at hcase
        -- no gap: `up j = l`, otherwise row `up j` would be empty
        obtain ⟨u, hu'⟩ := Int.eq_ofNat_of_zero_le (show 0 ≤ up j by omega)
        have hul : u = l := by
          by_contra hne
          have hult : u < l := by omega
          obtain ⟨b, hb, hb'⟩ := hrow u (by omega)
          obtain ⟨h1, h2⟩ := (hmask u (by omega) b hb).1 hb'
          rcases Nat.lt_or_ge j b with hjb | hjb
          · have := hlom (show j + 1 ≤ b from hjb); omega
          · have := hupm hjb; omega
        obtain ⟨l', rfl⟩ : ∃ l', l = l' + 1 := ⟨l - 1, by omega⟩
        have : mask l' j = true := by
          rw [hmask l' (by omega) j (by omega)]; omega
        obtain ⟨p, hp, hpm⟩ := ih (by omega) l' (by omega) this
        refine ⟨_, hp.diag, ?_⟩
        intro c hc
        rcases List.mem_append.1 hc with h' | h'
        · exact hpm c h'
        · simp at h'; subst h'; exact hlj
    obtain ⟨p, hp, hpm⟩ := hstart
    obtain ⟨q, hq, hqm⟩ := down_in_col hp hpm (i - l) (by
      intro a h1 h2
      rw [hmask a (by omega) (j+1) hj]; omega)
    rw [show l + (i - l) = i by omega] at hq
    exact ⟨q, hq, hqm⟩

/-- A staircase corridor with nondecreasing bounds in which every row and every column has a cell
contains a complete warping path. -/
theorem corridor_feasible (n m : ℕ) (hn : 0 < n) (hm : 0 < m) (lo up : ℕ → ℤ)
    (hlom : Monotone lo) (hupm : Monotone up) (hlo : ∀ j, 0 ≤ lo j) (mask : Mat Bool)
    (hmask : ∀ a < n, ∀ b < m, mask a b = true ↔ lo b ≤ a ∧ (a : ℤ) < up b)
    (hrow : ∀ a < n, ∃ b < m, mask a b = true) (hcol : ∀ b < m, ∃ a < n, mask a b = true) :
    ∃ p, Admissible n m mask p := by
  have reach := corridor_reachable n m hn lo up hlom hupm hlo mask hmask hrow hcol
  have hlast : mask (n-1) (m-1) = true := by
    obtain ⟨b, hb, hb'⟩ := hrow (n-1) (by omega)
    obtain ⟨a, ha, ha'⟩ := hcol (m-1) (by omega)
    have h1 := ((hmask (n-1) (by omega) b hb).1 hb').2
    have h2 := ((hmask a ha (m-1) (by omega)).1 ha').1
    have := hupm (show b ≤ m - 1 by omega)
    rw [hmask (n-1) (by omega) (m-1) (by omega)]; omega
  obtain ⟨p, hp, hpm⟩ := reach (m-1) (by omega) (n-1) (by omega) hlast
  exact ⟨p, isWarpingPath_iff.2 ⟨n-1, m-1, by omega, by omega, hp⟩, hpm⟩

/-- A warping path visits every row and every column. -/
theorem WP.visits {p i j} (h : WP false p i j) :
    (∀ a ≤ i, ∃ b, (a, b) ∈ p) ∧ (∀ b ≤ j, ∃ a, (a, b) ∈ p) := by
  induction h with
  | start j0 h =>
    simp at h; subst h
    exact ⟨fun a ha => ⟨0, by simp; omega⟩, fun b hb => ⟨0, by simp; omega⟩⟩
  | @down p i j h ih =>
    constructor
    · intro a ha
      rcases Nat.lt_or_ge i a with h' | h'
      · exact ⟨j, by simp; right; omega⟩
      · obtain ⟨b, hb⟩ := ih.1 a h'; exact ⟨b, by simp [hb]⟩
    · intro b hb
      obtain ⟨a, ha⟩ := ih.2 b hb; exact ⟨a, by simp [ha]⟩
  | @right p i j h ih =>
    constructor
    · intro a ha
      obtain ⟨b, hb⟩ := ih.1 a ha; exact ⟨b, by simp [hb]⟩
    · intro b hb
      rcases Nat.lt_or_ge j b with h' | h'
      · exact ⟨i, by simp; right; omega⟩
      · obtain ⟨a, ha⟩ := ih.2 b h'; exact ⟨a, by simp [ha]⟩
  | @diag p i j h ih =>
    constructor
    · intro a ha
      rcases Nat.lt_or_ge i a with h' | h'
      · exact ⟨j+1, by simp; right; omega⟩
      · obtain ⟨b, hb⟩ := ih.1 a h'; exact ⟨b, by simp [hb]⟩
    · intro b hb
      rcases Nat.lt_or_ge j b with h' | h'
      · exact ⟨i+1, by simp; right; omega⟩
      · obtain ⟨a, ha⟩ := ih.2 b h'; exact ⟨a, by simp [ha]⟩

end Verif
