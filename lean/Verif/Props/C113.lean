import Verif.Model.RoundedMasks
import Verif.Props.C51
import Verif.Props.C98
import Verif.Proofs.Binary
import Mathlib.Data.Nat.GCD.Basic
/-!
# C113 — the Itakura band in rounded arithmetic
-/
set_option linter.unusedSectionVars false
namespace Verif
open Spec

/-! ## Rounding to two decimals -/

theorem rint_le {w : ℚ} {m : ℤ} (hm : m % 2 = 0) (h : w ≤ m + 1 / 2) : rint w ≤ m := by
  have := rint_mono h
  refine this.trans ?_
  unfold rint
  have : ⌊(m : ℚ) + 1 / 2⌋ = m := by
    rw [Int.floor_eq_iff]; constructor <;> linarith
  simp only [this]
  norm_num [hm]

theorem lt_rint {w : ℚ} {m : ℤ} (h : (m : ℚ) + 1 / 2 < w) : m < rint w := by
  by_contra hc
  rw [not_lt] at hc
  have h1 := (rint_bounds w).1
  have h2 : (rint w : ℚ) ≤ m := by exact_mod_cast hc
  linarith

theorem le_rint {w : ℚ} {m : ℤ} (hm : m % 2 = 0) (h : (m : ℚ) - 1 / 2 ≤ w) : m ≤ rint w := by
  have := rint_mono h
  refine le_trans ?_ this
  unfold rint
  have : ⌊(m : ℚ) - 1 / 2⌋ = m - 1 := by
    rw [Int.floor_eq_iff]; push_cast; constructor <;> linarith
  simp only [this]
  have h2 : (m - 1) % 2 ≠ 0 := by omega
  norm_num [h2]

theorem rint_lt {w : ℚ} {m : ℤ} (h : w < (m : ℚ) - 1 / 2) : rint w < m := by
  by_contra hc
  rw [not_lt] at hc
  have h1 := (rint_bounds w).2
  have h2 : (m : ℚ) ≤ rint w := by exact_mod_cast hc
  linarith

/-- Rounding to two decimals and up is rounding up with a tolerance of half a hundredth. -/
theorem ceil_rint {x w e : ℚ} (h : |w - 100 * x| ≤ 100 * e) :
    ⌈x - 1 / 200 - e⌉ ≤ ⌈(rint w : ℚ) / 100⌉ ∧ ⌈(rint w : ℚ) / 100⌉ ≤ ⌈x - 1 / 200 + e⌉ := by
  rw [abs_le] at h
  constructor
  · rw [Int.ceil_le]
    by_contra hc
    rw [not_le] at hc
    have hk := Int.le_ceil ((rint w : ℚ) / 100)
    set n := ⌈(rint w : ℚ) / 100⌉
    have h1 : ((100 * n : ℤ) : ℚ) + 1 / 2 < w := by push_cast; linarith
    have h2 := lt_rint h1
    have h3 : ((100 * n : ℤ) : ℚ) < rint w := by exact_mod_cast h2
    push_cast at h3
    linarith
  · rw [Int.ceil_le, div_le_iff₀ (by norm_num)]
    have hk := Int.le_ceil (x - 1 / 200 + e)
    set n := ⌈x - 1 / 200 + e⌉
    have h1 : w ≤ ((100 * n : ℤ) : ℚ) + 1 / 2 := by push_cast; linarith
    have h2 := rint_le (by omega) h1
    have h3 : (rint w : ℚ) ≤ ((100 * n : ℤ) : ℚ) := by exact_mod_cast h2
    push_cast at h3
    linarith

/-- And down. -/
theorem floor_rint {x w e : ℚ} (h : |w - 100 * x| ≤ 100 * e) :
    ⌊x + 1 / 200 - e⌋ ≤ ⌊(rint w : ℚ) / 100⌋ ∧ ⌊(rint w : ℚ) / 100⌋ ≤ ⌊x + 1 / 200 + e⌋ := by
  rw [abs_le] at h
  constructor
  · rw [Int.le_floor, le_div_iff₀ (by norm_num)]
    have hk := Int.floor_le (x + 1 / 200 - e)
    set n := ⌊x + 1 / 200 - e⌋
    have h1 : ((100 * n : ℤ) : ℚ) - 1 / 2 ≤ w := by push_cast; linarith
    have h2 := le_rint (by omega) h1
    have h3 : ((100 * n : ℤ) : ℚ) ≤ rint w := by exact_mod_cast h2
    push_cast at h3
    linarith
  · rw [Int.le_floor]
    by_contra hc
    rw [not_le] at hc
    have hk := Int.floor_le ((rint w : ℚ) / 100)
    set n := ⌊(rint w : ℚ) / 100⌋
    have h1 : w < ((100 * n : ℤ) : ℚ) - 1 / 2 := by push_cast; linarith
    have h2 := rint_lt h1
    have h3 : (rint w : ℚ) < ((100 * n : ℤ) : ℚ) := by exact_mod_cast h2
    push_cast at h3
    linarith

section
variable (p : ℕ)

theorem nearBits_err (a : ℚ) : |nearBits p a - a| ≤ (2 ^ (p + 1))⁻¹ * |a| := nearBits_relErr p a

/-- Dividing by 100 in rounded arithmetic does not change the integer part. -/
theorem ceil_hundredth {k : ℤ} (hk : 4 * |(k : ℚ)| < 2 ^ (p + 1)) : ⌈nearBits p ((k : ℚ) / 100)⌉ = ⌈(k : ℚ) / 100⌉ := by
  have hP : (0 : ℚ) < 2 ^ (p + 1) := by positivity
  set n := ⌈(k : ℚ) / 100⌉ with hn
  have h1 := Int.le_ceil ((k : ℚ) / 100)
  have h2 := Int.ceil_lt_add_one ((k : ℚ) / 100)
  rw [← hn] at h1 h2
  have h3 : 100 * n - 99 ≤ k := by
    have : (100 * n - 100 : ℚ) < k := by linarith
    have : 100 * n - 100 < k := by exact_mod_cast this
    omega
  have h3' : (100 * n - 99 : ℚ) ≤ k := by exact_mod_cast h3
  have hn4 : |n| < 2 ^ (p + 1) := by
    have hk1 : |(n : ℚ)| ≤ |(k : ℚ)| / 100 + 1 := by
      rw [abs_le]
      have := abs_le.1 (le_refl |(k : ℚ)|)
      constructor <;> linarith
    have hp2 : (2 : ℚ) ≤ 2 ^ (p + 1) := by
      rw [pow_succ]; have := one_le_pow₀ (n := p) (show (1 : ℚ) ≤ 2 by norm_num); linarith
    have : |(n : ℚ)| < 2 ^ (p + 1) := by linarith
    exact_mod_cast this
  have h4 : nearBits p ((k : ℚ) / 100) ≤ n := by
    have := (nearBits_oddMono (K := ℚ) p).mono h1
    rwa [nearBits_int p n hn4] at this
  rw [Int.ceil_eq_iff]
  refine ⟨?_, h4⟩
  have h5 := (abs_le.1 (nearBits_err p ((k : ℚ) / 100))).1
  have h6 : (2 ^ (p + 1))⁻¹ * |(k : ℚ) / 100| ≤ 1 / 400 := by
    rw [abs_div, inv_mul_le_iff₀ hP, show |(100 : ℚ)| = 100 by norm_num]
    linarith
  linarith

theorem floor_hundredth {k : ℤ} (hk : 1000 * (|(k : ℚ)| + 100) < 2 ^ (p + 1)) :
    ⌊nearBits p (nearBits p ((k : ℚ) / 100) + 1)⌋ = ⌊(k : ℚ) / 100⌋ + 1 := by
  have hP : (0 : ℚ) < 2 ^ (p + 1) := by positivity
  set n := ⌊(k : ℚ) / 100⌋ with hn
  have h1 := Int.floor_le ((k : ℚ) / 100)
  have h2 := Int.lt_floor_add_one ((k : ℚ) / 100)
  rw [← hn] at h1 h2
  have h3 : k ≤ 100 * n + 99 := by
    have : (k : ℚ) < 100 * n + 100 := by linarith
    have : k < 100 * n + 100 := by exact_mod_cast this
    omega
  have h3' : (k : ℚ) ≤ 100 * n + 99 := by exact_mod_cast h3
  have hk0 := abs_nonneg (k : ℚ)
  have habs := abs_le.1 (le_refl |(k : ℚ)|)
  have hn4 : |(n : ℚ)| + 1 < 2 ^ (p + 1) := by
    have hk1 : |(n : ℚ)| ≤ |(k : ℚ)| / 100 + 1 := by
      rw [abs_le]
      constructor <;> linarith
    linarith
  have hn5 : |n| < 2 ^ (p + 1) := by
    have : |(n : ℚ)| < 2 ^ (p + 1) := by linarith
    exact_mod_cast this
  have hn6 : |n + 1| < 2 ^ (p + 1) := by
    have := abs_add_le (n : ℚ) 1
    rw [abs_one] at this
    have : |(n : ℚ) + 1| < 2 ^ (p + 1) := by linarith
    exact_mod_cast this
  have mono := (nearBits_oddMono (K := ℚ) p).mono
  have h4 : (n : ℚ) ≤ nearBits p ((k : ℚ) / 100) := by
    have := mono h1
    rwa [nearBits_int p n hn5] at this
  have h5 : ((n + 1 : ℤ) : ℚ) ≤ nearBits p (nearBits p ((k : ℚ) / 100) + 1) := by
    have := mono (show ((n + 1 : ℤ) : ℚ) ≤ nearBits p ((k : ℚ) / 100) + 1 by push_cast; linarith)
    rwa [nearBits_int p (n + 1) hn6] at this
  rw [Int.floor_eq_iff]
  refine ⟨by exact_mod_cast h5, ?_⟩
  have e1 := abs_le.1 (nearBits_err p ((k : ℚ) / 100))
  have e2 := abs_le.1 (nearBits_err p (nearBits p ((k : ℚ) / 100) + 1))
  have b1 : (2 ^ (p + 1))⁻¹ * |(k : ℚ) / 100| ≤ 1 / 1000 := by
    rw [abs_div, inv_mul_le_iff₀ hP, show |(100 : ℚ)| = 100 by norm_num]
    linarith
  have b2 : (2 ^ (p + 1))⁻¹ * |nearBits p ((k : ℚ) / 100) + 1| ≤ 1 / 1000 := by
    rw [inv_mul_le_iff₀ hP]
    have : |nearBits p ((k : ℚ) / 100) + 1| ≤ |(k : ℚ)| + 100 := by
      rw [abs_le]
      constructor <;> linarith
    linarith
  push_cast
  linarith [e1.2, e2.2]

/-! ## The lines -/

/-- A multiplication of non-negative numbers that carry `N` and no errors. -/
theorem near_scaled {N : ℕ} {a' a c : ℚ} (ha : 0 ≤ a) (hc : 0 ≤ c) (h : NearRel (2 ^ (p + 1))⁻¹ N a' a) :
    NearRel (2 ^ (p + 1))⁻¹ (N + 1) (nearBits p (a' * c)) (a * c) := by
  have hu1 : ((2 : ℚ) ^ (p + 1))⁻¹ ≤ 1 := inv_le_one_of_one_le₀ (one_le_pow₀ (by norm_num))
  refine NearRel.rnd (nearBits_relErr p) (by positivity) hu1 (mul_nonneg ha hc) ⟨?_, ?_⟩
  · calc _ = (1 - (2 ^ (p + 1))⁻¹) ^ N * a * c := by ring
      _ ≤ _ := mul_le_mul_of_nonneg_right h.1 hc
  · calc _ ≤ (1 + (2 ^ (p + 1))⁻¹) ^ N * a * c := mul_le_mul_of_nonneg_right h.2 hc
      _ = _ := by ring

/-- Up to four relative errors, as an absolute error. -/
theorem near_abs {N : ℕ} (hN : N ≤ 4) {u w' w T : ℚ} (hu : 0 ≤ u) (hu4 : u ≤ 1 / 100) (hw : 0 ≤ w) (hT : w ≤ T) (h : NearRel u N w' w) :
    |w' - w| ≤ 5 * u * T := by
  have h4 := h.mono hu (by linarith) hw hN
  have a1 : 1 - 5 * u ≤ (1 - u) ^ 4 := by nlinarith [sq_nonneg u, sq_nonneg (u ^ 2), mul_nonneg hu hu, mul_nonneg hu (mul_nonneg hu hu)]
  have a2 : (1 + u) ^ 4 ≤ 1 + 5 * u := by
    have : (1 + u) ^ 4 = 1 + 4 * u + u * (6 * u + 4 * u ^ 2 + u ^ 3) := by ring
    have h1 : 6 * u + 4 * u ^ 2 + u ^ 3 ≤ 1 := by nlinarith [sq_nonneg u, mul_nonneg hu (sq_nonneg u)]
    nlinarith
  have b1 := h4.1
  have b2 := h4.2
  have : u * w ≤ u * T := mul_le_mul_of_nonneg_left hT hu
  rw [abs_le]
  constructor <;> nlinarith

/-- The line through the last corner. -/
theorem lastLine_error {N : ℕ} (hN : N ≤ 3) {n m j : ℕ} (hn : 0 < n) (hj : j < m) {a' a T : ℚ} (ha : 0 ≤ a) (hT : (n : ℚ) ≤ T) (haT : a * m ≤ T)
    (hp : ((2 : ℚ) ^ (p + 1))⁻¹ ≤ 1 / 100) (h : NearRel (2 ^ (p + 1))⁻¹ N a' a) :
    |rLastLine (nearBits p) n m a' j - ((n : ℚ) - 1 - a * ((m : ℚ) - 1) + a * j)| ≤ 14 * (2 ^ (p + 1))⁻¹ * T ∧
      |(n : ℚ) - 1 - a * ((m : ℚ) - 1) + a * j| ≤ T := by
  have hm1 : (1 : ℚ) ≤ m := by exact_mod_cast (by omega : 1 ≤ m)
  have hn1 : (1 : ℚ) ≤ n := by exact_mod_cast hn
  have hj1 : (j : ℚ) + 1 ≤ m := by exact_mod_cast hj
  have hj0 : (0 : ℚ) ≤ j := Nat.cast_nonneg _
  have hu : (0 : ℚ) ≤ (2 ^ (p + 1))⁻¹ := by positivity
  have err := nearBits_err p
  unfold rLastLine
  have t1 : a * ((m : ℚ) - 1) ≤ T := le_trans (mul_le_mul_of_nonneg_left (by linarith) ha) haT
  have t2 : a * (j : ℚ) ≤ a * ((m : ℚ) - 1) := mul_le_mul_of_nonneg_left (by linarith) ha
  have z1 : 0 ≤ a * ((m : ℚ) - 1) := mul_nonneg ha (by linarith)
  have z2 : 0 ≤ a * (j : ℚ) := mul_nonneg ha hj0
  have e1 := near_abs (N := N + 1) (by omega) hu hp z1 t1 (near_scaled p ha (by linarith : (0 : ℚ) ≤ (m : ℚ) - 1) h)
  have e2 := near_abs (N := N + 1) (by omega) hu hp z2 (t2.trans t1) (near_scaled p ha hj0 h)
  generalize nearBits p (a' * ((m : ℚ) - 1)) = m1 at *
  generalize nearBits p (a' * (j : ℚ)) = m2 at *
  generalize a * ((m : ℚ) - 1) = x1 at *
  generalize a * (j : ℚ) = x2 at *
  generalize ((2 : ℚ) ^ (p + 1))⁻¹ = u at *
  have hT0 : 0 ≤ T := by linarith
  have uT : 0 ≤ u * T := mul_nonneg hu hT0
  have uT' : u * T ≤ T / 100 := by nlinarith
  have e3 := err ((n : ℚ) - 1 - m1)
  rw [abs_le] at e1 e2
  have b3 : |(n : ℚ) - 1 - m1| ≤ 2 * T := by
    rw [abs_le]
    constructor <;> linarith [e1.1, e1.2]
  have e3' := abs_le.1 (e3.trans (mul_le_mul_of_nonneg_left b3 hu))
  generalize nearBits p ((n : ℚ) - 1 - m1) = d at *
  have e4 := err (d + m2)
  have bb : |(n : ℚ) - 1 - x1 + x2| ≤ T := by
    rw [abs_le]
    constructor <;> linarith
  have b4 : |d + m2| ≤ 2 * T := by
    rw [abs_le] at bb ⊢
    constructor <;> linarith [e1.1, e1.2, e2.1, e2.2, e3'.1, e3'.2, bb.1, bb.2]
  have e4' := abs_le.1 (e4.trans (mul_le_mul_of_nonneg_left b4 hu))
  refine ⟨?_, bb⟩
  rw [abs_le]
  constructor <;> linarith [e1.1, e1.2, e2.1, e2.2, e3'.1, e3'.2, e4'.1, e4'.2]

/-- A number off by at most `14 u T`, times 100. -/
theorem hundred_error {x' x T : ℚ} (hp : ((2 : ℚ) ^ (p + 1))⁻¹ ≤ 1 / 100) (h : |x' - x| ≤ 14 * (2 ^ (p + 1))⁻¹ * T) (hx : |x| ≤ T) :
    |nearBits p (x' * 100) - 100 * x| ≤ 100 * (16 * (2 ^ (p + 1))⁻¹ * T) := by
  have hu : (0 : ℚ) ≤ (2 ^ (p + 1))⁻¹ := by positivity
  have hT0 : 0 ≤ T := (abs_nonneg _).trans hx
  have e := nearBits_err p (x' * 100)
  generalize ((2 : ℚ) ^ (p + 1))⁻¹ = u at *
  have uT' : u * T ≤ T / 100 := by nlinarith
  have b : |x' * 100| ≤ 200 * T := by
    rw [abs_le] at *
    constructor <;> linarith [h.1, h.2, hx.1, hx.2]
  have e' := abs_le.1 (e.trans (mul_le_mul_of_nonneg_left b hu))
  rw [abs_le] at h ⊢
  constructor <;> linarith [h.1, h.2, e'.1, e'.2]

/-- The size of the numbers that occur in the computation of the band. -/
def bandScale (n : ℕ) (s : ℚ) : ℚ := (1 + s + 1 / s) * n

/-- The rounding error of the band: `16 u` times that size. -/
def bandError (p n : ℕ) (s : ℚ) : ℚ := 16 * (2 ^ (p + 1))⁻¹ * bandScale n s

theorem minSlope_near {n m : ℕ} {s : ℚ} (hs : 0 < s) :
    NearRel (2 ^ (p + 1))⁻¹ 3 (rMinSlope (nearBits p) n m s) (1 / s * ((n : ℚ) / m)) := by
  have hu1 : ((2 : ℚ) ^ (p + 1))⁻¹ ≤ 1 := inv_le_one_of_one_le₀ (one_le_pow₀ (by norm_num))
  have hu : (0 : ℚ) ≤ (2 ^ (p + 1))⁻¹ := by positivity
  have hs0 : 0 ≤ 1 / s := by positivity
  have hr : (0 : ℚ) ≤ (n : ℚ) / m := by positivity
  have h1 : NearRel (2 ^ (p + 1))⁻¹ 1 (nearBits p (1 / s)) (1 / s) := NearRel.rnd (nearBits_relErr p) hu hu1 hs0 (NearRel.refl _ _)
  have h2 : NearRel (2 ^ (p + 1))⁻¹ 1 (nearBits p ((n : ℚ) / m)) ((n : ℚ) / m) := NearRel.rnd (nearBits_relErr p) hu hu1 hr (NearRel.refl _ _)
  refine NearRel.rnd (nearBits_relErr p) hu hu1 (mul_nonneg hs0 hr) (N := 2) ?_
  have p1 := h1.nonneg hu1 hs0
  have p2 := h2.nonneg hu1 hr
  have q : (0 : ℚ) ≤ 1 - (2 ^ (p + 1))⁻¹ := by linarith
  constructor
  · calc _ = ((1 - (2 ^ (p + 1))⁻¹) ^ 1 * (1 / s)) * ((1 - (2 ^ (p + 1))⁻¹) ^ 1 * ((n : ℚ) / m)) := by ring
      _ ≤ _ := mul_le_mul h1.1 h2.1 (by positivity) p1
  · calc _ ≤ ((1 + (2 ^ (p + 1))⁻¹) ^ 1 * (1 / s)) * ((1 + (2 ^ (p + 1))⁻¹) ^ 1 * ((n : ℚ) / m)) := mul_le_mul h1.2 h2.2 p2 (by positivity)
      _ = _ := by ring

theorem maxSlope_near {n m : ℕ} {s : ℚ} (hs : 0 < s) :
    NearRel (2 ^ (p + 1))⁻¹ 2 (rMaxSlope (nearBits p) n m s) (s * ((n : ℚ) / m)) := by
  have hu1 : ((2 : ℚ) ^ (p + 1))⁻¹ ≤ 1 := inv_le_one_of_one_le₀ (one_le_pow₀ (by norm_num))
  have hu : (0 : ℚ) ≤ (2 ^ (p + 1))⁻¹ := by positivity
  have hr : (0 : ℚ) ≤ (n : ℚ) / m := by positivity
  have h2 : NearRel (2 ^ (p + 1))⁻¹ 1 (nearBits p ((n : ℚ) / m)) ((n : ℚ) / m) := NearRel.rnd (nearBits_relErr p) hu hu1 hr (NearRel.refl _ _)
  have := near_scaled p hr hs.le h2
  rw [mul_comm (nearBits p ((n : ℚ) / m)), mul_comm ((n : ℚ) / m)] at this
  exact this

/-- The four lines, times 100, and their computed values. -/
theorem band_lines {n m j : ℕ} (hn : 0 < n) (hj : j < m) {s : ℚ} (hs : 0 < s) (hp : ((2 : ℚ) ^ (p + 1))⁻¹ ≤ 1 / 100) :
    (|nearBits p (nearBits p (rMinSlope (nearBits p) n m s * j) * 100) - 100 * (1 / s * (n / m) * j)| ≤ 100 * bandError p n s ∧
      |1 / s * (n / m) * (j : ℚ)| ≤ bandScale n s) ∧
    (|nearBits p (rLastLine (nearBits p) n m (rMaxSlope (nearBits p) n m s) j * 100) -
      100 * ((n : ℚ) - 1 - s * (n / m) * ((m : ℚ) - 1) + s * (n / m) * j)| ≤ 100 * bandError p n s ∧
      |(n : ℚ) - 1 - s * (n / m) * ((m : ℚ) - 1) + s * (n / m) * j| ≤ bandScale n s) ∧
    (|nearBits p (nearBits p (rMaxSlope (nearBits p) n m s * j) * 100) - 100 * (s * (n / m) * j)| ≤ 100 * bandError p n s ∧
      |s * (n / m) * (j : ℚ)| ≤ bandScale n s) ∧
    (|nearBits p (rLastLine (nearBits p) n m (rMinSlope (nearBits p) n m s) j * 100) -
      100 * ((n : ℚ) - 1 - 1 / s * (n / m) * ((m : ℚ) - 1) + 1 / s * (n / m) * j)| ≤ 100 * bandError p n s ∧
      |(n : ℚ) - 1 - 1 / s * (n / m) * ((m : ℚ) - 1) + 1 / s * (n / m) * j| ≤ bandScale n s) := by
  have hm0 : (0 : ℚ) < m := by exact_mod_cast (by omega : 0 < m)
  have hn0 : (0 : ℚ) < n := by exact_mod_cast hn
  have hj0 : (0 : ℚ) ≤ j := Nat.cast_nonneg _
  have hjm : (j : ℚ) ≤ m := by exact_mod_cast hj.le
  have hs1 : 0 < 1 / s := by positivity
  have hu : (0 : ℚ) ≤ (2 ^ (p + 1))⁻¹ := by positivity
  have hT1 : (n : ℚ) ≤ bandScale n s := by unfold bandScale; nlinarith
  have hT2 : s * (n / m) * (m : ℚ) ≤ bandScale n s := by
    have : s * (n / m) * (m : ℚ) = s * n := by field_simp
    rw [this]; unfold bandScale; nlinarith [mul_pos hs1 hn0]
  have hT3 : 1 / s * (n / m) * (m : ℚ) ≤ bandScale n s := by
    have : 1 / s * (n / m) * (m : ℚ) = 1 / s * n := by field_simp
    rw [this]; unfold bandScale; nlinarith [mul_pos hs hn0]
  have a0 : 0 ≤ s * ((n : ℚ) / m) := by positivity
  have b0 : 0 ≤ 1 / s * ((n : ℚ) / m) := by positivity
  have e5 : 5 * ((2 : ℚ) ^ (p + 1))⁻¹ * bandScale n s ≤ 14 * (2 ^ (p + 1))⁻¹ * bandScale n s := by
    have : 0 ≤ ((2 : ℚ) ^ (p + 1))⁻¹ * bandScale n s := mul_nonneg hu (hn0.le.trans hT1)
    linarith
  have first : ∀ (N : ℕ) (a' a : ℚ), N ≤ 3 → 0 ≤ a → a * m ≤ bandScale n s → NearRel (2 ^ (p + 1))⁻¹ N a' a →
      |nearBits p (nearBits p (a' * j) * 100) - 100 * (a * j)| ≤ 100 * bandError p n s ∧ |a * (j : ℚ)| ≤ bandScale n s := by
    intro N a' a hN ha haT h
    have z : 0 ≤ a * (j : ℚ) := mul_nonneg ha hj0
    have t : a * (j : ℚ) ≤ bandScale n s := (mul_le_mul_of_nonneg_left hjm ha).trans haT
    have t' : |a * (j : ℚ)| ≤ bandScale n s := by rwa [abs_of_nonneg z]
    exact ⟨hundred_error p hp ((near_abs (N := N + 1) (by omega) hu hp z t (near_scaled p ha hj0 h)).trans e5) t', t'⟩
  have last : ∀ (N : ℕ) (a' a : ℚ), N ≤ 3 → 0 ≤ a → a * m ≤ bandScale n s → NearRel (2 ^ (p + 1))⁻¹ N a' a →
      |nearBits p (rLastLine (nearBits p) n m a' j * 100) - 100 * ((n : ℚ) - 1 - a * ((m : ℚ) - 1) + a * j)| ≤ 100 * bandError p n s ∧
        |(n : ℚ) - 1 - a * ((m : ℚ) - 1) + a * j| ≤ bandScale n s := by
    intro N a' a hN ha haT h
    obtain ⟨h1, h2⟩ := lastLine_error p hN hn hj ha hT1 haT hp h
    exact ⟨hundred_error p hp h1 h2, h2⟩
  exact ⟨first 3 _ _ le_rfl b0 hT3 (minSlope_near p hs), last 2 _ _ (by norm_num) a0 hT2 (maxSlope_near p hs),
    first 2 _ _ (by norm_num) a0 hT2 (maxSlope_near p hs), last 3 _ _ le_rfl b0 hT3 (minSlope_near p hs)⟩

/-- The precision suffices for the sizes: `2¹⁸ (1 + s + 1/s) n` is an integer of the format. -/
def BandFits (p n : ℕ) (s : ℚ) : Prop := 2 ^ 18 * bandScale n s ≤ 2 ^ (p + 1)

theorem bandScale_ge {n : ℕ} (hn : 0 < n) {s : ℚ} (hs : 0 < s) : 1 ≤ bandScale n s := by
  have hn0 : (1 : ℚ) ≤ n := by exact_mod_cast hn
  have hs1 : 0 < 1 / s := by positivity
  unfold bandScale
  nlinarith

theorem BandFits.small {n : ℕ} (hn : 0 < n) {s : ℚ} (hs : 0 < s) (h : BandFits p n s) :
    ((2 : ℚ) ^ (p + 1))⁻¹ ≤ 1 / 100 ∧ bandError p n s ≤ 1 / 2 ^ 14 ∧ 0 ≤ bandError p n s := by
  have h1 := bandScale_ge hn hs
  have hP : (0 : ℚ) < 2 ^ (p + 1) := by positivity
  unfold BandFits at h
  refine ⟨?_, ?_, ?_⟩
  · rw [inv_le_comm₀ hP (by norm_num)]
    linarith
  · unfold bandError
    rw [mul_comm (16 : ℚ), mul_assoc, inv_mul_le_iff₀ hP]
    linarith
  · unfold bandError
    positivity

theorem rint_small {n : ℕ} (hn : 0 < n) {s : ℚ} (hs : 0 < s) (h : BandFits p n s) {w x : ℚ} (hw : |w - 100 * x| ≤ 100 * bandError p n s)
    (hx : |x| ≤ bandScale n s) : 4 * |(rint w : ℚ)| < 2 ^ (p + 1) ∧ 1000 * (|(rint w : ℚ)| + 100) < 2 ^ (p + 1) := by
  have h1 := bandScale_ge hn hs
  obtain ⟨-, h2, h3⟩ := h.small p hn hs
  have b := rint_bounds w
  unfold BandFits at h
  have : |(rint w : ℚ)| ≤ 100 * bandScale n s + 2 := by
    rw [abs_le] at *
    constructor <;> linarith [hw.1, hw.2, hx.1, hx.2, b.1, b.2]
  constructor <;> linarith

/-- Rounding to two decimals and up. -/
theorem ceil_rRound2 {n : ℕ} (hn : 0 < n) {s : ℚ} (hs : 0 < s) (h : BandFits p n s) {x' x : ℚ}
    (hw : |nearBits p (x' * 100) - 100 * x| ≤ 100 * bandError p n s) (hx : |x| ≤ bandScale n s) :
    ⌈x - 1 / 200 - bandError p n s⌉ ≤ ⌈rRound2 (nearBits p) x'⌉ ∧ ⌈rRound2 (nearBits p) x'⌉ ≤ ⌈x - 1 / 200 + bandError p n s⌉ := by
  unfold rRound2
  rw [ceil_hundredth p (rint_small p hn hs h hw hx).1]
  exact ceil_rint hw

/-- And down. -/
theorem floor_rRound2 {n : ℕ} (hn : 0 < n) {s : ℚ} (hs : 0 < s) (h : BandFits p n s) {x' x : ℚ}
    (hw : |nearBits p (x' * 100) - 100 * x| ≤ 100 * bandError p n s) (hx : |x| ≤ bandScale n s) :
    ⌊x + 1 / 200 - bandError p n s⌋ + 1 ≤ ⌊nearBits p (rRound2 (nearBits p) x' + 1)⌋ ∧
      ⌊nearBits p (rRound2 (nearBits p) x' + 1)⌋ ≤ ⌊x + 1 / 200 + bandError p n s⌋ + 1 := by
  unfold rRound2
  rw [floor_hundredth p (rint_small p hn hs h hw hx).2]
  have := floor_rint hw
  constructor <;> linarith [this.1, this.2]

theorem rLower_eq (n m : ℕ) (s : ℚ) (j : ℕ) : rItakuraLower (nearBits p) n m s j =
    max ⌈rRound2 (nearBits p) (nearBits p (rMinSlope (nearBits p) n m s * j))⌉
      ⌈rRound2 (nearBits p) (rLastLine (nearBits p) n m (rMaxSlope (nearBits p) n m s) j)⌉ :=
  Int.ceil_mono.map_max

theorem rUpper_eq (n m : ℕ) (s : ℚ) (j : ℕ) : rItakuraUpper (nearBits p) n m s j =
    min ⌊nearBits p (rRound2 (nearBits p) (nearBits p (rMaxSlope (nearBits p) n m s * j)) + 1)⌋
      ⌊nearBits p (rRound2 (nearBits p) (rLastLine (nearBits p) n m (rMinSlope (nearBits p) n m s) j) + 1)⌋ := by
  have hm : Monotone fun x : ℚ => ⌊nearBits p (x + 1)⌋ := fun a b h =>
    Int.floor_mono ((nearBits_oddMono (K := ℚ) p).mono (by linarith))
  exact hm.map_min

/-- The bounds in exact arithmetic: the lines, with a tolerance of half a hundredth. -/
theorem itakuraLower_eq (n m : ℕ) (s : ℚ) (j : ℕ) : itakuraLower n m s j =
    max ⌈1 / s * (n / m) * (j : ℚ) - 1 / 200⌉ ⌈(n : ℚ) - 1 - s * (n / m) * ((m : ℚ) - 1) + s * (n / m) * j - 1 / 200⌉ := by
  have key : ∀ x : ℚ, ⌈round2 x⌉ = ⌈x - 1 / 200⌉ := by
    intro x
    have := ceil_rint (x := x) (w := x * 100) (e := 0) (by rw [mul_comm]; simp)
    rw [sub_zero, add_zero] at this
    exact le_antisymm this.2 this.1
  unfold itakuraLower
  rw [Int.ceil_mono.map_max, key, key]

theorem itakuraUpper_eq (n m : ℕ) (s : ℚ) (j : ℕ) : itakuraUpper n m s j =
    min (⌊s * (n / m) * (j : ℚ) + 1 / 200⌋ + 1) (⌊(n : ℚ) - 1 - 1 / s * (n / m) * ((m : ℚ) - 1) + 1 / s * (n / m) * j + 1 / 200⌋ + 1) := by
  have key : ∀ x : ℚ, ⌊round2 x + 1⌋ = ⌊x + 1 / 200⌋ + 1 := by
    intro x
    have := floor_rint (x := x) (w := x * 100) (e := 0) (by rw [mul_comm]; simp)
    rw [sub_zero, add_zero] at this
    rw [Int.floor_add_one]
    rw [add_left_inj]
    exact le_antisymm this.2 this.1
  have hm : Monotone fun x : ℚ => ⌊x + 1⌋ := fun a b h => Int.floor_mono (by linarith)
  unfold itakuraUpper
  have := hm.map_min (a := round2 (s * (n / m) * (j : ℚ))) (b := round2 ((n : ℚ) - 1 - 1 / s * (n / m) * ((m : ℚ) - 1) + 1 / s * (n / m) * j))
  refine this.trans ?_
  rw [key, key]

/-- The computed bounds, between those of the lines moved by the rounding error. -/
theorem band_bounds {n m j : ℕ} (hn : 0 < n) (hj : j < m) {s : ℚ} (hs : 0 < s) (h : BandFits p n s) :
    (max ⌈1 / s * (n / m) * (j : ℚ) - 1 / 200 - bandError p n s⌉
        ⌈(n : ℚ) - 1 - s * (n / m) * ((m : ℚ) - 1) + s * (n / m) * j - 1 / 200 - bandError p n s⌉ ≤ rItakuraLower (nearBits p) n m s j ∧
      rItakuraLower (nearBits p) n m s j ≤ max ⌈1 / s * (n / m) * (j : ℚ) - 1 / 200 + bandError p n s⌉
        ⌈(n : ℚ) - 1 - s * (n / m) * ((m : ℚ) - 1) + s * (n / m) * j - 1 / 200 + bandError p n s⌉) ∧
    (min (⌊s * (n / m) * (j : ℚ) + 1 / 200 - bandError p n s⌋ + 1)
        (⌊(n : ℚ) - 1 - 1 / s * (n / m) * ((m : ℚ) - 1) + 1 / s * (n / m) * j + 1 / 200 - bandError p n s⌋ + 1) ≤ rItakuraUpper (nearBits p) n m s j ∧
      rItakuraUpper (nearBits p) n m s j ≤ min (⌊s * (n / m) * (j : ℚ) + 1 / 200 + bandError p n s⌋ + 1)
        (⌊(n : ℚ) - 1 - 1 / s * (n / m) * ((m : ℚ) - 1) + 1 / s * (n / m) * j + 1 / 200 + bandError p n s⌋ + 1)) := by
  obtain ⟨l1, l2, l3, l4⟩ := band_lines p hn hj hs (h.small p hn hs).1
  rw [rLower_eq, rUpper_eq]
  have c1 := ceil_rRound2 p hn hs h l1.1 l1.2
  have c2 := ceil_rRound2 p hn hs h l2.1 l2.2
  have c3 := floor_rRound2 p hn hs h l3.1 l3.2
  have c4 := floor_rRound2 p hn hs h l4.1 l4.2
  exact ⟨⟨max_le_max c1.1 c2.1, max_le_max c1.2 c2.2⟩, ⟨min_le_min c3.1 c4.1, min_le_min c3.2 c4.2⟩⟩

theorem rLower_nonneg (n m : ℕ) {s : ℚ} (hs : 0 < s) (j : ℕ) : 0 ≤ rItakuraLower (nearBits p) n m s j := by
  have om := nearBits_oddMono (K := ℚ) p
  have z : ∀ a : ℚ, 0 ≤ a → 0 ≤ nearBits p a := fun a ha => by
    have := om.mono ha
    rwa [nearBits_zero] at this
  unfold rItakuraLower
  apply Int.ceil_nonneg
  apply le_max_of_le_left
  unfold rRound2
  apply z
  have h1 : 0 ≤ nearBits p (nearBits p (rMinSlope (nearBits p) n m s * j) * 100) := by
    refine z _ (mul_nonneg (z _ (mul_nonneg (z _ (mul_nonneg (z _ (by positivity)) (z _ (by positivity)))) (Nat.cast_nonneg _))) (by norm_num))
  have h2 : (0 : ℤ) ≤ rint (nearBits p (nearBits p (rMinSlope (nearBits p) n m s * j) * 100)) := by
    have := rint_mono h1
    rwa [show rint 0 = 0 by decide +kernel] at this
  have h3 : (0 : ℚ) ≤ (rint (nearBits p (nearBits p (rMinSlope (nearBits p) n m s * j) * 100)) : ℚ) := by exact_mod_cast h2
  positivity

theorem rBand_mono (n m : ℕ) {s : ℚ} (hs : 0 < s) :
    Monotone (rItakuraLower (nearBits p) n m s) ∧ Monotone (rItakuraUpper (nearBits p) n m s) := by
  have om := (nearBits_oddMono (K := ℚ) p).mono
  have z : ∀ a : ℚ, 0 ≤ a → 0 ≤ nearBits p a := fun a ha => by
    have := om ha
    rwa [nearBits_zero] at this
  have r2 : Monotone (rRound2 (nearBits p)) := by
    intro a b h
    unfold rRound2
    apply om
    have : (rint (nearBits p (a * 100)) : ℚ) ≤ rint (nearBits p (b * 100)) := by
      exact_mod_cast rint_mono (om (by linarith))
    linarith
  have p1 : 0 ≤ rMinSlope (nearBits p) n m s := z _ (mul_nonneg (z _ (by positivity)) (z _ (by positivity)))
  have p2 : 0 ≤ rMaxSlope (nearBits p) n m s := z _ (mul_nonneg hs.le (z _ (by positivity)))
  have f : ∀ a : ℚ, 0 ≤ a → Monotone fun j : ℕ => rRound2 (nearBits p) (nearBits p (a * j)) := fun a ha i j h =>
    r2 (om (mul_le_mul_of_nonneg_left (by exact_mod_cast h) ha))
  have g : ∀ a : ℚ, 0 ≤ a → Monotone fun j : ℕ => rRound2 (nearBits p) (rLastLine (nearBits p) n m a j) := fun a ha i j h =>
    r2 (om (add_le_add le_rfl (om (mul_le_mul_of_nonneg_left (by exact_mod_cast h) ha))))
  constructor
  · intro i j h
    exact Int.ceil_mono (max_le_max (f _ p1 h) (g _ p2 h))
  · intro i j h
    exact Int.floor_mono (om (add_le_add (min_le_min (f _ p2 h) (g _ p1 h)) le_rfl))

theorem rUpper_nonneg {n m : ℕ} (hn : 0 < n) (hm : 0 < m) {s : ℚ} (hs : 1 ≤ s) (h : BandFits p n s) (j : ℕ) :
    0 ≤ rItakuraUpper (nearBits p) n m s j := by
  have hs0 : 0 < s := by linarith
  refine le_trans ?_ ((rBand_mono p n m hs0).2 (Nat.zero_le j))
  obtain ⟨-, h2, h3⟩ := h.small p hn hs0
  refine le_trans ?_ (band_bounds p hn hm hs0 h).2.1
  have hm' : (0 : ℚ) < m := by exact_mod_cast hm
  have hm1 : (1 : ℚ) ≤ m := by exact_mod_cast hm
  have hn' : (0 : ℚ) < n := by exact_mod_cast hn
  have h14 : (1 : ℚ) / 2 ^ 14 ≤ 1 / 200 := by norm_num
  apply le_min
  · have : (0 : ℤ) ≤ ⌊s * (n / m) * ((0 : ℕ) : ℚ) + 1 / 200 - bandError p n s⌋ := by
      rw [Int.floor_nonneg]; push_cast; linarith
    omega
  · have : (-1 : ℤ) ≤ ⌊(n : ℚ) - 1 - 1 / s * (n / m) * ((m : ℚ) - 1) + 1 / s * (n / m) * ((0 : ℕ) : ℚ) + 1 / 200 - bandError p n s⌋ := by
      rw [Int.le_floor]
      push_cast
      have e : 1 / s * ((n : ℚ) / m) * (m - 1) ≤ n := by
        have h3 : 1 / s ≤ 1 := by rw [div_le_one hs0]; exact hs
        have e1 : (n : ℚ) / m * (m - 1) ≤ n := by
          rw [div_mul_eq_mul_div, div_le_iff₀ hm']; nlinarith
        have e0 : 0 ≤ (n : ℚ) / m * (m - 1) := mul_nonneg (by positivity) (by linarith)
        rw [mul_assoc]
        nlinarith [show 0 < 1 / s by positivity]
      linarith
    omega

theorem rMask_iff {n m : ℕ} {s : ℚ} (hn : 0 < n) (hm : 0 < m) (hs : 1 ≤ s) (hf : BandFits p n s) {mask : Mat Bool}
    (h : rItakuraMask (nearBits p) n m s = .ok mask) (i j : ℕ) (hi : i < n) (hj : j < m) :
    mask i j = true ↔ rItakuraLower (nearBits p) n m s j ≤ i ∧ (i : ℤ) < rItakuraUpper (nearBits p) n m s j := by
  have hs0 : 0 < s := by linarith
  unfold rItakuraMask itakuraFill at h
  simp only [hs0.ne', if_false] at h
  split_ifs at h
  simp only [Except.ok.injEq] at h
  subst h
  exact itakuraFill_mask _ _ _ _ (rLower_nonneg p n m hs0) (rUpper_nonneg p hn hm hs hf) i j hi hj

/-- The computed band contains the exact parallelogram, and is contained in the one widened by half a hundredth and the rounding error. -/
theorem C113_parallelogram {n m : ℕ} {s : ℚ} (hn : 0 < n) (hm : 0 < m) (hs : 1 ≤ s) (hf : BandFits p n s)
    {mask : Mat Bool} (h : rItakuraMask (nearBits p) n m s = .ok mask) (i j : ℕ) (hi : i < n) (hj : j < m) :
    (InParallelogram n m s 0 i j → mask i j = true) ∧
    (mask i j = true → InParallelogram n m s (1 / 200 + bandError p n s) i j) := by
  have hs0 : 0 < s := by linarith
  rw [rMask_iff p hn hm hs hf h i j hi hj]
  obtain ⟨-, h2, h3⟩ := hf.small p hn hs0
  have h14 : (1 : ℚ) / 2 ^ 14 ≤ 1 / 200 := by norm_num
  obtain ⟨⟨a1, a2⟩, b1, b2⟩ := band_bounds p hn hj hs0 hf
  constructor
  · rintro ⟨h1, h2, h3, h4⟩
    constructor
    · refine a2.trans (max_le ?_ ?_) <;> rw [Int.ceil_le] <;> push_cast <;> linarith
    · refine lt_of_lt_of_le ?_ b1
      rw [lt_min_iff]
      constructor <;> rw [Int.lt_add_one_iff, Int.le_floor] <;> push_cast <;> linarith
  · rintro ⟨h1, h2⟩
    have c1 := max_le_iff.1 (a1.trans h1)
    have c2 := lt_min_iff.1 (lt_of_lt_of_le h2 b2)
    rw [Int.ceil_le, Int.ceil_le] at c1
    rw [Int.lt_add_one_iff, Int.lt_add_one_iff, Int.le_floor, Int.le_floor] at c2
    push_cast at c1 c2
    refine ⟨?_, ?_, ?_, ?_⟩ <;> linarith [c1.1, c1.2, c2.1, c2.2]

/-- Each computed bound is within one of the exact one. -/
theorem C113_bounds {n m j : ℕ} (hn : 0 < n) (hj : j < m) {s : ℚ} (hs : 0 < s) (h : BandFits p n s) :
    |rItakuraLower (nearBits p) n m s j - itakuraLower n m s j| ≤ 1 ∧ |rItakuraUpper (nearBits p) n m s j - itakuraUpper n m s j| ≤ 1 := by
  obtain ⟨-, h2, h3⟩ := h.small p hn hs
  have h14 : (1 : ℚ) / 2 ^ 14 ≤ 1 := by norm_num
  have c : ∀ x : ℚ, ⌈x⌉ ≤ ⌈x - bandError p n s⌉ + 1 ∧ ⌈x + bandError p n s⌉ ≤ ⌈x⌉ + 1 := by
    intro x
    constructor
    · rw [Int.ceil_le]; push_cast; linarith [Int.le_ceil (x - bandError p n s)]
    · rw [Int.ceil_le]; push_cast; linarith [Int.le_ceil x]
  have f : ∀ x : ℚ, ⌊x⌋ ≤ ⌊x - bandError p n s⌋ + 1 ∧ ⌊x + bandError p n s⌋ ≤ ⌊x⌋ + 1 := by
    intro x
    constructor
    · rw [← sub_le_iff_le_add, Int.le_floor]; push_cast; linarith [Int.floor_le x]
    · rw [← sub_le_iff_le_add, Int.le_floor]; push_cast; linarith [Int.floor_le (x + bandError p n s)]
  obtain ⟨⟨a1, a2⟩, b1, b2⟩ := band_bounds p hn hj hs h
  rw [itakuraLower_eq, itakuraUpper_eq]
  have c1 := c (1 / s * (n / m) * (j : ℚ) - 1 / 200)
  have c2 := c ((n : ℚ) - 1 - s * (n / m) * ((m : ℚ) - 1) + s * (n / m) * j - 1 / 200)
  have f1 := f (s * (n / m) * (j : ℚ) + 1 / 200)
  have f2 := f ((n : ℚ) - 1 - 1 / s * (n / m) * ((m : ℚ) - 1) + 1 / s * (n / m) * j + 1 / 200)
  rw [abs_le, abs_le]
  refine ⟨⟨?_, ?_⟩, ?_, ?_⟩ <;> omega

/-- The call succeeds exactly when the computed corridor contains a complete warping path; otherwise it raises the warning. -/
theorem C113_feasible {n m : ℕ} {s : ℚ} (hn : 0 < n) (hm : 0 < m) (hs : 1 ≤ s) (hf : BandFits p n s) :
    let corridor : ℕ → ℕ → Bool := fun i j =>
      decide (rItakuraLower (nearBits p) n m s j ≤ i ∧ (i : ℤ) < rItakuraUpper (nearBits p) n m s j)
    ((∃ mask, rItakuraMask (nearBits p) n m s = .ok mask) ↔ ∃ q, Admissible n m corridor q) ∧
    (rItakuraMask (nearBits p) n m s = .error .runtimeWarning ↔ ¬ ∃ q, Admissible n m corridor q) := by
  intro corridor
  have hs0 : 0 < s := by linarith
  have key : (∃ mask, rItakuraMask (nearBits p) n m s = .ok mask) ↔ ∃ q, Admissible n m corridor q := by
    constructor
    · rintro ⟨mask, h⟩
      have hiff := rMask_iff p hn hm hs hf h
      unfold rItakuraMask itakuraFill at h
      simp only [hs0.ne', if_false] at h
      split_ifs at h with hc
      simp only [Except.ok.injEq] at h
      rw [h] at hc
      simp only [Bool.and_eq_true, List.all_eq_true, List.mem_range, List.any_eq_true] at hc
      obtain ⟨q, hp, hpm⟩ := corridor_feasible n m hn hm _ _ (rBand_mono p n m hs0).1
        (rBand_mono p n m hs0).2 (rLower_nonneg p n m hs0) mask
        (fun a ha b hb => hiff a b ha hb) hc.1 hc.2
      refine ⟨q, hp, fun c hcm => ?_⟩
      have hlt := hp.mem_lt c hcm
      simpa [corridor] using (hiff _ _ hlt.1 hlt.2).1 (hpm c hcm)
    · rintro ⟨q, hp, hpm⟩
      obtain ⟨i, j, hi, hj, hw⟩ := isWarpingPath_iff.1 hp
      obtain ⟨hrow, hcol⟩ := hw.visits
      unfold rItakuraMask itakuraFill
      simp only [hs0.ne', if_false]
      have hm' := itakuraFill_mask n m _ _ (rLower_nonneg p n m hs0) (rUpper_nonneg p hn hm hs hf)
      rw [if_pos]
      · exact ⟨_, rfl⟩
      · simp only [Bool.and_eq_true, List.all_eq_true, List.mem_range, List.any_eq_true]
        constructor
        · intro a ha
          obtain ⟨b, hb⟩ := hrow a (by omega)
          have hlt := hp.mem_lt _ hb
          refine ⟨b, hlt.2, (hm' a b ha hlt.2).2 ?_⟩
          simpa [corridor] using hpm _ hb
        · intro b hb'
          obtain ⟨a, ha⟩ := hcol b (by omega)
          have hlt := hp.mem_lt _ ha
          refine ⟨a, hlt.1, (hm' a b hlt.1 hb').2 ?_⟩
          simpa [corridor] using hpm _ ha
  refine ⟨key, ?_⟩
  rw [← key]
  unfold rItakuraMask itakuraFill
  simp only [hs0.ne', if_false]
  split_ifs <;> simp

/-- Equal lengths and `max_slope ≥ 1`: the call never raises, and the diagonal is in the mask. -/
theorem C113_equal_lengths {n : ℕ} {s : ℚ} (hn : 0 < n) (hs : 1 ≤ s) (hf : BandFits p n s) :
    ∃ mask, rItakuraMask (nearBits p) n n s = .ok mask ∧ ∀ i < n, mask i i = true := by
  have hs0 : 0 < s := by linarith
  have hnq : (0 : ℚ) < n := by exact_mod_cast hn
  obtain ⟨-, e2, e3⟩ := hf.small p hn hs0
  have h14 : (1 : ℚ) / 2 ^ 14 ≤ 1 / 200 := by norm_num
  have hcor : ∀ i < n, rItakuraLower (nearBits p) n n s i ≤ i ∧ (i : ℤ) < rItakuraUpper (nearBits p) n n s i := by
    intro i hi
    have hiq : (i : ℚ) + 1 ≤ n := by exact_mod_cast hi
    have hi0 : (0 : ℚ) ≤ i := by positivity
    have e : (n : ℚ) / n = 1 := div_self hnq.ne'
    have h3 : 1 / s ≤ 1 := by rw [div_le_one hs0]; exact hs
    obtain ⟨⟨a1, a2⟩, b1, b2⟩ := band_bounds p hn hi hs0 hf
    rw [e] at a1 a2 b1 b2
    constructor
    · refine a2.trans (max_le ?_ ?_) <;> rw [Int.ceil_le] <;> push_cast <;> nlinarith
    · refine lt_of_lt_of_le ?_ b1
      rw [lt_min_iff]
      constructor <;> rw [Int.lt_add_one_iff, Int.le_floor] <;> push_cast <;> nlinarith
  have hdiag : IsWarpingPath n n ((List.range n).map fun i => (i, i)) := by
    have := diag_path (n - 1)
    rw [show n - 1 + 1 = n by omega] at this
    exact isWarpingPath_iff.2 ⟨n - 1, n - 1, by omega, by omega, this⟩
  obtain ⟨mask, hmask⟩ := (C113_feasible p hn hn hs hf).1.2 ⟨_, hdiag, by
    intro c hc
    simp only [List.mem_map, List.mem_range] at hc
    obtain ⟨i, hi, rfl⟩ := hc
    simpa using hcor i hi⟩
  exact ⟨mask, hmask, fun i hi => (rMask_iff p hn hn hs hf hmask i i hi hi).2 (hcor i hi)⟩

theorem ceil_clear {x e : ℚ} (he : 0 ≤ e) (h : ∀ k : ℤ, e < |x - k|) : ⌈x - e⌉ = ⌈x + e⌉ := by
  refine le_antisymm (Int.ceil_mono (by linarith)) ?_
  rw [Int.ceil_le]
  have h1 := h ⌈x - e⌉
  have h2 := Int.le_ceil (x - e)
  rw [lt_abs] at h1
  rcases h1 with h1 | h1 <;> linarith

theorem floor_clear {x e : ℚ} (he : 0 ≤ e) (h : ∀ k : ℤ, e < |x - k|) : ⌊x - e⌋ = ⌊x + e⌋ := by
  refine le_antisymm (Int.floor_mono (by linarith)) ?_
  rw [Int.le_floor]
  have h1 := h ⌊x + e⌋
  have h2 := Int.floor_le (x + e)
  rw [lt_abs] at h1
  rcases h1 with h1 | h1 <;> linarith

theorem itakuraFill_congr {n m : ℕ} {lo lo' up up' : ℕ → ℤ} (h1 : ∀ j < m, lo j = lo' j) (h2 : ∀ j < m, up j = up' j) :
    itakuraFill n m lo up = itakuraFill n m lo' up' := by
  have : ∀ k ≤ m, forRange k (Mat.full false) (fun i (mask : Mat Bool) =>
        fun a b => if b = i ∧ inSlice n (lo i) (up i) a = true then true else mask a b) =
      forRange k (Mat.full false) (fun i (mask : Mat Bool) =>
        fun a b => if b = i ∧ inSlice n (lo' i) (up' i) a = true then true else mask a b) := by
    intro k hk
    induction k with
    | zero => rfl
    | succ k ih => rw [forRange_succ, forRange_succ, ih (by omega), h1 k (by omega), h2 k (by omega)]
  unfold itakuraFill
  rw [this m le_rfl]

/-- When no line of the parallelogram comes within the rounding error of a deciding value (half a hundredth above a row for the lower lines, half a hundredth below one for the upper lines), the outcome is the one of exact arithmetic. -/
theorem C113_margin {n m : ℕ} (hn : 0 < n) {s : ℚ} (hs : 0 < s) (hf : BandFits p n s)
    (hl : ∀ j < m, ∀ k : ℤ, bandError p n s < |1 / s * (n / m) * (j : ℚ) - 1 / 200 - k| ∧
      bandError p n s < |(n : ℚ) - 1 - s * (n / m) * ((m : ℚ) - 1) + s * (n / m) * j - 1 / 200 - k|)
    (hu : ∀ j < m, ∀ k : ℤ, bandError p n s < |s * (n / m) * (j : ℚ) + 1 / 200 - k| ∧
      bandError p n s < |(n : ℚ) - 1 - 1 / s * (n / m) * ((m : ℚ) - 1) + 1 / s * (n / m) * j + 1 / 200 - k|) :
    rItakuraMask (nearBits p) n m s = itakuraMask n m s := by
  obtain ⟨-, -, e3⟩ := hf.small p hn hs
  have cm : ∀ {x y : ℚ}, x ≤ y → ⌈x⌉ ≤ ⌈y⌉ := fun h => Int.ceil_mono h
  have fm : ∀ {x y : ℚ}, x ≤ y → ⌊x⌋ ≤ ⌊y⌋ := fun h => Int.floor_mono h
  have c : ∀ x : ℚ, (∀ k : ℤ, bandError p n s < |x - k|) → ⌈x - bandError p n s⌉ = ⌈x⌉ ∧ ⌈x + bandError p n s⌉ = ⌈x⌉ := by
    intro x hx
    have := ceil_clear e3 hx
    have h1 : ⌈x - bandError p n s⌉ ≤ ⌈x⌉ := cm (by linarith)
    have h2 : ⌈x⌉ ≤ ⌈x + bandError p n s⌉ := cm (by linarith)
    omega
  have f : ∀ x : ℚ, (∀ k : ℤ, bandError p n s < |x - k|) → ⌊x - bandError p n s⌋ = ⌊x⌋ ∧ ⌊x + bandError p n s⌋ = ⌊x⌋ := by
    intro x hx
    have := floor_clear e3 hx
    have h1 : ⌊x - bandError p n s⌋ ≤ ⌊x⌋ := fm (by linarith)
    have h2 : ⌊x⌋ ≤ ⌊x + bandError p n s⌋ := fm (by linarith)
    omega
  unfold rItakuraMask itakuraMask
  rw [if_neg hs.ne', if_neg hs.ne']
  apply itakuraFill_congr
  · intro j hj
    obtain ⟨⟨a1, a2⟩, -⟩ := band_bounds p hn hj hs hf
    have c1 := c _ fun k => (hl j hj k).1
    have c2 := c _ fun k => (hl j hj k).2
    rw [c1.1, c2.1] at a1
    rw [c1.2, c2.2] at a2
    rw [itakuraLower_eq]
    exact le_antisymm a2 a1
  · intro j hj
    obtain ⟨-, b1, b2⟩ := band_bounds p hn hj hs hf
    have c1 := f _ fun k => (hu j hj k).1
    have c2 := f _ fun k => (hu j hj k).2
    rw [c1.1, c2.1] at b1
    rw [c1.2, c2.2] at b2
    rw [itakuraUpper_eq]
    exact le_antisymm b2 b1

/-- A fraction whose denominator is no multiple of 200 keeps away from half a hundredth beside an integer. -/
theorem fraction_clear {x e : ℚ} {d : ℕ} {c : ℤ} (hd : 0 < d) (h200 : ¬ 200 ∣ d) (hx : x * d = c) (he : e * (200 * d) < 1) (k : ℤ) :
    e < |x - 1 / 200 - k| ∧ e < |x + 1 / 200 - k| := by
  have hd' : (0 : ℚ) < 200 * d := by positivity
  have key : ∀ σ : ℤ, σ = 1 ∨ σ = -1 → e < |x + σ / 200 - k| := by
    intro σ hσ
    have h0 : 200 * c + σ * d - 200 * k * d ≠ 0 := by
      intro h
      apply h200
      have : (200 : ℤ) ∣ (d : ℤ) := by
        rcases hσ with rfl | rfl
        · exact ⟨k * d - c, by linarith⟩
        · exact ⟨c - k * d, by linarith⟩
      exact_mod_cast this
    have h1 : (1 : ℚ) ≤ |((200 * c + σ * d - 200 * k * d : ℤ) : ℚ)| := by
      exact_mod_cast Int.one_le_abs h0
    have h2 : ((200 * c + σ * d - 200 * k * d : ℤ) : ℚ) = (x + σ / 200 - k) * (200 * d) := by
      push_cast; rw [← hx]; ring
    rw [h2, abs_mul, abs_of_pos hd'] at h1
    exact lt_of_mul_lt_mul_right (lt_of_lt_of_le he h1) hd'.le
  have h1 := key 1 (Or.inl rfl)
  have h2 := key (-1) (Or.inr rfl)
  push_cast at h1 h2
  constructor
  · convert h2 using 2; ring
  · exact h1

/-- Slope `P / Q`, lengths in the ratio `a / b`: when neither `P b` nor `Q b` is a multiple of 200 and the precision tells apart multiples of `1 / (200 P b)` and `1 / (200 Q b)`, the mask is the one of exact arithmetic. -/
theorem C113_rational {n m P Q a b : ℕ} (hn : 0 < n) (hm : 0 < m) (hP : 0 < P) (hQ : 0 < Q) (hb : 0 < b) (hab : n * b = a * m)
    (hf : BandFits p n (P / Q)) (h1 : ¬ 200 ∣ P * b) (h2 : ¬ 200 ∣ Q * b)
    (e1 : bandError p n (P / Q) * (200 * (P * b)) < 1) (e2 : bandError p n (P / Q) * (200 * (Q * b)) < 1) :
    rItakuraMask (nearBits p) n m (P / Q) = itakuraMask n m (P / Q) := by
  have hP' : (P : ℚ) ≠ 0 := by exact_mod_cast hP.ne'
  have hQ' : (Q : ℚ) ≠ 0 := by exact_mod_cast hQ.ne'
  have hb' : (b : ℚ) ≠ 0 := by exact_mod_cast hb.ne'
  have hm' : (m : ℚ) ≠ 0 := by exact_mod_cast hm.ne'
  have hr : (n : ℚ) / m = a / b := by
    rw [div_eq_div_iff hm' hb']
    exact_mod_cast hab
  have hs : (0 : ℚ) < P / Q := by positivity
  have l1 := fun j : ℕ => fraction_clear (x := 1 / (P / Q : ℚ) * (a / b) * j) (c := (Q * a * j : ℕ)) (Nat.mul_pos hP hb) h1
    (by push_cast; field_simp) (by push_cast; exact e1)
  have l2 := fun j : ℕ => fraction_clear (x := (n : ℚ) - 1 - (P / Q : ℚ) * (a / b) * ((m : ℚ) - 1) + (P / Q : ℚ) * (a / b) * j)
    (c := (n - 1) * (Q * b) - P * a * (m - 1) + P * a * j) (Nat.mul_pos hQ hb) h2
    (by push_cast; field_simp) (by push_cast; exact e2)
  have l3 := fun j : ℕ => fraction_clear (x := (P / Q : ℚ) * (a / b) * j) (c := (P * a * j : ℕ)) (Nat.mul_pos hQ hb) h2
    (by push_cast; field_simp) (by push_cast; exact e2)
  have l4 := fun j : ℕ => fraction_clear (x := (n : ℚ) - 1 - 1 / (P / Q : ℚ) * (a / b) * ((m : ℚ) - 1) + 1 / (P / Q : ℚ) * (a / b) * j)
    (c := (n - 1) * (P * b) - Q * a * (m - 1) + Q * a * j) (Nat.mul_pos hP hb) h1
    (by push_cast; field_simp) (by push_cast; exact e1)
  apply C113_margin p hn hs hf
  · intro j _ k
    rw [hr]
    exact ⟨(l1 j k).1, (l2 j k).1⟩
  · intro j _ k
    rw [hr]
    exact ⟨(l3 j k).2, (l4 j k).2⟩

/-- Doubles and the default `max_slope = 2`: with at most `2³³` rows and fewer than `2⁵³ / 22400` cells, the mask is the one of exact arithmetic unless the second length over the greatest common divisor is a multiple of 100. -/
theorem C113_default {n m : ℕ} (hn : 0 < n) (hm : 0 < m) (h100 : ¬ 100 ∣ m / n.gcd m) (hr : n ≤ 2 ^ 33) (hc : 22400 * (n * m) < 2 ^ 53) :
    rItakuraMask (nearBits 52) n m 2 = itakuraMask n m 2 := by
  set g := n.gcd m with hg
  have hg0 : 0 < g := Nat.gcd_pos_of_pos_left _ hn
  obtain ⟨a, ha⟩ : g ∣ n := Nat.gcd_dvd_left n m
  obtain ⟨b, hb⟩ : g ∣ m := Nat.gcd_dvd_right n m
  have hbe : m / g = b := by rw [hb]; exact Nat.mul_div_cancel_left _ hg0
  rw [hbe] at h100
  have hb0 : 0 < b := by
    rcases Nat.eq_zero_or_pos b with h | h
    · rw [h, Nat.mul_zero] at hb; omega
    · exact h
  have hbm : b ≤ m := by rw [hb]; exact Nat.le_mul_of_pos_left _ hg0
  have hnb : (n : ℚ) * b ≤ n * m := by exact_mod_cast Nat.mul_le_mul_left n hbm
  have hc' : 22400 * ((n : ℚ) * m) < 2 ^ 53 := by exact_mod_cast hc
  have hr' : (n : ℚ) ≤ 8589934592 := by exact_mod_cast hr
  have hE : bandError 52 n ((2 : ℕ) / (1 : ℕ)) = 56 * n / 2 ^ 53 := by
    unfold bandError bandScale; push_cast; ring
  have hn1 : (1 : ℚ) ≤ n := by exact_mod_cast hn
  have := C113_rational (P := 2) (Q := 1) (a := a) (b := b) 52 hn hm (by norm_num) (by norm_num) hb0
    (by rw [ha]; conv_rhs => rw [hb]
        ring) (by unfold BandFits bandScale; push_cast; norm_num; linarith)
    (fun h => h100 (by omega)) (fun h => h100 (by omega))
    (by rw [hE]; push_cast; norm_num at hc' ⊢; linarith) (by rw [hE]; push_cast; norm_num at hc' ⊢; nlinarith)
  simpa using this

end

/-- The same sizes and slope can give another mask than exact arithmetic, though neither call raises: the double nearest to 1.995, two series of 7 samples, cell (4, 5). -/
theorem C113_false_mask : ¬ ∀ (n m : ℕ) (s : ℚ) (M M' : Mat Bool), n ≤ 7 → m ≤ 7 → 1 ≤ s → s ≤ 2 → nearBits 52 s = s →
    itakuraMask n m s = .ok M → rItakuraMask (nearBits 52) n m s = .ok M' → ∀ i < n, ∀ j < m, M' i j = M i j := by
  intro h
  have hs : (1 : ℚ) ≤ 2246170314151035 / 1125899906842624 := by norm_num
  have hf : BandFits 52 7 (2246170314151035 / 1125899906842624) := by unfold BandFits bandScale; norm_num
  obtain ⟨M, hM, -⟩ := C51_equal_lengths 7 (2246170314151035 / 1125899906842624) (by norm_num) hs
  obtain ⟨M', hM', -⟩ := C113_equal_lengths 52 (n := 7) (by norm_num) hs hf
  have e := h 7 7 _ M M' le_rfl le_rfl hs (by norm_num) (by decide +kernel) hM hM' 4 (by norm_num) 5 (by norm_num)
  have e1 := (itakuraMask_iff (by norm_num) (by norm_num) hs hM 4 5 (by norm_num) (by norm_num)).2 (by decide +kernel)
  rw [e1, rMask_iff 52 (by norm_num) (by norm_num) hs hf hM' 4 5 (by norm_num) (by norm_num)] at e
  revert e
  decide +kernel

/-- A call that succeeds in exact arithmetic can raise the "unfeasible" warning: lengths 6 and 8, the double nearest to 1.33. -/
theorem C113_false_raises : ¬ ∀ (n m : ℕ) (s : ℚ), n ≤ 8 → m ≤ 8 → 1 ≤ s → s ≤ 2 → nearBits 52 s = s →
    (∃ M, itakuraMask n m s = .ok M) → ∃ M', rItakuraMask (nearBits 52) n m s = .ok M' := by
  intro h
  obtain ⟨M', hM'⟩ := h 6 8 (748723438050345 / 562949953421312) (by norm_num) (by norm_num) (by norm_num) (by norm_num) (by decide +kernel) (by
    unfold itakuraMask itakuraFill
    rw [if_neg (by norm_num)]
    dsimp only
    rw [if_pos (by decide +kernel)]
    exact ⟨_, rfl⟩)
  have : (match rItakuraMask (nearBits 52) 6 8 (748723438050345 / 562949953421312) with
    | .ok _ => true
    | .error _ => false) = false := by decide +kernel
  rw [hM'] at this
  simp at this

/-- And the other way round: lengths 4 and 8, the double nearest to 1.99. -/
theorem C113_false_passes : ¬ ∀ (n m : ℕ) (s : ℚ), n ≤ 8 → m ≤ 8 → 1 ≤ s → s ≤ 2 → nearBits 52 s = s →
    (∃ M', rItakuraMask (nearBits 52) n m s = .ok M') → ∃ M, itakuraMask n m s = .ok M := by
  intro h
  obtain ⟨M', hM'⟩ := h 4 8 (8962163258467287 / 4503599627370496) (by norm_num) (by norm_num) (by norm_num) (by norm_num) (by decide +kernel) (by
    unfold rItakuraMask itakuraFill
    rw [if_neg (by norm_num)]
    dsimp only
    rw [if_pos (by decide +kernel)]
    exact ⟨_, rfl⟩)
  have : (match itakuraMask 4 8 (8962163258467287 / 4503599627370496) with
    | .ok _ => true
    | .error _ => false) = false := by decide +kernel
  rw [hM'] at this
  simp at this

/-- With the default slope, a second length that is a multiple of 100 can move a bound: lengths 67 and 100, column 3. So the condition of `C113_default` is needed. -/
theorem C113_false_default : ¬ ∀ n ≤ 100, ∀ m ≤ 100, ∀ j < m, rItakuraLower (nearBits 52) n m 2 j = itakuraLower n m 2 j := by
  intro h
  have := h 67 (by norm_num) 100 (by norm_num) 3 (by norm_num)
  revert this
  decide +kernel

/-- The documented 6×6 example in doubles: hypotheses of the theorems, and the third row of the mask. -/
example : BandFits 52 6 2 ∧ (match rItakuraMask (nearBits 52) 6 6 2 with
      | .ok M => some ((List.range 6).map (M 2))
      | .error _ => none) = some [false, true, true, true, false, false] ∧ ¬ 100 ∣ 6 / Nat.gcd 6 6 := by
  refine ⟨by unfold BandFits bandScale; norm_num, by decide +kernel, by decide⟩

/-- Series of 20000 and 30000 samples meet the conditions of `C113_default`; those of 67 and 100 do not. -/
example : rItakuraMask (nearBits 52) 20000 30000 2 = itakuraMask 20000 30000 2 ∧ 100 ∣ 100 / Nat.gcd 67 100 :=
  ⟨C113_default (by norm_num) (by norm_num) (by decide +kernel) (by norm_num) (by norm_num), by decide +kernel⟩

/-- Slope 3/2 on lengths 9 and 12, and the tolerance of the bounds there: below 10⁻¹². -/
example : rItakuraMask (nearBits 52) 9 12 (3 / 2) = itakuraMask 9 12 (3 / 2) ∧ bandError 52 9 (3 / 2) < 1 / 10 ^ 12 := by
  have hE : bandError 52 9 (3 / 2) < 1 / 10 ^ 12 := by unfold bandError bandScale; norm_num
  have := C113_rational (P := 3) (Q := 2) (a := 3) (b := 4) 52 (n := 9) (m := 12) (by norm_num) (by norm_num) (by norm_num) (by norm_num) (by norm_num)
    (by norm_num) (by unfold BandFits bandScale; norm_num) (by norm_num) (by norm_num) (by push_cast; norm_num at hE ⊢; linarith) (by push_cast; norm_num at hE ⊢; linarith)
  refine ⟨by simpa using this, hE⟩

end Verif
