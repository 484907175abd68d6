import Verif.Spec.Binary
import Verif.Proofs.Rounded
/-!
Rounding to nearest, ties to even: monotone, odd, relative error half a unit in the last place.
-/
set_option linter.unusedSectionVars false
namespace Verif
open Spec
variable {K : Type} [Field K] [LinearOrder K] [IsStrictOrderedRing K] [FloorRing K]

theorem nearestInt_err (a : K) : |(nearestInt a : K) - a| ≤ 1 / 2 := by
  have h1 := Int.floor_le a
  have h2 := Int.lt_floor_add_one a
  unfold nearestInt
  simp only
  split_ifs with h h' h''
  · rw [abs_le]; constructor <;> linarith
  · push_cast; rw [abs_le]; constructor <;> linarith
  · rw [abs_le]; constructor <;> linarith
  · push_cast; rw [abs_le]; constructor <;> linarith

theorem nearestInt_tie (a : K) (h : |(nearestInt a : K) - a| = 1 / 2) : nearestInt a % 2 = 0 := by
  have h1 := Int.floor_le a
  have h2 := Int.lt_floor_add_one a
  revert h
  unfold nearestInt
  simp only
  split_ifs with h h' h'' <;> intro e
  · rw [abs_of_nonpos (by linarith)] at e; linarith
  · push_cast at e; rw [abs_of_nonneg (by linarith)] at e; linarith
  · exact h''
  · omega

/-- The nearest integer is determined by these two facts. -/
theorem nearestInt_unique {a : K} {k : ℤ} (h : |(k : K) - a| ≤ 1 / 2)
    (ht : |(k : K) - a| = 1 / 2 → k % 2 = 0) : nearestInt a = k := by
  have g := nearestInt_err a
  have gt := nearestInt_tie a
  set z := nearestInt a
  by_contra hne
  have hd : (1 : K) ≤ |(z : K) - k| := by
    have : (1 : ℤ) ≤ |z - k| := Int.one_le_abs (sub_ne_zero.2 hne)
    have := (Int.cast_le (R := K)).2 this
    push_cast at this; exact this
  have tri : |(z : K) - k| ≤ |(z : K) - a| + |(k : K) - a| := by
    rw [abs_sub_comm (k : K) a]
    calc _ = |((z : K) - a) + (a - k)| := by ring_nf
      _ ≤ _ := abs_add_le _ _
  have e1 : |(z : K) - a| = 1 / 2 := by linarith
  have e2 : |(k : K) - a| = 1 / 2 := by linarith
  have p1 := gt e1
  have p2 := ht e2
  have hle : |z - k| ≤ 1 := by
    have : ((|z - k| : ℤ) : K) ≤ ((1 : ℤ) : K) := by push_cast; linarith
    exact (Int.cast_le (R := K)).1 this
  rw [abs_le] at hle
  omega

theorem nearestInt_neg (a : K) : nearestInt (-a) = - nearestInt a := by
  apply nearestInt_unique
  · rw [show ((-nearestInt a : ℤ) : K) - -a = -((nearestInt a : K) - a) by push_cast; ring, abs_neg]
    exact nearestInt_err a
  · intro h
    rw [show ((-nearestInt a : ℤ) : K) - -a = -((nearestInt a : K) - a) by push_cast; ring, abs_neg] at h
    have := nearestInt_tie a h
    omega

theorem nearestInt_int (z : ℤ) : nearestInt (z : K) = z :=
  nearestInt_unique (by simp) (by norm_num)

theorem nearestInt_mono : Monotone (nearestInt : K → ℤ) := by
  intro a b h
  by_contra hlt
  have hlt : nearestInt b + 1 ≤ nearestInt a := by omega
  have hlt' : (nearestInt b : K) + 1 ≤ nearestInt a := by exact_mod_cast hlt
  have ha := abs_le.1 (nearestInt_err a)
  have hb := abs_le.1 (nearestInt_err b)
  have hab : a = b := by linarith
  rw [hab] at hlt; omega

theorem nearBits_neg (p : ℕ) (a : K) : nearBits p (-a) = - nearBits p a := by
  simp only [nearBits, abs_neg, neg_div, nearestInt_neg]; push_cast; ring

/-- The value of a rounding, from a bracket of the number and its last place. -/
theorem nearBits_of (p : ℕ) (a : K) (e k : ℤ) (h1 : 2 ^ e ≤ |a|) (h2 : |a| < 2 ^ (e + 1))
    (hk : |k * 2 ^ (e - p) - a| ≤ 2 ^ (e - p) / 2)
    (ht : |k * 2 ^ (e - p) - a| = 2 ^ (e - p) / 2 → k % 2 = 0) :
    nearBits p a = k * 2 ^ (e - p) := by
  have h0 : (0 : K) < 2 ^ e := zpow_pos (by norm_num) _
  have ha : 0 < |a| := h0.trans_le h1
  have hlog : Int.log 2 |a| = e := by
    apply le_antisymm
    · have : Int.log 2 |a| < e + 1 := by
        rw [← Int.lt_zpow_iff_log_lt (by norm_num) ha]
        exact_mod_cast h2
      omega
    · rw [← Int.zpow_le_iff_le_log (by norm_num) ha]
      exact_mod_cast h1
  have he : (0 : K) < 2 ^ (e - p) := zpow_pos (by norm_num) _
  simp only [nearBits, hlog]
  congr 2
  have eq : |(k : K) - a / 2 ^ (e - p)| = |k * 2 ^ (e - p) - a| / 2 ^ (e - p) := by
    rw [← abs_of_pos he, ← abs_div, abs_of_pos he]
    congr 1; field_simp
  apply nearestInt_unique
  · rw [eq, div_le_iff₀ he]; linarith
  · intro h
    rw [eq, div_eq_iff he.ne'] at h
    exact ht (by linarith)

/-- Numbers with `p + 1` significant bits are not changed. -/
theorem nearBits_exact (p : ℕ) (e k : ℤ) (h : |k| < 2 ^ (p + 1)) :
    nearBits p ((k : K) * 2 ^ e) = k * 2 ^ e := by
  rcases eq_or_ne k 0 with rfl | hk
  · simp [nearBits, nearestInt]
  have hk' : (0 : K) < |(k : K)| := abs_pos.2 (by exact_mod_cast hk)
  have he : (0 : K) < 2 ^ e := zpow_pos (by norm_num) _
  have ha : (0 : K) < |(k : K) * 2 ^ e| := by rw [abs_mul, abs_of_pos he]; positivity
  set L := Int.log 2 |(k : K) * 2 ^ e| with hL
  have hlog : L < e + (p + 1) := by
    rw [hL, ← Int.lt_zpow_iff_log_lt (by norm_num) ha, abs_mul, abs_of_pos he]
    push_cast
    rw [zpow_add₀ (by norm_num), mul_comm]
    refine mul_lt_mul_of_pos_left ?_ he
    have : ((|k| : ℤ) : K) < ((2 ^ (p + 1) : ℤ) : K) := Int.cast_lt.2 h
    push_cast at this
    rw [show ((p : ℤ) + 1) = ((p + 1 : ℕ) : ℤ) by push_cast; ring, zpow_natCast]
    exact this
  obtain ⟨j, hj⟩ : ∃ j : ℕ, e = (L - p) + j := ⟨(e - (L - p)).toNat, by omega⟩
  have hp : (0 : K) < 2 ^ (L - p) := zpow_pos (by norm_num) _
  have e1 : (k : K) * 2 ^ e / 2 ^ (L - p) = ((k * 2 ^ j : ℤ) : K) := by
    rw [hj, zpow_add₀ (by norm_num), zpow_natCast]
    push_cast
    field_simp
  simp only [nearBits, ← hL]
  rw [e1, nearestInt_int, ← e1]
  field_simp

theorem nearBits_zero (p : ℕ) : nearBits p (0 : K) = 0 := by
  have := nearBits_exact (K := K) p 0 0 (by positivity)
  simpa using this

theorem nearBits_zpow (p : ℕ) (e : ℤ) : nearBits p ((2 : K) ^ e) = 2 ^ e := by
  have := nearBits_exact (K := K) p e 1 (by
    rw [abs_one]; exact one_lt_pow₀ (by norm_num) (by omega))
  simpa using this

theorem nearBits_int (p : ℕ) (z : ℤ) (hz : |z| < 2 ^ (p + 1)) : nearBits p (z : K) = z := by
  have := nearBits_exact (K := K) p 0 z hz
  simpa using this

/-- Relative error `2 ^ -(p + 1)`: for doubles, `2 ^ -53`. -/
theorem nearBits_relErr (p : ℕ) : RelErr (nearBits p : K → K) (2 ^ (p + 1))⁻¹ := by
  intro a
  rcases eq_or_ne a 0 with rfl | ha
  · simp [nearBits_zero]
  have ha' : 0 < |a| := abs_pos.2 ha
  set L := Int.log 2 |a| with hL
  have he : (0 : K) < 2 ^ (L - p) := zpow_pos (by norm_num) _
  have hl : (2 : K) ^ L ≤ |a| := by
    simpa using Int.zpow_log_le_self (b := 2) (by norm_num) ha'
  have h := nearestInt_err (a / 2 ^ (L - p))
  have e1 : nearBits p a - a = ((nearestInt (a / 2 ^ (L - p)) : K) - a / 2 ^ (L - p)) * 2 ^ (L - p) := by
    simp only [nearBits, ← hL]; field_simp
  rw [e1, abs_mul, abs_of_pos he]
  have e : (2 : K) ^ (L - p) = (2 ^ p)⁻¹ * 2 ^ L := by
    rw [zpow_sub₀ (by norm_num), zpow_natCast, div_eq_mul_inv, mul_comm]
  calc _ ≤ 1 / 2 * (2 : K) ^ (L - p) := mul_le_mul_of_nonneg_right h he.le
    _ = (2 ^ (p + 1))⁻¹ * 2 ^ L := by rw [e, pow_succ]; field_simp
    _ ≤ _ := mul_le_mul_of_nonneg_left hl (by positivity)

theorem nearBits_pos_mono (p : ℕ) {a b : K} (ha : 0 < a) (h : a ≤ b) :
    nearBits p a ≤ nearBits p b := by
  have hb := ha.trans_le h
  have key : ∀ c d : K, 0 < c → c ≤ d → Int.log 2 c = Int.log 2 d → nearBits p c ≤ nearBits p d := by
    intro c d hc hcd hl
    have he : (0 : K) < 2 ^ (Int.log 2 d - p) := zpow_pos (by norm_num) _
    simp only [nearBits, abs_of_pos hc, abs_of_pos (hc.trans_le hcd), hl]
    refine mul_le_mul_of_nonneg_right ?_ he.le
    exact_mod_cast nearestInt_mono (div_le_div_of_nonneg_right hcd he.le)
  rcases (Int.log_mono_right (b := 2) ha h).lt_or_eq with hlt | heq
  · -- both sides of a power of two
    have up : nearBits p a ≤ 2 ^ (Int.log 2 a + 1) := by
      have h1 : a < 2 ^ (Int.log 2 a + 1) := by
        simpa using Int.lt_zpow_succ_log_self (b := 2) (by norm_num) a
      have he : (0 : K) < 2 ^ (Int.log 2 a - p) := zpow_pos (by norm_num) _
      have e1 : (2 : K) ^ (Int.log 2 a + 1) = ((2 ^ (p + 1) : ℤ) : K) * 2 ^ (Int.log 2 a - p) := by
        push_cast
        rw [← zpow_natCast, ← zpow_add₀ (by norm_num)]
        congr 1; push_cast; ring
      simp only [nearBits, abs_of_pos ha]
      rw [e1]
      refine mul_le_mul_of_nonneg_right ?_ he.le
      have : nearestInt (a / 2 ^ (Int.log 2 a - p)) ≤ nearestInt (((2 ^ (p + 1) : ℤ) : K)) := by
        apply nearestInt_mono
        rw [div_le_iff₀ he, ← e1]; exact h1.le
      rw [nearestInt_int] at this
      exact_mod_cast this
    have down : (2 : K) ^ Int.log 2 b ≤ nearBits p b := by
      have h1 : (2 : K) ^ Int.log 2 b ≤ b := by
        simpa using Int.zpow_log_le_self (b := 2) (by norm_num) hb
      have := key _ _ (zpow_pos (by norm_num) _) h1 (by
        have := Int.log_zpow (R := K) (b := 2) (by norm_num) (Int.log 2 b)
        exact_mod_cast this)
      rwa [nearBits_zpow] at this
    exact up.trans ((zpow_le_zpow_right₀ (by norm_num) (by omega)).trans down)
  · exact key a b ha h heq

/-- Rounding to nearest is monotone and odd. -/
theorem nearBits_oddMono (p : ℕ) : OddMono (nearBits p : K → K) := by
  have nn : ∀ a : K, 0 ≤ a → 0 ≤ nearBits p a := by
    intro a ha
    have he : (0 : K) < 2 ^ (Int.log 2 |a| - p) := zpow_pos (by norm_num) _
    have : nearestInt (0 : K) ≤ nearestInt (a / 2 ^ (Int.log 2 |a| - p)) :=
      nearestInt_mono (by positivity)
    have h0 : nearestInt (0 : K) = 0 := by simpa using nearestInt_int (K := K) 0
    rw [h0] at this
    have : (0 : K) ≤ (nearestInt (a / 2 ^ (Int.log 2 |a| - p)) : K) := by exact_mod_cast this
    simp only [nearBits]; positivity
  refine ⟨fun a b h => ?_, nearBits_neg p⟩
  rcases lt_or_ge 0 a with ha | ha
  · exact nearBits_pos_mono p ha h
  · rcases lt_or_ge b 0 with hb | hb
    · have := nearBits_pos_mono p (by linarith : 0 < -b) (neg_le_neg h)
      rw [nearBits_neg, nearBits_neg] at this
      linarith
    · have h1 := nn (-a) (by linarith)
      rw [nearBits_neg] at h1
      linarith [nn b hb]

/-- Rounding twice is rounding once. -/
theorem nearBits_idem (p : ℕ) (a : K) : nearBits p (nearBits p a) = nearBits p a := by
  rcases eq_or_ne a 0 with rfl | ha
  · rw [nearBits_zero, nearBits_zero]
  have ha' : 0 < |a| := abs_pos.2 ha
  set L := Int.log 2 |a| with hL
  have he : (0 : K) < 2 ^ (L - p) := zpow_pos (by norm_num) _
  have h1 : |a| < 2 ^ (L + 1) := by
    simpa using Int.lt_zpow_succ_log_self (b := 2) (by norm_num) |a|
  have e1 : (2 : K) ^ (L + 1) = ((2 ^ (p + 1) : ℤ) : K) * 2 ^ (L - p) := by
    push_cast
    rw [← zpow_natCast, ← zpow_add₀ (by norm_num)]
    congr 1; push_cast; ring
  have e2 : nearBits p a = (nearestInt (a / 2 ^ (L - p)) : K) * 2 ^ (L - p) := by simp only [nearBits, ← hL]
  set k := nearestInt (a / (2 : K) ^ (L - p)) with hk
  have hq : |a / 2 ^ (L - p)| ≤ ((2 ^ (p + 1) : ℤ) : K) := by
    rw [abs_div, abs_of_pos he, div_le_iff₀ he, ← e1]; exact h1.le
  have hk1 : k ≤ 2 ^ (p + 1) := by
    have := nearestInt_mono (abs_le.1 hq).2
    rwa [nearestInt_int] at this
  have hk2 : -(2 ^ (p + 1)) ≤ k := by
    have := nearestInt_mono (abs_le.1 hq).1
    rwa [nearestInt_neg, nearestInt_int] at this
  rw [e2]
  rcases (abs_le.2 ⟨hk2, hk1⟩).lt_or_eq with h | h
  · exact nearBits_exact p _ k h
  · rcases (abs_eq (by positivity)).1 h with h | h
    · rw [h, ← e1, nearBits_zpow]
    · rw [h, show ((-(2 ^ (p + 1)) : ℤ) : K) * 2 ^ (L - p) = -(((2 ^ (p + 1) : ℤ) : K) * 2 ^ (L - p)) by
        push_cast; ring, ← e1, nearBits_neg, nearBits_zpow]

/-- A power of two may be taken out. -/
theorem nearBits_scale (p : ℕ) (j : ℤ) (a : K) : nearBits p (2 ^ j * a) = 2 ^ j * nearBits p a := by
  rcases eq_or_ne a 0 with rfl | ha
  · rw [mul_zero, nearBits_zero, mul_zero]
  have ha' : 0 < |a| := abs_pos.2 ha
  have hj : (0 : K) < 2 ^ j := zpow_pos (by norm_num) _
  have habs : |2 ^ j * a| = 2 ^ j * |a| := by rw [abs_mul, abs_of_pos hj]
  have h2 : 0 < 2 ^ j * |a| := by positivity
  have el : Int.log 2 (2 ^ j * |a|) = j + Int.log 2 |a| := by
    apply le_antisymm
    · have : Int.log 2 (2 ^ j * |a|) < j + Int.log 2 |a| + 1 := by
        rw [← Int.lt_zpow_iff_log_lt (by norm_num) h2]
        have := Int.lt_zpow_succ_log_self (b := 2) (by norm_num) |a|
        push_cast at this ⊢
        rw [add_assoc, zpow_add₀ (by norm_num)]
        exact mul_lt_mul_of_pos_left this hj
      omega
    · rw [← Int.zpow_le_iff_le_log (by norm_num) h2]
      have := Int.zpow_log_le_self (b := 2) (by norm_num) ha'
      push_cast at this ⊢
      rw [zpow_add₀ (by norm_num)]
      exact mul_le_mul_of_nonneg_left this hj.le
  simp only [nearBits, habs, el]
  set L := Int.log 2 |a|
  have e : (2 : K) ^ (j + L - p) = 2 ^ j * 2 ^ (L - p) := by
    rw [show j + L - p = j + (L - p) by ring, zpow_add₀ (by norm_num)]
  rw [e, mul_div_mul_left _ _ hj.ne']
  ring

end Verif
