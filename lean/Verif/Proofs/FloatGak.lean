import Verif.Model.FloatGak
import Verif.Spec.FloatGak
import Verif.Proofs.Binary
import Verif.Proofs.Gak
import Mathlib.Tactic.Positivity
import Mathlib.Tactic.Linarith
import Mathlib.Tactic.FieldSimp
import Mathlib.Tactic.Ring
import Mathlib.Tactic.IntervalCases
/-!
Lower and upper bounds of the floating-point GAK table.
-/
set_option linter.unusedSectionVars false
namespace Verif
open Spec
noncomputable section
open Classical

/-! ### Doubles -/

theorem double_neg (a : ℝ) : double (-a) = - double a := by
  unfold double
  rw [abs_neg]
  split_ifs
  · rw [neg_div, nearestInt_neg]; push_cast; ring
  · exact nearBits_neg 52 a

theorem double_grid (k : ℤ) (hk : |k| ≤ 2 ^ 52) : double ((k : ℝ) * 2 ^ (-1074 : ℤ)) = k * 2 ^ (-1074 : ℤ) := by
  unfold double
  have h2 : (2 : ℝ) ^ (-1074 : ℤ) ≠ 0 := (zpow_pos (by norm_num) _).ne'
  split_ifs
  · rw [mul_div_cancel_right₀ _ h2, nearestInt_int]
  · exact nearBits_exact 52 _ k (lt_of_le_of_lt hk (by norm_num))

theorem double_sub_range {a : ℝ} (h : |a| < 2 ^ (-1022 : ℤ)) : |nearestInt (a / (2 : ℝ) ^ (-1074 : ℤ))| ≤ 2 ^ 52 := by
  have h2 : (0 : ℝ) < (2 : ℝ) ^ (-1074 : ℤ) := zpow_pos (by norm_num) _
  have e : (2 : ℝ) ^ (-1022 : ℤ) = ((2 ^ 52 : ℤ) : ℝ) * 2 ^ (-1074 : ℤ) := by
    rw [show ((2 ^ 52 : ℤ) : ℝ) = (2 : ℝ) ^ (52 : ℤ) by norm_num, ← zpow_add₀ (by norm_num)]; norm_num
  have hq : |a / (2 : ℝ) ^ (-1074 : ℤ)| ≤ ((2 ^ 52 : ℤ) : ℝ) := by
    rw [abs_div, abs_of_pos h2, div_le_iff₀ h2, ← e]; exact h.le
  have h1 := nearestInt_mono (abs_le.1 hq).2
  have h3 := nearestInt_mono (abs_le.1 hq).1
  rw [nearestInt_int] at h1
  rw [nearestInt_neg, nearestInt_int] at h3
  exact abs_le.2 ⟨h3, h1⟩

theorem double_mono_nonneg {a b : ℝ} (ha : 0 ≤ a) (h : a ≤ b) : double a ≤ double b := by
  have hb := ha.trans h
  have h2 : (0 : ℝ) < (2 : ℝ) ^ (-1074 : ℤ) := zpow_pos (by norm_num) _
  have e : (2 : ℝ) ^ (-1022 : ℤ) = ((2 ^ 52 : ℤ) : ℝ) * 2 ^ (-1074 : ℤ) := by
    rw [show ((2 ^ 52 : ℤ) : ℝ) = (2 : ℝ) ^ (52 : ℤ) by norm_num, ← zpow_add₀ (by norm_num)]; norm_num
  unfold double
  rw [abs_of_nonneg ha, abs_of_nonneg hb]
  split_ifs with h3 h4 h4
  · refine mul_le_mul_of_nonneg_right ?_ h2.le
    exact_mod_cast nearestInt_mono (div_le_div_of_nonneg_right h h2.le)
  · have h5 := (abs_le.1 (double_sub_range (by rwa [abs_of_nonneg ha]))).2
    have h6 : (nearestInt (a / (2 : ℝ) ^ (-1074 : ℤ)) : ℝ) * 2 ^ (-1074 : ℤ) ≤ 2 ^ (-1022 : ℤ) := by
      rw [e]
      exact mul_le_mul_of_nonneg_right (by exact_mod_cast h5) h2.le
    have h7 := (nearBits_oddMono (K := ℝ) 52).mono (not_lt.1 h4)
    rw [nearBits_zpow] at h7
    exact h6.trans h7
  · linarith
  · exact (nearBits_oddMono (K := ℝ) 52).mono h

theorem double_zero : double (0 : ℝ) = 0 := by
  have := double_grid 0 (by norm_num)
  simpa using this

/-- Doubles round as required, with unit roundoff `2⁻⁵³`. -/
theorem double_rounding : Rounding double ((2 : ℝ) ^ 53)⁻¹ (2 ^ (-1022 : ℤ)) where
  mono := by
    intro a b h
    rcases le_total 0 a with ha | ha
    · exact double_mono_nonneg ha h
    · rcases le_total 0 b with hb | hb
      · have h1 := double_mono_nonneg le_rfl (neg_nonneg.2 ha)
        have h2 := double_mono_nonneg le_rfl hb
        rw [double_neg, double_zero] at h1
        rw [double_zero] at h2
        linarith
      · have := double_mono_nonneg (neg_nonneg.2 hb) (neg_le_neg h)
        rw [double_neg, double_neg] at this
        linarith
  odd := double_neg
  small := by
    intro k e hk he
    rcases eq_or_ne k 0 with rfl | h0
    · simp [double_zero]
    unfold double
    rw [if_neg]
    · exact nearBits_exact 52 e k (lt_of_le_of_lt hk (by norm_num))
    · rw [not_lt, abs_mul, abs_of_pos (zpow_pos (by norm_num : (0 : ℝ) < 2) e)]
      have h1 : (1 : ℝ) ≤ |(k : ℝ)| := by exact_mod_cast Int.one_le_abs h0
      have h3 : (2 : ℝ) ^ (-1022 : ℤ) ≤ 2 ^ e := zpow_le_zpow_right₀ (by norm_num) (by omega)
      have h4 : (0 : ℝ) < 2 ^ e := zpow_pos (by norm_num) e
      nlinarith
  idem := by
    intro a
    by_cases h : |a| < 2 ^ (-1022 : ℤ)
    · have : double a = nearestInt (a / (2 : ℝ) ^ (-1074 : ℤ)) * 2 ^ (-1074 : ℤ) := by rw [double, if_pos h]
      rw [this, double_grid _ (double_sub_range h)]
    · have e1 : double a = nearBits 52 a := by rw [double, if_neg h]
      have h1 : (2 : ℝ) ^ (-1022 : ℤ) ≤ |nearBits 52 a| := by
        have m := (nearBits_oddMono (K := ℝ) 52).mono
        rcases le_total 0 a with ha | ha
        · have := m (not_lt.1 h)
          rw [nearBits_zpow, abs_of_nonneg ha] at this
          exact this.trans (le_abs_self _)
        · have := m (not_lt.1 h)
          rw [nearBits_zpow, abs_of_nonpos ha, nearBits_neg] at this
          exact this.trans (neg_le_abs _)
      rw [e1, double, if_neg (not_lt.2 h1), nearBits_idem]
  rel := by
    intro a ha
    rw [double, if_neg (not_lt.2 ha)]
    exact nearBits_relErr 52 a

/-! ### Bounds of floating-point numbers -/

/-- Not below `b` (not-a-number included). -/
def AtLeast (b : ℝ) : Fl → Prop
  | .num v => b ≤ v
  | .inf => True
  | .nan => True
  | .ninf => False

/-- A number between 0 and `b`. -/
def Within (b : ℝ) (x : Fl) : Prop := ∃ v, x = .num v ∧ 0 ≤ v ∧ v ≤ b

theorem AtLeast.weaken {b c : ℝ} {x : Fl} (h : AtLeast b x) (hc : c ≤ b) : AtLeast c x := by
  cases x with
  | num v => exact le_trans hc h
  | _ => exact h

theorem AtLeast.add {b c : ℝ} {x y : Fl} (hx : AtLeast b x) (hy : AtLeast c y) : AtLeast (b + c) (Fl.add x y) := by
  cases x <;> cases y <;> simp_all [AtLeast, Fl.add]
  exact add_le_add hx hy

theorem AtLeast.mul {b c : ℝ} {x y : Fl} (hb : 0 ≤ b) (hc : 0 ≤ c) (hx : AtLeast b x) (hy : AtLeast c y) :
    AtLeast (b * c) (Fl.mul x y) := by
  cases x <;> cases y <;> simp_all only [AtLeast, Fl.mul, Fl.scale]
  · exact mul_le_mul hx hy hc (hb.trans hx)
  · split_ifs with h1 h2
    · trivial
    · exact absurd (hb.trans hx) (by linarith)
    · trivial
  · split_ifs with h1 h2
    · trivial
    · exact absurd (hc.trans hy) (by linarith)
    · trivial

section
variable {A : Arith} {u tiny : ℝ} (hA : Rounding A.rnd u tiny) (hbig : 1 < A.big)
include hA

theorem rnd_zero : A.rnd 0 = 0 := by
  have := hA.small 0 0 (by norm_num) (by norm_num)
  simpa using this

theorem rnd_nonneg {x : ℝ} (h : 0 ≤ x) : 0 ≤ A.rnd x := by
  have := hA.mono h
  rwa [rnd_zero hA] at this

theorem AtLeast.fit (hbig : 1 < A.big) {b : ℝ} {x : Fl} (hb : 0 ≤ b) (hr : A.rnd b = b) (h : AtLeast b x) : AtLeast b (A.fit x) := by
  cases x with
  | num v =>
    have h1 : b ≤ A.rnd v := by have := hA.mono (show b ≤ v from h); rwa [hr] at this
    simp only [Arith.fit]
    split_ifs with h2 h3
    · trivial
    · exact absurd h3 (by linarith)
    · exact h1
  | _ => exact h

theorem Within.fit {b : ℝ} {v : ℝ} (hb : b < A.big) (hr : A.rnd b = b) (h0 : 0 ≤ v) (h : v ≤ b) : Within b (A.fit (.num v)) := by
  have h1 : A.rnd v ≤ b := by have := hA.mono h; rwa [hr] at this
  have h2 := rnd_nonneg hA h0
  refine ⟨A.rnd v, ?_, h2, h1⟩
  simp only [Arith.fit]
  rw [if_neg (by linarith), if_neg (by linarith)]

theorem fit_num {v : ℝ} (h : |A.rnd v| < A.big) : A.fit (.num v) = .num (A.rnd v) := by
  rw [abs_lt] at h
  simp only [Arith.fit]
  rw [if_neg (by linarith), if_neg (by linarith)]

theorem fit_fix {v : ℝ} (hr : A.rnd v = v) (h : |v| < A.big) : A.fit (.num v) = .num v := by
  rw [fit_num hA (by rwa [hr]), hr]

theorem fit_fit (x : Fl) : A.fit (A.fit x) = A.fit x := by
  cases x with
  | num v =>
    simp only [Arith.fit]
    by_cases h2 : A.big ≤ A.rnd v
    · simp [h2]
    · by_cases h3 : A.rnd v ≤ -A.big
      · simp [h2, h3]
      · simp [h2, h3, hA.idem]
  | _ => rfl

/-- Multiples of powers of two, as natural numbers. -/
theorem rnd_dyadic (k : ℕ) (hk : k ≤ 16) (e : ℕ) (j : ℕ) (hj : j ≤ 16) : A.rnd (k * 2 ^ e / 2 ^ j) = k * 2 ^ e / 2 ^ j := by
  have h := hA.small k ((e : ℤ) - j) (by rw [abs_of_nonneg (by positivity)]; exact_mod_cast hk) (by omega)
  have e1 : (k : ℝ) * 2 ^ e / 2 ^ j = ((k : ℤ) : ℝ) * 2 ^ ((e : ℤ) - j) := by
    rw [zpow_sub₀ (by norm_num), zpow_natCast, zpow_natCast]; push_cast; ring
  rw [e1, h]

end

/-! ### The table -/

section
variable {A : Arith} {u tiny : ℝ}

theorem cell_nonneg (hA : Rounding A.rnd u tiny) (hbig : 1 < A.big) {up left diag g : Fl} (h1 : AtLeast 0 up) (h2 : AtLeast 0 left)
    (h3 : AtLeast 0 diag) (h4 : AtLeast 0 g) : AtLeast 0 (A.mul (A.add (A.add up left) diag) g) := by
  have r0 := rnd_zero hA
  have a1 : AtLeast 0 (A.add up left) := AtLeast.fit hA hbig le_rfl r0 (by simpa using h1.add h2)
  have a2 : AtLeast 0 (A.add (A.add up left) diag) := AtLeast.fit hA hbig le_rfl r0 (by simpa using a1.add h3)
  exact AtLeast.fit hA hbig le_rfl r0 (by simpa using AtLeast.mul le_rfl le_rfl a2 h4)

/-- One cell: `t` from the left and from above, `t` from the diagonal. -/
theorem cell_double (hA : Rounding A.rnd u tiny) (hbig : 1 < A.big) {up left diag g : Fl} (e : ℕ) {p q r : ℕ} (hpq : p + q ≤ 16)
    (hsum : 3 ≤ p + q + r) (hle : p + q + r ≤ 16) (h1 : AtLeast (p * (2 ^ e / 2)) up) (h2 : AtLeast (q * (2 ^ e / 2)) left)
    (h3 : AtLeast (r * (2 ^ e / 2)) diag) (h4 : AtLeast (3 / 4) g) :
    AtLeast (2 ^ (e + 1) / 2) (A.mul (A.add (A.add up left) diag) g) := by
  have hp : (0 : ℝ) < 2 ^ e := by positivity
  have d1 := rnd_dyadic hA (p + q) hpq e 1 (by norm_num)
  have d2 := rnd_dyadic hA (p + q + r) hle e 1 (by norm_num)
  have d3 := rnd_dyadic hA 1 (by norm_num) (e + 1) 1 (by norm_num)
  push_cast at d1 d2 d3
  have a1 : AtLeast (((p : ℝ) + q) * 2 ^ e / 2 ^ 1) (A.add up left) :=
    AtLeast.fit hA hbig (by positivity) d1 ((h1.add h2).weaken (le_of_eq (by ring)))
  have a2 : AtLeast (((p : ℝ) + q + r) * 2 ^ e / 2 ^ 1) (A.add (A.add up left) diag) :=
    AtLeast.fit hA hbig (by positivity) d2 ((a1.add h3).weaken (le_of_eq (by ring)))
  have hs : (3 : ℝ) ≤ (p : ℝ) + q + r := by exact_mod_cast hsum
  have := AtLeast.fit hA hbig (by positivity) d3 ((AtLeast.mul (by positivity) (by norm_num) a2 h4).weaken
    (c := 1 * 2 ^ (e + 1) / 2 ^ 1) (by rw [pow_succ]; nlinarith))
  simpa [Arith.mul] using this

variable {n m : ℕ} {gram M : Mat Fl}

theorem table_nonneg (hA : Rounding A.rnd u tiny) (hbig : 1 < A.big)
    (hM : IsDP n m (Mat.full true) (fun i j up left diag => A.mul (A.add (A.add up left) diag) (gram i j))
      ((Mat.full (Fl.num 0)).set 0 0 (.num 1)) M) (hg : ∀ i < n, ∀ j < m, AtLeast 0 (gram i j)) (i j : ℕ) (hi : i ≤ n)
    (hj : j ≤ m) : AtLeast 0 (M i j) := by
  induction hs : i + j using Nat.strong_induction_on generalizing i j with
  | _ s ih =>
    have h0 : ∀ a b, AtLeast 0 (((Mat.full (Fl.num 0)).set 0 0 (.num 1)) a b) := by
      intro a b
      rw [Mat.set_apply]
      split_ifs
      · exact zero_le_one
      · exact le_rfl
    rcases i with _ | i
    · rw [hM.row0]; exact h0 _ _
    · rcases j with _ | j
      · rw [hM.col0]; exact h0 _ _
      · rw [hM.body i j (by omega) (by omega), if_pos (show Mat.full true _ _ = true from rfl)]
        exact cell_nonneg hA hbig (ih _ (by omega) i (j + 1) (by omega) hj rfl) (ih _ (by omega) (i + 1) j hi (by omega) rfl)
          (ih _ (by omega) i j (by omega) (by omega) rfl) (hg i (by omega) j (by omega))

/-- The entries next to the diagonal double with every sample. -/
theorem table_doubles (hA : Rounding A.rnd u tiny) (hbig : 1 < A.big)
    (hM : IsDP n n (Mat.full true) (fun i j up left diag => A.mul (A.add (A.add up left) diag) (gram i j))
      ((Mat.full (Fl.num 0)).set 0 0 (.num 1)) M) (hg : ∀ i < n, ∀ j < n, AtLeast 0 (gram i j))
    (hb : ∀ i < n, ∀ j < n, i ≤ j + 1 → j ≤ i + 1 → AtLeast (3 / 4) (gram i j)) (i : ℕ) (hi : i < n) :
    AtLeast (2 ^ i / 2) (M (i + 1) (i + 1)) ∧ (i + 1 < n → AtLeast (2 ^ i / 2) (M (i + 1) (i + 2)) ∧
      AtLeast (2 ^ i / 2) (M (i + 2) (i + 1))) := by
  have nn := table_nonneg hA hbig hM hg
  have e00 : M 0 0 = .num 1 := by rw [hM.row0]; rfl
  induction i with
  | zero =>
    have r0 := rnd_zero hA
    have d1 := rnd_dyadic hA 3 (by norm_num) 0 2 (by norm_num)
    have d2 := rnd_dyadic hA 1 (by norm_num) 0 1 (by norm_num)
    have d4 := rnd_dyadic hA 1 (by norm_num) 0 0 (by norm_num)
    norm_num at d1 d2 d4
    have c : ∀ {x y z g : Fl} {b c d : ℝ}, 0 ≤ b → 0 ≤ c → A.rnd (b + c) = b + c → 0 ≤ d → A.rnd (b + c + d) = b + c + d → AtLeast b x →
        AtLeast c y → AtLeast d z → AtLeast (3 / 4) g → ∀ r, A.rnd r = r → 0 ≤ r → r ≤ (b + c + d) * (3 / 4) →
        AtLeast r (A.mul (A.add (A.add x y) z) g) := by
      intro x y z g b c d hb hc h1 hd h2 hx hy hz hg r hr hr0 hrl
      have a1 := AtLeast.fit hA hbig (add_nonneg hb hc) h1 (hx.add hy)
      have a2 := AtLeast.fit hA hbig (by positivity) h2 (a1.add hz)
      exact AtLeast.fit hA hbig hr0 hr ((AtLeast.mul (by positivity) (by norm_num) a2 hg).weaken hrl)
    have m11 : AtLeast (3 / 4) (M 1 1) := by
      rw [hM.body 0 0 hi hi, if_pos (show Mat.full true _ _ = true from rfl)]
      refine c (b := 0) (c := 0) (d := 1) le_rfl le_rfl (by simpa using r0) zero_le_one (by simpa using d4)
        (nn 0 1 (by omega) (by omega)) (nn 1 0 (by omega) (by omega)) (by rw [e00]; exact le_rfl) (hb 0 hi 0 hi (by omega) (by omega))
        (3 / 4) d1 (by norm_num) (by norm_num)
    refine ⟨m11.weaken (by norm_num), fun h2 => ⟨?_, ?_⟩⟩
    · rw [hM.body 0 1 hi h2, if_pos (show Mat.full true _ _ = true from rfl)]
      refine c (b := 0) (c := 3 / 4) (d := 0) le_rfl (by norm_num) (by simpa using d1) le_rfl (by simpa using d1)
        (nn 0 2 (by omega) (by omega)) m11 (nn 0 1 (by omega) (by omega)) (hb 0 hi 1 h2 (by omega) (by omega)) _ ?_ (by norm_num) (by norm_num)
      simpa using d2
    · rw [hM.body 1 0 h2 hi, if_pos (show Mat.full true _ _ = true from rfl)]
      refine c (b := 3 / 4) (c := 0) (d := 0) (by norm_num) le_rfl (by simpa using d1) le_rfl (by simpa using d1) m11
        (nn 2 0 (by omega) (by omega)) (nn 1 0 (by omega) (by omega)) (hb 1 h2 0 hi (by omega) (by omega)) _ ?_ (by norm_num) (by norm_num)
      simpa using d2
  | succ i ih =>
    obtain ⟨ha, hbc⟩ := ih (by omega)
    obtain ⟨hb1, hc1⟩ := hbc hi
    have hd : AtLeast (2 ^ (i + 1) / 2) (M (i + 2) (i + 2)) := by
      rw [hM.body (i + 1) (i + 1) hi hi, if_pos (show Mat.full true _ _ = true from rfl)]
      refine cell_double hA hbig i (p := 1) (q := 1) (r := 1) (by norm_num) (by norm_num) (by norm_num) ?_ ?_ ?_
        (hb (i + 1) hi (i + 1) hi (by omega) (by omega))
      · simpa using hb1
      · simpa using hc1
      · simpa using ha
    refine ⟨hd, fun h2 => ⟨?_, ?_⟩⟩
    · rw [hM.body (i + 1) (i + 2) hi h2, if_pos (show Mat.full true _ _ = true from rfl)]
      refine cell_double hA hbig i (p := 0) (q := 2) (r := 1) (by norm_num) (by norm_num) (by norm_num) ?_ ?_ ?_
        (hb (i + 1) hi (i + 2) h2 (by omega) (by omega))
      · simpa using nn (i + 1) (i + 3) (by omega) (by omega)
      · refine hd.weaken (le_of_eq ?_); push_cast; rw [pow_succ]; ring
      · simpa using hb1
    · rw [hM.body (i + 2) (i + 1) h2 hi, if_pos (show Mat.full true _ _ = true from rfl)]
      refine cell_double hA hbig i (p := 2) (q := 0) (r := 1) (by norm_num) (by norm_num) (by norm_num) ?_ ?_ ?_
        (hb (i + 2) h2 (i + 1) hi (by omega) (by omega))
      · refine hd.weaken (le_of_eq ?_); push_cast; rw [pow_succ]; ring
      · simpa using nn (i + 3) (i + 1) (by omega) (by omega)
      · simpa using hc1

/-- Entries on the diagonal are at least 1 when the local kernels there are 1. -/
theorem table_diag (hA : Rounding A.rnd u tiny) (hbig : 1 < A.big)
    (hM : IsDP n n (Mat.full true) (fun i j up left diag => A.mul (A.add (A.add up left) diag) (gram i j))
      ((Mat.full (Fl.num 0)).set 0 0 (.num 1)) M) (hg : ∀ i < n, ∀ j < n, AtLeast 0 (gram i j))
    (hb : ∀ i < n, AtLeast 1 (gram i i)) (i : ℕ) (hi : i ≤ n) : AtLeast 1 (M i i) := by
  have nn := table_nonneg hA hbig hM hg
  have r1 := rnd_dyadic hA 1 (by norm_num) 0 0 (by norm_num)
  norm_num at r1
  induction i with
  | zero => rw [hM.row0]; exact le_refl (1 : ℝ)
  | succ i ih =>
    rw [hM.body i i hi hi, if_pos (show Mat.full true _ _ = true from rfl)]
    have a1 : AtLeast 0 (A.add (M i (i + 1)) (M (i + 1) i)) := AtLeast.fit hA hbig le_rfl (rnd_zero hA)
      (by simpa using (nn i (i + 1) (by omega) hi).add (nn (i + 1) i hi (by omega)))
    have a2 : AtLeast 1 (A.add (A.add (M i (i + 1)) (M (i + 1) i)) (M i i)) := AtLeast.fit hA hbig zero_le_one r1
      (by simpa using a1.add (ih (by omega)))
    exact AtLeast.fit hA hbig zero_le_one r1 (by simpa using AtLeast.mul zero_le_one zero_le_one a2 (hb i hi))

/-- Upper bound: a factor of four for every sample of either series. -/
theorem table_within (hA : Rounding A.rnd u tiny) (hM : IsDP n m (Mat.full true)
      (fun i j up left diag => A.mul (A.add (A.add up left) diag) (gram i j)) ((Mat.full (Fl.num 0)).set 0 0 (.num 1)) M)
    (hg : ∀ i < n, ∀ j < m, Within 1 (gram i j)) (hlt : (4 : ℝ) ^ (n + m) / 16 < A.big) (hbig : 1 < A.big) (i j : ℕ) (hi : i ≤ n)
    (hj : j ≤ m) (hij : i + j ≠ 0) : Within (4 ^ (i + j) / 16) (M i j) := by
  have four : ∀ s, (4 : ℝ) ^ s = 2 ^ (2 * s) := by intro s; rw [pow_mul]; norm_num
  have fix : ∀ k s : ℕ, k ≤ 16 → A.rnd (k * (4 ^ s / 16)) = k * (4 ^ s / 16) := by
    intro k s hk
    have := rnd_dyadic hA k hk (2 * s) 4 (by norm_num)
    rw [four]
    convert this using 2 <;> norm_num <;> ring
  have less : ∀ s, s ≤ n + m → (4 : ℝ) ^ s / 16 < A.big := by
    intro s hs
    refine lt_of_le_of_lt ?_ hlt
    exact div_le_div_of_nonneg_right (pow_le_pow_right₀ (by norm_num) hs) (by norm_num)
  induction hs : i + j using Nat.strong_induction_on generalizing i j with
  | _ s ih =>
    subst hs
    rcases i with _ | i
    · rcases j with _ | j
      · omega
      · rw [hM.row0]; exact ⟨0, rfl, le_rfl, by positivity⟩
    · rcases j with _ | j
      · rw [hM.col0]; exact ⟨0, rfl, le_rfl, by positivity⟩
      · rw [hM.body i j (by omega) (by omega), if_pos (show Mat.full true _ _ = true from rfl)]
        obtain ⟨g, eg, g0, g1⟩ := hg i (by omega) j (by omega)
        have last : ∀ {t : Fl}, Within (4 ^ (i + 1 + (j + 1)) / 16) t → Within (4 ^ (i + 1 + (j + 1)) / 16) (A.mul t (gram i j)) := by
          rintro t ⟨v, rfl, v0, v1⟩
          rw [eg]
          refine Within.fit hA (less _ (by omega)) (by simpa using fix 1 (i + 1 + (j + 1)) (by norm_num)) (mul_nonneg v0 g0) ?_
          exact (mul_le_of_le_one_right v0 g1).trans v1
        apply last
        by_cases h0 : i + j = 0
        · obtain ⟨rfl, rfl⟩ : i = 0 ∧ j = 0 := by omega
          have e1 : M 0 1 = .num 0 := by rw [hM.row0]; rfl
          have e2 : M 1 0 = .num 0 := by rw [hM.col0]; rfl
          have e3 : M 0 0 = .num 1 := by rw [hM.row0]; rfl
          have r0 := rnd_zero hA
          have r1 : A.rnd 1 = 1 := by simpa using rnd_dyadic hA 1 (by norm_num) 0 0 (by norm_num)
          refine ⟨1, ?_, zero_le_one, by norm_num⟩
          simp only [Nat.zero_add, e1, e2, e3, Arith.add, Fl.add]
          rw [show (0 : ℝ) + 0 = 0 by norm_num, fit_fix hA r0 (by rw [abs_zero]; linarith)]
          simp only [zero_add]
          exact fit_fix hA r1 (by rw [abs_one]; exact hbig)
        · obtain ⟨a, ea, a0, a1⟩ := ih _ (by omega) i (j + 1) (by omega) hj (by omega) rfl
          obtain ⟨b, eb, b0, b1⟩ := ih _ (by omega) (i + 1) j hi (by omega) (by omega) rfl
          obtain ⟨c, ec, c0, c1⟩ := ih _ (by omega) i j (by omega) (by omega) h0 rfl
          rw [ea, eb, ec]
          have p1 : (4 : ℝ) ^ (i + (j + 1)) / 16 = 4 * (4 ^ (i + j) / 16) := by rw [← add_assoc, pow_succ]; ring
          have p2 : (4 : ℝ) ^ (i + 1 + j) / 16 = 4 * (4 ^ (i + j) / 16) := by rw [show i + 1 + j = i + j + 1 by ring, pow_succ]; ring
          have p3 : (4 : ℝ) ^ (i + 1 + (j + 1)) / 16 = 16 * (4 ^ (i + j) / 16) := by
            rw [show i + 1 + (j + 1) = i + j + 1 + 1 by ring, pow_succ, pow_succ]; ring
          have l3 := less (i + 1 + (j + 1)) (by omega)
          rw [p1] at a1; rw [p2] at b1
          have q0 : (0 : ℝ) < 4 ^ (i + j) / 16 := by positivity
          obtain ⟨d, ed, d0, d1⟩ := Within.fit hA (b := 8 * (4 ^ (i + j) / 16)) (v := a + b) (by rw [p3] at l3; linarith)
            (by exact_mod_cast fix 8 (i + j) (by norm_num)) (add_nonneg a0 b0) (by linarith)
          obtain ⟨e, ee, e0, e1⟩ := Within.fit hA (b := 9 * (4 ^ (i + j) / 16)) (v := d + c) (by rw [p3] at l3; linarith)
            (by exact_mod_cast fix 9 (i + j) (by norm_num)) (add_nonneg d0 c0) (by linarith)
          refine ⟨e, ?_, e0, by rw [p3]; linarith⟩
          simp only [Arith.add, Fl.add] at ed ee ⊢
          rw [ed]
          exact ee

end

/-! ### The local kernels -/

section
variable {A : Arith} {u tiny : ℝ}

/-- A nonnegative number, possibly infinite. -/
def Fl.NN (x : Fl) : Prop := x = .inf ∨ ∃ v, x = .num v ∧ 0 ≤ v

theorem NN.atLeast {x : Fl} (h : x.NN) : AtLeast 0 x := by
  rcases h with rfl | ⟨v, rfl, h⟩
  · trivial
  · exact h

theorem fit_nn (hA : Rounding A.rnd u tiny) (hbig : 1 < A.big) {v : ℝ} (h : 0 ≤ v) : (A.fit (.num v)).NN := by
  have := rnd_nonneg hA h
  simp only [Arith.fit]
  split_ifs with h1 h2
  · exact Or.inl rfl
  · linarith
  · exact Or.inr ⟨_, rfl, this⟩

theorem add_nn (hA : Rounding A.rnd u tiny) (hbig : 1 < A.big) {x y : Fl} (hx : x.NN) (hy : y.NN) : (A.add x y).NN := by
  rcases hx with rfl | ⟨v, rfl, hv⟩ <;> rcases hy with rfl | ⟨w, rfl, hw⟩
  · exact Or.inl rfl
  · exact Or.inl rfl
  · exact Or.inl rfl
  · exact fit_nn hA hbig (add_nonneg hv hw)

theorem square_nn (hA : Rounding A.rnd u tiny) (hbig : 1 < A.big) (p q : ℝ) :
    (A.mul (A.sub (.num p) (.num q)) (A.sub (.num p) (.num q))).NN := by
  simp only [Arith.sub, Fl.sub, Fl.neg, Fl.add, Arith.fit]
  split_ifs with h1 h2
  · exact Or.inl rfl
  · exact Or.inl rfl
  · exact fit_nn hA hbig (mul_self_nonneg _)

theorem sqDist_nn (hA : Rounding A.rnd u tiny) (hbig : 1 < A.big) (a b : List ℝ) : (A.sqDist a b).NN := by
  have key : ∀ (l : List Fl) (z : Fl), z.NN → (∀ x ∈ l, x.NN) → (l.foldl A.add z).NN := by
    intro l
    induction l with
    | nil => intro z hz _; exact hz
    | cons x l ih =>
      intro z hz hl
      exact ih _ (add_nn hA hbig hz (hl x (by simp))) fun y hy => hl y (by simp [hy])
  refine key _ _ (Or.inr ⟨0, rfl, le_rfl⟩) ?_
  intro x hx
  obtain ⟨i, hi, rfl⟩ := List.getElem_of_mem hx
  rw [List.getElem_zipWith]
  exact square_nn hA hbig _ _

theorem sqDist_self (hA : Rounding A.rnd u tiny) (hbig : 1 < A.big) (a : List ℝ) : A.sqDist a a = .num 0 := by
  have z : A.fit (.num 0) = .num 0 := fit_fix hA (rnd_zero hA) (by rw [abs_zero]; linarith)
  have sq : ∀ p : ℝ, A.mul (A.sub (.num p) (.num p)) (A.sub (.num p) (.num p)) = .num 0 := by
    intro p
    have : A.sub (.num p) (.num p) = .num 0 := by
      simp only [Arith.sub, Fl.sub, Fl.neg, Fl.add, add_neg_cancel]; exact z
    rw [this]
    simp only [Arith.mul, Fl.mul, Fl.scale, mul_zero]
    exact z
  unfold Arith.sqDist
  induction a with
  | nil => rfl
  | cons p a ih =>
    rw [List.zipWith_cons_cons, List.foldl_cons, sq p]
    have : A.add (.num 0) (.num 0) = .num 0 := by simp only [Arith.add, Fl.add, add_zero]; exact z
    rw [this]
    exact ih

theorem fit_neg (hA : Rounding A.rnd u tiny) (hbig : 1 < A.big) (v : ℝ) : A.fit (.num (-v)) = (A.fit (.num v)).neg := by
  simp only [Arith.fit, hA.odd]
  split_ifs <;> first | rfl | linarith

theorem mul_neg_neg (A : Arith) (x : Fl) : A.mul x.neg x.neg = A.mul x x := by
  cases x <;> simp [Arith.mul, Fl.mul, Fl.neg, Fl.scale]

theorem sqDist_comm (hA : Rounding A.rnd u tiny) (hbig : 1 < A.big) (a b : List ℝ) : A.sqDist a b = A.sqDist b a := by
  have sq : ∀ p q : ℝ, A.mul (A.sub (.num p) (.num q)) (A.sub (.num p) (.num q)) =
      A.mul (A.sub (.num q) (.num p)) (A.sub (.num q) (.num p)) := by
    intro p q
    have : A.sub (.num q) (.num p) = (A.sub (.num p) (.num q)).neg := by
      have e1 : A.sub (.num p) (.num q) = A.fit (.num (p + -q)) := rfl
      have e2 : A.sub (.num q) (.num p) = A.fit (.num (q + -p)) := rfl
      rw [e1, e2, ← fit_neg hA hbig]
      congr 2
      ring
    rw [this, mul_neg_neg]
  unfold Arith.sqDist
  rw [List.zipWith_comm]
  congr 2
  funext p q
  exact sq q p

theorem expF_nonneg {A : Arith} (hE : ExpLike A.exp) (x : Fl) : AtLeast 0 (A.expF x) := by
  cases x with
  | num v =>
    simp only [Arith.expF]
    split_ifs
    · trivial
    · exact hE.nonneg v
  | inf => trivial
  | ninf => exact le_refl (0 : ℝ)
  | nan => trivial

theorem gram_nonneg {A : Arith} (hE : ExpLike A.exp) (x y : List (List ℝ)) (σ : ℝ) (i j : ℕ) : AtLeast 0 (A.gram x y σ i j) :=
  expF_nonneg hE _

/-- Nonpositive, possibly infinite. -/
def Fl.NP (x : Fl) : Prop := x = .ninf ∨ ∃ v, x = .num v ∧ v ≤ 0

theorem fit_np (hA : Rounding A.rnd u tiny) (hbig : 1 < A.big) {v : ℝ} (h : v ≤ 0) : (A.fit (.num v)).NP := by
  have h0 := hA.mono h
  rw [rnd_zero hA] at h0
  simp only [Arith.fit]
  split_ifs with h1 h2
  · linarith
  · exact Or.inl rfl
  · exact Or.inr ⟨_, rfl, h0⟩

theorem expF_np (hE : ExpLike A.exp) (hbig : 1 < A.big) {x : Fl} (h : x.NP) : Within 1 (A.expF x) := by
  rcases h with rfl | ⟨v, rfl, hv⟩
  · exact ⟨0, rfl, le_rfl, zero_le_one⟩
  · have := hE.mono hv
    rw [hE.zero] at this
    refine ⟨A.exp v, ?_, hE.nonneg v, this⟩
    simp only [Arith.expF]
    rw [if_neg (by linarith)]

theorem rnd_one (hA : Rounding A.rnd u tiny) : A.rnd 1 = 1 := by
  simpa using rnd_dyadic hA 1 (by norm_num) 0 0 (by norm_num)

theorem rnd_two (hA : Rounding A.rnd u tiny) : A.rnd 2 = 2 := by
  simpa using rnd_dyadic hA 2 (by norm_num) 0 0 (by norm_num)

/-- `log(2 - exp(g))` for a nonpositive `g`: a nonnegative number. -/
theorem logTerm (hA : Rounding A.rnd u tiny) (hE : ExpLike A.exp) (hL : LogLike A.log) (hbig : 2 < A.big) {g : Fl} (h : g.NP) :
    ∃ l, A.logF (A.sub (.num 2) (A.expF g)) = .num l ∧ 0 ≤ l := by
  obtain ⟨e, he, e0, e1⟩ := expF_np hE (by linarith) h
  rw [he]
  have a : (1 : ℝ) ≤ A.rnd (2 + -e) := by
    have := hA.mono (show (1 : ℝ) ≤ 2 + -e by linarith); rwa [rnd_one hA] at this
  have b : A.rnd (2 + -e) ≤ 2 := by
    have := hA.mono (show 2 + -e ≤ (2 : ℝ) by linarith); rwa [rnd_two hA] at this
  have : A.sub (.num 2) (.num e) = .num (A.rnd (2 + -e)) := by
    simp only [Arith.sub, Fl.sub, Fl.neg, Fl.add]
    exact fit_num hA (by rw [abs_of_nonneg (by linarith)]; linarith)
  rw [this]
  refine ⟨A.log (A.rnd (2 + -e)), ?_, hL.nonneg _ a b⟩
  simp only [Arith.logF]
  rw [if_neg (by linarith), if_neg (by linarith)]

theorem gram_within (hA : Rounding A.rnd u tiny) (hE : ExpLike A.exp) (hL : LogLike A.log) (hbig : 2 < A.big) {σ w : ℝ}
    (hw : A.width σ = .num w) (hw0 : 0 < w) (x y : List (List ℝ)) (i j : ℕ) : Within 1 (A.gram x y σ i j) := by
  have hg : (A.div (Fl.neg (A.sqDist (x.getD i []) (y.getD j []))) (A.width σ)).NP := by
    rw [hw]
    rcases sqDist_nn hA (by linarith) (x.getD i []) (y.getD j []) with h | ⟨v, h, hv⟩
    · rw [h]
      left
      simp only [Arith.div, Fl.neg, Arith.quot]
      rw [if_neg (by linarith)]
      rfl
    · rw [h]
      simp only [Arith.div, Fl.neg, Arith.quot]
      rw [if_neg hw0.ne']
      exact fit_np hA (by linarith) (div_nonpos_of_nonpos_of_nonneg (by linarith) hw0.le)
  obtain ⟨l, hl, l0⟩ := logTerm hA hE hL hbig hg
  unfold Arith.gram
  simp only
  rw [hl]
  apply expF_np hE (by linarith)
  rcases hg with h | ⟨v, h, hv⟩
  · rw [h]; exact Or.inl rfl
  · rw [h]
    exact fit_np hA (by linarith) (by linarith)

theorem gram_self (hA : Rounding A.rnd u tiny) (hE : ExpLike A.exp) (hL : LogLike A.log) (hbig : 2 < A.big) {σ w : ℝ}
    (hw : A.width σ = .num w) (hw0 : 0 < w) (x : List (List ℝ)) (i : ℕ) : A.gram x x σ i i = .num 1 := by
  have z : A.fit (.num 0) = .num 0 := fit_fix hA (rnd_zero hA) (by rw [abs_zero]; linarith)
  have e : A.expF (.num 0) = .num 1 := by
    simp only [Arith.expF, hE.zero]; rw [if_neg (by linarith)]
  have g : A.div (Fl.neg (A.sqDist (x.getD i []) (x.getD i []))) (A.width σ) = .num 0 := by
    rw [hw, sqDist_self hA (by linarith)]
    simp only [Arith.div, Fl.neg, Arith.quot, neg_zero, zero_div]
    rw [if_neg hw0.ne', z]
  have s : A.sub (.num 2) (.num 1) = .num 1 := by
    simp only [Arith.sub, Fl.sub, Fl.neg, Fl.add]
    rw [show (2 : ℝ) + -1 = 1 by norm_num]
    exact fit_fix hA (rnd_one hA) (by rw [abs_one]; linarith)
  have l : A.logF (.num 1) = .num 0 := by
    simp only [Arith.logF]; rw [if_neg (by norm_num), if_neg (by norm_num), hL.one]
  have s0 : A.sub (.num 0) (.num 0) = .num 0 := by
    simp only [Arith.sub, Fl.sub, Fl.neg, Fl.add, neg_zero, add_zero]; exact z
  unfold Arith.gram
  simp only [g, e, s, l, s0]

/-- Samples that are close compared to the bandwidth. -/
theorem gram_close (hA : Rounding A.rnd u tiny) (hE : ExpLike A.exp) (hL : LogLike A.log) (hbig : 2 < A.big) {σ w : ℝ}
    (hw : A.width σ = .num w) (hw0 : 0 < w) {x y : List (List ℝ)} {i j : ℕ} {v : ℝ}
    (hv : A.sqDist (x.getD i []) (y.getD j []) = .num v) (hle : v ≤ w / 16) : AtLeast (3 / 4) (A.gram x y σ i j) := by
  have hv0 : 0 ≤ v := by
    rcases sqDist_nn hA (by linarith) (x.getD i []) (y.getD j []) with h | ⟨v', h, h'⟩
    · rw [hv] at h; exact absurd h (by simp)
    · rw [hv] at h; cases h; exact h'
  have f16 : A.rnd (-(1 / 16)) = -(1 / 16) := by
    rw [hA.odd]; congr 1
    have := rnd_dyadic hA 1 (by norm_num) 0 4 (by norm_num)
    norm_num at this; exact this
  have f98 : A.rnd (9 / 8) = 9 / 8 := by
    have := rnd_dyadic hA 9 (by norm_num) 0 3 (by norm_num)
    norm_num at this; exact this
  have f732 : A.rnd (-(7 / 32)) = -(7 / 32) := by
    rw [hA.odd]; congr 1
    have := rnd_dyadic hA 7 (by norm_num) 0 5 (by norm_num)
    norm_num at this; exact this
  -- the exponent
  have q1 : -(1 / 16) ≤ -v / w := by
    rw [le_div_iff₀ hw0]; linarith
  have q2 : -v / w ≤ 0 := div_nonpos_of_nonpos_of_nonneg (by linarith) hw0.le
  have r1 := hA.mono q1
  have r2 := hA.mono q2
  rw [f16] at r1
  rw [rnd_zero hA] at r2
  set r := A.rnd (-v / w) with hr
  have g : A.div (Fl.neg (A.sqDist (x.getD i []) (y.getD j []))) (A.width σ) = .num r := by
    rw [hw, hv]
    simp only [Arith.div, Fl.neg, Arith.quot]
    rw [if_neg hw0.ne']
    exact fit_num hA (by rw [← hr, abs_of_nonpos r2]; linarith)
  -- its exponential
  have c1 := abs_le.1 (hE.close r (by linarith) r2)
  have x1 := Real.add_one_le_exp r
  have x2 := hE.mono r2
  rw [hE.zero] at x2
  set e := A.exp r with he
  have ge : A.expF (.num r) = .num e := by
    simp only [Arith.expF]; rw [if_neg (by linarith)]
  -- the logarithm
  have z1 : (1 : ℝ) ≤ A.rnd (2 + -e) := by
    have := hA.mono (show (1 : ℝ) ≤ 2 + -e by linarith); rwa [rnd_one hA] at this
  have z2 : A.rnd (2 + -e) ≤ 9 / 8 := by
    have := hA.mono (show 2 + -e ≤ (9 / 8 : ℝ) by linarith); rwa [f98] at this
  set z := A.rnd (2 + -e) with hz
  have gs : A.sub (.num 2) (.num e) = .num z := by
    simp only [Arith.sub, Fl.sub, Fl.neg, Fl.add]
    exact fit_num hA (by rw [← hz, abs_of_nonneg (by linarith)]; linarith)
  have c2 := abs_le.1 (hL.close z z1 (by linarith))
  have l1 := Real.log_le_sub_one_of_pos (show 0 < z by linarith)
  have l2 := hL.nonneg z z1 (by linarith)
  have gl : A.logF (.num z) = .num (A.log z) := by
    simp only [Arith.logF]; rw [if_neg (by linarith), if_neg (by linarith)]
  -- the difference
  have d1 : -(7 / 32) ≤ A.rnd (r + -A.log z) := by
    have := hA.mono (show -(7 / 32) ≤ r + -A.log z by linarith); rwa [f732] at this
  have d2 : A.rnd (r + -A.log z) ≤ 0 := by
    have := hA.mono (show r + -A.log z ≤ 0 by linarith); rwa [rnd_zero hA] at this
  set d := A.rnd (r + -A.log z) with hd
  have gd : A.sub (.num r) (.num (A.log z)) = .num d := by
    simp only [Arith.sub, Fl.sub, Fl.neg, Fl.add]
    exact fit_num hA (by rw [← hd, abs_of_nonpos d2]; linarith)
  have c3 := abs_le.1 (hE.close d (by linarith) d2)
  have x3 := Real.add_one_le_exp d
  have x4 := hE.mono d2
  rw [hE.zero] at x4
  have : A.gram x y σ i j = .num (A.exp d) := by
    unfold Arith.gram
    simp only [g, ge, gs, gl, gd]
    simp only [Arith.expF]; rw [if_neg (by linarith)]
  rw [this]
  show (3 / 4 : ℝ) ≤ A.exp d
  linarith

end

/-! ### The kernel -/

section
variable {A : Arith} {u tiny : ℝ}

theorem Fl.add_comm (x y : Fl) : Fl.add x y = Fl.add y x := by
  cases x <;> cases y <;> simp [Fl.add, _root_.add_comm]

theorem Fl.mul_comm (x y : Fl) : Fl.mul x y = Fl.mul y x := by
  cases x <;> cases y <;> simp [Fl.mul, Fl.scale, _root_.mul_comm]

theorem fromGram_swap (A : Arith) (n m : ℕ) (g : Mat Fl) : A.fromGram n m g = A.fromGram m n fun i j => g j i := by
  have h1 := dpLoop_isDP n m (Mat.full true) (fun i j up left diag => A.mul (A.add (A.add up left) diag) (g i j))
    ((Mat.full (Fl.num 0)).set 0 0 (.num 1))
  have h2 := dpLoop_isDP m n (Mat.full true) (fun i j up left diag => A.mul (A.add (A.add up left) diag) (g j i))
    ((Mat.full (Fl.num 0)).set 0 0 (.num 1))
  unfold Arith.fromGram
  set M := dpLoop n m (Mat.full true) (fun i j up left diag => A.mul (A.add (A.add up left) diag) (g i j))
    ((Mat.full (Fl.num 0)).set 0 0 (.num 1))
  set N := dpLoop m n (Mat.full true) (fun i j up left diag => A.mul (A.add (A.add up left) diag) (g j i))
    ((Mat.full (Fl.num 0)).set 0 0 (.num 1))
  have key : ∀ i j, i ≤ n → j ≤ m → M i j = N j i := by
    intro i j hi hj
    induction hs : i + j using Nat.strong_induction_on generalizing i j with
    | _ s ih =>
      rcases i with _ | i
      · rw [h1.row0, h2.col0, Mat.set_apply, Mat.set_apply]; simp only [and_comm]; rfl
      · rcases j with _ | j
        · rw [h1.col0, h2.row0, Mat.set_apply, Mat.set_apply]; simp only [and_comm]; rfl
        · rw [h1.body i j (by omega) (by omega), h2.body j i (by omega) (by omega), if_pos (show Mat.full true _ _ = true from rfl),
            if_pos (show Mat.full true _ _ = true from rfl), ih _ (by omega) i (j + 1) (by omega) hj rfl,
            ih _ (by omega) (i + 1) j hi (by omega) rfl, ih _ (by omega) i j (by omega) (by omega) rfl]
          have : A.add (N (j + 1) i) (N j (i + 1)) = A.add (N j (i + 1)) (N (j + 1) i) := by
            unfold Arith.add; rw [Fl.add_comm]
          simp only [this]
  exact key n m le_rfl le_rfl

theorem unnorm_comm (hA : Rounding A.rnd u tiny) (hbig : 1 < A.big) (x y : List (List ℝ)) (σ : ℝ) :
    A.unnorm x y σ = A.unnorm y x σ := by
  unfold Arith.unnorm
  rw [fromGram_swap]
  congr 1
  funext i j
  unfold Arith.gram
  rw [sqDist_comm hA hbig]

theorem gakF_comm (hA : Rounding A.rnd u tiny) (hbig : 1 < A.big) (x y : List (List ℝ)) (σ : ℝ) :
    A.gakGeneric x y σ = A.gakGeneric y x σ := by
  unfold Arith.gakGeneric
  rw [unnorm_comm hA hbig x y]
  simp only [Arith.mul]
  rw [Fl.mul_comm]

/-- Results of the format are below its limit. -/
theorem fit_lt {A : Arith} {x : Fl} {v : ℝ} (h : A.fit x = .num v) : v < A.big := by
  cases x with
  | num y =>
    simp only [Arith.fit] at h
    split_ifs at h with h1 h2
    cases h
    exact not_le.1 h1
  | _ => cases h

/-- Neither finite nor negative. -/
def Fl.Lost (x : Fl) : Prop := x = .inf ∨ x = .nan

theorem unnorm_lost (hA : Rounding A.rnd u tiny) (hE : ExpLike A.exp) (hL : LogLike A.log) (hbig : 2 < A.big) {σ w : ℝ}
    (hw : A.width σ = .num w) (hw0 : 0 < w) {x : List (List ℝ)} (hx : x ≠ [])
    (hslow : ∀ i, i + 1 < x.length → ∃ v, A.sqDist (x.getD i []) (x.getD (i + 1) []) = .num v ∧ v ≤ w / 16)
    (hlong : A.big ≤ 2 ^ (x.length - 1) / 2) : (A.unnorm x x σ).Lost := by
  have hpos := List.length_pos_iff.2 hx
  have hM := dpLoop_isDP x.length x.length (Mat.full true)
    (fun i j up left diag => A.mul (A.add (A.add up left) diag) (A.gram x x σ i j)) ((Mat.full (Fl.num 0)).set 0 0 (.num 1))
  have hb : ∀ i < x.length, ∀ j < x.length, i ≤ j + 1 → j ≤ i + 1 → AtLeast (3 / 4) (A.gram x x σ i j) := by
    intro i hi j hj h1 h2
    rcases Nat.lt_trichotomy i j with h | rfl | h
    · obtain rfl : j = i + 1 := by omega
      obtain ⟨v, hv, hle⟩ := hslow i hj
      exact gram_close hA hE hL hbig hw hw0 hv hle
    · rw [gram_self hA hE hL hbig hw hw0]
      show (3 / 4 : ℝ) ≤ 1
      norm_num
    · obtain rfl : i = j + 1 := by omega
      obtain ⟨v, hv, hle⟩ := hslow j hi
      rw [sqDist_comm hA (by linarith)] at hv
      exact gram_close hA hE hL hbig hw hw0 hv hle
  obtain ⟨h1, -⟩ := table_doubles hA (by linarith) hM (fun i _ j _ => gram_nonneg hE x x σ i j) hb (x.length - 1) (by omega)
  have e : ∃ y, A.unnorm x x σ = A.fit y := by
    obtain ⟨k, hk⟩ : ∃ k, x.length = k + 1 := ⟨x.length - 1, by omega⟩
    have := hM.body k k (by omega) (by omega)
    rw [if_pos (show Mat.full true _ _ = true from rfl)] at this
    unfold Arith.unnorm Arith.fromGram
    rw [hk] at this ⊢
    rw [this]
    exact ⟨_, rfl⟩
  rw [show x.length - 1 + 1 = x.length by omega] at h1
  have h2 : AtLeast (2 ^ (x.length - 1) / 2) (A.unnorm x x σ) := h1
  obtain ⟨y, hy⟩ := e
  rw [hy] at h2 ⊢
  cases hf : A.fit y with
  | num v =>
    rw [hf] at h2
    have := fit_lt hf
    have h3 : 2 ^ (x.length - 1) / 2 ≤ v := h2
    linarith
  | inf => exact Or.inl rfl
  | nan => exact Or.inr rfl
  | ninf => rw [hf] at h2; exact h2.elim

theorem gakF_lost {A : Arith} {x : List (List ℝ)} {σ : ℝ} (h : (A.unnorm x x σ).Lost) : A.gakGeneric x x σ = .nan := by
  unfold Arith.gakGeneric
  rcases h with h | h <;> rw [h] <;> rfl

/-- No overflow. -/
theorem unnorm_within (hA : Rounding A.rnd u tiny) (hE : ExpLike A.exp) (hL : LogLike A.log) (hbig : 2 < A.big) {σ w : ℝ}
    (hw : A.width σ = .num w) (hw0 : 0 < w) {x y : List (List ℝ)} (hx : x ≠ [])
    (hshort : (4 : ℝ) ^ (x.length + y.length) / 16 < A.big) : Within (4 ^ (x.length + y.length) / 16) (A.unnorm x y σ) := by
  have hpos := List.length_pos_iff.2 hx
  exact table_within hA (dpLoop_isDP ..) (fun i _ j _ => gram_within hA hE hL hbig hw hw0 x y i j) hshort (by linarith) _ _ le_rfl
    le_rfl (by omega)

theorem unnorm_self_ge (hA : Rounding A.rnd u tiny) (hE : ExpLike A.exp) (hL : LogLike A.log) (hbig : 2 < A.big) {σ w : ℝ}
    (hw : A.width σ = .num w) (hw0 : 0 < w) (x : List (List ℝ)) : AtLeast 1 (A.unnorm x x σ) :=
  table_diag hA (by linarith) (dpLoop_isDP ..) (fun i _ j _ => gram_nonneg hE x x σ i j)
    (fun i _ => by rw [gram_self hA hE hL hbig hw hw0]; exact le_refl (1 : ℝ)) _ le_rfl

/-- Square roots of numbers from 1 to `b ^ 2`. -/
theorem sqrtF (hA : Rounding A.rnd u tiny) {v b : ℝ} (h1 : 1 ≤ v) (hb0 : 0 ≤ b) (hv : v ≤ b ^ 2) (hb : A.rnd b = b) (hlt : b < A.big) :
    ∃ s, A.sqrt (.num v) = .num s ∧ s = A.rnd (Real.sqrt v) ∧ 1 ≤ s ∧ s ≤ b := by
  have h2 : (1 : ℝ) ≤ Real.sqrt v := Real.one_le_sqrt.2 h1
  have h3 : Real.sqrt v ≤ b := (Real.sqrt_le_left hb0).2 hv
  have h4 := hA.mono h2
  have h5 := hA.mono h3
  rw [rnd_one hA] at h4
  rw [hb] at h5
  refine ⟨_, ?_, rfl, h4, h5⟩
  simp only [Arith.sqrt, Arith.root]
  rw [if_neg (by linarith)]
  exact fit_num hA (by rw [abs_of_nonneg (by linarith)]; linarith)

theorem rnd_pow4 (hA : Rounding A.rnd u tiny) (s : ℕ) : A.rnd (4 ^ s / 16) = 4 ^ s / 16 := by
  have h := rnd_dyadic hA 1 (by norm_num) (2 * s) 4 (by norm_num)
  have e : (4 : ℝ) ^ s = 2 ^ (2 * s) := by rw [pow_mul]; norm_num
  rw [e]
  convert h using 2 <;> norm_num

theorem rnd_pow4' (hA : Rounding A.rnd u tiny) (s : ℕ) : A.rnd (4 ^ s / 4) = 4 ^ s / 4 := by
  have h := rnd_dyadic hA 1 (by norm_num) (2 * s) 2 (by norm_num)
  have e : (4 : ℝ) ^ s = 2 ^ (2 * s) := by rw [pow_mul]; norm_num
  rw [e]
  convert h using 2 <;> norm_num

/-- The denominator of `gak`. -/
theorem denomF (hA : Rounding A.rnd u tiny) {n m : ℕ} (hn : 0 < n) (hm : 0 < m)
    (hlt : (4 : ℝ) ^ (n + m) / 16 < A.big) {a b : ℝ} (ha : 1 ≤ a) (hb : 1 ≤ b)
    (ha' : a ≤ 4 ^ (n + n) / 16) (hb' : b ≤ 4 ^ (m + m) / 16) : ∃ p, A.mul (A.sqrt (.num a)) (A.sqrt (.num b)) = .num p ∧ 1 ≤ p ∧
      p = A.rnd (A.rnd (Real.sqrt a) * A.rnd (Real.sqrt b)) := by
  have four : ∀ k, (4 : ℝ) ^ (k + k) / 16 = (4 ^ k / 4) ^ 2 := by intro k; rw [pow_add]; ring
  have e : (4 : ℝ) ^ (n + m) / 16 = 4 ^ n / 4 * (4 ^ m / 4) := by rw [pow_add]; ring
  have l1 : ∀ k, 0 < k → (1 : ℝ) ≤ 4 ^ k / 4 := by
    intro k hk
    have : (4 : ℝ) ^ 1 ≤ 4 ^ k := pow_le_pow_right₀ (by norm_num) hk
    linarith
  have ln := l1 n hn
  have lm := l1 m hm
  obtain ⟨s, es, rs, s1, s2⟩ := sqrtF hA ha (by positivity) (by rw [← four]; exact ha') (rnd_pow4' hA n) (by rw [e] at hlt; nlinarith)
  obtain ⟨t, et, rt, t1, t2⟩ := sqrtF hA hb (by positivity) (by rw [← four]; exact hb') (rnd_pow4' hA m) (by rw [e] at hlt; nlinarith)
  have q1 : 1 ≤ s * t := by nlinarith
  have q2 : s * t ≤ 4 ^ (n + m) / 16 := by rw [e]; exact mul_le_mul s2 t2 (by linarith) (by linarith)
  have m1 := hA.mono q1
  have m2 := hA.mono q2
  rw [rnd_one hA] at m1
  rw [rnd_pow4 hA] at m2
  refine ⟨A.rnd (s * t), ?_, m1, by rw [← rs, ← rt]⟩
  rw [es, et]
  simp only [Arith.mul, Fl.mul, Fl.scale]
  exact fit_num hA (by rw [abs_of_nonneg (by linarith)]; linarith)

end
end
end Verif
