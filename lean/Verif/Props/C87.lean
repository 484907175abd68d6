import Verif.Props.C35
import Mathlib.Tactic.Positivity
import Mathlib.Tactic.FieldSimp
/-!
# C87 — symmetries and bounds of the matrix profile, and `MatrixProfile` as an object
-/
set_option linter.unusedSectionVars false
namespace Verif
open Spec

/-- The dataset with `n` univariate series of `sz` samples and these values. -/
def univariate (n sz : ℕ) (x : ℕ → ℕ → ℝ) : Arr3 ℝ := Arr3.build n sz 1 fun l t _ => some (x l t)

/-- What `scale` makes of a subsequence. -/
def Prepared (scale : Bool) (m : ℕ) (y z : ℕ → ℝ) : Prop := if scale then IsZNorm m y z else ∀ k < m, z k = y k

/-- The profile at position `i` of series `l`. -/
noncomputable def profileAt (m : ℕ) (scale : Bool) (n sz : ℕ) (x : ℕ → ℕ → ℝ) (l i : ℕ) : Option (WithTop ℝ) :=
  match mpTransform .numpy m scale (univariate n sz x) with
  | .ok Y => (Y.getD l []).getD i none
  | .error _ => none

theorem segDist_congr {m i j i' j' : ℕ} {z z' : ℕ → ℕ → ℝ} (h : ∀ k < m, (z i k - z j k) ^ 2 = (z' i' k - z' j' k) ^ 2) :
    segDist m z i j = segDist m z' i' j' := by
  unfold segDist
  congr 1
  exact Finset.sum_congr rfl fun k hk => h k (Finset.mem_range.1 hk)

theorem isProfile_unique {m n i : ℕ} {z : ℕ → ℕ → ℝ} {v w : WithTop ℝ} (hv : IsProfile m n z i v) (hw : IsProfile m n z i w) : v = w := by
  induction v with
  | top => exact (hw.1.2 (hv.1.1 rfl)).symm
  | coe r => exact ((hw.2 r).2 ((hv.2 r).1 rfl)).symm

/-- Every profile entry is a number or infinity. -/
theorem profile_spec (m : ℕ) (hm : 0 < m) (scale : Bool) (n sz : ℕ) (hms : m ≤ sz) (x : ℕ → ℕ → ℝ) (l : ℕ) (hl : l < n) :
    ∃ y : ℕ → ℕ → ℝ, (∀ i < sz - m + 1, Prepared scale m (fun k => x l (i + k)) (y i)) ∧
      ∀ i < sz - m + 1, ∃ v, profileAt m scale n sz x l i = some v ∧ IsProfile m (sz - m + 1) y i v := by
  have hlen : (univariate n sz x).data.length = n := Arr3.build_length _ _ _ _
  have hne : (univariate n sz x).data ≠ [] := by intro e; rw [e] at hlen; simp at hlen; omega
  have hx : ∀ l < (univariate n sz x).data.length, ∀ t < (univariate n sz x).sz, (univariate n sz x).entry l t 0 = some (x l t) := by
    intro l hl t ht
    rw [hlen] at hl
    exact Arr3.build_entry hl ht (by decide)
  have hsz : (univariate n sz x).sz = sz := rfl
  cases scale with
  | false =>
    obtain ⟨Y, h1, h2, h3⟩ := C35_raw (univariate n sz x) x hne rfl hx m hm hms
    obtain ⟨h4, h5⟩ := h3 l (by rw [hlen]; exact hl)
    refine ⟨fun i k => x l (i + k), fun i hi => by simp [Prepared], fun i hi => ?_⟩
    obtain ⟨v, h6, h7, h8⟩ := h5 i hi
    exact ⟨v, by unfold profileAt; rw [h1]; exact h6, h7, h8⟩
  | true =>
    obtain ⟨Y, h1, h2, h3⟩ := C35_scaled (univariate n sz x) x hne rfl hx m hm hms
    obtain ⟨y, h0, h4, h5⟩ := h3 l (by rw [hlen]; exact hl)
    refine ⟨y, fun i hi => by simpa [Prepared] using h0 i hi, fun i hi => ?_⟩
    obtain ⟨v, h6, h7, h8⟩ := h5 i hi
    exact ⟨v, by unfold profileAt; rw [h1]; exact h6, h7, h8⟩

theorem isProfile_congr {m n i i' : ℕ} {z z' : ℕ → ℕ → ℝ} {v : WithTop ℝ} (f : ℕ → ℕ) (hf : ∀ j < n, f j < n) (hff : ∀ j < n, f (f j) = j)
    (ho : ∀ j < n, Outside m i j ↔ Outside m i' (f j)) (h : ∀ j < n, segDist m z i j = segDist m z' i' (f j))
    (hv : IsProfile m n z i v) : IsProfile m n z' i' v := by
  have hE : (∃ j < n, Outside m i j) ↔ ∃ j < n, Outside m i' j :=
    ⟨fun ⟨j, hj, hj'⟩ => ⟨f j, hf j hj, (ho j hj).1 hj'⟩, fun ⟨j, hj, hj'⟩ => ⟨f j, hf j hj, (ho _ (hf j hj)).2 (by rwa [hff j hj])⟩⟩
  have hM : matches_ m n z i = matches_ m n z' i' := by
    ext D
    constructor
    · rintro ⟨j, hj, hj', rfl⟩
      exact ⟨f j, hf j hj, (ho j hj).1 hj', h j hj⟩
    · rintro ⟨j, hj, hj', rfl⟩
      refine ⟨f j, hf j hj, (ho _ (hf j hj)).2 (by rwa [hff j hj]), ?_⟩
      rw [h _ (hf j hj), hff j hj]
  unfold IsProfile at hv ⊢
  rw [← hE, ← hM]
  exact hv

theorem znorm_unique {m : ℕ} (hm : 0 < m) {y z z' : ℕ → ℝ} (h : IsZNorm m y z) (h' : IsZNorm m y z') : ∀ k < m, z k = z' k := by
  obtain ⟨a, s, h1, h2, h3, h4⟩ := h
  obtain ⟨a', s', h1', h2', h3', h4'⟩ := h'
  have hm' : (m : ℝ) ≠ 0 := by exact_mod_cast hm.ne'
  have ea : a = a' := mul_left_cancel₀ hm' (h1.trans h1'.symm)
  subst ea
  have es : s = s' := by
    have : s ^ 2 = s' ^ 2 := mul_left_cancel₀ hm' (h3.trans h3'.symm)
    exact (pow_left_inj₀ h2 h2' (by norm_num)).1 this
  subst es
  intro k hk
  rw [h4 k hk, h4' k hk]

/-- Standardising an affine image gives the same up to the sign. -/
theorem znorm_affine {m : ℕ} {y z : ℕ → ℝ} (h : IsZNorm m y z) (a b : ℝ) (ha : a ≠ 0) :
    IsZNorm m (fun k => a * y k + b) fun k => (if 0 < a then 1 else -1) * z k := by
  obtain ⟨mean, s, h1, h2, h3, h4⟩ := h
  refine ⟨a * mean + b, |a| * s, ?_, by positivity, ?_, ?_⟩
  · rw [Finset.sum_add_distrib, ← Finset.mul_sum, ← h1, Finset.sum_const, Finset.card_range, nsmul_eq_mul]
    ring
  · rw [mul_pow, sq_abs, mul_left_comm, h3, Finset.mul_sum]
    exact Finset.sum_congr rfl fun k _ => by ring
  · intro k hk
    beta_reduce
    rw [h4 k hk]
    by_cases hs : s = 0
    · subst hs
      have h0 : ∀ k < m, y k - mean = 0 := by
        intro k hk
        have : ∑ k ∈ Finset.range m, (y k - mean) ^ 2 = 0 := by rw [← h3]; ring
        rw [Finset.sum_eq_zero_iff_of_nonneg fun _ _ => by positivity] at this
        exact pow_eq_zero_iff (n := 2) (by norm_num) |>.1 (this k (Finset.mem_range.2 hk))
      rw [h0 k hk]
      have e : a * y k + b - (a * mean + b) = a * (y k - mean) := by ring
      rw [e, h0 k hk]
      simp
    · have hs' : |a| * s ≠ 0 := mul_ne_zero (abs_ne_zero.2 ha) hs
      rw [if_neg hs, if_neg hs']
      rcases lt_or_gt_of_ne ha with h | h
      · rw [if_neg (by linarith), abs_of_neg h]
        field_simp
        ring
      · rw [if_pos h, abs_of_pos h]
        field_simp
        ring

/-- With scaling, replacing a series by `a x + b`, also with negative `a`, does not change its profile. -/
theorem C87_affine_scaled (m : ℕ) (hm : 0 < m) (n sz : ℕ) (hms : m ≤ sz) (x : ℕ → ℕ → ℝ) (a b : ℕ → ℝ) (l : ℕ) (hl : l < n)
    (ha : a l ≠ 0) (i : ℕ) (hi : i < sz - m + 1) :
    profileAt m true n sz (fun l t => a l * x l t + b l) l i = profileAt m true n sz x l i := by
  obtain ⟨y, hy, hv⟩ := profile_spec m hm true n sz hms x l hl
  obtain ⟨y', hy', hv'⟩ := profile_spec m hm true n sz hms (fun l t => a l * x l t + b l) l hl
  obtain ⟨v, h1, h2⟩ := hv i hi
  obtain ⟨v', h1', h2'⟩ := hv' i hi
  simp only [Prepared, if_true] at hy hy'
  have hk : ∀ i < sz - m + 1, ∀ k < m, y' i k = (if 0 < a l then 1 else -1) * y i k := fun i hi =>
    znorm_unique hm (hy' i hi) (znorm_affine (hy i hi) (a l) (b l) ha)
  have h3 : IsProfile m (sz - m + 1) y i v' := by
    refine isProfile_congr id (fun j hj => hj) (fun j hj => rfl) (fun j hj => Iff.rfl) (fun j hj => segDist_congr fun k hkm => ?_) h2'
    rw [hk i hi k hkm]
    simp only [id]
    rw [hk j hj k hkm]
    split_ifs <;> ring
  rw [h1, h1', isProfile_unique h2 h3]

theorem segDist_smul {m i j : ℕ} {z z' : ℕ → ℕ → ℝ} (a : ℝ) (h : ∀ k < m, z' i k - z' j k = a * (z i k - z j k)) :
    segDist m z' i j = |a| * segDist m z i j := by
  unfold segDist
  rw [← Real.sqrt_sq_eq_abs, ← Real.sqrt_mul (sq_nonneg a), Finset.mul_sum]
  congr 1
  refine Finset.sum_congr rfl fun k hk => ?_
  rw [h k (Finset.mem_range.1 hk)]
  ring

/-- Without scaling, the profile of `a x + b` is `|a|` times that of `x` (infinite entries stay). -/
theorem C87_affine_raw (m : ℕ) (hm : 0 < m) (n sz : ℕ) (hms : m ≤ sz) (x : ℕ → ℕ → ℝ) (a b : ℕ → ℝ) (l : ℕ) (hl : l < n)
    (i : ℕ) (hi : i < sz - m + 1) :
    profileAt m false n sz (fun l t => a l * x l t + b l) l i =
      (profileAt m false n sz x l i).map fun v => WithTop.map (fun r => |a l| * r) v := by
  obtain ⟨y, hy, hv⟩ := profile_spec m hm false n sz hms x l hl
  obtain ⟨y', hy', hv'⟩ := profile_spec m hm false n sz hms (fun l t => a l * x l t + b l) l hl
  obtain ⟨v, h1, h2⟩ := hv i hi
  obtain ⟨v', h1', h2'⟩ := hv' i hi
  simp only [Prepared, Bool.false_eq_true, if_false] at hy hy'
  have hd : ∀ j < sz - m + 1, segDist m y' i j = |a l| * segDist m y i j := fun j hj => segDist_smul (a l) fun k hk => by
    rw [hy' i hi k hk, hy' j hj k hk, hy i hi k hk, hy j hj k hk]
    ring
  rw [h1, h1']
  simp only [Option.map_some]
  congr 1
  induction v with
  | top =>
    rw [WithTop.map_top]
    exact h2'.1.2 (h2.1.1 rfl)
  | coe r =>
    rw [WithTop.map_coe, h2'.2]
    obtain ⟨⟨j, hj, ho, hr⟩, hle⟩ := (h2.2 r).1 rfl
    refine ⟨⟨j, hj, ho, by rw [hd j hj, hr]⟩, ?_⟩
    rintro D ⟨j', hj', ho', rfl⟩
    rw [hd j' hj']
    exact mul_le_mul_of_nonneg_left (hle ⟨j', hj', ho', rfl⟩) (abs_nonneg _)

theorem znorm_reverse {m : ℕ} {y z : ℕ → ℝ} (h : IsZNorm m y z) : IsZNorm m (fun k => y (m - 1 - k)) fun k => z (m - 1 - k) := by
  obtain ⟨mean, s, h1, h2, h3, h4⟩ := h
  refine ⟨mean, s, ?_, h2, ?_, fun k hk => h4 _ (by omega)⟩
  · rw [Finset.sum_range_reflect]
    exact h1
  · rw [Finset.sum_range_reflect fun k => (y k - mean) ^ 2]
    exact h3

theorem isZNorm_congr {m : ℕ} {y y' z : ℕ → ℝ} (h : IsZNorm m y z) (e : ∀ k < m, y' k = y k) : IsZNorm m y' z := by
  obtain ⟨mean, s, h1, h2, h3, h4⟩ := h
  refine ⟨mean, s, ?_, h2, ?_, fun k hk => by rw [h4 k hk, e k hk]⟩
  · rw [h1]
    exact Finset.sum_congr rfl fun k hk => (e k (Finset.mem_range.1 hk)).symm
  · rw [h3]
    exact Finset.sum_congr rfl fun k hk => by rw [e k (Finset.mem_range.1 hk)]

theorem outside_reflect {m n i j : ℕ} (hi : i < n) (hj : j < n) : Outside m i j ↔ Outside m (n - 1 - i) (n - 1 - j) := by
  unfold Outside
  have e : ((n - 1 - i : ℕ) : ℤ) - ((n - 1 - j : ℕ) : ℤ) = -((i : ℤ) - (j : ℤ)) := by omega
  rw [e, abs_neg]

/-- Reading the series backwards reverses the profile. -/
theorem C87_reverse (m : ℕ) (hm : 0 < m) (scale : Bool) (n sz : ℕ) (hms : m ≤ sz) (x : ℕ → ℕ → ℝ) (l : ℕ) (hl : l < n)
    (i : ℕ) (hi : i < sz - m + 1) :
    profileAt m scale n sz (fun l t => x l (sz - 1 - t)) l i = profileAt m scale n sz x l (sz - m - i) := by
  obtain ⟨y, hy, hv⟩ := profile_spec m hm scale n sz hms x l hl
  obtain ⟨y', hy', hv'⟩ := profile_spec m hm scale n sz hms (fun l t => x l (sz - 1 - t)) l hl
  obtain ⟨v, h1, h2⟩ := hv (sz - m - i) (by omega)
  obtain ⟨v', h1', h2'⟩ := hv' i hi
  have hk : ∀ i < sz - m + 1, ∀ k < m, y' i k = y (sz - m - i) (m - 1 - k) := by
    intro i hi
    have p := hy (sz - m - i) (by omega)
    have p' := hy' i hi
    unfold Prepared at p p'
    have e : ∀ k < m, x l (sz - 1 - (i + k)) = x l (sz - m - i + (m - 1 - k)) := fun k hk => by
      congr 1
      omega
    cases scale with
    | false =>
      simp only [Bool.false_eq_true, if_false] at p p'
      intro k hk
      rw [p' k hk, p _ (by omega), e k hk]
    | true =>
      simp only [if_true] at p p'
      exact znorm_unique hm p' (isZNorm_congr (znorm_reverse p) e)
  have h3 : IsProfile m (sz - m + 1) y (sz - m - i) v' := by
    refine isProfile_congr (fun j => sz - m - j) (fun j hj => by omega) (fun j hj => by omega) (fun j hj => ?_) (fun j hj => ?_) h2'
    · have := outside_reflect (m := m) hi hj
      simpa using this
    · unfold segDist
      congr 1
      rw [← Finset.sum_range_reflect (fun k => (y (sz - m - i) k - y (sz - m - j) k) ^ 2)]
      refine Finset.sum_congr rfl fun k hkm => ?_
      rw [Finset.mem_range] at hkm
      rw [hk i hi k hkm, hk j hj k hkm]
  rw [h1, h1', isProfile_unique h2 h3]

/-- The profile of a series depends on that series only. -/
theorem C87_own_series (m : ℕ) (hm : 0 < m) (scale : Bool) (n n' sz : ℕ) (hms : m ≤ sz) (x x' : ℕ → ℕ → ℝ) (l l' : ℕ) (hl : l < n)
    (hl' : l' < n') (e : ∀ t < sz, x l t = x' l' t) (i : ℕ) (hi : i < sz - m + 1) :
    profileAt m scale n sz x l i = profileAt m scale n' sz x' l' i := by
  obtain ⟨y, hy, hv⟩ := profile_spec m hm scale n sz hms x l hl
  obtain ⟨y', hy', hv'⟩ := profile_spec m hm scale n' sz hms x' l' hl'
  obtain ⟨v, h1, h2⟩ := hv i hi
  obtain ⟨v', h1', h2'⟩ := hv' i hi
  have hk : ∀ i < sz - m + 1, ∀ k < m, y' i k = y i k := by
    intro i hi
    have p := hy i hi
    have p' := hy' i hi
    unfold Prepared at p p'
    have e' : ∀ k < m, x l (i + k) = x' l' (i + k) := fun k hk => e _ (by omega)
    cases scale with
    | false =>
      simp only [Bool.false_eq_true, if_false] at p p'
      intro k hk
      rw [p' k hk, p k hk, e' k hk]
    | true =>
      simp only [if_true] at p p'
      exact znorm_unique hm p' (isZNorm_congr p fun k hk => (e' k hk).symm)
  have h3 : IsProfile m (sz - m + 1) y i v' :=
    isProfile_congr id (fun j hj => hj) (fun j hj => rfl) (fun j hj => Iff.rfl)
      (fun j hj => segDist_congr fun k hkm => by rw [hk i hi k hkm]; simp only [id]; rw [hk j hj k hkm]) h2'
  rw [h1, h1', isProfile_unique h2 h3]

theorem znorm_square {m : ℕ} {y z : ℕ → ℝ} (h : IsZNorm m y z) : ∑ k ∈ Finset.range m, z k ^ 2 ≤ m := by
  obtain ⟨mean, s, h1, h2, h3, h4⟩ := h
  have e : ∑ k ∈ Finset.range m, z k ^ 2 = (∑ k ∈ Finset.range m, (y k - mean) ^ 2) / (if s = 0 then 1 else s) ^ 2 := by
    rw [Finset.sum_div]
    exact Finset.sum_congr rfl fun k hk => by rw [h4 k (Finset.mem_range.1 hk), div_pow]
  rw [e, ← h3]
  by_cases hs : s = 0
  · subst hs
    simp
  · rw [if_neg hs, mul_div_assoc, div_self (by positivity), mul_one]

/-- With scaling no finite entry exceeds twice the root of the subsequence length. -/
theorem C87_bound (m : ℕ) (hm : 0 < m) (n sz : ℕ) (hms : m ≤ sz) (x : ℕ → ℕ → ℝ) (l : ℕ) (hl : l < n) (i : ℕ) (hi : i < sz - m + 1)
    (r : ℝ) (hr : profileAt m true n sz x l i = some (r : WithTop ℝ)) : 0 ≤ r ∧ r ≤ 2 * Real.sqrt m := by
  obtain ⟨y, hy, hv⟩ := profile_spec m hm true n sz hms x l hl
  obtain ⟨v, h1, h2⟩ := hv i hi
  rw [hr] at h1
  injection h1 with h1
  obtain ⟨⟨j, hj, -, rfl⟩, -⟩ := (h2.2 r).1 h1.symm
  simp only [Prepared, if_true] at hy
  refine ⟨Real.sqrt_nonneg _, ?_⟩
  unfold segDist
  have e : 2 * Real.sqrt m = Real.sqrt (4 * m) := by
    rw [Real.sqrt_mul (by norm_num), show (4 : ℝ) = 2 ^ 2 by norm_num, Real.sqrt_sq (by norm_num)]
  rw [e]
  apply Real.sqrt_le_sqrt
  have hi' := znorm_square (hy i hi)
  have hj' := znorm_square (hy j hj)
  have : ∑ k ∈ Finset.range m, (y i k - y j k) ^ 2 ≤ ∑ k ∈ Finset.range m, (2 * y i k ^ 2 + 2 * y j k ^ 2) :=
    Finset.sum_le_sum fun k _ => by nlinarith [sq_nonneg (y i k + y j k)]
  rw [Finset.sum_add_distrib, ← Finset.mul_sum, ← Finset.mul_sum] at this
  linarith

/-- Without scaling, longer subsequences have no nearer matches. -/
theorem C87_longer (m m' : ℕ) (hm : 0 < m) (hmm : m ≤ m') (n sz : ℕ) (hms : m' ≤ sz) (x : ℕ → ℕ → ℝ) (l : ℕ) (hl : l < n) (i : ℕ)
    (hi : i < sz - m' + 1) :
    ∃ v v', profileAt m false n sz x l i = some v ∧ profileAt m' false n sz x l i = some v' ∧ v ≤ v' := by
  obtain ⟨y, hy, hv⟩ := profile_spec m hm false n sz (by omega) x l hl
  obtain ⟨y', hy', hv'⟩ := profile_spec m' (by omega) false n sz hms x l hl
  obtain ⟨v, h1, h2⟩ := hv i (by omega)
  obtain ⟨v', h1', h2'⟩ := hv' i hi
  simp only [Prepared, Bool.false_eq_true, if_false] at hy hy'
  refine ⟨v, v', h1, h1', ?_⟩
  induction v' with
  | top => exact le_top
  | coe r' =>
    obtain ⟨⟨j, hj, ho, rfl⟩, -⟩ := (h2'.2 r').1 rfl
    have ho' : Outside m i j := by
      unfold Outside at ho ⊢
      refine lt_of_le_of_lt (Int.ceil_le_ceil ?_) ho
      have : (m : ℝ) ≤ m' := by exact_mod_cast hmm
      linarith
    have hle : segDist m y i j ≤ segDist m' y' i j := by
      unfold segDist
      apply Real.sqrt_le_sqrt
      calc ∑ k ∈ Finset.range m, (y i k - y j k) ^ 2 = ∑ k ∈ Finset.range m, (y' i k - y' j k) ^ 2 := by
            refine Finset.sum_congr rfl fun k hk => ?_
            rw [Finset.mem_range] at hk
            rw [hy i (by omega) k hk, hy j (by omega) k hk, hy' i hi k (by omega), hy' j hj k (by omega)]
        _ ≤ _ := Finset.sum_le_sum_of_subset_of_nonneg (by simpa using hmm) fun _ _ _ => sq_nonneg _
    induction v with
    | top => exact absurd ⟨j, by omega, ho'⟩ (h2.1.1 rfl)
    | coe r =>
      exact WithTop.coe_le_coe.2 (le_trans (((h2.2 r).1 rfl).2 ⟨j, by omega, ho', rfl⟩) hle)

theorem outside_symm {m i j : ℕ} (h : Outside m i j) : Outside m j i := by
  unfold Outside at h ⊢
  rwa [abs_sub_comm]

theorem segDist_symm (m : ℕ) (z : ℕ → ℕ → ℝ) (i j : ℕ) : segDist m z i j = segDist m z j i := segDist_congr fun k _ => by ring

/-- Motifs come in pairs: an entry that is the least of the profile occurs again outside its exclusion zone. -/
theorem C87_motif (m : ℕ) (hm : 0 < m) (scale : Bool) (n sz : ℕ) (hms : m ≤ sz) (x : ℕ → ℕ → ℝ) (l : ℕ) (hl : l < n) (i : ℕ)
    (hi : i < sz - m + 1) (r : ℝ) (hr : profileAt m scale n sz x l i = some (r : WithTop ℝ))
    (hmin : ∀ j < sz - m + 1, ∀ w, profileAt m scale n sz x l j = some w → (r : WithTop ℝ) ≤ w) :
    ∃ j < sz - m + 1, Outside m i j ∧ profileAt m scale n sz x l j = some (r : WithTop ℝ) := by
  obtain ⟨y, hy, hv⟩ := profile_spec m hm scale n sz hms x l hl
  obtain ⟨v, h1, h2⟩ := hv i hi
  rw [hr] at h1
  injection h1 with h1
  obtain ⟨⟨j, hj, ho, hrj⟩, -⟩ := (h2.2 r).1 h1.symm
  obtain ⟨w, h3, h4⟩ := hv j hj
  refine ⟨j, hj, ho, ?_⟩
  have hge := hmin j hj w h3
  have hmem : r ∈ matches_ m (sz - m + 1) y j := ⟨i, hi, outside_symm ho, by rw [hrj, segDist_symm]⟩
  rw [h3]
  congr 1
  induction w with
  | top => exact absurd ⟨i, hi, outside_symm ho⟩ (h4.1.1 rfl)
  | coe q =>
    exact le_antisymm (WithTop.coe_le_coe.2 (((h4.2 q).1 rfl).2 hmem)) hge

/-! ### The object -/

/-- The number of features of the last fit of a history that did not raise. -/
def fittedDims : Option ℕ → List MpCmd → Option ℕ
  | d, [] => d
  | d, .fit X :: h => fittedDims (if X.data = [] then d else some X.d) h
  | d, .fitTransform X :: h => fittedDims (if X.data = [] then d else some X.d) h
  | d, _ :: h => fittedDims d h

/-- The parameters in force after a history. -/
def currentParams : ℕ × MpImpl × Bool → List MpCmd → ℕ × MpImpl × Bool
  | p, [] => p
  | _, .setParams m impl scale :: h => currentParams (m, impl, scale) h
  | p, _ :: h => currentParams p h

/-- After any history, `transform` is refused until a fit succeeded, then for another number of features than the last fit, and answers
from the parameters in force and its own argument only. -/
theorem C87_history (e : MpEst) (h : List MpCmd) (X : Arr3 ℝ) (hX : X.data ≠ []) :
    (h.foldl MpEst.step e).transform X = match fittedDims e.dims h with
      | none => .error .notFitted
      | some d => if X.d = d then mpTransform (currentParams (e.m, e.impl, e.scale) h).2.1 (currentParams (e.m, e.impl, e.scale) h).1
          (currentParams (e.m, e.impl, e.scale) h).2.2 X else .error .valueError := by
  induction h generalizing e with
  | nil =>
    simp only [List.foldl_nil, MpEst.transform, fittedDims, currentParams, if_neg hX]
    cases e.dims with
    | none => rfl
    | some d =>
      by_cases hd : X.d = d <;> simp [hd]
  | cons c h ih =>
    rw [List.foldl_cons, ih]
    cases c with
    | setParams m impl scale => rfl
    | fit Z =>
      simp only [MpEst.step, MpEst.fit, fittedDims, currentParams]
      by_cases hZ : Z.data = [] <;> simp [hZ]
    | transform Z => rfl
    | fitTransform Z =>
      simp only [MpEst.step, MpEst.fitTransform, fittedDims, currentParams]
      by_cases hZ : Z.data = [] <;> simp [hZ]

/-- `fit_transform(X)` is `fit(X)` followed by `transform(X)`. -/
theorem C87_fit_transform (e : MpEst) (X : Arr3 ℝ) :
    (e.fitTransform X).1 = (e.fit X).1 ∧
      (e.fitTransform X).2 = match (e.fit X).2 with
        | .ok () => (e.fit X).1.transform X
        | .error x => .error x := by
  unfold MpEst.fitTransform MpEst.fit MpEst.transform
  by_cases hX : X.data = [] <;> simp [hX]

/-! ### Cases -/

/-- Hypotheses of the theorems: a series of five samples, subsequences of two, position one. -/
example : 0 < 2 ∧ 2 ≤ 5 ∧ 1 < 5 - 2 + 1 ∧ Outside 2 1 3 := by
  refine ⟨by norm_num, by norm_num, by norm_num, ?_⟩
  rw [← mpBand_iff]
  decide

/-- A profile with finite entries: `0, 5, 1` with subsequences of one sample, positions zero and two are at distance one. -/
example : profileAt 1 false 1 3 (fun _ t => [0, 5, 1].getD t 0) 0 0 = some ((1 : ℝ) : WithTop ℝ) := by
  obtain ⟨y, hy, hv⟩ := profile_spec 1 (by norm_num) false 1 3 (by norm_num) (fun _ t => [0, 5, 1].getD t 0) 0 (by norm_num)
  obtain ⟨v, h1, h2⟩ := hv 0 (by norm_num)
  simp only [Prepared, Bool.false_eq_true, if_false] at hy
  rw [h1]
  congr 1
  have e0 := hy 0 (by norm_num) 0 (by norm_num)
  have e2 := hy 2 (by norm_num) 0 (by norm_num)
  have hd : segDist 1 y 0 2 = 1 := by
    unfold segDist
    rw [Finset.sum_range_one, e0, e2]
    norm_num
  rw [h2.2]
  refine ⟨⟨2, by norm_num, by rw [← mpBand_iff]; decide, hd.symm⟩, ?_⟩
  rintro D ⟨j, hj, ho, rfl⟩
  rw [← mpBand_iff] at ho
  have : j = 2 := by
    have hj : j < 3 := hj
    interval_cases j
    · revert ho; decide
    · revert ho; decide
    · rfl
  subst this
  rw [hd]

end Verif
