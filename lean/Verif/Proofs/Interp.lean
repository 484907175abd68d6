import Verif.Model.Interp
import Verif.Proofs.Scaler
import Mathlib.Data.List.GetD
/-!
Lemmas on `numpy.interp`, `numpy.linspace` and the fill indices.
-/
set_option linter.unusedSectionVars false
namespace Verif
variable {K : Type} [Field K] [LinearOrder K]

theorem Arr3.build_congr {α : Type} {n sz d : ℕ} {g h : ℕ → ℕ → ℕ → Option α}
    (e : ∀ i < n, ∀ t < sz, ∀ f < d, g i t f = h i t f) : Arr3.build n sz d g = Arr3.build n sz d h := by
  unfold Arr3.build
  congr 1
  apply List.map_congr_left
  intro i hi
  apply List.map_congr_left
  intro t ht
  apply List.map_congr_left
  intro f hf
  exact e i (List.mem_range.1 hi) t (List.mem_range.1 ht) f (List.mem_range.1 hf)

theorem takeWhile_length (l : List K) (x : K) (m : ℕ) (hm : m ≤ l.length) (h1 : ∀ i < m, l.getD i 0 ≤ x)
    (h2 : m < l.length → x < l.getD m 0) : (l.takeWhile fun y => decide (y ≤ x)).length = m := by
  induction l generalizing m with
  | nil => simp at hm; simp [hm]
  | cons a l ih =>
    cases m with
    | zero =>
      have := h2 (by simp)
      simp only [List.getD_cons_zero] at this
      simp [not_le.2 this]
    | succ m =>
      have h0 := h1 0 (by omega)
      simp only [List.getD_cons_zero] at h0
      rw [List.takeWhile_cons, if_pos (by simpa using h0), List.length_cons, ih m (by simpa using hm)]
      · intro i hi
        have := h1 (i + 1) (by omega)
        simpa using this
      · intro h
        have := h2 (by simpa using h)
        simpa using this

/-- On a sample point. -/
theorem interp1_node (xp : List K) (fp : List (Option K)) (x : K) (p : ℕ) (hp : p < xp.length)
    (hl : ∀ i < p, xp.getD i 0 ≤ x) (hx : xp.getD p 0 = x) (hr : p + 1 < xp.length → x < xp.getD (p + 1) 0) :
    interp1 xp fp x = fp.getD p none := by
  have hj := takeWhile_length xp x (p + 1) hp (fun i hi => by
    rcases Nat.lt_succ_iff_lt_or_eq.1 hi with h | rfl
    · exact hl i h
    · exact hx.le) hr
  simp only [interp1, hj, Nat.add_sub_cancel, hx, if_true]
  simp

/-- Right of the last sample point. -/
theorem interp1_right (xp : List K) (fp : List (Option K)) (x : K) (p : ℕ) (hp : p + 1 = xp.length)
    (hl : ∀ i < xp.length, xp.getD i 0 ≤ x) : interp1 xp fp x = fp.getD p none := by
  have hj := takeWhile_length xp x (p + 1) hp.le (fun i hi => hl i (by omega)) (by omega)
  simp only [interp1, hj]
  rw [if_neg (by omega), if_pos hp, Nat.add_sub_cancel]

/-- Left of the first sample point. -/
theorem interp1_left (xp : List K) (fp : List (Option K)) (x : K) (hx : 0 < xp.length → x < xp.getD 0 0) :
    interp1 xp fp x = fp.getD 0 none := by
  have hj := takeWhile_length xp x 0 (by omega) (by omega) hx
  simp only [interp1, hj, if_true]

/-- Strictly inside a segment. -/
theorem interp1_inside (xp : List K) (fp : List (Option K)) (x : K) (p : ℕ) (hp : p + 1 < xp.length)
    (hl : ∀ i < p, xp.getD i 0 ≤ x) (hx : xp.getD p 0 < x) (hr : x < xp.getD (p + 1) 0) :
    interp1 xp fp x = match fp.getD p none, fp.getD (p + 1) none with
      | some a, some b => some ((b - a) / (xp.getD (p + 1) 0 - xp.getD p 0) * (x - xp.getD p 0) + a)
      | _, _ => none := by
  have hj := takeWhile_length xp x (p + 1) hp.le (fun i hi => by
    rcases Nat.lt_succ_iff_lt_or_eq.1 hi with h | rfl
    · exact hl i h
    · exact hx.le) (fun _ => hr)
  simp only [interp1, hj, Nat.add_sub_cancel]
  rw [if_neg (by omega), if_neg (by omega), if_neg hx.ne]
  rfl

theorem linspace01_length (n : ℕ) : (linspace01 n : List K).length = n := by simp [linspace01]

theorem linspace01_getD {n i : ℕ} (h : i < n) :
    (linspace01 n : List K).getD i 0 = if n = 1 then 0 else (i : K) / ((n - 1 : ℕ) : K) := by
  rw [List.getD_eq_getElem _ _ (by rw [linspace01_length]; exact h)]
  simp [linspace01]

variable [IsStrictOrderedRing K]

/-- Value `k` of the resampled column: position `k (n-1) / (T-1)` of the input, interpolated. -/
theorem interp1_linspace (c : List (Option K)) (T k p r : ℕ) (hn : 0 < c.length) (hT : 2 ≤ T) (hk : k < T)
    (hr : r < T - 1) (hpr : k * (c.length - 1) = p * (T - 1) + r) :
    interp1 (linspace01 c.length) c ((linspace01 T : List K).getD k 0) =
      if r = 0 then c.getD p none else
        match c.getD p none, c.getD (p + 1) none with
        | some a, some b => some (a + (b - a) * ((r : K) / ((T - 1 : ℕ) : K)))
        | _, _ => none := by
  have hT1 : (0 : K) < ((T - 1 : ℕ) : K) := by exact_mod_cast (by omega : 0 < T - 1)
  set x : K := (linspace01 T : List K).getD k 0 with hxdef
  have hx : x = (k : K) / ((T - 1 : ℕ) : K) := by rw [hxdef, linspace01_getD hk, if_neg (by omega)]
  have hpn : p ≤ c.length - 1 := by
    by_contra hc
    have h1 : k * (c.length - 1) ≤ (T - 1) * (c.length - 1) := Nat.mul_le_mul_right _ (by omega)
    have h2 : c.length * (T - 1) ≤ p * (T - 1) := Nat.mul_le_mul_right _ (by omega)
    have h3 : (T - 1) * (c.length - 1) < c.length * (T - 1) := by
      rw [Nat.mul_comm c.length]
      exact Nat.mul_lt_mul_of_pos_left (by omega) (by omega)
    omega
  by_cases h1 : c.length = 1
  · -- one sample: constant
    have hp0 : p = 0 := by omega
    have hr0 : r = 0 := by rw [h1] at hpr; simp at hpr; omega
    rw [if_pos hr0, hp0]
    apply interp1_right
    · rw [linspace01_length]; omega
    · intro i hi
      rw [linspace01_length] at hi
      rw [linspace01_getD hi, if_pos h1, hx]
      positivity
  have hn1 : (0 : K) < ((c.length - 1 : ℕ) : K) := by exact_mod_cast (by omega : 0 < c.length - 1)
  have hpr' : (k : K) * ((c.length - 1 : ℕ) : K) = (p : K) * ((T - 1 : ℕ) : K) + (r : K) := by exact_mod_cast hpr
  have node : ∀ i < c.length, (linspace01 c.length : List K).getD i 0 = (i : K) / ((c.length - 1 : ℕ) : K) := by
    intro i hi; rw [linspace01_getD hi, if_neg h1]
  have le : ∀ i < c.length, i ≤ p → (linspace01 c.length : List K).getD i 0 ≤ x := by
    intro i hi hip
    rw [node i hi, hx, div_le_div_iff₀ hn1 hT1, hpr']
    have : (i : K) ≤ p := by exact_mod_cast hip
    have h3 : (0 : K) ≤ r := Nat.cast_nonneg r
    nlinarith
  have lt : p + 1 < c.length → x < (linspace01 c.length : List K).getD (p + 1) 0 := by
    intro hi
    rw [node _ hi, hx, div_lt_div_iff₀ hT1 hn1, hpr']
    have : (r : K) < ((T - 1 : ℕ) : K) := by exact_mod_cast hr
    push_cast
    linarith
  by_cases hr0 : r = 0
  · rw [if_pos hr0]
    apply interp1_node
    · rw [linspace01_length]; omega
    · intro i hi; exact le i (by omega) (by omega)
    · rw [node p (by omega), hx, div_eq_div_iff hn1.ne' hT1.ne', hpr', hr0]
      simp
    · rw [linspace01_length]; exact lt
  · rw [if_neg hr0]
    have hp1 : p + 1 < c.length := by
      by_contra hc
      have hp : p = c.length - 1 := by omega
      have h1 : k * (c.length - 1) ≤ (T - 1) * (c.length - 1) := Nat.mul_le_mul_right _ (by omega)
      rw [hpr, hp, Nat.mul_comm (T - 1)] at h1
      omega
    rw [interp1_inside _ _ _ p (by rw [linspace01_length]; exact hp1) (fun i hi => le i (by omega) (by omega)) ?_ (lt hp1),
      node p (by omega), node (p + 1) hp1]
    · cases c.getD p none with
      | none => rfl
      | some a =>
        cases c.getD (p + 1) none with
        | none => rfl
        | some b =>
          simp only [Option.some.injEq]
          have e : x - (p : K) / ((c.length - 1 : ℕ) : K) = (r : K) / (((T - 1 : ℕ) : K) * ((c.length - 1 : ℕ) : K)) := by
            rw [hx, div_sub_div _ _ hT1.ne' hn1.ne', hpr']
            congr 1; ring
          rw [e]
          push_cast
          field_simp
          ring
    · rw [node p (by omega), hx, div_lt_div_iff₀ hn1 hT1, hpr']
      have : (0 : K) < r := by exact_mod_cast Nat.pos_of_ne_zero hr0
      linarith

end Verif
