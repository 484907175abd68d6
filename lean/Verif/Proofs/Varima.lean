import Verif.Spec.Varima
import Mathlib.Tactic.Abel
/-!
Lemmas on differencing and on the forecasting loop.
-/
set_option linter.unusedSectionVars false
namespace Verif
open Spec Finset
variable {V : Type} [AddCommGroup V]

theorem sumRange {A : Type} [AddCommMonoid A] (n : ℕ) (f : ℕ → A) : ((List.range n).map f).sum = ∑ i ∈ range n, f i := by
  induction n with
  | zero => simp
  | succ n ih => simp [List.range_succ, Finset.sum_range_succ, ih]

/-- The last `k` entries. -/
def lastN (k : ℕ) (xs : List V) : List V := xs.drop (xs.length - k)

theorem lastN_length (k : ℕ) (xs : List V) (h : k ≤ xs.length) : (lastN k xs).length = k := by simp [lastN]; omega

theorem lastN_getD (k : ℕ) (xs : List V) (_ : k ≤ xs.length) (i : ℕ) : (lastN k xs).getD i 0 = xs.getD (xs.length - k + i) 0 := by
  simp [lastN, List.getD_eq_getElem?_getD]

theorem rollIn_lastN (k : ℕ) (xs : List V) (x : V) (hk : 0 < k) (h : k ≤ xs.length) : rollIn (lastN k xs) x = lastN k (xs ++ [x]) := by
  have hl := lastN_length k xs h
  unfold rollIn
  rw [if_neg (by intro he; rw [he] at hl; simp at hl; omega)]
  unfold lastN
  rw [List.drop_drop, List.length_append, List.length_singleton, List.drop_append]
  have e1 : xs.length + 1 - k - xs.length = 0 := by omega
  have e2 : xs.length - k + 1 = xs.length + 1 - k := by omega
  rw [e1, List.drop_zero, e2]

theorem diffOnce_length (xs : List V) : (diffOnce xs).length = xs.length - 1 := by simp [diffOnce]

theorem diffN_length (d : ℕ) (xs : List V) : (diffN d xs).length = xs.length - d := by
  induction d generalizing xs with
  | zero => simp [diffN]
  | succ d ih =>
    have : diffN (d + 1) xs = diffN d (diffOnce xs) := rfl
    rw [this, ih, diffOnce_length]
    omega

theorem seasonalDiff_eq (s : ℕ) (xs : List V) : seasonalDiff s xs = if s = 0 then xs else List.zipWith (fun a b => a - b) (xs.drop s) xs := by
  unfold seasonalDiff
  split
  · rfl
  · apply List.ext_getElem?
    intro i
    simp only [List.getElem?_zipWith, List.getElem?_drop, List.getElem?_take]
    by_cases h : i < xs.length - s
    · simp [h]
    · have : xs[s + i]? = none := List.getElem?_eq_none (by omega)
      simp [this]

theorem seasonalDiff_length (s : ℕ) (xs : List V) : (seasonalDiff s xs).length = xs.length - s := by
  rw [seasonalDiff_eq]
  split
  · next h => simp [h]
  · simp

theorem diffOnce_drop (j : ℕ) (xs : List V) : diffOnce (xs.drop j) = (diffOnce xs).drop j := by
  unfold diffOnce
  rw [List.drop_zipWith, List.tail_drop, ← List.drop_one, List.drop_drop, Nat.add_comm]

theorem diffN_drop (d j : ℕ) (xs : List V) : diffN d (xs.drop j) = (diffN d xs).drop j := by
  induction d generalizing xs with
  | zero => rfl
  | succ d ih =>
    have : ∀ l : List V, diffN (d + 1) l = diffN d (diffOnce l) := fun _ => rfl
    rw [this, this, diffOnce_drop, ih]

theorem seasonalDiff_drop (s j : ℕ) (xs : List V) : seasonalDiff s (xs.drop j) = (seasonalDiff s xs).drop j := by
  rw [seasonalDiff_eq, seasonalDiff_eq]
  split
  · rfl
  · rw [List.drop_zipWith, List.drop_drop, List.drop_drop, Nat.add_comm]

theorem seasonalDiff_lastN (s k : ℕ) (xs : List V) (_ : s + k ≤ xs.length) : seasonalDiff s (lastN (s + k) xs) = lastN k (seasonalDiff s xs) := by
  unfold lastN
  rw [seasonalDiff_drop, seasonalDiff_length]
  congr 1
  omega

theorem diffN_lastN (d k : ℕ) (xs : List V) (_ : d + k ≤ xs.length) : diffN d (lastN (d + k) xs) = lastN k (diffN d xs) := by
  unfold lastN
  rw [diffN_drop, diffN_length]
  congr 1
  omega

theorem diffOnce_append (xs : List V) (x : V) (h : 0 < xs.length) : diffOnce (xs ++ [x]) = diffOnce xs ++ [x - xs.getD (xs.length - 1) 0] := by
  apply List.ext_getElem?
  intro i
  unfold diffOnce
  rcases Nat.lt_trichotomy i (xs.length - 1) with hi | hi | hi
  · rw [List.getElem?_append_left (by simp; omega)]
    simp only [List.getElem?_zipWith, List.getElem?_tail]
    rw [List.getElem?_append_left (by omega), List.getElem?_append_left (by omega)]
  · rw [List.getElem?_append_right (by simp; omega)]
    simp only [List.getElem?_zipWith, List.getElem?_tail]
    rw [List.getElem?_append_left (by omega), List.getElem?_append_right (by omega)]
    have e1 : i + 1 - xs.length = 0 := by omega
    have e2 : i - (List.zipWith (fun a b => b - a) xs xs.tail).length = 0 := by simp; omega
    rw [e1, e2, List.getElem?_eq_getElem (by omega : i < xs.length)]
    simp only [List.getElem?_cons_zero, ← hi, List.getD_eq_getElem?_getD, List.getElem?_eq_getElem (by omega : i < xs.length)]
    rfl
  · rw [List.getElem?_eq_none (by simp; omega), List.getElem?_eq_none (by simp; omega)]

theorem seasonalDiff_append (s : ℕ) (xs : List V) (x : V) (h : s ≤ xs.length) :
    seasonalDiff s (xs ++ [x]) = seasonalDiff s xs ++ [if s = 0 then x else x - xs.getD (xs.length - s) 0] := by
  rw [seasonalDiff_eq, seasonalDiff_eq]
  split
  · rfl
  · next hs =>
    apply List.ext_getElem?
    intro i
    simp only [List.getElem?_append, List.getElem?_zipWith, List.getElem?_drop, List.length_zipWith, List.length_drop]
    rcases Nat.lt_trichotomy i (xs.length - s) with hi | hi | hi
    · simp [show s + i < xs.length by omega, show i < xs.length by omega, show i < xs.length - s by omega]
    · have h1 : ¬s + i < xs.length := by omega
      have h2 : i < xs.length := by omega
      have e1 : s + i - xs.length = 0 := by omega
      have e2 : i - min (xs.length - s) xs.length = 0 := by omega
      simp only [h1, if_false, h2, if_true, e1, e2, show ¬i < min (xs.length - s) xs.length by omega]
      simp [← hi, List.getD_eq_getElem?_getD, h2]
    · have h1 : ¬s + i < xs.length := by omega
      have e2 : i - min (xs.length - s) xs.length ≠ 0 := by omega
      simp only [h1, if_false, show ¬i < min (xs.length - s) xs.length by omega]
      have a1 : [x][s + i - xs.length]? = none := List.getElem?_eq_none (by rw [List.length_singleton]; omega)
      have a2 : [x - xs.getD (xs.length - s) 0][i - min (xs.length - s) xs.length]? = none :=
        List.getElem?_eq_none (by rw [List.length_singleton]; omega)
      rw [a1, a2]

theorem diffN_getD (d : ℕ) : ∀ (xs : List V) (i : ℕ), i + d < xs.length → (diffN d xs).getD i 0 = (fwdDiff 1)^[d] (timeline xs) i := by
  induction d with
  | zero => intro xs i _; rfl
  | succ d ih =>
    intro xs i hi
    have h1 : diffN (d + 1) xs = diffOnce (diffN d xs) := Function.iterate_succ_apply' _ _ _
    have h2 : (fwdDiff 1)^[d + 1] (timeline xs) i = (fwdDiff 1)^[d] (timeline xs) (i + 1) - (fwdDiff 1)^[d] (timeline xs) i := by
      rw [Function.iterate_succ_apply']
      rfl
    rw [h1, h2, ← ih xs i (by omega), ← ih xs (i + 1) (by omega)]
    have hl : i + 1 < (diffN d xs).length := by rw [diffN_length]; omega
    have hl' : i < (diffN d xs).length := by omega
    simp [diffOnce, List.getD_eq_getElem?_getD, List.getElem?_zipWith, List.getElem?_tail, hl, hl']

theorem timeline_seasonal (s : ℕ) (xs : List V) (i : ℕ) (h : i + s < xs.length) :
    timeline (seasonalDiff s xs) i = (if s = 0 then timeline xs else fwdDiff s (timeline xs)) i := by
  rw [seasonalDiff_eq]
  split
  · rfl
  · have h1 : s + i < xs.length := by omega
    have h2 : i < xs.length := by omega
    simp [timeline, fwdDiff, List.getD_eq_getElem?_getD, List.getElem?_zipWith, h1, h2, Nat.add_comm i s]

theorem iter_congr (d : ℕ) : ∀ (f g : ℕ → V) (i : ℕ), (∀ j ≤ i + d, f j = g j) → (fwdDiff 1)^[d] f i = (fwdDiff 1)^[d] g i := by
  induction d with
  | zero => intro f g i h; exact h i (by omega)
  | succ d ih =>
    intro f g i h
    rw [Function.iterate_succ_apply', Function.iterate_succ_apply']
    change (fwdDiff 1)^[d] f (i + 1) - (fwdDiff 1)^[d] f i = (fwdDiff 1)^[d] g (i + 1) - (fwdDiff 1)^[d] g i
    rw [ih f g (i + 1) fun j hj => h j (by omega), ih f g i fun j hj => h j (by omega)]

/-- What `_seasonal_differencing` and `np.diff` compute. -/
theorem differenced_getD (s d : ℕ) (xs : List V) (i : ℕ) (h : i + d + s < xs.length) :
    (diffN d (seasonalDiff s xs)).getD i 0 = differenced s d (timeline xs) i := by
  rw [diffN_getD d _ i (by rw [seasonalDiff_length]; omega)]
  exact iter_congr d _ _ i fun j hj => timeline_seasonal s xs j (by omega)

/-! The loop. -/

theorem undifference_eq (d : ℕ) (init : List V) (x : V) (hd : 0 < d) (hl : d ≤ init.length) :
    undifference d init x = x + init.getD (init.length - 1) 0 := by
  unfold undifference
  rw [sumRange]
  obtain ⟨e, rfl⟩ : ∃ e, d = e + 1 := ⟨d - 1, by omega⟩
  rw [Finset.sum_range_succ, Finset.sum_eq_zero]
  · have : init.length - (e + 1) + e = init.length - 1 := by omega
    rw [this]
    simp
  · intro j hj
    rw [Finset.mem_range] at hj
    rw [Nat.choose_eq_zero_of_lt (by omega)]
    simp

/-- The recursion applied to a history `W` and residuals `r`. -/
def nextW (m : Varima V) (W r : List V) : V :=
  ∑ k ∈ range m.p, m.ar k (W.getD (W.length - 1 - k) 0) + ∑ k ∈ range m.q, m.ma k (r.getD k 0) + m.c

theorem varmaNext_eq (m : Varima V) (X r : List V) : varmaNext m X r = nextW m X r := by
  unfold varmaNext nextW
  rw [sumRange, sumRange]
  congr 2
  refine Finset.sum_congr rfl fun k _ => ?_
  rw [Nat.sub_right_comm]

theorem nextW_lastN (m : Varima V) (W r : List V) (h : m.p ≤ W.length) : nextW m (lastN m.p W) r = nextW m W r := by
  unfold nextW
  congr 2
  refine Finset.sum_congr rfl fun k hk => ?_
  rw [Finset.mem_range] at hk
  rw [lastN_getD _ _ h, lastN_length _ _ h]
  congr 2
  omega

/-- Forecast after `Y`, whose differences are followed by `W`. -/
def forecast (m : Varima V) (Y W r : List V) : V :=
  let w := nextW m W r
  let sdY := seasonalDiff m.s Y
  let e := if m.d = 0 then w else w + sdY.getD (sdY.length - 1) 0
  if m.s = 0 then e else e + Y.getD (Y.length - m.s) 0

/-- Residuals one step later, without an error. -/
def shiftRes (r : List V) : List V := (r ++ [0]).drop 1

theorem shiftRes_getD (r : List V) (k : ℕ) : (shiftRes r).getD k 0 = r.getD (k + 1) 0 := by
  unfold shiftRes
  rw [List.getD_eq_getElem?_getD, List.getElem?_drop, List.getD_eq_getElem?_getD, List.getElem?_append, Nat.add_comm 1 k]
  split
  · rfl
  · next h =>
    rw [List.getElem?_eq_none (by omega : r.length ≤ k + 1)]
    rcases Nat.eq_zero_or_pos (k + 1 - r.length) with h0 | h0
    · rw [h0]; rfl
    · rw [List.getElem?_eq_none (by simp; omega)]

theorem shiftRes_length (r : List V) : (shiftRes r).length = r.length := by simp [shiftRes]

/-- All forecasts. -/
def forecasts (m : Varima V) : ℕ → List V → List V → List V → List V
  | 0, _, _, _ => []
  | n + 1, Y, W, r => forecast m Y W r :: forecasts m n (Y ++ [forecast m Y W r]) (W ++ [nextW m W r]) (shiftRes r)

/-- All forecasts of the differenced series. -/
def innovations (m : Varima V) : ℕ → List V → List V → List V
  | 0, _, _ => []
  | n + 1, W, r => nextW m W r :: innovations m n (W ++ [nextW m W r]) (shiftRes r)

/-- The variables of the loop are the ends of `Y`, of its seasonal differences and of `W`. -/
structure Inv (m : Varima V) (st : VarimaState V) (Y W r : List V) : Prop where
  len : m.s + m.d + m.p ≤ Y.length
  lenW : m.p ≤ W.length
  lenR : r.length = m.q
  dd : 0 < m.p → st.dd = lastN m.p W
  sd : m.d ≠ 0 → st.sd = lastN (m.d + m.p) (seasonalDiff m.s Y)
  last : m.s ≠ 0 → st.last = lastN (m.s + (m.d + m.p)) Y
  res : st.res = r

theorem Inv.next {m : Varima V} {st : VarimaState V} {Y W r : List V} (h : Inv m st Y W r) : varmaNext m st.dd st.res = nextW m W r := by
  rw [varmaNext_eq, h.res]
  rcases Nat.eq_zero_or_pos m.p with h0 | h0
  · unfold nextW
    rw [h0]
    simp
  · rw [h.dd h0, nextW_lastN m W r h.lenW]

theorem step_value {m : Varima V} {st : VarimaState V} {Y W r : List V} (roll : Bool) (h : Inv m st Y W r) :
    (varimaStep m roll st).2 = forecast m Y W r := by
  have hsd : m.d ≠ 0 → undifference m.d st.sd (nextW m W r) = nextW m W r + (seasonalDiff m.s Y).getD ((seasonalDiff m.s Y).length - 1) 0 := by
    intro hd
    have hl : m.d + m.p ≤ (seasonalDiff m.s Y).length := by rw [seasonalDiff_length]; have := h.len; omega
    rw [undifference_eq _ _ _ (Nat.pos_of_ne_zero hd) (by rw [h.sd hd, lastN_length _ _ hl]; omega), h.sd hd, lastN_getD _ _ hl,
      lastN_length _ _ hl]
    congr 2
    omega
  have hlast : m.s ≠ 0 → st.last.getD (st.last.length - m.s) 0 = Y.getD (Y.length - m.s) 0 := by
    intro hs
    have hl : m.s + (m.d + m.p) ≤ Y.length := by have := h.len; omega
    rw [h.last hs, lastN_getD _ _ hl, lastN_length _ _ hl]
    congr 1
    omega
  unfold varimaStep forecast
  simp only [h.next]
  generalize seasonalDiff m.s Y = z at hsd ⊢
  by_cases hd : m.d = 0 <;> by_cases hs : m.s = 0 <;> cases roll <;> by_cases hp : 0 < m.p <;> by_cases hq : 0 < m.q <;>
    simp only [hd, hs, hp, hq, ne_eq, not_true, not_false_eq_true, if_true, if_false, Bool.false_eq_true, and_true, and_false] <;>
    first
      | rfl
      | rw [hsd hd, hlast hs]
      | rw [hsd hd]
      | rw [hlast hs]

theorem step_inv {m : Varima V} {st : VarimaState V} {Y W r : List V} (h : Inv m st Y W r) :
    Inv m (varimaStep m true st).1 (Y ++ [forecast m Y W r]) (W ++ [nextW m W r]) (shiftRes r) := by
  have hv := step_value true h
  have hY : m.s ≤ Y.length := by have := h.len; omega
  have hres : 0 < m.q → rollIn st.res 0 = shiftRes r := by
    intro hq
    unfold rollIn shiftRes
    have hl : 0 < r.length := by rw [h.lenR]; exact hq
    rw [h.res, if_neg (List.length_pos_iff.mp hl), List.drop_append_of_le_length hl]
  have hres0 : ¬0 < m.q → st.res = shiftRes r := by
    intro hq
    have : r = [] := List.length_eq_zero_iff.mp (by rw [h.lenR]; omega)
    rw [h.res, this]
    rfl
  have hnew : seasonalDiff m.s (Y ++ [forecast m Y W r]) = seasonalDiff m.s Y ++
      [if m.d = 0 then nextW m W r else nextW m W r + (seasonalDiff m.s Y).getD ((seasonalDiff m.s Y).length - 1) 0] := by
    rw [seasonalDiff_append _ _ _ hY]
    congr 2
    unfold forecast
    by_cases hs : m.s = 0
    · simp [hs]
    · simp [hs]
  have hlsd : m.d + m.p ≤ (seasonalDiff m.s Y).length := by rw [seasonalDiff_length]; have := h.len; omega
  have hund : m.d ≠ 0 → undifference m.d st.sd (nextW m W r) = nextW m W r + (seasonalDiff m.s Y).getD ((seasonalDiff m.s Y).length - 1) 0 := by
    intro hd
    rw [undifference_eq _ _ _ (Nat.pos_of_ne_zero hd) (by rw [h.sd hd, lastN_length _ _ hlsd]; omega), h.sd hd, lastN_getD _ _ hlsd,
      lastN_length _ _ hlsd]
    congr 2
    omega
  have hdd : (varimaStep m true st).1.dd = if 0 < m.p then rollIn st.dd (nextW m W r) else st.dd := by
    unfold varimaStep
    simp only [h.next]
    by_cases hd : m.d = 0 <;> by_cases hs : m.s = 0 <;> by_cases hp : 0 < m.p <;> by_cases hq : 0 < m.q <;> simp [hd, hs, hp, hq]
  have hsd : (varimaStep m true st).1.sd = if m.d = 0 then st.sd else rollIn st.sd (undifference m.d st.sd (nextW m W r)) := by
    unfold varimaStep
    simp only [h.next]
    by_cases hd : m.d = 0 <;> by_cases hs : m.s = 0 <;> by_cases hp : 0 < m.p <;> by_cases hq : 0 < m.q <;> simp [hd, hs, hp, hq]
  have hlast : (varimaStep m true st).1.last = if m.s = 0 then st.last else rollIn st.last (varimaStep m true st).2 := by
    unfold varimaStep
    simp only [h.next]
    by_cases hd : m.d = 0 <;> by_cases hs : m.s = 0 <;> by_cases hp : 0 < m.p <;> by_cases hq : 0 < m.q <;> simp [hd, hs, hp, hq]
  have hr : (varimaStep m true st).1.res = if 0 < m.q then rollIn st.res 0 else st.res := by
    unfold varimaStep
    simp only [h.next]
    by_cases hd : m.d = 0 <;> by_cases hs : m.s = 0 <;> by_cases hp : 0 < m.p <;> by_cases hq : 0 < m.q <;> simp [hd, hs, hp, hq]
  refine ⟨?_, ?_, ?_, ?_, ?_, ?_, ?_⟩
  · rw [List.length_append]; have := h.len; omega
  · rw [List.length_append]; have := h.lenW; omega
  · rw [shiftRes_length]; exact h.lenR
  · intro hp
    rw [hdd, if_pos hp, h.dd hp, rollIn_lastN _ _ _ hp h.lenW]
  · intro hd
    rw [hsd, if_neg hd, hund hd, h.sd hd, rollIn_lastN _ _ _ (by omega) hlsd, hnew, if_neg hd]
  · intro hs
    rw [hlast, if_neg hs, hv, h.last hs, rollIn_lastN _ _ _ (by omega) (by have := h.len; omega)]
  · rw [hr]
    split
    · next hq => exact hres hq
    · next hq => exact hres0 hq

theorem loop_eq {m : Varima V} (n : ℕ) {st : VarimaState V} {Y W r : List V} (h : Inv m st Y W r) :
    varimaLoop m true n st = forecasts m n Y W r := by
  induction n generalizing st Y W r with
  | zero => rfl
  | succ n ih => simp only [varimaLoop, forecasts, step_value true h, ih (step_inv h)]

theorem loop_roll {m : Varima V} (n : ℕ) {st : VarimaState V} {Y W r : List V} (h : Inv m st Y W r) :
    varimaLoop m (decide (1 < n)) n st = forecasts m n Y W r := by
  match n with
  | 0 => rfl
  | 1 => simp only [varimaLoop, forecasts, step_value _ h]
  | n + 2 => simp only [show 1 < n + 2 by omega, decide_true]; exact loop_eq _ h

theorem start_inv (m : Varima V) (xs res : List V) (hl : m.s + m.d + m.p ≤ xs.length) (hr : res.length = m.q) :
    Inv m (varimaStart m (lastTimestamps m xs) res) xs (diffN m.d (seasonalDiff m.s xs)) res := by
  have hlast : 0 < m.s + m.d + m.p → lastTimestamps m xs = lastN (m.s + (m.d + m.p)) xs := by
    intro h
    unfold lastTimestamps lastN
    rw [if_pos (by omega), if_neg (by omega)]
    congr 2
    omega
  have hsd : 0 < m.s + m.d + m.p → seasonalDiff m.s (lastTimestamps m xs) = lastN (m.d + m.p) (seasonalDiff m.s xs) := by
    intro h
    rw [hlast h, seasonalDiff_lastN _ _ _ (by omega)]
  refine ⟨hl, ?_, hr, ?_, ?_, ?_, rfl⟩
  · rw [diffN_length, seasonalDiff_length]; omega
  · intro hp
    change diffN m.d (seasonalDiff m.s (lastTimestamps m xs)) = _
    rw [hsd (by omega), diffN_lastN _ _ _ (by rw [seasonalDiff_length]; omega)]
  · intro hd
    exact hsd (by omega)
  · intro hs
    exact hlast (by omega)

theorem forecasts_length (m : Varima V) (n : ℕ) (Y W r : List V) : (forecasts m n Y W r).length = n := by
  induction n generalizing Y W r with
  | zero => rfl
  | succ n ih => simp [forecasts, ih]

theorem innovations_length (m : Varima V) (n : ℕ) (W r : List V) : (innovations m n W r).length = n := by
  induction n generalizing W r with
  | zero => rfl
  | succ n ih => simp [innovations, ih]

theorem forecasts_add (m : Varima V) (n k : ℕ) (Y W r : List V) :
    forecasts m (n + k) Y W r = forecasts m n Y W r ++
      forecasts m k (Y ++ forecasts m n Y W r) (W ++ innovations m n W r) (shiftRes^[n] r) := by
  induction n generalizing Y W r with
  | zero => simp [forecasts, innovations]
  | succ n ih =>
    rw [Nat.add_right_comm]
    simp only [forecasts, innovations, ih, List.cons_append, Function.iterate_succ_apply]
    simp [List.append_assoc]

/-- The seasonal differences of history and forecasts. -/
theorem forecasts_sd (m : Varima V) (n : ℕ) (Y W r : List V) (hY : m.s ≤ Y.length) (hd : m.d = 0) :
    seasonalDiff m.s (Y ++ forecasts m n Y W r) = seasonalDiff m.s Y ++ innovations m n W r := by
  induction n generalizing Y W r with
  | zero => simp [forecasts, innovations]
  | succ n ih =>
    simp only [forecasts, innovations]
    have h1 := ih (Y ++ [forecast m Y W r]) (W ++ [nextW m W r]) (shiftRes r) (by simp; omega)
    rw [List.append_assoc, List.singleton_append] at h1
    rw [h1, seasonalDiff_append _ _ _ hY, List.append_assoc, List.singleton_append]
    congr 2
    unfold forecast
    by_cases hs : m.s = 0 <;> simp [hs, hd]

/-- The first differences of them. -/
theorem forecasts_dd (m : Varima V) (n : ℕ) (Y W r : List V) (hY : m.s < Y.length) (hd : m.d ≠ 0) :
    diffOnce (seasonalDiff m.s (Y ++ forecasts m n Y W r)) = diffOnce (seasonalDiff m.s Y) ++ innovations m n W r := by
  induction n generalizing Y W r with
  | zero => simp [forecasts, innovations]
  | succ n ih =>
    simp only [forecasts, innovations]
    have h1 := ih (Y ++ [forecast m Y W r]) (W ++ [nextW m W r]) (shiftRes r) (by simp; omega)
    rw [List.append_assoc, List.singleton_append] at h1
    rw [h1, seasonalDiff_append _ _ _ (by omega), diffOnce_append _ _ (by rw [seasonalDiff_length]; omega), List.append_assoc,
      List.singleton_append]
    congr 2
    unfold forecast
    by_cases hs : m.s = 0 <;> simp [hs, hd]

theorem innovations_getD (m : Varima V) (n : ℕ) (W r : List V) (j : ℕ) (hj : j < n) :
    (innovations m n W r).getD j 0 = nextW m (W ++ (innovations m n W r).take j) (shiftRes^[j] r) := by
  induction n generalizing W r j with
  | zero => omega
  | succ n ih =>
    cases j with
    | zero => simp [innovations]
    | succ j =>
      have := ih (W ++ [nextW m W r]) (shiftRes r) j (by omega)
      simp only [innovations, List.take_succ_cons, Function.iterate_succ_apply]
      rw [List.append_assoc, List.singleton_append] at this
      rw [← this]
      simp

theorem shiftRes_iter_getD (r : List V) (j k : ℕ) : (shiftRes^[j] r).getD k 0 = r.getD (k + j) 0 := by
  induction j generalizing r with
  | zero => rfl
  | succ j ih => rw [Function.iterate_succ_apply, ih, shiftRes_getD]; rfl

theorem shiftRes_iter_length (r : List V) (j : ℕ) : (shiftRes^[j] r).length = r.length := by
  induction j generalizing r with
  | zero => rfl
  | succ j ih => rw [Function.iterate_succ_apply, ih, shiftRes_length]

/-- History and innovations follow the recursion. -/
theorem innovations_continue (m : Varima V) (n : ℕ) (W r : List V) (hp : m.p ≤ W.length) :
    Continues m r (timeline (W ++ innovations m n W r)) W.length (W.length + n) := by
  intro i h1 h2
  have hlen := innovations_length m n W r
  obtain ⟨j, rfl⟩ : ∃ j, i = W.length + j := ⟨i - W.length, by omega⟩
  have hv := innovations_getD m n W r j (by omega)
  have e : timeline (W ++ innovations m n W r) (W.length + j) = (innovations m n W r).getD j 0 := by
    unfold timeline
    rw [List.getD_eq_getElem?_getD, List.getElem?_append_right (by omega), List.getD_eq_getElem?_getD]
    congr 2
    omega
  rw [e, hv]
  unfold nextW armaNext
  congr 2
  · refine Finset.sum_congr rfl fun k hk => ?_
    rw [Finset.mem_range] at hk
    unfold timeline
    have hl : (W ++ (innovations m n W r).take j).length = W.length + j := by simp [hlen]; omega
    rw [hl, List.getD_eq_getElem?_getD, List.getD_eq_getElem?_getD]
    congr 2
    have hsplit : W ++ innovations m n W r = (W ++ (innovations m n W r).take j) ++ (innovations m n W r).drop j := by
      rw [List.append_assoc, List.take_append_drop]
    rw [hsplit]
    exact (List.getElem?_append_left (by rw [hl]; omega)).symm
  · refine Finset.sum_congr rfl fun k hk => ?_
    rw [shiftRes_iter_getD]
    congr 3
    omega

end Verif
