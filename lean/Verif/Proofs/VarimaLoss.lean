import Verif.Proofs.Varima
/-!
Lemmas on the residuals `_loss` leaves, with and without padding.
-/
set_option linter.unusedSectionVars false
namespace Verif
open Spec Finset
variable {V : Type} [AddCommGroup V]

theorem nanSub_none (a : Option V) : nanSub a none = none := by cases a <;> rfl

theorem seasonalNan_eq (s : ℕ) (xs : List (Option V)) : seasonalNan s xs = if s = 0 then xs else List.zipWith nanSub (xs.drop s) xs := by
  unfold seasonalNan
  split
  · rfl
  · apply List.ext_getElem?
    intro i
    simp only [List.getElem?_zipWith, List.getElem?_drop, List.getElem?_take]
    by_cases h : i < xs.length - s
    · simp [h]
    · have : xs[s + i]? = none := List.getElem?_eq_none (by omega)
      simp [this]

theorem lag_back (s N : ℕ) (xs : List V) (h : s ≤ xs.length) :
    List.zipWith nanSub ((xs.map some ++ List.replicate N none).drop s) (xs.map some ++ List.replicate N none) =
      (List.zipWith (fun a b => a - b) (xs.drop s) xs).map some ++ List.replicate N none := by
  apply List.ext_getElem?
  intro i
  simp only [List.getElem?_zipWith, List.getElem?_drop, List.getElem?_append, List.length_map, List.getElem?_map, List.length_zipWith,
    List.length_drop, List.getElem?_replicate]
  by_cases h1 : s + i < xs.length
  · have h2 : i < xs.length := by omega
    have h3 : i < min (xs.length - s) xs.length := by omega
    simp only [h1, h2, h3, if_true, List.getElem?_eq_getElem h1, List.getElem?_eq_getElem h2, Option.map_some]
    rfl
  · have h3 : ¬i < min (xs.length - s) xs.length := by omega
    simp only [h1, if_false, h3]
    by_cases h4 : s + i - xs.length < N
    · have h5 : i - min (xs.length - s) xs.length < N := by omega
      simp only [h4, if_true, h5]
      by_cases h6 : i < xs.length
      · simp [h6, nanSub]
      · have h7 : i - xs.length < N := by omega
        simp [h6, h7, nanSub]
    · have h5 : ¬i - min (xs.length - s) xs.length < N := by omega
      simp only [h4, h5, if_false]

theorem lag_front (s N : ℕ) (xs : List V) (h : s ≤ xs.length) :
    List.zipWith nanSub ((List.replicate N none ++ xs.map some).drop s) (List.replicate N none ++ xs.map some) =
      List.replicate N none ++ (List.zipWith (fun a b => a - b) (xs.drop s) xs).map some := by
  apply List.ext_getElem?
  intro i
  simp only [List.getElem?_zipWith, List.getElem?_drop, List.getElem?_append, List.length_replicate, List.getElem?_map, List.getElem?_replicate]
  by_cases h1 : i < N
  · simp only [h1, if_true]
    by_cases h2 : s + i < N
    · simp [h2, nanSub_none]
    · have h3 : s + i - N < xs.length := by omega
      simp [h2, h3, nanSub_none]
  · have h2 : ¬s + i < N := by omega
    have h3 : s + i - N = s + (i - N) := by omega
    simp only [h1, h2, if_false, h3]
    cases h4 : xs[s + (i - N)]? with
    | none => simp
    | some a =>
      cases h5 : xs[i - N]? with
      | none => simp
      | some b => simp [nanSub]

theorem diffOnce_lag (xs : List V) : diffOnce xs = List.zipWith (fun a b => a - b) (xs.drop 1) xs := by
  unfold diffOnce
  rw [List.zipWith_comm, List.drop_one]

theorem diffNan_succ (d : ℕ) (l : List (Option V)) : diffNan (d + 1) l = diffNan d (List.zipWith nanSub (l.drop 1) l) := by
  have : List.zipWith nanSub (l.drop 1) l = List.zipWith (fun a b => nanSub b a) l l.tail := by
    rw [List.zipWith_comm, List.drop_one]
  rw [this]
  rfl

theorem diffNan_back (d N : ℕ) (xs : List V) (h : d ≤ xs.length) :
    diffNan d (xs.map some ++ List.replicate N none) = (diffN d xs).map some ++ List.replicate N none := by
  induction d generalizing xs with
  | zero => rfl
  | succ d ih =>
    rw [diffNan_succ, lag_back 1 N xs (by omega), ← diffOnce_lag, ih _ (by rw [diffOnce_length]; omega)]
    rfl

theorem diffNan_front (d N : ℕ) (xs : List V) (h : d ≤ xs.length) :
    diffNan d (List.replicate N none ++ xs.map some) = List.replicate N none ++ (diffN d xs).map some := by
  induction d generalizing xs with
  | zero => rfl
  | succ d ih =>
    rw [diffNan_succ, lag_front 1 N xs (by omega), ← diffOnce_lag, ih _ (by rw [diffOnce_length]; omega)]
    rfl

theorem seasonalNan_back (s N : ℕ) (xs : List V) (h : s ≤ xs.length) :
    seasonalNan s (xs.map some ++ List.replicate N none) = (seasonalDiff s xs).map some ++ List.replicate N none := by
  rw [seasonalNan_eq, seasonalDiff_eq]
  split
  · rfl
  · exact lag_back s N xs h

theorem seasonalNan_front (s N : ℕ) (xs : List V) (h : s ≤ xs.length) :
    seasonalNan s (List.replicate N none ++ xs.map some) = List.replicate N none ++ (seasonalDiff s xs).map some := by
  rw [seasonalNan_eq, seasonalDiff_eq]
  split
  · rfl
  · exact lag_front s N xs h

theorem nextW_drop (m : Varima V) (W r : List V) (j : ℕ) (h : m.p + j ≤ W.length) : nextW m (W.drop j) r = nextW m W r := by
  unfold nextW
  congr 2
  refine Finset.sum_congr rfl fun k hk => ?_
  rw [Finset.mem_range] at hk
  rw [List.length_drop, List.getD_eq_getElem?_getD, List.getElem?_drop, List.getD_eq_getElem?_getD]
  congr 3
  omega

/-- The error at a sample of the unpadded part of a series. -/
theorem err_back (m : Varima V) (W : List V) (t : List (Option V)) (i : ℕ) (r : List V) (h1 : max m.p m.q ≤ i) (h2 : i < W.length) :
    varmaErr m (W.map some ++ t) i r = some (W.getD i 0 - nextW m (W.take i) r) := by
  unfold varmaErr
  have hw : ((W.map some ++ t).take i).drop (i - max m.p m.q) = ((W.take i).drop (i - max m.p m.q)).map some := by
    rw [List.take_append_of_le_length (by simp; omega), List.map_drop, List.map_take]
  simp only [hw]
  have hl : ((W.take i).drop (i - max m.p m.q)).length = max m.p m.q := by simp; omega
  rw [if_pos]
  · rw [List.getD_eq_getElem?_getD, List.getElem?_append_left (by simp; omega), List.getElem?_map, List.getElem?_eq_getElem h2]
    simp only [Option.map_some, Option.getD_some, List.map_map]
    have hid : (fun o : Option V => o.getD 0) ∘ some = id := rfl
    rw [hid, List.map_id, varmaNext_eq, nextW_drop _ _ _ _ (by simp; omega), List.getD_eq_getElem?_getD, List.getElem?_eq_getElem h2]
    rfl
  · intro k hk
    rw [List.getD_eq_getElem?_getD, List.getElem?_map, List.getElem?_eq_getElem (by rw [List.length_map, hl]; omega)]
    rfl

theorem residuals_length (m : Varima V) (W : ℕ → V) (n : ℕ) : (residuals m W n).length = m.q := by
  induction n with
  | zero => simp [residuals]
  | succ n ih =>
    unfold residuals
    split
    · simp
    · simp [ih]

theorem residuals_start (m : Varima V) (W : ℕ → V) : residuals m W (max m.p m.q) = List.replicate m.q 0 := by
  cases h : max m.p m.q with
  | zero => rfl
  | succ n =>
    unfold residuals
    rw [if_pos (by omega)]

/-- One turn of the loop of `_loss`. -/
def lossStep (m : Varima V) (X : List (Option V)) (res : List V) (i : ℕ) : List V :=
  match varmaErr m X i res with
  | none => res
  | some e => if 0 < m.q then res.drop 1 ++ [e] else res

theorem lossResiduals_eq (m : Varima V) (X : List (Option V)) :
    lossResiduals m X = (List.range' (max m.p m.q) (X.length - max m.p m.q)).foldl (lossStep m X) (List.replicate m.q 0) := rfl

theorem nextW_take (m : Varima V) (W r : List V) (i : ℕ) (h1 : m.p ≤ i) (h2 : i ≤ W.length) :
    nextW m (W.take i) r = ∑ k ∈ range m.p, m.ar k (timeline W (i - 1 - k)) + ∑ k ∈ range m.q, m.ma k (r.getD k 0) + m.c := by
  unfold nextW timeline
  congr 2
  refine Finset.sum_congr rfl fun k hk => ?_
  rw [Finset.mem_range] at hk
  rw [List.length_take, Nat.min_eq_left h2, List.getD_eq_getElem?_getD, List.getElem?_take, List.getD_eq_getElem?_getD, if_pos (by omega)]

theorem lossStep_back (m : Varima V) (W : List V) (t : List (Option V)) (i : ℕ) (h1 : max m.p m.q ≤ i) (h2 : i < W.length) :
    lossStep m (W.map some ++ t) (residuals m (timeline W) i) i = residuals m (timeline W) (i + 1) := by
  unfold lossStep
  rw [err_back m W t i _ h1 h2]
  simp only
  conv_rhs => unfold residuals
  rw [if_neg (by omega : ¬i < max m.p m.q), nextW_take m W _ i (by omega) (by omega)]
  have hl := residuals_length m (timeline W) i
  split
  · next hq => rw [List.drop_append_of_le_length (by omega)]; rfl
  · next hq =>
    have h0 : residuals m (timeline W) i = [] := List.length_eq_zero_iff.mp (by omega)
    rw [h0]
    rfl

theorem fold_back (m : Varima V) (W : List V) (t : List (Option V)) (n : ℕ) (h : max m.p m.q + n ≤ W.length) :
    (List.range' (max m.p m.q) n).foldl (lossStep m (W.map some ++ t)) (List.replicate m.q 0) = residuals m (timeline W) (max m.p m.q + n) := by
  induction n with
  | zero => simp [residuals_start]
  | succ n ih =>
    rw [List.range'_concat, List.foldl_append, ih (by omega)]
    simp only [List.foldl_cons, List.foldl_nil, Nat.one_mul]
    rw [lossStep_back m W t _ (by omega) (by omega)]
    rfl

theorem fold_skip {A : Type} (f : A → ℕ → A) (l : List ℕ) (a : A) (h : ∀ i ∈ l, f a i = a) : l.foldl f a = a := by
  induction l with
  | nil => rfl
  | cons x l ih =>
    rw [List.foldl_cons, h x (by simp)]
    exact ih fun i hi => h i (by simp [hi])

/-- Padding at the end does not count. -/
theorem loss_back (m : Varima V) (W : List V) (N : ℕ) (h : max m.p m.q ≤ W.length) :
    lossResiduals m (W.map some ++ List.replicate N none) = residuals m (timeline W) W.length := by
  rw [lossResiduals_eq]
  have hlen : (W.map some ++ List.replicate N (none : Option V)).length - max m.p m.q = (W.length - max m.p m.q) + N := by simp; omega
  rw [hlen, ← List.range'_append_1, List.foldl_append, fold_back m W _ _ (by omega)]
  have e : max m.p m.q + (W.length - max m.p m.q) = W.length := by omega
  rw [e]
  apply fold_skip
  intro i hi
  rw [List.mem_range'_1] at hi
  unfold lossStep varmaErr
  have : (W.map some ++ List.replicate N (none : Option V)).getD i none = none := by
    rw [List.getD_eq_getElem?_getD, List.getElem?_append_right (by simp; omega), List.getElem?_replicate]
    split <;> rfl
  simp only [this, Option.map_none, ite_self]

theorem err_front (m : Varima V) (W : List V) (N i : ℕ) (r : List V) (h1 : max m.p m.q ≤ i) :
    varmaErr m (List.replicate N none ++ W.map some) (N + i) r = varmaErr m (W.map some) i r := by
  unfold varmaErr
  have hw : ((List.replicate N none ++ W.map some).take (N + i)).drop (N + i - max m.p m.q) =
      ((W.map some).take i).drop (i - max m.p m.q) := by
    rw [List.take_append, List.drop_append, List.length_take, List.length_replicate]
    have e1 : N + i - N = i := by omega
    have e2 : N + i - max m.p m.q - min (N + i) N = i - max m.p m.q := by omega
    rw [e1, e2, List.drop_eq_nil_of_le (by simp; omega), List.nil_append]
  have hg : (List.replicate N none ++ W.map some).getD (N + i) none = (W.map some).getD i none := by
    rw [List.getD_eq_getElem?_getD, List.getElem?_append_right (by simp), List.getD_eq_getElem?_getD]
    congr 2
    simp
  simp only [hw, hg]

theorem err_front_none (m : Varima V) (W : List V) (N i : ℕ) (r : List V) (hpq : m.q ≤ m.p) (h1 : m.p ≤ i) (h2 : i < m.p + N)
    (h3 : i ≤ N + W.length) : varmaErr m (List.replicate N none ++ W.map some) i r = none := by
  unfold varmaErr
  simp only [Nat.max_eq_left hpq]
  by_cases hN : i < N
  · have : (List.replicate N none ++ W.map some).getD i none = none := by
      rw [List.getD_eq_getElem?_getD, List.getElem?_append_left (by simpa using hN), List.getElem?_replicate, if_pos hN]
      rfl
    simp only [this, Option.map_none, ite_self]
  · rw [if_neg]
    intro hall
    have := hall (i - N) (by omega)
    have hl : (((List.replicate N none ++ W.map some).take i).drop (i - m.p)).length = m.p := by simp; omega
    rw [hl, List.getD_eq_getElem?_getD, List.getElem?_drop, List.getElem?_take, if_pos (by omega), List.getElem?_append_left (by simp; omega),
      List.getElem?_replicate, if_pos (by omega)] at this
    cases this

/-- Nor does padding in front, when the autoregressive order is at least the moving average order. -/
theorem loss_front (m : Varima V) (W : List V) (N : ℕ) (hpq : m.q ≤ m.p) (h : m.p ≤ W.length) :
    lossResiduals m (List.replicate N none ++ W.map some) = residuals m (timeline W) W.length := by
  have hb := loss_back m W 0 (by omega)
  rw [List.replicate_zero, List.append_nil] at hb
  rw [← hb, lossResiduals_eq, lossResiduals_eq]
  have hm : max m.p m.q = m.p := Nat.max_eq_left hpq
  have hlen : (List.replicate N (none : Option V) ++ W.map some).length - max m.p m.q = N + ((W.map some).length - max m.p m.q) := by
    simp; omega
  have hskip : (List.range' (max m.p m.q) N).foldl (lossStep m (List.replicate N none ++ W.map some)) (List.replicate m.q 0) =
      List.replicate m.q 0 := by
    apply fold_skip
    intro i hi
    rw [List.mem_range'_1] at hi
    unfold lossStep
    by_cases h3 : i ≤ N + W.length
    · rw [err_front_none m W N i _ hpq (by omega) (by omega) h3]
    · omega
  rw [hlen, ← List.range'_append_1, List.foldl_append, hskip]
  · rw [Nat.add_comm (max m.p m.q) N, ← List.map_add_range', List.foldl_map]
    generalize hg : List.replicate m.q (0 : V) = a
    clear hg
    have hmem : ∀ i ∈ List.range' (max m.p m.q) ((W.map some).length - max m.p m.q), max m.p m.q ≤ i := fun i hi => (List.mem_range'_1.mp hi).1
    generalize List.range' (max m.p m.q) ((W.map some).length - max m.p m.q) = l at hmem
    induction l generalizing a with
    | nil => rfl
    | cons x l ih =>
      rw [List.foldl_cons, List.foldl_cons]
      have : lossStep m (List.replicate N none ++ W.map some) a (N + x) = lossStep m (W.map some) a x := by
        unfold lossStep
        rw [err_front m W N x a (hmem x (by simp))]
      rw [this]
      exact ih _ fun i hi => hmem i (by simp [hi])

theorem residuals_congr (m : Varima V) (W W' : ℕ → V) (n : ℕ) (h : ∀ i < n, W i = W' i) : residuals m W n = residuals m W' n := by
  induction n with
  | zero => rfl
  | succ n ih =>
    unfold residuals
    rw [ih fun i hi => h i (by omega)]
    split
    · rfl
    · next hn =>
      rw [h n (by omega)]
      congr 6
      refine Finset.sum_congr rfl fun k hk => ?_
      rw [Finset.mem_range] at hk
      rw [h _ (by omega)]

/-- Residuals after the forecasts of the recursion: no errors are made. -/
theorem residuals_innovations (m : Varima V) (n : ℕ) (W : List V) (h : max m.p m.q ≤ W.length) :
    residuals m (timeline (W ++ innovations m n W (residuals m (timeline W) W.length))) (W.length + n) =
      shiftRes^[n] (residuals m (timeline W) W.length) := by
  generalize hr : residuals m (timeline W) W.length = r
  have hkey : ∀ j ≤ n, residuals m (timeline (W ++ innovations m n W r)) (W.length + j) = shiftRes^[j] r := by
    intro j
    induction j with
    | zero =>
      intro _
      rw [← hr]
      apply residuals_congr
      intro i hi
      simp only [timeline, List.getD_eq_getElem?_getD]
      rw [List.getElem?_append_left (by omega)]
    | succ j ih =>
      intro hj
      have hc := innovations_continue m n W r (by omega) (W.length + j) (by omega) (by omega)
      rw [← Nat.add_assoc]
      unfold residuals
      rw [if_neg (by omega), ih (by omega), hc]
      unfold armaNext
      have e : W.length + j - W.length = j := by omega
      simp only [shiftRes_iter_getD, e, sub_self]
      rw [Function.iterate_succ_apply']
      rfl
  exact hkey n (le_refl _)

end Verif
