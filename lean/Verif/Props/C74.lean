import Verif.Model.Bandwidth
import Verif.Spec.Bandwidth
import Mathlib.Algebra.BigOperators.Intervals
import Mathlib.Data.Finset.Card
import Mathlib.Data.List.GetD
import Mathlib.Algebra.Order.Ring.Rat
import Mathlib.Algebra.Field.Rat
import Mathlib.Tactic.Linarith
import Mathlib.Tactic.Ring
/-!
C74: bandwidths chosen from data.
-/
set_option linter.unusedSectionVars false
namespace Verif
open Spec
variable {K : Type} [Field K] [LinearOrder K] [IsStrictOrderedRing K]

theorem countP_sorted_le {s : List K} (hs : s.Pairwise (· ≤ ·)) {k : ℕ} (hk : k < s.length) {m : K} (hm : s.getD k 0 ≤ m) :
    k + 1 ≤ s.countP (fun x => decide (x ≤ m)) := by
  have h1 : (s.take (k + 1)).countP (fun x => decide (x ≤ m)) = (s.take (k + 1)).length := by
    rw [List.countP_eq_length]
    intro x hx
    obtain ⟨i, hi, rfl⟩ := List.getElem_of_mem hx
    rw [List.length_take] at hi
    rw [decide_eq_true_eq, List.getElem_take]
    refine le_trans ?_ hm
    rw [List.getD_eq_getElem _ _ hk]
    rcases Nat.lt_or_ge i k with h | h
    · exact List.pairwise_iff_getElem.mp hs i k (by omega) hk h
    · have : i = k := by omega
      subst this; exact le_refl _
  have h2 := (List.take_sublist (k + 1) s).countP_le (p := fun x => decide (x ≤ m))
  rw [h1, List.length_take] at h2
  omega

theorem countP_sorted_ge {s : List K} (hs : s.Pairwise (· ≤ ·)) {k : ℕ} (hk : k < s.length) {m : K} (hm : m ≤ s.getD k 0) :
    s.length - k ≤ s.countP (fun x => decide (m ≤ x)) := by
  have h1 : (s.drop k).countP (fun x => decide (m ≤ x)) = (s.drop k).length := by
    rw [List.countP_eq_length]
    intro x hx
    obtain ⟨i, hi, rfl⟩ := List.getElem_of_mem hx
    rw [List.length_drop] at hi
    rw [decide_eq_true_eq, List.getElem_drop]
    refine le_trans hm ?_
    rw [List.getD_eq_getElem _ _ hk]
    rcases Nat.eq_zero_or_pos i with h | h
    · subst h; exact le_refl _
    · exact List.pairwise_iff_getElem.mp hs k (k + i) hk (by omega) (by omega)
  have h2 := (List.drop_sublist k s).countP_le (p := fun x => decide (m ≤ x))
  rw [h1, List.length_drop] at h2
  omega

/-- Both medians lie between the lower and the upper middle value. -/
theorem medianOf_between (be : MedianOf) (l : List K) (hl : l ≠ []) :
    (l.insertionSort (· ≤ ·)).getD ((l.length - 1) / 2) 0 ≤ medianOf be l ∧ medianOf be l ≤ (l.insertionSort (· ≤ ·)).getD (l.length / 2) 0 := by
  have hn : 0 < l.length := List.length_pos_iff.mpr hl
  have hs := List.pairwise_insertionSort (· ≤ ·) l
  have hlen := List.length_insertionSort (· ≤ ·) l
  unfold medianOf
  generalize l.insertionSort (· ≤ ·) = s at hs hlen
  have hle : s.getD ((l.length - 1) / 2) 0 ≤ s.getD (l.length / 2) 0 := by
    rw [List.getD_eq_getElem _ _ (show (l.length - 1) / 2 < s.length by omega), List.getD_eq_getElem _ _ (show l.length / 2 < s.length by omega)]
    rcases Nat.lt_or_ge ((l.length - 1) / 2) (l.length / 2) with h | h
    · exact List.pairwise_iff_getElem.mp hs _ _ _ _ h
    · have : (l.length - 1) / 2 = l.length / 2 := by omega
      simp only [this, le_refl]
  cases be with
  | torch => simp only [hlen]; exact ⟨le_refl _, hle⟩
  | numpy =>
    simp only [hlen]
    split
    · next h =>
      have : (l.length - 1) / 2 = l.length / 2 := by omega
      rw [this]; exact ⟨le_refl _, le_refl _⟩
    · next h =>
      have : l.length / 2 - 1 = (l.length - 1) / 2 := by omega
      rw [this]
      constructor <;> linarith

theorem medianOf_middle (be : MedianOf) (l : List K) (hl : l ≠ []) :
    l.length ≤ 2 * l.countP (fun x => decide (x ≤ medianOf be l)) ∧ l.length ≤ 2 * l.countP (fun x => decide (medianOf be l ≤ x)) := by
  have hn : 0 < l.length := List.length_pos_iff.mpr hl
  have hs := List.pairwise_insertionSort (· ≤ ·) l
  have hp := List.perm_insertionSort (· ≤ ·) l
  have hlen := List.length_insertionSort (· ≤ ·) l
  obtain ⟨h1, h2⟩ := medianOf_between be l hl
  have a := countP_sorted_le hs (show (l.length - 1) / 2 < _ by omega) h1
  have b := countP_sorted_ge hs (show l.length / 2 < _ by omega) h2
  rw [hp.countP_eq] at a b
  omega

theorem pairsBelow_count (n : ℕ) (P : ℕ → ℕ → Prop) [∀ a b, Decidable (P a b)] :
    ((pairsBelow n).filter fun ab => P ab.1 ab.2).card = ∑ a ∈ Finset.range n, ∑ b ∈ Finset.range n, if a < b ∧ P a b then 1 else 0 := by
  classical
  unfold pairsBelow
  rw [Finset.filter_filter, Finset.card_filter, Finset.sum_product]

theorem sum_ite_count {P : Type} (p : P → Bool) (l : List P) (z : P) :
    (∑ b ∈ Finset.range l.length, if p (l.getD b z) = true then 1 else 0) = l.countP p := by
  induction l with
  | nil => rfl
  | cons x l ih =>
    rw [List.length_cons, Finset.sum_range_succ']
    simp only [List.getD_cons_succ, List.getD_cons_zero]
    rw [ih, List.countP_cons]

/-- Counting in the list of distances is counting pairs. -/
theorem pdistOf_count {P : Type} (dist : P → P → K) (p : K → Bool) (l : List P) (z : P) :
    (pdistOf dist l).countP p = ∑ a ∈ Finset.range l.length, ∑ b ∈ Finset.range l.length,
      if a < b ∧ p (dist (l.getD a z) (l.getD b z)) = true then 1 else 0 := by
  induction l with
  | nil => rfl
  | cons x l ih =>
    rw [pdistOf, List.countP_append, ih, List.countP_map, List.length_cons, Finset.sum_range_succ']
    simp only [Finset.sum_range_succ', List.getD_cons_succ, List.getD_cons_zero, Nat.not_lt_zero, false_and, if_false, add_zero, Nat.zero_lt_succ,
      true_and, Nat.succ_lt_succ_iff]
    rw [← sum_ite_count (p ∘ dist x) l z, add_comm]
    rfl

theorem pdistOf_length {P : Type} (dist : P → P → K) (l : List P) : (pdistOf dist l).length = (pairsBelow l.length).card := by
  classical
  cases l with
  | nil => simp [pdistOf, pairsBelow]
  | cons x l =>
    have := pdistOf_count dist (fun _ => true) (x :: l) x
    rw [List.countP_true] at this
    rw [this, ← pairsBelow_count _ (fun _ _ => _)]
    congr 1
    simp

theorem pdistOf_ne_nil {P : Type} (dist : P → P → K) (l : List P) (h : 2 ≤ l.length) : pdistOf dist l ≠ [] := by
  match l, h with
  | x :: y :: l, _ => simp [pdistOf]

theorem pdistOf_mem {P : Type} (dist : P → P → K) (Q : K → Prop) (hQ : ∀ x y, Q (dist x y)) : ∀ l : List P, ∀ v ∈ pdistOf dist l, Q v
  | [], v, h => by simp [pdistOf] at h
  | x :: l, v, h => by
    rw [pdistOf, List.mem_append, List.mem_map] at h
    rcases h with ⟨y, -, rfl⟩ | h
    · exact hQ x y
    · exact pdistOf_mem dist Q hQ l v h

theorem pdistOf_map {P Q : Type} (dist : P → P → K) (g : K → K) (f : Q → P) (dist' : Q → Q → K) (h : ∀ x y, dist (f x) (f y) = g (dist' x y)) :
    ∀ l : List Q, pdistOf dist (l.map f) = (pdistOf dist' l).map g
  | [] => rfl
  | x :: l => by
    rw [List.map_cons, pdistOf, pdistOf, List.map_append, pdistOf_map dist g f dist' h l, List.map_map, List.map_map]
    congr 1
    exact List.map_congr_left fun y _ => h x y

theorem medianOf_pdist_middle {P : Type} (be : MedianOf) (dist : P → P → K) (l : List P) (z : P) (hl : 2 ≤ l.length) :
    Middle l.length (fun a b => dist (l.getD a z) (l.getD b z)) (medianOf be (pdistOf dist l)) := by
  classical
  have h := medianOf_middle be _ (pdistOf_ne_nil dist l hl)
  rw [pdistOf_length, pdistOf_count dist _ l z, pdistOf_count dist _ l z] at h
  simp only [decide_eq_true_eq] at h
  rw [← pairsBelow_count _ fun a b => dist (l.getD a z) (l.getD b z) ≤ _, ← pairsBelow_count _ fun a b => _ ≤ dist (l.getD a z) (l.getD b z)] at h
  unfold Middle
  convert h

/-- What the returned value is made of. -/
theorem sigmaGak_ok {be : MedianOf} {x : DsInput ℝ} {idx : List ℕ} {s : ℝ} (h : sigmaGak be x idx = .ok s) :
    ∃ X, toDataset x = .ok X ∧ validPoints X ≠ [] ∧ 2 ≤ idx.length ∧ s = medianOf be (pdistOf euclid (drawn X idx)) * Real.sqrt X.sz := by
  unfold sigmaGak at h
  cases hX : toDataset x with
  | error e => rw [hX] at h; cases h
  | ok X =>
    rw [hX] at h
    simp only [bind, Except.bind, pure, Except.pure, medianDist] at h
    by_cases h1 : validPoints X = []
    · rw [if_pos h1] at h; cases h
    · rw [if_neg h1] at h
      by_cases h2 : idx.length < 2
      · rw [if_pos h2] at h; cases h
      · rw [if_neg h2] at h
        cases h
        exact ⟨X, rfl, h1, by omega, rfl⟩

theorem drawn_length {α : Type} (X : Arr3 α) (idx : List ℕ) : (drawn X idx).length = idx.length := List.length_map _

theorem drawn_getD {α : Type} (X : Arr3 α) (idx : List ℕ) (a : ℕ) (ha : a < idx.length) :
    (drawn X idx).getD a [] = (validPoints X).getD (idx.getD a 0) [] := by
  unfold drawn
  rw [List.getD_eq_getElem _ _ (by rw [List.length_map]; exact ha), List.getElem_map, List.getD_eq_getElem _ _ ha]

/-- The bandwidth is the square root of the greatest size times a middle of the distances between the drawn points, on either backend. -/
theorem C74_median (be : MedianOf) (x : DsInput ℝ) (idx : List ℕ) (s : ℝ) (h : sigmaGak be x idx = .ok s) :
    ∃ (X : Arr3 ℝ) (m : ℝ), toDataset x = .ok X ∧ s = m * Real.sqrt X.sz ∧
      Middle idx.length (fun a b => euclid ((validPoints X).getD (idx.getD a 0) []) ((validPoints X).getD (idx.getD b 0) [])) m := by
  classical
  obtain ⟨X, hX, -, h2, rfl⟩ := sigmaGak_ok h
  refine ⟨X, _, hX, rfl, ?_⟩
  have := medianOf_pdist_middle be euclid (drawn X idx) [] (by rw [drawn_length]; exact h2)
  rw [drawn_length] at this
  unfold Middle at this ⊢
  have key : ∀ (P : ℝ → Prop), ((pairsBelow idx.length).filter fun ab => P (euclid ((drawn X idx).getD ab.1 []) ((drawn X idx).getD ab.2 []))) =
      (pairsBelow idx.length).filter fun ab => P (euclid ((validPoints X).getD (idx.getD ab.1 0) []) ((validPoints X).getD (idx.getD ab.2 0) [])) := by
    intro P
    refine Finset.filter_congr fun ab hab => ?_
    unfold pairsBelow at hab
    rw [Finset.mem_filter, Finset.mem_product, Finset.mem_range, Finset.mem_range] at hab
    rw [drawn_getD X idx _ hab.1.1, drawn_getD X idx _ hab.1.2]
  have k1 := key (· ≤ medianOf be (pdistOf euclid (drawn X idx)))
  have k2 := key (medianOf be (pdistOf euclid (drawn X idx)) ≤ ·)
  rw [← k1, ← k2]
  exact this

/-- It is never negative. -/
theorem C74_nonneg (be : MedianOf) (x : DsInput ℝ) (idx : List ℕ) (s : ℝ) (h : sigmaGak be x idx = .ok s) : 0 ≤ s := by
  obtain ⟨X, -, -, h2, rfl⟩ := sigmaGak_ok h
  refine mul_nonneg ?_ (Real.sqrt_nonneg _)
  have hne := pdistOf_ne_nil euclid (drawn X idx) (by rw [drawn_length]; exact h2)
  have hm := (medianOf_middle be _ hne).1
  have hpos : 0 < (pdistOf euclid (drawn X idx)).length := List.length_pos_iff.mpr hne
  obtain ⟨v, hv, hle⟩ := List.countP_pos_iff.mp (by omega : 0 < (pdistOf euclid (drawn X idx)).countP fun x => decide (x ≤ medianOf be (pdistOf euclid (drawn X idx))))
  rw [decide_eq_true_eq] at hle
  exact le_trans (pdistOf_mem euclid (0 ≤ ·) (fun _ _ => Real.sqrt_nonneg _) _ v hv) hle

/-- The second bandwidth is that of the kernel written for soft-DTW: `sqrt(gamma / 2)`, as the support vector machines use it, gives the first
one back. -/
theorem C74_gamma (be : MedianOf) (x : DsInput ℝ) (idx : List ℕ) (g : ℝ) (h : gammaSoftDtw be x idx = .ok g) :
    0 ≤ g ∧ sigmaGak be x idx = .ok (Real.sqrt (g / 2)) := by
  unfold gammaSoftDtw at h
  cases hs : sigmaGak be x idx with
  | error e => rw [hs] at h; cases h
  | ok s =>
    rw [hs] at h
    cases h
    have h0 := C74_nonneg be x idx s hs
    refine ⟨by positivity, ?_⟩
    rw [mul_div_cancel_left₀ _ (two_ne_zero), Real.sqrt_sq h0]

/-- A dataset without any complete point is refused. -/
theorem C74_no_points (be : MedianOf) (x : DsInput ℝ) (idx : List ℕ) (X : Arr3 ℝ) (hX : toDataset x = .ok X)
    (h : ∀ s ∈ X.data, ∀ r ∈ s, none ∈ r) : sigmaGak be x idx = .error .valueError := by
  have : validPoints X = [] := by
    unfold validPoints
    rw [List.filterMap_eq_nil_iff]
    intro r hr
    obtain ⟨s, hs, hrs⟩ := List.mem_flatten.mp hr
    have hn := h s hs r hrs
    clear hr hrs
    induction r with
    | nil => simp at hn
    | cons v r ih =>
      rw [List.mapM_cons]
      cases v with
      | none => rfl
      | some v =>
        have hn' : none ∈ r := by simpa using hn
        rw [ih hn']
        rfl
  unfold sigmaGak
  rw [hX]
  simp only [bind, Except.bind, medianDist, if_pos this]

theorem euclid_eq_zero_of_eq (a : List ℝ) : euclid a a = 0 := by
  unfold euclid sqDist
  have : ∀ (l : List ℝ) (acc : ℝ), (List.zipWith (fun u v => (u - v) * (u - v)) l l).foldl (· + ·) acc = acc := by
    intro l
    induction l with
    | nil => intro acc; rfl
    | cons x l ih => intro acc; rw [List.zipWith_cons_cons, List.foldl_cons, ih]; ring
  rw [this, Real.sqrt_zero]

/-- False: a dataset with different points has a positive bandwidth. It is zero as soon as more than half of the pairs of drawn points
coincide. -/
theorem C74_false_positive (be : MedianOf) (x : DsInput ℝ) (idx : List ℕ) (s : ℝ) (h : sigmaGak be x idx = .ok s) (X : Arr3 ℝ) (hX : toDataset x = .ok X)
    (hmost : (pairsBelow idx.length).card < 2 * ((pairsBelow idx.length).filter fun ab =>
      (validPoints X).getD (idx.getD ab.1 0) [] = (validPoints X).getD (idx.getD ab.2 0) []).card) : s = 0 := by
  classical
  have h0 := C74_nonneg be x idx s h
  obtain ⟨X', m, hX', rfl, -, hge⟩ := C74_median be x idx s h
  rw [hX] at hX'
  cases hX'
  by_contra hne
  have hsq : 0 < Real.sqrt X.sz := by
    rcases (Real.sqrt_nonneg (X.sz : ℝ)).eq_or_lt with h | h
    · rw [← h, mul_zero] at hne; exact absurd rfl hne
    · exact h
  have hm : 0 < m := by
    rcases lt_trichotomy m 0 with h | h | h
    · exact absurd (mul_neg_of_neg_of_pos h hsq) (not_lt.mpr h0)
    · rw [h, zero_mul] at hne; exact absurd rfl hne
    · exact h
  have hsplit := Finset.card_filter_add_card_filter_not (s := pairsBelow idx.length)
    (fun ab => (validPoints X).getD (idx.getD ab.1 0) [] = (validPoints X).getD (idx.getD ab.2 0) [])
  have hsub : ((pairsBelow idx.length).filter fun ab => m ≤ euclid ((validPoints X).getD (idx.getD ab.1 0) []) ((validPoints X).getD (idx.getD ab.2 0) [])).card ≤
      ((pairsBelow idx.length).filter fun ab => ¬(validPoints X).getD (idx.getD ab.1 0) [] = (validPoints X).getD (idx.getD ab.2 0) []).card := by
    refine Finset.card_le_card fun ab hab => ?_
    rw [Finset.mem_filter] at hab ⊢
    refine ⟨hab.1, fun he => ?_⟩
    rw [he, euclid_eq_zero_of_eq] at hab
    exact absurd hab.2 (not_le.mpr hm)
  simp only at hge
  omega

theorem pairsBelow_card (n : ℕ) : 2 * (pairsBelow n).card + n = n * n := by
  have : ∀ l : List Unit, 2 * (pdistOf (fun _ _ => (0 : ℚ)) l).length + l.length = l.length * l.length := by
    intro l
    induction l with
    | nil => rfl
    | cons x l ih =>
      rw [pdistOf, List.length_append, List.length_map, List.length_cons]
      nlinarith
  have h := this (List.replicate n ())
  rw [pdistOf_length, List.length_replicate] at h
  exact h

theorem equal_pairs {P : Type} [DecidableEq P] (u v : P) (huv : u ≠ v) : ∀ l : List P, (∀ p ∈ l, p = u ∨ p = v) →
    2 * (pdistOf (fun x y => if x = y then (0 : ℚ) else 1) l).countP (fun d => decide (d = 0)) + l.length =
      (l.filter fun p => p = u).length ^ 2 + (l.filter fun p => p = v).length ^ 2 ∧ l.length = (l.filter fun p => p = u).length + (l.filter fun p => p = v).length
  | [], _ => ⟨rfl, rfl⟩
  | x :: l, h => by
    obtain ⟨ih, ihl⟩ := equal_pairs u v huv l fun p hp => h p (List.mem_cons_of_mem _ hp)
    have hc : (l.map fun y => if x = y then (0 : ℚ) else 1).countP (fun d => decide (d = 0)) = (l.filter fun p => p = x).length := by
      rw [List.countP_map, ← List.countP_eq_length_filter]
      refine List.countP_congr fun y _ => ?_
      by_cases hxy : x = y
      · simp [hxy]
      · have : ¬y = x := fun e => hxy e.symm
        simp [hxy, this]
    rw [pdistOf, List.countP_append, hc, List.length_cons]
    rcases h x List.mem_cons_self with rfl | rfl
    · rw [List.filter_cons_of_pos (by simp), List.filter_cons_of_neg (by simpa using huv), List.length_cons]
      constructor
      · nlinarith
      · omega
    · rw [List.filter_cons_of_neg (p := fun p => decide (p = u)) (by simpa using Ne.symm huv), List.filter_cons_of_pos (by simp), List.length_cons]
      constructor
      · nlinarith
      · omega

/-- Series with two values: the bandwidth is zero when the numbers `a` and `b` of drawn points with one and the other satisfy
`a + b < (a - b) ^ 2` (of 100 points, 45 and 55 or fewer on one side do not, 44 and 56 do). -/
theorem C74_false_two_values (be : MedianOf) (x : DsInput ℝ) (idx : List ℕ) (s : ℝ) (h : sigmaGak be x idx = .ok s) (X : Arr3 ℝ) (hX : toDataset x = .ok X)
    (u v : List ℝ) (huv : u ≠ v) (hv : ∀ i ∈ idx, (validPoints X).getD i [] = u ∨ (validPoints X).getD i [] = v)
    (a b : ℕ) (ha : (idx.filter fun i => (validPoints X).getD i [] = u).length = a) (hb : (idx.filter fun i => (validPoints X).getD i [] = v).length = b)
    (hab : (a + b : ℤ) < (a - b) ^ 2) : s = 0 := by
  classical
  refine C74_false_positive be x idx s h X hX ?_
  have hd : ∀ p ∈ drawn X idx, p = u ∨ p = v := by
    intro p hp
    obtain ⟨i, hi, rfl⟩ := List.mem_map.mp hp
    exact hv i hi
  obtain ⟨h1, h2⟩ := equal_pairs u v huv (drawn X idx) hd
  have hcount : ∀ w : List ℝ, ((drawn X idx).filter fun p => p = w).length = (idx.filter fun i => (validPoints X).getD i [] = w).length := by
    intro w
    unfold drawn
    rw [List.filter_map, List.length_map]
    rfl
  rw [hcount u, hcount v, ha, hb, drawn_length] at h1
  rw [hcount u, hcount v, ha, hb, drawn_length] at h2
  rw [pdistOf_count _ _ (drawn X idx) []] at h1
  have hcard := pairsBelow_card idx.length
  have hgoal := pairsBelow_count idx.length fun a b => (validPoints X).getD (idx.getD a 0) [] = (validPoints X).getD (idx.getD b 0) []
  have hsum : (∑ a ∈ Finset.range (drawn X idx).length, ∑ b ∈ Finset.range (drawn X idx).length,
      if a < b ∧ decide ((if (drawn X idx).getD a [] = (drawn X idx).getD b [] then (0 : ℚ) else 1) = 0) = true then 1 else 0) =
      ∑ a ∈ Finset.range idx.length, ∑ b ∈ Finset.range idx.length,
        if a < b ∧ (validPoints X).getD (idx.getD a 0) [] = (validPoints X).getD (idx.getD b 0) [] then 1 else 0 := by
    rw [drawn_length]
    refine Finset.sum_congr rfl fun a ha => Finset.sum_congr rfl fun b hb => ?_
    rw [drawn_getD X idx a (Finset.mem_range.mp ha), drawn_getD X idx b (Finset.mem_range.mp hb)]
    refine if_congr (and_congr Iff.rfl ?_) rfl rfl
    by_cases he : (validPoints X).getD (idx.getD a 0) [] = (validPoints X).getD (idx.getD b 0) []
    · simp [he]
    · simp [he]
  rw [hsum, ← hgoal] at h1
  generalize ((pairsBelow idx.length).filter fun ab => (validPoints X).getD (idx.getD ab.1 0) [] = (validPoints X).getD (idx.getD ab.2 0) []).card = E at h1 ⊢
  generalize (pairsBelow idx.length).card = T at hcard ⊢
  generalize idx.length = n at *
  subst h2
  zify at *
  nlinarith

/-- The lower median is at most the other one. -/
theorem C74_backends_partial (x : DsInput ℝ) (idx : List ℕ) (s t : ℝ) (hs : sigmaGak .numpy x idx = .ok s) (ht : sigmaGak .torch x idx = .ok t) :
    t ≤ s ∧ ((pairsBelow idx.length).card % 2 = 1 → t = s) := by
  obtain ⟨X, hX, -, h2, rfl⟩ := sigmaGak_ok hs
  obtain ⟨X', hX', -, -, rfl⟩ := sigmaGak_ok ht
  rw [hX] at hX'
  cases hX'
  have hne := pdistOf_ne_nil euclid (drawn X idx) (by rw [drawn_length]; exact h2)
  have hlen := pdistOf_length euclid (drawn X idx)
  rw [drawn_length] at hlen
  constructor
  · refine mul_le_mul_of_nonneg_right ?_ (Real.sqrt_nonneg _)
    refine le_trans (le_of_eq ?_) (medianOf_between .numpy _ hne).1
    simp only [medianOf, List.length_insertionSort]
  · intro hodd
    congr 1
    simp only [medianOf, List.length_insertionSort, hlen, hodd, if_true]
    congr 1
    omega

/-- False: both backends choose the same bandwidth. With an even number of pairs, as with the 100 points of the default, they need not. -/
theorem C74_false_backends : ∃ (x : DsInput ℝ) (idx : List ℕ) (s t : ℝ), IsDraw 4 4 idx ∧ sigmaGak .numpy x idx = .ok s ∧ sigmaGak .torch x idx = .ok t ∧
    t < s := by
  have hX : toDataset (.series [⟨1, [[some 0], [some 1], [some 3], [some 7]]⟩] : DsInput ℝ) = .ok ⟨4, 1, [[[some 0], [some 1], [some 3], [some 7]]]⟩ := rfl
  have hv : validPoints (⟨4, 1, [[[some 0], [some 1], [some 3], [some 7]]]⟩ : Arr3 ℝ) = [[0], [1], [3], [7]] := rfl
  have he : ∀ a b : ℝ, euclid [a] [b] = |a - b| := by
    intro a b
    unfold euclid sqDist
    simp only [List.zipWith_cons_cons, List.zipWith_nil_left, List.foldl_cons, List.foldl_nil, zero_add]
    exact Real.sqrt_mul_self_eq_abs _
  have hd : pdistOf euclid (drawn (⟨4, 1, [[[some 0], [some 1], [some 3], [some 7]]]⟩ : Arr3 ℝ) [0, 1, 2, 3]) = [1, 3, 7, 2, 6, 4] := by
    unfold drawn
    rw [hv]
    simp [pdistOf, he]
    norm_num [abs_of_nonneg, abs_of_neg]
  have hsort : ([1, 3, 7, 2, 6, 4] : List ℝ).insertionSort (· ≤ ·) = [1, 2, 3, 4, 6, 7] := by
    norm_num [List.insertionSort, List.orderedInsert]
  refine ⟨.series [⟨1, [[some 0], [some 1], [some 3], [some 7]]⟩], [0, 1, 2, 3], 7 / 2 * Real.sqrt 4, 3 * Real.sqrt 4, ⟨rfl, by decide, by decide⟩, ?_, ?_, ?_⟩
  · unfold sigmaGak
    rw [hX]
    simp only [bind, Except.bind, pure, Except.pure, medianDist, hv, hd, medianOf, hsort, if_neg (List.cons_ne_nil _ _)]
    norm_num
  · unfold sigmaGak
    rw [hX]
    simp only [bind, Except.bind, pure, Except.pure, medianDist, hv, hd, medianOf, hsort, if_neg (List.cons_ne_nil _ _)]
    norm_num
  · have : 0 < Real.sqrt 4 := Real.sqrt_pos.mpr (by norm_num)
    linarith

theorem mapM_map_some (f : ℝ → ℝ) : ∀ r : List (Option ℝ), (r.map (Option.map f)).mapM id = (r.mapM id).map (List.map f)
  | [] => rfl
  | v :: r => by
    rw [List.map_cons, List.mapM_cons, List.mapM_cons, mapM_map_some f r]
    cases v with
    | none => rfl
    | some v => cases r.mapM id <;> rfl

theorem sqDist_affine (c e : ℝ) (a b : List ℝ) : sqDist (a.map fun v => c * v + e) (b.map fun v => c * v + e) = c ^ 2 * sqDist a b := by
  unfold sqDist
  have : ∀ (a b : List ℝ) (acc : ℝ), (List.zipWith (fun u v => (u - v) * (u - v)) (a.map fun v => c * v + e) (b.map fun v => c * v + e)).foldl (· + ·) (c ^ 2 * acc) =
      c ^ 2 * (List.zipWith (fun u v => (u - v) * (u - v)) a b).foldl (· + ·) acc := by
    intro a
    induction a with
    | nil => intro b acc; simp
    | cons x a ih =>
      intro b acc
      cases b with
      | nil => simp
      | cons y b =>
        simp only [List.map_cons, List.zipWith_cons_cons, List.foldl_cons]
        rw [← ih]
        congr 1
        ring
  have h := this a b 0
  rwa [mul_zero] at h

theorem insertionSort_scale (c : ℝ) (hc : 0 ≤ c) (l : List ℝ) : (l.map (c * ·)).insertionSort (· ≤ ·) = (l.insertionSort (· ≤ ·)).map (c * ·) := by
  refine List.Perm.eq_of_pairwise (le := (· ≤ ·)) (fun a b _ _ h1 h2 => le_antisymm h1 h2) (List.pairwise_insertionSort _ _) ?_ ?_
  · rw [List.pairwise_map]
    exact (List.pairwise_insertionSort (· ≤ ·) l).imp fun h => mul_le_mul_of_nonneg_left h hc
  · exact (List.perm_insertionSort _ _).trans ((List.perm_insertionSort (· ≤ ·) l).map _).symm

theorem medianOf_scale (be : MedianOf) (c : ℝ) (hc : 0 ≤ c) (l : List ℝ) : medianOf be (l.map (c * ·)) = c * medianOf be l := by
  have hg : ∀ (s : List ℝ) (i : ℕ), (s.map (c * ·)).getD i 0 = c * s.getD i 0 := by
    intro s i
    simp only [List.getD_eq_getElem?_getD, List.getElem?_map]
    cases s[i]? <;> simp
  unfold medianOf
  rw [insertionSort_scale c hc]
  cases be with
  | torch => simp only [List.length_map]; rw [hg]
  | numpy =>
    simp only [List.length_map]
    split
    · rw [hg]
    · rw [hg, hg]; ring

/-- In other units and with another origin, the same draw gives the bandwidth in the new units. -/
theorem C74_units (be : MedianOf) (x x' : DsInput ℝ) (X : Arr3 ℝ) (c e : ℝ) (hX : toDataset x = .ok X)
    (hX' : toDataset x' = .ok ⟨X.sz, X.d, X.data.map (List.map (List.map (Option.map fun v => c * v + e)))⟩) (idx : List ℕ) (s : ℝ)
    (h : sigmaGak be x idx = .ok s) (hidx : ∀ i ∈ idx, i < (validPoints X).length) : sigmaGak be x' idx = .ok (|c| * s) := by
  obtain ⟨X0, hX0, h1, h2, rfl⟩ := sigmaGak_ok h
  rw [hX] at hX0
  cases hX0
  generalize hY : (⟨X.sz, X.d, X.data.map (List.map (List.map (Option.map fun v => c * v + e)))⟩ : Arr3 ℝ) = Y at hX'
  have hsz : Y.sz = X.sz := by rw [← hY]
  have hv : validPoints Y = (validPoints X).map (List.map fun v => c * v + e) := by
    unfold validPoints
    rw [← hY]
    simp only
    rw [← List.map_flatten, List.filterMap_map, List.map_filterMap]
    refine List.filterMap_congr fun r _ => ?_
    exact mapM_map_some _ r
  have hdr : drawn Y idx = (drawn X idx).map (List.map fun v => c * v + e) := by
    unfold drawn
    rw [List.map_map]
    refine List.map_congr_left fun i hi => ?_
    have hi' := hidx i hi
    rw [Function.comp, List.getD_eq_getElem _ _ hi', List.getD_eq_getElem _ _ (by rw [hv, List.length_map]; exact hi')]
    simp only [hv, List.getElem_map]
  have hpd : pdistOf euclid (drawn Y idx) = (pdistOf euclid (drawn X idx)).map (|c| * ·) := by
    rw [hdr]
    refine pdistOf_map euclid (|c| * ·) _ euclid (fun a b => ?_) _
    unfold euclid
    rw [sqDist_affine, Real.sqrt_mul (sq_nonneg c), Real.sqrt_sq_eq_abs]
  have hne : validPoints Y ≠ [] := by rw [hv]; simpa using h1
  unfold sigmaGak
  rw [hX']
  simp only [bind, Except.bind, pure, Except.pure, medianDist]
  rw [if_neg hne, if_neg (by omega), hpd, medianOf_scale be _ (abs_nonneg c), hsz]
  simp only
  rw [mul_assoc]

/-- One series, seven samples of which one differs. -/
noncomputable def sevenSamples : Arr3 ℝ := ⟨7, 1, [[[some 0], [some 0], [some 0], [some 0], [some 0], [some 0], [some 1]]]⟩

theorem sevenSamples_points : validPoints sevenSamples = [[0], [0], [0], [0], [0], [0], [1]] := rfl

/-- 6 and 1 satisfy `7 < 25`. -/
theorem sevenSamples_sigma (be : MedianOf) : sigmaGak be (.series sevenSamples.slots) [0, 1, 2, 3, 4, 5, 6] = .ok 0 := by
  have hX : toDataset (.series sevenSamples.slots) = .ok sevenSamples := rfl
  obtain ⟨s, hs⟩ : ∃ s, sigmaGak be (.series sevenSamples.slots) [0, 1, 2, 3, 4, 5, 6] = .ok s := by
    unfold sigmaGak
    rw [hX]
    simp only [bind, Except.bind, pure, Except.pure, medianDist, sevenSamples_points]
    exact ⟨_, rfl⟩
  rw [hs]
  congr 1
  refine C74_false_two_values be _ _ s hs _ hX [0] [1] (by simp) ?_ 6 1 ?_ ?_ (by norm_num)
  · rw [sevenSamples_points]
    intro i hi
    simp only [List.mem_cons, List.not_mem_nil, or_false] at hi
    rcases hi with rfl | rfl | rfl | rfl | rfl | rfl | rfl <;> simp
  · rw [sevenSamples_points]; simp [List.filter]
  · rw [sevenSamples_points]; simp [List.filter]

example : IsDraw (validPoints sevenSamples).length 7 [0, 1, 2, 3, 4, 5, 6] := ⟨rfl, by rw [sevenSamples_points]; decide, by decide⟩

/-- Twice as much plus one. -/
example (be : MedianOf) (s : ℝ) (h : sigmaGak be (.series [⟨1, [[some 0], [some 1], [some 3]]⟩]) [0, 2, 1] = .ok s) :
    sigmaGak be (.series [⟨1, [[some (2 * 0 + 1)], [some (2 * 1 + 1)], [some (2 * 3 + 1)]]⟩]) [0, 2, 1] = .ok (|2| * s) :=
  C74_units be _ _ ⟨3, 1, [[[some 0], [some 1], [some 3]]]⟩ 2 1 rfl rfl _ s h (by
    intro i hi
    show i < 3
    revert i
    decide)

end Verif
