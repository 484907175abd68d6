import Verif.Model.Missing
import Verif.Spec.Missing
import Verif.Proofs.Frechet
import Verif.Proofs.Subsequence
import Verif.Proofs.Lcss
import Verif.Props.C02
import Mathlib.Data.List.GetD
import Mathlib.Algebra.Order.Ring.Rat
/-!
# C115 — a missing value inside a series
-/
set_option linter.unusedSectionVars false
set_option linter.unusedVariables false
namespace Verif
open Spec

/-! ## Tables -/
section
variable {C : Type*} {l1 l2 : ℕ} {mask : Mat Bool} {cell : ℕ → ℕ → C → C → C → C} {init M : Mat C}

/-- Two tables whose cells correspond. -/
theorem IsDP.map {C' : Type*} {mask' : Mat Bool} {cell' : ℕ → ℕ → C' → C' → C' → C'} {init' N : Mat C'} (hM : IsDP l1 l2 mask cell init M)
    (hN : IsDP l1 l2 mask' cell' init' N) (f : C' → C) (h0 : ∀ i j, init i j = f (init' i j))
    (hc : ∀ i j a b c, i < l1 → j < l2 → (if mask i j then cell i j (f a) (f b) (f c) else init (i + 1) (j + 1)) =
      f (if mask' i j then cell' i j a b c else init' (i + 1) (j + 1))) : ∀ i j, i ≤ l1 → j ≤ l2 → M i j = f (N i j) := by
  intro i
  induction i with
  | zero => intro j _ _; rw [hM.row0, hN.row0, h0]
  | succ i ih =>
    intro j
    induction j with
    | zero => intro _ _; rw [hM.col0, hN.col0, h0]
    | succ j ihj =>
      intro hi hj
      rw [hM.body i j (by omega) (by omega), hN.body i j (by omega) (by omega), ih _ (by omega) hj, ihj hi (by omega), ih _ (by omega) (by omega)]
      exact hc _ _ _ _ _ (by omega) (by omega)

theorem IsDP.spread_down (hM : IsDP l1 l2 mask cell init M) (P : C → Prop) (hinit : ∀ i j, i ≠ 0 → P (init i j)) {r : ℕ} (hr : r < l1)
    (hrow : ∀ j, j < l2 → ∀ a b c, P (cell r j a b c)) (hall : ∀ i j a b c, P a → P b → P c → P (cell i j a b c)) :
    ∀ i j, r + 1 ≤ i → i ≤ l1 → j ≤ l2 → P (M i j) := by
  intro i
  induction i with
  | zero => intro j h; omega
  | succ i ih =>
    intro j
    induction j with
    | zero => intro _ _ _; rw [hM.col0]; exact hinit _ _ (by omega)
    | succ j ihj =>
      intro h1 h2 h3
      rw [hM.body i j (by omega) (by omega)]
      split
      · rcases Nat.lt_or_ge r i with h | h
        · exact hall _ _ _ _ _ (ih _ (by omega) (by omega) h3) (ihj h1 h2 (by omega)) (ih _ (by omega) (by omega) (by omega))
        · obtain rfl : i = r := by omega
          exact hrow j (by omega) _ _ _
      · exact hinit _ _ (by omega)

theorem IsDP.spread_right (hM : IsDP l1 l2 mask cell init M) (P : C → Prop) (hinit : ∀ i j, j ≠ 0 → P (init i j)) {r : ℕ} (hr : r < l2)
    (hcol : ∀ i, i < l1 → ∀ a b c, P (cell i r a b c)) (hall : ∀ i j a b c, P a → P b → P c → P (cell i j a b c)) :
    ∀ i j, r + 1 ≤ j → i ≤ l1 → j ≤ l2 → P (M i j) := by
  intro i
  induction i with
  | zero => intro j h _ _; rw [hM.row0]; exact hinit _ _ (by omega)
  | succ i ih =>
    intro j
    induction j with
    | zero => intro h _ _; omega
    | succ j ihj =>
      intro h1 h2 h3
      rw [hM.body i j (by omega) (by omega)]
      split
      · rcases Nat.lt_or_ge r j with h | h
        · exact hall _ _ _ _ _ (ih _ (by omega) (by omega) h3) (ihj (by omega) h2 (by omega)) (ih _ (by omega) (by omega) (by omega))
        · obtain rfl : j = r := by omega
          exact hcol i (by omega) _ _ _
      · exact hinit _ _ (by omega)

/-- Without a mask, what comes from above alone. -/
theorem IsDP.from_up (hM : IsDP l1 l2 (fun _ _ => true) cell init M) (P : C → Prop) {r : ℕ} (hr : r < l1)
    (hrow : ∀ j, j < l2 → ∀ a b c, P (cell r j a b c)) (hup : ∀ i j a b c, P a → P (cell i j a b c)) :
    ∀ i j, r + 1 ≤ i → i ≤ l1 → 1 ≤ j → j ≤ l2 → P (M i j) := by
  intro i
  induction i with
  | zero => intro j h; omega
  | succ i ih =>
    intro j h1 h2 h3 h4
    obtain ⟨j, rfl⟩ : ∃ k, j = k + 1 := ⟨j - 1, by omega⟩
    rw [hM.body i j (by omega) (by omega), if_pos rfl]
    rcases Nat.lt_or_ge r i with h | h
    · exact hup _ _ _ _ _ (ih _ (by omega) (by omega) h3 h4)
    · obtain rfl : i = r := by omega
      exact hrow j (by omega) _ _ _

/-- Without a mask, what comes from the left alone. -/
theorem IsDP.from_left (hM : IsDP l1 l2 (fun _ _ => true) cell init M) (P : C → Prop) {r : ℕ} (hr : r < l2)
    (hcol : ∀ i, i < l1 → ∀ a b c, P (cell i r a b c)) (hleft : ∀ i j a b c, P b → P (cell i j a b c)) :
    ∀ i j, r + 1 ≤ j → j ≤ l2 → 1 ≤ i → i ≤ l1 → P (M i j) := by
  intro i j
  induction j with
  | zero => intro h; omega
  | succ j ih =>
    intro h1 h2 h3 h4
    obtain ⟨i, rfl⟩ : ∃ k, i = k + 1 := ⟨i - 1, by omega⟩
    rw [hM.body i j (by omega) (by omega), if_pos rfl]
    rcases Nat.lt_or_ge r j with h | h
    · exact hleft _ _ _ _ _ (ih (by omega) (by omega) h3 h4)
    · obtain rfl : j = r := by omega
      exact hcol i (by omega) _ _ _

end

/-! ## Operations with NaN -/
section
variable {K : Type} [LinearOrder K]

theorem pyMin_some (a b : WithTop K) : pyMin (some a) (some b) = some (min a b) := by
  unfold pyMin nvLt
  rcases lt_or_ge b a with h | h
  · simp [h, min_eq_right h.le]
  · simp [not_lt.2 h, min_eq_left h]

theorem pyMax_some (a b : WithTop K) : pyMax (some a) (some b) = some (max a b) := by
  unfold pyMax nvLt
  rcases lt_or_ge a b with h | h
  · simp [h, max_eq_right h.le]
  · simp [not_lt.2 h, max_eq_left h]

@[simp] theorem pyMin_nan (b : Nv K) : pyMin none b = none := by
  unfold pyMin; cases b <;> simp [nvLt]

@[simp] theorem pyMax_nan (b : Nv K) : pyMax none b = none := by
  unfold pyMax; cases b <;> simp [nvLt]

@[simp] theorem pyMax_nan_right (a : Nv K) : pyMax a none = a := by
  unfold pyMax; cases a <;> simp [nvLt]

/-- NaN or `inf`: not a number. -/
def NoNumber (v : Nv K) : Prop := v = none ∨ v = some ⊤

theorem NoNumber.pyMin {a b : Nv K} (ha : NoNumber a) (hb : NoNumber b) : NoNumber (pyMin a b) := by
  unfold Verif.pyMin; split
  · exact hb
  · exact ha

theorem pyMin_top {b : Nv K} (hb : NoNumber b) : pyMin (some ⊤) b = some ⊤ := by
  rcases hb with rfl | rfl <;> simp [pyMin, nvLt]

theorem torchMin_nan_left (b : Nv K) : torchMin none b = none := by cases b <;> rfl
theorem torchMin_nan_right (a : Nv K) : torchMin a none = none := by cases a <;> rfl
theorem torchMax_nan_left (b : Nv K) : torchMax none b = none := by cases b <;> rfl
theorem torchMax_nan_right (a : Nv K) : torchMax a none = none := by cases a <;> rfl

theorem NoNumber.torchMin {a b : Nv K} (ha : NoNumber a) (hb : NoNumber b) : NoNumber (torchMin a b) := by
  rcases ha with rfl | rfl <;> rcases hb with rfl | rfl <;> simp [NoNumber, Verif.torchMin]

theorem NoNumber.torchMax_left {a b : Nv K} (ha : NoNumber a) : NoNumber (torchMax a b) := by
  rcases ha with rfl | rfl <;> cases b <;> simp [NoNumber, torchMax]

theorem NoNumber.torchMax_right {a b : Nv K} (hb : NoNumber b) : NoNumber (torchMax a b) := by
  rcases hb with rfl | rfl <;> cases a <;> simp [NoNumber, torchMax]
end

section
variable {K : Type} [CommRing K] [LinearOrder K] [IsStrictOrderedRing K]

theorem nvAdd_nan_left (b : Nv K) : nvAdd none b = none := by cases b <;> rfl
theorem nvAdd_nan_right (a : Nv K) : nvAdd a none = none := by cases a <;> rfl

theorem NoNumber.nvAdd_left {a b : Nv K} (ha : NoNumber a) : NoNumber (nvAdd a b) := by
  rcases ha with rfl | rfl <;> cases b <;> simp [NoNumber, nvAdd]

theorem NoNumber.nvAdd_right {a b : Nv K} (hb : NoNumber b) : NoNumber (nvAdd a b) := by
  rcases hb with rfl | rfl <;> cases a <;> simp [NoNumber, nvAdd]

/-! ## Distances of samples -/

theorem nan_fold (l : List (Option K)) (s : Option K) (h : s = none ∨ none ∈ l) :
    l.foldl (fun s t => match s, t with
      | some s, some t => some (s + t)
      | _, _ => none) s = none := by
  induction l generalizing s with
  | nil => simpa using h
  | cons t l ih =>
    rw [List.foldl_cons]
    apply ih
    rcases h with rfl | h
    · left; cases t <;> rfl
    · rcases List.mem_cons.1 h with rfl | h
      · left; cases s <;> rfl
      · exact .inr h

theorem nan_zip (f : K → K → K) (a b : List (Option K)) (hl : a.length = b.length) (h : none ∈ a ∨ none ∈ b) :
    none ∈ List.zipWith (fun u v => match u, v with
      | some u, some v => some (f u v)
      | _, _ => none) a b := by
  induction a generalizing b with
  | nil =>
    have : b = [] := by simpa using hl.symm
    subst this; simp at h
  | cons u a ih =>
    cases b with
    | nil => simp at hl
    | cons v b =>
      simp only [List.length_cons, Nat.add_right_cancel_iff] at hl
      rw [List.zipWith_cons_cons, List.mem_cons]
      simp only [List.mem_cons] at h
      rcases h with (h | h) | (h | h)
      · left; subst h; rfl
      · exact .inr (ih b hl (.inl h))
      · left; subst h; cases u <;> rfl
      · exact .inr (ih b hl (.inr h))

theorem gapSqDist_none {a b : List (Option K)} (hl : a.length = b.length) (h : none ∈ a ∨ none ∈ b) : gapSqDist a b = none :=
  nan_fold _ _ (.inr (nan_zip (fun u v => (u - v) * (u - v)) a b hl h))

theorem gapSqDist_some (a b : List K) : gapSqDist (a.map some) (b.map some) = some (sqDist a b) := by
  have e : List.zipWith (fun u v => match u, v with
      | some u, some v => some ((u - v) * (u - v))
      | _, _ => (none : Option K)) (a.map some) (b.map some) = (List.zipWith (fun u v => (u - v) * (u - v)) a b).map some := by
    induction a generalizing b with
    | nil => simp
    | cons u a ih => cases b with
      | nil => simp
      | cons v b => simp [ih]
  have f : ∀ (l : List K) (s : K), (l.map some).foldl (fun s t => match s, t with
      | some s, some t => some (s + t)
      | _, _ => none) (some s) = some (l.foldl (· + ·) s) := by
    intro l
    induction l with
    | nil => intro s; rfl
    | cons t l ih => intro s; simp [ih]
  exact (congrArg (List.foldl _ (some 0)) e).trans (f _ 0)

theorem observed_getD (u : List (List K)) (i : ℕ) : (observed u).getD i [] = (u.getD i []).map some := by
  unfold observed
  rw [List.getD_eq_getElem?_getD, List.getD_eq_getElem?_getD, List.getElem?_map]
  cases u[i]? <;> rfl

theorem observed_length (u : List (List K)) : (observed u).length = u.length := by simp [observed]

theorem nanCost_observed (u v : List (List K)) (i j : ℕ) : nanCost (observed u) (observed v) i j = some ((localCost u v i j : K) : WithTop K) := by
  unfold nanCost localCost
  rw [observed_getD, observed_getD, gapSqDist_some]
  rfl

theorem nanCost_nan {d : ℕ} {x y : List (List (Option K))} (hx : IsRect d x) (hy : IsRect d y) {i j : ℕ} (hi : i < x.length) (hj : j < y.length)
    (h : RowMissing (x.getD i []) ∨ RowMissing (y.getD j [])) : nanCost x y i j = none := by
  unfold nanCost
  rw [gapSqDist_none _ h]
  · rfl
  · rw [List.getD_eq_getElem _ _ hi, List.getD_eq_getElem _ _ hj, hx _ (List.getElem_mem hi), hy _ (List.getElem_mem hj)]

/-- A row without a missing value holds numbers. -/
theorem row_numbers (row : List (Option K)) (h : ¬ RowMissing row) : ∃ u : List K, row = u.map some := by
  induction row with
  | nil => exact ⟨[], rfl⟩
  | cons a row ih =>
    simp only [RowMissing, List.mem_cons, not_or] at h ih
    obtain ⟨u, rfl⟩ := ih h.2
    cases a with
    | none => exact absurd rfl h.1
    | some a => exact ⟨a :: u, rfl⟩

theorem nanCost_number {x y : List (List (Option K))} {i j : ℕ} (h1 : ¬ RowMissing (x.getD i [])) (h2 : ¬ RowMissing (y.getD j [])) :
    ∃ c : K, nanCost x y i j = some (c : WithTop K) := by
  obtain ⟨u, hu⟩ := row_numbers _ h1
  obtain ⟨v, hv⟩ := row_numbers _ h2
  exact ⟨sqDist u v, by unfold nanCost; rw [hu, hv, gapSqDist_some]; rfl⟩

theorem missing_index {x : List (List (Option K))} (h : HasMissing x) : ∃ i < x.length, RowMissing (x.getD i []) := by
  obtain ⟨row, hr, hm⟩ := h
  obtain ⟨i, hi, rfl⟩ := List.getElem_of_mem hr
  exact ⟨i, hi, by rwa [List.getD_eq_getElem _ _ hi]⟩

/-! ## Running the functions -/

/-- What the functions see: the two arrays, not empty, with the same number of features. -/
structure Seen (s1 s2 : TsInput (Option K)) (d : ℕ) (x y : List (List (Option K))) : Prop where
  first : toTimeSeries s1 true = x
  second : toTimeSeries s2 true = y
  ne1 : x ≠ []
  ne2 : y ≠ []
  arr1 : IsRect d x
  arr2 : IsRect d y

theorem Seen.features {s1 s2 : TsInput (Option K)} {d x y} (h : Seen s1 s2 d x y) : nFeatures x = nFeatures y := by
  obtain ⟨a, x', rfl⟩ := List.exists_cons_of_ne_nil h.ne1
  obtain ⟨b, y', rfl⟩ := List.exists_cons_of_ne_nil h.ne2
  simp [nFeatures, h.arr1 a (by simp), h.arr2 b (by simp)]

theorem Seen.pos1 {s1 s2 : TsInput (Option K)} {d x y} (h : Seen s1 s2 d x y) : 0 < x.length := List.length_pos_iff.2 h.ne1
theorem Seen.pos2 {s1 s2 : TsInput (Option K)} {d x y} (h : Seen s1 s2 d x y) : 0 < y.length := List.length_pos_iff.2 h.ne2

theorem Seen.validate {s1 s2 : TsInput (Option K)} {d x y} (h : Seen s1 s2 d x y) (gc : Option String) :
    validateNan s1 s2 gc = (gcCode gc).map fun c => (x, y, c) := by
  have h1 := h.pos1
  have h2 := h.pos2
  unfold validateNan
  simp only [h.first, h.second, h.features]
  rw [if_neg (by omega), if_neg (by simp)]
  cases gcCode gc <;> rfl

theorem Seen.dtw {s1 s2 : TsInput (Option K)} {d x y} (h : Seen s1 s2 d x y) (be : Backend) : nanDtwSq be s1 s2 none none none = .ok (match be with
    | .numpy => lastEntry (nanTable nvAdd x.length y.length (Mat.full true) (nanCost x y)) x.length y.length
    | .pytorch => lastEntry (torchNanTable nvAdd x.length y.length (Mat.full true) (nanCost x y)) x.length y.length) := by
  unfold nanDtwSq
  rw [h.validate]
  cases be <;> rfl

theorem Seen.frechet {s1 s2 : TsInput (Option K)} {d x y} (h : Seen s1 s2 d x y) (be : Backend) : nanFrechetSq be s1 s2 none none none = .ok (match be with
    | .numpy => lastEntry (nanTable pyMax x.length y.length (Mat.full true) (nanCost x y)) x.length y.length
    | .pytorch => lastEntry (torchNanTable torchMax x.length y.length (Mat.full true) (nanCost x y)) x.length y.length) := by
  unfold nanFrechetSq
  rw [h.validate]
  cases be <;> rfl

abbrev nanInit (K : Type) [Zero K] : Mat (Nv K) := (Mat.full (some ⊤)).set 0 0 (some 0)

theorem nanInit_row {i j : ℕ} (h : i ≠ 0) : nanInit K i j = some ⊤ := by simp [nanInit, Mat.set_apply, Mat.full, h]
theorem nanInit_col {i j : ℕ} (h : j ≠ 0) : nanInit K i j = some ⊤ := by simp [nanInit, Mat.set_apply, Mat.full, h]

theorem nanTable_isDP (step : Nv K → Nv K → Nv K) (l1 l2 : ℕ) (mask : Mat Bool) (D : Mat (Nv K)) : ∃ M : Mat (Nv K), M.tail = nanTable step l1 l2 mask D ∧
    IsDP l1 l2 mask (fun i j up left diag => step (D i j) (pyMin (pyMin up left) diag)) (nanInit K) M := ⟨_, rfl, dpLoop_isDP _ _ _ _ _⟩

theorem torchNanTable_isDP (step : Nv K → Nv K → Nv K) (l1 l2 : ℕ) (mask : Mat Bool) (D : Mat (Nv K)) :
    ∃ M : Mat (Nv K), M.tail = torchNanTable step l1 l2 mask D ∧ IsDP l1 l2 (fun _ _ => true)
      (fun i j up left diag => step (if mask i j then D i j else some ⊤) (torchMin (torchMin up left) diag)) (nanInit K) M :=
  ⟨_, rfl, diagLoop_isDP _ _ _ _⟩

theorem last_tail {C : Type*} (M : Mat C) {l1 l2 : ℕ} (h1 : 0 < l1) (h2 : 0 < l2) : lastEntry M.tail l1 l2 = M l1 l2 := by
  simp only [lastEntry, Mat.tail]
  rw [Nat.sub_add_cancel h1, Nat.sub_add_cancel h2]

/-! ## DTW -/

/-- With a missing value in either series, in either backend and under every constraint, DTW is NaN or `inf`: never a number. -/
theorem C115_dtw_no_number (be : Backend) (s1 s2 : TsInput (Option K)) (d : ℕ) (x y : List (List (Option K))) (h : Seen s1 s2 d x y)
    (hm : HasMissing x ∨ HasMissing y) (gc : Option String) (radius : Option ℕ) (slope : Option ℚ) (v : Nv K)
    (hv : nanDtwSq be s1 s2 gc radius slope = .ok v) : v = none ∨ v = some ⊤ := by
  unfold nanDtwSq at hv
  rw [h.validate] at hv
  cases hc : gcCode gc with
  | error e => rw [hc] at hv; cases hv
  | ok code =>
    rw [hc] at hv
    simp only [Except.map, bind, Except.bind, pure, Except.pure] at hv
    cases hk : computeMask x.length y.length code radius slope with
    | error e => rw [hk] at hv; cases hv
    | ok mask =>
      rw [hk] at hv
      have nn : ∀ i j, i ≠ 0 → NoNumber (nanInit K i j) := fun i j hi => .inr (nanInit_row hi)
      have nn' : ∀ i j, j ≠ 0 → NoNumber (nanInit K i j) := fun i j hi => .inr (nanInit_col hi)
      have h1 := h.pos1
      have h2 := h.pos2
      cases be with
      | numpy =>
        obtain ⟨M, hM, hd⟩ := nanTable_isDP nvAdd x.length y.length mask (nanCost x y)
        simp only [Except.ok.injEq] at hv
        rw [← hv, ← hM, last_tail M h1 h2]
        have all : ∀ (i j : ℕ) (a b c : Nv K), NoNumber a → NoNumber b → NoNumber c → NoNumber (nvAdd (nanCost x y i j) (pyMin (pyMin a b) c)) :=
          fun i j a b c ha hb hc => ((ha.pyMin hb).pyMin hc).nvAdd_right
        rcases hm with hm | hm
        · obtain ⟨r, hr, hr'⟩ := missing_index hm
          exact hd.spread_down NoNumber nn hr (fun j hj a b c => by
            rw [nanCost_nan h.arr1 h.arr2 hr hj (.inl hr')]; exact NoNumber.nvAdd_left (.inl rfl)) all _ _ (by omega) le_rfl le_rfl
        · obtain ⟨r, hr, hr'⟩ := missing_index hm
          exact hd.spread_right NoNumber nn' hr (fun j hj a b c => by
            rw [nanCost_nan h.arr1 h.arr2 hj hr (.inr hr')]; exact NoNumber.nvAdd_left (.inl rfl)) all _ _ (by omega) le_rfl le_rfl
      | pytorch =>
        obtain ⟨M, hM, hd⟩ := torchNanTable_isDP nvAdd x.length y.length mask (nanCost x y)
        simp only [Except.ok.injEq] at hv
        rw [← hv, ← hM, last_tail M h1 h2]
        have all : ∀ (i j : ℕ) (a b c : Nv K), NoNumber a → NoNumber b → NoNumber c →
            NoNumber (nvAdd (if mask i j then nanCost x y i j else some ⊤) (torchMin (torchMin a b) c)) :=
          fun i j a b c ha hb hc => ((ha.torchMin hb).torchMin hc).nvAdd_right
        rcases hm with hm | hm
        · obtain ⟨r, hr, hr'⟩ := missing_index hm
          exact hd.spread_down NoNumber nn hr (fun j hj a b c => by
            rw [nanCost_nan h.arr1 h.arr2 hr hj (.inl hr')]
            apply NoNumber.nvAdd_left
            split
            · exact .inl rfl
            · exact .inr rfl) all _ _ (by omega) le_rfl le_rfl
        · obtain ⟨r, hr, hr'⟩ := missing_index hm
          exact hd.spread_right NoNumber nn' hr (fun j hj a b c => by
            rw [nanCost_nan h.arr1 h.arr2 hj hr (.inr hr')]
            apply NoNumber.nvAdd_left
            split
            · exact .inl rfl
            · exact .inr rfl) all _ _ (by omega) le_rfl le_rfl

/-- NumPy, no constraint: a missing value in the first series makes DTW NaN. -/
theorem C115_dtw_first (s1 s2 : TsInput (Option K)) (d : ℕ) (x y : List (List (Option K))) (h : Seen s1 s2 d x y) (hm : HasMissing x) :
    nanDtwSq .numpy s1 s2 none none none = .ok none := by
  rw [h.dtw]
  obtain ⟨M, hM, hd⟩ := nanTable_isDP nvAdd x.length y.length (Mat.full true) (nanCost x y)
  simp only
  rw [← hM, last_tail M h.pos1 h.pos2]
  obtain ⟨r, hr, hr'⟩ := missing_index hm
  congr 1
  refine hd.from_up (fun v => v = none) hr (fun j hj a b c => ?_) (fun i j a b c ha => ?_) _ _ hr le_rfl h.pos2 le_rfl
  · simp only [nanCost_nan h.arr1 h.arr2 hr hj (.inl hr'), nvAdd_nan_left]
  · simp only [ha, pyMin_nan, nvAdd_nan_right]

/-- A missing value in the second series only: later columns are NaN or `inf`, by what they hold themselves. -/
theorem second_column (step : Nv K → Nv K → Nv K) (hn : ∀ b, step none b = none) (ht : ∀ c : K, step (some (c : WithTop K)) (some ⊤) = some ⊤)
    {d : ℕ} {x y : List (List (Option K))} (ax : IsRect d x) (ay : IsRect d y) (hx : ¬ HasMissing x) {r : ℕ} (hr : r < y.length)
    (hr' : RowMissing (y.getD r [])) {M : Mat (Nv K)} (hd : IsDP x.length y.length (fun _ _ => true)
      (fun i j up left diag => step (nanCost x y i j) (pyMin (pyMin up left) diag)) (nanInit K) M) :
    ∀ j, r + 1 ≤ j → j ≤ y.length → (∀ i, 1 ≤ i → i ≤ x.length → RowMissing (y.getD (j - 1) []) → M i j = none) ∧
      ∀ i, 1 ≤ i → i ≤ x.length → ¬ RowMissing (y.getD (j - 1) []) → M i j = some ⊤ := by
  intro j
  induction j with
  | zero => intro h; omega
  | succ j ih =>
    intro h1 h2
    simp only [Nat.add_sub_cancel]
    refine ⟨fun i hi hi' hm => ?_, fun i hi hi' hm => ?_⟩
    · obtain ⟨i, rfl⟩ : ∃ k, i = k + 1 := ⟨i - 1, by omega⟩
      rw [hd.body i j (by omega) (by omega), if_pos rfl, nanCost_nan ax ay (by omega) (by omega) (.inr hm), hn]
    · have hj : r + 1 ≤ j := by
        rcases Nat.lt_or_ge r j with h | h
        · exact h
        · obtain rfl : j = r := by omega
          exact absurd hr' hm
      have bad : ∀ i, i ≤ x.length → NoNumber (M i j) := by
        intro i hi
        rcases Nat.eq_zero_or_pos i with rfl | hp
        · rw [hd.row0]; exact .inr (nanInit_col (by omega))
        · by_cases hmj : RowMissing (y.getD (j - 1) [])
          · exact .inl ((ih hj (by omega)).1 i hp hi hmj)
          · exact .inr ((ih hj (by omega)).2 i hp hi hmj)
      have top : ∀ i, i ≤ x.length → M i (j + 1) = some ⊤ := by
        intro i
        induction i with
        | zero => intro _; rw [hd.row0]; exact nanInit_col (by omega)
        | succ i ihi =>
          intro hi
          rw [hd.body i j (by omega) (by omega), if_pos rfl, ihi (by omega), pyMin_top (bad _ hi), pyMin_top (bad _ (by omega))]
          have hxi : ¬ RowMissing (x.getD i []) := by
            intro hc
            rw [List.getD_eq_getElem _ _ (by omega)] at hc
            exact hx ⟨_, List.getElem_mem (by omega), hc⟩
          obtain ⟨c, hc⟩ := nanCost_number hxi hm
          rw [hc, ht]
      exact top i hi'

theorem nvAdd_top (c : K) : nvAdd (some (c : WithTop K)) (some ⊤) = some ⊤ := by simp [nvAdd]

theorem pyMax_top (c : K) : pyMax (some (c : WithTop K)) (some ⊤) = some ⊤ := by rw [pyMax_some]; simp

/-- NumPy, no constraint: with missing values in the second series only, DTW is NaN if the last row has one, otherwise `inf`. -/
theorem C115_dtw_second (s1 s2 : TsInput (Option K)) (d : ℕ) (x y : List (List (Option K))) (h : Seen s1 s2 d x y) (hx : ¬ HasMissing x)
    (hm : HasMissing y) : (RowMissing (y.getLastD []) → nanDtwSq .numpy s1 s2 none none none = .ok none) ∧
      (¬ RowMissing (y.getLastD []) → nanDtwSq .numpy s1 s2 none none none = .ok (some ⊤)) := by
  have hl : y.getLastD [] = y.getD (y.length - 1) [] := by
    rw [List.getLastD_eq_getLast?, List.getLast?_eq_getElem?, List.getD_eq_getElem?_getD]
  rw [h.dtw, hl]
  obtain ⟨M, hM, hd⟩ := nanTable_isDP nvAdd x.length y.length (Mat.full true) (nanCost x y)
  simp only
  rw [← hM, last_tail M h.pos1 h.pos2]
  obtain ⟨r, hr, hr'⟩ := missing_index hm
  have := second_column nvAdd nvAdd_nan_left nvAdd_top h.arr1 h.arr2 hx hr hr' hd y.length (by omega) le_rfl
  exact ⟨fun hm => by rw [this.1 _ h.pos1 le_rfl hm], fun hm => by rw [this.2 _ h.pos1 le_rfl hm]⟩

/-- PyTorch, no constraint: a missing value in either series makes DTW and the Fréchet distance NaN. -/
theorem C115_torch (s1 s2 : TsInput (Option K)) (d : ℕ) (x y : List (List (Option K))) (h : Seen s1 s2 d x y) (hm : HasMissing x ∨ HasMissing y) :
    nanDtwSq .pytorch s1 s2 none none none = .ok none ∧ nanFrechetSq .pytorch s1 s2 none none none = .ok none := by
  have key : ∀ step : Nv K → Nv K → Nv K, (∀ b, step none b = none) → (∀ a, step a none = none) →
      lastEntry (torchNanTable step x.length y.length (Mat.full true) (nanCost x y)) x.length y.length = none := by
    intro step hl hr0
    obtain ⟨M, hM, hd⟩ := torchNanTable_isDP step x.length y.length (Mat.full true) (nanCost x y)
    rw [← hM, last_tail M h.pos1 h.pos2]
    rcases hm with hm | hm
    · obtain ⟨r, hr, hr'⟩ := missing_index hm
      refine hd.from_up (fun v => v = none) hr (fun j hj a b c => ?_) (fun i j a b c ha => ?_) _ _ hr le_rfl h.pos2 le_rfl
      · simp only [nanCost_nan h.arr1 h.arr2 hr hj (.inl hr'), Mat.full, if_true, hl]
      · simp only [ha, torchMin_nan_left, hr0]
    · obtain ⟨r, hr, hr'⟩ := missing_index hm
      refine hd.from_left (fun v => v = none) hr (fun j hj a b c => ?_) (fun i j a b c ha => ?_) _ _ hr le_rfl h.pos1 le_rfl
      · simp only [nanCost_nan h.arr1 h.arr2 hj hr (.inr hr'), Mat.full, if_true, hl]
      · simp only [ha, torchMin_nan_left, torchMin_nan_right, hr0]
  rw [h.dtw, h.frechet]
  exact ⟨by simp only [key nvAdd nvAdd_nan_left nvAdd_nan_right], by simp only [key torchMax torchMax_nan_left torchMax_nan_right]⟩

/-! ## Fréchet -/

/-- NumPy, no constraint: with missing values in the second series only, the Fréchet distance is NaN if the last row has one, otherwise `inf`. -/
theorem C115_frechet_second (s1 s2 : TsInput (Option K)) (d : ℕ) (x y : List (List (Option K))) (h : Seen s1 s2 d x y) (hx : ¬ HasMissing x)
    (hm : HasMissing y) : (RowMissing (y.getLastD []) → nanFrechetSq .numpy s1 s2 none none none = .ok none) ∧
      (¬ RowMissing (y.getLastD []) → nanFrechetSq .numpy s1 s2 none none none = .ok (some ⊤)) := by
  have hl : y.getLastD [] = y.getD (y.length - 1) [] := by
    rw [List.getLastD_eq_getLast?, List.getLast?_eq_getElem?, List.getD_eq_getElem?_getD]
  rw [h.frechet, hl]
  obtain ⟨M, hM, hd⟩ := nanTable_isDP pyMax x.length y.length (Mat.full true) (nanCost x y)
  simp only
  rw [← hM, last_tail M h.pos1 h.pos2]
  obtain ⟨r, hr, hr'⟩ := missing_index hm
  have := second_column pyMax pyMax_nan pyMax_top h.arr1 h.arr2 hx hr hr' hd y.length (by omega) le_rfl
  exact ⟨fun hm => by rw [this.1 _ h.pos1 le_rfl hm], fun hm => by rw [this.2 _ h.pos1 le_rfl hm]⟩


/-- The table of the Fréchet distance after the last missing row of the first series: the columns are open at the start. -/
theorem frechet_rest {d : ℕ} {pre : List (List (Option K))} {row : List (Option K)} {u v : List (List K)} (hu : u ≠ []) (hv : v ≠ [])
    (ax : IsRect d (pre ++ row :: observed u)) (ay : IsRect d (observed v)) (hrow : RowMissing row) {M : Mat (Nv K)}
    (hd : IsDP (pre ++ row :: observed u).length (observed v).length (fun _ _ => true)
      (fun i j up left diag => pyMax (nanCost (pre ++ row :: observed u) (observed v) i j) (pyMin (pyMin up left) diag)) (nanInit K) M) :
    ∃ N : Mat (WithTop K), IsDP u.length v.length (fun _ _ => true) (minCell frechetStep (sampleCost u v)) (dpInit 0 true) N ∧
      ∀ i j, 1 ≤ i → i ≤ u.length → j ≤ v.length → M (pre.length + 1 + i) j = some (N i j) := by
  have hlx : (pre ++ row :: observed u).length = pre.length + 1 + u.length := by
    simp only [List.length_append, List.length_cons, observed_length]; omega
  have hly : (observed v).length = v.length := observed_length v
  have rowNan : ∀ j, 1 ≤ j → j ≤ v.length → M (pre.length + 1) j = none := by
    intro j h1 h2
    obtain ⟨j, rfl⟩ : ∃ k, j = k + 1 := ⟨j - 1, by omega⟩
    rw [hd.body pre.length j (by omega) (by omega), if_pos rfl, nanCost_nan ax ay (by omega) (by omega), pyMax_nan]
    left
    rw [List.getD_append_right _ _ _ _ le_rfl]
    simpa using hrow
  have cost : ∀ i j, nanCost (pre ++ row :: observed u) (observed v) (pre.length + 1 + i) j = some ((sampleCost u v i j : K) : WithTop K) := by
    intro i j
    rw [← localCost_eq, ← nanCost_observed]
    unfold nanCost
    rw [List.getD_append_right _ _ _ _ (by omega), show pre.length + 1 + i - pre.length = i + 1 by omega, List.getD_cons_succ]
  have cond : ∀ i j, 1 ≤ i → i ≤ u.length → j ≤ v.length → ∃ c, M (pre.length + 1 + i) j = some c := by
    intro i
    induction i with
    | zero => intro j h; omega
    | succ i ih =>
      intro j
      induction j with
      | zero => intro _ _ _; rw [hd.col0]; exact ⟨⊤, nanInit_row (by omega)⟩
      | succ j ihj =>
        intro h1 h2 h3
        rw [show pre.length + 1 + (i + 1) = (pre.length + 1 + i) + 1 by omega, hd.body _ j (by omega) (by omega), if_pos rfl, cost]
        rcases Nat.eq_zero_or_pos i with rfl | hi
        · rw [Nat.add_zero, rowNan (j + 1) (by omega) h3, pyMin_nan, pyMin_nan, pyMax_nan_right]
          exact ⟨_, rfl⟩
        · obtain ⟨a, ha⟩ := ih (j + 1) hi (by omega) h3
          obtain ⟨b, hb⟩ := ihj h1 h2 (by omega)
          obtain ⟨c, hc⟩ := ih j hi (by omega) (by omega)
          rw [show pre.length + 1 + (i + 1) = (pre.length + 1 + i) + 1 by omega] at hb
          rw [ha, hb, hc, pyMin_some, pyMin_some, pyMax_some]
          exact ⟨_, rfl⟩
  let N : Mat (WithTop K) := fun i j => if i = 0 then 0 else (M (pre.length + 1 + i) j).getD 0
  have hN : ∀ i j, 1 ≤ i → i ≤ u.length → j ≤ v.length → M (pre.length + 1 + i) j = some (N i j) := by
    intro i j h1 h2 h3
    obtain ⟨c, hc⟩ := cond i j h1 h2 h3
    simp only [N, if_neg (show i ≠ 0 by omega), hc]
    rfl
  have hN0 : ∀ j, N 0 j = 0 := fun j => by simp [N]
  have hNc : ∀ i, 1 ≤ i → N i 0 = ⊤ := by
    intro i hi
    simp only [N, if_neg (show i ≠ 0 by omega)]
    rw [hd.col0, nanInit_row (by omega)]
    rfl
  have first : ∀ j, j < v.length → N 1 (j + 1) = ((sampleCost u v 0 j : K) : WithTop K) := by
    intro j hj
    have hu' := List.length_pos_iff.2 hu
    have := hN 1 (j + 1) le_rfl (by omega) (by omega)
    rw [hd.body (pre.length + 1) j (by omega) (by omega), if_pos rfl, show nanCost (pre ++ row :: observed u) (observed v) (pre.length + 1) j = _ from cost 0 j,
      rowNan (j + 1) (by omega) (by omega), pyMin_nan, pyMin_nan, pyMax_nan_right] at this
    exact (Option.some.inj this).symm
  have nonneg : ∀ j, j ≤ v.length → 0 ≤ N 1 j := by
    intro j hj
    rcases j with _ | j
    · rw [hNc 1 le_rfl]; exact le_top
    · rw [first j hj, ← WithTop.coe_zero, WithTop.coe_le_coe]; exact sampleCost_nonneg _ _ _ _
  refine ⟨N, ⟨fun j => by rw [hN0]; simp [dpInit], fun i => ?_, fun i j hi hj => ?_⟩, hN⟩
  · rcases Nat.eq_zero_or_pos i with rfl | h
    · rw [hN0]; simp [dpInit]
    · rw [hNc i h]; simp [dpInit, show i ≠ 0 by omega]
  · rw [if_pos rfl]
    rcases Nat.eq_zero_or_pos i with rfl | h
    · rw [first j hj]
      simp only [minCell, frechetStep, Nat.zero_add]
      rw [hN0, hN0, min_eq_left (nonneg j hj.le), min_self, max_eq_left]
      rw [← WithTop.coe_zero, WithTop.coe_le_coe]; exact sampleCost_nonneg _ _ _ _
    · have := hN (i + 1) (j + 1) (by omega) (by omega) (by omega)
      rw [show pre.length + 1 + (i + 1) = (pre.length + 1 + i) + 1 by omega, hd.body _ j (by omega) (by omega), if_pos rfl, cost,
        hN i (j + 1) h (by omega) (by omega), hN i j h (by omega) (by omega)] at this
      have e := hN (i + 1) j (by omega) (by omega) (by omega)
      rw [show pre.length + 1 + (i + 1) = (pre.length + 1 + i) + 1 by omega] at e
      rw [e, pyMin_some, pyMin_some, pyMax_some] at this
      exact (Option.some.inj this).symm

theorem maxCost_shift {x : ℕ → ℕ → K} {p : List (ℕ × ℕ)} {a : ℕ} {w : K} :
    IsMaxCost x (p.map (shift a)) w ↔ IsMaxCost (fun i j => x i (a + j)) p w := by
  constructor
  · rintro ⟨⟨c, hc, hw⟩, hl⟩
    obtain ⟨c', hc', rfl⟩ := List.mem_map.1 hc
    exact ⟨⟨c', hc', hw⟩, fun e he => hl _ (List.mem_map_of_mem he)⟩
  · rintro ⟨⟨c, hc, hw⟩, hl⟩
    refine ⟨⟨shift a c, List.mem_map_of_mem hc, hw⟩, fun e he => ?_⟩
    obtain ⟨e', he', rfl⟩ := List.mem_map.1 he
    exact hl e' he'

/-- NumPy, no constraint: if the last missing row of the first series is followed by the numbers `u` and the second series is `v`, without missing values,
the Fréchet distance is a number. It is the smallest Fréchet distance of `u` and an end piece of `v`: all that precedes the missing row is forgotten. -/
theorem C115_frechet_first (s1 s2 : TsInput (Option K)) (d : ℕ) (pre : List (List (Option K))) (row : List (Option K)) (u v : List (List K)) (hu : u ≠ [])
    (h : Seen s1 s2 d (pre ++ row :: observed u) (observed v)) (hrow : RowMissing row) :
    ∃ w : K, nanFrechetSq .numpy s1 s2 none none none = .ok (some (w : WithTop K)) ∧
      IsLeast {c | ∃ a < v.length, ∃ p, IsWarpingPath u.length (v.length - a) p ∧ IsMaxCost (sampleCost u (v.drop a)) p c} w := by
  have hv : v ≠ [] := by
    rintro rfl
    exact h.ne2 rfl
  have hu' := List.length_pos_iff.2 hu
  have hv' := List.length_pos_iff.2 hv
  obtain ⟨M, hM, hd⟩ := nanTable_isDP pyMax (pre ++ row :: observed u).length (observed v).length (Mat.full true) (nanCost (pre ++ row :: observed u) (observed v))
  obtain ⟨N, hN, hMN⟩ := frechet_rest hu hv h.arr1 h.arr2 hrow hd
  have hlx : (pre ++ row :: observed u).length = pre.length + 1 + u.length := by
    simp only [List.length_append, List.length_cons, observed_length]; omega
  have dropCost : ∀ a i j, sampleCost u (v.drop a) i j = sampleCost u v i (a + j) := by
    intro a i j
    unfold sampleCost
    rw [List.getD_eq_getElem?_getD (l := v.drop a), List.getElem?_drop, ← List.getD_eq_getElem?_getD]
  have val : nanFrechetSq .numpy s1 s2 none none none = .ok (some (N u.length v.length)) := by
    rw [h.frechet]
    simp only
    rw [← hM, last_tail M h.pos1 h.pos2, hlx, observed_length, hMN u.length v.length hu' le_rfl le_rfl]
  have low : ∀ c, (∃ a < v.length, ∃ p, IsWarpingPath u.length (v.length - a) p ∧ IsMaxCost (sampleCost u (v.drop a)) p c) →
      N u.length v.length ≤ (c : WithTop K) := by
    rintro c ⟨a, ha, p, hp, hc⟩
    obtain ⟨i, j, hi, hj, hw⟩ := isWarpingPath_iff.1 hp
    have hfree : WP true (p.map (shift a)) i (a + j) := WP.free_iff.2 ⟨a, p, j, rfl, hw, rfl⟩
    have := hN.le_cost frechetStep_mono hfree (by omega) (by omega) (fun _ _ => rfl)
    rw [show i + 1 = u.length by omega, show a + j + 1 = v.length by omega] at this
    obtain ⟨w, hw1, hw2⟩ := frechet_pathCost (sampleCost u v) (sampleCost_nonneg u v) (p.map (shift a)) hfree.ne_nil
    have hc' : IsMaxCost (sampleCost u v) (p.map (shift a)) c := by
      rw [maxCost_shift]
      have : (fun i j => sampleCost u v i (a + j)) = sampleCost u (v.drop a) := by funext i j; rw [dropCost]
      rw [this]; exact hc
    obtain rfl := hc'.unique hw1
    rwa [hw2] at this
  have fin : N u.length v.length ≠ ⊤ := by
    obtain ⟨p, hp⟩ : ∃ p, WP true p (u.length - 1) (v.length - 1) := by
      have : ∀ i, ∃ p, WP true p i (v.length - 1) := by
        intro i
        induction i with
        | zero => exact ⟨_, .start _ (.inl rfl)⟩
        | succ i ih => obtain ⟨p, hp⟩ := ih; exact ⟨_, hp.down⟩
      exact this _
    have := hN.le_cost frechetStep_mono hp (by omega) (by omega) (fun _ _ => rfl)
    rw [show u.length - 1 + 1 = u.length by omega, show v.length - 1 + 1 = v.length by omega] at this
    obtain ⟨w, -, hw2⟩ := frechet_pathCost (sampleCost u v) (sampleCost_nonneg u v) p hp.ne_nil
    rw [hw2] at this
    exact fun h => absurd (h ▸ this) (by simp)
  have fin' : N (u.length - 1 + 1) (v.length - 1 + 1) ≠ ⊤ := by
    rwa [show u.length - 1 + 1 = u.length by omega, show v.length - 1 + 1 = v.length by omega]
  obtain ⟨p, hp, -, hc⟩ := hN.attained frechetStep_top _ (u.length - 1) (v.length - 1) rfl (by omega) (by omega) fin'
  obtain ⟨w, hw1, hw2⟩ := frechet_pathCost (sampleCost u v) (sampleCost_nonneg u v) p hp.ne_nil
  rw [show u.length - 1 + 1 = u.length by omega, show v.length - 1 + 1 = v.length by omega, hw2] at hc
  refine ⟨w, by rw [val, ← hc], ?_, fun c hc' => ?_⟩
  · obtain ⟨a, q, k, hk, hq, rfl⟩ := WP.free_iff.1 hp
    refine ⟨a, by omega, q, isWarpingPath_iff.2 ⟨_, _, by omega, by omega, hq⟩, ?_⟩
    rw [maxCost_shift] at hw1
    have : (fun i j => sampleCost u v i (a + j)) = sampleCost u (v.drop a) := by funext i j; rw [dropCost]
    rwa [this] at hw1
  · have := low c hc'
    rwa [← hc, WithTop.coe_le_coe] at this

/-! ## Without missing values, and paths -/

theorem denan_observed (u : List (List K)) : denan (observed u) = some u := by
  unfold denan observed
  have row : ∀ r : List K, (r.map some).mapM id = some r := by
    intro r
    induction r with
    | nil => rfl
    | cons a r ih => simp [ih]
  induction u with
  | nil => rfl
  | cons r u ih => simp [row, ih]

theorem Seen.validatePair {s1 s2 : TsInput (Option K)} {d : ℕ} {u v : List (List K)} (h : Seen s1 s2 d (observed u) (observed v)) (gc : Option String) :
    Verif.validatePair s1 s2 gc = (gcCode gc).map fun c => (u, v, c) := by
  have h1 := h.pos1
  have h2 := h.pos2
  unfold Verif.validatePair
  simp only [h.first, h.second, h.features, denan_observed]
  rw [if_neg (by omega), if_neg (by simp)]
  cases gcCode gc <;> rfl

/-- Without missing values this is the model of C01 and C10. -/
theorem C115_agrees (s1 s2 : TsInput (Option K)) (d : ℕ) (u v : List (List K)) (h : Seen s1 s2 d (observed u) (observed v)) (gc : Option String)
    (radius : Option ℕ) (slope : Option ℚ) : nanDtwSq .numpy s1 s2 gc radius slope = (dtwSq s1 s2 gc radius slope).map some ∧
      nanFrechetSq .numpy s1 s2 gc radius slope = (frechetSq s1 s2 gc radius slope).map some := by
  have key : ∀ (step : Nv K → Nv K → Nv K) (add : K → WithTop K → WithTop K) (mask : Mat Bool),
      (∀ (c : K) (a : WithTop K), step (some (c : WithTop K)) (some a) = some (add c a)) →
      lastEntry (nanTable step u.length v.length mask (nanCost (observed u) (observed v))) u.length v.length =
        some (lastEntry (accTableWith add 0 u.length v.length mask (localCost u v)).tail u.length v.length) := by
    intro step add mask hs
    obtain ⟨M, hM, hd⟩ := nanTable_isDP step u.length v.length mask (nanCost (observed u) (observed v))
    have h1 := h.pos1
    have h2 := h.pos2
    rw [observed_length] at h1 h2
    rw [← hM, last_tail M h1 h2, last_tail _ h1 h2]
    have hT : IsDP u.length v.length mask (fun i j up left diag => add (localCost u v i j) (min (min up left) diag)) ((Mat.full ⊤).set 0 0 0)
      (accTableWith add 0 u.length v.length mask (localCost u v)) := dpLoop_isDP _ _ _ _ _
    let f : WithTop K → Nv K := some
    have e : ∀ i j, i ≤ u.length → j ≤ v.length → M i j = f (accTableWith add 0 u.length v.length mask (localCost u v) i j) := by
      intro i
      induction i with
      | zero => intro j _ _; rw [hd.row0, hT.row0]; simp only [f, nanInit, Mat.set_apply, Mat.full]; split <;> rfl
      | succ i ih =>
        intro j
        induction j with
        | zero => intro _ _; rw [hd.col0, hT.col0]; simp [f, nanInit, Mat.set_apply, Mat.full]
        | succ j ihj =>
          intro hi hj
          rw [hd.body i j (by omega) (by omega), hT.body i j (by omega) (by omega), ih _ (by omega) hj, ihj hi (by omega), ih _ (by omega) (by omega)]
          split
          · simp only [f, nanCost_observed, pyMin_some, hs]
          · simp [f, nanInit, Mat.set_apply, Mat.full]
    exact e _ _ le_rfl le_rfl
  constructor
  · unfold nanDtwSq dtwSq
    rw [h.validate, h.validatePair]
    cases gcCode gc with
    | error e => rfl
    | ok code =>
      simp only [Except.map, bind, Except.bind, pure, Except.pure, observed_length, dtwSqGeneric]
      cases computeMask u.length v.length code radius slope with
      | error e => rfl
      | ok mask =>
        simp only
        rw [key nvAdd _ mask (fun c a => rfl)]
        rfl
  · unfold nanFrechetSq frechetSq
    rw [h.validate, h.validatePair]
    cases gcCode gc with
    | error e => rfl
    | ok code =>
      simp only [Except.map, bind, Except.bind, pure, Except.pure, observed_length, frechetSqGeneric]
      cases computeMask u.length v.length code radius slope with
      | error e => rfl
      | ok mask =>
        simp only
        rw [key pyMax _ mask (fun c a => pyMax_some _ _)]
        rfl

/-- Without missing values the two backends agree on DTW and the Fréchet distance. -/
theorem C115_agrees_torch (s1 s2 : TsInput (Option K)) (d : ℕ) (u v : List (List K)) (h : Seen s1 s2 d (observed u) (observed v)) (gc : Option String)
    (radius : Option ℕ) (slope : Option ℚ) : nanDtwSq .pytorch s1 s2 gc radius slope = nanDtwSq .numpy s1 s2 gc radius slope ∧
      nanFrechetSq .pytorch s1 s2 gc radius slope = nanFrechetSq .numpy s1 s2 gc radius slope := by
  have key : ∀ (step step' : Nv K → Nv K → Nv K) (add : WithTop K → WithTop K → WithTop K) (mask : Mat Bool),
      (∀ a b : WithTop K, step (some a) (some b) = some (add a b)) → (∀ a b : WithTop K, step' (some a) (some b) = some (add a b)) → (∀ a, add ⊤ a = ⊤) →
      lastEntry (torchNanTable step u.length v.length mask (nanCost (observed u) (observed v))) u.length v.length =
        lastEntry (nanTable step' u.length v.length mask (nanCost (observed u) (observed v))) u.length v.length := by
    intro step step' add mask hs hs' ht
    have h1 := h.pos1
    have h2 := h.pos2
    rw [observed_length] at h1 h2
    obtain ⟨M, hM, hd⟩ := nanTable_isDP step' u.length v.length mask (nanCost (observed u) (observed v))
    obtain ⟨M', hM', hd'⟩ := torchNanTable_isDP step u.length v.length mask (nanCost (observed u) (observed v))
    have hT : IsDP u.length v.length mask (fun i j up left diag => add ((localCost u v i j : K) : WithTop K) (min (min up left) diag))
      ((Mat.full ⊤).set 0 0 0) (dpLoop u.length v.length mask _ _) := dpLoop_isDP _ _ _ _ _
    have init : ∀ i j, nanInit K i j = some (((Mat.full ⊤).set 0 0 0 : Mat (WithTop K)) i j) := by
      intro i j
      simp only [nanInit, Mat.set_apply, Mat.full]
      split <;> rfl
    rw [← hM, ← hM', last_tail _ h1 h2, last_tail _ h1 h2]
    rw [hd.map hT some init _ _ _ le_rfl le_rfl, hd'.map hT some init _ _ _ le_rfl le_rfl]
    · intro i j a b c hi hj
      simp only [torchMin, if_true]
      cases mask i j with
      | true => simp only [if_true, nanCost_observed, hs]
      | false => simp only [Bool.false_eq_true, if_false, hs, ht, Mat.set_apply, Mat.full]; simp
    · intro i j a b c hi hj
      simp only [pyMin_some, nanCost_observed, hs', init]
      split <;> rfl
  constructor
  · unfold nanDtwSq
    rw [h.validate]
    cases gcCode gc with
    | error e => rfl
    | ok code =>
      simp only [Except.map, bind, Except.bind, pure, Except.pure, observed_length]
      cases computeMask u.length v.length code radius slope with
      | error e => rfl
      | ok mask => exact congrArg Except.ok (key nvAdd nvAdd (· + ·) mask (fun _ _ => rfl) (fun _ _ => rfl) top_add)
  · unfold nanFrechetSq
    rw [h.validate]
    cases gcCode gc with
    | error e => rfl
    | ok code =>
      simp only [Except.map, bind, Except.bind, pure, Except.pure, observed_length]
      cases computeMask u.length v.length code radius slope with
      | error e => rfl
      | ok mask => exact congrArg Except.ok (key torchMax pyMax max mask (fun _ _ => rfl) pyMax_some (fun a => max_eq_left le_top))

/-- Whatever `argmin` makes of NaN, `dtw_path` ends and returns a warping path, beside the value of `dtw`. -/
theorem C115_path (s1 s2 : TsInput (Option K)) (d : ℕ) (x y : List (List (Option K))) (h : Seen s1 s2 d x y) (gc : Option String) (radius : Option ℕ)
    (slope : Option ℚ) (am : Nv K → Nv K → Nv K → ℕ) (v : Nv K) (hv : nanDtwSq .numpy s1 s2 gc radius slope = .ok v) :
    ∃ p, nanDtwPath s1 s2 gc radius slope am = .ok (some p, v) ∧ IsWarpingPath x.length y.length p := by
  unfold nanDtwSq at hv
  unfold nanDtwPath
  rw [h.validate] at hv ⊢
  cases hc : gcCode gc with
  | error e => rw [hc] at hv; cases hv
  | ok code =>
    rw [hc] at hv
    simp only [Except.map, bind, Except.bind, pure, Except.pure] at hv ⊢
    cases hk : computeMask x.length y.length code radius slope with
    | error e => rw [hk] at hv; cases hv
    | ok mask =>
      rw [hk] at hv
      simp only [Except.ok.injEq] at hv ⊢
      obtain ⟨p, hp, hw⟩ := C02_path_terminates am (nanTable nvAdd x.length y.length mask (nanCost x y)) x.length y.length h.pos1 h.pos2
      exact ⟨p, by rw [hp, ← hv], hw⟩

end

/-! ## Soft-DTW and the global alignment kernel -/
section
open Classical

theorem Fl.add_nan_left (b : Fl) : Fl.add .nan b = .nan := rfl
theorem Fl.add_nan_right (a : Fl) : Fl.add a .nan = .nan := by cases a <;> rfl

theorem softmin3_nan_up (b c : Fl) (γ : ℝ) : softmin3 .nan b c γ = .nan := by
  unfold softmin3
  simp only [Fl.div, Fl.scale, Fl.sub, Fl.exp, Fl.add_nan_left, Fl.add_nan_right, Fl.log]

theorem softmin3_nan_left (a c : Fl) (γ : ℝ) : softmin3 a .nan c γ = .nan := by
  unfold softmin3
  simp only [Fl.div, Fl.scale, Fl.sub, Fl.exp, Fl.add_nan_left, Fl.add_nan_right, Fl.log]

theorem softmin3_nan_diag (a b : Fl) (γ : ℝ) : softmin3 a b .nan γ = .nan := by
  unfold softmin3
  simp only [Fl.div, Fl.scale, Fl.sub, Fl.exp, Fl.add_nan_left, Fl.add_nan_right, Fl.log]

theorem softminTorch_nan_up (b c : Fl) (γ : ℝ) : softminTorch .nan b c γ = .nan := by
  unfold softminTorch
  simp only [Fl.div, Fl.scale, Fl.neg, Fl.sub, Fl.exp, Fl.add_nan_left, Fl.add_nan_right, Fl.log]

theorem softminTorch_nan_left (a c : Fl) (γ : ℝ) : softminTorch a .nan c γ = .nan := by
  unfold softminTorch
  simp only [Fl.div, Fl.scale, Fl.neg, Fl.sub, Fl.exp, Fl.add_nan_left, Fl.add_nan_right, Fl.log]

theorem softminTorch_nan_diag (a b : Fl) (γ : ℝ) : softminTorch a b .nan γ = .nan := by
  unfold softminTorch
  simp only [Fl.div, Fl.scale, Fl.neg, Fl.sub, Fl.exp, Fl.add_nan_left, Fl.add_nan_right, Fl.log]

/-- NaN or `inf`. -/
def NoReal (v : Fl) : Prop := v = .nan ∨ v = .inf

theorem NoReal.add_left {a b : Fl} (h : a = .nan) : NoReal (a.add b) := .inl (by rw [h]; rfl)

theorem softmin3_infs {γ : ℝ} (hγ : 0 < γ) : softmin3 .inf .inf .inf γ = .nan := by
  have h1 : ¬ (0 < (-γ)⁻¹) := by rw [inv_pos]; linarith
  have h2 : (-γ)⁻¹ < 0 := by rw [inv_lt_zero]; linarith
  unfold softmin3
  simp only [Fl.div, Fl.scale, h1, h2, if_false, if_true, Fl.max, Fl.lt, Bool.false_eq_true, Fl.sub, Fl.neg, Fl.add, Fl.exp, Fl.log]

theorem NoReal.softmin3 {a b c : Fl} {γ : ℝ} (hγ : 0 < γ) (ha : NoReal a) (hb : NoReal b) (hc : NoReal c) : softmin3 a b c γ = .nan := by
  rcases ha with rfl | rfl
  · exact softmin3_nan_up _ _ _
  rcases hb with rfl | rfl
  · exact softmin3_nan_left _ _ _
  rcases hc with rfl | rfl
  · exact softmin3_nan_diag _ _ _
  exact softmin3_infs hγ

theorem softminTorch_inf {γ : ℝ} (hγ : 0 < γ) : softminTorch .inf .inf .inf γ = .inf := by
  have h1 : 0 < γ⁻¹ := inv_pos.2 hγ
  have h2 : ¬ (0 < -γ) := by linarith
  have h3 : -γ < 0 := by linarith
  unfold softminTorch
  simp only [Fl.div, Fl.scale, Fl.neg, h1, if_true, Fl.max, Fl.lt, Bool.false_eq_true, if_false, Fl.isInf, Fl.sub, Fl.add, Fl.exp, Fl.log, neg_zero, add_zero]
  simp [Fl.add, Fl.scale, h2, h3]

theorem NoReal.softminTorch {a b c : Fl} {γ : ℝ} (hγ : 0 < γ) (ha : NoReal a) (hb : NoReal b) (hc : NoReal c) : NoReal (softminTorch a b c γ) := by
  rcases ha with rfl | rfl
  · exact .inl (softminTorch_nan_up _ _ _)
  rcases hb with rfl | rfl
  · exact .inl (softminTorch_nan_left _ _ _)
  rcases hc with rfl | rfl
  · exact .inl (softminTorch_nan_diag _ _ _)
  exact .inr (softminTorch_inf hγ)

/-- A missing distance, masked or not. -/
theorem masked (m : Bool) (b : Fl) : NoReal ((if m then Fl.nan else Fl.inf).add b) := by
  cases m <;> cases b <;> simp [NoReal, Fl.add]

theorem flOfNan_cases (o : Option ℝ) : flOfNan o = .nan ∨ ∃ x, flOfNan o = .num x := by
  cases o with
  | none => exact .inl rfl
  | some x => exact .inr ⟨x, rfl⟩

theorem NoReal.add_right {a b : Fl} (ha : a = .nan ∨ a = .inf ∨ ∃ x, a = .num x) (hb : NoReal b) : NoReal (a.add b) := by
  rcases ha with rfl | rfl | ⟨x, rfl⟩ <;> rcases hb with rfl | rfl <;> simp [NoReal, Fl.add]

/-- Distances of the rows, as floats. -/
noncomputable abbrev flCost (x y : List (List (Option ℝ))) : Mat Fl := fun i j => flOfNan (gapSqDist (x.getD i []) (y.getD j []))

theorem flCost_nan {d : ℕ} {x y : List (List (Option ℝ))} (hx : IsRect d x) (hy : IsRect d y) {i j : ℕ} (hi : i < x.length) (hj : j < y.length)
    (h : RowMissing (x.getD i []) ∨ RowMissing (y.getD j [])) : flCost x y i j = .nan := by
  unfold flCost
  rw [gapSqDist_none _ h]
  · rfl
  · rw [List.getD_eq_getElem _ _ hi, List.getD_eq_getElem _ _ hj, hx _ (List.getElem_mem hi), hy _ (List.getElem_mem hj)]

/-- With a missing value in either series, for `gamma > 0`, in either backend and under every constraint, soft-DTW is NaN or `inf`. Without a
constraint it is NaN. -/
theorem C115_soft (be : Backend) (s1 s2 : TsInput (Option ℝ)) (d : ℕ) (x y : List (List (Option ℝ))) (h : Seen s1 s2 d x y)
    (hm : HasMissing x ∨ HasMissing y) (γ : ℝ) (hγ : 0 < γ) :
    (∀ gc radius slope v, nanSoftDtw be s1 s2 γ gc radius slope = .ok v → v = .nan ∨ v = .inf) ∧
    nanSoftDtw be s1 s2 γ none none none = .ok .nan := by
  have h1 := h.pos1
  have h2 := h.pos2
  constructor
  · intro gc radius slope v hv
    unfold nanSoftDtw at hv
    rw [h.validate] at hv
    cases hc : gcCode gc with
    | error e => rw [hc] at hv; cases hv
    | ok code =>
      rw [hc] at hv
      simp only [Except.map, bind, Except.bind, pure, Except.pure] at hv
      cases hk : computeMask x.length y.length code radius slope with
      | error e => rw [hk] at hv; cases hv
      | ok mask =>
        rw [hk] at hv
        have nn : ∀ i j, i ≠ 0 → NoReal (((Mat.full Fl.inf).set 0 0 (Fl.num 0)) i j) := fun i j hi => .inr (by simp [Mat.set_apply, Mat.full, hi])
        have nn' : ∀ i j, j ≠ 0 → NoReal (((Mat.full Fl.inf).set 0 0 (Fl.num 0)) i j) := fun i j hi => .inr (by simp [Mat.set_apply, Mat.full, hi])
        cases be with
        | numpy =>
          simp only [Except.ok.injEq] at hv
          rw [← hv]
          have hd := dpLoop_isDP x.length y.length mask (fun i j up left diag => (flCost x y i j).add (softmin3 up left diag γ))
            ((Mat.full Fl.inf).set 0 0 (Fl.num 0))
          unfold nanSoftAcc
          rw [last_tail _ h1 h2]
          have all : ∀ (i j : ℕ) (a b c : Fl), NoReal a → NoReal b → NoReal c → NoReal ((flCost x y i j).add (softmin3 a b c γ)) :=
            fun i j a b c ha hb hc => .inl (by rw [NoReal.softmin3 hγ ha hb hc, Fl.add_nan_right])
          rcases hm with hm | hm
          · obtain ⟨r, hr, hr'⟩ := missing_index hm
            exact hd.spread_down NoReal nn hr (fun j hj a b c => NoReal.add_left (flCost_nan h.arr1 h.arr2 hr hj (.inl hr'))) all _ _ (by omega) le_rfl le_rfl
          · obtain ⟨r, hr, hr'⟩ := missing_index hm
            exact hd.spread_right NoReal nn' hr (fun j hj a b c => NoReal.add_left (flCost_nan h.arr1 h.arr2 hj hr (.inr hr'))) all _ _ (by omega) le_rfl le_rfl
        | pytorch =>
          simp only [Except.ok.injEq] at hv
          rw [← hv]
          have hd := diagLoop_isDP x.length y.length (fun i j up left diag => (if mask i j then flCost x y i j else Fl.inf).add (softminTorch up left diag γ))
            ((Mat.full Fl.inf).set 0 0 (Fl.num 0))
          unfold torchSoftAcc
          rw [last_tail _ h1 h2]
          have kind : ∀ i j, (if mask i j then flCost x y i j else Fl.inf) = .nan ∨ (if mask i j then flCost x y i j else Fl.inf) = .inf ∨
              ∃ z, (if mask i j then flCost x y i j else Fl.inf) = .num z := by
            intro i j
            split
            · rcases flOfNan_cases (gapSqDist (x.getD i []) (y.getD j [])) with h | h
              · exact .inl h
              · exact .inr (.inr h)
            · exact .inr (.inl rfl)
          have all : ∀ (i j : ℕ) (a b c : Fl), NoReal a → NoReal b → NoReal c →
              NoReal ((if mask i j then flCost x y i j else Fl.inf).add (softminTorch a b c γ)) :=
            fun i j a b c ha hb hc => NoReal.add_right (kind i j) (NoReal.softminTorch hγ ha hb hc)
          rcases hm with hm | hm
          · obtain ⟨r, hr, hr'⟩ := missing_index hm
            refine hd.spread_down NoReal nn hr (fun j hj a b c => ?_) all _ _ (by omega) le_rfl le_rfl
            simp only [flCost_nan h.arr1 h.arr2 hr hj (.inl hr')]
            exact masked _ _
          · obtain ⟨r, hr, hr'⟩ := missing_index hm
            refine hd.spread_right NoReal nn' hr (fun j hj a b c => ?_) all _ _ (by omega) le_rfl le_rfl
            simp only [flCost_nan h.arr1 h.arr2 hj hr (.inr hr')]
            exact masked _ _
  · unfold nanSoftDtw
    rw [h.validate]
    cases be with
    | numpy =>
      have hd := dpLoop_isDP x.length y.length (Mat.full true) (fun i j up left diag => (flCost x y i j).add (softmin3 up left diag γ))
        ((Mat.full Fl.inf).set 0 0 (Fl.num 0))
      refine congrArg Except.ok (?_ : lastEntry (nanSoftAcc x.length y.length (Mat.full true) (flCost x y) γ) x.length y.length = .nan)
      unfold nanSoftAcc
      rw [last_tail _ h1 h2]
      rcases hm with hm | hm
      · obtain ⟨r, hr, hr'⟩ := missing_index hm
        refine hd.from_up (fun v => v = .nan) hr (fun j hj a b c => ?_) (fun i j a b c ha => ?_) _ _ hr le_rfl h2 le_rfl
        · simp only [flCost_nan h.arr1 h.arr2 hr hj (.inl hr'), Fl.add_nan_left]
        · simp only [ha, softmin3_nan_up, Fl.add_nan_right]
      · obtain ⟨r, hr, hr'⟩ := missing_index hm
        refine hd.from_left (fun v => v = .nan) hr (fun j hj a b c => ?_) (fun i j a b c ha => ?_) _ _ hr le_rfl h1 le_rfl
        · simp only [flCost_nan h.arr1 h.arr2 hj hr (.inr hr'), Fl.add_nan_left]
        · simp only [ha, softmin3_nan_left, Fl.add_nan_right]
    | pytorch =>
      have hd := diagLoop_isDP x.length y.length (fun i j up left diag => (if (Mat.full true : Mat Bool) i j then flCost x y i j else Fl.inf).add
        (softminTorch up left diag γ)) ((Mat.full Fl.inf).set 0 0 (Fl.num 0))
      refine congrArg Except.ok (?_ : lastEntry (torchSoftAcc x.length y.length (Mat.full true) (flCost x y) γ) x.length y.length = .nan)
      unfold torchSoftAcc
      rw [last_tail _ h1 h2]
      rcases hm with hm | hm
      · obtain ⟨r, hr, hr'⟩ := missing_index hm
        refine hd.from_up (fun v => v = .nan) hr (fun j hj a b c => ?_) (fun i j a b c ha => ?_) _ _ hr le_rfl h2 le_rfl
        · simp only [flCost_nan h.arr1 h.arr2 hr hj (.inl hr'), Mat.full, if_true, Fl.add_nan_left]
        · simp only [ha, softminTorch_nan_up, Fl.add_nan_right]
      · obtain ⟨r, hr, hr'⟩ := missing_index hm
        refine hd.from_left (fun v => v = .nan) hr (fun j hj a b c => ?_) (fun i j a b c ha => ?_) _ _ hr le_rfl h1 le_rfl
        · simp only [flCost_nan h.arr1 h.arr2 hj hr (.inr hr'), Mat.full, if_true, Fl.add_nan_left]
        · simp only [ha, softminTorch_nan_left, Fl.add_nan_right]

/-- A missing value in either series makes the global alignment kernel NaN. -/
theorem C115_gak (s1 s2 : TsInput (Option ℝ)) (d : ℕ) (x y : List (List (Option ℝ))) (h : Seen s1 s2 d x y) (hm : HasMissing x ∨ HasMissing y) (σ : ℝ)
    (hσ : σ ≠ 0) : nanGak s1 s2 σ = .ok none := by
  have left : ∀ (f : ℝ → ℝ → ℝ) (b : Option ℝ), nanOp f none b = none := fun f b => by cases b <;> rfl
  have right : ∀ (f : ℝ → ℝ → ℝ) (a : Option ℝ), nanOp f a none = none := fun f a => by cases a <;> rfl
  have h1 := h.pos1
  have h2 := h.pos2
  have dist : ∀ {i j : ℕ}, i < x.length → j < y.length → RowMissing (x.getD i []) ∨ RowMissing (y.getD j []) →
      gapSqDist (x.getD i []) (y.getD j []) = none := by
    intro i j hi hj hr
    apply gapSqDist_none _ hr
    rw [List.getD_eq_getElem _ _ hi, List.getD_eq_getElem _ _ hj, h.arr1 _ (List.getElem_mem hi), h.arr2 _ (List.getElem_mem hj)]
  have hK : nanUnnormGak x y σ = none := by
    unfold nanUnnormGak
    rcases hm with hm | hm
    · obtain ⟨r, hr, hr'⟩ := missing_index hm
      refine (dpLoop_isDP x.length y.length (Mat.full true) _ _).from_up (fun v => v = none) hr (fun j hj a b c => ?_) (fun i j a b c ha => ?_)
        _ _ hr le_rfl h2 le_rfl
      · simp only [dist hr hj (.inl hr'), Option.map_none, right]
      · simp only [ha, left]
    · obtain ⟨r, hr, hr'⟩ := missing_index hm
      refine (dpLoop_isDP x.length y.length (Mat.full true) _ _).from_left (fun v => v = none) hr (fun j hj a b c => ?_) (fun i j a b c ha => ?_)
        _ _ hr le_rfl h1 le_rfl
      · simp only [dist hj hr (.inr hr'), Option.map_none, right]
      · simp only [ha, left, right]
  unfold nanGak
  simp only [h.first, h.second, h.features]
  rw [if_neg hσ, if_neg (by omega), if_neg (by simp), hK, left]
  rfl


/-! ## Longest common subsequences -/

theorem lcssAcc_mono_col {l1 l2 : ℕ} {hit : ℕ → ℕ → Bool} {i j : ℕ} (hi : i ≤ l1) (hj : j + 1 ≤ l2) :
    lcssAcc l1 l2 (Mat.full true) hit i j ≤ lcssAcc l1 l2 (Mat.full true) hit i (j + 1) := by
  rcases i with _ | i
  · rw [(lcssAcc_isDP l1 l2 _ hit).row0, (lcssAcc_isDP l1 l2 _ hit).row0]; rfl
  · obtain ⟨p, hp, hl⟩ := lcssAcc_le (l1 := l1) (l2 := l2) (mask := Mat.full true) (hit := hit) hi (show j ≤ l2 by omega)
    rw [← hl]
    exact lcssAcc_ge (lcssMask_full l1 l2) (by omega) (by omega) rfl (hp.mono le_rfl (by omega))

theorem lcssAcc_mono_row {l1 l2 : ℕ} {hit : ℕ → ℕ → Bool} {i j : ℕ} (hi : i + 1 ≤ l1) (hj : j ≤ l2) :
    lcssAcc l1 l2 (Mat.full true) hit i j ≤ lcssAcc l1 l2 (Mat.full true) hit (i + 1) j := by
  rcases j with _ | j
  · rw [(lcssAcc_isDP l1 l2 _ hit).col0, (lcssAcc_isDP l1 l2 _ hit).col0]; rfl
  · obtain ⟨p, hp, hl⟩ := lcssAcc_le (l1 := l1) (l2 := l2) (mask := Mat.full true) (hit := hit) (show i ≤ l1 by omega) hj
    rw [← hl]
    exact lcssAcc_ge (lcssMask_full l1 l2) (by omega) (by omega) rfl (hp.mono (by omega) le_rfl)

/-- A row without matches can be left out. -/
theorem lcss_delete_row {n l2 r : ℕ} (hr : r ≤ n) {hit hit' : ℕ → ℕ → Bool} (h0 : ∀ j < l2, hit r j = false)
    (hb : ∀ i j, i < r → j < l2 → hit i j = hit' i j) (ha : ∀ i j, r ≤ i → i < n → j < l2 → hit (i + 1) j = hit' i j) :
    lcssAcc (n + 1) l2 (Mat.full true) hit (n + 1) l2 = lcssAcc n l2 (Mat.full true) hit' n l2 := by
  have hM := lcssAcc_isDP (n + 1) l2 (Mat.full true) hit
  have hN := lcssAcc_isDP n l2 (Mat.full true) hit'
  have same : ∀ j, j ≤ l2 → lcssAcc (n + 1) l2 (Mat.full true) hit (r + 1) j = lcssAcc (n + 1) l2 (Mat.full true) hit r j := by
    intro j
    induction j with
    | zero => intro _; rw [hM.col0, hM.col0]; rfl
    | succ j ih =>
      intro hj
      rw [hM.body r j (by omega) (by omega), h0 j (by omega), ih (by omega)]
      simp only [Mat.full, if_true, Bool.false_eq_true, if_false]
      exact max_eq_right (lcssAcc_mono_col (by omega) hj)
  have before : ∀ i j, i ≤ r → j ≤ l2 → lcssAcc (n + 1) l2 (Mat.full true) hit i j = lcssAcc n l2 (Mat.full true) hit' i j := by
    intro i
    induction i with
    | zero => intro j _ _; rw [hM.row0, hN.row0]
    | succ i ih =>
      intro j
      induction j with
      | zero => intro _ _; rw [hM.col0, hN.col0]
      | succ j ihj =>
        intro hi hj
        rw [hM.body i j (by omega) (by omega), hN.body i j (by omega) (by omega), ih _ (by omega) hj, ihj hi (by omega), ih _ (by omega) (by omega),
          hb i j (by omega) (by omega)]
  have after : ∀ i j, r ≤ i → i ≤ n → j ≤ l2 → lcssAcc (n + 1) l2 (Mat.full true) hit (i + 1) j = lcssAcc n l2 (Mat.full true) hit' i j := by
    intro i
    induction i with
    | zero =>
      intro j h _ hj
      obtain rfl : r = 0 := by omega
      rw [same j hj, before 0 j le_rfl hj]
    | succ i ih =>
      intro j
      induction j with
      | zero => intro _ _ _; rw [hM.col0, hN.col0]; rfl
      | succ j ihj =>
        intro h1 h2 h3
        rcases Nat.lt_or_ge i r with h | h
        · obtain rfl : r = i + 1 := by omega
          rw [same _ h3, before _ _ le_rfl h3]
        · rw [hM.body (i + 1) j (by omega) (by omega), hN.body i j (by omega) (by omega), ih _ h (by omega) h3, ihj h1 h2 (by omega),
            ih _ h (by omega) (by omega), ha i j h (by omega) (by omega)]
          rfl
  exact after n l2 hr le_rfl le_rfl

/-- A column without matches can be left out. -/
theorem lcss_delete_col {l1 n r : ℕ} (hr : r ≤ n) {hit hit' : ℕ → ℕ → Bool} (h0 : ∀ i < l1, hit i r = false)
    (hb : ∀ i j, i < l1 → j < r → hit i j = hit' i j) (ha : ∀ i j, i < l1 → r ≤ j → j < n → hit i (j + 1) = hit' i j) :
    lcssAcc l1 (n + 1) (Mat.full true) hit l1 (n + 1) = lcssAcc l1 n (Mat.full true) hit' l1 n := by
  have tr : ∀ a b (hit : ℕ → ℕ → Bool), lcssAcc a b (Mat.full true) hit a b = lcssAcc b a (Mat.full true) (fun i j => hit j i) b a := by
    intro a b hit
    have hM := lcssAcc_isDP a b (Mat.full true) hit
    have hN := lcssAcc_isDP b a (Mat.full true) fun i j => hit j i
    have : ∀ i j, i ≤ a → j ≤ b → lcssAcc a b (Mat.full true) hit i j = lcssAcc b a (Mat.full true) (fun i j => hit j i) j i := by
      intro i
      induction i with
      | zero => intro j _ _; rw [hM.row0, hN.col0]; rfl
      | succ i ih =>
        intro j
        induction j with
        | zero => intro _ _; rw [hM.col0, hN.row0]; rfl
        | succ j ihj =>
          intro hi hj
          rw [hM.body i j (by omega) (by omega), hN.body j i (by omega) (by omega), ih _ (by omega) hj, ihj hi (by omega), ih _ (by omega) (by omega)]
          simp only [Mat.full, if_true]
          rw [max_comm]
    exact this a b le_rfl le_rfl
  rw [tr, tr l1 n]
  exact lcss_delete_row hr h0 (fun i j hi hj => hb j i hj hi) (fun i j h1 h2 h3 => ha j i h3 h1 h2)

theorem nanLcss_eq {s1 s2 : TsInput (Option ℝ)} {d x y} (h : Seen s1 s2 d x y) (eps : ℝ) : nanLcss s1 s2 eps =
    .ok (lcssScore (lcssAcc x.length y.length (Mat.full true) (nanLcssHit x y eps)) x.length y.length) := by
  unfold nanLcss
  simp only [h.first, h.second, h.features]
  rw [if_neg (by simp [h.ne1, h.ne2])]
  rfl

/-- LCSS without a constraint is not disturbed: a row with a missing value matches nothing. Leaving it out, from either series, changes only the length
the count is divided by. -/
theorem C115_lcss (s1 s1' s2 : TsInput (Option ℝ)) (d : ℕ) (pre post : List (List (Option ℝ))) (row : List (Option ℝ)) (y : List (List (Option ℝ)))
    (hrow : RowMissing row) (eps : ℝ) :
    (Seen s1 s2 d (pre ++ row :: post) y → Seen s1' s2 d (pre ++ post) y → ∃ c : ℕ,
      nanLcss s1 s2 eps = .ok ((c : ℝ) / ((min ((pre ++ post).length + 1) y.length : ℕ) : ℝ)) ∧
      nanLcss s1' s2 eps = .ok ((c : ℝ) / ((min (pre ++ post).length y.length : ℕ) : ℝ))) ∧
    (Seen s2 s1 d y (pre ++ row :: post) → Seen s2 s1' d y (pre ++ post) → ∃ c : ℕ,
      nanLcss s2 s1 eps = .ok ((c : ℝ) / ((min y.length ((pre ++ post).length + 1) : ℕ) : ℝ)) ∧
      nanLcss s2 s1' eps = .ok ((c : ℝ) / ((min y.length (pre ++ post).length : ℕ) : ℝ))) := by
  have hl : (pre ++ row :: post).length = (pre ++ post).length + 1 := by simp; omega
  have hpre : pre.length ≤ (pre ++ post).length := by simp
  have at0 : (pre ++ row :: post).getD pre.length [] = row := by rw [List.getD_append_right _ _ _ _ le_rfl]; simp
  have atb : ∀ i, i < pre.length → (pre ++ row :: post).getD i [] = (pre ++ post).getD i [] := by
    intro i hi
    rw [List.getD_append _ _ _ _ hi, List.getD_append _ _ _ _ hi]
  have ata : ∀ i, pre.length ≤ i → (pre ++ row :: post).getD (i + 1) [] = (pre ++ post).getD i [] := by
    intro i hi
    rw [List.getD_append_right _ _ _ _ (by omega), List.getD_append_right _ _ _ _ hi, show i + 1 - pre.length = (i - pre.length) + 1 by omega,
      List.getD_cons_succ]
  constructor
  · intro h h'
    have e := lcss_delete_row (l2 := y.length) (hit := nanLcssHit (pre ++ row :: post) y eps) (hit' := nanLcssHit (pre ++ post) y eps) hpre
      (fun j hj => by
        unfold nanLcssHit
        rw [at0, gapSqDist_none _ (.inl hrow)]
        rw [h.arr1 row (by simp), List.getD_eq_getElem _ _ hj, h.arr2 _ (List.getElem_mem hj)])
      (fun i j hi hj => by unfold nanLcssHit; rw [atb i hi])
      (fun i j hi _ hj => by unfold nanLcssHit; rw [ata i hi])
    refine ⟨lcssAcc (pre ++ post).length y.length (Mat.full true) (nanLcssHit (pre ++ post) y eps) (pre ++ post).length y.length, ?_, ?_⟩
    · rw [nanLcss_eq h eps, hl]
      unfold lcssScore
      rw [e]
    · rw [nanLcss_eq h' eps]; rfl
  · intro h h'
    have e := lcss_delete_col (l1 := y.length) (hit := nanLcssHit y (pre ++ row :: post) eps) (hit' := nanLcssHit y (pre ++ post) eps) hpre
      (fun i hi => by
        unfold nanLcssHit
        rw [at0, gapSqDist_none _ (.inr hrow)]
        rw [h.arr2 row (by simp), List.getD_eq_getElem _ _ hi, h.arr1 _ (List.getElem_mem hi)])
      (fun i j _ hj => by unfold nanLcssHit; rw [atb j hj])
      (fun i j _ hj _ => by unfold nanLcssHit; rw [ata j hj])
    refine ⟨lcssAcc y.length (pre ++ post).length (Mat.full true) (nanLcssHit y (pre ++ post) eps) y.length (pre ++ post).length, ?_, ?_⟩
    · rw [nanLcss_eq h eps, hl]
      unfold lcssScore
      rw [e]
    · rw [nanLcss_eq h' eps]; rfl

/-- Without missing values soft-DTW, LCSS and the global alignment kernel are those of the models without missing values. -/
theorem C115_agrees_real (s1 s2 : TsInput (Option ℝ)) (d : ℕ) (u v : List (List ℝ)) (h : Seen s1 s2 d (observed u) (observed v)) :
    (∀ be γ gc radius slope, γ ≠ 0 → nanSoftDtw be s1 s2 γ gc radius slope = softDtw be s1 s2 γ gc radius slope) ∧
    (∀ eps, nanLcss s1 s2 eps = lcss s1 s2 eps none none none) ∧ ∀ σ, nanGak s1 s2 σ = (gak s1 s2 σ).map some := by
  have h1 := h.pos1
  have h2 := h.pos2
  have hD : flCost (observed u) (observed v) = fun i j => Fl.num (localCost u v i j) := by
    funext i j
    unfold flCost
    rw [observed_getD, observed_getD, gapSqDist_some]
    rfl
  have hK : ∀ (u v : List (List ℝ)) (σ : ℝ), nanUnnormGak (observed u) (observed v) σ = some (unnormGak u v σ) := by
    intro u v σ
    unfold nanUnnormGak unnormGak gakFromGram
    rw [observed_length, observed_length]
    refine (dpLoop_isDP u.length v.length (Mat.full true) _ _).map (dpLoop_isDP u.length v.length (Mat.full true) _ _) some (fun i j => ?_)
      (fun i j a b c _ _ => ?_) _ _ le_rfl le_rfl
    · simp only [Mat.set_apply, Mat.full]
      split <;> rfl
    · rw [observed_getD, observed_getD, gapSqDist_some]
      rfl
  refine ⟨fun be γ gc radius slope hγ => ?_, fun eps => ?_, fun σ => ?_⟩
  · unfold nanSoftDtw softDtw
    rw [h.validate, h.validatePair]
    cases gcCode gc with
    | error e => rfl
    | ok code =>
      simp only [Except.map, bind, Except.bind, pure, Except.pure, observed_length, if_neg hγ, softDtwGeneric]
      cases computeMask u.length v.length code radius slope with
      | error e => rfl
      | ok mask =>
        have hD' : (fun i j => flOfNan (gapSqDist ((observed u).getD i []) ((observed v).getD j []))) = fun i j => Fl.num (localCost u v i j) := hD
        simp only [hD']
        cases be <;> rfl
  · have hu : u ≠ [] := fun e => h.ne1 (by rw [e]; rfl)
    have hv : v ≠ [] := fun e => h.ne2 (by rw [e]; rfl)
    have hf : nFeatures u = nFeatures v := by
      have := h.features
      cases u <;> cases v <;> simp_all [nFeatures, observed]
    rw [nanLcss_eq h eps]
    unfold lcss lcssArgs
    simp only [h.first, h.second, denan_observed]
    rw [if_neg (by simp [hu, hv, hf])]
    have hh : nanLcssHit (observed u) (observed v) eps = lcssHit u v eps := by
      funext i j
      unfold nanLcssHit lcssHit
      rw [observed_getD, observed_getD, gapSqDist_some]
      rfl
    rw [hh, observed_length, observed_length]
    rfl
  · unfold nanGak gak gakArgs
    simp only [h.first, h.second, h.features, denan_observed]
    by_cases hσ : σ = 0
    · rw [if_pos hσ, if_pos hσ]; rfl
    · rw [if_neg hσ, if_neg hσ, if_neg (by omega), if_neg (not_not.2 rfl), hK, hK, hK, if_neg (by omega), if_neg (not_not.2 rfl)]
      rfl

/-- The count LCSS divides is the size of the largest matching of observed rows within `eps`. -/
theorem C115_lcss_count (s1 s2 : TsInput (Option ℝ)) (d : ℕ) (x y : List (List (Option ℝ))) (h : Seen s1 s2 d x y) (eps : ℝ) :
    ∃ c : ℕ, nanLcss s1 s2 eps = .ok ((c : ℝ) / ((min x.length y.length : ℕ) : ℝ)) ∧
      IsGreatest (MatchingSizes x.length y.length fun i j => ∃ u v : List ℝ, x.getD i [] = u.map some ∧ y.getD j [] = v.map some ∧
        Real.sqrt (sqDist u v) ≤ eps) c := by
  refine ⟨_, nanLcss_eq h eps, ?_⟩
  have := lcssAcc_isGreatest (hit := nanLcssHit x y eps) (lcssMask_full x.length y.length) h.pos1 h.pos2 rfl
  have e : ∀ i j, i < x.length → j < y.length → (okPair (Mat.full true) (nanLcssHit x y eps) i j ↔
      ∃ u v : List ℝ, x.getD i [] = u.map some ∧ y.getD j [] = v.map some ∧ Real.sqrt (sqDist u v) ≤ eps) := by
    intro i j hi hj
    constructor
    · rintro ⟨-, hh⟩
      have n1 : ¬ RowMissing (x.getD i []) ∧ ¬ RowMissing (y.getD j []) := by
        by_contra hc
        have hc : RowMissing (x.getD i []) ∨ RowMissing (y.getD j []) := by tauto
        unfold nanLcssHit at hh
        rw [gapSqDist_none _ hc] at hh
        · exact absurd hh (by simp)
        · rw [List.getD_eq_getElem _ _ hi, List.getD_eq_getElem _ _ hj, h.arr1 _ (List.getElem_mem hi), h.arr2 _ (List.getElem_mem hj)]
      obtain ⟨u, hu⟩ := row_numbers _ n1.1
      obtain ⟨v, hv⟩ := row_numbers _ n1.2
      refine ⟨u, v, hu, hv, ?_⟩
      unfold nanLcssHit at hh
      rw [hu, hv, gapSqDist_some] at hh
      simpa using hh
    · rintro ⟨u, v, hu, hv, hd⟩
      refine ⟨rfl, ?_⟩
      unfold nanLcssHit
      rw [hu, hv, gapSqDist_some]
      simpa using hd
  have e2 : ∀ p, IsMatching x.length y.length (okPair (Mat.full true) (nanLcssHit x y eps)) p ↔
      IsMatching x.length y.length (fun i j => ∃ u v : List ℝ, x.getD i [] = u.map some ∧ y.getD j [] = v.map some ∧ Real.sqrt (sqDist u v) ≤ eps) p := by
    intro p
    exact ⟨fun q => ⟨q.incr, q.inside, fun c hc => (e _ _ (q.inside c hc).1 (q.inside c hc).2).1 (q.hits c hc)⟩,
      fun q => ⟨q.incr, q.inside, fun c hc => (e _ _ (q.inside c hc).1 (q.inside c hc).2).2 (q.hits c hc)⟩⟩
  have e3 : MatchingSizes x.length y.length (okPair (Mat.full true) (nanLcssHit x y eps)) = MatchingSizes x.length y.length (fun i j => ∃ u v : List ℝ,
      x.getD i [] = u.map some ∧ y.getD j [] = v.map some ∧ Real.sqrt (sqDist u v) ≤ eps) := by
    ext k
    simp only [MatchingSizes, Set.mem_ofPred_eq, e2]
  rwa [e3] at this

end

/-! ## Refuted -/

/-- Integer series with NaN. -/
abbrev gapped (l : List (Option ℤ)) : TsInput (Option ℤ) := .oneD l

/-- Refuted: DTW and the Fréchet distance are symmetric. -/
theorem C115_false_symmetric :
    nanDtwSq .numpy (gapped [some 0, none, some 0]) (gapped [some 0, some 0]) none none none = .ok none ∧
    nanDtwSq .numpy (gapped [some 0, some 0]) (gapped [some 0, none, some 0]) none none none = .ok (some ⊤) ∧
    nanFrechetSq .numpy (gapped [some 0, none, some 0]) (gapped [some 0, some 0]) none none none = .ok (some 0) ∧
    nanFrechetSq .numpy (gapped [some 0, some 0]) (gapped [some 0, none, some 0]) none none none = .ok (some ⊤) := by
  refine ⟨?_, ?_, ?_, ?_⟩ <;> decide +kernel

/-- Refuted: the two backends agree. -/
theorem C115_false_backends :
    nanDtwSq .numpy (gapped [some 0, some 0]) (gapped [some 0, none, some 0]) none none none ≠
      nanDtwSq .pytorch (gapped [some 0, some 0]) (gapped [some 0, none, some 0]) none none none ∧
    nanFrechetSq .numpy (gapped [some 0, none, some 0]) (gapped [some 0, some 0]) none none none ≠
      nanFrechetSq .pytorch (gapped [some 0, none, some 0]) (gapped [some 0, some 0]) none none none := by
  refine ⟨?_, ?_⟩ <;> decide +kernel

/-- Refuted: the Fréchet distance is at least that of the observed samples. A series that starts 100 away is at distance 0. -/
theorem C115_false_frechet : nanFrechetSq .numpy (gapped [some 100, none, some 0]) (gapped [some 0, some 0]) none none none = .ok (some 0) ∧
    nanFrechetSq .numpy (gapped [some 100, some 0]) (gapped [some 0, some 0]) none none none = .ok (some ((10000 : ℤ) : WithTop ℤ)) := by
  refine ⟨?_, ?_⟩ <;> decide +kernel

/-! ## Instances -/

/-- A series with a gap and one without, as the functions see them. -/
theorem seen_gap : Seen (gapped [some 3, none, some 0]) (gapped [some 0, some 1]) 1 [[some 3], [none], [some 0]] (observed [[(0 : ℤ)], [1]]) :=
  ⟨by decide +kernel, by decide +kernel, by simp, by simp [observed], by simp [IsRect], by simp [IsRect, observed]⟩

theorem seen_gap' : Seen (gapped [some 0, some 1]) (gapped [some 3, none, some 0]) 1 (observed [[(0 : ℤ)], [1]]) [[some 3], [none], [some 0]] :=
  ⟨by decide +kernel, by decide +kernel, by simp [observed], by simp, by simp [IsRect, observed], by simp [IsRect]⟩

example : HasMissing [[some (3 : ℤ)], [none], [some 0]] ∧ RowMissing [(none : Option ℤ)] := by simp [HasMissing, RowMissing]
example : ¬ HasMissing (observed [[(0 : ℤ)], [1]]) ∧ ¬ RowMissing ([[some (3 : ℤ)], [none], [some 0]].getLastD []) := by
  simp [HasMissing, RowMissing, observed]
example : nanDtwSq .numpy (gapped [some 3, none, some 0]) (gapped [some 0, some 1]) none none none = .ok none :=
  C115_dtw_first _ _ 1 _ _ seen_gap (by simp [HasMissing, RowMissing])
example : nanDtwSq .numpy (gapped [some 0, some 1]) (gapped [some 3, none, some 0]) none none none = .ok (some ⊤) :=
  (C115_dtw_second _ _ 1 _ _ seen_gap' (by simp [HasMissing, RowMissing, observed]) (by simp [HasMissing, RowMissing])).2 (by simp [RowMissing])
example : nanFrechetSq .numpy (gapped [some 0, some 1]) (gapped [some 3, none, some 0]) none none none = .ok (some ⊤) :=
  (C115_frechet_second _ _ 1 _ _ seen_gap' (by simp [HasMissing, RowMissing, observed]) (by simp [HasMissing, RowMissing])).2 (by simp [RowMissing])
example : nanDtwSq .pytorch (gapped [some 0, some 1]) (gapped [some 3, none, some 0]) none none none = .ok none :=
  (C115_torch _ _ 1 _ _ seen_gap' (.inr (by simp [HasMissing, RowMissing]))).1

/-- A missing last value of one of two features, which `to_time_series` keeps. -/
example : nanDtwSq .numpy (.twoD [[some 0, some 0]]) (.twoD [[some 0, some 0], [some 1, (none : Option ℤ)]]) none none none = .ok none :=
  (C115_dtw_second _ _ 2 [[some 0, some 0]] [[some 0, some 0], [some 1, none]]
    ⟨by decide +kernel, by decide +kernel, by simp, by simp, by simp [IsRect], by simp [IsRect]⟩
    (by simp [HasMissing, RowMissing]) (by simp [HasMissing, RowMissing])).1 (by simp [RowMissing])

/-- After the gap only `[0]` counts, against `[0, 1]` or `[1]`. -/
example : ∃ w : ℤ, nanFrechetSq .numpy (gapped [some 3, none, some 0]) (gapped [some 0, some 1]) none none none = .ok (some (w : WithTop ℤ)) ∧
    IsLeast {c | ∃ a < 2, ∃ p, IsWarpingPath 1 (2 - a) p ∧ IsMaxCost (sampleCost [[(0 : ℤ)]] ([[0], [1]].drop a)) p c} w :=
  C115_frechet_first _ _ 1 [[some 3]] [none] [[0]] [[0], [1]] (by simp) seen_gap (by simp [RowMissing])

/-- A band under which the result is not a number, with the path. -/
example : ∃ p, nanDtwPath (gapped [some 3, none, some 0]) (gapped [some 0, some 1]) (some "sakoe_chiba") (some 1) none (fun _ _ _ => 2) = .ok (some p, none) ∧
    IsWarpingPath 3 2 p :=
  C115_path _ _ 1 _ _ seen_gap _ _ _ _ none (by decide +kernel)

example : nanDtwSq .numpy (gapped [some 3, some 0]) (gapped [some 0, some 1]) none none none =
    (dtwSq (gapped [some 3, some 0]) (gapped [some 0, some 1]) none none none).map some :=
  (C115_agrees _ _ 1 [[3], [0]] [[0], [1]]
    ⟨by decide +kernel, by decide +kernel, by simp [observed], by simp [observed], by simp [IsRect, observed], by simp [IsRect, observed]⟩ _ _ _).1

/-- Real series with a gap, and what is left without it. -/
theorem seen_real : Seen (.oneD [some 3, none, some 0]) (.oneD [some 0, some 1]) 1 [[some 3], [none], [some 0]] [[some (0 : ℝ)], [some 1]] :=
  ⟨by rfl, by rfl, by simp, by simp, by simp [IsRect], by simp [IsRect]⟩

theorem seen_left : Seen (.oneD [some 3, some 0]) (.oneD [some 0, some 1]) 1 [[some 3], [some 0]] [[some (0 : ℝ)], [some 1]] :=
  ⟨by rfl, by rfl, by simp, by simp, by simp [IsRect], by simp [IsRect]⟩

example : nanSoftDtw .numpy (.oneD [some 3, none, some 0]) (.oneD [some 0, some 1]) 1 none none none = .ok .nan :=
  (C115_soft .numpy _ _ 1 _ _ seen_real (.inl (by simp [HasMissing, RowMissing])) 1 one_pos).2
example : nanGak (.oneD [some 3, none, some 0]) (.oneD [some 0, some 1]) 2 = .ok none :=
  C115_gak _ _ 1 _ _ seen_real (.inl (by simp [HasMissing, RowMissing])) 2 two_ne_zero
example : ∃ c : ℕ, nanLcss (.oneD [some 3, none, some 0]) (.oneD [some 0, some 1]) 1 = .ok ((c : ℝ) / ((min 3 2 : ℕ) : ℝ)) ∧
    nanLcss (.oneD [some 3, some 0]) (.oneD [some 0, some 1]) 1 = .ok ((c : ℝ) / ((min 2 2 : ℕ) : ℝ)) :=
  (C115_lcss _ _ _ 1 [[some 3]] [[some 0]] [none] _ (by simp [RowMissing]) 1).1 seen_real seen_left

/-- A series of which `to_time_series(remove_nans=True)` leaves nothing (all its values are NaN), or
series of different numbers of features, are refused with a `ValueError`, whatever the other arguments. -/
theorem C115_rejects {K : Type} [LinearOrder K] [Zero K] [Add K] [Sub K] [Mul K] (s1 s2 : TsInput (Option K)) (t1 t2 : TsInput (Option ℝ))
    (h : toTimeSeries s1 true = [] ∨ toTimeSeries s2 true = [] ∨ nFeatures (toTimeSeries s1 true) ≠ nFeatures (toTimeSeries s2 true))
    (ht : toTimeSeries t1 true = [] ∨ toTimeSeries t2 true = [] ∨ nFeatures (toTimeSeries t1 true) ≠ nFeatures (toTimeSeries t2 true))
    (be : Backend) (gc : Option String) (radius : Option ℕ) (slope : Option ℚ) (am : Nv K → Nv K → Nv K → ℕ) (γ : ℝ) :
    nanDtwSq be s1 s2 gc radius slope = .error .valueError ∧ nanFrechetSq be s1 s2 gc radius slope = .error .valueError ∧
      nanDtwPath s1 s2 gc radius slope am = .error .valueError ∧ nanSoftDtw be t1 t2 γ gc radius slope = .error .valueError := by
  have key : ∀ {A : Type} (a b : TsInput (Option A)),
      (toTimeSeries a true = [] ∨ toTimeSeries b true = [] ∨ nFeatures (toTimeSeries a true) ≠ nFeatures (toTimeSeries b true)) →
      validateNan a b gc = .error .valueError := by
    intro A a b h
    unfold validateNan
    by_cases he : (toTimeSeries a true).length = 0 ∨ (toTimeSeries b true).length = 0
    · simp only [if_pos he]
      rfl
    · have hf : nFeatures (toTimeSeries a true) ≠ nFeatures (toTimeSeries b true) := by
        rcases h with h | h | h
        · exact absurd (.inl (by rw [h]; rfl)) he
        · exact absurd (.inr (by rw [h]; rfl)) he
        · exact h
      simp only [if_neg he, if_pos hf]
      rfl
  refine ⟨?_, ?_, ?_, ?_⟩
  · unfold nanDtwSq; rw [key _ _ h]; rfl
  · unfold nanFrechetSq; rw [key _ _ h]; rfl
  · unfold nanDtwPath; rw [key _ _ h]; rfl
  · unfold nanSoftDtw; rw [key _ _ ht]; rfl

/-- A series of NaN only, and series of one and two features with a gap. -/
example : nanDtwSq .numpy (.oneD [none, none]) (.oneD [some (0 : ℤ), none, some 1]) (some "itakura") none none = .error .valueError ∧
    nanSoftDtw .numpy (.oneD [some 3, none, some 0]) (.twoD [[some 0, none], [some 1, some 2]]) 1 none none none = .error .valueError :=
  have h := C115_rejects (.oneD [none, none]) (.oneD [some (0 : ℤ), none, some 1]) (.oneD [some 3, none, some 0]) (.twoD [[some 0, none], [some 1, some 2]])
    (.inl (by rfl)) (.inr (.inr (by
      rw [show toTimeSeries (.oneD [some (3 : ℝ), none, some 0]) true = [[some 3], [none], [some 0]] from by rfl,
        show toTimeSeries (.twoD [[some (0 : ℝ), none], [some 1, some 2]]) true = [[some 0, none], [some 1, some 2]] from by rfl]
      decide))) .numpy
  ⟨(h (some "itakura") none none (fun _ _ _ => 0) 1).1, (h none none none (fun _ _ _ => 0) 1).2.2.2⟩

end Verif
