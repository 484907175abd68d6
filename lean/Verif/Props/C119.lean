import Verif.Model.GapSearch
import Verif.Props.C08
import Verif.Props.C13
import Verif.Props.C14
import Verif.Props.C115
/-!
# C119 — searching a series with gaps
-/
set_option linter.unusedSectionVars false
set_option linter.unusedVariables false
namespace Verif
open Spec

section
variable {K : Type} [CommRing K] [LinearOrder K] [IsStrictOrderedRing K]

theorem gapSubseq_isDP (l1 l2 : ℕ) (D : Mat (Nv K)) : ∃ M : Mat (Nv K), M.tail = gapSubseqCost l1 l2 D ∧
    IsDP l1 l2 (fun _ _ => true) (fun i j up left diag => nvAdd (D i j) (pyMin (pyMin up left) diag))
      (fun i _ => if i = 0 then some 0 else some ⊤) M :=
  ⟨_, rfl, dpLoop_isDP _ _ _ _ _⟩

theorem pyMin_ne_nan {a b : Nv K} (ha : a ≠ none) : pyMin a b ≠ none := by
  cases a with
  | none => exact absurd rfl ha
  | some a => cases b with
    | none => simp [pyMin, nvLt]
    | some b => rw [pyMin_some]; simp

/-- `inf` or NaN stand for no path. -/
def Stands (v : Nv K) (w : WithTop K) : Prop := v = some w ∨ (v = none ∧ w = ⊤)

theorem pyMin_stands {u : WithTop K} {v : Nv K} {w : WithTop K} (h : Stands v w) : pyMin (some u) v = some (min u w) := by
  rcases h with rfl | ⟨rfl, rfl⟩
  · exact pyMin_some _ _
  · simp [pyMin, nvLt]

/-- The table is NaN below a gap of the query and at a gap of the reference, and nowhere else. -/
theorem gapSubseq_nan {d : ℕ} {q x : List (List (Option K))} (hq : IsRect d q) (hx : IsRect d x) {i j : ℕ} (hi : i < q.length) (hj : j < x.length) :
    gapSubseqCost q.length x.length (nanCost q x) i j = none ↔ (∃ r ≤ i, RowMissing (q.getD r [])) ∨ RowMissing (x.getD j []) := by
  obtain ⟨M, hM, hd⟩ := gapSubseq_isDP q.length x.length (nanCost q x)
  rw [← hM]
  show M (i + 1) (j + 1) = none ↔ _
  constructor
  · intro h
    by_contra hc
    rw [not_or] at hc
    obtain ⟨h1, h2⟩ := hc
    have : ∀ k, k ≤ i + 1 → M k (j + 1) ≠ none := by
      intro k
      induction k with
      | zero => intro _; rw [hd.row0]; simp
      | succ k ih =>
        intro hk
        rw [hd.body k j (by omega) hj, if_pos rfl]
        have hp : pyMin (pyMin (M k (j + 1)) (M (k + 1) j)) (M k j) ≠ none := pyMin_ne_nan (pyMin_ne_nan (ih (by omega)))
        obtain ⟨c, hc⟩ := nanCost_number (fun hr => h1 ⟨k, by omega, hr⟩) h2
        obtain ⟨w, hw⟩ := Option.ne_none_iff_exists'.1 hp
        rw [hc, hw]
        simp [nvAdd]
    exact this _ le_rfl h
  · rintro (⟨r, hr, hm⟩ | hm)
    · refine hd.from_up (· = none) (r := r) (by omega) ?_ ?_ (i + 1) (j + 1) (by omega) (by omega) (by omega) (by omega)
      · intro k hk a b c
        show nvAdd (nanCost q x r k) _ = none
        rw [nanCost_nan hq hx (by omega) hk (.inl hm), nvAdd_nan_left]
      · rintro a b _ c e rfl
        show nvAdd _ (pyMin (pyMin none c) e) = none
        rw [pyMin_nan, pyMin_nan, nvAdd_nan_right]
    · rw [hd.body i j hi hj, if_pos rfl, nanCost_nan hq hx hi hj (.inr hm), nvAdd_nan_left]

/-- Going straight up. -/
theorem subseqPathLoop_column {C : Type} (am : C → C → C → ℕ) (acc : Mat C) (t : ℕ) : ∀ (i fuel : ℕ) (rest : List (ℕ × ℕ)), i < fuel →
    (t ≠ 0 → ∀ k, k < i → am (acc k (t - 1)) (acc k t) (acc (k + 1) (t - 1)) = 1) →
    subseqPathLoop am acc fuel (i, t) rest = some (((List.range (i + 1)).map fun k => (k, t)) ++ rest) := by
  intro i
  induction i with
  | zero =>
    intro fuel rest hf _
    obtain ⟨fuel, rfl⟩ : ∃ f, fuel = f + 1 := ⟨fuel - 1, by omega⟩
    simp [subseqPathLoop]
  | succ i ih =>
    intro fuel rest hf h
    obtain ⟨fuel, rfl⟩ : ∃ f, fuel = f + 1 := ⟨fuel - 1, by omega⟩
    have e : pathNext am acc (i + 1) t = (i, t) := by
      unfold pathNext
      by_cases ht : t = 0
      · simp [ht]
      · simp [ht, h ht i (by omega)]
    have hs : subseqPathLoop am acc (fuel + 1) (i + 1, t) rest = subseqPathLoop am acc fuel (pathNext am acc (i + 1) t) ((i + 1, t) :: rest) := by
      simp [subseqPathLoop]
    rw [hs, e, ih fuel _ (by omega) (fun ht k hk => h ht k (by omega)), List.range_succ (n := i + 1)]
    simp

theorem Seen.gapMatrix {s1 s2 : TsInput (Option K)} {d q x} (h : Seen s1 s2 d q x) :
    gapSubsequenceCostMatrix s1 s2 = .ok (q.length, x.length, gapSubseqCost q.length x.length (nanCost q x)) := by
  unfold gapSubsequenceCostMatrix
  simp only [h.first, h.second, h.features]
  rw [if_neg (by simp)]

theorem Seen.gapSearch {s1 s2 : TsInput (Option K)} {d q x} (h : Seen s1 s2 d q x) (am aml) :
    gapSubsequencePath am aml s1 s2 =
      .ok (subsequencePath am (gapSubseqCost q.length x.length (nanCost q x)) q.length
        (aml ((List.range x.length).map fun j => gapSubseqCost q.length x.length (nanCost q x) (q.length - 1) j)) (q.length + x.length),
        ((List.range x.length).map fun j => gapSubseqCost q.length x.length (nanCost q x) (q.length - 1) j).getD
          (aml ((List.range x.length).map fun j => gapSubseqCost q.length x.length (nanCost q x) (q.length - 1) j)) none) := by
  unfold gapSubsequencePath
  rw [h.gapMatrix]
  have h1 := h.pos1
  have h2 := h.pos2
  simp only [bind, Except.bind]
  rw [if_neg (by omega), if_neg (by omega)]
  rfl

/-- Where `subsequence_cost_matrix` is NaN: at and below the first gap of the query, and at every gap of the reference. -/
theorem C119_matrix (s1 s2 : TsInput (Option K)) (d : ℕ) (q x : List (List (Option K))) (h : Seen s1 s2 d q x) :
    ∃ acc, gapSubsequenceCostMatrix s1 s2 = .ok (q.length, x.length, acc) ∧ ∀ i j, i < q.length → j < x.length →
      (acc i j = none ↔ (∃ r ≤ i, RowMissing (q.getD r [])) ∨ RowMissing (x.getD j [])) :=
  ⟨_, h.gapMatrix, fun _ _ hi hj => gapSubseq_nan h.arr1 h.arr2 hi hj⟩

/-- With a gap in the query `dtw_subsequence_path` returns NaN whatever the backend's argmin; NumPy's path aligns the whole query with the first sample. -/
theorem C119_query (s1 s2 : TsInput (Option K)) (d : ℕ) (q x : List (List (Option K))) (h : Seen s1 s2 d q x) (hg : HasMissing q) :
    (∀ am aml, ∃ p, gapSubsequencePath am aml s1 s2 = .ok (p, none)) ∧
    gapSubsequencePath nanArgmin3 nanArgmin s1 s2 = .ok (some ((List.range q.length).map fun i => (i, 0)), none) := by
  have h1 := h.pos1
  have h2 := h.pos2
  obtain ⟨r, hr, hm⟩ := missing_index hg
  have hrow : ((List.range x.length).map fun j => gapSubseqCost q.length x.length (nanCost q x) (q.length - 1) j) = List.replicate x.length none := by
    rw [List.eq_replicate_iff]
    refine ⟨by simp, ?_⟩
    simp only [List.mem_map, List.mem_range]
    rintro b ⟨j, hj, rfl⟩
    exact (gapSubseq_nan h.arr1 h.arr2 (by omega) hj).2 (.inl ⟨r, by omega, hm⟩)
  have hv : ∀ k, (List.replicate x.length (none : Nv K)).getD k none = none := by
    intro k
    rw [List.getD_eq_getElem?_getD, List.getElem?_replicate]
    split <;> rfl
  have ha : nanArgmin (List.replicate x.length (none : Nv K)) = 0 := by
    obtain ⟨m, hm⟩ : ∃ m, x.length = m + 1 := ⟨x.length - 1, by omega⟩
    rw [hm]
    simp [nanArgmin, List.replicate_succ, List.findIdx_cons]
  constructor
  · intro am aml
    exact ⟨_, by rw [h.gapSearch, hrow, hv]⟩
  · rw [h.gapSearch, hrow, hv, ha]
    unfold subsequencePath
    rw [subseqPathLoop_column _ _ 0 (q.length - 1) _ [] (by omega) (fun h => absurd rfl h), show q.length - 1 + 1 = q.length by omega,
      List.append_nil]

/-- With a complete query and a gap in the reference, the value is NaN for every argmin that answers NaN where there is one; NumPy's path aligns the whole
query with the first sample that has a missing value. -/
theorem C119_reference (s1 s2 : TsInput (Option K)) (d : ℕ) (q x : List (List (Option K))) (h : Seen s1 s2 d q x) (hq : ¬ HasMissing q) (t : ℕ)
    (ht : t < x.length) (hm : RowMissing (x.getD t [])) (hfirst : ∀ j < t, ¬ RowMissing (x.getD j [])) :
    (∀ am aml, (∀ l : List (Nv K), none ∈ l → l.getD (aml l) none = none) → ∃ p, gapSubsequencePath am aml s1 s2 = .ok (p, none)) ∧
    gapSubsequencePath nanArgmin3 nanArgmin s1 s2 = .ok (some ((List.range q.length).map fun i => (i, t)), none) := by
  have h1 := h.pos1
  have h2 := h.pos2
  have hn : ∀ i j, i < q.length → j < x.length → (gapSubseqCost q.length x.length (nanCost q x) i j = none ↔ RowMissing (x.getD j [])) := by
    intro i j hi hj
    rw [gapSubseq_nan h.arr1 h.arr2 hi hj]
    constructor
    · rintro (⟨r, hr, hmr⟩ | h)
      · exact absurd ⟨_, by rw [List.getD_eq_getElem _ _ (by omega : r < q.length)]; exact List.getElem_mem _, hmr⟩ hq
      · exact h
    · exact .inr
  set acc := gapSubseqCost q.length x.length (nanCost q x) with hacc
  set row := (List.range x.length).map fun j => acc (q.length - 1) j with hrow
  have hget : ∀ j (hj : j < row.length), row[j] = acc (q.length - 1) j := by intro j hj; simp [hrow]
  have hlen : row.length = x.length := by simp [hrow]
  have hmem : none ∈ row := List.mem_map.2 ⟨t, by simpa using ht, (hn _ t (by omega) ht).2 hm⟩
  constructor
  · intro am aml haml
    exact ⟨_, by rw [h.gapSearch, ← hacc, ← hrow, haml _ hmem]⟩
  · have hidx : nanArgmin row = t := by
      unfold nanArgmin
      rw [if_pos (List.any_eq_true.2 ⟨none, hmem, rfl⟩), List.findIdx_eq (by omega)]
      refine ⟨?_, fun j hj => ?_⟩
      · rw [hget, (hn _ t (by omega) ht).2 hm]; rfl
      · have : acc (q.length - 1) j ≠ none := fun hc => hfirst j hj ((hn _ j (by omega) (by omega)).1 hc)
        rw [hget]
        obtain ⟨w, hw⟩ := Option.ne_none_iff_exists'.1 this
        rw [hw]; rfl
    rw [h.gapSearch, ← hacc, ← hrow, hidx]
    congr 2
    · unfold subsequencePath
      rw [subseqPathLoop_column _ _ t (q.length - 1) _ [] (by omega) ?_, show q.length - 1 + 1 = q.length by omega, List.append_nil]
      intro ht0 k hk
      have e1 : acc k (t - 1) ≠ none := fun hc => hfirst (t - 1) (by omega) ((hn k (t - 1) (by omega) (by omega)).1 hc)
      obtain ⟨w, hw⟩ := Option.ne_none_iff_exists'.1 e1
      rw [hw, (hn k t (by omega) ht).2 hm]
      simp [nanArgmin3, nanArgmin, List.findIdx_cons]
    · rw [List.getD_eq_getElem _ _ (by omega), hget, (hn _ t (by omega) ht).2 hm]

/-- Each entry of a complete reference is the least DTW between the query and a window ending there. -/
theorem subseq_end (q x : List (List K)) (hq : q ≠ []) (j : ℕ) (hj : j < x.length) :
    (∃ a ≤ j, dtwSqGeneric q (window x a j) 0 none none = .ok (subseqCost q.length x.length (localCost q x) (q.length - 1) j)) ∧
    ∀ a ≤ j, ∀ v, dtwSqGeneric q (window x a j) 0 none none = .ok v → subseqCost q.length x.length (localCost q x) (q.length - 1) j ≤ v := by
  have hq' := List.length_pos_iff.2 hq
  have hD : ∀ i j, 0 ≤ localCost q x i j := by rw [localCost_eq]; exact sampleCost_nonneg q x
  have hne : ∀ a ≤ j, window x a j ≠ [] := by
    intro a ha h
    have := window_length x a j ha hj
    rw [h] at this
    simp at this
    omega
  have hlow : ∀ a ≤ j, ∀ v, dtwSqGeneric q (window x a j) 0 none none = .ok v →
      subseqCost q.length x.length (localCost q x) (q.length - 1) j ≤ v := by
    intro a ha v hv
    obtain ⟨w, hw, hleast⟩ := dtw_least q (window x a j) hq (hne a ha)
    rw [hv] at hw
    cases hw
    obtain ⟨p, hp, rfl⟩ := hleast.1
    obtain ⟨i, k, hi, hk, hwp⟩ := isWarpingPath_iff.1 hp
    rw [window_length x a j ha hj] at hk
    obtain rfl : i = q.length - 1 := by omega
    have hfree : WP true (p.map (shift a)) (q.length - 1) j := WP.free_iff.2 ⟨a, p, k, by omega, hwp, rfl⟩
    rw [sumCost_window q x a j p (fun c hc => by have := (hwp.mem_le c hc).2; omega), ← localCost_eq]
    exact subseqCost_le (by omega) hj hfree
  refine ⟨?_, hlow⟩
  obtain ⟨M, hMt, hM⟩ := subseq_isDP q.length x.length (localCost q x)
  obtain ⟨p', hp', hc', -⟩ := subseq_traceback hD hM (am := argmin3) (by
    intro a b c
    unfold argmin3
    by_cases h : a ≤ b ∧ a ≤ c
    · exact .inl ⟨by simp [h], h⟩
    · by_cases h' : b ≤ c
      · refine .inr (.inl ⟨by simp [h, h'], ?_, h'⟩)
        rcases le_total a b with hab | hab
        · exact absurd ⟨hab, hab.trans h'⟩ h
        · exact hab
      · refine .inr (.inr ⟨by simp [h, h'], ?_, (le_total b c).resolve_left h'⟩)
        have hcb := (le_total b c).resolve_left h'
        rcases le_total a c with hac | hac
        · exact absurd ⟨hac.trans hcb, hac⟩ h
        · exact hac) (q.length - 1 + j) (q.length - 1) j (q.length + x.length) [] rfl (by omega) (by omega) hj
  obtain ⟨a, p, k, hk, hwp, rfl⟩ := WP.free_iff.1 hp'
  refine ⟨a, by omega, ?_⟩
  obtain ⟨w, hw, hleast⟩ := dtw_least q (window x a j) hq (hne a (by omega))
  have hwl := window_length x a j (by omega) hj
  have hpw : IsWarpingPath q.length (window x a j).length p := isWarpingPath_iff.2 ⟨q.length - 1, k, by omega, by omega, hwp⟩
  have hcost : ((sumCost (sampleCost q (window x a j)) p : K) : WithTop K) = subseqCost q.length x.length (localCost q x) (q.length - 1) j := by
    rw [sumCost_window q x a _ p (fun c hc => by have := (hwp.mem_le c hc).2; omega), ← localCost_eq, hc', ← hMt]
    rfl
  have h1 := hlow a (by omega) _ hw
  have h2 : (w : WithTop K) ≤ subseqCost q.length x.length (localCost q x) (q.length - 1) j := by
    rw [← hcost, WithTop.coe_le_coe]
    exact hleast.2 ⟨p, hpw, rfl⟩
  rw [hw, le_antisymm h2 h1]

/-- After a gap the search starts afresh. -/
theorem gapSubseq_segment {d : ℕ} {q : List (List K)} {x : List (List (Option K))} (hq : IsRect d (observed q)) (hx : IsRect d x) (a : ℕ)
    (seg : List (List K)) (hseg : ∀ j < seg.length, x.getD (a + j) [] = (seg.getD j []).map some) (hl : a + seg.length ≤ x.length)
    (hstart : a = 0 ∨ RowMissing (x.getD (a - 1) [])) (i j : ℕ) (hi : i < q.length) (hj : j < seg.length) :
    gapSubseqCost (observed q).length x.length (nanCost (observed q) x) i (a + j) = some (subseqCost q.length seg.length (localCost q seg) i j) := by
  rw [observed_length]
  obtain ⟨M, hM, hd⟩ := gapSubseq_isDP q.length x.length (nanCost (observed q) x)
  obtain ⟨N, hN, hn⟩ := subseq_isDP q.length seg.length (localCost q seg)
  rw [← hM, ← hN]
  have hD : ∀ i j, j < seg.length → nanCost (observed q) x i (a + j) = some ((localCost q seg i j : K) : WithTop K) := by
    intro i j hj
    unfold nanCost localCost
    rw [observed_getD, hseg j hj, gapSqDist_some]
    rfl
  have key : ∀ i ≤ q.length, ∀ j ≤ seg.length, Stands (M i (a + j)) (N i j) ∧ (1 ≤ j → M i (a + j) = some (N i j)) := by
    intro i
    induction i with
    | zero =>
      intro _ j _
      have e : M 0 (a + j) = some (N 0 j) := by rw [hd.row0, hn.row0]; simp [dpInit]
      exact ⟨.inl e, fun _ => e⟩
    | succ i ih =>
      intro hi j
      induction j with
      | zero =>
        intro _
        refine ⟨?_, fun h => by omega⟩
        rw [hn.col0]
        have e : (dpInit 0 true : Mat (WithTop K)) (i + 1) 0 = ⊤ := by simp [dpInit]
        rw [e, Nat.add_zero]
        rcases Nat.eq_zero_or_pos a with ha | ha
        · left; rw [ha, hd.col0]; simp
        · right
          refine ⟨?_, rfl⟩
          rcases hstart with h | h
          · omega
          · obtain ⟨b, rfl⟩ : ∃ b, a = b + 1 := ⟨a - 1, by omega⟩
            rw [Nat.add_sub_cancel] at h
            rw [hd.body i b (by omega) (by omega), if_pos rfl,
              nanCost_nan hq hx (by rw [observed_length]; omega) (by omega) (.inr h), nvAdd_nan_left]
      | succ j ihj =>
        intro hj
        have e : M (i + 1) (a + (j + 1)) = some (N (i + 1) (j + 1)) := by
          rw [show a + (j + 1) = a + j + 1 by omega, hd.body i (a + j) (by omega) (by omega), if_pos rfl, hD i j (by omega),
            show a + j + 1 = a + (j + 1) by omega, (ih (by omega) (j + 1) hj).2 (by omega), pyMin_stands (ihj (by omega)).1,
            pyMin_stands (ih (by omega) j (by omega)).1, hn.body i j (by omega) (by omega)]
          rfl
        exact ⟨.inl e, fun _ => e⟩
  exact (key (i + 1) (by omega) (j + 1) (by omega)).2 (by omega)

theorem window_getD {α : Type} (x : List (List α)) (a b k : ℕ) (hb : b < x.length) (hk : a + k ≤ b) : (window x a b).getD k [] = x.getD (a + k) [] := by
  simp only [window, List.getD_eq_getElem?_getD]
  rw [List.getElem?_take_of_lt (by omega), List.getElem?_drop]

theorem rows_observed (y : List (List (Option K))) (h : ∀ k < y.length, ¬ RowMissing (y.getD k [])) : ∃ u : List (List K), y = observed u := by
  induction y with
  | nil => exact ⟨[], rfl⟩
  | cons r y ih =>
    obtain ⟨u, hu⟩ := row_numbers r (by simpa using h 0 (by simp))
    obtain ⟨v, hv⟩ := ih (fun k hk => by simpa using h (k + 1) (by simpa using hk))
    exact ⟨u :: v, by rw [hu, hv]; rfl⟩

theorem observed_not_missing (u : List (List K)) (k : ℕ) : ¬ RowMissing ((observed u).getD k []) := by
  rw [observed_getD]
  simp [RowMissing]

theorem window_observed (u : List (List K)) (a b : ℕ) : window (observed u) a b = observed (window u a b) := by
  simp [window, observed, List.map_drop, List.map_take]

theorem window_window {α : Type} (x : List α) (a a' j : ℕ) (h : a + a' ≤ j) : window (window x a j) a' (j - a) = window x (a + a') j := by
  unfold window
  rw [List.drop_take, List.drop_drop, List.take_take]
  congr 1
  omega

theorem observed_cancel {u v : List (List K)} (h : observed u = observed v) : u = v := by
  have := congrArg denan h
  rw [denan_observed, denan_observed] at this
  exact Option.some.inj this

/-- The last row of `subsequence_cost_matrix` for a complete query, at a fully observed sample `j` of the reference: the least (squared) DTW between the
query and a window without missing values that ends at `j`. -/
theorem C119_end (s1 s2 : TsInput (Option K)) (d : ℕ) (q : List (List K)) (x : List (List (Option K))) (h : Seen s1 s2 d (observed q) x) (j : ℕ)
    (hj : j < x.length) (hobs : ¬ RowMissing (x.getD j [])) :
    ∃ acc v, gapSubsequenceCostMatrix s1 s2 = .ok (q.length, x.length, acc) ∧ acc (q.length - 1) j = some v ∧
      (∃ a ≤ j, ∃ w, window x a j = observed w ∧ dtwSqGeneric q w 0 none none = .ok v) ∧
      ∀ a ≤ j, ∀ w, window x a j = observed w → ∀ v', dtwSqGeneric q w 0 none none = .ok v' → v ≤ v' := by
  have h1 := h.pos1
  rw [observed_length] at h1
  have hq : q ≠ [] := List.length_pos_iff.1 h1
  -- the last gap before `j`
  obtain ⟨a, haj, hrows, hstart⟩ : ∃ a ≤ j, (∀ k, a ≤ k → k ≤ j → ¬ RowMissing (x.getD k [])) ∧ (a = 0 ∨ RowMissing (x.getD (a - 1) [])) := by
    have : ∀ n ≤ j, ∃ a ≤ j, (∀ k, a ≤ k → k ≤ j → ¬ RowMissing (x.getD k [])) ∧ (a = j - n ∨ 0 < a ∧ RowMissing (x.getD (a - 1) [])) := by
      intro n
      induction n with
      | zero => intro _; exact ⟨j, le_rfl, fun k h1 h2 => by rwa [show k = j by omega], .inl (by omega)⟩
      | succ n ih =>
        intro hn
        obtain ⟨a, h1, h2, h3⟩ := ih (by omega)
        rcases h3 with rfl | h3
        · by_cases hm : RowMissing (x.getD (j - (n + 1)) [])
          · exact ⟨j - n, h1, h2, .inr ⟨by omega, by rwa [show j - n - 1 = j - (n + 1) by omega]⟩⟩
          · refine ⟨j - (n + 1), by omega, fun k hk1 hk2 => ?_, .inl rfl⟩
            rcases Nat.eq_or_lt_of_le hk1 with e | e
            · rwa [← e]
            · exact h2 k (by omega) hk2
        · exact ⟨a, h1, h2, .inr h3⟩
    obtain ⟨a, h1, h2, h3⟩ := this j le_rfl
    exact ⟨a, h1, h2, h3.imp (fun h => by omega) (fun h => h.2)⟩
  have hwl := window_length x a j haj hj
  obtain ⟨seg, hseg⟩ := rows_observed (window x a j) (fun k hk => by
    rw [window_getD x a j k hj (by omega)]
    exact hrows _ (by omega) (by omega))
  have hsl : seg.length = j + 1 - a := by rw [← hwl, hseg, observed_length]
  have hcell := gapSubseq_segment h.arr1 h.arr2 a seg (fun k hk => by
    rw [← observed_getD, ← hseg, window_getD x a j k hj (by omega)]) (by omega) hstart (q.length - 1) (j - a) (by omega) (by omega)
  rw [show a + (j - a) = j by omega] at hcell
  obtain ⟨⟨b, hb, hbv⟩, hlow⟩ := subseq_end q seg hq (j - a) (by omega)
  have hg := h.gapMatrix
  rw [observed_length] at hg hcell
  refine ⟨_, _, hg, hcell, ⟨a + b, by omega, window seg b (j - a), ?_, hbv⟩, ?_⟩
  · rw [← window_observed, ← hseg, window_window x a b j (by omega)]
  · intro c hc w hw v' hv'
    have hac : a ≤ c := by
      by_contra hlt
      rcases hstart with h0 | h0
      · omega
      · have := observed_not_missing w (a - 1 - c)
        rw [← hw, window_getD x c j _ hj (by omega), show c + (a - 1 - c) = a - 1 by omega] at this
        exact this h0
    refine hlow (c - a) (by omega) v' ?_
    have e : observed (window seg (c - a) (j - a)) = observed w := by
      rw [← window_observed, ← hseg, window_window x a (c - a) j (by omega), ← hw, show a + (c - a) = c by omega]
    rwa [observed_cancel e]

/-- Taking the smallest number of the last row, NaN left aside, does find the best window without missing values. -/
theorem C119_best (s1 s2 : TsInput (Option K)) (d : ℕ) (q : List (List K)) (x : List (List (Option K))) (h : Seen s1 s2 d (observed q) x)
    (acc : Mat (Nv K)) (hacc : gapSubsequenceCostMatrix s1 s2 = .ok (q.length, x.length, acc)) (j : ℕ) (hj : j < x.length) (v : WithTop K)
    (hv : acc (q.length - 1) j = some v) (hmin : ∀ k < x.length, ∀ v', acc (q.length - 1) k = some v' → v ≤ v') :
    (∃ a ≤ j, ∃ w, window x a j = observed w ∧ dtwSqGeneric q w 0 none none = .ok v) ∧
    ∀ a b, a ≤ b → b < x.length → ∀ w, window x a b = observed w → ∀ v', dtwSqGeneric q w 0 none none = .ok v' → v ≤ v' := by
  have h1 := h.pos1
  rw [observed_length] at h1
  have hn : ∀ k < x.length, acc (q.length - 1) k = none ↔ RowMissing (x.getD k []) := by
    intro k hk
    obtain ⟨acc', hacc', hi⟩ := C119_matrix s1 s2 d _ x h
    rw [observed_length] at hacc' hi
    rw [hacc] at hacc'
    cases hacc'
    rw [hi (q.length - 1) k (by omega) hk]
    constructor
    · rintro (⟨r, -, hr⟩ | h)
      · exact absurd hr (observed_not_missing q r)
      · exact h
    · exact .inr
  have hend : ∀ k < x.length, ¬ RowMissing (x.getD k []) → ∃ v, acc (q.length - 1) k = some v ∧
      (∃ a ≤ k, ∃ w, window x a k = observed w ∧ dtwSqGeneric q w 0 none none = .ok v) ∧
      ∀ a ≤ k, ∀ w, window x a k = observed w → ∀ v', dtwSqGeneric q w 0 none none = .ok v' → v ≤ v' := by
    intro k hk hm
    obtain ⟨acc', v, hacc', h2, h3⟩ := C119_end s1 s2 d q x h k hk hm
    rw [hacc] at hacc'
    cases hacc'
    exact ⟨v, h2, h3⟩
  constructor
  · obtain ⟨v', e, h3, -⟩ := hend j hj (fun hm => by rw [(hn j hj).2 hm] at hv; cases hv)
    rw [hv] at e
    cases e
    exact h3
  · intro a b hab hb w hw v' hv'
    have hm : ¬ RowMissing (x.getD b []) := by
      have := observed_not_missing w (b - a)
      rwa [← hw, window_getD x a b _ hb (by omega), show a + (b - a) = b by omega] at this
    obtain ⟨u, e, -, hl⟩ := hend b hb hm
    exact (hmin b hb u e).trans (hl a hab w hw v' hv')

theorem nanArgmin3_some (a b c : WithTop K) : nanArgmin3 (some a) (some b) (some c) = argmin3 a b c := by
  unfold nanArgmin3 nanArgmin argmin3
  simp only [List.any_cons, Option.isNone_some, List.any_nil, Bool.or_self, Bool.false_eq_true, if_false, List.map_cons, Option.getD_some, List.map_nil,
    argminL]
  by_cases hcb : c < b
  · by_cases hca : c < a
    · have h1 : ¬ (a ≤ b ∧ a ≤ c) := fun h => absurd h.2 (not_le.2 hca)
      simp [hcb, hca, h1, not_le.2 hcb]
    · have h1 : a ≤ b ∧ a ≤ c := ⟨(not_lt.1 hca).trans hcb.le, not_lt.1 hca⟩
      simp [hcb, hca, h1]
  · by_cases hba : b < a
    · have h1 : ¬ (a ≤ b ∧ a ≤ c) := fun h => absurd h.1 (not_le.2 hba)
      simp [hcb, hba, h1, not_lt.1 hcb]
    · have h1 : a ≤ b ∧ a ≤ c := ⟨not_lt.1 hba, (not_lt.1 hba).trans (not_lt.1 hcb)⟩
      simp [hcb, hba, h1]

theorem subseqPathLoop_some (n m : ℕ) (acc : Mat (WithTop K)) (acc' : Mat (Nv K)) (h : ∀ i j, i < n → j < m → acc' i j = some (acc i j)) :
    ∀ (fuel i j : ℕ) (rest : List (ℕ × ℕ)), i < n → j < m → subseqPathLoop nanArgmin3 acc' fuel (i, j) rest = subseqPathLoop argmin3 acc fuel (i, j) rest := by
  intro fuel
  induction fuel with
  | zero => intro i j rest _ _; rfl
  | succ fuel ih =>
    intro i j rest hi hj
    unfold subseqPathLoop
    by_cases h0 : i = 0
    · simp [h0]
    · have e : pathNext nanArgmin3 acc' i j = pathNext argmin3 acc i j := by
        unfold pathNext
        by_cases hj0 : j = 0
        · simp [h0, hj0]
        · rw [h _ _ (by omega : i - 1 < n) (by omega : j - 1 < m), h _ _ (by omega : i - 1 < n) hj, h _ _ hi (by omega : j - 1 < m), nanArgmin3_some]
      simp only [h0, if_false, e]
      have hlt : (pathNext argmin3 acc i j).1 < n ∧ (pathNext argmin3 acc i j).2 < m := by
        unfold pathNext
        simp only
        split_ifs <;> constructor <;> simp only <;> omega
      exact ih _ _ _ hlt.1 hlt.2

/-- On complete series this is the search of C13. -/
theorem C119_complete (s1 s2 : TsInput (Option K)) (d : ℕ) (q x : List (List K)) (h : Seen s1 s2 d (observed q) (observed x)) :
    gapSubsequencePath nanArgmin3 nanArgmin s1 s2 = (dtwSubsequencePath q x argmin3 argminL).map fun o => (o.1, some o.2) := by
  have h1 := h.pos1
  have h2 := h.pos2
  rw [observed_length] at h1 h2
  have hf : nFeatures q = nFeatures x := by
    have := h.features
    obtain ⟨a, q, rfl⟩ := List.exists_cons_of_length_pos h1
    obtain ⟨b, x, rfl⟩ := List.exists_cons_of_length_pos h2
    simpa [nFeatures, observed] using this
  have hcell : ∀ i j, i < q.length → j < x.length →
      gapSubseqCost q.length x.length (nanCost (observed q) (observed x)) i j = some (subseqCost q.length x.length (localCost q x) i j) := by
    intro i j hi hj
    have := gapSubseq_segment h.arr1 h.arr2 0 x (fun k hk => by rw [Nat.zero_add, observed_getD]) (by rw [observed_length]; omega) (.inl rfl) i j hi hj
    rwa [observed_length, observed_length, Nat.zero_add] at this
  rw [h.gapSearch, observed_length, observed_length]
  set acc := subseqCost q.length x.length (localCost q x) with hacc
  have hrow : ((List.range x.length).map fun j => gapSubseqCost q.length x.length (nanCost (observed q) (observed x)) (q.length - 1) j) =
      ((List.range x.length).map fun j => acc (q.length - 1) j).map some := by
    rw [List.map_map]
    apply List.map_congr_left
    intro j hj
    exact hcell _ j (by omega) (by simpa using hj)
  set row := (List.range x.length).map fun j => acc (q.length - 1) j with hr
  have ham : nanArgmin (row.map some) = argminL row := by
    unfold nanArgmin
    rw [if_neg (by simp), List.map_map]
    congr 1
    simp [Function.comp_def]
  have hrl : row.length = x.length := by simp [hr]
  have hb : argminL row < x.length := by
    rw [← hrl]
    have hne : row ≠ [] := List.length_pos_iff.1 (by omega)
    exact (argminL_isArgmin (C := WithTop K)).lt hne
  rw [hrow, ham]
  have e : dtwSubsequencePath q x argmin3 argminL = .ok (subsequencePath argmin3 acc q.length (argminL row) (q.length + x.length), row.getD (argminL row) ⊤) := by
    unfold dtwSubsequencePath
    rw [if_neg (List.length_pos_iff.1 h1), if_neg (List.length_pos_iff.1 h2), if_neg (by simp [hf])]
  rw [e]
  show _ = Except.ok (_, _)
  congr 2
  · unfold subsequencePath
    exact subseqPathLoop_some q.length x.length _ _ hcell _ _ _ _ (by omega) hb
  · rw [List.getD_eq_getElem _ _ (by simpa using hb.trans_eq hrl.symm), List.getD_eq_getElem _ _ (by omega), List.getElem_map]

/-! ## LB_Keogh -/

/-- Squared difference of two samples, nothing if one of them is missing. -/
def obsSq : Option K → Option K → K
  | some a, some b => (a - b) * (a - b)
  | _, _ => 0

theorem sampleList_none {α : Type} (w : List (Option α)) : w.mapM id = none ↔ none ∈ w := by
  induction w with
  | nil => simp
  | cons a w ih =>
    cases a with
    | none => simp
    | some a =>
      rw [List.mapM_cons]
      cases h : w.mapM id with
      | none => simp [ih.1 h]
      | some l =>
        have : none ∉ w := fun hc => by rw [ih.2 hc] at h; cases h
        simp [this]

theorem sampleList_mem {α : Type} : ∀ (w : List (Option α)) (l : List α), w.mapM id = some l → w = l.map some
  | [], l, h => by simp at h; simp [h]
  | none :: w, l, h => by simp at h
  | some a :: w, l, h => by
    rw [List.mapM_cons] at h
    cases hw : w.mapM id with
    | none => simp [hw] at h
    | some l' =>
      simp [hw] at h
      rw [← h, sampleList_mem w l' hw]
      rfl

/-- The window of an index. -/
theorem mem_gapWindow (col : List (Option K)) (r i : ℕ) (v : Option K) :
    v ∈ (col.drop (i - r)).take (min (i + r + 1) col.length - (i - r)) ↔ v ∈ Near col r i := by
  unfold Near
  simp only [Set.mem_ofPred_eq, List.mem_iff_getElem?]
  constructor
  · rintro ⟨k, hk⟩
    rw [List.getElem?_take] at hk
    split_ifs at hk with h
    rw [List.getElem?_drop] at hk
    exact ⟨_, hk, by omega, by omega⟩
  · rintro ⟨j, hj, h1, h2⟩
    have hlt := (List.getElem?_eq_some_iff.1 hj).1
    refine ⟨j - (i - r), ?_⟩
    rw [List.getElem?_take, if_pos (by omega), List.getElem?_drop, show i - r + (j - (i - r)) = j by omega]
    exact hj

/-- The envelope is NaN where the window has a missing value, else the least and the greatest sample of the window. -/
theorem gapEnvelope_spec (col : List (Option K)) (r : ℕ) : ∃ down up, gapEnvelope col r = .ok (down, up) ∧ down.length = col.length ∧
    up.length = col.length ∧ ∀ i < col.length,
      (none ∈ Near col r i → down.getD i none = none ∧ up.getD i none = none) ∧
      (none ∉ Near col r i → ∃ l u, down.getD i none = some l ∧ up.getD i none = some u ∧
        IsLeast {v | some v ∈ Near col r i} l ∧ IsGreatest {v | some v ∈ Near col r i} u) := by
  set w : ℕ → List (Option K) := fun i => (col.drop (i - r)).take (min (i + r + 1) col.length - (i - r)) with hw
  have hmem : ∀ i v, v ∈ w i ↔ v ∈ Near col r i := fun i v => mem_gapWindow col r i v
  have hne : ∀ i < col.length, w i ≠ [] := by
    intro i hi
    refine List.ne_nil_of_mem ((hmem i (col[i])).2 ⟨i, by simp [hi], by omega, by omega⟩)
  have hnan : ∀ (f : List K → Except PyErr K) i, i < col.length → none ∈ Near col r i → npNan f (w i) = .ok none := by
    intro f i hi h
    unfold npNan
    rw [if_neg (hne i hi), (sampleList_none _).2 ((hmem i _).2 h)]
  have hnum : ∀ i, i < col.length → none ∉ Near col r i → ∃ l : List K, l ≠ [] ∧ (∀ v, v ∈ l ↔ some v ∈ Near col r i) ∧
      ∀ f : List K → Except PyErr K, npNan f (w i) = (f l).map some := by
    intro i hi h
    cases hl : (w i).mapM id with
    | none => exact absurd ((hmem i _).1 ((sampleList_none _).1 hl)) h
    | some l =>
      have e := sampleList_mem _ _ hl
      refine ⟨l, ?_, ?_, ?_⟩
      · rintro rfl; exact hne i hi e
      · intro v; rw [← hmem, e]; simp
      · intro f; unfold npNan; rw [if_neg (hne i hi), hl]
  have htot : ∀ f : List K → Except PyErr K, (∀ l, l ≠ [] → ∃ m, f l = .ok m) → ∃ o, (List.range col.length).mapM (fun i => npNan f (w i)) = .ok o := by
    intro f hf
    apply mapM_except_total
    intro i hi
    have hi : i < col.length := by simpa using hi
    by_cases h : none ∈ Near col r i
    · exact ⟨_, hnan f i hi h⟩
    · obtain ⟨l, hl, -, e⟩ := hnum i hi h
      obtain ⟨m, hm⟩ := hf l hl
      exact ⟨some m, by rw [e, hm]; rfl⟩
  obtain ⟨down, hdown⟩ := htot npMin (fun l hl => (npMin_spec hl).imp fun _ h => h.1)
  obtain ⟨up, hup⟩ := htot npMax (fun l hl => (npMax_spec hl).imp fun _ h => h.1)
  obtain ⟨hdl, hd⟩ := mapM_range_get hdown
  obtain ⟨hul, hu⟩ := mapM_range_get hup
  refine ⟨down, up, ?_, hdl, hul, fun i hi => ⟨fun h => ?_, fun h => ?_⟩⟩
  · have h1 : (List.range col.length).mapM (fun i => npNan npMin ((col.drop (i - r)).take (min (i + r + 1) col.length - (i - r)))) = .ok down := hdown
    have h2 : (List.range col.length).mapM (fun i => npNan npMax ((col.drop (i - r)).take (min (i + r + 1) col.length - (i - r)))) = .ok up := hup
    simp only [gapEnvelope, h1, h2, bind, Except.bind, pure, Except.pure]
  · obtain ⟨a, ha, ha'⟩ := hd i hi
    obtain ⟨b, hb, hb'⟩ := hu i hi
    rw [hnan _ i hi h] at ha' hb'
    cases ha'
    cases hb'
    simp only [List.getD_eq_getElem?_getD, ha, hb, Option.getD_some, and_self]
  · obtain ⟨a, ha, ha'⟩ := hd i hi
    obtain ⟨b, hb, hb'⟩ := hu i hi
    obtain ⟨l, hl, hlm, e⟩ := hnum i hi h
    obtain ⟨m, hm, hm'⟩ := npMin_spec hl
    obtain ⟨M, hM, hM'⟩ := npMax_spec hl
    rw [e, hm] at ha'
    rw [e, hM] at hb'
    cases ha'
    cases hb'
    have hs : {x | x ∈ l} = {v | some v ∈ Near col r i} := Set.ext fun v => hlm v
    exact ⟨m, M, by simp only [List.getD_eq_getElem?_getD, ha, Option.getD_some], by simp only [List.getD_eq_getElem?_getD, hb, Option.getD_some],
      hs ▸ hm', hs ▸ hM'⟩

theorem gapExcess_eq (above : K → K → Bool) (q e : List (Option K)) (n : ℕ) (hq : q.length = n) (he : e.length = n) :
    gapExcess above q e = ((List.range n).map fun i => match q.getD i none, e.getD i none with
      | some a, some b => if above a b then (a - b) * (a - b) else 0
      | _, _ => 0).sum := by
  unfold gapExcess
  rw [foldl_add_eq_sum, zero_add]
  induction n generalizing q e with
  | zero => obtain rfl := List.length_eq_zero_iff.1 hq; simp
  | succ n ih =>
    obtain ⟨a, q, rfl⟩ := List.exists_cons_of_length_eq_add_one hq
    obtain ⟨b, e, rfl⟩ := List.exists_cons_of_length_eq_add_one he
    simp only [List.length_cons, Nat.add_right_cancel_iff] at hq he
    rw [List.range_succ_eq_map, List.map_cons, List.sum_cons, List.map_map, List.zip_cons_cons, List.filterMap_cons]
    have ih' := ih q e hq he
    have ef : ((fun i => match (a :: q).getD i none, (b :: e).getD i none with
      | some a, some b => if above a b = true then (a - b) * (a - b) else 0
      | _, _ => 0) ∘ Nat.succ) = fun i => match q.getD i none, e.getD i none with
      | some a, some b => if above a b = true then (a - b) * (a - b) else 0
      | _, _ => 0 := by
      funext i
      simp [Function.comp]
    rw [ef, ← ih']
    cases a with
    | none => simp
    | some a => cases b with
      | none => simp
      | some b => by_cases h : above a b <;> simp [h]

/-- `lb_keogh` is always a number: sample `i` counts only if it is observed and all samples of the candidate within `radius` of `i` are. -/
theorem C119_keogh (q c : List (Option K)) (r : ℕ) (hl : q.length = c.length) : ∃ g : ℕ → K,
    gapKeoghSq q c r = .ok ((List.range q.length).map g).sum ∧ ∀ i < q.length,
      (q.getD i none = none ∨ none ∈ Near c r i → g i = 0) ∧
      ∀ a, q.getD i none = some a → none ∉ Near c r i → ∃ l u, IsLeast {v | some v ∈ Near c r i} l ∧ IsGreatest {v | some v ∈ Near c r i} u ∧
        g i = if u < a then (a - u) * (a - u) else if a < l then (a - l) * (a - l) else 0 := by
  obtain ⟨down, up, he, hdl, hul, hs⟩ := gapEnvelope_spec c r
  refine ⟨fun i => (match q.getD i none, up.getD i none with
      | some a, some b => if decide (b < a) then (a - b) * (a - b) else 0
      | _, _ => 0) + (match q.getD i none, down.getD i none with
      | some a, some b => if decide (a < b) then (a - b) * (a - b) else 0
      | _, _ => 0), ?_, fun i hi => ⟨?_, ?_⟩⟩
  · unfold gapKeoghSq
    simp only [he, bind, Except.bind]
    rw [if_neg (by omega), gapExcess_eq _ q up q.length rfl (by omega), gapExcess_eq _ q down q.length rfl (by omega), ← List.sum_map_add]
    rfl
  · rintro (h | h)
    · beta_reduce
      rw [h]
      simp
    · obtain ⟨h1, h2⟩ := (hs i (by omega)).1 h
      beta_reduce
      rw [h1, h2]
      cases q.getD i none <;> simp
  · intro a ha h
    obtain ⟨l, u, h1, h2, h3, h4⟩ := (hs i (by omega)).2 h
    refine ⟨l, u, h3, h4, ?_⟩
    beta_reduce
    rw [h1, h2, ha]
    have hlu : l ≤ u := h4.2 h3.1
    by_cases hu : u < a
    · have : ¬ a < l := fun hc => absurd (hu.trans hc) (not_lt.2 hlu)
      simp [hu, this]
    · simp [hu]

/-- A lower bound on what an alignment inside the band pays for samples that are both observed. Missing values may be anywhere; the alignment may stop at
`n` and `m` provided that the query has no observed sample from `n` on. -/
theorem C119_keogh_bound (q c : List (Option K)) (r n m : ℕ) (hl : q.length = c.length) (hn : n ≤ q.length) (hm : m ≤ c.length)
    (hend : ∀ i, n ≤ i → q.getD i none = none) (p : List (ℕ × ℕ)) (hp : IsWarpingPath n m p) (hb : ∀ a ∈ p, a.1 ≤ a.2 + r ∧ a.2 ≤ a.1 + r) :
    ∃ v, gapKeoghSq q c r = .ok v ∧ 0 ≤ v ∧ v ≤ sumCost (fun i j => obsSq (q.getD i none) (c.getD j none)) p := by
  obtain ⟨g, hg, hi⟩ := C119_keogh q c r hl
  have hg0 : ∀ i < q.length, 0 ≤ g i := by
    intro i hq
    cases ha : q.getD i none with
    | none => rw [(hi i hq).1 (.inl ha)]
    | some a =>
      by_cases h : none ∈ Near c r i
      · rw [(hi i hq).1 (.inr h)]
      · obtain ⟨l, u, -, -, e⟩ := (hi i hq).2 a ha h
        rw [e]
        split_ifs <;> first | exact mul_self_nonneg _ | exact le_rfl
  have hobs : ∀ a b : Option K, 0 ≤ obsSq a b := by
    intro a b
    cases a <;> cases b <;> simp [obsSq, mul_self_nonneg]
  refine ⟨_, hg, ?_, ?_⟩
  · apply List.sum_nonneg
    simp only [List.mem_map, List.mem_range]
    rintro _ ⟨i, hq, rfl⟩
    exact hg0 i hq
  · obtain ⟨k, hk⟩ : ∃ k, q.length = n + k := ⟨q.length - n, by omega⟩
    have hz : ((List.range k).map (g ∘ fun x => n + x)).sum = 0 := by
      apply List.sum_eq_zero
      simp only [List.mem_map, List.mem_range]
      rintro _ ⟨i, hik, rfl⟩
      exact (hi (n + i) (by omega)).1 (.inl (hend _ (by omega)))
    rw [hk, List.range_add, List.map_append, List.map_map, List.sum_append, hz, add_zero]
    obtain ⟨i, j, hi', hj, hw⟩ := isWarpingPath_iff.1 hp
    have hlt := hp.mem_lt
    rw [← hi']
    refine rows_le_sumCost hw ?_ (fun _ _ => hobs _ _)
    rintro ⟨a, b⟩ hab
    obtain ⟨ha, hb'⟩ := hlt _ hab
    obtain ⟨hb1, hb2⟩ := hb _ hab
    simp only at ha hb' hb1 hb2 ⊢
    cases hqa : q.getD a none with
    | none => rw [(hi a (by omega)).1 (.inl hqa)]; exact hobs _ _
    | some s =>
      by_cases h : none ∈ Near c r a
      · rw [(hi a (by omega)).1 (.inr h)]; exact hobs _ _
      · obtain ⟨l, u, h1, h2, e⟩ := (hi a (by omega)).2 s hqa h
        have hcb : c[b]? = some (c[b]'(by omega)) := List.getElem?_eq_getElem _
        have hin : c[b]'(by omega) ∈ Near c r a := ⟨b, hcb, by omega, by omega⟩
        obtain ⟨t, ht⟩ : ∃ t, c[b]'(by omega) = some t := by
          cases hc : c[b]'(by omega) with
          | none => rw [hc] at hin; exact absurd hin h
          | some t => exact ⟨t, rfl⟩
        rw [ht] at hin hcb
        have hcd : c.getD b none = some t := by rw [List.getD_eq_getElem?_getD, hcb]; rfl
        have hlt' : l ≤ t := h1.2 hin
        have htu : t ≤ u := h2.2 hin
        rw [hcd, e]
        show _ ≤ (s - t) * (s - t)
        split_ifs
        · nlinarith
        · nlinarith
        · exact mul_self_nonneg _

/-- On complete series this is the bound of C14. -/
theorem C119_keogh_complete (q c : List K) (r : ℕ) (hl : q.length = c.length) : gapKeoghSq (q.map some) (c.map some) r = lbKeoghSq q c r := by
  obtain ⟨g, hg, hi⟩ := C119_keogh (q.map some) (c.map some) r (by simpa using hl)
  obtain ⟨down, up, he, hdl, hul, henv⟩ := lbEnvelope_spec c r
  have hnear : ∀ i v, v ∈ Near (c.map some) r i ↔ ∃ a ∈ Near c r i, v = some a := by
    intro i v
    unfold Near
    simp only [Set.mem_ofPred_eq, List.getElem?_map, Option.map_eq_some_iff]
    constructor
    · rintro ⟨j, ⟨a, ha, rfl⟩, h1, h2⟩; exact ⟨a, ⟨j, ha, h1, h2⟩, rfl⟩
    · rintro ⟨a, ⟨j, ha, h1, h2⟩, rfl⟩; exact ⟨j, ⟨a, ha, rfl⟩, h1, h2⟩
  have e : lbKeoghSq q c r = .ok (keoghSq q down up) := by
    simp [lbKeoghSq, he, hl, hdl, bind, Except.bind, pure, Except.pure]
  rw [hg, e, keoghSq_eq q down up q.length rfl (by omega) (by omega), List.length_map]
  congr 2
  apply List.map_congr_left
  intro i hir
  have hiq : i < q.length := by simpa using hir
  have hnn : none ∉ Near (c.map some) r i := by
    rw [hnear]
    rintro ⟨a, -, h⟩
    cases h
  obtain ⟨l, u, h1, h2, h3⟩ := (hi i (by simpa using hiq)).2 (q.getD i 0) (by simp [List.getD_eq_getElem?_getD, hiq]) hnn
  obtain ⟨l', u', hd, hu, h4, h5⟩ := henv i (by omega)
  have hs : {v | some v ∈ Near (c.map some) r i} = Near c r i := by
    ext v
    show some v ∈ Near (c.map some) r i ↔ v ∈ Near c r i
    rw [hnear]
    constructor
    · rintro ⟨a, ha, h⟩; cases h; exact ha
    · intro h; exact ⟨v, h, rfl⟩
  rw [hs] at h1 h2
  have el : l = l' := h1.unique h4
  have eu : u = u' := h2.unique h5
  subst el eu
  have hlu : l ≤ u := h2.2 h1.1
  rw [h3]
  simp only [List.getD_eq_getElem?_getD, hd, hu, Option.getD_some, gap]
  by_cases hu' : u < q[i]?.getD 0
  · have : ¬ q[i]?.getD 0 < l := fun hc => absurd (hu'.trans hc) (not_lt.2 hlu)
    simp [hu', this]
  · simp [hu']

/-- Series padded to the same size: with equal numbers of observed samples `lb_keogh` is still a lower bound of `dtw` with that radius. -/
theorem C119_keogh_padded (q c : List K) (r k : ℕ) (hc : c ≠ []) (hl : q.length = c.length) (name : Option String)
    (hname : name = none ∨ name = some "sakoe_chiba") : ∃ v w : K,
    gapKeoghSq (q.map some ++ List.replicate k none) (c.map some ++ List.replicate k none) r = .ok v ∧ 0 ≤ v ∧ v ≤ w ∧
    dtwSq (.oneD (q.map some ++ List.replicate k none)) (.oneD (c.map some ++ List.replicate k none)) name (some r) none = .ok (w : WithTop K) := by
  have hq : q ≠ [] := by
    rintro rfl
    exact hc (List.length_eq_zero_iff.1 hl.symm)
  have hnx : asSeries q ≠ [] := by simpa [asSeries] using hq
  have hny : asSeries c ≠ [] := by simpa [asSeries] using hc
  have lx : (asSeries q).length = q.length := by simp [asSeries]
  have ly : (asSeries c).length = c.length := by simp [asSeries]
  obtain ⟨code, hcode, hcode'⟩ : ∃ code, gcCode name = .ok code ∧ (code = 0 ∨ code = 2) := by
    rcases hname with rfl | rfl
    · exact ⟨0, rfl, .inl rfl⟩
    · exact ⟨2, rfl, .inr rfl⟩
  have hm : computeMask (asSeries q).length (asSeries c).length code (some r) none = .ok (sakoeChibaMask q.length c.length r) := by
    rw [lx, ly]
    rcases hcode' with rfl | rfl <;> simp [computeMask]
  obtain ⟨t, ht, htop, hw⟩ := C01_dtw_squared _ _ hnx hny code (some r) none _ hm
  rw [lx, ly] at htop hw
  have hfin : t ≠ ⊤ := fun h => htop.1 h (C05_feasible _ _ _ (List.length_pos_iff.2 hq) (List.length_pos_iff.2 hc))
  obtain ⟨w, rfl⟩ := WithTop.ne_top_iff_exists.1 hfin
  obtain ⟨⟨p, ⟨hp, hmask⟩, rfl⟩, -⟩ := (hw w).1 rfl
  have hget : ∀ (x : List K) i, i < x.length → (x.map some ++ List.replicate k none).getD i none = some (x.getD i 0) := by
    intro x i hi
    rw [List.getD_eq_getElem?_getD, List.getElem?_append_left (by simpa using hi), List.getElem?_map, List.getElem?_eq_getElem hi,
      List.getD_eq_getElem _ _ hi]
    rfl
  obtain ⟨v, hv, hv0, hle⟩ := C119_keogh_bound (q.map some ++ List.replicate k none) (c.map some ++ List.replicate k none) r q.length c.length
    (by simp [hl]) (by simp) (by simp) (fun i hi => by
      rw [List.getD_eq_getElem?_getD, List.getElem?_append_right (by simpa using hi), List.getElem?_replicate]
      split <;> rfl) p hp (by
      intro a ha
      have := hp.mem_lt _ ha
      have := (sakoeChibaMask_iff _ _ _ _ _ this.1 this.2).1 (hmask a ha)
      unfold InBand at this
      omega)
  refine ⟨v, sumCost (sampleCost (asSeries q) (asSeries c)) p, hv, hv0, hle.trans_eq ?_, ?_⟩
  · unfold sumCost
    congr 1
    apply List.map_congr_left
    intro a ha
    obtain ⟨h1, h2⟩ := hp.mem_lt _ ha
    beta_reduce
    rw [hget q _ h1, hget c _ h2]
    simp [obsSq, sampleCost, asSeries, sqEuclid, h1, h2, pow_two]
  · have hs : ∀ x : List K, x ≠ [] → toTimeSeries (.oneD (x.map some)) true = observed (asSeries x) := by
      intro x hx
      have h1 : tsSize (observed (asSeries x)) = x.length := by
        unfold tsSize
        rw [observed_length, show (asSeries x).length = x.length by simp [asSeries]]
        cases hxl : x.length with
        | zero => rfl
        | succ n =>
          have : n < x.length := by omega
          simp [tsSizeLoop, observed, asSeries, List.getD_eq_getElem?_getD, this]
      have e : ((x.map some).map fun v => [v]) = observed (asSeries x) := by simp [observed, asSeries]
      simp only [toTimeSeries, if_true]
      rw [e, h1, List.take_of_length_le (by simp [observed, asSeries])]
    unfold dtwSq
    rw [C08_validate (s1' := .oneD (q.map some)) (s2' := .oneD (c.map some)) (C08_to_time_series_flat _ k) (C08_to_time_series_flat _ k),
      Seen.validatePair (d := 1) ⟨hs q hq, hs c hc, by simpa [observed] using hnx, by simpa [observed] using hny,
        by simp [IsRect, observed, asSeries], by simp [IsRect, observed, asSeries]⟩, hcode]
    simp only [Except.map, bind, Except.bind]
    exact ht
end

/-! ## Cases, and claims that fail -/

/-- A reference with one gap, in which the query occurs exactly, before the gap. -/
theorem search_seen : Seen (K := ℤ) (.oneD [some 1, some 2]) (.oneD [some 1, some 2, none, some 1, some 3, none]) 1 (observed [[1], [2]])
    [[some 1], [some 2], [none], [some 1], [some 3]] :=
  ⟨by decide +kernel, by decide +kernel, by simp [observed], by simp, by simp [IsRect, observed], by simp [IsRect]⟩

/-- `dtw_subsequence_path` does not find an exact occurrence: it points at the missing sample. -/
theorem C119_false_search : ∃ (s1 s2 : TsInput (Option ℤ)) (d : ℕ) (q : List (List ℤ)) (x : List (List (Option ℤ))),
    Seen s1 s2 d (observed q) x ∧ window x 0 1 = observed q ∧ RowMissing (x.getD 2 []) ∧
    gapSubsequencePath nanArgmin3 nanArgmin s1 s2 = .ok (some [(0, 2), (1, 2)], none) :=
  ⟨_, _, 1, [[1], [2]], _, search_seen, by decide +kernel, by simp [RowMissing], by decide +kernel⟩

/-- The cost matrix of that search: the numbers on each side of the gap. -/
example : ((gapSubsequenceCostMatrix (K := ℤ) (.oneD [some 1, some 2]) (.oneD [some 1, some 2, none, some 1, some 3, none])).toOption.map fun o =>
    (o.1, o.2.1, (List.range 5).map (o.2.2 1))) = some (2, 5, [some 1, some 0, none, some 1, some 1]) := by decide +kernel

/-- The second part of the reference, `[1, 3]`, is searched by itself. -/
example : ∃ acc v, gapSubsequenceCostMatrix (K := ℤ) (.oneD [some 1, some 2]) (.oneD [some 1, some 2, none, some 1, some 3, none]) = .ok (2, 5, acc) ∧
    acc 1 4 = some v ∧ ∃ a ≤ 4, ∃ w, window [[some 1], [some 2], [none], [some 1], [some 3]] a 4 = observed w ∧
      dtwSqGeneric ([[1], [2]] : List (List ℤ)) w 0 none none = .ok v := by
  obtain ⟨acc, v, h1, h2, h3, -⟩ := C119_end _ _ 1 [[1], [2]] _ search_seen 4 (by decide) (by simp [RowMissing])
  exact ⟨acc, v, h1, h2, h3⟩

/-- A gap in the query. -/
example : gapSubsequencePath (K := ℤ) nanArgmin3 nanArgmin (.oneD [some 1, none, some 2]) (.oneD [some 1, some 2]) = .ok (some [(0, 0), (1, 0), (2, 0)], none) :=
  (C119_query _ _ 1 [[some 1], [none], [some 2]] [[some 1], [some 2]] ⟨by decide +kernel, by decide +kernel, by simp, by simp, by simp [IsRect],
    by simp [IsRect]⟩ ⟨[none], by simp, by simp [RowMissing]⟩).2

/-- Two samples against four, padded to the same size: `lb_keogh` is 3, `dtw` with the same radius is 0. -/
theorem C119_false_keogh : ∃ (q c : List (Option ℤ)) (r : ℕ), q.length = c.length ∧ gapKeoghSq q c r = .ok 9 ∧
    nanDtwSq .numpy (.oneD q) (.oneD c) (some "sakoe_chiba") (some r) none = .ok (some 0) :=
  ⟨[some 0, some 3, none, none], [some 0, some 0, some 3, some 3], 0, rfl, by decide +kernel, by decide +kernel⟩

/-- The samples next to the padding are not counted. -/
example : gapKeoghSq ([some 5, some 5, none] : List (Option ℤ)) [some 0, some 0, none] 1 = .ok 25 ∧
    lbKeoghSq ([5, 5] : List ℤ) [0, 0] 1 = .ok 50 := by decide +kernel

end Verif
