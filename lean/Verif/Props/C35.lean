import Verif.Model.MatrixProfile
import Verif.Spec.MatrixProfile
import Verif.Proofs.Piecewise
import Verif.Props.C29
import Mathlib.Tactic.IntervalCases
/-!
# C35 — the matrix profile is the nearest non-trivial match
-/
set_option linter.unusedSectionVars false
namespace Verif
open Spec

theorem ceil_quarter (m : ℕ) : ⌈(m : ℝ) / 4⌉ = (((m + 3) / 4 : ℕ) : ℤ) := by
  rw [Int.ceil_eq_iff]
  have h1 : 4 * ((m + 3) / 4) < m + 4 := by omega
  have h2 : m ≤ 4 * ((m + 3) / 4) := by omega
  generalize (m + 3) / 4 = b at h1 h2
  have h1' : (4 : ℝ) * (b : ℝ) < m + 4 := by exact_mod_cast h1
  have h2' : (m : ℝ) ≤ 4 * (b : ℝ) := by exact_mod_cast h2
  constructor
  · push_cast
    linarith
  · push_cast
    linarith

theorem mpBand_iff (m i j : ℕ) : mpBand ((m + 3) / 4) i j = false ↔ Outside m i j := by
  unfold mpBand tri Outside
  rw [ceil_quarter]
  generalize (m + 3) / 4 = b
  rw [lt_abs]
  simp only [Bool.and_eq_false_iff, Bool.not_eq_false', decide_eq_true_eq, decide_eq_false_iff_not]
  omega

theorem foldl_nanMin2_none (l : List (Option (WithTop ℝ))) : l.foldl nanMin2 none = none := by
  induction l with
  | nil => rfl
  | cons a l ih => exact ih

theorem foldl_nanMin2_mem {l : List (Option (WithTop ℝ))} (h : none ∈ l) (a : Option (WithTop ℝ)) :
    l.foldl nanMin2 a = none := by
  induction l generalizing a with
  | nil => simp at h
  | cons b l ih =>
    rw [List.foldl_cons]
    rcases List.mem_cons.1 h with h | h
    · rw [← h]
      have : nanMin2 a none = none := by cases a <;> rfl
      rw [this, foldl_nanMin2_none]
    · exact ih h _

theorem foldl_nanMin2_some {l : List (Option (WithTop ℝ))} (h : none ∉ l) (a : WithTop ℝ) :
    ∃ v, l.foldl nanMin2 (some a) = some v ∧ v ≤ a ∧ (∀ w, some w ∈ l → v ≤ w) ∧ (v = a ∨ some v ∈ l) := by
  induction l generalizing a with
  | nil => exact ⟨a, rfl, le_rfl, by simp, .inl rfl⟩
  | cons b l ih =>
    cases b with
    | none => simp at h
    | some b =>
      obtain ⟨v, h1, h2, h3, h4⟩ := ih (fun hc => h (by simp [hc])) (min a b)
      refine ⟨v, h1, h2.trans (min_le_left _ _), ?_, ?_⟩
      · intro w hw
        rcases List.mem_cons.1 hw with hw | hw
        · rw [Option.some.inj hw]
          exact h2.trans (min_le_right _ _)
        · exact h3 w hw
      · rcases h4 with h4 | h4
        · rcases min_choice a b with h5 | h5
          · exact .inl (h4.trans h5)
          · exact .inr (by rw [h4, h5]; simp)
        · exact .inr (by simp [h4])

/-- A list without NaN. -/
theorem mapM_id_isSome {β : Type} (l : List (Option β)) : (l.mapM id).isSome = true ↔ none ∉ l := by
  induction l with
  | nil => simp
  | cons a l ih =>
    cases a with
    | none => simp [List.mapM_cons]
    | some a =>
      simp only [List.mapM_cons, id, Option.bind_eq_bind, Option.bind_some, List.mem_cons, reduceCtorEq, false_or, ← ih]
      cases List.mapM id l <;> simp

theorem mpDist_none {m : ℕ} {z : ℕ → ℕ → Option ℝ} {i j : ℕ} (hij : i ≠ j) :
    mpDist m z i j = none ↔ ∃ k < m, z i k = none ∨ z j k = none := by
  unfold mpDist
  rw [if_neg hij, Option.map_eq_none_iff, ← Option.not_isSome_iff_eq_none, mapM_id_isSome, not_not, List.mem_map]
  constructor
  · rintro ⟨k, hk, h⟩
    refine ⟨k, List.mem_range.1 hk, ?_⟩
    rcases le_total i j with h' | h'
    · rw [min_eq_left h', max_eq_right h'] at h
      cases hi : z i k with
      | none => exact .inl rfl
      | some x =>
        rw [hi] at h
        exact .inr (by simpa using h)
    · rw [min_eq_right h', max_eq_left h'] at h
      cases hi : z j k with
      | none => exact .inr rfl
      | some x =>
        rw [hi] at h
        exact .inl (by simpa using h)
  · rintro ⟨k, hk, h⟩
    refine ⟨k, List.mem_range.2 hk, ?_⟩
    rcases le_total i j with h' | h'
    · rw [min_eq_left h', max_eq_right h']
      rcases h with h | h <;> rw [h]
      · rfl
      · cases z i k <;> rfl
    · rw [min_eq_right h', max_eq_left h']
      rcases h with h | h <;> rw [h]
      · cases z j k <;> rfl
      · rfl

theorem mpDist_some {m : ℕ} {z : ℕ → ℕ → Option ℝ} {y : ℕ → ℕ → ℝ} {i j : ℕ} (hi : ∀ k < m, z i k = some (y i k))
    (hj : ∀ k < m, z j k = some (y j k)) : mpDist m z i j = some (segDist m y i j) := by
  unfold mpDist segDist
  by_cases hij : i = j
  · subst hij
    simp
  · have hmap : ((List.range m).map fun k => (z (min i j) k).bind fun x => (z (max i j) k).map fun y => (x - y) ^ 2) =
        ((List.range m).map fun k => (y i k - y j k) ^ 2).map some := by
      rw [List.map_map]
      apply List.map_congr_left
      intro k hk
      rw [List.mem_range] at hk
      rcases le_total i j with h' | h'
      · rw [min_eq_left h', max_eq_right h', hi k hk, hj k hk]
        rfl
      · rw [min_eq_right h', max_eq_left h', hi k hk, hj k hk]
        simp only [Option.bind_some, Option.map_some, Function.comp]
        congr 1
        ring
    rw [if_neg hij, hmap, mapM_id_some_of, Option.map_some, List.map_id', listsum_range]

/-- What the entry of a row is. -/
theorem mpRow_none {m n : ℕ} {z : ℕ → ℕ → Option ℝ} {i : ℕ} :
    none ∈ mpRow m ((m + 3) / 4) n z i ↔ ∃ j < n, Outside m i j ∧ mpDist m z i j = none := by
  unfold mpRow
  rw [List.mem_map]
  constructor
  · rintro ⟨j, hj, h⟩
    refine ⟨j, List.mem_range.1 hj, ?_⟩
    rw [← mpBand_iff]
    by_cases hb : mpBand ((m + 3) / 4) i j = true
    · rw [if_pos hb] at h; cases h
    · rw [if_neg hb] at h
      exact ⟨by simpa using hb, Option.map_eq_none_iff.1 h⟩
  · rintro ⟨j, hj, ho, h⟩
    refine ⟨j, List.mem_range.2 hj, ?_⟩
    rw [← mpBand_iff] at ho
    rw [ho, h]
    rfl

theorem outside_ne {m i j : ℕ} (h : Outside m i j) : i ≠ j := by
  rintro rfl
  unfold Outside at h
  rw [ceil_quarter, sub_self, abs_zero] at h
  omega

/-- The minimum of a row whose distances are all observed. -/
theorem mpRow_value {m n i : ℕ} (hi : i < n) {z : ℕ → ℕ → Option ℝ} {y : ℕ → ℕ → ℝ}
    (hz : ∀ j < n, ∀ k < m, z j k = some (y j k)) :
    ∃ v : WithTop ℝ, (mpRow m ((m + 3) / 4) n z i).foldl nanMin2 (some ⊤) = some v ∧
      (v = ⊤ ↔ ¬ ∃ j < n, Outside m i j) ∧ ∀ r : ℝ, v = (r : WithTop ℝ) ↔ IsLeast (matches_ m n y i) r := by
  have hnone : none ∉ mpRow m ((m + 3) / 4) n z i := by
    rw [mpRow_none]
    rintro ⟨j, hj, _, h⟩
    rw [mpDist_some (hz i hi) (hz j hj)] at h
    cases h
  obtain ⟨v, h1, _, h3, h4⟩ := foldl_nanMin2_some hnone ⊤
  have hmem : ∀ r : ℝ, some (r : WithTop ℝ) ∈ mpRow m ((m + 3) / 4) n z i ↔ r ∈ matches_ m n y i := by
    intro r
    unfold mpRow matches_
    rw [List.mem_map, Set.mem_ofPred_eq]
    constructor
    · rintro ⟨j, hj, h⟩
      rw [List.mem_range] at hj
      refine ⟨j, hj, ?_⟩
      rw [← mpBand_iff]
      by_cases hb : mpBand ((m + 3) / 4) i j = true
      · rw [if_pos hb] at h
        exact absurd (Option.some.inj h).symm WithTop.coe_ne_top
      · rw [if_neg hb, mpDist_some (hz i hi) (hz j hj)] at h
        exact ⟨by simpa using hb, (WithTop.coe_injective (Option.some.inj h)).symm⟩
    · rintro ⟨j, hj, ho, rfl⟩
      refine ⟨j, List.mem_range.2 hj, ?_⟩
      rw [← mpBand_iff] at ho
      rw [ho, mpDist_some (hz i hi) (hz j hj)]
      rfl
  have htop : v = ⊤ ↔ ¬ ∃ j < n, Outside m i j := by
    constructor
    · rintro rfl ⟨j, hj, ho⟩
      have := h3 _ ((hmem _).2 ⟨j, hj, ho, rfl⟩)
      exact absurd (top_le_iff.1 this) WithTop.coe_ne_top
    · intro hno
      by_contra hv
      obtain ⟨r, rfl⟩ := WithTop.ne_top_iff_exists.1 hv
      rcases h4 with h4 | h4
      · exact hv h4
      · obtain ⟨j, hj, ho, _⟩ := (hmem r).1 h4
        exact hno ⟨j, hj, ho⟩
  refine ⟨v, h1, htop, ?_⟩
  intro r
  constructor
  · rintro rfl
    refine ⟨?_, ?_⟩
    · rcases h4 with h4 | h4
      · exact absurd h4 WithTop.coe_ne_top
      · exact (hmem r).1 h4
    · intro D hD
      exact WithTop.coe_le_coe.1 (h3 _ ((hmem D).2 hD))
  · rintro ⟨hm, hl⟩
    have hle := h3 _ ((hmem r).2 hm)
    obtain ⟨w, rfl⟩ := WithTop.ne_top_iff_exists.1 (ne_top_of_le_ne_top WithTop.coe_ne_top hle)
    rcases h4 with h4 | h4
    · exact absurd h4 WithTop.coe_ne_top
    · exact congrArg _ (le_antisymm (WithTop.coe_le_coe.1 hle) (hl ((hmem w).1 h4)))

/-- The reshape of well-formed univariate segments. -/
theorem mpReshape_ok {α : Type} {S : Arr3 α} (hS : S.WF) (hm : 0 < S.sz) (hd : S.d = 1) :
    ∃ z, mpReshape S.sz S = .ok (S.data.length, z) ∧ ∀ i < S.data.length, ∀ k < S.sz, z i k = S.entry i k 0 := by
  have hrows : ∀ r ∈ S.data.map List.flatten, r.length = S.sz := by
    intro r hr
    obtain ⟨s, hs, rfl⟩ := List.mem_map.1 hr
    rw [flatten_length_rect (hS s hs).2, (hS s hs).1, hd, mul_one]
  have hlen : (S.data.map List.flatten).flatten.length = S.data.length * S.sz := by
    rw [flatten_length_rect hrows, List.length_map]
  unfold mpReshape
  simp only [hlen, Nat.mul_mod_left, ne_eq, not_true_eq_false, or_false, Nat.pos_iff_ne_zero.1 hm, if_false]
  rw [Nat.mul_div_cancel _ hm]
  refine ⟨_, rfl, ?_⟩
  intro i hi k hk
  rw [List.getD_eq_getElem?_getD, flatten_getElem_rect hrows i k (by simpa using hi) hk, Option.getD_some]
  unfold Arr3.entry
  rw [List.getD_eq_getElem (S.data.map List.flatten) _ (by simpa using hi), List.getElem_map, List.getD_eq_getElem _ _ hi]
  have hw := hS _ (List.getElem_mem hi)
  have := flatten_getElem_rect (rows := S.data[i]) (d := 1) (fun r hr => (hw.2 r hr).trans hd) k 0 (by rw [hw.1]; exact hk)
    one_pos
  rw [mul_one, add_zero] at this
  rw [List.getD_eq_getElem?_getD, this]
  rfl

theorem mpSegments_entry {α : Type} {X : Arr3 α} {l m i k f : ℕ} (hi : i < X.sz - m + 1) (hk : k < m) (hf : f < X.d) :
    (mpSegments X l m).entry i k f = X.entry l (i + k) f := Arr3.build_entry hi hk hf

theorem mpSegments_length {α : Type} (X : Arr3 α) (l m : ℕ) : (mpSegments X l m).data.length = X.sz - m + 1 :=
  Arr3.build_length _ _ _ _

/-- The profile of one series once its (possibly scaled) segments are known. -/
theorem mpSeries_of {m : ℕ} (hm : 0 < m) {scale : Bool} {X : Arr3 ℝ} {l : ℕ} {S : Arr3 ℝ}
    (hS : mpScaled scale (mpSegments X l m) = .ok S) (hw : S.WF) (hsz : S.sz = m) (hd : S.d = 1) (hl : 0 < S.data.length) :
    ∃ z, (∀ i < S.data.length, ∀ k < m, z i k = S.entry i k 0) ∧
      mpSeries m scale X l = .ok ((List.range S.data.length).map fun i =>
        (mpRow m ((m + 3) / 4) S.data.length z i).foldl nanMin2 (some ⊤)) := by
  subst hsz
  obtain ⟨z, h1, h2⟩ := mpReshape_ok hw hm hd
  refine ⟨z, h2, ?_⟩
  unfold mpSeries
  simp only [hS, bind, Except.bind, h1, Nat.max_eq_left hl, ne_eq, not_true_eq_false, if_false, pure, Except.pure]

theorem mpTransform_numpy {m : ℕ} {scale : Bool} {X : Arr3 ℝ} (hne : X.data ≠ []) (hd : X.d = 1) (hm : m ≤ X.sz) :
    mpTransform .numpy m scale X = (List.range X.data.length).mapM fun l => mpSeries m scale X l := by
  unfold mpTransform
  have h1 : ¬ (X.sz + 1 < m) := by omega
  have h2 : ¬ (X.sz < m) := by omega
  simp [hne, hd, h1, h2]

/-- Without scaling: entry `i` is the least distance of subsequence `i` to those outside its exclusion zone, and
`inf` exactly when there is none. -/
theorem C35_raw (X : Arr3 ℝ) (x : ℕ → ℕ → ℝ) (hne : X.data ≠ []) (hd : X.d = 1)
    (hx : ∀ l < X.data.length, ∀ t < X.sz, X.entry l t 0 = some (x l t)) (m : ℕ) (hm : 0 < m) (hms : m ≤ X.sz) :
    ∃ Y, mpTransform .numpy m false X = .ok Y ∧ Y.length = X.data.length ∧ ∀ l < X.data.length,
      (Y.getD l []).length = X.sz - m + 1 ∧ ∀ i < X.sz - m + 1, ∃ v : WithTop ℝ, (Y.getD l []).getD i none = some v ∧
        (v = ⊤ ↔ ¬ ∃ j < X.sz - m + 1, Outside m i j) ∧
        ∀ r : ℝ, v = (r : WithTop ℝ) ↔ IsLeast (matches_ m (X.sz - m + 1) (fun i k => x l (i + k)) i) r := by
  rw [mpTransform_numpy hne hd hms]
  have hser : ∀ l, ∃ row, mpSeries m false X l = .ok row ∧ (l < X.data.length → row.length = X.sz - m + 1 ∧
      ∀ i < X.sz - m + 1, ∃ v : WithTop ℝ, row.getD i none = some v ∧
        (v = ⊤ ↔ ¬ ∃ j < X.sz - m + 1, Outside m i j) ∧
        ∀ r : ℝ, v = (r : WithTop ℝ) ↔ IsLeast (matches_ m (X.sz - m + 1) (fun i k => x l (i + k)) i) r) := by
    intro l
    obtain ⟨z, hz, h⟩ := mpSeries_of hm (scale := false) (X := X) (l := l) (S := mpSegments X l m) rfl
      (Arr3.build_wf _ _ _ _) rfl hd (by rw [mpSegments_length]; omega)
    rw [mpSegments_length] at hz h
    refine ⟨_, h, fun hl => ⟨by simp, ?_⟩⟩
    intro i hi
    rw [List.getD_eq_getElem _ _ (by simpa using hi), List.getElem_map, List.getElem_range]
    apply mpRow_value hi
    intro j hj k hk
    rw [hz j hj k hk, mpSegments_entry hj hk (by omega)]
    exact hx l hl _ (by omega)
  choose g hg hg' using hser
  refine ⟨_, mapM_except_ok _ g _ (fun l _ => hg l), by simp, ?_⟩
  intro l hl
  rw [List.getD_eq_getElem _ _ (by simpa using hl), List.getElem_map, List.getElem_range]
  exact hg' l hl


theorem obsSum_full {X : Arr3 ℝ} (hd : X.d = 1) {i : ℕ} (hi : i < X.data.length) {y : ℕ → ℝ}
    (hy : ∀ t < X.sz, X.entry i t 0 = some (y t)) (h : ℝ → ℝ) :
    obsSum X true true i 0 h = ∑ t ∈ Finset.range X.sz, h (y t) := by
  unfold obsSum
  rw [hd, Finset.sum_eq_single i]
  · refine Finset.sum_congr rfl fun t ht => ?_
    rw [Finset.sum_range_one, if_pos ⟨fun _ => rfl, fun _ => rfl⟩, hy t (Finset.mem_range.1 ht)]
    rfl
  · intro i' _ hne
    refine Finset.sum_eq_zero fun t _ => ?_
    rw [Finset.sum_range_one, if_neg fun hc => hne (hc.1 rfl)]
  · intro hc
    exact absurd (Finset.mem_range.2 hi) hc

/-- The segments of a fully observed series, standardised. -/
theorem mpScaled_ok {X : Arr3 ℝ} {l m : ℕ} (hd : X.d = 1) (hm : 0 < m) (hms : m ≤ X.sz) {x : ℕ → ℝ}
    (hx : ∀ t < X.sz, X.entry l t 0 = some (x t)) :
    ∃ (S : Arr3 ℝ) (y : ℕ → ℕ → ℝ), mpScaled true (mpSegments X l m) = .ok S ∧ S.WF ∧ S.sz = m ∧ S.d = 1 ∧
      S.data.length = X.sz - m + 1 ∧ (∀ i < X.sz - m + 1, ∀ k < m, S.entry i k 0 = some (y i k)) ∧
      ∀ i < X.sz - m + 1, IsZNorm m (fun k => x (i + k)) (y i) := by
  have hl := mpSegments_length X l m
  have hw : (mpSegments X l m).WF := Arr3.build_wf _ _ _ _
  have hsz : (mpSegments X l m).sz = m := rfl
  have hd' : (mpSegments X l m).d = 1 := hd
  have hent : ∀ i < X.sz - m + 1, ∀ k < m, (mpSegments X l m).entry i k 0 = some (x (i + k)) := by
    intro i hi k hk
    rw [mpSegments_entry hi hk (by omega)]
    exact hx _ (by omega)
  have hne : (mpSegments X l m).data ≠ [] := by
    intro e
    rw [e] at hl
    simp at hl
  have hF : Formatted (mpSegments X l m) := by
    refine ⟨hw, fun h => absurd h hne, .inr ⟨(mpSegments X l m).data[0]'(by omega), List.getElem_mem _, .inr ?_, ?_⟩⟩
    · rw [show (mpSegments X l m).data[0]'(by omega) = (mpSegments X l m).data.getD 0 [] from
        (List.getD_eq_getElem _ _ (by omega)).symm, observed_entry hw]
      refine ⟨0, by omega, ?_⟩
      rw [hent 0 (by omega) _ (by omega)]
      rfl
    · intro t ht
      rw [show (mpSegments X l m).data[0]'(by omega) = (mpSegments X l m).data.getD 0 [] from
        (List.getD_eq_getElem _ _ (by omega)).symm, observed_entry hw]
      rintro ⟨f, -, hf⟩
      rw [entry_outside hw (by intro hc; omega)] at hf
      cases hf
  obtain ⟨S, h1, h2, h3, h4, h5, h6⟩ := C29_affine ⟨0, 1, true, true⟩ _ _ hF hF hne hne rfl
  simp only [if_true] at h6
  have hgrp : ∀ i < X.sz - m + 1, ∃ mean s, IsMean (mpSegments X l m) true true i 0 mean ∧
      IsStd (mpSegments X l m) true true i 0 mean s := by
    intro i hi
    have : (mpSegments X l m).group true true i 0 ≠ [] := by
      intro e
      have h0 := group_length (mpSegments X l m) true true i 0
      rw [e, obsSum_full hd' (by omega) (hent i hi)] at h0
      rw [hsz] at h0
      simp only [List.length_nil, Nat.cast_zero, Finset.sum_const, Finset.card_range, nsmul_eq_mul, mul_one] at h0
      exact absurd (Nat.cast_eq_zero.1 h0.symm) (by omega)
    obtain ⟨a, b, _, _, h⟩ := nanMean_isMean _ true true i 0 this
    exact ⟨a, b, h⟩
  choose! mean s hmean hstd using hgrp
  refine ⟨S, fun i k => (x (i + k) - mean i) / (if s i = 0 then 1 else s i), h1, h2, h4, h5.trans hd', h3.trans hl, ?_, ?_⟩
  · intro i hi k hk
    rw [h6 i (by omega) 0 (by omega) _ _ (hmean i hi) (hstd i hi) k (by omega), hent i hi k hk, Option.map_some]
    congr 1
    rw [zero_add, mul_one_div]
  · intro i hi
    have e1 := (hmean i hi).2
    have e2 := hstd i hi
    unfold IsStd at e2
    rw [obsSum_full hd' (by omega) (hent i hi), obsSum_full hd' (by omega) (hent i hi), hsz] at e1 e2
    simp only [Finset.sum_const, Finset.card_range, nsmul_eq_mul, mul_one, id] at e1 e2
    exact ⟨mean i, s i, by rw [mul_comm]; exact e1, e2.1, by rw [mul_comm]; exact e2.2, fun k _ => rfl⟩

/-- With scaling: the same for the standardised subsequences. -/
theorem C35_scaled (X : Arr3 ℝ) (x : ℕ → ℕ → ℝ) (hne : X.data ≠ []) (hd : X.d = 1)
    (hx : ∀ l < X.data.length, ∀ t < X.sz, X.entry l t 0 = some (x l t)) (m : ℕ) (hm : 0 < m) (hms : m ≤ X.sz) :
    ∃ Y, mpTransform .numpy m true X = .ok Y ∧ Y.length = X.data.length ∧ ∀ l < X.data.length, ∃ y : ℕ → ℕ → ℝ,
      (∀ i < X.sz - m + 1, IsZNorm m (fun k => x l (i + k)) (y i)) ∧
      (Y.getD l []).length = X.sz - m + 1 ∧ ∀ i < X.sz - m + 1, ∃ v : WithTop ℝ, (Y.getD l []).getD i none = some v ∧
        (v = ⊤ ↔ ¬ ∃ j < X.sz - m + 1, Outside m i j) ∧
        ∀ r : ℝ, v = (r : WithTop ℝ) ↔ IsLeast (matches_ m (X.sz - m + 1) y i) r := by
  rw [mpTransform_numpy hne hd hms]
  have hser : ∀ l ∈ List.range X.data.length, ∃ row, mpSeries m true X l = .ok row ∧ ∃ y : ℕ → ℕ → ℝ,
      (∀ i < X.sz - m + 1, IsZNorm m (fun k => x l (i + k)) (y i)) ∧ row.length = X.sz - m + 1 ∧
      ∀ i < X.sz - m + 1, ∃ v : WithTop ℝ, row.getD i none = some v ∧
        (v = ⊤ ↔ ¬ ∃ j < X.sz - m + 1, Outside m i j) ∧
        ∀ r : ℝ, v = (r : WithTop ℝ) ↔ IsLeast (matches_ m (X.sz - m + 1) y i) r := by
    intro l hl
    obtain ⟨S, y, h1, h2, h3, h4, h5, h6, h7⟩ := mpScaled_ok hd hm hms (hx l (List.mem_range.1 hl))
    obtain ⟨z, hz, h⟩ := mpSeries_of hm h1 h2 h3 h4 (by omega)
    rw [h5] at hz h
    refine ⟨_, h, y, h7, by simp, ?_⟩
    intro i hi
    rw [List.getD_eq_getElem _ _ (by simpa using hi), List.getElem_map, List.getElem_range]
    apply mpRow_value hi
    intro j hj k hk
    rw [hz j hj k hk]
    exact h6 j hj k hk
  choose! g hg hg' using hser
  refine ⟨_, mapM_except_ok _ g _ hg, by simp, ?_⟩
  intro l hl
  rw [List.getD_eq_getElem _ _ (by simpa using hl), List.getElem_map, List.getElem_range]
  exact hg' l (List.mem_range.2 hl)

/-- NaN, for instance the padding of a shorter series, spreads: an entry is NaN as soon as a subsequence outside
its exclusion zone contains one (or it does itself and has such a subsequence to be compared with). -/
theorem C35_nan (X : Arr3 ℝ) (hne : X.data ≠ []) (hd : X.d = 1) (m : ℕ) (hm : 0 < m) (hms : m ≤ X.sz) :
    ∃ Y, mpTransform .numpy m false X = .ok Y ∧ Y.length = X.data.length ∧ ∀ l < X.data.length,
      (Y.getD l []).length = X.sz - m + 1 ∧ ∀ i < X.sz - m + 1, ((Y.getD l []).getD i none = none ↔
        ∃ j < X.sz - m + 1, Outside m i j ∧ ∃ k < m, X.entry l (i + k) 0 = none ∨ X.entry l (j + k) 0 = none) := by
  rw [mpTransform_numpy hne hd hms]
  have hser : ∀ l, ∃ row, mpSeries m false X l = .ok row ∧ row.length = X.sz - m + 1 ∧
      ∀ i < X.sz - m + 1, (row.getD i none = none ↔
        ∃ j < X.sz - m + 1, Outside m i j ∧ ∃ k < m, X.entry l (i + k) 0 = none ∨ X.entry l (j + k) 0 = none) := by
    intro l
    obtain ⟨z, hz, h⟩ := mpSeries_of hm (scale := false) (X := X) (l := l) (S := mpSegments X l m) rfl
      (Arr3.build_wf _ _ _ _) rfl hd (by rw [mpSegments_length]; omega)
    rw [mpSegments_length] at hz h
    refine ⟨_, h, by simp, ?_⟩
    intro i hi
    rw [List.getD_eq_getElem _ _ (by simpa using hi), List.getElem_map, List.getElem_range]
    have : (mpRow m ((m + 3) / 4) (X.sz - m + 1) z i).foldl nanMin2 (some ⊤) = none ↔
        none ∈ mpRow m ((m + 3) / 4) (X.sz - m + 1) z i := by
      constructor
      · intro h
        by_contra hc
        obtain ⟨v, hv, _⟩ := foldl_nanMin2_some hc ⊤
        rw [hv] at h
        cases h
      · exact fun h => foldl_nanMin2_mem h _
    rw [this, mpRow_none]
    refine exists_congr fun j => and_congr_right fun hj => and_congr_right fun ho => ?_
    rw [mpDist_none (outside_ne ho)]
    refine exists_congr fun k => and_congr_right fun hk => ?_
    rw [hz i hi k hk, hz j hj k hk, mpSegments_entry hi hk (by omega), mpSegments_entry hj hk (by omega)]
  choose g hg hg' using hser
  refine ⟨_, mapM_except_ok _ g _ (fun l _ => hg l), by simp, ?_⟩
  intro l hl
  rw [List.getD_eq_getElem _ _ (by simpa using hl), List.getElem_map, List.getElem_range]
  exact hg' l

/-- The scaler drops the trailing all-NaN samples of the segments. -/
theorem mpScaled_short {X : Arr3 ℝ} (hd : X.d = 1) {m l : ℕ} (hm : 0 < m)
    (hshort : ∀ t, m ≤ t + 1 → X.entry l t 0 = none) :
    ∃ S, mpScaled true (mpSegments X l m) = .ok S ∧ S.data.length = X.sz - m + 1 ∧ S.sz < m ∧
      ∀ s ∈ S.data, s.flatten.length = S.sz := by
  set G := mpSegments X l m with hG
  have hl : G.data.length = X.sz - m + 1 := mpSegments_length X l m
  have hw : G.WF := Arr3.build_wf _ _ _ _
  have hne : G.data ≠ [] := by intro e; rw [e] at hl; simp at hl
  cases hs : G.slots with
  | nil => exact absurd (List.map_eq_nil_iff.1 hs) hne
  | cons t0 rest =>
    have hmem : ∀ t ∈ t0 :: rest, ∃ s ∈ G.data, t = ⟨G.d, s⟩ := by
      intro t ht
      rw [← hs] at ht
      obtain ⟨s, h1, h2⟩ := List.mem_map.1 ht
      exact ⟨s, h1, h2.symm⟩
    obtain ⟨s0, _, hs0⟩ := hmem t0 (by simp)
    have hds := toDatasetSeries_wf t0 rest (by
      intro t ht
      obtain ⟨s, h1, rfl⟩ := hmem t ht
      exact ⟨(hw s h1).2, by rw [hs0]⟩)
    rw [← hs] at hds
    simp only at hds
    set D : Arr3 ℝ := ⟨(G.slots.map fun t => tsSize t.rows).foldr max 0, t0.d, G.slots.map fun t =>
      t.rows.take (tsSize t.rows) ++ List.replicate ((G.slots.map fun t => tsSize t.rows).foldr max 0 - tsSize t.rows)
        (List.replicate t0.d none)⟩ with hD
    refine ⟨Arr3.build D.data.length D.sz D.d fun i t f =>
      meanVarValue 0 1 (nanMean (D.group true true i f)) (nanStd (D.group true true i f)) (D.entry i t f), ?_, ?_, ?_, ?_⟩
    · unfold mpScaled meanVarTransform
      simp [hne, toDataset, hds, bind, Except.bind, pure, Except.pure]
    · rw [Arr3.build_length]
      show (G.slots.map _).length = _
      rw [List.length_map, Arr3.slots, List.length_map, hl]
    · show (G.slots.map fun t => tsSize t.rows).foldr max 0 < m
      rcases foldr_max_mem_or (G.slots.map fun t => tsSize t.rows) with h | h
      · rw [h]; exact hm
      · obtain ⟨t, ht, h⟩ := List.mem_map.1 h
        rw [hs] at ht
        obtain ⟨s, h1, rfl⟩ := hmem t ht
        rw [← h]
        by_contra hc
        obtain ⟨i, hi, rfl⟩ := List.mem_iff_getElem.1 h1
        have hsize := (tsSize_isSize (G.data[i])).1
        rcases hsize with h0 | h0
        · simp only [h0] at hc; omega
        · rw [← List.getD_eq_getElem _ [] hi, observed_entry hw] at h0
          obtain ⟨f, hf, h0⟩ := h0
          have hf : f < 1 := by rw [← hd]; exact hf
          obtain rfl : f = 0 := by omega
          rw [← List.getD_eq_getElem _ [] hi] at hc
          have hle := tsSize_le (G.data.getD i [])
          have hc : ¬ tsSize (G.data.getD i []) < m := hc
          have hll : (G.data.getD i []).length = m := by
            rw [List.getD_eq_getElem _ [] hi]
            exact (hw _ (List.getElem_mem hi)).1
          rw [mpSegments_entry (by omega) (by omega) (by omega), hshort _ (by omega)] at h0
          cases h0
    · intro s hs
      have := (Arr3.build_wf D.data.length D.sz D.d (fun i t f =>
        meanVarValue 0 1 (nanMean (D.group true true i f)) (nanStd (D.group true true i f)) (D.entry i t f))) s hs
      rw [flatten_length_rect this.2, this.1]
      show D.sz * t0.d = D.sz
      rw [hs0, show G.d = 1 from hd, mul_one]

/-- With scaling, a series with fewer samples than the subsequence length makes the whole call fail. -/
theorem C35_short (X : Arr3 ℝ) (hd : X.d = 1) (m : ℕ) (hm : 0 < m) (hms : m < X.sz) (l : ℕ) (hl : l < X.data.length)
    (hshort : ∀ t, m ≤ t + 1 → X.entry l t 0 = none) : ∀ Y, mpTransform .numpy m true X ≠ .ok Y := by
  intro Y hY
  have hne : X.data ≠ [] := by intro e; rw [e] at hl; simp at hl
  rw [mpTransform_numpy hne hd hms.le] at hY
  have hY' := mapM_except_inv _ _ _ hY
  have hlen := hY'.length_eq
  rw [List.length_range] at hlen
  have hrow := hY'.get (i := l) (by simpa using hl) (by omega)
  simp only [List.get_eq_getElem, List.getElem_range] at hrow
  obtain ⟨S, h1, h2, h3, h4⟩ := mpScaled_short hd hm hshort
  unfold mpSeries at hrow
  simp only [h1, bind, Except.bind] at hrow
  have hflat : (S.data.map List.flatten).flatten.length = S.data.length * S.sz := by
    rw [flatten_length_rect (d := S.sz), List.length_map]
    intro r hr
    obtain ⟨s, hs, rfl⟩ := List.mem_map.1 hr
    exact h4 s hs
  unfold mpReshape at hrow
  simp only [hflat] at hrow
  by_cases hc : m = 0 ∨ S.data.length * S.sz % m ≠ 0
  · simp [hc] at hrow
  · have hlt : S.data.length * S.sz / m < S.data.length := by
      rw [Nat.div_lt_iff_lt_mul (by omega)]
      exact Nat.mul_lt_mul_of_pos_left h3 (by omega)
    have : max (S.data.length * S.sz / m) 1 ≠ S.data.length := by omega
    simp [hc, this, throw, throwThe, MonadExceptOf.throw] at hrow


/-- A series of four samples, all subsequences of length one. -/
def exMp : Arr3 ℝ := ⟨4, 1, [[[some 0], [some 1], [some 5], [some 2]]]⟩

theorem exMp_obs : ∀ l < exMp.data.length, ∀ t < exMp.sz, exMp.entry l t 0 = some ((fun _ t => [0, 1, 5, 2].getD t 0) l t) := by
  intro l hl t ht
  have hl : l < 1 := hl
  have ht : t < 4 := ht
  interval_cases l
  interval_cases t <;> rfl

example : ∃ Y, mpTransform .numpy 1 false exMp = .ok Y ∧ (Y.getD 0 []).length = 4 ∧
    ∃ v : WithTop ℝ, (Y.getD 0 []).getD 0 none = some v ∧ v ≠ ⊤ := by
  obtain ⟨Y, h1, _, h2⟩ := C35_raw exMp _ (by simp [exMp]) rfl exMp_obs 1 one_pos (by simp [exMp])
  obtain ⟨h3, h4⟩ := h2 0 (by simp [exMp])
  obtain ⟨v, h5, h6, _⟩ := h4 0 (by simp [exMp])
  refine ⟨Y, h1, h3, v, h5, fun hv => h6.1 hv ⟨3, by simp [exMp], ?_⟩⟩
  unfold Outside
  rw [ceil_quarter]
  norm_num

/-- Subsequences of length two, standardised. -/
example : ∃ Y, mpTransform .numpy 2 true exMp = .ok Y ∧ (Y.getD 0 []).length = 3 := by
  obtain ⟨Y, h1, _, h2⟩ := C35_scaled exMp _ (by simp [exMp]) rfl exMp_obs 2 two_pos (by simp [exMp])
  obtain ⟨y, _, h3, _⟩ := h2 0 (by simp [exMp])
  exact ⟨Y, h1, h3⟩

/-- Two series, the second padded. -/
def exMpPad : Arr3 ℝ := ⟨4, 1, [[[some 0], [some 1], [some 5], [some 2]], [[some 7], [none], [none], [none]]]⟩

/-- The padding of the second series makes its first entry NaN. -/
example : ∃ Y, mpTransform .numpy 1 false exMpPad = .ok Y ∧ (Y.getD 1 []).getD 0 none = none := by
  obtain ⟨Y, h1, _, h2⟩ := C35_nan exMpPad (by simp [exMpPad]) rfl 1 one_pos (by simp [exMpPad])
  refine ⟨Y, h1, ((h2 1 (by simp [exMpPad])).2 0 (by simp [exMpPad])).2 ⟨3, by simp [exMpPad], ?_, 0, one_pos, .inr rfl⟩⟩
  unfold Outside
  rw [ceil_quarter]
  norm_num

example : ∀ Y, mpTransform .numpy 2 true exMpPad ≠ .ok Y :=
  C35_short exMpPad rfl 2 two_pos (by simp [exMpPad]) 1 (by simp [exMpPad]) (by
    intro t ht
    match t, ht with
    | 1, _ => rfl
    | 2, _ => rfl
    | 3, _ => rfl
    | t + 4, _ => rfl)

end Verif
