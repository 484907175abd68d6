import Verif.Model.Files
import Verif.Props.C23
import Mathlib.Data.List.GetD
/-!
# C102 — A file gives the dataset that is written in it, in either format

Entries, sizes and labels of the arrays loaded from text and ARFF files, and when both give the same.
-/
set_option linter.unusedSectionVars false
namespace Verif
open Spec

variable {α L : Type}

/-- A table of series: rows of `k` samples. -/
def Table (k : ℕ) (rows : List (List (Option α))) : Prop := ∀ r ∈ rows, r.length = k

/-- Dataset from rows of one width, one of which is observed at its end: the rows themselves. -/
theorem toDataset_table (k : ℕ) (rows : List (List (Option α))) (hk : Table k rows) (hobs : ∃ r ∈ rows, r.getLastD none ≠ none) :
    toDataset (.series (rows.map fun r => (⟨1, r.map fun v => [v]⟩ : Ts α))) = .ok ⟨k, 1, rows.map fun r => r.map fun v => [v]⟩ := by
  obtain ⟨r0, hr0, hlast⟩ := hobs
  have hne : (rows.map fun r => (⟨1, r.map fun v => [v]⟩ : Ts α)) ≠ [] := by
    simp only [ne_eq, List.map_eq_nil_iff]
    rintro rfl
    simp at hr0
  obtain ⟨X, h1, h2, h3, h4, h5, h6, h7⟩ := C23_content _ 1 hne (by
    intro t ht
    obtain ⟨r, -, rfl⟩ := List.mem_map.1 ht
    refine ⟨fun s hs => ?_, rfl⟩
    obtain ⟨v, -, rfl⟩ := List.mem_map.1 hs
    rfl)
  have hk0 : 0 < k := by
    rw [← hk r0 hr0]
    cases r0 with
    | nil => simp at hlast
    | cons => simp
  have obs : ∀ (r : List (Option α)) i, Observed (r.map fun v => [v]) i ↔ ∃ v, r[i]? = some (some v) := by
    intro r i
    unfold Observed
    constructor
    · rintro ⟨row, h, x, hx, ho⟩
      rw [List.getElem?_map] at h
      cases hr : r[i]? with
      | none => simp [hr] at h
      | some v =>
        simp only [hr, Option.map_some, Option.some_inj] at h
        subst h
        simp only [List.mem_singleton] at hx
        subst hx
        obtain ⟨w, rfl⟩ := Option.isSome_iff_exists.1 ho
        exact ⟨w, rfl⟩
    · rintro ⟨v, h⟩
      exact ⟨[some v], by simp [h], some v, by simp, rfl⟩
  have le : ∀ r ∈ rows, ∀ n, IsSize (r.map fun v => [v]) n → n ≤ k := by
    intro r hr n hn
    rcases hn.1 with h | h
    · omega
    · obtain ⟨v, hv⟩ := (obs r _).1 h
      have := (List.getElem?_eq_some_iff.1 hv).1
      rw [hk r hr] at this
      omega
  have hsz : X.sz = k := by
    apply le_antisymm
    · rcases h6 with h | ⟨t, ht, hs⟩
      · omega
      · obtain ⟨r, hr, rfl⟩ := List.mem_map.1 ht
        exact le r hr _ hs
    · refine h5 _ (List.mem_map.2 ⟨r0, hr0, rfl⟩) k ⟨.inr ((obs r0 _).2 ?_), fun i hi ho => ?_⟩
      · rw [List.getLastD_eq_getLast?, List.getLast?_eq_getElem?, hk r0 hr0] at hlast
        cases h : r0[k - 1]? with
        | none => simp [h] at hlast
        | some v =>
          cases v with
          | none => simp [h] at hlast
          | some v => exact ⟨v, rfl⟩
      · obtain ⟨v, hv⟩ := (obs r0 _).1 ho
        have := (List.getElem?_eq_some_iff.1 hv).1
        rw [hk r0 hr0] at this
        omega
  rw [h1]
  have hdata : X.data = rows.map fun r => r.map fun v => [v] := by
    apply List.ext_getElem (by simpa using h4)
    intro i hi hi'
    simp only [List.length_map] at hi'
    obtain ⟨s, e, hs⟩ := h7 i ⟨1, rows[i].map fun v => [v]⟩ (by simp [hi'])
    have es : X.data[i] = s := by
      rw [List.getElem?_eq_getElem hi] at e
      exact Option.some_inj.1 e
    rw [es, List.getElem_map]
    have hn := tsSize_isSize (rows[i].map fun v => [v])
    generalize tsSize (rows[i].map fun v => [v]) = n at hn
    have hnk := le _ (List.getElem_mem hi') n hn
    rw [hs n hn, hsz]
    conv_rhs => rw [← List.take_append_drop n (rows[i].map fun v => [v])]
    congr 1
    symm
    rw [List.eq_replicate_iff]
    refine ⟨by simp [hk _ (List.getElem_mem hi')], fun b hb => ?_⟩
    obtain ⟨j, hj, rfl⟩ := List.getElem_of_mem hb
    rw [List.getElem_drop, List.getElem_map]
    have hno := hn.2 (n + j) (by omega)
    rw [obs] at hno
    have hj' : n + j < rows[i].length := by
      simp only [List.length_drop, List.length_map] at hj
      omega
    cases hv : rows[i][n + j] with
    | none => rfl
    | some v => exact absurd ⟨v, by rw [List.getElem?_eq_getElem hj', hv]⟩ hno
  cases X
  simp only at h3 hsz hdata
  subst h3 hsz hdata
  rfl

/-- Integers are kept as labels. -/
theorem truncInt_int (z : ℤ) : truncInt (z : ℚ) = z := by simp [truncInt]

/-- Text files: at least two series of at least one sample, with integer labels, one series observed up to its end. -/
theorem C102_txt (k : ℕ) (hk : 0 < k) (rows : List (List (Option ℚ) × ℤ)) (h2 : 2 ≤ rows.length) (ht : Table k (rows.map Prod.fst))
    (hobs : ∃ r ∈ rows, r.1.getLastD none ≠ none) :
    loadUeaTxt (rows.map fun r => some (r.2 : ℚ) :: r.1) =
      .ok (⟨k, 1, rows.map fun r => r.1.map fun v => [v]⟩, rows.map Prod.snd) := by
  unfold loadUeaTxt
  have hw : 2 ≤ ((rows.map fun r => some (r.2 : ℚ) :: r.1).headD []).length := by
    cases rows with
    | nil => simp at h2
    | cons r rows =>
      have := ht r.1 (by simp)
      simp only [List.map_cons, List.headD_cons, List.length_cons, this]
      omega
  rw [if_neg (by rw [List.length_map]; omega)]
  have e := toDataset_table k (rows.map Prod.fst) ht (by
    obtain ⟨r, hr, h⟩ := hobs
    exact ⟨r.1, List.mem_map.2 ⟨r, hr, rfl⟩, h⟩)
  rw [List.map_map] at e
  have e1 : ((rows.map fun r => some (r.2 : ℚ) :: r.1).map fun r => (⟨1, (r.drop 1).map fun v => [v]⟩ : Ts ℚ)) =
      rows.map ((fun r => (⟨1, r.map fun v => [v]⟩ : Ts ℚ)) ∘ Prod.fst) := by
    rw [List.map_map]
    rfl
  have e2 : (rows.map fun r => some (r.2 : ℚ) :: r.1).mapM txtLabel = .ok (rows.map Prod.snd) := by
    clear e e1 hw h2 ht hobs
    induction rows with
    | nil => rfl
    | cons r rows ih =>
      simp only [List.map_cons, List.mapM_cons, txtLabel, List.headD_cons, truncInt_int, bind, Except.bind, pure, Except.pure]
      rw [ih]
  rw [e1, e]
  simp only [bind, Except.bind, pure, Except.pure]
  rw [e2]
  simp only [List.map_map]
  rfl

/-- ARFF files of univariate series of another length than 1: the table and the classes, whatever is missing in it. -/
theorem C102_arff (k : ℕ) (hk : k ≠ 1) (rows : List (List (Option α) × L)) (hne : rows ≠ []) :
    loadUeaArff (.plain k rows) = .ok (⟨k, 1, rows.map fun r => r.1.map fun v => [v]⟩, rows.map Prod.snd) := by
  simp [loadUeaArff, hk, hne]

/-- Both formats give the same series, and the labels correspond. -/
theorem C102_same (k : ℕ) (hk : 2 ≤ k) (rows : List (List (Option ℚ) × ℤ)) (name : ℤ → L) (h2 : 2 ≤ rows.length) (ht : Table k (rows.map Prod.fst))
    (hobs : ∃ r ∈ rows, r.1.getLastD none ≠ none) :
    ∃ X y y', loadUeaTxt (rows.map fun r => some (r.2 : ℚ) :: r.1) = .ok (X, y) ∧
      loadUeaArff (.plain k (rows.map fun r => (r.1, name r.2))) = .ok (X, y') ∧ y' = y.map name := by
  refine ⟨_, _, _, C102_txt k (by omega) rows h2 ht hobs, ?_, rfl⟩
  rw [C102_arff k (by omega) _ (by rintro h; rw [List.map_eq_nil_iff] at h; rw [h] at h2; simp at h2)]
  simp [List.map_map, Function.comp_def]

/-- Multivariate files: `X[i, t, c]` is the field `t` of channel `c` of instance `i`. -/
theorem C102_multivariate (sz nCh : ℕ) (rows : List (List (List (Option α)) × L)) (hne : rows ≠ []) (hc : ∀ r ∈ rows, r.1.length = nCh) :
    ∃ X, loadUeaArff (.relational sz rows) = .ok (X, rows.map Prod.snd) ∧ X.WF ∧ X.sz = sz ∧ X.d = nCh ∧ X.data.length = rows.length ∧
      ∀ i (hi : i < rows.length) t c, t < sz → X.entry i t c = (rows[i].1.getD c []).getD t none := by
  cases rows with
  | nil => exact absurd rfl hne
  | cons r0 rows =>
    have h0 : r0.1.length = nCh := hc r0 (by simp)
    refine ⟨⟨sz, nCh, (r0 :: rows).map fun r => (List.range sz).map fun t => r.1.map fun ch => ch.getD t none⟩, ?_, ?_, rfl, rfl, by simp, ?_⟩
    · simp only [loadUeaArff, h0]
      rw [if_pos (by simpa [List.all_eq_true] using ⟨h0, fun a b h => hc (a, b) (by simp [h])⟩)]
    · intro s hs
      obtain ⟨r, hr, rfl⟩ := List.mem_map.1 hs
      refine ⟨by simp, fun row hrow => ?_⟩
      obtain ⟨t, -, rfl⟩ := List.mem_map.1 hrow
      simpa using hc r hr
    · intro i hi t c ht
      have hi' : i < ((r0 :: rows).map fun r => (List.range sz).map fun t => r.1.map fun ch => ch.getD t none).length := by simpa using hi
      have e1 : ((r0 :: rows).map fun r => (List.range sz).map fun t => r.1.map fun ch => ch.getD t none).getD i [] =
          (List.range sz).map fun t => (r0 :: rows)[i].1.map fun ch => ch.getD t none := by
        rw [List.getD_eq_getElem _ _ hi', List.getElem_map]
      have e2 : ((List.range sz).map fun t => (r0 :: rows)[i].1.map fun ch => ch.getD t none).getD t [] =
          (r0 :: rows)[i].1.map fun ch => ch.getD t none := by
        rw [List.getD_eq_getElem _ _ (by simpa using ht), List.getElem_map, List.getElem_range]
      unfold Arr3.entry
      rw [e1, e2, List.getD_eq_getElem?_getD, List.getElem?_map, List.getD_eq_getElem?_getD (l := (r0 :: rows)[i].1)]
      cases ((r0 :: rows)[i].1)[c]? <;> simp

/-- Full claim: every file of series and labels can be loaded. False of text files with one series, and the loader then answers with
nothing. -/
theorem C102_false_one_series (r : List (Option ℚ)) : loadUeaTxt [r] = .error .indexError := by simp [loadUeaTxt]

theorem C102_false_one_series_load (env : DsEnv (List (List (Option ℚ))) (Arr3 ℚ × List ℤ)) (henv : env.parse = fun _ c => loadUeaTxt c)
    (fs : FS (List (List (Option ℚ)))) (name : DsName) (r : List (Option ℚ)) (hf : ∀ ext, fs.file (dsFile env name "_TRAIN." ext) = some [r]) :
    readFiles env fs name = none := by
  unfold readFiles
  cases supportedExt.find? (hasFilesExt env fs name) with
  | none => rfl
  | some ext => simp [loadExt, hf, henv, C102_false_one_series, bind, Except.bind]

/-- Full claim, false of ARFF files with series of one sample. -/
theorem C102_false_one_sample (rows : List (List (Option α) × L)) : loadUeaArff (.plain 1 rows) = .error .indexError := by simp [loadUeaArff]

/-- Full claim: labels are kept apart. False of text files: fractions are cut off. -/
theorem C102_false_labels (a b : Option ℚ) : ∃ X, loadUeaTxt [[some (6 / 5), a], [some (9 / 5), b]] = .ok (X, [1, 1]) := by
  obtain ⟨X, h, -⟩ := C23_content [(⟨1, [[a]]⟩ : Ts ℚ), ⟨1, [[b]]⟩] 1 (by simp) (by simp [Ts.WF])
  refine ⟨X, ?_⟩
  have e1 : truncInt (6 / 5) = 1 := by decide +kernel
  have e2 : truncInt (9 / 5) = 1 := by decide +kernel
  simp [loadUeaTxt, h, bind, Except.bind, pure, Except.pure, txtLabel, e1, e2]

/-- Full claim: both formats give the same. False if all series end with a missing sample: text files lose that timestamp. -/
theorem C102_false_missing_end :
    loadUeaTxt [[some 0, some 5, none], [some 1, some 6, none]] = .ok (⟨1, 1, [[[some 5]], [[some 6]]]⟩, [0, 1]) ∧
    loadUeaArff (.plain 2 [([some 5, none], 0), ([some 6, none], 1)]) = .ok ((⟨2, 1, [[[some 5], [none]], [[some 6], [none]]]⟩ : Arr3 ℚ), [0, 1]) :=
  ⟨rfl, rfl⟩

/-! Concrete cases of the hypotheses above. -/

/-- Two series of three samples, one of them with a missing end. -/
example : Table 3 (([([some 1, some 2, none], -1), ([some 4, none, some 6], 2)] : List (List (Option ℚ) × ℤ)).map Prod.fst) ∧
    ∃ r ∈ ([([some 1, some 2, none], -1), ([some 4, none, some 6], 2)] : List (List (Option ℚ) × ℤ)), r.1.getLastD none ≠ none := by
  refine ⟨by simp [Table], ([some 4, none, some 6], 2), by simp, by simp⟩

/-- Two instances of two channels and three fields. -/
example : (loadUeaArff (.relational 3 [([[some 1, some 2, some 3], [some 4, some 5, some 6]], "a"), ([[none, some 8, some 9], [some 0, some 1, none]], "b")]) :
    Except PyErr (Arr3 ℕ × List String)) = .ok (⟨3, 2, [[[some 1, some 4], [some 2, some 5], [some 3, some 6]], [[none, some 0], [some 8, some 1], [some 9, none]]]⟩, ["a", "b"]) := rfl

end Verif
