import Verif.Proofs.Cast
import Mathlib.Data.List.Nodup
import Mathlib.Data.List.Perm.Basic
import Mathlib.Tactic.FinCases
/-!
# C26 — conversions to other libraries round-trip
-/
namespace Verif
open Spec
variable {α : Type}

/-- Every dataset `to_time_series_dataset` returns for series of a common width is in tslearn's format. -/
theorem C26_domain (l : List (Ts α)) (d : ℕ) (hwf : ∀ t ∈ l, t.WF ∧ t.d = d) (X : Arr3 α)
    (h : toDataset (.series l) = .ok X) : Formatted X := by
  cases l with
  | nil =>
    cases h
    exact ⟨by intro s hs; simp at hs, fun _ => ⟨rfl, rfl⟩, .inl rfl⟩
  | cons t0 l =>
    obtain ⟨X', h', hw, -, hlen, -, htight, hcont⟩ := C23_content (t0 :: l) d (by simp) hwf
    rw [h] at h'
    cases h'
    refine ⟨hw, fun e => by rw [e] at hlen; simp at hlen, ?_⟩
    rcases htight with e | ⟨t, ht, hz⟩
    · exact .inl e
    · right
      obtain ⟨i, hi⟩ := List.mem_iff_getElem?.1 ht
      obtain ⟨s, hs, hc⟩ := hcont i t hi
      refine ⟨s, List.mem_of_getElem? hs, ?_⟩
      have e := hc X.sz hz
      rw [Nat.sub_self, List.replicate_zero, List.append_nil, IsSize.unique hz (tsSize_isSize _)] at e
      have h2 := tsSize_isSize s
      rw [e, tsSize_take] at h2
      rw [e, IsSize.unique hz (tsSize_isSize _)]
      exact h2

/-- scikit-learn: one row per series, in row-major order: `M[i, t * d + f] = X[i, t, f]`. -/
theorem C26_sklearn (X : Arr3 α) (h : Formatted X) (hne : X.data ≠ []) :
    ∃ M, toSklearn (.series X.slots) = .ok (M, X.d) ∧ M.length = X.data.length ∧
      (∀ r ∈ M, r.length = X.sz * X.d) ∧
      ∀ i < X.data.length, ∀ t < X.sz, ∀ f < X.d, ∃ r, M[i]? = some r ∧ r[t * X.d + f]? = some (X.entry i t f) := by
  refine ⟨X.data.map List.flatten, ?_, by simp, ?_, ?_⟩
  · simp [toSklearn, h.toDataset_slots, bind, Except.bind, pure, Except.pure, hne]
  · intro r hr
    obtain ⟨s, hs, rfl⟩ := List.mem_map.1 hr
    rw [flatten_length_rect (h.wf s hs).2, (h.wf s hs).1]
  · intro i hi t ht f hf
    have hw := h.wf _ (List.getElem_mem hi)
    refine ⟨X.data[i].flatten, by simp [hi], ?_⟩
    rw [flatten_getElem_rect hw.2 t f (by rw [hw.1]; exact ht) hf, Arr3.entry, List.getD_eq_getElem _ _ hi]

/-- seglearn: the list of series without padding, read back as the same dataset. -/
theorem C26_seglearn (X : Arr3 α) (h : Formatted X) :
    ∃ l, toSeglearn (.series X.slots) = .ok l ∧ fromSeglearn l = .ok X ∧ l.length = X.data.length ∧
      ∀ (i : ℕ) (s : List (List (Option α))), X.data[i]? = some s → ∀ n, IsSize s n →
        ∃ t, l[i]? = some t ∧ t.d = X.d ∧ t.rows = s.take n := by
  refine ⟨X.slots.map Ts.trim, ?_, h.toDataset_trim, by simp [Arr3.slots], ?_⟩
  · simp [toSeglearn, checkDataset_false, h.toDataset_slots, bind, Except.bind, pure, Except.pure]
  · intro i s hs n hn
    refine ⟨_, by simp [Arr3.slots, hs]; rfl, rfl, ?_⟩
    rw [IsSize.unique hn (tsSize_isSize s)]
    rfl

theorem transposeOr_inv {t : Ts α} (hw : t.WF) (hd : t.d ≠ 0 ∨ t.rows = []) :
    transposeOrExpand (transposeOrFlatten t) = t := by
  unfold transposeOrFlatten
  split_ifs with h1
  · simp only [transposeOrExpand]
    rw [flatten_singletons fun r hr => by rw [hw r hr, h1]]
    cases t
    simp_all
  · exact Ts.transpose_transpose hw hd

theorem Formatted.trim_ok {X : Arr3 α} (h : Formatted X) {t : Ts α} (ht : t ∈ X.slots) :
    t.trim.WF ∧ (t.trim.d ≠ 0 ∨ t.trim.rows = []) := by
  obtain ⟨s, hs, rfl⟩ := List.mem_map.1 ht
  have hw : (Ts.mk X.d s).WF := (h.wf s hs).2
  refine ⟨Ts.trim_wf hw, ?_⟩
  by_cases hd : X.d = 0
  · right
    have : tsSize s = 0 := by
      rcases (tsSize_isSize s).1 with e | ⟨r, hr, v, hv, -⟩
      · exact e
      · have := (h.wf s hs).2 r (List.mem_of_getElem? hr)
        rw [hd] at this
        rw [List.length_eq_zero_iff.1 this] at hv
        simp at hv
    simp [Ts.trim, this]
  · exact .inl hd

/-- stumpy: 1-D arrays for univariate datasets, `(d, sz_i)` arrays otherwise. -/
theorem C26_stumpy (X : Arr3 α) (h : Formatted X) :
    ∃ l, toStumpy (.series X.slots) = .ok l ∧ fromStumpy l = .ok X ∧ l.length = X.data.length ∧
      ∀ (i : ℕ) (s : List (List (Option α))), X.data[i]? = some s → ∀ n, IsSize s n →
        (X.d = 1 → ∃ xs, l[i]? = some (.one xs) ∧ xs.length = n ∧ ∀ t < n, xs[t]? = some (X.entry i t 0)) ∧
        (X.d ≠ 1 → ∃ a, l[i]? = some (.two a) ∧ a.rows.length = X.d ∧ a.d = n ∧
          ∀ f < X.d, ∀ t < n, ∃ r, a.rows[f]? = some r ∧ r[t]? = some (X.entry i t f)) := by
  refine ⟨X.slots.map fun t => transposeOrFlatten t.trim, ?_, ?_, by simp [Arr3.slots], ?_⟩
  · simp [toStumpy, checkDataset_false, h.toDataset_slots, bind, Except.bind, pure, Except.pure]
  · rw [fromStumpy, List.map_map, ← h.toDataset_trim]
    congr 2
    apply List.map_congr_left
    intro t ht
    exact transposeOr_inv (h.trim_ok ht).1 (h.trim_ok ht).2
  · intro i s hs n hn
    have hi := (List.getElem?_eq_some_iff.1 hs).1
    obtain ⟨hs1, hs2⟩ := h.wf s (List.mem_of_getElem? hs)
    have hnn := IsSize.unique hn (tsSize_isSize s)
    subst hnn
    have hle := tsSize_le s
    have hent : ∀ t f, X.entry i t f = (s.getD t []).getD f none := by
      intro t f
      simp [Arr3.entry, List.getD_eq_getElem?_getD, hs]
    have htake : ∀ t < tsSize s, (s.take (tsSize s)).getD t [] = s.getD t [] := by
      intro t ht
      simp [List.getD_eq_getElem?_getD, ht]
    constructor
    · intro hd
      refine ⟨(s.take (tsSize s)).flatten, ?_, ?_, ?_⟩
      · simp [Arr3.slots, hs, transposeOrFlatten, Ts.trim, hd]
      · rw [flatten_length_rect (d := 1) fun r hr => by rw [hs2 r (List.mem_of_mem_take hr), hd]]
        simp [hle]
      · intro t ht
        have := flatten_getElem_rect (d := 1) (rows := s.take (tsSize s))
          (fun r hr => by rw [hs2 r (List.mem_of_mem_take hr), hd]) t 0 (by simp; omega) (by omega)
        rw [hent, ← htake t ht, ← this]
        simp
    · intro hd
      refine ⟨_, by simp [Arr3.slots, hs, transposeOrFlatten, Ts.trim, hd]; rfl, ?_, ?_, ?_⟩
      · simp [Ts.transpose, Ts.columns]
      · simp [Ts.transpose, hle]
      · intro f hf t ht
        refine ⟨_, by simp [Ts.transpose, Ts.columns, hf]; rfl, ?_⟩
        simp [hent, ht, List.getD_eq_getElem?_getD, List.getElem?_eq_getElem (show t < s.length by omega)]

/-- pyts: accepted exactly for series of equal lengths; read back as the same dataset when there is at
least one series and no missing value (`check_array` refuses NaN). -/
theorem C26_pyts (X : Arr3 α) (h : Formatted X) (hne : X.data ≠ []) (hd : X.d ≠ 0) (hsz : X.sz ≠ 0)
    (heq : ∀ s ∈ X.data, ∀ s' ∈ X.data, ∀ n n', IsSize s n → IsSize s' n' → n = n') :
    ∃ P, toPyts (.series X.slots) = .ok P ∧
      (match P with
        | .flat a => X.d = 1 ∧ a.d = X.sz ∧ a.rows.length = X.data.length ∧
            ∀ i < X.data.length, ∀ t < X.sz, ∃ r, a.rows[i]? = some r ∧ r[t]? = some (X.entry i t 0)
        | .cube Y => X.d ≠ 1 ∧ Y.sz = X.d ∧ Y.d = X.sz ∧ Y.data.length = X.data.length ∧
            ∀ i < X.data.length, ∀ t < X.sz, ∀ f < X.d, Y.entry i f t = X.entry i t f) ∧
      ((∀ i < X.data.length, ∀ t < X.sz, ∀ f < X.d, X.entry i t f ≠ none) → fromPyts P = .ok X) ∧
      ((∃ i < X.data.length, ∃ t < X.sz, ∃ f < X.d, X.entry i t f = none) → fromPyts P = .error .valueError) := by
  have hchk : checkDataset (.series X.slots) false true false = .ok X :=
    (C23_check_dataset _ X h.toDataset_slots false true false).1.2 ⟨by simp, by simp, fun _ => heq⟩
  have hany : (X.data.any fun s => s.any fun r => r.any Option.isNone) = true ↔
      ∃ i < X.data.length, ∃ t < X.sz, ∃ f < X.d, X.entry i t f = none := by
    simp only [List.any_eq_true]
    constructor
    · rintro ⟨s, hs, r, hr, v, hv, hvn⟩
      obtain ⟨i, hi, rfl⟩ := List.mem_iff_getElem.1 hs
      obtain ⟨t, ht, rfl⟩ := List.mem_iff_getElem.1 hr
      obtain ⟨f, hf, rfl⟩ := List.mem_iff_getElem.1 hv
      refine ⟨i, hi, t, (h.wf _ hs).1 ▸ ht, f, (h.wf _ hs).2 _ hr ▸ hf, ?_⟩
      simpa [Arr3.entry, List.getD_eq_getElem?_getD, hi, ht, hf] using hvn
    · rintro ⟨i, hi, t, ht, f, hf, he⟩
      have hw := h.wf _ (List.getElem_mem hi)
      have ht' : t < X.data[i].length := by rw [hw.1]; exact ht
      have hr := hw.2 _ (List.getElem_mem ht')
      have hf' : f < X.data[i][t].length := by rw [hr]; exact hf
      refine ⟨_, List.getElem_mem hi, _, List.getElem_mem ht', _, List.getElem_mem hf', ?_⟩
      simpa [Arr3.entry, List.getD_eq_getElem?_getD, hi, ht', hf'] using he
  by_cases hd1 : X.d = 1
  · have hone : ∀ s ∈ X.data, ∀ r ∈ s, r.length = 1 := fun s hs r hr => by rw [(h.wf s hs).2 r hr, hd1]
    refine ⟨.flat ⟨X.sz, X.data.map List.flatten⟩, ?_, ⟨hd1, rfl, by simp, ?_⟩, ?_⟩
    · simp [toPyts, hchk, bind, Except.bind, pure, Except.pure, hd1]
    · intro i hi t ht
      have hw := h.wf _ (List.getElem_mem hi)
      refine ⟨X.data[i].flatten, by simp [hi], ?_⟩
      have := flatten_getElem_rect (d := 1) (hone _ (List.getElem_mem hi)) t 0 (by rw [hw.1]; exact ht) (by omega)
      simpa [Arr3.entry, List.getD_eq_getElem?_getD, hi] using this
    · have hflat : (X.data.map List.flatten).any (fun r => r.any Option.isNone) =
          X.data.any fun s => s.any fun r => r.any Option.isNone := by
        rw [List.any_map]
        congr 1
        funext s
        simp [List.any_flatten, Function.comp]
      have hback : (X.data.map List.flatten).map (fun r => r.map fun v => [v]) = X.data := by
        rw [List.map_map]
        conv_rhs => rw [← List.map_id X.data]
        apply List.map_congr_left
        intro s hs
        exact flatten_singletons (hone s hs)
      constructor
      · intro hno
        have : ¬ (X.data.any fun s => s.any fun r => r.any Option.isNone) = true := by
          rw [hany]; rintro ⟨i, hi, t, ht, f, hf, he⟩; exact hno i hi t ht f hf he
        simp only [fromPyts, hflat, this, hback, List.map_eq_nil_iff, hne, hsz]
        cases X
        simp_all
      · intro hex
        simp only [fromPyts, hflat, hany.2 hex]
        simp
  · refine ⟨.cube X.swapLast, ?_, ⟨hd1, rfl, rfl, by simp [Arr3.swapLast], ?_⟩, ?_⟩
    · simp [toPyts, hchk, bind, Except.bind, pure, Except.pure, hd1]
    · intro i hi t ht f hf
      have hw := h.wf _ (List.getElem_mem hi)
      have ht' : t < X.data[i].length := by rw [hw.1]; exact ht
      simp [Arr3.swapLast, Arr3.entry, Ts.transpose, Ts.columns, List.getD_eq_getElem?_getD, hi, hf, ht']
    · have hsw : (X.swapLast.data.any fun s => s.any fun r => r.any Option.isNone) = true ↔
          (X.data.any fun s => s.any fun r => r.any Option.isNone) = true := by
        rw [hany]
        simp only [List.any_eq_true, Arr3.swapLast, List.mem_map]
        constructor
        · rintro ⟨_, ⟨s, hs, rfl⟩, r, hr, v, hv, hvn⟩
          obtain ⟨i, hi, rfl⟩ := List.mem_iff_getElem.1 hs
          simp only [Ts.transpose, Ts.columns, List.mem_map, List.mem_range] at hr
          obtain ⟨f, hf, rfl⟩ := hr
          obtain ⟨q, hq, rfl⟩ := List.mem_map.1 hv
          obtain ⟨t, ht, rfl⟩ := List.mem_iff_getElem.1 hq
          refine ⟨i, hi, t, (h.wf _ hs).1 ▸ ht, f, hf, ?_⟩
          simpa [Arr3.entry, List.getD_eq_getElem?_getD, hi, ht] using hvn
        · rintro ⟨i, hi, t, ht, f, hf, he⟩
          have hw := h.wf _ (List.getElem_mem hi)
          have ht' : t < X.data[i].length := by rw [hw.1]; exact ht
          refine ⟨_, ⟨_, List.getElem_mem hi, rfl⟩, X.data[i].map (fun r => r.getD f none), ?_,
            X.data[i][t].getD f none, List.mem_map.2 ⟨_, List.getElem_mem ht', rfl⟩, ?_⟩
          · simp only [Ts.transpose, Ts.columns, List.mem_map, List.mem_range]
            exact ⟨f, hf, rfl⟩
          · simpa [Arr3.entry, List.getD_eq_getElem?_getD, hi, ht'] using he
      have hback : X.swapLast.swapLast = X := by
        have : (X.data.map fun s => (Ts.transpose ⟨X.d, s⟩).rows).map (fun s => (Ts.transpose ⟨X.sz, s⟩).rows) =
            X.data := by
          rw [List.map_map]
          conv_rhs => rw [← List.map_id X.data]
          apply List.map_congr_left
          intro s hs
          have hw := h.wf s hs
          have := Ts.transpose_transpose (t := ⟨X.d, s⟩) hw.2 (.inl hd)
          have e : (Ts.transpose ⟨X.d, s⟩ : Ts α) = ⟨X.sz, (Ts.transpose ⟨X.d, s⟩).rows⟩ := by
            simp [Ts.transpose, hw.1]
          rw [e] at this
          simp only [Function.comp, id]
          rw [this]
        cases X
        simp only [Arr3.swapLast] at this ⊢
        rw [this]
      have hne' : X.swapLast.data ≠ [] := by simpa [Arr3.swapLast] using hne
      constructor
      · intro hno
        have : ¬ (X.data.any fun s => s.any fun r => r.any Option.isNone) = true := by
          rw [hany]; rintro ⟨i, hi, t, ht, f, hf, he⟩; exact hno i hi t ht f hf he
        simp only [fromPyts]
        rw [if_neg, hback]
        push Not
        exact ⟨hne', fun hh => this (hsw.1 hh)⟩
      · intro hex
        simp only [fromPyts]
        rw [if_pos (.inr (hsw.2 (hany.2 hex)))]

/-- Series of different lengths are refused by `to_pyts_dataset`. -/
theorem C26_pyts_refused (X : Arr3 α) (h : Formatted X) (s s' : List (List (Option α))) (hs : s ∈ X.data)
    (hs' : s' ∈ X.data) (n n' : ℕ) (hn : IsSize s n) (hn' : IsSize s' n') (hne : n ≠ n') :
    toPyts (.series X.slots) = .error .valueError := by
  obtain ⟨h1, h2⟩ := C23_check_dataset _ X h.toDataset_slots false true false
  rcases h2 with e | e
  · exact absurd ((h1.1 e).2.2 rfl s hs s' hs' n n' hn hn') hne
  · simp [toPyts, e, bind, Except.bind]

theorem frameCol_range {β : Type} (d : ℕ) (c : ℕ → List β) (f : ℕ) (hf : f < d) :
    frameCol ((List.range d).map fun f => (ColName.dim f, c f)) (.dim f) = some (c f) := by
  unfold frameCol
  have : (((List.range d).map fun f => (ColName.dim f, c f)).find? fun q => q.1 == ColName.dim f) =
      some (ColName.dim f, c f) := by
    induction d with
    | zero => omega
    | succ d ih =>
      rw [List.range_succ, List.map_append, List.find?_append]
      rcases Nat.lt_or_ge f d with h | h
      · rw [ih h]; rfl
      · have he : f = d := by omega
        subst he
        have : (((List.range f).map fun f => (ColName.dim f, c f)).find? fun q => q.1 == ColName.dim f) = none := by
          rw [List.find?_eq_none]
          intro q hq
          obtain ⟨g, hg, rfl⟩ := List.mem_map.1 hq
          have := List.mem_range.1 hg
          simp; omega
        rw [this]
        simp
  rw [this]
  rfl

/-- sktime: a data frame with one column `dim_f` per feature, each cell the samples of one series without
padding; read back as the same dataset. -/
theorem C26_sktime (X : Arr3 α) (h : Formatted X) (hne : X.data ≠ []) (hd : X.d ≠ 0) :
    ∃ F, toSktime (.series X.slots) = .ok F ∧ fromSktime F = .ok X ∧
      F.map Prod.fst = (List.range X.d).map ColName.dim ∧
      ∀ f < X.d, ∃ col, frameCol F (.dim f) = some col ∧ col.length = X.data.length ∧
        ∀ (i : ℕ) (s : List (List (Option α))), X.data[i]? = some s → ∀ n, IsSize s n →
          ∃ cell, col[i]? = some cell ∧ cell.length = n ∧ ∀ t < n, cell[t]? = some (X.entry i t f) := by
  set c : ℕ → List (List (Option α)) := fun f =>
    X.data.map fun s => (s.take (tsSize s)).map fun r => r.getD f none with hc
  have hto : toSktime (.series X.slots) = .ok ((List.range X.d).map fun f => (.dim f, c f)) := by
    simp [toSktime, checkDataset_false, h.toDataset_slots, bind, Except.bind, pure, Except.pure, hc]
  have hcell : ∀ (i : ℕ) (s : List (List (Option α))), X.data[i]? = some s → ∀ f, ∃ cell, (c f)[i]? = some cell ∧
      cell.length = tsSize s ∧ ∀ t < tsSize s, cell[t]? = some (X.entry i t f) := by
    intro i s hs f
    have hle := tsSize_le s
    refine ⟨_, by simp [hc, hs]; rfl, by simp [hle], ?_⟩
    intro t ht
    simp [Arr3.entry, List.getD_eq_getElem?_getD, hs, ht, List.getElem?_eq_getElem (show t < s.length by omega)]
  refine ⟨_, hto, ?_, by simp [Function.comp_def], ?_⟩
  · have hdims : (((List.range X.d).map fun f => (ColName.dim f, c f)).map Prod.fst).filter ColName.startsWithDim =
        (List.range X.d).map ColName.dim := by
      rw [List.map_map, List.filter_eq_self.2]
      · rfl
      · intro q hq
        obtain ⟨g, -, rfl⟩ := List.mem_map.1 hq
        rfl
    have hcols : ((List.range X.d).map fun f => ColName.dim f).map (fun nm =>
        (frameCol ((List.range X.d).map fun f => (ColName.dim f, c f)) nm).getD []) = (List.range X.d).map c := by
      rw [List.map_map]
      apply List.map_congr_left
      intro f hf
      simp only [Function.comp]
      rw [frameCol_range _ _ _ (List.mem_range.1 hf)]
      rfl
    have hmax : ((((List.range X.d).map c).map fun c => c.map List.length).flatten).foldr max 0 = X.sz := by
      have hlens : ∀ f, (c f).map List.length = X.data.map tsSize := by
        intro f
        simp only [hc, List.map_map]
        apply List.map_congr_left
        intro s hs
        simp [tsSize_le]
      apply le_antisymm
      · rcases foldr_max_mem_or ((((List.range X.d).map c).map fun c => c.map List.length).flatten) with e | e
        · omega
        · rw [← h.sz_eq]
          simp only [List.map_map, List.mem_flatten, List.mem_map, Function.comp] at e
          obtain ⟨l, ⟨f, -, rfl⟩, hl⟩ := e
          rw [hlens] at hl
          rw [List.map_map]
          exact le_foldr_max _ hl
      · rw [← h.sz_eq]
        rcases foldr_max_mem_or (X.data.map tsSize) with e | e
        · omega
        · apply le_foldr_max
          simp only [List.map_map, List.mem_flatten, List.mem_map, Function.comp]
          exact ⟨_, ⟨0, List.mem_range.2 (by omega), rfl⟩, by rw [hlens]; exact e⟩
    have h0 := frameCol_range X.d c 0 (by omega)
    have hlen0 : (c 0).length = X.data.length := by simp [hc]
    simp only [fromSktime, hdims, List.length_map, List.length_range, hcols, hmax, h0, hlen0, bind, Except.bind,
      pure, Except.pure, List.isPerm_iff.2 (List.Perm.refl _), not_true, if_false, List.length_eq_zero_iff, hne]
    congr 1
    apply Arr3.eq_build h.wf
    intro i hi t ht f hf
    have hs : X.data[i]? = some X.data[i] := List.getElem?_eq_getElem hi
    obtain ⟨cell, h1, h2, h3⟩ := hcell i _ hs f
    have e1 : ((List.range X.d).map c).getD f [] = c f := by simp [List.getD_eq_getElem?_getD, hf]
    have e2 : (c f).getD i [] = cell := by simp [List.getD_eq_getElem?_getD, h1]
    rw [e1, e2]
    rcases Nat.lt_or_ge t (tsSize X.data[i]) with h' | h'
    · simp [List.getD_eq_getElem?_getD, h3 t h']
    · rw [entry_none (by simpa [List.getD_eq_getElem?_getD, hs] using h')]
      simp [List.getD_eq_getElem?_getD, List.getElem?_eq_none (show cell.length ≤ t by omega)]
  · intro f hf
    refine ⟨_, frameCol_range _ _ _ hf, by simp [hc], ?_⟩
    intro i s hs n hn
    rw [IsSize.unique hn (tsSize_isSize s)]
    exact hcell i s hs f

theorem formatToTslearn_two {t : Ts α} (hw : t.WF) (hd : t.d ≠ 0) :
    formatToTslearn (.two t.transpose) = .ok t := by
  have hne : t.transpose.rows ≠ [] := by
    intro e
    have := congrArg List.length e
    simp [Ts.transpose, Ts.columns] at this
    exact hd this
  have hlen : t.transpose.rows.length = t.d := by simp [Ts.transpose, Ts.columns]
  have hall : t.transpose.rows.map List.length = List.replicate t.d t.rows.length := by
    simp only [Ts.transpose, Ts.columns, List.map_map]
    rw [List.eq_replicate_iff]
    refine ⟨by simp, ?_⟩
    intro b hb
    obtain ⟨f, -, rfl⟩ := List.mem_map.1 hb
    simp
  have hmax : (List.replicate t.d t.rows.length).foldr max 0 = t.rows.length := by
    apply le_antisymm
    · rcases foldr_max_mem_or (List.replicate t.d t.rows.length) with e | e
      · omega
      · rw [List.eq_of_mem_replicate e]
    · exact le_foldr_max _ (List.mem_replicate.2 ⟨hd, rfl⟩)
  simp only [formatToTslearn, hne, if_false, hlen, hall, hmax]
  have h2 := Ts.transpose_transpose hw (.inl hd)
  have h3 : (List.range t.rows.length).map (fun k => (List.range t.d).map fun f =>
      (t.transpose.rows.getD f []).getD k none) = t.rows := by
    apply list_ext_getD _ _ [] (by simp)
    intro i hi
    simp only [List.length_map, List.length_range] at hi
    rw [List.getD_eq_getElem _ _ (by simpa using hi), List.getD_eq_getElem _ _ hi]
    simp only [List.getElem_map, List.getElem_range]
    have hr := hw _ (List.getElem_mem hi)
    apply list_ext_getD _ _ none (by simp [hr])
    intro f hf
    simp only [List.length_map, List.length_range] at hf
    simp [List.getD_eq_getElem?_getD, hf, Ts.transpose, Ts.columns, hi]
  rw [h3]

theorem formatToTslearn_one {t : Ts α} (hw : t.WF) (hd : t.d = 1) :
    formatToTslearn (.one t.rows.flatten) = .ok t := by
  have h1 : ∀ r ∈ t.rows, r.length = 1 := fun r hr => by rw [hw r hr, hd]
  have hlen : t.rows.flatten.length = t.rows.length := by rw [flatten_length_rect h1]; omega
  simp only [formatToTslearn, List.cons_ne_nil, if_false, List.map_cons, List.map_nil, List.foldr_cons,
    List.foldr_nil, hlen, List.length_cons, List.length_nil]
  have h3 : (List.range (max t.rows.length 0)).map (fun k => (List.range (0 + 1)).map fun f =>
      ([t.rows.flatten].getD f []).getD k none) = t.rows := by
    refine Eq.trans ?_ (flatten_singletons h1)
    apply list_ext_getD _ _ [] (by rw [List.length_map, List.length_map, List.length_range, hlen]; simp)
    intro i hi
    simp only [List.length_map, List.length_range] at hi
    have hi' : i < t.rows.flatten.length := by omega
    rw [List.getD_eq_getElem _ _ (by simpa using hi), List.getD_eq_getElem _ _ (by rw [List.length_map]; exact hi')]
    simp only [List.getElem_map, List.getElem_range]
    simp only [List.range_one, List.map_cons, List.map_nil, List.getD_cons_zero, Nat.zero_add]
    rw [List.getD_eq_getElem _ _ hi']
  rw [h3]
  cases t
  simp_all

/-- cesium: the same measurements as for stumpy, read back as the same dataset. -/
theorem C26_cesium (X : Arr3 α) (h : Formatted X) (hd : X.data = [] ∨ X.d ≠ 0) :
    ∃ l, toCesium (.series X.slots) = .ok l ∧ toStumpy (.series X.slots) = .ok l ∧ fromCesium l = .ok X := by
  refine ⟨X.slots.map fun t => transposeOrFlatten t.trim, ?_, ?_, ?_⟩
  · simp only [toCesium, checkDataset_false, h.toDataset_slots, bind, Except.bind, pure, Except.pure]
    rfl
  · simp [toStumpy, checkDataset_false, h.toDataset_slots, bind, Except.bind, pure, Except.pure]
  · have hm : (X.slots.map fun t => transposeOrFlatten t.trim).mapM formatToTslearn =
        .ok (X.slots.map Ts.trim) := by
      have := mapM_except_ok (fun t : Ts α => formatToTslearn (transposeOrFlatten t.trim)) Ts.trim X.slots (by
        intro t ht
        have hw := (h.trim_ok ht).1
        have htd : t.trim.d = X.d := by obtain ⟨s, -, rfl⟩ := List.mem_map.1 ht; rfl
        have hd' : X.d ≠ 0 := by
          rcases hd with e | e
          · simp [Arr3.slots, e] at ht
          · exact e
        unfold transposeOrFlatten
        split_ifs with h1
        · exact formatToTslearn_one hw h1
        · exact formatToTslearn_two hw (by rw [htd]; exact hd'))
      rw [← this, List.mapM_map]
      rfl
    simp only [fromCesium, hm, bind, Except.bind]
    exact h.toDataset_trim

/-- pyflux: a dataset of one series becomes a data frame with a column `dim_f` per feature and is read
back unchanged; other datasets are refused. -/
theorem C26_pyflux (X : Arr3 α) (h : Formatted X) :
    (∀ s, X.data = [s] → X.d ≠ 0 → ∃ F, toPyflux X.slots = .ok F ∧ fromPyflux F = .ok X ∧
      F.map Prod.fst = (List.range X.d).map ColName.dim ∧
      ∀ f < X.d, ∃ col, frameCol F (.dim f) = some col ∧ col.length = X.sz ∧
        ∀ t < X.sz, col[t]? = some (X.entry 0 t f)) ∧
    (X.data.length ≠ 1 → toPyflux X.slots = .error .valueError) := by
  obtain ⟨h1, h2⟩ := C23_check_dataset _ X h.toDataset_slots false true true
  constructor
  · intro s hX hd
    have hs : s ∈ X.data := by simp [hX]
    have hw := h.wf s hs
    have hsl : X.slots = [⟨X.d, s⟩] := by simp [Arr3.slots, hX]
    have hchk : checkDataset (.series X.slots) false true true = .ok X := by
      apply h1.2
      refine ⟨by simp, by simp [hX], fun _ => ?_⟩
      intro a ha b hb n n' hn hn'
      rw [hX, List.mem_singleton] at ha hb
      subst ha hb
      exact IsSize.unique hn hn'
    set c : ℕ → List (Option α) := fun f => s.map fun r => r.getD f none with hc
    have hto : toPyflux X.slots = .ok ((List.range X.d).map fun f => (.dim f, c f)) := by
      rw [hsl] at hchk
      simp only [toPyflux, hsl, hchk, bind, Except.bind, pure, Except.pure]
      simp [hc]
    have hent : ∀ t f, t < X.sz → (c f)[t]? = some (X.entry 0 t f) := by
      intro t f ht
      have ht' : t < s.length := by rw [hw.1]; exact ht
      simp [hc, Arr3.entry, hX, List.getD_eq_getElem?_getD, List.getElem?_eq_getElem ht']
    refine ⟨_, hto, ?_, by simp [Function.comp_def], ?_⟩
    · have hmax : (((List.range X.d).map fun f => ((ColName.dim f, c f) : ColName × List (Option α))).map
          fun c => c.2.length).foldr max 0 = X.sz := by
        have : (((List.range X.d).map fun f => ((ColName.dim f, c f) : ColName × List (Option α))).map
          fun c => c.2.length) = List.replicate X.d X.sz := by
          rw [List.eq_replicate_iff]
          refine ⟨by simp, ?_⟩
          intro b hb
          simp only [List.map_map, List.mem_map, Function.comp] at hb
          obtain ⟨f, -, rfl⟩ := hb
          simp [hc, hw.1]
        rw [this]
        apply le_antisymm
        · rcases foldr_max_mem_or (List.replicate X.d X.sz) with e | e
          · omega
          · rw [List.eq_of_mem_replicate e]
        · exact le_foldr_max _ (List.mem_replicate.2 ⟨hd, rfl⟩)
      simp only [fromPyflux, List.length_map, List.length_range, hd, if_false, hmax, bind, Except.bind, pure,
        Except.pure]
      have hn : X.data.length = 1 := by simp [hX]
      rw [← hn]
      congr 1
      apply Arr3.eq_build h.wf
      intro i hi t ht f hf
      have hi0 : i = 0 := by omega
      subst hi0
      simp [List.getD_eq_getElem?_getD, hf, hent t f ht]
    · intro f hf
      exact ⟨_, frameCol_range _ _ _ hf, by simp [hc, hw.1], fun t ht => hent t f ht⟩
  · intro hlen
    rcases h2 with e | e
    · exact absurd ((h1.1 e).2.1 rfl) hlen
    · simp [toPyflux, e, bind, Except.bind]

/-- What iterating over a Python set built from `l` guarantees: each element once, in some order. -/
def SetOrder (enum : List ℕ → List ℕ) : Prop := ∀ l, (enum l).Nodup ∧ ∀ k, k ∈ enum l ↔ k ∈ l

theorem flatRows_id {i : ℕ} {t : Ts α} {r : FlatRow α} (h : r ∈ flatRows i t) : r.id = i := by
  obtain ⟨k, -, rfl⟩ := List.mem_map.1 h
  rfl

theorem filter_flat (g : ℕ → Ts α) (n k : ℕ) :
    (((List.range n).map fun i => flatRows i (g i)).flatten).filter (fun r => r.id == k) =
      if k < n then flatRows k (g k) else [] := by
  induction n with
  | zero => simp
  | succ n ih =>
    rw [List.range_succ, List.map_append, List.flatten_append, List.filter_append, ih]
    simp only [List.map_cons, List.map_nil, List.flatten_cons, List.flatten_nil, List.append_nil]
    rcases Nat.lt_trichotomy k n with h | h | h
    · rw [if_pos h, if_pos (by omega), List.filter_eq_nil_iff.2, List.append_nil]
      intro r hr
      rw [flatRows_id hr]
      simp; omega
    · subst h
      rw [if_neg (by omega), if_pos (by omega), List.nil_append, List.filter_eq_self.2]
      intro r hr
      rw [flatRows_id hr]
      simp
    · rw [if_neg (by omega), if_neg (by omega), List.nil_append, List.filter_eq_nil_iff.2]
      intro r hr
      rw [flatRows_id hr]
      simp; omega

/-- tsfresh: the flat frame lists, for every series, its rows in time order; reading it back gives the
series that have at least one row, in the order in which the set of ids is enumerated. -/
theorem C26_tsfresh (X : Arr3 α) (h : Formatted X) (hsz : X.sz ≠ 0) (enum : List ℕ → List ℕ) (he : SetOrder enum) :
    ∃ F, toTsfresh (.series X.slots) = .ok F ∧ F.1 = X.d ∧
      (∀ (k : ℕ) (s : List (List (Option α))), X.data[k]? = some s → ∀ n, IsSize s n →
        (F.2.filter fun r => r.id == k) = (List.range n).map fun t => ⟨k, t, s.getD t []⟩) ∧
      ∃ Y, fromTsfresh enum F = .ok Y ∧ Y.sz = X.sz ∧ Y.d = X.d ∧ ∃ ids : List ℕ, ids.Nodup ∧
        ids = enum (F.2.map FlatRow.id) ∧
        (∀ k, k ∈ ids ↔ ∃ s, X.data[k]? = some s ∧ ¬ IsSize s 0) ∧
        Y.data.length = ids.length ∧ ∀ (i k : ℕ), ids[i]? = some k → Y.data[i]? = X.data[k]? := by
  have hne : X.data ≠ [] := fun e => hsz (h.empty e).1
  set g : ℕ → Ts α := fun i => (X.slots.getD i ⟨X.d, []⟩).trim with hg
  have hgk : ∀ (k : ℕ) (s : List (List (Option α))), X.data[k]? = some s → g k = ⟨X.d, s.take (tsSize s)⟩ := by
    intro k s hs
    simp [hg, Arr3.slots, List.getD_eq_getElem?_getD, hs, Ts.trim]
  set rows : List (FlatRow α) := ((List.range X.slots.length).map fun i => flatRows i (g i)).flatten with hrows
  have hnl : X.slots.length = X.data.length := by simp [Arr3.slots]
  have hto : toTsfresh (.series X.slots) = .ok (X.d, rows) := by
    simp [toTsfresh, checkDataset_false, h.toDataset_slots, bind, Except.bind, pure, Except.pure, hne, hrows, hg]
  have hfil : ∀ (k : ℕ) (s : List (List (Option α))), X.data[k]? = some s →
      (rows.filter fun r => r.id == k) = (List.range (tsSize s)).map fun t => ⟨k, t, s.getD t []⟩ := by
    intro k s hs
    have hk := (List.getElem?_eq_some_iff.1 hs).1
    rw [hrows, filter_flat, if_pos (by omega), hgk k s hs]
    simp only [flatRows, List.length_take, min_eq_left (tsSize_le s)]
    apply List.map_congr_left
    intro t ht
    have := List.mem_range.1 ht
    simp [List.getD_eq_getElem?_getD, this]
  obtain ⟨hnd, hmem⟩ := he (rows.map FlatRow.id)
  have hids : ∀ k, k ∈ enum (rows.map FlatRow.id) ↔ ∃ s, X.data[k]? = some s ∧ tsSize s ≠ 0 := by
    intro k
    rw [hmem]
    constructor
    · intro hk
      obtain ⟨r, hr, rfl⟩ := List.mem_map.1 hk
      have hr2 : r ∈ rows.filter fun q => q.id == r.id := List.mem_filter.2 ⟨hr, by simp⟩
      rw [hrows] at hr
      simp only [List.mem_flatten, List.mem_map, List.mem_range] at hr
      obtain ⟨_, ⟨i, hi, rfl⟩, hri⟩ := hr
      have hid := flatRows_id hri
      rw [hnl] at hi
      have hs : X.data[i]? = some X.data[i] := List.getElem?_eq_getElem hi
      refine ⟨X.data[i], by rw [hid, hs], ?_⟩
      intro e0
      rw [hid, hfil i _ hs, e0] at hr2
      simp at hr2
    · rintro ⟨s, hs, h0⟩
      have : (⟨k, 0, s.getD 0 []⟩ : FlatRow α) ∈ rows.filter fun r => r.id == k := by
        rw [hfil k s hs]
        exact List.mem_map.2 ⟨0, List.mem_range.2 (by omega), rfl⟩
      exact List.mem_map.2 ⟨_, (List.mem_filter.1 this).1, rfl⟩
  have hsize0 : ∀ s : List (List (Option α)), ¬ IsSize s 0 ↔ tsSize s ≠ 0 := by
    intro s
    constructor
    · intro hn e
      exact hn (e ▸ tsSize_isSize s)
    · intro hn hz
      exact hn (IsSize.unique (tsSize_isSize s) hz)
  -- some series is as long as the dataset
  obtain ⟨s0, hs0, hz0⟩ := h.tight.resolve_left hsz
  have hz0' : tsSize s0 = X.sz := IsSize.unique (tsSize_isSize s0) hz0
  obtain ⟨k0, hk0⟩ := List.mem_iff_getElem?.1 hs0
  have hk0m : k0 ∈ enum (rows.map FlatRow.id) := (hids k0).2 ⟨s0, hk0, by omega⟩
  have hidne : enum (rows.map FlatRow.id) ≠ [] := fun e => by rw [e] at hk0m; simp at hk0m
  have hmax : ((enum (rows.map FlatRow.id)).map fun k => (rows.filter fun r => r.id == k).length).foldr max 0 =
      X.sz := by
    apply le_antisymm
    · rcases foldr_max_mem_or ((enum (rows.map FlatRow.id)).map fun k =>
          (rows.filter fun r => r.id == k).length) with e | e
      · omega
      · obtain ⟨k, hk, hke⟩ := List.mem_map.1 e
        obtain ⟨s, hs, -⟩ := (hids k).1 hk
        rw [← hke, hfil k s hs, List.length_map, List.length_range, ← (h.wf s (List.mem_of_getElem? hs)).1]
        exact tsSize_le s
    · apply le_foldr_max
      refine List.mem_map.2 ⟨k0, hk0m, ?_⟩
      rw [hfil k0 s0 hk0, List.length_map, List.length_range, hz0']
  refine ⟨_, hto, rfl, ?_, ?_⟩
  · intro k s hs n hn
    rw [IsSize.unique hn (tsSize_isSize s)]
    exact hfil k s hs
  · refine ⟨Arr3.build (enum (rows.map FlatRow.id)).length X.sz X.d fun i t f =>
        match (rows.filter fun r => r.id == (enum (rows.map FlatRow.id)).getD i 0)[t]? with
        | some r => r.vals.getD f none
        | none => none, by
      simp only [fromTsfresh, hidne, if_false, hmax, bind, Except.bind, pure, Except.pure]
      rfl, rfl, rfl, enum (rows.map FlatRow.id), hnd, rfl, ?_, by simp [Arr3.build], ?_⟩
    · intro k
      rw [hids k]
      simp only [hsize0]
    · intro i k hik
      obtain ⟨s, hs, -⟩ := (hids k).1 (List.mem_of_getElem? hik)
      have hil := (List.getElem?_eq_some_iff.1 hik).1
      have hw := h.wf s (List.mem_of_getElem? hs)
      rw [hs]
      simp only [Arr3.build, List.getElem?_map, List.getElem?_range hil, Option.map_some, Option.some.injEq]
      have hki : (enum (rows.map FlatRow.id)).getD i 0 = k := by simp [List.getD_eq_getElem?_getD, hik]
      rw [hki, hfil k s hs]
      apply list_ext_getD _ _ [] (by simp [hw.1])
      intro t ht
      simp only [List.length_map, List.length_range] at ht
      have hts : t < s.length := by rw [hw.1]; exact ht
      have hr := hw.2 _ (List.getElem_mem hts)
      rw [List.getD_eq_getElem _ _ (by simpa using ht), List.getD_eq_getElem _ _ hts]
      simp only [List.getElem_map, List.getElem_range]
      apply list_ext_getD _ _ none (by simp [hr])
      intro f hf
      simp only [List.length_map, List.length_range] at hf
      rw [List.getD_eq_getElem _ _ (by simpa using hf)]
      simp only [List.getElem_map, List.getElem_range]
      rcases Nat.lt_or_ge t (tsSize s) with h' | h'
      · simp [h', List.getD_eq_getElem?_getD, hts]
      · simp only [List.getElem?_eq_none (show ((List.range (tsSize s)).map fun t =>
            (⟨k, t, s.getD t []⟩ : FlatRow α)).length ≤ t by simpa using h')]
        have := entry_none (X := X) (i := k) (t := t) (f := f) (by
          rw [List.getD_eq_getElem?_getD, hs]; exact h')
        have e : X.entry k t f = s[t].getD f none := by
          simp [Arr3.entry, List.getD_eq_getElem?_getD, hs, hts]
        rw [← e, this]

/-- Hence the round trip is the identity when every series has a row and ids are enumerated in
increasing order. -/
theorem C26_tsfresh_identity_partial (X : Arr3 α) (h : Formatted X) (hsz : X.sz ≠ 0)
    (hall : ∀ s ∈ X.data, ¬ IsSize s 0) (enum : List ℕ → List ℕ) (he : SetOrder enum)
    (hasc : ∀ l, (enum l).Pairwise (· < ·)) :
    ∃ F, toTsfresh (.series X.slots) = .ok F ∧ fromTsfresh enum F = .ok X := by
  obtain ⟨F, hto, -, -, Y, hY, h1, h2, ids, -, hids, hmem, hlen, hget⟩ := C26_tsfresh X h hsz enum he
  refine ⟨F, hto, ?_⟩
  have hids' : ids = List.range X.data.length := by
    have ha : ids.Pairwise (· < ·) := hids ▸ hasc _
    have hb : (List.range X.data.length).Pairwise (· < ·) := List.pairwise_lt_range
    refine List.Perm.eq_of_pairwise (fun a b _ _ h1 h2 => absurd h1 (by omega)) ha hb ?_
    rw [List.perm_ext_iff_of_nodup (ha.imp (fun h => Nat.ne_of_lt h)) (hb.imp (fun h => Nat.ne_of_lt h))]
    intro k
    rw [hmem, List.mem_range]
    constructor
    · rintro ⟨s, hs, -⟩
      exact (List.getElem?_eq_some_iff.1 hs).1
    · intro hk
      exact ⟨_, List.getElem?_eq_getElem hk, hall _ (List.getElem_mem hk)⟩
  have hd : Y.data = X.data := by
    apply List.ext_getElem?
    intro i
    rcases Nat.lt_or_ge i X.data.length with hi | hi
    · exact hget i i (by rw [hids', List.getElem?_range hi])
    · rw [List.getElem?_eq_none hi, List.getElem?_eq_none (by rw [hlen, hids', List.length_range]; exact hi)]
  rw [hY]
  cases X; cases Y
  simp only at h1 h2 hd
  subst h1 h2 hd
  rfl

/-- The tsfresh round trip is **false** in general: a series without observation is lost, and the series
come back in the order in which the set is enumerated. -/
theorem C26_tsfresh_false :
    (∃ X : Arr3 ℤ, Formatted X ∧ X.data.length = 2 ∧ ∀ enum, SetOrder enum → ∀ F Y,
      toTsfresh (.series X.slots) = .ok F → fromTsfresh enum F = .ok Y → Y.data.length = 1) ∧
    (∃ X : Arr3 ℤ, Formatted X ∧ (∀ s ∈ X.data, ¬ IsSize s 0) ∧ ∃ enum, SetOrder enum ∧ ∃ F Y,
      toTsfresh (.series X.slots) = .ok F ∧ fromTsfresh enum F = .ok Y ∧ Y.data = X.data.reverse ∧ Y ≠ X) := by
  constructor
  · have hF : Formatted (⟨1, 1, [[[some 5]], [[none]]]⟩ : Arr3 ℤ) := by
      refine ⟨by intro s hs; fin_cases hs <;> simp, by simp, .inr ⟨[[some 5]], by simp, ?_⟩⟩
      exact tsSize_isSize [[some (5 : ℤ)]]
    refine ⟨_, hF, rfl, ?_⟩
    intro enum he F Y hto hfrom
    obtain ⟨F', hto', -, -, Y', hY', -, -, ids, hnd, -, hmem, hlen, -⟩ := C26_tsfresh _ hF (by decide) enum he
    rw [hto] at hto'
    cases hto'
    rw [hfrom] at hY'
    cases hY'
    rw [hlen]
    have : ids = [0] := by
      have h0 : ∀ k, k ∈ ids ↔ k = 0 := by
        intro k
        rw [hmem]
        constructor
        · rintro ⟨s, hs, hz⟩
          match k, hs with
          | 0, _ => rfl
          | 1, hs =>
            simp at hs
            subst hs
            exact absurd (tsSize_isSize [[(none : Option ℤ)]]) hz
          | k + 2, hs => simp at hs
        · rintro rfl
          refine ⟨_, rfl, fun hz => ?_⟩
          have := IsSize.unique hz (tsSize_isSize [[some (5 : ℤ)]])
          simp [tsSize, tsSizeLoop] at this
      match ids, hnd, h0 with
      | [], _, h0 => simpa using h0 0
      | [a], _, h0 => rw [(h0 a).1 (by simp)]
      | a :: b :: l, hnd, h0 =>
        have ha := (h0 a).1 (by simp)
        have hb := (h0 b).1 (by simp)
        subst ha hb
        simp at hnd
    rw [this]
    rfl
  · have hF : Formatted (⟨1, 1, [[[some 5]], [[some 7]]]⟩ : Arr3 ℤ) := by
      refine ⟨by intro s hs; fin_cases hs <;> simp, by simp, .inr ⟨[[some 5]], by simp, ?_⟩⟩
      exact tsSize_isSize [[some (5 : ℤ)]]
    refine ⟨_, hF, ?_, fun l => (List.range (l.foldr max 0 + 1)).reverse.filter fun k => k ∈ l, ?_, (1, [⟨0, 0, [some 5]⟩, ⟨1, 0, [some 7]⟩]),
      ⟨1, 1, [[[some 7]], [[some 5]]]⟩, rfl, ?_, rfl, by simp⟩
    · intro s hs
      fin_cases hs
      · exact fun hz => by simpa [tsSize, tsSizeLoop] using IsSize.unique hz (tsSize_isSize [[some (5 : ℤ)]])
      · exact fun hz => by simpa [tsSize, tsSizeLoop] using IsSize.unique hz (tsSize_isSize [[some (7 : ℤ)]])
    · intro l
      refine ⟨(List.nodup_reverse.2 List.nodup_range).filter _, fun k => ?_⟩
      simp only [List.mem_filter, List.mem_reverse, List.mem_range, decide_eq_true_eq]
      exact ⟨fun h => h.2, fun h => ⟨Nat.lt_succ_of_le (le_foldr_max l h), h⟩⟩
    · rfl

/-- Two series of lengths 2 and 3 with two features. -/
def exampleDataset : Arr3 ℤ :=
  ⟨3, 2, [[[some 1, some 2], [some 3, none], [none, none]], [[some 4, some 5], [none, none], [some 6, some 7]]]⟩

theorem exampleDataset_formatted : Formatted exampleDataset :=
  C26_domain [⟨2, [[some (1:ℤ), some 2], [some 3, none], [none, none]]⟩,
      ⟨2, [[some 4, some 5], [none, none], [some 6, some 7]]⟩] 2
    (by intro t ht; fin_cases ht <;> exact ⟨by intro r hr; fin_cases hr <;> rfl, rfl⟩) _ rfl

example : ∃ l, toStumpy (.series exampleDataset.slots) = .ok l ∧ fromStumpy l = .ok exampleDataset :=
  let ⟨l, h1, h2, _⟩ := C26_stumpy _ exampleDataset_formatted
  ⟨l, h1, h2⟩

example : ∃ F, toSktime (.series exampleDataset.slots) = .ok F ∧ fromSktime F = .ok exampleDataset :=
  let ⟨F, h1, h2, _⟩ := C26_sktime _ exampleDataset_formatted (by decide) (by decide)
  ⟨F, h1, h2⟩

example : toPyts (.series exampleDataset.slots) = .error .valueError :=
  C26_pyts_refused _ exampleDataset_formatted _ _ (List.mem_cons_self ..) (List.mem_cons_of_mem _ (List.mem_cons_self ..))
    2 3 (tsSize_isSize _) (tsSize_isSize _) (by decide)

example : toPyflux exampleDataset.slots = .error .valueError :=
  (C26_pyflux _ exampleDataset_formatted).2 (by decide)

theorem frameCol_perm {β : Type} {F G : List (ColName × List β)} (hp : F.Perm G) (hn : (F.map Prod.fst).Nodup)
    (nm : ColName) : frameCol F nm = frameCol G nm := by
  have key : ∀ {H : List (ColName × List β)}, (H.map Prod.fst).Nodup → ∀ c, frameCol H nm = some c ↔ (nm, c) ∈ H := by
    intro H hH c
    unfold frameCol
    induction H with
    | nil => simp
    | cons a H ih =>
      rw [List.map_cons, List.nodup_cons] at hH
      rw [List.find?_cons]
      by_cases e : a.1 = nm
      · simp only [e, beq_self_eq_true, Option.map_some, Option.some.injEq, List.mem_cons]
        constructor
        · rintro rfl; left; rw [← e]
        · rintro (h | h)
          · rw [← h]
          · exact absurd (List.mem_map.2 ⟨_, h, rfl⟩) (by rw [← e] at *; exact hH.1)
      · have : (a.1 == nm) = false := by simpa using e
        simp only [this, List.mem_cons]
        rw [ih hH.2]
        constructor
        · exact .inr
        · rintro (h | h)
          · exact absurd (by rw [← h]) e
          · exact h
  have hG : (G.map Prod.fst).Nodup := (hp.map Prod.fst).nodup_iff.1 hn
  apply Option.ext
  intro c
  rw [key hn c, key hG c, hp.mem_iff]

/-- The order of the columns of the data frame does not matter. -/
theorem C26_sktime_order {F G : FrameOfSeries α} (hp : F.Perm G) (hn : (F.map Prod.fst).Nodup) :
    fromSktime F = fromSktime G := by
  have hd : ((F.map Prod.fst).filter ColName.startsWithDim).Perm ((G.map Prod.fst).filter ColName.startsWithDim) :=
    (hp.map _).filter _
  have hi : ∀ l : List ColName, l.isPerm ((F.map Prod.fst).filter ColName.startsWithDim) =
      l.isPerm ((G.map Prod.fst).filter ColName.startsWithDim) := by
    intro l
    rw [Bool.eq_iff_iff, List.isPerm_iff, List.isPerm_iff]
    exact ⟨fun h => h.trans hd, fun h => h.trans hd.symm⟩
  have hf : frameCol F = frameCol G := funext fun nm => frameCol_perm hp hn nm
  simp only [fromSktime, hd.length_eq, hi, hf]

example : fromSktime [(ColName.dim 1, [[some (5 : ℕ)]]), (ColName.dim 0, [[some 4]])] =
    fromSktime [(ColName.dim 0, [[some 4]]), (ColName.dim 1, [[some 5]])] :=
  C26_sktime_order (List.Perm.swap ..) (by decide)

/-- Columns whose name does not start with `dim_` are ignored, wherever they stand. -/
theorem C26_sktime_other (F G : FrameOfSeries α) (n : String) (c : List (List (Option α))) :
    fromSktime (F ++ (ColName.other n, c) :: G) = fromSktime (F ++ G) := by
  have h1 : ((F ++ (ColName.other n, c) :: G).map Prod.fst).filter ColName.startsWithDim =
      ((F ++ G).map Prod.fst).filter ColName.startsWithDim := by
    simp [ColName.startsWithDim]
  have h2 : ∀ k, frameCol (F ++ (ColName.other n, c) :: G) (.dim k) = frameCol (F ++ G) (.dim k) := by
    intro k
    simp [frameCol, List.find?_append, List.find?_cons]
  simp only [fromSktime, h1, h2, List.map_map, Function.comp_def]

/-- Names starting with `dim_` that do not count the dimensions are refused. -/
theorem C26_sktime_names (F : FrameOfSeries α) (n : String) (h : ColName.dimOther n ∈ F.map Prod.fst) :
    fromSktime F = .error .valueError := by
  have : ¬ ((List.range ((F.map Prod.fst).filter ColName.startsWithDim).length).map fun f => ColName.dim f).isPerm
      ((F.map Prod.fst).filter ColName.startsWithDim) = true := by
    rw [List.isPerm_iff]
    intro hp
    have := hp.mem_iff.2 (List.mem_filter.2 ⟨h, rfl⟩)
    simp at this
  simp [fromSktime, this, bind, Except.bind, throw, throwThe, MonadExceptOf.throw]

/-- An empty dataset has no scikit-learn form. -/
theorem C26_sklearn_empty : toSklearn (.series ([] : List (Ts α))) = .error .valueError := rfl

example : fromSktime [(ColName.dim 0, [[some (4 : ℕ)]]), (ColName.other "id", [[some 7]])] = fromSktime [(ColName.dim 0, [[some 4]])] :=
  C26_sktime_other [(ColName.dim 0, [[some 4]])] [] "id" [[some 7]]

example : fromSktime [(ColName.dim 0, [[some (4 : ℕ)]]), (ColName.dimOther "dim_x", [[some 7]])] = .error .valueError :=
  C26_sktime_names _ "dim_x" (by simp)

end Verif
