import Verif.Model.Cast
import Verif.Props.C24
import Mathlib.Data.List.GetD
import Mathlib.Tactic.Linarith
import Mathlib.Tactic.Ring
/-!
Lemmas on the conversions to other libraries.
-/
set_option linter.unusedSectionVars false
namespace Verif
open Spec
variable {α : Type}

/-- A dataset as tslearn builds it: a 3-D array whose last time index is used by some series. -/
structure Formatted (X : Arr3 α) : Prop where
  wf : X.WF
  empty : X.data = [] → X.sz = 0 ∧ X.d = 0
  tight : X.sz = 0 ∨ ∃ s ∈ X.data, IsSize s X.sz

theorem list_ext_getD {β : Type} (a b : List β) (e : β) (hl : a.length = b.length)
    (h : ∀ i < a.length, a.getD i e = b.getD i e) : a = b := by
  apply List.ext_getElem hl
  intro i h1 h2
  have := h i h1
  rwa [List.getD_eq_getElem _ _ h1, List.getD_eq_getElem _ _ h2] at this

/-- A slot is the series followed by NaN rows. -/
theorem slot_pad {s : List (List (Option α))} {d : ℕ} (hd : ∀ r ∈ s, r.length = d) :
    s.take (tsSize s) ++ List.replicate (s.length - tsSize s) (List.replicate d none) = s := by
  conv_rhs => rw [← List.take_append_drop (tsSize s) s]
  congr 1
  symm
  rw [List.eq_replicate_iff]
  refine ⟨by simp, fun r hr => ?_⟩
  rw [List.eq_replicate_iff]
  refine ⟨hd r (List.mem_of_mem_drop hr), fun v hv => ?_⟩
  obtain ⟨i, hi⟩ := List.mem_iff_getElem?.1 hr
  rw [List.getElem?_drop] at hi
  have := (tsSize_isSize s).2 (tsSize s + i) (by omega)
  by_contra hne
  exact this ⟨r, hi, v, hv, Option.isSome_iff_ne_none.2 hne⟩

theorem Formatted.sz_eq {X : Arr3 α} (h : Formatted X) :
    (X.data.map tsSize).foldr max 0 = X.sz := by
  apply le_antisymm
  · rcases foldr_max_mem_or (X.data.map tsSize) with e | e
    · omega
    · obtain ⟨s, hs, he⟩ := List.mem_map.1 e
      rw [← he, ← (h.wf s hs).1]
      exact tsSize_le s
  · rcases h.tight with e | ⟨s, hs, hz⟩
    · omega
    · rw [IsSize.unique hz (tsSize_isSize s)]
      exact le_foldr_max _ (List.mem_map.2 ⟨s, hs, rfl⟩)

/-- Series that agree with the slots up to trailing NaN rows give the dataset back. -/
theorem Formatted.rebuild {X : Arr3 α} (h : Formatted X) (l : List (Ts α))
    (hl : l.map Ts.trim = X.slots.map Ts.trim) (hwf : ∀ t ∈ l, t.WF ∧ t.d = X.d) :
    toDataset (.series l) = .ok X := by
  cases l with
  | nil =>
    have hd : X.data = [] := by simpa [Arr3.slots] using hl.symm
    obtain ⟨h1, h2⟩ := h.empty hd
    cases X
    simp only at h1 h2 hd
    subst h1 h2 hd
    rfl
  | cons t0 l =>
    have hd0 := (hwf t0 (by simp)).2
    rw [toDataset, toDatasetSeries_wf t0 l (by rw [hd0]; exact hwf)]
    have hrows : (t0 :: l).map (fun t => t.rows.take (tsSize t.rows)) =
        X.data.map fun s => s.take (tsSize s) := by
      have := congrArg (List.map Ts.rows) hl
      simpa only [Arr3.slots, List.map_map, Function.comp_def, Ts.trim] using this
    have hsz : (t0 :: l).map (fun t => tsSize t.rows) = X.data.map tsSize := by
      have := congrArg (List.map tsSize) hrows
      simpa only [List.map_map, Function.comp_def, tsSize_take] using this
    rw [hsz, h.sz_eq, hd0]
    have e : (t0 :: l).map (fun t => t.rows.take (tsSize t.rows) ++
        List.replicate (X.sz - tsSize t.rows) (List.replicate X.d (none : Option α))) = X.data := by
      have e1 : (t0 :: l).map (fun t => t.rows.take (tsSize t.rows) ++
        List.replicate (X.sz - tsSize t.rows) (List.replicate X.d (none : Option α))) =
        ((t0 :: l).map (fun t => t.rows.take (tsSize t.rows))).map (fun s => s ++
          List.replicate (X.sz - tsSize s) (List.replicate X.d (none : Option α))) := by
        simp only [List.map_map, Function.comp_def, tsSize_take]
      rw [e1, hrows, List.map_map]
      conv_rhs => rw [← List.map_id X.data]
      apply List.map_congr_left
      intro s hs
      obtain ⟨h1, h2⟩ := h.wf s hs
      simp only [Function.comp, tsSize_take, id]
      rw [← h1, slot_pad h2]
    rw [e]

theorem Formatted.toDataset_slots {X : Arr3 α} (h : Formatted X) : toDataset (.series X.slots) = .ok X := by
  apply h.rebuild _ rfl
  intro t ht
  obtain ⟨s, hs, rfl⟩ := List.mem_map.1 ht
  exact ⟨(h.wf s hs).2, rfl⟩

theorem Formatted.toDataset_trim {X : Arr3 α} (h : Formatted X) :
    toDataset (.series (X.slots.map Ts.trim)) = .ok X := by
  apply h.rebuild
  · rw [List.map_map]
    apply List.map_congr_left
    intro t _
    simp [Ts.trim, take_tsSize_idem]
  · intro t ht
    obtain ⟨u, hu, rfl⟩ := List.mem_map.1 ht
    obtain ⟨s, hs, rfl⟩ := List.mem_map.1 hu
    exact ⟨Ts.trim_wf (h.wf s hs).2, rfl⟩

theorem checkDataset_false {x : DsInput α} : checkDataset x false false false = toDataset x := by
  simp only [checkDataset, bind, Except.bind, pure, Except.pure]
  cases toDataset x <;> simp

/-- Transposing twice. -/
theorem Ts.transpose_transpose {t : Ts α} (h : t.WF) (hd : t.d ≠ 0 ∨ t.rows = []) : t.transpose.transpose = t := by
  cases t with
  | mk d rows =>
    simp only [Ts.transpose, Ts.columns, Ts.mk.injEq, List.length_map, List.length_range, true_and]
    apply list_ext_getD _ _ [] (by simp)
    intro i hi
    simp only [List.length_map, List.length_range] at hi
    rw [List.getD_eq_getElem _ _ (by simpa using hi), List.getD_eq_getElem _ _ hi]
    simp only [List.getElem_map, List.getElem_range]
    have hw := h rows[i] (List.getElem_mem hi)
    simp only at hw
    apply list_ext_getD _ _ none (by simp [hw])
    intro f hf
    simp only [List.length_map, List.length_range] at hf
    simp [List.getD_eq_getElem?_getD, List.getElem?_map, List.getElem?_range hf, List.getElem?_eq_getElem hi]

/-- Two arrays of the same shape with the same entries. -/
theorem Arr3.ext_entry {X Y : Arr3 α} (hX : X.WF) (hY : Y.WF) (h1 : X.sz = Y.sz) (h2 : X.d = Y.d)
    (h3 : X.data.length = Y.data.length)
    (h : ∀ i < X.data.length, ∀ t < X.sz, ∀ f < X.d, X.entry i t f = Y.entry i t f) : X = Y := by
  have hd : X.data = Y.data := by
    apply list_ext_getD _ _ [] h3
    intro i hi
    have hi' : i < Y.data.length := h3 ▸ hi
    have hwx := hX _ (List.getElem_mem hi)
    have hwy := hY _ (List.getElem_mem hi')
    have ex : X.data.getD i [] = X.data[i] := List.getD_eq_getElem _ _ hi
    have ey : Y.data.getD i [] = Y.data[i] := List.getD_eq_getElem _ _ hi'
    rw [← ex] at hwx
    rw [← ey] at hwy
    apply list_ext_getD _ _ [] (by rw [hwx.1, hwy.1, h1])
    intro t ht
    have ht' : t < (Y.data.getD i []).length := by rw [hwy.1, ← h1, ← hwx.1]; exact ht
    have hrx := hwx.2 _ (List.getElem_mem ht)
    have hry := hwy.2 _ (List.getElem_mem ht')
    rw [← List.getD_eq_getElem _ [] ht] at hrx
    rw [← List.getD_eq_getElem _ [] ht'] at hry
    apply list_ext_getD _ _ none (by rw [hrx, hry, h2])
    intro f hf
    exact h i hi t (hwx.1 ▸ ht) f (hrx ▸ hf)
  cases X; cases Y
  simp only at h1 h2 hd
  subst h1 h2 hd
  rfl

theorem Arr3.build_wf (n sz d : ℕ) (g : ℕ → ℕ → ℕ → Option α) : (Arr3.build n sz d g).WF := by
  intro s hs
  obtain ⟨i, -, rfl⟩ := List.mem_map.1 hs
  refine ⟨by simp [Arr3.build], fun r hr => ?_⟩
  obtain ⟨t, -, rfl⟩ := List.mem_map.1 hr
  simp [Arr3.build]

theorem Arr3.build_entry {n sz d : ℕ} {g : ℕ → ℕ → ℕ → Option α} {i t f : ℕ} (hi : i < n) (ht : t < sz)
    (hf : f < d) : (Arr3.build n sz d g).entry i t f = g i t f := by
  simp [Arr3.build, Arr3.entry, List.getD_eq_getElem?_getD, hi, ht, hf]

theorem Arr3.build_length (n sz d : ℕ) (g : ℕ → ℕ → ℕ → Option α) : (Arr3.build n sz d g).data.length = n := by
  simp [Arr3.build]

theorem Arr3.eq_build {X : Arr3 α} (hX : X.WF) (g : ℕ → ℕ → ℕ → Option α)
    (h : ∀ i < X.data.length, ∀ t < X.sz, ∀ f < X.d, X.entry i t f = g i t f) :
    Arr3.build X.data.length X.sz X.d g = X := by
  apply Arr3.ext_entry (Arr3.build_wf _ _ _ g) hX rfl rfl (Arr3.build_length ..)
  intro i hi t ht f hf
  rw [Arr3.build_length] at hi
  exact (Arr3.build_entry (sz := X.sz) (d := X.d) hi ht hf).trans (h i hi t ht f hf).symm

/-- An entry past the last observed row is NaN. -/
theorem entry_none {X : Arr3 α} {i t f : ℕ} (h : tsSize (X.data.getD i []) ≤ t) : X.entry i t f = none := by
  have := not_observed_iff.1 ((tsSize_isSize (X.data.getD i [])).2 t h)
  rw [List.all_eq_true] at this
  unfold Arr3.entry
  rw [List.getD_eq_getElem?_getD]
  cases e : ((X.data.getD i []).getD t [])[f]? with
  | none => rfl
  | some v =>
    have := this v (List.mem_of_getElem? e)
    simpa using this

theorem flatten_length_rect {rows : List (List (Option α))} {d : ℕ} (h : ∀ r ∈ rows, r.length = d) :
    rows.flatten.length = rows.length * d := by
  induction rows with
  | nil => simp
  | cons r rows ih =>
    rw [List.flatten_cons, List.length_append, h r (by simp), ih fun r hr => h r (by simp [hr]), List.length_cons]
    ring

theorem flatten_getElem_rect {rows : List (List (Option α))} {d : ℕ} (h : ∀ r ∈ rows, r.length = d) (t f : ℕ)
    (ht : t < rows.length) (hf : f < d) : rows.flatten[t * d + f]? = some ((rows.getD t []).getD f none) := by
  induction rows generalizing t with
  | nil => simp at ht
  | cons r rows ih =>
    have hr := h r (by simp)
    rw [List.flatten_cons]
    cases t with
    | zero =>
      rw [List.getElem?_append_left (by omega)]
      simp [List.getElem?_eq_getElem (show f < r.length by omega)]
    | succ t =>
      rw [List.getElem?_append_right (by rw [hr]; nlinarith), hr, show (t + 1) * d + f - d = t * d + f by
        rw [Nat.add_mul]; omega]
      rw [ih (fun r hr => h r (by simp [hr])) t (by simpa using ht)]
      rfl

theorem flatten_singletons {rows : List (List (Option α))} (h : ∀ r ∈ rows, r.length = 1) :
    rows.flatten.map (fun v => [v]) = rows := by
  induction rows with
  | nil => rfl
  | cons r rows ih =>
    obtain ⟨v, rfl⟩ := List.length_eq_one_iff.1 (h r (by simp))
    rw [List.flatten_cons, List.map_append, ih fun r hr => h r (by simp [hr])]
    rfl

end Verif
