import Verif.Proofs.Dataset
import Mathlib.Algebra.Order.Ring.Int
/-!
# C23 — dataset construction is faithful and idempotent
-/
namespace Verif
open Spec
variable {α : Type}

/-- Shape: one slot per series, as long as the longest series (without trailing NaN rows), same
width; each slot is the series followed by NaN rows. -/
theorem C23_content (l : List (Ts α)) (d : ℕ) (hne : l ≠ []) (hwf : ∀ t ∈ l, t.WF ∧ t.d = d) :
    ∃ X, toDataset (.series l) = .ok X ∧ X.WF ∧ X.d = d ∧ X.data.length = l.length ∧
      (∀ t ∈ l, ∀ n, IsSize t.rows n → n ≤ X.sz) ∧
      (X.sz = 0 ∨ ∃ t ∈ l, IsSize t.rows X.sz) ∧
      ∀ (i : ℕ) (t : Ts α), l[i]? = some t → ∃ s, X.data[i]? = some s ∧
        ∀ n, IsSize t.rows n →
          s = t.rows.take n ++ List.replicate (X.sz - n) (List.replicate d none) := by
  match l, hne with
  | t0 :: l, _ =>
    obtain ⟨-, hd0⟩ := hwf t0 (by simp)
    subst hd0
    have h := toDatasetSeries_wf t0 l hwf
    set maxSz := ((t0 :: l).map fun t => tsSize t.rows).foldr max 0 with hmax
    have hle : ∀ t ∈ t0 :: l, tsSize t.rows ≤ maxSz := fun t ht =>
      le_foldr_max _ (List.mem_map.2 ⟨t, ht, rfl⟩)
    refine ⟨_, h, ?_, rfl, by simp, ?_, ?_, ?_⟩
    · intro s hs
      simp only [List.mem_map] at hs
      obtain ⟨t, ht, rfl⟩ := hs
      have h1 := hle t ht
      have h2 := tsSize_le t.rows
      constructor
      · simp only [List.length_append, List.length_take, List.length_replicate]
        omega
      · intro r hr
        rcases List.mem_append.1 hr with h' | h'
        · rw [(hwf t ht).1 r (List.mem_of_mem_take h'), (hwf t ht).2]
        · rw [List.eq_of_mem_replicate h']; simp
    · intro t ht n hn
      rw [IsSize.unique hn (tsSize_isSize _)]
      exact hle t ht
    · rcases foldr_max_mem_or ((t0 :: l).map fun t => tsSize t.rows) with h' | h'
      · exact Or.inl h'
      · right
        obtain ⟨t, ht, he⟩ := List.mem_map.1 h'
        refine ⟨t, ht, ?_⟩
        have := tsSize_isSize t.rows
        rw [he] at this
        exact this
    · intro i t hit
      refine ⟨_, by rw [List.getElem?_map, hit]; rfl, ?_⟩
      intro n hn
      rw [IsSize.unique hn (tsSize_isSize _)]

/-- Each original series (without trailing NaN rows) is recovered from its slot by dropping the
trailing NaN rows of the slot. -/
theorem C23_recover (l : List (Ts α)) (d : ℕ) (hwf : ∀ t ∈ l, t.WF ∧ t.d = d) (X : Arr3 α)
    (h : toDataset (.series l) = .ok X) :
    X.slots.map Ts.trim = l.map Ts.trim := by
  match l with
  | [] => cases h; rfl
  | t0 :: l =>
    obtain ⟨-, hd0⟩ := hwf t0 (by simp)
    subst hd0
    rw [toDataset, toDatasetSeries_wf t0 l hwf] at h
    cases h
    simp only [Arr3.slots, List.map_map]
    apply List.map_congr_left
    intro t ht
    simp only [Function.comp, Ts.trim, Ts.mk.injEq]
    refine ⟨(hwf t ht).2.symm, ?_⟩
    rw [take_tsSize_append_nan _ _ (by
      intro r hr v hv
      rw [List.eq_of_mem_replicate hr] at hv
      exact List.eq_of_mem_replicate hv)]
    exact take_tsSize_idem _

/-- Idempotence. -/
theorem C23_idempotent (l : List (Ts α)) (d : ℕ) (hwf : ∀ t ∈ l, t.WF ∧ t.d = d) (X : Arr3 α)
    (h : toDataset (.series l) = .ok X) : toDataset (.series X.slots) = .ok X := by
  match l with
  | [] => cases h; rfl
  | t0 :: l =>
    have hrec := C23_recover (t0 :: l) d hwf X h
    obtain ⟨X', h', hX, hXd, hlen, -⟩ := C23_content (t0 :: l) d (by simp) hwf
    rw [h] at h'
    cases h'
    obtain ⟨-, hd0⟩ := hwf t0 (by simp)
    subst hd0
    -- the slots are well-formed series of width `d`
    have hslots : ∀ t ∈ X.slots, t.WF ∧ t.d = t0.d := by
      intro t ht
      simp only [Arr3.slots, List.mem_map] at ht
      obtain ⟨s, hs, rfl⟩ := ht
      exact ⟨(hX s hs).2, hXd⟩
    have hsl : X.slots.length = (t0 :: l).length := by simp [Arr3.slots, hlen]
    match hS : X.slots with
    | [] => rw [hS] at hsl; simp at hsl
    | u0 :: us =>
      rw [hS] at hrec hslots
      have hd' : u0.d = t0.d := (hslots u0 (by simp)).2
      have h2 := toDatasetSeries_wf u0 us (by rw [hd']; exact hslots)
      rw [toDataset, toDatasetSeries_wf t0 l hwf] at h
      rw [toDataset, h2]
      -- both are functions of the trimmed series
      have e1 : ∀ (ts : List (Ts α)), (ts.map fun t => tsSize t.rows) =
          (ts.map Ts.trim).map fun t => t.rows.length := by
        intro ts
        rw [List.map_map]
        apply List.map_congr_left
        intro t _
        simp [Ts.trim, tsSize_le]
      have e2 : ∀ (ts : List (Ts α)) (m : ℕ), (ts.map fun t => t.rows.take (tsSize t.rows) ++
          List.replicate (m - tsSize t.rows) (List.replicate t0.d (none : Option α))) =
          (ts.map Ts.trim).map fun t => t.rows ++
            List.replicate (m - t.rows.length) (List.replicate t0.d none) := by
        intro ts m
        rw [List.map_map]
        apply List.map_congr_left
        intro t _
        simp [Ts.trim, tsSize_le]
      rw [hd', e1, e2, hrec, ← e1, ← e2]
      exact h

/-- A flat list of numbers is one univariate series. -/
theorem C23_scalars (xs : List (Option α)) (hne : xs ≠ []) :
    toDataset (.scalars xs) = toDataset (.series [⟨1, xs.map fun x => [x]⟩]) := by
  cases xs with
  | nil => exact absurd rfl hne
  | cons x xs => rfl

/-- `check_equal_size` holds exactly when all series have the same length without padding. -/
theorem C23_check_equal_size (l : List (Ts α)) (d : ℕ) (hwf : ∀ t ∈ l, t.WF ∧ t.d = d) :
    ∃ b, checkEqualSize (.series l) = .ok b ∧
      (b = true ↔ ∀ t ∈ l, ∀ t' ∈ l, ∀ n n', IsSize t.rows n → IsSize t'.rows n' → n = n') := by
  match l with
  | [] => exact ⟨true, rfl, by simp⟩
  | t0 :: l =>
    obtain ⟨-, hd0⟩ := hwf t0 (by simp)
    subst hd0
    refine ⟨_, by simp only [checkEqualSize, toDataset, toDatasetSeries_wf t0 l hwf]; rfl, ?_⟩
    simp only [checkEqualSizeArr, List.map_cons, List.all_eq_true, List.mem_map, beq_iff_eq]
    have hsz : ∀ (t : Ts α) (m k : ℕ), tsSize (t.rows.take (tsSize t.rows) ++
        List.replicate m (List.replicate k none)) = tsSize t.rows := by
      intro t m k
      rw [tsSize_append_nan _ _ (by
        intro r hr v hv
        rw [List.eq_of_mem_replicate hr] at hv
        exact List.eq_of_mem_replicate hv), tsSize_take]
    rw [hsz]
    constructor
    · intro h
      have h' : ∀ t ∈ t0 :: l, tsSize t.rows = tsSize t0.rows := by
        intro t ht
        rcases List.mem_cons.1 ht with rfl | ht
        · rfl
        · have := h _ ⟨t, ht, rfl⟩
          rwa [hsz] at this
      intro t ht t' ht' n n' hn hn'
      rw [IsSize.unique hn (tsSize_isSize _), IsSize.unique hn' (tsSize_isSize _), h' t ht, h' t' ht']
    · rintro h s ⟨t, ht, rfl⟩
      rw [hsz]
      exact h t (by simp [ht]) t0 (by simp) _ _ (tsSize_isSize _) (tsSize_isSize _)

/-- `check_dataset` returns the formatted dataset exactly when the requested conditions hold, and a
`ValueError` otherwise. -/
theorem C23_check_dataset (x : DsInput α) (X : Arr3 α) (hX : toDataset x = .ok X) (uni eq single : Bool) :
    (checkDataset x uni eq single = .ok X ↔
      (uni = true → X.d = 1) ∧ (single = true → X.data.length = 1) ∧
      (eq = true → ∀ s ∈ X.data, ∀ s' ∈ X.data, ∀ n n', IsSize s n → IsSize s' n' → n = n')) ∧
    (checkDataset x uni eq single = .ok X ∨ checkDataset x uni eq single = .error .valueError) := by
  have he : checkEqualSizeArr X = true ↔
      ∀ s ∈ X.data, ∀ s' ∈ X.data, ∀ n n', IsSize s n → IsSize s' n' → n = n' := by
    have key : checkEqualSizeArr X = true ↔ ∀ s ∈ X.data, ∀ s' ∈ X.data, tsSize s = tsSize s' := by
      unfold checkEqualSizeArr
      cases X.data with
      | nil => simp
      | cons s0 rest =>
        simp only [List.all_eq_true, beq_iff_eq, List.mem_cons]
        constructor
        · intro h s hs s' hs'
          have e : ∀ s, s = s0 ∨ s ∈ rest → tsSize s = tsSize s0 := by
            rintro s (rfl | hs)
            · rfl
            · exact h s hs
          rw [e s hs, e s' hs']
        · intro h s hs
          exact h s (.inr hs) s0 (.inl rfl)
    rw [key]
    constructor
    · intro h s hs s' hs' n n' hn hn'
      rw [IsSize.unique hn (tsSize_isSize s), IsSize.unique hn' (tsSize_isSize s'), h s hs s' hs']
    · intro h s hs s' hs'
      exact h s hs s' hs' _ _ (tsSize_isSize s) (tsSize_isSize s')
  rw [← he]
  cases hu : uni <;> cases hq : eq <;> cases hs : single <;> by_cases h1 : X.d = 1 <;>
    by_cases h2 : X.data.length = 1 <;> cases h3 : checkEqualSizeArr X <;>
    simp [checkDataset, hX, h1, h2, h3, bind, Except.bind, pure, Except.pure, throw, throwThe,
      MonadExceptOf.throw]

/-- Mixed widths are **not** always rejected: a univariate series placed in a multivariate dataset
is silently broadcast over the features (NumPy assignment), every other mismatch is a `ValueError`. -/
theorem C23_width_mismatch (t0 t1 : Ts α) (h0 : t0.WF) (hw : t1.WF) (hne : t1.d ≠ t0.d) :
    (t1.d ≠ 1 → toDataset (.series [t0, t1]) = .error .valueError) ∧
    (t1.d = 1 → ∃ X, toDataset (.series [t0, t1]) = .ok X ∧
      ∃ s, X.data[1]? = some s ∧ ∀ (i : ℕ) (v : Option α), (t1.trim.rows)[i]? = some [v] →
        s[i]? = some (List.replicate t0.d v)) := by
  constructor
  · intro h1
    simp only [toDataset, toDatasetSeries, List.mapM_cons, List.mapM_nil]
    rw [fillSlot_wf (Ts.trim_wf h0) (show t0.trim.d = t0.d from rfl)]
    simp only [bind, Except.bind, pure, Except.pure]
    have : t1.trim.d ≠ t0.d ∧ t1.trim.d ≠ 1 := ⟨hne, h1⟩
    simp only [fillSlot, this, ne_eq, not_false_eq_true, and_self, if_true, bind, Except.bind, throw,
      throwThe, MonadExceptOf.throw]
  · intro h1
    have hm : t1.trim.rows.mapM (bcastRow t0.d) =
        .ok (t1.trim.rows.map fun r => List.replicate t0.d (r.headD none)) := by
      apply mapM_except_ok
      intro r hr
      have hlen : r.length = 1 := by
        have := Ts.trim_wf hw r hr
        rw [this]; exact h1
      obtain ⟨v, rfl⟩ := List.length_eq_one_iff.1 hlen
      unfold bcastRow
      rw [if_neg (by rw [hlen, ← h1]; exact hne)]
      rfl
    have hd1 : t1.trim.d = 1 := h1
    simp only [toDataset, toDatasetSeries, List.mapM_cons, List.mapM_nil]
    rw [fillSlot_wf (Ts.trim_wf h0) (show t0.trim.d = t0.d from rfl)]
    simp only [bind, Except.bind, pure, Except.pure, fillSlot, hd1, ne_eq, not_true, and_false,
      if_false, hm]
    refine ⟨_, rfl, _, rfl, ?_⟩
    intro i v hv
    have hi := (List.getElem?_eq_some_iff.1 hv).1
    rw [List.getElem?_append_left (by simpa using hi), List.getElem?_map, hv]
    rfl

/-- An empty input, seen as numbers or as series, has shape `(0, 0, 0)`, and no other input has no series. -/
theorem C23_empty (x : DsInput α) (X : Arr3 α) (h : toDataset x = .ok X) :
    (X.data = [] ↔ x = .scalars [] ∨ x = .series []) ∧ (X.data = [] → X.sz = 0 ∧ X.d = 0) := by
  have ser : ∀ (l : List (Ts α)) (X : Arr3 α), toDatasetSeries l = .ok X →
      (X.data = [] ↔ l = []) ∧ (X.data = [] → X.sz = 0 ∧ X.d = 0) := by
    intro l X h
    cases l with
    | nil => simp only [toDatasetSeries, Except.ok.injEq] at h; subst h; simp
    | cons t l =>
      have : X.data ≠ [] := by
        intro e
        simp only [toDatasetSeries, bind, Except.bind, pure, Except.pure] at h
        split at h
        · cases h
        · next data hd =>
          cases h
          simp only at e
          subst e
          rw [List.mapM_cons] at hd
          simp only [bind, Except.bind, pure, Except.pure] at hd
          split at hd
          · cases hd
          · split at hd <;> cases hd
      simp [this]
  cases x with
  | series l =>
    obtain ⟨a, b⟩ := ser l X h
    exact ⟨a.trans (by simp), b⟩
  | scalars xs =>
    cases xs with
    | nil => simp only [toDataset, Except.ok.injEq] at h; subst h; simp
    | cons v xs =>
      obtain ⟨a, b⟩ := ser [⟨1, (v :: xs).map fun x => [x]⟩] X h
      exact ⟨a.trans (by simp), b⟩

example : toDataset (.scalars ([] : List (Option ℕ))) = .ok ⟨0, 0, []⟩ := rfl

/-- Two series of lengths 2 (one of them NaN padded) and 3, two features. -/
example : toDataset (.series [⟨2, [[some (1:ℤ), some 2], [some 3, none], [none, none]]⟩,
      ⟨2, [[some 4, some 5], [none, none], [some 6, some 7]]⟩]) =
    .ok ⟨3, 2, [[[some 1, some 2], [some 3, none], [none, none]],
      [[some 4, some 5], [none, none], [some 6, some 7]]]⟩ := rfl

example : toDataset (.series [⟨2, [[some (1:ℤ), some 2]]⟩, ⟨1, [[some 4], [some 5]]⟩]) =
    .ok ⟨2, 2, [[[some 1, some 2], [none, none]], [[some 4, some 4], [some 5, some 5]]]⟩ := rfl

/-- Two univariate series of different lengths: refused only when equal lengths are required. -/
example : (checkDataset (.series [⟨1, [[some (1:ℤ)]]⟩, ⟨1, [[some 4], [some 5]]⟩]) true false false).isOk = true ∧
    checkDataset (.series [⟨1, [[some (1:ℤ)]]⟩, ⟨1, [[some 4], [some 5]]⟩]) true true false =
      .error .valueError := ⟨rfl, rfl⟩

end Verif
