import Verif.Model.Dataset
import Verif.Spec.Trailing
import Verif.Proofs.Series
import Mathlib.Data.List.TakeDrop
/-!
Lemmas on trailing NaN rows and datasets.
-/
namespace Verif
open Spec
variable {α : Type}

theorem not_observed_iff {ts : List (List (Option α))} {i : ℕ} :
    ¬ Observed ts i ↔ (ts.getD i []).all Option.isNone = true := by
  unfold Observed
  rw [List.getD_eq_getElem?_getD]
  cases h : ts[i]? with
  | none => simp
  | some r =>
    simp only [Option.getD_some, List.all_eq_true, Option.isNone_iff_eq_none]
    constructor
    · intro hno v hv
      by_contra hne
      exact hno ⟨r, rfl, v, hv, Option.isSome_iff_ne_none.2 hne⟩
    · rintro hall ⟨r', hr', v, hv, hs⟩
      cases hr'
      rw [hall v hv] at hs
      simp at hs

theorem observed_lt {ts : List (List (Option α))} {i : ℕ} (h : Observed ts i) : i < ts.length := by
  obtain ⟨r, hr, -⟩ := h
  exact (List.getElem?_eq_some_iff.1 hr).1

theorem tsSizeLoop_spec (ts : List (List (Option α))) (k : ℕ) :
    tsSizeLoop ts k ≤ k ∧ (tsSizeLoop ts k = 0 ∨ Observed ts (tsSizeLoop ts k - 1)) ∧
      ∀ i, tsSizeLoop ts k ≤ i → i < k → ¬ Observed ts i := by
  induction k with
  | zero => simp [tsSizeLoop]
  | succ k ih =>
    unfold tsSizeLoop
    split_ifs with h
    · refine ⟨by omega, ih.2.1, fun i h1 h2 => ?_⟩
      rcases Nat.lt_succ_iff_lt_or_eq.1 h2 with h' | rfl
      · exact ih.2.2 i h1 h'
      · exact not_observed_iff.2 h
    · refine ⟨le_rfl, Or.inr ?_, fun i h1 h2 => by omega⟩
      by_contra hno
      exact h (not_observed_iff.1 (by simpa using hno))

theorem tsSize_isSize (ts : List (List (Option α))) : IsSize ts (tsSize ts) := by
  obtain ⟨h1, h2, h3⟩ := tsSizeLoop_spec ts ts.length
  refine ⟨h2, fun i hi ho => ?_⟩
  exact h3 i hi (observed_lt ho) ho

theorem IsSize.unique {ts : List (List (Option α))} {a b : ℕ} (ha : IsSize ts a)
    (hb : IsSize ts b) : a = b := by
  rcases ha with ⟨ha1, ha2⟩
  rcases hb with ⟨hb1, hb2⟩
  rcases Nat.lt_trichotomy a b with h | h | h
  · rcases hb1 with rfl | ho
    · omega
    · exact absurd ho (ha2 _ (by omega))
  · exact h
  · rcases ha1 with rfl | ho
    · omega
    · exact absurd ho (hb2 _ (by omega))

theorem tsSize_le (ts : List (List (Option α))) : tsSize ts ≤ ts.length :=
  (tsSizeLoop_spec ts ts.length).1

/-- Two lists with the same observed rows have the same size. -/
theorem tsSize_congr {a b : List (List (Option α))} (h : ∀ i, Observed a i ↔ Observed b i) :
    tsSize a = tsSize b := by
  apply IsSize.unique (tsSize_isSize a)
  obtain ⟨h1, h2⟩ := tsSize_isSize b
  exact ⟨h1.imp id (h _).2, fun i hi => fun ho => h2 i hi ((h i).1 ho)⟩

theorem observed_append_nan (ts pad : List (List (Option α)))
    (hpad : ∀ r ∈ pad, ∀ v ∈ r, v = none) (i : ℕ) :
    Observed (ts ++ pad) i ↔ Observed ts i := by
  unfold Observed
  constructor
  · rintro ⟨r, hr, v, hv, hs⟩
    rw [List.getElem?_append] at hr
    split_ifs at hr with hlt
    · exact ⟨r, hr, v, hv, hs⟩
    · have := hpad r (List.mem_of_getElem? hr) v hv
      subst this; simp at hs
  · rintro ⟨r, hr, v, hv, hs⟩
    refine ⟨r, ?_, v, hv, hs⟩
    rw [List.getElem?_append_left (List.getElem?_eq_some_iff.1 hr).1]
    exact hr

theorem tsSize_append_nan (ts pad : List (List (Option α)))
    (hpad : ∀ r ∈ pad, ∀ v ∈ r, v = none) : tsSize (ts ++ pad) = tsSize ts :=
  tsSize_congr (observed_append_nan ts pad hpad)

theorem take_tsSize_append_nan (ts pad : List (List (Option α)))
    (hpad : ∀ r ∈ pad, ∀ v ∈ r, v = none) :
    (ts ++ pad).take (tsSize (ts ++ pad)) = ts.take (tsSize ts) := by
  rw [tsSize_append_nan ts pad hpad, List.take_append_of_le_length (tsSize_le ts)]

theorem observed_take {ts : List (List (Option α))} {k i : ℕ} (hi : i < k) :
    Observed (ts.take k) i ↔ Observed ts i := by
  unfold Observed
  rw [List.getElem?_take_of_lt hi]

theorem tsSize_take (ts : List (List (Option α))) : tsSize (ts.take (tsSize ts)) = tsSize ts := by
  apply tsSize_congr
  intro i
  rcases Nat.lt_or_ge i (tsSize ts) with h | h
  · exact observed_take h
  · constructor
    · intro ho
      have := observed_lt ho
      rw [List.length_take] at this
      omega
    · intro ho
      exact absurd ho ((tsSize_isSize ts).2 i h)

theorem take_tsSize_idem (ts : List (List (Option α))) :
    (ts.take (tsSize ts)).take (tsSize (ts.take (tsSize ts))) = ts.take (tsSize ts) := by
  rw [tsSize_take, List.take_take, min_self]

theorem mapM_except_ok {β γ : Type} (f : β → Except PyErr γ) (g : β → γ) :
    ∀ l : List β, (∀ b ∈ l, f b = .ok (g b)) → l.mapM f = .ok (l.map g) := by
  intro l
  induction l with
  | nil => intro _; rfl
  | cons a l ih =>
    intro h
    rw [List.mapM_cons, h a (by simp), ih (fun b hb => h b (by simp [hb]))]
    rfl

theorem mapM_except_inv {β γ : Type} (f : β → Except PyErr γ) :
    ∀ (l : List β) (r : List γ), l.mapM f = .ok r → List.Forall₂ (fun b c => f b = .ok c) l r := by
  intro l
  induction l with
  | nil => intro r h; cases h; exact .nil
  | cons a l ih =>
    intro r h
    rw [List.mapM_cons] at h
    simp only [bind, Except.bind, pure, Except.pure] at h
    cases hfa : f a with
    | error e => simp [hfa] at h
    | ok b =>
      cases hl : l.mapM f with
      | error e => simp [hfa, hl] at h
      | ok bs =>
        simp only [hfa, hl, Except.ok.injEq] at h
        subst h
        exact .cons hfa (ih bs hl)

theorem fillSlot_wf {maxSz d : ℕ} {t : Ts α} (hwf : t.WF) (hd : t.d = d) :
    fillSlot maxSz d t =
      .ok (t.rows ++ List.replicate (maxSz - t.rows.length) (List.replicate d none)) := by
  unfold fillSlot
  have h : t.rows.mapM (bcastRow d) = .ok t.rows := by
    have := mapM_except_ok (bcastRow d) id t.rows (fun r hr => by
      unfold bcastRow; rw [if_pos (by rw [hwf r hr, hd])]; rfl)
    simpa using this
  simp only [hd, ne_eq, not_true, false_and, if_false, h, bind, Except.bind, pure, Except.pure]

theorem Ts.trim_wf {t : Ts α} (h : t.WF) : t.trim.WF := fun r hr => h r (List.mem_of_mem_take hr)

theorem le_foldr_max (l : List ℕ) {a : ℕ} (h : a ∈ l) : a ≤ l.foldr max 0 := by
  induction l with
  | nil => simp at h
  | cons b l ih =>
    rcases List.mem_cons.1 h with rfl | h
    · simp
    · simp only [List.foldr_cons]; exact (ih h).trans (le_max_right _ _)

theorem foldr_max_mem_or (l : List ℕ) : l.foldr max 0 = 0 ∨ l.foldr max 0 ∈ l := by
  induction l with
  | nil => simp
  | cons b l ih =>
    simp only [List.foldr_cons]
    rcases le_total b (l.foldr max 0) with h | h
    · rw [max_eq_right h]
      rcases ih with h' | h'
      · exact Or.inl h'
      · exact Or.inr (List.mem_cons_of_mem _ h')
    · rw [max_eq_left h]; exact Or.inr (by simp)

/-- The dataset built from well-formed series of a common width `d`. -/
theorem toDatasetSeries_wf (t0 : Ts α) (l : List (Ts α))
    (hwf : ∀ t ∈ t0 :: l, t.WF ∧ t.d = t0.d) :
    let maxSz := ((t0 :: l).map fun t => tsSize t.rows).foldr max 0
    toDatasetSeries (t0 :: l) = .ok ⟨maxSz, t0.d, (t0 :: l).map fun t =>
      t.rows.take (tsSize t.rows) ++
        List.replicate (maxSz - tsSize t.rows) (List.replicate t0.d none)⟩ := by
  intro maxSz
  unfold toDatasetSeries
  have := mapM_except_ok (fun t : Ts α => fillSlot maxSz t0.d t.trim) (fun t =>
      t.rows.take (tsSize t.rows) ++
        List.replicate (maxSz - tsSize t.rows) (List.replicate t0.d none)) (t0 :: l) (by
    intro t ht
    rw [fillSlot_wf (Ts.trim_wf (hwf t ht).1) (hwf t ht).2]
    simp [Ts.trim, tsSize_le])
  simp only [bind, Except.bind, pure, Except.pure]
  rw [this]

end Verif
