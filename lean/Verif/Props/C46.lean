import Verif.Model.ShapeletFit
import Mathlib.Tactic.Common
/-!
C46: fitting LearningShapelets again.
-/
set_option linter.unusedSectionVars false
namespace Verif

variable (check : ShpData → Option PyErr)

/-- The object as constructed. -/
def Spec.freshShp (o : ShpObj) : ShpObj := { o with fitDims := none }

open Spec

theorem shpRun_params (o : ShpObj) (h : List (ShpData × Option PyErr)) :
    (shpRun check o h).maxSize = o.maxSize ∧ (shpRun check o h).lengths = o.lengths := by
  induction h generalizing o with
  | nil => exact ⟨rfl, rfl⟩
  | cons c h ih =>
    obtain ⟨h1, h2⟩ := ih (shpFit check c.2 o c.1).1
    have : (shpFit check c.2 o c.1).1.maxSize = o.maxSize ∧ (shpFit check c.2 o c.1).1.lengths = o.lengths := by
      unfold shpFit
      split
      · exact ⟨rfl, rfl⟩
      · simp only
        split
        · exact ⟨rfl, rfl⟩
        · split <;> exact ⟨rfl, rfl⟩
    exact ⟨h1.trans this.1, h2.trans this.2⟩

/-- With `max_size` given, a fit does what a fresh estimator would do, after any history. Missing: `max_size=None`, the default, where it is
false. -/
theorem C46_partial (o : ShpObj) (m : ℕ) (hm : o.maxSize = some m) (h : List (ShpData × Option PyErr)) (X : ShpData) (labels : Option PyErr) :
    (shpFit check labels (shpRun check o h) X).2 = (shpFit check labels (freshShp o) X).2 := by
  obtain ⟨h1, h2⟩ := shpRun_params check o h
  generalize shpRun check o h = o' at h1 h2
  have hl : ∀ n, o'.limit n = (freshShp o).limit n := by
    intro n
    unfold ShpObj.limit
    rw [h1, hm]
    simp [freshShp, hm]
  have hp : ∀ Y, shpPreprocess o' Y = shpPreprocess (freshShp o) Y := fun Y => by unfold shpPreprocess; rw [hl]
  have hc : ∀ Y, shpCheck o' Y = shpCheck (freshShp o) Y := fun Y => by unfold shpCheck shpShort; rw [hl, h2]; rfl
  unfold shpFit
  cases check X with
  | some e => rfl
  | none =>
    simp only [hp, hc]
    cases shpCheck (freshShp o) (shpPreprocess (freshShp o) X) with
    | some e => rfl
    | none => cases labels <;> rfl

/-- A history in which no fit has succeeded does not matter. -/
theorem C46_failed_partial (o : ShpObj) (h : List (ShpData × Option PyErr))
    (hf : ∀ c ∈ h, ∃ e, (shpFit check c.2 o c.1).2 = .error e) : shpRun check o h = o := by
  induction h with
  | nil => rfl
  | cons c h ih =>
    obtain ⟨e, he⟩ := hf c (by simp)
    have : (shpFit check c.2 o c.1).1 = o := by
      unfold shpFit at he ⊢
      cases h1 : check c.1 with
      | some e => rfl
      | none =>
        rw [h1] at he
        simp only at he ⊢
        cases h2 : shpCheck o (shpPreprocess o c.1) with
        | some e => rfl
        | none =>
          rw [h2] at he
          simp only at he ⊢
          cases h3 : c.2 with
          | some e => rfl
          | none => rw [h3] at he; cases he
    show shpRun check (shpFit check c.2 o c.1).1 h = o
    rw [this]
    exact ih fun c hc => hf c (by simp [hc])

/-- What happens by default: the number of samples of the first dataset that was fitted is kept for good. -/
theorem C46_actual (o : ShpObj) (hm : o.maxSize = none) (m d : ℕ) (hd : o.fitDims = some (m, d)) (h : List (ShpData × Option PyErr)) :
    ∃ d', (shpRun check o h).fitDims = some (m, d') := by
  induction h generalizing o d with
  | nil => exact ⟨d, hd⟩
  | cons c h ih =>
    have key : ∃ d', (shpFit check c.2 o c.1).1.fitDims = some (m, d') := by
      unfold shpFit
      cases check c.1 with
      | some e => exact ⟨d, hd⟩
      | none =>
        simp only
        cases hc : shpCheck o (shpPreprocess o c.1) with
        | some e => exact ⟨d, hd⟩
        | none =>
          cases c.2 with
          | some e => exact ⟨d, hd⟩
          | none =>
            refine ⟨(shpPreprocess o c.1).d, ?_⟩
            have hlim : ∀ n, o.limit n = m := fun n => by unfold ShpObj.limit; rw [hm, hd]
            have h1 : (shpPreprocess o c.1).sz ≤ m := by
              unfold shpCheck at hc
              rw [hlim] at hc
              by_contra hgt
              rw [if_pos (by omega : (shpPreprocess o c.1).sz > m)] at hc
              split at hc <;> cases hc
            have h2 : m ≤ (shpPreprocess o c.1).sz := by
              unfold shpPreprocess
              rw [hlim]
              split
              · exact Nat.le_refl _
              · omega
            show some ((shpPreprocess o c.1).sz, _) = _
            rw [Nat.le_antisymm h1 h2]
    obtain ⟨d', hd'⟩ := key
    refine ih (shpFit check c.2 o c.1).1 ?_ d' hd'
    exact (shpRun_params check o [c]).1.trans hm

/-- False by default: after one fit, every dataset with more samples is refused, though a fresh estimator takes it. -/
theorem C46_false_longer (o : ShpObj) (hm : o.maxSize = none) (m d : ℕ) (hd : o.fitDims = some (m, d)) (h : List (ShpData × Option PyErr))
    (X : ShpData) (hX : m < X.sz) (hc : check X = none) (labels : Option PyErr) :
    (shpFit check labels (shpRun check o h) X).2 = .error .valueError := by
  obtain ⟨d', hd'⟩ := C46_actual check o hm m d hd h
  have hm' := (shpRun_params check o h).1.trans hm
  generalize shpRun check o h = o' at hd' hm'
  have hlim : ∀ n, o'.limit n = m := fun n => by unfold ShpObj.limit; rw [hm', hd']
  have hp : shpPreprocess o' X = X := by unfold shpPreprocess; rw [hlim, if_neg (by omega)]
  unfold shpFit
  rw [hc]
  simp only [hp]
  have : shpCheck o' X = some .valueError := by
    unfold shpCheck
    rw [hlim, if_pos (show X.sz > m from hX), ite_self]
  rw [this]

/-- False by default: a shorter dataset is padded, where a fresh estimator takes it as it is. -/
theorem C46_false_shorter (o : ShpObj) (hm : o.maxSize = none) (hl : o.lengths = none) (m d : ℕ) (hd : o.fitDims = some (m, d)) (X : ShpData)
    (hX : X.sz < m) (hc : check X = none) :
    (shpFit check none o X).2 = .ok { X with sz := m } ∧ (shpFit check none (freshShp o) X).2 = .ok X := by
  have hlim : ∀ n, o.limit n = m := fun n => by unfold ShpObj.limit; rw [hm, hd]
  have hfr : ∀ n, (freshShp o).limit n = n := fun n => by unfold ShpObj.limit; simp [freshShp, hm]
  constructor
  · have hp : shpPreprocess o X = { X with sz := m } := by unfold shpPreprocess; rw [hlim, if_pos hX]
    unfold shpFit
    rw [hc]
    simp [hp, shpCheck, shpShort, hlim, hl]
  · have hp : shpPreprocess (freshShp o) X = X := by unfold shpPreprocess; rw [hfr, if_neg (by omega)]
    have hl' : (freshShp o).lengths = none := hl
    unfold shpFit
    rw [hc]
    simp [hp, shpCheck, shpShort, hfr, hl']

/-- What the network gets in a query has the number of samples and features it was built for, when the estimator was fitted before with the
parameters it has. -/
theorem C46_query (labels : Option PyErr) (o : ShpObj) (X Z : ShpData) (Y : ShpData) (h : (shpFit check labels o X).2 = .ok Y) (W : ShpData)
    (hq : shpQuery check (shpFit check labels o X).1 Z = .ok W) : W.sz = Y.sz ∧ W.d = Y.d ∧ W.sizes = Z.sizes ∧
    ∀ ls, o.lengths = some ls → ∀ s ∈ Z.sizes, ∀ l ∈ ls, l ≤ s := by
  have hfit : (shpFit check labels o X).1 = { o with fitDims := some (Y.sz, Y.d) } ∧ Y = shpPreprocess o X ∧ Y.sz ≤ o.limit Y.sz ∧
      o.limit X.sz ≤ Y.sz := by
    unfold shpFit at h ⊢
    cases h1 : check X with
    | some e => rw [h1] at h; cases h
    | none =>
      rw [h1] at h
      simp only at h ⊢
      cases h2 : shpCheck o (shpPreprocess o X) with
      | some e => rw [h2] at h; cases h
      | none =>
        rw [h2] at h
        simp only at h ⊢
        cases h3 : labels with
        | some e => rw [h3] at h; cases h
        | none =>
          rw [h3] at h
          cases h
          refine ⟨rfl, rfl, ?_, ?_⟩
          · unfold shpCheck at h2
            by_contra hc
            rw [if_pos (by omega : (shpPreprocess o X).sz > o.limit (shpPreprocess o X).sz)] at h2
            split at h2 <;> cases h2
          · unfold shpPreprocess
            split
            · exact Nat.le_refl _
            · omega
  obtain ⟨e1, e2, e3, e4⟩ := hfit
  rw [e1] at hq
  have hlim : ∀ n, ({ o with fitDims := some (Y.sz, Y.d) } : ShpObj).limit n = Y.sz := by
    intro n
    unfold ShpObj.limit at e3 e4 ⊢
    cases hm : o.maxSize with
    | none => rfl
    | some m =>
      rw [hm] at e3 e4
      simp only at e3 e4 ⊢
      omega
  unfold shpQuery at hq
  simp only at hq
  cases h1 : check Z with
  | some e => rw [h1] at hq; cases hq
  | none =>
    rw [h1] at hq
    simp only at hq
    generalize hP : shpPreprocess { o with fitDims := some (Y.sz, Y.d) } Z = P at hq
    have hPd : P.sizes = Z.sizes ∧ Y.sz ≤ P.sz := by
      rw [← hP]
      unfold shpPreprocess
      rw [hlim]
      split
      · exact ⟨rfl, Nat.le_refl _⟩
      · exact ⟨rfl, by omega⟩
    split at hq
    · cases hq
    · next hd =>
      have hd' : P.d = Y.d := by by_contra hc; exact hd hc
      cases h2 : shpCheck { o with fitDims := some (Y.sz, Y.d) } P with
      | some e => rw [h2] at hq; cases hq
      | none =>
        rw [h2] at hq
        cases hq
        unfold shpCheck at h2
        simp only [hlim] at h2
        split at h2
        · cases h2
        · next hs =>
          split at h2
          · cases h2
          · next hz =>
            refine ⟨by omega, hd', hPd.1, fun ls hls s hsz l hl => ?_⟩
            unfold shpShort at hs
            simp only [hls] at hs
            by_contra hc
            apply hs
            simp only [List.any_eq_true, decide_eq_true_eq]
            exact ⟨s, by rw [hPd.1]; exact hsz, l, hl, by omega⟩

/-- The first fit succeeds exactly when the other checks pass, no shapelet is longer than any series, and the array is within `max_size`
where that is given. -/
theorem C46_lengths (labels : Option PyErr) (o : ShpObj) (hf : o.fitDims = none) (X : ShpData) :
    (∃ Y, (shpFit check labels o X).2 = .ok Y) ↔ check X = none ∧ labels = none ∧ (∀ ls, o.lengths = some ls → ∀ s ∈ X.sizes, ∀ l ∈ ls, l ≤ s) ∧
      ∀ m, o.maxSize = some m → X.sz ≤ m := by
  have hsz : (shpPreprocess o X).sizes = X.sizes := by unfold shpPreprocess; split <;> rfl
  have hshort : shpShort o (shpPreprocess o X) = false ↔ ∀ ls, o.lengths = some ls → ∀ s ∈ X.sizes, ∀ l ∈ ls, l ≤ s := by
    unfold shpShort
    rw [hsz]
    cases o.lengths with
    | none => simp
    | some ls => simp
  have hlong : ¬(shpPreprocess o X).sz > o.limit (shpPreprocess o X).sz ↔ ∀ m, o.maxSize = some m → X.sz ≤ m := by
    unfold shpPreprocess ShpObj.limit
    rw [hf]
    cases o.maxSize with
    | none => simp
    | some m =>
      simp only [Option.some.injEq, forall_eq']
      split
      · simp only; omega
      · omega
  have hcheck : shpCheck o (shpPreprocess o X) = none ↔ shpShort o (shpPreprocess o X) = false ∧
      ¬(shpPreprocess o X).sz > o.limit (shpPreprocess o X).sz := by
    unfold shpCheck
    cases shpShort o (shpPreprocess o X) with
    | true => simp
    | false =>
      simp only [Bool.false_eq_true, if_false, true_and]
      split
      · next h => simp [h]
      · next h => simp [h]
  rw [← hshort, ← hlong, ← hcheck]
  unfold shpFit
  cases check X with
  | some e => simp
  | none =>
    simp only [true_and]
    cases shpCheck o (shpPreprocess o X) with
    | some e => simp
    | none => cases labels <;> simp

/-- A check that refuses datasets without series. -/
def shpSome (X : ShpData) : Option PyErr := if X.sizes = [] then some .valueError else none

example : (shpFit shpSome none (shpRun shpSome ⟨some 7, some [2, 3], none⟩ [(⟨5, 1, [5, 4]⟩, none), (⟨9, 1, [9]⟩, none)]) ⟨6, 2, [6, 6]⟩).2 =
    .ok ⟨7, 2, [6, 6]⟩ := by decide
example : (shpFit shpSome none (shpRun shpSome ⟨none, some [2], none⟩ [(⟨5, 1, [5, 4]⟩, none)]) ⟨6, 1, [6, 6]⟩).2 = .error .valueError ∧
    (shpFit shpSome none ⟨none, some [2], none⟩ ⟨6, 1, [6, 6]⟩).2 = .ok ⟨6, 1, [6, 6]⟩ := by decide
example : (shpFit shpSome none ⟨none, none, some (5, 1)⟩ ⟨4, 1, [4]⟩).2 = .ok ⟨5, 1, [4]⟩ :=
  (C46_false_shorter shpSome ⟨none, none, some (5, 1)⟩ rfl rfl 5 1 rfl ⟨4, 1, [4]⟩ (by decide) rfl).1
example : shpQuery shpSome (shpFit shpSome none ⟨none, some [2], none⟩ ⟨6, 1, [6, 6]⟩).1 ⟨4, 1, [4, 3]⟩ = .ok ⟨6, 1, [4, 3]⟩ := by decide
example : shpRun shpSome ⟨none, none, none⟩ [(⟨3, 1, []⟩, none), (⟨3, 1, [3]⟩, some .valueError)] = ⟨none, none, none⟩ := by decide
example : (shpFit shpSome none ⟨some 6, some [4, 2], none⟩ ⟨6, 1, [4, 6]⟩).2 = .ok ⟨6, 1, [4, 6]⟩ ∧ (shpFit shpSome none ⟨some 6, some [4, 2], none⟩ ⟨6, 1, [3, 6]⟩).2 = .error .valueError :=
  by decide

end Verif
