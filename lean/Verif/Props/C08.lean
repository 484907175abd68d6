import Verif.Proofs.Dataset
import Verif.Model.Frechet
import Verif.Model.Lcss
import Verif.Model.LimitedWarping
import Verif.Model.SoftDtw
import Verif.Model.Gak
import Mathlib.Algebra.Order.Ring.Int
/-!
# C08 — trailing NaN rows never change a distance
-/
namespace Verif
open Spec

/-- The length seen by the metrics: index of the last timestamp with an observed feature, plus one. -/
theorem C08_size {α : Type} (ts : List (List (Option α))) (n : ℕ) :
    tsSize ts = n ↔ (n = 0 ∨ Observed ts (n - 1)) ∧ ∀ i, n ≤ i → ¬ Observed ts i :=
  ⟨fun h => h ▸ tsSize_isSize ts, fun h => IsSize.unique (tsSize_isSize ts) h⟩

/-- Appending all-NaN rows (of any width) does not change the formatted series. -/
theorem C08_to_time_series {α : Type} (rows pad : List (List (Option α)))
    (hpad : ∀ r ∈ pad, ∀ v ∈ r, v = none) :
    toTimeSeries (.twoD (rows ++ pad)) true = toTimeSeries (.twoD rows) true := by
  simp only [toTimeSeries, if_true]
  exact take_tsSize_append_nan rows pad hpad

/-- The same for a univariate series given as a flat list. -/
theorem C08_to_time_series_flat {α : Type} (xs : List (Option α)) (k : ℕ) :
    toTimeSeries (.oneD (xs ++ List.replicate k none)) true = toTimeSeries (.oneD xs) true := by
  simp only [toTimeSeries, if_true, List.map_append]
  apply take_tsSize_append_nan
  simp

/-- Two inputs that only differ by trailing all-NaN rows. -/
def SameUpToPadding {α : Type} (s s' : TsInput (Option α)) : Prop :=
  toTimeSeries s true = toTimeSeries s' true

/-- Every pairwise function that validates its inputs this way ignores the padding (used for each
metric of the library). -/
theorem C08_validate {α : Type} {s1 s1' s2 s2' : TsInput (Option α)} (h1 : SameUpToPadding s1 s1')
    (h2 : SameUpToPadding s2 s2') (g : Option String) :
    validatePair s1 s2 g = validatePair s1' s2' g := by
  unfold SameUpToPadding at h1 h2
  unfold validatePair
  rw [h1, h2]

/-- DTW: value, path, errors. -/
theorem C08_dtw (rows1 pad1 rows2 pad2 : List (List (Option ℝ)))
    (hpad1 : ∀ r ∈ pad1, ∀ v ∈ r, v = none) (hpad2 : ∀ r ∈ pad2, ∀ v ∈ r, v = none)
    (g : Option String) (radius : Option ℕ) (slope : Option ℚ)
    (am : WithTop ℝ → WithTop ℝ → WithTop ℝ → ℕ) :
    dtw (.twoD (rows1 ++ pad1)) (.twoD (rows2 ++ pad2)) g radius slope =
      dtw (.twoD rows1) (.twoD rows2) g radius slope ∧
    dtwPath (.twoD (rows1 ++ pad1)) (.twoD (rows2 ++ pad2)) g radius slope am =
      dtwPath (.twoD rows1) (.twoD rows2) g radius slope am := by
  have h := C08_validate (C08_to_time_series rows1 pad1 hpad1) (C08_to_time_series rows2 pad2 hpad2) g
  unfold dtw dtwSq dtwPath
  rw [h]
  exact ⟨rfl, rfl⟩

/-- Discrete Fréchet distance: value, path, errors. -/
theorem C08_frechet (rows1 pad1 rows2 pad2 : List (List (Option ℝ)))
    (hpad1 : ∀ r ∈ pad1, ∀ v ∈ r, v = none) (hpad2 : ∀ r ∈ pad2, ∀ v ∈ r, v = none)
    (g : Option String) (radius : Option ℕ) (slope : Option ℚ)
    (am : WithTop ℝ → WithTop ℝ → WithTop ℝ → ℕ) :
    frechet (.twoD (rows1 ++ pad1)) (.twoD (rows2 ++ pad2)) g radius slope =
      frechet (.twoD rows1) (.twoD rows2) g radius slope ∧
    frechetPath (.twoD (rows1 ++ pad1)) (.twoD (rows2 ++ pad2)) g radius slope am =
      frechetPath (.twoD rows1) (.twoD rows2) g radius slope am := by
  have h := C08_validate (C08_to_time_series rows1 pad1 hpad1) (C08_to_time_series rows2 pad2 hpad2) g
  unfold frechet frechetSq frechetPath
  rw [h]
  exact ⟨rfl, rfl⟩

/-- LCSS: score, path, errors, for every number of traceback iterations. -/
theorem C08_lcss (rows1 pad1 rows2 pad2 : List (List (Option ℝ)))
    (hpad1 : ∀ r ∈ pad1, ∀ v ∈ r, v = none) (hpad2 : ∀ r ∈ pad2, ∀ v ∈ r, v = none)
    (eps : ℝ) (g : Option String) (radius : Option ℕ) (slope : Option ℚ) (fuel : ℕ) :
    lcss (.twoD (rows1 ++ pad1)) (.twoD (rows2 ++ pad2)) eps g radius slope =
      lcss (.twoD rows1) (.twoD rows2) eps g radius slope ∧
    lcssPath (.twoD (rows1 ++ pad1)) (.twoD (rows2 ++ pad2)) eps g radius slope fuel =
      lcssPath (.twoD rows1) (.twoD rows2) eps g radius slope fuel := by
  have h : lcssArgs (.twoD (rows1 ++ pad1)) (.twoD (rows2 ++ pad2)) g radius slope =
      lcssArgs (.twoD rows1) (.twoD rows2) g radius slope := by
    unfold lcssArgs
    rw [C08_to_time_series rows1 pad1 hpad1, C08_to_time_series rows2 pad2 hpad2]
  unfold lcss lcssPath
  rw [h]
  exact ⟨rfl, rfl⟩

/-- Soft-DTW, its normalised version and its alignment matrix: values and errors. -/
theorem C08_soft_dtw (be : Backend) (rows1 pad1 rows2 pad2 : List (List (Option ℝ)))
    (hpad1 : ∀ r ∈ pad1, ∀ v ∈ r, v = none) (hpad2 : ∀ r ∈ pad2, ∀ v ∈ r, v = none)
    (γ : ℝ) (g : Option String) (radius : Option ℕ) (slope : Option ℚ)
    (am : WithTop ℝ → WithTop ℝ → WithTop ℝ → ℕ) (junk : Mat Fl) :
    softDtw be (.twoD (rows1 ++ pad1)) (.twoD (rows2 ++ pad2)) γ g radius slope =
      softDtw be (.twoD rows1) (.twoD rows2) γ g radius slope ∧
    softDtwNormalized be (.twoD (rows1 ++ pad1)) (.twoD (rows2 ++ pad2)) γ g radius slope =
      softDtwNormalized be (.twoD rows1) (.twoD rows2) γ g radius slope ∧
    softDtwAlignment be (.twoD (rows1 ++ pad1)) (.twoD (rows2 ++ pad2)) γ g radius slope am junk =
      softDtwAlignment be (.twoD rows1) (.twoD rows2) γ g radius slope am junk := by
  have h := C08_validate (C08_to_time_series rows1 pad1 hpad1) (C08_to_time_series rows2 pad2 hpad2) g
  unfold softDtw softDtwNormalized softDtwAlignment
  rw [h]
  exact ⟨rfl, rfl, rfl⟩

/-- GAK, normalised or not: values and errors. -/
theorem C08_gak (rows1 pad1 rows2 pad2 : List (List (Option ℝ)))
    (hpad1 : ∀ r ∈ pad1, ∀ v ∈ r, v = none) (hpad2 : ∀ r ∈ pad2, ∀ v ∈ r, v = none) (σ : ℝ) :
    gak (.twoD (rows1 ++ pad1)) (.twoD (rows2 ++ pad2)) σ = gak (.twoD rows1) (.twoD rows2) σ ∧
    unnormalizedGak (.twoD (rows1 ++ pad1)) (.twoD (rows2 ++ pad2)) σ =
      unnormalizedGak (.twoD rows1) (.twoD rows2) σ := by
  have h : gakArgs (.twoD (rows1 ++ pad1)) (.twoD (rows2 ++ pad2)) σ =
      gakArgs (.twoD rows1) (.twoD rows2) σ := by
    unfold gakArgs
    rw [C08_to_time_series rows1 pad1 hpad1, C08_to_time_series rows2 pad2 hpad2]
  unfold gak unnormalizedGak
  rw [h]
  exact ⟨rfl, rfl⟩

/-- DTW with a limited warping length: the value, and the length the budget is compared with. -/
theorem C08_limited_warping (rows1 pad1 rows2 pad2 : List (List (Option ℝ)))
    (hpad1 : ∀ r ∈ pad1, ∀ v ∈ r, v = none) (hpad2 : ∀ r ∈ pad2, ∀ v ∈ r, v = none) (L : ℕ) :
    dtwLimited (.twoD (rows1 ++ pad1)) (.twoD (rows2 ++ pad2)) L =
      dtwLimited (.twoD rows1) (.twoD rows2) L := by
  unfold dtwLimited lwlArgs
  rw [C08_to_time_series rows1 pad1 hpad1, C08_to_time_series rows2 pad2 hpad2]

/-- An interior NaN row is kept, a trailing one dropped. -/
example : tsSize [[some (1:ℤ), none], [none, none], [none, some 2], [none, none]] = 3 ∧
    toTimeSeries (.twoD ([[some (1:ℤ)], [some 2]] ++ [[none], [none]])) true
      = [[some 1], [some 2]] := by decide

end Verif
