import Verif.Model.Dataset
import Mathlib.Data.List.Basic
/-!
# C25 — `check_dims` decision table
-/
namespace Verif

/-- Missing array. -/
theorem C25_none (f : Option (List ℕ)) (e c : Bool) :
    checkDims none f e c = .error .valueError := rfl

/-- The returned shape is the given one, or the given 2-D shape with a feature axis of size 1. -/
theorem C25_shape (s : List ℕ) (f : Option (List ℕ)) (e c : Bool) (r : List ℕ)
    (h : checkDims (some s) f e c = .ok r) :
    r = if e = true ∧ s.length = 2 then s ++ [1] else s := by
  unfold checkDims at h
  dsimp only at h
  generalize (if e = true ∧ s.length = 2 then s ++ [1] else s) = s' at h ⊢
  cases f with
  | none => simpa using h.symm
  | some f =>
    cases c <;> simp only [if_true, Bool.false_eq_true, if_false] at h
    · split_ifs at h; simpa using h.symm
    · split at h
      · split_ifs at h; simpa using h.symm
      · simp at h

/-- Nothing fitted: always accepted. -/
theorem C25_no_fit (s : List ℕ) (e c : Bool) :
    checkDims (some s) none e c = .ok (if e = true ∧ s.length = 2 then s ++ [1] else s) := rfl

/-- 3-D data against 3-D fitted data, all dimensions but the first must agree. -/
theorem C25_full (n sz d fn fsz fd : ℕ) (e : Bool) :
    checkDims (some [n, sz, d]) (some [fn, fsz, fd]) e false =
      if fsz = sz ∧ fd = d then .ok [n, sz, d] else .error .valueError := by
  by_cases h : fsz = sz ∧ fd = d
  · obtain ⟨rfl, rfl⟩ := h
    simp [checkDims]
  · rw [if_neg h]
    simp only [checkDims, List.length_cons, List.length_nil, List.tail_cons]
    simp
    intro h1 h2
    exact h ⟨h1, h2⟩

/-- Only the number of features must agree. -/
theorem C25_features_only (n sz d fn fsz fd : ℕ) (e : Bool) :
    checkDims (some [n, sz, d]) (some [fn, fsz, fd]) e true =
      if fd = d then .ok [n, sz, d] else .error .valueError := by
  by_cases h : fd = d <;> simp [checkDims, h]

/-- 2-D data is a set of univariate series: accepted against univariate fitted data only. -/
theorem C25_two_dim (n sz fn fsz fd : ℕ) :
    checkDims (some [n, sz]) (some [fn, fsz, fd]) true true =
      (if fd = 1 then .ok [n, sz, 1] else .error .valueError) ∧
    checkDims (some [n, sz]) (some [fn, fsz, fd]) false true = .error .indexError := by
  refine ⟨?_, by simp [checkDims]⟩
  by_cases h : fd = 1 <;> simp [checkDims, h]

example : checkDims (some [10, 3]) (some [5, 3, 1]) true false = .ok [10, 3, 1] ∧
    checkDims (some [10, 3, 1]) (some [5, 5, 2]) true true = .error .valueError := ⟨rfl, rfl⟩

end Verif
