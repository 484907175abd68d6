import Verif.Model.Masks
/-!
# C07 — how `compute_mask` resolves its three constraint parameters
-/
namespace Verif

/-- No constraint name, both parameters: error. -/
theorem C07_ambiguous (n m : ℕ) (r : ℕ) (s : ℚ) :
    computeMask n m 0 (some r) (some s) = .error .runtimeWarning := rfl

/-- No constraint name, one parameter: the corresponding constraint; none: everything allowed. -/
theorem C07_inferred (n m : ℕ) (r : ℕ) (s : ℚ) :
    computeMask n m 0 (some r) none = .ok (sakoeChibaMask n m r) ∧
    computeMask n m 0 none (some s) = itakuraMask n m s ∧
    computeMask n m 0 none none = .ok (fun _ _ => true) := ⟨rfl, rfl, rfl⟩

/-- An explicit constraint wins whatever the other parameter, with documented defaults. -/
theorem C07_explicit (n m : ℕ) (r : ℕ) (s : ℚ) (radius : Option ℕ) (slope : Option ℚ) :
    computeMask n m 2 (some r) slope = .ok (sakoeChibaMask n m r) ∧
    computeMask n m 2 none slope = .ok (sakoeChibaMask n m 1) ∧
    computeMask n m 1 radius (some s) = itakuraMask n m s ∧
    computeMask n m 1 radius none = itakuraMask n m 2 := by
  refine ⟨rfl, rfl, ?_, ?_⟩ <;> simp [computeMask]

/-- Constraint names: exactly these are known, everything else raises `KeyError`. -/
theorem C07_names (g : Option String) :
    (gcCode g = .ok 0 ↔ g = none ∨ g = some "") ∧
    (gcCode g = .ok 1 ↔ g = some "itakura") ∧
    (gcCode g = .ok 2 ↔ g = some "sakoe_chiba") ∧
    (gcCode g = .error .keyError ↔
      g ≠ none ∧ g ≠ some "" ∧ g ≠ some "itakura" ∧ g ≠ some "sakoe_chiba") := by
  unfold gcCode
  split <;> simp_all

/-- A code other than 0, 1, 2 (which is what `_cdist_frechet` passes, see C11) disables every
constraint silently. -/
theorem C07_unknown_code (n m gc : ℕ) (hgc : 2 < gc) (radius : Option ℕ) (slope : Option ℚ) :
    computeMask n m gc radius slope = .ok (fun _ _ => true) := by
  have h0 : gc ≠ 0 := by omega
  have h1 : gc ≠ 1 := by omega
  have h2 : gc ≠ 2 := by omega
  simp [computeMask, h0, h1, h2]
  rfl

example : computeMask 4 4 1 (some 1) (some 2) = itakuraMask 4 4 2 ∧
    gcCode (some "sakoe-chiba") = .error .keyError := ⟨rfl, rfl⟩

end Verif
