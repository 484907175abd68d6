import Verif.Props.C09
import Verif.Props.C10
set_option linter.unusedSectionVars false
/-!
# C11 — cdist_frechet honours global constraints like frechet does
This is **false**: `_cdist_frechet` forwards the constraint *name* where `_compute_mask_generic`
compares with the integer codes, so the constraint and its parameters are ignored.
-/
namespace Verif
open Spec
variable {K : Type} [CommRing K] [LinearOrder K] [IsStrictOrderedRing K]

/-- An untranslated constraint argument gives the all-true mask, whatever the parameters. -/
theorem C11_constraint_ignored (s1 s2 : List (List K)) (g : Option String) (radius : Option ℕ)
    (slope : Option ℚ) : frechetSqArg s1 s2 (.raw g) radius slope = frechetSqGeneric s1 s2 0 none none := by
  simp [frechetSqArg, computeMaskArg, frechetSqGeneric, computeMask]

/-- What does hold: with any constraint argument, entry `(i, j)` of `cdist_frechet(X, Y, ...)` is the
**unconstrained** `frechet` of the original series. Missing for the full statement: the constraint.
The statement therefore holds when no constraint is given. -/
theorem C11_cdist_frechet_partial (l l' : List (Ts K)) (d : ℕ) (hwf : ∀ t ∈ l, t.WF ∧ t.d = d)
    (hwf' : ∀ t ∈ l', t.WF ∧ t.d = d) (g : Option String) (radius : Option ℕ) (slope : Option ℚ)
    (run) (hrun : Execution run) (M : Mat (WithTop K))
    (h : cdistFrechetSq (.series l) (some (.series l')) g radius slope run = .ok M)
    (i j : ℕ) (t t' : Ts K) (hi : l[i]? = some t) (hj : l'[j]? = some t') :
    frechetSq (.twoD t.rows) (.twoD t'.rows) none none none = .ok (M i j) := by
  simp only [cdistFrechetSq, cdistOf, C11_constraint_ignored] at h
  cases hX : toDataset (.series l) with
  | error e => simp [hX, bind, Except.bind] at h
  | ok X =>
    cases hY : toDataset (.series l') with
    | error e => simp [hX, hY, bind, Except.bind] at h
    | ok Y =>
      simp only [hX, hY, bind, Except.bind] at h
      obtain ⟨s, hs, hst⟩ := slot_trim hwf hX hi
      obtain ⟨s', hs', hst'⟩ := slot_trim hwf' hY hj
      have e := C09_cross _ _ _ _ _ _ hrun M h i j s s' hs hs'
      rw [onSlots_congr _ hst hst'] at e
      have w := hwf t (List.mem_of_getElem? hi)
      have w' := hwf' t' (List.mem_of_getElem? hj)
      obtain ⟨x, y, hv, -, -, hf⟩ := validatePair_of_onSlots e w.1 w'.1 (w.2.trans w'.2.symm)
        (g := none) (code := 0) rfl
      simp only [frechetSq, hv, bind, Except.bind]
      exact hf

/-- The full statement is false: `(0, 2, 2)` and `(0, 0, 2)` under a Sakoe-Chiba radius 0 are at
squared Fréchet distance 4 (only the diagonal is allowed), the entry of `cdist_frechet` is 0. -/
theorem C11_false :
    ∃ (l l' : List (Ts ℤ)) (M : Mat (WithTop ℤ)) (t t' : Ts ℤ), (∀ t ∈ l ++ l', t.WF ∧ t.d = 1) ∧
      cdistFrechetSq (.series l) (some (.series l')) (some "sakoe_chiba") (some 0) none seqRun = .ok M ∧
      l[0]? = some t ∧ l'[0]? = some t' ∧
      frechetSq (.twoD t.rows) (.twoD t'.rows) (some "sakoe_chiba") (some 0) none =
        .ok ((4 : ℤ) : WithTop ℤ) ∧ M 0 0 = ((0 : ℤ) : WithTop ℤ) := by
  have w : ∀ xs : List ℤ, (⟨1, xs.map fun x => [some x]⟩ : Ts ℤ).WF := by
    intro xs r hr
    simp only [List.mem_map] at hr
    obtain ⟨x, -, rfl⟩ := hr
    rfl
  refine ⟨[⟨1, [0,2,2].map fun x => [some x]⟩], [⟨1, [0,0,2].map fun x => [some x]⟩],
    _, _, _, ?_, rfl, rfl, rfl, rfl, rfl⟩
  intro t ht
  simp only [List.cons_append, List.nil_append, List.mem_cons, List.not_mem_nil, or_false] at ht
  rcases ht with rfl | rfl
  · exact ⟨w _, rfl⟩
  · exact ⟨w _, rfl⟩

/-- Hypotheses of the partial theorem are met by the same data. -/
example : ∃ M, cdistFrechetSq (.series [⟨1, [[some (0:ℤ)], [some 2]]⟩])
    (some (.series [⟨1, [[some 1], [some 4], [some 0]]⟩])) (some "itakura") (some 3) none seqRun
      = .ok M ∧ M 0 0 = ((4 : ℤ) : WithTop ℤ) := ⟨_, rfl, rfl⟩

end Verif
