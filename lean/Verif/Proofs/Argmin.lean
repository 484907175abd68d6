import Verif.Model.Argmin
import Mathlib.Tactic.Common
/-!
`argmin` over a vector.
-/
namespace Verif

theorem argminL_spec {C : Type*} [LinearOrder C] : ∀ l : List C, l ≠ [] →
    ∃ v, l[argminL l]? = some v ∧ (∀ w ∈ l, v ≤ w) ∧ ∀ k < argminL l, ∀ w, l[k]? = some w → v < w
  | [], h => absurd rfl h
  | [a], _ => ⟨a, rfl, by simp, by simp [argminL]⟩
  | a :: b :: l, _ => by
    obtain ⟨v, h1, h2, h3⟩ := argminL_spec (b :: l) (by simp)
    unfold argminL
    simp only [h1]
    by_cases hlt : v < a
    · rw [if_pos hlt]
      refine ⟨v, by simpa using h1, ?_, ?_⟩
      · intro w hw
        rcases List.mem_cons.1 hw with rfl | hw
        · exact hlt.le
        · exact h2 w hw
      · intro k hk w hw
        cases k with
        | zero => simp at hw; subst hw; exact hlt
        | succ k => exact h3 k (by omega) w (by simpa using hw)
    · rw [if_neg hlt]
      refine ⟨a, by simp, ?_, by simp⟩
      intro w hw
      rcases List.mem_cons.1 hw with rfl | hw
      · exact le_rfl
      · exact (not_lt.1 hlt).trans (h2 w hw)

theorem argminL_isArgmin {C : Type*} [LinearOrder C] : IsArgminL (argminL (C := C)) := by
  intro l hl
  obtain ⟨v, h1, h2, -⟩ := argminL_spec l hl
  exact ⟨v, h1, h2⟩

theorem IsArgminL.lt {C : Type*} [LE C] {am : List C → ℕ} (h : IsArgminL am) {l : List C} (hl : l ≠ []) :
    am l < l.length := by
  obtain ⟨v, hv, -⟩ := h l hl
  exact (List.getElem?_eq_some_iff.1 hv).1

end Verif
