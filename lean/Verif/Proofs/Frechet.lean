import Verif.Model.Frechet
import Verif.Spec.Bottleneck
import Verif.Proofs.Masks
import Verif.Proofs.Series
/-!
Fréchet instance of the dynamic programme.
-/
set_option linter.unusedSectionVars false
namespace Verif
open Spec

variable {K : Type} [CommRing K] [LinearOrder K] [IsStrictOrderedRing K]

theorem frechetStep_mono (d : K) : Monotone (frechetStep d) :=
  fun _ _ h => max_le_max le_rfl h

theorem frechetStep_top (d : K) : frechetStep d ⊤ = ⊤ := max_eq_right le_top

theorem Spec.IsMaxCost.unique {d : ℕ → ℕ → K} {p : List (ℕ × ℕ)} {a b : K} (ha : IsMaxCost d p a)
    (hb : IsMaxCost d p b) : a = b := by
  obtain ⟨⟨c, hc, rfl⟩, h⟩ := ha
  obtain ⟨⟨c', hc', rfl⟩, h'⟩ := hb
  exact le_antisymm (h' c hc) (h c' hc')

theorem frechet_pathCost (d : ℕ → ℕ → K) (hd : ∀ i j, 0 ≤ d i j) (p : List (ℕ × ℕ)) (hp : p ≠ []) :
    ∃ w, IsMaxCost d p w ∧ pathCost frechetStep 0 d p = (w : WithTop K) := by
  induction p using List.reverseRecOn with
  | nil => exact absurd rfl hp
  | append_singleton q c ih =>
    rw [pathCost_append]
    by_cases hq : q = []
    · subst hq
      refine ⟨d c.1 c.2, ⟨⟨c, by simp, rfl⟩, by simp⟩, ?_⟩
      simp only [pathCost, List.foldl_nil, frechetStep]
      apply max_eq_left
      rw [← WithTop.coe_zero, WithTop.coe_le_coe]
      exact hd _ _
    · obtain ⟨w, ⟨⟨c', hc', hw⟩, hle⟩, hcost⟩ := ih hq
      rw [hcost]
      refine ⟨max (d c.1 c.2) w, ⟨?_, ?_⟩, ?_⟩
      · rcases max_choice (d c.1 c.2) w with h | h
        · exact ⟨c, by simp, h.symm⟩
        · exact ⟨c', by simp [hc'], by rw [h, hw]⟩
      · intro c'' hc''
        rcases List.mem_append.1 hc'' with h | h
        · exact (hle c'' h).trans (le_max_right _ _)
        · simp at h; subst h; exact le_max_left _ _
      · simp [frechetStep]

/-- Core statement: finite iff feasible, then the least maximal cost. -/
theorem frechetAccFromDist_spec (mask : Mat Bool) (d : ℕ → ℕ → K) (hd : ∀ i j, 0 ≤ d i j)
    (l1 l2 i j : ℕ) (hi : i < l1) (hj : j < l2) :
    (frechetAccFromDist l1 l2 mask d i j = ⊤ ↔ ¬ ∃ p, Admissible (i+1) (j+1) mask p) ∧
    ∀ w : K, frechetAccFromDist l1 l2 mask d i j = (w : WithTop K) ↔
      IsLeast {c | ∃ p, Admissible (i+1) (j+1) mask p ∧ IsMaxCost d p c} w := by
  have hM := accTableWith_isDP (frechetStep (K := K)) 0 l1 l2 mask d
  have hne : ∀ {p}, Admissible (i+1) (j+1) mask p → p ≠ [] := by
    rintro p ⟨hp, -⟩ rfl
    have := hp.starts; simp at this
  have hle : ∀ p w, Admissible (i+1) (j+1) mask p → IsMaxCost d p w →
      frechetAccFromDist l1 l2 mask d i j ≤ (w : WithTop K) := by
    intro p w hp hw
    obtain ⟨w', hw', hc⟩ := frechet_pathCost d hd p (hne hp)
    obtain rfl := hw.unique hw'
    rw [← hc]
    obtain ⟨i', j', hi', hj', hwp⟩ := isWarpingPath_iff.1 hp.1
    obtain rfl : i' = i := by omega
    obtain rfl : j' = j := by omega
    exact hM.le_cost frechetStep_mono hwp hi hj hp.2
  have hatt : frechetAccFromDist l1 l2 mask d i j ≠ ⊤ → ∃ p w, Admissible (i+1) (j+1) mask p ∧
      IsMaxCost d p w ∧ frechetAccFromDist l1 l2 mask d i j = (w : WithTop K) := by
    intro hf
    obtain ⟨p, hw, hm, hc⟩ := hM.attained frechetStep_top (i+j) i j rfl hi hj hf
    have hadm : Admissible (i+1) (j+1) mask p := ⟨isWarpingPath_iff.2 ⟨i, j, rfl, rfl, hw⟩, hm⟩
    obtain ⟨w, hw, hc'⟩ := frechet_pathCost d hd p (hne hadm)
    exact ⟨p, w, hadm, hw, by rw [← hc', hc]; rfl⟩
  refine ⟨⟨?_, ?_⟩, fun w => ⟨?_, ?_⟩⟩
  · rintro h ⟨p, hp⟩
    obtain ⟨w, hw, -⟩ := frechet_pathCost d hd p (hne hp)
    have := hle p w hp hw
    rw [h] at this
    exact absurd this (by simp)
  · intro h
    by_contra hf
    obtain ⟨p, -, hp, -⟩ := hatt hf
    exact h ⟨p, hp⟩
  · intro h
    obtain ⟨p, w', hp, hw', he⟩ := hatt (by rw [h]; exact WithTop.coe_ne_top)
    rw [h, WithTop.coe_inj] at he
    subst he
    refine ⟨⟨p, hp, hw'⟩, ?_⟩
    rintro c ⟨q, hq, hc⟩
    have := hle q c hq hc
    rw [h, WithTop.coe_le_coe] at this
    exact this
  · rintro ⟨⟨p, hp, hw⟩, hlow⟩
    have h1 := hle p w hp hw
    have hf : frechetAccFromDist l1 l2 mask d i j ≠ ⊤ := by
      intro h
      rw [h] at h1
      exact absurd h1 (by simp)
    obtain ⟨q, w', hq, hw', he⟩ := hatt hf
    rw [he, WithTop.coe_le_coe] at h1
    rw [he, WithTop.coe_inj]
    exact le_antisymm h1 (hlow ⟨q, hq, hw'⟩)

/-- Comparison principle. -/
theorem frechetAcc_le {n m n' m' : ℕ} {mask mask' : Mat Bool} {d d' : ℕ → ℕ → K}
    (hd : ∀ i j, 0 ≤ d i j) (hd' : ∀ i j, 0 ≤ d' i j)
    (hn : 0 < n) (hm : 0 < m) (hn' : 0 < n') (hm' : 0 < m')
    (h : ∀ p' w', Admissible n' m' mask' p' → IsMaxCost d' p' w' →
      ∃ p w, Admissible n m mask p ∧ IsMaxCost d p w ∧ w ≤ w') :
    lastEntry (frechetAccFromDist n m mask d) n m ≤
      lastEntry (frechetAccFromDist n' m' mask' d') n' m' := by
  have s1 := frechetAccFromDist_spec mask d hd n m (n-1) (m-1) (by omega) (by omega)
  have s2 := frechetAccFromDist_spec mask' d' hd' n' m' (n'-1) (m'-1) (by omega) (by omega)
  rw [show n - 1 + 1 = n by omega, show m - 1 + 1 = m by omega] at s1
  rw [show n' - 1 + 1 = n' by omega, show m' - 1 + 1 = m' by omega] at s2
  unfold lastEntry
  rcases eq_or_ne (frechetAccFromDist n' m' mask' d' (n'-1) (m'-1)) ⊤ with h2 | h2
  · rw [h2]; exact le_top
  · obtain ⟨w2, hw2⟩ := WithTop.ne_top_iff_exists.1 h2
    obtain ⟨⟨p', hp', hw'⟩, -⟩ := (s2.2 w2).1 hw2.symm
    obtain ⟨p, w, hp, hw, hle⟩ := h p' w2 hp' hw'
    have h1 : frechetAccFromDist n m mask d (n-1) (m-1) ≠ ⊤ := fun h1 => (s1.1.1 h1) ⟨p, hp⟩
    obtain ⟨w1, hw1⟩ := WithTop.ne_top_iff_exists.1 h1
    have hl := (s1.2 w1).1 hw1.symm
    rw [← hw1, ← hw2, WithTop.coe_le_coe]
    exact (hl.2 ⟨p, hp, hw⟩).trans hle

theorem Spec.IsMaxCost.swap {d : ℕ → ℕ → K} {p : List (ℕ × ℕ)} {w : K} (h : IsMaxCost d p w) :
    IsMaxCost (fun i j => d j i) (p.map Prod.swap) w := by
  obtain ⟨⟨c, hc, hw⟩, hle⟩ := h
  refine ⟨⟨c.swap, List.mem_map.2 ⟨c, hc, rfl⟩, by simpa using hw⟩, ?_⟩
  intro c' hc'
  obtain ⟨c, hc, rfl⟩ := List.mem_map.1 hc'
  simpa using hle c hc

theorem exists_isMaxCost {n m : ℕ} {mask : Mat Bool} (d : ℕ → ℕ → K) (hd : ∀ i j, 0 ≤ d i j)
    {p : List (ℕ × ℕ)} (hp : Admissible n m mask p) : ∃ w, IsMaxCost d p w := by
  have hne : p ≠ [] := by
    rintro rfl
    have := hp.1.starts; simp at this
  obtain ⟨w, hw, -⟩ := frechet_pathCost d hd p hne
  exact ⟨w, hw⟩

end Verif
