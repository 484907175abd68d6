import Verif.Props.C09
/-!
Entries of the `cdist_*` matrices of lists of series.
-/
set_option linter.unusedSectionVars false
namespace Verif
open Spec
variable {K : Type} {W : Type} [CommRing K] [LinearOrder K] [IsStrictOrderedRing K]

/-- Two datasets. -/
theorem cdistOf_cross {f : List (List K) → List (List K) → Except PyErr W} {zero : W} {diag : Bool}
    {l l' : List (Ts K)} {d : ℕ} (hwf : ∀ t ∈ l, t.WF ∧ t.d = d) (hwf' : ∀ t ∈ l', t.WF ∧ t.d = d)
    {run} (hrun : Execution run) {M : Mat W}
    (h : cdistOf f zero diag (.series l) (some (.series l')) run = .ok M) {g : Option String} {code : ℕ}
    (hg : gcCode g = .ok code) {i j : ℕ} {t t' : Ts K} (hi : l[i]? = some t) (hj : l'[j]? = some t') :
    ∃ x y, validatePair (.twoD t.rows) (.twoD t'.rows) g = .ok (x, y, code) ∧ x ≠ [] ∧ y ≠ [] ∧
      f x y = .ok (M i j) := by
  simp only [bind, Except.bind, cdistOf] at h
  cases hX : toDataset (.series l) with
  | error e => simp [hX] at h
  | ok X =>
    cases hY : toDataset (.series l') with
    | error e => simp [hX, hY] at h
    | ok Y =>
      simp only [hX, hY] at h
      obtain ⟨s, hs, hst⟩ := slot_trim hwf hX hi
      obtain ⟨s', hs', hst'⟩ := slot_trim hwf' hY hj
      have e := cdistGeneric_cross hrun.faithful h i j s s' hs hs'
      rw [onSlots_congr _ hst hst'] at e
      have w := hwf t (List.mem_of_getElem? hi)
      have w' := hwf' t' (List.mem_of_getElem? hj)
      exact validatePair_of_onSlots e w.1 w'.1 (w.2.trans w'.2.symm) hg

/-- One dataset: upper triangle and (if computed) diagonal; the matrix is symmetric. -/
theorem cdistOf_self {f : List (List K) → List (List K) → Except PyErr W} {zero : W} {diag : Bool}
    {l : List (Ts K)} {d : ℕ} (hwf : ∀ t ∈ l, t.WF ∧ t.d = d)
    {run} (hrun : Execution run) {M : Mat W}
    (h : cdistOf f zero diag (.series l) none run = .ok M) {g : Option String} {code : ℕ}
    (hg : gcCode g = .ok code) {i j : ℕ} {t t' : Ts K} (hi : l[i]? = some t) (hj : l[j]? = some t') :
    M i j = M j i ∧ (i < j ∨ (diag = true ∧ i = j) →
      ∃ x y, validatePair (.twoD t.rows) (.twoD t'.rows) g = .ok (x, y, code) ∧ x ≠ [] ∧ y ≠ [] ∧
      f x y = .ok (M i j)) ∧ (diag = false → i = j → M i j = zero) := by
  simp only [bind, Except.bind, cdistOf] at h
  cases hX : toDataset (.series l) with
  | error e => simp [hX] at h
  | ok X =>
    simp only [hX] at h
    obtain ⟨s, hs, hst⟩ := slot_trim hwf hX hi
    obtain ⟨s', hs', hst'⟩ := slot_trim hwf hX hj
    have w := hwf t (List.mem_of_getElem? hi)
    have w' := hwf t' (List.mem_of_getElem? hj)
    obtain ⟨h1, -, h3, h4⟩ := C09_self _ _ _ _ _ hrun M h i j s s' hs hs'
    refine ⟨h4, ?_, ?_⟩
    · intro hc
      have e : onSlots f s s' = .ok (M i j) := by
        rcases hc with hc | ⟨rfl, rfl⟩
        · exact h1 hc
        · obtain rfl : s = s' := by rw [hs] at hs'; exact Option.some.inj hs'
          simpa using h3 rfl
      rw [onSlots_congr _ hst hst'] at e
      exact validatePair_of_onSlots e w.1 w'.1 (w.2.trans w'.2.symm) hg
    · rintro rfl rfl
      simpa using h3 rfl

/-- One dataset and a symmetric function: every entry. -/
theorem cdistOf_self_symm {f : List (List K) → List (List K) → Except PyErr W} {zero : W}
    {l : List (Ts K)} {d : ℕ} (hwf : ∀ t ∈ l, t.WF ∧ t.d = d)
    {run} (hrun : Execution run) {M : Mat W}
    (h : cdistOf f zero true (.series l) none run = .ok M)
    (hf : ∀ x y, x ≠ [] → y ≠ [] → f x y = f y x) {g : Option String} {code : ℕ}
    (hg : gcCode g = .ok code) {i j : ℕ} {t t' : Ts K} (hi : l[i]? = some t) (hj : l[j]? = some t') :
    ∃ x y, validatePair (.twoD t.rows) (.twoD t'.rows) g = .ok (x, y, code) ∧ x ≠ [] ∧ y ≠ [] ∧
      f x y = .ok (M i j) := by
  rcases Nat.lt_or_ge j i with hji | hij
  · obtain ⟨hsym, h2, -⟩ := cdistOf_self hwf hrun h hg hj hi
    obtain ⟨y, x, hv, hy, hx, hfv⟩ := h2 (.inl hji)
    refine ⟨x, y, ?_, hx, hy, ?_⟩
    · obtain ⟨d1, d2, d3, -, -, d6⟩ := validatePair_ok hv
      have w := hwf t (List.mem_of_getElem? hi)
      have w' := hwf t' (List.mem_of_getElem? hj)
      have d1' : denan t'.trim.rows = some y := d1
      have d2' : denan t.trim.rows = some x := d2
      obtain ⟨x0, y0, hv', -, -, he⟩ := validatePair_of_onSlots (f := fun a b => .ok (a, b))
        (v := (x, y)) (t1 := t) (t2 := t') (by simp [onSlots, d1', d2', hx, hy]) w.1 w'.1
        (w.2.trans w'.2.symm) hg
      rw [hv']
      obtain ⟨rfl, rfl⟩ := Prod.mk.inj (Except.ok.inj he)
      rfl
    · rw [← hsym, hf x y hx hy]; exact hfv
  · obtain ⟨-, h2, -⟩ := cdistOf_self hwf hrun h hg hi hj
    exact h2 (by rcases Nat.eq_or_lt_of_le hij with h | h; exact .inr ⟨rfl, h⟩; exact .inl h)

/-- Values returned by a faithful evaluation, job by job. -/
theorem run_get {V : Type} {run : List (Except PyErr V) → Except PyErr (List V)} (hrun : Execution run)
    {jobs : List (Except PyErr V)} {vals : List V} (h : run jobs = .ok vals) {k : ℕ} {r : Except PyErr V}
    (hk : jobs[k]? = some r) : ∃ v, vals[k]? = some v ∧ r = .ok v := by
  have := (hrun.faithful jobs vals).1 h
  subst this
  rw [List.getElem?_map] at hk
  cases hv : vals[k]? with
  | none => simp [hv] at hk
  | some v =>
    simp only [hv, Option.map_some, Option.some.injEq] at hk
    exact ⟨v, rfl, hk.symm⟩

theorem run_length {V : Type} {run : List (Except PyErr V) → Except PyErr (List V)} (hrun : Execution run)
    {jobs : List (Except PyErr V)} {vals : List V} (h : run jobs = .ok vals) :
    vals.length = jobs.length := by
  have := (hrun.faithful jobs vals).1 h
  subst this
  simp

end Verif
