import Verif.Model.Dtw
/-!
Lemmas on series with NaN.
-/
namespace Verif
variable {α : Type}

theorem mapM_option_length {β γ : Type} (f : β → Option γ) :
    ∀ (l : List β) (r : List γ), l.mapM f = some r → r.length = l.length := by
  intro l
  induction l with
  | nil => intro r h; simp at h; simp [h]
  | cons a l ih =>
    intro r h
    rw [List.mapM_cons] at h
    simp only [bind, Option.bind, pure] at h
    cases hfa : f a with
    | none => simp [hfa] at h
    | some b =>
      cases hl : l.mapM f with
      | none => simp [hfa, hl] at h
      | some bs =>
        simp [hfa, hl] at h
        subst h
        simp [ih bs hl]

theorem denan_length {ts : List (List (Option α))} {x : List (List α)} (h : denan ts = some x) :
    x.length = ts.length := mapM_option_length _ _ _ h

theorem mapM_option_mem {α β : Type} {f : α → Option β} {l : List α} {r : List β} (h : l.mapM f = some r)
    {b : β} (hb : b ∈ r) : ∃ a ∈ l, f a = some b := by
  induction l generalizing r with
  | nil =>
    have : r = [] := by simpa using h.symm
    simp [this] at hb
  | cons a l ih =>
    simp only [List.mapM_cons, bind, Option.bind_eq_some_iff, pure, Option.some.injEq] at h
    obtain ⟨c, hc, bs, hbs, rfl⟩ := h
    rcases List.mem_cons.1 hb with rfl | hb
    · exact ⟨a, by simp, hc⟩
    · obtain ⟨a', ha', e⟩ := ih hbs hb
      exact ⟨a', by simp [ha'], e⟩

theorem denan_rect {α : Type} {ts : List (List (Option α))} {x : List (List α)} {d : ℕ}
    (h : denan ts = some x) (hd : ∀ r ∈ ts, r.length = d) : ∀ r ∈ x, r.length = d := by
  intro r hr
  obtain ⟨a, ha, e⟩ := mapM_option_mem h hr
  rw [← hd a ha, ← mapM_option_length _ _ _ e]

/-- What `validatePair` guarantees when it returns. -/
theorem validatePair_ok {s1 s2 : TsInput (Option α)} {g : Option String} {x y : List (List α)}
    {code : ℕ} (h : validatePair s1 s2 g = .ok (x, y, code)) :
    denan (toTimeSeries s1 true) = some x ∧ denan (toTimeSeries s2 true) = some y ∧
      gcCode g = .ok code ∧ x ≠ [] ∧ y ≠ [] ∧
      nFeatures (toTimeSeries s1 true) = nFeatures (toTimeSeries s2 true) := by
  unfold validatePair at h
  simp only [bind, Except.bind, pure, Except.pure, throw, throwThe, MonadExceptOf.throw] at h
  split_ifs at h with h1 h2
  · cases hg : gcCode g with
    | error e => simp [hg] at h
    | ok c =>
      simp only [hg] at h
      cases hd1 : denan (toTimeSeries s1 true) with
      | none => simp [hd1] at h
      | some x1 =>
        cases hd2 : denan (toTimeSeries s2 true) with
        | none => simp [hd1, hd2] at h
        | some x2 =>
          simp only [hd1, hd2, Except.ok.injEq, Prod.mk.injEq] at h
          obtain ⟨rfl, rfl, rfl⟩ := h
          push Not at h1 h2
          refine ⟨rfl, rfl, rfl, ?_, ?_, h2⟩
          · rintro rfl
            exact h1.1 (denan_length hd1).symm
          · rintro rfl
            exact h1.2 (denan_length hd2).symm

/-- Validation treats its two arguments alike. -/
theorem validatePair_swap {α : Type} (s1 s2 : TsInput (Option α)) (g : Option String) :
    validatePair s1 s2 g = (validatePair s2 s1 g).map fun t => (t.2.1, t.1, t.2.2) := by
  unfold validatePair
  simp only [bind, Except.bind, pure, Except.pure, throw, throwThe, MonadExceptOf.throw]
  by_cases h : (toTimeSeries s1 true).length = 0 ∨ (toTimeSeries s2 true).length = 0
  · have h' := h.symm
    simp only [h, h', if_true, Except.map]
  · have h' : ¬ ((toTimeSeries s2 true).length = 0 ∨ (toTimeSeries s1 true).length = 0) :=
      fun h' => h (Or.symm h')
    simp only [h, h', if_false]
    by_cases hf : nFeatures (toTimeSeries s1 true) = nFeatures (toTimeSeries s2 true)
    · simp only [hf, ne_eq, not_true, if_false]
      cases gcCode g with
      | error e => rfl
      | ok c =>
        cases denan (toTimeSeries s1 true) <;> cases denan (toTimeSeries s2 true) <;> rfl
    · have hf' : ¬ nFeatures (toTimeSeries s2 true) = nFeatures (toTimeSeries s1 true) :=
        fun hf' => hf (Eq.symm hf')
      simp only [hf, hf', ne_eq, not_false_eq_true, if_true, Except.map]

end Verif
