import Verif.Proofs.Cdist
import Verif.Props.C04
import Verif.Props.C23
set_option linter.unusedSectionVars false
/-!
# C09 — cdist matrices are entry-wise the pairwise metric, for every worker schedule
-/
namespace Verif
open Spec

section
variable {S V : Type}

/-- Two datasets: entry `(i, j)` is the metric of series `i` and `j`, in whatever order the jobs
complete. -/
theorem C09_cross (dist : S → S → Except PyErr V) (zero : V) (X Y : List S) (diag : Bool)
    (run : List (Except PyErr V) → Except PyErr (List V)) (hrun : Execution run) (M : Mat V)
    (h : cdistGeneric dist zero X (some Y) diag run = .ok M)
    (i j : ℕ) (x y : S) (hx : X[i]? = some x) (hy : Y[j]? = some y) : dist x y = .ok (M i j) :=
  cdistGeneric_cross hrun.faithful h i j x y hx hy

/-- One dataset: the upper triangle is the metric, the lower triangle is its transpose, the diagonal
is the self value or zero when it is skipped. In particular the matrix is symmetric. -/
theorem C09_self (dist : S → S → Except PyErr V) (zero : V) (X : List S) (diag : Bool)
    (run : List (Except PyErr V) → Except PyErr (List V)) (hrun : Execution run) (M : Mat V)
    (h : cdistGeneric dist zero X none diag run = .ok M)
    (i j : ℕ) (x y : S) (hx : X[i]? = some x) (hy : X[j]? = some y) :
    (i < j → dist x y = .ok (M i j)) ∧ (j < i → dist y x = .ok (M i j)) ∧
    (i = j → if diag then dist x x = .ok (M i i) else M i i = zero) ∧ M i j = M j i := by
  have hf := hrun.faithful
  obtain ⟨h1, h2, -⟩ := cdistGeneric_self hf h i j x y hx hy
  obtain ⟨h1', h2', -⟩ := cdistGeneric_self hf h j i y x hy hx
  obtain ⟨-, -, h3⟩ := cdistGeneric_self hf h i i x x hx hx
  refine ⟨h1, h2, fun _ => h3 rfl, ?_⟩
  rcases lt_trichotomy i j with hlt | rfl | hlt
  · exact Except.ok.inj ((h1 hlt).symm.trans (h2' hlt))
  · rfl
  · exact Except.ok.inj ((h2 hlt).symm.trans (h1' hlt))

/-- A symmetric metric whose self value is the skipped diagonal: every entry is the metric. -/
theorem C09_self_symmetric (dist : S → S → Except PyErr V) (zero : V) (X : List S) (diag : Bool)
    (run : List (Except PyErr V) → Except PyErr (List V)) (hrun : Execution run) (M : Mat V)
    (h : cdistGeneric dist zero X none diag run = .ok M)
    (hsymm : ∀ x ∈ X, ∀ y ∈ X, dist x y = dist y x)
    (hzero : diag = false → ∀ x ∈ X, dist x x = .ok zero)
    (i j : ℕ) (x y : S) (hx : X[i]? = some x) (hy : X[j]? = some y) : dist x y = .ok (M i j) := by
  obtain ⟨h1, h2, h3, -⟩ := C09_self dist zero X diag run hrun M h i j x y hx hy
  have mx := List.mem_of_getElem? hx
  have my := List.mem_of_getElem? hy
  rcases lt_trichotomy i j with hlt | rfl | hlt
  · exact h1 hlt
  · obtain rfl : x = y := by rw [hx] at hy; exact Option.some.inj hy
    have := h3 rfl
    cases diag with
    | true => simpa using this
    | false => rw [hzero rfl x mx]; simp at this; rw [this]
  · rw [hsymm x mx y my]; exact h2 hlt

/-- The result is the same in all executions. -/
theorem C09_schedule_independent (dist : S → S → Except PyErr V) (zero : V) (X : List S)
    (Y : Option (List S)) (diag : Bool) (run run' : List (Except PyErr V) → Except PyErr (List V))
    (hrun : Execution run) (hrun' : Execution run') (M : Mat V) :
    cdistGeneric dist zero X Y diag run = .ok M ↔ cdistGeneric dist zero X Y diag run' = .ok M := by
  have key : ∀ run run' : List (Except PyErr V) → Except PyErr (List V), Faithful run →
      Faithful run' → cdistGeneric dist zero X Y diag run = .ok M →
      cdistGeneric dist zero X Y diag run' = .ok M := by
    intro run run' hf hf' h
    cases Y with
    | none =>
      unfold cdistGeneric at h ⊢
      cases hr : run (jobsOf dist X X (selfJobs X.length diag)) with
      | error e => simp [hr, bind, Except.bind] at h
      | ok vals =>
        simp only [hr] at h
        simp only [(hf' _ _).2 ((hf _ _).1 hr)]
        exact h
    | some Y =>
      unfold cdistGeneric at h ⊢
      cases hr : run (jobsOf dist X Y (crossJobs X.length Y.length)) with
      | error e => simp [hr, bind, Except.bind] at h
      | ok vals =>
        simp only [hr] at h
        simp only [(hf' _ _).2 ((hf _ _).1 hr)]
        exact h
  exact ⟨key run run' hrun.faithful hrun'.faithful, key run' run hrun'.faithful hrun.faithful⟩

/-- The matrix is returned whenever the metric is defined on all pairs. -/
theorem C09_total (dist : S → S → Except PyErr V) (zero : V) (X : List S) (Y : Option (List S))
    (diag : Bool) (run : List (Except PyErr V) → Except PyErr (List V)) (hrun : Execution run)
    (hok : ∀ x ∈ X, ∀ y ∈ Y.getD X, ∃ v, dist x y = .ok v) :
    ∃ M, cdistGeneric dist zero X Y diag run = .ok M :=
  cdistGeneric_total hrun.faithful hok
end

section
variable {K : Type} [CommRing K] [LinearOrder K] [IsStrictOrderedRing K]

omit [CommRing K] [LinearOrder K] [IsStrictOrderedRing K] in
theorem slot_trim {l : List (Ts K)} {d : ℕ} (hwf : ∀ t ∈ l, t.WF ∧ t.d = d) {X : Arr3 K}
    (h : toDataset (.series l) = .ok X) {i : ℕ} {t : Ts K} (hi : l[i]? = some t) :
    ∃ s, X.slots[i]? = some s ∧ s.trim = t.trim := by
  have hrec := C23_recover l d hwf X h
  have : (X.slots.map Ts.trim)[i]? = some t.trim := by rw [hrec, List.getElem?_map, hi]; rfl
  rw [List.getElem?_map] at this
  cases hs : X.slots[i]? with
  | none => simp [hs] at this
  | some s => exact ⟨s, rfl, by simpa [hs] using this⟩

/-- `cdist_dtw(X, Y)`: entry `(i, j)` is `dtw(X[i], Y[j])` of the original series (before padding),
for every constraint, every mix of lengths and every schedule. -/
theorem C09_cdist_dtw_cross (l l' : List (Ts K)) (d : ℕ) (hwf : ∀ t ∈ l, t.WF ∧ t.d = d)
    (hwf' : ∀ t ∈ l', t.WF ∧ t.d = d) (g : Option String) (radius : Option ℕ) (slope : Option ℚ)
    (run) (hrun : Execution run) (M : Mat (WithTop K))
    (h : cdistDtwSq (.series l) (some (.series l')) g radius slope run = .ok M)
    (i j : ℕ) (t t' : Ts K) (hi : l[i]? = some t) (hj : l'[j]? = some t') :
    dtwSq (.twoD t.rows) (.twoD t'.rows) g radius slope = .ok (M i j) := by
  unfold cdistDtwSq at h
  cases hg : gcCode g with
  | error e => simp [hg, bind, Except.bind] at h
  | ok code =>
    simp only [hg, bind, Except.bind, cdistOf] at h
    cases hX : toDataset (.series l) with
    | error e => simp [hX] at h
    | ok X =>
      cases hY : toDataset (.series l') with
      | error e => simp [hX, hY] at h
      | ok Y =>
        simp only [hX, hY] at h
        obtain ⟨s, hs, hst⟩ := slot_trim hwf hX hi
        obtain ⟨s', hs', hst'⟩ := slot_trim hwf' hY hj
        have e := cdistGeneric_cross hrun.faithful h i j s s' hs hs'
        rw [onSlots_congr _ hst hst'] at e
        have w := hwf t (List.mem_of_getElem? hi)
        have w' := hwf' t' (List.mem_of_getElem? hj)
        obtain ⟨x, y, hv, -, -, hf⟩ := validatePair_of_onSlots e w.1 w'.1 (w.2.trans w'.2.symm) hg
        simp only [dtwSq, hv, bind, Except.bind]
        exact hf

/-- `cdist_dtw(X)` without constraint or with a Sakoe-Chiba band: every entry is the pairwise `dtw`
of the original series and the matrix is symmetric with zero diagonal. -/
theorem C09_cdist_dtw_self (l : List (Ts K)) (d : ℕ) (hwf : ∀ t ∈ l, t.WF ∧ t.d = d)
    (hclean : ∀ t ∈ l, ∃ x, x ≠ [] ∧ denan t.trim.rows = some x)
    (g : Option String) (hg : g = none ∨ g = some "sakoe_chiba") (radius : Option ℕ)
    (run) (hrun : Execution run) (M : Mat (WithTop K))
    (h : cdistDtwSq (.series l) none g radius none run = .ok M)
    (i j : ℕ) (t t' : Ts K) (hi : l[i]? = some t) (hj : l[j]? = some t') :
    dtwSq (.twoD t.rows) (.twoD t'.rows) g radius none = .ok (M i j) ∧ M i j = M j i ∧
      M i i = 0 := by
  unfold cdistDtwSq at h
  obtain ⟨code, hcode, hc⟩ : ∃ code, gcCode g = .ok code ∧ (code = 0 ∨ code = 2) := by
    rcases hg with rfl | rfl
    · exact ⟨0, rfl, .inl rfl⟩
    · exact ⟨2, rfl, .inr rfl⟩
  simp only [hcode, bind, Except.bind, cdistOf] at h
  cases hX : toDataset (.series l) with
  | error e => simp [hX] at h
  | ok X =>
    simp only [hX] at h
    have hrec := C23_recover l d hwf X hX
    have hslot : ∀ s ∈ X.slots, ∃ x, x ≠ [] ∧ denan s.trim.rows = some x := by
      intro s hs
      have : s.trim ∈ l.map Ts.trim := by rw [← hrec]; exact List.mem_map.2 ⟨s, hs, rfl⟩
      obtain ⟨t, ht, he⟩ := List.mem_map.1 this
      rw [← he]; exact hclean t ht
    have hself : ∀ x : List (List K), x ≠ [] → dtwSqGeneric x x code radius none = .ok 0 := by
      intro x hx
      rcases hc with rfl | rfl
      · exact (C04_self x hx radius).1
      · exact (C04_self x hx radius).2
    have hsymm : ∀ x y : List (List K), x ≠ [] → y ≠ [] →
        dtwSqGeneric x y code radius none = dtwSqGeneric y x code radius none := by
      intro x y hx hy
      rcases hc with rfl | rfl
      · exact (C04_symm x y hx hy radius).1
      · exact (C04_symm x y hx hy radius).2
    obtain ⟨s, hs, hst⟩ := slot_trim hwf hX hi
    obtain ⟨s', hs', hst'⟩ := slot_trim hwf hX hj
    have e := C09_self_symmetric _ _ _ _ _ hrun M h (by
      intro a ha b hb
      obtain ⟨x, hx, hxe⟩ := hslot a ha
      obtain ⟨y, hy, hye⟩ := hslot b hb
      simp only [onSlots, hxe, hye, hx, hy, or_self, if_false]
      exact hsymm x y hx hy) (by
      intro _ a ha
      obtain ⟨x, hx, hxe⟩ := hslot a ha
      simp only [onSlots, hxe, hx, or_self, if_false]
      exact hself x hx) i j s s' hs hs'
    rw [onSlots_congr _ hst hst'] at e
    have w := hwf t (List.mem_of_getElem? hi)
    have w' := hwf t' (List.mem_of_getElem? hj)
    obtain ⟨x, y, hv, -, -, hf⟩ := validatePair_of_onSlots e w.1 w'.1 (w.2.trans w'.2.symm) hcode
    obtain ⟨-, -, hz, hsy⟩ := C09_self _ _ _ _ _ hrun M h i j s s' hs hs'
    obtain ⟨-, -, hz, -⟩ := C09_self _ _ _ _ _ hrun M h i i s s hs hs
    refine ⟨?_, hsy, by simpa using hz rfl⟩
    simp only [dtwSq, hv, bind, Except.bind]
    exact hf

/-- Under an Itakura constraint the statement is **false** for `cdist_dtw(X)`: the lower triangle is
filled by transposition, but the pairwise value is not symmetric (squared values 3 and 4). -/
theorem C09_itakura_false :
    ∃ (l : List (Ts ℤ)) (M : Mat (WithTop ℤ)), (∀ t ∈ l, t.WF ∧ t.d = 1) ∧
      cdistDtwSq (.series l) none (some "itakura") none (some (57/25)) seqRun = .ok M ∧
      ∃ t t', l[1]? = some t ∧ l[0]? = some t' ∧
        dtwSq (.twoD t.rows) (.twoD t'.rows) (some "itakura") none (some (57/25)) =
          .ok ((4 : ℤ) : WithTop ℤ) ∧ M 1 0 = ((3 : ℤ) : WithTop ℤ) := by
  have w : ∀ xs : List ℤ, (⟨1, xs.map fun x => [some x]⟩ : Ts ℤ).WF := by
    intro xs r hr
    simp only [List.mem_map] at hr
    obtain ⟨x, -, rfl⟩ := hr
    rfl
  let l : List (Ts ℤ) := [⟨1, [0,0,1,0].map fun x => [some x]⟩,
    ⟨1, [1,0,1,1,0,0,0].map fun x => [some x]⟩]
  have hl : ∀ t ∈ l, t.WF ∧ t.d = 1 := by
    intro t ht
    simp only [l, List.mem_cons, List.not_mem_nil, or_false] at ht
    rcases ht with rfl | rfl
    · exact ⟨w _, rfl⟩
    · exact ⟨w _, rfl⟩
  have hM : ((cdistDtwSq (.series l) none (some "itakura") none (some (57/25)) seqRun).toOption.map
      fun M => M 1 0) = some ((3 : ℤ) : WithTop ℤ) := by decide +kernel
  cases h : cdistDtwSq (.series l) none (some "itakura") none (some (57/25)) seqRun with
  | error e => rw [h] at hM; simp [Except.toOption] at hM
  | ok M =>
    rw [h] at hM
    exact ⟨l, M, hl, h, _, _, rfl, rfl, by decide +kernel, by simpa [Except.toOption] using hM⟩
end

/-- Three series of different lengths, jobs completing in reverse order. -/
example : ∃ M, cdistDtwSq (.series [⟨1, [[some (0:ℤ)], [some 1]]⟩, ⟨1, [[some 2]]⟩,
      ⟨1, [[some 1], [some 1], [some 3]]⟩]) none none none none
      (fun jobs => parRun (List.range jobs.length).reverse jobs) = .ok M ∧
    M 0 1 = ((5 : ℤ) : WithTop ℤ) ∧ M 2 1 = ((3 : ℤ) : WithTop ℤ) ∧
    M 0 2 = ((5 : ℤ) : WithTop ℤ) := ⟨_, rfl, rfl, rfl, rfl⟩

example : Execution (fun jobs : List (Except PyErr ℤ) => parRun (List.range jobs.length).reverse jobs) :=
  .inr ⟨fun n => (List.range n).reverse, fun _ => List.reverse_perm _, rfl⟩

end Verif
