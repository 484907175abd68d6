import Verif.Props.C64
import Verif.Spec.Run
/-!
C65: the rounds of one attempt of `KShape.fit`.
-/
set_option linter.unusedSectionVars false
namespace Verif
open Spec Finset

/-- `lab` and `v` are labels and inertia for the centroids `c` when the norms of the centroids are those of `c'`. -/
def KsAssigned (e : KsEnv) (c c' : List KsSer) (lab : List ℕ) (v : ℝ) : Prop :=
  ∃ ds, ksDists e.d e.data c (ksNorms e.data) (ksNorms c') = .ok ds ∧ lab = ds.map argminL ∧ AllUsed e.nClusters lab ∧ v = meanSqDist ds lab

/-- `c'` are the standardised extractions from the members of the clusters `lab`, aligned to `c`. -/
def KsNext (e : KsEnv) (c : List KsSer) (lab : List ℕ) (c' : List KsSer) : Prop :=
  ksScale e.sz e.d (c.mapIdx fun k ck => ksExtract e ck
    (((List.range (min e.data.length lab.length)).filter fun i => lab.getD i 0 = k).map fun i =>
      (e.data.getD i [], frobNorm (e.data.getD i [])))) = .ok c'

theorem filter_zip {A : Type} (d0 : A) (k : ℕ) : ∀ (l : List A) (lab : List ℕ),
    ((l.zip lab).filter fun xl => decide (xl.2 = k)).map Prod.fst =
      ((List.range (min l.length lab.length)).filter fun i => lab.getD i 0 = k).map fun i => l.getD i d0
  | [], lab => by simp
  | a :: l, [] => by simp
  | a :: l, b :: lab => by
    have ih := filter_zip d0 k l lab
    rw [List.length_cons, List.length_cons, Nat.succ_min_succ, List.range_succ_eq_map, List.zip_cons_cons, List.filter_cons, List.filter_cons]
    have h2 : (List.filter (fun i => decide ((b :: lab).getD i 0 = k)) (List.map Nat.succ (List.range (min l.length lab.length)))).map
        (fun i => (a :: l).getD i d0) = ((l.zip lab).filter fun xl => decide (xl.2 = k)).map Prod.fst := by
      rw [ih, List.filter_map, List.map_map]
      rfl
    by_cases hb : b = k
    · simp only [hb, decide_true, if_true, List.map_cons, List.getD_cons_zero]
      rw [← h2, hb]
    · simp only [hb, decide_false, List.getD_cons_zero, Bool.false_eq_true, if_false]
      rw [← h2]

theorem members_eq (e : KsEnv) (s : KsState) (hn : s.norms = ksNorms e.data) {lab : List ℕ} (hl : s.labels = some lab) (k : ℕ) :
    ksMembers e s k = ((List.range (min e.data.length lab.length)).filter fun i => lab.getD i 0 = k).map fun i =>
      (e.data.getD i [], frobNorm (e.data.getD i [])) := by
  unfold ksMembers
  rw [hn, hl, Option.getD_some, filter_zip ([], 0)]
  have hz : e.data.zip (ksNorms e.data) = e.data.map fun x => (x, frobNorm x) := by
    unfold ksNorms
    rw [List.zip_map_right]
    induction e.data with
    | nil => rfl
    | cons a l ih => simp [ih]
  rw [hz, List.length_map]
  refine List.map_congr_left fun i hi => ?_
  have : i < e.data.length := by
    have := List.mem_range.1 (List.mem_filter.1 hi).1
    omega
  simp [List.getD_eq_getElem?_getD, this]

theorem inertia_eq : ∀ (ds : List (List ℝ)) (lab : List ℕ), lab.length = ds.length → ksInertia ds lab = meanSqDist ds lab := by
  intro ds lab h
  unfold ksInertia meanSqDist
  congr 1
  rw [list_sum_getD (([], 0) : List ℝ × ℕ), List.length_zip, h, min_self]
  refine sum_congr rfl fun i hi => ?_
  have h1 := mem_range.1 hi
  simp [List.getD_eq_getElem?_getD, h1, h]

theorem assign_spec (e : KsEnv) (s s' : KsState) {c c' : List KsSer} (hn : s.norms = ksNorms e.data) (hc : s.centers = some c)
    (hC : s.normsC = ksNorms c') (h : ksAssign e s = (s', none)) : ∃ lab v, KsAssigned e c c' lab v ∧
      s' = { s with labels := some lab, inertia := (v : WithTop ℝ) } := by
  unfold ksAssign at h
  rw [hc, hn, hC] at h
  simp only at h
  cases hd : ksDists e.d e.data c (ksNorms e.data) (ksNorms c') with
  | error err => rw [hd] at h; cases h
  | ok ds =>
    rw [hd] at h
    simp only at h
    by_cases he : hasEmpty (ds.map argminL) e.nClusters = true
    · rw [if_pos he] at h; cases h
    · rw [if_neg he] at h
      cases h
      exact ⟨_, _, ⟨ds, hd, rfl, by rwa [hasEmpty_iff, not_not] at he, rfl⟩, by rw [inertia_eq _ _ (by simp), hc, hn, hC]⟩

theorem update_spec (e : KsEnv) (s s' : KsState) {c : List KsSer} {lab : List ℕ} (hn : s.norms = ksNorms e.data)
    (hl : s.labels = some lab) (h : ksUpdate e s c = .ok s') : ∃ c', KsNext e c lab c' ∧
      s' = { s with centers := some c', normsC := ksNorms c' } := by
  unfold ksUpdate at h
  simp only [members_eq e s hn hl] at h
  unfold KsNext
  cases hd : ksScale e.sz e.d (c.mapIdx fun k ck => ksExtract e ck
    (((List.range (min e.data.length lab.length)).filter fun i => lab.getD i 0 = k).map fun i =>
      (e.data.getD i [], frobNorm (e.data.getD i [])))) with
  | error err => rw [hd] at h; cases h
  | ok c' =>
    rw [hd] at h
    cases h
    exact ⟨c', rfl, rfl⟩

theorem ksStop_iff (tol : ℝ) (old : WithTop ℝ) (v : ℝ) : ksStop tol old v = true ↔ Stops tol old v := by
  unfold Stops
  cases old with
  | top =>
    constructor
    · intro h; cases h
    · rintro ⟨a, h, -⟩; exact absurd h.symm (WithTop.coe_ne_top)
  | coe a =>
    constructor
    · intro h
      refine ⟨a, rfl, ?_⟩
      have h' : decide (|a - v| < tol ∨ a - v < 0) = true := h
      simpa using h'
    · rintro ⟨b, hb, h⟩
      obtain rfl := WithTop.coe_injective hb
      have : decide (|a - v| < tol ∨ a - v < 0) = true := by simpa using h
      exact this

/-- What one attempt does after its first assignment: `m` rounds. -/
def KsRounds (e : KsEnv) (n : ℕ) (old i0 : WithTop ℝ) (c0 : List KsSer) (lab0 : List ℕ) (m : ℕ) (s' : KsState) : Prop :=
  ∃ (c : ℕ → List KsSer) (lab : ℕ → List ℕ) (v : ℕ → ℝ), c 0 = c0 ∧ lab 0 = lab0 ∧
    (∀ k < m, KsNext e (c k) (lab k) (c (k + 1)) ∧ KsAssigned e (c (k + 1)) (c (k + 1)) (lab (k + 1)) (v (k + 1))) ∧
    (∀ k, k + 1 < m → ¬ Stops e.tol (before old v k) (v (k + 1))) ∧
    ((m = n ∧ (∀ k < m, ¬ Stops e.tol (before old v k) (v (k + 1))) ∧ s'.centers = some (c m) ∧ s'.normsC = ksNorms (c m) ∧
        s'.labels = some (lab m) ∧ (m = 0 → s'.inertia = i0) ∧ (0 < m → s'.inertia = v m)) ∨
     (0 < m ∧ Stops e.tol (before old v (m - 1)) (v m) ∧ s'.centers = some (c (m - 1)) ∧ s'.normsC = ksNorms (c m) ∧
        ∃ lab' v', KsAssigned e (c (m - 1)) (c m) lab' v' ∧ s'.labels = some lab' ∧ s'.inertia = (v' : ℝ)))

theorem ksLoop_spec (e : KsEnv) : ∀ (n it : ℕ) (old : WithTop ℝ) (s s' : KsState) (c : List KsSer) (lab : List ℕ),
    s.norms = ksNorms e.data → s.centers = some c → s.normsC = ksNorms c → s.labels = some lab → ksLoop e n it old s = (s', none) →
    ∃ m ≤ n, s'.iter = it + m ∧ KsRounds e n old s.inertia c lab m s' := by
  intro n
  induction n with
  | zero =>
    intro it old s s' c lab hn hc hC hl h
    cases h
    exact ⟨0, le_rfl, rfl, fun _ => c, fun _ => lab, fun _ => 0, rfl, rfl, by simp, by simp, Or.inl ⟨rfl, by simp, hc, hC, hl, fun _ => rfl, by simp⟩⟩
  | succ n ih =>
    intro it old s s' c lab hn hc hC hl h
    unfold ksLoop at h
    rw [hc, Option.getD_some] at h
    cases hu : ksUpdate e s c with
    | error err => rw [hu] at h; cases h
    | ok s1 =>
      rw [hu] at h
      simp only at h
      obtain ⟨c1, hnext, rfl⟩ := update_spec e s s1 hn hl hu
      generalize ha : ksAssign e { s with centers := some c1, normsC := ksNorms c1 } = r at h
      obtain ⟨s2, err⟩ := r
      cases err with
      | some err => cases h
      | none =>
        obtain ⟨lab1, v1, hass, rfl⟩ := assign_spec e { s with centers := some c1, normsC := ksNorms c1 } _ (c := c1) (c' := c1) hn rfl rfl ha
        simp only at h
        by_cases hs : ksStop e.tol old (v1 : WithTop ℝ) = true
        · rw [if_pos hs] at h
          generalize ha2 : ksAssign e { s with labels := some lab1, inertia := (v1 : WithTop ℝ), centers := some c, normsC := ksNorms c1 } = r at h
          obtain ⟨s3, err⟩ := r
          cases err with
          | some err => cases h
          | none =>
            obtain ⟨lab2, v2, hass2, rfl⟩ := assign_spec e { s with labels := some lab1, inertia := (v1 : WithTop ℝ), centers := some c, normsC := ksNorms c1 } _ (c := c) (c' := c1) hn rfl rfl ha2
            cases h
            refine ⟨1, by omega, rfl, front c fun _ => c1, front lab fun _ => lab1, fun _ => v1, rfl, rfl, ?_, ?_, Or.inr ?_⟩
            · intro k hk
              obtain rfl : k = 0 := by omega
              exact ⟨hnext, hass⟩
            · intro k hk; omega
            · exact ⟨by omega, (ksStop_iff _ _ _).1 hs, rfl, rfl, lab2, v2, hass2, rfl, rfl⟩
        · rw [if_neg hs] at h
          obtain ⟨m, hm, hit, c', lab', v', h1, h2, h3, h4, h5⟩ := ih (it + 1) (v1 : WithTop ℝ)
            { s with labels := some lab1, inertia := (v1 : WithTop ℝ), centers := some c1, normsC := ksNorms c1 } s' c1 lab1 hn rfl rfl rfl h
          have hns : ¬ Stops e.tol old v1 := fun hh => hs ((ksStop_iff _ _ _).2 hh)
          have hb : ∀ k, before old (front 0 (front v1 fun k => v' (k + 1))) (k + 1) = before (v1 : WithTop ℝ) v' k := by
            intro k
            cases k <;> rfl
          have hv : ∀ k, front (0 : ℝ) (front v1 fun k => v' (k + 1)) (k + 2) = v' (k + 1) := fun k => rfl
          have hall : ∀ j, (∀ k, k + 1 < j → ¬ Stops e.tol (before (v1 : WithTop ℝ) v' k) (v' (k + 1))) →
              ∀ k, k + 1 < j + 1 → ¬ Stops e.tol (before old (front 0 (front v1 fun k => v' (k + 1))) k) (front (0 : ℝ) (front v1 fun k => v' (k + 1)) (k + 1)) := by
            intro j hj k hk
            cases k with
            | zero => exact hns
            | succ k => rw [hb, hv]; exact hj k (by omega)
          refine ⟨m + 1, by omega, by omega, front c c', front lab lab', front 0 (front v1 fun k => v' (k + 1)), rfl, rfl, ?_, hall m h4, ?_⟩
          · intro k hk
            cases k with
            | zero =>
              refine ⟨?_, ?_⟩
              · change KsNext e c lab (c' 0)
                rw [h1]; exact hnext
              · change KsAssigned e (c' 0) (c' 0) (lab' 0) v1
                rw [h1, h2]; exact hass
            | succ k => exact h3 k (by omega)
          · rcases h5 with ⟨a1, a2, a3, a4, a5, a6, a7⟩ | ⟨a1, a2, a3, a4, lab2, v2, a5, a6, a7⟩
            · refine Or.inl ⟨by omega, ?_, a3, a4, a5, by omega, fun _ => ?_⟩
              · intro k hk
                cases k with
                | zero => exact hns
                | succ k => rw [hb, hv]; exact a2 k (by omega)
              · cases m with
                | zero => exact a6 rfl
                | succ m => exact a7 (by omega)
            · obtain ⟨m, rfl⟩ : ∃ k, m = k + 1 := ⟨m - 1, by omega⟩
              refine Or.inr ⟨by omega, ?_, a3, a4, lab2, v2, a5, a6, a7⟩
              rw [show m + 1 + 1 - 1 = m + 1 by omega, hb, hv]
              exact a2

/-- A successful attempt from `init`: a first assignment, then between 1 and `max_iter` rounds of extraction and assignment, the
number being `_iter`. It stops after the first round whose inertia differs by less than `tol` from the one before, or exceeds it —
then it steps back to the centroids before that round, with the norms of the ones after —, or after `max_iter` rounds. -/
theorem C65_attempt (e : KsEnv) (init : List KsSer) {s : KsState} (h : ksAttempt e init = (s, none)) :
    ∃ lab0 v0 m, KsAssigned e init init lab0 v0 ∧ 1 ≤ m ∧ m ≤ e.maxIter ∧ s.iter = m ∧
      KsRounds e e.maxIter ⊤ (v0 : ℝ) init lab0 m s := by
  unfold ksAttempt ksFitOne at h
  simp only at h
  generalize ha : ksAssign e { labels := none, inertia := ⊤, centers := some init, norms := ksNorms e.data, normsC := ksNorms init, xfit := true, nIter := 0, iter := 0 } = r at h
  obtain ⟨s1, err⟩ := r
  cases err with
  | some err => cases h
  | none =>
    obtain ⟨lab0, v0, hass, rfl⟩ := assign_spec e { labels := none, inertia := ⊤, centers := some init, norms := ksNorms e.data, normsC := ksNorms init, xfit := true, nIter := 0, iter := 0 } _ (c := init) (c' := init) rfl rfl rfl ha
    simp only at h
    by_cases h0 : e.maxIter = 0
    · rw [if_pos h0] at h; cases h
    · rw [if_neg h0] at h
      obtain ⟨m, hm, hit, hr⟩ := ksLoop_spec e _ _ _ { labels := some lab0, inertia := (v0 : WithTop ℝ), centers := some init, norms := ksNorms e.data, normsC := ksNorms init, xfit := true, nIter := 0, iter := 0 } s init lab0 rfl rfl rfl rfl h
      refine ⟨lab0, v0, m, hass, ?_, hm, by omega, hr⟩
      obtain ⟨_, _, _, _, _, _, _, hcase⟩ := hr
      rcases hcase with ⟨h1, -⟩ | ⟨h1, -⟩ <;> omega

theorem meanSqDist_nonneg (ds : List (List ℝ)) (lab : List ℕ) : 0 ≤ meanSqDist ds lab := by
  unfold meanSqDist
  exact div_nonneg (sum_nonneg fun _ _ => sq_nonneg _) (Nat.cast_nonneg _)

/-- Every round but the last lowers the inertia by at least `tol`, so that an attempt whose first round ends at inertia `v1` makes
at most `v1 / tol + 2` rounds, whatever `max_iter`. -/
theorem C65_descent (e : KsEnv) (init : List KsSer) {s : KsState} (h : ksAttempt e init = (s, none)) (htol : 0 ≤ e.tol) :
    ∃ v : ℕ → ℝ, (∃ c lab, KsAssigned e c c lab (v 1)) ∧ (∀ k, 1 ≤ k → k + 1 < s.iter → v (k + 1) ≤ v k - e.tol) ∧
      ((s.iter : ℝ) - 2) * e.tol ≤ v 1 := by
  obtain ⟨lab0, v0, m, -, h1, -, hit, c, lab, v, -, -, h3, h4, -⟩ := C65_attempt e init h
  subst hit
  have hstep : ∀ k, 1 ≤ k → k + 1 < s.iter → v (k + 1) ≤ v k - e.tol := by
    intro k hk hk2
    obtain ⟨k, rfl⟩ : ∃ j, k = j + 1 := ⟨k - 1, by omega⟩
    have := h4 (k + 1) hk2
    simp only [Stops, before, not_exists, not_and, not_or] at this
    obtain ⟨a, b⟩ := this _ rfl
    rw [not_lt] at a b
    rw [abs_of_nonneg (by linarith)] at a
    linarith
  refine ⟨v, ⟨_, _, (h3 0 (by omega)).2⟩, hstep, ?_⟩
  have hsum : ∀ k, k + 1 < s.iter → v (k + 1) ≤ v 1 - k * e.tol := by
    intro k
    induction k with
    | zero => intro _; simp
    | succ k ih =>
      intro hk
      have a := ih (by omega)
      have b := hstep (k + 1) (by omega) hk
      push_cast
      linarith
  by_cases h2 : s.iter = 1
  · obtain ⟨ds, -, -, -, hv⟩ := (h3 0 (by omega)).2
    have : 0 ≤ v 1 := by rw [hv]; exact meanSqDist_nonneg _ _
    rw [h2]
    push_cast
    nlinarith
  · obtain ⟨j, hj⟩ : ∃ j, s.iter = j + 2 := ⟨s.iter - 2, by omega⟩
    have a := hsum j (by omega)
    obtain ⟨ds, -, -, -, hv⟩ := (h3 j (by omega)).2
    have : 0 ≤ v (j + 1) := by rw [hv]; exact meanSqDist_nonneg _ _
    rw [hj]
    push_cast
    linarith

/-- `max_iter=0`: an attempt whose first assignment leaves no cluster empty fails on an unbound variable. -/
theorem C65_no_rounds (e : KsEnv) (init : List KsSer) (h0 : e.maxIter = 0) {lab : List ℕ} {v : ℝ} (ha : KsAssigned e init init lab v) :
    (ksAttempt e init).2 = some .unboundLocal := by
  obtain ⟨ds, h1, rfl, h2, -⟩ := ha
  have he : ¬ hasEmpty (ds.map argminL) e.nClusters = true := by rwa [hasEmpty_iff, not_not]
  unfold ksAttempt ksFitOne ksAssign
  simp only [h1, if_neg he, h0, if_true]

theorem ksE_attempt : ∃ s', ksAttempt ksE [[[5], [-5]], [[-1], [1]]] = (s', none) := by
  obtain ⟨v, s', h1, -⟩ := ks_first
    { labels := none, inertia := ⊤, centers := none, norms := ksNorms ksE.data, normsC := [], xfit := true, nIter := 0, iter := 0 } rfl
  exact ⟨s', h1⟩

example : ∃ s, ksAttempt ksE [[[5], [-5]], [[-1], [1]]] = (s, none) ∧ s.iter = 1 := by
  obtain ⟨s, h⟩ := ksE_attempt
  obtain ⟨-, -, m, -, h1, h2, h3, -⟩ := C65_attempt ksE _ h
  have : ksE.maxIter = 1 := rfl
  exact ⟨s, h, by omega⟩

example : ∃ (s : KsState) (v : ℕ → ℝ), ((s.iter : ℝ) - 2) * 0 ≤ v 1 := by
  obtain ⟨s, h⟩ := ksE_attempt
  obtain ⟨v, -, -, h3⟩ := C65_descent ksE _ h le_rfl
  exact ⟨s, v, h3⟩

example : (ksAttempt { ksE with maxIter := 0 } [[[5], [-5]], [[-1], [1]]]).2 = some .unboundLocal := by
  obtain ⟨s, h⟩ := ksE_attempt
  obtain ⟨lab0, v0, -, h1, -⟩ := C65_attempt ksE _ h
  exact C65_no_rounds _ _ rfl (lab := lab0) (v := v0) h1

end Verif
