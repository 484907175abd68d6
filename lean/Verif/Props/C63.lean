import Verif.Props.C42
import Mathlib.Algebra.BigOperators.Field
/-!
C63: what `KShape.fit` leaves in `labels_`, `cluster_centers_` and the norms. `norms_centroids_` is computed from the centroids
of the last attempt, also when that attempt failed.
-/
set_option linter.unusedSectionVars false
namespace Verif
open Spec Finset

theorem ksAssign_norms (e : KsEnv) (s : KsState) : (ksAssign e s).1.norms = s.norms ∧ (ksAssign e s).1.normsC = s.normsC ∧
    (ksAssign e s).1.centers = s.centers ∧ (ksAssign e s).1.iter = s.iter ∧ (ksAssign e s).1.nIter = s.nIter ∧
    (ksAssign e s).1.xfit = s.xfit := by
  unfold ksAssign
  split
  · exact ⟨rfl, rfl, rfl, rfl, rfl, rfl⟩
  · split
    · exact ⟨rfl, rfl, rfl, rfl, rfl, rfl⟩
    · dsimp only
      split <;> exact ⟨rfl, rfl, rfl, rfl, rfl, rfl⟩

theorem ksUpdate_norms {e : KsEnv} {s s' : KsState} {cs : List KsSer} (h : ksUpdate e s cs = .ok s') :
    s'.norms = s.norms ∧ s'.xfit = s.xfit ∧ s'.nIter = s.nIter ∧ ∃ c, s'.centers = some c ∧ s'.normsC = ksNorms c ∧
      ∃ raw, ksScale e.sz e.d raw = .ok c ∧ raw.length = cs.length := by
  unfold ksUpdate at h
  cases hs : ksScale e.sz e.d (cs.mapIdx fun k c => ksExtract e c (ksMembers e s k)) with
  | error err => rw [hs] at h; cases h
  | ok c =>
    rw [hs] at h
    obtain rfl := Except.ok.inj h
    exact ⟨rfl, rfl, rfl, c, rfl, rfl, _, hs, by simp⟩

/-- Attributes that an attempt preserves, and that its centroids exist. -/
theorem ksLoop_keeps (e : KsEnv) : ∀ (n it : ℕ) (old : WithTop ℝ) (s : KsState), s.centers.isSome = true →
    (ksLoop e n it old s).1.norms = s.norms ∧ (ksLoop e n it old s).1.centers.isSome = true ∧
      (ksLoop e n it old s).1.xfit = s.xfit ∧ (ksLoop e n it old s).1.nIter = s.nIter
  | 0, it, old, s, h => ⟨rfl, h, rfl, rfl⟩
  | n + 1, it, old, s, h => by
    unfold ksLoop
    cases hu : ksUpdate e s (s.centers.getD []) with
    | error err => exact ⟨rfl, h, rfl, rfl⟩
    | ok s1 =>
      obtain ⟨u1, u4, u5, c, u2, -, -⟩ := ksUpdate_norms hu
      simp only
      obtain ⟨a1, a2, a3, -, a5, a4⟩ := ksAssign_norms e s1
      generalize ksAssign e s1 = r at *
      obtain ⟨s2, err⟩ := r
      simp only at a1 a2 a3 a4 a5
      have hc2 : s2.centers.isSome = true := by rw [a3, u2]; rfl
      cases err with
      | some err => exact ⟨a1.trans u1, hc2, a4.trans u4, a5.trans u5⟩
      | none =>
        simp only
        split
        · obtain ⟨b1, -, b3, -, b5, b4⟩ := ksAssign_norms e { s2 with centers := s.centers }
          generalize ksAssign e { s2 with centers := s.centers } = r at *
          obtain ⟨s3, err⟩ := r
          simp only at b1 b3 b4 b5
          have hc3 : s3.centers.isSome = true := by rw [b3]; exact h
          cases err with
          | some err => exact ⟨b1.trans (a1.trans u1), hc3, b4.trans (a4.trans u4), b5.trans (a5.trans u5)⟩
          | none => exact ⟨b1.trans (a1.trans u1), hc3, b4.trans (a4.trans u4), b5.trans (a5.trans u5)⟩
        · obtain ⟨c1, c2, c3, c4⟩ := ksLoop_keeps e n (it + 1) s2.inertia s2 hc2
          exact ⟨c1.trans (a1.trans u1), c2, c3.trans (a4.trans u4), c4.trans (a5.trans u5)⟩

theorem ksFitOne_keeps (e : KsEnv) (init : List KsSer) (s : KsState) :
    (ksFitOne e init s).1.norms = s.norms ∧ (ksFitOne e init s).1.centers.isSome = true ∧ (ksFitOne e init s).1.xfit = s.xfit ∧
      (ksFitOne e init s).1.nIter = s.nIter := by
  unfold ksFitOne
  obtain ⟨a1, -, a3, -, a5, a4⟩ := ksAssign_norms e { s with centers := some init, normsC := ksNorms init }
  simp only
  generalize ksAssign e { s with centers := some init, normsC := ksNorms init } = r at *
  obtain ⟨s2, err⟩ := r
  simp only at a1 a3 a4 a5
  have hc2 : s2.centers.isSome = true := by rw [a3]; rfl
  cases err with
  | some err => exact ⟨a1, hc2, a4, a5⟩
  | none =>
    simp only
    split
    · exact ⟨a1, hc2, a4, a5⟩
    · obtain ⟨b1, b2, b3, b4⟩ := ksLoop_keeps e e.maxIter 0 ⊤ s2 hc2
      exact ⟨b1.trans a1, b2, b3.trans a4, b4.trans a5⟩

theorem ksFitLoop_keeps (e : KsEnv) (inits : ℕ → List KsSer) : ∀ (fuel : ℕ) (b : KsBest) (s : KsState),
    (ksFitLoop e inits fuel b s).2.1.norms = s.norms ∧ (ksFitLoop e inits fuel b s).2.1.xfit = s.xfit
  | 0, b, s => ⟨rfl, rfl⟩
  | fuel + 1, b, s => by
    unfold ksFitLoop
    split
    · simp only
      obtain ⟨a1, -, a3, -⟩ := ksFitOne_keeps e (inits b.nAttempts) s
      cases ha : ksFitOne e (inits b.nAttempts) s with
      | mk s2 err =>
        rw [ha] at a1 a3
        simp only at a1 a3
        split
        · rename_i h
          obtain ⟨rfl, -⟩ := Prod.mk.inj h
          split
          · obtain ⟨c1, c2⟩ := ksFitLoop_keeps e inits fuel _ _
            exact ⟨c1.trans a1, c2.trans a3⟩
          · obtain ⟨c1, c2⟩ := ksFitLoop_keeps e inits fuel _ _
            exact ⟨c1.trans a1, c2.trans a3⟩
        · rename_i h
          obtain ⟨rfl, -⟩ := Prod.mk.inj h
          obtain ⟨c1, c2⟩ := ksFitLoop_keeps e inits fuel _ _
          exact ⟨c1.trans a1, c2.trans a3⟩
        · rename_i h
          obtain ⟨rfl, -⟩ := Prod.mk.inj h
          exact ⟨a1, a3⟩
    · exact ⟨rfl, rfl⟩

/-- Whatever happens in `fit`, `norms_` holds the norms of the training series afterwards. -/
theorem C63_norms (e : KsEnv) (inits : ℕ → List KsSer) (it0 : ℕ) : (ksFit e inits it0).1.norms = ksNorms e.data := by
  unfold ksFit
  simp only
  obtain ⟨h1, -⟩ := ksFitLoop_keeps e inits (if e.initArray = true then 1 else max e.nInit 10) ⟨none, ⊤, 0, 0⟩
    { labels := none, inertia := ⊤, centers := none, norms := ksNorms e.data, normsC := [], xfit := true, nIter := 0, iter := it0 }
  generalize ksFitLoop e inits (if e.initArray = true then 1 else max e.nInit 10) ⟨none, ⊤, 0, 0⟩
    { labels := none, inertia := ⊤, centers := none, norms := ksNorms e.data, normsC := [], xfit := true, nIter := 0, iter := it0 } = r at *
  obtain ⟨b, s, err⟩ := r
  cases err with
  | some err => exact h1
  | none =>
    simp only at h1 ⊢
    unfold ksFinish
    cases hc : s.centers with
    | none => exact h1
    | some last =>
      simp only
      unfold ksPostFit
      cases hb : b.best with
      | none => exact h1
      | some cs =>
        simp only
        split
        · obtain ⟨a1, -⟩ := ksAssign_norms e { s with normsC := ksNorms last, centers := some cs }
          split
          · rename_i h
            rw [h] at a1
            exact a1.trans h1
          · exact a1.trans h1
        · exact h1

/-- One attempt on its own: `_fit_one_init` from fresh attributes. -/
noncomputable def ksAttempt (e : KsEnv) (init : List KsSer) : KsState × Option PyErr :=
  ksFitOne e init { labels := none, inertia := ⊤, centers := none, norms := ksNorms e.data, normsC := [], xfit := true,
                    nIter := 0, iter := 0 }

theorem ksAssign_indep (e : KsEnv) {s s' : KsState} (h1 : s.centers = s'.centers) (h2 : s.norms = s'.norms) (h3 : s.normsC = s'.normsC) :
    (ksAssign e s).2 = (ksAssign e s').2 ∧
      ((ksAssign e s).2 = none → (ksAssign e s).1.labels = (ksAssign e s').1.labels ∧ (ksAssign e s).1.inertia = (ksAssign e s').1.inertia) := by
  unfold ksAssign
  rw [h1, h2, h3]
  cases s'.centers with
  | none => exact ⟨rfl, fun h => by cases h⟩
  | some cs =>
    simp only
    cases ksDists e.d e.data cs s'.norms s'.normsC with
    | error err => exact ⟨rfl, fun h => by cases h⟩
    | ok ds =>
      simp only
      split
      · exact ⟨rfl, fun h => by cases h⟩
      · exact ⟨rfl, fun _ => ⟨rfl, rfl⟩⟩

theorem ksLoop_indep (e : KsEnv) : ∀ (n it : ℕ) (old : WithTop ℝ) (s s' : KsState), s.centers = s'.centers → s.norms = s'.norms →
    s.normsC = s'.normsC → s.labels = s'.labels → s.inertia = s'.inertia →
    (ksLoop e n it old s).2 = (ksLoop e n it old s').2 ∧ (ksLoop e n it old s).1.centers = (ksLoop e n it old s').1.centers ∧
    ((ksLoop e n it old s).2 = none → (ksLoop e n it old s).1.inertia = (ksLoop e n it old s').1.inertia ∧
      (ksLoop e n it old s).1.iter = (ksLoop e n it old s').1.iter)
  | 0, it, old, s, s', h1, _, _, _, h5 => ⟨rfl, h1, fun _ => ⟨h5, rfl⟩⟩
  | n + 1, it, old, s, s', h1, h2, h3, h4, h5 => by
    unfold ksLoop
    have hmem : ∀ k, ksMembers e s k = ksMembers e s' k := fun k => by unfold ksMembers; rw [h2, h4]
    have hu : ksUpdate e s' (s'.centers.getD []) = (ksUpdate e s (s.centers.getD [])).map fun t =>
        { s' with centers := t.centers, normsC := t.normsC } := by
      unfold ksUpdate
      simp only [hmem, h1]
      cases ksScale e.sz e.d _ <;> rfl
    rw [hu]
    cases hc : ksUpdate e s (s.centers.getD []) with
    | error err => exact ⟨rfl, h1, fun h => by cases h⟩
    | ok t =>
      obtain ⟨t1, -, -, -⟩ := ksUpdate_norms hc
      simp only [Except.map]
      have hi := ksAssign_indep e (s := t) (s' := { s' with centers := t.centers, normsC := t.normsC }) rfl (t1.trans h2) rfl
      obtain ⟨a1, a2, a3, -⟩ := ksAssign_norms e t
      obtain ⟨a1', a2', a3', -⟩ := ksAssign_norms e { s' with centers := t.centers, normsC := t.normsC }
      generalize ksAssign e t = r at *
      generalize ksAssign e { s' with centers := t.centers, normsC := t.normsC } = r' at *
      obtain ⟨u, err⟩ := r
      obtain ⟨u', err'⟩ := r'
      simp only at *
      obtain ⟨rfl, hi⟩ := hi
      cases err with
      | some err => exact ⟨rfl, by simp only; rw [a3, a3'], fun h => by cases h⟩
      | none =>
        obtain ⟨i1, i2⟩ := hi rfl
        simp only
        have hn : u.norms = u'.norms := by rw [a1, a1', t1, h2]
        by_cases hst : ksStop e.tol old u'.inertia = true
        · rw [if_pos hst, if_pos (by rw [i2]; exact hst)]
          have hj := ksAssign_indep e (s := { u with centers := s.centers }) (s' := { u' with centers := s'.centers }) h1 hn
            (by change u.normsC = u'.normsC; rw [a2, a2'])
          obtain ⟨b1, b2, b3, -⟩ := ksAssign_norms e { u with centers := s.centers }
          obtain ⟨b1', b2', b3', -⟩ := ksAssign_norms e { u' with centers := s'.centers }
          generalize ksAssign e { u with centers := s.centers } = w at *
          generalize ksAssign e { u' with centers := s'.centers } = w' at *
          obtain ⟨w, err⟩ := w
          obtain ⟨w', err'⟩ := w'
          simp only at *
          obtain ⟨rfl, hj⟩ := hj
          cases err with
          | some err => exact ⟨rfl, by simp only; rw [b3, b3', h1], fun h => by cases h⟩
          | none =>
            obtain ⟨j1, j2⟩ := hj rfl
            exact ⟨rfl, by simp only; rw [b3, b3', h1], fun _ => ⟨j2, rfl⟩⟩
        · rw [if_neg hst, if_neg (by rw [i2]; exact hst), i2]
          exact ksLoop_indep e n (it + 1) u'.inertia u u' (by rw [a3, a3']) hn (by rw [a2, a2']) i1 i2

/-- Attempts do not depend on attributes left by earlier ones. -/
theorem ksFitOne_indep (e : KsEnv) (init : List KsSer) (s : KsState) (h : s.norms = ksNorms e.data) :
    (ksFitOne e init s).2 = (ksAttempt e init).2 ∧ (ksFitOne e init s).1.centers = (ksAttempt e init).1.centers ∧
      ((ksFitOne e init s).2 = none → (ksFitOne e init s).1.inertia = (ksAttempt e init).1.inertia ∧
        (ksFitOne e init s).1.iter = (ksAttempt e init).1.iter) := by
  unfold ksAttempt ksFitOne
  simp only
  generalize hs : ({ labels := none, inertia := ⊤, centers := some init, norms := ksNorms e.data, normsC := ksNorms init, xfit := true,
                     nIter := 0, iter := 0 } : KsState) = s'
  have hi := ksAssign_indep e (s := { s with centers := some init, normsC := ksNorms init }) (s' := s') (by rw [← hs]) (by rw [← hs]; exact h) (by rw [← hs])
  obtain ⟨a1, a2, a3, -⟩ := ksAssign_norms e { s with centers := some init, normsC := ksNorms init }
  obtain ⟨a1', a2', a3', -⟩ := ksAssign_norms e s'
  generalize ksAssign e { s with centers := some init, normsC := ksNorms init } = r at *
  generalize ksAssign e s' = r' at *
  obtain ⟨u, err⟩ := r
  obtain ⟨u', err'⟩ := r'
  simp only at *
  obtain ⟨rfl, hi⟩ := hi
  have c1 : s'.centers = some init := by rw [← hs]
  have c2 : s'.norms = ksNorms e.data := by rw [← hs]
  have c3 : s'.normsC = ksNorms init := by rw [← hs]
  cases err with
  | some err => exact ⟨rfl, by simp only; rw [a3, a3', c1], fun h => by cases h⟩
  | none =>
    obtain ⟨i1, i2⟩ := hi rfl
    simp only
    split
    · exact ⟨rfl, by simp only; rw [a3, a3', c1], fun h => by cases h⟩
    · exact ksLoop_indep e e.maxIter 0 ⊤ u u' (by rw [a3, a3', c1]) (by rw [a1, a1', c2, h]) (by rw [a2, a2', c3]) i1 i2

/-- Invariant of the loop of `fit` after `A` attempts. -/
structure KsInv (e : KsEnv) (inits : ℕ → List KsSer) (A : ℕ) (b : KsBest) (s : KsState) : Prop where
  norms : s.norms = ksNorms e.data
  xfit : s.xfit = true
  attempts : b.nAttempts = A
  last : ∀ a, A = a + 1 → s.centers = (ksAttempt e (inits a)).1.centers
  outcome : ∀ a < A, (ksAttempt e (inits a)).2 = none ∨ (ksAttempt e (inits a)).2 = some .emptyCluster
  count : b.nSuccessful = ((List.range A).filter fun a => decide ((ksAttempt e (inits a)).2 = none)).length
  bound : b.nSuccessful ≤ e.nInit
  least : ∀ a < A, (ksAttempt e (inits a)).2 = none → b.minInertia ≤ (ksAttempt e (inits a)).1.inertia
  best : (b.best = none ∧ b.minInertia = ⊤) ∨
    ∃ a < A, (ksAttempt e (inits a)).2 = none ∧ b.best = (ksAttempt e (inits a)).1.centers ∧
      b.minInertia = (ksAttempt e (inits a)).1.inertia ∧ s.nIter = (ksAttempt e (inits a)).1.iter ∧
      ∀ a' < a, (ksAttempt e (inits a')).2 = none → b.minInertia < (ksAttempt e (inits a')).1.inertia

theorem ksFitLoop_inv (e : KsEnv) (inits : ℕ → List KsSer) : ∀ (fuel A : ℕ) (b : KsBest) (s : KsState), KsInv e inits A b s →
    ∀ b' s', ksFitLoop e inits fuel b s = (b', s', none) →
      ∃ A', A ≤ A' ∧ A' ≤ A + fuel ∧ KsInv e inits A' b' s' ∧ (b'.nSuccessful = e.nInit ∨ A' = A + fuel)
  | 0, A, b, s, hI, b', s', h => by
    unfold ksFitLoop at h
    cases h
    exact ⟨A, le_rfl, le_rfl, hI, .inr rfl⟩
  | fuel + 1, A, b, s, hI, b', s', h => by
    unfold ksFitLoop at h
    by_cases hn : b.nSuccessful < e.nInit
    · rw [if_pos hn] at h
      simp only [hI.attempts] at h
      obtain ⟨i1, i2, i3⟩ := ksFitOne_indep e (inits A) s hI.norms
      obtain ⟨k1, k2, k3, k4⟩ := ksFitOne_keeps e (inits A) s
      generalize ksFitOne e (inits A) s = r at *
      obtain ⟨t, err⟩ := r
      simp only at i1 i2 i3 k1 k2 k3 k4
      have hlast : ∀ a, A + 1 = a + 1 → t.centers = (ksAttempt e (inits a)).1.centers := by
        intro a ha; obtain rfl : A = a := by omega
        exact i2
      have hcnt : ∀ P : Prop, ((ksAttempt e (inits A)).2 = none ↔ P) → ∀ [Decidable P],
          ((List.range (A + 1)).filter fun a => decide ((ksAttempt e (inits a)).2 = none)).length =
          b.nSuccessful + if P then 1 else 0 := by
        intro P hP _
        rw [List.range_succ, List.filter_append, List.length_append, ← hI.count]
        congr 1
        by_cases hp : P
        · rw [if_pos hp, List.filter_cons_of_pos (by simpa using hP.2 hp)]; rfl
        · rw [if_neg hp, List.filter_cons_of_neg (by simpa using fun h => hp (hP.1 h))]; rfl
      cases err with
      | none =>
        have hok : (ksAttempt e (inits A)).2 = none := i1.symm
        obtain ⟨j1, j2⟩ := i3 rfl
        have hcnt' := hcnt True (by simp [hok])
        rw [if_pos trivial] at hcnt'
        have hout : ∀ a < A + 1, (ksAttempt e (inits a)).2 = none ∨ (ksAttempt e (inits a)).2 = some .emptyCluster := by
          intro a ha
          rcases Nat.lt_succ_iff_lt_or_eq.1 ha with ha | rfl
          · exact hI.outcome a ha
          · exact .inl hok
        by_cases hlt : t.inertia < b.minInertia
        · simp only [if_pos hlt] at h
          have hI' : KsInv e inits (A + 1) { b with best := t.centers, minInertia := t.inertia, nSuccessful := b.nSuccessful + 1, nAttempts := A + 1 }
              { t with nIter := t.iter } := by
            refine ⟨k1.trans hI.norms, k3.trans hI.xfit, rfl, hlast, hout, hcnt'.symm, hn, ?_, .inr ⟨A, by omega, hok, i2, j1, j2, ?_⟩⟩
            · intro a ha hs
              rcases Nat.lt_succ_iff_lt_or_eq.1 ha with ha | rfl
              · exact hlt.le.trans (hI.least a ha hs)
              · exact j1.le
            · intro a ha hs
              exact lt_of_lt_of_le hlt (hI.least a ha hs)
          obtain ⟨A', q1, q2, q3, q4⟩ := ksFitLoop_inv e inits fuel (A + 1) _ _ hI' b' s' h
          exact ⟨A', by omega, by omega, q3, by omega⟩
        · simp only [if_neg hlt] at h
          have hI' : KsInv e inits (A + 1) { b with nSuccessful := b.nSuccessful + 1, nAttempts := A + 1 } t := by
            refine ⟨k1.trans hI.norms, k3.trans hI.xfit, rfl, hlast, hout, hcnt'.symm, hn, ?_, ?_⟩
            · intro a ha hs
              rcases Nat.lt_succ_iff_lt_or_eq.1 ha with ha | rfl
              · exact hI.least a ha hs
              · exact (not_lt.1 hlt).trans j1.le
            · rcases hI.best with hb | ⟨a, ha, c1, c2, c3, c4, c5⟩
              · exact .inl hb
              · exact .inr ⟨a, by omega, c1, c2, c3, k4.trans c4, c5⟩
          obtain ⟨A', q1, q2, q3, q4⟩ := ksFitLoop_inv e inits fuel (A + 1) _ _ hI' b' s' h
          exact ⟨A', by omega, by omega, q3, by omega⟩
      | some err =>
        by_cases hE : err = .emptyCluster
        · subst hE
          simp only at h
          have hbad : ¬ (ksAttempt e (inits A)).2 = none := by rw [← i1]; simp
          have hcnt' := hcnt False (by simp [hbad])
          rw [if_neg not_false] at hcnt'
          have hI' : KsInv e inits (A + 1) { b with nAttempts := A + 1 } t := by
            refine ⟨k1.trans hI.norms, k3.trans hI.xfit, rfl, hlast, ?_, hcnt'.symm, hI.bound, ?_, ?_⟩
            · intro a ha
              rcases Nat.lt_succ_iff_lt_or_eq.1 ha with ha | rfl
              · exact hI.outcome a ha
              · exact .inr i1.symm
            · intro a ha hs
              rcases Nat.lt_succ_iff_lt_or_eq.1 ha with ha | rfl
              · exact hI.least a ha hs
              · exact absurd hs hbad
            · rcases hI.best with hb | ⟨a, ha, c1, c2, c3, c4, c5⟩
              · exact .inl hb
              · exact .inr ⟨a, by omega, c1, c2, c3, k4.trans c4, c5⟩
          obtain ⟨A', q1, q2, q3, q4⟩ := ksFitLoop_inv e inits fuel (A + 1) _ _ hI' b' s' h
          exact ⟨A', by omega, by omega, q3, by omega⟩
        · exfalso
          revert h
          cases err <;> first | exact absurd rfl hE | (intro h; cases h)
    · rw [if_neg hn] at h
      cases h
      exact ⟨A, le_rfl, by omega, hI, .inl (le_antisymm hI.bound (not_lt.1 hn))⟩

/-- A fit that returns: attempts are made until `n_init` succeeded or the bound is reached. When some attempt succeeded with finite
inertia, the first best one is kept; `labels_` compare the training series to its centroids with norms of the centroids of the
*last* attempt. -/
theorem C63_fit (e : KsEnv) (inits : ℕ → List KsSer) (it0 : ℕ) (s : KsState) (h : ksFit e inits it0 = (s, none)) :
    ∃ A ≤ (if e.initArray then 1 else max e.nInit 10),
      (∀ a < A, (ksAttempt e (inits a)).2 = none ∨ (ksAttempt e (inits a)).2 = some .emptyCluster) ∧
      ((List.range A).filter fun a => decide ((ksAttempt e (inits a)).2 = none)).length ≤ e.nInit ∧
      (((List.range A).filter fun a => decide ((ksAttempt e (inits a)).2 = none)).length = e.nInit ∨
        A = if e.initArray then 1 else max e.nInit 10) ∧
      (s.xfit = false ∨ ∃ a < A, ∃ best last ds, ∃ v : ℝ,
        (ksAttempt e (inits a)).2 = none ∧ (ksAttempt e (inits a)).1.centers = some best ∧
        (ksAttempt e (inits a)).1.inertia = v ∧
        (∀ a' < A, (ksAttempt e (inits a')).2 = none → (v : WithTop ℝ) ≤ (ksAttempt e (inits a')).1.inertia ∧
          (a' < a → (v : WithTop ℝ) < (ksAttempt e (inits a')).1.inertia)) ∧
        (ksAttempt e (inits (A - 1))).1.centers = some last ∧
        ksDists e.d e.data best (ksNorms e.data) (ksNorms last) = .ok ds ∧
        s.xfit = true ∧ s.centers = some best ∧ s.inertia = v ∧ s.nIter = (ksAttempt e (inits a)).1.iter ∧
        s.norms = ksNorms e.data ∧ s.normsC = ksNorms last ∧ s.labels = some (ds.map argminL) ∧
        AllUsed e.nClusters (ds.map argminL)) := by
  unfold ksFit at h
  simp only at h
  generalize hs0 : ({ labels := none, inertia := ⊤, centers := none, norms := ksNorms e.data, normsC := [], xfit := true,
                      nIter := 0, iter := it0 } : KsState) = s0 at h
  have hI0 : KsInv e inits 0 ⟨none, ⊤, 0, 0⟩ s0 := by
    subst hs0
    exact ⟨rfl, rfl, rfl, fun a ha => by omega, fun a ha => by omega, rfl, Nat.zero_le _, fun a ha => by omega, .inl ⟨rfl, rfl⟩⟩
  cases hl : ksFitLoop e inits (if e.initArray = true then 1 else max e.nInit 10) ⟨none, ⊤, 0, 0⟩ s0 with
  | mk b r =>
    obtain ⟨t, err⟩ := r
    rw [hl] at h
    cases err with
    | some err => cases h
    | none =>
      simp only at h
      obtain ⟨A, -, hA, hI, hstop⟩ := ksFitLoop_inv e inits _ 0 _ _ hI0 b t hl
      rw [Nat.zero_add] at hA hstop
      refine ⟨A, hA, hI.outcome, hI.count ▸ hI.bound, hI.count ▸ hstop, ?_⟩
      unfold ksFinish at h
      cases hc : t.centers with
      | none => rw [hc] at h; cases h
      | some last =>
        rw [hc] at h
        simp only at h
        rcases hI.best with ⟨hb, -⟩ | ⟨a, ha, h1, h2, h3, h4, h5⟩
        · left
          unfold ksPostFit at h
          rw [hb] at h
          cases h
          rfl
        · obtain ⟨k1, k2, k3, k4⟩ := ksFitOne_keeps e (inits a) { labels := none, inertia := ⊤, centers := none, norms := ksNorms e.data, normsC := [], xfit := true, nIter := 0, iter := 0 }
          change (ksAttempt e (inits a)).1.centers.isSome = true at k2
          obtain ⟨best, hbest⟩ := Option.isSome_iff_exists.1 k2
          unfold ksPostFit at h
          rw [h2, hbest] at h
          simp only at h
          by_cases htop : b.minInertia = ⊤
          · left
            rw [if_neg (by simpa using htop)] at h
            cases h
            rfl
          · right
            rw [if_pos htop] at h
            obtain ⟨v, hv⟩ := WithTop.ne_top_iff_exists.1 htop
            have hA1 : A = (A - 1) + 1 := by omega
            have hlast := hI.last (A - 1) hA1
            unfold ksAssign at h
            simp only [hI.norms] at h
            cases hd : ksDists e.d e.data best (ksNorms e.data) (ksNorms last) with
            | error err => rw [hd] at h; cases h
            | ok ds =>
              rw [hd] at h
              simp only at h
              by_cases hE : hasEmpty (ds.map argminL) e.nClusters = true
              · rw [if_pos hE] at h; cases h
              · rw [if_neg hE] at h
                simp only at h
                have hused : AllUsed e.nClusters (ds.map argminL) := by
                  by_contra hcon
                  exact hE ((hasEmpty_iff _ _).2 hcon)
                cases h
                exact ⟨a, ha, best, last, ds, v, h1, hbest, by rw [← h3, hv],
                  fun a' ha' hs => ⟨by rw [hv]; exact hI.least a' ha' hs, fun hlt => by rw [hv]; exact h5 a' hlt hs⟩,
                  hlast ▸ hc, hd, rfl, rfl, hv.symm, h4, rfl, rfl, rfl, hused⟩

/-- The centroids left by a successful attempt are standardised. -/
theorem C63_scaled (e : KsEnv) (init : List KsSer) (h : (ksAttempt e init).2 = none) :
    ∃ raw cs, (ksAttempt e init).1.centers = some cs ∧ ksScale e.sz e.d raw = .ok cs := by
  have key : ∀ (n it : ℕ) (old : WithTop ℝ) (s : KsState),
      ((∃ raw cs, s.centers = some cs ∧ ksScale e.sz e.d raw = .ok cs) ∨ (old = ⊤ ∧ 0 < n)) →
      (ksLoop e n it old s).2 = none → ∃ raw cs, (ksLoop e n it old s).1.centers = some cs ∧ ksScale e.sz e.d raw = .ok cs := by
    intro n
    induction n with
    | zero =>
      intro it old s hs _
      rcases hs with hs | hs
      · exact hs
      · omega
    | succ n ih =>
      intro it old s hs hok
      unfold ksLoop at hok ⊢
      cases hu : ksUpdate e s (s.centers.getD []) with
      | error err => rw [hu] at hok; cases hok
      | ok s1 =>
        rw [hu] at hok
        simp only at hok ⊢
        obtain ⟨-, -, -, c, u2, -, raw, u3, -⟩ := ksUpdate_norms hu
        obtain ⟨-, -, a3, -⟩ := ksAssign_norms e s1
        generalize ksAssign e s1 = r at *
        obtain ⟨s2, err⟩ := r
        simp only at a3
        cases err with
        | some err => cases hok
        | none =>
          simp only at hok ⊢
          by_cases hst : ksStop e.tol old s2.inertia = true
          · rw [if_pos hst] at hok ⊢
            have hold : old ≠ ⊤ := by
              rintro rfl
              cases hst
            have hsc := hs.resolve_right fun h => hold h.1
            obtain ⟨-, -, b3, -⟩ := ksAssign_norms e { s2 with centers := s.centers }
            generalize ksAssign e { s2 with centers := s.centers } = r at *
            obtain ⟨s3, err⟩ := r
            simp only at b3
            cases err with
            | some err => cases hok
            | none =>
              simp only
              rw [b3]
              exact hsc
          · rw [if_neg hst] at hok ⊢
            exact ih _ _ _ (.inl ⟨raw, c, a3.trans u2, u3⟩) hok
  unfold ksAttempt ksFitOne at *
  simp only at h ⊢
  generalize ksAssign e _ = r at *
  obtain ⟨s2, err⟩ := r
  cases err with
  | some err => cases h
  | none =>
    simp only at h ⊢
    by_cases hm : e.maxIter = 0
    · rw [if_pos hm] at h; cases h
    · rw [if_neg hm] at h ⊢
      exact key _ _ _ _ (.inr ⟨rfl, by omega⟩) h

/-- A standardised series none of whose features is constant has energy `sz * d`: its norm is the same for all. -/
theorem C63_unit {sz d : ℕ} {x y : KsSer} (hx : x.length = sz) (h : Standardised d x y)
    (hc : ∀ f < d, colStd x f ≠ 0) : energy d y = sz * d := by
  obtain ⟨h1, -, h3⟩ := h
  unfold energy
  rw [h1, hx, sum_comm]
  have : ∀ f ∈ range d, ∑ t ∈ range sz, val y t f ^ 2 = sz := by
    intro f hf
    have hf' := mem_range.1 hf
    have hs := hc f hf'
    have hpos : 0 < colStd x f := lt_of_le_of_ne (Real.sqrt_nonneg _) (Ne.symm hs)
    have hsz : (sz : ℝ) ≠ 0 := by
      intro h0
      apply hs
      unfold colStd
      rw [hx, h0]
      simp
    have hsq : colStd x f ^ 2 * sz = ∑ t ∈ range sz, (val x t f - colMean x f) ^ 2 := by
      unfold colStd
      rw [Real.sq_sqrt (div_nonneg (sum_nonneg fun _ _ => sq_nonneg _) (Nat.cast_nonneg _)), hx, div_mul_cancel₀ _ hsz]
    rw [sum_congr rfl (fun t ht => by
      rw [h3 t (by rw [hx]; exact mem_range.1 ht) f hf', if_neg hs, div_pow]), ← sum_div, ← hsq]
    field_simp
  rw [sum_congr rfl this]
  simp [mul_comm]

/-- Full claim: after `fit`, `labels_` names for every training series the first centroid of greatest shape similarity. Missing (and
false, see below): fits in which `norms_centroids_` are not the norms of `cluster_centers_`; series or centroids of norm near 0. -/
theorem C63_partial (e : KsEnv) (inits : ℕ → List KsSer) (it0 : ℕ) (s : KsState) (h : ksFit e inits it0 = (s, none)) (hx : s.xfit = true)
    (hsz : 2 ≤ e.sz) (hD : ∀ x ∈ e.data, x.length = e.sz ∧ Wide e.d x) {cs : List KsSer} (hcs : s.centers = some cs) (hne : cs ≠ [])
    (hshape : ∀ c ∈ cs, c.length = e.sz ∧ Wide e.d c) (hnorm : s.normsC = cs.map fun c => √(energy e.d c))
    (hbig : ∀ x ∈ e.data, ∀ c ∈ cs, 1 / 1000000000 ≤ √(energy e.d x) * √(energy e.d c)) :
    ∃ lab, s.labels = some lab ∧ lab.length = e.data.length ∧ AllUsed e.nClusters lab ∧
      ∀ (i : ℕ) (hi : i < e.data.length), ∃ l, lab[i]? = some l ∧ NearestShape e.d e.data[i] cs l := by
  obtain ⟨A, -, -, -, -, hf | ⟨a, -, best, last, ds, v, -, -, -, -, -, h1, -, h2, -, -, h3, h4, h5, h6⟩⟩ := C63_fit e inits it0 s h
  · rw [hx] at hf; cases hf
  · rw [hcs] at h2
    obtain rfl := Option.some.inj h2
    have hnn : ∀ (X : List KsSer), ∀ n ∈ ksNorms X, 0 ≤ n := by
      intro X n hn
      obtain ⟨_, _, rfl⟩ := List.mem_map.1 hn
      exact Real.sqrt_nonneg _
    have hlen : (ksNorms last).length = cs.length := by rw [← h4, hnorm, List.length_map]
    have h7 := ksDists_ok (d := e.d) (X := e.data) (cs := cs) (hnn e.data) (hnn last) hlen (by simp [ksNorms])
    rw [h7] at h1
    obtain rfl := Except.ok.inj h1
    refine ⟨_, h5, by simp, h6, fun i hi => ⟨_, ?_, row_nearest (n := √(energy e.d e.data[i])) hsz (hD _ (List.getElem_mem hi)).1 hne
      hshape (Real.sqrt_nonneg _) (fun c hc => hbig _ (List.getElem_mem hi) c hc)⟩⟩
    rw [List.getElem?_map, List.getElem?_map, List.getElem?_range hi, Option.map_some, Option.map_some]
    have e1 : e.data.getD i [] = e.data[i] := by rw [List.getD_eq_getElem?_getD, List.getElem?_eq_getElem hi]; rfl
    have e2 : (ksNorms e.data).getD i 0 = √(energy e.d e.data[i]) := by
      rw [List.getD_eq_getElem?_getD, ksNorms, List.getElem?_map, List.getElem?_eq_getElem hi]
      exact frobNorm_sq (hD _ (List.getElem_mem hi)).2
    rw [e1, e2, ← h4, hnorm]

/-! A fit in full: four series of length 2, `n_init=2`; the first attempt succeeds, the nine others start from two series of the
same shape and fail. -/

/-- The greatest lagged product of `[x0, x1]` and `[c0, c1]`. -/
noncomputable def m3 (x0 x1 c0 c1 : ℝ) : ℝ := max (x0 * c0 + x1 * c1) (max (x1 * c0) (x0 * c1))

theorem lag2 (x0 x1 c0 c1 : ℝ) : lagProd 1 [[x0], [x1]] [[c0], [c1]] 0 = x0 * c0 + x1 * c1 ∧
    lagProd 1 [[x0], [x1]] [[c0], [c1]] 1 = x1 * c0 ∧ lagProd 1 [[x0], [x1]] [[c0], [c1]] (-1) = x0 * c1 := by
  refine ⟨?_, ?_, ?_⟩ <;> simp [lagProd, sum_range_succ, Spec.val]

theorem sim2 (x0 x1 c0 c1 : ℝ) {n m : ℝ} (hn : 1 ≤ n) (hm : 1 ≤ m) :
    listMax (normalizedCc 1 [[x0], [x1]] [[c0], [c1]] n m) = m3 x0 x1 c0 c1 / (n * m) := by
  obtain ⟨l0, l1, l2⟩ := lag2 x0 x1 c0 c1
  refine listMax_cc (by simp) (by simp) (by linarith) (by linarith) (by nlinarith) ?_ ?_
  · unfold m3
    rcases max_choice (x0 * c0 + x1 * c1) (max (x1 * c0) (x0 * c1)) with h | h
    · exact ⟨0, by simp, by simp, by rw [h, l0]⟩
    · rcases max_choice (x1 * c0) (x0 * c1) with h' | h'
      · exact ⟨1, by simp, by simp, by rw [h, h', l1]⟩
      · exact ⟨-1, by simp, by simp, by rw [h, h', l2]⟩
  · intro lag h1 h2
    simp at h1 h2
    have : lag = -1 ∨ lag = 0 ∨ lag = 1 := by omega
    unfold m3
    rcases this with rfl | rfl | rfl
    · rw [l2]; exact (le_max_right _ _).trans (le_max_right _ _)
    · rw [l0]; exact le_max_left _ _
    · rw [l1]; exact (le_max_left _ _).trans (le_max_right _ _)

theorem label2 {n m0 m1 M0 M1 : ℝ} (hn : 1 ≤ n) (h0 : 1 ≤ m0) (h1 : 1 ≤ m1) :
    argminL [1 - M0 / (n * m0), 1 - M1 / (n * m1)] = if M0 * m1 < M1 * m0 then 1 else 0 := by
  have h0' : 0 < n * m0 := by nlinarith
  have h1' : 0 < n * m1 := by nlinarith
  have : (1 - M1 / (n * m1) < 1 - M0 / (n * m0)) ↔ M0 * m1 < M1 * m0 := by
    rw [sub_lt_sub_iff_left, div_lt_div_iff₀ h0' h1']
    constructor
    · intro h
      nlinarith
    · intro h
      nlinarith
  simp [argminL, this]

/-- The data `[5, -5], [8, -8], [-1, 1], [-1, 2]`. -/
noncomputable def ksD : List KsSer := [[[5], [-5]], [[8], [-8]], [[-1], [1]], [[-1], [2]]]

/-- Two clusters, one round per attempt, `n_init=2`, `tol=0`; the eigenvector is `(1, -1) / √2`. -/
noncomputable def ksE : KsEnv :=
  { data := ksD, sz := 2, d := 1, nClusters := 2, maxIter := 1, nInit := 2, tol := 0, initArray := false,
    top := fun _ => [1 / √2, -(1 / √2)] }

/-- Initial centroids: series 0 and 2, later 0 and 1. -/
noncomputable def ksInits : ℕ → List KsSer
  | 0 => [[[5], [-5]], [[-1], [1]]]
  | _ => [[[5], [-5]], [[8], [-8]]]

theorem frob2 (a b : ℝ) : frobNorm [[a], [b]] = √(a ^ 2 + b ^ 2) := by
  unfold frobNorm
  congr 1
  simp
  ring

theorem frob_ge1 {a b : ℝ} (h : 1 ≤ a ^ 2 + b ^ 2) : 1 ≤ frobNorm [[a], [b]] := by
  rw [frob2, Real.one_le_sqrt]; exact h

theorem frob_mul {p : ℝ} (hp : 0 ≤ p) : frobNorm [[p], [-p]] = p * √2 ∧ frobNorm [[-p], [p]] = p * √2 := by
  have : p * √2 = √(2 * p ^ 2) := by
    rw [mul_comm 2, Real.sqrt_mul (sq_nonneg p), Real.sqrt_sq hp]
  rw [frob2, frob2, this]
  constructor <;> (congr 1; ring)

/-- Labels of the data for centroids `[c, -c]`-like pairs and given norms of the centroids. -/
theorem ks_dists (p0 p1 q0 q1 : ℝ) {m0 m1 : ℝ} (h0 : 1 ≤ m0) (h1 : 1 ≤ m1) :
    ∃ ds, ksDists 1 ksD [[[p0], [p1]], [[q0], [q1]]] (ksNorms ksD) [m0, m1] = .ok ds ∧ ds.map argminL =
      [if m3 5 (-5) p0 p1 * m1 < m3 5 (-5) q0 q1 * m0 then 1 else 0, if m3 8 (-8) p0 p1 * m1 < m3 8 (-8) q0 q1 * m0 then 1 else 0,
       if m3 (-1) 1 p0 p1 * m1 < m3 (-1) 1 q0 q1 * m0 then 1 else 0, if m3 (-1) 2 p0 p1 * m1 < m3 (-1) 2 q0 q1 * m0 then 1 else 0] := by
  have hnn : ∀ n ∈ ksNorms ksD, 0 ≤ n := by
    intro n hn
    obtain ⟨_, _, rfl⟩ := List.mem_map.1 hn
    exact Real.sqrt_nonneg _
  have hd := ksDists_ok (d := 1) (X := ksD) (cs := [[[p0], [p1]], [[q0], [q1]]]) (norms := ksNorms ksD) (normsC := [m0, m1]) hnn
    (by simp; constructor <;> linarith) rfl (by simp [ksNorms])
  refine ⟨_, hd, ?_⟩
  have e1 : 1 ≤ frobNorm [[5], [-5]] := frob_ge1 (by norm_num)
  have e2 : 1 ≤ frobNorm [[8], [-8]] := frob_ge1 (by norm_num)
  have e3 : 1 ≤ frobNorm [[-1], [1]] := frob_ge1 (by norm_num)
  have e4 : 1 ≤ frobNorm [[-1], [2]] := frob_ge1 (by norm_num)
  simp only [ksD, ksNorms, List.length_cons, List.length_nil, Nat.zero_add, Nat.reduceAdd,
    show List.range 4 = [0, 1, 2, 3] by decide, show List.range 2 = [0, 1] by decide, List.map_cons, List.map_nil,
    List.getD_cons_zero, List.getD_cons_succ]
  rw [sim2 _ _ _ _ e1 h0, sim2 _ _ _ _ e1 h1, sim2 _ _ _ _ e2 h0, sim2 _ _ _ _ e2 h1, sim2 _ _ _ _ e3 h0, sim2 _ _ _ _ e3 h1,
    sim2 _ _ _ _ e4 h0, sim2 _ _ _ _ e4 h1, label2 e1 h0 h1, label2 e2 h0 h1, label2 e3 h0 h1, label2 e4 h0 h1]

/-- A series whose inner product with the reference is greatest at lag 0 is not moved. -/
theorem shift2 {r0 r1 x0 x1 n : ℝ} (hr : 1 ≤ frobNorm [[r0], [r1]]) (hn : 1 ≤ n) (h1 : r0 * x1 < r0 * x0 + r1 * x1)
    (h2 : r1 * x0 ≤ r0 * x0 + r1 * x1) (t f : ℕ) :
    shiftedEntry 1 [[r0], [r1]] [[x0], [x1]] (-1) n t f = ent [[x0], [x1]] t f := by
  obtain ⟨l0, l1, l2⟩ := lag2 r0 r1 x0 x1
  have hp : 0 < frobNorm [[r0], [r1]] * n := by nlinarith
  have hcc : normalizedCc 1 [[r0], [r1]] [[x0], [x1]] (frobNorm [[r0], [r1]]) n =
      [r0 * x1 / (frobNorm [[r0], [r1]] * n), (r0 * x0 + r1 * x1) / (frobNorm [[r0], [r1]] * n), r1 * x0 / (frobNorm [[r0], [r1]] * n)] := by
    obtain ⟨hl, hv⟩ := normalizedCc_value (d := 1) (s1 := [[r0], [r1]]) (s2 := [[x0], [x1]]) (n1 := frobNorm [[r0], [r1]]) (n2 := n)
      (by simp) (by simp) (by linarith) (by linarith)
    have hbig : ¬ frobNorm [[r0], [r1]] * n < 1 / 1000000000 := by
      rw [not_lt]; nlinarith
    simp only [if_neg hbig] at hv
    refine List.ext_getElem? fun k => ?_
    have hk : k = 0 ∨ k = 1 ∨ k = 2 ∨ 3 ≤ k := by omega
    rcases hk with rfl | rfl | rfl | hk
    · rw [hv 0 (by simp)]
      have : ((0 : ℕ) : ℤ) - (([[r0], [r1]] : KsSer).length - 1 : ℕ) = -1 := by simp
      rw [this, l2]; rfl
    · rw [hv 1 (by simp)]
      have : ((1 : ℕ) : ℤ) - (([[r0], [r1]] : KsSer).length - 1 : ℕ) = 0 := by simp
      rw [this, l0]; rfl
    · rw [hv 2 (by simp)]
      have : ((2 : ℕ) : ℤ) - (([[r0], [r1]] : KsSer).length - 1 : ℕ) = 1 := by simp
      rw [this, l1]; rfl
    · rw [List.getElem?_eq_none (by rw [hl]; simp; omega), List.getElem?_eq_none (by simp; omega)]
  have hidx : argmaxL (normalizedCc 1 [[r0], [r1]] [[x0], [x1]] (frobNorm [[r0], [r1]]) n) = 1 := by
    rw [hcc]
    have a1 : -((r0 * x0 + r1 * x1) / (frobNorm [[r0], [r1]] * n)) < -(r0 * x1 / (frobNorm [[r0], [r1]] * n)) := by
      rw [neg_lt_neg_iff, div_lt_div_iff_of_pos_right hp]; exact h1
    have a2 : ¬ -(r1 * x0 / (frobNorm [[r0], [r1]] * n)) < -((r0 * x0 + r1 * x1) / (frobNorm [[r0], [r1]] * n)) := by
      rw [neg_lt_neg_iff, div_lt_div_iff_of_pos_right hp, not_lt]; exact h2
    simp only [argmaxL, List.map_cons, List.map_nil, argminL, List.getElem?_cons_zero, if_neg a2, if_pos a1]
  unfold shiftedEntry
  simp only [if_pos (show (-1 : ℝ) < 0 by norm_num), hidx]
  simp

theorem yShifted2 {r0 r1 x0 x1 y0 y1 n m : ℝ} (hr : 1 ≤ frobNorm [[r0], [r1]]) (hn : 1 ≤ n) (hm : 1 ≤ m) (h1 : r0 * x1 < r0 * x0 + r1 * x1)
    (h2 : r1 * x0 ≤ r0 * x0 + r1 * x1) (h3 : r0 * y1 < r0 * y0 + r1 * y1) (h4 : r1 * y0 ≤ r0 * y0 + r1 * y1) :
    yShifted 1 [[r0], [r1]] [[[x0], [x1]], [[y0], [y1]]] (-1) [n, m] = [[[x0], [x1]], [[y0], [y1]]] := by
  have hf : fillNorms [[[x0], [x1]], [[y0], [y1]]] [n, m] = [n, m] :=
    fillNorms_nonneg _ (by simp; constructor <;> linarith)
  unfold yShifted
  rw [hf]
  simp only [List.mapIdx_cons, List.mapIdx_nil, List.getD_cons_zero, List.getD_cons_succ, List.length_cons, List.length_nil,
    Nat.zero_add, Nat.reduceAdd, shift2 hr hn h1 h2, shift2 hr hm h3 h4, show List.range 2 = [0, 1] by decide, show List.range 1 = [0] by decide,
    List.map_cons, List.map_nil]
  simp [ent]

theorem inv_sqrt2 : 0 < 1 / √(2 : ℝ) ∧ 1 / √(2 : ℝ) < 1 := by
  have := sqrt2_gt
  refine ⟨by positivity, ?_⟩
  rw [div_lt_one (by linarith)]
  exact this

/-- The sign of the eigenvector: kept for the first cluster, changed for the second. -/
theorem ks_columns (i : ℕ) : ksColumn ksE [[[5], [-5]], [[8], [-8]]] i = [1 / √2, -(1 / √2)] ∧
    ksColumn ksE [[[-1], [1]], [[-1], [2]]] i = [-(1 / √2), 1 / √2] := by
  obtain ⟨h0, h1⟩ := inv_sqrt2
  generalize hm : 1 / √(2 : ℝ) = m at h0 h1
  have hsp : ∀ (a b a' b' c : ℝ), ksSpread [[[a], [b]], [[a'], [b']]] c [m, -m] =
      frobNorm [[a - c * m], [b + c * m]] + frobNorm [[a' - c * m], [b' + c * m]] := by
    intro a b a' b' c
    simp [ksSpread]
  have htop : ∀ M, ksE.top M = [m, -m] := by intro M; rw [← hm]; rfl
  constructor
  · unfold ksColumn
    rw [htop]
    simp only [hsp, frob2]
    rw [if_neg]
    rw [not_lt]
    exact add_le_add (Real.sqrt_le_sqrt (by nlinarith)) (Real.sqrt_le_sqrt (by nlinarith))
  · unfold ksColumn
    rw [htop]
    simp only [hsp, frob2]
    rw [if_pos]
    · simp
    · exact add_lt_add (Real.sqrt_lt_sqrt (by positivity) (by nlinarith)) (Real.sqrt_lt_sqrt (by positivity) (by nlinarith))

theorem standardised_pm {m : ℝ} (hm : 0 < m) {y : KsSer} :
    (Standardised 1 [[m], [-m]] y → y = [[1], [-1]]) ∧ (Standardised 1 [[-m], [m]] y → y = [[-1], [1]]) := by
  have key : ∀ (a b : ℝ), a + b = 0 → a ^ 2 = m ^ 2 → Standardised 1 [[a], [b]] y → y = [[a / m], [b / m]] := by
    intro a b hab ham h
    have hmean : colMean [[a], [b]] 0 = 0 := by
      simp [colMean, sum_range_succ, Spec.val, hab]
    have hstd : colStd [[a], [b]] 0 = m := by
      unfold colStd
      rw [hmean]
      have hb : b ^ 2 = m ^ 2 := by rw [show b = -a by linarith, neg_sq, ham]
      have : (∑ t ∈ range ([[a], [b]] : KsSer).length, (val [[a], [b]] t 0 - 0) ^ 2) / (([[a], [b]] : KsSer).length : ℝ) = m ^ 2 := by
        simp [sum_range_succ, Spec.val, ham, hb]
      rw [this, Real.sqrt_sq hm.le]
    obtain ⟨h1, h2, h3⟩ := h
    have v0 := h3 0 (by simp) 0 (by norm_num)
    have v1 := h3 1 (by simp) 0 (by norm_num)
    rw [hmean, hstd, if_neg hm.ne'] at v0 v1
    match y, h1, h2 with
    | [r0, r1], _, h2 =>
      have e0 := h2 r0 (by simp)
      have e1 := h2 r1 (by simp)
      match r0, r1, e0, e1 with
      | [u], [v], _, _ =>
        simp [Spec.val] at v0 v1
        rw [v0, v1]
  constructor
  · intro h
    rw [key m (-m) (by ring) rfl h, div_self hm.ne', neg_div, div_self hm.ne']
  · intro h
    rw [key (-m) m (by ring) (by ring) h, div_self hm.ne', neg_div, div_self hm.ne']

theorem ks_scale : ksScale 2 1 [[[1 / √2], [-(1 / √2)]], [[-(1 / √2)], [1 / √2]]] = .ok [[[1], [-1]], [[-1], [1]]] := by
  obtain ⟨Y, h1, h2, h3⟩ := ksScale_ok (sz := 2) (d := 1) (X := [[[1 / √2], [-(1 / √2)]], [[-(1 / √2)], [1 / √2]]]) (by norm_num) (by norm_num) (by simp) (by simp [Wide])
  obtain ⟨y0, a0, b0⟩ := h3 0 (by simp)
  obtain ⟨y1, a1, b1⟩ := h3 1 (by simp)
  obtain ⟨hp, -⟩ := inv_sqrt2
  have c0 := (standardised_pm hp).1 b0
  have c1 := (standardised_pm hp).2 b1
  rw [h1]
  match Y, h2 with
  | [u, v], _ =>
    simp at a0 a1
    rw [a0, a1, c0, c1]

theorem one_le_mul_sqrt2 {p : ℝ} (hp : 1 ≤ p) : 1 ≤ p * √2 := by
  have := sqrt2_gt
  nlinarith

/-- The update of the successful attempt. -/
theorem ks_update (s : KsState) (hl : s.labels = some [0, 0, 1, 1]) (hn : s.norms = ksNorms ksD) :
    ksUpdate ksE s [[[5], [-5]], [[-1], [1]]] = .ok { s with centers := some [[[1], [-1]], [[-1], [1]]], normsC := [1 * √2, 1 * √2] } := by
  have e1 : 1 ≤ frobNorm [[5], [-5]] := frob_ge1 (by norm_num)
  have e2 : 1 ≤ frobNorm [[8], [-8]] := frob_ge1 (by norm_num)
  have e3 : 1 ≤ frobNorm [[-1], [1]] := frob_ge1 (by norm_num)
  have e4 : 1 ≤ frobNorm [[-1], [2]] := frob_ge1 (by norm_num)
  have m0 : ksMembers ksE s 0 = [([[5], [-5]], frobNorm [[5], [-5]]), ([[8], [-8]], frobNorm [[8], [-8]])] := by
    unfold ksMembers
    rw [hl, hn]
    simp [ksE, ksD, ksNorms]
  have m1 : ksMembers ksE s 1 = [([[-1], [1]], frobNorm [[-1], [1]]), ([[-1], [2]], frobNorm [[-1], [2]])] := by
    unfold ksMembers
    rw [hl, hn]
    simp [ksE, ksD, ksNorms]
  have x0 : ksExtract ksE [[5], [-5]] (ksMembers ksE s 0) = [[1 / √2], [-(1 / √2)]] := by
    rw [m0]
    unfold ksExtract
    simp only [List.map_cons, List.map_nil]
    have := yShifted2 (r0 := 5) (r1 := -5) (x0 := 5) (x1 := -5) (y0 := 8) (y1 := -8) e1 e1 e2 (by norm_num) (by norm_num) (by norm_num) (by norm_num)
    change (List.range 2).map (fun t => (List.range 1).map fun i => (ksColumn ksE (yShifted 1 [[5], [-5]] [[[5], [-5]], [[8], [-8]]] (-1)
      [frobNorm [[5], [-5]], frobNorm [[8], [-8]]]) i).getD t 0) = _
    rw [this]
    simp only [(ks_columns _).1]
    simp [show List.range 2 = [0, 1] by decide]
  have x1 : ksExtract ksE [[-1], [1]] (ksMembers ksE s 1) = [[-(1 / √2)], [1 / √2]] := by
    rw [m1]
    unfold ksExtract
    simp only [List.map_cons, List.map_nil]
    have := yShifted2 (r0 := -1) (r1 := 1) (x0 := -1) (x1 := 1) (y0 := -1) (y1 := 2) e3 e3 e4 (by norm_num) (by norm_num) (by norm_num) (by norm_num)
    change (List.range 2).map (fun t => (List.range 1).map fun i => (ksColumn ksE (yShifted 1 [[-1], [1]] [[[-1], [1]], [[-1], [2]]] (-1)
      [frobNorm [[-1], [1]], frobNorm [[-1], [2]]]) i).getD t 0) = _
    rw [this]
    simp only [(ks_columns _).2]
    simp [show List.range 2 = [0, 1] by decide]
  unfold ksUpdate
  have hmi : (([[[5], [-5]], [[-1], [1]]] : List KsSer).mapIdx fun k c => ksExtract ksE c (ksMembers ksE s k)) =
      [[[1 / √2], [-(1 / √2)]], [[-(1 / √2)], [1 / √2]]] := by
    simp only [List.mapIdx_cons, List.mapIdx_nil, Nat.zero_add, x0, x1]
  rw [hmi]
  change (ksScale 2 1 _ >>= _) = _
  rw [ks_scale]
  have hn2 : ksNorms [[[1], [-1]], [[-1], [1]]] = [1 * √2, 1 * √2] := by
    simp only [ksNorms, List.map_cons, List.map_nil, (frob_mul (zero_le_one)).1, (frob_mul (zero_le_one)).2]
  change Except.ok { s with centers := _, normsC := ksNorms [[[1], [-1]], [[-1], [1]]] } = _
  rw [hn2]

theorem m3_values : m3 5 (-5) 5 (-5) = 50 ∧ m3 5 (-5) (-1) 1 = 5 ∧ m3 8 (-8) 5 (-5) = 80 ∧ m3 8 (-8) (-1) 1 = 8 ∧
    m3 (-1) 1 5 (-5) = 5 ∧ m3 (-1) 1 (-1) 1 = 2 ∧ m3 (-1) 2 5 (-5) = 10 ∧ m3 (-1) 2 (-1) 1 = 3 ∧
    m3 5 (-5) 1 (-1) = 10 ∧ m3 8 (-8) 1 (-1) = 16 ∧ m3 (-1) 1 1 (-1) = 1 ∧ m3 (-1) 2 1 (-1) = 2 ∧
    m3 5 (-5) 8 (-8) = 80 ∧ m3 8 (-8) 8 (-8) = 128 ∧ m3 (-1) 1 8 (-8) = 8 ∧ m3 (-1) 2 8 (-8) = 16 := by
  unfold m3
  refine ⟨?_, ?_, ?_, ?_, ?_, ?_, ?_, ?_, ?_, ?_, ?_, ?_, ?_, ?_, ?_, ?_⟩ <;> norm_num

theorem mul_sqrt2_lt (a b c d : ℝ) : (a * (b * √2) < c * (d * √2)) = (a * b < c * d) := by
  have h : (0 : ℝ) < √2 := by positivity
  rw [← mul_assoc, ← mul_assoc, mul_lt_mul_iff_left₀ h]

/-- Assignment of the data for the four configurations met. -/
theorem ks_assign (s : KsState) (hn : s.norms = ksNorms ksD) :
    (s.centers = some [[[5], [-5]], [[-1], [1]]] → s.normsC = [5 * √2, 1 * √2] →
      ∃ v : ℝ, ksAssign ksE s = ({ s with labels := some [0, 0, 1, 1], inertia := v }, none)) ∧
    (s.centers = some [[[1], [-1]], [[-1], [1]]] → s.normsC = [1 * √2, 1 * √2] →
      ∃ v : ℝ, ksAssign ksE s = ({ s with labels := some [0, 0, 1, 1], inertia := v }, none)) ∧
    (s.centers = some [[[5], [-5]], [[8], [-8]]] → s.normsC = [5 * √2, 8 * √2] →
      ksAssign ksE s = ({ s with labels := some [0, 0, 0, 0] }, some .emptyCluster)) ∧
    (s.centers = some [[[1], [-1]], [[-1], [1]]] → s.normsC = [5 * √2, 8 * √2] →
      ∃ v : ℝ, ksAssign ksE s = ({ s with labels := some [0, 0, 1, 0], inertia := v }, none)) := by
  obtain ⟨v1, v2, v3, v4, v5, v6, v7, v8, v9, v10, v11, v12, v13, v14, v15, v16⟩ := m3_values
  have key : ∀ (p0 p1 q0 q1 : ℝ) (m0 m1 : ℝ), 1 ≤ m0 → 1 ≤ m1 → s.centers = some [[[p0], [p1]], [[q0], [q1]]] → s.normsC = [m0 * √2, m1 * √2] →
      ∀ lab, [if m3 5 (-5) p0 p1 * m1 < m3 5 (-5) q0 q1 * m0 then 1 else 0, if m3 8 (-8) p0 p1 * m1 < m3 8 (-8) q0 q1 * m0 then 1 else 0,
       if m3 (-1) 1 p0 p1 * m1 < m3 (-1) 1 q0 q1 * m0 then 1 else 0, if m3 (-1) 2 p0 p1 * m1 < m3 (-1) 2 q0 q1 * m0 then 1 else 0] = lab →
      ∃ v : ℝ, ksAssign ksE s = if hasEmpty lab 2 then ({ s with labels := some lab }, some .emptyCluster)
        else ({ s with labels := some lab, inertia := v }, none) := by
    intro p0 p1 q0 q1 m0 m1 h0 h1 hc hC lab hlab
    obtain ⟨ds, hd, hl⟩ := ks_dists p0 p1 q0 q1 (one_le_mul_sqrt2 h0) (one_le_mul_sqrt2 h1)
    simp only [mul_sqrt2_lt, hlab] at hl
    refine ⟨ksInertia ds lab, ?_⟩
    unfold ksAssign
    rw [hc, hn, hC]
    change (match ksDists 1 ksD [[[p0], [p1]], [[q0], [q1]]] (ksNorms ksD) [m0 * √2, m1 * √2] with
      | .error err => (s, some err)
      | .ok ds => _) = _
    rw [hd]
    simp only [hl]
    rfl
  refine ⟨fun hc hC => ?_, fun hc hC => ?_, fun hc hC => ?_, fun hc hC => ?_⟩
  · obtain ⟨v, h⟩ := key _ _ _ _ 5 1 (by norm_num) (by norm_num) hc hC [0, 0, 1, 1] (by rw [v1, v2, v3, v4, v5, v6, v7, v8]; norm_num)
    exact ⟨v, by rw [h, if_neg (by decide)]⟩
  · obtain ⟨v, h⟩ := key _ _ _ _ 1 1 (by norm_num) (by norm_num) hc hC [0, 0, 1, 1] (by rw [v9, v2, v10, v4, v11, v6, v12, v8]; norm_num)
    exact ⟨v, by rw [h, if_neg (by decide)]⟩
  · obtain ⟨v, h⟩ := key _ _ _ _ 5 8 (by norm_num) (by norm_num) hc hC [0, 0, 0, 0] (by rw [v1, v13, v3, v14, v5, v15, v7, v16]; norm_num)
    rw [h, if_pos (by decide)]
  · obtain ⟨v, h⟩ := key _ _ _ _ 5 8 (by norm_num) (by norm_num) hc hC [0, 0, 1, 0] (by rw [v9, v2, v10, v4, v11, v6, v12, v8]; norm_num)
    exact ⟨v, by rw [h, if_neg (by decide)]⟩

/-- The eigenvector supposed is one `eigh` may return: the unit vector of greatest quadratic form, for any aligned members. -/
theorem ks_top (Xp : List KsSer) (i : ℕ) : (1 / √(2 : ℝ)) ^ 2 + (-(1 / √2)) ^ 2 = 1 ∧ ∀ v : ℕ → ℝ, v 0 ^ 2 + v 1 ^ 2 = 1 →
    ∑ a ∈ range 2, ∑ b ∈ range 2, v a * ksM 2 Xp i a b * v b ≤
      ∑ a ∈ range 2, ∑ b ∈ range 2, (ksE.top (ksM 2 Xp i)).getD a 0 * ksM 2 Xp i a b * (ksE.top (ksM 2 Xp i)).getD b 0 := by
  have hs : (1 / √(2 : ℝ)) ^ 2 = 1 / 2 := by rw [div_pow, Real.sq_sqrt (by norm_num)]; norm_num
  refine ⟨by rw [neg_sq, hs]; norm_num, fun v hv => ?_⟩
  have hpos : 0 ≤ ksGram Xp i 0 0 - ksGram Xp i 0 1 - ksGram Xp i 1 0 + ksGram Xp i 1 1 := by
    have : ksGram Xp i 0 0 - ksGram Xp i 0 1 - ksGram Xp i 1 0 + ksGram Xp i 1 1 = (Xp.map fun x => (ent x 0 i - ent x 1 i) ^ 2).sum := by
      unfold ksGram
      induction Xp with
      | nil => simp
      | cons x Xp ih =>
        simp only [List.map_cons, List.sum_cons]
        rw [← ih]; ring
    rw [this]
    exact List.sum_nonneg (by simp; intros; positivity)
  have hM : ∀ a b, ksM 2 Xp i a b = (∑ j ∈ range 2, (∑ l ∈ range 2, ksCenter 2 l a * ksGram Xp i l j) * ksCenter 2 j b) := by
    intro a b
    simp [ksM, ksDot, sum_range_succ, show List.range 2 = [0, 1] by decide]
    ring
  have e : ksM 2 Xp i 0 0 = (ksGram Xp i 0 0 - ksGram Xp i 0 1 - ksGram Xp i 1 0 + ksGram Xp i 1 1) / 4 ∧
      ksM 2 Xp i 0 1 = -(ksGram Xp i 0 0 - ksGram Xp i 0 1 - ksGram Xp i 1 0 + ksGram Xp i 1 1) / 4 ∧
      ksM 2 Xp i 1 0 = -(ksGram Xp i 0 0 - ksGram Xp i 0 1 - ksGram Xp i 1 0 + ksGram Xp i 1 1) / 4 ∧
      ksM 2 Xp i 1 1 = (ksGram Xp i 0 0 - ksGram Xp i 0 1 - ksGram Xp i 1 0 + ksGram Xp i 1 1) / 4 := by
    refine ⟨?_, ?_, ?_, ?_⟩ <;> rw [hM] <;> simp [sum_range_succ, ksCenter] <;> ring
  obtain ⟨e0, e1, e2, e3⟩ := e
  generalize ksGram Xp i 0 0 - ksGram Xp i 0 1 - ksGram Xp i 1 0 + ksGram Xp i 1 1 = g at *
  have ht : ∀ k, (ksE.top (ksM 2 Xp i)).getD k 0 = [1 / √2, -(1 / √2)].getD k 0 := fun _ => rfl
  simp only [ht]
  simp only [sum_range_succ, range_zero, sum_empty, zero_add, e0, e1, e2, e3, List.getD_cons_zero, List.getD_cons_succ]
  generalize 1 / √(2 : ℝ) = m at *
  have : 0 ≤ g * (v 0 + v 1) ^ 2 := by positivity
  nlinarith

theorem ksNorms_ab : ksNorms [[[5], [-5]], [[-1], [1]]] = [5 * √2, 1 * √2] := by
  simp only [ksNorms, List.map_cons, List.map_nil, (frob_mul (zero_le_one)).2, (frob_mul (show (0 : ℝ) ≤ 5 by norm_num)).1]

theorem ksNorms_aa : ksNorms [[[5], [-5]], [[8], [-8]]] = [5 * √2, 8 * √2] := by
  simp only [ksNorms, List.map_cons, List.map_nil, (frob_mul (show (0 : ℝ) ≤ 8 by norm_num)).1, (frob_mul (show (0 : ℝ) ≤ 5 by norm_num)).1]

/-- The first attempt succeeds. -/
theorem ks_first (s : KsState) (hn : s.norms = ksNorms ksD) : ∃ (v : ℝ) (s' : KsState),
    ksFitOne ksE [[[5], [-5]], [[-1], [1]]] s = (s', none) ∧ s'.norms = ksNorms ksD ∧ s'.inertia = v ∧
      s'.centers = some [[[1], [-1]], [[-1], [1]]] := by
  unfold ksFitOne
  simp only [ksNorms_ab]
  obtain ⟨v, hv⟩ := (ks_assign { s with centers := some [[[5], [-5]], [[-1], [1]]], normsC := [5 * √2, 1 * √2] } hn).1 rfl rfl
  rw [hv]
  simp only [show ksE.maxIter = 1 from rfl, one_ne_zero, if_false]
  unfold ksLoop
  simp only [Option.getD_some]
  rw [ks_update { s with labels := some [0, 0, 1, 1], inertia := (v : WithTop ℝ), centers := some [[[5], [-5]], [[-1], [1]]], normsC := [5 * √2, 1 * √2] } rfl hn]
  simp only
  obtain ⟨w, hw⟩ := (ks_assign { s with labels := some [0, 0, 1, 1], inertia := (v : WithTop ℝ), centers := some [[[1], [-1]], [[-1], [1]]], normsC := [1 * √2, 1 * √2] } hn).2.1 rfl rfl
  rw [hw]
  simp only [show ksStop ksE.tol ⊤ (w : WithTop ℝ) = false from rfl]
  exact ⟨w, _, rfl, hn, rfl, rfl⟩

/-- The later attempts fail, and leave their centroids behind. -/
theorem ks_later (s : KsState) (hn : s.norms = ksNorms ksD) : ∃ s' : KsState,
    ksFitOne ksE [[[5], [-5]], [[8], [-8]]] s = (s', some .emptyCluster) ∧ s'.norms = ksNorms ksD ∧
      s'.centers = some [[[5], [-5]], [[8], [-8]]] := by
  unfold ksFitOne
  simp only [ksNorms_aa]
  rw [(ks_assign { s with centers := some [[[5], [-5]], [[8], [-8]]], normsC := [5 * √2, 8 * √2] } hn).2.2.1 rfl rfl]
  exact ⟨_, rfl, hn, rfl⟩

theorem ks_rest : ∀ (fuel : ℕ) (b : KsBest) (s : KsState), s.norms = ksNorms ksD → b.nSuccessful = 1 → 1 ≤ b.nAttempts →
    (fuel = 0 → s.centers = some [[[5], [-5]], [[8], [-8]]]) →
    ∃ b' s', ksFitLoop ksE ksInits fuel b s = (b', s', none) ∧ b'.best = b.best ∧ b'.minInertia = b.minInertia ∧
      s'.norms = ksNorms ksD ∧ s'.centers = some [[[5], [-5]], [[8], [-8]]] := by
  intro fuel
  induction fuel with
  | zero =>
    intro b s hn _ _ hc
    exact ⟨b, s, rfl, rfl, rfl, hn, hc rfl⟩
  | succ fuel ih =>
    intro b s hn hb ha _
    obtain ⟨s', h1, h2, h3⟩ := ks_later s hn
    obtain ⟨b', s'', g1, g2, g3, g4, g5⟩ := ih { b with nAttempts := b.nAttempts + 1 } s' h2 hb (by simp) (fun _ => h3)
    refine ⟨b', s'', ?_, g2, g3, g4, g5⟩
    unfold ksFitLoop
    have hi : ksInits b.nAttempts = [[[5], [-5]], [[8], [-8]]] := by
      obtain ⟨k, hk⟩ : ∃ k, b.nAttempts = k + 1 := ⟨b.nAttempts - 1, by omega⟩
      rw [hk]; rfl
    simp only [hb, show ksE.nInit = 2 from rfl, show 1 < 2 by norm_num, if_true, hi, h1]
    simp only [hb] at g1
    exact g1

/-- The label of `[-1, 2]` should be 1: its similarity to `[-1, 1]` is greater. -/
theorem ks_not_nearest : ¬ NearestShape 1 [[-1], [2]] [[[1], [-1]], [[-1], [1]]] 0 := by
  rintro ⟨-, v, hv, hbest⟩
  obtain ⟨⟨lag, l1, l2, l3⟩, -⟩ := hv 0 (by simp)
  obtain ⟨-, u⟩ := hv 1 (by simp)
  have h1 := (hbest 1 (by simp)).1
  have h2 := u 0 (by simp) (by simp)
  have hE : energy 1 [[-1], [2]] = 5 := by simp [energy, sum_range_succ, Spec.val]; norm_num
  have hp : (0 : ℝ) < √5 * √2 := by positivity
  simp only [List.getElem_cons_zero, List.getElem_cons_succ, energy_pm.1, energy_pm.2, hE] at l3 h2
  rw [(lag2 _ _ _ _).1] at h2
  simp at l1 l2
  have h3 : v 0 ≤ 2 / (√5 * √2) := by
    have : lag = -1 ∨ lag = 0 ∨ lag = 1 := by omega
    rw [l3]
    rcases this with rfl | rfl | rfl
    · rw [(lag2 _ _ _ _).2.2, div_le_div_iff_of_pos_right hp]; norm_num
    · rw [(lag2 _ _ _ _).1, div_le_div_iff_of_pos_right hp]; norm_num
    · rw [(lag2 _ _ _ _).2.1, div_le_div_iff_of_pos_right hp]; norm_num
  have h4 := (h2.trans h1).trans h3
  rw [div_le_div_iff_of_pos_right hp] at h4
  norm_num at h4

/-- False: the labels of a successful `fit` are nearest under its centroids. The norms of the centroids come from the last
attempt, which failed. -/
theorem C63_false_labels : ∃ s, ksFit ksE ksInits 0 = (s, none) ∧ s.xfit = true ∧
    s.centers = some [[[1], [-1]], [[-1], [1]]] ∧ s.normsC = [5 * √2, 8 * √2] ∧ s.labels = some [0, 0, 1, 0] ∧
    ¬ NearestShape 1 [[-1], [2]] [[[1], [-1]], [[-1], [1]]] 0 := by
  obtain ⟨v, s1, h1, h2, h3, h4⟩ := ks_first
    { labels := none, inertia := ⊤, centers := none, norms := ksNorms ksE.data, normsC := [], xfit := true, nIter := 0, iter := 0 } rfl
  obtain ⟨b, s2, g1, g2, g3, g4, g5⟩ := ks_rest 9 { best := s1.centers, minInertia := s1.inertia, nSuccessful := 1, nAttempts := 1 }
    { s1 with nIter := s1.iter } h2 rfl le_rfl (by norm_num)
  obtain ⟨w, hw⟩ := (ks_assign { s2 with centers := some [[[1], [-1]], [[-1], [1]]], normsC := [5 * √2, 8 * √2] } g4).2.2.2 rfl rfl
  have hloop : ksFitLoop ksE ksInits 10 ⟨none, ⊤, 0, 0⟩
      { labels := none, inertia := ⊤, centers := none, norms := ksNorms ksE.data, normsC := [], xfit := true, nIter := 0, iter := 0 } =
      (b, s2, none) := by
    unfold ksFitLoop
    simp only [show ksE.nInit = 2 from rfl, show 0 < 2 by norm_num, if_true, ksInits, h1, h3, WithTop.coe_lt_top, Nat.zero_add]
    rw [h3] at g1
    exact g1
  unfold ksFit
  simp only [show ksE.initArray = false from rfl, Bool.false_eq_true, if_false, show max ksE.nInit 10 = 10 from rfl, hloop]
  unfold ksFinish
  simp only [g5, ksNorms_aa]
  unfold ksPostFit
  simp only [g2, h4, g3, h3, ne_eq, WithTop.coe_ne_top, not_false_eq_true, if_true, hw]
  exact ⟨_, rfl, rfl, rfl, rfl, rfl, ks_not_nearest⟩

example : ∃ s, (ksFit ksE ksInits 0 = (s, none)) ∧ ∃ A ≤ 10, ∃ a < A, (ksAttempt ksE (ksInits a)).1.centers = s.centers := by
  obtain ⟨s, h, hx, hc, -⟩ := C63_false_labels
  obtain ⟨A, hA, -, -, -, hr⟩ := C63_fit ksE ksInits 0 s h
  rcases hr with hr | ⟨a, ha, best, -, -, -, -, h1, -, -, -, -, -, h2, -⟩
  · rw [hr] at hx; cases hx
  · exact ⟨s, h, A, hA, a, ha, h1.trans h2.symm⟩

example : ∃ raw, ksScale 2 1 raw = .ok [[[1], [-1]], [[-1], [1]]] := by
  obtain ⟨v, s', h1, -, -, h4⟩ := ks_first
    { labels := none, inertia := ⊤, centers := none, norms := ksNorms ksE.data, normsC := [], xfit := true, nIter := 0, iter := 0 } rfl
  have h : ksAttempt ksE [[[5], [-5]], [[-1], [1]]] = (s', none) := h1
  obtain ⟨raw, cs, h5, h6⟩ := C63_scaled ksE [[[5], [-5]], [[-1], [1]]] (by rw [h])
  rw [h] at h5
  obtain rfl := Option.some.inj (h4.symm.trans h5)
  exact ⟨raw, h6⟩

example : energy 1 [[1], [-1]] = (2 : ℕ) * (1 : ℕ) := by
  refine C63_unit (x := [[3], [-3]]) rfl ⟨rfl, by simp [Wide], ?_⟩ ?_
  all_goals
    have hm : colMean [[3], [-3]] 0 = 0 := by simp [colMean, sum_range_succ, Spec.val]
    have hs : colStd [[3], [-3]] 0 = 3 := by
      unfold colStd
      rw [hm, show (3 : ℝ) = √(3 ^ 2) by rw [Real.sqrt_sq]; norm_num]
      congr 1
      simp [sum_range_succ, Spec.val]
  · intro t ht f hf
    obtain rfl : f = 0 := by omega
    simp at ht
    rw [hm, hs]
    have : t = 0 ∨ t = 1 := by omega
    rcases this with rfl | rfl <;> simp [Spec.val]
  · intro f hf
    obtain rfl : f = 0 := by omega
    rw [hs]; norm_num

/-- Two successful attempts with the same centroids: all hypotheses of `C63_partial` hold. -/
theorem ks_good : ∃ s, ksFit ksE (fun _ => [[[5], [-5]], [[-1], [1]]]) 0 = (s, none) ∧ s.xfit = true ∧
    s.centers = some [[[1], [-1]], [[-1], [1]]] ∧ s.normsC = [1 * √2, 1 * √2] := by
  obtain ⟨v, s1, h1, h2, h3, h4⟩ := ks_first
    { labels := none, inertia := ⊤, centers := none, norms := ksNorms ksE.data, normsC := [], xfit := true, nIter := 0, iter := 0 } rfl
  obtain ⟨w, s2, g1, g2, g3, g4⟩ := ks_first { s1 with nIter := s1.iter } h2
  have hn : ksNorms [[[1], [-1]], [[-1], [1]]] = [1 * √2, 1 * √2] := by
    simp only [ksNorms, List.map_cons, List.map_nil, (frob_mul (zero_le_one)).1, (frob_mul (zero_le_one)).2]
  have hloop : ∃ b s3, ksFitLoop ksE (fun _ => [[[5], [-5]], [[-1], [1]]]) 10 ⟨none, ⊤, 0, 0⟩
      { labels := none, inertia := ⊤, centers := none, norms := ksNorms ksE.data, normsC := [], xfit := true, nIter := 0, iter := 0 } =
      (b, s3, none) ∧ b.best = some [[[1], [-1]], [[-1], [1]]] ∧ b.minInertia ≠ ⊤ ∧ s3.norms = ksNorms ksD ∧
        s3.centers = some [[[1], [-1]], [[-1], [1]]] := by
    rw [ksFitLoop]
    simp only [show ksE.nInit = 2 from rfl, show 0 < 2 by norm_num, if_true, h1, h3, WithTop.coe_lt_top, Nat.zero_add]
    rw [h3] at g1
    rw [ksFitLoop]
    simp only [show ksE.nInit = 2 from rfl, show 1 < 2 by norm_num, if_true, g1]
    split
    · rw [ksFitLoop]
      exact ⟨_, _, rfl, g4, by rw [g3]; exact WithTop.coe_ne_top, g2, g4⟩
    · rw [ksFitLoop]
      exact ⟨_, _, rfl, h4, WithTop.coe_ne_top, g2, g4⟩
  obtain ⟨b, s3, k1, k2, k3, k4, k5⟩ := hloop
  obtain ⟨z, hz⟩ := (ks_assign { s3 with centers := some [[[1], [-1]], [[-1], [1]]], normsC := [1 * √2, 1 * √2] } k4).2.1 rfl rfl
  unfold ksFit
  simp only [show ksE.initArray = false from rfl, Bool.false_eq_true, if_false, show max ksE.nInit 10 = 10 from rfl, k1]
  unfold ksFinish
  simp only [k5, hn]
  unfold ksPostFit
  simp only [k2, k3, ne_eq, not_false_eq_true, if_true, hz]
  exact ⟨_, rfl, rfl, rfl, rfl⟩

example : ∃ (s : KsState) (lab : List ℕ), s.labels = some lab ∧ lab.length = 4 ∧
    ∀ (i : ℕ) (hi : i < ksD.length), ∃ l, lab[i]? = some l ∧ NearestShape 1 ksD[i] [[[1], [-1]], [[-1], [1]]] l := by
  obtain ⟨s, h, hx, hc, hn⟩ := ks_good
  obtain ⟨lab, h1, h2, -, h4⟩ := C63_partial ksE _ 0 s h hx (by simp [ksE]) (by simp [ksE, ksD, Wide]) hc (by simp) (by simp [ksE, Wide])
    (by rw [hn]; simp [ksE, energy_pm.1, energy_pm.2]) (by
      have h2 := sqrt2_gt
      have hE : ∀ x ∈ ksD, 1 ≤ energy 1 x := by
        simp [ksD, energy, sum_range_succ, Spec.val]; norm_num
      intro x hx c hc
      have e1 : 1 ≤ √(energy 1 x) := Real.one_le_sqrt.2 (hE x hx)
      have e2 : 1 ≤ √(energy 1 c) := by
        simp at hc
        rcases hc with rfl | rfl
        · rw [energy_pm.1]; exact h2.le
        · rw [energy_pm.2]; exact h2.le
      change _ ≤ √(energy 1 x) * √(energy 1 c)
      nlinarith)
  exact ⟨s, lab, h1, h2, h4⟩

end Verif
