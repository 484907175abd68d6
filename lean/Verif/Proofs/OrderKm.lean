import Verif.Spec.Order
import Mathlib.Algebra.BigOperators.Group.List.Basic
import Mathlib.Data.List.Perm.Basic
/-!
k-means does not see the order of the series.
-/
set_option linter.unusedSectionVars false
namespace Verif
open Spec
variable {P C K : Type} [Field K] [LinearOrder K]

theorem mapM_perm {α β : Type} (g : α → Option β) {l l' : List α} (h : l.Perm l') :
    ∀ ds, l.mapM g = some ds → ∃ ds', l'.mapM g = some ds' ∧ ds.Perm ds' := by
  induction h with
  | nil => exact fun ds h => ⟨ds, h, .refl _⟩
  | cons a _ ih =>
    intro ds h
    rw [List.mapM_cons] at h
    cases hg : g a with
    | none => rw [hg] at h; simp at h
    | some v =>
      rw [hg] at h
      simp only [Option.bind_eq_bind, Option.bind_some, Option.bind_eq_some_iff, Option.pure_def, Option.some.injEq] at h
      obtain ⟨ds0, h0, rfl⟩ := h
      obtain ⟨ds', h1, h2⟩ := ih ds0 h0
      exact ⟨v :: ds', by rw [List.mapM_cons, hg, h1]; rfl, h2.cons v⟩
  | swap a b l =>
    intro ds h
    rw [List.mapM_cons, List.mapM_cons] at h
    cases ha : g a <;> cases hb : g b <;> rw [ha, hb] at h <;> simp only [Option.bind_eq_bind, Option.bind_some, Option.bind_none, reduceCtorEq] at h
    case some.some u v =>
      cases hl : l.mapM g with
      | none => simp [hl] at h
      | some r =>
        simp only [hl, Option.bind_some, Option.pure_def, Option.some.injEq] at h
        exact ⟨u :: v :: r, by rw [List.mapM_cons, List.mapM_cons, ha, hb, hl]; rfl, h ▸ List.Perm.swap u v r⟩
  | trans _ _ ih1 ih2 =>
    intro ds h
    obtain ⟨d1, h1, p1⟩ := ih1 ds h
    obtain ⟨d2, h2, p2⟩ := ih2 d1 h1
    exact ⟨d2, h2, p1.trans p2⟩

section
variable {e e' : KmEnv P C K}

/-- The same estimator, the series in another order. -/
structure Reordered (e e' : KmEnv P C K) : Prop where
  data : e.data.Perm e'.data
  clusters : e'.nClusters = e.nClusters
  rounds : e'.maxIter = e.maxIter
  attempts : e'.nInit = e.nInit
  tol : e'.tol = e.tol
  dist : e'.dist = e.dist
  idist : e'.idist = e.idist
  bary : ∀ M M' c, M.Perm M' → (∀ x ∈ M, x ∈ e.data) → e'.bary M' c = e.bary M c

theorem hasEmpty_perm {l l' : List ℕ} (h : l.Perm l') (k : ℕ) : hasEmpty l' k = hasEmpty l k := by
  unfold hasEmpty
  congr 1
  funext c
  rw [h.count_eq]

theorem zip_map_self {α β : Type} (f : α → β) (l : List α) : l.zip (l.map f) = l.map fun x => (x, f x) := by
  induction l with
  | nil => rfl
  | cons a l ih => simp [ih]

theorem kmInertia_reordered (h : Reordered e e') (f : P → ℕ) (cs : List C) :
    kmInertia e' (e'.data.map f) cs = kmInertia e (e.data.map f) cs := by
  unfold kmInertia
  rw [zip_map_self, zip_map_self, h.idist, h.data.length_eq]
  have hp := h.data.map fun x => (x, f x)
  cases h1 : (e.data.map fun x => (x, f x)).mapM fun xl => cs[xl.2]?.map (e.idist xl.1) with
  | none =>
    cases h2 : (e'.data.map fun x => (x, f x)).mapM fun xl => cs[xl.2]?.map (e.idist xl.1) with
    | none => rfl
    | some ds =>
      obtain ⟨_, h3, _⟩ := mapM_perm _ hp.symm _ h2
      rw [h1] at h3; cases h3
  | some ds =>
    obtain ⟨ds', h3, h4⟩ := mapM_perm _ hp _ h1
    rw [h3]
    simp only [Option.bind_eq_bind, Option.bind_some, Option.pure_def, Option.some.injEq]
    rw [(h4.map fun d : K => d ^ 2).sum_eq]

theorem kmMembers_map (e : KmEnv P C K) (f : P → ℕ) (k : ℕ) : kmMembers e (e.data.map f) k = e.data.filter fun x => f x = k := by
  unfold kmMembers
  rw [zip_map_self, List.filter_map, List.map_map]
  simp [Function.comp_def]

theorem kmUpdate_reordered (h : Reordered e e') (f : P → ℕ) (cs : List C) :
    kmUpdate e' (e'.data.map f) cs = kmUpdate e (e.data.map f) cs := by
  unfold kmUpdate
  refine List.ext_getElem (by simp) fun k h1 h2 => ?_
  simp only [List.getElem_mapIdx, kmMembers_map]
  exact h.bary _ _ _ (h.data.filter _) fun x hx => (List.mem_filter.1 hx).1

theorem kmAssign_reordered (h : Reordered e e') {s s' : KmState C K} (hs : SameButOrder e.data e'.data s s') :
    SameButOrder e.data e'.data (kmAssign e s).1 (kmAssign e' s').1 ∧ (kmAssign e' s').2 = (kmAssign e s).2 ∧
      (kmAssign e s).1.centers = s.centers ∧ ∀ cs, s.centers = some cs →
        ∃ f, (kmAssign e s).1.labels = some (e.data.map f) ∧ (kmAssign e' s').1.labels = some (e'.data.map f) := by
  unfold kmAssign
  rw [hs.centers]
  cases hc : s.centers with
  | none => exact ⟨hs, rfl, hc, by simp⟩
  | some cs =>
    have hl : kmLabels e' e'.data cs = e'.data.map fun x => argminL (cs.map (e.dist x)) := by simp [kmLabels, h.dist]
    have hl' : kmLabels e e.data cs = e.data.map fun x => argminL (cs.map (e.dist x)) := rfl
    simp only [hl, hl', h.clusters, hasEmpty_perm (h.data.map fun x => argminL (cs.map (e.dist x))), kmInertia_reordered h]
    split_ifs
    · exact ⟨⟨hs.inertia, rfl, hs.fitted, hs.nIter, hs.iter, _, rfl, rfl⟩, rfl, rfl, fun _ _ => ⟨_, rfl, rfl⟩⟩
    · cases kmInertia e (e.data.map fun x => argminL (cs.map (e.dist x))) cs with
      | none => exact ⟨⟨hs.inertia, rfl, hs.fitted, hs.nIter, hs.iter, _, rfl, rfl⟩, rfl, rfl, fun _ _ => ⟨_, rfl, rfl⟩⟩
      | some v => exact ⟨⟨rfl, rfl, hs.fitted, hs.nIter, hs.iter, _, rfl, rfl⟩, rfl, rfl, fun _ _ => ⟨_, rfl, rfl⟩⟩

theorem kmLoop_reordered (h : Reordered e e') : ∀ (n it : ℕ) (old : WithTop K) (s s' : KmState C K), SameButOrder e.data e'.data s s' →
    s.centers.isSome →
    SameButOrder e.data e'.data (kmLoop e n it old s).1 (kmLoop e' n it old s').1 ∧ (kmLoop e' n it old s').2 = (kmLoop e n it old s).2
  | 0, it, old, s, s', hs, _ => ⟨⟨hs.inertia, hs.centers, hs.fitted, hs.nIter, rfl, hs.labels⟩, rfl⟩
  | n + 1, it, old, s, s', hs, hsome => by
    obtain ⟨cs, hcs⟩ := Option.isSome_iff_exists.1 hsome
    obtain ⟨h1, h2, h3, h4⟩ := kmAssign_reordered h hs
    obtain ⟨f, hf, hf'⟩ := h4 cs hcs
    unfold kmLoop
    rcases ha : kmAssign e s with ⟨t, err⟩
    rcases ha' : kmAssign e' s' with ⟨t', err'⟩
    rw [ha] at h1 h2 h3 hf
    rw [ha'] at h1 h2 hf'
    simp only at h1 h2 h3 hf hf'
    subst h2
    cases err' with
    | some err => exact ⟨h1, rfl⟩
    | none =>
      have hcen : t'.centers.map (kmUpdate e' (t'.labels.getD [])) = t.centers.map (kmUpdate e (t.labels.getD [])) := by
        rw [h1.centers, hf, hf']
        simp only [Option.getD_some]
        congr 1
        funext cs
        exact kmUpdate_reordered h f cs
      have hR : SameButOrder e.data e'.data { t with centers := t.centers.map (kmUpdate e (t.labels.getD [])) }
          { t' with centers := t'.centers.map (kmUpdate e' (t'.labels.getD [])) } :=
        ⟨h1.inertia, hcen, h1.fitted, h1.nIter, h1.iter, h1.labels⟩
      simp only [h.tol, h1.inertia]
      split_ifs
      · exact ⟨⟨rfl, hcen, h1.fitted, h1.nIter, rfl, h1.labels⟩, rfl⟩
      · refine kmLoop_reordered h n (it + 1) t.inertia _ _ ?_ (by simp [h3, hcs])
        have := hR
        simpa [h1.inertia] using this

theorem kmFitOne_reordered (h : Reordered e e') (init : List C) {s s' : KmState C K} (hs : SameButOrder e.data e'.data s s') :
    SameButOrder e.data e'.data (kmFitOne e init s).1 (kmFitOne e' init s').1 ∧ (kmFitOne e' init s').2 = (kmFitOne e init s).2 := by
  have hs' : SameButOrder e.data e'.data { s with centers := some init } { s' with centers := some init } :=
    ⟨hs.inertia, rfl, hs.fitted, hs.nIter, hs.iter, hs.labels⟩
  unfold kmFitOne
  rw [h.rounds]
  split_ifs
  · exact ⟨hs', rfl⟩
  · exact kmLoop_reordered h _ _ _ _ _ hs' rfl

theorem kmFitLoop_reordered (h : Reordered e e') (inits : ℕ → List C) : ∀ (fuel : ℕ) (b : KmBest C K) (s s' : KmState C K),
    SameButOrder e.data e'.data s s' →
    (kmFitLoop e' inits fuel b s').1 = (kmFitLoop e inits fuel b s).1 ∧
      SameButOrder e.data e'.data (kmFitLoop e inits fuel b s).2.1 (kmFitLoop e' inits fuel b s').2.1 ∧
      (kmFitLoop e' inits fuel b s').2.2 = (kmFitLoop e inits fuel b s).2.2
  | 0, b, s, s', hs => ⟨rfl, hs, rfl⟩
  | fuel + 1, b, s, s', hs => by
    unfold kmFitLoop
    rw [h.attempts]
    split_ifs with hn
    · obtain ⟨h1, h2⟩ := kmFitOne_reordered h (inits b.nAttempts) hs
      rcases ha : kmFitOne e (inits b.nAttempts) s with ⟨t, err⟩
      rcases ha' : kmFitOne e' (inits b.nAttempts) s' with ⟨t', err'⟩
      rw [ha] at h1 h2
      rw [ha'] at h1 h2
      simp only at h1 h2
      subst h2
      simp only [ha, ha']
      cases err' with
      | none =>
        simp only [h1.inertia]
        split_ifs
        · simp only [h1.centers]
          refine kmFitLoop_reordered h inits fuel _ _ _ ⟨rfl, rfl, h1.fitted, h1.iter, h1.iter, h1.labels⟩
        · exact kmFitLoop_reordered h inits fuel _ _ _ h1
      | some err =>
        by_cases he : err = .emptyCluster
        · subst he
          exact kmFitLoop_reordered h inits fuel _ _ _ h1
        · cases err <;> first | exact absurd rfl he | exact ⟨rfl, h1, rfl⟩
    · exact ⟨rfl, hs, rfl⟩

theorem kmFit_reordered (h : Reordered e e') (inits : ℕ → List C) {s s' : KmState C K} (hi : s'.iter = s.iter) :
    (kmFit e' inits s').1 = (kmFit e inits s).1 ∧
      SameButOrder e.data e'.data (kmFit e inits s).2.1 (kmFit e' inits s').2.1 ∧
      (kmFit e' inits s').2.2 = (kmFit e inits s).2.2 := by
  have hs : SameButOrder (C := C) (K := K) e.data e'.data { s with labels := none, inertia := ⊤, centers := none, xfit := false, nIter := 0 }
      { s' with labels := none, inertia := ⊤, centers := none, xfit := false, nIter := 0 } :=
    ⟨rfl, rfl, rfl, rfl, hi, trivial⟩
  have hl := kmFitLoop_reordered h inits (max e.nInit 10) ⟨none, ⊤, 0, 0⟩ _ _ hs
  unfold kmFit
  simp only [h.attempts]
  rcases ha : kmFitLoop e inits (max e.nInit 10) ⟨none, ⊤, 0, 0⟩ { s with labels := none, inertia := ⊤, centers := none, xfit := false, nIter := 0 }
    with ⟨b, t, err⟩
  rcases ha' : kmFitLoop e' inits (max e.nInit 10) ⟨none, ⊤, 0, 0⟩ { s' with labels := none, inertia := ⊤, centers := none, xfit := false, nIter := 0 }
    with ⟨b', t', err'⟩
  rw [ha, ha'] at hl
  obtain ⟨rfl, h1, h2⟩ := hl
  simp only at h1 h2
  subst h2
  cases err' with
  | some err => exact ⟨rfl, h1, rfl⟩
  | none =>
    refine ⟨rfl, ?_⟩
    show SameButOrder e.data e'.data (kmPostFit e b' t).1 (kmPostFit e' b' t').1 ∧ (kmPostFit e' b' t').2 = (kmPostFit e b' t).2
    unfold kmPostFit
    cases b'.best with
    | none => exact ⟨⟨h1.inertia, h1.centers, rfl, h1.nIter, h1.iter, h1.labels⟩, rfl⟩
    | some cs =>
      dsimp only
      split_ifs
      · have hc : SameButOrder e.data e'.data { t with centers := some cs } { t' with centers := some cs } :=
          ⟨h1.inertia, rfl, h1.fitted, h1.nIter, h1.iter, h1.labels⟩
        obtain ⟨k1, k2, _, _⟩ := kmAssign_reordered h hc
        rcases hb : kmAssign e { t with centers := some cs } with ⟨u, er⟩
        rcases hb' : kmAssign e' { t' with centers := some cs } with ⟨u', er'⟩
        rw [hb] at k1 k2
        rw [hb'] at k1 k2
        simp only at k1 k2
        subst k2
        cases er' with
        | none => exact ⟨⟨rfl, k1.centers, rfl, k1.nIter, k1.iter, k1.labels⟩, rfl⟩
        | some er => exact ⟨k1, rfl⟩
      · exact ⟨⟨h1.inertia, h1.centers, rfl, h1.nIter, h1.iter, h1.labels⟩, rfl⟩

end
end Verif
