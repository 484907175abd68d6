import Verif.Model.KMeans
import Verif.Spec.KMeans
import Verif.Proofs.Argmin
import Mathlib.Tactic.Ring
import Mathlib.Tactic.Linarith
/-!
Lemmas on k-means.
-/
set_option linter.unusedSectionVars false
namespace Verif
open Spec
variable {P C K : Type} [Field K] [LinearOrder K] [IsStrictOrderedRing K]

/-- The problem that an estimator poses. -/
def KmEnv.problem (e : KmEnv P C K) : Problem P C K := ⟨e.data, e.nClusters, e.maxIter, e.tol, e.dist, e.idist, e.bary⟩

theorem kmLabels_nearest (e : KmEnv P C K) {cs : List C} (h : cs ≠ []) (X : List P) :
    Nearest e.dist X cs (kmLabels e X cs) := by
  refine ⟨by simp [kmLabels], fun i x l hx hl => ?_⟩
  obtain ⟨v, h1, h2, h3⟩ := argminL_spec (cs.map (e.dist x)) (by simpa using h)
  have hl' : l = argminL (cs.map (e.dist x)) := by
    simp only [kmLabels, List.getElem?_map, hx, Option.map_some, Option.some.injEq] at hl
    exact hl.symm
  rw [← hl'] at h1 h3
  rw [List.getElem?_map, Option.map_eq_some_iff] at h1
  obtain ⟨c, hc, rfl⟩ := h1
  refine ⟨c, hc, fun l' c' hc' => ⟨h2 _ ?_, fun hlt => h3 l' hlt _ (by rw [List.getElem?_map, hc']; rfl)⟩⟩
  exact List.mem_map.2 ⟨c', List.mem_of_getElem? hc', rfl⟩

theorem hasEmpty_iff (lab : List ℕ) (k : ℕ) : hasEmpty lab k = true ↔ ¬ AllUsed k lab := by
  unfold hasEmpty AllUsed
  simp only [List.any_eq_true, List.mem_range, beq_iff_eq, List.count_eq_zero]
  push Not
  rfl

theorem kmMembers_eq (e : KmEnv P C K) (lab : List ℕ) (k : ℕ) : kmMembers e lab k = members e.data lab k := by
  unfold kmMembers members
  generalize e.data.zip lab = l
  induction l with
  | nil => rfl
  | cons a l ih =>
    by_cases h : a.2 = k <;> simp [h, ih]

theorem kmInertia_eq (e : KmEnv P C K) {lab : List ℕ} {cs : List C} (h : ∀ l ∈ lab, l < cs.length) :
    kmInertia e lab cs = some (meanSq e.idist e.data cs lab) := by
  unfold kmInertia meanSq
  have key : ∀ l : List (P × ℕ), (∀ x ∈ l, x.2 < cs.length) → ∃ ds, (l.mapM fun xl => cs[xl.2]?.map (e.idist xl.1)) = some ds ∧
      (ds.map fun d => d ^ 2) = l.map fun xl => match cs[xl.2]? with
        | some c => e.idist xl.1 c ^ 2
        | none => 0 := by
    intro l
    induction l with
    | nil => intro _; exact ⟨[], rfl, rfl⟩
    | cons a l ih =>
      intro hl
      obtain ⟨ds, h1, h2⟩ := ih fun x hx => hl x (by simp [hx])
      have ha := List.getElem?_eq_getElem (hl a (by simp))
      refine ⟨e.idist a.1 (cs[a.2]'(hl a (by simp))) :: ds, ?_, ?_⟩
      · rw [List.mapM_cons, ha]
        simp [h1]
      · simp [ha, h2]
  obtain ⟨ds, h1, h2⟩ := key (e.data.zip lab) fun x hx => h _ (List.of_mem_zip (a := x.1) (b := x.2) hx).2
  rw [h1]
  simp only [Option.bind_eq_bind, Option.bind_some, h2]
  rfl

theorem nearest_lt {dist : P → C → K} {X : List P} {cs : List C} {lab : List ℕ} (h : Nearest dist X cs lab) :
    ∀ l ∈ lab, l < cs.length := by
  intro l hl
  obtain ⟨i, hi, rfl⟩ := List.getElem_of_mem hl
  have hi' : i < X.length := by rw [← h.1]; exact hi
  obtain ⟨c, hc, -⟩ := h.2 i _ _ (List.getElem?_eq_getElem hi') (List.getElem?_eq_getElem hi)
  exact (List.getElem?_eq_some_iff.1 hc).1

theorem kmUpdate_get (e : KmEnv P C K) (lab : List ℕ) (cs : List C) : (kmUpdate e lab cs).length = cs.length ∧
    ∀ k c, cs[k]? = some c → (kmUpdate e lab cs)[k]? = some (e.bary (members e.data lab k) c) := by
  refine ⟨by simp [kmUpdate], fun k c hc => ?_⟩
  simp [kmUpdate, List.getElem?_mapIdx, hc, kmMembers_eq]

/-- The centroids after `t` rounds. -/
def csSeq (e : KmEnv P C K) (init : List C) : ℕ → List C
  | 0 => init
  | t + 1 => kmUpdate e (kmLabels e e.data (csSeq e init t)) (csSeq e init t)

theorem csSeq_length (e : KmEnv P C K) (init : List C) : ∀ t, (csSeq e init t).length = init.length
  | 0 => rfl
  | t + 1 => by rw [csSeq, (kmUpdate_get _ _ _).1, csSeq_length e init t]

def labSeq (e : KmEnv P C K) (init : List C) (t : ℕ) : List ℕ := kmLabels e e.data (csSeq e init t)

def vSeq (e : KmEnv P C K) (init : List C) (t : ℕ) : K := meanSq e.idist e.data (csSeq e init t) (labSeq e init t)

theorem labSeq_near (e : KmEnv P C K) {init : List C} (h : init ≠ []) (t : ℕ) :
    Nearest e.dist e.data (csSeq e init t) (labSeq e init t) :=
  kmLabels_nearest e (by
    rw [← List.length_pos_iff, csSeq_length]; exact List.length_pos_iff.2 h) _

theorem rounds_of (e : KmEnv P C K) {init : List C} (h : init ≠ []) {T : ℕ} (hu : ∀ t < T, AllUsed e.nClusters (labSeq e init t))
    (hr : ∀ t, t + 2 < T → e.tol ≤ |vSeq e init t - vSeq e init (t + 1)|) :
    Rounds e.problem init T (csSeq e init) (labSeq e init) (vSeq e init) where
  start := rfl
  near := fun t _ => labSeq_near e h t
  used := hu
  inertia := fun _ _ => rfl
  update := fun _ _ => kmUpdate_get e _ _
  running := hr

theorem kmAssign_eq (e : KmEnv P C K) {init : List C} (h : init ≠ []) (t : ℕ) (s : KmState C K)
    (hs : s.centers = some (csSeq e init t)) :
    kmAssign e s = if hasEmpty (labSeq e init t) e.nClusters then ({ s with labels := some (labSeq e init t) }, some .emptyCluster)
      else ({ s with labels := some (labSeq e init t), inertia := ((vSeq e init t : K) : WithTop K) }, none) := by
  unfold kmAssign
  rw [hs]
  have hin := kmInertia_eq e (nearest_lt (labSeq_near e h t))
  simp only
  change (if hasEmpty (labSeq e init t) e.nClusters then _ else _) = _
  by_cases hE : hasEmpty (labSeq e init t) e.nClusters
  · rw [if_pos hE, if_pos hE]; rfl
  · rw [if_neg hE, if_neg hE]
    change (match kmInertia e (labSeq e init t) (csSeq e init t) with | some v => _ | none => _) = _
    rw [hin]; rfl

/-- What a run gives. -/
def RunOk (e : KmEnv P C K) (init : List C) (s : KmState C K) (r : KmState C K × Option PyErr) (N : ℕ) : Prop :=
  (∃ T, T ≤ N ∧ 1 ≤ T ∧ (∀ t < T, AllUsed e.nClusters (labSeq e init t)) ∧
      (∀ t, t + 2 < T → e.tol ≤ |vSeq e init t - vSeq e init (t + 1)|) ∧
      (T < N → 2 ≤ T ∧ |vSeq e init (T - 2) - vSeq e init (T - 1)| < e.tol) ∧
      r = ({ s with labels := some (labSeq e init (T - 1)), inertia := ((vSeq e init (T - 1) : K) : WithTop K),
                    centers := some (csSeq e init T), iter := T }, none)) ∨
  (∃ T, T < N ∧ (∀ t < T, AllUsed e.nClusters (labSeq e init t)) ∧
      (∀ t, t + 2 ≤ T → e.tol ≤ |vSeq e init t - vSeq e init (t + 1)|) ∧ ¬ AllUsed e.nClusters (labSeq e init T) ∧
      ∃ s', r = (s', some .emptyCluster) ∧ s'.nIter = s.nIter ∧ s'.xfit = s.xfit ∧
        s'.centers = some (csSeq e init T) ∧ s'.labels = some (labSeq e init T))

theorem kmLoop_ok (e : KmEnv P C K) {init : List C} (h : init ≠ []) (s0 : KmState C K) : ∀ (n it : ℕ) (old : WithTop K)
    (s : KmState C K), s.centers = some (csSeq e init it) → s.nIter = s0.nIter → s.xfit = s0.xfit →
    (∀ t < it, AllUsed e.nClusters (labSeq e init t)) →
    (∀ t, t + 2 ≤ it → e.tol ≤ |vSeq e init t - vSeq e init (t + 1)|) →
    old = (if it = 0 then ⊤ else ((vSeq e init (it - 1) : K) : WithTop K)) →
    (0 < it → s.labels = some (labSeq e init (it - 1)) ∧ s.inertia = ((vSeq e init (it - 1) : K) : WithTop K)) → 0 < it + n →
    RunOk e init s0 (kmLoop e n it old s) (it + n) := by
  intro n
  induction n with
  | zero =>
    intro it old s hc h1 h2 hu hr ho hs hp
    left
    refine ⟨it, by omega, by omega, hu, fun t ht => hr t (by omega), fun h => by omega, ?_⟩
    obtain ⟨e1, e2⟩ := hs (by omega)
    obtain ⟨l, i, c, x, ni, itr⟩ := s
    simp only at hc h1 h2 e1 e2
    subst hc h1 h2 e1 e2
    rfl
  | succ n ih =>
    intro it old s hc h1 h2 hu hr ho hs hp
    simp only [kmLoop]
    rw [kmAssign_eq e h it s hc]
    by_cases hE : hasEmpty (labSeq e init it) e.nClusters
    · rw [if_pos hE]
      right
      exact ⟨it, by omega, hu, hr, (hasEmpty_iff _ _).1 hE, _, rfl, h1, h2, hc, rfl⟩
    · rw [if_neg hE]
      have hused : AllUsed e.nClusters (labSeq e init it) := by
        by_contra hcon; exact hE ((hasEmpty_iff _ _).2 hcon)
      have hu' : ∀ t < it + 1, AllUsed e.nClusters (labSeq e init t) := fun t ht => by
        rcases Nat.lt_succ_iff_lt_or_eq.1 ht with h | rfl
        · exact hu t h
        · exact hused
      simp only [Option.getD_some, hc, Option.map_some]
      change RunOk e init s0 (if kmClose e.tol old ((vSeq e init it : K) : WithTop K) then _ else _) _
      by_cases hcl : kmClose e.tol old ((vSeq e init it : K) : WithTop K)
      · rw [if_pos hcl]
        left
        have hit : it ≠ 0 := by
          rintro rfl
          rw [if_pos rfl] at ho
          subst ho
          simp [kmClose] at hcl
        rw [if_neg hit] at ho
        subst ho
        have hcl' : |vSeq e init (it - 1) - vSeq e init it| < e.tol := by
          have : decide (|vSeq e init (it - 1) - vSeq e init it| < e.tol) = true := hcl
          simpa using this
        refine ⟨it + 1, by omega, by omega, hu', fun t ht => hr t (by omega), fun _ => ⟨by omega, ?_⟩, ?_⟩
        · have : it + 1 - 2 = it - 1 := by omega
          rw [this]; exact hcl'
        · simp only [Nat.add_sub_cancel, h1, h2]
          rfl
      · rw [if_neg hcl]
        have := ih (it + 1) ((vSeq e init it : K) : WithTop K)
          { s with labels := some (labSeq e init it), inertia := ((vSeq e init it : K) : WithTop K),
                   centers := some (csSeq e init (it + 1)) } rfl h1 h2 hu' ?_ (by simp) (fun _ => ⟨rfl, rfl⟩) (by omega)
        · have e1 : it + 1 + n = it + (n + 1) := by omega
          rw [e1] at this
          exact this
        · intro t ht
          rcases Nat.lt_or_ge (t + 1) it with h3 | h3
          · exact hr t (by omega)
          · obtain rfl : it = t + 1 := by omega
            rw [if_neg (by omega)] at ho
            subst ho
            have : ¬ (decide (|vSeq e init t - vSeq e init (t + 1)| < e.tol) = true) := hcl
            simpa using this

theorem kmFitOne_ok (e : KmEnv P C K) (hm : 0 < e.maxIter) {init : List C} (h : init ≠ []) (s : KmState C K) :
    RunOk e init s (kmFitOne e init s) e.maxIter := by
  unfold kmFitOne
  rw [if_neg (by omega)]
  have := kmLoop_ok e h s e.maxIter 0 ⊤ { s with centers := some init } rfl rfl rfl (by simp) (by simp) (by simp) (by simp)
    (by omega)
  rwa [Nat.zero_add] at this

/-- A run succeeds or meets an empty cluster, whatever the attributes before. -/
theorem kmFitOne_cases (e : KmEnv P C K) (hm : 0 < e.maxIter) {init : List C} (h : init ≠ []) (s : KmState C K) :
    (∃ (o : List C × K × ℕ) (s' : KmState C K), Succeeds e.problem init o ∧ kmFitOne e init s = (s', none) ∧
      s'.centers = some o.1 ∧ s'.inertia = (o.2.1 : WithTop K) ∧ s'.iter = o.2.2 ∧ s'.nIter = s.nIter ∧ s'.xfit = s.xfit) ∨
    (∃ s' : KmState C K, FailsEmpty e.problem init ∧ kmFitOne e init s = (s', some .emptyCluster) ∧ s'.nIter = s.nIter ∧
      s'.xfit = s.xfit) := by
  rcases kmFitOne_ok e hm h s with ⟨T, h1, h2, h3, h4, h5, h6⟩ | ⟨T, h1, h3, h4, h5, s', h6, h7, h8, -⟩
  · left
    refine ⟨(csSeq e init T, vSeq e init (T - 1), T), _, ⟨T, _, _, _, rounds_of e h h3 h4, h2, h1, h5, rfl⟩, h6, rfl, rfl, rfl,
      rfl, rfl⟩
  · right
    exact ⟨s', ⟨T, _, _, _, rounds_of e h h3 (fun t ht => h4 t (by omega)), h1, fun h2 => by
      have := h4 (T - 2) (by omega)
      rwa [show T - 2 + 1 = T - 1 by omega] at this, _, labSeq_near e h T, h5⟩, h6, h7, h8⟩

/-- Outcomes of the attempts made so far and the best of them. -/
structure FitInv (e : KmEnv P C K) (inits : ℕ → List C) (A : ℕ) (out : ℕ → Option (List C × K × ℕ)) (b : KmBest C K)
    (s : KmState C K) : Prop where
  outcome : ∀ a < A, (∀ o, out a = some o → Succeeds e.problem (inits a) o) ∧ (out a = none → FailsEmpty e.problem (inits a))
  attempts : b.nAttempts = A
  count : b.nSuccessful = ((List.range A).filterMap out).length
  bound : b.nSuccessful ≤ e.nInit
  xfit : s.xfit = false
  best : ((∀ a < A, out a = none) ∧ b.best = none ∧ b.minInertia = ⊤) ∨
    ∃ a < A, ∃ o, out a = some o ∧ b.best = some o.1 ∧ b.minInertia = (o.2.1 : WithTop K) ∧ s.nIter = o.2.2 ∧
      ∀ a' < A, ∀ o', out a' = some o' → o.2.1 ≤ o'.2.1 ∧ (a' < a → o.2.1 < o'.2.1)

theorem stepOut {A f n : ℕ} {β γ δ : Type} {q : ℕ → β → γ → δ → Prop} {c : γ → ℕ}
    (h : ∃ A' o' b' s', q A' o' b' s' ∧ A' ≤ A + 1 + f ∧ (c b' = n ∨ A' = A + 1 + f)) :
    ∃ A' o' b' s', q A' o' b' s' ∧ A' ≤ A + (f + 1) ∧ (c b' = n ∨ A' = A + (f + 1)) := by
  obtain ⟨A', o', b', s', h1, h2, h3⟩ := h
  exact ⟨A', o', b', s', h1, by omega, by omega⟩

theorem kmFitLoop_ok (e : KmEnv P C K) (hm : 0 < e.maxIter) (inits : ℕ → List C) (h : ∀ a, inits a ≠ []) :
    ∀ (fuel A : ℕ) (out : ℕ → Option (List C × K × ℕ)) (b : KmBest C K) (s : KmState C K), FitInv e inits A out b s →
      ∃ A' out' b' s', (kmFitLoop e inits fuel b s = (b', s', none) ∧ FitInv e inits A' out' b' s') ∧ A' ≤ A + fuel ∧
        (b'.nSuccessful = e.nInit ∨ A' = A + fuel) := by
  intro fuel
  induction fuel with
  | zero => intro A out b s hi; exact ⟨A, out, b, s, ⟨rfl, hi⟩, le_rfl, .inr rfl⟩
  | succ fuel ih =>
    intro A out b s hi
    unfold kmFitLoop
    by_cases hlt : b.nSuccessful < e.nInit
    · rw [if_pos hlt]
      have hcong : ∀ o : Option (List C × K × ℕ), (List.range A).filterMap (fun a => if a = A then o else out a) =
          (List.range A).filterMap out := fun o => List.filterMap_congr fun a ha => by
        have := List.mem_range.1 ha
        rw [if_neg (by omega)]
      have hA := hi.attempts
      rcases kmFitOne_cases e hm (h b.nAttempts) s with ⟨o, s', hs, hf, h1, h2, h3, h4, h5⟩ | ⟨s', hs, hf, h4, h5⟩
      · simp only [hf]
        have hout : ∀ a < A + 1, (∀ o', (if a = A then some o else out a) = some o' → Succeeds e.problem (inits a) o') ∧
            ((if a = A then some o else out a) = none → FailsEmpty e.problem (inits a)) := by
          intro a ha
          by_cases haA : a = A
          · subst haA
            simp only [if_true, Option.some.injEq, reduceCtorEq, false_imp_iff, and_true]
            rintro o' rfl
            rw [hA] at hs; exact hs
          · simp only [if_neg haA]
            exact hi.outcome a (by omega)
        have hcount : b.nSuccessful + 1 = ((List.range (A + 1)).filterMap fun a => if a = A then some o else out a).length := by
          rw [List.range_succ, List.filterMap_append, hcong, List.length_append, ← hi.count]
          simp
        by_cases hbest : s'.inertia < b.minInertia
        · rw [if_pos hbest]
          refine stepOut (c := KmBest.nSuccessful) (ih (A + 1) (fun a => if a = A then some o else out a)
            { best := s'.centers, minInertia := s'.inertia, nSuccessful := b.nSuccessful + 1, nAttempts := b.nAttempts + 1 }
            { s' with nIter := s'.iter } ⟨hout, by simp [hA], hcount, hlt, h5.trans hi.xfit, .inr
              ⟨A, by omega, o, by simp, h1, h2, h3, fun a' ha' o' ho' => ?_⟩⟩)
          · by_cases haA : a' = A
            · subst haA
              simp only [if_true, Option.some.injEq] at ho'
              subst ho'
              exact ⟨le_rfl, fun h => absurd h (lt_irrefl _)⟩
            · rw [if_neg haA] at ho'
              rcases hi.best with ⟨hb, -, -⟩ | ⟨a, -, ob, -, -, hb2, -, hb3⟩
              · rw [hb a' (by omega)] at ho'; cases ho'
              · rw [hb2, h2, WithTop.coe_lt_coe] at hbest
                have := (hb3 a' (by omega) o' ho').1
                exact ⟨(hbest.trans_le this).le, fun _ => hbest.trans_le this⟩
        · rw [if_neg hbest]
          refine stepOut (c := KmBest.nSuccessful) (ih (A + 1) (fun a => if a = A then some o else out a)
            { b with nSuccessful := b.nSuccessful + 1, nAttempts := b.nAttempts + 1 } s'
            ⟨hout, by simp [hA], hcount, hlt, h5.trans hi.xfit, ?_⟩)
          · rcases hi.best with ⟨-, -, hb⟩ | ⟨a, ha, ob, hb0, hb1, hb2, hb4, hb3⟩
            · rw [hb, h2] at hbest
              exact absurd (WithTop.coe_lt_top _) hbest
            · right
              refine ⟨a, by omega, ob, by rw [if_neg (by omega)]; exact hb0, hb1, hb2, h4.trans hb4, fun a' ha' o' ho' => ?_⟩
              by_cases haA : a' = A
              · subst haA
                simp only [if_true, Option.some.injEq] at ho'
                subst ho'
                rw [hb2, h2, WithTop.coe_lt_coe, not_lt] at hbest
                exact ⟨hbest, fun h => by omega⟩
              · rw [if_neg haA] at ho'
                exact hb3 a' (by omega) o' ho'
      · simp only [hf]
        refine stepOut (c := KmBest.nSuccessful) (ih (A + 1) (fun a => if a = A then none else out a)
          { b with nAttempts := b.nAttempts + 1 } s' ⟨?_, by simp [hA], ?_, hi.bound, h5.trans hi.xfit, ?_⟩)
        · intro a ha
          by_cases haA : a = A
          · subst haA
            simp only [if_true, reduceCtorEq, false_imp_iff, implies_true, true_imp_iff, true_and]
            rw [hA] at hs; exact hs
          · simp only [if_neg haA]
            exact hi.outcome a (by omega)
        · rw [List.range_succ, List.filterMap_append, hcong, List.length_append]
          simpa using hi.count
        · rcases hi.best with ⟨hb0, hb1, hb2⟩ | ⟨a, ha, ob, hb0, hb1, hb2, hb4, hb3⟩
          · left
            refine ⟨fun a ha => ?_, hb1, hb2⟩
            by_cases haA : a = A
            · rw [if_pos haA]
            · rw [if_neg haA]; exact hb0 a (by omega)
          · right
            refine ⟨a, by omega, ob, by rw [if_neg (by omega)]; exact hb0, hb1, hb2, h4.trans hb4, fun a' ha' o' ho' => ?_⟩
            by_cases haA : a' = A
            · rw [if_pos haA] at ho'; cases ho'
            · rw [if_neg haA] at ho'
              exact hb3 a' (by omega) o' ho'
    · rw [if_neg hlt]
      exact ⟨A, out, b, s, ⟨rfl, hi⟩, by omega, .inl (le_antisymm hi.bound (not_lt.1 hlt))⟩

/-- A Lloyd round under a barycenter that does not increase the summed squared distances. -/
theorem sum_by_label {M : Type} [AddCommMonoid M] (n : ℕ) : ∀ (l : List (P × ℕ)) (g : P → ℕ → M), (∀ x ∈ l, x.2 < n) →
    (l.map fun x => g x.1 x.2).sum = ((List.range n).map fun k =>
      ((l.filterMap fun x => if x.2 = k then some x.1 else none).map fun x => g x k).sum).sum := by
  intro l
  induction l with
  | nil => intro g _; simp
  | cons a l ih =>
    intro g h
    rw [List.map_cons, List.sum_cons, ih g fun x hx => h x (by simp [hx])]
    have ha := h a (by simp)
    have : ((List.range n).map fun k => (((a :: l).filterMap fun x => if x.2 = k then some x.1 else none).map fun x => g x k).sum) =
        (List.range n).map fun k => (if a.2 = k then g a.1 k else 0) +
          ((l.filterMap fun x => if x.2 = k then some x.1 else none).map fun x => g x k).sum := by
      refine List.map_congr_left fun k _ => ?_
      by_cases hk : a.2 = k <;> simp [hk]
    rw [this, List.sum_map_add]
    congr 1
    have h2 : ∀ (m : ℕ) (φ : ℕ → M) (i : ℕ), i < m → ((List.range m).map fun k => if i = k then φ k else 0).sum = φ i := by
      intro m φ i
      induction m with
      | zero => intro h; omega
      | succ m ihm =>
        intro hi
        rw [List.range_succ, List.map_append, List.sum_append]
        by_cases him : i = m
        · subst him
          have : ((List.range i).map fun k => if i = k then φ k else 0).sum = 0 := by
            apply List.sum_eq_zero
            intro x hx
            obtain ⟨k, hk, rfl⟩ := List.mem_map.1 hx
            have := List.mem_range.1 hk
            rw [if_neg (by omega)]
          rw [this]; simp
        · rw [ihm (by omega)]
          simp [him]
    exact (h2 n (fun k => g a.1 k) a.2 ha).symm

end Verif
