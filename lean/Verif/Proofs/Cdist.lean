import Verif.Model.Cdist
import Verif.Proofs.Dataset
import Verif.Proofs.Dp
import Verif.Proofs.Series
import Mathlib.Data.List.Perm.Basic
import Mathlib.Data.List.Nodup
import Mathlib.Data.List.Range
/-!
Lemmas on the job lists and the matrix assembly of `_cdist_generic`.
-/
namespace Verif

/-! ### running the jobs -/

/-- An evaluation returns values exactly when every job returns, and then in submission order. -/
def Faithful {V : Type} (run : List (Except PyErr V) → Except PyErr (List V)) : Prop :=
  ∀ jobs vals, run jobs = .ok vals ↔ jobs = vals.map Except.ok

theorem seqRun_faithful {V : Type} : Faithful (seqRun (V := V)) := by
  intro jobs
  induction jobs with
  | nil =>
    intro vals
    constructor
    · intro h; cases h; rfl
    · intro h
      cases vals with
      | nil => rfl
      | cons v vals => simp at h
  | cons a jobs ih =>
    intro vals
    unfold seqRun at ih ⊢
    rw [List.mapM_cons]
    simp only [bind, Except.bind, pure, Except.pure, id]
    cases a with
    | error e =>
      simp only [reduceCtorEq, false_iff]
      cases vals <;> simp
    | ok v =>
      simp only
      cases h : jobs.mapM id with
      | error e =>
        simp only [reduceCtorEq, false_iff]
        cases vals with
        | nil => simp
        | cons w vals =>
          simp only [List.map_cons, List.cons.injEq, not_and]
          intro _ h'
          rw [(ih vals).2 h'] at h
          simp at h
      | ok vs =>
        simp only [Except.ok.injEq]
        constructor
        · rintro rfl
          rw [List.map_cons, ← (ih vs).1 h]
        · intro h'
          cases vals with
          | nil => simp at h'
          | cons w vals =>
            simp only [List.map_cons, List.cons.injEq, Except.ok.injEq] at h'
            obtain ⟨rfl, h'⟩ := h'
            rw [(ih vals).2 h'] at h
            simp at h
            rw [h]

theorem parFold_ok {V : Type} (vals : List V) : ∀ (order : List ℕ) (slots : List (Option V)),
    slots.length = vals.length → (∀ k ∈ order, k < vals.length) →
    ∃ slots', order.foldlM (parStep (vals.map Except.ok)) slots = .ok slots' ∧
      slots'.length = vals.length ∧
      ∀ k, slots'[k]? = if k ∈ order then (vals[k]?).map some else slots[k]? := by
  intro order
  induction order with
  | nil => intro slots hl _; exact ⟨slots, rfl, hl, by simp⟩
  | cons a order ih =>
    intro slots hl hk
    have ha := hk a (by simp)
    obtain ⟨slots', h1, h2, h3⟩ := ih (slots.set a (some vals[a])) (by simpa using hl)
      (fun k h => hk k (by simp [h]))
    refine ⟨slots', ?_, h2, ?_⟩
    · rw [List.foldlM_cons]
      simp only [parStep, List.getElem?_map, List.getElem?_eq_getElem ha, Option.map_some, bind,
        Except.bind]
      exact h1
    · intro k
      rw [h3 k]
      by_cases hk' : k ∈ order
      · simp [hk']
      · by_cases hka : k = a
        · subst hka
          simp [hk', hl, ha]
        · simp [hk', hka, Ne.symm hka]

theorem parFold_inv {V : Type} (jobs : List (Except PyErr V)) : ∀ (order : List ℕ)
    (slots slots' : List (Option V)), order.foldlM (parStep jobs) slots = .ok slots' →
    ∀ k ∈ order, ∃ v, jobs[k]? = some (.ok v) := by
  intro order
  induction order with
  | nil => intro _ _ _ k hk; simp at hk
  | cons a order ih =>
    intro slots slots' h k hk
    rw [List.foldlM_cons] at h
    simp only [parStep, bind, Except.bind] at h
    cases hj : jobs[a]? with
    | none => simp [hj] at h
    | some r =>
      cases r with
      | error e => simp [hj] at h
      | ok v =>
        simp only [hj] at h
        rcases List.mem_cons.1 hk with rfl | hk
        · exact ⟨v, hj⟩
        · exact ih _ _ h k hk

theorem mapM_id_some {V : Type} (vals : List V) : (vals.map some).mapM (id : Option V → Option V)
    = some vals := by
  induction vals with
  | nil => rfl
  | cons v vals ih => rw [List.map_cons, List.mapM_cons, ih]; rfl

theorem exists_map_ok {V : Type} : ∀ (jobs : List (Except PyErr V)),
    (∀ k < jobs.length, ∃ v, jobs[k]? = some (.ok v)) → ∃ vals : List V, jobs = vals.map Except.ok := by
  intro jobs
  induction jobs with
  | nil => intro _; exact ⟨[], rfl⟩
  | cons a jobs ih =>
    intro h
    obtain ⟨v, hv⟩ := h 0 (by simp)
    obtain ⟨vals, hvals⟩ := ih (fun k hk => by simpa using h (k+1) (by simpa using hk))
    simp at hv
    exact ⟨v :: vals, by rw [List.map_cons, hv, ← hvals]⟩

theorem parRun_ok {V : Type} (order : List ℕ) (vals : List V)
    (ho : order.Perm (List.range vals.length)) : parRun order (vals.map Except.ok) = .ok vals := by
  unfold parRun
  obtain ⟨slots', h1, h2, h3⟩ := parFold_ok vals order (List.replicate vals.length none) (by simp)
    (fun k hk => by simpa using ho.mem_iff.1 hk)
  have h4 : slots' = vals.map some := by
    apply List.ext_getElem?
    intro k
    rw [h3 k]
    by_cases hk : k ∈ order
    · simp [hk]
    · have : vals.length ≤ k := by
        by_contra hlt
        exact hk (ho.mem_iff.2 (by simpa using hlt))
      simp [hk, this]
  subst h4
  rw [List.length_map]
  rw [h1]
  simp only [bind, Except.bind, mapM_id_some]

theorem parRun_faithful {V : Type} (sched : ℕ → List ℕ) (hs : IsSchedule sched) :
    Faithful (fun jobs : List (Except PyErr V) => parRun (sched jobs.length) jobs) := by
  intro jobs vals
  constructor
  · intro h
    have hall : ∀ k < jobs.length, ∃ v, jobs[k]? = some (.ok v) := by
      intro k hk
      simp only [parRun, bind, Except.bind] at h
      split at h
      · simp at h
      · rename_i slots hslots
        exact parFold_inv jobs _ _ _ hslots k ((hs _).mem_iff.2 (by simpa using hk))
    obtain ⟨vals', rfl⟩ := exists_map_ok jobs hall
    have := parRun_ok (sched (vals'.map (Except.ok (ε := PyErr))).length) vals' (by
      simpa using hs vals'.length)
    simp only [this, Except.ok.injEq] at h
    rw [h]
  · rintro rfl
    exact parRun_ok _ vals (by simpa using hs vals.length)

theorem Execution.faithful {V : Type} {run : List (Except PyErr V) → Except PyErr (List V)}
    (h : Execution run) : Faithful run := by
  rcases h with rfl | ⟨sched, hs, rfl⟩
  · exact seqRun_faithful
  · exact parRun_faithful sched hs

/-! ### matrix assembly -/

theorem assignAt_map {V : Type} (f : ℕ × ℕ → V) : ∀ (idx : List (ℕ × ℕ)) (M : Mat V) (i j : ℕ),
    assignAt M idx (idx.map f) i j = if (i, j) ∈ idx then f (i, j) else M i j := by
  intro idx
  induction idx with
  | nil => intro M i j; simp [assignAt]
  | cons a idx ih =>
    intro M i j
    have : assignAt M (a :: idx) ((a :: idx).map f) i j =
        assignAt (M.set a.1 a.2 (f a)) idx (idx.map f) i j := by
      simp [assignAt]
    rw [this, ih]
    by_cases h : (i, j) ∈ idx
    · simp [h]
    · simp only [h, if_false, List.mem_cons, or_false, Mat.set_apply]
      by_cases h' : (i, j) = a
      · subst h'; simp
      · have : ¬ (i = a.1 ∧ j = a.2) := fun ⟨h1, h2⟩ => h' (Prod.ext h1 h2)
        simp [h', this]

theorem filter_range_ge (n a : ℕ) :
    (List.range n).filter (fun j => decide (a ≤ j)) = pyRange a n := by
  unfold pyRange
  induction n with
  | zero => simp
  | succ n ih =>
    rw [List.range_succ, List.filter_append, ih]
    by_cases h : a ≤ n
    · rw [show n + 1 - a = (n - a) + 1 by omega, List.range_succ, List.map_append]
      simp [h]
    · simp [h, show n + 1 - a = 0 by omega, show n - a = 0 by omega]

theorem selfJobs_eq (n : ℕ) (diag : Bool) :
    selfJobs n diag = triuIndices n (if diag then 0 else 1) := by
  unfold selfJobs triuIndices
  congr 1
  funext i
  rw [filter_range_ge]
  cases diag <;> rfl

theorem mem_triuIndices {n k i j : ℕ} : (i, j) ∈ triuIndices n k ↔ i < n ∧ j < n ∧ i + k ≤ j := by
  unfold triuIndices
  simp only [List.mem_flatMap, List.mem_map, List.mem_filter, List.mem_range, decide_eq_true_eq,
    Prod.mk.injEq]
  constructor
  · rintro ⟨a, ha, b, ⟨hb, hab⟩, rfl, rfl⟩; exact ⟨ha, hb, hab⟩
  · rintro ⟨h1, h2, h3⟩; exact ⟨i, h1, j, ⟨h2, h3⟩, rfl, rfl⟩

theorem mem_trilIndices {n i j : ℕ} : (i, j) ∈ trilIndices n ↔ i < n ∧ j < i := by
  unfold trilIndices
  simp only [List.mem_flatMap, List.mem_map, List.mem_filter, List.mem_range, decide_eq_true_eq,
    Prod.mk.injEq]
  constructor
  · rintro ⟨a, ha, b, ⟨hb, hab⟩, rfl, rfl⟩; exact ⟨ha, hab⟩
  · rintro ⟨h1, h2⟩; exact ⟨i, h1, j, ⟨by omega, h2⟩, rfl, rfl⟩

theorem crossJobs_succ (n1 n2 : ℕ) :
    crossJobs (n1+1) n2 = crossJobs n1 n2 ++ (List.range n2).map (n1, ·) := by
  unfold crossJobs
  rw [List.range_succ, List.flatMap_append]
  simp

theorem crossJobs_length (n1 n2 : ℕ) : (crossJobs n1 n2).length = n1 * n2 := by
  induction n1 with
  | zero => simp [crossJobs]
  | succ n ih => rw [crossJobs_succ, List.length_append, ih]; simp [Nat.succ_mul]

theorem crossJobs_get (n1 n2 i j : ℕ) (hi : i < n1) (hj : j < n2) :
    (crossJobs n1 n2)[i * n2 + j]? = some (i, j) := by
  induction n1 with
  | zero => omega
  | succ n ih =>
    rw [crossJobs_succ]
    rcases Nat.lt_succ_iff_lt_or_eq.1 hi with h | rfl
    · rw [List.getElem?_append_left]
      · exact ih h
      · rw [crossJobs_length]
        calc i * n2 + j < i * n2 + n2 := by omega
          _ = (i+1) * n2 := by rw [Nat.succ_mul]
          _ ≤ n * n2 := Nat.mul_le_mul_right _ h
    · rw [List.getElem?_append_right (by rw [crossJobs_length]; omega), crossJobs_length,
        Nat.add_sub_cancel_left]
      simp [hj]

section
variable {S V : Type}

theorem jobsOf_length (dist : S → S → Except PyErr V) (X Y : List S) (pairs) :
    (jobsOf dist X Y pairs).length = pairs.length := by simp [jobsOf]

/-- Self matrix: specification of every entry. -/
theorem cdistGeneric_self {dist : S → S → Except PyErr V} {zero : V} {X : List S} {diag : Bool}
    {run} (hrun : Faithful run) {M : Mat V}
    (h : cdistGeneric dist zero X none diag run = .ok M) :
    ∀ (i j : ℕ) (x y : S), X[i]? = some x → X[j]? = some y →
      (i < j → dist x y = .ok (M i j)) ∧ (j < i → dist y x = .ok (M i j)) ∧
      (i = j → if diag then dist x y = .ok (M i j) else M i j = zero) := by
  unfold cdistGeneric at h
  simp only [bind, Except.bind, pure, Except.pure, throw, throwThe, MonadExceptOf.throw] at h
  cases hr : run (jobsOf dist X X (selfJobs X.length diag)) with
  | error e => simp [hr] at h
  | ok vals =>
    simp only [hr] at h
    have hjobs := (hrun _ _).1 hr
    rw [selfJobs_eq] at hjobs
    set idx := triuIndices X.length (if diag then 0 else 1) with hidx
    by_cases hlen : idx.length ≠ vals.length
    · simp [hlen] at h
    rw [if_neg hlen] at h
    simp only [Except.ok.injEq] at h
    let ext : Except PyErr V → V := fun r => match r with | .ok v => v | .error _ => zero
    let g : ℕ × ℕ → Except PyErr V := fun ij =>
      match X[ij.1]?, X[ij.2]? with
      | some x, some y => dist x y
      | _, _ => .error .indexError
    have hg : ∀ ij ∈ idx, g ij = .ok (ext (g ij)) := by
      intro ij hij
      have : g ij ∈ vals.map Except.ok := by
        rw [← hjobs]; exact List.mem_map.2 ⟨ij, hij, rfl⟩
      obtain ⟨v, -, hv⟩ := List.mem_map.1 this
      rw [← hv]
    have hvals : vals = idx.map (fun ij => ext (g ij)) := by
      have : (vals.map Except.ok).map ext = (idx.map g).map ext := by rw [← hjobs]; rfl
      rw [List.map_map, List.map_map] at this
      simpa [Function.comp_def, ext] using this
    have hM1 : ∀ i j, assignAt (Mat.full zero) idx vals i j =
        if (i, j) ∈ idx then ext (g (i, j)) else zero := by
      intro i j
      rw [hvals, assignAt_map (fun ij => ext (g ij)), Mat.full]
    have hM : ∀ i j, M i j = if (i, j) ∈ trilIndices X.length then
        assignAt (Mat.full zero) idx vals j i else assignAt (Mat.full zero) idx vals i j := by
      intro i j
      rw [← h, assignAt_map (fun ij => assignAt (Mat.full zero) idx vals ij.2 ij.1)]
    intro i j x y hx hy
    have hi := (List.getElem?_eq_some_iff.1 hx).1
    have hj := (List.getElem?_eq_some_iff.1 hy).1
    refine ⟨fun hij => ?_, fun hij => ?_, fun hij => ?_⟩
    · have hmem : (i, j) ∈ idx := mem_triuIndices.2 ⟨hi, hj, by split_ifs <;> omega⟩
      have hno : (i, j) ∉ trilIndices X.length := fun h => by
        have := (mem_trilIndices.1 h).2; omega
      rw [hM, if_neg hno, hM1, if_pos hmem, ← hg _ hmem]
      simp [g, hx, hy]
    · have hmem : (j, i) ∈ idx := mem_triuIndices.2 ⟨hj, hi, by split_ifs <;> omega⟩
      have hyes : (i, j) ∈ trilIndices X.length := mem_trilIndices.2 ⟨hi, hij⟩
      rw [hM, if_pos hyes, hM1, if_pos hmem, ← hg _ hmem]
      simp [g, hx, hy]
    · subst hij
      have hno : (i, i) ∉ trilIndices X.length := fun h => by
        have := (mem_trilIndices.1 h).2; omega
      rw [hM, if_neg hno, hM1]
      cases diag with
      | true =>
        have hmem : (i, i) ∈ idx := mem_triuIndices.2 ⟨hi, hi, by simp⟩
        rw [if_pos rfl, if_pos hmem, ← hg _ hmem]
        obtain rfl : x = y := by rw [hx] at hy; exact Option.some.inj hy
        simp [g, hx]
      | false =>
        have hmem : (i, i) ∉ idx := fun h => by
          have := (mem_triuIndices.1 h).2.2; simp at this
        simp [hmem]

/-- Cross matrix: specification of every entry. -/
theorem cdistGeneric_cross {dist : S → S → Except PyErr V} {zero : V} {X Y : List S} {diag : Bool}
    {run} (hrun : Faithful run) {M : Mat V}
    (h : cdistGeneric dist zero X (some Y) diag run = .ok M) :
    ∀ (i j : ℕ) (x y : S), X[i]? = some x → Y[j]? = some y → dist x y = .ok (M i j) := by
  unfold cdistGeneric at h
  simp only [bind, Except.bind, pure, Except.pure, throw, throwThe, MonadExceptOf.throw] at h
  cases hr : run (jobsOf dist X Y (crossJobs X.length Y.length)) with
  | error e => simp [hr] at h
  | ok vals =>
    simp only [hr] at h
    split_ifs at h with hlen
    simp only [Except.ok.injEq] at h
    subst h
    have hjobs := (hrun _ _).1 hr
    intro i j x y hx hy
    have hi := (List.getElem?_eq_some_iff.1 hx).1
    have hj := (List.getElem?_eq_some_iff.1 hy).1
    have h1 : (jobsOf dist X Y (crossJobs X.length Y.length))[i * Y.length + j]? =
        some (dist x y) := by
      unfold jobsOf
      rw [List.getElem?_map, crossJobs_get _ _ _ _ hi hj]
      simp [hx, hy]
    rw [hjobs, List.getElem?_map] at h1
    cases hv : vals[i * Y.length + j]? with
    | none => simp [hv] at h1
    | some v =>
      simp only [hv, Option.map_some, Option.some.injEq] at h1
      simp [List.getD_eq_getElem?_getD, hv, ← h1]

/-- The matrix exists as soon as every needed pair has a value. -/
theorem cdistGeneric_total {dist : S → S → Except PyErr V} {zero : V} {X : List S}
    {Y : Option (List S)} {diag : Bool} {run} (hrun : Faithful run)
    (hok : ∀ x ∈ X, ∀ y ∈ Y.getD X, ∃ v, dist x y = .ok v) :
    ∃ M, cdistGeneric dist zero X Y diag run = .ok M := by
  have hj : ∀ (Z : List S) (pairs : List (ℕ × ℕ)), (∀ x ∈ X, ∀ y ∈ Z, ∃ v, dist x y = .ok v) →
      (∀ ij ∈ pairs, ij.1 < X.length ∧ ij.2 < Z.length) →
      ∃ vals : List V, jobsOf dist X Z pairs = vals.map Except.ok := by
    intro Z pairs hZ hp
    apply exists_map_ok
    intro k hk
    rw [jobsOf_length] at hk
    have hm := hp _ (List.getElem_mem hk)
    obtain ⟨v, hv⟩ := hZ _ (List.getElem_mem hm.1) _ (List.getElem_mem hm.2)
    refine ⟨v, ?_⟩
    unfold jobsOf
    rw [List.getElem?_map, List.getElem?_eq_getElem hk]
    simp [hm.1, hm.2, hv]
  cases Y with
  | none =>
    obtain ⟨vals, hvals⟩ := hj X (selfJobs X.length diag) hok (by
      rintro ⟨i, j⟩ h
      rw [selfJobs_eq] at h
      have := mem_triuIndices.1 h
      exact ⟨this.1, this.2.1⟩)
    have hr := (hrun _ vals).2 hvals
    have hl : (triuIndices X.length (if diag then 0 else 1)).length = vals.length := by
      rw [← selfJobs_eq, ← jobsOf_length dist X X, hvals, List.length_map]
    simp only [cdistGeneric, bind, Except.bind, pure, Except.pure, hr, hl, ne_eq, not_true, if_false]
    exact ⟨_, rfl⟩
  | some Y =>
    obtain ⟨vals, hvals⟩ := hj Y (crossJobs X.length Y.length) hok (by
      rintro ⟨i, j⟩ h
      simp only [crossJobs, List.mem_flatMap, List.mem_map, List.mem_range, Prod.mk.injEq] at h
      obtain ⟨a, ha, b, hb, rfl, rfl⟩ := h
      exact ⟨ha, hb⟩)
    have hr := (hrun _ vals).2 hvals
    have hl : vals.length = X.length * Y.length := by
      rw [← crossJobs_length, ← jobsOf_length dist X Y, hvals, List.length_map]
    simp only [cdistGeneric, bind, Except.bind, pure, Except.pure, hr, hl, ne_eq, not_true, if_false]
    exact ⟨_, rfl⟩
end

/-! ### datasets -/
section
variable {K W : Type}

theorem onSlots_congr (f : List (List K) → List (List K) → Except PyErr W) {t1 t1' t2 t2' : Ts K}
    (h1 : t1.trim = t1'.trim) (h2 : t2.trim = t2'.trim) : onSlots f t1 t2 = onSlots f t1' t2' := by
  unfold onSlots
  rw [h1, h2]

theorem onSlots_ok {f : List (List K) → List (List K) → Except PyErr W} {t1 t2 : Ts K} {v : W}
    (h : onSlots f t1 t2 = .ok v) : ∃ x y, denan t1.trim.rows = some x ∧ denan t2.trim.rows = some y ∧
      x ≠ [] ∧ y ≠ [] ∧ f x y = .ok v := by
  unfold onSlots at h
  split at h
  · rename_i x y hx hy
    split_ifs at h with hc
    push Not at hc
    exact ⟨x, y, hx, hy, hc.1, hc.2, h⟩
  · simp at h

/-- What `onSlots` returns is what the validated pairwise function returns. -/
theorem validatePair_of_onSlots {f : List (List K) → List (List K) → Except PyErr W} {t1 t2 : Ts K}
    {v : W} (h : onSlots f t1 t2 = .ok v) (w1 : t1.WF) (w2 : t2.WF) (hd : t1.d = t2.d)
    {g : Option String} {code : ℕ} (hg : gcCode g = .ok code) :
    ∃ x y, validatePair (.twoD t1.rows) (.twoD t2.rows) g = .ok (x, y, code) ∧
      x ≠ [] ∧ y ≠ [] ∧ f x y = .ok v := by
  obtain ⟨x, y, hx, hy, hxn, hyn, hf⟩ := onSlots_ok h
  refine ⟨x, y, ?_, hxn, hyn, hf⟩
  have hnf : ∀ (t : Ts K), t.WF → t.trim.rows ≠ [] → nFeatures t.trim.rows = t.d := by
    intro t w hne
    unfold nFeatures
    cases hr : t.trim.rows with
    | nil => exact absurd hr hne
    | cons r rs =>
      have : r ∈ t.rows := List.mem_of_mem_take (i := tsSize t.rows) (by
        have : t.rows.take (tsSize t.rows) = r :: rs := hr
        rw [this]; simp)
      exact w r this
  have n1 : t1.trim.rows ≠ [] := by
    intro h0; apply hxn; apply List.length_eq_zero_iff.1; rw [denan_length hx, h0]; rfl
  have n2 : t2.trim.rows ≠ [] := by
    intro h0; apply hyn; apply List.length_eq_zero_iff.1; rw [denan_length hy, h0]; rfl
  have e1 : toTimeSeries (.twoD t1.rows) true = t1.trim.rows := rfl
  have e2 : toTimeSeries (.twoD t2.rows) true = t2.trim.rows := rfl
  unfold validatePair
  simp only [e1, e2, List.length_eq_zero_iff, n1, n2, or_self, if_false, hnf t1 w1 n1, hnf t2 w2 n2,
    hd, ne_eq, not_true, hg, hx, hy, bind, Except.bind, pure, Except.pure]
end
end Verif
