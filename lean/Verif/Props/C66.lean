import Verif.Model.KernelKMeans
import Verif.Spec.KernelKMeans
import Verif.Proofs.KMeans
import Verif.Props.C38
import Mathlib.Tactic.Ring
import Mathlib.Algebra.Order.BigOperators.Group.Finset
import Mathlib.Tactic.Linarith
import Mathlib.Tactic.IntervalCases
/-!
C66: what `KernelKMeans.fit` computes.
-/
set_option linter.unusedSectionVars false
namespace Verif
open Spec Finset
variable {K : Type} [Field K] [LinearOrder K] [IsStrictOrderedRing K]

theorem mask_sum (labels : List ℕ) (j : ℕ) (f : ℕ → K) :
    ((kkMask labels j).map f).sum = ∑ i ∈ range labels.length with labels.getD i 0 = j, f i := by
  unfold kkMask
  rw [sum_filter]
  generalize labels.length = n
  induction n with
  | zero => simp
  | succ n ih =>
    rw [List.range_succ, List.filter_append, List.map_append, List.sum_append, ih, sum_range_succ]
    congr 1
    by_cases h : labels.getD n 0 = j
    · rw [if_pos h, List.filter_cons_of_pos (by simpa using h)]; simp
    · rw [if_neg h, List.filter_cons_of_neg (by simpa using h)]; simp

theorem kkEntry_eq (sw : ℕ → K) (M : ℕ → ℕ → K) (labels : List ℕ) (x j : ℕ) :
    kkEntry sw M labels x j = usedDist labels.length sw (M x) (fun i => labels.getD i 0) j := by
  unfold kkEntry usedDist meanProd clusterWeight
  rw [mask_sum, mask_sum, mul_div_assoc]

theorem firstLeast_argmin {k : ℕ} (hk : 0 < k) (f : ℕ → K) :
    FirstLeast k f (argminL ((List.range k).map f)) ∧ rowMin ((List.range k).map f) = f (argminL ((List.range k).map f)) := by
  obtain ⟨v, h1, h2, h3⟩ := argminL_spec ((List.range k).map f) (by simp; omega)
  have hlt : argminL ((List.range k).map f) < k := by
    have := List.getElem?_eq_some_iff.1 h1
    simpa using this.1
  have hv : v = f (argminL ((List.range k).map f)) := by
    rw [List.getElem?_map, List.getElem?_range hlt, Option.map_some] at h1
    exact (Option.some.inj h1).symm
  refine ⟨⟨hlt, fun j hj => ⟨?_, fun hl => ?_⟩⟩, ?_⟩
  · rw [← hv]; exact h2 _ (List.mem_map.2 ⟨j, List.mem_range.2 hj, rfl⟩)
  · rw [← hv]; exact h3 j hl _ (by rw [List.getElem?_map, List.getElem?_range hj]; rfl)
  · unfold rowMin
    rw [h1, ← hv]; rfl

/-- One round: from the labels `lab` of the training series to `lab'`, with inertia `v`. -/
def KkStep (k n : ℕ) (sw : ℕ → K) (M : ℕ → ℕ → K) (lab lab' : List ℕ) (v : K) : Prop :=
  AllUsed k lab ∧ AllUsed k lab' ∧ lab'.length = n ∧
    (∀ x < n, FirstLeast k (usedDist lab.length sw (M x) fun i => lab.getD i 0) (lab'.getD x 0)) ∧
    v = ∑ x ∈ range n, usedDist lab.length sw (M x) (fun i => lab.getD i 0) (lab'.getD x 0)

/-- The rows `kkDist` computes. -/
def kkRows (k n : ℕ) (sw : ℕ → K) (M : ℕ → ℕ → K) (lab : List ℕ) : List (List K) :=
  (List.range n).map fun x => (List.range k).map fun j => usedDist lab.length sw (M x) (fun i => lab.getD i 0) j

theorem kkRows_get {k n : ℕ} {sw : ℕ → K} {M : ℕ → ℕ → K} {lab : List ℕ} {x : ℕ} (hx : x < n) :
    ((kkRows k n sw M lab).map argminL).getD x 0 =
      argminL ((List.range k).map fun j => usedDist lab.length sw (M x) (fun i => lab.getD i 0) j) := by
  simp [kkRows, List.getD_eq_getElem?_getD, hx]

theorem kkRows_inertia {k n : ℕ} (hk : 0 < k) (sw : ℕ → K) (M : ℕ → ℕ → K) (lab : List ℕ) :
    kkInertia (kkRows k n sw M lab) =
      ∑ x ∈ range n, usedDist lab.length sw (M x) (fun i => lab.getD i 0) (((kkRows k n sw M lab).map argminL).getD x 0) := by
  have : ∀ m (g : ℕ → K), ((List.range m).map g).sum = ∑ x ∈ range m, g x := by
    intro m g
    induction m with
    | zero => simp
    | succ m ih => rw [List.range_succ, List.map_append, List.sum_append, ih, sum_range_succ]; simp
  unfold kkInertia
  conv_lhs => unfold kkRows
  rw [List.map_map, this]
  refine sum_congr rfl fun x hx => ?_
  rw [kkRows_get (mem_range.1 hx)]
  exact (firstLeast_argmin hk _).2

theorem kkRows_step {k n : ℕ} (hk : 0 < k) {sw : ℕ → K} {M : ℕ → ℕ → K} {lab : List ℕ} (h1 : AllUsed k lab)
    (h2 : AllUsed k ((kkRows k n sw M lab).map argminL)) :
    KkStep k n sw M lab ((kkRows k n sw M lab).map argminL) (kkInertia (kkRows k n sw M lab)) := by
  refine ⟨h1, h2, by simp [kkRows], ?_, kkRows_inertia hk sw M lab⟩
  intro x hx
  rw [kkRows_get hx]
  exact (firstLeast_argmin hk _).1

theorem FirstLeast.unique {k : ℕ} {f : ℕ → K} {a b : ℕ} (ha : FirstLeast k f a) (hb : FirstLeast k f b) : a = b := by
  rcases lt_trichotomy a b with h | h | h
  · exact absurd ((hb.2 a ha.1).2 h) (not_lt.2 (ha.2 b hb.1).1)
  · exact h
  · exact absurd ((ha.2 b hb.1).2 h) (not_lt.2 (hb.2 a ha.1).1)

theorem kkRows_unique {k n : ℕ} (hk : 0 < k) {sw : ℕ → K} {M : ℕ → ℕ → K} {lab lab' : List ℕ} {v : K} (h : KkStep k n sw M lab lab' v) :
    lab' = (kkRows k n sw M lab).map argminL ∧ v = kkInertia (kkRows k n sw M lab) := by
  obtain ⟨h1, h2, h3, h4, h5⟩ := h
  have hl : lab' = (kkRows k n sw M lab).map argminL := by
    apply List.ext_getElem
    · simp [h3, kkRows]
    · intro x hx hx'
      have hx0 : x < n := h3 ▸ hx
      have e := FirstLeast.unique (h4 x hx0) (kkRows_get (k := k) (sw := sw) (M := M) (lab := lab) hx0 ▸ (firstLeast_argmin hk _).1)
      rw [List.getD_eq_getElem?_getD, List.getD_eq_getElem?_getD, List.getElem?_eq_getElem hx, List.getElem?_eq_getElem hx'] at e
      exact e
  refine ⟨hl, ?_⟩
  rw [h5, kkRows_inertia hk, ← hl]

theorem kkDist_ok {k n : ℕ} {sw : ℕ → K} {M : ℕ → ℕ → K} {lab : List ℕ} {ds : List (List K)} (h : kkDist k n sw M lab = .ok ds) :
    AllUsed k lab ∧ ds = kkRows k n sw M lab := by
  unfold kkDist at h
  by_cases hl : hasEmpty lab k = true
  · rw [if_pos hl] at h; cases h
  · rw [if_neg hl] at h
    split at h
    · cases h
    · cases h
      simp only [kkEntry_eq]
      exact ⟨by rwa [hasEmpty_iff, not_not] at hl, rfl⟩

theorem clusterWeight_pos {k n : ℕ} {sw : ℕ → K} {lab : List ℕ} (hw : ∀ i < n, 0 < sw i) (hl : lab.length = n) (h : AllUsed k lab) {j : ℕ} (hj : j < k) :
    0 < clusterWeight n sw (fun i => lab.getD i 0) j := by
  obtain ⟨i, hi, he⟩ := List.getElem_of_mem (h j hj)
  refine Finset.sum_pos (fun i hi => hw i (mem_range.1 (mem_filter.1 hi).1)) ⟨i, mem_filter.2 ⟨mem_range.2 (hl ▸ hi), ?_⟩⟩
  simp [List.getD_eq_getElem?_getD, hi, he]

theorem kkDist_of {k n m : ℕ} {sw : ℕ → K} {M : ℕ → ℕ → K} {lab : List ℕ} (hw : ∀ i < n, 0 < sw i) (hl : lab.length = n) :
    kkDist k m sw M lab = if hasEmpty lab k then .error .emptyCluster else .ok (kkRows k m sw M lab) := by
  unfold kkDist
  by_cases h : hasEmpty lab k = true
  · rw [if_pos h, if_pos h]
  · rw [if_neg h, if_neg h]
    have ha : AllUsed k lab := by rwa [hasEmpty_iff, not_not] at h
    rw [if_neg]
    · simp only [kkEntry_eq]; rfl
    · intro h
      rw [List.any_eq_true] at h
      obtain ⟨j, hj, hj'⟩ := h
      have h0 := clusterWeight_pos hw hl ha (List.mem_range.1 hj)
      have h1 := of_decide_eq_true hj'
      rw [mask_sum, hl] at h1
      exact absurd h1 h0.ne'

theorem kmClose_iff (tol : K) (old : WithTop K) (v : K) : kmClose tol old ((v : K) : WithTop K) = true ↔ Close tol old v := by
  unfold Close
  cases old with
  | top =>
    constructor
    · intro h; cases h
    · rintro ⟨a, h, -⟩; exact absurd h.symm (WithTop.coe_ne_top)
  | coe a =>
    have e : kmClose tol ((a : K) : WithTop K) ((v : K) : WithTop K) = decide (|a - v| < tol) := rfl
    rw [e, decide_eq_true_iff]
    constructor
    · intro h; exact ⟨a, rfl, h⟩
    · rintro ⟨b, hb, h⟩
      obtain rfl := WithTop.coe_injective hb
      exact h

/-- `m` rounds of an attempt, from labels `lab0`. -/
def KkRounds (k n : ℕ) (tol : K) (sw : ℕ → K) (M : ℕ → ℕ → K) (bound : ℕ) (old : WithTop K) (lab0 : List ℕ) (m : ℕ) (lab' : List ℕ) (v' : K) : Prop :=
  ∃ (l : ℕ → List ℕ) (v : ℕ → K), l 0 = lab0 ∧ (∀ j < m, KkStep k n sw M (l j) (l (j + 1)) (v (j + 1))) ∧
    (∀ j, j + 1 < m → ¬ Close tol (before old v j) (v (j + 1))) ∧
    (m = bound ∨ (0 < m ∧ Close tol (before old v (m - 1)) (v m))) ∧ lab' = l m ∧ v' = v m

theorem kkLoop_spec (D : KkData K) (M : ℕ → ℕ → K) : ∀ (n it : ℕ) (old : WithTop K) (o o' : KkObj K), 0 < o.nClusters → 0 < n →
    kkLoop D M n it old o = (o', none) → ∃ m lab' v', 1 ≤ m ∧ m ≤ n ∧ o'.iter = it + m ∧ o'.labels = some lab' ∧ o'.inertia = ((v' : K) : WithTop K) ∧
      KkRounds o.nClusters D.n o.tol D.sw M n old (o.labels.getD []) m lab' v' := by
  intro n
  induction n with
  | zero => intro it old o o' _ h0; omega
  | succ n ih =>
    intro it old o o' hk _ h
    unfold kkLoop at h
    cases hd : kkDist o.nClusters D.n D.sw M (o.labels.getD []) with
    | error err => rw [hd] at h; cases h
    | ok ds =>
      rw [hd] at h
      simp only at h
      by_cases he : hasEmpty (ds.map argminL) o.nClusters = true
      · rw [if_pos he] at h; cases h
      · rw [if_neg he] at h
        obtain ⟨hu, rfl⟩ := kkDist_ok hd
        have hst := kkRows_step (n := D.n) hk hu (by rwa [hasEmpty_iff, not_not] at he)
        set ds := kkRows o.nClusters D.n D.sw M (o.labels.getD []) with hds
        have one : ∀ lab0 : List ℕ, KkStep o.nClusters D.n D.sw M lab0 (ds.map argminL) (kkInertia ds) → ∀ bound,
            (1 = bound ∨ Close o.tol old (kkInertia ds)) →
            KkRounds o.nClusters D.n o.tol D.sw M bound old lab0 1 (ds.map argminL) (kkInertia ds) := by
          intro lab0 h1 bound h2
          refine ⟨front lab0 fun _ => ds.map argminL, fun _ => kkInertia ds, rfl, ?_, fun j hj => by omega, ?_, rfl, rfl⟩
          · intro j hj
            obtain rfl : j = 0 := by omega
            exact h1
          · rcases h2 with h2 | h2
            · exact .inl h2
            · exact .inr ⟨by omega, h2⟩
        by_cases hc : kmClose o.tol old ((kkInertia ds : K) : WithTop K) = true
        · simp only [if_pos hc] at h
          cases h
          exact ⟨1, _, _, le_rfl, by omega, rfl, rfl, rfl, one _ hst _ (.inr ((kmClose_iff _ _ _).1 hc))⟩
        · simp only [if_neg hc] at h
          have hnc : ¬ Close o.tol old (kkInertia ds) := fun hh => hc ((kmClose_iff _ _ _).2 hh)
          by_cases hn : n = 0
          · subst hn
            cases h
            exact ⟨1, _, _, le_rfl, by omega, rfl, rfl, rfl, one _ hst _ (.inl rfl)⟩
          · obtain ⟨m, lab', v', h1, h2, h3, h4, h5, l, v, r1, r2, r3, r4, r5, r6⟩ := ih (it + 1) _
              { o with labels := some (ds.map argminL), inertia := ((kkInertia ds : K) : WithTop K) } o' hk (by omega) h
            have hb : ∀ k, before old (front 0 (front (kkInertia ds) fun k => v (k + 1))) (k + 1) = before ((kkInertia ds : K) : WithTop K) v k := by
              intro k
              cases k <;> rfl
            refine ⟨m + 1, lab', v', by omega, by omega, by omega, h4, h5, front (o.labels.getD []) l, front 0 (front (kkInertia ds) fun k => v (k + 1)),
              rfl, ?_, ?_, ?_, r5, ?_⟩
            · intro j hj
              cases j with
              | zero =>
                change KkStep o.nClusters D.n D.sw M (o.labels.getD []) (l 0) (kkInertia ds)
                rw [r1]; exact hst
              | succ j => exact r2 j (by omega)
            · intro j hj
              cases j with
              | zero => exact hnc
              | succ j => rw [hb]; exact r3 j (by omega)
            · rcases r4 with r4 | ⟨r4, r4'⟩
              · exact .inl (by omega)
              · obtain ⟨m, rfl⟩ : ∃ j, m = j + 1 := ⟨m - 1, by omega⟩
                refine .inr ⟨by omega, ?_⟩
                rw [show m + 1 + 1 - 1 = m + 1 by omega, hb]
                exact r4'
            · obtain ⟨m, rfl⟩ : ∃ j, m = j + 1 := ⟨m - 1, by omega⟩
              exact r6

/-- An attempt from labels `init` ends after `m` rounds with labels `lab` and inertia `v`. -/
def KkAttempt (k n : ℕ) (tol : K) (sw : ℕ → K) (M : ℕ → ℕ → K) (maxIter : ℕ) (init lab : List ℕ) (v : K) (m : ℕ) : Prop :=
  1 ≤ m ∧ m ≤ maxIter ∧ KkRounds k n tol sw M maxIter ⊤ init m lab v

theorem kkLoop_complete (D : KkData K) (M : ℕ → ℕ → K) (hw : ∀ i < D.n, 0 < D.sw i) : ∀ (n it : ℕ) (old : WithTop K) (o : KkObj K) (m : ℕ) (lab' : List ℕ)
    (v' : K), 0 < o.nClusters → 1 ≤ m → m ≤ n → (o.labels.getD []).length = D.n →
    KkRounds o.nClusters D.n o.tol D.sw M n old (o.labels.getD []) m lab' v' →
    kkLoop D M n it old o = ({ o with labels := some lab', inertia := ((v' : K) : WithTop K), iter := it + m }, none) := by
  intro n
  induction n with
  | zero => intro it old o m lab' v' _ h1 h2; omega
  | succ n ih =>
    intro it old o m lab' v' hk h1 h2 hl ⟨l, v, r1, r2, r3, r4, r5, r6⟩
    have hs := r2 0 (by omega)
    rw [r1] at hs
    obtain ⟨e1, e2⟩ := kkRows_unique hk hs
    obtain ⟨u1, u2, u3, -, -⟩ := hs
    unfold kkLoop
    rw [kkDist_of hw hl, if_neg (by rwa [hasEmpty_iff, not_not])]
    simp only
    rw [← e1, ← e2, if_neg (by rwa [hasEmpty_iff, not_not])]
    rcases Nat.lt_or_ge 1 m with hm | hm
    · have hnc := r3 0 (by omega)
      change ¬ Close o.tol old (v (0 + 1)) at hnc
      rw [if_neg (fun h => hnc ((kmClose_iff _ _ _).1 h))]
      have := ih (it + 1) (((v 1 : K) : WithTop K)) { o with labels := some (l 1), inertia := ((v 1 : K) : WithTop K) } (m - 1) lab' v' hk (by omega) (by omega) u3
        ⟨fun k => l (k + 1), fun k => v (k + 1), rfl, fun j hj => r2 (j + 1) (by omega), ?_, ?_, ?_, ?_⟩
      · rw [this]
        simp only [show it + 1 + (m - 1) = it + m by omega]
      · intro j hj
        have := r3 (j + 1) (by omega)
        cases j <;> exact this
      · rcases r4 with r4 | ⟨-, r4⟩
        · exact .inl (by omega)
        · refine .inr ⟨by omega, ?_⟩
          obtain ⟨m, rfl⟩ : ∃ j, m = j + 2 := ⟨m - 2, by omega⟩
          cases m <;> exact r4
      · rw [r5]; congr 1; omega
      · rw [r6]; congr 1; omega
    · obtain rfl : m = 1 := by omega
      rw [r5, r6]
      rcases r4 with r4 | ⟨-, r4⟩
      · obtain rfl : n = 0 := by omega
        split <;> rfl
      · change Close o.tol old (v (0 + 1)) at r4
        rw [if_pos ((kmClose_iff _ _ _).2 r4)]

theorem kkLoop_err (D : KkData K) (M : ℕ → ℕ → K) (hw : ∀ i < D.n, 0 < D.sw i) : ∀ (n it : ℕ) (old : WithTop K) (o : KkObj K) (err : PyErr),
    (o.labels.getD []).length = D.n → (kkLoop D M n it old o).2 = some err → err = .emptyCluster := by
  intro n
  induction n with
  | zero => intro it old o err _ h; cases h
  | succ n ih =>
    intro it old o err hl h
    unfold kkLoop at h
    rw [kkDist_of hw hl] at h
    by_cases h1 : hasEmpty (o.labels.getD []) o.nClusters = true
    · rw [if_pos h1] at h; cases h; rfl
    · rw [if_neg h1] at h
      simp only at h
      split at h
      · cases h; rfl
      · split at h
        · cases h
        · exact ih _ _ _ _ (by simp [kkRows]) h

theorem kkLoop_frame (D : KkData K) (M : ℕ → ℕ → K) : ∀ (n it : ℕ) (old : WithTop K) (o : KkObj K),
    ∃ (l : Option (List ℕ)) (i : WithTop K) (t : ℕ), (kkLoop D M n it old o).1 = { o with labels := l, inertia := i, iter := t } := by
  intro n
  induction n with
  | zero => intro it old o; exact ⟨o.labels, o.inertia, it, rfl⟩
  | succ n ih =>
    intro it old o
    unfold kkLoop
    cases kkDist o.nClusters D.n D.sw M (o.labels.getD []) with
    | error err => exact ⟨_, _, _, rfl⟩
    | ok ds =>
      simp only
      split
      · exact ⟨_, o.inertia, o.iter, rfl⟩
      · split
        · exact ⟨_, _, _, rfl⟩
        · obtain ⟨l, i, t, h⟩ := ih (it + 1) ((kkInertia ds : K) : WithTop K)
            { o with labels := some (ds.map argminL), inertia := ((kkInertia ds : K) : WithTop K) }
          exact ⟨l, i, t, h⟩

/-- One attempt, from any state of the object: it ends without error exactly when the rounds can be run with all clusters in use, and
then its labels, inertia and number of rounds are those of the last round; otherwise the error is the one `fit` catches. -/
theorem C66_attempt (D : KkData K) (M : ℕ → ℕ → K) (hw : ∀ i < D.n, 0 < D.sw i) (init : List ℕ) (hi : init.length = D.n) (o : KkObj K)
    (hk : 0 < o.nClusters) (hm : 0 < o.maxIter) :
    (∀ lab v m, (kkFitOne D M init o = ({ o with labels := some lab, inertia := ((v : K) : WithTop K), iter := m }, none) ↔
      KkAttempt o.nClusters D.n o.tol D.sw M o.maxIter init lab v m)) ∧
    ((¬ ∃ lab v m, KkAttempt o.nClusters D.n o.tol D.sw M o.maxIter init lab v m) ↔ (kkFitOne D M init o).2 = some .emptyCluster) := by
  have hf : kkFitOne D M init o = kkLoop D M o.maxIter 0 ⊤ { o with labels := some init } := by
    unfold kkFitOne
    simp only
    rw [if_neg hm.ne']
  have main : ∀ o', kkLoop D M o.maxIter 0 ⊤ { o with labels := some init } = (o', none) → ∃ lab v m,
      o' = { o with labels := some lab, inertia := ((v : K) : WithTop K), iter := m } ∧
        KkAttempt o.nClusters D.n o.tol D.sw M o.maxIter init lab v m := by
    intro o' h
    obtain ⟨m, lab, v, a1, a2, a3, a4, a5, a6⟩ := kkLoop_spec D M o.maxIter 0 ⊤ { o with labels := some init } o' hk hm h
    obtain ⟨l, i, t, f⟩ := kkLoop_frame D M o.maxIter 0 ⊤ { o with labels := some init }
    rw [h] at f
    simp only at f
    subst f
    simp only at a3 a4 a5
    subst a4 a5
    exact ⟨lab, v, t, rfl, by rw [a3, Nat.zero_add]; exact ⟨a1, a2, a6⟩⟩
  have comp : ∀ lab v m, KkAttempt o.nClusters D.n o.tol D.sw M o.maxIter init lab v m →
      kkFitOne D M init o = ({ o with labels := some lab, inertia := ((v : K) : WithTop K), iter := m }, none) := by
    rintro lab v m ⟨a1, a2, a3⟩
    rw [hf, kkLoop_complete D M hw o.maxIter 0 ⊤ { o with labels := some init } m lab v hk a1 a2 hi a3, Nat.zero_add]
  refine ⟨fun lab v m => ⟨fun h => ?_, comp lab v m⟩, fun h => ?_, fun h => ?_⟩
  · rw [hf] at h
    obtain ⟨lab', v', m', e, ha⟩ := main _ h
    obtain ⟨e1, e2, e3⟩ : lab = lab' ∧ v = v' ∧ m = m' := by
      simp only [KkObj.mk.injEq, true_and, Option.some.injEq, WithTop.coe_eq_coe] at e
      exact ⟨e.1, e.2.1, e.2.2⟩
    rw [e1, e2, e3]
    exact ha
  · rw [hf]
    cases he : kkLoop D M o.maxIter 0 ⊤ { o with labels := some init } with
    | mk o' err =>
      cases err with
      | none =>
        obtain ⟨lab, v, m, -, ha⟩ := main _ he
        exact absurd ⟨lab, v, m, ha⟩ h
      | some err =>
        have := kkLoop_err D M hw o.maxIter 0 ⊤ { o with labels := some init } err hi (by rw [he])
        rw [this]
  · rintro ⟨lab, v, m, ha⟩
    rw [comp lab v m ha] at h
    cases h

open Classical in
/-- Number of successful attempts among the first `A`. -/
noncomputable def successes (S : ℕ → Prop) (A : ℕ) : ℕ := ((range A).filter S).card

theorem successes_succ (S : ℕ → Prop) (A : ℕ) [Decidable (S A)] : successes S (A + 1) = successes S A + if S A then 1 else 0 := by
  classical
  unfold successes
  rw [range_add_one, filter_insert]
  by_cases h : S A
  · rw [if_pos h, if_pos h, card_insert_of_notMem (by simp)]
  · rw [if_neg h, if_neg h]; rfl

theorem successes_zero {S : ℕ → Prop} {A : ℕ} (h : successes S A = 0) : ∀ a < A, ¬ S a := by
  classical
  intro a ha hS
  have := filter_eq_empty_iff.1 (card_eq_zero.1 h) (mem_range.2 ha)
  exact this hS

/-- Invariant of the loop of `fit` after `A` attempts; `At a lab v m`: attempt `a` ends after `m` rounds with labels `lab` and inertia `v`. -/
structure KkInv (o0 : KkObj K) (At : ℕ → List ℕ → K → ℕ → Prop) (A : ℕ) (b : KkBest K) (o : KkObj K) : Prop where
  frame : ∃ l i it ni, o = { o0 with labels := l, inertia := i, iter := it, nIter := ni }
  attempts : b.nAttempts = A
  count : b.nSuccessful = successes (fun a => ∃ lab v m, At a lab v m) A
  bound : b.nSuccessful ≤ o0.nInit
  least : ∀ a < A, ∀ lab v m, At a lab v m → b.minInertia ≤ ((v : K) : WithTop K)
  best : (b.nSuccessful = 0 ∧ b.best = none ∧ b.minInertia = ⊤ ∧ o.nIter = o0.nIter) ∨
    ∃ a < A, ∃ lab v m, At a lab v m ∧ 0 < b.nSuccessful ∧ b.best = some lab ∧ b.minInertia = ((v : K) : WithTop K) ∧ o.nIter = m ∧
      ∀ a' < a, ∀ lab' v' m', At a' lab' v' m' → v < v'

theorem kkFitLoop_inv (D : KkData K) (M : ℕ → ℕ → K) (o0 : KkObj K) (hw : ∀ i < D.n, 0 < D.sw i) (hi : ∀ a, (D.inits a).length = D.n)
    (hk : 0 < o0.nClusters) (hm : 0 < o0.maxIter) : ∀ (fuel A : ℕ) (b : KkBest K) (o : KkObj K),
    KkInv o0 (fun a => KkAttempt o0.nClusters D.n o0.tol D.sw M o0.maxIter (D.inits a)) A b o →
    (kkFitLoop D M fuel b o).2.2 = none ∧ ∃ A', A ≤ A' ∧ A' ≤ A + fuel ∧
      KkInv o0 (fun a => KkAttempt o0.nClusters D.n o0.tol D.sw M o0.maxIter (D.inits a)) A' (kkFitLoop D M fuel b o).1 (kkFitLoop D M fuel b o).2.1 ∧
      ((kkFitLoop D M fuel b o).1.nSuccessful = o0.nInit ∨ A' = A + fuel)
  | 0, A, b, o, hI => ⟨rfl, A, le_rfl, le_rfl, hI, .inr rfl⟩
  | fuel + 1, A, b, o, hI => by
    classical
    unfold kkFitLoop
    obtain ⟨l, i, it, ni, ho⟩ := hI.frame
    have hnI : o.nInit = o0.nInit := by rw [ho]
    have hkk : o.nClusters = o0.nClusters := by rw [ho]
    have htt : o.tol = o0.tol := by rw [ho]
    have hmm : o.maxIter = o0.maxIter := by rw [ho]
    rw [hnI]
    by_cases hn : b.nSuccessful < o0.nInit
    · rw [if_pos hn]
      simp only [hI.attempts]
      have a12 := C66_attempt D M hw (D.inits A) (hi A) o (by omega) (by omega)
      have a1 : ∀ lab v m, kkFitOne D M (D.inits A) o = ({ o with labels := some lab, inertia := ((v : K) : WithTop K), iter := m }, none) ↔
          KkAttempt o0.nClusters D.n o0.tol D.sw M o0.maxIter (D.inits A) lab v m := by
        intro lab v m
        rw [← hkk, ← htt, ← hmm]
        exact a12.1 lab v m
      have a2 := a12.2
      rw [hkk, htt, hmm] at a2
      have hcnt := successes_succ (fun a => ∃ lab v m, KkAttempt o0.nClusters D.n o0.tol D.sw M o0.maxIter (D.inits a) lab v m) A
      rw [← hI.count] at hcnt
      by_cases hS : ∃ lab v m, KkAttempt o0.nClusters D.n o0.tol D.sw M o0.maxIter (D.inits A) lab v m
      · rw [if_pos hS] at hcnt
        obtain ⟨lab, v, m, hS⟩ := hS
        have uniq : ∀ lab' v' m', KkAttempt o0.nClusters D.n o0.tol D.sw M o0.maxIter (D.inits A) lab' v' m' → v' = v := by
          intro lab' v' m' h
          have e := ((a1 lab' v' m').2 h).symm.trans ((a1 lab v m).2 hS)
          simp only [Prod.mk.injEq, KkObj.mk.injEq, true_and, and_true, WithTop.coe_eq_coe] at e
          exact e.2.1
        rw [(a1 lab v m).2 hS]
        simp only
        by_cases hlt : ((v : K) : WithTop K) < b.minInertia
        · rw [if_pos hlt]
          have hI' : KkInv o0 (fun a => KkAttempt o0.nClusters D.n o0.tol D.sw M o0.maxIter (D.inits a)) (A + 1)
              { b with best := some lab, minInertia := ((v : K) : WithTop K), nSuccessful := b.nSuccessful + 1, nAttempts := A + 1 }
              { o with labels := some lab, inertia := ((v : K) : WithTop K), iter := m, nIter := m } := by
            refine ⟨⟨some lab, _, m, m, by rw [ho]⟩, rfl, hcnt.symm, hn, ?_, .inr ⟨A, by omega, lab, v, m, hS, by simp, rfl, rfl, rfl, ?_⟩⟩
            · intro a ha lab' v' m' h
              rcases Nat.lt_succ_iff_lt_or_eq.1 ha with ha | rfl
              · exact hlt.le.trans (hI.least a ha lab' v' m' h)
              · rw [uniq lab' v' m' h]
            · intro a ha lab' v' m' h
              exact WithTop.coe_lt_coe.1 (lt_of_lt_of_le hlt (hI.least a ha lab' v' m' h))
          obtain ⟨q0, A', q1, q2, q3, q4⟩ := kkFitLoop_inv D M o0 hw hi hk hm fuel (A + 1) _ _ hI'
          exact ⟨q0, A', by omega, by omega, q3, by omega⟩
        · rw [if_neg hlt]
          have hI' : KkInv o0 (fun a => KkAttempt o0.nClusters D.n o0.tol D.sw M o0.maxIter (D.inits a)) (A + 1)
              { b with nSuccessful := b.nSuccessful + 1, nAttempts := A + 1 }
              { o with labels := some lab, inertia := ((v : K) : WithTop K), iter := m } := by
            refine ⟨⟨some lab, _, m, ni, by rw [ho]⟩, rfl, hcnt.symm, hn, ?_, ?_⟩
            · intro a ha lab' v' m' h
              rcases Nat.lt_succ_iff_lt_or_eq.1 ha with ha | rfl
              · exact hI.least a ha lab' v' m' h
              · rw [uniq lab' v' m' h]; exact not_lt.1 hlt
            · rcases hI.best with ⟨-, -, hb, -⟩ | ⟨a, ha, lab', v', m', c1, c2, c3, c4, c5, c6⟩
              · rw [hb] at hlt
                exact absurd (WithTop.coe_lt_top v) hlt
              · exact .inr ⟨a, by omega, lab', v', m', c1, by simp, c3, c4, c5, c6⟩
          obtain ⟨q0, A', q1, q2, q3, q4⟩ := kkFitLoop_inv D M o0 hw hi hk hm fuel (A + 1) _ _ hI'
          exact ⟨q0, A', by omega, by omega, q3, by omega⟩
      · rw [if_neg hS] at hcnt
        have he := a2.1 hS
        have hfr : ∃ l i it, (kkFitOne D M (D.inits A) o).1 = { o with labels := l, inertia := i, iter := it } := by
          unfold kkFitOne
          simp only
          rw [if_neg (by omega)]
          obtain ⟨l, i, t, h⟩ := kkLoop_frame D M o.maxIter 0 ⊤ { o with labels := some (D.inits A) }
          exact ⟨l, i, t, h⟩
        generalize kkFitOne D M (D.inits A) o = r at *
        obtain ⟨o', err⟩ := r
        simp only at he hfr
        subst he
        simp only
        obtain ⟨l', i', it', hf⟩ := hfr
        have hI' : KkInv o0 (fun a => KkAttempt o0.nClusters D.n o0.tol D.sw M o0.maxIter (D.inits a)) (A + 1)
            { b with nAttempts := A + 1 } o' := by
          refine ⟨⟨l', i', it', ni, by rw [hf, ho]⟩, rfl, hcnt.symm, hI.bound, ?_, ?_⟩
          · intro a ha lab' v' m' h
            rcases Nat.lt_succ_iff_lt_or_eq.1 ha with ha | rfl
            · exact hI.least a ha lab' v' m' h
            · exact absurd ⟨lab', v', m', h⟩ hS
          · rcases hI.best with ⟨hb1, hb2, hb3, hb4⟩ | ⟨a, ha, lab', v', m', c1, c2, c3, c4, c5, c6⟩
            · exact .inl ⟨hb1, hb2, hb3, by rw [hf]; exact hb4⟩
            · exact .inr ⟨a, by omega, lab', v', m', c1, c2, c3, c4, by rw [hf]; exact c5, c6⟩
        obtain ⟨q0, A', q1, q2, q3, q4⟩ := kkFitLoop_inv D M o0 hw hi hk hm fuel (A + 1) _ _ hI'
        exact ⟨q0, A', by omega, by omega, q3, by omega⟩
    · rw [if_neg hn]
      exact ⟨rfl, A, le_rfl, by omega, hI, .inl (le_antisymm hI.bound (not_lt.1 hn))⟩

/-- The kernel matrix `fit` works with, when it can be computed. -/
def kkMatrix (o : KkObj K) (D : KkData K) : Except PyErr (ℕ → ℕ → K) :=
  if o.gak then kkGakMatrix (kkReady o D.autoSigma).2 (kkReady o D.autoSigma).1 D.gakMat else D.pairMat (kkReady o D.autoSigma).1

/-- A whole fit with positive weights never fails once the kernel matrix is there: attempts are made until `n_init` succeeded or
`max(n_init, 10)` were made, and the first best of the successful ones is what the object holds; without any, the object has no
`_X_fit`. -/
theorem C66_fit (o : KkObj K) (D : KkData K) (M : ℕ → ℕ → K) (hM : kkMatrix o D = .ok M) (hw : ∀ i < D.n, 0 < D.sw i)
    (hi : ∀ a, (D.inits a).length = D.n) (hk : 0 < o.nClusters) (hm : 0 < o.maxIter) :
    (kkFit o D).2 = none ∧ ∃ A ≤ max o.nInit 10,
      successes (fun a => ∃ lab v m, KkAttempt o.nClusters D.n o.tol D.sw M o.maxIter (D.inits a) lab v m) A ≤ o.nInit ∧
      (successes (fun a => ∃ lab v m, KkAttempt o.nClusters D.n o.tol D.sw M o.maxIter (D.inits a) lab v m) A = o.nInit ∨ A = max o.nInit 10) ∧
      (((kkFit o D).1.xfit = false ∧ (kkFit o D).1.nIter = 0 ∧
          ∀ a < A, ¬ ∃ lab v m, KkAttempt o.nClusters D.n o.tol D.sw M o.maxIter (D.inits a) lab v m) ∨
        ∃ a < A, ∃ lab v m, KkAttempt o.nClusters D.n o.tol D.sw M o.maxIter (D.inits a) lab v m ∧
          (kkFit o D).1.xfit = true ∧ (kkFit o D).1.labels = some lab ∧ (kkFit o D).1.inertia = ((v : K) : WithTop K) ∧ (kkFit o D).1.nIter = m ∧
          ∀ a' < A, ∀ lab' v' m', KkAttempt o.nClusters D.n o.tol D.sw M o.maxIter (D.inits a') lab' v' m' → v ≤ v' ∧ (a' < a → v < v')) := by
  rw [kkFit_ready]
  unfold kkFrom
  have e1 : (kkReady o D.autoSigma).2.gak = o.gak := rfl
  have e2 : (kkReady o D.autoSigma).2.nInit = o.nInit := rfl
  unfold kkMatrix at hM
  rw [e1, hM, e2]
  simp only
  have hI0 : KkInv (kkReady o D.autoSigma).2 (fun a => KkAttempt o.nClusters D.n o.tol D.sw M o.maxIter (D.inits a)) 0 ⟨none, ⊤, 0, 0⟩
      (kkReady o D.autoSigma).2 :=
    ⟨⟨none, ⊤, _, 0, rfl⟩, rfl, by simp [successes], Nat.zero_le _, fun a ha => by omega, .inl ⟨rfl, rfl, rfl, rfl⟩⟩
  obtain ⟨q0, A, -, q2, q3, q4⟩ := kkFitLoop_inv D M (kkReady o D.autoSigma).2 hw hi hk hm (max o.nInit 10) 0 _ _ hI0
  generalize kkFitLoop D M (max o.nInit 10) ⟨none, ⊤, 0, 0⟩ (kkReady o D.autoSigma).2 = r at *
  obtain ⟨b, t, err⟩ := r
  simp only at q0 q3 q4
  subst q0
  simp only
  rw [Nat.zero_add] at q2 q4
  have hxf : t.xfit = false := by
    obtain ⟨l, i, it, ni, ht⟩ := q3.frame
    rw [ht]; rfl
  have hc := q3.count
  refine ⟨by split <;> rfl, A, q2, hc ▸ q3.bound, hc ▸ q4, ?_⟩
  rcases q3.best with ⟨h1, h2, h3, h4⟩ | ⟨a, ha, lab, v, m, c1, c2, c3, c4, c5, c6⟩
  · left
    rw [if_neg (by omega)]
    refine ⟨hxf, h4, ?_⟩
    intro a ha hS
    exact successes_zero (hc.symm.trans h1) a ha hS
  · right
    rw [if_pos c2]
    refine ⟨a, ha, lab, v, m, c1, rfl, c3, c4, c5, fun a' ha' lab' v' m' h => ⟨?_, fun h' => c6 a' h' lab' v' m' h⟩⟩
    have := q3.least a' ha' lab' v' m' h
    rw [c4] at this
    exact WithTop.coe_le_coe.1 this

/-- `predict` on an object whose fit found no labelling fails, whatever is asked. -/
theorem C66_unfitted (o : KkObj K) (D : KkData K) (M : ℕ → ℕ → K) (hM : kkMatrix o D = .ok M) (hw : ∀ i < D.n, 0 < D.sw i)
    (hi : ∀ a, (D.inits a).length = D.n) (hk : 0 < o.nClusters) (hm : 0 < o.maxIter)
    (hno : ∀ a < max o.nInit 10, ¬ ∃ lab v m, KkAttempt o.nClusters D.n o.tol D.sw M o.maxIter (D.inits a) lab v m) (Q : KkQuery K) :
    (kkFit o D).2 = none ∧ (kkPredict (kkFit o D).1 Q).2 = .error .attributeError := by
  obtain ⟨h1, A, h2, -, -, h5⟩ := C66_fit o D M hM hw hi hk hm
  refine ⟨h1, ?_⟩
  rcases h5 with ⟨hx, -, -⟩ | ⟨a, ha, lab, v, m, hA, -⟩
  · have hf : (kkFit o D).1.fitted = true := by
      rw [kkFit_ready]
      unfold kkFrom
      have e1 : (kkReady o D.autoSigma).2.gak = o.gak := rfl
      have e2 : (kkReady o D.autoSigma).2.nInit = o.nInit := rfl
      unfold kkMatrix at hM
      rw [e1, hM, e2]
      simp only
      have hI0 : KkInv (kkReady o D.autoSigma).2 (fun a => KkAttempt o.nClusters D.n o.tol D.sw M o.maxIter (D.inits a)) 0 ⟨none, ⊤, 0, 0⟩
          (kkReady o D.autoSigma).2 :=
        ⟨⟨none, ⊤, _, 0, rfl⟩, rfl, by simp [successes], Nat.zero_le _, fun a ha => by omega, .inl ⟨rfl, rfl, rfl, rfl⟩⟩
      obtain ⟨q0, A, -, q2, q3, q4⟩ := kkFitLoop_inv D M (kkReady o D.autoSigma).2 hw hi hk hm (max o.nInit 10) 0 _ _ hI0
      generalize kkFitLoop D M (max o.nInit 10) ⟨none, ⊤, 0, 0⟩ (kkReady o D.autoSigma).2 = r at *
      obtain ⟨b, t, err⟩ := r
      simp only at q0 q3
      subst q0
      obtain ⟨l, i, it, ni, ht⟩ := q3.frame
      simp only
      rw [ht]
      split <;> rfl
    unfold kkPredict
    rw [if_pos hf, if_neg (by rw [hx]; decide)]
  · exact absurd ⟨lab, v, m, hA⟩ (hno a (by omega))

/-- The kernel matrix `predict` works with. -/
def kkQueryMatrix (o : KkObj K) (Q : KkQuery K) : Except PyErr (ℕ → ℕ → K) := (kkGetKernel o Q.gakMat Q.pairMat).2

/-- `predict`: query `x` gets the first cluster of least used distance, between its row of the kernel matrix and the weighted mean of
the training series with that label. -/
theorem C66_predict (o : KkObj K) (Q : KkQuery K) (M : ℕ → ℕ → K) (lab : List ℕ) (hf : o.fitted = true) (hx : o.xfit = true)
    (hl : o.labels = some lab) (hM : kkQueryMatrix o Q = .ok M) (hw : ∀ i < lab.length, 0 < Q.sw i) (hu : AllUsed o.nClusters lab)
    (hk : 0 < o.nClusters) :
    ∃ p, (kkPredict o Q).2 = .ok p ∧ p.length = Q.m ∧
      ∀ x < Q.m, FirstLeast o.nClusters (usedDist lab.length Q.sw (M x) fun i => lab.getD i 0) (p.getD x 0) := by
  refine ⟨(kkRows o.nClusters Q.m Q.sw M lab).map argminL, ?_, by simp [kkRows], fun x hx => by rw [kkRows_get hx]; exact (firstLeast_argmin hk _).1⟩
  unfold kkPredict
  rw [if_pos hf, if_pos hx]
  unfold kkQueryMatrix at hM
  have hfr : (kkGetKernel o Q.gakMat Q.pairMat).1.labels = o.labels ∧ (kkGetKernel o Q.gakMat Q.pairMat).1.nClusters = o.nClusters := by
    unfold kkGetKernel kkGetParams
    cases o.kernelParams <;> exact ⟨rfl, rfl⟩
  generalize kkGetKernel o Q.gakMat Q.pairMat = r at *
  obtain ⟨o', e⟩ := r
  simp only at hM hfr
  subst hM
  simp only
  rw [hfr.1, hfr.2, hl, Option.getD_some, kkDist_of hw rfl, if_neg (by rwa [hasEmpty_iff, not_not])]

/-- Two orthogonal series; both draws of the first attempt are 0, the others are 0, 1. -/
def kkD3 : KkData ℚ := { kkD2 with inits := fun a => if a = 0 then [0, 0] else [0, 1] }

example : KkAttempt 2 2 (1 / 1000 : ℚ) (fun _ => 1) (fun i j => if i = j then 1 else 0) 3 [0, 1] [0, 1] 0 2 :=
  ((C66_attempt kkD2 (fun i j => if i = j then 1 else 0) (fun _ _ => by simp [kkD2]) [0, 1] rfl (kkO true none) (by decide) (by decide)).1
    [0, 1] 0 2).1 (by decide +kernel)

example : (kkFit (kkO true none) kkD3).1.xfit = true ∧ (kkFit (kkO true none) kkD3).1.nIter = 2 := by decide +kernel

example : ∃ A ≤ 10, A ≠ 0 ∧ successes (fun a => ∃ lab v m, KkAttempt 2 2 (1 / 1000 : ℚ) (fun _ => 1) (fun i j => if i = j then 1 else 0) 3 (kkD3.inits a) lab v m) A ≤ 1 := by
  obtain ⟨-, A, h1, h2, h3, h4⟩ := C66_fit (kkO true none) kkD3 (fun i j => if i = j then 1 else 0) rfl (fun _ _ => by simp [kkD3, kkD2])
    (fun a => by unfold kkD3; simp only; split <;> rfl) (by decide) (by decide)
  refine ⟨A, h1, ?_, h2⟩
  rintro rfl
  rcases h3 with h3 | h3
  · have : successes (fun a => ∃ lab v m, KkAttempt 2 2 (1 / 1000 : ℚ) (fun _ => 1) (fun i j => if i = j then 1 else 0) 3 (kkD3.inits a) lab v m) 0 = 1 := h3
    unfold successes at this
    rw [range_zero, filter_empty, card_empty] at this
    omega
  · simp [kkO] at h3

example (Q : KkQuery ℚ) : (kkPredict (kkFit (kkO true none) { kkD2 with inits := fun _ => [0, 0] }).1 Q).2 = .error .attributeError := by
  refine (C66_unfitted (kkO true none) { kkD2 with inits := fun _ => [0, 0] } (fun i j => if i = j then 1 else 0) rfl (fun _ _ => by simp [kkD2])
    (fun a => rfl) (by decide) (by decide) (fun a _ => ?_) Q).2
  exact (C66_attempt kkD2 (fun i j => if i = j then 1 else 0) (fun _ _ => by simp [kkD2]) [0, 0] rfl (kkO true none) (by decide) (by decide)).2.2
    (by decide +kernel)

/-- An estimator fitted on two series. -/
def kkFitted : KkObj ℚ := { kkO true none with sigma := some (.num 1), labels := some [0, 1], inertia := 0, fitted := true, xfit := true }

example : ∃ p, (kkPredict kkFitted ⟨1, fun _ _ j => if j = 1 then 1 else 0, fun _ => .error .keyError, fun _ => 1⟩).2 = .ok p ∧
    FirstLeast 2 (usedDist 2 (fun _ => (1 : ℚ)) (fun j => if j = 1 then 1 else 0) fun i => [0, 1].getD i 0) (p.getD 0 0) := by
  obtain ⟨p, h1, -, h3⟩ := C66_predict kkFitted ⟨1, fun _ _ j => if j = 1 then 1 else 0, fun _ => .error .keyError, fun _ => 1⟩
    (fun _ j => if j = 1 then 1 else 0) [0, 1] rfl rfl rfl rfl (fun _ _ => by simp)
    (by intro c hc; have : c < 2 := hc; interval_cases c <;> simp) (by decide)
  exact ⟨p, h1, h3 0 (by simp)⟩

end Verif
