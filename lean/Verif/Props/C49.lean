import Verif.Model.Dbscan
import Verif.Spec.Dbscan
import Mathlib.Tactic.Common
import Mathlib.Data.List.Nodup
import Mathlib.Data.Finset.Dedup
import Mathlib.Algebra.Order.Ring.Rat
import Mathlib.Algebra.Order.Group.Abs
import Mathlib.Algebra.Field.Rat
/-!
C49 — core samples of DBSCAN, and patched attributes.
-/
set_option linter.unusedSectionVars false
namespace Verif
variable {K : Type} [LinearOrder K]

theorem dbNeighbours_length (D : ℕ → ℕ → K) (eps : K) (n i : ℕ) :
    (dbNeighbours D eps n i).length = ((Finset.range n).filter fun j => D i j ≤ eps).card := by
  have : ((Finset.range n).filter fun j => D i j ≤ eps) = (dbNeighbours D eps n i).toFinset := by
    ext j
    simp [dbNeighbours]
  rw [this]
  exact (List.toFinset_card_of_nodup (List.Nodup.filter _ List.nodup_range)).symm

theorem dbCore_iff (D : ℕ → ℕ → K) (eps : K) (minTs n i : ℕ) (hi : i < n) :
    dbCore (dbNeighbours D eps n) minTs i = true ↔ Spec.DbCore D eps minTs n i := by
  simp only [dbCore, decide_eq_true_eq, dbNeighbours_length, Spec.DbCore, hi, true_and]

/-- `core_ts_indices_` lists, in increasing order, the series with at least `min_ts` series within `eps`. -/
theorem C49_core (D : ℕ → ℕ → K) (eps : K) (minTs n sz d : ℕ) (r : DbFit) (h : dbFit D eps minTs n sz d = some r) :
    r.coreIndices.Pairwise (· < ·) ∧ ∀ i, i ∈ r.coreIndices ↔ Spec.DbCore D eps minTs n i := by
  have hr : r.coreIndices = (List.range n).filter (dbCore (dbNeighbours D eps n) minTs) := by
    unfold dbFit at h
    simp only [Option.map_eq_some_iff] at h
    obtain ⟨L, _, rfl⟩ := h
    rfl
  rw [hr]
  refine ⟨List.Pairwise.filter _ List.pairwise_lt_range, fun i => ?_⟩
  rw [List.mem_filter, List.mem_range]
  constructor
  · rintro ⟨hi, hc⟩; exact (dbCore_iff D eps minTs n i hi).mp hc
  · intro hc; exact ⟨hc.1, (dbCore_iff D eps minTs n i hc.1).mpr hc⟩

/-- The series itself counts as soon as its distance to itself is at most `eps`: with `min_ts = 1` every series is then core. -/
theorem C49_self (D : ℕ → ℕ → K) (eps : K) (n sz d : ℕ) (r : DbFit) (h : dbFit D eps 1 n sz d = some r) (hD : ∀ i < n, D i i ≤ eps) :
    ∀ i, i ∈ r.coreIndices ↔ i < n := by
  intro i
  rw [(C49_core D eps 1 n sz d r h).2 i]
  refine ⟨fun hc => hc.1, fun hi => ⟨hi, Finset.card_pos.mpr ⟨i, ?_⟩⟩⟩
  simp [hi, hD i hi]

example : (dbFit (fun i j => |([0, 1, 10] : List ℚ).getD i 0 - ([0, 1, 10] : List ℚ).getD j 0|) 2 2 3 4 1).map (fun r => r.coreIndices) =
    some [0, 1] := by decide +kernel

/-- With a core series, `components_` has the documented shape `(n_core, sz, d)`. -/
theorem C49_components_partial (D : ℕ → ℕ → K) (eps : K) (minTs n sz d : ℕ) (r : DbFit) (h : dbFit D eps minTs n sz d = some r)
    (hc : ∃ i, Spec.DbCore D eps minTs n i) : r.componentsShape = [r.coreIndices.length, sz, d] := by
  obtain ⟨i, hi⟩ := hc
  have hm := ((C49_core D eps minTs n sz d r h).2 i).mpr hi
  unfold dbFit at h
  simp only [Option.map_eq_some_iff] at h
  obtain ⟨L, _, rfl⟩ := h
  have : ((List.range n).filter (dbCore (dbNeighbours D eps n) minTs)).length ≠ 0 := by
    intro h0
    rw [List.length_eq_zero_iff] at h0
    simp only [h0] at hm
    cases hm
  exact if_pos this

/-- Without one it has two dimensions: the documented shape, `(0, sz, d)`, is lost. -/
theorem C49_false_components (D : ℕ → ℕ → K) (eps : K) (minTs n sz d : ℕ) (r : DbFit) (h : dbFit D eps minTs n sz d = some r)
    (hc : ∀ i, ¬Spec.DbCore D eps minTs n i) : r.componentsShape = [0, sz] ∧ r.coreIndices = [] := by
  have hm := (C49_core D eps minTs n sz d r h).2
  have hnil : r.coreIndices = [] := List.eq_nil_iff_forall_not_mem.mpr fun i hi => hc i ((hm i).mp hi)
  refine ⟨?_, hnil⟩
  unfold dbFit at h
  simp only [Option.map_eq_some_iff] at h
  obtain ⟨L, _, rfl⟩ := h
  simp only at hnil
  simp only [hnil]
  rfl

example : (dbFit (fun i j => |([0, 1, 10] : List ℚ).getD i 0 - ([0, 1, 10] : List ℚ).getD j 0|) 2 3 3 4 1).map
    (fun r => (r.coreIndices, r.componentsShape)) = some ([], [0, 4]) := by decide +kernel

section
variable {N V R : Type} [DecidableEq N]

/-- The patched attribute has its old value after the statement, whatever the body did: it gave a value, raised, or set the attribute itself.
The body saw the new value; what it gave or raised, and what it did to other attributes, is kept. -/
theorem C49_restored (o : N → Option V) (name : N) (value orig : V) (body : (N → Option V) → (N → Option V) × Except PyErr R)
    (h : o name = some orig) :
    ∃ o', o' name = some value ∧ (∀ a ≠ name, o' a = o a) ∧ (withPatch o name value body).2 = (body o').2 ∧
      (withPatch o name value body).1 name = some orig ∧ ∀ a ≠ name, (withPatch o name value body).1 a = (body o').1 a := by
  refine ⟨fun a => if a = name then some value else o a, if_pos rfl, fun a ha => if_neg ha, ?_, ?_, fun a ha => ?_⟩ <;>
    simp only [withPatch, h]
  · exact if_pos trivial
  · exact if_neg ha

/-- So a body that changes nothing else leaves the object as it was. -/
theorem C49_unchanged (o : N → Option V) (name : N) (value : V) (body : (N → Option V) → (N → Option V) × Except PyErr R)
    (hb : ∀ o a, a ≠ name → (body o).1 a = o a) : (withPatch o name value body).1 = o := by
  funext a
  cases h : o name with
  | none => simp only [withPatch, h]
  | some orig =>
    obtain ⟨o', _, h2, _, h4, h5⟩ := C49_restored o name value orig body h
    by_cases ha : a = name
    · rw [ha, h4, h]
    · rw [h5 a ha, hb o' a ha, h2 a ha]

/-- Nested statements give both attributes back, also when they patch the same attribute twice. -/
theorem C49_nested (o : N → Option V) (n1 n2 : N) (v1 v2 o1 o2 : V) (body : (N → Option V) → (N → Option V) × Except PyErr R) (h1 : o n1 = some o1)
    (h2 : o n2 = some o2) :
    (withPatch o n1 v1 fun o => withPatch o n2 v2 body).1 n1 = some o1 ∧ (withPatch o n1 v1 fun o => withPatch o n2 v2 body).1 n2 = some o2 := by
  obtain ⟨o', a1, a2, _, a4, a5⟩ := C49_restored o n1 v1 o1 (fun o => withPatch o n2 v2 body) h1
  refine ⟨a4, ?_⟩
  by_cases h : n2 = n1
  · subst h
    rw [a4, ← h1, h2]
  · rw [a5 n2 h]
    obtain ⟨_, _, _, _, b4, _⟩ := C49_restored o' n2 v2 o2 body (by rw [a2 n2 h, h2])
    exact b4

/-- An attribute that is not there cannot be patched: `AttributeError`, and the body does not run. -/
theorem C49_missing (o : N → Option V) (name : N) (value : V) (body : (N → Option V) → (N → Option V) × Except PyErr R) (h : o name = none) :
    withPatch o name value body = (o, .error .attributeError) := by
  simp only [withPatch, h]

example : (withPatch (fun a => if a = "metric" then some "dtw" else none) "metric" "precomputed"
    (fun _ => ((fun _ => none), (.error .valueError : Except PyErr ℕ)))).1 "metric" = some "dtw" := by decide
end

end Verif
