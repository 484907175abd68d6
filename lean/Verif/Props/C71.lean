import Verif.Proofs.Dbscan
import Verif.Props.C49
/-!
C71 — the labels of DBSCAN.
-/
set_option linter.unusedSectionVars false
namespace Verif
variable {K : Type} [LinearOrder K]

theorem coreChain_iff (D : ℕ → ℕ → K) (eps : K) (minTs n : ℕ) (i j : ℕ) :
    CoreChain (dbNeighbours D eps n) (dbCore (dbNeighbours D eps n) minTs) n i j ↔ Spec.DbConnected D eps minTs n i j := by
  have key : CoreLink (dbNeighbours D eps n) (dbCore (dbNeighbours D eps n) minTs) n =
      fun i j => Spec.DbCore D eps minTs n i ∧ Spec.DbCore D eps minTs n j ∧ D i j ≤ eps := by
    funext i j
    apply propext
    constructor
    · rintro ⟨h1, h2, h3, h4, h5⟩
      refine ⟨(dbCore_iff D eps minTs n i h1).mp h3, (dbCore_iff D eps minTs n j h2).mp h4, ?_⟩
      simpa [dbNeighbours, h2] using h5
    · rintro ⟨h1, h2, h3⟩
      refine ⟨h1.1, h2.1, (dbCore_iff D eps minTs n i h1.1).mpr h1, (dbCore_iff D eps minTs n j h2.1).mpr h2, ?_⟩
      simp [dbNeighbours, h2.1, h3]
  unfold CoreChain Spec.DbConnected
  rw [key]

/-- What is known of the labels after `fit`, in terms of the helpers of the model. -/
theorem dbFit_inv (D : ℕ → ℕ → K) (eps : K) (minTs n sz d : ℕ) (hD : ∀ i < n, ∀ j < n, D i j ≤ eps → D j i ≤ eps) :
    ∃ r c, dbFit D eps minTs n sz d = some r ∧ OuterInv (dbNeighbours D eps n) (dbCore (dbNeighbours D eps n) minTs) n n c r.labels := by
  have hmem : ∀ i j, j ∈ dbNeighbours D eps n i ↔ j < n ∧ D i j ≤ eps := by intro i j; simp [dbNeighbours]
  obtain ⟨L, c, h1, h2⟩ := dbInner_spec (nb := dbNeighbours D eps n) (core := dbCore (dbNeighbours D eps n) minTs) (n := n)
    (fun i _ j hj => ((hmem i j).mp hj).1)
    (fun i => by
      have := List.length_filter_le (fun j => decide (D i j ≤ eps)) (List.range n)
      rw [List.length_range] at this
      exact this)
    (fun i hi j hj h => (hmem j i).mpr ⟨hi, hD i hi j hj ((hmem i j).mp h).2⟩) (n * (n + 1) + 1) (by omega) n 0 (fun _ => none) le_rfl
    (by rw [Nat.sub_self]; exact outerInv_init)
  have hr : dbFit D eps minTs n sz d = some ⟨(List.range n).filter (dbCore (dbNeighbours D eps n) minTs), L,
      if ((List.range n).filter (dbCore (dbNeighbours D eps n) minTs)).length ≠ 0 then
        [((List.range n).filter (dbCore (dbNeighbours D eps n) minTs)).length, sz, d] else [0, sz]⟩ := by
    unfold dbFit
    simp only [h1, Option.map_some]
  exact ⟨_, c, hr, h2⟩

/-- The search ends: `fit` gives labels, whatever the (symmetric) distances. -/
theorem C71_terminates (D : ℕ → ℕ → K) (eps : K) (minTs n sz d : ℕ) (hD : ∀ i < n, ∀ j < n, D i j ≤ eps → D j i ≤ eps) :
    ∃ r, dbFit D eps minTs n sz d = some r := by
  obtain ⟨r, _, h, _⟩ := dbFit_inv D eps minTs n sz d hD
  exact ⟨r, h⟩

section
variable (D : ℕ → ℕ → K) (eps : K) (minTs n sz d : ℕ) (hD : ∀ i < n, ∀ j < n, D i j ≤ eps → D j i ≤ eps) (r : DbFit)
  (h : dbFit D eps minTs n sz d = some r)
include hD h

theorem dbFit_inv' : ∃ c, OuterInv (dbNeighbours D eps n) (dbCore (dbNeighbours D eps n) minTs) n n c r.labels := by
  obtain ⟨r', c, h1, h2⟩ := dbFit_inv D eps minTs n sz d hD
  rw [h] at h1
  cases h1
  exact ⟨c, h2⟩

/-- A series is noise exactly if it is neither core nor within `eps` of a core series. -/
theorem C71_noise (i : ℕ) (hi : i < n) :
    r.labels i = none ↔ ¬Spec.DbCore D eps minTs n i ∧ ∀ u, Spec.DbCore D eps minTs n u → ¬D u i ≤ eps := by
  obtain ⟨c, hI⟩ := dbFit_inv' D eps minTs n sz d hD r h
  constructor
  · intro hnone
    constructor
    · intro hc
      have := hI.done i hi ((dbCore_iff D eps minTs n i hi).mpr hc)
      rw [hnone] at this; cases this
    · intro u hu hle
      have hu' := (dbCore_iff D eps minTs n u hu.1).mpr hu
      have := hI.closed u hu' (hI.done u hu.1 hu') i (by simp [dbNeighbours, hi, hle])
      rw [hnone] at this; cases this
  · rintro ⟨h1, h2⟩
    cases hl : r.labels i with
    | none => rfl
    | some k =>
      exfalso
      have hcf : dbCore (dbNeighbours D eps n) minTs i = false := by
        rw [← Bool.not_eq_true]
        exact fun hc => h1 ((dbCore_iff D eps minTs n i hi).mp hc)
      obtain ⟨⟨u, hun, hu, hmem, _⟩, _⟩ := hI.border i k hl hcf
      refine h2 u ((dbCore_iff D eps minTs n u hun).mp hu) ?_
      simpa [dbNeighbours, hi] using hmem

/-- Two core series have the same label exactly if a chain of core series, each within `eps` of the one before, joins them. -/
theorem C71_same (u v : ℕ) (hu : Spec.DbCore D eps minTs n u) (hv : Spec.DbCore D eps minTs n v) :
    r.labels u = r.labels v ↔ Spec.DbConnected D eps minTs n u v := by
  obtain ⟨c, hI⟩ := dbFit_inv' D eps minTs n sz d hD r h
  have hu' := (dbCore_iff D eps minTs n u hu.1).mpr hu
  have hv' := (dbCore_iff D eps minTs n v hv.1).mpr hv
  obtain ⟨k, hk⟩ := Option.isSome_iff_exists.mp (hI.done u hu.1 hu')
  obtain ⟨l, hl⟩ := Option.isSome_iff_exists.mp (hI.done v hv.1 hv')
  rw [← coreChain_iff, ← hI.same u v k l hu' hv' hk hl, hk, hl, Option.some_inj]

/-- A series that is not core but within `eps` of core series has the least of their labels. -/
theorem C71_border (v k : ℕ) (hv : ¬Spec.DbCore D eps minTs n v) (hk : r.labels v = some k) :
    (∃ u, Spec.DbCore D eps minTs n u ∧ D u v ≤ eps ∧ r.labels u = some k) ∧
      ∀ u l, Spec.DbCore D eps minTs n u → D u v ≤ eps → r.labels u = some l → k ≤ l := by
  obtain ⟨c, hI⟩ := dbFit_inv' D eps minTs n sz d hD r h
  have hvn := (hI.below v k hk).2
  have hcf : dbCore (dbNeighbours D eps n) minTs v = false := by
    rw [← Bool.not_eq_true]
    exact fun hc => hv ((dbCore_iff D eps minTs n v hvn).mp hc)
  obtain ⟨⟨u, hun, hu, hmem, hlu⟩, hmin⟩ := hI.border v k hk hcf
  refine ⟨⟨u, (dbCore_iff D eps minTs n u hun).mp hu, by simpa [dbNeighbours, hvn] using hmem, hlu⟩, fun w l hw hle hlw => ?_⟩
  exact hmin w hw.1 ((dbCore_iff D eps minTs n w hw.1).mpr hw) (by simp [dbNeighbours, hvn, hle]) l hlw

/-- Labels are consecutive from 0, and clusters are numbered in the order of their first core series. -/
theorem C71_numbering :
    (∃ c, ∀ k, k < c ↔ ∃ u, Spec.DbCore D eps minTs n u ∧ r.labels u = some k) ∧
      ∀ u v k l, Spec.DbCore D eps minTs n u → Spec.DbCore D eps minTs n v → r.labels u = some k → r.labels v = some l → k < l →
        ∃ w, Spec.DbCore D eps minTs n w ∧ r.labels w = some k ∧ ∀ x, Spec.DbCore D eps minTs n x → r.labels x = some l → w < x := by
  obtain ⟨c, hI⟩ := dbFit_inv' D eps minTs n sz d hD r h
  refine ⟨⟨c, fun k => ⟨fun hk => ?_, ?_⟩⟩, ?_⟩
  · obtain ⟨u, hu, hl⟩ := hI.used k hk
    exact ⟨u, (dbCore_iff D eps minTs n u (hI.below u k hl).2).mp hu, hl⟩
  · rintro ⟨u, _, hl⟩
    exact (hI.below u k hl).1
  · intro u v k l hu hv hk hl hkl
    have hu' := (dbCore_iff D eps minTs n u hu.1).mpr hu
    have hv' := (dbCore_iff D eps minTs n v hv.1).mpr hv
    obtain ⟨w, hw, hch, hmin⟩ := hI.order u v k l hu' hv' hk hl hkl
    have hwn : w < n := by
      rcases Relation.ReflTransGen.cases_tail hch with rfl | ⟨_, _, hlink⟩
      · exact hu.1
      · exact hlink.2.1
    have hw' := (dbCore_iff D eps minTs n w hwn).mp hw
    refine ⟨w, hw', ?_, fun x hx hlx => ?_⟩
    · rw [← hk]
      exact ((C71_same D eps minTs n sz d hD r h u w hu hw').mpr ((coreChain_iff D eps minTs n u w).mp hch)).symm
    · exact hmin x ((dbCore_iff D eps minTs n x hx.1).mpr hx)
        ((coreChain_iff D eps minTs n v x).mpr ((C71_same D eps minTs n sz d hD r h v x hv hx).mp (by rw [hl, hlx])))

/-- No label outside the dataset. -/
theorem C71_range (i : ℕ) (hi : n ≤ i) : r.labels i = none := by
  obtain ⟨c, hI⟩ := dbFit_inv' D eps minTs n sz d hD r h
  cases hl : r.labels i with
  | none => rfl
  | some k => have := (hI.below i k hl).2; omega
end

/-- Eight series on a line: two clusters, a series between them that goes to the first, and noise. -/
def dbLine : ℕ → ℕ → ℚ := fun i j => |([4, 3, 4, 2, 1, 0, 0, 30] : List ℚ).getD i 0 - ([4, 3, 4, 2, 1, 0, 0, 30] : List ℚ).getD j 0|

example : (dbFit dbLine 1 4 8 4 1).map (fun r => (r.coreIndices, (List.range 8).map r.labels)) =
    some ([1, 4], [some 0, some 0, some 0, some 0, some 1, some 1, some 1, none]) := by decide +kernel

example : ∀ i < 8, ∀ j < 8, dbLine i j ≤ 1 → dbLine j i ≤ 1 := by decide +kernel

/-- Without symmetry (a precomputed matrix) core series of one label need not be joined by a chain, and those joined by a chain need not share a
label: here series 0 is within reach of 1, not 1 of 0; both are core. -/
def dbOneWay : ℕ → ℕ → ℚ := fun i j => if i = j then 0 else if i = 1 ∧ j = 0 then 0 else 5

theorem C71_false_asymmetric : Spec.DbConnected dbOneWay 1 1 2 1 0 ∧
    (dbFit dbOneWay 1 1 2 4 1).map (fun r => (List.range 2).map r.labels) = some [some 0, some 1] := by
  refine ⟨?_, by decide +kernel⟩
  refine Relation.ReflTransGen.single ⟨?_, ?_, ?_⟩
  · refine ⟨by decide, Finset.card_pos.mpr ⟨1, ?_⟩⟩
    simp [dbOneWay]
  · refine ⟨by decide, Finset.card_pos.mpr ⟨0, ?_⟩⟩
    simp [dbOneWay]
  · decide +kernel

end Verif
