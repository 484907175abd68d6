import Verif.Proofs.Keogh
import Verif.Props.C05
import Verif.Props.C01
/-!
# C14 — LB_Keogh lower-bounds band-constrained DTW
-/
set_option linter.unusedSectionVars false
namespace Verif
open Spec

variable {K : Type} [CommRing K] [LinearOrder K] [IsStrictOrderedRing K]

/-- A column as a univariate series. -/
def asSeries {α : Type} (xs : List α) : List (List α) := xs.map fun x => [x]

/-- The envelope is exactly the minimum and maximum over the window of the given radius, and the
series lies inside it. -/
theorem C14_envelope (c : List K) (r : ℕ) : ∃ down up, lbEnvelope c r = .ok (down, up) ∧
    down.length = c.length ∧ up.length = c.length ∧
    ∀ i v, c[i]? = some v → ∃ l u, down[i]? = some l ∧ up[i]? = some u ∧ l ≤ v ∧ v ≤ u ∧
      IsLeast (Near c r i) l ∧ IsGreatest (Near c r i) u := by
  obtain ⟨down, up, h, h1, h2, h3⟩ := lbEnvelope_spec c r
  refine ⟨down, up, h, h1, h2, fun i v hv => ?_⟩
  obtain ⟨l, u, hl, hu, a, b⟩ := h3 i (List.getElem?_eq_some_iff.1 hv).1
  have hm : v ∈ Near c r i := ⟨i, hv, by omega, by omega⟩
  exact ⟨l, u, hl, hu, a.2 hm, b.2 hm, a, b⟩

/-- Any envelope containing the band-neighbours of every position gives a lower bound of the cost
of every warping path staying in the band, whatever the query. -/
theorem C14_any_envelope (q c down up : List K) (r : ℕ) (hl : q.length = c.length)
    (hdl : down.length = c.length) (hul : up.length = c.length)
    (henv : ∀ i l u, down[i]? = some l → up[i]? = some u → ∀ v ∈ Near c r i, l ≤ v ∧ v ≤ u)
    (p : List (ℕ × ℕ)) (hp : IsWarpingPath q.length c.length p)
    (hb : ∀ a ∈ p, InBand q.length c.length r a.1 a.2) :
    ∃ v, lbKeoghEnvSq q down up = .ok v ∧ v ≤ sumCost (sampleCost (asSeries q) (asSeries c)) p := by
  refine ⟨keoghSq q down up, by simp [lbKeoghEnvSq, hl, hdl, hul], ?_⟩
  rw [keoghSq_eq q down up q.length rfl (by omega) (by omega)]
  obtain ⟨i, j, hi, hj, hw⟩ := isWarpingPath_iff.1 hp
  rw [← hi]
  have hlt := hp.mem_lt
  refine rows_le_sumCost hw ?_ (fun a _ => sampleCost_nonneg _ _ _ _)
  rintro ⟨a, b⟩ hab
  obtain ⟨ha, hb'⟩ := hlt _ hab
  have hband := hb _ hab
  simp only at ha hb' hband ⊢
  have hac : a < c.length := by omega
  have e1 : q[a]? = some (q[a]'ha) := List.getElem?_eq_getElem ha
  have e2 : c[b]? = some (c[b]'hb') := List.getElem?_eq_getElem hb'
  have e3 : down[a]? = some (down[a]'(by omega)) := List.getElem?_eq_getElem _
  have e4 : up[a]? = some (up[a]'(by omega)) := List.getElem?_eq_getElem _
  obtain ⟨hlo, hhi⟩ := henv a _ _ e3 e4 (c[b]'hb') ⟨b, e2, by unfold InBand at hband; omega,
    by unfold InBand at hband; omega⟩
  have := gap_le (q := q[a]'ha) hlo hhi
  simp only [List.getD_eq_getElem?_getD, e1, e3, e4, Option.getD_some, sampleCost, asSeries,
    List.getElem?_map, e2, Option.map_some, sqEuclid]
  simpa [pow_two] using this

/-- `lb_keogh(q, c, radius=r)² ≤ dtw(q, c, sakoe_chiba_radius=r)²` for series of equal length, with
the constraint named or implied by the radius. -/
theorem C14_lower_bound_squared (q c : List K) (r : ℕ) (hc : c ≠ []) (hl : q.length = c.length)
    (gc : ℕ) (hgc : gc = 0 ∨ gc = 2) :
    ∃ v w : K, lbKeoghSq q c r = .ok v ∧ 0 ≤ v ∧
      dtwSqGeneric (asSeries q) (asSeries c) gc (some r) none = .ok (w : WithTop K) ∧ v ≤ w := by
  obtain ⟨down, up, he, hdl, hul, henv⟩ := lbEnvelope_spec c r
  have hq : q ≠ [] := by
    rintro rfl
    exact hc (List.length_eq_zero_iff.1 hl.symm)
  have hnx : asSeries q ≠ [] := by simpa [asSeries] using hq
  have hny : asSeries c ≠ [] := by simpa [asSeries] using hc
  have lx : (asSeries q).length = q.length := by simp [asSeries]
  have ly : (asSeries c).length = c.length := by simp [asSeries]
  have hm : computeMask (asSeries q).length (asSeries c).length gc (some r) none =
      .ok (sakoeChibaMask q.length c.length r) := by
    rw [lx, ly]
    rcases hgc with rfl | rfl <;> simp [computeMask]
  obtain ⟨t, ht, htop, hw⟩ := C01_dtw_squared _ _ hnx hny gc (some r) none _ hm
  rw [lx, ly] at htop hw
  have hfin : t ≠ ⊤ := fun h => htop.1 h
    (C05_feasible _ _ _ (List.length_pos_iff.2 hq) (List.length_pos_iff.2 hc))
  obtain ⟨w, rfl⟩ := WithTop.ne_top_iff_exists.1 hfin
  obtain ⟨⟨p, ⟨hp, hmask⟩, rfl⟩, -⟩ := (hw w).1 rfl
  obtain ⟨v, hv, hle⟩ := C14_any_envelope q c down up r hl hdl hul (by
    intro i l u h1 h2 v hv
    obtain ⟨l', u', h1', h2', a, b⟩ := henv i (by
      have := (List.getElem?_eq_some_iff.1 h1).1; omega)
    rw [h1] at h1'; cases h1'
    rw [h2] at h2'; cases h2'
    exact ⟨a.2 hv, b.2 hv⟩) p hp (by
      intro a ha
      have := hp.mem_lt _ ha
      exact (sakoeChibaMask_iff _ _ _ _ _ this.1 this.2).1 (hmask a ha))
  refine ⟨v, _, ?_, ?_, ht, hle⟩
  · rw [← hv]
    simp [lbKeoghSq, he, lbKeoghEnvSq, hl, hdl, hul, bind, Except.bind, pure, Except.pure]
  · simp [lbKeoghEnvSq, hl, hdl, hul] at hv
    rw [← hv, keoghSq_eq q down up q.length rfl (by omega) (by omega)]
    apply List.sum_nonneg
    simp only [List.mem_map]
    rintro _ ⟨i, -, rfl⟩
    exact gap_nonneg _ _ _

/-- The public functions on real series. -/
theorem C14_lower_bound (q c : List ℝ) (r : ℕ) (hc : c ≠ []) (hl : q.length = c.length)
    (name : Option String) (hname : name = none ∨ name = some "sakoe_chiba") :
    ∃ v w : ℝ, lbKeogh q c r = .ok v ∧
      dtw (.oneD (q.map some)) (.oneD (c.map some)) name (some r) none = .ok (w : WithTop ℝ) ∧
      0 ≤ v ∧ v ≤ w := by
  have hq : q ≠ [] := by
    rintro rfl
    exact hc (List.length_eq_zero_iff.1 hl.symm)
  have key : ∀ x : List ℝ, toTimeSeries (.oneD (x.map some)) true = x.map fun v => [some v] := by
    intro x
    have h1 : tsSize (x.map fun v => [some v]) = x.length := by
      unfold tsSize
      rw [List.length_map]
      cases hx : x.length with
      | zero => rfl
      | succ n =>
        have : n < x.length := by omega
        simp [tsSizeLoop, List.getD_eq_getElem?_getD, this]
    simp only [toTimeSeries, if_true, List.map_map]
    have h2 : (x.map ((fun v => [v]) ∘ some)) = x.map fun v => [some v] := rfl
    rw [h2, h1, List.take_of_length_le (by simp)]
  have hden : ∀ x : List ℝ, denan (x.map fun v => [some v]) = some (asSeries x) := by
    intro x
    unfold denan asSeries
    induction x with
    | nil => rfl
    | cons a x ih => rw [List.map_cons, List.mapM_cons, ih]; rfl
  obtain ⟨code, hcode, hcode'⟩ : ∃ code, gcCode name = .ok code ∧ (code = 0 ∨ code = 2) := by
    rcases hname with rfl | rfl
    · exact ⟨0, rfl, .inl rfl⟩
    · exact ⟨2, rfl, .inr rfl⟩
  obtain ⟨v, w, hv, hv0, hw, hle⟩ := C14_lower_bound_squared q c r hc hl code hcode'
  refine ⟨Real.sqrt v, Real.sqrt w, ?_, ?_, Real.sqrt_nonneg _, Real.sqrt_le_sqrt hle⟩
  · simp [lbKeogh, hv, bind, Except.bind, pure, Except.pure]
  · have hval : validatePair (.oneD (q.map some)) (.oneD (c.map some)) name =
        .ok (asSeries q, asSeries c, code) := by
      obtain ⟨a, q, rfl⟩ := List.exists_cons_of_ne_nil hq
      obtain ⟨b, c, rfl⟩ := List.exists_cons_of_ne_nil hc
      unfold validatePair
      simp only [key, hden]
      simp [nFeatures, hcode, bind, Except.bind, pure, Except.pure]
    simp [dtw, dtwSq, hval, hw, bind, Except.bind, pure, Except.pure, sqrtTop]

/-! Concrete instances. -/

/-- The envelope of the documentation example. -/
example : lbEnvelope ([1, 2, 3, 2, 1] : List ℤ) 1 = .ok ([1, 1, 2, 1, 1], [2, 3, 3, 3, 2]) := by
  decide

/-- A query above and below the envelope: the bound 4 + 1 + 1 is positive and below the DTW cost. -/
example : lbKeoghSq ([4, 0, 3, 2, 0] : List ℤ) [1, 2, 3, 2, 1] 1 = .ok 6 ∧
    dtwSqGeneric (asSeries ([4, 0, 3, 2, 0] : List ℤ)) (asSeries [1, 2, 3, 2, 1]) 2 (some 1) none =
      .ok ((12 : ℤ) : WithTop ℤ) := by decide +kernel

end Verif
