import Verif.Props.C17
import Verif.Proofs.LogSum
import Mathlib.Topology.Order.OrderClosed
import Mathlib.Topology.Algebra.Ring.Real
/-!
# C18 — soft-DTW brackets squared DTW, decreases with gamma, is symmetric
-/
namespace Verif
open Spec
open Classical

/-- `softDtwGeneric` succeeds exactly when the mask does, and is a soft minimum. -/
theorem softDtwGeneric_softMin (be : Backend) {x y : List (List ℝ)} (hx : x ≠ []) (hy : y ≠ [])
    {γ : ℝ} (hγ : 0 < γ) {gc : ℕ} {radius : Option ℕ} {slope : Option ℚ}
    (hs : ∀ s, slope = some s → 1 ≤ s) {mask : Mat Bool}
    (hmask : computeMask x.length y.length gc radius slope = .ok mask)
    {S : Finset (List (ℕ × ℕ))} (hS : ∀ p, p ∈ S ↔ Admissible x.length y.length mask p) :
    softDtwGeneric be x y γ gc radius slope = .ok (.num (softMin S (sumCost (sampleCost x y)) γ)) :=
  C17_softmin be x y hx hy γ hγ gc radius slope hs mask hmask S hS

theorem computeMask_of_soft {be : Backend} {x y : List (List ℝ)} {γ : ℝ} {gc : ℕ}
    {radius : Option ℕ} {slope : Option ℚ} {v : Fl}
    (h : softDtwGeneric be x y γ gc radius slope = .ok v) :
    ∃ mask, computeMask x.length y.length gc radius slope = .ok mask := by
  unfold softDtwGeneric at h
  cases hm : computeMask x.length y.length gc radius slope with
  | error e => simp [hm, bind, Except.bind] at h
  | ok mask => exact ⟨mask, rfl⟩

/-- `dtw² - γ log(number of paths) ≤ soft_dtw ≤ dtw²`. -/
theorem C18_bracket (be : Backend) (x y : List (List ℝ)) (hx : x ≠ []) (hy : y ≠ []) (γ : ℝ)
    (hγ : 0 < γ) (gc : ℕ) (radius : Option ℕ) (slope : Option ℚ) (hs : ∀ s, slope = some s → 1 ≤ s)
    (mask : Mat Bool) (hmask : computeMask x.length y.length gc radius slope = .ok mask)
    (S : Finset (List (ℕ × ℕ))) (hS : ∀ p, p ∈ S ↔ Admissible x.length y.length mask p) :
    ∃ v d : ℝ, softDtwGeneric be x y γ gc radius slope = .ok (.num v) ∧
      dtwSqGeneric x y gc radius slope = .ok (d : WithTop ℝ) ∧
      d - γ * Real.log S.card ≤ v ∧ v ≤ d := by
  have hx' := List.length_pos_iff.2 hx
  have hy' := List.length_pos_iff.2 hy
  obtain ⟨hr, q, hq⟩ := computeMask_reachable hx' hy' hs hmask
  obtain ⟨d, h1, h2, h3⟩ := C01_dtw_squared x y hx hy gc radius slope mask hmask
  cases d with
  | top => exact absurd ⟨q, hq⟩ (h2.1 rfl)
  | coe d =>
    obtain ⟨⟨p, hp, hpd⟩, hlb⟩ := (h3 d).1 rfl
    refine ⟨_, d, softDtwGeneric_softMin be hx hy hγ hs hmask hS, h1, ?_, ?_⟩
    · exact le_softMin hγ ⟨q, (hS q).2 hq⟩ fun r hr => hlb ⟨r, (hS r).1 hr, rfl⟩
    · rw [hpd]
      exact softMin_le hγ ((hS p).2 hp)

/-- Non-increasing in `gamma`. -/
theorem C18_antitone (be : Backend) (x y : List (List ℝ)) (hx : x ≠ []) (hy : y ≠ []) (γ γ' : ℝ)
    (hγ : 0 < γ) (h : γ ≤ γ') (gc : ℕ) (radius : Option ℕ) (slope : Option ℚ)
    (hs : ∀ s, slope = some s → 1 ≤ s) (v : Fl) (hv : softDtwGeneric be x y γ gc radius slope = .ok v) :
    ∃ a a' : ℝ, v = .num a ∧ softDtwGeneric be x y γ' gc radius slope = .ok (.num a') ∧ a' ≤ a := by
  have hx' := List.length_pos_iff.2 hx
  have hy' := List.length_pos_iff.2 hy
  obtain ⟨mask, hmask⟩ := computeMask_of_soft hv
  obtain ⟨S, hS⟩ := C17_paths_finite _ _ hx' hy' mask
  obtain ⟨hr, q, hq⟩ := computeMask_reachable hx' hy' hs hmask
  rw [softDtwGeneric_softMin be hx hy hγ hs hmask hS] at hv
  refine ⟨_, _, (Except.ok.inj hv).symm, softDtwGeneric_softMin be hx hy (hγ.trans_le h) hs hmask hS, ?_⟩
  exact softMin_anti hγ h ⟨q, (hS q).2 hq⟩

/-- The limit for vanishing `gamma` is the squared DTW, the value of the `gamma = 0` branch. -/
theorem C18_limit (be : Backend) (x y : List (List ℝ)) (hx : x ≠ []) (hy : y ≠ []) (gc : ℕ)
    (radius : Option ℕ) (slope : Option ℚ) (hs : ∀ s, slope = some s → 1 ≤ s) (d : WithTop ℝ)
    (hd : dtwSqGeneric x y gc radius slope = .ok d) :
    ∃ (f : ℝ → ℝ) (d' : ℝ), d = d' ∧
      (∀ γ > 0, softDtwGeneric be x y γ gc radius slope = .ok (.num (f γ))) ∧
      Filter.Tendsto f (nhdsWithin 0 (Set.Ioi 0)) (nhds d') := by
  have hx' := List.length_pos_iff.2 hx
  have hy' := List.length_pos_iff.2 hy
  cases hm : computeMask x.length y.length gc radius slope with
  | error e => simp [dtwSqGeneric, hm, bind, Except.bind] at hd
  | ok mask =>
    obtain ⟨S, hS⟩ := C17_paths_finite _ _ hx' hy' mask
    obtain ⟨v0, d0, -, h0, -, -⟩ := C18_bracket be x y hx hy 1 one_pos gc radius slope hs mask hm S hS
    rw [h0] at hd
    refine ⟨softMin S (sumCost (sampleCost x y)), d0, (Except.ok.inj hd).symm,
      fun γ hγ => softDtwGeneric_softMin be hx hy hγ hs hm hS, ?_⟩
    have hb : ∀ γ > 0, d0 - γ * Real.log S.card ≤ softMin S (sumCost (sampleCost x y)) γ ∧
        softMin S (sumCost (sampleCost x y)) γ ≤ d0 := by
      intro γ hγ
      obtain ⟨v, d1, h1, h2, h3, h4⟩ := C18_bracket be x y hx hy γ hγ gc radius slope hs mask hm S hS
      rw [softDtwGeneric_softMin be hx hy hγ hs hm hS] at h1
      rw [h0] at h2
      have e1 : softMin S (sumCost (sampleCost x y)) γ = v := by simpa using h1
      have e2 : d0 = d1 := by simpa using h2
      rw [e1, e2]
      exact ⟨h3, h4⟩
    refine tendsto_of_tendsto_of_tendsto_of_le_of_le' (g := fun γ => d0 - γ * Real.log S.card)
      (h := fun _ => d0) ?_ tendsto_const_nhds ?_ ?_
    · have : Filter.Tendsto (fun γ : ℝ => d0 - γ * Real.log S.card) (nhds 0)
          (nhds (d0 - 0 * Real.log S.card)) :=
        (Continuous.tendsto (by fun_prop) 0)
      rw [zero_mul, sub_zero] at this
      exact this.mono_left nhdsWithin_le_nhds
    · filter_upwards [self_mem_nhdsWithin] with γ hγ using (hb γ hγ).1
    · filter_upwards [self_mem_nhdsWithin] with γ hγ using (hb γ hγ).2

/-- Swapping the series and transposing the mask. -/
theorem softMin_transpose {x y : List (List ℝ)} {mask mask' : Mat Bool}
    (hm : ∀ i < x.length, ∀ j < y.length, mask' j i = mask i j) {S T : Finset (List (ℕ × ℕ))}
    (hS : ∀ p, p ∈ S ↔ Admissible x.length y.length mask p)
    (hT : ∀ p, p ∈ T ↔ Admissible y.length x.length mask' p) (γ : ℝ) :
    softMin S (sumCost (sampleCost x y)) γ = softMin T (sumCost (sampleCost y x)) γ := by
  have key : ∀ {n m : ℕ} {mask mask' : Mat Bool}, (∀ i < n, ∀ j < m, mask' j i = mask i j) →
      ∀ p, Admissible n m mask p → Admissible m n mask' (p.map Prod.swap) := by
    rintro n m mask mask' hm p ⟨hp, hin⟩
    refine ⟨hp.swap, ?_⟩
    intro c hc
    simp only [List.mem_map] at hc
    obtain ⟨c, hc, rfl⟩ := hc
    have hlt := hp.mem_lt c hc
    rw [Prod.fst_swap, Prod.snd_swap, hm _ hlt.1 _ hlt.2]
    exact hin c hc
  have inv : ∀ p : List (ℕ × ℕ), (p.map Prod.swap).map Prod.swap = p := by
    intro p; simp [List.map_map]
  refine softMin_bij γ (fun p => p.map Prod.swap) (fun p => p.map Prod.swap) ?_ ?_
    (fun p _ => inv p) (fun p _ => inv p) ?_
  · intro p hp
    exact (hT _).2 (key hm p ((hS p).1 hp))
  · intro p hp
    exact (hS _).2 (key (fun j hj i hi => (hm i hi j hj).symm) p ((hT p).1 hp))
  · intro p _
    show sumCost (sampleCost x y) p = sumCost (sampleCost y x) (p.map Prod.swap)
    rw [← sampleCost_swap x y, sumCost_swap]

/-- Symmetry without constraint and with a Sakoe-Chiba band of any radius. -/
theorem C18_symm (be : Backend) (x y : List (List ℝ)) (hx : x ≠ []) (hy : y ≠ []) (γ : ℝ)
    (hγ : 0 < γ) (radius : Option ℕ) :
    softDtwGeneric be x y γ 0 radius none = softDtwGeneric be y x γ 0 radius none ∧
    softDtwGeneric be x y γ 2 radius none = softDtwGeneric be y x γ 2 radius none := by
  have hx' := List.length_pos_iff.2 hx
  have hy' := List.length_pos_iff.2 hy
  have main : ∀ (gc : ℕ) (mask mask' : Mat Bool),
      computeMask x.length y.length gc radius none = .ok mask →
      computeMask y.length x.length gc radius none = .ok mask' →
      (∀ i < x.length, ∀ j < y.length, mask' j i = mask i j) →
      softDtwGeneric be x y γ gc radius none = softDtwGeneric be y x γ gc radius none := by
    intro gc mask mask' h1 h2 h3
    obtain ⟨S, hS⟩ := C17_paths_finite _ _ hx' hy' mask
    obtain ⟨T, hT⟩ := C17_paths_finite _ _ hy' hx' mask'
    rw [softDtwGeneric_softMin be hx hy hγ (by simp) h1 hS,
      softDtwGeneric_softMin be hy hx hγ (by simp) h2 hT, softMin_transpose h3 hS hT]
  have hband : ∀ r, ∀ i < x.length, ∀ j < y.length,
      sakoeChibaMask y.length x.length r j i = sakoeChibaMask x.length y.length r i j := by
    intro r i hi j hj
    rw [Bool.eq_iff_iff, sakoeChibaMask_iff _ _ _ _ _ hi hj, sakoeChibaMask_iff _ _ _ _ _ hj hi]
    unfold InBand
    omega
  constructor
  · cases radius with
    | none => exact main 0 (Mat.full true) (Mat.full true) rfl rfl fun _ _ _ _ => rfl
    | some r => exact main 0 _ _ rfl rfl (hband r)
  · exact main 2 _ _ rfl rfl (hband _)

/-- The normalised variant vanishes on identical series and is symmetric (no constraint or band). -/
theorem C18_normalized (be : Backend) (x y : List (List ℝ)) (hx : x ≠ []) (hy : y ≠ []) (γ : ℝ)
    (hγ : 0 < γ) (radius : Option ℕ) :
    softDtwNormalizedGeneric be x x γ 0 radius none = .ok (.num 0) ∧
    softDtwNormalizedGeneric be x y γ 0 radius none =
      softDtwNormalizedGeneric be y x γ 0 radius none ∧
    softDtwNormalizedGeneric be x x γ 2 radius none = .ok (.num 0) ∧
    softDtwNormalizedGeneric be x y γ 2 radius none =
      softDtwNormalizedGeneric be y x γ 2 radius none := by
  have val : ∀ (gc : ℕ), (gc = 0 ∨ gc = 2) → ∀ {u v : List (List ℝ)}, u ≠ [] → v ≠ [] →
      ∃ a : ℝ, softDtwGeneric be u v γ gc radius none = .ok (.num a) := by
    intro gc hgc u v hu hv
    have hu' := List.length_pos_iff.2 hu
    have hv' := List.length_pos_iff.2 hv
    obtain ⟨mask, hmask⟩ : ∃ mask, computeMask u.length v.length gc radius none = .ok mask := by
      rcases hgc with rfl | rfl <;> cases radius <;> exact ⟨_, rfl⟩
    obtain ⟨S, hS⟩ := C17_paths_finite _ _ hu' hv' mask
    exact ⟨_, softDtwGeneric_softMin be hu hv hγ (by simp) hmask hS⟩
  have self : ∀ gc, (gc = 0 ∨ gc = 2) → softDtwNormalizedGeneric be x x γ gc radius none = .ok (.num 0) := by
    intro gc hgc
    obtain ⟨a, ha⟩ := val gc hgc hx hx
    simp only [softDtwNormalizedGeneric, ha, bind, Except.bind, pure, Except.pure, num_add_num,
      Fl.scale, Fl.sub, Fl.neg]
    congr 2
    ring
  have symm : ∀ gc, (gc = 0 ∨ gc = 2) →
      softDtwGeneric be x y γ gc radius none = softDtwGeneric be y x γ gc radius none →
      softDtwNormalizedGeneric be x y γ gc radius none =
        softDtwNormalizedGeneric be y x γ gc radius none := by
    intro gc hgc h
    obtain ⟨a, ha⟩ := val gc hgc hx hx
    obtain ⟨b, hb⟩ := val gc hgc hy hy
    simp only [softDtwNormalizedGeneric, h, ha, hb, bind, Except.bind, pure, Except.pure, num_add_num]
    rw [add_comm]
  obtain ⟨h0, h2⟩ := C18_symm be x y hx hy γ hγ radius
  exact ⟨self 0 (.inl rfl), symm 0 (.inl rfl) h0, self 2 (.inr rfl), symm 2 (.inr rfl) h2⟩

/-! Concrete instances: the hypotheses are met and the bracket is strict. Two constant series of
length 2: three paths of cost 0, so `-2 log 3 = soft_dtw < dtw² = 0`. -/

example : (∀ p, p ∈ pathsB (Mat.full true) 2 2 ↔ Admissible 2 2 (Mat.full true) p) ∧
    (pathsB (Mat.full true) 2 2).card = 3 ∧
    computeMask 2 2 0 none none = .ok (Mat.full true) := by
  refine ⟨fun p => mem_pathsB_admissible (by omega) (by omega), ?_, rfl⟩
  have : pathsB (Mat.full true) 2 2 =
      {[(0, 0), (0, 1), (1, 1)], [(0, 0), (1, 0), (1, 1)], [(0, 0), (1, 1)]} := by
    simp [pathsB, Mat.full]
  rw [this]
  decide

example : ∃ v : ℝ, softDtwGeneric .numpy [[5], [5]] [[5], [5]] 2 0 none none = .ok (.num v) ∧
    -(2 * Real.log 3) ≤ v ∧ v < 0 ∧ dtwSqGeneric ([[5], [5]] : List (List ℝ)) [[5], [5]] 0 none none = .ok 0 := by
  have hS : ∀ p, p ∈ pathsB (Mat.full true) 2 2 ↔ Admissible 2 2 (Mat.full true) p :=
    fun p => mem_pathsB_admissible (by omega) (by omega)
  have e : pathsB (Mat.full true) 2 2 =
      {[(0, 0), (0, 1), (1, 1)], [(0, 0), (1, 0), (1, 1)], [(0, 0), (1, 1)]} := by
    simp [pathsB, Mat.full]
  have h := C17_softmin .numpy [[5], [5]] [[5], [5]] (by simp) (by simp) 2 (by norm_num) 0 none none
    (by simp) (Mat.full true) rfl _ hS
  rw [e, Finset.sum_insert (by decide), Finset.sum_insert (by decide), Finset.sum_singleton] at h
  have h3 : (0 : ℝ) < Real.log 3 := Real.log_pos (by norm_num)
  refine ⟨-2 * Real.log 3, ?_, by linarith, by linarith, ?_⟩
  · rw [h]
    simp [sumCost, sampleCost, sqEuclid]
    norm_num
  · obtain ⟨v, d, h1, h2, h4, h5⟩ := C18_bracket .numpy [[5], [5]] [[5], [5]] (by simp) (by simp) 2
      (by norm_num) 0 none none (by simp) (Mat.full true) rfl _ hS
    rw [h2]
    obtain ⟨w, hw, -, hl⟩ := C01_dtw_squared ([[5], [5]] : List (List ℝ)) [[5], [5]] (by simp)
      (by simp) 0 none none (Mat.full true) rfl
    rw [h2] at hw
    have := (hl d).1 (Except.ok.inj hw).symm
    obtain ⟨⟨p, -, hp⟩, hlb⟩ := this
    have hnn : 0 ≤ d := by rw [hp]; exact sumCost_nonneg (sampleCost_nonneg _ _) p
    have hz : d ≤ 0 := hlb ⟨[(0, 0), (1, 1)], (hS _).1 (by rw [e]; simp), by
      simp [sumCost, sampleCost, sqEuclid]⟩
    rw [le_antisymm hz hnn]
    rfl

end Verif
