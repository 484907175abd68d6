import Verif.Proofs.Reverse
import Mathlib.Tactic.IntervalCases
/-!
# C88 — Symmetries of the elastic metrics: reading time backwards, moving and rescaling the samples
-/
set_option linter.unusedSectionVars false
namespace Verif
open Spec

/-- Every accepted global constraint (Itakura slope at least 1) reads the same from both ends: a cell
is allowed exactly when the cell counted from the end of both series is. The rounding of the Itakura
bounds to two decimals does not break this. -/
theorem C88_constraints_symmetric (n m : ℕ) (hn : 0 < n) (hm : 0 < m) (gc : ℕ) (radius : Option ℕ)
    (slope : Option ℚ) (hs : ∀ s, slope = some s → 1 ≤ s) (mask : Mat Bool)
    (h : computeMask n m gc radius slope = .ok mask) (i j : ℕ) (hi : i < n) (hj : j < m) :
    mask (n - 1 - i) (m - 1 - j) = mask i j :=
  computeMask_pointSymm hn hm hs h i hi j hj

/-- An Itakura mask where rounding matters: 5 and 9 samples, slope 2, allows (1, 1), (3, 7) and neither
(1, 4) nor (3, 4). -/
example : (match computeMask 5 9 1 none (some 2) with
      | .ok M => some (M 1 1, M 3 7, M 1 4, M 3 4)
      | .error _ => none) = some (true, true, false, false) := by decide +kernel

section
variable {K : Type} [CommRing K] [LinearOrder K] [IsStrictOrderedRing K]

/-- DTW does not change when both series are read backwards, under every accepted constraint. -/
theorem C88_dtw_reverse (x y : List (List K)) (hx : x ≠ []) (hy : y ≠ []) (gc : ℕ) (radius : Option ℕ)
    (slope : Option ℚ) (hs : ∀ s, slope = some s → 1 ≤ s) :
    dtwSqGeneric x.reverse y.reverse gc radius slope = dtwSqGeneric x y gc radius slope := by
  rw [dtwSq_of_image hx hy (by simp) (by simp) gc radius slope id monotone_id]
  · cases dtwSqGeneric x y gc radius slope with
    | error e => rfl
    | ok v => cases v <;> rfl
  · intro mask hm
    have hP := computeMask_pointSymm (List.length_pos_iff.2 hx) (List.length_pos_iff.2 hy) hs hm
    rw [Set.image_id]
    ext c
    constructor
    · rintro ⟨p, hp, rfl⟩
      refine ⟨_, revPath_admissible hP hp, ?_⟩
      have := sumCost_revPath x y (revPath_admissible hP hp).1
      rwa [revPath_revPath hp.1] at this
    · rintro ⟨p, hp, rfl⟩
      exact ⟨_, revPath_admissible hP hp, (sumCost_revPath x y hp.1).symm⟩

/-- The Fréchet distance does not change either. -/
theorem C88_frechet_reverse (x y : List (List K)) (hx : x ≠ []) (hy : y ≠ []) (gc : ℕ)
    (radius : Option ℕ) (slope : Option ℚ) (hs : ∀ s, slope = some s → 1 ≤ s) :
    frechetSqGeneric x.reverse y.reverse gc radius slope = frechetSqGeneric x y gc radius slope := by
  rw [frechetSq_of_image hx hy (by simp) (by simp) gc radius slope id monotone_id]
  · cases frechetSqGeneric x y gc radius slope with
    | error e => rfl
    | ok v => cases v <;> rfl
  · intro mask hm
    have hP := computeMask_pointSymm (List.length_pos_iff.2 hx) (List.length_pos_iff.2 hy) hs hm
    rw [Set.image_id]
    ext c
    constructor
    · rintro ⟨p, hp, hc⟩
      refine ⟨_, revPath_admissible hP hp, ?_⟩
      have := isMaxCost_revPath x y (revPath_admissible hP hp).1 c
      rw [revPath_revPath hp.1] at this
      exact this.1 hc
    · rintro ⟨p, hp, hc⟩
      exact ⟨_, revPath_admissible hP hp, (isMaxCost_revPath x y hp.1 c).2 hc⟩

/-- Moving and rescaling the samples by a similarity (squared distances multiplied by `k`) multiplies
squared DTW and squared Fréchet by `k`, under every constraint; errors stay the same. -/
theorem C88_similarity (T : List K → List K) (k : K) (hk : 0 ≤ k) (x y : List (List K)) (hx : x ≠ [])
    (hy : y ≠ []) (hT : ∀ u ∈ x, ∀ v ∈ y, sqEuclid (T u) (T v) = k * sqEuclid u v) (gc : ℕ)
    (radius : Option ℕ) (slope : Option ℚ) :
    dtwSqGeneric (x.map T) (y.map T) gc radius slope =
      (dtwSqGeneric x y gc radius slope).map (WithTop.map (k * ·)) ∧
    frechetSqGeneric (x.map T) (y.map T) gc radius slope =
      (frechetSqGeneric x y gc radius slope).map (WithTop.map (k * ·)) := by
  have hmono : Monotone (k * ·) := fun a b h => mul_le_mul_of_nonneg_left h hk
  have hcell : ∀ i < x.length, ∀ j < y.length,
      sampleCost (x.map T) (y.map T) i j = k * sampleCost x y i j := by
    intro i hi j hj
    simp only [sampleCost, List.getD_eq_getElem?_getD, List.getElem?_map, List.getElem?_eq_getElem hi,
      List.getElem?_eq_getElem hj, Option.map_some, Option.getD_some]
    exact hT _ (List.getElem_mem hi) _ (List.getElem_mem hj)
  refine ⟨dtwSq_of_image hx hy (by simp) (by simp) gc radius slope _ hmono fun mask hm => ?_,
    frechetSq_of_image hx hy (by simp) (by simp) gc radius slope _ hmono fun mask hm => ?_⟩
  · have hsum : ∀ p, Admissible x.length y.length mask p →
        sumCost (sampleCost (x.map T) (y.map T)) p = k * sumCost (sampleCost x y) p := by
      intro p hp
      unfold sumCost
      rw [← List.sum_map_mul_left]
      congr 1
      refine List.map_congr_left fun c hc => ?_
      have := hp.1.lt c hc
      exact hcell _ this.1 _ this.2
    ext c
    constructor
    · rintro ⟨p, hp, rfl⟩
      exact ⟨_, ⟨p, hp, rfl⟩, (hsum p hp).symm⟩
    · rintro ⟨_, ⟨p, hp, rfl⟩, rfl⟩
      exact ⟨p, hp, (hsum p hp).symm⟩
  · ext c
    constructor
    · rintro ⟨p, hp, ⟨d, hd, rfl⟩, hle⟩
      have hd' := hp.1.lt d hd
      -- the largest cost of the original samples along the same path
      obtain ⟨e, he, hmax⟩ := Finset.exists_max_image p.toFinset (fun c => sampleCost x y c.1 c.2)
        ⟨d, List.mem_toFinset.2 hd⟩
      rw [List.mem_toFinset] at he
      have he' := hp.1.lt e he
      refine ⟨sampleCost x y e.1 e.2, ⟨p, hp, ⟨e, he, rfl⟩, fun c hc => hmax c (List.mem_toFinset.2 hc)⟩, ?_⟩
      have h1 := hle e he
      rw [hcell _ he'.1 _ he'.2, hcell _ hd'.1 _ hd'.2] at h1
      rw [hcell _ hd'.1 _ hd'.2]
      exact le_antisymm h1 (hmono (hmax d (List.mem_toFinset.2 hd)))
    · rintro ⟨_, ⟨p, hp, ⟨d, hd, rfl⟩, hle⟩, rfl⟩
      have hd' := hp.1.lt d hd
      refine ⟨p, hp, ⟨d, hd, hcell _ hd'.1 _ hd'.2⟩, fun c hc => ?_⟩
      have hc' := hp.1.lt c hc
      rw [hcell _ hc'.1 _ hc'.2]
      exact hmono (hle c hc)

/-- Adding one vector to every sample of both series is a similarity of ratio 1. -/
theorem C88_translation (t u v : List K) (hu : u.length ≤ t.length) (hv : v.length ≤ t.length) :
    sqEuclid (List.zipWith (· + ·) u t) (List.zipWith (· + ·) v t) = sqEuclid u v := by
  induction t generalizing u v with
  | nil => simp at hu hv; subst hu hv; rfl
  | cons a t ih =>
    cases u with
    | nil => simp [sqEuclid]
    | cons b u =>
      cases v with
      | nil => simp [sqEuclid]
      | cons c v =>
        have := ih u v (by simpa using hu) (by simpa using hv)
        simp only [sqEuclid, List.zipWith_cons_cons, List.zip_cons_cons, List.map_cons, List.sum_cons] at this ⊢
        rw [this]
        congr 1
        ring

/-- Multiplying every sample by `a` is a similarity of ratio `a²`. -/
theorem C88_scaling (a : K) (u v : List K) :
    sqEuclid (u.map (a * ·)) (v.map (a * ·)) = a ^ 2 * sqEuclid u v := by
  unfold sqEuclid
  rw [List.zip_map, List.map_map, ← List.sum_map_mul_left]
  congr 1
  refine List.map_congr_left fun c _ => ?_
  simp only [Function.comp, Prod.map]
  ring

/-- Rereading the features in another order (`σ` a bijection of the feature indices) is a similarity
of ratio 1. -/
theorem C88_feature_order (d : ℕ) (σ : Equiv.Perm (Fin d)) (u v : Fin d → K) :
    sqEuclid (List.ofFn (u ∘ σ)) (List.ofFn (v ∘ σ)) = sqEuclid (List.ofFn u) (List.ofFn v) := by
  have key : ∀ f g : Fin d → K, sqEuclid (List.ofFn f) (List.ofFn g) = ∑ i, (f i - g i) ^ 2 := by
    intro f g
    unfold sqEuclid
    have : (List.ofFn f).zip (List.ofFn g) = List.ofFn fun i => (f i, g i) := by
      apply List.ext_getElem <;> simp
    rw [this, List.map_ofFn, List.sum_ofFn]
    rfl
  rw [key, key]
  exact Equiv.sum_comp σ fun i => (u i - v i) ^ 2

end

/-- Two series of two features, read backwards in a band; the squared
value moves from 4 to 36 when both are tripled. -/
example : dtwSqGeneric ([[0, 1], [3, 1], [1, 0]] : List (List ℤ)) [[1, 1], [2, 0], [0, 0]] 2 (some 1) none
      = .ok ((4 : ℤ) : WithTop ℤ) ∧
    dtwSqGeneric ([[1, 0], [3, 1], [0, 1]] : List (List ℤ)) [[0, 0], [2, 0], [1, 1]] 2 (some 1) none
      = .ok ((4 : ℤ) : WithTop ℤ) ∧
    dtwSqGeneric ([[0, 3], [9, 3], [3, 0]] : List (List ℤ)) [[3, 3], [6, 0], [0, 0]] 2 (some 1) none
      = .ok ((36 : ℤ) : WithTop ℤ) := by
  refine ⟨?_, ?_, ?_⟩ <;> decide +kernel

/-- `dtw` on the samples as given to the public function. -/
theorem C88_dtw (s1 s2 r1 r2 : TsInput (Option ℝ)) (g : Option String) (radius : Option ℕ)
    (slope : Option ℚ) (hs : ∀ s, slope = some s → 1 ≤ s) (x y : List (List ℝ)) (code : ℕ)
    (hv : validatePair s1 s2 g = .ok (x, y, code))
    (hr : validatePair r1 r2 g = .ok (x.reverse, y.reverse, code)) :
    dtw r1 r2 g radius slope = dtw s1 s2 g radius slope := by
  obtain ⟨-, -, -, hx, hy, -⟩ := validatePair_ok hv
  simp only [dtw, dtwSq, hv, hr, bind, Except.bind]
  rw [C88_dtw_reverse x y hx hy code radius slope hs]

/-- Soft-DTW does not change when both series are read backwards, on either backend. -/
theorem C88_soft_dtw_reverse (be : Backend) (x y : List (List ℝ)) (hx : x ≠ []) (hy : y ≠ []) (γ : ℝ)
    (hγ : 0 < γ) (gc : ℕ) (radius : Option ℕ) (slope : Option ℚ) (hs : ∀ s, slope = some s → 1 ≤ s) :
    softDtwGeneric be x.reverse y.reverse γ gc radius slope = softDtwGeneric be x y γ gc radius slope := by
  have hx' := List.length_pos_iff.2 hx
  have hy' := List.length_pos_iff.2 hy
  cases hm : computeMask x.length y.length gc radius slope with
  | error e => simp [softDtwGeneric, hm, bind, Except.bind]
  | ok mask =>
    have hP := computeMask_pointSymm hx' hy' hs hm
    obtain ⟨S, hS⟩ := C17_paths_finite x.length y.length hx' hy' mask
    rw [C17_softmin be x y hx hy γ hγ gc radius slope hs mask hm S hS,
      C17_softmin be x.reverse y.reverse (by simpa using hx) (by simpa using hy) γ hγ gc radius slope hs mask
        (by simpa using hm) S (by simpa using hS)]
    have e : ∑ p ∈ S, Real.exp (-sumCost (sampleCost x y) p / γ) =
        ∑ p ∈ S, Real.exp (-sumCost (sampleCost x.reverse y.reverse) p / γ) := ?_
    · rw [e]
    refine Finset.sum_nbij' (revPath x.length y.length) (revPath x.length y.length) ?_ ?_ ?_ ?_ ?_
    · exact fun p hp => (hS _).2 (revPath_admissible hP ((hS p).1 hp))
    · exact fun p hp => (hS _).2 (revPath_admissible hP ((hS p).1 hp))
    · exact fun p hp => revPath_revPath ((hS p).1 hp).1
    · exact fun p hp => revPath_revPath ((hS p).1 hp).1
    · intro p hp
      rw [sumCost_revPath x y ((hS p).1 hp).1]

/-- Soft-DTW of samples moved and rescaled by a similarity of ratio `k > 0`, with `γ` rescaled as
well, is `k` times the soft-DTW of the samples. -/
theorem C88_soft_dtw_similarity (be : Backend) (T : List ℝ → List ℝ) (k : ℝ) (hk : 0 < k)
    (x y : List (List ℝ)) (hx : x ≠ []) (hy : y ≠ [])
    (hT : ∀ u ∈ x, ∀ v ∈ y, sqEuclid (T u) (T v) = k * sqEuclid u v) (γ : ℝ)
    (hγ : 0 < γ) (gc : ℕ) (radius : Option ℕ) (slope : Option ℚ) (hs : ∀ s, slope = some s → 1 ≤ s)
    (w : ℝ) (h : softDtwGeneric be x y γ gc radius slope = .ok (.num w)) :
    softDtwGeneric be (x.map T) (y.map T) (k * γ) gc radius slope = .ok (.num (k * w)) := by
  have hx' := List.length_pos_iff.2 hx
  have hy' := List.length_pos_iff.2 hy
  cases hm : computeMask x.length y.length gc radius slope with
  | error e => simp [softDtwGeneric, hm, bind, Except.bind] at h
  | ok mask =>
    obtain ⟨S, hS⟩ := C17_paths_finite x.length y.length hx' hy' mask
    rw [C17_softmin be x y hx hy γ hγ gc radius slope hs mask hm S hS] at h
    rw [C17_softmin be (x.map T) (y.map T) (by simpa using hx) (by simpa using hy) (k * γ) (by positivity)
      gc radius slope hs mask (by simpa using hm) S (by simpa using hS)]
    simp only [Except.ok.injEq, Fl.num.injEq] at h ⊢
    rw [← h]
    have : ∀ p ∈ S, Real.exp (-sumCost (sampleCost (x.map T) (y.map T)) p / (k * γ)) =
        Real.exp (-sumCost (sampleCost x y) p / γ) := by
      intro p hp
      have hsum : sumCost (sampleCost (x.map T) (y.map T)) p = k * sumCost (sampleCost x y) p := by
        unfold sumCost
        rw [← List.sum_map_mul_left]
        congr 1
        refine List.map_congr_left fun c hc => ?_
        have hlt := ((hS p).1 hp).1.lt c hc
        simp only [sampleCost, List.getD_eq_getElem?_getD, List.getElem?_map,
          List.getElem?_eq_getElem hlt.1, List.getElem?_eq_getElem hlt.2, Option.map_some, Option.getD_some]
        exact hT _ (List.getElem_mem hlt.1) _ (List.getElem_mem hlt.2)
      rw [hsum]
      congr 1
      field_simp
    rw [Finset.sum_congr rfl this]
    ring

/-- The global alignment kernel, unnormalised and normalised, does not change when both series are
read backwards. -/
theorem C88_gak_reverse (x y : List (List ℝ)) (hx : x ≠ []) (hy : y ≠ []) (σ : ℝ) :
    unnormGak x.reverse y.reverse σ = unnormGak x y σ ∧
      gakGeneric x.reverse y.reverse σ = gakGeneric x y σ := by
  have key : ∀ x y : List (List ℝ), x ≠ [] → y ≠ [] → unnormGak x.reverse y.reverse σ = unnormGak x y σ := by
    intro x y hx hy
    have hx' := List.length_pos_iff.2 hx
    have hy' := List.length_pos_iff.2 hy
    obtain ⟨S, hS'⟩ := C17_paths_finite x.length y.length hx' hy' (Mat.full true)
    have hS : ∀ p, p ∈ S ↔ IsWarpingPath x.length y.length p := by
      intro p
      rw [hS']
      exact ⟨fun h => h.1, fun h => ⟨h, fun _ _ => rfl⟩⟩
    rw [unnormGak_eq_sum hx hy σ hS, unnormGak_eq_sum (x := x.reverse) (y := y.reverse) (by simpa using hx)
      (by simpa using hy) σ (S := S) (by simpa using hS)]
    symm
    refine Finset.sum_nbij' (revPath x.length y.length) (revPath x.length y.length) ?_ ?_ ?_ ?_ ?_
    · exact fun p hp => (hS _).2 (revPath_isWarpingPath ((hS p).1 hp))
    · exact fun p hp => (hS _).2 (revPath_isWarpingPath ((hS p).1 hp))
    · exact fun p hp => revPath_revPath ((hS p).1 hp)
    · exact fun p hp => revPath_revPath ((hS p).1 hp)
    · intro p hp
      unfold alignmentKernel revPath
      rw [List.map_reverse, List.prod_reverse, List.map_map]
      congr 1
      refine List.map_congr_left fun c hc => ?_
      have := ((hS p).1 hp).lt c hc
      simp only [localKernel, Function.comp, revCell, getD_reverse x [] this.1, getD_reverse y [] this.2]
  refine ⟨key x y hx hy, ?_⟩
  unfold gakGeneric
  simp only [key x y hx hy, key x x hx hx, key y y hy hy]

/-- The kernel of samples moved and rescaled by a similarity of ratio `r²`, with `σ` rescaled by `r`, is
the kernel of the samples. -/
theorem C88_gak_similarity (T : List ℝ → List ℝ) (r : ℝ) (hr : r ≠ 0) (x y : List (List ℝ)) (hx : x ≠ [])
    (hy : y ≠ []) (hT : ∀ u ∈ x ++ y, ∀ v ∈ x ++ y, sqEuclid (T u) (T v) = r ^ 2 * sqEuclid u v) (σ : ℝ) :
    unnormGak (x.map T) (y.map T) (r * σ) = unnormGak x y σ ∧
      gakGeneric (x.map T) (y.map T) (r * σ) = gakGeneric x y σ := by
  have key : ∀ x y : List (List ℝ), x ≠ [] → y ≠ [] →
      (∀ u ∈ x, ∀ v ∈ y, sqEuclid (T u) (T v) = r ^ 2 * sqEuclid u v) →
      unnormGak (x.map T) (y.map T) (r * σ) = unnormGak x y σ := by
    intro x y hx hy hT
    obtain ⟨S, hS'⟩ := C17_paths_finite x.length y.length (List.length_pos_iff.2 hx)
      (List.length_pos_iff.2 hy) (Mat.full true)
    have hS : ∀ p, p ∈ S ↔ IsWarpingPath x.length y.length p := by
      intro p
      rw [hS']
      exact ⟨fun h => h.1, fun h => ⟨h, fun _ _ => rfl⟩⟩
    rw [unnormGak_eq_sum hx hy σ hS, unnormGak_eq_sum (x := x.map T) (y := y.map T) (by simpa using hx)
      (by simpa using hy) (r * σ) (S := S) (by simpa using hS)]
    refine Finset.sum_congr rfl fun p hp => ?_
    unfold alignmentKernel
    congr 1
    refine List.map_congr_left fun c hc => ?_
    have hlt := ((hS p).1 hp).lt c hc
    simp only [localKernel, gaussian, List.getD_eq_getElem?_getD, List.getElem?_map,
      List.getElem?_eq_getElem hlt.1, List.getElem?_eq_getElem hlt.2, Option.map_some, Option.getD_some]
    rw [hT _ (List.getElem_mem hlt.1) _ (List.getElem_mem hlt.2)]
    have : ∀ q : ℝ, -(r ^ 2 * q) / (2 * (r * σ) ^ 2) = -q / (2 * σ ^ 2) := by
      intro q
      by_cases hσ : σ = 0
      · simp [hσ]
      · field_simp
    rw [this]
  have h1 := key x y hx hy fun u hu v hv => hT u (by simp [hu]) v (by simp [hv])
  have h2 := key x x hx hx fun u hu v hv => hT u (by simp [hu]) v (by simp [hv])
  have h3 := key y y hy hy fun u hu v hv => hT u (by simp [hu]) v (by simp [hv])
  refine ⟨h1, ?_⟩
  unfold gakGeneric
  simp only [h1, h2, h3]

/-- Without constraint, or in a band that is not a bare diagonal, LCSS does not change when both
series are read backwards. Missing: a band of radius 0 on series of equal lengths and the Itakura
constraint, where the claim is false (`C88_false_lcss_radius_zero`, `C88_false_lcss_itakura`). -/
theorem C88_lcss_reverse_partial (s1 s2 r1 r2 : TsInput (Option ℝ)) (eps : ℝ) (x y : List (List ℝ))
    (mask mask' : Mat Bool) (g : Option String) (radius : Option ℕ) (hg : g = none ∨ g = some "sakoe_chiba")
    (hrad : g = none ∨ radius.isSome)
    (h : lcssArgs s1 s2 g radius none = .ok (x, y, mask))
    (h' : lcssArgs r1 r2 g radius none = .ok (x.reverse, y.reverse, mask'))
    (hr : ∀ r, radius = some r → 1 ≤ r ∨ x.length ≠ y.length) :
    lcss r1 r2 eps g radius none = lcss s1 s2 eps g radius none := by
  have sizes : ∀ (n m : ℕ) (P Q : ℕ → ℕ → Prop),
      (∀ i < n, ∀ j < m, P i j → Q (n - 1 - i) (m - 1 - j)) → MatchingSizes n m P ⊆ MatchingSizes n m Q := by
    rintro n m P Q hPQ k ⟨p, hp, rfl⟩
    refine ⟨revPath n m p, ⟨?_, ?_, ?_⟩, by simp [revPath]⟩
    · unfold revPath
      rw [List.pairwise_reverse, List.pairwise_map]
      refine hp.incr.imp_of_mem fun {a b} ha hb hab => ?_
      have h1 := hp.inside a ha
      have h2 := hp.inside b hb
      simp only [revCell]
      omega
    · intro c hc
      obtain ⟨d, hd, rfl⟩ : ∃ d ∈ p, revCell n m d = c := by simpa [revPath] using hc
      have := hp.inside d hd
      simp only [revCell]
      omega
    · intro c hc
      obtain ⟨d, hd, rfl⟩ : ∃ d ∈ p, revCell n m d = c := by simpa [revPath] using hc
      have := hp.inside d hd
      exact hPQ _ this.1 _ this.2 (hp.hits d hd)
  have close : ∀ (x y : List (List ℝ)) (i j : ℕ), i < x.length → j < y.length →
      (Close x.reverse y.reverse eps (x.length - 1 - i) (y.length - 1 - j) ↔ Close x y eps i j) := by
    intro x y i j hi hj
    unfold Close
    rw [sampleCost_reverse x y hi hj]
  have close' : ∀ i j, i < x.length → j < y.length → Close x.reverse y.reverse eps i j →
      Close x y eps (x.length - 1 - i) (y.length - 1 - j) := by
    intro i j hi hj hc
    rw [← close x y _ _ (by omega) (by omega)]
    rwa [show x.length - 1 - (x.length - 1 - i) = i by omega,
      show y.length - 1 - (y.length - 1 - j) = j by omega]
  cases radius with
  | none =>
    obtain rfl : g = none := by simpa using hrad
    obtain ⟨k, hk, e⟩ := C15_value s1 s2 eps x y mask h
    obtain ⟨k', hk', e'⟩ := C15_value r1 r2 eps _ _ mask' h'
    rw [e, e']
    simp only [List.length_reverse] at hk' ⊢
    have : k' = k := by
      refine le_antisymm (hk.2 (sizes _ _ _ _ ?_ hk'.1)) (hk'.2 (sizes _ _ _ _ ?_ hk.1))
      · exact fun i hi j hj hc => close' i j hi hj hc
      · exact fun i hi j hj hc => (close x y i j hi hj).2 hc
    rw [this]
  | some r =>
    obtain ⟨k, hk, e⟩ := C15_band_value s1 s2 eps x y mask g r hg h (hr r rfl)
    obtain ⟨k', hk', e'⟩ := C15_band_value r1 r2 eps _ _ mask' g r hg h' (by simpa using hr r rfl)
    rw [e, e']
    simp only [List.length_reverse] at hk' ⊢
    have : k' = k := by
      refine le_antisymm (hk.2 (sizes _ _ _ _ ?_ hk'.1)) (hk'.2 (sizes _ _ _ _ ?_ hk.1))
      · exact fun i hi j hj hc => ⟨by have := hc.1; unfold InBand at this ⊢; omega, close' i j hi hj hc.2⟩
      · exact fun i hi j hj hc => ⟨by have := hc.1; unfold InBand at this ⊢; omega, (close x y i j hi hj).2 hc.2⟩
    rw [this]

/-- A univariate series without missing values. -/
def plain (l : List ℝ) : TsInput (Option ℝ) := .twoD (l.map fun v => [some v])

/-- Which samples of a series of zeros and one 5 match samples of three zeros. -/
theorem hits3 (l : List ℝ) (k : ℕ) (hk : k < 3)
    (hl : ∀ i < 3, (i = k → l.getD i 0 = 5) ∧ (i ≠ k → l.getD i 0 = 0)) (hlen : l.length = 3) :
    lcssHit (l.map fun v => [v]) [[0], [0], [0]] 1 = fun i j => decide (i ≠ k ∨ 3 ≤ j) := by
  funext i j
  unfold lcssHit
  rw [localCost_eq]
  congr 1
  rw [eq_iff_iff]
  have hj : j < 3 → ([[0], [0], [0]] : List (List ℝ)).getD j [] = [0] := by
    intro h; interval_cases j <;> rfl
  by_cases h3 : j < 3
  · by_cases hi : i < 3
    · have e : (l.map fun v => [v]).getD i [] = [l.getD i 0] := by
        simp [List.getD_eq_getElem?_getD, List.getElem?_eq_getElem (by omega : i < l.length)]
      have h5 : Real.sqrt (5 ^ 2) = 5 := Real.sqrt_sq (by norm_num)
      unfold sampleCost
      rw [e, hj h3]
      by_cases hik : i = k
      · rw [(hl i hi).1 hik]
        simp only [sqEuclid, List.zip_cons_cons, List.zip_nil_right, List.map_cons, List.map_nil, List.sum_cons,
          List.sum_nil, sub_zero, add_zero, h5]
        constructor
        · intro h; norm_num at h
        · intro h; omega
      · rw [(hl i hi).2 hik]
        simp [sqEuclid, hik]
    · have e : (l.map fun v => [v]).getD i [] = [] := by
        simp [List.getD_eq_getElem?_getD, List.getElem?_eq_none (by omega : l.length ≤ i)]
      unfold sampleCost
      rw [e]
      simp only [sqEuclid, List.zip_nil_left, List.map_nil, List.sum_nil, Real.sqrt_zero]
      constructor
      · intro _; omega
      · intro _; norm_num
  · have e : ([[0], [0], [0]] : List (List ℝ)).getD j [] = [] := by
      simp [List.getD_eq_getElem?_getD, List.getElem?_eq_none (by simp; omega : ([[0], [0], [0]] : List (List ℝ)).length ≤ j)]
    unfold sampleCost
    rw [e]
    simp only [sqEuclid, List.zip_nil_right, List.map_nil, List.sum_nil, Real.sqrt_zero]
    constructor
    · intro _; omega
    · intro _; norm_num

/-- In a band of radius 0, LCSS is **not** the same read backwards: `[0, 0, 5]` against `[0, 0, 0]`
scores 0, since a miss takes the larger of two neighbours outside the band, which hold 0; read
backwards the same pair scores 2/3. -/
theorem C88_false_lcss_radius_zero :
    lcss (plain [0, 0, 5]) (plain [0, 0, 0]) 1 (some "sakoe_chiba") (some 0) none = .ok 0 ∧
    lcss (plain [5, 0, 0]) (plain [0, 0, 0]) 1 (some "sakoe_chiba") (some 0) none = .ok (2 / 3) := by
  constructor
  · rw [lcss_value (x := [[0], [0], [5]]) (y := [[0], [0], [0]]) (mask := sakoeChibaMask 3 3 0) 1 rfl]
    have := hits3 [0, 0, 5] 2 (by norm_num) (by intro i hi; interval_cases i <;> simp) rfl
    simp only [List.map_cons, List.map_nil] at this
    rw [this]
    have : lcssAcc 3 3 (sakoeChibaMask 3 3 0) (fun i j => decide (i ≠ 2 ∨ 3 ≤ j)) 3 3 = 0 := by decide +kernel
    have e : ∀ a : ℕ, a = 0 → (Except.ok ((a : ℝ) / ((min 3 3 : ℕ) : ℝ)) : Except PyErr ℝ) = .ok 0 := by
      rintro a rfl; norm_num
    exact e _ this
  · rw [lcss_value (x := [[5], [0], [0]]) (y := [[0], [0], [0]]) (mask := sakoeChibaMask 3 3 0) 1 rfl]
    have := hits3 [5, 0, 0] 0 (by norm_num) (by intro i hi; interval_cases i <;> simp) rfl
    simp only [List.map_cons, List.map_nil] at this
    rw [this]
    have : lcssAcc 3 3 (sakoeChibaMask 3 3 0) (fun i j => decide (i ≠ 0 ∨ 3 ≤ j)) 3 3 = 2 := by decide +kernel
    have e : ∀ a : ℕ, a = 2 → (Except.ok ((a : ℝ) / ((min 3 3 : ℕ) : ℝ)) : Except PyErr ℝ) = .ok (2 / 3) := by
      rintro a rfl; norm_num
    exact e _ this

theorem lcss_itakura4 (l : List ℝ) (k : ℕ) (v : ℕ) (hl : l.length = 4)
    (hh : lcssHit (l.map fun v => [v]) [[0], [0], [0], [0]] 1 = fun i j => decide (i = k ∨ 4 ≤ i ∨ 4 ≤ j))
    (hv : (match itakuraMask 4 4 2 with
      | .ok M => some (lcssAcc 4 4 M (fun i j => decide (i = k ∨ 4 ≤ i ∨ 4 ≤ j)) 4 4)
      | .error _ => none) = some v) :
    lcss (plain l) (plain [0, 0, 0, 0]) 1 (some "itakura") none none = .ok ((v : ℝ) / 4) := by
  cases hm : itakuraMask 4 4 2 with
  | error e => simp [hm] at hv
  | ok M =>
    simp only [hm, Option.some.injEq] at hv
    obtain ⟨a, b, c, d, rfl⟩ : ∃ a b c d, l = [a, b, c, d] := by
      match l, hl with
      | [a, b, c, d], _ => exact ⟨a, b, c, d, rfl⟩
    have harg : lcssArgs (plain [a, b, c, d]) (plain [0, 0, 0, 0]) (some "itakura") none none =
        (computeMask 4 4 1 none none).bind fun m => .ok ([[a], [b], [c], [d]], [[0], [0], [0], [0]], m) := rfl
    have hc : computeMask 4 4 1 none none = .ok M := by
      rw [← hm]; rfl
    rw [hc] at harg
    rw [lcss_value 1 harg]
    simp only [List.map_cons, List.map_nil] at hh
    rw [hh]
    have e : ∀ a : ℕ, a = v → (Except.ok ((a : ℝ) / ((min 4 4 : ℕ) : ℝ)) : Except PyErr ℝ) = .ok ((v : ℝ) / 4) := by
      rintro a rfl; norm_num
    exact e _ hv

/-- Under the Itakura constraint with its default slope, LCSS is **not** the same read backwards
either: `[0, 5, 5, 5]` against four zeros scores 0, read backwards 1/4. -/
theorem C88_false_lcss_itakura :
    lcss (plain [0, 5, 5, 5]) (plain [0, 0, 0, 0]) 1 (some "itakura") none none = .ok 0 ∧
    lcss (plain [5, 5, 5, 0]) (plain [0, 0, 0, 0]) 1 (some "itakura") none none = .ok (1 / 4) := by
  have h5 : Real.sqrt (5 ^ 2) = 5 := Real.sqrt_sq (by norm_num)
  have hits : ∀ (l : List ℝ) (k : ℕ), l.length = 4 →
      (∀ i < 4, (i = k → l.getD i 0 = 0) ∧ (i ≠ k → l.getD i 0 = 5)) →
      lcssHit (l.map fun v => [v]) [[0], [0], [0], [0]] 1 = fun i j => decide (i = k ∨ 4 ≤ i ∨ 4 ≤ j) := by
    intro l k hlen hl
    funext i j
    unfold lcssHit
    rw [localCost_eq]
    congr 1
    rw [eq_iff_iff]
    by_cases h3 : j < 4
    · have hj : ([[0], [0], [0], [0]] : List (List ℝ)).getD j [] = [0] := by
        interval_cases j <;> rfl
      by_cases hi : i < 4
      · have e : (l.map fun v => [v]).getD i [] = [l.getD i 0] := by
          simp [List.getD_eq_getElem?_getD, List.getElem?_eq_getElem (by omega : i < l.length)]
        unfold sampleCost
        rw [e, hj]
        by_cases hik : i = k
        · rw [(hl i hi).1 hik]
          simp [sqEuclid, hik]
        · rw [(hl i hi).2 hik]
          simp only [sqEuclid, List.zip_cons_cons, List.zip_nil_right, List.map_cons, List.map_nil,
            List.sum_cons, List.sum_nil, sub_zero, add_zero, h5]
          constructor
          · intro h; norm_num at h
          · intro h; omega
      · have e : (l.map fun v => [v]).getD i [] = [] := by
          simp [List.getD_eq_getElem?_getD, List.getElem?_eq_none (by omega : l.length ≤ i)]
        unfold sampleCost
        rw [e]
        simp only [sqEuclid, List.zip_nil_left, List.map_nil, List.sum_nil, Real.sqrt_zero]
        constructor
        · intro _; omega
        · intro _; norm_num
    · have e : ([[0], [0], [0], [0]] : List (List ℝ)).getD j [] = [] := by
        rw [List.getD_eq_getElem?_getD, List.getElem?_eq_none (by simp; omega)]; rfl
      unfold sampleCost
      rw [e]
      simp only [sqEuclid, List.zip_nil_right, List.map_nil, List.sum_nil, Real.sqrt_zero]
      constructor
      · intro _; omega
      · intro _; norm_num
  constructor
  · have := lcss_itakura4 [0, 5, 5, 5] 0 0 rfl (hits _ _ rfl (by intro i hi; interval_cases i <;> simp))
      (by decide +kernel)
    simpa using this
  · have := lcss_itakura4 [5, 5, 5, 0] 3 1 rfl (hits _ _ rfl (by intro i hi; interval_cases i <;> simp))
      (by decide +kernel)
    simpa using this

/-- Hypotheses of `C88_lcss_reverse_partial` and `C88_dtw`: plain series of lengths 3 and 2. -/
example : lcssArgs (plain [1, 2, 4]) (plain [2, 4]) (some "sakoe_chiba") (some 1) none =
      .ok ([[1], [2], [4]], [[2], [4]], sakoeChibaMask 3 2 1) ∧
    lcssArgs (plain [4, 2, 1]) (plain [4, 2]) (some "sakoe_chiba") (some 1) none =
      .ok ([[1], [2], [4]].reverse, [[2], [4]].reverse, sakoeChibaMask 3 2 1) ∧
    validatePair (plain [1, 2, 4]) (plain [2, 4]) none = .ok ([[1], [2], [4]], [[2], [4]], 0) ∧
    validatePair (plain [4, 2, 1]) (plain [4, 2]) none =
      .ok ([[1], [2], [4]].reverse, [[2], [4]].reverse, 0) :=
  ⟨rfl, rfl, rfl, rfl⟩

/-- A similarity of ratio 4 that is not a mere scaling: double, then move by `[1, -1]`. -/
example (u v : List ℝ) (hu : u.length = 2) (hv : v.length = 2) :
    sqEuclid (List.zipWith (· + ·) (u.map (2 * ·)) [1, -1]) (List.zipWith (· + ·) (v.map (2 * ·)) [1, -1]) =
      4 * sqEuclid u v := by
  rw [C88_translation _ _ _ (by simp [hu]) (by simp [hv]), C88_scaling]
  norm_num

end Verif
