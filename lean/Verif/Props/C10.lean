import Verif.Proofs.Frechet
import Verif.Props.C02
import Mathlib.Algebra.Order.Ring.Int
/-!
# C10 — the discrete Fréchet distance is the min-max over warping paths
-/
set_option linter.unusedSectionVars false
namespace Verif
open Spec

section
variable {K : Type} [CommRing K] [LinearOrder K] [IsStrictOrderedRing K]

/-- Square of the value: least, over admissible paths, of the largest squared distance of aligned
samples; `+inf` exactly when no path is admissible. -/
theorem C10_frechet_squared (x y : List (List K)) (hx : x ≠ []) (hy : y ≠ []) (gc : ℕ)
    (radius : Option ℕ) (slope : Option ℚ) (mask : Mat Bool)
    (hmask : computeMask x.length y.length gc radius slope = .ok mask) :
    ∃ v, frechetSqGeneric x y gc radius slope = .ok v ∧
      (v = ⊤ ↔ ¬ ∃ p, Admissible x.length y.length mask p) ∧
      ∀ w : K, v = (w : WithTop K) ↔
        IsLeast {c | ∃ p, Admissible x.length y.length mask p ∧ IsMaxCost (sampleCost x y) p c} w := by
  have hx' := List.length_pos_iff.2 hx
  have hy' := List.length_pos_iff.2 hy
  refine ⟨lastEntry (frechetAccumulatedMatrix x y mask) x.length y.length,
    by simp only [frechetSqGeneric, hmask, bind, Except.bind, pure, Except.pure], ?_⟩
  have s := frechetAccFromDist_spec mask (sampleCost x y) (sampleCost_nonneg x y) x.length y.length
    (x.length - 1) (y.length - 1) (by omega) (by omega)
  rw [show x.length - 1 + 1 = x.length by omega, show y.length - 1 + 1 = y.length by omega] at s
  unfold frechetAccumulatedMatrix
  rw [localCost_eq]
  exact s

/-- `frechet_path_from_metric` with non-negative costs: valid path attaining the value, which is
optimal. -/
theorem C10_path_from_metric (l1 l2 : ℕ) (h1 : 0 < l1) (h2 : 0 < l2) (D : ℕ → ℕ → K)
    (hD : ∀ i j, 0 ≤ D i j) (g : Option String) (radius : Option ℕ) (slope : Option ℚ) (code : ℕ)
    (mask : Mat Bool) (hg : gcCode g = .ok code)
    (hmask : computeMask l1 l2 code radius slope = .ok mask) (am) (ham : IsArgmin3 am) :
    ∃ p v, frechetPathFromMetric l1 l2 D g radius slope am = .ok (some p, v) ∧
      IsWarpingPath l1 l2 p ∧
      (v ≠ ⊤ → InMask mask p ∧ ∃ w : K, v = (w : WithTop K) ∧ IsMaxCost D p w ∧
        ∀ q c, Admissible l1 l2 mask q → IsMaxCost D q c → w ≤ c) := by
  obtain ⟨p, hp, hw⟩ := C02_path_terminates am (frechetAccFromDist l1 l2 mask D) l1 l2 h1 h2
  refine ⟨p, lastEntry (frechetAccFromDist l1 l2 mask D) l1 l2, ?_, hw, fun hf => ?_⟩
  · simp [frechetPathFromMetric, hg, hmask, bind, Except.bind, pure, Except.pure, hp]
  · obtain ⟨q, hq, ha, hc⟩ := C02_path_optimal frechetStep 0 frechetStep_top am ham l1 l2 h1 h2 mask
      D hf
    have : some p = some q := by rw [← hp, ← hq]; rfl
    obtain rfl := Option.some.inj this
    have hne : p ≠ [] := by
      rintro rfl
      have := hw.starts; simp at this
    obtain ⟨w, hw', hcost⟩ := frechet_pathCost D hD p hne
    have hv : lastEntry (frechetAccFromDist l1 l2 mask D) l1 l2 = (w : WithTop K) := by
      rw [← hcost, hc]; rfl
    refine ⟨ha.2, w, hv, hw', ?_⟩
    have s := (frechetAccFromDist_spec mask D hD l1 l2 (l1-1) (l2-1) (by omega) (by omega)).2 w
    rw [show l1 - 1 + 1 = l1 by omega, show l2 - 1 + 1 = l2 by omega] at s
    intro q c hq' hc'
    exact (s.1 hv).2 ⟨q, hq', hc'⟩

/-- Both backends compute the same table. -/
theorem C10_backends_agree (l1 l2 : ℕ) (mask : Mat Bool) (D : ℕ → ℕ → K) (i j : ℕ) (hi : i < l1)
    (hj : j < l2) :
    frechetAccFromDist l1 l2 mask D i j = torchFrechetAccFromDist l1 l2 mask D i j := by
  unfold frechetAccFromDist torchFrechetAccFromDist accTableWith Mat.tail
  refine IsDP.congr (dpLoop_isDP l1 l2 mask _ _) (diagLoop_isDP l1 l2 _ _) (fun _ => rfl)
    (fun _ => rfl) ?_ _ _ (by omega) (by omega)
  intro i j a b c hi hj
  by_cases hm : mask i j = true
  · simp [hm, frechetStep]
  · simp [hm, Mat.set, Mat.full]

/-- Never above DTW, whatever the common mask. -/
theorem C10_le_dtw (x y : List (List K)) (hx : x ≠ []) (hy : y ≠ []) (gc : ℕ) (radius : Option ℕ)
    (slope : Option ℚ) (v v' : WithTop K) (hv : frechetSqGeneric x y gc radius slope = .ok v)
    (hv' : dtwSqGeneric x y gc radius slope = .ok v') : v ≤ v' := by
  have hx' := List.length_pos_iff.2 hx
  have hy' := List.length_pos_iff.2 hy
  cases hm : computeMask x.length y.length gc radius slope with
  | error e => simp [frechetSqGeneric, hm, bind, Except.bind] at hv
  | ok mask =>
    obtain ⟨u, hu, hutop, huleast⟩ := C10_frechet_squared x y hx hy gc radius slope mask hm
    rw [hv] at hu
    obtain rfl := Except.ok.inj hu
    simp only [dtwSqGeneric, hm, bind, Except.bind, pure, Except.pure, Except.ok.injEq] at hv'
    subst hv'
    have s := accFromDist_spec mask (localCost x y) x.length y.length (x.length-1) (y.length-1)
      (by omega) (by omega)
    rw [show x.length - 1 + 1 = x.length by omega, show y.length - 1 + 1 = y.length by omega] at s
    cases hd : lastEntry (accumulatedMatrix x y mask) x.length y.length with
    | top => exact le_top
    | coe w =>
      obtain ⟨⟨p, hp, rfl⟩, -⟩ := (s.2 w).1 hd
      have hne : v ≠ ⊤ := fun h => hutop.1 h ⟨p, hp⟩
      obtain ⟨c, rfl⟩ := WithTop.ne_top_iff_exists.1 hne
      obtain ⟨m, hm'⟩ := exists_isMaxCost (sampleCost x y) (sampleCost_nonneg x y) hp
      have h1 := ((huleast c).1 rfl).2 ⟨p, hp, hm'⟩
      rw [WithTop.coe_le_coe]
      refine h1.trans ?_
      obtain ⟨⟨c', hc', rfl⟩, -⟩ := hm'
      rw [localCost_eq]
      unfold sumCost
      apply List.single_le_sum
      · intro a ha
        obtain ⟨b, -, rfl⟩ := List.mem_map.1 ha
        exact sampleCost_nonneg x y _ _
      · exact List.mem_map.2 ⟨c', hc', rfl⟩

/-- Monotone in the set of allowed cells. -/
theorem C10_mask_monotone (x y : List (List K)) (hx : x ≠ []) (hy : y ≠ []) (mask mask' : Mat Bool)
    (h : ∀ i < x.length, ∀ j < y.length, mask i j = true → mask' i j = true) :
    lastEntry (frechetAccumulatedMatrix x y mask') x.length y.length ≤
      lastEntry (frechetAccumulatedMatrix x y mask) x.length y.length := by
  have hx' := List.length_pos_iff.2 hx
  have hy' := List.length_pos_iff.2 hy
  unfold frechetAccumulatedMatrix
  rw [localCost_eq]
  apply frechetAcc_le (sampleCost_nonneg x y) (sampleCost_nonneg x y) hx' hy' hx' hy'
  rintro p w ⟨hp, hin⟩ hw
  refine ⟨p, w, ⟨hp, fun c hc => ?_⟩, hw, le_rfl⟩
  have := hp.mem_lt c hc
  exact h _ this.1 _ this.2 (hin c hc)

/-- Swapping the series and transposing the mask. -/
theorem C10_transpose (x y : List (List K)) (hx : x ≠ []) (hy : y ≠ []) (mask mask' : Mat Bool)
    (hm : ∀ i < x.length, ∀ j < y.length, mask' j i = mask i j) :
    lastEntry (frechetAccumulatedMatrix x y mask) x.length y.length =
      lastEntry (frechetAccumulatedMatrix y x mask') y.length x.length := by
  have hx' := List.length_pos_iff.2 hx
  have hy' := List.length_pos_iff.2 hy
  unfold frechetAccumulatedMatrix
  rw [localCost_eq, localCost_eq]
  apply le_antisymm
  · apply frechetAcc_le (sampleCost_nonneg x y) (sampleCost_nonneg y x) hx' hy' hy' hx'
    rintro p w ⟨hp, hin⟩ hw
    refine ⟨p.map Prod.swap, w, ⟨hp.swap, ?_⟩, ?_, le_rfl⟩
    · intro c hc
      simp only [List.mem_map] at hc
      obtain ⟨c, hc, rfl⟩ := hc
      have hlt := hp.mem_lt c hc
      rw [Prod.fst_swap, Prod.snd_swap, ← hm _ hlt.2 _ hlt.1]
      exact hin c hc
    · rw [← sampleCost_swap]; exact hw.swap
  · apply frechetAcc_le (sampleCost_nonneg y x) (sampleCost_nonneg x y) hy' hx' hx' hy'
    rintro p w ⟨hp, hin⟩ hw
    refine ⟨p.map Prod.swap, w, ⟨hp.swap, ?_⟩, ?_, le_rfl⟩
    · intro c hc
      simp only [List.mem_map] at hc
      obtain ⟨c, hc, rfl⟩ := hc
      have hlt := hp.mem_lt c hc
      rw [Prod.fst_swap, Prod.snd_swap, hm _ hlt.1 _ hlt.2]
      exact hin c hc
    · rw [← sampleCost_swap]; exact hw.swap

/-- Symmetry without constraint and under a Sakoe-Chiba band. -/
theorem C10_symm (x y : List (List K)) (hx : x ≠ []) (hy : y ≠ []) (radius : Option ℕ)
    (slope : Option ℚ) :
    frechetSqGeneric x y 0 none none = frechetSqGeneric y x 0 none none ∧
    frechetSqGeneric x y 2 radius slope = frechetSqGeneric y x 2 radius slope := by
  constructor
  · unfold frechetSqGeneric computeMask
    simp only [Option.isSome, bind, Except.bind, pure, Except.pure]
    exact congrArg _ (C10_transpose x y hx hy _ _ (fun _ _ _ _ => rfl))
  · unfold frechetSqGeneric computeMask
    simp only [bind, Except.bind, pure, Except.pure]
    refine congrArg _ (C10_transpose x y hx hy _ _ ?_)
    intro i hi j hj
    rw [Bool.eq_iff_iff, sakoeChibaMask_iff _ _ _ _ _ hi hj, sakoeChibaMask_iff _ _ _ _ _ hj hi]
    simp only [InBand]
    omega

/-- Zero on identical series, without constraint and under a Sakoe-Chiba band. -/
theorem C10_self (x : List (List K)) (hx : x ≠ []) (radius : Option ℕ) (slope : Option ℚ) :
    frechetSqGeneric x x 0 none none = .ok 0 ∧ frechetSqGeneric x x 2 radius slope = .ok 0 := by
  have hx' := List.length_pos_iff.2 hx
  have key : ∀ gc radius slope mask, computeMask x.length x.length gc radius slope = .ok mask →
      (∀ i < x.length, mask i i = true) → frechetSqGeneric x x gc radius slope = .ok 0 := by
    intro gc radius slope mask hm hd
    obtain ⟨v, hv, -, hleast⟩ := C10_frechet_squared x x hx hx gc radius slope mask hm
    rw [hv, ← WithTop.coe_zero, (hleast 0).2 ?_]
    have hdiag := diag_path (x.length - 1)
    rw [show x.length - 1 + 1 = x.length by omega] at hdiag
    refine ⟨⟨(List.range x.length).map fun i => (i, i), ⟨?_, ?_⟩, ⟨⟨(0, 0), ?_, ?_⟩, ?_⟩⟩, ?_⟩
    · exact isWarpingPath_iff.2 ⟨x.length - 1, x.length - 1, by omega, by omega, hdiag⟩
    · intro c hc
      simp only [List.mem_map, List.mem_range] at hc
      obtain ⟨i, hi, rfl⟩ := hc
      exact hd i hi
    · exact List.mem_map.2 ⟨0, by simpa using hx', rfl⟩
    · exact sqEuclid_self _
    · intro c hc
      simp only [List.mem_map, List.mem_range] at hc
      obtain ⟨i, hi, rfl⟩ := hc
      exact (sqEuclid_self _).le
    · rintro c ⟨p, -, ⟨⟨c', -, rfl⟩, -⟩⟩
      exact sampleCost_nonneg x x _ _
  refine ⟨key 0 none none _ rfl (fun _ _ => rfl), key 2 radius slope _ rfl ?_⟩
  intro i hi
  rw [sakoeChibaMask_iff _ _ _ _ _ hi hi]
  simp only [InBand]
  omega
end

/-- Public function on arbitrary inputs: value, path and optimality after the square root. -/
theorem C10_frechet_path (s1 s2 : TsInput (Option ℝ)) (g : Option String) (radius : Option ℕ)
    (slope : Option ℚ) (x y : List (List ℝ)) (code : ℕ) (mask : Mat Bool)
    (hv : validatePair s1 s2 g = .ok (x, y, code))
    (hmask : computeMask x.length y.length code radius slope = .ok mask)
    (am) (ham : IsArgmin3 am) :
    ∃ p v, frechetPath s1 s2 g radius slope am = .ok (some p, v) ∧
      frechet s1 s2 g radius slope = .ok v ∧ IsWarpingPath x.length y.length p ∧
      (v = ⊤ ↔ ¬ ∃ q, Admissible x.length y.length mask q) ∧
      (v ≠ ⊤ → InMask mask p ∧ ∃ w : ℝ, v = (Real.sqrt w : WithTop ℝ) ∧
        IsMaxCost (sampleCost x y) p w ∧
        ∀ q c, Admissible x.length y.length mask q → IsMaxCost (sampleCost x y) q c → w ≤ c) := by
  obtain ⟨-, -, -, hx, hy, -⟩ := validatePair_ok hv
  have h1 := List.length_pos_iff.2 hx
  have h2 := List.length_pos_iff.2 hy
  obtain ⟨p, hp, hw⟩ := C02_path_terminates am (frechetAccumulatedMatrix x y mask) x.length y.length
    h1 h2
  obtain ⟨u, hu, hutop, huleast⟩ := C10_frechet_squared x y hx hy code radius slope mask hmask
  have hu' : u = lastEntry (frechetAccumulatedMatrix x y mask) x.length y.length := by
    simpa [frechetSqGeneric, hmask, bind, Except.bind, pure, Except.pure] using hu.symm
  refine ⟨p, sqrtTop u, ?_, ?_, hw, ?_, fun hf => ?_⟩
  · simp [frechetPath, hv, frechetPathGeneric, hmask, bind, Except.bind, pure, Except.pure, hp, hu']
  · simp [frechet, frechetSq, hv, hu, bind, Except.bind, pure, Except.pure]
  · rw [← hutop]
    unfold sqrtTop
    exact WithTop.map_eq_top_iff
  · have hut : u ≠ ⊤ := by
      rintro rfl
      exact hf rfl
    have hf' : lastEntry (accTableWith frechetStep 0 x.length y.length mask (localCost x y)).tail
        x.length y.length ≠ ⊤ := by
      rw [hu'] at hut; exact hut
    obtain ⟨q, hq, ha, hc⟩ := C02_path_optimal frechetStep 0 frechetStep_top am ham x.length y.length
      h1 h2 mask (localCost x y) hf'
    have : some p = some q := by rw [← hp, ← hq]; rfl
    obtain rfl := Option.some.inj this
    have hne : p ≠ [] := by
      rintro rfl
      have := hw.starts; simp at this
    rw [localCost_eq] at hc
    obtain ⟨w, hw', hcost⟩ := frechet_pathCost (sampleCost x y) (sampleCost_nonneg x y) p hne
    have hwu : u = (w : WithTop ℝ) := by
      rw [hu', ← hcost, hc]; unfold frechetAccumulatedMatrix frechetAccFromDist; rw [localCost_eq]
    refine ⟨ha.2, w, by rw [hwu]; rfl, hw', ?_⟩
    intro q c hq' hc'
    exact ((huleast w).1 hwu).2 ⟨q, hq', hc'⟩

/-- Concrete value: bottleneck 4 (squared) while DTW is 6 on the same data. -/
example : frechetSqGeneric ([[0],[1],[2],[5]] : List (List ℤ)) [[0],[2],[3],[3]] 0 none none
      = .ok ((4 : ℤ) : WithTop ℤ) ∧
    dtwSqGeneric ([[0],[1],[2],[5]] : List (List ℤ)) [[0],[2],[3],[3]] 0 none none
      = .ok ((6 : ℤ) : WithTop ℤ) := ⟨rfl, rfl⟩

end Verif
