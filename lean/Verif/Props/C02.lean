import Verif.Props.C01
/-!
# C02 — the returned path is a valid optimal alignment inside the mask
-/
namespace Verif
open Spec

/-- The traceback loop terminates within `len(x) + len(y)` iterations and always returns a warping
path, whatever the matrix holds (also when the value is `+inf`). -/
theorem C02_path_terminates {C : Type*} (am : C → C → C → ℕ) (acc : Mat C) (l1 l2 : ℕ)
    (h1 : 0 < l1) (h2 : 0 < l2) :
    ∃ p, computePath am acc l1 l2 (l1 + l2) = some p ∧ IsWarpingPath l1 l2 p := by
  obtain ⟨p, hp, hr⟩ := computePathLoop_shape am acc _ (l1 - 1) (l2 - 1) (l1 + l2) [] rfl (by omega)
  exact ⟨p, by simpa [computePath] using hr,
    isWarpingPath_iff.2 ⟨l1 - 1, l2 - 1, by omega, by omega, hp⟩⟩

/-- Any cost algebra, any argmin tie-breaking: when the value is finite the path is admissible and
its accumulated cost is the value. -/
theorem C02_path_optimal {D C : Type*} [LinearOrder C] [OrderTop C]
    (add : D → C → C) (zero : C) (htop : ∀ d, add d ⊤ = ⊤)
    (am : C → C → C → ℕ) (ham : IsArgmin3 am)
    (l1 l2 : ℕ) (h1 : 0 < l1) (h2 : 0 < l2) (mask : Mat Bool) (dist : ℕ → ℕ → D)
    (hfin : lastEntry (accTableWith add zero l1 l2 mask dist).tail l1 l2 ≠ ⊤) :
    ∃ p, computePath am (accTableWith add zero l1 l2 mask dist).tail l1 l2 (l1 + l2) = some p ∧
      Admissible l1 l2 mask p ∧
      pathCost add zero dist p = lastEntry (accTableWith add zero l1 l2 mask dist).tail l1 l2 := by
  have hM := accTableWith_isDP add zero l1 l2 mask dist
  obtain ⟨p, hp, hm, hc, hr⟩ := hM.traceback htop ham _ (l1 - 1) (l2 - 1) (l1 + l2) [] rfl
    (by omega) (by omega) (by omega) hfin
  exact ⟨p, by simpa [computePath] using hr,
    ⟨isWarpingPath_iff.2 ⟨l1 - 1, l2 - 1, by omega, by omega, hp⟩, hm⟩, hc⟩

/-- `dtw_path_from_metric`: the path is admissible and its summed cost is the returned value. -/
theorem C02_dtw_path_from_metric {K : Type} [CommRing K] [LinearOrder K] [IsStrictOrderedRing K]
    (l1 l2 : ℕ) (h1 : 0 < l1) (h2 : 0 < l2) (D : ℕ → ℕ → K) (g : Option String)
    (radius : Option ℕ) (slope : Option ℚ) (code : ℕ) (mask : Mat Bool)
    (hg : gcCode g = .ok code) (hmask : computeMask l1 l2 code radius slope = .ok mask)
    (am) (ham : IsArgmin3 am) :
    ∃ p v, dtwPathFromMetric l1 l2 D g radius slope am = .ok (some p, v) ∧ IsWarpingPath l1 l2 p ∧
      (v ≠ ⊤ → InMask mask p ∧ v = ((sumCost D p : K) : WithTop K)) := by
  let add := fun (d : K) (c : WithTop K) => (d : WithTop K) + c
  obtain ⟨p, hp, hw⟩ := C02_path_terminates am (accFromDist l1 l2 mask D) l1 l2 h1 h2
  refine ⟨p, lastEntry (accFromDist l1 l2 mask D) l1 l2, ?_, hw, fun hf => ?_⟩
  · simp [dtwPathFromMetric, hg, hmask, bind, Except.bind, pure, Except.pure, hp]
  · obtain ⟨q, hq, ha, hc⟩ := C02_path_optimal add 0 (fun d => add_top' d) am ham l1 l2 h1 h2 mask D hf
    have : some p = some q := by rw [← hp, ← hq]; rfl
    obtain rfl := Option.some.inj this
    refine ⟨ha.2, ?_⟩
    rw [← pathCost_add_eq]
    exact hc.symm

/-- `dtw_path`: the path is admissible and the returned distance is the square root of its cost. -/
theorem C02_dtw_path (s1 s2 : TsInput (Option ℝ)) (g : Option String) (radius : Option ℕ)
    (slope : Option ℚ) (x y : List (List ℝ)) (code : ℕ) (mask : Mat Bool)
    (hv : validatePair s1 s2 g = .ok (x, y, code))
    (hmask : computeMask x.length y.length code radius slope = .ok mask)
    (am) (ham : IsArgmin3 am) :
    ∃ p v, dtwPath s1 s2 g radius slope am = .ok (some p, v) ∧
      dtw s1 s2 g radius slope = .ok v ∧ IsWarpingPath x.length y.length p ∧
      (v ≠ ⊤ → InMask mask p ∧ v = (Real.sqrt (sumCost (sampleCost x y) p) : WithTop ℝ)) := by
  obtain ⟨-, -, -, hx, hy, -⟩ := validatePair_ok hv
  have h1 := List.length_pos_iff.2 hx
  have h2 := List.length_pos_iff.2 hy
  let add := fun (d : ℝ) (c : WithTop ℝ) => (d : WithTop ℝ) + c
  obtain ⟨p, hp, hw⟩ := C02_path_terminates am (accumulatedMatrix x y mask) x.length y.length h1 h2
  refine ⟨p, sqrtTop (lastEntry (accumulatedMatrix x y mask) x.length y.length), ?_, ?_, hw,
    fun hf => ?_⟩
  · simp [dtwPath, hv, dtwPathGeneric, hmask, bind, Except.bind, pure, Except.pure, hp]
  · simp [dtw, dtwSq, hv, dtwSqGeneric, hmask, bind, Except.bind, pure, Except.pure]
  · have hf' : lastEntry (accTableWith add 0 x.length y.length mask (localCost x y)).tail
        x.length y.length ≠ ⊤ := by
      intro h
      apply hf
      show sqrtTop (lastEntry (accTableWith add 0 x.length y.length mask (localCost x y)).tail
        x.length y.length) = ⊤
      rw [h]; rfl
    obtain ⟨q, hq, ha, hc⟩ := C02_path_optimal add 0 (fun d => add_top' d) am ham x.length y.length
      h1 h2 mask (localCost x y) hf'
    have : some p = some q := by rw [← hp, ← hq]; rfl
    obtain rfl := Option.some.inj this
    refine ⟨ha.2, ?_⟩
    rw [← localCost_eq]
    have hc' : lastEntry (accumulatedMatrix x y mask) x.length y.length =
        ((sumCost (localCost x y) p : ℝ) : WithTop ℝ) := by
      rw [← pathCost_add_eq]
      exact hc.symm
    rw [hc']
    rfl

/-- The path computed on concrete data (first-minimum argmin). -/
example : dtwPathGeneric ([[0],[1],[2],[5]] : List (List ℤ)) [[0],[2],[3],[3]] 0 none none argmin3
    = .ok (((6 : ℤ) : WithTop ℤ), some [(0,0), (1,1), (2,2), (3,3)]) := rfl

/-- NumPy's argmin meets the contract used above. -/
example : IsArgmin3 (argmin3 (C := WithTop ℤ)) := argmin3_isArgmin

end Verif
