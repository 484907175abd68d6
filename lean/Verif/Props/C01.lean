import Verif.Proofs.Dtw
import Verif.Proofs.Series
import Mathlib.Algebra.Order.Ring.Int
/-!
# C01 — the DTW value is the optimum over admissible warping paths
-/
namespace Verif
open Spec

/-- Every entry of the accumulated table, in any cost algebra with a monotone accumulation (real
addition, floating-point addition with any monotone rounding, max, ...), is a lower bound of the
cost of every admissible path to that cell, and is attained when finite. -/
theorem C01_accumulated_matrix_optimal {D C : Type*} [LinearOrder C] [OrderTop C]
    (add : D → C → C) (zero : C) (hmono : ∀ d, Monotone (add d)) (htop : ∀ d, add d ⊤ = ⊤)
    (l1 l2 : ℕ) (mask : Mat Bool) (dist : ℕ → ℕ → D) (i j : ℕ) (hi : i < l1) (hj : j < l2) :
    (∀ p, Admissible (i+1) (j+1) mask p →
      (accTableWith add zero l1 l2 mask dist).tail i j ≤ pathCost add zero dist p) ∧
    ((accTableWith add zero l1 l2 mask dist).tail i j ≠ ⊤ →
      ∃ p, Admissible (i+1) (j+1) mask p ∧
        pathCost add zero dist p = (accTableWith add zero l1 l2 mask dist).tail i j) := by
  have hM := accTableWith_isDP add zero l1 l2 mask dist
  refine ⟨?_, fun hf => ?_⟩
  · rintro p ⟨hp, hm⟩
    obtain ⟨i', j', hi', hj', hw⟩ := isWarpingPath_iff.1 hp
    obtain rfl : i' = i := by omega
    obtain rfl : j' = j := by omega
    exact hM.le_cost hmono hw hi hj hm
  · obtain ⟨p, hw, hm, hc⟩ := hM.attained htop (i+j) i j rfl hi hj hf
    exact ⟨p, ⟨isWarpingPath_iff.2 ⟨i, j, rfl, rfl, hw⟩, hm⟩, hc⟩

/-- Floating point: with a monotone rounding `rnd` after each addition (IEEE-754 round-to-nearest
is one, absent NaN), the computed value is the least rounded left-to-right path cost. -/
theorem C01_rounded_addition {K : Type} [CommRing K] [LinearOrder K] [IsStrictOrderedRing K]
    (rnd : K → K) (hr : Monotone rnd) (l1 l2 : ℕ) (mask : Mat Bool) (dist : ℕ → ℕ → K)
    (h1 : 0 < l1) (h2 : 0 < l2) :
    let add := fun (d : K) (c : WithTop K) => c.map fun x => rnd (d + x)
    let v := (accTableWith add 0 l1 l2 mask dist).tail (l1 - 1) (l2 - 1)
    (∀ p, Admissible l1 l2 mask p → v ≤ pathCost add 0 dist p) ∧
    (v ≠ ⊤ → ∃ p, Admissible l1 l2 mask p ∧ pathCost add 0 dist p = v) ∧
    (v = ⊤ ↔ ¬ ∃ p, Admissible l1 l2 mask p) := by
  intro add v
  have hmono : ∀ d, Monotone (add d) := by
    intro d a b h
    cases b with
    | top => exact le_top
    | coe b =>
      cases a with
      | top => simp at h
      | coe a =>
        rw [WithTop.coe_le_coe] at h
        exact WithTop.coe_le_coe.2 (hr (by linarith))
  obtain ⟨hle, hex⟩ := C01_accumulated_matrix_optimal add 0 hmono (fun _ => rfl) l1 l2 mask dist
    (l1 - 1) (l2 - 1) (by omega) (by omega)
  have e1 : l1 - 1 + 1 = l1 := by omega
  have e2 : l2 - 1 + 1 = l2 := by omega
  rw [e1, e2] at hle hex
  refine ⟨hle, hex, fun hv => ?_, fun hno => ?_⟩
  · rintro ⟨p, hp⟩
    have hfin : ∀ q : List (ℕ × ℕ), pathCost add 0 dist q ≠ ⊤ := by
      intro q
      induction q using List.reverseRecOn with
      | nil => simp [pathCost]
      | append_singleton q c ih =>
        rw [pathCost_append]
        obtain ⟨w, hw⟩ := WithTop.ne_top_iff_exists.1 ih
        rw [← hw]
        exact WithTop.coe_ne_top
    have := hle p hp
    rw [show (accTableWith add 0 l1 l2 mask dist).tail (l1 - 1) (l2 - 1) = ⊤ from hv] at this
    exact hfin p (top_le_iff.1 this)
  · by_contra hf
    obtain ⟨p, hp, -⟩ := hex hf
    exact hno ⟨p, hp⟩

/-- Exact arithmetic, series level: the square of DTW under any resolved constraint is `+inf`
exactly when no warping path fits the mask, and otherwise is the least summed squared distance. -/
theorem C01_dtw_squared {K : Type} [CommRing K] [LinearOrder K] [IsStrictOrderedRing K]
    (x y : List (List K)) (hx : x ≠ []) (hy : y ≠ []) (gc : ℕ) (radius : Option ℕ)
    (slope : Option ℚ) (mask : Mat Bool)
    (hmask : computeMask x.length y.length gc radius slope = .ok mask) :
    ∃ v, dtwSqGeneric x y gc radius slope = .ok v ∧
      (v = ⊤ ↔ ¬ ∃ p, Admissible x.length y.length mask p) ∧
      ∀ w : K, v = (w : WithTop K) ↔
        IsLeast {c | ∃ p, Admissible x.length y.length mask p ∧ c = sumCost (sampleCost x y) p} w := by
  have hx' := List.length_pos_iff.2 hx
  have hy' := List.length_pos_iff.2 hy
  refine ⟨lastEntry (accumulatedMatrix x y mask) x.length y.length, ?_, ?_⟩
  · unfold dtwSqGeneric
    rw [hmask]
    rfl
  · have h := accFromDist_spec mask (sampleCost x y) x.length y.length (x.length - 1) (y.length - 1)
      (by omega) (by omega)
    have e1 : x.length - 1 + 1 = x.length := by omega
    have e2 : y.length - 1 + 1 = y.length := by omega
    rw [e1, e2] at h
    simpa [lastEntry, accumulatedMatrix, localCost_eq] using h

/-- The public function: a real number whose square is the least cost, or `+inf`. -/
theorem C01_dtw (s1 s2 : TsInput (Option ℝ)) (g : Option String) (radius : Option ℕ)
    (slope : Option ℚ) (x y : List (List ℝ)) (code : ℕ) (mask : Mat Bool)
    (hv : validatePair s1 s2 g = .ok (x, y, code))
    (hmask : computeMask x.length y.length code radius slope = .ok mask) :
    ∃ v, dtw s1 s2 g radius slope = .ok v ∧
      (v = ⊤ ↔ ¬ ∃ p, Admissible x.length y.length mask p) ∧
      ∀ w : ℝ, v = (w : WithTop ℝ) ↔ 0 ≤ w ∧
        IsLeast {c | ∃ p, Admissible x.length y.length mask p ∧ c = sumCost (sampleCost x y) p}
          (w ^ 2) := by
  obtain ⟨-, -, -, hx, hy, -⟩ := validatePair_ok hv
  obtain ⟨v, h1, h2, h3⟩ := C01_dtw_squared x y hx hy code radius slope mask hmask
  refine ⟨sqrtTop v, ?_, ?_, fun w => ?_⟩
  · simp [dtw, dtwSq, hv, h1, bind, Except.bind, pure, Except.pure]
  · rw [← h2]
    cases v with
    | top => simp [sqrtTop]
    | coe v => simp [sqrtTop]
  · cases v with
    | top =>
      constructor
      · intro h; simp [sqrtTop] at h
      · rintro ⟨-, h⟩
        exact absurd ((h3 (w^2)).2 h) WithTop.top_ne_coe
    | coe v =>
      have hnn : 0 ≤ v := by
        obtain ⟨⟨p, -, rfl⟩, -⟩ := (h3 v).1 rfl
        exact sumCost_nonneg (sampleCost_nonneg x y) p
      rw [← h3]
      simp only [sqrtTop, WithTop.map_coe, WithTop.coe_inj]
      constructor
      · rintro rfl
        exact ⟨Real.sqrt_nonneg _, (Real.sq_sqrt hnn).symm⟩
      · rintro ⟨hw, rfl⟩
        exact Real.sqrt_sq hw

/-! Concrete instances. -/

/-- Data meeting the hypotheses of `C01_dtw_squared`, with the value it determines. -/
example : IsLeast {c | ∃ p, Admissible 4 4 (Mat.full true) p ∧
    c = sumCost (sampleCost ([[0],[1],[2],[5]] : List (List ℤ)) [[0],[2],[3],[3]]) p} 6 := by
  obtain ⟨v, h1, -, h3⟩ := C01_dtw_squared ([[0],[1],[2],[5]] : List (List ℤ)) [[0],[2],[3],[3]]
    (by simp) (by simp) 0 none none (Mat.full true) rfl
  have : dtwSqGeneric ([[0],[1],[2],[5]] : List (List ℤ)) [[0],[2],[3],[3]] 0 none none
      = .ok ((6 : ℤ) : WithTop ℤ) := rfl
  rw [this] at h1
  exact (h3 6).1 (Except.ok.inj h1).symm

/-- An infeasible mask gives `+inf`: only cell `(0, 0)` of a `2 × 2` table is allowed. -/
example : accFromDist 2 2 (fun i j => i == 0 && j == 0) (fun _ _ => (1 : ℤ)) 1 1 = ⊤ := rfl

/-- A monotone, non-identity rounding meeting the hypothesis of `C01_rounded_addition`: truncation
to even integers. -/
example : Monotone (fun x : ℤ => 2 * (x / 2)) := by
  intro a b h
  have : a / 2 ≤ b / 2 := Int.ediv_le_ediv (by norm_num) h
  simp only
  omega

/-- Inputs accepted by `validatePair`, with one padded NaN row. -/
example : validatePair (TsInput.oneD [some (0:ℤ), some 1, none]) (.oneD [some 2]) (some "sakoe_chiba")
    = .ok ([[0], [1]], [[2]], 2) := rfl

end Verif
