import Verif.Proofs.Rounded
import Verif.Props.C04
import Verif.Props.C10
import Mathlib.Tactic.NormNum
import Mathlib.Data.Rat.Floor
/-!
# C98 — DTW and the Fréchet distance in rounded arithmetic

How far the computed values are from the exact ones, and which exact laws survive the rounding of
every operation.
-/
set_option linter.unusedSectionVars false
namespace Verif
open Spec

section
variable {K : Type} [Field K] [LinearOrder K] [IsStrictOrderedRing K]

/-- The square of DTW: `+inf` exactly when the exact value is, and otherwise at most
`n + m + d + 2` relative errors, `n` and `m` the lengths and `d` the number of features. -/
theorem C98_dtw_squared_error {rnd : K → K} {u : K} (hr : RelErr rnd u) (hm : Monotone rnd)
    (hu : 0 ≤ u) (hu1 : u ≤ 1) (x y : List (List K)) (hx : x ≠ []) (hy : y ≠ []) (d : ℕ)
    (hd : ∀ r ∈ x, r.length ≤ d) (gc : ℕ) (radius : Option ℕ) (slope : Option ℚ) (v : WithTop K)
    (h : dtwSqGeneric x y gc radius slope = .ok v) :
    ∃ v', rDtwSq rnd x y gc radius slope = .ok v' ∧ (v' = ⊤ ↔ v = ⊤) ∧
      ∀ w : K, v = (w : WithTop K) → ∃ w' : K, v' = (w' : WithTop K) ∧
        NearRel u (x.length + y.length + d + 2) w' w := by
  have hx' := List.length_pos_iff.2 hx
  have hy' := List.length_pos_iff.2 hy
  unfold dtwSqGeneric at h
  unfold rDtwSq
  cases hmask : computeMask x.length y.length gc radius slope with
  | error e => simp [hmask, bind, Except.bind] at h
  | ok mask =>
    simp only [hmask, bind, Except.bind, pure, Except.pure, Except.ok.injEq] at h
    refine ⟨_, rfl, ?_⟩
    have s := lastEntry_spec (zero := 0) (rAdd_mono hm) (rAdd_top rnd) hx' hy' mask
      (rLocalCost rnd x y)
    have t := accFromDist_spec mask (sampleCost x y) x.length y.length (x.length - 1)
      (y.length - 1) (by omega) (by omega)
    rw [show x.length - 1 + 1 = x.length by omega, show y.length - 1 + 1 = y.length by omega] at t
    have ev : accFromDist x.length y.length mask (sampleCost x y) (x.length - 1) (y.length - 1) = v := by
      rw [← h, ← localCost_eq]; rfl
    rw [ev] at t
    have near := fun p => rPathCost_near hr hu hu1 (sampleCost_nonneg x y)
      (rLocalCost_near hr hu hu1 x y d hd) p
    have hlen : ∀ p, Admissible x.length y.length mask p →
        d + 3 + p.length ≤ x.length + y.length + d + 2 := by
      intro p hp
      have := hp.1.length_le
      omega
    have hnn : ∀ p, 0 ≤ sumCost (sampleCost x y) p := sumCost_nonneg (sampleCost_nonneg x y)
    change (lastEntry (accTableWith (rAdd rnd) 0 x.length y.length mask (rLocalCost rnd x y)).tail
      x.length y.length = ⊤ ↔ v = ⊤) ∧ _
    refine ⟨⟨fun hv' => ?_, fun hv => ?_⟩, fun w hw => ?_⟩
    · rw [t.1]
      rintro ⟨p, hp⟩
      obtain ⟨w', e, -⟩ := near p
      have := s.1 p hp
      rw [hv', e] at this
      exact absurd (top_le_iff.1 this) WithTop.coe_ne_top
    · by_contra hf
      obtain ⟨p, hp, -⟩ := s.2 hf
      exact (t.1.1 hv) ⟨p, hp⟩
    · obtain ⟨⟨p, hp, hpw⟩, hlow⟩ := (t.2 w).1 hw
      obtain ⟨c', e, hc⟩ := near p
      have hle := s.1 p hp
      rw [e] at hle
      have hfin : lastEntry (accTableWith (rAdd rnd) 0 x.length y.length mask
          (rLocalCost rnd x y)).tail x.length y.length ≠ ⊤ := by
        intro hf
        rw [hf] at hle
        exact absurd (top_le_iff.1 hle) WithTop.coe_ne_top
      obtain ⟨q, hq, eq⟩ := s.2 hfin
      obtain ⟨w', e', hc'⟩ := near q
      refine ⟨w', ?_, ?_, ?_⟩
      · change lastEntry (accTableWith (rAdd rnd) 0 x.length y.length mask
          (rLocalCost rnd x y)).tail x.length y.length = _
        rw [← eq, e']
      · have h1 : w ≤ sumCost (sampleCost x y) q := hlow ⟨q, hq, rfl⟩
        exact (mul_le_mul_of_nonneg_left h1 (pow_nonneg (by linarith) _)).trans
          (hc'.mono hu hu1 (hnn q) (hlen q hq)).1
      · rw [← eq, e', WithTop.coe_le_coe] at hle
        rw [hpw]
        exact hle.trans (hc.mono hu hu1 (hnn p) (hlen p hp)).2

/-- The square of the Fréchet distance: at most `d + 3` relative errors, whatever the lengths. -/
theorem C98_frechet_squared_error {rnd : K → K} {u : K} (hr : RelErr rnd u)
    (hu : 0 ≤ u) (hu1 : u ≤ 1) (x y : List (List K)) (hx : x ≠ []) (hy : y ≠ []) (d : ℕ)
    (hd : ∀ r ∈ x, r.length ≤ d) (gc : ℕ) (radius : Option ℕ) (slope : Option ℚ) (v : WithTop K)
    (h : frechetSqGeneric x y gc radius slope = .ok v) :
    ∃ v', rFrechetSq rnd x y gc radius slope = .ok v' ∧ (v' = ⊤ ↔ v = ⊤) ∧
      ∀ w : K, v = (w : WithTop K) → ∃ w' : K, v' = (w' : WithTop K) ∧ NearRel u (d + 3) w' w := by
  have hx' := List.length_pos_iff.2 hx
  have hy' := List.length_pos_iff.2 hy
  unfold frechetSqGeneric at h
  unfold rFrechetSq
  cases hmask : computeMask x.length y.length gc radius slope with
  | error e => simp [hmask, bind, Except.bind] at h
  | ok mask =>
    simp only [hmask, bind, Except.bind, pure, Except.pure, Except.ok.injEq] at h
    refine ⟨_, rfl, ?_⟩
    have near := rLocalCost_near hr hu hu1 x y d hd
    have hnn' : ∀ i j, 0 ≤ rLocalCost rnd x y i j := fun i j =>
      (near i j).nonneg hu1 (sampleCost_nonneg x y i j)
    have s := frechetAccFromDist_spec mask (rLocalCost rnd x y) hnn' x.length y.length
      (x.length - 1) (y.length - 1) (by omega) (by omega)
    have t := frechetAccFromDist_spec mask (sampleCost x y) (sampleCost_nonneg x y) x.length
      y.length (x.length - 1) (y.length - 1) (by omega) (by omega)
    rw [show x.length - 1 + 1 = x.length by omega, show y.length - 1 + 1 = y.length by omega] at s t
    have ev : frechetAccFromDist x.length y.length mask (sampleCost x y) (x.length - 1)
        (y.length - 1) = v := by
      rw [← h, ← localCost_eq]; rfl
    rw [ev] at t
    change (frechetAccFromDist x.length y.length mask (rLocalCost rnd x y) (x.length - 1)
        (y.length - 1) = ⊤ ↔ v = ⊤) ∧ ∀ w : K, v = (w : WithTop K) → ∃ w' : K,
        frechetAccFromDist x.length y.length mask (rLocalCost rnd x y) (x.length - 1)
        (y.length - 1) = (w' : WithTop K) ∧ _
    refine ⟨by rw [s.1, t.1], fun w hw => ?_⟩
    obtain ⟨⟨p, hp, hpw⟩, hlow⟩ := (t.2 w).1 hw
    cases hv' : frechetAccFromDist x.length y.length mask (rLocalCost rnd x y) (x.length - 1)
        (y.length - 1) with
    | top => exact absurd ⟨p, hp⟩ (s.1.1 hv')
    | coe w' =>
      obtain ⟨⟨q, hq, hqw⟩, hlow'⟩ := (s.2 w').1 hv'
      refine ⟨w', rfl, ?_, ?_⟩
      · obtain ⟨a, ha⟩ := exists_isMaxCost (sampleCost x y) (sampleCost_nonneg x y) hq
        have h1 : w ≤ a := hlow ⟨q, hq, ha⟩
        obtain ⟨⟨c, hc, rfl⟩, -⟩ := ha
        exact (mul_le_mul_of_nonneg_left h1 (pow_nonneg (by linarith) _)).trans
          ((near c.1 c.2).1.trans (hqw.2 c hc))
      · obtain ⟨a, ha⟩ := exists_isMaxCost (rLocalCost rnd x y) hnn' hp
        have h1 : w' ≤ a := hlow' ⟨p, hp, ha⟩
        obtain ⟨⟨c, hc, rfl⟩, -⟩ := ha
        exact h1.trans ((near c.1 c.2).2.trans
          (mul_le_mul_of_nonneg_left (hpw.2 c hc) (pow_nonneg (by linarith) _)))

/-- The returned path: a warping path whose rounded cost is the returned value, and whose exact
cost is optimal up to the relative errors. -/
theorem C98_path_nearly_optimal {rnd : K → K} {u : K} (hr : RelErr rnd u) (hm : Monotone rnd)
    (hu : 0 ≤ u) (hu1 : u ≤ 1) (x y : List (List K)) (hx : x ≠ []) (hy : y ≠ []) (d : ℕ)
    (hd : ∀ r ∈ x, r.length ≤ d) (gc : ℕ) (radius : Option ℕ) (slope : Option ℚ) (mask : Mat Bool)
    (hmask : computeMask x.length y.length gc radius slope = .ok mask)
    (hfeas : ∃ p, Admissible x.length y.length mask p)
    (am : WithTop K → WithTop K → WithTop K → ℕ) (ham : IsArgmin3 am) :
    ∃ v p, rDtwPathSq rnd x y gc radius slope am = .ok (v, some p) ∧
      rDtwSq rnd x y gc radius slope = .ok v ∧
      Admissible x.length y.length mask p ∧
      pathCost (rAdd rnd) 0 (rLocalCost rnd x y) p = v ∧
      ∀ q, Admissible x.length y.length mask q →
        (1 - u) ^ (x.length + y.length + d + 2) * sumCost (sampleCost x y) p ≤
          (1 + u) ^ (x.length + y.length + d + 2) * sumCost (sampleCost x y) q := by
  have hx' := List.length_pos_iff.2 hx
  have hy' := List.length_pos_iff.2 hy
  have s := lastEntry_spec (zero := 0) (rAdd_mono hm) (rAdd_top rnd) hx' hy' mask
    (rLocalCost rnd x y)
  have near := fun p => rPathCost_near hr hu hu1 (sampleCost_nonneg x y)
    (rLocalCost_near hr hu hu1 x y d hd) p
  have hnn : ∀ p, 0 ≤ sumCost (sampleCost x y) p := sumCost_nonneg (sampleCost_nonneg x y)
  have hlen : ∀ p, Admissible x.length y.length mask p →
      d + 3 + p.length ≤ x.length + y.length + d + 2 := by
    intro p hp
    have := hp.1.length_le
    omega
  have hfin : lastEntry (accTableWith (rAdd rnd) 0 x.length y.length mask
      (rLocalCost rnd x y)).tail x.length y.length ≠ ⊤ := by
    obtain ⟨p, hp⟩ := hfeas
    obtain ⟨w', e, -⟩ := near p
    intro hf
    have := s.1 p hp
    rw [hf, e] at this
    exact absurd (top_le_iff.1 this) WithTop.coe_ne_top
  obtain ⟨p, hp, hadm, hc⟩ := C02_path_optimal (rAdd rnd) 0 (rAdd_top rnd) am ham x.length y.length
    hx' hy' mask (rLocalCost rnd x y) hfin
  refine ⟨_, p, ?_, ?_, hadm, hc, fun q hq => ?_⟩
  · simp only [rDtwPathSq, hmask, bind, Except.bind, pure, Except.pure, rAccumulated, hp]
  · simp only [rDtwSq, hmask, bind, Except.bind, pure, Except.pure, rAccumulated]
  · obtain ⟨wp, ep, np⟩ := near p
    obtain ⟨wq, eq, nq⟩ := near q
    have hle := s.1 q hq
    rw [← hc, ep, eq, WithTop.coe_le_coe] at hle
    exact (np.mono hu hu1 (hnn p) (hlen p hadm)).1.trans
      (hle.trans (nq.mono hu hu1 (hnn q) (hlen q hq)).2)

/-- Linear form of the bound: `N` relative errors with `N u ≤ 1/2` are a relative error of at most
`2 N u`. -/
theorem C98_near_linear {u : K} {N : ℕ} {w' w : K} (hu : 0 ≤ u) (hN : N * u ≤ 1 / 2) (hw : 0 ≤ w)
    (h : NearRel u N w' w) : |w' - w| ≤ 2 * N * u * w := by
  rcases Nat.eq_zero_or_pos N with rfl | hpos
  · have : w' = w := le_antisymm (by simpa using h.2) (by simpa using h.1)
    simp [this]
  have hN1 : (1 : K) ≤ N := by exact_mod_cast hpos
  have hu1 : u ≤ 1 := by nlinarith
  have hb : 1 - N * u ≤ (1 - u) ^ N := by
    have := one_add_mul_le_pow (a := -u) (by linarith) N
    have e : 1 + -u = 1 - u := by ring
    rw [e] at this
    linarith
  have hprod : (1 + u) ^ N * (1 - u) ^ N ≤ 1 := by
    rw [← mul_pow]
    exact pow_le_one₀ (by nlinarith) (by nlinarith)
  have ht : (0 : K) ≤ N * u := by positivity
  have hup : (1 + u) ^ N ≤ 1 + 2 * (N * u) := by
    have hp : (0 : K) ≤ (1 + u) ^ N := by positivity
    have h1 : (1 + u) ^ N * (1 - N * u) ≤ 1 := (mul_le_mul_of_nonneg_left hb hp).trans hprod
    by_contra hc
    push Not at hc
    nlinarith
  have h1 := mul_le_mul_of_nonneg_right hup hw
  have h2 := mul_le_mul_of_nonneg_right hb hw
  rw [abs_le]
  constructor
  · nlinarith [h.1]
  · nlinarith [h.2]

end

/-- A rounded square root: two more relative errors on the square. -/
theorem near_sqrt {rnd : ℝ → ℝ} {u : ℝ} (hr : RelErr rnd u) (hu1 : u ≤ 1) {N : ℕ}
    {s' s : ℝ} (hs : 0 ≤ s) (h : NearRel u N s' s) :
    0 ≤ rnd (Real.sqrt s') ∧ NearRel u (N + 2) (rnd (Real.sqrt s') ^ 2) s := by
  have hs' := h.nonneg hu1 hs
  have hq := Real.sqrt_nonneg s'
  obtain ⟨h1, h2⟩ := hr.bounds hq
  have h0 : 0 ≤ (1 - u) * Real.sqrt s' := mul_nonneg (by linarith) hq
  refine ⟨h0.trans h1, ?_, ?_⟩
  · calc (1 - u) ^ (N + 2) * s = (1 - u) ^ 2 * ((1 - u) ^ N * s) := by ring
      _ ≤ (1 - u) ^ 2 * s' := mul_le_mul_of_nonneg_left h.1 (sq_nonneg _)
      _ = ((1 - u) * Real.sqrt s') ^ 2 := by rw [mul_pow, Real.sq_sqrt hs']
      _ ≤ _ := pow_le_pow_left₀ h0 h1 2
  · calc rnd (Real.sqrt s') ^ 2 ≤ ((1 + u) * Real.sqrt s') ^ 2 := pow_le_pow_left₀ (h0.trans h1) h2 2
      _ = (1 + u) ^ 2 * s' := by rw [mul_pow, Real.sq_sqrt hs']
      _ ≤ (1 + u) ^ 2 * ((1 + u) ^ N * s) := mul_le_mul_of_nonneg_left h.2 (sq_nonneg _)
      _ = _ := by ring

theorem sqrt_error {rnd : ℝ → ℝ} {u : ℝ} (hr : RelErr rnd u) (hu : 0 ≤ u) {N : ℕ}
    (hN : ((N + 2 : ℕ) : ℝ) * u ≤ 1 / 2) {s' s : ℝ} (hs : 0 ≤ s) (h : NearRel u N s' s) :
    |rnd (Real.sqrt s') - Real.sqrt s| ≤ 2 * ((N + 2 : ℕ) : ℝ) * u * Real.sqrt s := by
  have hN1 : (1 : ℝ) ≤ ((N + 2 : ℕ) : ℝ) := by push_cast; linarith [Nat.cast_nonneg (α := ℝ) N]
  have hu1 : u ≤ 1 := by nlinarith
  obtain ⟨h0, h2⟩ := near_sqrt hr hu1 hs h
  have hl := C98_near_linear hu hN hs h2
  set w' := rnd (Real.sqrt s')
  set w := Real.sqrt s
  have hw : 0 ≤ w := Real.sqrt_nonneg s
  have hsq : s = w ^ 2 := (Real.sq_sqrt hs).symm
  rw [hsq, show w' ^ 2 - w ^ 2 = (w' - w) * (w' + w) by ring, abs_mul,
    abs_of_nonneg (by linarith : 0 ≤ w' + w)] at hl
  rcases hw.eq_or_lt with hw0 | hw0
  · rw [← hw0] at hl ⊢
    simp only [sub_zero, add_zero, mul_zero, ne_eq, OfNat.ofNat_ne_zero, not_false_eq_true,
      zero_pow] at hl ⊢
    rw [abs_of_nonneg h0] at hl ⊢
    nlinarith
  · have h3 : |w' - w| * w ≤ 2 * ((N + 2 : ℕ) : ℝ) * u * w * w := by
      have := mul_le_mul_of_nonneg_left (by linarith : w ≤ w' + w) (abs_nonneg (w' - w))
      nlinarith
    exact le_of_mul_le_mul_right h3 hw0

/-- The public `dtw`: same errors and infinities as the exact function, and otherwise a relative
error of at most `2 (n + m + d + 4) u`. -/
theorem C98_dtw_error {rnd : ℝ → ℝ} {u : ℝ} (hr : RelErr rnd u) (hm : Monotone rnd) (hu : 0 ≤ u)
    (s1 s2 : TsInput (Option ℝ)) (g : Option String) (radius : Option ℕ) (slope : Option ℚ)
    (x y : List (List ℝ)) (code : ℕ) (hv : validatePair s1 s2 g = .ok (x, y, code)) (d : ℕ)
    (hd : ∀ r ∈ x, r.length ≤ d)
    (hN : ((x.length + y.length + d + 4 : ℕ) : ℝ) * u ≤ 1 / 2) (v : WithTop ℝ)
    (h : dtw s1 s2 g radius slope = .ok v) :
    ∃ v', rDtw rnd s1 s2 g radius slope = .ok v' ∧ (v' = ⊤ ↔ v = ⊤) ∧
      ∀ w : ℝ, v = (w : WithTop ℝ) → ∃ w' : ℝ, v' = (w' : WithTop ℝ) ∧
        |w' - w| ≤ 2 * ((x.length + y.length + d + 4 : ℕ) : ℝ) * u * w := by
  obtain ⟨-, -, -, hx, hy, -⟩ := validatePair_ok hv
  have hu1 : u ≤ 1 := by
    have : (1 : ℝ) ≤ ((x.length + y.length + d + 4 : ℕ) : ℝ) := by exact_mod_cast (by omega)
    nlinarith
  simp only [dtw, dtwSq, hv, bind, Except.bind, pure, Except.pure] at h
  simp only [rDtw, hv, bind, Except.bind, pure, Except.pure]
  cases hs : dtwSqGeneric x y code radius slope with
  | error e => simp [hs] at h
  | ok c =>
    rw [hs] at h
    simp only [Except.ok.injEq] at h
    obtain ⟨c', hc', htop, hfin⟩ := C98_dtw_squared_error hr hm hu hu1 x y hx hy d hd code radius
      slope c hs
    have hnn := C04_nonneg x y hx hy code radius slope c hs
    rw [hc']
    refine ⟨_, rfl, ?_, fun w hw => ?_⟩
    · rw [← h]
      simp only [rSqrt, sqrtTop, mapTop_top, htop]
    · cases c with
      | top => rw [← h] at hw; simp [sqrtTop] at hw
      | coe c =>
        obtain ⟨w', rfl, hnear⟩ := hfin c rfl
        rw [← h] at hw
        simp only [sqrtTop, WithTop.map_coe, WithTop.coe_inj] at hw
        subst hw
        exact ⟨rnd (Real.sqrt w'), rfl, sqrt_error hr hu hN (WithTop.coe_nonneg.1 hnn) hnear⟩

/-- The public `frechet`: a relative error of at most `2 (d + 5) u`, whatever the lengths. -/
theorem C98_frechet_error {rnd : ℝ → ℝ} {u : ℝ} (hr : RelErr rnd u) (hu : 0 ≤ u)
    (s1 s2 : TsInput (Option ℝ)) (g : Option String) (radius : Option ℕ) (slope : Option ℚ)
    (x y : List (List ℝ)) (code : ℕ) (hv : validatePair s1 s2 g = .ok (x, y, code)) (d : ℕ)
    (hd : ∀ r ∈ x, r.length ≤ d)
    (hN : ((d + 5 : ℕ) : ℝ) * u ≤ 1 / 2) (v : WithTop ℝ)
    (h : frechet s1 s2 g radius slope = .ok v) :
    ∃ v', rFrechet rnd s1 s2 g radius slope = .ok v' ∧ (v' = ⊤ ↔ v = ⊤) ∧
      ∀ w : ℝ, v = (w : WithTop ℝ) → ∃ w' : ℝ, v' = (w' : WithTop ℝ) ∧
        |w' - w| ≤ 2 * ((d + 5 : ℕ) : ℝ) * u * w := by
  obtain ⟨-, -, -, hx, hy, -⟩ := validatePair_ok hv
  have hu1 : u ≤ 1 := by
    have : (1 : ℝ) ≤ ((d + 5 : ℕ) : ℝ) := by exact_mod_cast (by omega)
    nlinarith
  simp only [frechet, frechetSq, hv, bind, Except.bind, pure, Except.pure] at h
  simp only [rFrechet, hv, bind, Except.bind, pure, Except.pure]
  cases hs : frechetSqGeneric x y code radius slope with
  | error e => simp [hs] at h
  | ok c =>
    rw [hs] at h
    simp only [Except.ok.injEq] at h
    obtain ⟨c', hc', htop, hfin⟩ := C98_frechet_squared_error hr hu hu1 x y hx hy d hd code radius
      slope c hs
    rw [hc']
    refine ⟨_, rfl, ?_, fun w hw => ?_⟩
    · rw [← h]
      simp only [rSqrt, sqrtTop, mapTop_top, htop]
    · cases c with
      | top => rw [← h] at hw; simp [sqrtTop] at hw
      | coe c =>
        obtain ⟨w', rfl, hnear⟩ := hfin c rfl
        rw [← h] at hw
        simp only [sqrtTop, WithTop.map_coe, WithTop.coe_inj] at hw
        subst hw
        have hnn : 0 ≤ c := by
          unfold frechetSqGeneric at hs
          cases hmask : computeMask x.length y.length code radius slope with
          | error e => simp [hmask, bind, Except.bind] at hs
          | ok mask =>
            simp only [hmask, bind, Except.bind, pure, Except.pure, Except.ok.injEq] at hs
            have h1 := List.length_pos_iff.2 hx
            have h2 := List.length_pos_iff.2 hy
            have := lastEntry_nonneg (add := frechetStep) frechetStep_mono frechetStep_top h1 h2 mask
              (localCost x y) (fun i j c hc => le_max_of_le_right hc)
            rw [show lastEntry (accTableWith frechetStep 0 x.length y.length mask
              (localCost x y)).tail x.length y.length = (c : WithTop ℝ) from hs] at this
            exact WithTop.coe_nonneg.1 this
        exact ⟨rnd (Real.sqrt w'), rfl, sqrt_error hr hu hN hnn hnear⟩

section
variable {K : Type} [CommRing K] [LinearOrder K] [IsStrictOrderedRing K]

/-- Without rounding the rounded functions are the exact ones. -/
theorem C98_exact (x y : List (List K)) (gc : ℕ) (radius : Option ℕ) (slope : Option ℚ) :
    rDtwSq id x y gc radius slope = dtwSqGeneric x y gc radius slope ∧
    rFrechetSq id x y gc radius slope = frechetSqGeneric x y gc radius slope := by
  have hl : rLocalCost (id : K → K) x y = localCost x y := by
    funext i j
    simp only [rLocalCost, localCost, rSqDist, sqDist, id]
    generalize x.getD i [] = a
    generalize y.getD j [] = b
    generalize (0 : K) = s
    induction a generalizing b s with
    | nil => rfl
    | cons u a ih =>
      cases b with
      | nil => rfl
      | cons v b => exact ih b _
  have ha : rAdd (id : K → K) = fun (d : K) (c : WithTop K) => (d : WithTop K) + c := by
    funext d c
    cases c <;> rfl
  constructor
  · simp only [rDtwSq, dtwSqGeneric, rAccumulated, accumulatedMatrix, accFromDist, hl, ha]
  · simp only [rFrechetSq, frechetSqGeneric, rFrechetAccumulated, frechetAccumulatedMatrix, hl]

theorem rLocalCost_nonneg {rnd : K → K} (hr : OddMono rnd) (x y : List (List K)) (i j : ℕ) :
    0 ≤ rLocalCost rnd x y i j := rSqDist_nonneg hr.mono hr.zero _ _

/-- Exchanging the series and transposing the mask changes nothing, not even the last bit. -/
theorem C98_transpose {rnd : K → K} (hr : OddMono rnd) (x y : List (List K)) (hx : x ≠ [])
    (hy : y ≠ []) (mask mask' : Mat Bool)
    (hm : ∀ i < x.length, ∀ j < y.length, mask' j i = mask i j) :
    lastEntry (rAccumulated rnd x y mask) x.length y.length =
      lastEntry (rAccumulated rnd y x mask') y.length x.length ∧
    lastEntry (rFrechetAccumulated rnd x y mask) x.length y.length =
      lastEntry (rFrechetAccumulated rnd y x mask') y.length x.length := by
  have key : ∀ (add : K → WithTop K → WithTop K), (∀ d, Monotone (add d)) → (∀ d, add d ⊤ = ⊤) →
      ∀ (x y : List (List K)), x ≠ [] → y ≠ [] → ∀ mask mask' : Mat Bool,
      (∀ i < x.length, ∀ j < y.length, mask' j i = mask i j) →
      lastEntry (accTableWith add 0 x.length y.length mask (rLocalCost rnd x y)).tail
          x.length y.length ≤
        lastEntry (accTableWith add 0 y.length x.length mask' (rLocalCost rnd y x)).tail
          y.length x.length := by
    intro add h1 h2 x y hx hy mask mask' hm
    have hx' := List.length_pos_iff.2 hx
    have hy' := List.length_pos_iff.2 hy
    apply lastEntry_le h1 h2 hx' hy' hy' hx'
    rintro p ⟨hp, hin⟩
    refine ⟨p.map Prod.swap, ⟨hp.swap, ?_⟩, ?_⟩
    · intro c hc
      simp only [List.mem_map] at hc
      obtain ⟨c, hc, rfl⟩ := hc
      have hb := hp.mem_lt c hc
      simp only [Prod.fst_swap, Prod.snd_swap]
      rw [← hm c.2 hb.2 c.1 hb.1]
      exact hin c hc
    · have e : rLocalCost rnd x y = fun i j => rLocalCost rnd y x j i := by
        funext i j
        exact rSqDist_comm hr.odd _ _
      rw [e, pathCost_swap]
  have hm' : ∀ i < y.length, ∀ j < x.length, mask j i = mask' i j :=
    fun i hi j hj => (hm j hj i hi).symm
  constructor
  · exact le_antisymm (key _ (rAdd_mono hr.mono) (rAdd_top rnd) x y hx hy mask mask' hm)
      (key _ (rAdd_mono hr.mono) (rAdd_top rnd) y x hy hx mask' mask hm')
  · exact le_antisymm (key _ frechetStep_mono frechetStep_top x y hx hy mask mask' hm)
      (key _ frechetStep_mono frechetStep_top y x hy hx mask' mask hm')

/-- Both distances are symmetric in rounded arithmetic (no constraint, Sakoe-Chiba band). -/
theorem C98_symm {rnd : K → K} (hr : OddMono rnd) (x y : List (List K)) (hx : x ≠ [])
    (hy : y ≠ []) (gc : ℕ) (hgc : gc = 0 ∨ gc = 2) (radius : Option ℕ) :
    rDtwSq rnd x y gc radius none = rDtwSq rnd y x gc radius none ∧
    rFrechetSq rnd x y gc radius none = rFrechetSq rnd y x gc radius none := by
  obtain ⟨mask, mask', h1, h2, h3⟩ : ∃ mask mask',
      computeMask x.length y.length gc radius none = .ok mask ∧
      computeMask y.length x.length gc radius none = .ok mask' ∧
      ∀ i < x.length, ∀ j < y.length, mask' j i = mask i j := by
    have hband : ∀ r, ∀ i < x.length, ∀ j < y.length,
        sakoeChibaMask y.length x.length r j i = sakoeChibaMask x.length y.length r i j := by
      intro r i hi j hj
      rw [Bool.eq_iff_iff, sakoeChibaMask_iff _ _ _ _ _ hi hj, sakoeChibaMask_iff _ _ _ _ _ hj hi]
      simp only [InBand]
      omega
    rcases hgc with rfl | rfl <;> cases radius with
    | none => first | exact ⟨_, _, rfl, rfl, fun _ _ _ _ => rfl⟩ | exact ⟨_, _, rfl, rfl, hband _⟩
    | some r => exact ⟨_, _, rfl, rfl, hband _⟩
  obtain ⟨t1, t2⟩ := C98_transpose hr x y hx hy mask mask' h3
  simp only [rDtwSq, rFrechetSq, h1, h2, bind, Except.bind, pure, Except.pure, t1, t2, and_self]

/-- A series is at distance exactly zero of itself, as soon as the mask allows the diagonal. -/
theorem C98_self {rnd : K → K} (hr : OddMono rnd) (x : List (List K)) (hx : x ≠ [])
    (mask : Mat Bool) (hd : ∀ i < x.length, mask i i = true) :
    lastEntry (rAccumulated rnd x x mask) x.length x.length = 0 ∧
    lastEntry (rFrechetAccumulated rnd x x mask) x.length x.length = 0 := by
  have hx' := List.length_pos_iff.2 hx
  have hadm : Admissible x.length x.length mask ((List.range x.length).map fun i => (i, i)) := by
    refine ⟨?_, ?_⟩
    · have := diag_path (x.length - 1)
      rw [show x.length - 1 + 1 = x.length by omega] at this
      exact isWarpingPath_iff.2 ⟨x.length - 1, x.length - 1, by omega, by omega, this⟩
    · intro c hc
      simp only [List.mem_map, List.mem_range] at hc
      obtain ⟨i, hi, rfl⟩ := hc
      exact hd i hi
  have h0 : ∀ add : K → WithTop K → WithTop K, add 0 0 = 0 →
      pathCost add 0 (rLocalCost rnd x x) ((List.range x.length).map fun i => (i, i)) = 0 := by
    intro add hadd
    induction x.length with
    | zero => rfl
    | succ n ih =>
      rw [List.range_succ, List.map_append, List.map_singleton, pathCost_append, ih]
      rw [show rLocalCost rnd x x n n = 0 from rSqDist_self hr.zero _, hadd]
  have hn := rLocalCost_nonneg hr x x
  constructor
  · apply le_antisymm
    · exact ((lastEntry_spec (zero := 0) (rAdd_mono hr.mono) (rAdd_top rnd) hx' hx' mask
        (rLocalCost rnd x x)).1 _ hadm).trans (h0 _ (by simp [rAdd, hr.zero])).le
    · exact lastEntry_nonneg (rAdd_mono hr.mono) (rAdd_top rnd) hx' hx' mask _
        (fun i j c hc => rAdd_nonneg hr (hn i j) hc)
  · apply le_antisymm
    · exact ((lastEntry_spec (zero := 0) frechetStep_mono frechetStep_top hx' hx' mask
        (rLocalCost rnd x x)).1 _ hadm).trans (h0 _ (by simp [frechetStep])).le
    · exact lastEntry_nonneg frechetStep_mono frechetStep_top hx' hx' mask _
        (fun i j c hc => le_max_of_le_right hc)

/-- Values are never negative. -/
theorem C98_nonneg {rnd : K → K} (hr : OddMono rnd) (x y : List (List K)) (hx : x ≠ [])
    (hy : y ≠ []) (gc : ℕ) (radius : Option ℕ) (slope : Option ℚ) (v : WithTop K)
    (h : rDtwSq rnd x y gc radius slope = .ok v ∨ rFrechetSq rnd x y gc radius slope = .ok v) :
    0 ≤ v := by
  have hx' := List.length_pos_iff.2 hx
  have hy' := List.length_pos_iff.2 hy
  unfold rDtwSq rFrechetSq at h
  cases hmask : computeMask x.length y.length gc radius slope with
  | error e => simp [hmask, bind, Except.bind] at h
  | ok mask =>
    simp only [hmask, bind, Except.bind, pure, Except.pure, Except.ok.injEq] at h
    rcases h with rfl | rfl
    · exact lastEntry_nonneg (rAdd_mono hr.mono) (rAdd_top rnd) hx' hy' mask _
        (fun i j c hc => rAdd_nonneg hr (rLocalCost_nonneg hr x y i j) hc)
    · exact lastEntry_nonneg frechetStep_mono frechetStep_top hx' hy' mask _
        (fun i j c hc => le_max_of_le_right hc)

/-- Allowing more cells never raises the computed value. -/
theorem C98_mask_mono {rnd : K → K} (hr : OddMono rnd) (x y : List (List K)) (hx : x ≠ [])
    (hy : y ≠ []) (mask mask' : Mat Bool)
    (hm : ∀ i < x.length, ∀ j < y.length, mask i j = true → mask' i j = true) :
    lastEntry (rAccumulated rnd x y mask') x.length y.length ≤
      lastEntry (rAccumulated rnd x y mask) x.length y.length ∧
    lastEntry (rFrechetAccumulated rnd x y mask') x.length y.length ≤
      lastEntry (rFrechetAccumulated rnd x y mask) x.length y.length := by
  have hx' := List.length_pos_iff.2 hx
  have hy' := List.length_pos_iff.2 hy
  have hadm : ∀ p, Admissible x.length y.length mask p → Admissible x.length y.length mask' p := by
    rintro p ⟨hp, hin⟩
    exact ⟨hp, fun c hc => hm c.1 (hp.mem_lt c hc).1 c.2 (hp.mem_lt c hc).2 (hin c hc)⟩
  exact ⟨lastEntry_le (rAdd_mono hr.mono) (rAdd_top rnd) hx' hy' hx' hy'
      fun p hp => ⟨p, hadm p hp, le_rfl⟩,
    lastEntry_le frechetStep_mono frechetStep_top hx' hy' hx' hy'
      fun p hp => ⟨p, hadm p hp, le_rfl⟩⟩

/-- A change of unit by a factor the rounding commutes with (a power of two in binary floating
point) multiplies the squared values exactly. -/
theorem C98_scale {rnd : K → K} (hr : OddMono rnd) (c : K) (hc : ∀ a, rnd (c * a) = c * rnd a)
    (x y : List (List K)) (hx : x ≠ []) (hy : y ≠ []) (gc : ℕ) (radius : Option ℕ)
    (slope : Option ℚ) :
    rDtwSq rnd (x.map (·.map (c * ·))) (y.map (·.map (c * ·))) gc radius slope =
      (rDtwSq rnd x y gc radius slope).map (WithTop.map (c ^ 2 * ·)) ∧
    rFrechetSq rnd (x.map (·.map (c * ·))) (y.map (·.map (c * ·))) gc radius slope =
      (rFrechetSq rnd x y gc radius slope).map (WithTop.map (c ^ 2 * ·)) := by
  have hx' := List.length_pos_iff.2 hx
  have hy' := List.length_pos_iff.2 hy
  have hc2 : ∀ a, rnd (c ^ 2 * a) = c ^ 2 * rnd a := by
    intro a
    rw [show c ^ 2 * a = c * (c * a) by ring, hc, hc]
    ring
  have hl : ∀ i j, rLocalCost rnd (x.map (·.map (c * ·))) (y.map (·.map (c * ·))) i j =
      c ^ 2 * rLocalCost rnd x y i j := by
    intro i j
    simp only [rLocalCost, getD_map_nil]
    exact rSqDist_scale hc hc2 _ _
  have hmono : Monotone (WithTop.map (c ^ 2 * · : K → K)) :=
    mapTop_mono fun a b h => mul_le_mul_of_nonneg_left h (sq_nonneg c)
  simp only [rDtwSq, rFrechetSq, List.length_map]
  cases hmask : computeMask x.length y.length gc radius slope with
  | error e => exact ⟨rfl, rfl⟩
  | ok mask =>
    simp only [bind, Except.bind, pure, Except.pure, Except.map]
    constructor
    · refine congrArg Except.ok ?_
      unfold rAccumulated
      rw [List.length_map, List.length_map]
      refine lastEntry_map (rAdd_mono hr.mono) (rAdd_top rnd) (rAdd_mono hr.mono) (rAdd_top rnd)
        hx' hy' _ hmono (mapTop_top _) fun p hp => ?_
      clear hp
      induction p using List.reverseRecOn with
      | nil => simp [pathCost]
      | append_singleton q a ih =>
        rw [pathCost_append, pathCost_append, ih, hl]
        obtain ⟨w, hw⟩ := rPathCost_finite rnd (rLocalCost rnd x y) q
        rw [hw]
        refine congrArg (WithTop.some) ?_
        simp only
        rw [← hc2, mul_add]
    · refine congrArg Except.ok ?_
      unfold rFrechetAccumulated frechetAccFromDist
      rw [List.length_map, List.length_map]
      refine lastEntry_map frechetStep_mono frechetStep_top frechetStep_mono frechetStep_top
        hx' hy' _ hmono (mapTop_top _) fun p hp => ?_
      clear hp
      induction p using List.reverseRecOn with
      | nil => simp [pathCost]
      | append_singleton q a ih =>
        rw [pathCost_append, pathCost_append, ih, hl]
        unfold frechetStep
        rw [hmono.map_max]
        rfl

/-- Integer data: when the rounding keeps the integers up to `B`, samples are at most `M` in size
and `(n + m) d (2 M)² ≤ B`, the computed squared values are the exact ones. -/
theorem C98_integers {rnd : K → K} (hr : OddMono rnd) (B M : ℤ) (d : ℕ)
    (hB : ∀ z : ℤ, |z| ≤ B → rnd (z : K) = z) (X Y : List (List ℤ)) (hX : X ≠ []) (hY : Y ≠ [])
    (hd : ∀ r ∈ X, r.length ≤ d) (hXM : ∀ r ∈ X, ∀ z ∈ r, |z| ≤ M) (hYM : ∀ r ∈ Y, ∀ z ∈ r, |z| ≤ M)
    (hsz : (X.length + Y.length) * (d * (2 * M) ^ 2) ≤ B) (gc : ℕ) (radius : Option ℕ)
    (slope : Option ℚ) :
    rDtwSq rnd (X.map (·.map (Int.cast : ℤ → K))) (Y.map (·.map Int.cast)) gc radius slope =
      (dtwSqGeneric X Y gc radius slope).map (WithTop.map (Int.cast : ℤ → K)) ∧
    rFrechetSq rnd (X.map (·.map (Int.cast : ℤ → K))) (Y.map (·.map Int.cast)) gc radius slope =
      (frechetSqGeneric X Y gc radius slope).map (WithTop.map (Int.cast : ℤ → K)) := by
  have hX' := List.length_pos_iff.2 hX
  have hY' := List.length_pos_iff.2 hY
  have hD : 0 ≤ (d : ℤ) * (2 * M) ^ 2 := by positivity
  have hD1 : (d : ℤ) * (2 * M) ^ 2 ≤ B := by
    have : (1 : ℤ) ≤ (X.length : ℤ) + Y.length := by omega
    nlinarith
  have hrow : ∀ i, (X.getD i []).length ≤ d ∧ ∀ z ∈ X.getD i [], |z| ≤ M := by
    intro i
    by_cases hi : i < X.length
    · rw [List.getD_eq_getElem _ _ hi]
      exact ⟨hd _ (List.getElem_mem hi), hXM _ (List.getElem_mem hi)⟩
    · rw [List.getD_eq_default _ _ (by omega)]
      simp
  have hrow' : ∀ j, ∀ z ∈ Y.getD j [], |z| ≤ M := by
    intro j
    by_cases hj : j < Y.length
    · rw [List.getD_eq_getElem _ _ hj]
      exact hYM _ (List.getElem_mem hj)
    · rw [List.getD_eq_default _ _ (by omega)]
      simp
  have hl : ∀ i j, rLocalCost rnd (X.map (·.map (Int.cast : ℤ → K))) (Y.map (·.map Int.cast)) i j =
      ((localCost X Y i j : ℤ) : K) ∧ localCost X Y i j ≤ d * (2 * M) ^ 2 := by
    intro i j
    rw [localCost_eq]
    simp only [rLocalCost, getD_map_nil, sampleCost]
    obtain ⟨h1, h2⟩ := hrow i
    have h3 := rSqDist_int hB h2 (hrow' j) 0 le_rfl (by
      have : ((X.getD i []).length : ℤ) * (2 * M) ^ 2 ≤ d * (2 * M) ^ 2 :=
        mul_le_mul_of_nonneg_right (by exact_mod_cast h1) (sq_nonneg _)
      linarith)
    refine ⟨by simpa [rSqDist] using h3.1, ?_⟩
    have : ((X.getD i []).length : ℤ) * (2 * M) ^ 2 ≤ d * (2 * M) ^ 2 :=
      mul_le_mul_of_nonneg_right (by exact_mod_cast h1) (sq_nonneg _)
    linarith [h3.2]
  have hmono : Monotone (WithTop.map (Int.cast : ℤ → K)) := mapTop_mono Int.cast_mono
  simp only [rDtwSq, rFrechetSq, dtwSqGeneric, frechetSqGeneric, List.length_map]
  cases hmask : computeMask X.length Y.length gc radius slope with
  | error e => exact ⟨rfl, rfl⟩
  | ok mask =>
    simp only [bind, Except.bind, pure, Except.pure, Except.map]
    constructor
    · refine congrArg Except.ok ?_
      unfold rAccumulated accumulatedMatrix accFromDist
      rw [List.length_map, List.length_map]
      refine lastEntry_map add_mono_top add_top' (rAdd_mono hr.mono) (rAdd_top rnd)
        hX' hY' _ hmono (mapTop_top _) fun p hp => ?_
      rw [pathCost_add_eq]
      have hlen := hp.1.length_le
      have key : ∀ q : List (ℕ × ℕ), q.length ≤ X.length + Y.length →
          pathCost (rAdd rnd) 0 (rLocalCost rnd (X.map (·.map (Int.cast : ℤ → K)))
            (Y.map (·.map Int.cast))) q = ((sumCost (localCost X Y) q : ℤ) : K) ∧
          sumCost (localCost X Y) q ≤ q.length * (d * (2 * M) ^ 2) := by
        intro q
        induction q using List.reverseRecOn with
        | nil => intro _; simp [pathCost, sumCost]
        | append_singleton q a ih =>
          intro hq
          rw [List.length_append, List.length_singleton] at hq
          obtain ⟨e, hle⟩ := ih (by omega)
          obtain ⟨el, hll⟩ := hl a.1 a.2
          have hs : sumCost (localCost X Y) (q ++ [a]) =
              localCost X Y a.1 a.2 + sumCost (localCost X Y) q := by simp [sumCost, add_comm]
          have hn0 : 0 ≤ localCost X Y a.1 a.2 := by
            rw [localCost_eq]; exact sampleCost_nonneg X Y _ _
          have hn1 : 0 ≤ sumCost (localCost X Y) q := by
            rw [localCost_eq]; exact sumCost_nonneg (sampleCost_nonneg X Y) q
          have hle2 : localCost X Y a.1 a.2 + sumCost (localCost X Y) q ≤
              ((q.length : ℤ) + 1) * (d * (2 * M) ^ 2) := by linarith
          have hle3 : ((q.length : ℤ) + 1) * (d * (2 * M) ^ 2) ≤ B := by
            refine le_trans (mul_le_mul_of_nonneg_right ?_ hD) hsz
            exact_mod_cast hq
          refine ⟨?_, ?_⟩
          · rw [pathCost_append, e, el, hs]
            refine congrArg WithTop.some ?_
            simp only
            rw [← Int.cast_add, hB]
            rw [abs_of_nonneg (by linarith)]
            linarith
          · rw [hs, List.length_append, List.length_singleton]
            push_cast
            exact hle2
      exact (key p (by omega)).1
    · refine congrArg Except.ok ?_
      unfold rFrechetAccumulated frechetAccumulatedMatrix frechetAccFromDist
      rw [List.length_map, List.length_map]
      refine lastEntry_map frechetStep_mono frechetStep_top frechetStep_mono frechetStep_top
        hX' hY' _ hmono (mapTop_top _) fun p hp => ?_
      clear hp
      induction p using List.reverseRecOn with
      | nil => simp [pathCost]
      | append_singleton q a ih =>
        rw [pathCost_append, pathCost_append, ih, (hl a.1 a.2).1]
        unfold frechetStep
        rw [hmono.map_max]
        rfl

end

/-- Not every exact law survives: reversing both series in time (exact in C88) changes the computed
value, here with a rounding to three significant bits. -/
theorem C98_false_time_reversal :
    rDtwSq (truncBits 2 : ℚ → ℚ) [[2, 2], [1, 0], [1, 0]] [[0, 0]] 0 none none
      = .ok ((8 : ℚ) : WithTop ℚ) ∧
    rDtwSq (truncBits 2 : ℚ → ℚ) [[1, 0], [1, 0], [2, 2]] [[0, 0]] 0 none none
      = .ok ((10 : ℚ) : WithTop ℚ) := by
  constructor <;> decide +kernel

/-! Concrete instances. -/

/-- A rounding meeting every hypothesis above: truncation to 53 significant bits, over the reals. -/
example : OddMono (truncBits 52 : ℝ → ℝ) ∧ RelErr (truncBits 52 : ℝ → ℝ) (2 ^ 52)⁻¹ ∧
    (∀ a : ℝ, truncBits 52 (2 * a) = 2 * truncBits 52 a) ∧
    ∀ z : ℤ, |z| ≤ 2 ^ 53 - 1 → truncBits 52 (z : ℝ) = z :=
  ⟨truncBits_oddMono 52, truncBits_relErr 52, truncBits_two 52,
    fun z hz => truncBits_int 52 z (by omega)⟩

/-- It is not the identity: with three bits, `9` becomes `8` and `-19` becomes `-16`. -/
example : truncBits 2 (9 : ℚ) = 8 ∧ truncBits 2 (-19 : ℚ) = -16 ∧ truncBits 2 (5 / 16 : ℚ) = 5 / 16 := by
  decide +kernel

/-- The exact value 9 is computed as 8, within the bound of `C98_dtw_squared_error`. -/
example : ∃ v', rDtwSq (truncBits 2 : ℚ → ℚ) [[2, 2], [1, 0]] [[0, 0]] 0 none none = .ok v' ∧
    (v' = ⊤ ↔ ((9 : ℚ) : WithTop ℚ) = ⊤) ∧
    ∀ w : ℚ, ((9 : ℚ) : WithTop ℚ) = (w : WithTop ℚ) → ∃ w' : ℚ, v' = (w' : WithTop ℚ) ∧
      NearRel ((2 ^ 2)⁻¹) (2 + 1 + 2 + 2) w' w :=
  C98_dtw_squared_error (truncBits_relErr 2) (truncBits_oddMono 2).mono (by norm_num) (by norm_num)
    _ _ (by simp) (by simp) 2 (by decide) 0 none none _ (by decide +kernel)

example : rDtwSq (truncBits 2 : ℚ → ℚ) [[2, 2], [1, 0]] [[0, 0]] 0 none none
    = .ok ((8 : ℚ) : WithTop ℚ) := by decide +kernel

/-- The Fréchet distance of the same series is exact here, `8`, both ways. -/
example : rFrechetSq (truncBits 2 : ℚ → ℚ) [[2, 2], [1, 0]] [[0, 0]] 0 none none
    = rFrechetSq (truncBits 2 : ℚ → ℚ) [[0, 0]] [[2, 2], [1, 0]] 0 none none :=
  (C98_symm (truncBits_oddMono 2) _ _ (by simp) (by simp) 0 (Or.inl rfl) none).2

/-- Integer data of small size: no error at all with 53 bits. -/
example : rDtwSq (truncBits 52 : ℚ → ℚ) [[3], [-4], [5]] [[0], [2]] 2 (some 1) none =
    (dtwSqGeneric ([[3], [-4], [5]] : List (List ℤ)) [[0], [2]] 2 (some 1) none).map
      (WithTop.map (Int.cast : ℤ → ℚ)) := by
  have := (C98_integers (truncBits_oddMono (K := ℚ) 52) (2 ^ 53 - 1) 5 1
    (fun z hz => truncBits_int 52 z (by omega)) [[3], [-4], [5]] [[0], [2]] (by simp) (by simp)
    (by decide) (by decide) (by decide) (by norm_num) 2 (some 1) none).1
  simpa using this

/-- A bound `N u` small enough for the linear form: two series of 1000 samples in doubles. -/
example : ((1000 + 1000 + 3 + 4 : ℕ) : ℝ) * (2 ^ 53)⁻¹ ≤ 1 / 2 := by norm_num

end Verif
