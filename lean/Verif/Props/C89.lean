import Verif.Proofs.MetricLaws
import Verif.Props.C88
/-!
# C89 — Which laws of a distance hold for DTW and Fréchet
-/
set_option linter.unusedSectionVars false
namespace Verif
open Spec

/-- Fréchet under constraints that compose. -/
theorem frechet_triangle_masks (d : ℕ) (x y z : List (List ℝ)) (hx : x ≠ []) (hy : y ≠ []) (hz : z ≠ [])
    (wx : ∀ u ∈ x, u.length = d) (wy : ∀ u ∈ y, u.length = d) (wz : ∀ u ∈ z, u.length = d)
    (g1 g2 g3 : ℕ) (r1 r2 r3 : Option ℕ) (t1 t2 t3 : Option ℚ) (M1 M2 M3 : Mat Bool)
    (h1 : computeMask x.length y.length g1 r1 t1 = .ok M1)
    (h2 : computeMask y.length z.length g2 r2 t2 = .ok M2)
    (h3 : computeMask x.length z.length g3 r3 t3 = .ok M3)
    (hM : ∀ i < x.length, ∀ j < y.length, ∀ k < z.length, M1 i j = true → M2 j k = true → M3 i k = true)
    (a b : ℝ) (ha : frechetSqGeneric x y g1 r1 t1 = .ok (a : WithTop ℝ))
    (hb : frechetSqGeneric y z g2 r2 t2 = .ok (b : WithTop ℝ)) :
    ∃ c : ℝ, frechetSqGeneric x z g3 r3 t3 = .ok (c : WithTop ℝ) ∧
      Real.sqrt c ≤ Real.sqrt a + Real.sqrt b := by
  obtain ⟨va, ea, -, la⟩ := C10_frechet_squared x y hx hy g1 r1 t1 M1 h1
  obtain ⟨vb, eb, -, lb⟩ := C10_frechet_squared y z hy hz g2 r2 t2 M2 h2
  obtain ⟨vc, ec, tc, lc⟩ := C10_frechet_squared x z hx hz g3 r3 t3 M3 h3
  rw [ha] at ea; rw [hb] at eb
  obtain ⟨⟨p, hp, hpm⟩, -⟩ := (la a).1 (Except.ok.inj ea).symm
  obtain ⟨⟨q, hq, hqm⟩, -⟩ := (lb b).1 (Except.ok.inj eb).symm
  obtain ⟨i, j, hi, hj, wp⟩ := isWarpingPath_iff.1 hp.1
  obtain ⟨j', k, hj', hk, wq⟩ := isWarpingPath_iff.1 hq.1
  obtain rfl : j' = j := by omega
  obtain ⟨r, wr, via⟩ := wp.compose wq
  have hr : IsWarpingPath x.length z.length r := isWarpingPath_iff.2 ⟨i, k, hi, hk, wr⟩
  have hadm : Admissible x.length z.length M3 r := by
    refine ⟨hr, fun c hc => ?_⟩
    obtain ⟨l, m1, m2⟩ := via c hc
    have b1 := hp.1.lt _ m1
    have b2 := hq.1.lt _ m2
    exact hM _ b1.1 _ b1.2 _ b2.2 (hp.2 _ m1) (hq.2 _ m2)
  have hne : vc ≠ ⊤ := fun h => tc.1 h ⟨r, hadm⟩
  obtain ⟨c, rfl⟩ := WithTop.ne_top_iff_exists.1 hne
  refine ⟨c, ec, ?_⟩
  obtain ⟨m, hm⟩ := exists_isMaxCost (sampleCost x z) (sampleCost_nonneg x z) hadm
  have hcm : c ≤ m := ((lc c).1 rfl).2 ⟨r, hadm, hm⟩
  refine (Real.sqrt_le_sqrt hcm).trans ?_
  obtain ⟨⟨e, he, rfl⟩, -⟩ := hm
  obtain ⟨l, m1, m2⟩ := via e he
  have b1 := hp.1.lt _ m1
  have b2 := hq.1.lt _ m2
  have width : ∀ (x : List (List ℝ)) (i : ℕ), (∀ u ∈ x, u.length = d) → i < x.length → (x.getD i []).length = d := by
    intro x i w hi
    rw [List.getD_eq_getElem?_getD, List.getElem?_eq_getElem hi]
    exact w _ (List.getElem_mem hi)
  have ht := sqrt_sqEuclid_triangle (x.getD e.1 []) (y.getD l []) (z.getD e.2 [])
    (by rw [width x _ wx b1.1, width y _ wy b1.2]) (by rw [width y _ wy b1.2, width z _ wz b2.2])
  refine ht.trans (add_le_add (Real.sqrt_le_sqrt ?_) (Real.sqrt_le_sqrt ?_))
  · exact hpm.2 _ m1
  · exact hqm.2 _ m2

/-- The Fréchet distance obeys the triangle inequality when no constraint is given. -/
theorem C89_frechet_triangle (s1 s2 s3 : TsInput (Option ℝ)) (d : ℕ) (x y z : List (List ℝ)) (c1 c2 : ℕ)
    (h12 : validatePair s1 s2 none = .ok (x, y, c1)) (h23 : validatePair s2 s3 none = .ok (y, z, c2))
    (wx : ∀ u ∈ x, u.length = d) (wy : ∀ u ∈ y, u.length = d) (wz : ∀ u ∈ z, u.length = d) :
    ∃ a b c : ℝ, frechet s1 s2 none none none = .ok (a : WithTop ℝ) ∧
      frechet s2 s3 none none none = .ok (b : WithTop ℝ) ∧
      frechet s1 s3 none none none = .ok (c : WithTop ℝ) ∧ c ≤ a + b := by
  obtain ⟨d1, d2, hc1, hx, hy, f12⟩ := validatePair_ok h12
  obtain ⟨d2', d3, hc2, -, hz, f23⟩ := validatePair_ok h23
  obtain rfl : 0 = c1 := by simpa [gcCode] using hc1
  obtain rfl : 0 = c2 := by simpa [gcCode] using hc2
  have l1 := denan_length d1
  have l3 := denan_length d3
  have hx' := List.length_pos_iff.2 hx
  have hz' := List.length_pos_iff.2 hz
  have h13 : validatePair s1 s3 none = .ok (x, z, 0) := by
    have hne : ¬ ((toTimeSeries s1 true).length = 0 ∨ (toTimeSeries s3 true).length = 0) := by omega
    unfold validatePair
    simp only [bind, Except.bind, pure, Except.pure, throw, throwThe, MonadExceptOf.throw, hne, if_false,
      f12, f23, ne_eq, not_true, hc1, d1, d3]
  have fin : ∀ x y : List (List ℝ), x ≠ [] → y ≠ [] →
      ∃ a : ℝ, frechetSqGeneric x y 0 none none = .ok (a : WithTop ℝ) := by
    intro x y hx hy
    obtain ⟨v, e, t, -⟩ := C10_frechet_squared x y hx hy 0 none none _ rfl
    have hp := (computeMask_reachable (List.length_pos_iff.2 hx) (List.length_pos_iff.2 hy) (by simp)
      (rfl : computeMask x.length y.length 0 none none = .ok _)).2
    obtain ⟨a, rfl⟩ := WithTop.ne_top_iff_exists.1 (fun h => t.1 h hp : v ≠ ⊤)
    exact ⟨a, e⟩
  obtain ⟨a, ea⟩ := fin x y hx hy
  obtain ⟨b, eb⟩ := fin y z hy hz
  obtain ⟨c, ec, hle⟩ := frechet_triangle_masks d x y z hx hy hz wx wy wz 0 0 0 none none none none none none _ _ _
    rfl rfl rfl (fun _ _ _ _ _ _ _ _ => rfl) a b ea eb
  refine ⟨_, _, _, ?_, ?_, ?_, hle⟩
  · simp only [frechet, frechetSq, h12, ea, bind, Except.bind, pure, Except.pure]; rfl
  · simp only [frechet, frechetSq, h23, eb, bind, Except.bind, pure, Except.pure]; rfl
  · simp only [frechet, frechetSq, h13, ec, bind, Except.bind, pure, Except.pure]; rfl

/-- In bands the triangle inequality holds with added radii: series of one length `n`, radii `r` and
`s`, against the Fréchet distance in the band of radius `r + s`. -/
theorem C89_frechet_triangle_bands (d : ℕ) (x y z : List (List ℝ)) (hx : x ≠ []) (hxy : x.length = y.length)
    (hyz : y.length = z.length) (wx : ∀ u ∈ x, u.length = d) (wy : ∀ u ∈ y, u.length = d)
    (wz : ∀ u ∈ z, u.length = d) (r s : ℕ) (a b : ℝ)
    (ha : frechetSqGeneric x y 2 (some r) none = .ok (a : WithTop ℝ))
    (hb : frechetSqGeneric y z 2 (some s) none = .ok (b : WithTop ℝ)) :
    ∃ c : ℝ, frechetSqGeneric x z 2 (some (r + s)) none = .ok (c : WithTop ℝ) ∧
      Real.sqrt c ≤ Real.sqrt a + Real.sqrt b := by
  have hx' := List.length_pos_iff.2 hx
  have hy : y ≠ [] := List.length_pos_iff.1 (by omega)
  have hz : z ≠ [] := List.length_pos_iff.1 (by omega)
  refine frechet_triangle_masks d x y z hx hy hz wx wy wz 2 2 2 _ _ _ _ _ _ _ _ _ rfl rfl rfl ?_ a b ha hb
  intro i hi j hj k hk h1 h2
  simp only [Option.getD_some] at h1 h2 ⊢
  rw [sakoeChibaMask_iff _ _ _ _ _ hi hj] at h1
  rw [sakoeChibaMask_iff _ _ _ _ _ hj hk] at h2
  rw [sakoeChibaMask_iff _ _ _ _ _ hi hk]
  unfold InBand at *
  omega

/-- With one and the same radius the triangle inequality is **false** for Fréchet: a bump that moves
by one step at a time is at distance 0 from the next position and at distance 1 from the one after. -/
theorem C89_false_frechet_band :
    frechetSqGeneric ([[0], [1], [0], [0], [0]] : List (List ℤ)) [[0], [0], [1], [0], [0]] 2 (some 1) none
      = .ok ((0 : ℤ) : WithTop ℤ) ∧
    frechetSqGeneric ([[0], [0], [1], [0], [0]] : List (List ℤ)) [[0], [0], [0], [1], [0]] 2 (some 1) none
      = .ok ((0 : ℤ) : WithTop ℤ) ∧
    frechetSqGeneric ([[0], [1], [0], [0], [0]] : List (List ℤ)) [[0], [0], [0], [1], [0]] 2 (some 1) none
      = .ok ((1 : ℤ) : WithTop ℤ) := by
  refine ⟨?_, ?_, ?_⟩ <;> decide +kernel

/-- DTW does **not** obey the triangle inequality, even without constraint: `[0]`, `[1]`, `[1, 1]` are
at distances 1 and 0, and the first and the last at `√2`. -/
theorem C89_false_dtw_triangle :
    dtwSqGeneric ([[0]] : List (List ℤ)) [[1]] 0 none none = .ok ((1 : ℤ) : WithTop ℤ) ∧
    dtwSqGeneric ([[1]] : List (List ℤ)) [[1], [1]] 0 none none = .ok ((0 : ℤ) : WithTop ℤ) ∧
    dtwSqGeneric ([[0]] : List (List ℤ)) [[1], [1]] 0 none none = .ok ((2 : ℤ) : WithTop ℤ) ∧
    ¬ Real.sqrt 2 ≤ Real.sqrt 1 + Real.sqrt 0 := by
  refine ⟨by decide +kernel, by decide +kernel, by decide +kernel, ?_⟩
  rw [Real.sqrt_one, Real.sqrt_zero, add_zero, Real.sqrt_le_left one_pos.le]
  norm_num

section
variable {K : Type} [CommRing K] [LinearOrder K] [IsStrictOrderedRing K]

/-- Squared DTW is at most `n + m - 1` times squared Fréchet, under every constraint. -/
theorem C89_dtw_le_frechet (x y : List (List K)) (hx : x ≠ []) (hy : y ≠ []) (gc : ℕ) (radius : Option ℕ)
    (slope : Option ℚ) (f v : K) (hf : frechetSqGeneric x y gc radius slope = .ok (f : WithTop K))
    (hv : dtwSqGeneric x y gc radius slope = .ok (v : WithTop K)) :
    v ≤ ((x.length + y.length - 1 : ℕ) : K) * f := by
  cases hm : computeMask x.length y.length gc radius slope with
  | error e => simp [frechetSqGeneric, hm, bind, Except.bind] at hf
  | ok mask =>
    obtain ⟨u, hu, -, lu⟩ := C10_frechet_squared x y hx hy gc radius slope mask hm
    obtain ⟨w, hw, -, lw⟩ := C01_dtw_squared x y hx hy gc radius slope mask hm
    rw [hf] at hu; rw [hv] at hw
    obtain ⟨⟨p, hp, hpm⟩, -⟩ := (lu f).1 (Except.ok.inj hu).symm
    have h1 : v ≤ sumCost (sampleCost x y) p := ((lw v).1 (Except.ok.inj hw).symm).2 ⟨p, hp, rfl⟩
    have h2 : sumCost (sampleCost x y) p ≤ (p.length : K) * f := by
      have := List.sum_le_card_nsmul (p.map fun c => sampleCost x y c.1 c.2) f (by
        intro t ht
        obtain ⟨c, hc, rfl⟩ := List.mem_map.1 ht
        exact hpm.2 c hc)
      simpa [sumCost] using this
    have hlen : p.length ≤ x.length + y.length - 1 := by
      obtain ⟨i, j, hi, hj, hw⟩ := isWarpingPath_iff.1 hp.1
      have := hw.length_bounds
      omega
    have hf0 : 0 ≤ f := by
      obtain ⟨⟨c, -, hc⟩, -⟩ := hpm
      rw [← hc]; exact sampleCost_nonneg x y _ _
    exact h1.trans (h2.trans (mul_le_mul_of_nonneg_right (by exact_mod_cast hlen) hf0))

/-- Without constraint, DTW and Fréchet are zero for exactly the same pairs: those whose series become
equal when every run of equal consecutive samples is reduced to one sample. -/
theorem C89_zero (d : ℕ) (x y : List (List K)) (hx : x ≠ []) (hy : y ≠ [])
    (wx : ∀ u ∈ x, u.length = d) (wy : ∀ u ∈ y, u.length = d) :
    (dtwSqGeneric x y 0 none none = .ok ((0 : K) : WithTop K) ↔ squeeze x = squeeze y) ∧
    (frechetSqGeneric x y 0 none none = .ok ((0 : K) : WithTop K) ↔ squeeze x = squeeze y) := by
  obtain ⟨w, hw, -, lw⟩ := C01_dtw_squared x y hx hy 0 none none _ rfl
  obtain ⟨u, hu, -, lu⟩ := C10_frechet_squared x y hx hy 0 none none _ rfl
  have cell : ∀ p, IsWarpingPath x.length y.length p →
      ((∀ c ∈ p, sampleCost x y c.1 c.2 = 0) ↔ ∀ c ∈ p, x[c.1]? = y[c.2]?) := by
    intro p hp
    refine forall₂_congr fun c hc => ?_
    have hlt := hp.lt c hc
    rw [List.getElem?_eq_getElem hlt.1, List.getElem?_eq_getElem hlt.2, Option.some.injEq, sampleCost,
      List.getD_eq_getElem?_getD, List.getD_eq_getElem?_getD, List.getElem?_eq_getElem hlt.1,
      List.getElem?_eq_getElem hlt.2, Option.getD_some, Option.getD_some]
    exact sqEuclid_eq_zero_iff _ _ (by rw [wx _ (List.getElem_mem hlt.1), wy _ (List.getElem_mem hlt.2)])
  have full : ∀ p, IsWarpingPath x.length y.length p → Admissible x.length y.length (Mat.full true) p :=
    fun p hp => ⟨hp, fun _ _ => rfl⟩
  refine ⟨⟨fun h => ?_, fun h => ?_⟩, ⟨fun h => ?_, fun h => ?_⟩⟩
  · rw [hw] at h
    obtain ⟨⟨p, hp, h0⟩, -⟩ := (lw 0).1 (Except.ok.inj h)
    exact squeeze_of_path x y p hp.1
      ((cell p hp.1).1 ((sumCost_eq_zero_iff (sampleCost_nonneg x y) p).1 h0.symm))
  · obtain ⟨p, hp, he⟩ := exists_path_of_squeeze x y hx hy h
    rw [hw]
    congr 1
    rw [lw]
    refine ⟨⟨p, full p hp, ((sumCost_eq_zero_iff (sampleCost_nonneg x y) p).2 ((cell p hp).2 he)).symm⟩, ?_⟩
    rintro _ ⟨q, -, rfl⟩
    exact sumCost_nonneg (sampleCost_nonneg x y) q
  · rw [hu] at h
    obtain ⟨⟨p, hp, -, h0⟩, -⟩ := (lu 0).1 (Except.ok.inj h)
    exact squeeze_of_path x y p hp.1
      ((cell p hp.1).1 fun c hc => le_antisymm (h0 c hc) (sampleCost_nonneg x y _ _))
  · obtain ⟨p, hp, he⟩ := exists_path_of_squeeze x y hx hy h
    have h0 := (cell p hp).2 he
    rw [hu]
    congr 1
    rw [lu]
    have hne : (0, 0) ∈ p := List.mem_of_head? hp.starts
    refine ⟨⟨p, full p hp, ⟨_, hne, h0 _ hne⟩, fun c hc => (h0 c hc).le⟩, ?_⟩
    rintro _ ⟨q, -, ⟨c, -, rfl⟩, -⟩
    exact sampleCost_nonneg x y _ _

/-- Two different series at distance zero. -/
example : dtwSqGeneric ([[1, 2], [1, 2], [0, 0]] : List (List ℤ)) [[1, 2], [0, 0], [0, 0]] 0 none none
      = .ok ((0 : ℤ) : WithTop ℤ) ∧
    squeeze ([[1, 2], [1, 2], [0, 0]] : List (List ℤ)) = [[1, 2], [0, 0]] ∧
    squeeze ([[1, 2], [0, 0], [0, 0]] : List (List ℤ)) = [[1, 2], [0, 0]] := by
  refine ⟨?_, ?_, ?_⟩ <;> decide +kernel

/-- The factor of `C89_dtw_le_frechet` is reached: 3 and 1 samples at distance 2. -/
example : frechetSqGeneric ([[0], [0], [0]] : List (List ℤ)) [[2]] 0 none none = .ok ((4 : ℤ) : WithTop ℤ) ∧
    dtwSqGeneric ([[0], [0], [0]] : List (List ℤ)) [[2]] 0 none none = .ok ((12 : ℤ) : WithTop ℤ) := by
  refine ⟨?_, ?_⟩ <;> decide +kernel

end

/-- What DTW keeps of the triangle inequality: a factor `√(n + m - 1)` for first and last series of
lengths `n` and `m`. -/
theorem C89_dtw_relaxed_triangle (d : ℕ) (x y z : List (List ℝ)) (hx : x ≠ []) (hy : y ≠ []) (hz : z ≠ [])
    (wx : ∀ u ∈ x, u.length = d) (wy : ∀ u ∈ y, u.length = d) (wz : ∀ u ∈ z, u.length = d) (a b c : ℝ)
    (ha : dtwSqGeneric x y 0 none none = .ok (a : WithTop ℝ))
    (hb : dtwSqGeneric y z 0 none none = .ok (b : WithTop ℝ))
    (hc : dtwSqGeneric x z 0 none none = .ok (c : WithTop ℝ)) :
    Real.sqrt c ≤ Real.sqrt ((x.length + z.length - 1 : ℕ) : ℝ) * (Real.sqrt a + Real.sqrt b) := by
  have fin : ∀ x y : List (List ℝ), x ≠ [] → y ≠ [] → ∀ v : ℝ, dtwSqGeneric x y 0 none none = .ok (v : WithTop ℝ) →
      ∃ a : ℝ, frechetSqGeneric x y 0 none none = .ok (a : WithTop ℝ) ∧ a ≤ v := by
    intro x y hx hy v hv
    obtain ⟨w, e, t, -⟩ := C10_frechet_squared x y hx hy 0 none none _ rfl
    have hle := C10_le_dtw x y hx hy 0 none none w v e hv
    obtain ⟨a, rfl⟩ := WithTop.ne_top_iff_exists.1 (fun h => by rw [h] at hle; simp at hle : w ≠ ⊤)
    exact ⟨a, e, WithTop.coe_le_coe.1 hle⟩
  obtain ⟨fa, ea, la⟩ := fin x y hx hy a ha
  obtain ⟨fb, eb, lb⟩ := fin y z hy hz b hb
  obtain ⟨fc, ec, hle⟩ := frechet_triangle_masks d x y z hx hy hz wx wy wz 0 0 0 none none none none none none _ _ _
    rfl rfl rfl (fun _ _ _ _ _ _ _ _ => rfl) fa fb ea eb
  have h1 := C89_dtw_le_frechet x z hx hz 0 none none fc c ec hc
  refine (Real.sqrt_le_sqrt h1).trans ?_
  rw [Real.sqrt_mul (by positivity)]
  refine mul_le_mul_of_nonneg_left (hle.trans ?_) (Real.sqrt_nonneg _)
  exact add_le_add (Real.sqrt_le_sqrt la) (Real.sqrt_le_sqrt lb)

/-- Hypotheses of `C89_frechet_triangle`: lengths 3, 2 and 1. -/
example : validatePair (plain [1, 2, 4]) (plain [2, 4]) none = .ok ([[1], [2], [4]], [[2], [4]], 0) ∧
    validatePair (plain [2, 4]) (plain [3]) none = .ok ([[2], [4]], [[3]], 0) := ⟨rfl, rfl⟩

end Verif
