import Verif.Proofs.SoftGrad
import Verif.Proofs.Itakura
import Verif.Spec.Gibbs
import Verif.Props.C02
import Mathlib.Analysis.SpecialFunctions.Log.Deriv
import Mathlib.Analysis.SpecialFunctions.ExpDeriv
import Mathlib.Algebra.BigOperators.Field
/-!
# C20 — the soft-DTW alignment matrix is the Gibbs expectation of warping paths
-/
namespace Verif
open Spec
open Classical

theorem gradT_eq_visit {n m : ℕ} (hn : 0 < n) (hm : 0 < m) {mask : Mat Bool} (D : ℕ → ℕ → ℝ) (γ : ℝ)
    {S : Finset (List (ℕ × ℕ))} (hS : ∀ p, p ∈ S ↔ Admissible n m mask p) (i j : ℕ) :
    gradT n m mask D γ i j = visitProb S (sumCost D) γ (i, j) := by
  have hP : pathsB mask n m = S := by
    ext p; rw [hS, mem_pathsB_admissible hn hm]
  unfold gradT visitProb
  rw [zsum_eq_sum D γ hn hm hS, ← gsum_eq mask _ (fun i j h => by rw [softK, if_neg (by simp [h])]), gsum, hP,
    Finset.sum_filter]
  congr 1
  refine Finset.sum_congr rfl fun p hp => ?_
  rw [prodW_softK D γ ((hS p).1 hp).2]

/-- `soft_dtw_alignment`, any backend, any accepted constraint (Itakura slope at least 1), any content
of the uninitialised work array: entry `(i, j)` is the probability that a path drawn with probability
proportional to `exp(-cost/γ)` visits `(i, j)`. -/
theorem C20_visit_probability (be : Backend) (x y : List (List ℝ)) (hx : x ≠ []) (hy : y ≠ []) (γ : ℝ)
    (hγ : 0 < γ) (gc : ℕ) (radius : Option ℕ) (slope : Option ℚ) (hs : ∀ s, slope = some s → 1 ≤ s)
    (mask : Mat Bool) (hmask : computeMask x.length y.length gc radius slope = .ok mask)
    (S : Finset (List (ℕ × ℕ))) (hS : ∀ p, p ∈ S ↔ Admissible x.length y.length mask p) (junk : Mat Fl) :
    ∃ E v, softDtwAlignmentGeneric be x y γ gc radius slope junk = .ok (E, v) ∧
      ∀ i j, i < x.length → j < y.length →
        E i j = .num (visitProb S (sumCost (sampleCost x y)) γ (i, j)) := by
  have hx' := List.length_pos_iff.2 hx
  have hy' := List.length_pos_iff.2 hy
  obtain ⟨hr, q, hq⟩ := computeMask_reachable hx' hy' hs hmask
  unfold softDtwAlignmentGeneric
  simp only [hmask, bind, Except.bind, pure, Except.pure, Except.ok.injEq, Prod.mk.injEq, localCost_eq]
  refine ⟨_, _, ⟨rfl, rfl⟩, fun i j hi hj => ?_⟩
  rw [← gradT_eq_visit hx' hy' (sampleCost x y) γ hS]
  have hZ := zsum_pos_of_mem (sampleCost x y) γ ((mem_pathsB_admissible hx' hy').2 hq)
  obtain ⟨n, hn⟩ : ∃ n, x.length = n + 1 := ⟨x.length - 1, by omega⟩
  obtain ⟨m, hm⟩ : ∃ m, y.length = m + 1 := ⟨y.length - 1, by omega⟩
  rw [hn, hm] at hr hZ ⊢
  rw [hn] at hi
  rw [hm] at hj
  cases be with
  | numpy =>
    exact softGrad_eq hγ hr hZ (fun _ _ _ _ => rfl) (fun i j hi hj => softAccFromDist_eq (sampleCost x y)
      (fun i j _ _ h => by simp only [h, if_true]) hγ hr i j hi hj) junk i j hi hj
  | pytorch =>
    exact softGrad_eq hγ hr hZ (fun _ _ _ _ => rfl) (fun i j hi hj => torchSoftAcc_eq (sampleCost x y)
      (fun i j _ _ h => by simp only [h, if_true]) hγ i j hi hj) junk i j hi hj

theorem visitProb_nonneg (S : Finset (List (ℕ × ℕ))) (cost) (γ : ℝ) (c) : 0 ≤ visitProb S cost γ c :=
  div_nonneg (Finset.sum_nonneg fun _ _ => (Real.exp_pos _).le)
    (Finset.sum_nonneg fun _ _ => (Real.exp_pos _).le)

theorem visitProb_le_one (S : Finset (List (ℕ × ℕ))) (cost) (γ : ℝ) (c) : visitProb S cost γ c ≤ 1 :=
  div_le_one_of_le₀ (Finset.sum_le_sum_of_subset_of_nonneg (Finset.filter_subset _ _)
    fun _ _ _ => (Real.exp_pos _).le) (Finset.sum_nonneg fun _ _ => (Real.exp_pos _).le)

theorem visitProb_one {S : Finset (List (ℕ × ℕ))} (hne : S.Nonempty) (cost) (γ : ℝ) {c}
    (h : ∀ p ∈ S, c ∈ p) : visitProb S cost γ c = 1 := by
  unfold visitProb
  rw [Finset.filter_true_of_mem h]
  exact div_self (Finset.sum_pos (fun _ _ => Real.exp_pos _) hne).ne'

/-- If every path meets the finite set of cells `T`, the visit probabilities over `T` sum to at least 1. -/
theorem one_le_sum_visitProb {S : Finset (List (ℕ × ℕ))} (hne : S.Nonempty) (cost) (γ : ℝ)
    (T : Finset (ℕ × ℕ)) (h : ∀ p ∈ S, ∃ c ∈ T, c ∈ p) : 1 ≤ ∑ c ∈ T, visitProb S cost γ c := by
  unfold visitProb
  rw [← Finset.sum_div, le_div_iff₀ (Finset.sum_pos (fun _ _ => Real.exp_pos _) hne), one_mul]
  simp only [Finset.sum_filter]
  rw [Finset.sum_comm]
  refine Finset.sum_le_sum fun p hp => ?_
  obtain ⟨c, hc, hcp⟩ := h p hp
  calc Real.exp (-cost p / γ) = if c ∈ p then Real.exp (-cost p / γ) else 0 := by rw [if_pos hcp]
    _ ≤ _ := Finset.single_le_sum (f := fun c => if c ∈ p then Real.exp (-cost p / γ) else 0)
      (fun c _ => by split <;> positivity) hc

/-- Consequences: a matrix of numbers in `[0, 1]`, ones at both corners, every row and every column
sums to at least 1, zero outside the mask. -/
theorem C20_shape (be : Backend) (x y : List (List ℝ)) (hx : x ≠ []) (hy : y ≠ []) (γ : ℝ)
    (hγ : 0 < γ) (gc : ℕ) (radius : Option ℕ) (slope : Option ℚ) (hs : ∀ s, slope = some s → 1 ≤ s)
    (mask : Mat Bool) (hmask : computeMask x.length y.length gc radius slope = .ok mask) (junk : Mat Fl)
    (E : Mat Fl) (v : Fl) (h : softDtwAlignmentGeneric be x y γ gc radius slope junk = .ok (E, v)) :
    ∃ e : ℕ → ℕ → ℝ, (∀ i j, i < x.length → j < y.length → E i j = .num (e i j)) ∧
      (∀ i j, i < x.length → j < y.length → 0 ≤ e i j ∧ e i j ≤ 1) ∧
      e 0 0 = 1 ∧ e (x.length - 1) (y.length - 1) = 1 ∧
      (∀ i < x.length, 1 ≤ ∑ j ∈ Finset.range y.length, e i j) ∧
      (∀ j < y.length, 1 ≤ ∑ i ∈ Finset.range x.length, e i j) ∧
      (∀ i j, mask i j = false → e i j = 0) := by
  have hx' := List.length_pos_iff.2 hx
  have hy' := List.length_pos_iff.2 hy
  obtain ⟨-, q, hq⟩ := computeMask_reachable hx' hy' hs hmask
  have hS : ∀ p, p ∈ pathsB mask x.length y.length ↔ Admissible x.length y.length mask p :=
    fun _ => mem_pathsB_admissible hx' hy'
  obtain ⟨E', v', h', hE⟩ := C20_visit_probability be x y hx hy γ hγ gc radius slope hs mask hmask _ hS junk
  rw [h, Except.ok.injEq, Prod.mk.injEq] at h'
  obtain ⟨rfl, rfl⟩ := h'
  have hne : (pathsB mask x.length y.length).Nonempty := ⟨q, (hS q).2 hq⟩
  refine ⟨fun i j => visitProb (pathsB mask x.length y.length) (sumCost (sampleCost x y)) γ (i, j), hE,
    fun i j _ _ => ⟨visitProb_nonneg .., visitProb_le_one ..⟩, ?_, ?_, ?_, ?_, ?_⟩
  · refine visitProb_one hne _ _ fun p hp => ?_
    have := ((hS p).1 hp).1.starts
    exact List.mem_of_mem_head? (by rw [this]; rfl)
  · refine visitProb_one hne _ _ fun p hp => ?_
    obtain ⟨i, j, he, hi, hj⟩ := ((hS p).1 hp).1.ends
    rw [← hi, ← hj]
    exact List.mem_of_mem_getLast? (by rw [he]; rfl)
  · intro i hi
    have := one_le_sum_visitProb hne (sumCost (sampleCost x y)) γ
      ((Finset.range y.length).image fun j => (i, j)) fun p hp => by
        have hw := ((hS p).1 hp).1
        obtain ⟨a, b, ha, hb, hp'⟩ := isWarpingPath_iff.1 hw
        obtain ⟨j, hj⟩ := hp'.visits.1 i (by omega)
        exact ⟨(i, j), Finset.mem_image_of_mem _ (Finset.mem_range.2 (hw.mem_lt _ hj).2), hj⟩
    rwa [Finset.sum_image (fun a _ b _ h => by simpa using h)] at this
  · intro j hj
    have := one_le_sum_visitProb hne (sumCost (sampleCost x y)) γ
      ((Finset.range x.length).image fun i => (i, j)) fun p hp => by
        have hw := ((hS p).1 hp).1
        obtain ⟨a, b, ha, hb, hp'⟩ := isWarpingPath_iff.1 hw
        obtain ⟨i, hi⟩ := hp'.visits.2 j (by omega)
        exact ⟨(i, j), Finset.mem_image_of_mem _ (Finset.mem_range.2 (hw.mem_lt _ hi).1), hi⟩
    rwa [Finset.sum_image (fun a _ b _ h => by simpa using h)] at this
  · intro i j hij
    simp only [visitProb]
    rw [Finset.filter_false_of_mem, Finset.sum_empty, zero_div]
    intro p hp hc
    have := ((hS p).1 hp).2 _ hc
    simp [hij] at this

/-- Raising one local cost raises the cost of exactly the paths visiting it. -/
theorem sumCost_perturb (D : ℕ → ℕ → ℝ) (t : ℝ) (i j : ℕ) {p : List (ℕ × ℕ)} (hp : p.Nodup) :
    sumCost (fun a b => D a b + if (a, b) = (i, j) then t else 0) p =
      sumCost D p + if (i, j) ∈ p then t else 0 := by
  induction p with
  | nil => simp [sumCost]
  | cons c p ih =>
    have := ih (List.nodup_cons.1 hp).2
    have hc := (List.nodup_cons.1 hp).1
    simp only [sumCost, List.map_cons, List.sum_cons, Prod.mk.eta] at this ⊢
    rw [this]
    by_cases h : c = (i, j)
    · subst h
      rw [if_neg hc]
      simp
      ring
    · rw [if_neg h]
      simp only [List.mem_cons, Ne.symm h, false_or]
      ring

/-- The alignment matrix is the gradient of the soft-DTW value with respect to the local costs: with
`f D` the last entry of the accumulated table built from the local costs `D` (either engine), the partial
derivative of `f` in `D[i, j]` is the visit probability of `C20_visit_probability`. -/
theorem C20_gradient (be : Backend) (n m : ℕ) (hn : 0 < n) (hm : 0 < m) (γ : ℝ) (hγ : 0 < γ) (gc : ℕ)
    (radius : Option ℕ) (slope : Option ℚ) (hs : ∀ s, slope = some s → 1 ≤ s)
    (mask : Mat Bool) (hmask : computeMask n m gc radius slope = .ok mask)
    (S : Finset (List (ℕ × ℕ))) (hS : ∀ p, p ∈ S ↔ Admissible n m mask p) :
    ∃ f : (ℕ → ℕ → ℝ) → ℝ,
      (∀ D, (match be with
        | .numpy => softAcc n m mask D γ
        | .pytorch => torchSoftAcc n m mask (fun i j => .num (D i j)) γ) (n - 1) (m - 1) = .num (f D)) ∧
      ∀ D i j, HasDerivAt (fun t => f fun a b => D a b + if (a, b) = (i, j) then t else 0)
        (visitProb S (sumCost D) γ (i, j)) 0 := by
  obtain ⟨hr, q, hq⟩ := computeMask_reachable hn hm hs hmask
  have hpos : ∀ D : ℕ → ℕ → ℝ, 0 < ∑ p ∈ S, Real.exp (-sumCost D p / γ) := fun D =>
    Finset.sum_pos (fun _ _ => Real.exp_pos _) ⟨q, (hS q).2 hq⟩
  refine ⟨fun D => -γ * Real.log (∑ p ∈ S, Real.exp (-sumCost D p / γ)), fun D => ?_, fun D i j => ?_⟩
  · have e1 : n - 1 + 1 = n := by omega
    have e2 : m - 1 + 1 = m := by omega
    have hz := zsum_eq_sum D γ hn hm hS
    cases be with
    | numpy =>
      simp only
      rw [softAcc_eq _ hγ hr _ _ (by omega) (by omega), e1, e2, hz, ofW, if_neg (hpos D).ne']
    | pytorch =>
      simp only
      rw [torchSoftAcc_eq D (fun _ _ _ _ _ => rfl) hγ _ _ (by omega) (by omega), e1, e2, hz,
        ofW, if_neg (hpos D).ne']
  · have hnd : ∀ p ∈ S, p.Nodup := fun p hp => by
      obtain ⟨a, b, -, -, hw⟩ := isWarpingPath_iff.1 ((hS p).1 hp).1
      exact hw.nodup
    have hterm : ∀ p ∈ S, HasDerivAt (fun t : ℝ => Real.exp (-sumCost (fun a b => D a b +
        if (a, b) = (i, j) then t else 0) p / γ))
        (if (i, j) ∈ p then -(Real.exp (-sumCost D p / γ) / γ) else 0) 0 := by
      intro p hp
      have he : (fun t : ℝ => Real.exp (-sumCost (fun a b => D a b +
          if (a, b) = (i, j) then t else 0) p / γ)) =
          fun t => Real.exp (-(sumCost D p + if (i, j) ∈ p then t else 0) / γ) := by
        funext t
        rw [sumCost_perturb D t i j (hnd p hp)]
      rw [he]
      by_cases h : (i, j) ∈ p
      · simp only [if_pos h]
        have h1 : HasDerivAt (fun t : ℝ => -(sumCost D p + t) / γ) (-1 / γ) 0 :=
          (((hasDerivAt_id' (0:ℝ)).const_add (sumCost D p)).neg).div_const γ
        have h2 := h1.exp
        rw [add_zero] at h2
        convert h2 using 1
        ring
      · simp only [if_neg h]
        exact hasDerivAt_const ..
    have hsum := HasDerivAt.fun_sum hterm
    have h0 : ∀ p, sumCost (fun a b => D a b + if (a, b) = (i, j) then (0:ℝ) else 0) p = sumCost D p := by
      intro p; simp
    have hlog := (hsum.log (by simp only [h0]; exact (hpos D).ne')).const_mul (-γ)
    have h0' : ∀ x ∈ S, Real.exp (-sumCost (fun a b => D a b + if (a, b) = (i, j) then (0:ℝ) else 0) x / γ) =
        Real.exp (-sumCost D x / γ) := fun x _ => by rw [h0]
    rw [Finset.sum_congr rfl h0'] at hlog
    have hv : visitProb S (sumCost D) γ (i, j) = -γ * ((∑ p ∈ S,
        if (i, j) ∈ p then -(Real.exp (-sumCost D p / γ) / γ) else 0) /
        ∑ p ∈ S, Real.exp (-sumCost D p / γ)) := by
      unfold visitProb
      rw [Finset.sum_filter, ← mul_div_assoc, Finset.mul_sum]
      congr 1
      refine Finset.sum_congr rfl fun p _ => ?_
      split
      · field_simp
      · simp
    rw [hv]
    exact hlog

/-- `gamma = 0`: the 0/1 matrix of an optimal path, with its squared cost. -/
theorem pathMatrix_apply (p : List (ℕ × ℕ)) (i j : ℕ) :
    pathMatrix p i j = .num (if (i, j) ∈ p then 1 else 0) := by
  unfold pathMatrix
  have : ∀ (A : Mat Fl), p.foldl (fun a ij => a.set ij.1 ij.2 (Fl.num 1)) A i j =
      if (i, j) ∈ p then .num 1 else A i j := by
    induction p with
    | nil => intro A; simp
    | cons c p ih =>
      intro A
      rw [List.foldl_cons, ih]
      by_cases h : (i, j) ∈ p
      · simp [h]
      · rw [if_neg h]
        simp only [Mat.set, List.mem_cons, h, or_false]
        by_cases hc : (i, j) = c
        · subst hc; simp
        · rw [if_neg hc, if_neg]
          rintro ⟨rfl, rfl⟩
          exact hc rfl
  rw [this]
  split <;> rfl

theorem C20_gamma_zero (be : Backend) (s1 s2 : TsInput (Option ℝ)) (g : Option String)
    (radius : Option ℕ) (slope : Option ℚ) (x y : List (List ℝ)) (code : ℕ) (mask : Mat Bool)
    (hs : ∀ s, slope = some s → 1 ≤ s)
    (hv : validatePair s1 s2 g = .ok (x, y, code))
    (hmask : computeMask x.length y.length code radius slope = .ok mask)
    (am) (ham : IsArgmin3 am) (junk : Mat Fl) :
    ∃ E p, Admissible x.length y.length mask p ∧
      softDtwAlignment be s1 s2 0 g radius slope am junk = .ok (E, .num (sumCost (sampleCost x y) p)) ∧
      (∀ q, Admissible x.length y.length mask q → sumCost (sampleCost x y) p ≤ sumCost (sampleCost x y) q) ∧
      ∀ i j, E i j = .num (if (i, j) ∈ p then 1 else 0) := by
  obtain ⟨-, -, -, hx, hy, -⟩ := validatePair_ok hv
  have hx' := List.length_pos_iff.2 hx
  have hy' := List.length_pos_iff.2 hy
  obtain ⟨-, q0, hq0⟩ := computeMask_reachable hx' hy' hs hmask
  obtain ⟨p, v, hpath, hd, hw, hfin⟩ := C02_dtw_path s1 s2 g radius slope x y code mask hv hmask am ham
  obtain ⟨w, h1, h2, h3⟩ := C01_dtw_squared x y hx hy code radius slope mask hmask
  have hwt : w ≠ ⊤ := fun hw => h2.1 hw ⟨q0, hq0⟩
  obtain ⟨w, rfl⟩ := WithTop.ne_top_iff_exists.1 hwt
  have hgen : dtwPathGeneric x y code radius slope am = .ok ((w : WithTop ℝ), some p) ∧
      v = sqrtTop (w : WithTop ℝ) := by
    have hlast : lastEntry (accumulatedMatrix x y mask) x.length y.length = (w : WithTop ℝ) := by
      simpa [dtwSqGeneric, hmask, bind, Except.bind, pure, Except.pure] using h1
    simp only [dtwPath, hv, dtwPathGeneric, hmask, bind, Except.bind, pure, Except.pure, Except.ok.injEq,
      Prod.mk.injEq, hlast] at hpath ⊢
    exact ⟨⟨trivial, hpath.1⟩, hpath.2.symm⟩
  obtain ⟨hgen, rfl⟩ := hgen
  obtain ⟨hm, hval⟩ := hfin (by simp [sqrtTop])
  have hleast := (h3 w).1 rfl
  have hwnn : 0 ≤ w := by
    obtain ⟨⟨p, -, rfl⟩, -⟩ := hleast
    exact sumCost_nonneg (sampleCost_nonneg x y) p
  have hwp : w = sumCost (sampleCost x y) p := by
    simp only [sqrtTop] at hval
    exact (Real.sqrt_inj hwnn (sumCost_nonneg (sampleCost_nonneg x y) p)).1 (WithTop.coe_injective hval)
  refine ⟨pathMatrix p, p, ⟨hw, hm⟩, ?_, fun q hq => ?_, pathMatrix_apply p⟩
  · simp only [softDtwAlignment, hv, bind, Except.bind, if_true, hgen, pure, Except.pure, ← hwp]
    have e : flOfTop (sqrtTop (w : WithTop ℝ)) = .num (Real.sqrt w) := rfl
    rw [e, num_mul_num, Real.mul_self_sqrt hwnn]
  · rw [← hwp]
    exact hleast.2 ⟨q, hq, rfl⟩

/-! Concrete instance: two constant series of two samples have three paths of equal cost; the off-diagonal
cells are each visited by one of them. -/
example : ∃ E v, softDtwAlignmentGeneric .numpy [[5], [5]] [[5], [5]] 2 0 none none (Mat.full .nan) =
    .ok (E, v) ∧ E 0 0 = .num 1 ∧ E 0 1 = .num (1/3) ∧ E 1 0 = .num (1/3) ∧ E 1 1 = .num 1 := by
  have hP : pathsB (Mat.full true) 2 2 =
      {[(0, 0), (1, 0), (1, 1)], [(0, 0), (0, 1), (1, 1)], [(0, 0), (1, 1)]} := by
    simp [pathsB, Mat.full]
    ext p
    simp
    tauto
  obtain ⟨E, v, h, hE⟩ := C20_visit_probability .numpy [[5], [5]] [[5], [5]] (by simp) (by simp) 2
    (by norm_num) 0 none none (by simp) (Mat.full true) rfl (pathsB (Mat.full true) 2 2)
    (fun _ => mem_pathsB_admissible (n := 2) (m := 2) two_pos two_pos) (Mat.full .nan)
  refine ⟨E, v, h, ?_⟩
  rw [hE 0 0 (by simp) (by simp), hE 0 1 (by simp) (by simp), hE 1 0 (by simp) (by simp),
    hE 1 1 (by simp) (by simp), hP]
  simp [visitProb, Finset.sum_filter, sumCost, sampleCost, sqEuclid]
  norm_num

end Verif
