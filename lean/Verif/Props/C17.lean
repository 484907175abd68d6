import Verif.Proofs.SoftDtw
import Verif.Props.C01
/-!
# C17 — soft-DTW is the soft minimum over all admissible warping paths
-/
namespace Verif
open Spec
open Classical

/-- The admissible warping paths form a finite set, so the sums below range over all of them. -/
theorem C17_paths_finite (n m : ℕ) (hn : 0 < n) (hm : 0 < m) (mask : Mat Bool) :
    ∃ S : Finset (List (ℕ × ℕ)), ∀ p, p ∈ S ↔ Admissible n m mask p :=
  ⟨pathsB mask n m, fun _ => mem_pathsB_admissible hn hm⟩

/-- `soft_dtw` on either backend, under every constraint that is accepted (Itakura slope at least 1):
a finite number, `-γ log Σ exp(-cost/γ)` over all admissible warping paths. In particular the two
backends agree and the max-shift of `softmin3` does not change the value. -/
theorem C17_softmin (be : Backend) (x y : List (List ℝ)) (hx : x ≠ []) (hy : y ≠ []) (γ : ℝ)
    (hγ : 0 < γ) (gc : ℕ) (radius : Option ℕ) (slope : Option ℚ) (hs : ∀ s, slope = some s → 1 ≤ s)
    (mask : Mat Bool) (hmask : computeMask x.length y.length gc radius slope = .ok mask)
    (S : Finset (List (ℕ × ℕ))) (hS : ∀ p, p ∈ S ↔ Admissible x.length y.length mask p) :
    softDtwGeneric be x y γ gc radius slope =
      .ok (.num (-γ * Real.log (∑ p ∈ S, Real.exp (-sumCost (sampleCost x y) p / γ)))) := by
  have hx' := List.length_pos_iff.2 hx
  have hy' := List.length_pos_iff.2 hy
  obtain ⟨hr, q, hq⟩ := computeMask_reachable hx' hy' hs hmask
  have hz := zsum_eq_sum (sampleCost x y) γ hx' hy' hS
  have hne : (∑ p ∈ S, Real.exp (-sumCost (sampleCost x y) p / γ)) ≠ 0 := by
    apply ne_of_gt
    exact Finset.sum_pos (fun _ _ => Real.exp_pos _) ⟨q, (hS q).2 hq⟩
  have e1 : x.length - 1 + 1 = x.length := by omega
  have e2 : y.length - 1 + 1 = y.length := by omega
  unfold softDtwGeneric
  rw [hmask]
  simp only [bind, Except.bind, pure, Except.pure, Except.ok.injEq, localCost_eq, lastEntry]
  cases be with
  | numpy =>
    simp only
    rw [softAcc_eq _ hγ hr _ _ (by omega) (by omega), e1, e2, hz, ofW, if_neg hne]
  | pytorch =>
    simp only
    rw [torchSoftAcc_eq (sampleCost x y) (fun _ _ _ _ _ => rfl) hγ _ _ (by omega) (by omega), e1, e2, hz,
      ofW, if_neg hne]

/-- The public function. -/
theorem C17_soft_dtw (be : Backend) (s1 s2 : TsInput (Option ℝ)) (γ : ℝ) (hγ : 0 < γ)
    (g : Option String) (radius : Option ℕ) (slope : Option ℚ) (hs : ∀ s, slope = some s → 1 ≤ s)
    (x y : List (List ℝ)) (code : ℕ) (mask : Mat Bool)
    (hv : validatePair s1 s2 g = .ok (x, y, code))
    (hmask : computeMask x.length y.length code radius slope = .ok mask)
    (S : Finset (List (ℕ × ℕ))) (hS : ∀ p, p ∈ S ↔ Admissible x.length y.length mask p) :
    softDtw be s1 s2 γ g radius slope =
      .ok (.num (-γ * Real.log (∑ p ∈ S, Real.exp (-sumCost (sampleCost x y) p / γ)))) := by
  obtain ⟨-, -, -, hx, hy, -⟩ := validatePair_ok hv
  unfold softDtw
  simp only [hv, bind, Except.bind]
  rw [if_neg hγ.ne']
  exact C17_softmin be x y hx hy γ hγ code radius slope hs mask hmask S hS

/-- For `gamma = 0` the value is the square of the DTW distance (the least path cost). -/
theorem C17_gamma_zero (be : Backend) (s1 s2 : TsInput (Option ℝ)) (g : Option String)
    (radius : Option ℕ) (slope : Option ℚ) (x y : List (List ℝ)) (code : ℕ) (mask : Mat Bool)
    (hv : validatePair s1 s2 g = .ok (x, y, code))
    (hmask : computeMask x.length y.length code radius slope = .ok mask) (w : ℝ) :
    softDtw be s1 s2 0 g radius slope = .ok (.num w) ↔
      IsLeast {c | ∃ p, Admissible x.length y.length mask p ∧ c = sumCost (sampleCost x y) p} w := by
  obtain ⟨-, -, -, hx, hy, -⟩ := validatePair_ok hv
  obtain ⟨v, h1, h2, h3⟩ := C01_dtw_squared x y hx hy code radius slope mask hmask
  unfold softDtw
  simp only [hv, bind, Except.bind, if_true, dtwSquared, h1, pure, Except.pure, Except.ok.injEq]
  rw [← h3]
  cases v with
  | top => simp [sqrtTop, flOfTop, Fl.mul]
  | coe v =>
    have hnn : 0 ≤ v := by
      obtain ⟨⟨p, -, rfl⟩, -⟩ := (h3 v).1 rfl
      exact sumCost_nonneg (sampleCost_nonneg x y) p
    simp [sqrtTop, flOfTop, Fl.mul, Fl.scale, Real.mul_self_sqrt hnn]

/-- The similarity returned by `soft_dtw_alignment` is the value of `soft_dtw`, on either backend
(the two use different accumulation routines). -/
theorem C17_alignment_value (be : Backend) (x y : List (List ℝ)) (hx : x ≠ []) (hy : y ≠ [])
    (γ : ℝ) (hγ : 0 < γ) (gc : ℕ) (radius : Option ℕ) (slope : Option ℚ)
    (hs : ∀ s, slope = some s → 1 ≤ s) (junk : Mat Fl) (E : Mat Fl) (v : Fl)
    (h : softDtwAlignmentGeneric be x y γ gc radius slope junk = .ok (E, v)) :
    softDtwGeneric be x y γ gc radius slope = .ok v := by
  have hx' := List.length_pos_iff.2 hx
  have hy' := List.length_pos_iff.2 hy
  cases hmask : computeMask x.length y.length gc radius slope with
  | error e => simp [softDtwAlignmentGeneric, hmask, bind, Except.bind] at h
  | ok mask =>
    obtain ⟨hr, q, hq⟩ := computeMask_reachable hx' hy' hs hmask
    simp only [softDtwAlignmentGeneric, hmask, bind, Except.bind, pure, Except.pure, Except.ok.injEq,
      Prod.mk.injEq, localCost_eq, lastEntry] at h
    obtain ⟨-, rfl⟩ := h
    simp only [softDtwGeneric, hmask, bind, Except.bind, pure, Except.pure, Except.ok.injEq,
      localCost_eq, lastEntry]
    cases be with
    | numpy =>
      simp only
      rw [softAcc_eq _ hγ hr _ _ (by omega) (by omega), softAccFromDist_eq (sampleCost x y)
        (fun i j _ _ h => by simp only [h, if_true]) hγ hr _ _ (by omega) (by omega)]
    | pytorch =>
      simp only
      rw [torchSoftAcc_eq (sampleCost x y) (fun i j _ _ _ => rfl) hγ _ _ (by omega) (by omega),
        torchSoftAcc_eq (sampleCost x y)
        (fun i j _ _ h => by simp only [h, if_true]) hγ _ _ (by omega) (by omega)]

/-- Reachability cannot be dropped for arbitrary masks: with an allowed cell cut off from `(0, 0)`
the NumPy table holds NaN where the PyTorch table holds `inf`. (No mask returned by `compute_mask`
is of this kind, see `computeMask_reachable`.) -/
theorem C17_unreachable_cells_differ : ∃ (mask : Mat Bool) (D : ℕ → ℕ → ℝ),
    softAcc 1 3 mask D 1 0 2 = .nan ∧ torchSoftAcc 1 3 mask (fun i j => .num (D i j)) 1 0 2 = .inf := by
  refine ⟨fun _ j => j != 1, fun _ _ => 1, ?_, ?_⟩
  · have hM := dpLoop_isDP 1 3 (fun _ j => j != 1) (fun i j up left diag =>
      (Fl.num 1).add (softmin3 up left diag 1)) softInit
    have e : (dpLoop 1 3 (fun _ j => j != 1) (fun i j up left diag =>
      (Fl.num 1).add (softmin3 up left diag 1)) softInit) 1 3 = .nan := by
      rw [hM.body 0 2 (by omega) (by omega), if_pos (by decide), hM.body 0 1 (by omega) (by omega),
        if_neg (by simp), hM.row0, hM.row0]
      have : softmin3 (softInit 0 (2+1)) (softInit (0+1) (1+1)) (softInit 0 2) 1 = .nan := by
        have := softmin3_inf (γ := 1) one_pos
        rw [ofW_zero] at this
        exact this
      rw [this]; rfl
    exact e
  · rw [torchSoftAcc_eq (fun _ _ => 1) (fun _ _ _ _ _ => rfl) one_pos _ _ (by omega) (by omega),
      zsum_softK_succ, zsum_softK_succ, zsum_zero_succ, zsum_zero_succ]
    simp [softK, ofW]

/-! Concrete instances. -/

/-- A `1 × 2` problem: one path, so the value is its cost. -/
example : softDtwGeneric .numpy [[0]] [[1], [3]] 2 0 none none = .ok (.num 10) := by
  have hS : ∀ p, p ∈ ({[(0, 0), (0, 1)]} : Finset (List (ℕ × ℕ))) ↔
      Admissible 1 2 (Mat.full true) p := by
    intro p
    rw [← mem_pathsB_admissible (by omega) (by omega)]
    have : pathsB (Mat.full true) 1 2 = {[(0, 0), (0, 1)]} := by
      simp [pathsB, Mat.full]
    rw [this]
  rw [C17_softmin .numpy [[0]] [[1], [3]] (by simp) (by simp) 2 (by norm_num) 0 none none (by simp)
    (Mat.full true) rfl _ hS]
  simp [sumCost, sampleCost, sqEuclid]
  norm_num

/-- A `2 × 2` problem with three paths, all of cost zero: the value is `-γ log 3`. -/
example : softDtwGeneric .pytorch [[5], [5]] [[5], [5]] 2 0 none none = .ok (.num (-2 * Real.log 3)) := by
  have hS : ∀ p, p ∈ ({[(0, 0), (1, 0), (1, 1)], [(0, 0), (0, 1), (1, 1)], [(0, 0), (1, 1)]} :
      Finset (List (ℕ × ℕ))) ↔ Admissible 2 2 (Mat.full true) p := by
    intro p
    rw [← mem_pathsB_admissible (by omega) (by omega)]
    have : pathsB (Mat.full true) 2 2 =
        {[(0, 0), (0, 1), (1, 1)], [(0, 0), (1, 0), (1, 1)], [(0, 0), (1, 1)]} := by
      simp [pathsB, Mat.full]
    rw [this]
    simp only [Finset.mem_insert, Finset.mem_singleton]
    tauto
  rw [C17_softmin .pytorch [[5], [5]] [[5], [5]] (by simp) (by simp) 2 (by norm_num) 0 none none
    (by simp) (Mat.full true) rfl _ hS]
  rw [Finset.sum_insert (by decide), Finset.sum_insert (by decide), Finset.sum_singleton]
  simp [sumCost, sampleCost, sqEuclid]
  norm_num

/-- Accepted constraints: a band, and an Itakura parallelogram of slope 2. -/
example : (∃ mask, computeMask 4 5 2 (some 1) none = .ok mask) ∧
    (∃ mask, computeMask 4 4 1 none (some 2) = .ok mask) :=
  ⟨⟨_, rfl⟩, (C51_equal_lengths 4 2 (by norm_num) (by norm_num)).imp fun _ h => by
    simpa [computeMask] using h.1⟩

end Verif
