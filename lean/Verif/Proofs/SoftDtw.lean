import Verif.Proofs.Softmin
import Verif.Proofs.PathSum
import Verif.Proofs.Dtw
import Verif.Proofs.Masks
import Verif.Props.C51
import Mathlib.Algebra.Order.BigOperators.Group.Finset
/-!
The soft-DTW tables are logarithms of path sums.
-/
set_option linter.unusedSectionVars false
namespace Verif
open Spec
noncomputable section
open Classical

/-- Local weight `exp(-d/γ)`, zero outside the mask. -/
def softK (mask : Mat Bool) (D : ℕ → ℕ → ℝ) (γ : ℝ) (i j : ℕ) : ℝ :=
  if mask i j then Real.exp (-D i j / γ) else 0

theorem softK_nonneg (mask : Mat Bool) (D : ℕ → ℕ → ℝ) (γ : ℝ) (i j : ℕ) : 0 ≤ softK mask D γ i j := by
  unfold softK; split <;> positivity

theorem softK_pos {mask : Mat Bool} (D : ℕ → ℕ → ℝ) (γ : ℝ) {i j : ℕ} (h : mask i j = true) :
    0 < softK mask D γ i j := by
  unfold softK; rw [if_pos h]; positivity

/-- The weight of an admissible path is `exp(-cost/γ)`. -/
theorem prodW_softK {mask : Mat Bool} (D : ℕ → ℕ → ℝ) (γ : ℝ) {p : List (ℕ × ℕ)} (h : InMask mask p) :
    prodW (softK mask D γ) p = Real.exp (-sumCost D p / γ) := by
  induction p with
  | nil => simp [prodW, sumCost]
  | cons c p ih =>
    have h1 : mask c.1 c.2 = true := h c (by simp)
    have h2 : InMask mask p := fun d hd => h d (by simp [hd])
    have := ih h2
    simp only [prodW, sumCost, List.map_cons, List.prod_cons, List.sum_cons] at this ⊢
    rw [this, softK, if_pos h1, ← Real.exp_add]
    congr 1
    ring

theorem prodW_pos {mask : Mat Bool} (D : ℕ → ℕ → ℝ) (γ : ℝ) {a b p} (h : p ∈ pathsB mask a b) :
    0 < prodW (softK mask D γ) p := by
  rcases a with _ | a <;> rcases b with _ | b
  · rw [mem_pathsB_zero_zero] at h; subst h; simp [prodW]
  · exact absurd h mem_pathsB_zero_succ
  · exact absurd h mem_pathsB_succ_zero
  · rw [prodW_softK D γ (mem_pathsB.1 h).2]; positivity

theorem zsum_nonneg (mask : Mat Bool) (D : ℕ → ℕ → ℝ) (γ : ℝ) (a b : ℕ) :
    0 ≤ zsum mask (softK mask D γ) a b :=
  Finset.sum_nonneg fun _ hp => (prodW_pos D γ hp).le

theorem zsum_pos_of_mem {mask : Mat Bool} (D : ℕ → ℕ → ℝ) (γ : ℝ) {a b : ℕ} {p}
    (hp : p ∈ pathsB mask a b) : 0 < zsum mask (softK mask D γ) a b :=
  Finset.sum_pos (fun _ hp => prodW_pos D γ hp) ⟨p, hp⟩

theorem zsum_softK_succ (mask : Mat Bool) (D : ℕ → ℕ → ℝ) (γ : ℝ) (i j : ℕ) :
    zsum mask (softK mask D γ) (i+1) (j+1) = (zsum mask (softK mask D γ) i (j+1) +
      zsum mask (softK mask D γ) (i+1) j + zsum mask (softK mask D γ) i j) * softK mask D γ i j := by
  rw [zsum_succ_succ]
  split
  · rfl
  · rename_i h
    rw [softK, if_neg h, mul_zero]

/-- Border of the soft-DTW tables. -/
def softInit : Mat Fl := (Mat.full Fl.inf).set 0 0 (Fl.num 0)

theorem softInit_border (γ : ℝ) (mask : Mat Bool) (D : ℕ → ℕ → ℝ) {i j : ℕ} (h : i = 0 ∨ j = 0) :
    softInit i j = ofW γ (zsum mask (softK mask D γ) i j) := by
  rcases i with _ | i <;> rcases j with _ | j
  · rw [zsum_zero_zero, ofW_one]; rfl
  · rw [zsum_zero_succ, ofW_zero]; rfl
  · rw [zsum_succ_zero, ofW_zero]; rfl
  · omega

/-- Every allowed cell of the table can be reached from `(0, 0)` through allowed cells. -/
def AllReachable (l1 l2 : ℕ) (mask : Mat Bool) : Prop :=
  ∀ i j, i < l1 → j < l2 → mask i j = true → ∃ p, Admissible (i+1) (j+1) mask p

theorem AllReachable.pos {l1 l2 : ℕ} {mask : Mat Bool} (h : AllReachable l1 l2 mask)
    (D : ℕ → ℕ → ℝ) (γ : ℝ) {i j : ℕ} (hi : i < l1) (hj : j < l2) (hm : mask i j = true) :
    0 < zsum mask (softK mask D γ) i (j+1) + zsum mask (softK mask D γ) (i+1) j +
      zsum mask (softK mask D γ) i j := by
  obtain ⟨p, hp⟩ := h i j hi hj hm
  have h1 := zsum_pos_of_mem D γ ((mem_pathsB_admissible (by omega) (by omega)).2 hp)
  rw [zsum_softK_succ] at h1
  exact pos_of_mul_pos_left h1 (softK_nonneg ..)

theorem num_add_softK {γ : ℝ} (hγ : 0 < γ) {mask : Mat Bool} (D : ℕ → ℕ → ℝ) {i j : ℕ}
    (hm : mask i j = true) (z : ℝ) :
    (Fl.num (D i j)).add (ofW γ z) = ofW γ (z * softK mask D γ i j) := by
  rw [num_add_ofW hγ, softK, if_pos hm]

/-- NumPy table. -/
theorem softAcc_isDP_eq {l1 l2 : ℕ} {mask : Mat Bool} {D : ℕ → ℕ → ℝ} {γ : ℝ} {M : Mat Fl}
    (hM : IsDP l1 l2 mask (fun i j up left diag => (Fl.num (D i j)).add (softmin3 up left diag γ))
      softInit M) (hγ : 0 < γ) (hr : AllReachable l1 l2 mask) (i j : ℕ) (hi : i ≤ l1) (hj : j ≤ l2) :
    M i j = ofW γ (zsum mask (softK mask D γ) i j) := by
  induction hs : i + j using Nat.strong_induction_on generalizing i j with
  | _ s ih =>
    rcases i with _ | i
    · rw [hM.row0]; exact softInit_border _ _ _ (.inl rfl)
    · rcases j with _ | j
      · rw [hM.col0]; exact softInit_border _ _ _ (.inr rfl)
      · rw [hM.body i j (by omega) (by omega)]
        by_cases hm : mask i j = true
        · rw [if_pos hm, ih _ (by omega) i (j+1) (by omega) hj rfl,
            ih _ (by omega) (i+1) j hi (by omega) rfl, ih _ (by omega) i j (by omega) (by omega) rfl,
            softmin3_ofW hγ (zsum_nonneg ..) (zsum_nonneg ..) (zsum_nonneg ..)
              (hr.pos D γ (by omega) (by omega) hm).ne', num_add_softK hγ D hm, zsum_softK_succ]
        · rw [if_neg hm, zsum_softK_succ, softK, if_neg hm, mul_zero, ofW_zero]; rfl

theorem softAcc_eq {l1 l2 : ℕ} {mask : Mat Bool} (D : ℕ → ℕ → ℝ) {γ : ℝ} (hγ : 0 < γ)
    (hr : AllReachable l1 l2 mask) (i j : ℕ) (hi : i < l1) (hj : j < l2) :
    softAcc l1 l2 mask D γ i j = ofW γ (zsum mask (softK mask D γ) (i+1) (j+1)) :=
  softAcc_isDP_eq (dpLoop_isDP ..) hγ hr _ _ hi hj

/-- The border-free NumPy table. -/
theorem softAccFromDist_isDP_eq {l1 l2 : ℕ} {mask : Mat Bool} {D : ℕ → ℕ → ℝ} {D' : Mat Fl} {γ : ℝ}
    {M : Mat Fl} (hM : IsDP l1 l2 mask (fun i j up left diag =>
      if i + j ≠ 0 then
        (D' i j).add (softmin3 (if i ≠ 0 then up else Fl.inf) (if j ≠ 0 then left else Fl.inf)
          (if i * j ≠ 0 then diag else Fl.inf) γ)
      else D' i j) (Mat.full Fl.inf) M)
    (hD : ∀ i j, i < l1 → j < l2 → mask i j = true → D' i j = .num (D i j)) (hγ : 0 < γ)
    (hr : AllReachable l1 l2 mask) (i j : ℕ) (hi : i < l1) (hj : j < l2) :
    M (i+1) (j+1) = ofW γ (zsum mask (softK mask D γ) (i+1) (j+1)) := by
  induction hs : i + j using Nat.strong_induction_on generalizing i j with
  | _ s ih =>
    rw [hM.body i j hi hj]
    by_cases hm : mask i j = true
    · rw [if_pos hm, hD i j hi hj hm]
      by_cases h0 : i + j = 0
      · obtain rfl : i = 0 := by omega
        obtain rfl : j = 0 := by omega
        rw [if_neg (by simp), zsum_softK_succ, zsum_zero_succ, zsum_succ_zero, zsum_zero_zero,
          ← num_add_softK hγ D hm, zero_add, zero_add, ofW_one, num_add_num, add_zero]
      · rw [if_pos h0]
        have e1 : (if i ≠ 0 then M i (j+1) else Fl.inf) =
            ofW γ (zsum mask (softK mask D γ) i (j+1)) := by
          rcases i with _ | i
          · rw [zsum_zero_succ, ofW_zero]; rfl
          · rw [if_pos (by omega)]; exact ih (i + j) (by omega) i j (by omega) hj rfl
        have e2 : (if j ≠ 0 then M (i+1) j else Fl.inf) =
            ofW γ (zsum mask (softK mask D γ) (i+1) j) := by
          rcases j with _ | j
          · rw [zsum_succ_zero, ofW_zero]; rfl
          · rw [if_pos (by omega)]; exact ih (i + j) (by omega) i j hi (by omega) rfl
        have e3 : (if i * j ≠ 0 then M i j else Fl.inf) =
            ofW γ (zsum mask (softK mask D γ) i j) := by
          rcases i with _ | i <;> rcases j with _ | j
          · simp at h0
          · rw [zsum_zero_succ, ofW_zero, if_neg (by simp)]
          · rw [zsum_succ_zero, ofW_zero, if_neg (by simp)]
          · rw [if_pos (by simp)]; exact ih (i + j) (by omega) i j (by omega) (by omega) rfl
        rw [e1, e2, e3, softmin3_ofW hγ (zsum_nonneg ..) (zsum_nonneg ..) (zsum_nonneg ..)
              (hr.pos D γ hi hj hm).ne', num_add_softK hγ D hm, zsum_softK_succ]
    · rw [if_neg hm, zsum_softK_succ, softK, if_neg hm, mul_zero, ofW_zero]; rfl

theorem softAccFromDist_eq {l1 l2 : ℕ} {mask : Mat Bool} (D : ℕ → ℕ → ℝ) {D' : Mat Fl}
    (hD : ∀ i j, i < l1 → j < l2 → mask i j = true → D' i j = .num (D i j)) {γ : ℝ} (hγ : 0 < γ)
    (hr : AllReachable l1 l2 mask) (i j : ℕ) (hi : i < l1) (hj : j < l2) :
    softAccFromDist l1 l2 mask D' γ i j = ofW γ (zsum mask (softK mask D γ) (i+1) (j+1)) :=
  softAccFromDist_isDP_eq (dpLoop_isDP ..) hD hγ hr i j hi hj

/-- PyTorch table: no reachability needed. -/
theorem torchSoftAcc_eq {l1 l2 : ℕ} {mask : Mat Bool} (D : ℕ → ℕ → ℝ) {D' : Mat Fl}
    (hD : ∀ i j, i < l1 → j < l2 → mask i j = true → D' i j = .num (D i j)) {γ : ℝ} (hγ : 0 < γ)
    (i j : ℕ) (hi : i < l1) (hj : j < l2) :
    torchSoftAcc l1 l2 mask D' γ i j = ofW γ (zsum mask (softK mask D γ) (i+1) (j+1)) := by
  have hM := diagLoop_isDP l1 l2 (fun i j up left diag =>
      (if mask i j then D' i j else Fl.inf).add (softminTorch up left diag γ)) softInit
  have key : ∀ s i j, i ≤ l1 → j ≤ l2 → i + j = s → (diagLoop l1 l2 (fun i j up left diag =>
      (if mask i j then D' i j else Fl.inf).add (softminTorch up left diag γ)) softInit) i j =
      ofW γ (zsum mask (softK mask D γ) i j) := by
    intro s
    induction s using Nat.strong_induction_on with
    | _ s ih =>
      intro i j hi hj hs
      rcases i with _ | i
      · rw [hM.row0]; exact softInit_border _ _ _ (.inl rfl)
      · rcases j with _ | j
        · rw [hM.col0]; exact softInit_border _ _ _ (.inr rfl)
        · rw [hM.body i j (by omega) (by omega), if_pos rfl,
            ih _ (by omega) i (j+1) (by omega) hj rfl,
            ih _ (by omega) (i+1) j hi (by omega) rfl, ih _ (by omega) i j (by omega) (by omega) rfl,
            softminTorch_ofW hγ (zsum_nonneg ..) (zsum_nonneg ..) (zsum_nonneg ..), zsum_softK_succ]
          by_cases hm : mask i j = true
          · rw [if_pos hm, hD i j (by omega) (by omega) hm, num_add_softK hγ D hm]
          · rw [if_neg hm, softK, if_neg hm, mul_zero, ofW_zero, inf_add_ofW]
  exact key _ _ _ hi hj rfl

/-- Path sums as sums over any enumeration of the admissible paths. -/
theorem zsum_eq_sum {mask : Mat Bool} (D : ℕ → ℕ → ℝ) (γ : ℝ) {n m : ℕ} (hn : 0 < n) (hm : 0 < m)
    {S : Finset (List (ℕ × ℕ))} (hS : ∀ p, p ∈ S ↔ Admissible n m mask p) :
    zsum mask (softK mask D γ) n m = ∑ p ∈ S, Real.exp (-sumCost D p / γ) := by
  have : pathsB mask n m = S := by
    ext p; rw [hS, mem_pathsB_admissible hn hm]
  rw [zsum, this]
  refine Finset.sum_congr rfl fun p hp => prodW_softK D γ ((hS p).1 hp).2

theorem reachable_of_pred {l1 l2 : ℕ} {mask : Mat Bool}
    (h : ∀ i j, i < l1 → j < l2 → mask i j = true → (i = 0 ∧ j = 0) ∨
      (0 < i ∧ mask (i-1) j = true) ∨ (0 < j ∧ mask i (j-1) = true) ∨
      (0 < i ∧ 0 < j ∧ mask (i-1) (j-1) = true)) : AllReachable l1 l2 mask := by
  intro i j hi hj hm
  have key : ∀ s i j, i + j = s → i < l1 → j < l2 → mask i j = true →
      ∃ p, p ∈ pathsB mask (i+1) (j+1) := by
    intro s
    induction s using Nat.strong_induction_on with
    | _ s ih =>
      intro i j hs hi hj hm
      have app : ∀ {q : List (ℕ × ℕ)}, InMask mask q → InMask mask (q ++ [(i, j)]) := by
        intro q hq c hc
        rcases List.mem_append.1 hc with h | h
        · exact hq c h
        · rw [List.mem_singleton] at h; subst h; exact hm
      rcases h i j hi hj hm with ⟨rfl, rfl⟩ | ⟨h0, h1⟩ | ⟨h0, h1⟩ | ⟨h0, h0', h1⟩
      · refine ⟨[(0, 0)], mem_pathsB.2 ⟨WP.start 0 (.inr rfl), ?_⟩⟩
        intro c hc; rw [List.mem_singleton] at hc; subst hc; exact hm
      · obtain ⟨q, hq⟩ := ih (i - 1 + j) (by omega) (i-1) j rfl (by omega) hj h1
        obtain ⟨hw, hq⟩ := mem_pathsB.1 hq
        have := hw.down
        rw [show i - 1 + 1 = i by omega] at this
        exact ⟨_, mem_pathsB.2 ⟨this, app hq⟩⟩
      · obtain ⟨q, hq⟩ := ih (i + (j - 1)) (by omega) i (j-1) rfl hi (by omega) h1
        obtain ⟨hw, hq⟩ := mem_pathsB.1 hq
        have := hw.right
        rw [show j - 1 + 1 = j by omega] at this
        exact ⟨_, mem_pathsB.2 ⟨this, app hq⟩⟩
      · obtain ⟨q, hq⟩ := ih (i - 1 + (j - 1)) (by omega) (i-1) (j-1) rfl (by omega) (by omega) h1
        obtain ⟨hw, hq⟩ := mem_pathsB.1 hq
        have := hw.diag
        rw [show i - 1 + 1 = i by omega, show j - 1 + 1 = j by omega] at this
        exact ⟨_, mem_pathsB.2 ⟨this, app hq⟩⟩
  obtain ⟨p, hp⟩ := key _ i j rfl hi hj hm
  exact ⟨p, (mem_pathsB_admissible (by omega) (by omega)).1 hp⟩

theorem full_reachable (l1 l2 : ℕ) : AllReachable l1 l2 (Mat.full true) :=
  reachable_of_pred fun i j _ _ _ => by
    by_cases hi : 0 < i
    · exact .inr (.inl ⟨hi, rfl⟩)
    · by_cases hj : 0 < j
      · exact .inr (.inr (.inl ⟨hj, rfl⟩))
      · exact .inl ⟨by omega, by omega⟩

theorem sakoeChiba_reachable (l1 l2 r : ℕ) : AllReachable l1 l2 (sakoeChibaMask l1 l2 r) := by
  refine reachable_of_pred fun i j hi hj hm => ?_
  rw [sakoeChibaMask_iff _ _ _ _ _ hi hj] at hm
  unfold InBand at hm
  by_cases h1 : 0 < i
  · by_cases h2 : 0 < j
    · refine .inr (.inr (.inr ⟨h1, h2, ?_⟩))
      rw [sakoeChibaMask_iff _ _ _ _ _ (by omega) (by omega)]
      unfold InBand
      omega
    · refine .inr (.inl ⟨h1, ?_⟩)
      rw [sakoeChibaMask_iff _ _ _ _ _ (by omega) (by omega)]
      unfold InBand
      omega
  · by_cases h2 : 0 < j
    · refine .inr (.inr (.inl ⟨h2, ?_⟩))
      rw [sakoeChibaMask_iff _ _ _ _ _ (by omega) (by omega)]
      unfold InBand
      omega
    · exact .inl ⟨by omega, by omega⟩

theorem itakura_reachable {n m : ℕ} {s : ℚ} (hn : 0 < n) (hm : 0 < m) (hs : 1 ≤ s)
    {mask : Mat Bool} (h : itakuraMask n m s = .ok mask) :
    AllReachable n m mask ∧ ∃ p, Admissible n m mask p := by
  have hs0 : 0 < s := by linarith
  have hiff := itakuraMask_iff hn hm hs h
  unfold itakuraMask itakuraFill at h
  simp only [hs0.ne', if_false] at h
  split_ifs at h with hc
  simp only [Except.ok.injEq] at h
  rw [h] at hc
  simp only [Bool.and_eq_true, List.all_eq_true, List.mem_range, List.any_eq_true] at hc
  constructor
  · intro i j hi hj hij
    obtain ⟨p, hp, hpm⟩ := corridor_reachable n m hn _ _ (itakuraLower_mono n m s hs0)
      (itakuraUpper_mono n m s hs0) (itakuraLower_nonneg n m s hs0) mask
      (fun a ha b hb => hiff a b ha hb) hc.1 hc.2 j hj i hi hij
    exact ⟨p, isWarpingPath_iff.2 ⟨i, j, rfl, rfl, hp⟩, hpm⟩
  · exact corridor_feasible n m hn hm _ _ (itakuraLower_mono n m s hs0)
      (itakuraUpper_mono n m s hs0) (itakuraLower_nonneg n m s hs0) mask
      (fun a ha b hb => hiff a b ha hb) hc.1 hc.2

/-- Every mask `compute_mask` returns (for documented arguments) is reachable throughout. -/
theorem computeMask_reachable {n m gc : ℕ} {radius : Option ℕ} {slope : Option ℚ} {mask : Mat Bool}
    (hn : 0 < n) (hm : 0 < m) (hs : ∀ s, slope = some s → 1 ≤ s)
    (h : computeMask n m gc radius slope = .ok mask) :
    AllReachable n m mask ∧ ∃ p, Admissible n m mask p := by
  unfold computeMask at h
  split_ifs at h
  · obtain rfl := Except.ok.inj h
    exact ⟨sakoeChiba_reachable n m _, sakoeChiba_feasible _ _ _ hn hm⟩
  · refine itakura_reachable hn hm ?_ h
    cases slope with
    | none => norm_num
    | some s => exact hs s rfl
  · obtain rfl := Except.ok.inj h
    exact ⟨full_reachable n m, full_feasible _ _ hn hm⟩

end
end Verif
