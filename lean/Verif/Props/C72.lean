import Verif.Model.KnnPredict
import Verif.Spec.KnnPredict
import Verif.Props.C39
import Verif.Props.C17
import Mathlib.Algebra.Order.BigOperators.Group.List
import Mathlib.Algebra.BigOperators.Ring.List
import Mathlib.Tactic.Linarith
import Mathlib.Tactic.FieldSimp
import Mathlib.Tactic.Positivity
/-!
C72 — predictions of nearest-neighbour estimators.
-/
set_option linter.unusedSectionVars false
namespace Verif
open Spec
variable {K : Type} [Field K] [LinearOrder K] [IsStrictOrderedRing K]

theorem modeFold_spec (score : ℕ → K) (m : ℕ) :
    let a := (List.range m).foldl (modeStep score) (0, 0)
    (∀ j < m, score j ≤ a.2) ∧ 0 ≤ a.2 ∧ ((a.1 = 0 ∧ a.2 = 0) ∨ (a.1 < m ∧ a.2 = score a.1 ∧ 0 < a.2 ∧ ∀ j < a.1, score j < a.2)) := by
  induction m with
  | zero => exact ⟨fun j h => absurd h (Nat.not_lt_zero j), le_rfl, .inl ⟨rfl, rfl⟩⟩
  | succ m ih =>
    rw [List.range_succ, List.foldl_append]
    simp only [List.foldl_cons, List.foldl_nil]
    generalize (List.range m).foldl (modeStep score) (0, 0) = a at ih
    obtain ⟨h1, h2, h3⟩ := ih
    unfold modeStep
    simp only
    refine ⟨fun j hj => ?_, le_max_of_le_right h2, ?_⟩
    · rcases Nat.lt_succ_iff_lt_or_eq.mp hj with h | rfl
      · exact le_max_of_le_right (h1 j h)
      · exact le_max_left _ _
    · by_cases h : a.2 < score m
      · rw [if_pos h, max_eq_left h.le]
        exact .inr ⟨by omega, rfl, lt_of_le_of_lt h2 h, fun j hj => lt_of_le_of_lt (h1 j hj) h⟩
      · rw [if_neg h, max_eq_right (not_lt.mp h)]
        rcases h3 with h3 | ⟨h4, h5, h6, h7⟩
        · exact .inl h3
        · exact .inr ⟨by omega, h5, h6, h7⟩

theorem knnMode_spec (score : ℕ → K) (m : ℕ) (h : ∃ j < m, 0 < score j) : FirstGreatest m score (knnMode m score) := by
  obtain ⟨h1, _, h3⟩ := modeFold_spec score m
  obtain ⟨j, hj, hp⟩ := h
  unfold knnMode
  rcases h3 with ⟨_, h0⟩ | ⟨h4, h5, _, h7⟩
  · have := h1 j hj
    rw [h0] at this
    exact absurd this (not_le.mpr hp)
  · exact ⟨h4, fun j hj => h5 ▸ h1 j hj, fun j hj => h5 ▸ h7 j hj⟩

theorem knnMode_nonpos (score : ℕ → K) (m : ℕ) (h : ∀ j < m, score j ≤ 0) : knnMode m score = 0 := by
  obtain ⟨_, _, h3⟩ := modeFold_spec score m
  unfold knnMode
  rcases h3 with ⟨h3, _⟩ | ⟨h4, h5, h6, _⟩
  · exact h3
  · rw [h5] at h6
    exact absurd (h _ h4) (not_le.mpr h6)

theorem listSum_nonpos : ∀ l : List K, (∀ x ∈ l, x ≤ 0) → l.sum ≤ 0
  | [], _ => le_rfl
  | a :: l, h => by
    rw [List.sum_cons]
    exact add_nonpos (h a List.mem_cons_self) (listSum_nonpos l fun x hx => h x (List.mem_cons_of_mem _ hx))

theorem knnScore_map (w : ℕ → K) (y : ℕ → ℕ) (out : List ℕ) (c : ℕ) : knnScore (out.map w) (out.map y) c = votes w y out c := by
  unfold knnScore votes
  induction out with
  | nil => rfl
  | cons a l ih =>
    simp only [List.map_cons, List.zipWith_cons_cons, List.sum_cons, ih]
    by_cases h : y a = c
    · rw [if_pos h, List.filter_cons_of_pos (by simpa using h), List.map_cons, List.sum_cons]
    · rw [if_neg h, List.filter_cons_of_neg (by simpa using h), zero_add]

theorem votes_total (w : ℕ → K) (y : ℕ → ℕ) (m : ℕ) : ∀ out : List ℕ, (∀ i ∈ out, y i < m) →
    ((List.range m).map (votes w y out)).sum = (out.map w).sum := by
  intro out
  induction out with
  | nil => intro _; exact List.sum_eq_zero fun x hx => by obtain ⟨c, _, rfl⟩ := List.mem_map.mp hx; rfl
  | cons a l ih =>
    intro h
    rw [List.map_cons, List.sum_cons, ← ih fun i hi => h i (List.mem_cons_of_mem _ hi)]
    have hv : ∀ c, votes w y (a :: l) c = (if c = y a then w a else 0) + votes w y l c := by
      intro c
      rw [← knnScore_map, ← knnScore_map]
      unfold knnScore
      simp only [List.map_cons, List.zipWith_cons_cons, List.sum_cons, eq_comm]
    rw [funext hv, List.sum_map_add]
    congr 1
    have ha := h a List.mem_cons_self
    clear ih hv h
    induction m with
    | zero => omega
    | succ m ihm =>
      rw [List.range_succ, List.map_append, List.sum_append, List.map_singleton, List.sum_singleton]
      rcases Nat.lt_succ_iff_lt_or_eq.mp ha with h | h
      · rw [ihm h, if_neg (by omega), add_zero]
      · rw [if_pos h.symm]
        have : ((List.range m).map fun c => if c = y a then w a else 0).sum = 0 := by
          apply List.sum_eq_zero
          intro x hx
          obtain ⟨c, hc, rfl⟩ := List.mem_map.mp hx
          rw [if_neg]
          have := List.mem_range.mp hc
          omega
        rw [this, zero_add]

theorem votes_nonneg (w : ℕ → K) (y : ℕ → ℕ) (out : List ℕ) (hw : ∀ i ∈ out, 0 ≤ w i) (c : ℕ) : 0 ≤ votes w y out c := by
  apply List.sum_nonneg
  intro x hx
  obtain ⟨i, hi, rfl⟩ := List.mem_map.mp hx
  exact hw i (List.mem_of_mem_filter hi)

/-- The votes of a neighbour that counts are positive. -/
theorem votes_pos (w : ℕ → K) (y : ℕ → ℕ) (out : List ℕ) (hw : ∀ i ∈ out, 0 ≤ w i) (i : ℕ) (hi : i ∈ out) (hp : 0 < w i) :
    0 < votes w y out (y i) := by
  apply lt_of_lt_of_le hp
  apply List.single_le_sum
  · intro x hx
    obtain ⟨j, hj, rfl⟩ := List.mem_map.mp hx
    exact hw j (List.mem_of_mem_filter hj)
  · exact List.mem_map.mpr ⟨i, List.mem_filter.mpr ⟨hi, by simp⟩, rfl⟩

theorem inverseDistance_eq (row : ℕ → K) (out : List ℕ) : knnWeights .distance (out.map row) = out.map (inverseDistance row out) := by
  unfold knnWeights inverseDistance
  have hany : ((out.map row).any fun d => d = 0) = true ↔ ∃ j ∈ out, row j = 0 := by simp
  by_cases h : ∃ j ∈ out, row j = 0
  · simp only [if_pos (hany.mpr h), if_pos h, List.map_map]
    rfl
  · simp only [if_neg (fun h' => h (hany.mp h')), if_neg h, List.map_map]
    simp [Function.comp_def]

theorem inverseDistance_nonneg (row : ℕ → K) (out : List ℕ) (h : ∀ i ∈ out, 0 ≤ row i) : ∀ i ∈ out, 0 ≤ inverseDistance row out i := by
  intro i hi
  unfold inverseDistance
  split
  · split
    · exact zero_le_one
    · exact le_rfl
  · exact inv_nonneg.mpr (h i hi)

theorem inverseDistance_pos (row : ℕ → K) (out : List ℕ) (h : ∀ i ∈ out, 0 ≤ row i) (hne : out ≠ []) : ∃ i ∈ out, 0 < inverseDistance row out i := by
  unfold inverseDistance
  by_cases hz : ∃ j ∈ out, row j = 0
  · obtain ⟨j, hj, h0⟩ := hz
    exact ⟨j, hj, by rw [if_pos ⟨j, hj, h0⟩, if_pos h0]; exact zero_lt_one⟩
  · obtain ⟨i, hi⟩ := List.exists_mem_of_ne_nil out hne
    refine ⟨i, hi, ?_⟩
    rw [if_neg hz]
    exact inv_pos.mpr (lt_of_le_of_ne (h i hi) fun h0 => hz ⟨i, hi, h0.symm⟩)

/-- The parameter `weights` that goes with `Spec.neighbourWeight`. -/
def weightsOf (w : Bool) : KnnWeights K := if w then .uniform else .distance

theorem neighbourWeight_true (row : ℕ → K) (out : List ℕ) : neighbourWeight true row out = fun _ => 1 := rfl
theorem neighbourWeight_false (row : ℕ → K) (out : List ℕ) : neighbourWeight false row out = inverseDistance row out := rfl

theorem knnWeights_of (w : Bool) (row : ℕ → K) (out : List ℕ) : knnWeights (weightsOf w) (out.map row) = out.map (neighbourWeight w row out) := by
  cases w
  · exact inverseDistance_eq row out
  · rw [neighbourWeight_true]
    show (out.map row).map (fun _ => (1 : K)) = _
    rw [List.map_map]
    rfl

section
variable {S : Selector K} (hS : S.Valid) (row : ℕ → K) (y : ℕ → ℕ) (m n k : ℕ) (hk : 0 < k) (hn : 0 < n) (hy : ∀ i < n, y i < m)
include hS hk hn hy

/-- `predict`: the class with the most votes among `min(k, n)` nearest training series, the first one among ties, for uniform weights and, for
distances that are not negative, for inverse distances. -/
theorem C72_class_partial (w : Bool) (hpos : w = true ∨ ∀ i < n, 0 ≤ row i) :
    ∃ out, KNearest row n (min k n) (fun _ => True) out ∧
      FirstGreatest m (votes (neighbourWeight w row out) y out) (knnPredict S (weightsOf w) m n k row y) := by
  have hN := C39_partial hS row n k hk hn
  refine ⟨knnRow S row n k false, hN, ?_⟩
  generalize hout : knnRow S row n k false = out at hN
  have hne : out ≠ [] := by
    intro h
    have := hN.length
    rw [h] at this
    simp only [List.length_nil] at this
    omega
  have e : knnPredict S (weightsOf w) m n k row y = knnMode m (votes (neighbourWeight w row out) y out) := by
    unfold knnPredict knnClass knnDist
    rw [hout, knnWeights_of]
    congr 1
    funext c
    exact knnScore_map _ _ _ _
  rw [e]
  apply knnMode_spec
  cases w with
  | true =>
    obtain ⟨i, hi⟩ := List.exists_mem_of_ne_nil out hne
    exact ⟨y i, hy i (hN.mem i hi).1, votes_pos _ y out (fun _ _ => zero_le_one) i hi zero_lt_one⟩
  | false =>
    have hr : ∀ i ∈ out, 0 ≤ row i := fun i hi => by
      rcases hpos with h | h
      · cases h
      · exact h i (hN.mem i hi).1
    obtain ⟨i, hi, hp⟩ := inverseDistance_pos row out hr hne
    exact ⟨y i, hy i (hN.mem i hi).1, votes_pos _ y out (inverseDistance_nonneg row out hr) i hi hp⟩

/-- `predict_proba`: under the same conditions the shares of the votes; they are not negative, sum to 1, and `predict` is the first greatest. -/
theorem C72_proba_partial (w : Bool) (hpos : w = true ∨ ∀ i < n, 0 ≤ row i) :
    (∃ out, KNearest row n (min k n) (fun _ => True) out ∧ ∀ c, knnPredictProba S (weightsOf w) m n k row y c =
      votes (neighbourWeight w row out) y out c / (out.map (neighbourWeight w row out)).sum) ∧
    (∀ c, 0 ≤ knnPredictProba S (weightsOf w) m n k row y c) ∧
    ((List.range m).map (knnPredictProba S (weightsOf w) m n k row y)).sum = 1 ∧
    FirstGreatest m (knnPredictProba S (weightsOf w) m n k row y) (knnPredict S (weightsOf w) m n k row y) := by
  have hN := C39_partial hS row n k hk hn
  generalize hout : knnRow S row n k false = out at hN
  have hne : out ≠ [] := by
    intro h
    have := hN.length
    rw [h] at this
    simp only [List.length_nil] at this
    omega
  have hw : (∀ i ∈ out, 0 ≤ neighbourWeight w row out i) ∧ ∃ i ∈ out, 0 < neighbourWeight w row out i := by
    cases w with
    | true =>
      obtain ⟨i, hi⟩ := List.exists_mem_of_ne_nil out hne
      exact ⟨fun _ _ => zero_le_one, i, hi, zero_lt_one⟩
    | false =>
      have hr : ∀ i ∈ out, 0 ≤ row i := fun i hi => by
        rcases hpos with h | h
        · cases h
        · exact h i (hN.mem i hi).1
      exact ⟨inverseDistance_nonneg row out hr, inverseDistance_pos row out hr hne⟩
  have htot : 0 < (out.map (neighbourWeight w row out)).sum := by
    obtain ⟨i, hi, hp⟩ := hw.2
    apply lt_of_lt_of_le hp
    apply List.single_le_sum
    · intro x hx
      obtain ⟨j, hj, rfl⟩ := List.mem_map.mp hx
      exact hw.1 j hj
    · exact List.mem_map.mpr ⟨i, hi, rfl⟩
  have hT := votes_total (neighbourWeight w row out) y m out fun i hi => hy i (hN.mem i hi).1
  have e : ∀ c, knnPredictProba S (weightsOf w) m n k row y c =
      votes (neighbourWeight w row out) y out c / (out.map (neighbourWeight w row out)).sum := by
    intro c
    unfold knnPredictProba knnProba knnDist
    rw [hout, knnWeights_of]
    have es : knnScore (out.map (neighbourWeight w row out)) (out.map y) = votes (neighbourWeight w row out) y out := by
      funext c
      exact knnScore_map _ _ _ _
    simp only [es, hT, if_neg htot.ne']
  have e2 : knnPredict S (weightsOf w) m n k row y = knnMode m (votes (neighbourWeight w row out) y out) := by
    unfold knnPredict knnClass knnDist
    rw [hout, knnWeights_of]
    congr 1
    funext c
    exact knnScore_map _ _ _ _
  refine ⟨⟨out, hN, e⟩, fun c => ?_, ?_, ?_⟩
  · rw [e]
    exact div_nonneg (votes_nonneg _ y out hw.1 c) htot.le
  · rw [funext e]
    have : (fun c => votes (neighbourWeight w row out) y out c / (out.map (neighbourWeight w row out)).sum) =
        fun c => votes (neighbourWeight w row out) y out c * ((out.map (neighbourWeight w row out)).sum)⁻¹ := by
      funext c
      exact div_eq_mul_inv _ _
    rw [this, List.sum_map_mul_right, hT, mul_inv_cancel₀ htot.ne']
  · obtain ⟨i, hi, hp⟩ := hw.2
    obtain ⟨h1, h2, h3⟩ := knnMode_spec (votes (neighbourWeight w row out) y out) m
      ⟨y i, hy i (hN.mem i hi).1, votes_pos _ y out hw.1 i hi hp⟩
    rw [e2]
    refine ⟨h1, fun j hj => ?_, fun j hj => ?_⟩
    · rw [e, e]; exact div_le_div_of_nonneg_right (h2 j hj) htot.le
    · rw [e, e]; exact div_lt_div_of_pos_right (h3 j hj) htot

/-- One neighbour, uniform weights: the class of a series that no other is nearer than, whatever the sign of the distances. -/
theorem C72_nearest (hk1 : k = 1) : ∃ i < n, (∀ j < n, row i ≤ row j) ∧ knnPredict S .uniform m n k row y = y i := by
  obtain ⟨out, hN, h1, h2, _⟩ := C72_class_partial hS row y m n k hk hn hy true (.inl rfl)
  have hl : out.length = 1 := by rw [hN.length]; omega
  obtain ⟨i, rfl⟩ := List.length_eq_one_iff.mp hl
  refine ⟨i, (hN.mem i (by simp)).1, fun j hj => ?_, ?_⟩
  · by_cases hji : j = i
    · rw [hji]
    · exact hN.least j hj trivial (by simpa using hji) i (by simp)
  · by_contra hc
    have := h2 (y i) (hy i (hN.mem i (by simp)).1)
    have e1 : votes (neighbourWeight true row [i]) y [i] (y i) = 1 := by simp [votes, neighbourWeight]
    have e2 : votes (neighbourWeight true row [i]) y [i] (knnPredict S (weightsOf true) m n k row y) = 0 := by
      have : ¬y i = knnPredict S (weightsOf true) m n k row y := fun h => hc h.symm
      simp [votes, neighbourWeight, this]
    rw [e1, e2] at this
    exact absurd this (not_le.mpr zero_lt_one)

/-- Full claim: `predict` is the class with the most votes, for inverse distances as well. False when all of the distances are negative, as
those of soft-DTW may be: the first class is predicted, whatever the neighbours. -/
theorem C72_false_negative (hneg : ∀ i < n, row i < 0) : knnPredict S .distance m n k row y = 0 := by
  have hN := C39_partial hS row n k hk hn
  unfold knnPredict knnClass knnDist
  generalize knnRow S row n k false = out at hN
  rw [inverseDistance_eq]
  apply knnMode_nonpos
  intro c _
  rw [knnScore_map]
  refine listSum_nonpos _ fun x hx => ?_
  obtain ⟨i, hi, rfl⟩ := List.mem_map.mp hx
  have hr := hneg i (hN.mem i (List.mem_of_mem_filter hi)).1
  unfold inverseDistance
  rw [if_neg]
  · exact (inv_lt_zero.mpr hr).le
  · rintro ⟨j, hj, h0⟩
    have := hneg j (hN.mem j hj).1
    rw [h0] at this
    exact lt_irrefl _ this
end

example : knnPredict numpySel .distance 2 4 3 (fun i => [1, 4, 4, 9].getD i (0 : ℚ)) (fun i => [1, 0, 0, 0].getD i 0) = 1 := by decide +kernel
example : knnPredict numpySel .uniform 2 4 3 (fun i => [1, 4, 4, 9].getD i (0 : ℚ)) (fun i => [1, 0, 0, 0].getD i 0) = 0 := by decide +kernel

/-- Then `predict` contradicts `predict_proba`: both neighbours are of class 1, which has probability 1, and class 0 is predicted. -/
theorem C72_false_disagree :
    knnPredict numpySel .distance 2 3 2 (fun i => [-3, -2, -1].getD i (0 : ℚ)) (fun i => [1, 1, 0].getD i 0) = 0 ∧
    knnPredictProba numpySel .distance 2 3 2 (fun i => [-3, -2, -1].getD i (0 : ℚ)) (fun i => [1, 1, 0].getD i 0) 1 = 1 := by decide +kernel

/-- Soft-DTW is such a metric: every series of at least two samples has a negative value to itself, for every `γ > 0` and both backends. -/
theorem C72_soft_dtw_negative (be : Backend) (x : List (List ℝ)) (hx : 2 ≤ x.length) (γ : ℝ) (hγ : 0 < γ) :
    ∃ v : ℝ, softDtwGeneric be x x γ 0 none none = .ok (.num v) ∧ v < 0 := by
  have hx' : x ≠ [] := by rintro rfl; simp at hx
  have hmask : computeMask x.length x.length 0 none none = .ok fun _ _ => true := by
    simp [computeMask]
    rfl
  obtain ⟨S, hS⟩ := C17_paths_finite x.length x.length (by omega) (by omega) fun _ _ => true
  refine ⟨_, C17_softmin be x x hx' hx' γ hγ 0 none none (by simp) _ hmask S hS, ?_⟩
  have hd := diag_path (x.length - 1)
  have ho := (diag_path (x.length - 2)).down.right
  rw [show x.length - 1 + 1 = x.length by omega] at hd
  rw [show x.length - 2 + 1 = x.length - 1 by omega] at ho
  have md : ((List.range x.length).map fun i => (i, i)) ∈ S :=
    (hS _).mpr ⟨isWarpingPath_iff.2 ⟨x.length - 1, x.length - 1, by omega, by omega, hd⟩, fun _ _ => rfl⟩
  have mo := (hS _).mpr ⟨isWarpingPath_iff.2 ⟨x.length - 1, x.length - 1, by omega, by omega, ho⟩, fun _ _ => rfl⟩
  have h0 : sumCost (sampleCost x x) ((List.range x.length).map fun i => (i, i)) = 0 := by
    unfold sumCost
    rw [List.map_map]
    apply List.sum_eq_zero
    intro c hc
    simp only [List.mem_map, Function.comp] at hc
    obtain ⟨i, -, rfl⟩ := hc
    exact sqEuclid_self _
  have hgt : 1 < ∑ p ∈ S, Real.exp (-sumCost (sampleCost x x) p / γ) := by
    have := Finset.add_le_sum (s := S) (f := fun p => Real.exp (-sumCost (sampleCost x x) p / γ)) (fun p _ => (Real.exp_pos _).le) md mo (by
      intro h
      have := congrArg List.length h
      simp at this
      omega)
    simp only [h0, neg_zero, zero_div, Real.exp_zero] at this
    refine lt_of_lt_of_le ?_ this
    linarith [Real.exp_pos (-sumCost (sampleCost x x) ((List.range (x.length - 1)).map (fun i => (i, i)) ++ [(x.length - 1, x.length - 2)] ++ [(x.length - 1, x.length - 1)]) / γ)]
  have := Real.log_pos hgt
  nlinarith

theorem weighted_mean_bounds (w y : ℕ → K) (lo hi : K) : ∀ out : List ℕ, (∀ i ∈ out, 0 ≤ w i) → (∀ i ∈ out, lo ≤ y i ∧ y i ≤ hi) →
    lo * (out.map w).sum ≤ (out.map fun i => y i * w i).sum ∧ (out.map fun i => y i * w i).sum ≤ hi * (out.map w).sum := by
  intro out
  induction out with
  | nil => intro _ _; simp
  | cons a l ih =>
    intro hw hb
    obtain ⟨h1, h2⟩ := ih (fun i hi => hw i (List.mem_cons_of_mem _ hi)) fun i hi => hb i (List.mem_cons_of_mem _ hi)
    have hwa := hw a List.mem_cons_self
    obtain ⟨h3, h4⟩ := hb a List.mem_cons_self
    simp only [List.map_cons, List.sum_cons, mul_add]
    exact ⟨add_le_add (mul_le_mul_of_nonneg_right h3 hwa) h1, add_le_add (mul_le_mul_of_nonneg_right h4 hwa) h2⟩

section
variable {S : Selector K} (hS : S.Valid) (row y : ℕ → K) (n k : ℕ) (hk : 0 < k) (hn : 0 < n)
include hS hk hn

/-- The regressor: the mean of the targets of `min(k, n)` nearest training series, weighted by inverse distances if asked. It lies between
their least and their greatest target, if distances are not negative. -/
theorem C72_regress_partial (w : Bool) (hpos : w = true ∨ ∀ i < n, 0 ≤ row i) :
    ∃ out, KNearest row n (min k n) (fun _ => True) out ∧
      knnPredictTarget S (weightsOf w) n k row y =
        (out.map fun i => y i * neighbourWeight w row out i).sum / (out.map (neighbourWeight w row out)).sum ∧
      ∀ lo hi, (∀ i ∈ out, lo ≤ y i ∧ y i ≤ hi) → lo ≤ knnPredictTarget S (weightsOf w) n k row y ∧
        knnPredictTarget S (weightsOf w) n k row y ≤ hi := by
  have hN := C39_partial hS row n k hk hn
  refine ⟨knnRow S row n k false, hN, ?_⟩
  generalize hout : knnRow S row n k false = out at hN
  have hne : out ≠ [] := by
    intro h
    have := hN.length
    rw [h] at this
    simp only [List.length_nil] at this
    omega
  have hw : (∀ i ∈ out, 0 ≤ neighbourWeight w row out i) ∧ ∃ i ∈ out, 0 < neighbourWeight w row out i := by
    cases w with
    | true =>
      obtain ⟨i, hi⟩ := List.exists_mem_of_ne_nil out hne
      exact ⟨fun _ _ => zero_le_one, i, hi, zero_lt_one⟩
    | false =>
      have hr : ∀ i ∈ out, 0 ≤ row i := fun i hi => by
        rcases hpos with h | h
        · cases h
        · exact h i (hN.mem i hi).1
      exact ⟨inverseDistance_nonneg row out hr, inverseDistance_pos row out hr hne⟩
  have htot : 0 < (out.map (neighbourWeight w row out)).sum := by
    obtain ⟨i, hi, hp⟩ := hw.2
    apply lt_of_lt_of_le hp
    apply List.single_le_sum
    · intro x hx
      obtain ⟨j, hj, rfl⟩ := List.mem_map.mp hx
      exact hw.1 j hj
    · exact List.mem_map.mpr ⟨i, hi, rfl⟩
  have e : knnPredictTarget S (weightsOf w) n k row y =
        (out.map fun i => y i * neighbourWeight w row out i).sum / (out.map (neighbourWeight w row out)).sum := by
    unfold knnPredictTarget knnDist
    rw [hout]
    cases w with
    | true => simp [weightsOf, knnRegress, neighbourWeight_true]
    | false =>
      have hz : ∀ (l : List ℕ) (f : ℕ → K), List.zipWith (· * ·) (l.map y) (l.map f) = l.map fun i => y i * f i := by
        intro l f
        induction l with
        | nil => rfl
        | cons a l ih => simp only [List.map_cons, List.zipWith_cons_cons, ih]
      simp only [weightsOf, knnRegress, Bool.false_eq_true, if_false, inverseDistance_eq, neighbourWeight_false, hz]
  refine ⟨e, fun lo hi hb => ?_⟩
  obtain ⟨h1, h2⟩ := weighted_mean_bounds (neighbourWeight w row out) y lo hi out hw.1 hb
  rw [e]
  exact ⟨(le_div_iff₀ htot).mpr h1, (div_le_iff₀ htot).mpr h2⟩
end

example : knnPredictTarget numpySel .distance 3 2 (fun i => [1, 3, 9].getD i (0 : ℚ)) (fun i => [10, 20, 0].getD i 0) = 25 / 2 := by decide +kernel

/-- Not so for distances of both signs: neighbours with targets 10 and 20, and a prediction of 5. -/
theorem C72_false_regress :
    knnPredictTarget numpySel .distance 3 2 (fun i => [-1, 3, 9].getD i (0 : ℚ)) (fun i => [10, 20, 0].getD i 0) = 5 := by decide +kernel

end Verif
