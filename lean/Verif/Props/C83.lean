import Verif.Proofs.SoftObj
import Verif.Spec.SoftBary
/-!
C83: the classes `SoftDTW` and `SquaredEuclidean`.
-/
set_option linter.unusedSectionVars false
namespace Verif
open Spec
noncomputable section

theorem extZ_softMin {m n : ℕ} (B : ℝ) (D : ℕ → ℕ → ℝ) (γ : ℝ) {S' : Finset (List (ℕ × ℕ))}
    (hS' : ∀ p, p ∈ S' ↔ Admissible (m + 1) (n + 1) (Mat.full true) p) :
    -γ * Real.log (extZ B D γ m n) = Spec.softMin S' (sumCost (extCost B D)) γ := by
  unfold extZ Spec.softMin
  rw [zsum_eq_sum (extCost B D) γ (by omega) (by omega) hS']

/-- The value is the soft minimum over all warping paths of a grid with one more row and column, on which entering the border
costs `B`. -/
theorem C83_value_border {m n : ℕ} (B : ℝ) (D R : Mat ℝ) {γ : ℝ} (hγ : 0 < γ) (c : Bool) {S' : Finset (List (ℕ × ℕ))}
    (hS' : ∀ p, p ∈ S' ↔ Admissible (m + 1) (n + 1) (Mat.full true) p) :
    ((⟨m, n, D, R, c, γ⟩ : SoftObj).compute B).2 = Spec.softMin S' (sumCost (extCost B D)) γ := by
  rw [← extZ_softMin B D γ hS']
  exact objForward_eq hγ D R m n le_rfl le_rfl

theorem extZ_bounds (B : ℝ) (D : ℕ → ℕ → ℝ) {γ : ℝ} (hγ : 0 < γ) (m n : ℕ) (hD : ∀ i < m, ∀ j < n, 0 ≤ D i j) (i j : ℕ) (hi : i ≤ m)
    (hj : j ≤ n) : zsum (Mat.full true) (softK (Mat.full true) D γ) i j ≤ extZ B D γ i j ∧
      extZ B D γ i j ≤ zsum (Mat.full true) (softK (Mat.full true) D γ) i j + Real.exp (-B / γ) * 3 ^ (i + j) := by
  have hβ : 0 < Real.exp (-B / γ) := Real.exp_pos _
  induction hs : i + j using Nat.strong_induction_on generalizing i j with
  | _ s ih =>
    rcases i with _ | i
    · rcases j with _ | j
      · rw [extZ_zero, zsum_zero_zero]
        exact ⟨le_rfl, by have : (0 : ℝ) ≤ 3 ^ s := by positivity
                          nlinarith⟩
      · rw [extZ_row, zsum_zero_succ]
        have : (1 : ℝ) ≤ 3 ^ s := one_le_pow₀ (by norm_num)
        exact ⟨hβ.le, by nlinarith⟩
    · rcases j with _ | j
      · rw [extZ_col, zsum_succ_zero]
        have : (1 : ℝ) ≤ 3 ^ s := one_le_pow₀ (by norm_num)
        exact ⟨hβ.le, by nlinarith⟩
      · obtain ⟨a1, b1⟩ := ih (i + (j + 1)) (by omega) i (j + 1) (by omega) hj rfl
        obtain ⟨a2, b2⟩ := ih (i + 1 + j) (by omega) (i + 1) j hi (by omega) rfl
        obtain ⟨a3, b3⟩ := ih (i + j) (by omega) i j (by omega) (by omega) rfl
        rw [extZ_succ, zsum_softK_succ, softK_full]
        have k0 : 0 < Real.exp (-D i j / γ) := Real.exp_pos _
        have k1 : Real.exp (-D i j / γ) ≤ 1 := by
          rw [Real.exp_le_one_iff, neg_div]
          have := div_nonneg (hD i (by omega) j (by omega)) hγ.le
          linarith
        set k := Real.exp (-D i j / γ)
        set β := Real.exp (-B / γ)
        set z1 := zsum (Mat.full true) (softK (Mat.full true) D γ) i (j + 1)
        set z2 := zsum (Mat.full true) (softK (Mat.full true) D γ) (i + 1) j
        set z3 := zsum (Mat.full true) (softK (Mat.full true) D γ) i j
        refine ⟨mul_le_mul_of_nonneg_right (by linarith) k0.le, ?_⟩
        have h3 : (0 : ℝ) < 3 ^ (i + j) := by positivity
        have e1 : (3 : ℝ) ^ (i + (j + 1)) = 3 ^ (i + j) * 3 := by rw [← add_assoc, pow_succ]
        have e2 : (3 : ℝ) ^ (i + 1 + j) = 3 ^ (i + j) * 3 := by rw [add_right_comm, pow_succ]
        have e3 : (3 : ℝ) ^ s = 3 ^ (i + j) * 9 := by
          rw [← hs, show i + 1 + (j + 1) = i + j + 2 by ring, pow_add]; norm_num
        rw [e1] at b1
        rw [e2] at b2
        rw [e3]
        have hsum : extZ B D γ i (j + 1) + extZ B D γ (i + 1) j + extZ B D γ i j ≤ z1 + z2 + z3 + 7 * (β * 3 ^ (i + j)) := by linarith
        have hb : 0 < β * 3 ^ (i + j) := by positivity
        calc _ ≤ (z1 + z2 + z3 + 7 * (β * 3 ^ (i + j))) * k := mul_le_mul_of_nonneg_right hsum k0.le
          _ = (z1 + z2 + z3) * k + 7 * (β * 3 ^ (i + j)) * k := by ring
          _ ≤ (z1 + z2 + z3) * k + 7 * (β * 3 ^ (i + j)) * 1 := by
            have := mul_le_mul_of_nonneg_left k1 (by positivity : 0 ≤ 7 * (β * 3 ^ (i + j)))
            linarith
          _ ≤ _ := by linarith

/-- Soft-DTW up to the border: the value is at most the soft minimum of the costs of all warping paths and falls short of it by no more
than `γ 3^(m+n) exp((c - B) / γ)`, where `c` is the cost of any path. -/
theorem C83_value_partial {m n : ℕ} (hm : 0 < m) (hn : 0 < n) (B : ℝ) (D : Mat ℝ) (hD : ∀ i < m, ∀ j < n, 0 ≤ D i j) {γ : ℝ} (hγ : 0 < γ)
    {S : Finset (List (ℕ × ℕ))} (hS : ∀ p, p ∈ S ↔ Admissible m n (Mat.full true) p) (p : List (ℕ × ℕ)) (hp : p ∈ S) :
    ((SoftObj.new m n D γ).compute B).2 ≤ Spec.softMin S (sumCost D) γ ∧
      Spec.softMin S (sumCost D) γ - γ * 3 ^ (m + n) * Real.exp ((sumCost D p - B) / γ) ≤ ((SoftObj.new m n D γ).compute B).2 := by
  have hv : ((SoftObj.new m n D γ).compute B).2 = -γ * Real.log (extZ B D γ m n) := objForward_eq hγ D _ m n le_rfl le_rfl
  obtain ⟨h1, h2⟩ := extZ_bounds B D hγ m n hD m n le_rfl le_rfl
  rw [zsum_eq_sum D γ hm hn hS] at h1 h2
  set Z := ∑ p ∈ S, Real.exp (-sumCost D p / γ) with hZ
  have hpZ : Real.exp (-sumCost D p / γ) ≤ Z :=
    Finset.single_le_sum (f := fun p => Real.exp (-sumCost D p / γ)) (fun _ _ => (Real.exp_pos _).le) hp
  have hZ0 : 0 < Z := lt_of_lt_of_le (Real.exp_pos _) hpZ
  have hs : Spec.softMin S (sumCost D) γ = -γ * Real.log Z := rfl
  rw [hv, hs]
  constructor
  · have := Real.log_le_log hZ0 h1
    nlinarith
  · have hx := extZ_pos B D γ m n
    have hlog : Real.log (extZ B D γ m n) - Real.log Z ≤ Real.exp (-B / γ) * 3 ^ (m + n) * Real.exp (sumCost D p / γ) := by
      rw [← Real.log_div hx.ne' hZ0.ne']
      have := Real.log_le_sub_one_of_pos (div_pos hx hZ0)
      have : extZ B D γ m n / Z - 1 ≤ Real.exp (-B / γ) * 3 ^ (m + n) / Z := by
        rw [div_sub_one hZ0.ne', div_le_div_iff_of_pos_right hZ0]
        linarith
      have hinv : 1 / Z ≤ Real.exp (sumCost D p / γ) := by
        rw [div_le_iff₀ hZ0]
        have e : Real.exp (sumCost D p / γ) * Real.exp (-sumCost D p / γ) = 1 := by
          rw [← Real.exp_add, neg_div, add_neg_cancel, Real.exp_zero]
        have := mul_le_mul_of_nonneg_left hpZ (Real.exp_pos (sumCost D p / γ)).le
        linarith
      have := mul_le_mul_of_nonneg_left hinv (by positivity : 0 ≤ Real.exp (-B / γ) * 3 ^ (m + n))
      rw [mul_one_div] at this
      linarith
    have e : Real.exp ((sumCost D p - B) / γ) = Real.exp (-B / γ) * Real.exp (sumCost D p / γ) := by
      rw [← Real.exp_add]; congr 1; ring
    rw [e]
    have := mul_le_mul_of_nonneg_left hlog hγ.le
    nlinarith

theorem fullPaths (m n : ℕ) (p : List (ℕ × ℕ)) : p ∈ pathsB (Mat.full true) (m + 1) (n + 1) ↔ Admissible (m + 1) (n + 1) (Mat.full true) p :=
  mem_pathsB_admissible (by omega) (by omega)

/-- The result of `grad` on any object whose table is that of `compute`. -/
theorem SoftObj.grad_eq {m n : ℕ} (hm : 0 < m) (hn : 0 < n) {B : ℝ} {D R : Mat ℝ} {γ : ℝ} (hγ : 0 < γ)
    (hR : ∀ i j, i ≤ m → j ≤ n → R i j = -γ * Real.log (extZ B D γ i j)) :
    ∃ E, ((⟨m, n, D, R, true, γ⟩ : SoftObj).grad B).2 = .ok E ∧ ∀ i < m, ∀ j < n,
      E i j = visitProb (pathsB (Mat.full true) (m + 1) (n + 1)) (sumCost (extCost B D)) γ (i + 1, j + 1) := by
  refine ⟨_, rfl, fun i hi j hj => ?_⟩
  rw [← gradT_eq_visit (by omega) (by omega) (extCost B D) γ (fullPaths m n)]
  exact objBackward_eq hγ hm hn D _ R (fun i j hi hj => by simp [hi, hj]) hR i j hi hj

/-- The value when the matrix moves. -/
theorem compute_deriv {m n : ℕ} (B : ℝ) {γ : ℝ} (hγ : 0 < γ) (c : ℝ → ℕ → ℕ → ℝ) (c' : ℕ → ℕ → ℝ)
    (hc : ∀ i < m, ∀ j < n, HasDerivAt (fun t => c t i j) (c' i j) 0) :
    HasDerivAt (fun t => ((SoftObj.new m n (c t) γ).compute B).2) (∑ i ∈ Finset.range m, ∑ j ∈ Finset.range n,
      visitProb (pathsB (Mat.full true) (m + 1) (n + 1)) (sumCost (extCost B (c 0))) γ (i + 1, j + 1) * c' i j) 0 := by
  have e : (fun t => ((SoftObj.new m n (c t) γ).compute B).2) =
      fun t => Spec.softMin (pathsB (Mat.full true) (m + 1) (n + 1)) (sumCost (extCost B (c t))) γ :=
    funext fun t => C83_value_border B (c t) _ hγ _ (fullPaths m n)
  rw [e]
  have hne : (pathsB (Mat.full true) (m + 1) (n + 1)).Nonempty := by
    obtain ⟨p, hp⟩ := full_reachable (m + 1) (n + 1) m n (by omega) (by omega) rfl
    exact ⟨p, (fullPaths m n p).2 hp⟩
  have := softMin_deriv (fullPaths m n) hne hγ (fun t => extCost B (c t)) (extCost 0 c') ?_
  · refine this.congr_deriv ?_
    have hz : ∀ j, extCost 0 c' 0 j = 0 := fun j => by cases j <;> simp [extCost]
    have hz' : ∀ i, extCost 0 c' i 0 = 0 := fun i => by cases i <;> simp [extCost]
    rw [Finset.sum_range_succ']
    simp only [hz, mul_zero, Finset.sum_const_zero, add_zero]
    refine Finset.sum_congr rfl fun i _ => ?_
    rw [Finset.sum_range_succ', hz', mul_zero, add_zero]
    rfl
  · intro i hi j hj
    rcases i with _ | i <;> rcases j with _ | j
    · exact hasDerivAt_const _ _
    · have : extCost 0 c' 0 (j + 1) = 0 := by simp [extCost]
      rw [this]; exact hasDerivAt_const _ _
    · have : extCost 0 c' (i + 1) 0 = 0 := by simp [extCost]
      rw [this]; exact hasDerivAt_const _ _
    · exact hc i (by omega) j (by omega)

/-- `grad()` is the gradient of what `compute()` returns, for every border, exactly: the derivative along any change `h` of the matrix. -/
theorem C83_gradient {m n : ℕ} (hm : 0 < m) (hn : 0 < n) (B : ℝ) (D : Mat ℝ) {γ : ℝ} (hγ : 0 < γ) :
    ∃ E, (((SoftObj.new m n D γ).compute B).1.grad B).2 = .ok E ∧ ∀ h : ℕ → ℕ → ℝ,
      HasDerivAt (fun t => ((SoftObj.new m n (fun i j => D i j + t * h i j) γ).compute B).2)
        (∑ i ∈ Finset.range m, ∑ j ∈ Finset.range n, E i j * h i j) 0 := by
  obtain ⟨E, hE, hv⟩ := SoftObj.grad_eq hm hn (B := B) (D := D) (R := objForward B γ m n D (Mat.full 0)) hγ
    (fun i j hi hj => objForward_eq hγ D _ i j hi hj)
  refine ⟨E, hE, fun h => ?_⟩
  have := compute_deriv (m := m) (n := n) B hγ (fun t i j => D i j + t * h i j) h fun i _ j _ => by
    simpa using ((hasDerivAt_id' (0 : ℝ)).mul_const (h i j)).const_add (D i j)
  refine this.congr_deriv ?_
  refine Finset.sum_congr rfl fun i hi => Finset.sum_congr rfl fun j hj => ?_
  rw [hv i (Finset.mem_range.1 hi) j (Finset.mem_range.1 hj)]
  simp

/-- The object after a sequence of calls, `true` for `compute()` and `false` for `grad()`. -/
def SoftObj.after (B : ℝ) (o : SoftObj) (calls : List Bool) : SoftObj :=
  calls.foldl (fun o c => if c then (o.compute B).1 else (o.grad B).1) o

theorem SoftObj.after_inv (B : ℝ) {m n : ℕ} {D : Mat ℝ} {γ : ℝ} (hγ : 0 < γ) (calls : List Bool) (o : SoftObj)
    (ho : ∃ R c, o = ⟨m, n, D, R, c, γ⟩ ∧ (c = true → ∀ i j, i ≤ m → j ≤ n → R i j = -γ * Real.log (extZ B D γ i j))) :
    ∃ R, o.after B calls = ⟨m, n, D, R, o.computed || calls.contains true, γ⟩ ∧
      ((o.computed || calls.contains true) = true → ∀ i j, i ≤ m → j ≤ n → R i j = -γ * Real.log (extZ B D γ i j)) := by
  induction calls generalizing o with
  | nil =>
    obtain ⟨R, c, rfl, h⟩ := ho
    exact ⟨R, by simp [SoftObj.after], by simpa using h⟩
  | cons a calls ih =>
    obtain ⟨R, c, rfl, h⟩ := ho
    cases a with
    | true =>
      obtain ⟨R', e, h'⟩ := ih ((⟨m, n, D, R, c, γ⟩ : SoftObj).compute B).1
        ⟨_, true, rfl, fun _ i j hi hj => objForward_eq hγ D R i j hi hj⟩
      refine ⟨R', ?_, fun _ => h' (by simp [SoftObj.compute])⟩
      show ((⟨m, n, D, R, c, γ⟩ : SoftObj).compute B).1.after B calls = _
      rw [e]
      simp [SoftObj.compute]
    | false =>
      cases c with
      | false =>
        obtain ⟨R', e, h'⟩ := ih ⟨m, n, D, R, false, γ⟩ ⟨R, false, rfl, by simp⟩
        exact ⟨R', by simpa [SoftObj.after, SoftObj.grad] using e, by simpa using h'⟩
      | true =>
        obtain ⟨R', e, h'⟩ := ih ((⟨m, n, D, R, true, γ⟩ : SoftObj).grad B).1 ⟨_, true, rfl, fun _ i j hi hj => by
          rw [← h rfl i j hi hj]
          simp only [objBackR, Mat.set]
          rw [if_neg (by omega), if_neg (by omega), if_neg (by omega)]⟩
        refine ⟨R', ?_, fun _ => h' (by simp [SoftObj.grad])⟩
        show ((⟨m, n, D, R, true, γ⟩ : SoftObj).grad B).1.after B calls = _
        rw [e]
        simp [SoftObj.grad]

/-- Whatever calls came before, `compute()` returns the same value, `grad()` raises as long as `compute()` has not been called, and the
same gradient ever after. -/
theorem C83_calls {m n : ℕ} (hm : 0 < m) (hn : 0 < n) (B : ℝ) (D : Mat ℝ) {γ : ℝ} (hγ : 0 < γ) (calls : List Bool) :
    (((SoftObj.new m n D γ).after B calls).compute B).2 = ((SoftObj.new m n D γ).compute B).2 ∧
    (true ∉ calls → (((SoftObj.new m n D γ).after B calls).grad B).2 = .error .valueError) ∧
    (true ∈ calls → ∃ E E₀, (((SoftObj.new m n D γ).after B calls).grad B).2 = .ok E ∧
      (((SoftObj.new m n D γ).compute B).1.grad B).2 = .ok E₀ ∧ ∀ i < m, ∀ j < n, E i j = E₀ i j) := by
  obtain ⟨R, e, h⟩ := SoftObj.after_inv B hγ calls (SoftObj.new m n D γ) ⟨_, false, rfl, by simp⟩
  have hf : (SoftObj.new m n D γ).computed = false := rfl
  rw [hf, Bool.false_or] at e h
  rw [e]
  refine ⟨?_, fun hc => ?_, fun hc => ?_⟩
  · rw [C83_value_border B D R hγ _ (fullPaths m n)]
    exact (C83_value_border B D _ hγ _ (fullPaths m n)).symm
  · have : calls.contains true = false := by simpa using hc
    rw [this]; rfl
  · have : calls.contains true = true := by simpa using hc
    rw [this]
    obtain ⟨E, hE, hv⟩ := SoftObj.grad_eq hm hn hγ (h this)
    obtain ⟨E₀, hE₀, hv₀⟩ := SoftObj.grad_eq hm hn (B := B) (D := D) (R := objForward B γ m n D (Mat.full 0)) hγ
      (fun i j hi hj => objForward_eq hγ D _ i j hi hj)
    exact ⟨E, E₀, hE, hE₀, fun i hi j hj => by rw [hv i hi j hj, hv₀ i hi j hj]⟩

theorem jacProduct_eq {m n d : ℕ} {x y : List (List ℝ)} (hm : 0 < m) (hx : Rect m d x) (hy : Rect n d y) (E : Mat ℝ) (i f : ℕ) (hi : i < m)
    (hf : f < d) :
    jacProduct x y E i f = ∑ j ∈ Finset.range n, E i j * 2 * ((x.getD i []).getD f 0 - (y.getD j []).getD f 0) := by
  have hd : (x.headD []).length = d := by
    have := hx.1
    cases x with
    | nil => simp at this; omega
    | cons r x => exact hx.2 r (by simp)
  have inner : ∀ (a j : ℕ) (G : Mat ℝ) (K : ℕ), K ≤ d → ∀ i f,
      forRange K G (fun k G => Mat.set G a k (G a k + E a j * 2 * ((x.getD a []).getD k 0 - (y.getD j []).getD k 0))) i f =
      if i = a ∧ f < K then G a f + E a j * 2 * ((x.getD a []).getD f 0 - (y.getD j []).getD f 0) else G i f := by
    intro a j G K hK
    induction K with
    | zero => intro i f; simp
    | succ K ih =>
      intro i f
      rw [forRange_succ, Mat.set_apply, ih (by omega), ih (by omega), if_neg (show ¬ (a = a ∧ K < K) by omega)]
      by_cases h : i = a ∧ f = K
      · obtain ⟨rfl, rfl⟩ := h
        simp
      · rw [if_neg h]
        by_cases h' : i = a ∧ f < K
        · rw [if_pos h', if_pos (by omega)]
        · rw [if_neg h', if_neg (by omega)]
  have mid : ∀ (a : ℕ) (G : Mat ℝ) (J : ℕ), ∀ i f,
      forRange J G (fun j G => forRange d G (fun k G => Mat.set G a k (G a k + E a j * 2 * ((x.getD a []).getD k 0 - (y.getD j []).getD k 0)))) i f =
      if i = a ∧ f < d then G a f + ∑ j ∈ Finset.range J, E a j * 2 * ((x.getD a []).getD f 0 - (y.getD j []).getD f 0) else G i f := by
    intro a G J
    induction J with
    | zero =>
      intro i f
      by_cases h : i = a ∧ f < d
      · rw [if_pos h, h.1]; simp
      · rw [if_neg h]; simp
    | succ J ih =>
      intro i f
      rw [forRange_succ, inner a J _ d le_rfl, ih, ih]
      by_cases h : i = a ∧ f < d
      · obtain ⟨rfl, h2⟩ := h
        simp only [h2, and_self, if_true]
        rw [Finset.sum_range_succ]; ring
      · rw [if_neg h, if_neg h, if_neg h]
  have outer : ∀ I, ∀ i f, f < d →
      forRange I (Mat.full 0) (fun i G => forRange n G fun j G => forRange d G fun k G =>
        Mat.set G i k (G i k + E i j * 2 * ((x.getD i []).getD k 0 - (y.getD j []).getD k 0))) i f =
      if i < I then ∑ j ∈ Finset.range n, E i j * 2 * ((x.getD i []).getD f 0 - (y.getD j []).getD f 0) else 0 := by
    intro I
    induction I with
    | zero => intro i f _; simp [Mat.full]
    | succ I ih =>
      intro i f hf
      rw [forRange_succ, mid, ih _ _ hf, ih _ _ hf]
      by_cases h : i = I
      · subst h; simp [hf]
      · rw [if_neg (by omega)]
        by_cases h' : i < I
        · rw [if_pos h', if_pos (by omega)]
        · rw [if_neg h', if_neg (by omega)]
  unfold jacProduct
  simp only [hd, hx.1, hy.1]
  rw [outer m i f hf, if_pos hi]

/-- `jacobian_product(grad())` is the gradient of the value with respect to the samples of the first series. -/
theorem C83_chain {m n d : ℕ} (hm : 0 < m) (hn : 0 < n) (B : ℝ) {γ : ℝ} (hγ : 0 < γ) (x y : List (List ℝ)) (hx : Rect m d x) (hy : Rect n d y) :
    ∃ E, (((SoftObj.new m n (sqEucCompute x y) γ).compute B).1.grad B).2 = .ok E ∧ ∀ h : ℕ → ℕ → ℝ,
      HasDerivAt (fun t => ((SoftObj.new m n (sqEucCompute (moveBy m d x h t) y) γ).compute B).2)
        (∑ i ∈ Finset.range m, ∑ f ∈ Finset.range d, jacProduct x y E i f * h i f) 0 := by
  have hsq : ∀ x y, sqEucCompute x y = sampleCost x y := fun x y => softLossDist_eq x y
  obtain ⟨E, hE, hv⟩ := SoftObj.grad_eq hm hn (B := B) (D := sqEucCompute x y) (R := objForward B γ m n (sqEucCompute x y) (Mat.full 0)) hγ
    (fun i j hi hj => objForward_eq hγ _ _ i j hi hj)
  refine ⟨E, hE, fun h => ?_⟩
  have := compute_deriv (m := m) (n := n) B hγ (fun t => sqEucCompute (moveBy m d x h t) y)
    (fun i j => ∑ f ∈ Finset.range d, 2 * ((x.getD i []).getD f 0 - (y.getD j []).getD f 0) * h i f) fun i hi j hj => by
      simp only [hsq]
      exact sampleCost_move (hy.1 ▸ hy) h i j hi (hy.1 ▸ hj)
  refine this.congr_deriv ?_
  simp only [moveBy_zero hx]
  refine Finset.sum_congr rfl fun i hi => ?_
  simp only [Finset.mem_range] at hi
  calc _ = ∑ j ∈ Finset.range n, E i j * ∑ f ∈ Finset.range d, 2 * ((x.getD i []).getD f 0 - (y.getD j []).getD f 0) * h i f :=
        Finset.sum_congr rfl fun j hj => by rw [hv i hi j (Finset.mem_range.1 hj)]
    _ = ∑ f ∈ Finset.range d, (∑ j ∈ Finset.range n, E i j * 2 * ((x.getD i []).getD f 0 - (y.getD j []).getD f 0)) * h i f := ?_
    _ = _ := Finset.sum_congr rfl fun f hf => by rw [jacProduct_eq hm hx hy E i f hi (Finset.mem_range.1 hf)]
  simp only [Finset.mul_sum, Finset.sum_mul]
  rw [Finset.sum_comm]
  exact Finset.sum_congr rfl fun f _ => Finset.sum_congr rfl fun j _ => by ring

/-- False of the code: the value is not soft-DTW. Whatever the (finite) value `B` of the border, the value of a `1 × 1` matrix is too
small, for `gamma = B` by `B log (1 + 2/e)`. -/
theorem C83_false_exact (B γ d : ℝ) (hγ : 0 < γ) :
    ((SoftObj.new 1 1 (Mat.full d) γ).compute B).2 = d - γ * Real.log (1 + 2 * Real.exp (-B / γ)) ∧
    ((SoftObj.new 1 1 (Mat.full d) γ).compute B).2 < d := by
  have e : ((SoftObj.new 1 1 (Mat.full d) γ).compute B).2 = d - γ * Real.log (1 + 2 * Real.exp (-B / γ)) := by
    have hv : ((SoftObj.new 1 1 (Mat.full d) γ).compute B).2 = -γ * Real.log (extZ B (Mat.full d) γ 1 1) :=
      objForward_eq hγ (Mat.full d) _ 1 1 le_rfl le_rfl
    rw [hv, extZ_succ, extZ_zero, extZ_row, extZ_col, Real.log_mul (by positivity) (by positivity), Real.log_exp,
      show Real.exp (-B / γ) + Real.exp (-B / γ) + 1 = 1 + 2 * Real.exp (-B / γ) by ring]
    simp only [Mat.full]
    field_simp
    ring
  refine ⟨e, ?_⟩
  rw [e]
  have : 0 < Real.log (1 + 2 * Real.exp (-B / γ)) := Real.log_pos (by have := Real.exp_pos (-B / γ); linarith)
  nlinarith [mul_pos hγ this]

/-- The hypotheses are met: lengths 1 and 2, three costs. -/
example (B : ℝ) : ((SoftObj.new 1 2 (fun _ j => j) 1).compute B).2 ≤
    Spec.softMin (pathsB (Mat.full true) 1 2) (sumCost fun _ j => (j : ℝ)) 1 :=
  (C83_value_partial (by norm_num) (by norm_num) B _ (fun _ _ j _ => by positivity) one_pos
    (fun p => mem_pathsB_admissible (by norm_num) (by norm_num)) [(0, 0), (0, 1)] (by simp [pathsB, Mat.full])).1

example (B : ℝ) : (((SoftObj.new 2 2 (fun i j => (i : ℝ) + j) 1).after B [false, false]).grad B).2 = .error .valueError :=
  (C83_calls (by norm_num) (by norm_num) B _ one_pos [false, false]).2.1 (by simp)

example (B : ℝ) : ∃ E, (((SoftObj.new 2 1 (sqEucCompute [[0], [1]] [[3]]) 1).compute B).1.grad B).2 = .ok E ∧ ∀ h : ℕ → ℕ → ℝ,
      HasDerivAt (fun t => ((SoftObj.new 2 1 (sqEucCompute (moveBy 2 1 [[0], [1]] h t) [[3]]) 1).compute B).2)
        (∑ i ∈ Finset.range 2, ∑ f ∈ Finset.range 1, jacProduct [[0], [1]] [[3]] E i f * h i f) 0 :=
  C83_chain (by norm_num) (by norm_num) B one_pos _ _ ⟨rfl, by simp⟩ ⟨rfl, by simp⟩

end
end Verif
