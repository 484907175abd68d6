import Verif.Model.SoftOld
import Verif.Props.C83
import Verif.Proofs.CdistOf
/-!
The deprecated soft-DTW functions against their replacements: the border of the table, and the loops over the datasets.
-/
set_option linter.unusedSectionVars false
namespace Verif
open Spec
open Classical
noncomputable section

/-- A path of the grid as a path of the grid with one more row and column in front, entered along the diagonal. -/
def embedPath (p : List (ℕ × ℕ)) : List (ℕ × ℕ) := (0, 0) :: p.map fun c => (c.1 + 1, c.2 + 1)

theorem embedPath_injective : Function.Injective embedPath := by
  intro p q h
  unfold embedPath at h
  exact List.map_injective_iff.2 (fun a b hab => by
    obtain ⟨a1, a2⟩ := a; obtain ⟨b1, b2⟩ := b
    simpa using hab) (List.cons.inj h).2

theorem embedPath_admissible {m n : ℕ} {p : List (ℕ × ℕ)} (hp : Admissible m n (Mat.full true) p) :
    Admissible (m + 1) (n + 1) (Mat.full true) (embedPath p) := by
  obtain ⟨⟨h1, ⟨i, j, h2, h3, h4⟩, h5⟩, -⟩ := hp
  refine ⟨⟨rfl, ⟨i + 1, j + 1, ?_, by omega, by omega⟩, ?_⟩, fun _ _ => rfl⟩
  · unfold embedPath
    rw [List.getLast?_cons, List.getLast?_map, h2]; rfl
  · unfold embedPath
    rw [List.isChain_cons]
    refine ⟨fun c hc => ?_, ?_⟩
    · rw [List.head?_map, h1] at hc
      simp only [Option.map_some, Option.mem_def, Option.some.injEq] at hc
      subst hc
      exact .inr (.inr rfl)
    · rw [List.isChain_map]
      refine h5.imp ?_
      rintro ⟨a1, a2⟩ ⟨b1, b2⟩ h
      simp only [WStep, Prod.mk.injEq] at h ⊢
      omega

theorem embedPath_cost (B : ℝ) (D : ℕ → ℕ → ℝ) (p : List (ℕ × ℕ)) : sumCost (extCost B D) (embedPath p) = sumCost D p := by
  simp [sumCost, embedPath, extCost, Function.comp_def]

theorem mem_embedPath {p : List (ℕ × ℕ)} {i j : ℕ} : (i + 1, j + 1) ∈ embedPath p ↔ (i, j) ∈ p := by
  simp [embedPath]

/-- Probabilities of visits on both grids differ by at most the share of the paths along the border. -/
theorem visit_close {m n : ℕ} (B : ℝ) (D : ℕ → ℕ → ℝ) (γ : ℝ) {S S' : Finset (List (ℕ × ℕ))}
    (hS : ∀ p, p ∈ S ↔ Admissible m n (Mat.full true) p) (hS' : ∀ p, p ∈ S' ↔ Admissible (m + 1) (n + 1) (Mat.full true) p)
    (hne : S.Nonempty) (i j : ℕ) :
    |visitProb S' (sumCost (extCost B D)) γ (i + 1, j + 1) - visitProb S (sumCost D) γ (i, j)| ≤
      1 - (∑ p ∈ S, Real.exp (-sumCost D p / γ)) / ∑ p ∈ S', Real.exp (-sumCost (extCost B D) p / γ) := by
  set w : List (ℕ × ℕ) → ℝ := fun p => Real.exp (-sumCost D p / γ) with hw
  set w' : List (ℕ × ℕ) → ℝ := fun p => Real.exp (-sumCost (extCost B D) p / γ) with hw'
  have hww : ∀ p, w' (embedPath p) = w p := fun p => by simp only [hw, hw', embedPath_cost]
  have hsub : S.image embedPath ⊆ S' := by
    intro q hq
    obtain ⟨p, hp, rfl⟩ := Finset.mem_image.1 hq
    exact (hS' _).2 (embedPath_admissible ((hS p).1 hp))
  have hZ : ∑ p ∈ S, w p = ∑ q ∈ S.image embedPath, w' q := by
    rw [Finset.sum_image fun a _ b _ h => embedPath_injective h]
    exact Finset.sum_congr rfl fun p _ => (hww p).symm
  have hA : ∑ p ∈ S with (i, j) ∈ p, w p = ∑ q ∈ S.image embedPath with (i + 1, j + 1) ∈ q, w' q := by
    rw [Finset.sum_filter, Finset.sum_filter, Finset.sum_image fun a _ b _ h => embedPath_injective h]
    exact Finset.sum_congr rfl fun p _ => by simp only [mem_embedPath, hww]
  have hZ' := Finset.sum_sdiff (f := w') hsub
  have hA' : ∑ q ∈ S' with (i + 1, j + 1) ∈ q, w' q =
      ∑ q ∈ (S' \ S.image embedPath) with (i + 1, j + 1) ∈ q, w' q + ∑ q ∈ S.image embedPath with (i + 1, j + 1) ∈ q, w' q := by
    rw [Finset.sum_filter, Finset.sum_filter, Finset.sum_filter, ← Finset.sum_sdiff hsub]
  have hpos : 0 < ∑ p ∈ S, w p := Finset.sum_pos (fun _ _ => Real.exp_pos _) hne
  have hAZ : ∑ p ∈ S with (i, j) ∈ p, w p ≤ ∑ p ∈ S, w p :=
    Finset.sum_le_sum_of_subset_of_nonneg (Finset.filter_subset _ _) fun _ _ _ => (Real.exp_pos _).le
  have hA0 : 0 ≤ ∑ p ∈ S with (i, j) ∈ p, w p := Finset.sum_nonneg fun _ _ => (Real.exp_pos _).le
  have hC0 : 0 ≤ ∑ q ∈ (S' \ S.image embedPath) with (i + 1, j + 1) ∈ q, w' q := Finset.sum_nonneg fun _ _ => (Real.exp_pos _).le
  have hCR : ∑ q ∈ (S' \ S.image embedPath) with (i + 1, j + 1) ∈ q, w' q ≤ ∑ q ∈ S' \ S.image embedPath, w' q :=
    Finset.sum_le_sum_of_subset_of_nonneg (Finset.filter_subset _ _) fun _ _ _ => (Real.exp_pos _).le
  show |(∑ q ∈ S' with (i + 1, j + 1) ∈ q, w' q) / (∑ q ∈ S', w' q) - (∑ p ∈ S with (i, j) ∈ p, w p) / ∑ p ∈ S, w p| ≤
    1 - (∑ p ∈ S, w p) / ∑ q ∈ S', w' q
  rw [hA', ← hA, ← hZ', ← hZ]
  generalize (∑ p ∈ S with (i, j) ∈ p, w p) = A at *
  generalize (∑ q ∈ (S' \ S.image embedPath) with (i + 1, j + 1) ∈ q, w' q) = C at *
  generalize (∑ q ∈ S' \ S.image embedPath, w' q) = R at *
  generalize (∑ p ∈ S, w p) = Z at *
  have hR0 : 0 ≤ R := hC0.trans hCR
  have hT : 0 < R + Z := by linarith
  rw [div_sub_div _ _ hT.ne' hpos.ne', one_sub_div hT.ne', abs_le]
  constructor
  · rw [← neg_div, div_le_div_iff₀ hT (mul_pos hT hpos)]
    have : 0 ≤ R * (Z - A) := mul_nonneg hR0 (by linarith)
    have h1 : 0 ≤ C * Z := mul_nonneg hC0 hpos.le
    have h2 : -(R + Z - Z) * Z ≤ (C + A) * Z - (R + Z) * A := by nlinarith
    calc _ = (-(R + Z - Z) * Z) * (R + Z) := by ring
      _ ≤ _ := mul_le_mul_of_nonneg_right h2 hT.le
  · rw [div_le_div_iff₀ (mul_pos hT hpos) hT]
    have h1 : 0 ≤ (R - C) * Z := mul_nonneg (by linarith) hpos.le
    have h2 : 0 ≤ R * A := mul_nonneg hR0 hA0
    have h3 : (C + A) * Z - (R + Z) * A ≤ (R + Z - Z) * Z := by nlinarith
    calc _ ≤ ((R + Z - Z) * Z) * (R + Z) := mul_le_mul_of_nonneg_right h3 hT.le
      _ = _ := by ring

/-- The share of the paths along the border. -/
theorem border_share {m n : ℕ} (hm : 0 < m) (hn : 0 < n) (B : ℝ) (D : ℕ → ℕ → ℝ) (hD : ∀ i < m, ∀ j < n, 0 ≤ D i j) {γ : ℝ} (hγ : 0 < γ)
    {S S' : Finset (List (ℕ × ℕ))} (hS : ∀ p, p ∈ S ↔ Admissible m n (Mat.full true) p)
    (hS' : ∀ p, p ∈ S' ↔ Admissible (m + 1) (n + 1) (Mat.full true) p) (p : List (ℕ × ℕ)) (hp : p ∈ S) :
    1 - (∑ p ∈ S, Real.exp (-sumCost D p / γ)) / (∑ p ∈ S', Real.exp (-sumCost (extCost B D) p / γ)) ≤
      3 ^ (m + n) * Real.exp ((sumCost D p - B) / γ) := by
  obtain ⟨h1, h2⟩ := extZ_bounds B D hγ m n hD m n le_rfl le_rfl
  rw [zsum_eq_sum D γ hm hn hS] at h1 h2
  unfold extZ at h1 h2
  rw [zsum_eq_sum (extCost B D) γ (by omega) (by omega) hS'] at h1 h2
  have hpZ : Real.exp (-sumCost D p / γ) ≤ ∑ p ∈ S, Real.exp (-sumCost D p / γ) :=
    Finset.single_le_sum (f := fun p => Real.exp (-sumCost D p / γ)) (fun _ _ => (Real.exp_pos _).le) hp
  have he : 0 < Real.exp (-sumCost D p / γ) := Real.exp_pos _
  generalize (∑ p ∈ S, Real.exp (-sumCost D p / γ)) = Z at *
  generalize (∑ p ∈ S', Real.exp (-sumCost (extCost B D) p / γ)) = Z' at *
  have hZ' : 0 < Z' := by linarith
  rw [one_sub_div hZ'.ne', div_le_iff₀ hZ']
  have e : Real.exp ((sumCost D p - B) / γ) * Real.exp (-sumCost D p / γ) = Real.exp (-B / γ) := by
    rw [← Real.exp_add]; congr 1; ring
  have hb : 0 ≤ 3 ^ (m + n) * Real.exp ((sumCost D p - B) / γ) := by positivity
  calc Z' - Z ≤ Real.exp (-B / γ) * 3 ^ (m + n) := by linarith
    _ = 3 ^ (m + n) * Real.exp ((sumCost D p - B) / γ) * Real.exp (-sumCost D p / γ) := by rw [← e]; ring
    _ ≤ _ := mul_le_mul_of_nonneg_left (by linarith) hb

/-- The sums on the grid with a border do not depend on which series comes first. -/
theorem extZ_swap (B : ℝ) (D : ℕ → ℕ → ℝ) (γ : ℝ) (i j : ℕ) : extZ B D γ i j = extZ B (fun a b => D b a) γ j i := by
  induction hs : i + j using Nat.strong_induction_on generalizing i j with
  | _ s ih =>
    rcases i with _ | i <;> rcases j with _ | j
    · rw [extZ_zero, extZ_zero]
    · rw [extZ_row, extZ_col]
    · rw [extZ_row, extZ_col]
    · rw [extZ_succ, extZ_succ, ih (i + (j + 1)) (by omega) i (j + 1) rfl, ih (i + 1 + j) (by omega) (i + 1) j rfl,
        ih (i + j) (by omega) i j rfl]
      ring

theorem sqEucCompute_eq (x y : List (List ℝ)) : sqEucCompute x y = sampleCost x y := softLossDist_eq x y

theorem sqEucCompute_comm (x y : List (List ℝ)) (i j : ℕ) : sqEucCompute x y i j = sqEucCompute y x j i := by
  unfold sqEucCompute
  rw [List.zipWith_comm]
  congr 2
  funext a b; ring

/-- `compute` of two series. -/
theorem compute_eq {γ : ℝ} (hγ : 0 < γ) (B : ℝ) (m n : ℕ) (D : Mat ℝ) :
    ((SoftObj.new m n D γ).compute B).2 = -γ * Real.log (extZ B D γ m n) :=
  objForward_eq hγ D _ m n le_rfl le_rfl

/-! ### Loops over datasets -/

/-- The pair of loops of `_cdist_soft_dtw` over two datasets. -/
theorem crossLoop_ok {V : Type} {n1 n2 : ℕ} {junk M : Mat V} {f : ℕ → ℕ → Except PyErr V}
    (h : (forRange n1 (.ok junk) fun i M => forRange n2 M fun j M => do
      let dists ← M
      let v ← f i j
      return dists.set i j v : Except PyErr (Mat V)) = .ok M) (i j : ℕ) (hi : i < n1) (hj : j < n2) : f i j = .ok (M i j) := by
  have inner : ∀ (i : ℕ) (s : Except PyErr (Mat V)) (n2 : ℕ) (M : Mat V), (forRange n2 s fun j M => do
      let dists ← M
      let v ← f i j
      return dists.set i j v : Except PyErr (Mat V)) = .ok M →
      ∃ M₀, s = .ok M₀ ∧ (∀ j < n2, f i j = .ok (M i j)) ∧ ∀ a b, (a ≠ i ∨ n2 ≤ b) → M a b = M₀ a b := by
    intro i s n2
    induction n2 with
    | zero => intro M h; exact ⟨M, h, by simp, fun _ _ _ => rfl⟩
    | succ n2 ih =>
      intro M h
      rw [forRange_succ] at h
      cases h1 : (forRange n2 s fun j M => do
        let dists ← M
        let v ← f i j
        return dists.set i j v : Except PyErr (Mat V)) with
      | error e => rw [h1] at h; simp [bind, Except.bind] at h
      | ok M1 =>
        obtain ⟨M₀, h2, h3, h4⟩ := ih M1 h1
        cases hv : f i n2 with
        | error e => rw [h1] at h; simp [hv, bind, Except.bind] at h
        | ok v =>
          rw [h1] at h
          simp only [hv, bind, Except.bind, pure, Except.pure, Except.ok.injEq] at h
          subst h
          refine ⟨M₀, h2, fun j hj => ?_, fun a b hab => ?_⟩
          · rw [Mat.set_apply]
            by_cases hj' : j = n2
            · subst hj'; simpa using hv
            · rw [if_neg (by simp [hj'])]; exact h3 j (by omega)
          · rw [Mat.set_apply, if_neg (by rintro ⟨rfl, rfl⟩; rcases hab with h | h <;> omega)]
            exact h4 a b (hab.imp_right fun h => by omega)
  induction n1 generalizing M with
  | zero => omega
  | succ n1 ih =>
    rw [forRange_succ] at h
    obtain ⟨M₀, h1, h2, h3⟩ := inner n1 _ n2 M h
    by_cases hi' : i = n1
    · subst hi'; exact h2 j hj
    · rw [ih h1 (by omega), h3 i j (.inl hi')]

/-- The pair of loops of `_cdist_soft_dtw` over one dataset. -/
theorem selfLoop_ok {V : Type} {n : ℕ} {junk M : Mat V} {f : ℕ → ℕ → Except PyErr V}
    (h : (forRange n (.ok junk) fun i M => forRange n M fun j M => do
      let dists ← M
      if j < i then return dists.set i j (dists j i)
      else
        let v ← f i j
        return dists.set i j v : Except PyErr (Mat V)) = .ok M) (i j : ℕ) (hj : j < n) (hij : i ≤ j) :
    f i j = .ok (M i j) ∧ M j i = M i j := by
  have inner : ∀ (i : ℕ) (s : Except PyErr (Mat V)) (k : ℕ) (M : Mat V), (forRange k s fun j M => do
      let dists ← M
      if j < i then return dists.set i j (dists j i)
      else
        let v ← f i j
        return dists.set i j v : Except PyErr (Mat V)) = .ok M →
      ∃ M₀, s = .ok M₀ ∧ (∀ j < k, i ≤ j → f i j = .ok (M i j)) ∧ (∀ j < k, j < i → M i j = M₀ j i) ∧
        ∀ a b, (a ≠ i ∨ k ≤ b) → M a b = M₀ a b := by
    intro i s k
    induction k with
    | zero => intro M h; exact ⟨M, h, by simp, by simp, fun _ _ _ => rfl⟩
    | succ k ih =>
      intro M h
      rw [forRange_succ] at h
      cases h1 : (forRange k s fun j M => do
        let dists ← M
        if j < i then return dists.set i j (dists j i)
        else
          let v ← f i j
          return dists.set i j v : Except PyErr (Mat V)) with
      | error e => rw [h1] at h; simp [bind, Except.bind] at h
      | ok M1 =>
        obtain ⟨M₀, h2, h3, h3', h4⟩ := ih M1 h1
        by_cases hki : k < i
        · rw [h1] at h
          simp only [hki, bind, Except.bind, pure, Except.pure, if_true, Except.ok.injEq] at h
          subst h
          refine ⟨M₀, h2, fun j hj hij => by omega, fun j hj hji => ?_, fun a b hab => ?_⟩
          · rw [Mat.set_apply]
            by_cases hj' : j = k
            · subst hj'
              rw [if_pos ⟨rfl, rfl⟩, h4 j i (.inl (by omega))]
            · rw [if_neg (by simp [hj'])]; exact h3' j (by omega) hji
          · rw [Mat.set_apply, if_neg (by rintro ⟨rfl, rfl⟩; rcases hab with h | h <;> omega)]
            exact h4 a b (hab.imp_right fun h => by omega)
        · cases hv : f i k with
          | error e => rw [h1] at h; simp [hv, hki, bind, Except.bind] at h
          | ok v =>
            rw [h1] at h
            simp only [hv, hki, bind, Except.bind, pure, Except.pure, if_false, Except.ok.injEq] at h
            subst h
            refine ⟨M₀, h2, fun j hj hij => ?_, fun j hj hji => ?_, fun a b hab => ?_⟩
            · rw [Mat.set_apply]
              by_cases hj' : j = k
              · subst hj'; simpa using hv
              · rw [if_neg (by simp [hj'])]; exact h3 j (by omega) hij
            · rw [Mat.set_apply, if_neg (by omega)]; exact h3' j (by omega) hji
            · rw [Mat.set_apply, if_neg (by rintro ⟨rfl, rfl⟩; rcases hab with h | h <;> omega)]
              exact h4 a b (hab.imp_right fun h => by omega)
  have outer : ∀ (k : ℕ) (M : Mat V), (forRange k (.ok junk) fun i M => forRange n M fun j M => do
      let dists ← M
      if j < i then return dists.set i j (dists j i)
      else
        let v ← f i j
        return dists.set i j v : Except PyErr (Mat V)) = .ok M →
      (∀ i < k, ∀ j < n, i ≤ j → f i j = .ok (M i j)) ∧ (∀ i < k, ∀ j < n, j < i → M i j = M j i) := by
    intro k
    induction k with
    | zero => intro M _; exact ⟨by simp, by simp⟩
    | succ k ih =>
      intro M h
      rw [forRange_succ] at h
      obtain ⟨M₀, h1, h2, h2', h3⟩ := inner k _ n M h
      obtain ⟨h4, h5⟩ := ih M₀ h1
      refine ⟨fun i hi j hj hij => ?_, fun i hi j hj hji => ?_⟩
      · by_cases hi' : i = k
        · subst hi'; exact h2 j hj hij
        · rw [h4 i (by omega) j hj hij, h3 i j (.inl hi')]
      · by_cases hi' : i = k
        · subst hi'
          rw [h2' j hj hji, h3 j i (.inl (by omega))]
        · rw [h3 i j (.inl hi'), h3 j i (.inl (by omega))]
          exact h5 i (by omega) j hj hji
  obtain ⟨h1, h2⟩ := outer n M h
  refine ⟨h1 i (by omega) j hj hij, ?_⟩
  rcases Nat.lt_or_ge i j with hlt | hge
  · exact h2 j hj i (by omega) hlt
  · obtain rfl : i = j := by omega
    rfl

end
end Verif
