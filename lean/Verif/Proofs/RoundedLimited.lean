import Verif.Model.RoundedLimited
import Verif.Proofs.LimitedWarping
import Verif.Proofs.Rounded
/-!
The table of DTW with a limited warping length in rounded arithmetic.
-/
set_option linter.unusedSectionVars false
namespace Verif
open Spec

section
variable {K : Type} [CommRing K] [LinearOrder K] [IsStrictOrderedRing K]

theorem pathCost_zero {rnd : K → K} {D : ℕ → ℕ → K} (hfix : rnd (D 0 0) = D 0 0) :
    pathCost (rAdd rnd) 0 D [(0, 0)] = ((D 0 0 : K) : WithTop K) := by
  rw [pathCost_singleton]
  change ((rnd (D 0 0 + 0) : K) : WithTop K) = _
  rw [add_zero, hfix]

theorem get_rLwlCell (rnd : K → K) (L l1 l2 : ℕ) (D : ℕ → ℕ → K) (i j : ℕ) (up left diag) (s : ℕ) :
    CostDict.get (rLwlCell rnd L l1 l2 D i j up left diag) s =
      if max (i+1) (j+1) ≤ s ∧ s ≤ maxSteps (i+1) (j+1) (L-1) l1 l2 then
        rAdd rnd (D (i+1) (j+1)) (min (min (left.get (s-1)) (up.get (s-1))) (diag.get (s-1)))
      else ⊤ := by
  unfold CostDict.get rLwlCell
  simp only
  rw [lookup_range_map (fun s => rAdd rnd (D (i+1) (j+1))
    (min (min (CostDict.get left (s-1)) (CostDict.get up (s-1))) (CostDict.get diag (s-1))))]
  by_cases h : max (i+1) (j+1) ≤ s ∧ s ≤ maxSteps (i+1) (j+1) (L-1) l1 l2
  · rw [if_pos h, if_pos (by omega)]; rfl
  · rw [if_neg h, if_neg (by omega)]; rfl

/-- The equations of the initialisation. -/
theorem rLwlInit_eqs (rnd : K → K) (l1 l2 : ℕ) (D : ℕ → ℕ → K) :
    let M := rLwlInit rnd l1 l2 D
    M 0 0 = [(0, (D 0 0 : WithTop K))] ∧
    (∀ i, i + 1 < l1 → M (i+1) 0 = [(i+1, rAdd rnd (D (i+1) 0) (CostDict.get (M i 0) i))]) ∧
    (∀ j, j + 1 < l2 → M 0 (j+1) = [(j+1, rAdd rnd (D 0 (j+1)) (CostDict.get (M 0 j) j))]) := by
  intro M
  let M0 : Mat (CostDict (WithTop K)) := (Mat.full []).set 0 0 [(0, (D 0 0 : WithTop K))]
  let M1 := forRange (l1 - 1) M0 fun i M =>
    M.set (i + 1) 0 [(i + 1, rAdd rnd (D (i + 1) 0) (CostDict.get (M i 0) i))]
  have h1 : M1 0 0 = [(0, (D 0 0 : WithTop K))] ∧
      ∀ i, i < l1 - 1 → M1 (i+1) 0 = [(i+1, rAdd rnd (D (i+1) 0) (CostDict.get (M1 i 0) i))] := by
    apply forRange_inv (fun n (M : Mat (CostDict (WithTop K))) => M 0 0 = [(0, (D 0 0 : WithTop K))] ∧
      ∀ i, i < n → M (i+1) 0 = [(i+1, rAdd rnd (D (i+1) 0) (CostDict.get (M i 0) i))])
    · exact ⟨by simp [M0, Mat.set_apply], fun i h => by omega⟩
    · rintro n M hn ⟨h0, h⟩
      refine ⟨by simp [Mat.set_apply, h0], fun i hi => ?_⟩
      by_cases hin : i = n
      · subst hin; simp [Mat.set_apply]
      · have e1 : i + 1 ≠ n + 1 := by omega
        have e2 : i ≠ n + 1 := by omega
        simp only [Mat.set_apply, e1, e2, false_and, if_false]
        exact h i (by omega)
  have h2 : (∀ i, M i 0 = M1 i 0) ∧
      ∀ j, j < l2 - 1 → M 0 (j+1) = [(j+1, rAdd rnd (D 0 (j+1)) (CostDict.get (M 0 j) j))] := by
    apply forRange_inv (fun n (M : Mat (CostDict (WithTop K))) => (∀ i, M i 0 = M1 i 0) ∧
      ∀ j, j < n → M 0 (j+1) = [(j+1, rAdd rnd (D 0 (j+1)) (CostDict.get (M 0 j) j))])
    · exact ⟨fun _ => rfl, fun i h => by omega⟩
    · rintro n M hn ⟨h0, h⟩
      refine ⟨fun i => by simp [Mat.set_apply, h0], fun j hj => ?_⟩
      by_cases hjn : j = n
      · subst hjn; simp [Mat.set_apply]
      · have e1 : j + 1 ≠ n + 1 := by omega
        have e2 : j ≠ n + 1 := by omega
        simp only [Mat.set_apply, e1, e2, and_false, if_false]
        exact h j (by omega)
  refine ⟨by rw [h2.1]; exact h1.1, fun i hi => ?_, fun j hj => h2.2 j (by omega)⟩
  rw [h2.1, h2.1]
  exact h1.2 i (by omega)

/-- All equations of the table. -/
structure IsRLwl (rnd : K → K) (L l1 l2 : ℕ) (D : ℕ → ℕ → K) (M : Mat (CostDict (WithTop K))) : Prop where
  zero : M 0 0 = [(0, (D 0 0 : WithTop K))]
  col : ∀ i, i + 1 < l1 → M (i+1) 0 = [(i+1, rAdd rnd (D (i+1) 0) (CostDict.get (M i 0) i))]
  row : ∀ j, j + 1 < l2 → M 0 (j+1) = [(j+1, rAdd rnd (D 0 (j+1)) (CostDict.get (M 0 j) j))]
  body : ∀ i j, i + 1 < l1 → j + 1 < l2 →
    M (i+1) (j+1) = rLwlCell rnd L l1 l2 D i j (M i (j+1)) (M (i+1) j) (M i j)

theorem rLwlCost_isLwl (rnd : K → K) (L l1 l2 : ℕ) (D : ℕ → ℕ → K) : IsRLwl rnd L l1 l2 D (rLwlCost rnd L l1 l2 D) := by
  have h := dpLoop_isDP (l1 - 1) (l2 - 1) (fun _ _ => true) (rLwlCell rnd L l1 l2 D) (rLwlInit rnd l1 l2 D)
  obtain ⟨e0, e1, e2⟩ := rLwlInit_eqs rnd l1 l2 D
  refine ⟨?_, fun i hi => ?_, fun j hj => ?_, fun i j hi hj => ?_⟩
  · exact (h.row0 0).trans e0
  · have a := h.col0 (i+1)
    have b := h.col0 i
    unfold rLwlCost
    rw [a, b]; exact e1 i hi
  · have a := h.row0 (j+1)
    have b := h.row0 j
    unfold rLwlCost
    rw [a, b]; exact e2 j hj
  · have := h.body i j (by omega) (by omega)
    simp only [if_true] at this
    exact this

variable {rnd : K → K} {L l1 l2 : ℕ} {D : ℕ → ℕ → K} {M : Mat (CostDict (WithTop K))}

/-- A path that can still be completed within the budget costs at least the table entry. -/
theorem IsRLwl.le_cost (hm : Monotone rnd) (hfix : rnd (D 0 0) = D 0 0) (h : IsRLwl rnd L l1 l2 D M) {p i j} (hp : WP false p i j) :
    i < l1 → j < l2 → p.length + max (l1 - 1 - i) (l2 - 1 - j) ≤ L →
    CostDict.get (M i j) (p.length - 1) ≤ pathCost (rAdd rnd) 0 D p := by
  induction hp with
  | start j0 h0 =>
    simp at h0; subst h0
    intro _ _ _
    rw [h.zero, get_singleton]; simp [pathCost_zero hfix]
  | @down p i j hq ih =>
    intro hi hj hL
    have lb := hq.length_bounds
    simp only [List.length_append, List.length_singleton] at hL ⊢
    have ih' := ih (by omega) hj (by omega)
    rw [pathCost_append]
    rcases j with _ | j
    · rw [h.col i hi, get_singleton, if_pos (by omega)]
      rw [show p.length - 1 = i by omega] at ih'
      exact rAdd_mono hm _ ih'
    · rw [h.body i j hi hj, get_rLwlCell, if_pos]
      · apply rAdd_mono hm
        rw [show p.length + 1 - 1 - 1 = p.length - 1 by omega]
        exact (min_le_of_left_le (min_le_right _ _)).trans ih'
      · unfold maxSteps; omega
  | @right p i j hq ih =>
    intro hi hj hL
    have lb := hq.length_bounds
    simp only [List.length_append, List.length_singleton] at hL ⊢
    have ih' := ih hi (by omega) (by omega)
    rw [pathCost_append]
    rcases i with _ | i
    · rw [h.row j hj, get_singleton, if_pos (by omega)]
      rw [show p.length - 1 = j by omega] at ih'
      exact rAdd_mono hm _ ih'
    · rw [h.body i j hi hj, get_rLwlCell, if_pos]
      · apply rAdd_mono hm
        rw [show p.length + 1 - 1 - 1 = p.length - 1 by omega]
        exact (min_le_of_left_le (min_le_left _ _)).trans ih'
      · unfold maxSteps; omega
  | @diag p i j hq ih =>
    intro hi hj hL
    have lb := hq.length_bounds
    simp only [List.length_append, List.length_singleton] at hL ⊢
    have ih' := ih (by omega) (by omega) (by omega)
    rw [pathCost_append]
    rw [h.body i j hi hj, get_rLwlCell, if_pos]
    · apply rAdd_mono hm
      rw [show p.length + 1 - 1 - 1 = p.length - 1 by omega]
      exact (min_le_right _ _).trans ih'
    · unfold maxSteps; omega

/-- Finite entries come with a path, which is the one the traceback returns. -/
theorem IsRLwl.traceback (hfix : rnd (D 0 0) = D 0 0) (h : IsRLwl rnd L l1 l2 D M) {am} (ham : IsArgmin3 am) :
    ∀ (n i j fuel s : ℕ) (rest : List (ℕ × ℕ)), i + j = n → n < fuel → i < l1 → j < l2 →
    CostDict.get (M i j) s ≠ ⊤ →
    ∃ p, WP false p i j ∧ p.length = s + 1 ∧ pathCost (rAdd rnd) 0 D p = CostDict.get (M i j) s ∧
      lwlPathLoop am M fuel (i, j) s rest = some (p ++ rest) := by
  -- the border branches do not read the step count
  have col : ∀ (i fuel s s' : ℕ) (rest : List (ℕ × ℕ)), i < fuel → 
      lwlPathLoop am M fuel (i, 0) s rest = lwlPathLoop am M fuel (i, 0) s' rest := by
    intro i
    induction i with
    | zero =>
      intro fuel s s' rest hf
      obtain ⟨f, rfl⟩ : ∃ f, fuel = f + 1 := ⟨fuel - 1, by omega⟩
      simp [lwlPathLoop]
    | succ i ih =>
      intro fuel s s' rest hf
      obtain ⟨f, rfl⟩ : ∃ f, fuel = f + 1 := ⟨fuel - 1, by omega⟩
      simp only [lwlPathLoop, Prod.mk.injEq, Nat.add_eq_zero_iff, one_ne_zero, and_false, false_and,
        if_false, if_true, Nat.add_sub_cancel]
      exact ih f s s' _ (by omega)
  have row : ∀ (j fuel s s' : ℕ) (rest : List (ℕ × ℕ)), j < fuel → 
      lwlPathLoop am M fuel (0, j) s rest = lwlPathLoop am M fuel (0, j) s' rest := by
    intro j
    induction j with
    | zero =>
      intro fuel s s' rest hf
      obtain ⟨f, rfl⟩ : ∃ f, fuel = f + 1 := ⟨fuel - 1, by omega⟩
      simp [lwlPathLoop]
    | succ j ih =>
      intro fuel s s' rest hf
      obtain ⟨f, rfl⟩ : ∃ f, fuel = f + 1 := ⟨fuel - 1, by omega⟩
      simp only [lwlPathLoop, Prod.mk.injEq, Nat.add_eq_zero_iff, one_ne_zero, and_false,
        if_false, if_true, Nat.add_sub_cancel]
      exact ih f s s' _ (by omega)
  intro n
  induction n using Nat.strong_induction_on with
  | _ n ih =>
    intro i j fuel s rest hn hf hi hj hfin
    obtain ⟨fuel, rfl⟩ : ∃ f, fuel = f + 1 := ⟨fuel - 1, by omega⟩
    rcases i with _ | i <;> rcases j with _ | j
    · rw [h.zero, get_singleton] at hfin ⊢
      have hs : s = 0 := by
        by_contra hs
        simp [hs] at hfin
      subst hs
      exact ⟨[(0,0)], .start 0 (.inr rfl), rfl, by simp [pathCost_zero hfix], by simp [lwlPathLoop]⟩
    · rw [h.row j hj, get_singleton] at hfin ⊢
      have hs : s = j + 1 := by
        by_contra hs
        simp [hs] at hfin
      subst hs
      simp only [if_true] at hfin ⊢
      have hfin' : CostDict.get (M 0 j) j ≠ ⊤ := fun h0 => hfin (by rw [h0, rAdd_top])
      obtain ⟨p, hp, hl, hc, hpath⟩ := ih (0 + j) (by omega) 0 j fuel j ((0, j+1) :: rest) rfl
        (by omega) hi (by omega) hfin'
      refine ⟨p ++ [(0, j+1)], hp.right, by simp [hl], ?_, ?_⟩
      · rw [pathCost_append, hc]
      · simp only [lwlPathLoop, Prod.mk.injEq, Nat.add_eq_zero_iff, one_ne_zero, and_false,
          if_false, if_true, Nat.add_sub_cancel]
        rw [row j fuel (j+1) j _ (by omega), hpath]
        simp
    · rw [h.col i hi, get_singleton] at hfin ⊢
      have hs : s = i + 1 := by
        by_contra hs
        simp [hs] at hfin
      subst hs
      simp only [if_true] at hfin ⊢
      have hfin' : CostDict.get (M i 0) i ≠ ⊤ := fun h0 => hfin (by rw [h0, rAdd_top])
      obtain ⟨p, hp, hl, hc, hpath⟩ := ih (i + 0) (by omega) i 0 fuel i ((i+1, 0) :: rest) rfl
        (by omega) (by omega) hj hfin'
      refine ⟨p ++ [(i+1, 0)], hp.down, by simp [hl], ?_, ?_⟩
      · rw [pathCost_append, hc]
      · simp only [lwlPathLoop, Prod.mk.injEq, Nat.add_eq_zero_iff, one_ne_zero, and_false, false_and,
          if_false, if_true, Nat.add_sub_cancel]
        rw [col i fuel (i+1) i _ (by omega), hpath]
        simp
    · rw [h.body i j hi hj, get_rLwlCell] at hfin ⊢
      split_ifs at hfin with hs
      · rw [if_pos hs]
        have hs1 : s - 1 + 1 = s := by omega
        have hmin : min (min (CostDict.get (M (i+1) j) (s-1)) (CostDict.get (M i (j+1)) (s-1)))
            (CostDict.get (M i j) (s-1)) ≠ ⊤ := fun h0 => hfin (by rw [h0, rAdd_top])
        set a := CostDict.get (M i j) (s-1) with ha
        set b := CostDict.get (M i (j+1)) (s-1) with hb
        set c := CostDict.get (M (i+1) j) (s-1) with hc
        have hstep : lwlPathLoop am M (fuel+1) (i+1, j+1) s rest =
            if am a b c = 0 then lwlPathLoop am M fuel (i, j) (s-1) ((i+1, j+1) :: rest)
            else if am a b c = 1 then lwlPathLoop am M fuel (i, j+1) (s-1) ((i+1, j+1) :: rest)
            else lwlPathLoop am M fuel (i+1, j) (s-1) ((i+1, j+1) :: rest) := by
          simp [lwlPathLoop, ha, hb, hc]
        rw [hstep]
        rcases ham a b c with ⟨h0, h1, h2⟩ | ⟨h0, h1, h2⟩ | ⟨h0, h1, h2⟩
        · have hm : min (min c b) a = a := min_eq_right (le_min h2 h1)
          rw [hm] at hmin ⊢
          obtain ⟨p, hp, hl, hcost, hpath⟩ := ih (i + j) (by omega) i j fuel (s-1)
            ((i+1, j+1) :: rest) rfl (by omega) (by omega) (by omega) hmin
          refine ⟨p ++ [(i+1, j+1)], hp.diag, by simp [hl, hs1], ?_, ?_⟩
          · rw [pathCost_append, hcost]
          · rw [h0, if_pos rfl, hpath]; simp
        · have hm : min (min c b) a = b := by
            rw [min_eq_right (h2 : b ≤ c), min_eq_left h1]
          rw [hm] at hmin ⊢
          obtain ⟨p, hp, hl, hcost, hpath⟩ := ih (i + (j+1)) (by omega) i (j+1) fuel (s-1)
            ((i+1, j+1) :: rest) rfl (by omega) (by omega) (by omega) hmin
          refine ⟨p ++ [(i+1, j+1)], hp.down, by simp [hl, hs1], ?_, ?_⟩
          · rw [pathCost_append, hcost]
          · rw [h0, if_neg (by omega), if_pos rfl, hpath]; simp
        · have hm : min (min c b) a = c := by
            rw [min_eq_left (h2 : c ≤ b), min_eq_left h1]
          rw [hm] at hmin ⊢
          obtain ⟨p, hp, hl, hcost, hpath⟩ := ih (i + 1 + j) (by omega) (i+1) j fuel (s-1)
            ((i+1, j+1) :: rest) rfl (by omega) (by omega) (by omega) hmin
          refine ⟨p ++ [(i+1, j+1)], hp.right, by simp [hl, hs1], ?_, ?_⟩
          · rw [pathCost_append, hcost]
          · rw [h0, if_neg (by omega), if_neg (by omega), hpath]; simp
      · exact absurd rfl hfin

/-- The entries of the last dict: the table values, within the budget. -/
theorem IsRLwl.last_entries (h : IsRLwl rnd L l1 l2 D M) (h1 : 0 < l1) (h2 : 0 < l2)
    (hL : max l1 l2 ≤ L) :
    M (l1-1) (l2-1) ≠ [] ∧ ∀ e ∈ M (l1-1) (l2-1),
      CostDict.get (M (l1-1) (l2-1)) e.1 = e.2 ∧ e.1 + 1 ≤ L := by
  obtain ⟨a, rfl⟩ : ∃ a, l1 = a + 1 := ⟨l1 - 1, by omega⟩
  obtain ⟨b, rfl⟩ : ∃ b, l2 = b + 1 := ⟨l2 - 1, by omega⟩
  simp only [Nat.add_sub_cancel]
  rcases a with _ | a <;> rcases b with _ | b
  · rw [h.zero]; simp [get_singleton]; omega
  · rw [h.row b (by omega)]; simp [get_singleton]; omega
  · rw [h.col a (by omega)]; simp [get_singleton]; omega
  · have hb := h.body a b (by omega) (by omega)
    have hget := get_rLwlCell rnd L (a+1+1) (b+1+1) D a b (M a (b+1)) (M (a+1) b) (M a b)
    constructor
    · rw [hb]
      simp only [rLwlCell, ne_eq, List.map_eq_nil_iff, List.range'_eq_nil_iff]
      unfold maxSteps
      omega
    · intro e he
      rw [hb] at he ⊢
      simp only [rLwlCell, List.mem_map, List.mem_range'_1] at he
      obtain ⟨s, hs, rfl⟩ := he
      refine ⟨?_, ?_⟩
      · rw [hget, if_pos (by omega)]
      · unfold maxSteps at hs; simp only; omega

/-- Value and path on a cost matrix. -/
theorem rLwlCost_spec {rnd : K → K} (hm : Monotone rnd) (L l1 l2 : ℕ) (D : ℕ → ℕ → K)
    (hfix : rnd (D 0 0) = D 0 0) (h1 : 0 < l1) (h2 : 0 < l2)
    (hL : max l1 l2 ≤ L) {am} (ham : IsArgmin3 am) :
    ∃ (w : K) (k : ℕ) (p : List (ℕ × ℕ)),
      dictMin (rLwlCost rnd L l1 l2 D (l1-1) (l2-1)) = .ok (w : WithTop K) ∧
      dictArgmin (rLwlCost rnd L l1 l2 D (l1-1) (l2-1)) = (some k, (w : WithTop K)) ∧
      lwlPathLoop am (rLwlCost rnd L l1 l2 D) (l1 + l2) (l1-1, l2-1) k [] = some p ∧
      IsWarpingPath l1 l2 p ∧ p.length ≤ L ∧ pathCost (rAdd rnd) 0 D p = (w : WithTop K) ∧
      ∀ q, IsWarpingPath l1 l2 q → q.length ≤ L → (w : WithTop K) ≤ pathCost (rAdd rnd) 0 D q := by
  have h := rLwlCost_isLwl rnd L l1 l2 D
  set M := rLwlCost rnd L l1 l2 D
  obtain ⟨hne, hent⟩ := h.last_entries h1 h2 hL
  have hpf : ∀ q, pathCost (rAdd rnd) 0 D q ≠ ⊤ := by
    intro q
    obtain ⟨w, e⟩ := rPathCost_finite rnd D q
    rw [e]
    exact WithTop.coe_ne_top
  have hle : ∀ q, IsWarpingPath l1 l2 q → q.length ≤ L →
      ∃ e ∈ M (l1-1) (l2-1), e.2 ≤ pathCost (rAdd rnd) 0 D q := by
    intro q hq hql
    obtain ⟨i, j, hi, hj, hw⟩ := isWarpingPath_iff.1 hq
    obtain rfl : i = l1 - 1 := by omega
    obtain rfl : j = l2 - 1 := by omega
    have := h.le_cost hm hfix hw (by omega) (by omega) (by omega)
    exact ⟨_, get_mem (ne_top_of_le_ne_top (hpf q) this), this⟩
  obtain ⟨m, hdm, ⟨e0, he0, hme⟩, hmin⟩ := dictMin_spec hne
  obtain ⟨hamin, hacase⟩ := dictArgmin_spec (M (l1-1) (l2-1))
  obtain ⟨p0, hp0, hl0⟩ := exists_short_path (l1 - 1 + (l2 - 1)) (l1-1) (l2-1) rfl
  obtain ⟨e1, he1, hle1⟩ := hle p0 (isWarpingPath_iff.2 ⟨_, _, by omega, by omega, hp0⟩) (by omega)
  have hmtop : m ≠ ⊤ := ne_top_of_le_ne_top (hpf p0) ((hmin e1 he1).trans hle1)
  rcases hacase with ⟨-, htop⟩ | ⟨e, he, hae, hetop⟩
  · exfalso
    apply hmtop
    rw [← hme]
    exact top_le_iff.1 (htop ▸ hamin e0 he0)
  · have hem : e.2 = m := by
      apply le_antisymm
      · have := hamin e0 he0
        rw [hae, hme] at this
        exact this
      · exact hmin e he
    have hg := hent e he
    obtain ⟨p, hp, hpl, hpc, hpath⟩ := h.traceback hfix ham (l1 - 1 + (l2 - 1)) (l1-1) (l2-1)
      (l1 + l2) e.1 [] rfl (by omega) (by omega) (by omega) (by rw [hg.1]; exact hetop)
    have hpw : IsWarpingPath l1 l2 p := isWarpingPath_iff.2 ⟨_, _, by omega, by omega, hp⟩
    obtain ⟨w, rfl⟩ := WithTop.ne_top_iff_exists.1 hmtop
    refine ⟨w, e.1, p, hdm, by rw [hae, hem], by simpa using hpath, hpw, by omega,
      by rw [hpc, hg.1, hem], fun q hq hql => ?_⟩
    obtain ⟨e', he', hle'⟩ := hle q hq hql
    exact (hmin e' he').trans hle'

theorem rSqDist_fix {rnd : K → K} (h0 : rnd 0 = 0) (hi : ∀ a, rnd (rnd a) = rnd a) (a b : List K) :
    rnd (rSqDist rnd a b) = rSqDist rnd a b := by
  unfold rSqDist
  have : ∀ (l : List K) (s : K), rnd s = s →
      rnd (l.foldl (fun s diff => rnd (s + rnd (diff * diff))) s) =
        l.foldl (fun s diff => rnd (s + rnd (diff * diff))) s := by
    intro l
    induction l with
    | nil => intro s hs; exact hs
    | cons d l ih => intro s _; exact ih _ (hi _)
  exact this _ 0 h0
end
end Verif
