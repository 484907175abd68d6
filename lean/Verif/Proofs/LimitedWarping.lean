import Verif.Model.LimitedWarping
import Verif.Proofs.Dtw
import Verif.Proofs.Series
/-!
DTW with limited warping length.
-/
set_option linter.unusedSectionVars false
namespace Verif
open Spec

theorem WP.length_bounds {p i j} (h : WP false p i j) :
    i + 1 ≤ p.length ∧ j + 1 ≤ p.length ∧ p.length ≤ i + j + 1 := by
  induction h with
  | start j0 h => simp at h; subst h; simp
  | down h ih => simp; omega
  | right h ih => simp; omega
  | diag h ih => simp; omega

theorem WP.zero_left {p j} (h : WP false p 0 (j+1)) : ∃ q, WP false q 0 j ∧ p = q ++ [(0, j+1)] := by
  cases h with
  | start _ h => simp at h
  | right h => exact ⟨_, h, rfl⟩

theorem WP.zero_right {p i} (h : WP false p (i+1) 0) : ∃ q, WP false q i 0 ∧ p = q ++ [(i+1, 0)] := by
  cases h with
  | down h => exact ⟨_, h, rfl⟩

theorem WP.zero_zero {p} (h : WP false p 0 0) : p = [(0, 0)] := by
  cases h with
  | start _ h => rfl

theorem WP.last_cases {p i j} (h : WP false p (i+1) (j+1)) : ∃ q, p = q ++ [(i+1, j+1)] ∧
    (WP false q i (j+1) ∨ WP false q (i+1) j ∨ WP false q i j) := by
  cases h with
  | down h => exact ⟨_, rfl, .inl h⟩
  | right h => exact ⟨_, rfl, .inr (.inl h)⟩
  | diag h => exact ⟨_, rfl, .inr (.inr h)⟩

section
variable {K : Type} [CommRing K] [LinearOrder K] [IsStrictOrderedRing K]

theorem sumCost_append (D : ℕ → ℕ → K) (p : List (ℕ × ℕ)) (c : ℕ × ℕ) :
    sumCost D (p ++ [c]) = sumCost D p + D c.1 c.2 := by simp [sumCost]

theorem sumCost_append' (D : ℕ → ℕ → K) (p : List (ℕ × ℕ)) (c : ℕ × ℕ) :
    ((sumCost D (p ++ [c]) : K) : WithTop K) = (D c.1 c.2 : WithTop K) + ((sumCost D p : K) : WithTop K) := by
  rw [sumCost_append, add_comm, WithTop.coe_add]

theorem get_singleton {C : Type} [Top C] (k : ℕ) (v : C) (s : ℕ) :
    CostDict.get [(k, v)] s = if s = k then v else ⊤ := by
  unfold CostDict.get
  by_cases h : s = k
  · subst h; simp [List.lookup]
  · have : (s == k) = false := by simpa using h
    simp [List.lookup, this, h]

theorem lookup_range_map {C : Type} (f : ℕ → C) (s : ℕ) : ∀ (n a : ℕ),
    List.lookup s ((List.range' a n).map fun s => (s, f s)) =
      if a ≤ s ∧ s < a + n then some (f s) else none := by
  intro n
  induction n with
  | zero => intro a; simp
  | succ n ih =>
    intro a
    rw [List.range'_succ, List.map_cons, List.lookup_cons, ih]
    by_cases h : s = a
    · subst h; simp
    · have : (s == a) = false := by simpa using h
      rw [this]
      by_cases h2 : a + 1 ≤ s ∧ s < a + 1 + n
      · rw [if_pos h2, if_pos (by omega)]
      · rw [if_neg h2, if_neg (by omega)]

theorem get_lwlCell (L l1 l2 : ℕ) (D : ℕ → ℕ → K) (i j : ℕ) (up left diag) (s : ℕ) :
    CostDict.get (lwlCell L l1 l2 D i j up left diag) s =
      if max (i+1) (j+1) ≤ s ∧ s ≤ maxSteps (i+1) (j+1) (L-1) l1 l2 then
        (D (i+1) (j+1) : WithTop K) + min (min (left.get (s-1)) (up.get (s-1))) (diag.get (s-1))
      else ⊤ := by
  unfold CostDict.get lwlCell
  simp only
  rw [lookup_range_map (fun s => (D (i+1) (j+1) : WithTop K) +
    min (min (CostDict.get left (s-1)) (CostDict.get up (s-1))) (CostDict.get diag (s-1)))]
  by_cases h : max (i+1) (j+1) ≤ s ∧ s ≤ maxSteps (i+1) (j+1) (L-1) l1 l2
  · rw [if_pos h, if_pos (by omega)]; rfl
  · rw [if_neg h, if_neg (by omega)]; rfl

/-- The equations of the initialisation. -/
theorem lwlInit_eqs (l1 l2 : ℕ) (D : ℕ → ℕ → K) :
    let M := lwlInit l1 l2 D
    M 0 0 = [(0, (D 0 0 : WithTop K))] ∧
    (∀ i, i + 1 < l1 → M (i+1) 0 = [(i+1, CostDict.get (M i 0) i + (D (i+1) 0 : WithTop K))]) ∧
    (∀ j, j + 1 < l2 → M 0 (j+1) = [(j+1, CostDict.get (M 0 j) j + (D 0 (j+1) : WithTop K))]) := by
  intro M
  let M0 : Mat (CostDict (WithTop K)) := (Mat.full []).set 0 0 [(0, (D 0 0 : WithTop K))]
  let M1 := forRange (l1 - 1) M0 fun i M =>
    M.set (i + 1) 0 [(i + 1, CostDict.get (M i 0) i + (D (i + 1) 0 : WithTop K))]
  have h1 : M1 0 0 = [(0, (D 0 0 : WithTop K))] ∧
      ∀ i, i < l1 - 1 → M1 (i+1) 0 = [(i+1, CostDict.get (M1 i 0) i + (D (i+1) 0 : WithTop K))] := by
    apply forRange_inv (fun n (M : Mat (CostDict (WithTop K))) => M 0 0 = [(0, (D 0 0 : WithTop K))] ∧
      ∀ i, i < n → M (i+1) 0 = [(i+1, CostDict.get (M i 0) i + (D (i+1) 0 : WithTop K))])
    · exact ⟨by simp [M0, Mat.set_apply], fun i h => by omega⟩
    · rintro n M hn ⟨h0, h⟩
      refine ⟨by simp [Mat.set_apply, h0], fun i hi => ?_⟩
      by_cases hin : i = n
      · subst hin; simp [Mat.set_apply]
      · have e1 : i + 1 ≠ n + 1 := by omega
        have e2 : i ≠ n + 1 := by omega
        simp only [Mat.set_apply, e1, e2, false_and, if_false]
        exact h i (by omega)
  have h2 : (∀ i, M i 0 = M1 i 0) ∧
      ∀ j, j < l2 - 1 → M 0 (j+1) = [(j+1, CostDict.get (M 0 j) j + (D 0 (j+1) : WithTop K))] := by
    apply forRange_inv (fun n (M : Mat (CostDict (WithTop K))) => (∀ i, M i 0 = M1 i 0) ∧
      ∀ j, j < n → M 0 (j+1) = [(j+1, CostDict.get (M 0 j) j + (D 0 (j+1) : WithTop K))])
    · exact ⟨fun _ => rfl, fun i h => by omega⟩
    · rintro n M hn ⟨h0, h⟩
      refine ⟨fun i => by simp [Mat.set_apply, h0], fun j hj => ?_⟩
      by_cases hjn : j = n
      · subst hjn; simp [Mat.set_apply]
      · have e1 : j + 1 ≠ n + 1 := by omega
        have e2 : j ≠ n + 1 := by omega
        simp only [Mat.set_apply, e1, e2, and_false, if_false]
        exact h j (by omega)
  refine ⟨by rw [h2.1]; exact h1.1, fun i hi => ?_, fun j hj => h2.2 j (by omega)⟩
  rw [h2.1, h2.1]
  exact h1.2 i (by omega)

/-- All equations of the table. -/
structure IsLwl (L l1 l2 : ℕ) (D : ℕ → ℕ → K) (M : Mat (CostDict (WithTop K))) : Prop where
  zero : M 0 0 = [(0, (D 0 0 : WithTop K))]
  col : ∀ i, i + 1 < l1 → M (i+1) 0 = [(i+1, CostDict.get (M i 0) i + (D (i+1) 0 : WithTop K))]
  row : ∀ j, j + 1 < l2 → M 0 (j+1) = [(j+1, CostDict.get (M 0 j) j + (D 0 (j+1) : WithTop K))]
  body : ∀ i j, i + 1 < l1 → j + 1 < l2 →
    M (i+1) (j+1) = lwlCell L l1 l2 D i j (M i (j+1)) (M (i+1) j) (M i j)

theorem lwlCost_isLwl (L l1 l2 : ℕ) (D : ℕ → ℕ → K) : IsLwl L l1 l2 D (lwlCost L l1 l2 D) := by
  have h := dpLoop_isDP (l1 - 1) (l2 - 1) (fun _ _ => true) (lwlCell L l1 l2 D) (lwlInit l1 l2 D)
  obtain ⟨e0, e1, e2⟩ := lwlInit_eqs l1 l2 D
  refine ⟨?_, fun i hi => ?_, fun j hj => ?_, fun i j hi hj => ?_⟩
  · exact (h.row0 0).trans e0
  · have a := h.col0 (i+1)
    have b := h.col0 i
    unfold lwlCost
    rw [a, b]; exact e1 i hi
  · have a := h.row0 (j+1)
    have b := h.row0 j
    unfold lwlCost
    rw [a, b]; exact e2 j hj
  · have := h.body i j (by omega) (by omega)
    simp only [if_true] at this
    exact this

variable {L l1 l2 : ℕ} {D : ℕ → ℕ → K} {M : Mat (CostDict (WithTop K))}

/-- A path that can still be completed within the budget costs at least the table entry. -/
theorem IsLwl.le_cost (h : IsLwl L l1 l2 D M) {p i j} (hp : WP false p i j) :
    i < l1 → j < l2 → p.length + max (l1 - 1 - i) (l2 - 1 - j) ≤ L →
    CostDict.get (M i j) (p.length - 1) ≤ ((sumCost D p : K) : WithTop K) := by
  induction hp with
  | start j0 h0 =>
    simp at h0; subst h0
    intro _ _ _
    rw [h.zero, get_singleton]; simp [sumCost]
  | @down p i j hq ih =>
    intro hi hj hL
    have lb := hq.length_bounds
    simp only [List.length_append, List.length_singleton] at hL ⊢
    have ih' := ih (by omega) hj (by omega)
    rw [sumCost_append']
    rcases j with _ | j
    · rw [h.col i hi, get_singleton, if_pos (by omega), add_comm]
      rw [show p.length - 1 = i by omega] at ih'
      exact add_le_add_right ih' _
    · rw [h.body i j hi hj, get_lwlCell, if_pos]
      · apply add_le_add_right
        rw [show p.length + 1 - 1 - 1 = p.length - 1 by omega]
        exact (min_le_of_left_le (min_le_right _ _)).trans ih'
      · unfold maxSteps; omega
  | @right p i j hq ih =>
    intro hi hj hL
    have lb := hq.length_bounds
    simp only [List.length_append, List.length_singleton] at hL ⊢
    have ih' := ih hi (by omega) (by omega)
    rw [sumCost_append']
    rcases i with _ | i
    · rw [h.row j hj, get_singleton, if_pos (by omega), add_comm]
      rw [show p.length - 1 = j by omega] at ih'
      exact add_le_add_right ih' _
    · rw [h.body i j hi hj, get_lwlCell, if_pos]
      · apply add_le_add_right
        rw [show p.length + 1 - 1 - 1 = p.length - 1 by omega]
        exact (min_le_of_left_le (min_le_left _ _)).trans ih'
      · unfold maxSteps; omega
  | @diag p i j hq ih =>
    intro hi hj hL
    have lb := hq.length_bounds
    simp only [List.length_append, List.length_singleton] at hL ⊢
    have ih' := ih (by omega) (by omega) (by omega)
    rw [sumCost_append']
    rw [h.body i j hi hj, get_lwlCell, if_pos]
    · apply add_le_add_right
      rw [show p.length + 1 - 1 - 1 = p.length - 1 by omega]
      exact (min_le_right _ _).trans ih'
    · unfold maxSteps; omega

/-- Finite entries come with a path, which is the one the traceback returns. -/
theorem IsLwl.traceback (h : IsLwl L l1 l2 D M) {am} (ham : IsArgmin3 am) :
    ∀ (n i j fuel s : ℕ) (rest : List (ℕ × ℕ)), i + j = n → n < fuel → i < l1 → j < l2 →
    CostDict.get (M i j) s ≠ ⊤ →
    ∃ p, WP false p i j ∧ p.length = s + 1 ∧ ((sumCost D p : K) : WithTop K) = CostDict.get (M i j) s ∧
      lwlPathLoop am M fuel (i, j) s rest = some (p ++ rest) := by
  -- the border branches do not read the step count
  have col : ∀ (i fuel s s' : ℕ) (rest : List (ℕ × ℕ)), i < fuel → 
      lwlPathLoop am M fuel (i, 0) s rest = lwlPathLoop am M fuel (i, 0) s' rest := by
    intro i
    induction i with
    | zero =>
      intro fuel s s' rest hf
      obtain ⟨f, rfl⟩ : ∃ f, fuel = f + 1 := ⟨fuel - 1, by omega⟩
      simp [lwlPathLoop]
    | succ i ih =>
      intro fuel s s' rest hf
      obtain ⟨f, rfl⟩ : ∃ f, fuel = f + 1 := ⟨fuel - 1, by omega⟩
      simp only [lwlPathLoop, Prod.mk.injEq, Nat.add_eq_zero_iff, one_ne_zero, and_false, false_and,
        if_false, if_true, Nat.add_sub_cancel]
      exact ih f s s' _ (by omega)
  have row : ∀ (j fuel s s' : ℕ) (rest : List (ℕ × ℕ)), j < fuel → 
      lwlPathLoop am M fuel (0, j) s rest = lwlPathLoop am M fuel (0, j) s' rest := by
    intro j
    induction j with
    | zero =>
      intro fuel s s' rest hf
      obtain ⟨f, rfl⟩ : ∃ f, fuel = f + 1 := ⟨fuel - 1, by omega⟩
      simp [lwlPathLoop]
    | succ j ih =>
      intro fuel s s' rest hf
      obtain ⟨f, rfl⟩ : ∃ f, fuel = f + 1 := ⟨fuel - 1, by omega⟩
      simp only [lwlPathLoop, Prod.mk.injEq, Nat.add_eq_zero_iff, one_ne_zero, and_false,
        if_false, if_true, Nat.add_sub_cancel]
      exact ih f s s' _ (by omega)
  intro n
  induction n using Nat.strong_induction_on with
  | _ n ih =>
    intro i j fuel s rest hn hf hi hj hfin
    obtain ⟨fuel, rfl⟩ : ∃ f, fuel = f + 1 := ⟨fuel - 1, by omega⟩
    rcases i with _ | i <;> rcases j with _ | j
    · rw [h.zero, get_singleton] at hfin ⊢
      have hs : s = 0 := by
        by_contra hs
        simp [hs] at hfin
      subst hs
      exact ⟨[(0,0)], .start 0 (.inr rfl), rfl, by simp [sumCost], by simp [lwlPathLoop]⟩
    · rw [h.row j hj, get_singleton] at hfin ⊢
      have hs : s = j + 1 := by
        by_contra hs
        simp [hs] at hfin
      subst hs
      simp only [if_true] at hfin ⊢
      have hfin' : CostDict.get (M 0 j) j ≠ ⊤ := fun h0 => hfin (by rw [h0, top_add])
      obtain ⟨p, hp, hl, hc, hpath⟩ := ih (0 + j) (by omega) 0 j fuel j ((0, j+1) :: rest) rfl
        (by omega) hi (by omega) hfin'
      refine ⟨p ++ [(0, j+1)], hp.right, by simp [hl], ?_, ?_⟩
      · rw [sumCost_append, WithTop.coe_add, hc]
      · simp only [lwlPathLoop, Prod.mk.injEq, Nat.add_eq_zero_iff, one_ne_zero, and_false,
          if_false, if_true, Nat.add_sub_cancel]
        rw [row j fuel (j+1) j _ (by omega), hpath]
        simp
    · rw [h.col i hi, get_singleton] at hfin ⊢
      have hs : s = i + 1 := by
        by_contra hs
        simp [hs] at hfin
      subst hs
      simp only [if_true] at hfin ⊢
      have hfin' : CostDict.get (M i 0) i ≠ ⊤ := fun h0 => hfin (by rw [h0, top_add])
      obtain ⟨p, hp, hl, hc, hpath⟩ := ih (i + 0) (by omega) i 0 fuel i ((i+1, 0) :: rest) rfl
        (by omega) (by omega) hj hfin'
      refine ⟨p ++ [(i+1, 0)], hp.down, by simp [hl], ?_, ?_⟩
      · rw [sumCost_append, WithTop.coe_add, hc]
      · simp only [lwlPathLoop, Prod.mk.injEq, Nat.add_eq_zero_iff, one_ne_zero, and_false, false_and,
          if_false, if_true, Nat.add_sub_cancel]
        rw [col i fuel (i+1) i _ (by omega), hpath]
        simp
    · rw [h.body i j hi hj, get_lwlCell] at hfin ⊢
      split_ifs at hfin with hs
      · rw [if_pos hs]
        have hs1 : s - 1 + 1 = s := by omega
        have hmin : min (min (CostDict.get (M (i+1) j) (s-1)) (CostDict.get (M i (j+1)) (s-1)))
            (CostDict.get (M i j) (s-1)) ≠ ⊤ := fun h0 => hfin (by rw [h0, add_top])
        set a := CostDict.get (M i j) (s-1) with ha
        set b := CostDict.get (M i (j+1)) (s-1) with hb
        set c := CostDict.get (M (i+1) j) (s-1) with hc
        have hstep : lwlPathLoop am M (fuel+1) (i+1, j+1) s rest =
            if am a b c = 0 then lwlPathLoop am M fuel (i, j) (s-1) ((i+1, j+1) :: rest)
            else if am a b c = 1 then lwlPathLoop am M fuel (i, j+1) (s-1) ((i+1, j+1) :: rest)
            else lwlPathLoop am M fuel (i+1, j) (s-1) ((i+1, j+1) :: rest) := by
          simp [lwlPathLoop, ha, hb, hc]
        rw [hstep]
        rcases ham a b c with ⟨h0, h1, h2⟩ | ⟨h0, h1, h2⟩ | ⟨h0, h1, h2⟩
        · have hm : min (min c b) a = a := min_eq_right (le_min h2 h1)
          rw [hm] at hmin ⊢
          obtain ⟨p, hp, hl, hcost, hpath⟩ := ih (i + j) (by omega) i j fuel (s-1)
            ((i+1, j+1) :: rest) rfl (by omega) (by omega) (by omega) hmin
          refine ⟨p ++ [(i+1, j+1)], hp.diag, by simp [hl, hs1], ?_, ?_⟩
          · rw [sumCost_append', hcost]
          · rw [h0, if_pos rfl, hpath]; simp
        · have hm : min (min c b) a = b := by
            rw [min_eq_right (h2 : b ≤ c), min_eq_left h1]
          rw [hm] at hmin ⊢
          obtain ⟨p, hp, hl, hcost, hpath⟩ := ih (i + (j+1)) (by omega) i (j+1) fuel (s-1)
            ((i+1, j+1) :: rest) rfl (by omega) (by omega) (by omega) hmin
          refine ⟨p ++ [(i+1, j+1)], hp.down, by simp [hl, hs1], ?_, ?_⟩
          · rw [sumCost_append', hcost]
          · rw [h0, if_neg (by omega), if_pos rfl, hpath]; simp
        · have hm : min (min c b) a = c := by
            rw [min_eq_left (h2 : c ≤ b), min_eq_left h1]
          rw [hm] at hmin ⊢
          obtain ⟨p, hp, hl, hcost, hpath⟩ := ih (i + 1 + j) (by omega) (i+1) j fuel (s-1)
            ((i+1, j+1) :: rest) rfl (by omega) (by omega) (by omega) hmin
          refine ⟨p ++ [(i+1, j+1)], hp.right, by simp [hl, hs1], ?_, ?_⟩
          · rw [sumCost_append', hcost]
          · rw [h0, if_neg (by omega), if_neg (by omega), hpath]; simp
      · exact absurd rfl hfin

/-- The entries of the last dict: the table values, within the budget. -/
theorem IsLwl.last_entries (h : IsLwl L l1 l2 D M) (h1 : 0 < l1) (h2 : 0 < l2)
    (hL : max l1 l2 ≤ L) :
    M (l1-1) (l2-1) ≠ [] ∧ ∀ e ∈ M (l1-1) (l2-1),
      CostDict.get (M (l1-1) (l2-1)) e.1 = e.2 ∧ e.1 + 1 ≤ L := by
  obtain ⟨a, rfl⟩ : ∃ a, l1 = a + 1 := ⟨l1 - 1, by omega⟩
  obtain ⟨b, rfl⟩ : ∃ b, l2 = b + 1 := ⟨l2 - 1, by omega⟩
  simp only [Nat.add_sub_cancel]
  rcases a with _ | a <;> rcases b with _ | b
  · rw [h.zero]; simp [get_singleton]; omega
  · rw [h.row b (by omega)]; simp [get_singleton]; omega
  · rw [h.col a (by omega)]; simp [get_singleton]; omega
  · have hb := h.body a b (by omega) (by omega)
    have hget := get_lwlCell L (a+1+1) (b+1+1) D a b (M a (b+1)) (M (a+1) b) (M a b)
    constructor
    · rw [hb]
      simp only [lwlCell, ne_eq, List.map_eq_nil_iff, List.range'_eq_nil_iff]
      unfold maxSteps
      omega
    · intro e he
      rw [hb] at he ⊢
      simp only [lwlCell, List.mem_map, List.mem_range'_1] at he
      obtain ⟨s, hs, rfl⟩ := he
      refine ⟨?_, ?_⟩
      · rw [hget, if_pos (by omega)]
      · unfold maxSteps at hs; simp only; omega

theorem get_mem {C : Type} [Top C] {d : CostDict C} {s : ℕ} (h : CostDict.get d s ≠ ⊤) :
    (s, CostDict.get d s) ∈ d := by
  unfold CostDict.get at h ⊢
  cases hl : List.lookup s d with
  | none => simp [hl] at h
  | some v =>
    clear h
    induction d with
    | nil => simp at hl
    | cons e d ih =>
      rw [List.lookup_cons] at hl
      split at hl
      · rename_i heq
        have : s = e.1 := by simpa using heq
        cases hl
        subst this
        simp
      · exact List.mem_cons_of_mem _ (ih hl)

theorem foldl_min_le {C : Type} [LinearOrder C] (es : CostDict C) : ∀ (m : C),
    es.foldl (fun m e => min m e.2) m ≤ m ∧
    (∀ e ∈ es, es.foldl (fun m e => min m e.2) m ≤ e.2) ∧
    (es.foldl (fun m e => min m e.2) m = m ∨ ∃ e ∈ es, es.foldl (fun m e => min m e.2) m = e.2) := by
  induction es with
  | nil => intro m; simp
  | cons a es ih =>
    intro m
    obtain ⟨h1, h2, h3⟩ := ih (min m a.2)
    simp only [List.foldl_cons]
    refine ⟨h1.trans (min_le_left _ _), ?_, ?_⟩
    · intro e he
      rcases List.mem_cons.1 he with rfl | he
      · exact h1.trans (min_le_right _ _)
      · exact h2 e he
    · rcases h3 with h3 | ⟨e, he, h3⟩
      · rcases min_choice m a.2 with h | h
        · exact .inl (h3.trans h)
        · exact .inr ⟨a, by simp, h3.trans h⟩
      · exact .inr ⟨e, by simp [he], h3⟩

theorem dictMin_spec {C : Type} [LinearOrder C] {d : CostDict C} (hd : d ≠ []) :
    ∃ m, dictMin d = .ok m ∧ (∃ e ∈ d, e.2 = m) ∧ ∀ e ∈ d, m ≤ e.2 := by
  cases d with
  | nil => exact absurd rfl hd
  | cons a es =>
    obtain ⟨h1, h2, h3⟩ := foldl_min_le es a.2
    refine ⟨_, rfl, ?_, ?_⟩
    · rcases h3 with h3 | ⟨e, he, h3⟩
      · exact ⟨a, by simp, h3.symm⟩
      · exact ⟨e, by simp [he], h3.symm⟩
    · intro e he
      rcases List.mem_cons.1 he with rfl | he
      · exact h1
      · exact h2 e he

theorem dictArgmin_spec {C : Type} [LinearOrder C] [OrderTop C] (d : CostDict C) :
    (∀ e ∈ d, (dictArgmin d).2 ≤ e.2) ∧
    (((dictArgmin d).1 = none ∧ (dictArgmin d).2 = ⊤) ∨
      ∃ e ∈ d, dictArgmin d = (some e.1, e.2) ∧ e.2 ≠ ⊤) := by
  unfold dictArgmin
  induction d using List.reverseRecOn with
  | nil => simp
  | append_singleton d a ih =>
    simp only [List.foldl_append, List.foldl_cons, List.foldl_nil]
    set r := d.foldl (fun best e => if e.2 < best.2 then (some e.1, e.2) else best)
      ((none, ⊤) : Option ℕ × C)
    obtain ⟨h1, h2⟩ := ih
    by_cases ha : a.2 < r.2
    · rw [if_pos ha]
      refine ⟨fun e he => ?_, .inr ⟨a, by simp, rfl, ne_top_of_lt ha⟩⟩
      rcases List.mem_append.1 he with he | he
      · exact ha.le.trans (h1 e he)
      · rw [List.mem_singleton.1 he]
    · rw [if_neg ha]
      refine ⟨fun e he => ?_, ?_⟩
      · rcases List.mem_append.1 he with he | he
        · exact h1 e he
        · rw [List.mem_singleton.1 he]; exact not_lt.1 ha
      · rcases h2 with h2 | ⟨e, he, h2⟩
        · exact .inl h2
        · exact .inr ⟨e, by simp [he], h2⟩

/-- There is a path of the minimal length. -/
theorem exists_short_path : ∀ (n i j : ℕ), i + j = n → ∃ p, WP false p i j ∧ p.length = max i j + 1 := by
  intro n
  induction n using Nat.strong_induction_on with
  | _ n ih =>
    intro i j hn
    rcases i with _ | i <;> rcases j with _ | j
    · exact ⟨_, .start 0 (.inr rfl), rfl⟩
    · obtain ⟨p, hp, hl⟩ := ih (0+j) (by omega) 0 j rfl
      exact ⟨_, hp.right, by simp [hl]⟩
    · obtain ⟨p, hp, hl⟩ := ih (i+0) (by omega) i 0 rfl
      exact ⟨_, hp.down, by simp [hl]⟩
    · obtain ⟨p, hp, hl⟩ := ih (i+j) (by omega) i j rfl
      exact ⟨_, hp.diag, by simp [hl]⟩

/-- Value and path on a cost matrix. -/
theorem lwlCost_spec (L l1 l2 : ℕ) (D : ℕ → ℕ → K) (h1 : 0 < l1) (h2 : 0 < l2)
    (hL : max l1 l2 ≤ L) {am} (ham : IsArgmin3 am) :
    ∃ (w : K) (k : ℕ) (p : List (ℕ × ℕ)),
      IsLeast {c | ∃ q, IsWarpingPath l1 l2 q ∧ q.length ≤ L ∧ c = sumCost D q} w ∧
      dictMin (lwlCost L l1 l2 D (l1-1) (l2-1)) = .ok (w : WithTop K) ∧
      dictArgmin (lwlCost L l1 l2 D (l1-1) (l2-1)) = (some k, (w : WithTop K)) ∧
      lwlPathLoop am (lwlCost L l1 l2 D) (l1 + l2) (l1-1, l2-1) k [] = some p ∧
      IsWarpingPath l1 l2 p ∧ p.length ≤ L ∧ sumCost D p = w := by
  have h := lwlCost_isLwl L l1 l2 D
  set M := lwlCost L l1 l2 D
  obtain ⟨hne, hent⟩ := h.last_entries h1 h2 hL
  have hle : ∀ q, IsWarpingPath l1 l2 q → q.length ≤ L →
      ∃ e ∈ M (l1-1) (l2-1), e.2 ≤ ((sumCost D q : K) : WithTop K) := by
    intro q hq hql
    obtain ⟨i, j, hi, hj, hw⟩ := isWarpingPath_iff.1 hq
    obtain rfl : i = l1 - 1 := by omega
    obtain rfl : j = l2 - 1 := by omega
    have := h.le_cost hw (by omega) (by omega) (by omega)
    have hfin : CostDict.get (M (l1-1) (l2-1)) (q.length - 1) ≠ ⊤ := ne_top_of_le_ne_top (by simp) this
    exact ⟨_, get_mem hfin, this⟩
  obtain ⟨m, hm, ⟨e0, he0, hme⟩, hmin⟩ := dictMin_spec hne
  obtain ⟨hamin, hacase⟩ := dictArgmin_spec (M (l1-1) (l2-1))
  obtain ⟨p0, hp0, hl0⟩ := exists_short_path (l1 - 1 + (l2 - 1)) (l1-1) (l2-1) rfl
  obtain ⟨e1, he1, hle1⟩ := hle p0 (isWarpingPath_iff.2 ⟨_, _, by omega, by omega, hp0⟩) (by omega)
  have hmtop : m ≠ ⊤ := ne_top_of_le_ne_top (by simp) ((hmin e1 he1).trans hle1)
  rcases hacase with ⟨-, htop⟩ | ⟨e, he, hae, hetop⟩
  · exfalso
    apply hmtop
    rw [← hme]
    exact top_le_iff.1 (htop ▸ hamin e0 he0)
  · have hem : e.2 = m := by
      apply le_antisymm
      · have := hamin e0 he0
        rw [hae, hme] at this
        exact this
      · exact hmin e he
    have hg := hent e he
    obtain ⟨p, hp, hpl, hpc, hpath⟩ := h.traceback ham (l1 - 1 + (l2 - 1)) (l1-1) (l2-1) (l1 + l2) e.1 []
      rfl (by omega) (by omega) (by omega) (by rw [hg.1]; exact hetop)
    have hpw : IsWarpingPath l1 l2 p := isWarpingPath_iff.2 ⟨_, _, by omega, by omega, hp⟩
    have hpm : ((sumCost D p : K) : WithTop K) = m := by rw [hpc, hg.1, hem]
    refine ⟨sumCost D p, e.1, p, ⟨⟨p, hpw, by omega, rfl⟩, ?_⟩, by rw [hm, hpm],
      by rw [hae, hem, hpm], by simpa using hpath, hpw, by omega, rfl⟩
    rintro c ⟨q, hq, hql, rfl⟩
    obtain ⟨e', he', hle'⟩ := hle q hq hql
    rw [← WithTop.coe_le_coe, hpm]
    exact (hmin e' he').trans hle'
end
end Verif
