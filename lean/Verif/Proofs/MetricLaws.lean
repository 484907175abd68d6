import Verif.Proofs.Reverse
import Verif.Proofs.LimitedWarping
import Verif.Spec.Runs
/-!
Composition of warping paths, zero-cost warping paths, and the Euclidean triangle inequality on lists.
-/
set_option linter.unusedSectionVars false
namespace Verif
open Spec

/-- Two warping paths sharing a series compose: every pair of the result goes through a sample of the
shared series. -/
theorem WP.compose {p q : List (ℕ × ℕ)} {i j k : ℕ} (hp : WP false p i j) (hq : WP false q j k) :
    ∃ r, WP false r i k ∧ ∀ c ∈ r, ∃ l, (c.1, l) ∈ p ∧ (l, c.2) ∈ q := by
  have ext : ∀ {p q p' q' r : List (ℕ × ℕ)} {a b l : ℕ}, (∀ c ∈ p', c ∈ p) → (∀ c ∈ q', c ∈ q) →
      (∀ c ∈ r, ∃ l, (c.1, l) ∈ p' ∧ (l, c.2) ∈ q') → (a, l) ∈ p → (l, b) ∈ q →
      ∀ c ∈ r ++ [(a, b)], ∃ l, (c.1, l) ∈ p ∧ (l, c.2) ∈ q := by
    intro p q p' q' r a b l h1 h2 h3 h4 h5 c hc
    rcases List.mem_append.1 hc with hc | hc
    · obtain ⟨l, ha, hb⟩ := h3 c hc
      exact ⟨l, h1 _ ha, h2 _ hb⟩
    · rw [List.mem_singleton] at hc
      subst hc
      exact ⟨l, h4, h5⟩
  have app : ∀ {p : List (ℕ × ℕ)} {c : ℕ × ℕ}, ∀ d ∈ p, d ∈ p ++ [c] := by
    intro p c d hd; simp [hd]
  induction hs : p.length + q.length using Nat.strong_induction_on generalizing p q i j k with
  | _ s ih =>
    cases hp with
    | @down p i j hp' =>
      obtain ⟨r, hr, hv⟩ := ih (p.length + q.length) (by simp at hs; omega) hp' hq rfl
      exact ⟨_, hr.down, ext app (fun _ h => h) hv (by simp) (List.mem_of_getLast? hq.getLast)⟩
    | start j0 h0 =>
      obtain rfl : j = 0 := by simpa using h0
      cases hq with
      | start k0 hk =>
        obtain rfl : k = 0 := by simpa using hk
        exact ⟨[(0, 0)], .start 0 (by simp), by simp⟩
      | @right q j k hq' =>
        obtain ⟨r, hr, hv⟩ := ih (1 + q.length) (by simp at hs; omega) (.start 0 h0) hq' rfl
        exact ⟨_, hr.right, ext (fun _ h => h) app hv (List.mem_singleton.2 rfl) (by simp)⟩
    | @right p i j hp' =>
      have hlast : (i, j + 1) ∈ p ++ [(i, j + 1)] := by simp
      cases hq with
      | @right q j' k hq' =>
        obtain ⟨r, hr, hv⟩ := ih ((p ++ [(i, j + 1)]).length + q.length) (by simp at hs ⊢; omega)
          hp'.right hq' rfl
        exact ⟨_, hr.right, ext (fun _ h => h) app hv hlast (by simp)⟩
      | @down q j' k hq' =>
        obtain ⟨r, hr, hv⟩ := ih (p.length + q.length) (by simp at hs; omega) hp' hq' rfl
        refine ⟨r, hr, fun c hc => ?_⟩
        obtain ⟨l, h1, h2⟩ := hv c hc
        exact ⟨l, app _ h1, app _ h2⟩
      | @diag q j' k hq' =>
        obtain ⟨r, hr, hv⟩ := ih (p.length + q.length) (by simp at hs; omega) hp' hq' rfl
        exact ⟨_, hr.right, ext app app hv hlast (by simp)⟩
    | @diag p i j hp' =>
      have hlast : (i + 1, j + 1) ∈ p ++ [(i + 1, j + 1)] := by simp
      cases hq with
      | @right q j' k hq' =>
        obtain ⟨r, hr, hv⟩ := ih ((p ++ [(i + 1, j + 1)]).length + q.length) (by simp at hs ⊢; omega)
          hp'.diag hq' rfl
        exact ⟨_, hr.right, ext (fun _ h => h) app hv hlast (by simp)⟩
      | @down q j' k hq' =>
        obtain ⟨r, hr, hv⟩ := ih (p.length + q.length) (by simp at hs; omega) hp' hq' rfl
        exact ⟨_, hr.down, ext app app hv hlast (by simp)⟩
      | @diag q j' k hq' =>
        obtain ⟨r, hr, hv⟩ := ih (p.length + q.length) (by simp at hs; omega) hp' hq' rfl
        exact ⟨_, hr.diag, ext app app hv hlast (by simp)⟩

/-- Euclidean triangle inequality for vectors of one length. -/
theorem sqrt_sqEuclid_triangle (u v w : List ℝ) (h1 : u.length = v.length) (h2 : v.length = w.length) :
    Real.sqrt (sqEuclid u w) ≤ Real.sqrt (sqEuclid u v) + Real.sqrt (sqEuclid v w) := by
  induction u generalizing v w with
  | nil => simp [sqEuclid]
  | cons a u ih =>
    cases v with
    | nil => simp at h1
    | cons b v =>
      cases w with
      | nil => simp at h2
      | cons c w =>
        have h := ih v w (by simpa using h1) (by simpa using h2)
        have eq : ∀ (a b : ℝ) (u v : List ℝ), sqEuclid (a :: u) (b :: v) = (a - b) ^ 2 + sqEuclid u v := by
          intro a b u v; simp [sqEuclid]
        rw [eq, eq, eq]
        have hA := sqEuclid_nonneg u v
        have hB := sqEuclid_nonneg v w
        have hC := sqEuclid_nonneg u w
        obtain ⟨A, hA0, eA⟩ : ∃ A : ℝ, 0 ≤ A ∧ sqEuclid u v = A ^ 2 :=
          ⟨_, Real.sqrt_nonneg _, (Real.sq_sqrt hA).symm⟩
        obtain ⟨B, hB0, eB⟩ : ∃ B : ℝ, 0 ≤ B ∧ sqEuclid v w = B ^ 2 :=
          ⟨_, Real.sqrt_nonneg _, (Real.sq_sqrt hB).symm⟩
        obtain ⟨C, hC0, eC⟩ : ∃ C : ℝ, 0 ≤ C ∧ sqEuclid u w = C ^ 2 :=
          ⟨_, Real.sqrt_nonneg _, (Real.sq_sqrt hC).symm⟩
        rw [eA, eB, eC] at h
        rw [eA, eB, eC]
        rw [Real.sqrt_sq hA0, Real.sqrt_sq hB0, Real.sqrt_sq hC0] at h
        have hx : 0 ≤ (a - b) ^ 2 + A ^ 2 := by positivity
        have hy : 0 ≤ (b - c) ^ 2 + B ^ 2 := by positivity
        rw [Real.sqrt_le_left (by positivity), add_sq, Real.sq_sqrt hx, Real.sq_sqrt hy, mul_assoc,
          ← Real.sqrt_mul hx]
        have hkey : (a - b) * (b - c) + A * B ≤ Real.sqrt (((a - b) ^ 2 + A ^ 2) * ((b - c) ^ 2 + B ^ 2)) := by
          apply Real.le_sqrt_of_sq_le
          nlinarith [sq_nonneg ((a - b) * B - (b - c) * A)]
        nlinarith [mul_nonneg hA0 hB0]

section
variable {K : Type} [CommRing K] [LinearOrder K] [IsStrictOrderedRing K]

theorem sqEuclid_eq_zero_iff (u v : List K) (h : u.length = v.length) : sqEuclid u v = 0 ↔ u = v := by
  constructor
  · intro h0
    induction u generalizing v with
    | nil => exact (List.length_eq_zero_iff.1 h.symm).symm
    | cons a u ih =>
      cases v with
      | nil => simp at h
      | cons b v =>
        have e : sqEuclid (a :: u) (b :: v) = (a - b) ^ 2 + sqEuclid u v := by simp [sqEuclid]
        rw [e] at h0
        have h1 := sq_nonneg (a - b)
        have h2 := sqEuclid_nonneg u v
        have h3 : (a - b) ^ 2 = 0 := by linarith
        have h4 : sqEuclid u v = 0 := by linarith
        rw [ih v (by simpa using h) h4, sub_eq_zero.1 (pow_eq_zero_iff (two_ne_zero) |>.1 h3)]
  · rintro rfl
    exact sqEuclid_self _

theorem sumCost_eq_zero_iff {d : ℕ → ℕ → K} (hd : ∀ i j, 0 ≤ d i j) (p : List (ℕ × ℕ)) :
    sumCost d p = 0 ↔ ∀ c ∈ p, d c.1 c.2 = 0 := by
  induction p with
  | nil => simp [sumCost]
  | cons c p ih =>
    have h1 := hd c.1 c.2
    have h2 := sumCost_nonneg hd p
    have e : sumCost d (c :: p) = d c.1 c.2 + sumCost d p := by simp [sumCost]
    rw [e, List.forall_mem_cons, ← ih]
    constructor
    · intro h; exact ⟨by linarith, by linarith⟩
    · rintro ⟨h3, h4⟩; rw [h3, h4, add_zero]

end

section
variable {α : Type} [DecidableEq α]

theorem squeeze_cons_head (a : α) (l : List α) : (squeeze (a :: l)).head? = some a := by
  induction l generalizing a with
  | nil => rfl
  | cons b l ih =>
    rw [squeeze]
    split_ifs with h
    · rw [h]; exact ih b
    · rfl

theorem squeeze_cons_ne (a : α) (l : List α) : squeeze (a :: l) ≠ [] := by
  intro h
  have := squeeze_cons_head a l
  simp [h] at this

/-- Along a chain of pairs of equal samples the squeezed remainders agree. -/
theorem squeeze_of_chain (x y : List α) (c : ℕ × ℕ) (p : List (ℕ × ℕ))
    (hc : List.IsChain WStep (c :: p)) (hl : (c :: p).getLast? = some (x.length - 1, y.length - 1))
    (hx : 0 < x.length) (hy : 0 < y.length)
    (he : ∀ d ∈ c :: p, d.1 < x.length ∧ d.2 < y.length ∧ x[d.1]? = y[d.2]?) :
    squeeze (x.drop c.1) = squeeze (y.drop c.2) := by
  induction p generalizing c with
  | nil =>
    obtain rfl : c = (x.length - 1, y.length - 1) := by simpa using hl
    have h := (he _ (List.mem_singleton.2 rfl)).2.2
    simp only at h ⊢
    rw [List.drop_eq_getElem_cons (by omega : x.length - 1 < x.length),
      List.drop_eq_getElem_cons (by omega : y.length - 1 < y.length),
      List.drop_eq_nil_of_le (by omega), List.drop_eq_nil_of_le (by omega)]
    rw [List.getElem?_eq_getElem (by omega), List.getElem?_eq_getElem (by omega), Option.some.injEq] at h
    simp [squeeze, h]
  | cons d p ih =>
    have ih := ih d (List.isChain_cons_cons.1 hc).2 (by simpa using hl) fun e h => he e (by simp [h])
    have hcd : WStep c d := (List.isChain_cons_cons.1 hc).1
    obtain ⟨hc1, hc2, ec⟩ := he c (by simp)
    obtain ⟨hd1, hd2, ed⟩ := he d (by simp)
    rw [List.getElem?_eq_getElem (by omega), List.getElem?_eq_getElem (by omega), Option.some.injEq] at ec ed
    rcases hcd with rfl | rfl | rfl
    · simp only at ed hd1 ih
      rw [← ih, List.drop_eq_getElem_cons hc1, List.drop_eq_getElem_cons hd1, squeeze,
        if_pos (by rw [ec, ed])]
    · simp only at ed hd2 ih
      rw [ih, List.drop_eq_getElem_cons hc2, List.drop_eq_getElem_cons hd2, squeeze,
        if_pos (by rw [← ec, ed])]
    · simp only at ed hd1 hd2 ih
      rw [List.drop_eq_getElem_cons hd1, List.drop_eq_getElem_cons hd2] at ih
      rw [List.drop_eq_getElem_cons hc1, List.drop_eq_getElem_cons hd1, List.drop_eq_getElem_cons hc2,
        List.drop_eq_getElem_cons hd2, squeeze, squeeze, ec, ed]
      rw [ed] at ih
      rw [ih]

/-- Prepending a first pair to a path of the remainders. -/
theorem isWarpingPath_cons {n m a b : ℕ} {p : List (ℕ × ℕ)} (h : IsWarpingPath n m p)
    (hab : WStep (0, 0) (a, b)) :
    IsWarpingPath (n + a) (m + b) ((0, 0) :: p.map fun c => (c.1 + a, c.2 + b)) := by
  obtain ⟨i, j, hl, hi, hj⟩ := h.ends
  cases p with
  | nil => simpa using h.starts
  | cons c p =>
    obtain rfl : c = (0, 0) := by simpa using h.starts
    refine ⟨rfl, ⟨i + a, j + b, ?_, by omega, by omega⟩, ?_⟩
    · rw [List.map_cons, List.getLast?_cons_cons, ← List.map_cons (f := fun c : ℕ × ℕ => (c.1 + a, c.2 + b)),
        List.getLast?_map, hl]
      rfl
    · rw [List.map_cons, List.isChain_cons_cons]
      refine ⟨by simpa using hab, ?_⟩
      rw [← List.map_cons (f := fun c : ℕ × ℕ => (c.1 + a, c.2 + b)), List.isChain_map]
      refine h.steps.imp fun c d hcd => ?_
      rcases hcd with rfl | rfl | rfl <;> simp only [WStep, Prod.mk.injEq, and_true, true_and] <;> omega

/-- Series with the same squeezed form are aligned by a path of equal samples. -/
theorem exists_path_of_squeeze (x y : List α) (hx : x ≠ []) (hy : y ≠ []) (h : squeeze x = squeeze y) :
    ∃ p, IsWarpingPath x.length y.length p ∧ ∀ c ∈ p, x[c.1]? = y[c.2]? := by
  have key : ∀ (n : ℕ) (x y : List α), x.length + y.length = n → x ≠ [] → y ≠ [] → squeeze x = squeeze y →
      ∃ p, IsWarpingPath x.length y.length p ∧ ∀ c ∈ p, x[c.1]? = y[c.2]? := by
    intro n
    induction n using Nat.strong_induction_on with
    | _ n ih =>
      intro x y hn hx hy h
      obtain ⟨a, x, rfl⟩ := List.exists_cons_of_ne_nil hx
      obtain ⟨b, y, rfl⟩ := List.exists_cons_of_ne_nil hy
      obtain rfl : a = b := by
        have h1 := squeeze_cons_head a x
        rw [h, squeeze_cons_head b y] at h1
        exact (Option.some.inj h1).symm
      have down : ∀ c x', x = c :: x' → a = c → ∃ p, IsWarpingPath (a :: x).length (a :: y).length p ∧
          ∀ c ∈ p, (a :: x)[c.1]? = (a :: y)[c.2]? := by
        rintro c x' rfl rfl
        obtain ⟨p, hp, he⟩ := ih ((a :: x').length + (a :: y).length) (by simp at hn ⊢; omega)
          (a :: x') (a :: y) rfl (by simp) hy (by rw [← h, squeeze, if_pos rfl])
        refine ⟨_, isWarpingPath_cons (a := 1) (b := 0) hp (Or.inl rfl), fun e hem => ?_⟩
        rcases List.mem_cons.1 hem with rfl | hem
        · rfl
        · obtain ⟨e', he', rfl⟩ := List.mem_map.1 hem
          simpa using he e' he'
      cases x with
      | nil =>
        cases y with
        | nil => exact ⟨[(0, 0)], ⟨rfl, ⟨0, 0, rfl, rfl, rfl⟩, by simp⟩, by simp⟩
        | cons d y =>
          by_cases had : a = d
          · subst had
            obtain ⟨p, hp, he⟩ := ih ([a].length + (a :: y).length) (by simp at hn ⊢; omega)
              [a] (a :: y) rfl (by simp) (by simp) (by rw [h, squeeze, if_pos rfl])
            refine ⟨_, isWarpingPath_cons (a := 0) (b := 1) hp (Or.inr (Or.inl rfl)), fun e hem => ?_⟩
            rcases List.mem_cons.1 hem with rfl | hem
            · rfl
            · obtain ⟨e', he', rfl⟩ := List.mem_map.1 hem
              simpa using he e' he'
          · rw [squeeze, squeeze, if_neg had] at h
            exact absurd (List.cons.inj h).2.symm (squeeze_cons_ne d y)
      | cons c x =>
        by_cases hac : a = c
        · exact down c x rfl hac
        · cases y with
          | nil =>
            rw [squeeze, squeeze, if_neg hac] at h
            exact absurd (List.cons.inj h).2 (squeeze_cons_ne c x)
          | cons d y =>
            by_cases had : a = d
            · subst had
              obtain ⟨p, hp, he⟩ := ih ((a :: c :: x).length + (a :: y).length) (by simp at hn ⊢; omega)
                (a :: c :: x) (a :: y) rfl (by simp) (by simp)
                (by rw [h, squeeze, if_pos rfl])
              refine ⟨_, isWarpingPath_cons (a := 0) (b := 1) hp (Or.inr (Or.inl rfl)), fun e hem => ?_⟩
              rcases List.mem_cons.1 hem with rfl | hem
              · rfl
              · obtain ⟨e', he', rfl⟩ := List.mem_map.1 hem
                simpa using he e' he'
            · rw [squeeze, squeeze, if_neg hac, if_neg had] at h
              obtain ⟨p, hp, he⟩ := ih ((c :: x).length + (d :: y).length) (by simp at hn ⊢; omega)
                (c :: x) (d :: y) rfl (by simp) (by simp) (List.cons.inj h).2
              refine ⟨_, isWarpingPath_cons (a := 1) (b := 1) hp (Or.inr (Or.inr rfl)), fun e hem => ?_⟩
              rcases List.mem_cons.1 hem with rfl | hem
              · rfl
              · obtain ⟨e', he', rfl⟩ := List.mem_map.1 hem
                simpa using he e' he'
  exact key _ x y rfl hx hy h

/-- Series aligned by a path of equal samples have the same squeezed form. -/
theorem squeeze_of_path (x y : List α) (p : List (ℕ × ℕ)) (hp : IsWarpingPath x.length y.length p)
    (he : ∀ c ∈ p, x[c.1]? = y[c.2]?) : squeeze x = squeeze y := by
  obtain ⟨i, j, hl, hi, hj⟩ := hp.ends
  cases p with
  | nil => simpa using hp.starts
  | cons c p =>
    obtain rfl : c = (0, 0) := by simpa using hp.starts
    have := squeeze_of_chain x y (0, 0) p hp.steps
      (by rw [hl]; congr 2 <;> omega) (by omega) (by omega)
      fun d hd => ⟨(hp.lt d hd).1, (hp.lt d hd).2, he d hd⟩
    simpa using this

end

end Verif
