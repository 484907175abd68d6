import Verif.Proofs.MetricLaws
import Verif.Proofs.Masks
import Verif.Spec.Stretch
import Verif.Spec.Cost
import Verif.Spec.Matching
import Mathlib.Tactic.Linarith
import Mathlib.Tactic.Ring
import Mathlib.Data.List.GetD
/-!
Paths of concatenated series, and alignments of series with repeated samples.
-/
set_option linter.unusedSectionVars false
namespace Verif
open Spec

/-- A path of the second pieces continued after a path of the first pieces of lengths `n`, `m`. -/
def catPath (n m : ℕ) (p q : List (ℕ × ℕ)) : List (ℕ × ℕ) := p ++ q.map fun c => (c.1 + n, c.2 + m)

theorem catPath_isWarpingPath {n m n' m' : ℕ} {p q : List (ℕ × ℕ)} (hp : IsWarpingPath n m p)
    (hq : IsWarpingPath n' m' q) : IsWarpingPath (n + n') (m + m') (catPath n m p q) := by
  obtain ⟨i, j, hl, hi, hj⟩ := hp.ends
  obtain ⟨i', j', hl', hi', hj'⟩ := hq.ends
  have hpn : p ≠ [] := by rintro rfl; simp at hl
  have hqn : q ≠ [] := by rintro rfl; simp at hl'
  refine ⟨?_, ⟨i' + n, j' + m, ?_, by omega, by omega⟩, ?_⟩
  · cases p with
    | nil => exact absurd rfl hpn
    | cons c p => simpa [catPath] using hp.starts
  · rw [catPath, List.getLast?_append, List.getLast?_map, hl']
    rfl
  · rw [catPath, List.isChain_append]
    refine ⟨hp.steps, ?_, ?_⟩
    · rw [List.isChain_map]
      refine hq.steps.imp fun a b hab => ?_
      rcases hab with rfl | rfl | rfl
      · exact .inl (by simp; omega)
      · exact .inr (.inl (by simp; omega))
      · exact .inr (.inr (by simp; omega))
    · intro a ha b hb
      rw [hl] at ha
      rw [List.head?_map, hq.starts] at hb
      simp only [Option.mem_def, Option.some.injEq, Option.map_some] at ha hb
      subst ha hb
      exact .inr (.inr (by simp; omega))

theorem catPath_inj {n m : ℕ} {p q p' q' : List (ℕ × ℕ)} (hp : IsWarpingPath n m p)
    (hp' : IsWarpingPath n m p') (h : catPath n m p q = catPath n m p' q') : p = p' ∧ q = q' := by
  have key : ∀ p q : List (ℕ × ℕ), IsWarpingPath n m p → (catPath n m p q).filter (fun c => c.1 < n) = p := by
    intro p q hp
    rw [catPath, List.filter_append, List.filter_eq_self.2, List.filter_eq_nil_iff.2, List.append_nil]
    · simp only [List.mem_map]
      rintro c ⟨d, _, rfl⟩
      simp
    · intro c hc
      simpa using (hp.mem_lt c hc).1
  have e : p = p' := by rw [← key p q hp, ← key p' q' hp', h]
  subst e
  refine ⟨rfl, ?_⟩
  unfold catPath at h
  refine List.map_injective_iff.2 ?_ (List.append_cancel_left h)
  rintro ⟨a, b⟩ ⟨c, d⟩ hab
  simp only [Prod.mk.injEq] at hab ⊢
  omega

section cost
variable {α : Type} [Inhabited α]

theorem getD_append_cell {K : Type} {A : Type} (d : A → A → K) (z : A) (x y x' y' : List A) (n m : ℕ) (hn : x.length = n)
    (hm : y.length = m) (c : ℕ × ℕ) :
    (c.1 < n → c.2 < m → d ((x ++ x').getD c.1 z) ((y ++ y').getD c.2 z) = d (x.getD c.1 z) (y.getD c.2 z)) ∧
    d ((x ++ x').getD (c.1 + n) z) ((y ++ y').getD (c.2 + m) z) = d (x'.getD c.1 z) (y'.getD c.2 z) := by
  subst hn hm
  refine ⟨fun h1 h2 => ?_, ?_⟩
  · rw [List.getD_append _ _ _ _ h1, List.getD_append _ _ _ _ h2]
  · rw [List.getD_append_right _ _ _ _ (by omega), List.getD_append_right _ _ _ _ (by omega)]
    simp

end cost

section sums
variable {K : Type} [CommRing K]

theorem sumCost_app (d : ℕ → ℕ → K) (p q : List (ℕ × ℕ)) : sumCost d (p ++ q) = sumCost d p + sumCost d q := by
  simp [sumCost]

theorem sumCost_catPath (x y x' y' : List (List K)) {p q : List (ℕ × ℕ)}
    (hp : IsWarpingPath x.length y.length p) :
    sumCost (sampleCost (x ++ x') (y ++ y')) (catPath x.length y.length p q) =
      sumCost (sampleCost x y) p + sumCost (sampleCost x' y') q := by
  rw [catPath, sumCost_app]
  congr 1
  · unfold sumCost
    congr 1
    refine List.map_congr_left fun c hc => ?_
    have := hp.mem_lt c hc
    exact (getD_append_cell sqEuclid [] x y x' y' _ _ rfl rfl c).1 this.1 this.2
  · unfold sumCost
    rw [List.map_map]
    congr 1
    refine List.map_congr_left fun c _ => ?_
    exact (getD_append_cell sqEuclid [] x y x' y' _ _ rfl rfl c).2

end sums

section align
variable {K : Type} [CommRing K] [LinearOrder K] [IsStrictOrderedRing K]

/-- Alignments built from the front, with their cost. -/
inductive Al : List (List K) → List (List K) → K → Prop
  | single (a b) : Al [a] [b] (sqEuclid a b)
  | down {a b x y c} : Al x (b :: y) c → Al (a :: x) (b :: y) (sqEuclid a b + c)
  | right {a b x y c} : Al (a :: x) y c → Al (a :: x) (b :: y) (sqEuclid a b + c)
  | diag {a b x y c} : Al x y c → Al (a :: x) (b :: y) (sqEuclid a b + c)

theorem sumCost_shift (a b : List K) (x y : List (List K)) (s t : ℕ) (x' y' : List (List K))
    (hx : ∀ i, x'.getD i [] = (a :: x).getD (i + s) []) (hy : ∀ i, y'.getD i [] = (b :: y).getD (i + t) [])
    (p : List (ℕ × ℕ)) :
    sumCost (sampleCost (a :: x) (b :: y)) ((0, 0) :: p.map fun c => (c.1 + s, c.2 + t)) =
      sqEuclid a b + sumCost (sampleCost x' y') p := by
  simp only [sumCost, List.map_cons, List.sum_cons, List.map_map]
  congr 1
  congr 1
  refine List.map_congr_left fun c _ => ?_
  simp only [Function.comp_apply, sampleCost, hx, hy]

theorem Al.path {x y : List (List K)} {c : K} (h : Al x y c) :
    ∃ p, IsWarpingPath x.length y.length p ∧ sumCost (sampleCost x y) p = c := by
  induction h with
  | single a b =>
    exact ⟨[(0, 0)], ⟨rfl, ⟨0, 0, rfl, rfl, rfl⟩, by simp⟩, by simp [sumCost, sampleCost]⟩
  | @down a b x y c _ ih =>
    obtain ⟨p, hp, rfl⟩ := ih
    exact ⟨_, isWarpingPath_cons hp (a := 1) (b := 0) (.inl rfl),
      sumCost_shift a b x y 1 0 x (b :: y) (by simp) (by simp) p⟩
  | @right a b x y c _ ih =>
    obtain ⟨p, hp, rfl⟩ := ih
    exact ⟨_, isWarpingPath_cons hp (a := 0) (b := 1) (.inr (.inl rfl)),
      sumCost_shift a b x y 0 1 (a :: x) y (by simp) (by simp) p⟩
  | @diag a b x y c _ ih =>
    obtain ⟨p, hp, rfl⟩ := ih
    exact ⟨_, isWarpingPath_cons hp (a := 1) (b := 1) (.inr (.inr rfl)),
      sumCost_shift a b x y 1 1 x y (by simp) (by simp) p⟩

theorem Al.of_chain (x y : List (List K)) (p : List (ℕ × ℕ)) (c : ℕ × ℕ)
    (hc : List.IsChain WStep (c :: p)) (hl : (c :: p).getLast? = some (x.length - 1, y.length - 1))
    (hb : ∀ d ∈ c :: p, d.1 < x.length ∧ d.2 < y.length) :
    Al (x.drop c.1) (y.drop c.2) (sumCost (sampleCost x y) (c :: p)) := by
  induction p generalizing c with
  | nil =>
    have h0 := hb c (by simp)
    simp only [List.getLast?_singleton, Option.some.injEq] at hl
    subst hl
    have e1 : x.drop (x.length - 1) = [x.getD (x.length - 1) []] := by
      rw [List.drop_eq_getElem_cons h0.1, List.getD_eq_getElem _ _ h0.1, List.drop_eq_nil_of_le (by omega)]
    have e2 : y.drop (y.length - 1) = [y.getD (y.length - 1) []] := by
      rw [List.drop_eq_getElem_cons h0.2, List.getD_eq_getElem _ _ h0.2, List.drop_eq_nil_of_le (by omega)]
    simp only [e1, e2]
    have := Al.single (x.getD (x.length - 1) []) (y.getD (y.length - 1) [])
    simpa [sumCost, sampleCost] using this
  | cons d p ih =>
    have h0 := hb c (by simp)
    have h1 := hb d (by simp)
    rw [List.isChain_cons_cons] at hc
    have IH := ih d hc.2 (by simpa using hl) fun e he => hb e (by simp [he])
    have e : sumCost (sampleCost x y) (c :: d :: p) =
        sqEuclid x[c.1] y[c.2] + sumCost (sampleCost x y) (d :: p) := by
      simp [sumCost, sampleCost, h0]
    rw [e, List.drop_eq_getElem_cons h0.1, List.drop_eq_getElem_cons h0.2]
    rcases hc.1 with rfl | rfl | rfl
    · rw [List.drop_eq_getElem_cons h0.2] at IH
      exact .down IH
    · rw [List.drop_eq_getElem_cons h0.1] at IH
      exact .right IH
    · exact .diag IH

theorem al_iff (x y : List (List K)) (c : K) :
    Al x y c ↔ ∃ p, IsWarpingPath x.length y.length p ∧ sumCost (sampleCost x y) p = c := by
  refine ⟨Al.path, ?_⟩
  rintro ⟨p, hp, rfl⟩
  obtain ⟨i, j, hl, hi, hj⟩ := hp.ends
  cases p with
  | nil => simpa using hp.starts
  | cons d p =>
    obtain rfl : d = (0, 0) := by simpa using hp.starts
    have := Al.of_chain x y p (0, 0) hp.steps (by rw [hl]; simp; omega) fun e he => hp.mem_lt e he
    simpa using this

theorem sqEuclid_swap (u v : List K) : sqEuclid u v = sqEuclid v u := by
  unfold sqEuclid
  rw [← List.zip_swap, List.map_map]
  congr 1
  refine List.map_congr_left fun c _ => ?_
  simp only [Function.comp_apply, Prod.fst_swap, Prod.snd_swap]
  ring

theorem Al.symm {x y : List (List K)} {c : K} (h : Al x y c) : Al y x c := by
  induction h with
  | single a b => rw [sqEuclid_swap]; exact .single b a
  | down _ ih => rw [sqEuclid_swap]; exact .right ih
  | right _ ih => rw [sqEuclid_swap]; exact .down ih
  | diag _ ih => rw [sqEuclid_swap]; exact .diag ih

theorem Al.ne {x y : List (List K)} {c : K} (h : Al x y c) : x ≠ [] ∧ y ≠ [] := by
  cases h <;> simp

theorem sqEuclid_nn (u v : List K) : 0 ≤ sqEuclid u v :=
  List.sum_nonneg (by simp only [List.mem_map]; rintro _ ⟨c, _, rfl⟩; exact sq_nonneg _)

theorem Al.nonneg {x y : List (List K)} {c : K} (h : Al x y c) : 0 ≤ c := by
  induction h with
  | single a b => exact sqEuclid_nn a b
  | down _ ih => exact add_nonneg (sqEuclid_nn _ _) ih
  | right _ ih => exact add_nonneg (sqEuclid_nn _ _) ih
  | diag _ ih => exact add_nonneg (sqEuclid_nn _ _) ih

/-- What a stretched series looks like at its front. -/
theorem Spec.Stretched.front {α : Type} {k : ℕ} {x : List α} {a : α} {y : List α} (h : Stretched k x (a :: y)) :
    ∃ x0, x = a :: x0 ∧ (Stretched k x0 y ∨ Stretched k (a :: x0) y) := by
  generalize hz : a :: y = z at h
  cases h with
  | nil => simp at hz
  | @cons a' r x0 y0 h1 h2 h3 =>
    obtain ⟨r, rfl⟩ : ∃ s, r = s + 1 := ⟨r - 1, by omega⟩
    simp only [List.replicate_succ, List.cons_append, List.cons.injEq] at hz
    obtain ⟨rfl, rfl⟩ := hz
    refine ⟨x0, rfl, ?_⟩
    rcases Nat.eq_zero_or_pos r with rfl | hr
    · exact .inl (by simpa using h3)
    · exact .inr (.cons a r hr (by omega) h3)

theorem Al.unstretch {k : ℕ} {x' y : List (List K)} {c' : K} (h : Al x' y c') :
    ∀ {x}, Stretched k x x' → ∃ c, Al x y c ∧ c ≤ c' := by
  induction h with
  | single a b =>
    intro x hx
    obtain ⟨x0, rfl, h | h⟩ := hx.front
    · generalize hz : ([] : List (List K)) = z at h
      cases h with
      | nil => exact ⟨_, .single a b, le_rfl⟩
      | cons a' r h1 => simp at hz; omega
    · generalize hz : ([] : List (List K)) = z at h
      cases h with
      | cons a' r h1 => simp at hz; omega
  | @down a b x' y c _ ih =>
    intro x hx
    obtain ⟨x0, rfl, h | h⟩ := hx.front
    · obtain ⟨c1, h1, h2⟩ := ih h
      exact ⟨_, .down h1, by linarith⟩
    · obtain ⟨c1, h1, h2⟩ := ih h
      exact ⟨_, h1, by linarith [sqEuclid_nn a b]⟩
  | @right a b x' y c _ ih =>
    intro x hx
    obtain ⟨c1, h1, h2⟩ := ih hx
    obtain ⟨x0, rfl, -⟩ := hx.front
    exact ⟨_, .right h1, by linarith⟩
  | @diag a b x' y c _ ih =>
    intro x hx
    obtain ⟨x0, rfl, h | h⟩ := hx.front
    · obtain ⟨c1, h1, h2⟩ := ih h
      exact ⟨_, .diag h1, by linarith⟩
    · obtain ⟨c1, h1, h2⟩ := ih h
      exact ⟨_, .right h1, by linarith⟩

theorem Al.downs {a b : List K} {x y : List (List K)} {c : K} (r : ℕ) (h : Al x (b :: y) c) :
    Al (List.replicate r a ++ x) (b :: y) (r * sqEuclid a b + c) := by
  induction r with
  | zero => simpa using h
  | succ r ih =>
    have := Al.down (a := a) ih
    rw [List.replicate_succ, List.cons_append]
    convert this using 1
    push_cast
    ring

theorem Al.stretch {k : ℕ} {x y : List (List K)} {c : K} (h : Al x y c) :
    ∀ {x'}, Stretched k x x' → ∃ c', Al x' y c' ∧ c' ≤ k * c := by
  have cast : ∀ {r s : ℕ}, r ≤ s → (r : K) ≤ s := fun h => Nat.cast_le.2 h
  induction h with
  | single a b =>
    intro x' hx
    cases hx with
    | @cons _ r _ y0 h1 h2 h3 =>
      cases h3
      obtain ⟨r, rfl⟩ : ∃ s, r = s + 1 := ⟨r - 1, by omega⟩
      have := Al.downs (a := a) r (Al.single a b)
      rw [← List.replicate_succ'] at this
      refine ⟨_, by simpa using this, ?_⟩
      have h4 := mul_le_mul_of_nonneg_right (cast h2) (sqEuclid_nn a b)
      push_cast at h4
      linarith
  | @down a b x y c _ ih =>
    intro x' hx
    cases hx with
    | @cons _ r _ y0 h1 h2 h3 =>
      obtain ⟨c1, h4, h5⟩ := ih h3
      refine ⟨_, h4.downs r, ?_⟩
      have h6 := mul_le_mul_of_nonneg_right (cast h2) (sqEuclid_nn a b)
      linarith
  | @right a b x y c _ ih =>
    intro x' hx
    obtain ⟨c1, h4, h5⟩ := ih hx
    cases hx with
    | @cons _ r _ y0 h1 h2 h3 =>
      obtain ⟨r, rfl⟩ : ∃ s, r = s + 1 := ⟨r - 1, by omega⟩
      refine ⟨_, Al.right (b := b) h4, ?_⟩
      have h6 := mul_le_mul_of_nonneg_right (cast (h1.trans h2)) (sqEuclid_nn a b)
      push_cast at h6
      linarith
  | @diag a b x y c _ ih =>
    intro x' hx
    cases hx with
    | @cons _ r _ y0 h1 h2 h3 =>
      obtain ⟨c1, h4, h5⟩ := ih h3
      obtain ⟨r, rfl⟩ : ∃ s, r = s + 1 := ⟨r - 1, by omega⟩
      have := (Al.diag (a := a) (b := b) h4).downs (a := a) r
      have e : List.replicate (r + 1) a ++ y0 = List.replicate r a ++ a :: y0 := by
        rw [List.replicate_succ']; simp
      rw [e]
      refine ⟨_, this, ?_⟩
      have h6 := mul_le_mul_of_nonneg_right (cast h2) (sqEuclid_nn a b)
      push_cast at h6
      linarith

end align

section runs
variable {α : Type} [DecidableEq α]

theorem squeeze_dup (a : α) (l : List α) : squeeze (a :: a :: l) = squeeze (a :: l) := by
  rw [squeeze, if_pos rfl]

theorem squeeze_cons_congr (a : α) {x y : List α} (h : squeeze x = squeeze y) :
    squeeze (a :: x) = squeeze (a :: y) := by
  cases x with
  | nil =>
    cases y with
    | nil => rfl
    | cons b y => exact absurd h.symm (squeeze_cons_ne b y)
  | cons b x =>
    cases y with
    | nil => exact absurd h (squeeze_cons_ne b x)
    | cons b' y =>
      have hb : b = b' := by
        have h1 := squeeze_cons_head b x
        rw [h, squeeze_cons_head] at h1
        exact (Option.some.inj h1).symm
      subst hb
      rw [squeeze, squeeze, h]

theorem Spec.Stretched.squeeze_eq {k : ℕ} {x y : List α} (h : Stretched k x y) : squeeze x = squeeze y := by
  induction h with
  | nil => rfl
  | @cons a r x y h1 h2 _ ih =>
    obtain ⟨r, rfl⟩ : ∃ s, r = s + 1 := ⟨r - 1, by omega⟩
    rw [squeeze_cons_congr a ih]
    clear h1 h2 ih
    induction r with
    | zero => rfl
    | succ r ih =>
      rw [List.replicate_succ, List.replicate_succ, List.cons_append, List.cons_append, squeeze_dup]
      exact ih

end runs
end Verif
