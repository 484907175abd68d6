import Verif.Model.KInit
import Verif.Spec.KInit
import Verif.Proofs.Argmin
import Mathlib.Algebra.Order.BigOperators.Group.List
import Mathlib.Tactic.Linarith
import Verif.Props.C17
/-!
C82: k-means++ seeds.
-/
set_option linter.unusedSectionVars false
namespace Verif
open Spec
variable {S K : Type} [Field K] [LinearOrder K] [IsStrictOrderedRing K]

theorem searchLeft_spec (l : List K) (acc v : K) (h0 : acc < v) (h1 : v ≤ acc + l.sum) :
    ∃ h : searchLeft (cumSum acc l) v < l.length, acc + (l.take (searchLeft (cumSum acc l) v)).sum < v ∧
      v ≤ acc + (l.take (searchLeft (cumSum acc l) v)).sum + l[searchLeft (cumSum acc l) v] := by
  induction l generalizing acc with
  | nil => simp at h1; exact absurd h0 (not_lt.2 h1)
  | cons x l ih =>
    by_cases hx : acc + x < v
    · have e : searchLeft (cumSum acc (x :: l)) v = searchLeft (cumSum (acc + x) l) v + 1 := by
        simp [searchLeft, cumSum, hx]
      obtain ⟨a, b, c⟩ := ih (acc + x) hx (by rw [List.sum_cons] at h1; linarith)
      refine ⟨by rw [e]; simpa using a, ?_⟩
      simp only [e, List.take_succ_cons, List.sum_cons, List.getElem_cons_succ]
      exact ⟨by linarith, by linarith⟩
    · have e : searchLeft (cumSum acc (x :: l)) v = 0 := by simp [searchLeft, cumSum, hx]
      refine ⟨by rw [e]; simp, ?_⟩
      simp only [e, List.take_zero, List.sum_nil, List.getElem_cons_zero]
      exact ⟨by linarith, by linarith [not_lt.1 hx]⟩

/-- A candidate is drawn with probability proportional to the squared distance to the nearest centre: among the values of
`(0, potential]`, those that lead to series `i` are an interval whose length is that squared distance. -/
theorem C82_draw (l : List K) (hl : ∀ x ∈ l, 0 ≤ x) (v : K) (h0 : 0 < v) (h1 : v ≤ l.sum) (i : ℕ) (hi : i < l.length) :
    searchLeft (cumSum 0 l) v = i ↔ (l.take i).sum < v ∧ v ≤ (l.take i).sum + l[i] := by
  obtain ⟨a, b, c⟩ := searchLeft_spec l 0 v h0 (by simpa using h1)
  simp only [zero_add] at b c
  constructor
  · rintro rfl; exact ⟨b, c⟩
  · rintro ⟨d, e⟩
    have mono : ∀ p q, p ≤ q → (l.take p).sum ≤ (l.take q).sum := by
      intro p q hpq
      obtain ⟨r, rfl⟩ := Nat.exists_eq_add_of_le hpq
      rw [List.take_add, List.sum_append]
      have : 0 ≤ ((l.drop p).take r).sum := List.sum_nonneg fun x hx => hl x (List.mem_of_mem_drop (List.mem_of_mem_take hx))
      linarith
    have succ : ∀ p (hp : p < l.length), (l.take p).sum + l[p] = (l.take (p + 1)).sum := fun p hp => by
      rw [List.take_succ_eq_append_getElem hp, List.sum_append]; simp
    rw [succ _ a] at c
    rw [succ _ hi] at e
    by_contra hne
    rcases Nat.lt_or_gt_of_ne hne with h | h
    · exact absurd (lt_of_lt_of_le d (le_trans c (mono _ _ h))) (lt_irrefl _)
    · exact absurd (lt_of_lt_of_le b (le_trans e (mono _ _ h))) (lt_irrefl _)

example : searchLeft (cumSum 0 [1, 0, (3 : ℚ)]) 2 = 2 := (C82_draw _ (by simp) 2 (by norm_num) (by norm_num) 2 (by decide)).2 (by norm_num)

/-- What holds of the state after any number of rounds. -/
structure KppOk (n : ℕ) (X : ℕ → S) (dist : S → S → K) (st : KppState K) : Prop where
  len : st.closest.length = n
  near : ∀ j, ∀ h : j < st.closest.length, IsNearestSq dist (kppCenters X st) (X j) st.closest[j]
  pot : st.pot = st.closest.sum
  ids : ∀ i ∈ st.ids, i < n

theorem kppInit_ok (n : ℕ) (X : ℕ → S) (dist : S → S → K) (first : ℕ) (hf : first < n) : KppOk n X dist (kppInit n X dist first) := by
  refine ⟨by simp [kppInit], ?_, rfl, by simpa [kppInit] using hf⟩
  intro j h
  simp [kppInit, kppCenters, IsNearestSq]

/-- One round: a candidate is chosen for which the potential is smallest among the candidates drawn; the squared distances to the nearest
centre and the potential are those of the centres with the new one. -/
theorem kppStep_ok (n : ℕ) (X : ℕ → S) (dist : S → S → K) (us : List K) (hus : us ≠ []) (st : KppState K) (hn : 0 < n)
    (h : KppOk n X dist st) :
    KppOk n X dist (kppStep n X dist us st) ∧ ∃ c, (kppStep n X dist us st).ids = st.ids ++ [c] ∧
      (∃ u ∈ us, c = min (searchLeft (cumSum 0 st.closest) (u * st.pot)) (n - 1)) ∧
      (kppStep n X dist us st).closest = List.zipWith min st.closest ((List.range n).map fun j => dist (X c) (X j) ^ 2) ∧
      ∀ u ∈ us, (kppStep n X dist us st).pot ≤
        (List.zipWith min st.closest ((List.range n).map fun j =>
          dist (X (min (searchLeft (cumSum 0 st.closest) (u * st.pot)) (n - 1))) (X j) ^ 2)).sum := by
  have hlen := h.len
  set cands := us.map fun u => min (searchLeft (cumSum 0 st.closest) (u * st.pot)) (n - 1) with hc
  set rows := cands.map fun c => List.zipWith min st.closest ((List.range n).map fun j => dist (X c) (X j) ^ 2) with hr
  set pots := rows.map List.sum with hp
  have hstep : kppStep n X dist us st = ⟨st.ids ++ [cands.getD (argminL pots) 0], rows.getD (argminL pots) [], pots.getD (argminL pots) 0⟩ := by
    simp only [kppStep, hlen, hc, hr, hp]
  have hpn : pots ≠ [] := by simp [hp, hr, hc, hus]
  obtain ⟨v, hv1, hv2⟩ := argminL_isArgmin pots hpn
  have hb : argminL pots < us.length := by
    have := (List.getElem?_eq_some_iff.1 hv1).1
    simpa [hp, hr, hc] using this
  set b := argminL pots with hbdef
  have hcb : cands.getD b 0 = min (searchLeft (cumSum 0 st.closest) (us[b] * st.pot)) (n - 1) := by
    simp [hc, hb]
  have hrb : rows.getD b [] = List.zipWith min st.closest ((List.range n).map fun j => dist (X (cands.getD b 0)) (X j) ^ 2) := by
    rw [hcb]; simp [hr, hc, hb]
  have hpb : pots.getD b 0 = (rows.getD b []).sum := by
    simp [hp, hr, hc, hb]
  rw [hstep]
  refine ⟨⟨?_, ?_, hpb, ?_⟩, cands.getD b 0, rfl, ⟨us[b], List.getElem_mem hb, hcb⟩, hrb, ?_⟩
  · show (rows.getD b []).length = n
    rw [hrb]; simp [hlen]
  · show ∀ j, ∀ hj : j < (rows.getD b []).length, IsNearestSq dist ((st.ids ++ [cands.getD b 0]).map X) (X j) (rows.getD b [])[j]
    rw [hrb]
    intro j hj
    have hj' : j < n := by simpa [hlen] using hj
    obtain ⟨⟨c, hc1, hc2⟩, hmin⟩ := h.near j (by omega)
    simp only [List.getElem_zipWith, List.getElem_map, List.getElem_range]
    constructor
    · rcases min_choice (st.closest[j]'(by omega)) (dist (X (cands.getD b 0)) (X j) ^ 2) with e | e
      · refine ⟨c, ?_, by rw [e]; exact hc2⟩
        rw [List.map_append]; exact List.mem_append_left _ hc1
      · exact ⟨X (cands.getD b 0), by simp, e.symm⟩
    · intro c' hc'
      rw [List.map_append, List.mem_append] at hc'
      rcases hc' with hc' | hc'
      · exact le_trans (min_le_left _ _) (hmin c' hc')
      · simp only [List.map_cons, List.map_nil, List.mem_singleton] at hc'
        subst hc'
        exact min_le_right _ _
  · intro i hi
    rw [List.mem_append] at hi
    rcases hi with hi | hi
    · exact h.ids i hi
    · rw [List.mem_singleton.1 hi, hcb]; omega
  · intro u hu
    show pots.getD b 0 ≤ _
    have : pots.getD b 0 = v := by simp [List.getD, hv1]
    rw [this]
    apply hv2
    rw [hp, hr, hc]
    simp only [List.map_map, List.mem_map, Function.comp_def]
    exact ⟨u, hu, rfl⟩

/-- After any number of rounds there is one centre per round and one before, each of them a series of the dataset, `closest_dist_sq` holds
the squared distances to the nearest centres, and the potential is their sum. -/
theorem C82_seeds (n : ℕ) (hn : 0 < n) (X : ℕ → S) (dist : S → S → K) (first : ℕ) (hf : first < n) (draws : ℕ → List K)
    (hd : ∀ k, draws k ≠ []) (k : ℕ) :
    KppOk n X dist (kppRun n X dist first draws k) ∧ (kppCenters X (kppRun n X dist first draws k)).length = k + 1 ∧
      ∀ c ∈ kppCenters X (kppRun n X dist first draws k), ∃ i < n, c = X i := by
  have key : KppOk n X dist (kppRun n X dist first draws k) ∧ (kppRun n X dist first draws k).ids.length = k + 1 := by
    induction k with
    | zero => exact ⟨kppInit_ok n X dist first hf, rfl⟩
    | succ k ih =>
      obtain ⟨h1, c, h2, -⟩ := kppStep_ok n X dist (draws (k + 1)) (hd _) _ hn ih.1
      exact ⟨h1, by simp [kppRun, h2, ih.2]⟩
  refine ⟨key.1, by simpa [kppCenters] using key.2, ?_⟩
  intro c hc
  obtain ⟨i, hi, rfl⟩ := List.mem_map.1 hc
  exact ⟨i, key.1.ids i hi, rfl⟩

/-- Each round takes, of the candidates drawn, one that lowers the potential most; the potential never grows. -/
theorem C82_greedy (n : ℕ) (hn : 0 < n) (X : ℕ → S) (dist : S → S → K) (first : ℕ) (hf : first < n) (draws : ℕ → List K)
    (hd : ∀ k, draws k ≠ []) (k : ℕ) :
    let st := kppRun n X dist first draws k
    let st' := kppRun n X dist first draws (k + 1)
    st'.pot ≤ st.pot ∧ ∀ u ∈ draws (k + 1), st'.pot ≤
      (List.zipWith min st.closest ((List.range n).map fun j =>
        dist (X (min (searchLeft (cumSum 0 st.closest) (u * st.pot)) (n - 1))) (X j) ^ 2)).sum := by
  intro st st'
  obtain ⟨h, -, -⟩ := C82_seeds n hn X dist first hf draws hd k
  obtain ⟨h1, c, -, -, h3, h4⟩ := kppStep_ok n X dist (draws (k + 1)) (hd _) _ hn h
  refine ⟨?_, h4⟩
  show (kppStep n X dist (draws (k + 1)) st).pot ≤ st.pot
  rw [h1.pot, h3, h.pot]
  have gen : ∀ a b : List K, a.length = b.length → (List.zipWith min a b).sum ≤ a.sum := by
    intro a
    induction a with
    | nil => simp
    | cons x a ih =>
      intro b hb
      cases b with
      | nil => simp at hb
      | cons y b =>
        simp only [List.zipWith_cons_cons, List.sum_cons]
        have := ih b (by simpa using hb)
        have := min_le_left x y
        linarith
  exact gen _ _ (by simp [h.len])

/-- With a distance that vanishes between a series and itself, positive draws and series left that are no centres, the new centre differs
from all others: its distance to each of them is not zero. -/
theorem C82_new_partial (n : ℕ) (hn : 0 < n) (X : ℕ → S) (dist : S → S → K) (first : ℕ) (hf : first < n) (draws : ℕ → List K)
    (hd : ∀ k, draws k ≠ []) (hpos : ∀ k, ∀ u ∈ draws k, 0 < u ∧ u < 1) (k : ℕ) (hpot : 0 < (kppRun n X dist first draws k).pot) :
    ∃ c < n, (kppRun n X dist first draws (k + 1)).ids = (kppRun n X dist first draws k).ids ++ [c] ∧
      ∀ i ∈ (kppRun n X dist first draws k).ids, dist (X i) (X c) ≠ 0 := by
  obtain ⟨h, -, -⟩ := C82_seeds n hn X dist first hf draws hd k
  obtain ⟨h1, c, h2, ⟨u, hu, hcu⟩, -⟩ := kppStep_ok n X dist (draws (k + 1)) (hd _) _ hn h
  obtain ⟨u0, u1⟩ := hpos _ u hu
  set st := kppRun n X dist first draws k
  have hv0 : 0 < u * st.pot := mul_pos u0 hpot
  have hv1 : u * st.pot ≤ 0 + st.closest.sum := by rw [zero_add, ← h.pot]; nlinarith
  obtain ⟨a, b, d⟩ := searchLeft_spec st.closest 0 _ hv0 hv1
  have hlen := h.len
  have hce : c = searchLeft (cumSum 0 st.closest) (u * st.pot) := by rw [hcu]; omega
  refine ⟨c, by rw [hce]; omega, h2, ?_⟩
  intro i hi e
  have hcl : 0 < st.closest[searchLeft (cumSum 0 st.closest) (u * st.pot)] := by linarith
  obtain ⟨-, hmin⟩ := h.near _ a
  have := hmin (X i) (List.mem_map_of_mem hi)
  rw [show X (searchLeft (cumSum 0 st.closest) (u * st.pot)) = X c by rw [hce], e] at this
  have z : (0 : K) ^ 2 = 0 := by norm_num
  rw [z] at this
  linarith

/-- If the distance vanishes exactly between a series and itself, no number drawn is zero and there are at least as many series as
centres, then no series becomes a centre twice. -/
theorem C82_distinct_partial (n : ℕ) (hn : 0 < n) (X : ℕ → S) (dist : S → S → K) (first : ℕ) (hf : first < n) (draws : ℕ → List K)
    (hd : ∀ k, draws k ≠ []) (hpos : ∀ k, ∀ u ∈ draws k, 0 < u ∧ u < 1)
    (hsep : ∀ i < n, ∀ j < n, dist (X i) (X j) = 0 ↔ i = j) (k : ℕ) (hk : k < n) :
    (kppRun n X dist first draws k).ids.Nodup := by
  induction k with
  | zero => simp [kppRun, kppInit]
  | succ k ih =>
    have ih := ih (by omega)
    obtain ⟨h, hl, -⟩ := C82_seeds n hn X dist first hf draws hd k
    have hl : (kppRun n X dist first draws k).ids.length = k + 1 := by simpa [kppCenters] using hl
    have hpot : 0 < (kppRun n X dist first draws k).pot := by
      obtain ⟨j, hj, hj'⟩ : ∃ j < n, j ∉ (kppRun n X dist first draws k).ids := by
        by_contra hcon
        push Not at hcon
        have : (List.range n).length ≤ (kppRun n X dist first draws k).ids.length :=
          List.Subperm.length_le (List.subperm_of_subset List.nodup_range fun i hi => hcon i (List.mem_range.1 hi))
        rw [List.length_range] at this
        omega
      have nonneg : ∀ x ∈ (kppRun n X dist first draws k).closest, 0 ≤ x := by
        intro x hx
        obtain ⟨i, hi, rfl⟩ := List.getElem_of_mem hx
        obtain ⟨⟨c, -, hc⟩, -⟩ := h.near i hi
        rw [← hc]; exact sq_nonneg _
      have hjl : j < (kppRun n X dist first draws k).closest.length := by rw [h.len]; exact hj
      obtain ⟨⟨c, hc, hcv⟩, -⟩ := h.near j hjl
      obtain ⟨i, hi, rfl⟩ := List.mem_map.1 hc
      have : 0 < (kppRun n X dist first draws k).closest[j] := by
        rw [← hcv]
        have : dist (X i) (X j) ≠ 0 := fun e => hj' ((hsep i (h.ids i hi) j hj).1 e ▸ hi)
        exact lt_of_le_of_ne (sq_nonneg _) (Ne.symm (pow_ne_zero 2 this))
      rw [h.pot]
      exact lt_of_lt_of_le this (List.single_le_sum nonneg _ (List.getElem_mem hjl))
    obtain ⟨c, hc, e, hne⟩ := C82_new_partial n hn X dist first hf draws hd hpos k hpot
    rw [e, List.nodup_append]
    refine ⟨ih, by simp, ?_⟩
    intro a ha b hb hab
    rw [List.mem_singleton] at hb
    subst hab; subst hb
    exact hne a ha ((hsep a hc a hc).2 rfl)

example : (kppRun 4 (fun i => (i : ℚ)) (fun a b => |a - b|) 2 (fun _ => [1 / 2, 1 / 3]) 3).ids.Nodup :=
  C82_distinct_partial 4 (by norm_num) _ _ 2 (by norm_num) _ (by simp) (fun _ u hu => by
    simp only [List.mem_cons, List.not_mem_nil, or_false] at hu
    rcases hu with rfl | rfl <;> norm_num) (fun i _ j _ => by simp [sub_eq_zero]) 3 (by norm_num)

/-- Three numbers on a line, two draws per round: the centres are `0`, `10` and `4`. -/
example : kppCenters (fun i => ([0, 4, 10] : List ℚ).getD i 0)
    (kppRun 3 (fun i => ([0, 4, 10] : List ℚ).getD i 0) (fun a b => |a - b|) 0 (fun k => if k = 1 then [1/10, 1/2] else [1/2, 9/10]) 2) =
    [0, 10, 4] := by
  norm_num [kppRun, kppInit, kppStep, kppCenters, cumSum, searchLeft, List.range_succ, argminL]

/-- False of the code: a centre may be chosen twice although series remain. A draw of exactly `0`, which `random_sample` can return, picks
the first series, even if it is a centre already. -/
theorem C82_false_zero : ∃ (X : ℕ → ℚ), (∀ i < 3, ∀ j < 3, |X i - X j| = 0 ↔ i = j) ∧
    (kppRun 3 X (fun a b => |a - b|) 0 (fun _ => [0, 0]) 1).ids = [0, 0] := by
  refine ⟨fun i => i, ?_, ?_⟩
  · intro i _ j _
    simp [sub_eq_zero]
  · norm_num [kppRun, kppInit, kppStep, cumSum, searchLeft, List.range_succ, argminL]

/-- The soft-DTW value of two series, as `_cdist_soft_dtw` fills it in. -/
noncomputable def softVal (γ : ℝ) (x y : List (List ℝ)) : ℝ :=
  match softDtwGeneric .numpy x y γ 0 none none with
  | .ok (.num v) => v
  | _ => 0

theorem softVal_pair (t s : ℝ) : softVal 2 [[t], [t]] [[t + s], [t + s]] = -2 * Real.log (Real.exp (-(s * s)) + 2 * Real.exp (-(3 / 2 * (s * s)))) := by
  have hS : ∀ p, p ∈ ({[(0, 0), (1, 0), (1, 1)], [(0, 0), (0, 1), (1, 1)], [(0, 0), (1, 1)]} :
      Finset (List (ℕ × ℕ))) ↔ Admissible 2 2 (Mat.full true) p := by
    intro p
    rw [← mem_pathsB_admissible (by omega) (by omega)]
    have : pathsB (Mat.full true) 2 2 =
        {[(0, 0), (0, 1), (1, 1)], [(0, 0), (1, 0), (1, 1)], [(0, 0), (1, 1)]} := by
      simp [pathsB, Mat.full]
    rw [this]
    simp only [Finset.mem_insert, Finset.mem_singleton]
    tauto
  unfold softVal
  rw [C17_softmin .numpy [[t], [t]] [[t + s], [t + s]] (by simp) (by simp) 2 (by norm_num) 0 none none
    (by simp) (Mat.full true) rfl _ hS]
  rw [Finset.sum_insert (by decide), Finset.sum_insert (by decide), Finset.sum_singleton]
  have c1 : sumCost (sampleCost [[t], [t]] [[t + s], [t + s]]) [(0, 0), (1, 0), (1, 1)] = 3 * (s * s) := by
    simp [sumCost, sampleCost, sqEuclid]; ring
  have c2 : sumCost (sampleCost [[t], [t]] [[t + s], [t + s]]) [(0, 0), (0, 1), (1, 1)] = 3 * (s * s) := by
    simp [sumCost, sampleCost, sqEuclid]; ring
  have c3 : sumCost (sampleCost [[t], [t]] [[t + s], [t + s]]) [(0, 0), (1, 1)] = 2 * (s * s) := by
    simp [sumCost, sampleCost, sqEuclid]; ring
  rw [c1, c2, c3, show -(3 * (s * s)) / 2 = -(3 / 2 * (s * s)) by ring, show -(2 * (s * s)) / 2 = -(s * s) by ring]
  show -2 * Real.log _ = _
  congr 2
  ring

theorem softVal_self (t : ℝ) : softVal 2 [[t], [t]] [[t], [t]] = -2 * Real.log 3 := by
  have h := softVal_pair t 0
  rw [add_zero] at h
  rw [h]
  norm_num

/-- False of the code: with soft-DTW the same series may be chosen twice although series remain, for whole intervals of draws, since the
soft-DTW value of a series and itself need not vanish. -/
theorem C82_false_softdtw : ∃ X : ℕ → List (List ℝ), X 0 ≠ X 1 ∧ ∃ ε : ℝ, 0 < ε ∧ ε < 1 ∧ ∀ u₁ u₂ : ℝ, 0 < u₁ → u₁ ≤ ε → 0 < u₂ → u₂ ≤ ε →
    kppCenters X (kppRun 2 X (softVal 2) 0 (fun _ => [u₁, u₂]) 1) = [X 0, X 0] := by
  refine ⟨fun i => if i = 0 then [[5], [5]] else [[6], [6]], by simp, ?_⟩
  have a0 : 0 < softVal 2 [[5], [5]] [[5], [5]] ^ 2 := by
    rw [softVal_self]
    have : 0 < Real.log 3 := Real.log_pos (by norm_num)
    nlinarith [mul_pos this this]
  have b0 : 0 ≤ softVal 2 [[5], [5]] [[6], [6]] ^ 2 := sq_nonneg _
  generalize ha : softVal 2 [[5], [5]] [[5], [5]] ^ 2 = a at a0
  generalize hb : softVal 2 [[5], [5]] [[6], [6]] ^ 2 = b at b0
  refine ⟨a / (2 * (a + b)), by positivity, by rw [div_lt_one (by positivity)]; linarith, ?_⟩
  have key : ∀ u, 0 < u → u ≤ a / (2 * (a + b)) → searchLeft (cumSum 0 [a, b]) (u * (a + b)) = 0 := by
    intro u hu0 hu
    have : u * (a + b) ≤ a / 2 := by
      calc u * (a + b) ≤ a / (2 * (a + b)) * (a + b) := mul_le_mul_of_nonneg_right hu (by linarith)
        _ = a / 2 := by field_simp
    have : ¬ a < u * (a + b) := by linarith
    simp [searchLeft, cumSum, this]
  intro u₁ u₂ h1 h2 h3 h4
  have k1 := key u₁ h1 h2
  have k2 := key u₂ h3 h4
  simp [kppRun, kppInit, kppStep, kppCenters, List.range_succ, ha, hb, k1, k2, argminL]

/-- False of the code: with soft-DTW, `closest_dist_sq` need not belong to the nearest centre. Values may be negative and are squared
before the smaller one is taken: here the series is a centre itself, with value `-2 log 3`, but the value `2 log 2` of the other centre
is kept. -/
theorem C82_false_nearest : ∃ x c : List (List ℝ), softVal 2 x x < softVal 2 c x ∧ IsNearestSq (softVal 2) [x, c] x (softVal 2 c x ^ 2) ∧
    softVal 2 c x ^ 2 ≠ softVal 2 x x ^ 2 := by
  have l2 : 0 < Real.log 2 := Real.log_pos (by norm_num)
  have l23 : Real.log 2 < Real.log 3 := Real.log_lt_log (by norm_num) (by norm_num)
  set s := Real.sqrt (2 * Real.log 2) with hs
  have ss : s * s = 2 * Real.log 2 := Real.mul_self_sqrt (by positivity)
  have h2 : softVal 2 [[5], [5]] [[5 + s], [5 + s]] = 2 * Real.log 2 := by
    rw [softVal_pair, ss]
    have e1 : Real.exp (-(2 * Real.log 2)) = 1 / 4 := by
      rw [two_mul, neg_add, Real.exp_add, Real.exp_neg, Real.exp_log (by norm_num)]; norm_num
    have e2 : Real.exp (-(3 / 2 * (2 * Real.log 2))) = 1 / 8 := by
      rw [show -(3 / 2 * (2 * Real.log 2)) = -Real.log 2 + (-Real.log 2 + -Real.log 2) by ring, Real.exp_add, Real.exp_add, Real.exp_neg,
        Real.exp_log (by norm_num)]
      norm_num
    rw [e1, e2, show (1 : ℝ) / 4 + 2 * (1 / 8) = 2⁻¹ by norm_num, Real.log_inv]
    ring
  refine ⟨[[5 + s], [5 + s]], [[5], [5]], ?_, ⟨⟨_, by simp, rfl⟩, ?_⟩, ?_⟩
  · rw [h2, softVal_self]; linarith
  · intro c hc
    simp only [List.mem_cons, List.not_mem_nil, or_false] at hc
    rcases hc with rfl | rfl
    · rw [h2, softVal_self]; nlinarith
    · rfl
  · rw [h2, softVal_self]; nlinarith

/-- Without negative values there is no difference: what is kept is the square of the distance to the nearest centre. -/
theorem C82_nearest_partial (dist : S → S → K) (h0 : ∀ a b, 0 ≤ dist a b) (cs : List S) (x : S) (v : K) :
    IsNearestSq dist cs x v ↔ ∃ c ∈ cs, v = dist c x ^ 2 ∧ ∀ c' ∈ cs, dist c x ≤ dist c' x := by
  constructor
  · rintro ⟨⟨c, hc, rfl⟩, h⟩
    exact ⟨c, hc, rfl, fun c' hc' => le_of_sq_le_sq (h c' hc') (h0 _ _)⟩
  · rintro ⟨c, hc, rfl, h⟩
    exact ⟨⟨c, hc, rfl⟩, fun c' hc' => pow_le_pow_left₀ (h0 _ _) (h c' hc') 2⟩

example : IsNearestSq (fun a b : ℚ => |a - b|) [0, 5] 4 1 :=
  (C82_nearest_partial _ (fun _ _ => abs_nonneg _) _ _ _).2 ⟨5, by simp, by norm_num, by simp; norm_num⟩

/-- At least two candidates are drawn in each round, and `2 + log k` rounded down for `k` clusters. -/
theorem C82_trials (k : ℕ) (hk : 0 < k) : 2 ≤ kppTrials k ∧ (kppTrials k : ℝ) ≤ 2 + Real.log k ∧ 2 + Real.log k < kppTrials k + 1 := by
  have h0 : 0 ≤ Real.log k := Real.log_nonneg (by exact_mod_cast hk)
  have h1 := Nat.floor_le h0
  have h2 := Nat.lt_floor_add_one (Real.log k)
  unfold kppTrials
  push_cast
  exact ⟨by omega, by linarith, by linarith⟩

example : kppTrials 1 = 2 := by simp [kppTrials]

/-- An array of initial centroids is accepted iff there is one row per cluster. -/
theorem C82_guess (rows : Option ℕ) (k : ℕ) : checkInitialGuess rows k = .ok () ↔ ∀ r, rows = some r → r = k := by
  cases rows with
  | none => simp [checkInitialGuess]
  | some r => by_cases h : r = k <;> simp [checkInitialGuess, h]

example : checkInitialGuess (some 3) 3 = .ok () ∧ checkInitialGuess (some 2) 3 = .error .assertion := ⟨rfl, rfl⟩

end Verif
