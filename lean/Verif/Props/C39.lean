import Verif.Spec.Knn
import Mathlib.Algebra.Order.Ring.Rat
import Mathlib.Algebra.Field.Rat
/-!
C39: what nearest-neighbour queries return.
-/
namespace Verif
open Spec
variable {K : Type} [LinearOrder K]

theorem map_getD_sort {S : Selector K} (hS : S.Valid) (f : ℕ → K) (ind : List ℕ) :
    ((S.sort (fun j => f (ind.getD j 0)) ind.length).map fun j => ind.getD j 0).Perm ind ∧
    ((S.sort (fun j => f (ind.getD j 0)) ind.length).map fun j => ind.getD j 0).Pairwise fun i j => f i ≤ f j := by
  constructor
  · have h := (hS.sort_perm (fun j => f (ind.getD j 0)) ind.length).map fun j => ind.getD j 0
    refine h.trans (List.Perm.of_eq ?_)
    apply List.ext_getElem (by simp)
    intro i h1 h2
    simp [List.getD_eq_getElem?_getD, h2]
  · rw [List.pairwise_map]
    exact hS.sort_le _ _

/-- A query: whatever order `argpartition` and `argsort` choose among ties, the result is `min(k, n)` distinct indices in order of
distance, and no other training series is strictly nearer than one of them. -/
theorem C39_partial {S : Selector K} (hS : S.Valid) (f : ℕ → K) (n k : ℕ) (hk : 0 < k) (hn : 0 < n) :
    KNearest f n (min k n) (fun _ => True) (knnRow S f n k false) := by
  have hb : min (k - 1) (n - 1) < n := by omega
  have hp := hS.part_perm f n _ hb
  have hlen : (S.part f n (min (k - 1) (n - 1))).length = n := by rw [hp.length_eq, List.length_range]
  obtain ⟨h1, h2⟩ := map_getD_sort hS f ((S.part f n (min (k - 1) (n - 1))).take (if n < k then n else k))
  have hmin : (if n < k then n else k) = min k n := by split <;> omega
  have hr : knnRow S f n k false = (S.sort (fun j => f (((S.part f n (min (k - 1) (n - 1))).take (if n < k then n else k)).getD j 0))
      ((S.part f n (min (k - 1) (n - 1))).take (if n < k then n else k)).length).map
        fun j => ((S.part f n (min (k - 1) (n - 1))).take (if n < k then n else k)).getD j 0 := rfl
  rw [← hr] at h1 h2
  rw [hmin] at h1
  set p := S.part f n (min (k - 1) (n - 1)) with hpd
  have hkb : min (k - 1) (n - 1) = min k n - 1 := by omega
  refine ⟨?_, ?_, ?_, h2, ?_⟩
  · rw [h1.length_eq, List.length_take, hlen]; omega
  · rw [h1.nodup_iff]
    exact (hp.nodup_iff.2 List.nodup_range).sublist (List.take_sublist _ _)
  · intro i hi
    exact ⟨List.mem_range.1 (hp.mem_iff.1 (List.mem_of_mem_take (h1.mem_iff.1 hi))), trivial⟩
  · intro j hj _ hnot i hi
    obtain ⟨a, ha, rfl⟩ := List.getElem_of_mem (h1.mem_iff.1 hi)
    obtain ⟨b, hb', rfl⟩ := List.getElem_of_mem (hp.mem_iff.2 (List.mem_range.2 hj))
    rw [List.length_take, hlen] at ha
    have hbge : min k n ≤ b := by
      by_contra hlt
      apply hnot
      rw [h1.mem_iff, List.mem_take_iff_getElem]
      exact ⟨b, by omega, rfl⟩
    have e1 : p.getD a 0 = (p.take (min k n))[a]'(by rw [List.length_take, hlen]; omega) := by
      simp [List.getD_eq_getElem?_getD, List.getElem?_eq_getElem (show a < p.length by omega)]
    have e2 : p.getD b 0 = p[b] := by
      simp [List.getD_eq_getElem?_getD, List.getElem?_eq_getElem hb']
    rw [← e1, ← e2]
    have q2 := hS.part_ge f n _ hb b (by omega) (by omega)
    rcases Nat.lt_or_ge a (min (k - 1) (n - 1)) with ha' | ha'
    · exact (hS.part_le f n _ hb a ha').trans q2
    · obtain rfl : a = min (k - 1) (n - 1) := by omega
      exact q2

/-- The distances returned are those of the indices returned, in increasing order. -/
theorem C39_dist {S : Selector K} (hS : S.Valid) (f : ℕ → K) (n k : ℕ) (s : Bool) :
    (knnDist S f n k s).length = (knnRow S f n k s).length ∧
    (∀ i (h : i < (knnDist S f n k s).length) (h' : i < (knnRow S f n k s).length), (knnDist S f n k s)[i] = f (knnRow S f n k s)[i]) ∧
    (knnDist S f n k s).Pairwise fun a b => a ≤ b := by
  refine ⟨by simp [knnDist], fun i h h' => by simp [knnDist], ?_⟩
  unfold knnDist
  rw [List.pairwise_map]
  exact (map_getD_sort hS f _).2

/-- Full claim: with `X` omitted, the same holds among the other training series, whatever order `argpartition` chooses. Missing (and
false, see below): all cases in which `argpartition` does not happen to sort the whole row, or another series equals the query. -/
theorem C39_self_partial {S : Selector K} (hS : S.Valid) (f : ℕ → K) (n k x : ℕ) (hk : 0 < k) (hx : x < n)
    (hsort : (S.part f n (min (k - 1) (n - 1))).Pairwise fun i j => f i ≤ f j) (hmin : ∀ j < n, j ≠ x → f x < f j) :
    KNearest f n (min k (n - 1)) (fun j => j ≠ x) (knnRow S f n k true) := by
  have hb : min (k - 1) (n - 1) < n := by omega
  have hp := hS.part_perm f n _ hb
  have hlen : (S.part f n (min (k - 1) (n - 1))).length = n := by rw [hp.length_eq, List.length_range]
  obtain ⟨h1, h2⟩ := map_getD_sort hS f (((S.part f n (min (k - 1) (n - 1))).drop 1).take (if n < k then n else k))
  have hr : knnRow S f n k true = (S.sort (fun j => f ((((S.part f n (min (k - 1) (n - 1))).drop 1).take (if n < k then n else k)).getD j 0))
      (((S.part f n (min (k - 1) (n - 1))).drop 1).take (if n < k then n else k)).length).map
        fun j => (((S.part f n (min (k - 1) (n - 1))).drop 1).take (if n < k then n else k)).getD j 0 := rfl
  rw [← hr] at h1 h2
  have hnd := hp.nodup_iff.2 List.nodup_range
  generalize S.part f n (min (k - 1) (n - 1)) = p at *
  cases p with
  | nil => simp at hlen; omega
  | cons a p =>
    rw [List.drop_one, List.tail_cons] at h1
    rw [List.length_cons] at hlen
    obtain ⟨hs1, hs2⟩ := List.pairwise_cons.1 hsort
    obtain ⟨hn1, hn2⟩ := List.nodup_cons.1 hnd
    have hax : a = x := by
      by_contra hne
      have hax : x ∈ p := by
        rcases List.mem_cons.1 (hp.mem_iff.2 (List.mem_range.2 hx)) with h | h
        · exact absurd h.symm hne
        · exact h
      have ha : a < n := List.mem_range.1 (hp.mem_iff.1 List.mem_cons_self)
      exact absurd (hmin a ha hne) (not_lt.2 (hs1 x hax))
    subst hax
    have htake : p.take (if n < k then n else k) = p.take (min k (n - 1)) := by
      rw [List.take_eq_take_iff]; split <;> omega
    rw [htake] at h1
    refine ⟨?_, ?_, ?_, h2, ?_⟩
    · rw [h1.length_eq, List.length_take]; omega
    · rw [h1.nodup_iff]; exact hn2.sublist (List.take_sublist _ _)
    · intro i hi
      have hi := List.mem_of_mem_take (h1.mem_iff.1 hi)
      refine ⟨List.mem_range.1 (hp.mem_iff.1 (List.mem_cons_of_mem _ hi)), ?_⟩
      rintro rfl
      exact hn1 hi
    · intro j hj hjx hnot i hi
      have hjp : j ∈ p := by
        rcases List.mem_cons.1 (hp.mem_iff.2 (List.mem_range.2 hj)) with h | h
        · exact absurd h hjx
        · exact h
      rw [h1.mem_iff] at hnot hi
      rw [← List.take_append_drop (min k (n - 1)) p] at hs2 hjp
      rcases List.mem_append.1 hjp with h | h
      · exact absurd h hnot
      · exact (List.pairwise_append.1 hs2).2.2 i hi j h

/-- First least index of `a :: l`, and `l` after that index was swapped with `a`. -/
def swapMin (f : ℕ → K) (a : ℕ) (l : List ℕ) : ℕ × List ℕ :=
  let m := l.foldl (fun m i => if f i < f m then i else m) a
  (m, if m = a then l else l.map fun i => if i = m then a else i)

/-- numpy's `dumb_select`, used by `argpartition` for `kth < 3`: selection sort of the first `kth + 1` places by swapping. -/
def dumbSelect (f : ℕ → K) : ℕ → List ℕ → List ℕ
  | 0, l => l
  | _ + 1, [] => []
  | k + 1, a :: l => (swapMin f a l).1 :: dumbSelect f k (swapMin f a l).2

theorem foldl_min (f : ℕ → K) : ∀ (l : List ℕ) (a : ℕ), (l.foldl (fun m i => if f i < f m then i else m) a ∈ a :: l) ∧
    ∀ i ∈ a :: l, f (l.foldl (fun m i => if f i < f m then i else m) a) ≤ f i := by
  intro l
  induction l with
  | nil => intro a; simp
  | cons b l ih =>
    intro a
    rw [List.foldl_cons]
    by_cases h : f b < f a
    · rw [if_pos h]
      obtain ⟨h1, h2⟩ := ih b
      refine ⟨List.mem_cons_of_mem _ h1, fun i hi => ?_⟩
      rcases List.mem_cons.1 hi with rfl | hi
      · exact (h2 b List.mem_cons_self).trans h.le
      · exact h2 i hi
    · rw [if_neg h]
      obtain ⟨h1, h2⟩ := ih a
      refine ⟨?_, fun i hi => ?_⟩
      · rcases List.mem_cons.1 h1 with h1 | h1
        · rw [h1]; exact List.mem_cons_self
        · exact List.mem_cons_of_mem _ (List.mem_cons_of_mem _ h1)
      · rcases List.mem_cons.1 hi with rfl | hi
        · exact h2 i List.mem_cons_self
        · rcases List.mem_cons.1 hi with rfl | hi
          · exact (h2 a List.mem_cons_self).trans (not_lt.1 h)
          · exact h2 i (List.mem_cons_of_mem _ hi)

theorem map_swap_perm {a m : ℕ} : ∀ {l : List ℕ}, m ∈ l → l.Nodup → (m :: l.map fun i => if i = m then a else i).Perm (a :: l) := by
  intro l
  induction l with
  | nil => intro h; simp at h
  | cons b l ih =>
    intro h hn
    obtain ⟨hn1, hn2⟩ := List.nodup_cons.1 hn
    by_cases hb : b = m
    · subst hb
      have : (l.map fun i => if i = b then a else i) = l := by
        conv_rhs => rw [← List.map_id l]
        refine List.map_congr_left fun i hi => ?_
        rw [if_neg]
        · rfl
        · rintro rfl; exact hn1 hi
      rw [List.map_cons, if_pos rfl, this]
      exact List.Perm.swap _ _ _
    · rw [List.map_cons, if_neg hb]
      rcases List.mem_cons.1 h with h | h
      · exact absurd h.symm hb
      · exact (List.Perm.swap _ _ _).trans (((ih h hn2).cons b).trans (List.Perm.swap _ _ _))

theorem swapMin_spec (f : ℕ → K) (a : ℕ) (l : List ℕ) (hn : (a :: l).Nodup) :
    ((swapMin f a l).1 :: (swapMin f a l).2).Perm (a :: l) ∧ ∀ i ∈ a :: l, f (swapMin f a l).1 ≤ f i := by
  obtain ⟨h1, h2⟩ := foldl_min f l a
  refine ⟨?_, h2⟩
  unfold swapMin
  simp only
  split
  · next h => rw [h]
  · next h =>
    rcases List.mem_cons.1 h1 with h1 | h1
    · exact absurd h1 h
    · exact map_swap_perm h1 (List.nodup_cons.1 hn).2

theorem dumbSelect_spec (f : ℕ → K) : ∀ (k : ℕ) (l : List ℕ), l.Nodup → (dumbSelect f k l).Perm l ∧
    ∀ i j, i < k → i < j → j < l.length → f ((dumbSelect f k l).getD i 0) ≤ f ((dumbSelect f k l).getD j 0) := by
  intro k
  induction k with
  | zero => intro l _; exact ⟨List.Perm.refl _, fun i j h => by omega⟩
  | succ k ih =>
    intro l hn
    cases l with
    | nil => exact ⟨List.Perm.refl _, fun i j _ _ h => by simp at h⟩
    | cons a l =>
      obtain ⟨h1, h2⟩ := swapMin_spec f a l hn
      have hn' := (List.nodup_cons.1 (h1.nodup_iff.2 hn)).2
      obtain ⟨h3, h4⟩ := ih (swapMin f a l).2 hn'
      have hlen : (swapMin f a l).2.length = l.length := by
        have := h1.length_eq
        simpa using this
      have hperm : (dumbSelect f (k + 1) (a :: l)).Perm (a :: l) := (h3.cons _).trans h1
      refine ⟨hperm, ?_⟩
      intro i j hi hij hj
      cases j with
      | zero => omega
      | succ j =>
        cases i with
        | zero =>
          apply h2
          have hjl : j + 1 < (dumbSelect f (k + 1) (a :: l)).length := by rw [hperm.length_eq]; exact hj
          rw [← hperm.mem_iff, List.getD_eq_getElem?_getD, List.getElem?_eq_getElem hjl]
          exact List.getElem_mem hjl
        | succ i => exact h4 i j (by omega) (by omega) (by simp at hj; omega)

/-- numpy for small `kth`, with an insertion sort. -/
def numpySel : Selector K :=
  { part := fun f n k => dumbSelect f (k + 1) (List.range n), sort := fun f n => (List.range n).insertionSort fun i j => f i ≤ f j }

/-- The contract can be met. -/
theorem numpySel_valid : (numpySel : Selector K).Valid where
  part_perm f n k _ := (dumbSelect_spec f (k + 1) (List.range n) List.nodup_range).1
  part_le f n k hk i hi := (dumbSelect_spec f (k + 1) (List.range n) List.nodup_range).2 i k (by omega) hi (by simpa using hk)
  part_ge f n k hk i hi hin := (dumbSelect_spec f (k + 1) (List.range n) List.nodup_range).2 k i (by omega) hi (by simpa using hin)
  sort_perm f n := List.perm_insertionSort _ _
  sort_le f n := by
    have : Std.Total fun i j : ℕ => f i ≤ f j := ⟨fun a b => le_total _ _⟩
    have : IsTrans ℕ fun i j : ℕ => f i ≤ f j := ⟨fun _ _ _ => le_trans⟩
    exact List.pairwise_insertionSort (fun i j : ℕ => f i ≤ f j) _

/-- False: with `X` omitted and `n_neighbors=1`, the neighbour is the nearest other series. Distances 0, 5, 1 of series 0: numpy's
partition gives series 1 at distance 5. -/
theorem C39_false_nearest : (numpySel : Selector ℚ).Valid ∧ knnRow numpySel (fun i => [0, 5, 1].getD i (0 : ℚ)) 3 1 true = [1] ∧
    ¬ KNearest (fun i => [0, 5, 1].getD i (0 : ℚ)) 3 1 (fun j => j ≠ 0) [1] := by
  refine ⟨numpySel_valid, by decide +kernel, fun h => ?_⟩
  have := h.least 2 (by omega) (by omega) (by simp) 1 (by simp)
  revert this
  decide +kernel

/-- False: with `X` omitted the query is never its own neighbour. Two equal series: series 1 is returned for series 1. -/
theorem C39_false_self : knnRow numpySel (fun i => [0, 0, 1].getD i (0 : ℚ)) 3 1 true = [1] ∧
    ¬ KNearest (fun i => [0, 0, 1].getD i (0 : ℚ)) 3 1 (fun j => j ≠ 1) [1] := by
  refine ⟨by decide +kernel, fun h => ?_⟩
  exact (h.mem 1 (by simp)).2 rfl

/-- False for every correct partition that returns the first of equal values first: dropping the first entry drops the wrong one. -/
theorem C39_false_any {S : Selector K} (hS : S.Valid) (f : ℕ → K) (n x : ℕ) (hn : 1 < n)
    (h : (S.part f n 0).getD 1 0 = x) : knnRow S f n 1 true = [x] := by
  have hp := hS.part_perm f n 0 (by omega)
  unfold knnRow
  simp only [show min (1 - 1) (n - 1) = 0 by omega, if_neg (show ¬ n < 1 by omega), if_true]
  have hlen : (S.part f n 0).length = n := by rw [hp.length_eq, List.length_range]
  have ht : ((S.part f n 0).drop 1).take 1 = [x] := by
    generalize S.part f n 0 = p at *
    match p, hlen with
    | [], hl => simp at hl; omega
    | [_], hl => simp at hl; omega
    | _ :: b :: _, _ => simpa using h
  rw [ht]
  have hs := hS.sort_perm (fun j => f ([x].getD j 0)) 1
  have : S.sort (fun j => f ([x].getD j 0)) [x].length = [0] := List.perm_singleton.1 (by simpa using hs)
  rw [this]
  rfl

example : KNearest (fun i => [3, 1, 2, 1].getD i (0 : ℚ)) 4 2 (fun _ => True) (knnRow numpySel (fun i => [3, 1, 2, 1].getD i (0 : ℚ)) 4 2 false) :=
  C39_partial numpySel_valid _ 4 2 (by omega) (by omega)

example : knnRow numpySel (fun i => [3, 1, 2, 1].getD i (0 : ℚ)) 4 2 false = [1, 3] ∧
    knnDist numpySel (fun i => [3, 1, 2, 1].getD i (0 : ℚ)) 4 2 false = [1, 1] := by decide +kernel

example : KNearest (fun i => [2, 0, 1].getD i (0 : ℚ)) 3 2 (fun j => j ≠ 1) (knnRow numpySel (fun i => [2, 0, 1].getD i (0 : ℚ)) 3 5 true) := by
  refine C39_self_partial numpySel_valid _ 3 5 1 (by omega) (by omega) ?_ ?_
  · have : numpySel.part (fun i => [2, 0, 1].getD i (0 : ℚ)) 3 (min (5 - 1) (3 - 1)) = [1, 2, 0] := by decide +kernel
    rw [this]
    decide +kernel
  · intro j hj hne
    match j, hj with
    | 0, _ => decide +kernel
    | 1, _ => exact absurd rfl hne
    | 2, _ => decide +kernel

example : (knnDist numpySel (fun i => [3, 1, 2, 1].getD i (0 : ℚ)) 4 3 false).Pairwise fun a b => a ≤ b :=
  (C39_dist numpySel_valid _ 4 3 false).2.2

example : knnRow numpySel (fun _ => (0 : ℚ)) 2 1 true = [1] :=
  C39_false_any numpySel_valid (fun _ => (0 : ℚ)) 2 1 (by omega) (by decide +kernel)

end Verif
