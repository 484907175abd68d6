import Verif.Proofs.Interp
import Verif.Spec.Impute
import Mathlib.Data.List.NodupEquivFin
/-!
Imputation of one feature.
-/
set_option linter.unusedSectionVars false
namespace Verif
open Spec

theorem accumulate_go_length (op : ℕ → ℕ → ℕ) (acc : ℕ) (l : List ℕ) :
    (accumulate.go op acc l).length = l.length := by
  induction l generalizing acc with
  | nil => rfl
  | cons x xs ih => simp [accumulate.go, ih]

theorem accumulate_length (op : ℕ → ℕ → ℕ) (l : List ℕ) : (accumulate op l).length = l.length := by
  cases l <;> simp [accumulate, accumulate_go_length]

/-- `accumulate` of a choosing operation bounded by `R`. -/
theorem accumulate_go_spec (op : ℕ → ℕ → ℕ) (R : ℕ → ℕ → Prop)
    (htr : ∀ a b c, R a b → R b c → R a c)
    (hop : ∀ a b, (op a b = a ∨ op a b = b) ∧ R (op a b) a ∧ R (op a b) b) (acc : ℕ) (l : List ℕ) :
    ∀ t < l.length, ((accumulate.go op acc l).getD t 0 = acc ∨ ∃ s ≤ t, (accumulate.go op acc l).getD t 0 = l.getD s 0) ∧
      R ((accumulate.go op acc l).getD t 0) acc ∧ ∀ s ≤ t, R ((accumulate.go op acc l).getD t 0) (l.getD s 0) := by
  induction l generalizing acc with
  | nil => simp
  | cons x xs ih =>
    intro t ht
    obtain ⟨h1, h2, h3⟩ := hop acc x
    cases t with
    | zero =>
      simp only [accumulate.go, List.getD_cons_zero]
      refine ⟨?_, h2, ?_⟩
      · rcases h1 with h | h
        · exact .inl h
        · exact .inr ⟨0, le_refl _, by simpa using h⟩
      · intro s hs
        obtain rfl : s = 0 := by omega
        simpa using h3
    | succ t =>
      obtain ⟨i1, i2, i3⟩ := ih (op acc x) t (by simpa using ht)
      simp only [accumulate.go, List.getD_cons_succ]
      refine ⟨?_, htr _ _ _ i2 h2, ?_⟩
      · rcases i1 with h | ⟨s, hs, h⟩
        · rw [h]
          rcases h1 with h | h
          · exact .inl h
          · exact .inr ⟨0, by omega, by simpa using h⟩
        · exact .inr ⟨s + 1, by omega, by simpa using h⟩
      · intro s hs
        cases s with
        | zero => simpa using htr _ _ _ i2 h3
        | succ s => simpa using i3 s (by omega)

theorem accumulate_spec (op : ℕ → ℕ → ℕ) (R : ℕ → ℕ → Prop) (hrefl : ∀ a, R a a)
    (htr : ∀ a b c, R a b → R b c → R a c)
    (hop : ∀ a b, (op a b = a ∨ op a b = b) ∧ R (op a b) a ∧ R (op a b) b) (l : List ℕ) :
    ∀ t < l.length, (∃ s ≤ t, (accumulate op l).getD t 0 = l.getD s 0) ∧
      ∀ s ≤ t, R ((accumulate op l).getD t 0) (l.getD s 0) := by
  cases l with
  | nil => simp
  | cons x xs =>
    intro t ht
    cases t with
    | zero =>
      simp only [accumulate, List.getD_cons_zero]
      refine ⟨⟨0, le_refl _, rfl⟩, fun s hs => ?_⟩
      obtain rfl : s = 0 := by omega
      exact hrefl _
    | succ t =>
      obtain ⟨i1, i2, i3⟩ := accumulate_go_spec op R htr hop x xs t (by simpa using ht)
      simp only [accumulate, List.getD_cons_succ]
      constructor
      · rcases i1 with h | ⟨s, hs, h⟩
        · exact ⟨0, by omega, by simpa using h⟩
        · exact ⟨s + 1, by omega, by simpa using h⟩
      · intro s hs
        cases s with
        | zero => simpa using i2
        | succ s => simpa using i3 s (by omega)

theorem accumulate_max (l : List ℕ) : ∀ t < l.length, (∃ s ≤ t, (accumulate max l).getD t 0 = l.getD s 0) ∧
    ∀ s ≤ t, l.getD s 0 ≤ (accumulate max l).getD t 0 :=
  accumulate_spec max (fun a b => b ≤ a) (fun _ => le_refl _) (fun _ _ _ h1 h2 => le_trans h2 h1)
    (fun a b => ⟨by omega, by omega, by omega⟩) l

theorem accumulate_min (l : List ℕ) : ∀ t < l.length, (∃ s ≤ t, (accumulate min l).getD t 0 = l.getD s 0) ∧
    ∀ s ≤ t, (accumulate min l).getD t 0 ≤ l.getD s 0 :=
  accumulate_spec min (fun a b => a ≤ b) (fun _ => le_refl _) (fun _ _ _ h1 h2 => le_trans h1 h2)
    (fun a b => ⟨by omega, by omega, by omega⟩) l

theorem forall₂_left {β γ : Type} {R : β → γ → Prop} {l : List β} {r : List γ} (h : List.Forall₂ R l r) :
    ∀ b ∈ l, ∃ c, R b c := by
  induction h with
  | nil => simp
  | cons h _ ih =>
    intro b hb
    rcases List.mem_cons.1 hb with rfl | hb
    · exact ⟨_, h⟩
    · exact ih b hb

section
variable {K : Type} [Field K] [LinearOrder K]

theorem range_map_getD {β : Type} (n : ℕ) (g : ℕ → β) (e : β) {t : ℕ} (ht : t < n) :
    ((List.range n).map g).getD t e = g t := by
  simp [ht]

theorem takeIdx_getD (c : List (Option K)) (idx : List ℕ) {t : ℕ} (ht : t < c.length) :
    (takeIdx c idx).getD t none =
      if (c.getD t none).isNone then c.getD (idx.getD t 0) none else c.getD t none :=
  range_map_getD _ _ _ ht

theorem ffill_prev (c : List (Option K)) (t p : ℕ) (v : K) (ht : t < c.length) (hn : c.getD t none = none)
    (hp : PrevObs (fun s => c.getD s none) t p v) : (takeIdx c (ffillIdx c)).getD t none = some v := by
  obtain ⟨h1, h2, h3⟩ := hp
  simp only at h2 h3
  rw [takeIdx_getD c _ ht, hn]
  simp only [Option.isNone_none, if_true]
  have hl : t < ((List.range c.length).map fun t => if (c.getD t none).isNone then 0 else t).length := by simpa
  obtain ⟨⟨s, hs, e⟩, hle⟩ := accumulate_max _ t hl
  have hp' := hle p h1.le
  rw [range_map_getD _ _ _ (by omega), h2] at hp'
  simp only [Option.isNone_some, Bool.false_eq_true, if_false] at hp'
  unfold ffillIdx
  rw [e, range_map_getD _ _ _ (by omega)] at hp' ⊢
  have : (if (c.getD s none).isNone = true then 0 else s) = p := by
    split_ifs at hp' ⊢ with hc
    · omega
    · by_contra hne
      rcases Nat.lt_or_ge s t with h | h
      · rw [h3 s (by omega) h] at hc; simp at hc
      · obtain rfl : s = t := by omega
        rw [hn] at hc; simp at hc
  rw [this, h2]

theorem ffill_none (c : List (Option K)) (t : ℕ) (ht : t < c.length)
    (hp : ∀ s ≤ t, c.getD s none = none) : (takeIdx c (ffillIdx c)).getD t none = none := by
  rw [takeIdx_getD c _ ht, hp t (le_refl _)]
  simp only [Option.isNone_none, if_true]
  have hl : t < ((List.range c.length).map fun t => if (c.getD t none).isNone then 0 else t).length := by simpa
  obtain ⟨⟨s, hs, e⟩, -⟩ := accumulate_max _ t hl
  unfold ffillIdx
  rw [e, range_map_getD _ _ _ (by omega), hp s hs]
  simp only [Option.isNone_none, if_true]
  exact hp 0 (by omega)

theorem reverse_getD {β : Type} (l : List β) (e : β) {t : ℕ} (ht : t < l.length) :
    l.reverse.getD t e = l.getD (l.length - 1 - t) e := by
  rw [List.getD_eq_getElem _ _ (by simpa using ht), List.getElem_reverse, List.getD_eq_getElem]

theorem bfill_idx (c : List (Option K)) (t : ℕ) (ht : t < c.length) :
    (∃ s, t ≤ s ∧ s < c.length ∧ (bfillIdx c).getD t 0 = if (c.getD s none).isNone then c.length - 1 else s) ∧
      ∀ s, t ≤ s → s < c.length → (bfillIdx c).getD t 0 ≤ if (c.getD s none).isNone then c.length - 1 else s := by
  set l := (List.range c.length).map fun t => if (c.getD t none).isNone then c.length - 1 else t with hl
  have hll : l.length = c.length := by simp [hl]
  have hget : ∀ s < c.length, l.getD s 0 = if (c.getD s none).isNone then c.length - 1 else s :=
    fun s hs => range_map_getD _ _ _ hs
  have hb : (bfillIdx c).getD t 0 = (accumulate min l.reverse).getD (c.length - 1 - t) 0 := by
    have hlen : (accumulate min l.reverse).length = c.length := by rw [accumulate_length]; simp [hll]
    unfold bfillIdx
    rw [← hl, reverse_getD _ _ (by rw [hlen]; exact ht), hlen]
  have hrl : l.reverse.length = c.length := by simp [hll]
  obtain ⟨⟨s, hs, e⟩, hle⟩ := accumulate_min l.reverse (c.length - 1 - t) (by omega)
  rw [hb]
  constructor
  · refine ⟨c.length - 1 - s, by omega, by omega, ?_⟩
    rw [e, reverse_getD _ _ (by omega), hll, hget _ (by omega)]
  · intro s hs hsc
    have := hle (c.length - 1 - s) (by omega)
    rw [reverse_getD _ _ (by omega), hll, show c.length - 1 - (c.length - 1 - s) = s by omega, hget s hsc] at this
    exact this

theorem bfill_next (c : List (Option K)) (t q : ℕ) (v : K) (ht : t < c.length) (hn : c.getD t none = none)
    (hq : NextObs (fun s => c.getD s none) c.length t q v) : (takeIdx c (bfillIdx c)).getD t none = some v := by
  obtain ⟨h1, h2, h3, h4⟩ := hq
  simp only at h3 h4
  rw [takeIdx_getD c _ ht, hn]
  simp only [Option.isNone_none, if_true]
  obtain ⟨⟨s, hs1, hs2, e⟩, hle⟩ := bfill_idx c t ht
  have hq' := hle q h1.le h2
  rw [h3] at hq'
  simp only [Option.isNone_some, Bool.false_eq_true, if_false] at hq'
  have : (bfillIdx c).getD t 0 = q := by
    split_ifs at e with hc
    · omega
    · by_contra hne
      rcases Nat.lt_or_ge t s with h | h
      · rw [h4 s h (by omega)] at hc; simp at hc
      · obtain rfl : s = t := by omega
        rw [hn] at hc; simp at hc
  rw [this, h3]

theorem bfill_none (c : List (Option K)) (t : ℕ) (ht : t < c.length)
    (hp : ∀ s, t ≤ s → s < c.length → c.getD s none = none) : (takeIdx c (bfillIdx c)).getD t none = none := by
  rw [takeIdx_getD c _ ht, hp t (le_refl _) ht]
  simp only [Option.isNone_none, if_true]
  obtain ⟨⟨s, hs1, hs2, e⟩, -⟩ := bfill_idx c t ht
  rw [e, hp s hs1 hs2]
  simp only [Option.isNone_none, if_true]
  exact hp _ (by omega) (by omega)

theorem fillWith_getD (v : Option K) (c : List (Option K)) {t : ℕ} (ht : t < c.length) :
    (fillWith v c).getD t none = if (c.getD t none).isNone then v else c.getD t none := by
  unfold fillWith
  rw [List.getD_eq_getElem _ _ (by simpa using ht), List.getElem_map, List.getD_eq_getElem _ _ ht]

end

section
variable {K : Type} [Field K] [LinearOrder K] [IsStrictOrderedRing K]

/-- The observed indices, in increasing order. -/
def obsIdx (c : List (Option K)) : List ℕ := (List.range c.length).filter fun t => (c.getD t none).isSome

theorem mem_obsIdx (c : List (Option K)) (t : ℕ) : t ∈ obsIdx c ↔ ∃ v, c.getD t none = some v := by
  unfold obsIdx
  rw [List.mem_filter, List.mem_range, Option.isSome_iff_exists]
  constructor
  · exact fun h => h.2
  · rintro ⟨v, hv⟩
    refine ⟨?_, v, hv⟩
    by_contra hc
    rw [List.getD_eq_default _ _ (not_lt.1 hc)] at hv
    simp at hv

theorem obsIdx_lt (c : List (Option K)) {a b : ℕ} (hb : b < (obsIdx c).length) (hab : a < b) :
    (obsIdx c).getD a 0 < (obsIdx c).getD b 0 := by
  have : (obsIdx c).Pairwise (· < ·) := List.Pairwise.filter _ List.pairwise_lt_range
  rw [List.getD_eq_getElem _ _ (by omega), List.getD_eq_getElem _ _ hb]
  exact List.pairwise_iff_getElem.1 this a b (by omega) hb hab

/-- The value given by the linear method at a missing index. -/
theorem linear_getD (c r : List (Option K)) (h : imputeCol .linear c = .ok r) {t : ℕ} (ht : t < c.length)
    (hn : c.getD t none = none) :
    r.getD t none = interp1 ((obsIdx c).map (Nat.cast : ℕ → K)) ((obsIdx c).map fun s => c.getD s none) (t : K) := by
  simp only [imputeCol, interp, bind, Except.bind, pure, Except.pure] at h
  split at h
  · simp at h
  · rename_i vals hv
    split_ifs at hv with h0
    injection hv with hv
    injection h with h
    rw [← h, range_map_getD _ _ _ ht, hn]
    simp only [Option.isNone_none, if_true]
    rw [← hv]
    have hmem : t ∈ (List.range c.length).filter fun t => (c.getD t none).isNone := by
      rw [List.mem_filter, hn]; exact ⟨List.mem_range.2 ht, rfl⟩
    have hlt := List.idxOf_lt_length_of_mem hmem
    rw [List.getD_eq_getElem _ _ (by simpa using hlt), List.getElem_map, List.getElem_map, List.getElem_idxOf]
    rfl

theorem linear_observed (c r : List (Option K)) (h : imputeCol .linear c = .ok r) {t : ℕ} (v : K)
    (hv' : c.getD t none = some v) : r.getD t none = some v := by
  have ht : t < c.length := by
    by_contra hc
    rw [List.getD_eq_default _ _ (not_lt.1 hc)] at hv'
    simp at hv'
  simp only [imputeCol, interp, bind, Except.bind, pure, Except.pure] at h
  split at h
  · simp at h
  · injection h with h
    rw [← h, range_map_getD _ _ _ ht, hv']
    simp

theorem obsIdx_cast (c : List (Option K)) {a : ℕ} (ha : a < (obsIdx c).length) :
    ((obsIdx c).map (Nat.cast : ℕ → K)).getD a 0 = ((obsIdx c).getD a 0 : K) := by
  rw [List.getD_eq_getElem _ _ (by simpa using ha), List.getElem_map, List.getD_eq_getElem _ _ ha]

theorem obsIdx_val (c : List (Option K)) {a : ℕ} (ha : a < (obsIdx c).length) :
    ((obsIdx c).map fun s => c.getD s none).getD a none = c.getD ((obsIdx c).getD a 0) none := by
  rw [List.getD_eq_getElem _ _ (by simpa using ha), List.getElem_map, List.getD_eq_getElem (obsIdx c) _ ha]

theorem obsIdx_mem (c : List (Option K)) {a : ℕ} (ha : a < (obsIdx c).length) : (obsIdx c).getD a 0 ∈ obsIdx c := by
  rw [List.getD_eq_getElem _ _ ha]; exact List.getElem_mem ha

theorem exists_obsIdx (c : List (Option K)) {p : ℕ} {v : K} (h : c.getD p none = some v) :
    ∃ a, a < (obsIdx c).length ∧ (obsIdx c).getD a 0 = p := by
  obtain ⟨a, ha, e⟩ := List.mem_iff_getElem.1 ((mem_obsIdx c p).2 ⟨v, h⟩)
  exact ⟨a, ha, by rw [List.getD_eq_getElem _ _ ha, e]⟩

theorem obsIdx_after (c : List (Option K)) {t p a : ℕ} {v : K} (hn : c.getD t none = none)
    (hp : PrevObs (fun s => c.getD s none) t p v) (ha : (obsIdx c).getD a 0 = p)
    (h1 : a + 1 < (obsIdx c).length) : t < (obsIdx c).getD (a + 1) 0 := by
  obtain ⟨w, hw⟩ := (mem_obsIdx c _).1 (obsIdx_mem c h1)
  have hgt := obsIdx_lt c h1 (Nat.lt_succ_self a)
  rw [ha] at hgt
  by_contra hc
  rcases Nat.lt_or_ge ((obsIdx c).getD (a + 1) 0) t with h | h
  · have := hp.2.2 _ hgt h
    simp only at this
    rw [hw] at this; simp at this
  · have e : (obsIdx c).getD (a + 1) 0 = t := by omega
    rw [e, hn] at hw; simp at hw

theorem linear_between (c r : List (Option K)) (h : imputeCol .linear c = .ok r) {t p q : ℕ} {v w : K}
    (ht : t < c.length) (hn : c.getD t none = none) (hp : PrevObs (fun s => c.getD s none) t p v)
    (hq : NextObs (fun s => c.getD s none) c.length t q w) :
    r.getD t none = some (v + (w - v) * (((t - p : ℕ) : K) / ((q - p : ℕ) : K))) := by
  rw [linear_getD c r h ht hn]
  obtain ⟨a, ha, hap⟩ := exists_obsIdx c hp.2.1
  obtain ⟨b, hb, hbq⟩ := exists_obsIdx c hq.2.2.1
  have hpt := hp.1
  have htq := hq.1
  have hab : a < b := by
    by_contra hc
    rcases Nat.lt_or_ge b a with hlt | hge
    · have := obsIdx_lt c ha hlt
      omega
    · have : a = b := by omega
      subst this
      omega
  have h1 : a + 1 < (obsIdx c).length := by omega
  have hafter := obsIdx_after c hn hp hap h1
  have hnext : (obsIdx c).getD (a + 1) 0 = q := by
    obtain ⟨u, hu⟩ := (mem_obsIdx c _).1 (obsIdx_mem c h1)
    by_contra hne
    have hle : (obsIdx c).getD (a + 1) 0 < q := by
      rcases Nat.lt_or_ge (a + 1) b with hlt | hge
      · have := obsIdx_lt c hb hlt
        omega
      · have : a + 1 = b := by omega
        rw [this] at hne
        omega
    have := hq.2.2.2 _ hafter hle
    simp only at this
    rw [hu] at this; simp at this
  have hl : ((obsIdx c).map (Nat.cast : ℕ → K)).length = (obsIdx c).length := by simp
  rw [interp1_inside _ _ _ a (by rw [hl]; exact h1) ?_ ?_ ?_]
  · rw [obsIdx_val c ha, obsIdx_val c h1, hap, hnext, obsIdx_cast c ha, obsIdx_cast c h1, hap, hnext]
    have e1 := hp.2.1
    have e2 := hq.2.2.1
    simp only at e1 e2
    rw [e1, e2]
    simp only [Option.some.injEq]
    rw [Nat.cast_sub (by omega : p ≤ t), Nat.cast_sub (by omega : p ≤ q)]
    ring
  · intro i hi
    rw [obsIdx_cast c (by omega)]
    have := obsIdx_lt c ha hi
    exact_mod_cast (by omega : (obsIdx c).getD i 0 ≤ t)
  · rw [obsIdx_cast c ha, hap]; exact_mod_cast hpt
  · rw [obsIdx_cast c h1, hnext]; exact_mod_cast htq

theorem linear_after_last (c r : List (Option K)) (h : imputeCol .linear c = .ok r) {t p : ℕ} {v : K}
    (ht : t < c.length) (hn : c.getD t none = none) (hp : PrevObs (fun s => c.getD s none) t p v)
    (hq : ∀ s, t < s → c.getD s none = none) : r.getD t none = some v := by
  rw [linear_getD c r h ht hn]
  obtain ⟨a, ha, hap⟩ := exists_obsIdx c hp.2.1
  have hpt := hp.1
  have hlast : a + 1 = (obsIdx c).length := by
    by_contra hc
    have h1 : a + 1 < (obsIdx c).length := by omega
    have := obsIdx_after c hn hp hap h1
    obtain ⟨u, hu⟩ := (mem_obsIdx c _).1 (obsIdx_mem c h1)
    rw [hq _ this] at hu; simp at hu
  rw [interp1_right _ _ _ a (by simpa using hlast) ?_, obsIdx_val c ha, hap]
  · exact hp.2.1
  · intro i hi
    have hi' : i < (obsIdx c).length := by simpa using hi
    rw [obsIdx_cast c hi']
    rcases Nat.lt_or_ge i a with hlt | hge
    · have := obsIdx_lt c ha hlt
      exact_mod_cast (by omega : (obsIdx c).getD i 0 ≤ t)
    · obtain rfl : i = a := by omega
      rw [hap]; exact_mod_cast hpt.le

theorem linear_before_first (c r : List (Option K)) (h : imputeCol .linear c = .ok r) {t q : ℕ} {w : K}
    (ht : t < c.length) (hn : c.getD t none = none) (hq : NextObs (fun s => c.getD s none) c.length t q w)
    (hp : ∀ s < t, c.getD s none = none) : r.getD t none = some w := by
  rw [linear_getD c r h ht hn]
  obtain ⟨b, hb, hbq⟩ := exists_obsIdx c hq.2.2.1
  have htq := hq.1
  have hge : ∀ s ∈ obsIdx c, t < s := by
    intro s hs
    obtain ⟨u, hu⟩ := (mem_obsIdx c s).1 hs
    by_contra hc
    rcases Nat.lt_or_ge s t with h | h
    · rw [hp s h] at hu; simp at hu
    · obtain rfl : s = t := by omega
      rw [hn] at hu; simp at hu
  have h0 : (obsIdx c).getD 0 0 = q := by
    have hpos : 0 < (obsIdx c).length := by omega
    obtain ⟨u, hu⟩ := (mem_obsIdx c _).1 (obsIdx_mem c hpos)
    have := hge _ (obsIdx_mem c hpos)
    by_contra hne
    have hlt : (obsIdx c).getD 0 0 < q := by
      rcases Nat.eq_zero_or_pos b with e | e
      · rw [e] at hbq; omega
      · have := obsIdx_lt c hb e
        omega
    have := hq.2.2.2 _ this hlt
    simp only at this
    rw [hu] at this; simp at this
  have hpos : 0 < (obsIdx c).length := by omega
  rw [interp1_left _ _ _ ?_, obsIdx_val c hpos, h0]
  · exact hq.2.2.1
  · intro _
    rw [obsIdx_cast c hpos, h0]; exact_mod_cast htq

theorem linear_ok_iff (c : List (Option K)) :
    (∃ r, imputeCol .linear c = .ok r) ↔ ∃ t v, c.getD t none = some v := by
  constructor
  · rintro ⟨r, h⟩
    by_contra hc
    push Not at hc
    have : obsIdx c = [] := by
      rw [List.eq_nil_iff_forall_not_mem]
      intro t ht
      obtain ⟨v, hv⟩ := (mem_obsIdx c t).1 ht
      exact hc t v hv
    unfold obsIdx at this
    simp only [imputeCol, interp, this, List.map_nil, if_true, bind, Except.bind] at h
    simp at h
  · rintro ⟨t, v, hv⟩
    have : obsIdx c ≠ [] := List.ne_nil_of_mem ((mem_obsIdx c t).2 ⟨v, hv⟩)
    unfold obsIdx at this
    simp only [imputeCol, interp, bind, Except.bind, pure, Except.pure]
    rw [if_neg (by simpa using this)]
    exact ⟨_, rfl⟩

/-- Number of samples of series `i` the imputer looks at. -/
def stopOf (keep : Bool) (X : Arr3 K) (i : ℕ) : ℕ := if keep then tsSize (X.data.getD i []) else X.sz

theorem stopOf_le (keep : Bool) (X : Arr3 K) (hX : X.WF) {i : ℕ} (hi : i < X.data.length) :
    stopOf keep X i ≤ X.sz := by
  unfold stopOf
  split_ifs
  · rw [List.getD_eq_getElem _ _ hi, ← (hX _ (List.getElem_mem hi)).1]
    exact tsSize_le _
  · exact le_refl _

theorem imputeCol_observed (m : ImpMethod K) (c r : List (Option K)) (h : imputeCol m c = .ok r) {t : ℕ} {v : K}
    (hv : c.getD t none = some v) : r.getD t none = some v := by
  have ht : t < c.length := by
    by_contra hc
    rw [List.getD_eq_default _ _ (not_lt.1 hc)] at hv
    simp at hv
  cases m with
  | constant a => injection h with h; rw [← h, fillWith_getD _ _ ht, hv]; simp
  | mean => injection h with h; rw [← h, fillWith_getD _ _ ht, hv]; simp
  | median => injection h with h; rw [← h, fillWith_getD _ _ ht, hv]; simp
  | linear => exact linear_observed c r h v hv
  | ffill => injection h with h; rw [← h, takeIdx_getD _ _ ht, hv]; simp
  | bfill => injection h with h; rw [← h, takeIdx_getD _ _ ht, hv]; simp
  | unknown => simp [imputeCol] at h

theorem Formatted.of_observed {α β : Type} {X : Arr3 α} {Y : Arr3 β} (hX : Formatted X) (hY : Y.WF)
    (hs : Y.sz = X.sz) (hd : Y.d = X.d) (hl : Y.data.length = X.data.length)
    (h : ∀ i < X.data.length, ∀ t < X.sz, ∀ f < X.d, X.entry i t f ≠ none → Y.entry i t f ≠ none) :
    Formatted Y := by
  refine ⟨hY, fun e => ?_, ?_⟩
  · rw [hs, hd]
    apply hX.empty
    rw [e] at hl
    exact List.length_eq_zero_iff.1 hl.symm
  · rcases hX.tight with e | ⟨s, hsm, hz⟩
    · left; omega
    · obtain ⟨i, hi, rfl⟩ := List.mem_iff_getElem.1 hsm
      rcases hz.1 with e | ho
      · left; omega
      · right
        have hi' : i < Y.data.length := by omega
        refine ⟨Y.data[i], List.getElem_mem hi', .inr ?_, ?_⟩
        · rw [← List.getD_eq_getElem X.data [] hi, observed_entry hX.wf] at ho
          obtain ⟨f, hf, hsome⟩ := ho
          rw [← List.getD_eq_getElem Y.data [] hi', observed_entry hY]
          refine ⟨f, by omega, ?_⟩
          rcases Nat.eq_zero_or_pos X.sz with hz0 | hz0
          · exfalso
            have hw := (hX.wf _ (List.getElem_mem hi)).1
            rw [hz0] at hw
            simp [Arr3.entry, hi, List.length_eq_zero_iff.1 hw] at hsome
          · have := h i hi (X.sz - 1) (by omega) f hf (Option.ne_none_iff_isSome.2 hsome)
            rw [hs]; exact Option.ne_none_iff_isSome.1 this
        · intro t ht
          rintro ⟨r, hr, -⟩
          have := (List.getElem?_eq_some_iff.1 hr).1
          rw [(hY _ (List.getElem_mem hi')).1] at this
          omega

theorem col_length (X : Arr3 K) (i n f : ℕ) : (X.col i n f).length = n := by simp [Arr3.col]

theorem col_get (X : Arr3 K) {i n f t : ℕ} (ht : t < n) : (X.col i n f).getD t none = X.entry i t f := by
  simp [Arr3.col, ht]

/-- The result of `transform`, feature by feature. -/
theorem impute_ok (m : ImpMethod K) (keep : Bool) (xF x : DsInput K) (F X : Arr3 K) (hF : toDataset xF = .ok F)
    (hx : toDataset x = .ok X) (hX : Formatted X) (hd : F.d = X.d) (hm : m ≠ .unknown)
    (R : ℕ → ℕ → List (Option K))
    (hR : ∀ i < X.data.length, ∀ f < X.d, imputeCol m (X.col i (stopOf keep X i) f) = .ok (R i f)) :
    ∃ Y, impute m keep xF x = .ok Y ∧ Formatted Y ∧ Y.data.length = X.data.length ∧ Y.sz = X.sz ∧ Y.d = X.d ∧
      ∀ i < X.data.length, ∀ t < X.sz, ∀ f < X.d, Y.entry i t f =
        if t < stopOf keep X i then (R i f).getD t none else X.entry i t f := by
  set Y := Arr3.build X.data.length X.sz X.d fun i t f =>
    if t < stopOf keep X i then (R i f).getD t none else X.entry i t f with hYdef
  have hent : ∀ i < X.data.length, ∀ t < X.sz, ∀ f < X.d, Y.entry i t f =
        if t < stopOf keep X i then (R i f).getD t none else X.entry i t f := by
    intro i hi t ht f hf
    exact Arr3.build_entry hi ht hf
  have hfmt : Formatted Y := by
    apply hX.of_observed (Arr3.build_wf _ _ _ _) rfl rfl (Arr3.build_length ..)
    intro i hi t ht f hf hne
    rw [hent i hi t ht f hf]
    obtain ⟨v, hv⟩ := Option.ne_none_iff_exists'.1 hne
    split_ifs with hst
    · rw [imputeCol_observed m _ _ (hR i hi f hf) (v := v) (by rw [col_get X hst, hv])]
      simp
    · exact hne
  refine ⟨Y, ?_, hfmt, Arr3.build_length .., rfl, rfl, hent⟩
  have hout : ((List.range X.data.length).mapM fun i => (List.range X.d).mapM fun f =>
      imputeCol m (X.col i (if keep then tsSize (X.data.getD i []) else X.sz) f)) =
      Except.ok (ε := PyErr) ((List.range X.data.length).map fun i => (List.range X.d).map fun f => R i f) := by
    apply mapM_except_ok
    intro i hi
    apply mapM_except_ok
    intro f hf
    exact hR i (List.mem_range.1 hi) f (List.mem_range.1 hf)
  have hres : impute m keep xF x = toDataset (.series Y.slots) := by
    unfold impute
    simp only [hF, hx, bind, Except.bind, hd, ne_eq, not_true_eq_false, if_false, Bool.false_eq_true, hout]
    congr 3
    apply Arr3.build_congr
    intro i hi t ht f hf
    simp [hi, hf, stopOf]
  rw [hres, hfmt.toDataset_slots]

/-- Conversely, a result comes from results for every feature. -/
theorem impute_inv (m : ImpMethod K) (keep : Bool) (xF x : DsInput K) (X Y : Arr3 K)
    (hx : toDataset x = .ok X) (hX : Formatted X) (hY : impute m keep xF x = .ok Y) :
    Formatted Y ∧ Y.data.length = X.data.length ∧ Y.sz = X.sz ∧ Y.d = X.d ∧
      ∀ i < X.data.length, ∀ f < X.d, ∃ r, imputeCol m (X.col i (stopOf keep X i) f) = .ok r ∧
        ∀ t < X.sz, Y.entry i t f = if t < stopOf keep X i then r.getD t none else X.entry i t f := by
  cases hF : toDataset xF with
  | error e => simp [impute, hF, bind, Except.bind] at hY
  | ok F =>
    by_cases hd : F.d = X.d
    swap
    · simp [impute, hF, hx, hd, bind, Except.bind] at hY
    have hm : m ≠ .unknown := by
      rintro rfl
      simp [impute, hF, hx, hd, bind, Except.bind] at hY
    have hcols : ∀ i < X.data.length, ∀ f < X.d, ∃ r, imputeCol m (X.col i (stopOf keep X i) f) = .ok r := by
      unfold impute at hY
      simp only [hF, hx, bind, Except.bind, hd, ne_eq, not_true_eq_false, if_false, Bool.false_eq_true] at hY
      split at hY
      · simp at hY
      · rename_i out hout
        intro i hi f hf
        obtain ⟨o, ho⟩ := forall₂_left (mapM_except_inv _ _ _ hout) i (List.mem_range.2 hi)
        exact forall₂_left (mapM_except_inv _ _ _ ho) f (List.mem_range.2 hf)
    have hch : ∀ i f, ∃ r, i < X.data.length → f < X.d → imputeCol m (X.col i (stopOf keep X i) f) = .ok r := by
      intro i f
      by_cases hi : i < X.data.length
      · by_cases hf : f < X.d
        · obtain ⟨r, hr⟩ := hcols i hi f hf
          exact ⟨r, fun _ _ => hr⟩
        · exact ⟨[], fun _ h => absurd h hf⟩
      · exact ⟨[], fun h => absurd h hi⟩
    choose R hR using hch
    obtain ⟨Y', hY', h1, h2, h3, h4, h5⟩ := impute_ok m keep xF x F X hF hx hX hd hm R
      (fun i hi f hf => hR i f hi hf)
    rw [hY] at hY'
    cases hY'
    exact ⟨h1, h2, h3, h4, fun i hi f hf => ⟨R i f, hR i f hi hf, fun t ht => h5 i hi t ht f hf⟩⟩

end

end Verif
