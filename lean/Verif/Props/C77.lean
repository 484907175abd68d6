import Verif.Model.ShapeletClf
import Verif.Model.ShapeletFit
import Verif.Proofs.Argmin
import Verif.Spec.KnnPredict
import Mathlib.Tactic.Linarith
import Mathlib.Tactic.NormNum
import Mathlib.Tactic.Positivity
import Mathlib.Data.List.GetD
/-!
# C77 — Shapelets fit in the series, and labels come back as they were given
-/
set_option linter.unusedSectionVars false
namespace Verif
open Spec

theorem shpMapM_ok {α β : Type} (f : α → Except PyErr β) (g : α → β) : ∀ l : List α, (∀ a ∈ l, f a = .ok (g a)) → l.mapM f = .ok (l.map g)
  | [], _ => rfl
  | a :: l, h => by
    rw [List.mapM_cons, h a (by simp), shpMapM_ok f g l fun b hb => h b (by simp [hb])]
    rfl

theorem shpMapM_error {α β : Type} (f : α → Except PyErr β) : ∀ l : List α, (∃ a ∈ l, ∃ e, f a = .error e) → ∃ e, l.mapM f = .error e
  | [], h => by simp at h
  | a :: l, h => by
    rw [List.mapM_cons]
    cases ha : f a with
    | error e => exact ⟨e, rfl⟩
    | ok b =>
      obtain ⟨a', ha', e, he⟩ := h
      rcases List.mem_cons.1 ha' with rfl | h'
      · rw [ha] at he; cases he
      · obtain ⟨e', h2⟩ := shpMapM_error f l ⟨a', h', e, he⟩
        exact ⟨e', by rw [h2]; rfl⟩

/-- The heuristic gives the multiples of the base length, each with as many shapelets as the number of candidate windows has digits after the first,
and at least one, when all of them fit in the series. -/
theorem C77_sizes_partial (nTs tsSz nClasses : ℕ) (l : ℚ) (r : ℕ) (hn : 0 < nTs) (hc : 2 ≤ nClasses) (hlr : l * r ≤ 1) :
    ∃ out, grabocka nTs tsSz nClasses l r = .ok out ∧
      out.map Prod.fst = (List.range (min r tsSz)).map (fun i => max 1 ⌊l * tsSz⌋₊ * (i + 1)) ∧
      ∀ p ∈ out, 1 ≤ p.1 ∧ p.1 ≤ tsSz ∧ 1 ≤ p.2 ∧ nTs * (tsSz - p.1 + 1) * (nClasses - 1) < 10 ^ (p.2 + 1) ∧
        (p.2 = 1 ∨ 10 ^ p.2 ≤ nTs * (tsSz - p.1 + 1) * (nClasses - 1)) := by
  have hmin : (min (r : ℤ) tsSz).toNat = min r tsSz := by omega
  have hb1 : 1 ≤ grabockaBase tsSz l := le_max_right _ _
  have hfit : ∀ i < min r tsSz, grabockaBase tsSz l * (i + 1) ≤ tsSz := by
    intro i hi
    by_cases hf : 1 ≤ ⌊l * tsSz⌋₊
    · have hb : grabockaBase tsSz l = ⌊l * tsSz⌋₊ := max_eq_left hf
      have hpos : 0 ≤ l * tsSz := by
        by_contra h
        rw [Nat.floor_of_nonpos (by linarith)] at hf
        omega
      have h1 : ((⌊l * tsSz⌋₊ : ℕ) : ℚ) ≤ l * tsSz := Nat.floor_le hpos
      have h2 : ((⌊l * tsSz⌋₊ * (i + 1) : ℕ) : ℚ) ≤ tsSz := by
        push_cast
        have hi' : ((i : ℚ) + 1) ≤ r := by exact_mod_cast (by omega : i + 1 ≤ r)
        calc ((⌊l * tsSz⌋₊ : ℕ) : ℚ) * (i + 1) ≤ (l * tsSz) * r := mul_le_mul h1 hi' (by positivity) hpos
          _ = (l * r) * tsSz := by ring
          _ ≤ 1 * tsSz := mul_le_mul_of_nonneg_right hlr (by positivity)
          _ = tsSz := one_mul _
      rw [hb]
      exact_mod_cast h2
    · have hb : grabockaBase tsSz l = 1 := by unfold grabockaBase; omega
      rw [hb]; omega
  have hx : ∀ i < min r tsSz, intLog10 ((nTs : ℤ) * ((tsSz : ℤ) - (grabockaBase tsSz l * (i + 1) : ℕ) + 1) * ((nClasses : ℤ) - 1)) =
      .ok (Nat.log 10 (nTs * (tsSz - grabockaBase tsSz l * (i + 1) + 1) * (nClasses - 1))) := by
    intro i hi
    have h := hfit i hi
    have e : (nTs : ℤ) * ((tsSz : ℤ) - (grabockaBase tsSz l * (i + 1) : ℕ) + 1) * ((nClasses : ℤ) - 1) =
        ((nTs * (tsSz - grabockaBase tsSz l * (i + 1) + 1) * (nClasses - 1) : ℕ) : ℤ) := by
      push_cast [Nat.cast_sub h, Nat.cast_sub (by omega : 1 ≤ nClasses)]
      ring
    rw [e]
    unfold intLog10
    have hp : 0 < nTs * (tsSz - grabockaBase tsSz l * (i + 1) + 1) * (nClasses - 1) := by
      have : 0 < nClasses - 1 := by omega
      positivity
    rw [if_neg (by exact_mod_cast hp.ne'), if_neg (by omega), Int.toNat_natCast]
  refine ⟨_, shpMapM_ok _ (fun i => (grabockaBase tsSz l * (i + 1),
    max 1 (Nat.log 10 (nTs * (tsSz - grabockaBase tsSz l * (i + 1) + 1) * (nClasses - 1))))) _ ?_, ?_, ?_⟩
  · intro i hi
    rw [List.mem_range, hmin] at hi
    simp only [hx i hi]
    rfl
  · rw [List.map_map, hmin]
    apply List.map_congr_left
    intro i _
    simp only [Function.comp_apply, grabockaBase, max_comm]
  · intro p hp
    obtain ⟨i, hi, rfl⟩ := List.mem_map.1 hp
    rw [List.mem_range, hmin] at hi
    have hpos : 0 < nTs * (tsSz - grabockaBase tsSz l * (i + 1) + 1) * (nClasses - 1) := by
      have : 0 < nClasses - 1 := by omega
      positivity
    refine ⟨Nat.mul_pos hb1 (by omega), hfit i hi, le_max_left _ _, ?_, ?_⟩
    · apply (Nat.lt_pow_succ_log_self (b := 10) (by norm_num) _).trans_le
      apply Nat.pow_le_pow_right (by norm_num)
      exact Nat.succ_le_succ (le_max_right _ _)
    · simp only
      rcases max_choice 1 (Nat.log 10 (nTs * (tsSz - grabockaBase tsSz l * (i + 1) + 1) * (nClasses - 1))) with h | h
      · exact .inl h
      · right; rw [h]; exact Nat.pow_log_le_self 10 hpos.ne'

/-- It works exactly when the longest of the lengths asked for fits in the series (given two classes). -/
theorem C77_sizes_exact (nTs tsSz nClasses : ℕ) (l : ℚ) (r : ℕ) (hn : 0 < nTs) (hc : 2 ≤ nClasses) :
    (∃ out, grabocka nTs tsSz nClasses l r = .ok out) ↔ max 1 ⌊l * tsSz⌋₊ * min r tsSz ≤ tsSz := by
  have hmin : (min (r : ℤ) tsSz).toNat = min r tsSz := by omega
  have hc' : (0 : ℤ) < (nClasses : ℤ) - 1 := by omega
  have hn' : (0 : ℤ) < nTs := by omega
  have hbase : grabockaBase tsSz l = max 1 ⌊l * tsSz⌋₊ := max_comm _ _
  constructor
  · rintro ⟨out, ho⟩
    by_contra hlt
    push Not at hlt
    have hr : 0 < min r tsSz := by
      rcases Nat.eq_zero_or_pos (min r tsSz) with h | h
      · rw [h] at hlt; omega
      · exact h
    obtain ⟨e, he⟩ := shpMapM_error (fun i => do
        let shp := grabockaBase tsSz l * (i + 1)
        let n ← intLog10 ((nTs : ℤ) * ((tsSz : ℤ) - shp + 1) * ((nClasses : ℤ) - 1))
        return (shp, max 1 n)) (List.range (min (r : ℤ) tsSz).toNat) ⟨min r tsSz - 1, by rw [List.mem_range, hmin]; omega, by
      have hs : min r tsSz - 1 + 1 = min r tsSz := by omega
      simp only [hs, hbase]
      have hle : (tsSz : ℤ) - ((max 1 ⌊l * tsSz⌋₊ * min r tsSz : ℕ) : ℤ) + 1 ≤ 0 := by omega
      have hx : (nTs : ℤ) * ((tsSz : ℤ) - ((max 1 ⌊l * tsSz⌋₊ * min r tsSz : ℕ) : ℤ) + 1) * ((nClasses : ℤ) - 1) ≤ 0 :=
        mul_nonpos_of_nonpos_of_nonneg (mul_nonpos_of_nonneg_of_nonpos hn'.le hle) hc'.le
      unfold intLog10
      split_ifs with h1 h2
      · exact ⟨_, rfl⟩
      · exact ⟨_, rfl⟩
      · exact absurd (lt_of_le_of_ne hx h1) h2⟩
    unfold grabocka at ho
    rw [he] at ho
    cases ho
  · intro hle
    unfold grabocka
    refine ⟨_, shpMapM_ok _ (fun i => (grabockaBase tsSz l * (i + 1),
      max 1 (Nat.log 10 ((nTs : ℤ) * ((tsSz : ℤ) - (grabockaBase tsSz l * (i + 1) : ℕ) + 1) * ((nClasses : ℤ) - 1)).toNat))) _ ?_⟩
    intro i hi
    rw [List.mem_range, hmin] at hi
    have hb : grabockaBase tsSz l * (i + 1) ≤ tsSz := by
      rw [hbase]
      exact (Nat.mul_le_mul_left _ (by omega)).trans hle
    have hx : 0 < (nTs : ℤ) * ((tsSz : ℤ) - (grabockaBase tsSz l * (i + 1) : ℕ) + 1) * ((nClasses : ℤ) - 1) :=
      mul_pos (mul_pos hn' (by omega)) hc'
    simp only
    unfold intLog10
    rw [if_neg hx.ne', if_neg (by omega)]
    rfl

/-- False in general: lengths that do not fit make it fail instead of being left out. -/
theorem C77_false_sizes : grabocka 100 10 3 (1 / 2) 3 = .error .valueError ∧ grabocka 100 11 3 (1 / 3) 4 = .error .overflow := by decide +kernel

/-- The initial shapelets are made of windows of the training series without padding, if no series is shorter than the shapelets; `choice` is the
generator. -/
theorem C77_init (sizes : List ℕ) (shpLen : ℕ) (ts : ℕ → ℕ) (choice : ℕ → ℕ → ℕ) (nDraw : ℕ) (hch : ∀ j m, 0 < m → choice j m < m)
    (hts : ∀ j < nDraw, ts j < sizes.length) :
    ((∀ s ∈ sizes, shpLen ≤ s) → ∃ out, initWindows sizes shpLen ts choice nDraw = .ok out ∧ out.length = nDraw ∧
      ∀ p ∈ out, ∃ s, sizes[p.1]? = some s ∧ p.2 + shpLen ≤ s) ∧
    ((∃ j < nDraw, ∃ s, sizes[ts j]? = some s ∧ s < shpLen) → ∃ e, initWindows sizes shpLen ts choice nDraw = .error e) := by
  constructor
  · intro h
    have hsz : ∀ j < nDraw, ∃ s, sizes[ts j]? = some s ∧ sizes.getD (ts j) 0 = s ∧ shpLen ≤ s := by
      intro j hj
      refine ⟨sizes[ts j]'(hts j hj), List.getElem?_eq_getElem _, List.getD_eq_getElem _ _ (hts j hj), h _ (List.getElem_mem _)⟩
    refine ⟨_, shpMapM_ok _ (fun j => (ts j, choice j (sizes.getD (ts j) 0 - shpLen + 1))) _ ?_, by simp, ?_⟩
    · intro j hj
      obtain ⟨s, -, h2, h3⟩ := hsz j (List.mem_range.1 hj)
      simp only [h2]
      rw [if_neg (by omega)]
    · intro p hp
      obtain ⟨j, hj, rfl⟩ := List.mem_map.1 hp
      obtain ⟨s, h1, h2, h3⟩ := hsz j (List.mem_range.1 hj)
      refine ⟨s, h1, ?_⟩
      have := hch j (sizes.getD (ts j) 0 - shpLen + 1) (by omega)
      simp only
      rw [h2] at this ⊢
      omega
  · rintro ⟨j, hj, s, hs, hlt⟩
    apply shpMapM_error
    refine ⟨j, List.mem_range.2 hj, .valueError, ?_⟩
    have : sizes.getD (ts j) 0 = s := by rw [List.getD_eq_getElem?_getD, hs]; rfl
    simp only [this]
    rw [if_pos hlt]

section
variable {L : Type} [LinearOrder L]

theorem mem_shpClasses {y : List L} {c : L} : c ∈ shpClasses y ↔ c ∈ y := by
  unfold shpClasses
  rw [List.mem_insertionSort, List.mem_dedup]

theorem shpClasses_nodup (y : List L) : (shpClasses y).Nodup :=
  (List.perm_insertionSort _ _).nodup_iff.2 (List.nodup_dedup y)

theorem shpClasses_sorted (y : List L) : (shpClasses y).Pairwise fun a b => a < b := by
  have h1 := List.pairwise_insertionSort (fun a b : L => a ≤ b) y.dedup
  have h2 := shpClasses_nodup y
  unfold shpClasses at h2 ⊢
  exact (h1.and h2).imp fun h => lt_of_le_of_ne h.1 h.2

theorem foldl_max_le : ∀ (l : List ℕ) (a : ℕ), a ≤ l.foldl max a ∧ (∀ x ∈ l, x ≤ l.foldl max a) ∧ (l.foldl max a = a ∨ l.foldl max a ∈ l)
  | [], a => by simp
  | b :: l, a => by
    obtain ⟨h1, h2, h3⟩ := foldl_max_le l (max a b)
    rw [List.foldl_cons]
    refine ⟨(le_max_left _ _).trans h1, ?_, ?_⟩
    · intro x hx
      rcases List.mem_cons.1 hx with rfl | hx
      · exact (le_max_right _ _).trans h1
      · exact h2 x hx
    · rcases h3 with h | h
      · rw [h]
        rcases max_choice a b with e | e
        · exact .inl e
        · rw [e]; exact .inr List.mem_cons_self
      · exact .inr (List.mem_cons_of_mem _ h)

theorem shpCols {y : List L} (hy : y ≠ []) : (y.map fun lab => (shpClasses y).idxOf lab).foldl max 0 + 1 = (shpClasses y).length := by
  obtain ⟨h1, h2, h3⟩ := foldl_max_le (y.map fun lab => (shpClasses y).idxOf lab) 0
  obtain ⟨a, ha⟩ := List.exists_mem_of_ne_nil y hy
  have hpos : 0 < (shpClasses y).length := List.length_pos_of_mem (mem_shpClasses.2 ha)
  apply le_antisymm
  · rcases h3 with h | h
    · rw [h]; omega
    · obtain ⟨lab, hl, e⟩ := List.mem_map.1 h
      rw [← e]
      exact List.idxOf_lt_length_iff.2 (mem_shpClasses.2 hl)
  · have hlast : (shpClasses y)[(shpClasses y).length - 1] ∈ y := mem_shpClasses.1 (List.getElem_mem _)
    have := h2 _ (List.mem_map.2 ⟨_, hlast, rfl⟩)
    rw [List.Nodup.idxOf_getElem (shpClasses_nodup y)] at this
    omega

/-- Training targets: with three labels or more the row of a series has a 1 in the column of its label and 0 elsewhere, the columns being the
different labels in increasing order; with two labels there is one column, 1 for the greater label. -/
theorem C77_targets (y : List L) (hy : y ≠ []) (i : ℕ) (hi : i < y.length) :
    (∀ c, c ∈ shpClasses y ↔ c ∈ y) ∧ ((shpClasses y).Pairwise fun a b => a < b) ∧
    ((shpClasses y).length ≠ 2 → (shpTargets y)[i]? = some ((shpClasses y).map fun c => if c = y[i] then 1 else 0)) ∧
    (∀ a b, shpClasses y = [a, b] → (shpTargets y)[i]? = some [if y[i] = b then 1 else 0]) := by
  have hrow : (List.range (shpClasses y).length).map (fun c => if c = (shpClasses y).idxOf y[i] then (1 : ℚ) else 0) =
      (shpClasses y).map fun c => if c = y[i] then 1 else 0 := by
    apply List.ext_getElem
    · simp
    · intro k h1 h2
      simp only [List.getElem_map, List.getElem_range]
      have hk : k < (shpClasses y).length := by simpa using h1
      congr 1
      rw [eq_iff_iff]
      constructor
      · intro h
        subst h
        exact List.getElem_idxOf hk
      · intro h
        rw [← h, List.Nodup.idxOf_getElem (shpClasses_nodup y)]
  refine ⟨fun c => mem_shpClasses, shpClasses_sorted y, ?_, ?_⟩
  · intro hne
    unfold shpTargets
    simp only [if_neg hne, List.map_map, List.getElem?_map, List.getElem?_eq_getElem hi, Option.map_some, Function.comp_apply, shpCols hy, hrow]
  · intro a b hab
    have h2 : (shpClasses y).length = 2 := by rw [hab]; rfl
    unfold shpTargets
    simp only [if_pos h2, List.map_map, List.getElem?_map, List.getElem?_eq_getElem hi, Option.map_some, Function.comp_apply, shpCols hy, hrow]
    rw [hab]
    simp [eq_comm]

variable {Q K : Type} [Field K] [LinearOrder K] [IsStrictOrderedRing K]

/-- After a successful fit: probabilities are those of the network, completed when there are two labels, one for each label; the label predicted is
that of the greatest (the first one), hence a label of the training set. -/
theorem C77_predict (train : List (List ℚ) → List (ℕ × ℕ) → Q → List K) (sizes : Option (List (ℕ × ℕ))) (l : ℚ) (r : ℤ) (o o' : ShpClf L Q K)
    (nTs minSz : ℕ) (y : List L) (hf : shpClfFit train sizes l r o nTs minSz y = (o', none))
    (hout : ∀ s x, (train (shpTargets y) s x).length = if 2 < (shpClasses y).length then (shpClasses y).length else 1) (hy : y ≠ []) (x : Q) :
    ∃ s ps c, (sizes = some s ∨ sizes = none ∧ grabocka nTs minSz (shpClasses y).length l r = .ok s) ∧
      shpProba o' x = .ok ps ∧ ps.length = (shpClasses y).length ∧
      (∀ a b, shpClasses y = [a, b] → ∃ p, train (shpTargets y) s x = [p] ∧ ps = [1 - p, p]) ∧
      (2 < (shpClasses y).length → ps = train (shpTargets y) s x) ∧
      FirstGreatest ps.length (fun k => ps.getD k 0) c ∧ ∃ lab, (shpClasses y)[c]? = some lab ∧ shpPredict o' x = .ok lab ∧ lab ∈ y := by
  have hpos : 0 < (shpClasses y).length := by
    obtain ⟨a, ha⟩ := List.exists_mem_of_ne_nil y hy
    exact List.length_pos_of_mem (mem_shpClasses.2 ha)
  unfold shpClfFit at hf
  simp only at hf
  split_ifs at hf with h1
  · simp at hf
  have key : ∃ s, (sizes = some s ∨ sizes = none ∧ grabocka nTs minSz (shpClasses y).length l r = .ok s) ∧
      o' = { classes := some (shpClasses y), fitted := true, net := some (train (shpTargets y) s) } := by
    cases sizes with
    | some s =>
      simp only [Prod.mk.injEq, and_true] at hf
      exact ⟨s, .inl rfl, hf.symm⟩
    | none =>
      cases hg : grabocka nTs minSz (shpClasses y).length l r with
      | error e => rw [hg] at hf; simp at hf
      | ok s =>
        rw [hg] at hf
        simp only [Prod.mk.injEq, and_true] at hf
        exact ⟨s, .inr ⟨rfl, rfl⟩, hf.symm⟩
  obtain ⟨s, hs, rfl⟩ := key
  have hproba : ∃ ps, shpProba { classes := some (shpClasses y), fitted := true, net := some (train (shpTargets y) s) } x = .ok ps ∧
      ps.length = (shpClasses y).length ∧ (∀ a b, shpClasses y = [a, b] → ∃ p, train (shpTargets y) s x = [p] ∧ ps = [1 - p, p]) ∧
      (2 < (shpClasses y).length → ps = train (shpTargets y) s x) := by
    have ho := hout s x
    unfold shpProba
    simp only [if_true, Option.getD_some]
    by_cases h2 : 2 < (shpClasses y).length
    · rw [if_pos h2] at ho
      refine ⟨train (shpTargets y) s x, ?_, ho, ?_, fun _ => rfl⟩
      · cases hn : train (shpTargets y) s x with
        | nil => rfl
        | cons p t =>
          cases t with
          | nil => rw [hn, List.length_singleton] at ho; omega
          | cons _ _ => rfl
      · intro a b hab; rw [hab] at h2; simp at h2
    · rw [if_neg h2] at ho
      have h2' : (shpClasses y).length = 2 := by omega
      obtain ⟨p, hp⟩ := List.length_eq_one_iff.1 ho
      refine ⟨[1 - p, p], ?_, by rw [h2']; rfl, ?_, fun h => absurd h h2⟩
      · rw [hp]; simp only [if_pos h2']
      · intro _ _ _; exact ⟨p, hp, rfl⟩
  obtain ⟨ps, hp1, hp2, hp3, hp4⟩ := hproba
  have hne : ps.map (fun p => -p) ≠ [] := by
    intro h
    rw [List.map_eq_nil_iff] at h
    rw [h] at hp2; simp at hp2; omega
  obtain ⟨v, hv1, hv2, hv3⟩ := argminL_spec (ps.map fun p => -p) hne
  generalize hc : argminL (ps.map fun p => -p) = c at hv1 hv3
  have hclt : c < ps.length := by
    by_contra h
    rw [List.getElem?_eq_none (by simpa using h)] at hv1
    cases hv1
  have hvc : v = -ps[c] := by
    rw [List.getElem?_map, List.getElem?_eq_getElem hclt] at hv1
    simpa using hv1.symm
  have hcl : c < (shpClasses y).length := by omega
  refine ⟨s, ps, c, hs, hp1, hp2, hp3, hp4, ⟨hclt, ?_, ?_⟩, (shpClasses y)[c], List.getElem?_eq_getElem hcl, ?_, mem_shpClasses.1 (List.getElem_mem _)⟩
  · intro j hj
    simp only
    rw [List.getD_eq_getElem _ _ hj, List.getD_eq_getElem _ _ hclt]
    have := hv2 (-ps[j]) (List.mem_map.2 ⟨_, List.getElem_mem _, rfl⟩)
    rw [hvc] at this
    linarith
  · intro j hj
    have hj' : j < ps.length := by omega
    simp only
    rw [List.getD_eq_getElem _ _ hj', List.getD_eq_getElem _ _ hclt]
    have := hv3 j hj (-ps[j]) (by rw [List.getElem?_map, List.getElem?_eq_getElem hj']; rfl)
    rw [hvc] at this
    linarith
  · unfold shpPredict
    rw [hp1]
    simp only [bind, Except.bind, hc, Option.getD_some, List.getElem?_eq_getElem hcl]

/-- With two labels the greater one is predicted exactly when the output of the network is above one half. -/
theorem C77_two (train : List (List ℚ) → List (ℕ × ℕ) → Q → List K) (sizes : Option (List (ℕ × ℕ))) (l : ℚ) (r : ℤ) (o o' : ShpClf L Q K)
    (nTs minSz : ℕ) (y : List L) (hf : shpClfFit train sizes l r o nTs minSz y = (o', none)) (a b : L) (hab : shpClasses y = [a, b])
    (p : K) (x : Q) (hp : ∀ s, train (shpTargets y) s x = [p]) :
    shpProba o' x = .ok [1 - p, p] ∧ shpPredict o' x = .ok (if 1 / 2 < p then b else a) := by
  have hlen : (shpClasses y).length = 2 := by rw [hab]; rfl
  have key : ∃ s, o' = { classes := some (shpClasses y), fitted := true, net := some (train (shpTargets y) s) } := by
    unfold shpClfFit at hf
    simp only [hlen] at hf
    rw [if_neg (by decide)] at hf
    cases sizes with
    | some s => simp only [Prod.mk.injEq, and_true] at hf; exact ⟨s, hf.symm⟩
    | none =>
      cases hg : grabocka nTs minSz 2 l r with
      | error e => rw [hg] at hf; simp at hf
      | ok s => rw [hg] at hf; simp only [Prod.mk.injEq, and_true] at hf; exact ⟨s, hf.symm⟩
  obtain ⟨s, rfl⟩ := key
  have h1 : shpProba { classes := some (shpClasses y), fitted := true, net := some (train (shpTargets y) s) } x = .ok [1 - p, p] := by
    unfold shpProba
    simp only [if_true, hp, Option.getD_some, hlen]
  refine ⟨h1, ?_⟩
  unfold shpPredict
  rw [h1]
  simp only [bind, Except.bind, List.map_cons, List.map_nil, argminL, hab, Option.getD_some, List.getElem?_cons_zero]
  by_cases h : 1 / 2 < p
  · rw [if_pos h, if_pos (by linarith)]; rfl
  · rw [if_neg h, if_neg (by push Not at h ⊢; linarith)]; rfl

/-- A classifier that was never fitted refuses to predict. -/
theorem C77_unfitted (o : ShpClf L Q K) (h : o.fitted = false) (x : Q) :
    shpProba o x = .error .notFitted ∧ shpPredict o x = .error .notFitted := by
  have h1 : shpProba o x = .error .notFitted := by unfold shpProba; simp [h]
  exact ⟨h1, by unfold shpPredict; rw [h1]; rfl⟩

example : shpPredict ({} : ShpClf ℕ ℕ ℚ) 3 = .error .notFitted := (C77_unfitted _ rfl 3).2

/-- False: an estimator survives a failed fit. After a fit on two labels and one on a single label, which raises, every series is given that
label. -/
theorem C77_false_failed_fit (train : List (List ℚ) → List (ℕ × ℕ) → Q → List K) (s : List (ℕ × ℕ)) (l : ℚ) (r : ℤ) (o : ShpClf L Q K) (nTs minSz nTs' minSz' : ℕ)
    (y y' : List L) (a b c : L) (hab : shpClasses y = [a, b]) (hc : shpClasses y' = [c]) (hp : ∀ x, (train (shpTargets y) s x).length = 1) :
    ∃ o1 o2, shpClfFit train (some s) l r o nTs minSz y = (o1, none) ∧ shpClfFit train (some s) l r o1 nTs' minSz' y' = (o2, some .valueError) ∧
      ∀ x, shpPredict o2 x = .ok c := by
  refine ⟨{ classes := some (shpClasses y), fitted := true, net := some (train (shpTargets y) s) },
    { classes := some [c], fitted := true, net := some (train (shpTargets y) s) }, ?_, ?_, ?_⟩
  · unfold shpClfFit; simp only [hab]; rfl
  · unfold shpClfFit; simp only [hc]; rfl
  · intro x
    obtain ⟨p, hp'⟩ := List.length_eq_one_iff.1 (hp x)
    unfold shpPredict shpProba
    simp only [if_true, hp', Option.getD_some]
    rfl

/-- False: a fit whose heuristic fails takes the network away, and later predictions fail with an internal error. -/
theorem C77_false_failed_sizes (train : List (List ℚ) → List (ℕ × ℕ) → Q → List K) (l : ℚ) (r : ℤ) (o : ShpClf L Q K) (nTs minSz : ℕ) (y : List L)
    (e : PyErr) (h1 : (shpClasses y).length ≠ 1) (hg : grabocka nTs minSz (shpClasses y).length l r = .error e) :
    ∃ o1, shpClfFit train none l r o nTs minSz y = (o1, some e) ∧ ∀ x, shpPredict o1 x = .error .attributeError := by
  refine ⟨{ classes := some (shpClasses y), fitted := true, net := none }, ?_, fun x => rfl⟩
  unfold shpClfFit
  simp only [if_neg h1, hg]

end

/-- False: series shorter than a shapelet are refused. With lengths from the heuristic, queries of any sizes pass the check. -/
theorem C77_false_short (check : ShpData → Option PyErr) (o : ShpObj) (hl : o.lengths = none) (m d : ℕ) (hf : o.fitDims = some (m, d)) (hm : o.maxSize = none)
    (sizes : List ℕ) (hc : check ⟨m, d, sizes⟩ = none) : shpQuery check o ⟨m, d, sizes⟩ = .ok ⟨m, d, sizes⟩ := by
  have hlim : ∀ n, o.limit n = m := fun n => by unfold ShpObj.limit; rw [hm, hf]
  unfold shpQuery
  rw [hf]
  simp only [hc]
  unfold shpPreprocess
  rw [if_neg (by rw [hlim]; simp)]
  unfold shpCheck shpShort
  rw [hl]
  simp [hlim]

/-- The default parameters (15 percent, three lengths) on 100 series of 100 samples in 3 classes. -/
example : grabocka 100 100 3 (15 / 100) 3 = .ok [(15, 4), (30, 4), (45, 4)] := by decide +kernel
example : (15 / 100 : ℚ) * (3 : ℕ) ≤ 1 := by norm_num
example : grabocka 100 2 3 (15 / 100) 3 = .ok [(1, 2), (2, 2)] := by decide +kernel

example : shpTargets [3, 1, 2, 1] = [[0, 0, 1], [1, 0, 0], [0, 1, 0], [1, 0, 0]] := by decide +kernel
example : shpTargets [-1, 1, 1] = [[0], [1], [1]] := by decide +kernel

/-- Fitted on labels -1 and 1, then on label 7 only: every series is labelled 7. -/
example : ∃ o1 o2, shpClfFit (fun _ _ (x : ℚ) => [x]) (some [(3, 1)]) 0 0 {} 3 5 [-1, 1, 1] = (o1, none) ∧
    shpClfFit (fun _ _ (x : ℚ) => [x]) (some [(3, 1)]) 0 0 o1 2 5 [7, 7] = (o2, some .valueError) ∧ ∀ x, shpPredict o2 x = .ok (7 : ℤ) :=
  C77_false_failed_fit _ _ _ _ _ _ _ _ _ _ _ (-1) 1 7 (by decide +kernel) (by decide +kernel) (by simp)

example : ∃ o', shpClfFit (fun _ _ (x : ℚ) => [x]) none (15 / 100) 3 {} 3 10 [-1, 1, 1] = (o', none) ∧
    shpPredict o' (3 / 5) = .ok (1 : ℤ) ∧ shpPredict o' (1 / 2) = .ok (-1 : ℤ) := by
  have hc : shpClasses [(-1 : ℤ), 1, 1] = [-1, 1] := by decide +kernel
  have hg : grabocka 3 10 2 (15 / 100) 3 = .ok [(1, 1), (2, 1), (3, 1)] := by decide +kernel
  have hf : shpClfFit (fun _ _ (x : ℚ) => [x]) none (15 / 100) 3 {} 3 10 [(-1 : ℤ), 1, 1] =
      ({ classes := some [-1, 1], fitted := true, net := some fun x => [x] }, none) := by
    unfold shpClfFit
    simp [hc, hg]
  refine ⟨_, hf, ?_, ?_⟩
  · rw [(C77_two _ _ _ _ _ _ _ _ _ hf (-1) 1 hc (3 / 5) (3 / 5) fun _ => rfl).2]; norm_num
  · rw [(C77_two _ _ _ _ _ _ _ _ _ hf (-1) 1 hc (1 / 2) (1 / 2) fun _ => rfl).2]; norm_num

example : initWindows [5, 4] 4 (fun j => j % 2) (fun _ m => m - 1) 3 = .ok [(0, 1), (1, 0), (0, 1)] := by decide +kernel

end Verif
