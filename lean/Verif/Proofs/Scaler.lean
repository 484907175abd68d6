import Verif.Proofs.Cast
import Verif.Model.Scaler
import Mathlib.Algebra.Order.Field.Basic
import Mathlib.Tactic.FieldSimp
import Mathlib.Tactic.Ring
import Mathlib.Tactic.Linarith
import Mathlib.Tactic.Positivity
/-!
Lemmas on groups, `nanmin`, `nanmax`, `nanmean` and `nanstd`.
-/
set_option linter.unusedSectionVars false
namespace Verif

theorem mem_group {K : Type} (X : Arr3 K) (pt pf : Bool) (i f : ℕ) (v : K) :
    v ∈ X.group pt pf i f ↔ ∃ i' t f', i' < X.data.length ∧ t < X.sz ∧ f' < X.d ∧
      (pt = true → i' = i) ∧ (pf = true → f' = f) ∧ X.entry i' t f' = some v := by
  unfold Arr3.group
  simp only [List.mem_flatMap, List.mem_range]
  constructor
  · rintro ⟨i', hi', h⟩
    split_ifs at h with h1
    · simp at h
    · simp only [List.mem_flatMap, List.mem_range, List.mem_filterMap] at h
      obtain ⟨t, ht, f', hf', h⟩ := h
      split_ifs at h with h2
      refine ⟨i', t, f', hi', ht, hf', fun e => ?_, fun e => ?_, h⟩
      · by_contra hc; exact h1 ⟨e, hc⟩
      · by_contra hc; exact h2 ⟨e, hc⟩
  · rintro ⟨i', t, f', hi', ht, hf', h1, h2, h⟩
    refine ⟨i', hi', ?_⟩
    rw [if_neg (fun hc => hc.2 (h1 hc.1))]
    simp only [List.mem_flatMap, List.mem_range, List.mem_filterMap]
    exact ⟨t, ht, f', hf', by rw [if_neg (fun hc => hc.2 (h2 hc.1))]; exact h⟩

section
variable {K : Type} [Field K] [LinearOrder K]

theorem nanfold_min_spec (xs : List K) (x : K) :
    xs.foldl min x ∈ x :: xs ∧ ∀ v ∈ x :: xs, xs.foldl min x ≤ v := by
  induction xs generalizing x with
  | nil => simp
  | cons y ys ih =>
    obtain ⟨h1, h2⟩ := ih (min x y)
    simp only [List.foldl_cons]
    refine ⟨?_, ?_⟩
    · rcases List.mem_cons.1 h1 with e | e
      · rw [e]; rcases min_choice x y with c | c <;> rw [c] <;> simp
      · simp [e]
    · intro v hv
      have h3 := h2 (min x y) (by simp)
      rcases List.mem_cons.1 hv with rfl | hv
      · exact h3.trans (min_le_left _ _)
      · rcases List.mem_cons.1 hv with rfl | hv
        · exact h3.trans (min_le_right _ _)
        · exact h2 v (by simp [hv])

theorem nanfold_max_spec (xs : List K) (x : K) :
    xs.foldl max x ∈ x :: xs ∧ ∀ v ∈ x :: xs, v ≤ xs.foldl max x := by
  induction xs generalizing x with
  | nil => simp
  | cons y ys ih =>
    obtain ⟨h1, h2⟩ := ih (max x y)
    simp only [List.foldl_cons]
    refine ⟨?_, ?_⟩
    · rcases List.mem_cons.1 h1 with e | e
      · rw [e]; rcases max_choice x y with c | c <;> rw [c] <;> simp
      · simp [e]
    · intro v hv
      have h3 := h2 (max x y) (by simp)
      rcases List.mem_cons.1 hv with rfl | hv
      · exact (le_max_left _ _).trans h3
      · rcases List.mem_cons.1 hv with rfl | hv
        · exact (le_max_right _ _).trans h3
        · exact h2 v (by simp [hv])

theorem nanMin_spec (g : List K) (m : K) (hm : m ∈ g) (hle : ∀ v ∈ g, m ≤ v) : nanMin g = some m := by
  cases g with
  | nil => simp at hm
  | cons x xs =>
    obtain ⟨h1, h2⟩ := nanfold_min_spec xs x
    exact congrArg some (le_antisymm (h2 _ hm) (hle _ h1))

theorem nanMax_spec (g : List K) (m : K) (hm : m ∈ g) (hle : ∀ v ∈ g, v ≤ m) : nanMax g = some m := by
  cases g with
  | nil => simp at hm
  | cons x xs =>
    obtain ⟨h1, h2⟩ := nanfold_max_spec xs x
    exact congrArg some (le_antisymm (hle _ h1) (h2 _ hm))

theorem exists_min_max (g : List K) (hg : g ≠ []) :
    ∃ m M, m ∈ g ∧ M ∈ g ∧ ∀ v ∈ g, m ≤ v ∧ v ≤ M := by
  cases g with
  | nil => exact absurd rfl hg
  | cons x xs =>
    obtain ⟨h1, h2⟩ := nanfold_min_spec xs x
    obtain ⟨h3, h4⟩ := nanfold_max_spec xs x
    exact ⟨_, _, h1, h3, fun v hv => ⟨h2 v hv, h4 v hv⟩⟩

end

theorem minMaxValue_none {K : Type} [Field K] [LinearOrder K] (lo hi : K) (a b : Option K) :
    minMaxValue lo hi a b none = none := by
  cases a <;> cases b <;> rfl

/-- The checks of `TimeSeriesScalerMinMax` pass on formatted data. -/
theorem minMaxTransform_ok {K : Type} [Field K] [LinearOrder K] (cfg : MinMaxCfg K) (F X : Arr3 K)
    (hF : Formatted F) (hX : Formatted X) (hFn : F.data ≠ []) (hXn : X.data ≠ []) (hFs : 0 < F.sz)
    (hXs : 0 < X.sz) (hd : F.d = X.d) (hr : cfg.lo < cfg.hi) :
    minMaxTransform cfg F X = .ok (Arr3.build X.data.length X.sz X.d fun i t f =>
      minMaxValue cfg.lo cfg.hi
        (nanMin (if cfg.perTs then X.group true cfg.perFeat i f else F.group false cfg.perFeat 0 f))
        (nanMax (if cfg.perTs then X.group true cfg.perFeat i f else F.group false cfg.perFeat 0 f))
        (X.entry i t f)) := by
  simp [minMaxTransform, hF.toDataset_slots, hX.toDataset_slots, bind, Except.bind, pure, Except.pure,
    hFn, hXn, hFs.ne', hXs.ne', hd, not_le.2 hr]

theorem meanVarTransform_ok (cfg : MeanVarCfg) (F X : Arr3 ℝ)
    (hF : Formatted F) (hX : Formatted X) (hFn : F.data ≠ []) (hXn : X.data ≠ []) (hd : F.d = X.d) :
    meanVarTransform cfg F X = .ok (Arr3.build X.data.length X.sz X.d fun i t f =>
      meanVarValue cfg.mu cfg.std
        (nanMean (if cfg.perTs then X.group true cfg.perFeat i f else F.group false cfg.perFeat 0 f))
        (nanStd (if cfg.perTs then X.group true cfg.perFeat i f else F.group false cfg.perFeat 0 f))
        (X.entry i t f)) := by
  simp [meanVarTransform, hF.toDataset_slots, hX.toDataset_slots, bind, Except.bind, pure, Except.pure,
    hFn, hXn, hd]

open Spec in
theorem observed_entry {α : Type} {X : Arr3 α} (hX : X.WF) {i t : ℕ} :
    Observed (X.data.getD i []) t ↔ ∃ f < X.d, (X.entry i t f).isSome = true := by
  unfold Observed Arr3.entry
  constructor
  · rintro ⟨r, hr, v, hv, hs⟩
    obtain ⟨f, hf⟩ := List.mem_iff_getElem?.1 hv
    have hi : i < X.data.length := by
      by_contra hc
      rw [List.getD_eq_default _ _ (not_lt.1 hc)] at hr
      simp at hr
    have hw := hX (X.data.getD i []) (by rw [List.getD_eq_getElem _ _ hi]; exact List.getElem_mem hi)
    have hl := hw.2 r (List.mem_of_getElem? hr)
    refine ⟨f, ?_, ?_⟩
    · rw [← hl]; exact (List.getElem?_eq_some_iff.1 hf).1
    · simp [List.getD_eq_getElem?_getD] at *
      simp [hr, hf, hs]
  · rintro ⟨f, -, h⟩
    simp only [List.getD_eq_getElem?_getD] at *
    cases e : (X.data[i]?.getD [])[t]? with
    | none => simp [e] at h
    | some r =>
      simp only [e, Option.getD_some] at h
      cases e2 : r[f]? with
      | none => simp [e2] at h
      | some v => exact ⟨r, rfl, v, List.mem_of_getElem? e2, by simpa [e2] using h⟩

open Spec in
/-- The format only depends on the pattern of NaNs. -/
theorem Formatted.of_pattern {α β : Type} {X : Arr3 α} {Y : Arr3 β} (hX : Formatted X) (hY : Y.WF)
    (hs : Y.sz = X.sz) (hd : Y.d = X.d) (hl : Y.data.length = X.data.length)
    (h : ∀ i < X.data.length, ∀ t < X.sz, ∀ f < X.d, Y.entry i t f = none ↔ X.entry i t f = none) :
    Formatted Y := by
  refine ⟨hY, fun e => ?_, ?_⟩
  · rw [hs, hd]
    apply hX.empty
    rw [e] at hl
    exact List.length_eq_zero_iff.1 hl.symm
  · rcases hX.tight with e | ⟨s, hsm, hz⟩
    · left; omega
    · obtain ⟨i, hi, rfl⟩ := List.mem_iff_getElem.1 hsm
      rcases hz.1 with e | ho
      · left; omega
      · right
        have hi' : i < Y.data.length := by omega
        refine ⟨Y.data[i], List.getElem_mem hi', .inr ?_, ?_⟩
        · rw [← List.getD_eq_getElem X.data [] hi, observed_entry hX.wf] at ho
          obtain ⟨f, hf, hsome⟩ := ho
          rw [← List.getD_eq_getElem Y.data [] hi', observed_entry hY]
          refine ⟨f, by omega, ?_⟩
          rcases Nat.eq_zero_or_pos X.sz with hz0 | hz0
          · exfalso
            have hw := (hX.wf _ (List.getElem_mem hi)).1
            rw [hz0] at hw
            simp [Arr3.entry, hi, List.length_eq_zero_iff.1 hw] at hsome
          · have := h i hi (X.sz - 1) (by omega) f hf
            rw [hs, ← Option.ne_none_iff_isSome, Ne, this, ← Ne, Option.ne_none_iff_isSome]
            exact hsome
        · intro t ht
          rintro ⟨r, hr, -⟩
          have := (List.getElem?_eq_some_iff.1 hr).1
          rw [(hY _ (List.getElem_mem hi')).1] at this
          omega

theorem group_congr {K : Type} (X : Arr3 K) (pt pf : Bool) {i i' f f' : ℕ} (h1 : pt = true → i' = i)
    (h2 : pf = true → f' = f) : X.group pt pf i' f' = X.group pt pf i f := by
  unfold Arr3.group
  cases pt <;> cases pf <;> simp_all

theorem flatMap_single {K : Type} (j n : ℕ) (h : ℕ → List K) (hn : j < n) :
    ((List.range n).flatMap fun k => if (true = true ∧ k ≠ j) then [] else h k) = h j := by
  induction n with
  | zero => omega
  | succ n ih =>
    rw [List.range_succ, List.flatMap_append]
    rcases Nat.lt_succ_iff_lt_or_eq.1 hn with hlt | rfl
    · rw [ih hlt]; simp [hlt.ne']
    · have : ((List.range j).flatMap fun k => if (true = true ∧ k ≠ j) then [] else h k) = [] := by
        rw [List.flatMap_eq_nil_iff]
        intro k hk
        rw [if_pos ⟨rfl, (List.mem_range.1 hk).ne⟩]
      rw [this]; simp

theorem flatMap_congr' {K : Type} (l : List ℕ) (g h : ℕ → List K) (e : ∀ t ∈ l, g t = h t) :
    l.flatMap g = l.flatMap h := by
  induction l with
  | nil => rfl
  | cons a l ih => simp [e a (by simp), ih fun t ht => e t (by simp [ht])]

/-- The group of one series only depends on that series. -/
theorem group_series {K : Type} (X X' : Arr3 K) (pf : Bool) {i i' f : ℕ} (hs : X.sz = X'.sz)
    (hd : X.d = X'.d) (hi : i < X.data.length) (hi' : i' < X'.data.length)
    (heq : ∀ t < X.sz, ∀ f < X.d, X.entry i t f = X'.entry i' t f) :
    X.group true pf i f = X'.group true pf i' f := by
  have one : ∀ (Z : Arr3 K) (j : ℕ), j < Z.data.length → Z.group true pf j f =
      (List.range Z.sz).flatMap fun t => (List.range Z.d).filterMap fun f' =>
        if pf ∧ f' ≠ f then none else Z.entry j t f' := by
    intro Z j hj
    exact flatMap_single j _ _ hj
  rw [one X i hi, one X' i' hi', ← hs, ← hd]
  apply flatMap_congr'
  intro t ht
  apply List.filterMap_congr
  intro f' hf'
  rw [heq t (List.mem_range.1 ht) f' (List.mem_range.1 hf')]

end Verif
