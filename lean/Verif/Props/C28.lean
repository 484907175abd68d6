import Verif.Proofs.Scaler
import Mathlib.Tactic.NormNum
import Mathlib.Tactic.FinCases
import Mathlib.Algebra.Order.Ring.Rat
import Mathlib.Algebra.Field.Rat
/-!
# C28 — min-max scaling lands in the requested range, per series

The values that are scaled together with cell `(i, t, f)` are those of the cells `(i', t', f')` with
`i' = i` if `per_timeseries` and `f' = f` if `per_feature`.
-/
set_option linter.unusedSectionVars false
namespace Verif
open Spec
variable {K : Type} [Field K] [LinearOrder K] [IsStrictOrderedRing K]

/-- Every transformed value is the image of the input under the increasing affine map taking the smallest
reference value to `lo` and the largest to `hi` (slope `hi - lo` if they coincide). The reference values are
those of the fitted data, or of the transformed series itself in `per_timeseries` mode. NaN stays NaN. -/
theorem C28_affine (cfg : MinMaxCfg K) (F X : Arr3 K) (hF : Formatted F) (hX : Formatted X)
    (hFn : F.data ≠ []) (hXn : X.data ≠ []) (hFs : 0 < F.sz) (hXs : 0 < X.sz) (hd : F.d = X.d)
    (hr : cfg.lo < cfg.hi) :
    ∃ Y, minMaxTransform cfg F X = .ok Y ∧ Y.WF ∧ Y.data.length = X.data.length ∧ Y.sz = X.sz ∧ Y.d = X.d ∧
      ∀ i < X.data.length, ∀ f < X.d, ∀ m M : K,
        (∀ (R : Arr3 K), (R = if cfg.perTs then X else F) →
          (∀ b : K, b = m ∨ b = M → ∃ i' < R.data.length, ∃ t < R.sz, ∃ f' < R.d,
            (cfg.perTs = true → i' = i) ∧ (cfg.perFeat = true → f' = f) ∧ R.entry i' t f' = some b) ∧
          (∀ i' < R.data.length, ∀ t < R.sz, ∀ f' < R.d, (cfg.perTs = true → i' = i) →
            (cfg.perFeat = true → f' = f) → ∀ v, R.entry i' t f' = some v → m ≤ v ∧ v ≤ M)) →
        ∀ t < X.sz, Y.entry i t f = (X.entry i t f).map fun v =>
          cfg.lo + (v - m) * ((cfg.hi - cfg.lo) / (if m < M then M - m else 1)) := by
  refine ⟨_, minMaxTransform_ok cfg F X hF hX hFn hXn hFs hXs hd hr, Arr3.build_wf _ _ _ _,
    Arr3.build_length .., rfl, rfl, ?_⟩
  intro i hi f hf m M href t ht
  obtain ⟨h1, h2⟩ := href _ rfl
  rw [Arr3.build_entry hi ht hf]
  have key : ∃ g, (if cfg.perTs = true then X.group true cfg.perFeat i f else F.group false cfg.perFeat 0 f) = g ∧
      m ∈ g ∧ M ∈ g ∧ ∀ v ∈ g, m ≤ v ∧ v ≤ M := by
    refine ⟨_, rfl, ?_⟩
    cases hp : cfg.perTs with
    | true =>
      simp only [hp, if_true] at *
      refine ⟨(mem_group ..).2 ?_, (mem_group ..).2 ?_, ?_⟩
      · obtain ⟨i', a1, t', a2, f', a3, a4, a5, a6⟩ := h1 m (.inl rfl)
        exact ⟨i', t', f', a1, a2, a3, fun _ => a4 trivial, a5, a6⟩
      · obtain ⟨i', a1, t', a2, f', a3, a4, a5, a6⟩ := h1 M (.inr rfl)
        exact ⟨i', t', f', a1, a2, a3, fun _ => a4 trivial, a5, a6⟩
      · intro v hv
        obtain ⟨i', t', f', a1, a2, a3, a4, a5, a6⟩ := (mem_group ..).1 hv
        exact h2 i' a1 t' a2 f' a3 (fun _ => a4 rfl) a5 v a6
    | false =>
      simp only [hp, Bool.false_eq_true, if_false] at *
      refine ⟨(mem_group ..).2 ?_, (mem_group ..).2 ?_, ?_⟩
      · obtain ⟨i', a1, t', a2, f', a3, a4, a5, a6⟩ := h1 m (.inl rfl)
        exact ⟨i', t', f', a1, a2, a3, by simp, a5, a6⟩
      · obtain ⟨i', a1, t', a2, f', a3, a4, a5, a6⟩ := h1 M (.inr rfl)
        exact ⟨i', t', f', a1, a2, a3, by simp, a5, a6⟩
      · intro v hv
        obtain ⟨i', t', f', a1, a2, a3, a4, a5, a6⟩ := (mem_group ..).1 hv
        exact h2 i' a1 t' a2 f' a3 (by simp) a5 v a6
  obtain ⟨g, hg, hm, hM, hb⟩ := key
  rw [hg, nanMin_spec g m hm fun v hv => (hb v hv).1, nanMax_spec g M hM fun v hv => (hb v hv).2]
  cases X.entry i t f with
  | none => rfl
  | some v =>
    simp only [minMaxValue, Option.map_some, Option.some.injEq]
    by_cases hc : m < M
    · rw [if_neg (sub_ne_zero.2 hc.ne'), if_pos hc]; ring
    · have : M - m = 0 := by
        have := (hb m hm).2
        rw [le_antisymm (not_lt.1 hc) this, sub_self]
      rw [if_pos this, if_neg hc]; ring

/-- `fit_transform`: the shape and the NaNs are kept; every observed value lands in `[lo, hi]`; in a group
with two different values both bounds are attained; in a constant group every value becomes `lo`. -/
theorem C28_range (cfg : MinMaxCfg K) (X : Arr3 K) (hX : Formatted X) (hXn : X.data ≠ []) (hXs : 0 < X.sz)
    (hr : cfg.lo < cfg.hi) :
    ∃ Y, minMaxTransform cfg X X = .ok Y ∧ Formatted Y ∧ Y.data.length = X.data.length ∧ Y.sz = X.sz ∧
      Y.d = X.d ∧
      (∀ i < X.data.length, ∀ t < X.sz, ∀ f < X.d, Y.entry i t f = none ↔ X.entry i t f = none) ∧
      (∀ i < X.data.length, ∀ t < X.sz, ∀ f < X.d, ∀ y, Y.entry i t f = some y → cfg.lo ≤ y ∧ y ≤ cfg.hi) ∧
      (∀ i < X.data.length, ∀ f < X.d,
        (∃ i₁ < X.data.length, ∃ t₁ < X.sz, ∃ f₁ < X.d, ∃ i₂ < X.data.length, ∃ t₂ < X.sz, ∃ f₂ < X.d,
          ∃ v w, (cfg.perTs = true → i₁ = i ∧ i₂ = i) ∧ (cfg.perFeat = true → f₁ = f ∧ f₂ = f) ∧
          X.entry i₁ t₁ f₁ = some v ∧ X.entry i₂ t₂ f₂ = some w ∧ v ≠ w) →
        ∀ b, b = cfg.lo ∨ b = cfg.hi → ∃ i' < X.data.length, ∃ t' < X.sz, ∃ f' < X.d,
          (cfg.perTs = true → i' = i) ∧ (cfg.perFeat = true → f' = f) ∧ Y.entry i' t' f' = some b) ∧
      (∀ i < X.data.length, ∀ f < X.d, ∀ c,
        (∀ i' < X.data.length, ∀ t' < X.sz, ∀ f' < X.d, (cfg.perTs = true → i' = i) →
          (cfg.perFeat = true → f' = f) → ∀ v, X.entry i' t' f' = some v → v = c) →
        ∀ t < X.sz, ∀ y, Y.entry i t f = some y → y = cfg.lo) := by
  obtain ⟨Y, hY, hw, hl, hs, hd, haff⟩ := C28_affine cfg X X hX hX hXn hXn hXs hXs rfl hr
  have hR : (if cfg.perTs = true then X else X) = X := by split_ifs <;> rfl
  simp only [hR, forall_eq] at haff
  -- the group statistics at `(i, f)`
  have stats : ∀ i < X.data.length, ∀ f < X.d, ∀ t < X.sz, ∀ v, X.entry i t f = some v →
      ∃ m M, (∀ b : K, b = m ∨ b = M → ∃ i' < X.data.length, ∃ t < X.sz, ∃ f' < X.d,
            (cfg.perTs = true → i' = i) ∧ (cfg.perFeat = true → f' = f) ∧ X.entry i' t f' = some b) ∧
          (∀ i' < X.data.length, ∀ t < X.sz, ∀ f' < X.d, (cfg.perTs = true → i' = i) →
            (cfg.perFeat = true → f' = f) → ∀ v, X.entry i' t f' = some v → m ≤ v ∧ v ≤ M) := by
    intro i hi f hf t ht v hv
    have hne : X.group cfg.perTs cfg.perFeat i f ≠ [] := by
      apply List.ne_nil_of_mem (a := v)
      exact (mem_group ..).2 ⟨i, t, f, hi, ht, hf, fun _ => rfl, fun _ => rfl, hv⟩
    obtain ⟨m, M, hm, hM, hb⟩ := exists_min_max _ hne
    refine ⟨m, M, ?_, ?_⟩
    · intro b hb
      have : b ∈ X.group cfg.perTs cfg.perFeat i f := by rcases hb with rfl | rfl <;> assumption
      obtain ⟨i', t', f', a1, a2, a3, a4, a5, a6⟩ := (mem_group ..).1 this
      exact ⟨i', a1, t', a2, f', a3, a4, a5, a6⟩
    · intro i' a1 t' a2 f' a3 a4 a5 v a6
      exact hb v ((mem_group ..).2 ⟨i', t', f', a1, a2, a3, a4, a5, a6⟩)
  have val : ∀ i < X.data.length, ∀ t < X.sz, ∀ f < X.d, ∀ v, X.entry i t f = some v →
      ∃ y, Y.entry i t f = some y := by
    intro i hi t ht f hf v hv
    obtain ⟨m, M, h1, h2⟩ := stats i hi f hf t ht v hv
    rw [haff i hi f hf m M ⟨h1, h2⟩ t ht, hv]
    exact ⟨_, rfl⟩
  have hnone : ∀ i < X.data.length, ∀ t < X.sz, ∀ f < X.d, Y.entry i t f = none ↔ X.entry i t f = none := by
    intro i hi t ht f hf
    constructor
    · intro h
      cases e : X.entry i t f with
      | none => rfl
      | some v =>
        obtain ⟨y, hy⟩ := val i hi t ht f hf v e
        rw [h] at hy; simp at hy
    · intro h
      have e := minMaxTransform_ok cfg X X hX hX hXn hXn hXs hXs rfl hr
      rw [hY] at e
      injection e with e
      rw [e, Arr3.build_entry hi ht hf, h, minMaxValue_none]
  refine ⟨Y, hY, hX.of_pattern hw hs hd hl hnone, hl, hs, hd, hnone, ?_, ?_, ?_⟩
  · intro i hi t ht f hf y hy
    cases e : X.entry i t f with
    | none => rw [(hnone i hi t ht f hf).2 e] at hy; simp at hy
    | some v =>
      obtain ⟨m, M, h1, h2⟩ := stats i hi f hf t ht v e
      have hb := h2 i hi t ht f hf (fun _ => rfl) (fun _ => rfl) v e
      rw [haff i hi f hf m M ⟨h1, h2⟩ t ht, e, Option.map_some, Option.some.injEq] at hy
      subst hy
      have hr' : 0 < cfg.hi - cfg.lo := sub_pos.2 hr
      by_cases hc : m < M
      · rw [if_pos hc]
        have hc' : 0 < M - m := sub_pos.2 hc
        have h3 : 0 ≤ (v - m) * ((cfg.hi - cfg.lo) / (M - m)) :=
          mul_nonneg (sub_nonneg.2 hb.1) (div_pos hr' hc').le
        have h4 : (v - m) * ((cfg.hi - cfg.lo) / (M - m)) ≤ (M - m) * ((cfg.hi - cfg.lo) / (M - m)) :=
          mul_le_mul_of_nonneg_right (sub_le_sub_right hb.2 m) (div_pos hr' hc').le
        rw [mul_div_cancel₀ _ hc'.ne'] at h4
        constructor <;> linarith
      · have : v = m := le_antisymm (hb.2.trans (not_lt.1 hc)) hb.1
        rw [this, sub_self, zero_mul, add_zero]
        exact ⟨le_refl _, hr.le⟩
  · rintro i hi f hf ⟨i₁, b1, t₁, b2, f₁, b3, i₂, b4, t₂, b5, f₂, b6, v, w, p1, p2, hv, hw', hne⟩ b hb
    obtain ⟨m, M, h1', h2'⟩ := stats i₁ b1 f₁ b3 t₁ b2 v hv
    -- move the statistics to `(i, f)`
    have hii : cfg.perTs = true → i₁ = i := fun e => (p1 e).1
    have hff : cfg.perFeat = true → f₁ = f := fun e => (p2 e).1
    have hmM : m < M := by
      have ha := h2' i₁ b1 t₁ b2 f₁ b3 (fun _ => rfl) (fun _ => rfl) v hv
      have hb := h2' i₂ b4 t₂ b5 f₂ b6 (fun e => (p1 e).2.trans (p1 e).1.symm)
        (fun e => (p2 e).2.trans (p2 e).1.symm) w hw'
      rcases lt_or_gt_of_ne hne with h | h
      · exact ha.1.trans_lt (h.trans_le hb.2)
      · exact hb.1.trans_lt (h.trans_le ha.2)
    have fin : ∀ x y, (x = m ∨ x = M) → cfg.lo + (x - m) * ((cfg.hi - cfg.lo) / (M - m)) = y →
        ∃ i' < X.data.length, ∃ t' < X.sz, ∃ f' < X.d,
          (cfg.perTs = true → i' = i) ∧ (cfg.perFeat = true → f' = f) ∧ Y.entry i' t' f' = some y := by
      intro x y hx hy
      obtain ⟨i', a1, t', a2, f', a3, a4, a5, a6⟩ := h1' x hx
      refine ⟨i', a1, t', a2, f', a3, fun e => (a4 e).trans (hii e), fun e => (a5 e).trans (hff e), ?_⟩
      rw [haff i' a1 f' a3 m M ⟨?_, ?_⟩ t' a2, a6, Option.map_some, if_pos hmM, hy]
      · intro b hb
        obtain ⟨i'', c1, t'', c2, f'', c3, c4, c5, c6⟩ := h1' b hb
        exact ⟨i'', c1, t'', c2, f'', c3, fun e => (c4 e).trans (a4 e).symm,
          fun e => (c5 e).trans (a5 e).symm, c6⟩
      · intro i'' c1 t'' c2 f'' c3 c4 c5
        exact h2' i'' c1 t'' c2 f'' c3 (fun e => (c4 e).trans (a4 e)) (fun e => (c5 e).trans (a5 e))
    rcases hb with rfl | rfl
    · exact fin m _ (.inl rfl) (by ring)
    · exact fin M _ (.inr rfl) (by rw [mul_div_cancel₀ _ (sub_pos.2 hmM).ne']; ring)
  · intro i hi f hf c hc t ht y hy
    cases e : X.entry i t f with
    | none => rw [(hnone i hi t ht f hf).2 e] at hy; simp at hy
    | some v =>
      obtain rfl := hc i hi t ht f hf (fun _ => rfl) (fun _ => rfl) v e
      rw [haff i hi f hf v v ⟨?_, ?_⟩ t ht, e, Option.map_some, Option.some.injEq] at hy
      · rw [← hy, sub_self, zero_mul, add_zero]
      · intro b hb
        have : b = v := by simpa using hb
        exact ⟨i, hi, t, ht, f, hf, fun _ => rfl, fun _ => rfl, by rw [e, this]⟩
      · intro i' a1 t' a2 f' a3 a4 a5 w hw
        rw [hc i' a1 t' a2 f' a3 a4 a5 w hw]
        exact ⟨le_refl _, le_refl _⟩

/-- In `per_timeseries` mode the result for a series depends neither on the fitted data nor on the other
series of the dataset. -/
theorem C28_independent (cfg : MinMaxCfg K) (hp : cfg.perTs = true) (F X F' X' Y Y' : Arr3 K)
    (hF : Formatted F) (hX : Formatted X) (hF' : Formatted F') (hX' : Formatted X')
    (hs : X.sz = X'.sz) (hd : X.d = X'.d) (i i' : ℕ) (hi : i < X.data.length) (hi' : i' < X'.data.length)
    (heq : ∀ t < X.sz, ∀ f < X.d, X.entry i t f = X'.entry i' t f)
    (h : minMaxTransform cfg F X = .ok Y) (h' : minMaxTransform cfg F' X' = .ok Y') :
    ∀ t < X.sz, ∀ f < X.d, Y.entry i t f = Y'.entry i' t f := by
  have shape : ∀ F X Y : Arr3 K, Formatted F → Formatted X → minMaxTransform cfg F X = .ok Y →
      Y = Arr3.build X.data.length X.sz X.d fun i t f => minMaxValue cfg.lo cfg.hi
        (nanMin (X.group true cfg.perFeat i f)) (nanMax (X.group true cfg.perFeat i f)) (X.entry i t f) := by
    intro F X Y hF hX h
    simp only [minMaxTransform, hF.toDataset_slots, hX.toDataset_slots, hp, bind, Except.bind, pure,
      Except.pure, throw, throwThe, MonadExceptOf.throw] at h
    split_ifs at h <;> first | (simp at h; done) | (injection h with h; simpa using h.symm)
  intro t ht f hf
  rw [shape F X Y hF hX h, shape F' X' Y' hF' hX' h', Arr3.build_entry hi ht hf,
    Arr3.build_entry hi' (hs ▸ ht) (hd ▸ hf), heq t ht f hf]
  rw [group_series X X' cfg.perFeat hs hd hi hi' heq]

/-- An empty range is refused. -/
theorem C28_bad_range (cfg : MinMaxCfg K) (F X : Arr3 K) (hF : Formatted F) (hr : cfg.hi ≤ cfg.lo) :
    minMaxTransform cfg F X = .error .valueError := by
  unfold minMaxTransform
  simp only [hF.toDataset_slots, bind, Except.bind, throw, throwThe, MonadExceptOf.throw, ge_iff_le, hr]
  split_ifs <;> simp_all

/-- Two series of the same dataset: `[0, 3, 6]` and `[NaN, 3, 3]`. -/
def exScal : Arr3 ℚ := ⟨3, 1, [[[some 0], [some 3], [some 6]], [[none], [some 3], [some 3]]]⟩

theorem exScal_formatted : Formatted exScal :=
  ⟨by intro s hs; fin_cases hs <;> exact ⟨rfl, by intro r hr; fin_cases hr <;> rfl⟩,
    fun h => by simp [exScal] at h,
    .inr ⟨_, List.mem_cons_self, .inr ⟨_, rfl, _, List.mem_cons_self, rfl⟩, by
      rintro i hi ⟨r, hr, -⟩
      have := (List.getElem?_eq_some_iff.1 hr).1
      simp [exScal] at this hi
      omega⟩⟩

example : ∃ Y, minMaxTransform ⟨1, 2, true, true⟩ exScal exScal = .ok Y ∧
    Y.entry 0 1 0 = some (3 / 2 : ℚ) ∧ Y.entry 1 0 0 = none ∧ Y.entry 1 1 0 = some 1 := by
  refine ⟨_, minMaxTransform_ok _ _ _ exScal_formatted exScal_formatted (by simp [exScal])
    (by simp [exScal]) (by simp [exScal]) (by simp [exScal]) rfl (by norm_num), ?_, ?_, ?_⟩ <;>
  · rw [Arr3.build_entry (by decide) (by decide) (by decide)]
    simp [exScal, Arr3.group, Arr3.entry, List.range, List.range.loop, nanMin, nanMax, minMaxValue]
    try norm_num

example : ∃ Y, minMaxTransform ⟨(1 : ℚ), 2, false, false⟩ exScal exScal = .ok Y ∧ Formatted Y := by
  obtain ⟨Y, h, hf, -⟩ := C28_range (K := ℚ) ⟨1, 2, false, false⟩ exScal exScal_formatted
    (by simp [exScal]) (by simp [exScal]) (by norm_num)
  exact ⟨Y, h, hf⟩

end Verif
