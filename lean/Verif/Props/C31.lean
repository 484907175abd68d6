import Verif.Proofs.Impute
import Mathlib.Tactic.NormNum
import Mathlib.Tactic.FinCases
import Mathlib.Algebra.Order.Ring.Rat
import Mathlib.Algebra.Field.Rat
/-!
# C31 — resampling keeps endpoints, bounds and identity
-/
set_option linter.unusedSectionVars false
namespace Verif
open Spec
variable {K : Type} [Field K] [LinearOrder K]

theorem Formatted.equal_size {X : Arr3 K} (hX : Formatted X) (h : checkEqualSizeArr X = true) :
    ∀ s ∈ X.data, tsSize s = X.sz := by
  have hall : ∀ s ∈ X.data, ∀ s' ∈ X.data, tsSize s = tsSize s' := by
    unfold checkEqualSizeArr at h
    cases e : X.data with
    | nil => simp
    | cons s0 rest =>
      rw [e] at h
      simp only [List.all_eq_true, beq_iff_eq] at h
      have h0 : ∀ s ∈ s0 :: rest, tsSize s = tsSize s0 := by
        intro s hs
        rcases List.mem_cons.1 hs with rfl | hs
        · rfl
        · exact h s hs
      intro s hs s' hs'
      rw [h0 s hs, h0 s' hs']
  intro s hs
  rcases hX.tight with e | ⟨s', hs', hz⟩
  · have := tsSize_le s
    rw [(hX.wf s hs).1] at this
    omega
  · rw [hall s hs s' hs']
    exact IsSize.unique (tsSize_isSize _) hz

theorem resample_ok (sz : ℤ) (xF x : DsInput K) (F X : Arr3 K) (hF : toDataset xF = .ok F)
    (hx : toDataset x = .ok X) (hX : Formatted X) (hd : F.d = X.d) (T : ℕ)
    (hT : T = if sz > 0 then sz.toNat else X.sz) (hT1 : T ≠ 1)
    (hne : ∀ s ∈ X.data, 0 < tsSize s) :
    resample sz xF x = .ok (Arr3.build X.data.length T X.d fun i t f =>
      ((linspace01 T).map (interp1 (linspace01 (tsSize (X.data.getD i [])))
        (X.col i (tsSize (X.data.getD i [])) f))).getD t none) := by
  have hsize : ∀ i < X.data.length, (if checkEqualSizeArr X = true then X.sz else tsSize (X.data.getD i [])) =
      tsSize (X.data.getD i []) := by
    intro i hi
    split_ifs with h
    · rw [hX.equal_size h _ (by rw [List.getD_eq_getElem _ _ hi]; exact List.getElem_mem hi)]
    · rfl
  have hout : ((List.range X.data.length).mapM fun i =>
      (List.range X.d).mapM fun f => interp (linspace01 T : List K)
        (linspace01 (if checkEqualSizeArr X = true then X.sz else tsSize (X.data.getD i [])))
        (X.col i (if checkEqualSizeArr X = true then X.sz else tsSize (X.data.getD i [])) f)) =
      Except.ok (ε := PyErr) ((List.range X.data.length).map fun i => (List.range X.d).map fun f =>
        (linspace01 T : List K).map (interp1 (linspace01 (tsSize (X.data.getD i [])))
          (X.col i (tsSize (X.data.getD i [])) f))) := by
    apply mapM_except_ok
    intro i hi
    rw [List.mem_range] at hi
    rw [hsize i hi]
    apply mapM_except_ok
    intro f hf
    have h0 := hne _ (by rw [List.getD_eq_getElem _ _ hi]; exact List.getElem_mem hi : X.data.getD i [] ∈ X.data)
    unfold interp
    rw [if_neg]
    intro e
    have := congrArg List.length e
    rw [linspace01_length] at this
    simp at this
    simp at h0
    omega
  unfold resample
  simp only [hF, hx, bind, Except.bind, hd, ne_eq, not_true_eq_false, if_false, pure, Except.pure, ← hT, hT1]
  rw [hout]
  refine congrArg Except.ok ?_
  apply Arr3.build_congr
  intro i hi t ht f hf
  simp [hi, hf]

variable [IsStrictOrderedRing K]

/-- `col` read back. -/
theorem col_getD (X : Arr3 K) {i n f t : ℕ} (ht : t < n) : (X.col i n f).getD t none = X.entry i t f := by
  simp [Arr3.col, ht]

/-- Exact content: series `i` of size `n` is read at the `T` equally spaced positions `k (n-1) / (T-1)`,
linearly between the two neighbouring samples (NaN if one of them is). `T` is `sz`, or the longest size if
`sz ≤ 0`. -/
theorem C31_exact (sz : ℤ) (xF x : DsInput K) (F X : Arr3 K) (hF : toDataset xF = .ok F)
    (hx : toDataset x = .ok X) (hX : Formatted X) (hd : F.d = X.d) (T : ℕ)
    (hT : T = if sz > 0 then sz.toNat else X.sz) (hT2 : 2 ≤ T) (hne : ∀ s ∈ X.data, ¬ IsSize s 0) :
    ∃ Y, resample sz xF x = .ok Y ∧ Y.WF ∧ Y.data.length = X.data.length ∧ Y.sz = T ∧ Y.d = X.d ∧
      ∀ (i : ℕ) (s : List (List (Option K))) (n : ℕ), X.data[i]? = some s → IsSize s n → ∀ f < X.d,
        ∀ k < T, ∀ p r : ℕ, r < T - 1 → k * (n - 1) = p * (T - 1) + r →
          Y.entry i k f = if r = 0 then X.entry i p f else
            (X.entry i p f).bind fun a => (X.entry i (p + 1) f).map fun b =>
              a + (b - a) * ((r : K) / ((T - 1 : ℕ) : K)) := by
  have hne' : ∀ s ∈ X.data, 0 < tsSize s := by
    intro s hs
    rcases Nat.eq_zero_or_pos (tsSize s) with h | h
    · exact absurd (h ▸ tsSize_isSize s) (hne s hs)
    · exact h
  refine ⟨_, resample_ok sz xF x F X hF hx hX hd T hT (by omega) hne', Arr3.build_wf _ _ _ _,
    Arr3.build_length .., rfl, rfl, ?_⟩
  intro i s n hs hn f hf k hk p r hr hpr
  obtain ⟨hi, rfl⟩ := List.getElem?_eq_some_iff.1 hs
  have hsz : tsSize (X.data.getD i []) = n := by
    rw [List.getD_eq_getElem _ _ hi]; exact IsSize.unique (tsSize_isSize _) hn
  have hn0 : 0 < n := by rw [← hsz, List.getD_eq_getElem _ _ hi]; exact hne' _ (List.getElem_mem hi)
  rw [Arr3.build_entry hi hk hf, hsz]
  have hcl : (X.col i n f).length = n := by simp [Arr3.col]
  have hk' : k < (linspace01 T : List K).length := by rw [linspace01_length]; exact hk
  have h1 := interp1_linspace (X.col i n f) T k p r (by rw [hcl]; exact hn0) hT2 hk hr (by rw [hcl]; exact hpr)
  rw [hcl] at h1
  rw [List.getD_eq_getElem _ _ (by simpa using hk'), List.getElem_map, ← List.getD_eq_getElem _ 0 hk', h1]
  have hpn : p < n ∧ (r ≠ 0 → p + 1 < n) := by
    have h1 : k * (n - 1) ≤ (T - 1) * (n - 1) := Nat.mul_le_mul_right _ (by omega)
    constructor
    · by_contra hc
      have h2 : n * (T - 1) ≤ p * (T - 1) := Nat.mul_le_mul_right _ (by omega)
      have h3 : (T - 1) * (n - 1) < n * (T - 1) := by
        rw [Nat.mul_comm n]; exact Nat.mul_lt_mul_of_pos_left (by omega) (by omega)
      omega
    · intro hr0
      by_contra hc
      have h2 : (n - 1) * (T - 1) ≤ p * (T - 1) := Nat.mul_le_mul_right _ (by omega)
      rw [Nat.mul_comm (T - 1)] at h1
      omega
  rw [col_getD X hpn.1]
  by_cases hr0 : r = 0
  · rw [if_pos hr0, if_pos hr0]
  · rw [if_neg hr0, if_neg hr0, col_getD X (hpn.2 hr0)]
    cases X.entry i p f <;> cases X.entry i (p + 1) f <;> rfl

/-- Endpoints, bounds and identity. -/
theorem C31_resample (sz : ℤ) (xF x : DsInput K) (F X : Arr3 K) (hF : toDataset xF = .ok F)
    (hx : toDataset x = .ok X) (hX : Formatted X) (hd : F.d = X.d) (T : ℕ)
    (hT : T = if sz > 0 then sz.toNat else X.sz) (hT2 : 2 ≤ T) (hne : ∀ s ∈ X.data, ¬ IsSize s 0) :
    ∃ Y, resample sz xF x = .ok Y ∧ Y.WF ∧ Y.data.length = X.data.length ∧ Y.sz = T ∧ Y.d = X.d ∧
      ∀ (i : ℕ) (s : List (List (Option K))) (n : ℕ), X.data[i]? = some s → IsSize s n → ∀ f < X.d,
        Y.entry i 0 f = X.entry i 0 f ∧ Y.entry i (T - 1) f = X.entry i (n - 1) f ∧
        (∀ lo hi, (∀ t < n, ∀ v, X.entry i t f = some v → lo ≤ v ∧ v ≤ hi) →
          ∀ k < T, ∀ y, Y.entry i k f = some y → lo ≤ y ∧ y ≤ hi) ∧
        (n = T → ∀ k < T, Y.entry i k f = X.entry i k f) := by
  obtain ⟨Y, hY, hw, hl, hs, hd', hex⟩ := C31_exact sz xF x F X hF hx hX hd T hT hT2 hne
  refine ⟨Y, hY, hw, hl, hs, hd', ?_⟩
  intro i s n hs hn f hf
  have h := hex i s n hs hn f hf
  refine ⟨?_, ?_, ?_, ?_⟩
  · rw [h 0 (by omega) 0 0 (by omega) (by simp), if_pos rfl]
  · rw [h (T - 1) (by omega) (n - 1) 0 (by omega) (by rw [Nat.mul_comm]; rfl), if_pos rfl]
  · intro lo hi hb k hk y hy
    have hT1 : (0 : K) < ((T - 1 : ℕ) : K) := by exact_mod_cast (by omega : 0 < T - 1)
    have hq : k * (n - 1) = (k * (n - 1) / (T - 1)) * (T - 1) + k * (n - 1) % (T - 1) := by
      rw [Nat.mul_comm _ (T - 1)]; exact (Nat.div_add_mod _ _).symm
    have hr := Nat.mod_lt (k * (n - 1)) (show T - 1 > 0 by omega)
    rw [h k hk _ _ hr hq] at hy
    have hn0 : n ≠ 0 := by
      rintro rfl
      exact hne s (List.mem_of_getElem? hs) hn
    have hin : ∀ t v, X.entry i t f = some v → lo ≤ v ∧ v ≤ hi := by
      intro t v hv
      rcases Nat.lt_or_ge t n with ht | ht
      · exact hb t ht v hv
      · have : X.entry i t f = none := entry_none (by
          rw [List.getD_eq_getElem?_getD, hs]
          simp only [Option.getD_some]
          rw [IsSize.unique (tsSize_isSize s) hn]; exact ht)
        rw [this] at hv; simp at hv
    split_ifs at hy with hr0
    · exact hin _ y hy
    · cases e1 : X.entry i (k * (n - 1) / (T - 1)) f with
      | none => rw [e1] at hy; simp at hy
      | some a =>
        cases e2 : X.entry i (k * (n - 1) / (T - 1) + 1) f with
        | none => rw [e1, e2] at hy; simp at hy
        | some b =>
          rw [e1, e2] at hy
          simp only [Option.bind_some, Option.map_some, Option.some.injEq] at hy
          have ha := hin _ a e1
          have hb' := hin _ b e2
          set w : K := ((k * (n - 1) % (T - 1) : ℕ) : K) / ((T - 1 : ℕ) : K) with hw'
          have w0 : 0 ≤ w := div_nonneg (Nat.cast_nonneg _) hT1.le
          have w1 : w ≤ 1 := by
            rw [hw', div_le_one hT1]; exact_mod_cast hr.le
          rw [← hy]
          constructor <;> nlinarith
  · rintro rfl k hk
    rw [h k hk k 0 (by omega) (by simp), if_pos rfl]

/-- Resampling to the current size is the identity when all the series have that size. -/
theorem C31_identity (sz : ℤ) (xF x : DsInput K) (F X : Arr3 K) (hF : toDataset xF = .ok F)
    (hx : toDataset x = .ok X) (hX : Formatted X) (hd : F.d = X.d) (hsz : sz ≤ 0 ∨ sz = (X.sz : ℤ))
    (h2 : 2 ≤ X.sz) (hall : ∀ s ∈ X.data, IsSize s X.sz) : resample sz xF x = .ok X := by
  have hT : X.sz = if sz > 0 then sz.toNat else X.sz := by
    split_ifs with h
    · rcases hsz with h' | h'
      · omega
      · rw [h']; simp
    · rfl
  obtain ⟨Y, hY, hw, hl, hs, hd', h⟩ := C31_resample sz xF x F X hF hx hX hd X.sz hT h2 (fun s hs h0 => by
    have := IsSize.unique (hall s hs) h0
    omega)
  rw [hY]
  congr 1
  apply Arr3.ext_entry hw hX.wf hs hd' hl
  intro i hi t ht f hf
  rw [hl] at hi
  exact (h i X.data[i] X.sz (by simp [hi]) (hall _ (List.getElem_mem hi)) f (by omega)).2.2.2 rfl t (by omega)

/-- A target size of one yields the mean of the observed values of the feature: then the sample at both ends
is not an end sample of the input in general. -/
theorem C31_unit (sz : ℤ) (xF x : DsInput K) (F X : Arr3 K) (hF : toDataset xF = .ok F)
    (hx : toDataset x = .ok X) (hd : F.d = X.d) (hT : (if sz > 0 then sz.toNat else X.sz) = 1) :
    ∃ Y, resample sz xF x = .ok Y ∧ Y.WF ∧ Y.data.length = X.data.length ∧ Y.sz = 1 ∧ Y.d = X.d ∧
      ∀ i < X.data.length, ∀ f < X.d,
        (Y.entry i 0 f = none ↔ ∀ t < X.sz, X.entry i t f = none) ∧
        ∀ y, Y.entry i 0 f = some y →
          y * (((List.range X.sz).map fun t => (X.entry i t f).elim (0 : K) fun _ => 1).sum) =
            ((List.range X.sz).map fun t => (X.entry i t f).elim (0 : K) id).sum := by
  have hsum : ∀ (l : List (Option K)) (h : K → K), ((l.filterMap id).map h).sum = (l.map fun o => o.elim 0 h).sum := by
    intro l h
    induction l with
    | nil => rfl
    | cons o l ih =>
      cases o with
      | none => rw [show (none :: l).filterMap id = l.filterMap id from rfl, ih]; simp
      | some v => rw [show (some v :: l).filterMap id = v :: l.filterMap id from rfl, List.map_cons, List.sum_cons, ih]; simp
  refine ⟨Arr3.build X.data.length 1 X.d fun i _ f => nanMeanK (X.col i X.sz f), ?_, Arr3.build_wf _ _ _ _,
    Arr3.build_length .., rfl, rfl, ?_⟩
  · simp only [resample, hF, hx, bind, Except.bind, hd, ne_eq, not_true_eq_false, if_false, pure, Except.pure, hT,
      if_true]
  · intro i hi f hf
    rw [Arr3.build_entry hi (by omega) hf]
    constructor
    · unfold nanMeanK
      simp only [ite_eq_left_iff, reduceCtorEq, imp_false, not_not]
      rw [List.filterMap_eq_nil_iff]
      simp [Arr3.col]
    · intro y hy
      unfold nanMeanK at hy
      simp only at hy
      split_ifs at hy with h0
      have hlen : (0 : K) < (((X.col i X.sz f).filterMap id).length : K) := by
        exact_mod_cast List.length_pos_iff.2 h0
      have h1 := hsum (X.col i X.sz f) (fun _ => 1)
      have h2 := hsum (X.col i X.sz f) id
      simp only [Arr3.col, List.map_map] at h1 h2
      change _ = ((List.range X.sz).map fun t => (X.entry i t f).elim (0 : K) fun _ => 1).sum at h1
      change _ = ((List.range X.sz).map fun t => (X.entry i t f).elim (0 : K) id).sum at h2
      rw [← h1, ← h2, ← Option.some.inj hy]
      rw [List.map_id]
      simp only [List.map_const', List.sum_replicate, nsmul_eq_mul, mul_one]
      simp only [Arr3.col] at hlen ⊢
      rw [div_mul_cancel₀ _ hlen.ne']

/-- A series without any observation cannot be resampled (unless to size one). -/
theorem C31_empty_series (sz : ℤ) (xF x : DsInput K) (F X : Arr3 K) (hF : toDataset xF = .ok F)
    (hx : toDataset x = .ok X) (hX : Formatted X) (hd : F.d = X.d)
    (hT : (if sz > 0 then sz.toNat else X.sz) ≠ 1) (hd0 : 0 < X.d) (s : List (List (Option K)))
    (hs : s ∈ X.data) (h0 : IsSize s 0) : ∃ e, resample sz xF x = .error e := by
  cases hr : resample sz xF x with
  | error e => exact ⟨e, rfl⟩
  | ok Y =>
    exfalso
    simp only [resample, hF, hx, bind, Except.bind, hd, ne_eq, not_true_eq_false, if_false, pure, Except.pure,
      hT] at hr
    split at hr
    · simp at hr
    · rename_i out hout
      obtain ⟨i, hi, rfl⟩ := List.mem_iff_getElem.1 hs
      obtain ⟨o, ho⟩ := forall₂_left (mapM_except_inv _ _ _ hout) i (List.mem_range.2 hi)
      obtain ⟨o', ho'⟩ := forall₂_left (mapM_except_inv _ _ _ ho) 0 (List.mem_range.2 hd0)
      have hz : tsSize (X.data.getD i []) = 0 := by
        rw [List.getD_eq_getElem _ _ hi]; exact IsSize.unique (tsSize_isSize _) h0
      have : (if checkEqualSizeArr X = true then X.sz else tsSize (X.data.getD i [])) = 0 := by
        split_ifs with h
        · rw [← hX.equal_size h _ (List.getElem_mem hi), ← List.getD_eq_getElem _ [] hi, hz]
        · exact hz
      rw [this] at ho'
      simp [interp, linspace01] at ho'

/-- The dataset `[[0, 3, 6], [1, 2]]` resampled to five points. -/
def exRes : Arr3 ℚ := ⟨3, 1, [[[some 0], [some 3], [some 6]], [[some 1], [some 2], [none]]]⟩

theorem exRes_formatted : Formatted exRes :=
  ⟨by intro s hs; fin_cases hs <;> exact ⟨rfl, by intro r hr; fin_cases hr <;> rfl⟩,
    fun h => by simp [exRes] at h,
    .inr ⟨_, List.mem_cons_self, .inr ⟨_, rfl, _, List.mem_cons_self, rfl⟩, by
      rintro i hi ⟨r, hr, -⟩
      have := (List.getElem?_eq_some_iff.1 hr).1
      simp [exRes] at this hi
      omega⟩⟩

theorem exRes_size : ∀ s ∈ exRes.data, ¬ IsSize s 0 := by
  intro s hs h
  fin_cases hs <;> exact h.2 0 (by omega) ⟨_, rfl, _, List.mem_cons_self, rfl⟩

example : ∃ Y, resample 5 (.series exRes.slots) (.series exRes.slots) = .ok Y ∧
    Y.entry 0 1 0 = some (3 / 2 : ℚ) ∧ Y.entry 1 4 0 = some 2 := by
  obtain ⟨Y, hY, -, -, -, -, h⟩ := C31_exact (K := ℚ) 5 _ _ exRes exRes exRes_formatted.toDataset_slots
    exRes_formatted.toDataset_slots exRes_formatted rfl 5 rfl (by norm_num) exRes_size
  have h3 : IsSize exRes.data[0] 3 := ⟨.inr ⟨_, rfl, _, List.mem_cons_self, rfl⟩, by
      rintro i hi ⟨r, hr, -⟩
      have := (List.getElem?_eq_some_iff.1 hr).1
      simp [exRes] at this hi
      omega⟩
  have h2 : IsSize exRes.data[1] 2 := ⟨.inr ⟨_, rfl, _, List.mem_cons_self, rfl⟩, by
      rintro i hi ⟨r, hr, v, hv, hsome⟩
      have := (List.getElem?_eq_some_iff.1 hr).1
      simp [exRes] at this hi
      obtain rfl : i = 2 := by omega
      simp [exRes] at hr
      subst hr
      simp at hv
      subst hv
      simp at hsome⟩
  refine ⟨Y, hY, ?_, ?_⟩
  · rw [h 0 _ 3 rfl h3 0 (by decide) 1 (by decide) 0 2 (by decide) (by decide)]
    simp [exRes, Arr3.entry]
    norm_num
  · rw [h 1 _ 2 rfl h2 0 (by decide) 4 (by decide) 1 0 (by decide) (by decide)]
    simp [exRes, Arr3.entry]

end Verif
