import Verif.Proofs.Impute
import Mathlib.Tactic.NormNum
import Mathlib.Tactic.FinCases
import Mathlib.Tactic.IntervalCases
import Mathlib.Algebra.Order.Ring.Rat
import Mathlib.Algebra.Field.Rat
/-!
# C30 — imputation never alters observed values and fills exactly what it promises

`x` is any input whose dataset form is `X`; `stop i` is the number of samples of series `i` that get imputed:
its size without trailing empty samples with `keep_trailing_nans`, the common length otherwise.
-/
set_option linter.unusedSectionVars false
namespace Verif
open Spec
variable {K : Type} [Field K] [LinearOrder K] [IsStrictOrderedRing K]

/-- The samples looked at. -/
def Spec.IsStop (keep : Bool) (X : Arr3 K) (i n : ℕ) : Prop :=
  ∃ s, X.data[i]? = some s ∧ if keep then IsSize s n else n = X.sz

theorem Spec.IsStop.eq {keep : Bool} {X : Arr3 K} {i n : ℕ} (h : IsStop keep X i n) :
    i < X.data.length ∧ stopOf keep X i = n := by
  obtain ⟨s, hs, h⟩ := h
  obtain ⟨hi, rfl⟩ := List.getElem?_eq_some_iff.1 hs
  refine ⟨hi, ?_⟩
  unfold stopOf
  split_ifs at h ⊢
  · rw [List.getD_eq_getElem _ _ hi]; exact IsSize.unique (tsSize_isSize _) h
  · exact h.symm

/-- Every method keeps the shape, every observed value, and the trailing empty samples if asked to. -/
theorem C30_observed (m : ImpMethod K) (keep : Bool) (xF x : DsInput K) (X Y : Arr3 K) (hx : toDataset x = .ok X)
    (hX : Formatted X) (hY : impute m keep xF x = .ok Y) :
    Formatted Y ∧ Y.data.length = X.data.length ∧ Y.sz = X.sz ∧ Y.d = X.d ∧
      (∀ i < X.data.length, ∀ t < X.sz, ∀ f < X.d, ∀ v, X.entry i t f = some v → Y.entry i t f = some v) ∧
      (keep = true → ∀ (i : ℕ) (s : List (List (Option K))) (n : ℕ), X.data[i]? = some s → IsSize s n →
        ∀ t < X.sz, n ≤ t → ∀ f < X.d, Y.entry i t f = none) := by
  obtain ⟨h1, h2, h3, h4, h5⟩ := impute_inv m keep xF x X Y hx hX hY
  refine ⟨h1, h2, h3, h4, ?_, ?_⟩
  · intro i hi t ht f hf v hv
    obtain ⟨r, hr, he⟩ := h5 i hi f hf
    rw [he t ht]
    split_ifs with hst
    · exact imputeCol_observed m _ _ hr (by rw [col_get X hst, hv])
    · exact hv
  · rintro rfl i s n hs hn t ht hnt f hf
    obtain ⟨hi, e⟩ := IsStop.eq (show IsStop true X i n from ⟨s, hs, hn⟩)
    obtain ⟨r, hr, he⟩ := h5 i hi f hf
    rw [he t ht, if_neg (by omega)]
    exact entry_none (by simp [stopOf] at e; simpa [e] using hnt)

/-- `constant` writes the given value at every missing sample. -/
theorem C30_constant (a : Option K) (keep : Bool) (xF x : DsInput K) (X Y : Arr3 K) (hx : toDataset x = .ok X)
    (hX : Formatted X) (hY : impute (.constant a) keep xF x = .ok Y) (i n : ℕ) (hn : IsStop keep X i n) :
    ∀ t < n, ∀ f < X.d, X.entry i t f = none → Y.entry i t f = a := by
  obtain ⟨hi, e⟩ := hn.eq
  intro t ht f hf hnone
  obtain ⟨-, -, -, -, h5⟩ := impute_inv _ keep xF x X Y hx hX hY
  obtain ⟨r, hr, he⟩ := h5 i hi f hf
  rw [he t (by have := stopOf_le keep X hX.wf hi; omega), e, if_pos ht]
  injection hr with hr
  rw [← hr, e, fillWith_getD _ _ (by rw [col_length]; exact ht), col_get X ht, hnone]
  rfl

/-- `mean` writes at every missing sample the mean of the observed values of the feature (NaN if there are
none). -/
theorem C30_mean (keep : Bool) (xF x : DsInput K) (X Y : Arr3 K) (hx : toDataset x = .ok X)
    (hX : Formatted X) (hY : impute .mean keep xF x = .ok Y) (i n : ℕ) (hn : IsStop keep X i n) :
    ∀ t < n, ∀ f < X.d, X.entry i t f = none →
      ((∀ s < n, X.entry i s f = none) → Y.entry i t f = none) ∧
      ((∃ s < n, X.entry i s f ≠ none) → ∃ y, Y.entry i t f = some y ∧
        y * (((List.range n).map fun s => (X.entry i s f).elim (0 : K) fun _ => 1).sum) =
          ((List.range n).map fun s => (X.entry i s f).elim (0 : K) id).sum) := by
  obtain ⟨hi, e⟩ := hn.eq
  intro t ht f hf hnone
  obtain ⟨-, -, -, -, h5⟩ := impute_inv _ keep xF x X Y hx hX hY
  obtain ⟨r, hr, he⟩ := h5 i hi f hf
  rw [he t (by have := stopOf_le keep X hX.wf hi; omega), e, if_pos ht]
  injection hr with hr
  rw [← hr, e, fillWith_getD _ _ (by rw [col_length]; exact ht), col_get X ht, hnone]
  simp only [Option.isNone_none, if_true]
  have hsum : ∀ (l : List (Option K)) (h : K → K), ((l.filterMap id).map h).sum = (l.map fun o => o.elim 0 h).sum := by
    intro l h
    induction l with
    | nil => rfl
    | cons o l ih =>
      cases o with
      | none => rw [show (none :: l).filterMap id = l.filterMap id from rfl, ih]; simp
      | some v => rw [show (some v :: l).filterMap id = v :: l.filterMap id from rfl, List.map_cons, List.sum_cons, ih]; simp
  have hnil : (X.col i n f).filterMap id = [] ↔ ∀ s < n, X.entry i s f = none := by
    rw [List.filterMap_eq_nil_iff]; simp [Arr3.col]
  constructor
  · intro hall
    simp only [nanMeanK, hnil.2 hall, if_true]
  · rintro ⟨s, hs, hne⟩
    have h0 : (X.col i n f).filterMap id ≠ [] := fun hc => hne (hnil.1 hc s hs)
    refine ⟨_, by rw [nanMeanK, if_neg h0], ?_⟩
    have hlen : (0 : K) < (((X.col i n f).filterMap id).length : K) := by
      exact_mod_cast List.length_pos_iff.2 h0
    have h1 := hsum (X.col i n f) (fun _ => 1)
    have h2 := hsum (X.col i n f) id
    simp only [Arr3.col, List.map_map] at h1 h2
    change _ = ((List.range n).map fun s => (X.entry i s f).elim (0 : K) fun _ => 1).sum at h1
    change _ = ((List.range n).map fun s => (X.entry i s f).elim (0 : K) id).sum at h2
    rw [← h1, ← h2, List.map_id]
    simp only [List.map_const', List.sum_replicate, nsmul_eq_mul, mul_one]
    simp only [Arr3.col] at hlen ⊢
    rw [div_mul_cancel₀ _ hlen.ne']

/-- `median` writes the middle of the observed values in increasing order `l`, or the mean of the two middle
ones. -/
theorem C30_median (keep : Bool) (xF x : DsInput K) (X Y : Arr3 K) (hx : toDataset x = .ok X)
    (hX : Formatted X) (hY : impute .median keep xF x = .ok Y) (i n : ℕ) (hn : IsStop keep X i n) :
    ∀ t < n, ∀ f < X.d, X.entry i t f = none → ∀ l : List K, l.Pairwise (· ≤ ·) →
      l.Perm ((List.range n).filterMap fun s => X.entry i s f) →
      (l = [] → Y.entry i t f = none) ∧
      ∀ a b, l[(l.length - 1) / 2]? = some a → l[l.length / 2]? = some b → Y.entry i t f = some ((a + b) / 2) := by
  obtain ⟨hi, e⟩ := hn.eq
  intro t ht f hf hnone l hl hperm
  obtain ⟨-, -, -, -, h5⟩ := impute_inv _ keep xF x X Y hx hX hY
  obtain ⟨r, hr, he⟩ := h5 i hi f hf
  rw [he t (by have := stopOf_le keep X hX.wf hi; omega), e, if_pos ht]
  injection hr with hr
  rw [← hr, e, fillWith_getD _ _ (by rw [col_length]; exact ht), col_get X ht, hnone]
  simp only [Option.isNone_none, if_true]
  have hcol : (X.col i n f).filterMap id = (List.range n).filterMap fun s => X.entry i s f := by
    rw [Arr3.col, List.filterMap_map]; rfl
  have hsort : (((List.range n).filterMap fun s => X.entry i s f).insertionSort (· ≤ ·)) = l := by
    apply List.Perm.eq_of_pairwise (le := (· ≤ ·)) _ (List.pairwise_insertionSort _ _) hl
      ((List.perm_insertionSort _ _).trans hperm.symm)
    intro a b _ _ h1 h2
    exact le_antisymm h1 h2
  simp only [nanMedian, hcol, hsort]
  constructor
  · rintro rfl; simp
  · intro a b ha hb
    have hb' := (List.getElem?_eq_some_iff.1 hb).1
    rw [if_neg (by rintro rfl; simp at ha)]
    split_ifs with hodd
    · have : (l.length - 1) / 2 = l.length / 2 := by omega
      rw [this, hb] at ha
      cases ha
      rw [List.getD_eq_getElem?_getD, hb]
      simp
    · have : (l.length - 1) / 2 = l.length / 2 - 1 := by omega
      rw [this] at ha
      rw [List.getD_eq_getElem?_getD, List.getD_eq_getElem?_getD, ha, hb]
      simp

/-- `ffill` writes the last previous observation; a leading gap stays NaN. -/
theorem C30_ffill (keep : Bool) (xF x : DsInput K) (X Y : Arr3 K) (hx : toDataset x = .ok X)
    (hX : Formatted X) (hY : impute .ffill keep xF x = .ok Y) (i n : ℕ) (hn : IsStop keep X i n) :
    ∀ t < n, ∀ f < X.d, X.entry i t f = none →
      (∀ p v, PrevObs (fun s => X.entry i s f) t p v → Y.entry i t f = some v) ∧
      ((∀ s < t, X.entry i s f = none) → Y.entry i t f = none) := by
  obtain ⟨hi, e⟩ := hn.eq
  intro t ht f hf hnone
  obtain ⟨-, -, -, -, h5⟩ := impute_inv _ keep xF x X Y hx hX hY
  obtain ⟨r, hr, he⟩ := h5 i hi f hf
  rw [he t (by have := stopOf_le keep X hX.wf hi; omega), e, if_pos ht]
  injection hr with hr
  rw [← hr, e]
  constructor
  · rintro p v ⟨h1, h2, h3⟩
    apply ffill_prev _ t p v (by rw [col_length]; exact ht) (by rw [col_get X ht, hnone])
    refine ⟨h1, ?_, ?_⟩
    · simp only; rw [col_get X (by omega)]; exact h2
    · intro s hs1 hs2
      simp only; rw [col_get X (by omega)]; exact h3 s hs1 hs2
  · intro h
    apply ffill_none _ t (by rw [col_length]; exact ht)
    intro s hs
    rw [col_get X (by omega)]
    rcases Nat.lt_or_ge s t with h' | h'
    · exact h s h'
    · obtain rfl : s = t := by omega
      exact hnone

/-- `bfill` writes the next observation; a gap at the end stays NaN. -/
theorem C30_bfill (keep : Bool) (xF x : DsInput K) (X Y : Arr3 K) (hx : toDataset x = .ok X)
    (hX : Formatted X) (hY : impute .bfill keep xF x = .ok Y) (i n : ℕ) (hn : IsStop keep X i n) :
    ∀ t < n, ∀ f < X.d, X.entry i t f = none →
      (∀ q v, NextObs (fun s => X.entry i s f) n t q v → Y.entry i t f = some v) ∧
      ((∀ s, t < s → s < n → X.entry i s f = none) → Y.entry i t f = none) := by
  obtain ⟨hi, e⟩ := hn.eq
  intro t ht f hf hnone
  obtain ⟨-, -, -, -, h5⟩ := impute_inv _ keep xF x X Y hx hX hY
  obtain ⟨r, hr, he⟩ := h5 i hi f hf
  rw [he t (by have := stopOf_le keep X hX.wf hi; omega), e, if_pos ht]
  injection hr with hr
  rw [← hr, e]
  constructor
  · rintro q v ⟨h1, h2, h3, h4⟩
    apply bfill_next _ t q v (by rw [col_length]; exact ht) (by rw [col_get X ht, hnone])
    refine ⟨h1, by rw [col_length]; exact h2, ?_, ?_⟩
    · simp only; rw [col_get X (by omega)]; exact h3
    · intro s hs1 hs2
      simp only; rw [col_get X (by omega)]; exact h4 s hs1 hs2
  · intro h
    apply bfill_none _ t (by rw [col_length]; exact ht)
    intro s hs1 hs2
    rw [col_length] at hs2
    rw [col_get X hs2]
    rcases Nat.lt_or_ge t s with h' | h'
    · exact h s h' hs2
    · obtain rfl : s = t := by omega
      exact hnone

/-- `linear` interpolates between the two adjacent observations; gaps at the start and at the end take the
first and the last observation. -/
theorem C30_linear (keep : Bool) (xF x : DsInput K) (X Y : Arr3 K) (hx : toDataset x = .ok X)
    (hX : Formatted X) (hY : impute .linear keep xF x = .ok Y) (i n : ℕ) (hn : IsStop keep X i n) :
    ∀ t < n, ∀ f < X.d, X.entry i t f = none →
      (∀ p q v w, PrevObs (fun s => X.entry i s f) t p v → NextObs (fun s => X.entry i s f) n t q w →
        Y.entry i t f = some (v + (w - v) * (((t - p : ℕ) : K) / ((q - p : ℕ) : K)))) ∧
      (∀ p v, PrevObs (fun s => X.entry i s f) t p v → (∀ s, t < s → s < n → X.entry i s f = none) →
        Y.entry i t f = some v) ∧
      (∀ q w, NextObs (fun s => X.entry i s f) n t q w → (∀ s < t, X.entry i s f = none) →
        Y.entry i t f = some w) := by
  obtain ⟨hi, e⟩ := hn.eq
  intro t ht f hf hnone
  obtain ⟨-, -, -, -, h5⟩ := impute_inv _ keep xF x X Y hx hX hY
  obtain ⟨r, hr, he⟩ := h5 i hi f hf
  rw [he t (by have := stopOf_le keep X hX.wf hi; omega), e, if_pos ht]
  rw [e] at hr
  have htl : t < (X.col i n f).length := by rw [col_length]; exact ht
  have hnl : (X.col i n f).getD t none = none := by rw [col_get X ht, hnone]
  have prev : ∀ p v, PrevObs (fun s => X.entry i s f) t p v → PrevObs (fun s => (X.col i n f).getD s none) t p v := by
    rintro p v ⟨h1, h2, h3⟩
    refine ⟨h1, ?_, ?_⟩
    · simp only; rw [col_get X (by omega)]; exact h2
    · intro s hs1 hs2
      simp only; rw [col_get X (by omega)]; exact h3 s hs1 hs2
  have next : ∀ q v, NextObs (fun s => X.entry i s f) n t q v →
      NextObs (fun s => (X.col i n f).getD s none) (X.col i n f).length t q v := by
    rintro q v ⟨h1, h2, h3, h4⟩
    refine ⟨h1, by rw [col_length]; exact h2, ?_, ?_⟩
    · simp only; rw [col_get X (by omega)]; exact h3
    · intro s hs1 hs2
      simp only; rw [col_get X (by omega)]; exact h4 s hs1 hs2
  refine ⟨?_, ?_, ?_⟩
  · intro p q v w hp hq
    exact linear_between _ r hr htl hnl (prev p v hp) (next q w hq)
  · intro p v hp hq
    apply linear_after_last _ r hr htl hnl (prev p v hp)
    intro s hs
    rcases Nat.lt_or_ge s n with h | h
    · rw [col_get X h]; exact hq s hs h
    · rw [List.getD_eq_default _ _ (by rw [col_length]; exact h)]
  · intro q w hq hp
    apply linear_before_first _ r hr htl hnl (next q w hq)
    intro s hs
    rw [col_get X (by omega)]
    exact hp s hs

/-- When a result is returned: always, except that `linear` needs an observation in every feature of every
series. -/
theorem C30_success (m : ImpMethod K) (keep : Bool) (xF x : DsInput K) (F X : Arr3 K) (hF : toDataset xF = .ok F)
    (hx : toDataset x = .ok X) (hX : Formatted X) (hd : F.d = X.d) :
    (∃ Y, impute m keep xF x = .ok Y) ↔ m ≠ .unknown ∧
      (m = .linear → ∀ i < X.data.length, ∀ f < X.d, ∃ t < X.sz, X.entry i t f ≠ none) := by
  have key : ∀ i < X.data.length, ∀ f, (∃ t v, (X.col i (stopOf keep X i) f).getD t none = some v) ↔
      ∃ t < X.sz, X.entry i t f ≠ none := by
    intro i hi f
    have hle := stopOf_le keep X hX.wf hi
    constructor
    · rintro ⟨t, v, h⟩
      have ht : t < stopOf keep X i := by
        by_contra hc
        rw [List.getD_eq_default _ _ (by rw [col_length]; omega)] at h
        simp at h
      rw [col_get X ht] at h
      exact ⟨t, by omega, by rw [h]; simp⟩
    · rintro ⟨t, ht, h⟩
      obtain ⟨v, hv⟩ := Option.ne_none_iff_exists'.1 h
      have hts : t < stopOf keep X i := by
        unfold stopOf
        split_ifs
        · by_contra hc
          exact h (entry_none (not_lt.1 hc))
        · exact ht
      exact ⟨t, v, by rw [col_get X hts, hv]⟩
  constructor
  · rintro ⟨Y, hY⟩
    constructor
    · rintro rfl
      simp [impute, hF, hx, hd, bind, Except.bind] at hY
    · rintro rfl i hi f hf
      obtain ⟨-, -, -, -, h5⟩ := impute_inv _ keep xF x X Y hx hX hY
      obtain ⟨r, hr, -⟩ := h5 i hi f hf
      exact (key i hi f).1 ((linear_ok_iff _).1 ⟨r, hr⟩)
  · rintro ⟨hm, hlin⟩
    have hcols : ∀ i f, ∃ r, i < X.data.length → f < X.d → imputeCol m (X.col i (stopOf keep X i) f) = .ok r := by
      intro i f
      cases m with
      | constant a => exact ⟨_, fun _ _ => rfl⟩
      | mean => exact ⟨_, fun _ _ => rfl⟩
      | median => exact ⟨_, fun _ _ => rfl⟩
      | ffill => exact ⟨_, fun _ _ => rfl⟩
      | bfill => exact ⟨_, fun _ _ => rfl⟩
      | unknown => exact absurd rfl hm
      | linear =>
        by_cases h : i < X.data.length ∧ f < X.d
        · obtain ⟨r, hr⟩ := (linear_ok_iff _).2 ((key i h.1 f).2 (hlin rfl i h.1 f h.2))
          exact ⟨r, fun _ _ => hr⟩
        · exact ⟨[], fun h1 h2 => absurd ⟨h1, h2⟩ h⟩
    choose R hR using hcols
    obtain ⟨Y, hY, -⟩ := impute_ok m keep xF x F X hF hx hX hd hm R (fun i hi f hf => hR i f hi hf)
    exact ⟨Y, hY⟩

/-- The documentation says that values that cannot be computed are left unchanged. Not so for `linear`: a
feature without observations makes the whole call fail, here one NaN feature next to an observed one. -/
theorem C30_linear_uncomputable_false : ∃ X : Arr3 ℚ, Formatted X ∧ X.data ≠ [] ∧
    (∃ Y, impute .mean true (.series X.slots) (.series X.slots) = .ok Y) ∧
    ¬ ∃ Y, impute .linear true (.series X.slots) (.series X.slots) = .ok Y := by
  have hX : Formatted (⟨1, 2, [[[some 1, none]]]⟩ : Arr3 ℚ) := by
    refine ⟨?_, fun h => by simp at h, .inr ⟨_, List.mem_cons_self, .inr ⟨_, rfl, _, List.mem_cons_self, rfl⟩, ?_⟩⟩
    · intro s hs
      fin_cases hs
      exact ⟨rfl, by intro r hr; fin_cases hr; rfl⟩
    · rintro i hi ⟨r, hr, -⟩
      have := (List.getElem?_eq_some_iff.1 hr).1
      simp at this hi
      omega
  refine ⟨_, hX, by simp, ?_, ?_⟩
  · rw [C30_success .mean true _ _ _ _ hX.toDataset_slots hX.toDataset_slots hX rfl]
    simp
  · rw [C30_success .linear true _ _ _ _ hX.toDataset_slots hX.toDataset_slots hX rfl]
    rintro ⟨-, h⟩
    obtain ⟨t, ht, h⟩ := h rfl 0 (by simp) 1 (by simp)
    simp at ht
    subst ht
    simp [Arr3.entry] at h

/-- The series `[NaN, 1, NaN, 3]` and the shorter `[2, NaN]`, padded. -/
def exImp : Arr3 ℚ := ⟨4, 1, [[[none], [some 1], [none], [some 3]], [[some 2], [none], [none], [none]]]⟩

theorem exImp_formatted : Formatted exImp :=
  ⟨by intro s hs; fin_cases hs <;> exact ⟨rfl, by intro r hr; fin_cases hr <;> rfl⟩,
    fun h => by simp [exImp] at h,
    .inr ⟨_, List.mem_cons_self, .inr ⟨_, rfl, _, List.mem_cons_self, rfl⟩, by
      rintro i hi ⟨r, hr, -⟩
      have := (List.getElem?_eq_some_iff.1 hr).1
      simp [exImp] at this hi
      omega⟩⟩

example : ∃ Y, impute .linear false (.series exImp.slots) (.series exImp.slots) = .ok Y ∧
    Y.entry 0 2 0 = some (2 : ℚ) ∧ Y.entry 0 0 0 = some 1 ∧ Y.entry 1 3 0 = some 2 := by
  obtain ⟨Y, hY⟩ := (C30_success (K := ℚ) .linear false _ _ _ _ exImp_formatted.toDataset_slots
    exImp_formatted.toDataset_slots exImp_formatted rfl).2 ⟨by simp, fun _ i hi f hf => by
      simp [exImp] at hi hf ⊢
      subst hf
      interval_cases i
      · exact ⟨1, by omega, by simp [Arr3.entry]⟩
      · exact ⟨0, by omega, by simp [Arr3.entry]⟩⟩
  have h0 := C30_linear false _ _ exImp Y exImp_formatted.toDataset_slots exImp_formatted hY 0 4 ⟨_, rfl, rfl⟩
  have h1 := C30_linear false _ _ exImp Y exImp_formatted.toDataset_slots exImp_formatted hY 1 4 ⟨_, rfl, rfl⟩
  refine ⟨Y, hY, ?_, ?_, ?_⟩
  · rw [(h0 2 (by omega) 0 (by decide) rfl).1 1 3 1 3 ⟨by omega, rfl, by omega⟩ ⟨by omega, by omega, rfl, by omega⟩]
    norm_num
  · exact (h0 0 (by omega) 0 (by decide) rfl).2.2 1 1 ⟨by omega, by omega, rfl, by omega⟩ (by omega)
  · refine (h1 3 (by omega) 0 (by decide) rfl).2.1 0 2 ⟨by omega, rfl, ?_⟩ (by omega)
    intro s h1 h2
    interval_cases s <;> rfl

end Verif
