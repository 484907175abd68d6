import Verif.Model.RoundedPaa
import Verif.Spec.RoundedPaa
import Verif.Props.C33
import Verif.Proofs.OneD
import Verif.Proofs.Cdist
import Verif.Props.C104
import Verif.Props.C105
/-!
# C112 — PAA and SAX in rounded arithmetic

How far the computed segment means, symbols and distances are from the exact ones, when they agree, and what is lost: a constant segment need not keep
its value, the mean depends on the order of the samples, and the PAA distance can exceed the Euclidean distance.
-/
set_option linter.unusedSectionVars false
namespace Verif
open Spec

section
variable {K : Type} [Field K] [LinearOrder K] [IsStrictOrderedRing K]

/-- The list of entries of a segment. -/
theorem Spec.IsSegment.entries {X : Arr3 K} {S i s f : ℕ} {xs : List K} (h : IsSegment X S i s f xs) :
    ((List.range (tsSize (X.data.getD i []) / S)).map fun t => X.entry i (s * (tsSize (X.data.getD i []) / S) + t) f) = xs.map some := by
  rw [← h.len]
  apply List.ext_getElem
  · simp
  · intro t h1 h2
    simp only [List.getElem_map, List.getElem_range]
    rw [h.vals t (by simpa using h2)]

theorem rPaaTransform_ok (rnd : K → K) (sum : List K → K) {S : ℕ} {X : Arr3 K} (hne : X.data ≠ []) (hS : 0 < S) :
    rPaaTransform rnd sum X.d S X = .ok (rPaaRaw rnd sum S X) := by
  unfold rPaaTransform
  rw [if_neg hne, if_neg (by simp), if_neg (by omega)]
  rfl

theorem rPaaRaw_entry (rnd : K → K) (sum : List K → K) {S : ℕ} {X : Arr3 K} {i s f : ℕ} (hi : i < X.data.length) (hs : s < S) (hf : f < X.d)
    {xs : List K} (h : IsSegment X S i s f xs) (hx : xs ≠ []) : (rPaaRaw rnd sum S X).entry i s f = some (rnd (sum xs / xs.length)) := by
  unfold rPaaRaw
  rw [Arr3.build_entry hi hs hf]
  simp only
  rw [h.entries]
  unfold rMeanOpt
  rw [mapM_id_some]
  simp only [if_neg hx]

theorem paaRaw_entry' {S : ℕ} {X : Arr3 K} {i s f : ℕ} (hi : i < X.data.length) (hs : s < S) (hf : f < X.d)
    {xs : List K} (h : IsSegment X S i s f xs) (hx : xs ≠ []) : (paaRaw S X).entry i s f = some (mean xs) := by
  unfold paaRaw
  rw [Arr3.build_entry hi hs hf]
  simp only
  rw [h.entries]
  unfold meanOpt
  rw [mapM_id_some]
  simp only [if_neg hx, mean]

theorem mean_error {rnd : K → K} {u : K} (hr : RelErr rnd u) (hu : 0 ≤ u) {sum : List K → K} (hsum : ∀ l, RoundedSum rnd l (sum l))
    (xs : List K) (hx : xs ≠ []) : |rnd (sum xs / xs.length) - mean xs| ≤ ((1 + u) ^ (xs.length + 1) - 1) * meanAbs xs := by
  have hn : (0 : K) < xs.length := by exact_mod_cast List.length_pos_iff.2 hx
  have h1 := C105_sum_error hr hu (hsum xs)
  have hA : |xs.sum| ≤ (xs.map abs).sum := by
    clear hx hn h1
    induction xs with
    | nil => simp
    | cons a l ih =>
      simp only [List.sum_cons, List.map_cons]
      exact (abs_add_le _ _).trans (by linarith)
  set A := (xs.map abs).sum
  have hA0 : 0 ≤ A := (abs_nonneg _).trans hA
  set c := (1 + u) ^ xs.length with hc
  have hc1 : 1 ≤ c := one_le_pow₀ (by linarith)
  have hs : |sum xs| ≤ c * A := by
    have : |sum xs| ≤ |sum xs - xs.sum| + |xs.sum| := by
      have := abs_add_le (sum xs - xs.sum) xs.sum
      simpa using this
    nlinarith
  have e : rnd (sum xs / xs.length) - mean xs = (rnd (sum xs / xs.length) - sum xs / xs.length) + (sum xs - xs.sum) / xs.length := by
    unfold mean; ring
  have hm : meanAbs xs = A / xs.length := by simp [meanAbs, mean, A]
  rw [e, hm]
  refine (abs_add_le _ _).trans ?_
  have h2 := hr (sum xs / xs.length)
  rw [abs_div, abs_of_pos hn] at h2
  rw [abs_div, abs_of_pos hn]
  calc _ ≤ u * (c * A / xs.length) + (c - 1) * A / xs.length := by
        refine add_le_add (h2.trans ?_) ?_
        · gcongr
        · gcongr
    _ = _ := by rw [pow_succ, ← hc]; ring

/-- The computed mean of a segment of `n` samples is off by at most `(1 + u)ⁿ⁺¹ - 1` times their mean absolute value, whatever the order of the sum. -/
theorem C112_paa {rnd : K → K} {u : K} (hr : RelErr rnd u) (hu : 0 ≤ u) {sum : List K → K} (hsum : ∀ l, RoundedSum rnd l (sum l))
    (S : ℕ) (hS : 0 < S) (X : Arr3 K) (hne : X.data ≠ []) :
    ∃ P P', paaTransform X.d S X = .ok P ∧ rPaaTransform rnd sum X.d S X = .ok P' ∧
      ∀ i < X.data.length, ∀ s < S, ∀ f < X.d, (P'.entry i s f = none ↔ P.entry i s f = none) ∧
        ∀ xs, IsSegment X S i s f xs → xs ≠ [] →
          ∃ m', P.entry i s f = some (mean xs) ∧ P'.entry i s f = some m' ∧ |m' - mean xs| ≤ ((1 + u) ^ (xs.length + 1) - 1) * meanAbs xs := by
  refine ⟨_, _, ?_, rPaaTransform_ok rnd sum hne hS, fun i hi s hs f hf => ⟨?_, fun xs h hx =>
    ⟨_, paaRaw_entry' hi hs hf h hx, rPaaRaw_entry rnd sum hi hs hf h hx, mean_error hr hu hsum xs hx⟩⟩⟩
  · unfold paaTransform
    rw [if_neg hne, if_neg (by simp), if_neg (by omega)]
    rfl
  · unfold rPaaRaw paaRaw
    rw [Arr3.build_entry hi hs hf, Arr3.build_entry hi hs hf]
    simp only [rMeanOpt, meanOpt]
    generalize List.mapM (id : Option K → Option K) _ = o
    rcases o with _ | xs
    · simp
    · simp only
      split_ifs <;> simp

theorem symbol_margin (bps : List K) {x x' δ : K} (h : |x' - x| ≤ δ) (hb : ∀ b ∈ bps, δ < |x - b|) :
    paaToSymbol bps (some x') = paaToSymbol bps (some x) := by
  rw [paaToSymbol_eq, paaToSymbol_eq]
  have : ∀ b ∈ bps, ltOpt (some x') b = ltOpt (some x) b := by
    intro b hbm
    have h1 := hb b hbm
    rw [abs_le] at h
    simp only [ltOpt, Option.any_some]
    rw [decide_eq_decide]
    constructor
    · intro h2
      by_contra h3
      rw [not_lt] at h3
      rw [abs_of_nonneg (by linarith)] at h1
      linarith
    · intro h2
      rw [abs_of_neg (by linarith)] at h1
      linarith
  clear hb h
  induction bps with
  | nil => rfl
  | cons b l ih =>
    rw [List.findIdx_cons, List.findIdx_cons, this b (by simp), ih fun c hc => this c (List.mem_cons_of_mem _ hc)]

theorem rSax_entry (rnd : K → K) (sum : List K → K) (bps : List K) {S : ℕ} (hS : 0 < S) {X : Arr3 K} (hne : X.data ≠ []) :
    ∃ W, rSaxTransform rnd sum X.d none bps S X = .ok W ∧ ∀ i < X.data.length, ∀ s < S, ∀ f < X.d,
      wordAt (W.getD i []) s f = paaToSymbol bps ((rPaaRaw rnd sum S X).entry i s f) := by
  refine ⟨paaToSymbols bps (rPaaRaw rnd sum S X), ?_, fun i hi s hs f hf => ?_⟩
  · unfold rSaxTransform
    rw [if_neg hne, if_neg (by simp), if_neg (by omega)]
    rfl
  · unfold rPaaRaw
    rw [symbols_build, Arr3.build_entry hi hs hf]
    simp [wordAt, hi, hs, hf]

theorem sax_entry (bps : List K) {S : ℕ} (hS : 0 < S) {X : Arr3 K} (hne : X.data ≠ []) :
    ∃ W, saxTransform X.d none bps S X = .ok W ∧ ∀ i < X.data.length, ∀ s < S, ∀ f < X.d,
      wordAt (W.getD i []) s f = paaToSymbol bps ((paaRaw S X).entry i s f) := by
  refine ⟨paaToSymbols bps (paaRaw S X), saxTransform_ok hne hS, fun i hi s hs f hf => ?_⟩
  unfold paaRaw
  rw [symbols_build, Arr3.build_entry hi hs hf]
  simp [wordAt, hi, hs, hf]

/-- A segment whose mean is farther from every breakpoint than this error gets the symbol of its exact mean. -/
theorem C112_symbol {rnd : K → K} {u : K} (hr : RelErr rnd u) (hu : 0 ≤ u) {sum : List K → K} (hsum : ∀ l, RoundedSum rnd l (sum l))
    (bps : List K) (S : ℕ) (hS : 0 < S) (X : Arr3 K) (hne : X.data ≠ []) :
    ∃ W W', saxTransform X.d none bps S X = .ok W ∧ rSaxTransform rnd sum X.d none bps S X = .ok W' ∧
      ∀ i < X.data.length, ∀ s < S, ∀ f < X.d, ∀ xs, IsSegment X S i s f xs → xs ≠ [] →
        (∀ b ∈ bps, ((1 + u) ^ (xs.length + 1) - 1) * meanAbs xs < |mean xs - b|) →
          wordAt (W'.getD i []) s f = wordAt (W.getD i []) s f := by
  obtain ⟨W, h1, h2⟩ := sax_entry bps hS hne
  obtain ⟨W', h3, h4⟩ := rSax_entry rnd sum bps hS hne
  refine ⟨W, W', h1, h3, fun i hi s hs f hf xs h hx hb => ?_⟩
  rw [h2 i hi s hs f hf, h4 i hi s hs f hf, paaRaw_entry' hi hs hf h hx, rPaaRaw_entry rnd sum hi hs hf h hx]
  exact symbol_margin bps (mean_error hr hu hsum xs hx) hb

/-! ## Scaling -/

/-- The segments of an observed series. -/
theorem Spec.Series.segment {X : Arr3 K} (hX : X.WF) {S i s f n : ℕ} {x : ℕ → ℕ → K} (h : Series X i n x) (hs : s < S) (hf : f < X.d) :
    IsSegment X S i s f ((List.range (n / S)).map fun t => x (s * (n / S) + t) f) := by
  have hz := h.tsSize hX (by omega)
  refine ⟨by rw [hz]; simp, fun t ht => ?_⟩
  simp only [List.length_map, List.length_range] at ht ⊢
  rw [List.getElem_map, List.getElem_range]
  refine h.2.2.1 _ ?_ _ hf
  calc s * (n / S) + t < s * (n / S) + n / S := by omega
    _ = (s + 1) * (n / S) := by ring
    _ ≤ S * (n / S) := Nat.mul_le_mul_right _ hs
    _ ≤ n := Nat.mul_div_le n S

/-- An array with the entries of a series transformed one by one. -/
theorem Spec.Series.mapped {X : Arr3 K} {i n : ℕ} {x : ℕ → ℕ → K} (h : Series X i n x) (g : ℕ → K → K) (F : ℕ → Option K → Option K)
    (hF : ∀ f < X.d, ∀ a, F f (some a) = some (g f a)) (hN : ∀ f, F f none = none) :
    Series (Arr3.build X.data.length X.sz X.d fun i t f => F f (X.entry i t f)) i n fun t f => g f (x t f) := by
  refine ⟨by rw [Arr3.build_length]; exact h.1, h.2.1, fun t ht f hf => ?_, fun t ht f => ?_⟩
  · change f < X.d at hf
    rw [Arr3.build_entry h.1 (lt_of_lt_of_le ht h.2.1) hf, h.2.2.1 t ht f hf, hF f hf]
  · by_cases h1 : t < X.sz
    · by_cases h2 : f < X.d
      · rw [Arr3.build_entry h.1 h1 h2, h.2.2.2 t ht f, hN]
      · simp [Arr3.entry, Arr3.build, h.1, h1, h2]
    · simp [Arr3.entry, Arr3.build, h.1, h1]

theorem mean_near {A : Type} (l : List A) (g g' : A → K) {δ : K} (h : ∀ a ∈ l, |g' a - g a| ≤ δ * |g a|) :
    |mean (l.map g') - mean (l.map g)| ≤ δ * meanAbs (l.map g) ∧ meanAbs (l.map g') ≤ (1 + δ) * meanAbs (l.map g) := by
  have aux : |(l.map g').sum - (l.map g).sum| ≤ δ * ((l.map g).map abs).sum ∧ ((l.map g').map abs).sum ≤ (1 + δ) * ((l.map g).map abs).sum := by
    induction l with
    | nil => simp
    | cons a l ih =>
      obtain ⟨h1, h2⟩ := ih fun b hb => h b (List.mem_cons_of_mem _ hb)
      have h3 := h a (by simp)
      simp only [List.map_cons, List.sum_cons]
      constructor
      · have := abs_add_le (g' a - g a) ((l.map g').sum - (l.map g).sum)
        rw [show g' a + (l.map g').sum - (g a + (l.map g).sum) = (g' a - g a) + ((l.map g').sum - (l.map g).sum) by ring]
        linarith
      · have := abs_sub_abs_le_abs_sub (g' a) (g a)
        linarith
  have hn : (0 : K) ≤ (l.length : K) := Nat.cast_nonneg _
  simp only [mean, meanAbs, List.length_map]
  constructor
  · rw [← sub_div, abs_div, abs_of_nonneg hn, ← mul_div_assoc]
    exact div_le_div_of_nonneg_right aux.1 hn
  · rw [← mul_div_assoc]
    exact div_le_div_of_nonneg_right aux.2 hn

theorem scaled_error {rnd : K → K} {u : K} (hr : RelErr rnd u) (hu : 0 ≤ u) (x mu sd : K) :
    |rnd (rnd (x - mu) / sd) - (x - mu) / sd| ≤ ((1 + u) ^ 2 - 1) * |(x - mu) / sd| := by
  have h1 := hr (x - mu)
  have h2 := hr (rnd (x - mu) / sd)
  have h3 : |rnd (x - mu) / sd - (x - mu) / sd| ≤ u * |(x - mu) / sd| := by
    rw [← sub_div, abs_div, abs_div, ← mul_div_assoc]
    exact div_le_div_of_nonneg_right h1 (abs_nonneg _)
  have h4 := abs_sub_abs_le_abs_sub (rnd (x - mu) / sd) ((x - mu) / sd)
  have h5 := abs_add_le (rnd (rnd (x - mu) / sd) - rnd (x - mu) / sd) (rnd (x - mu) / sd - (x - mu) / sd)
  rw [sub_add_sub_cancel] at h5
  nlinarith

/-- With scaling by stored means and deviations: two more relative errors. -/
theorem C112_scaled {rnd : K → K} {u : K} (hr : RelErr rnd u) (hu : 0 ≤ u) {sum : List K → K} (hsum : ∀ l, RoundedSum rnd l (sum l))
    (bps mu sd : List K) (m : Scaling K) (S : ℕ) (hS : 0 < S) (X : Arr3 K) (hne : X.data ≠ [])
    (hm : ∀ f < X.d, m f = (some (mu.getD f 0), some (sd.getD f 0))) :
    ∃ W W', saxTransform X.d (some m) bps S X = .ok W ∧ rSaxTransform rnd sum X.d (some m) bps S X = .ok W' ∧
      ∀ i n x, Series X i n x → S ≤ n → ∀ s < S, ∀ f < X.d, ∀ zs,
        zs = ((List.range (n / S)).map fun t => (x (s * (n / S) + t) f - mu.getD f 0) / sd.getD f 0) →
        (∀ b ∈ bps, ((1 + u) ^ (zs.length + 3) - 1) * meanAbs zs < |mean zs - b|) →
          wordAt (W'.getD i []) s f = wordAt (W.getD i []) s f ∧ wordAt (W.getD i []) s f = paaToSymbol bps (some (mean zs)) := by
  have hne1 : (saxScale (some m) X).data ≠ [] := by
    intro e; have := congrArg List.length e; simp [saxScale, Arr3.build] at this; exact hne this
  have hne2 : (rSaxScale rnd (some m) X).data ≠ [] := by
    intro e; have := congrArg List.length e; simp [rSaxScale, Arr3.build] at this; exact hne this
  obtain ⟨W, h1, h2⟩ := sax_entry bps hS hne1
  obtain ⟨W', h3, h4⟩ := rSax_entry rnd sum bps hS hne2
  have h1' : saxTransform X.d (some m) bps S X = .ok W := by
    rw [← h1]
    unfold saxTransform
    rw [if_neg hne, if_neg (by simp), if_neg (by omega), if_neg hne1, if_neg (by simp [saxScale, Arr3.build]), if_neg (by omega)]
    rfl
  have h3' : rSaxTransform rnd sum X.d (some m) bps S X = .ok W' := by
    rw [← h3]
    unfold rSaxTransform
    rw [if_neg hne, if_neg (by simp), if_neg (by omega), if_neg hne2, if_neg (by simp [rSaxScale, Arr3.build]), if_neg (by omega)]
    rfl
  refine ⟨W, W', h1', h3', fun i n x h hn s hs f hf zs hz hb => ?_⟩
  have s1 : Series (saxScale (some m) X) i n fun t f => (x t f - mu.getD f 0) / sd.getD f 0 :=
    h.mapped (fun f a => (a - mu.getD f 0) / sd.getD f 0) (fun f o => o.bind fun x => (m f).1.bind fun mu => (m f).2.map fun s => (x - mu) / s)
      (fun f hf a => by simp [hm f hf]) (fun f => rfl)
  have s2 : Series (rSaxScale rnd (some m) X) i n fun t f => rnd (rnd (x t f - mu.getD f 0) / sd.getD f 0) :=
    h.mapped (fun f a => rnd (rnd (a - mu.getD f 0) / sd.getD f 0))
      (fun f o => o.bind fun x => (m f).1.bind fun mu => (m f).2.map fun s => rnd (rnd (x - mu) / s))
      (fun f hf a => by simp [hm f hf]) (fun f => rfl)
  have q0 : 0 < n / S := Nat.div_pos hn hS
  have g1 := s1.segment (Arr3.build_wf _ _ _ _) hs (f := f) (by simpa [saxScale, Arr3.build] using hf)
  have g2 := s2.segment (Arr3.build_wf _ _ _ _) hs (f := f) (by simpa [rSaxScale, Arr3.build] using hf)
  have n1 : (List.range (n / S)).map (fun t => (x (s * (n / S) + t) f - mu.getD f 0) / sd.getD f 0) ≠ [] := by
    intro e; have := congrArg List.length e; simp at this; omega
  have n2 : (List.range (n / S)).map (fun t => rnd (rnd (x (s * (n / S) + t) f - mu.getD f 0) / sd.getD f 0)) ≠ [] := by
    intro e; have := congrArg List.length e; simp at this; omega
  have i1 : i < (saxScale (some m) X).data.length := s1.1
  have i2 : i < (rSaxScale rnd (some m) X).data.length := s2.1
  have f1 : f < (saxScale (some m) X).d := by simpa [saxScale, Arr3.build] using hf
  have f2 : f < (rSaxScale rnd (some m) X).d := by simpa [rSaxScale, Arr3.build] using hf
  rw [h2 i i1 s hs f f1, h4 i i2 s hs f f2, paaRaw_entry' i1 hs f1 g1 n1, rPaaRaw_entry rnd sum i2 hs f2 g2 n2, ← hz]
  refine ⟨?_, rfl⟩
  refine symbol_margin bps ?_ hb
  have e1 := mean_error hr hu hsum _ n2
  obtain ⟨e2, e3⟩ := mean_near (List.range (n / S)) (fun t => (x (s * (n / S) + t) f - mu.getD f 0) / sd.getD f 0)
    (fun t => rnd (rnd (x (s * (n / S) + t) f - mu.getD f 0) / sd.getD f 0)) (δ := (1 + u) ^ 2 - 1) fun t _ => scaled_error hr hu _ _ _
  have hl : zs.length = n / S := by rw [hz]; simp
  rw [← hz] at e2 e3
  simp only [List.length_map, List.length_range] at e1 ⊢
  set z' := (List.range (n / S)).map fun t => rnd (rnd (x (s * (n / S) + t) f - mu.getD f 0) / sd.getD f 0)
  have e4 := abs_add_le (rnd (sum z' / ((n / S : ℕ) : K)) - mean z') (mean z' - mean zs)
  rw [sub_add_sub_cancel] at e4
  rw [hl]
  have c0 : 0 ≤ (1 + u) ^ (n / S + 1) - 1 := sub_nonneg.2 (one_le_pow₀ (by linarith))
  calc _ ≤ _ := e4
    _ ≤ ((1 + u) ^ (n / S + 1) - 1) * ((1 + ((1 + u) ^ 2 - 1)) * meanAbs zs) + ((1 + u) ^ 2 - 1) * meanAbs zs := by
        refine add_le_add (e1.trans ?_) e2
        exact mul_le_mul_of_nonneg_left e3 c0
    _ = _ := by ring

/-- Larger samples never get a smaller mean or a smaller symbol: rounding is monotone, and so is a sum in a fixed order. -/
theorem C112_order {rnd : K → K} (hm : Monotone rnd) {sum : List K → K} (hsum : ∀ l l', List.Forall₂ (· ≤ ·) l l' → sum l ≤ sum l')
    (bps : List K) (S : ℕ) (hS : 0 < S) (X : Arr3 K) (hne : X.data ≠ []) :
    ∃ P' W', rPaaTransform rnd sum X.d S X = .ok P' ∧ rSaxTransform rnd sum X.d none bps S X = .ok W' ∧
      ∀ i < X.data.length, ∀ s < S, ∀ f < X.d, ∀ i' < X.data.length, ∀ s' < S, ∀ f' < X.d, ∀ xs xs',
        IsSegment X S i s f xs → IsSegment X S i' s' f' xs' → xs ≠ [] → List.Forall₂ (· ≤ ·) xs xs' →
          (∃ m m', P'.entry i s f = some m ∧ P'.entry i' s' f' = some m' ∧ m ≤ m') ∧
            wordAt (W'.getD i []) s f ≤ wordAt (W'.getD i' []) s' f' := by
  obtain ⟨W', h3, h4⟩ := rSax_entry rnd sum bps hS hne
  refine ⟨_, W', rPaaTransform_ok rnd sum hne hS, h3, fun i hi s hs f hf i' hi' s' hs' f' hf' xs xs' h h' hx hle => ?_⟩
  have hl : xs.length = xs'.length := hle.length_eq
  have hx' : xs' ≠ [] := by
    intro e; rw [e] at hl; exact hx (List.length_eq_zero_iff.1 hl)
  have key : rnd (sum xs / xs.length) ≤ rnd (sum xs' / xs'.length) := by
    rw [← hl]
    apply hm
    gcongr
    exact hsum _ _ hle
  refine ⟨⟨_, _, rPaaRaw_entry rnd sum hi hs hf h hx, rPaaRaw_entry rnd sum hi' hs' hf' h' hx', key⟩, ?_⟩
  rw [h4 i hi s hs f hf, h4 i' hi' s' hs' f' hf', rPaaRaw_entry rnd sum hi hs hf h hx, rPaaRaw_entry rnd sum hi' hs' hf' h' hx']
  exact (C33_monotone bps).1 _ _ key

/-- The sum in the order of the samples. -/
def orderSum (rnd : K → K) (l : List K) : K := l.foldl (fun s a => rnd (s + a)) 0

/-- It meets both hypotheses on sums. -/
theorem orderSum_mono {rnd : K → K} (hm : Monotone rnd) : ∀ l l' : List K, List.Forall₂ (· ≤ ·) l l' → orderSum rnd l ≤ orderSum rnd l' := by
  have aux : ∀ l l' : List K, List.Forall₂ (· ≤ ·) l l' → ∀ a b, a ≤ b →
      l.foldl (fun s a => rnd (s + a)) a ≤ l'.foldl (fun s a => rnd (s + a)) b := by
    intro l l' h
    induction h with
    | nil => intro a b h; exact h
    | cons h _ ih => intro a b hab; exact ih _ _ (hm (add_le_add hab h))
  exact fun l l' h => aux l l' h 0 0 le_rfl

theorem orderSum_rounded (rnd : K → K) (l : List K) : RoundedSum rnd l (orderSum rnd l) := by
  induction l using List.reverseRecOn with
  | nil => exact RoundedSum.nil
  | append_singleton l a ih =>
    rw [orderSum, List.foldl_append]
    by_cases hl : l = []
    · subst hl; exact RoundedSum.first a
    · exact RoundedSum.add hl (by simp) ih (RoundedSum.single a)

end

section
variable {K : Type} [Field K] [LinearOrder K] [IsStrictOrderedRing K] [FloorRing K]

/-- Samples on a common grid, with sums of at most `p + 1` bits (integers below 2⁵³ in all, for doubles): the computed mean is the exact mean, rounded once.
Its symbol is never smaller than the exact one, and differs only if the mean was rounded up to a breakpoint. -/
theorem C112_grid (p : ℕ) {sum : List K → K} (hsum : ∀ l, RoundedSum (nearBits p) l (sum l)) (bps : List K) (hb : ∀ b ∈ bps, nearBits p b = b)
    (S : ℕ) (hS : 0 < S) (X : Arr3 K) (hne : X.data ≠ []) :
    ∃ P' W W', rPaaTransform (nearBits p) sum X.d S X = .ok P' ∧ saxTransform X.d none bps S X = .ok W ∧
      rSaxTransform (nearBits p) sum X.d none bps S X = .ok W' ∧
      ∀ i < X.data.length, ∀ s < S, ∀ f < X.d, ∀ xs, IsSegment X S i s f xs → xs ≠ [] → ∀ e : ℤ, (∀ a ∈ xs, ∃ z : ℤ, a = z * 2 ^ e) →
        (xs.map abs).sum < 2 ^ (p + 1) * 2 ^ e →
          P'.entry i s f = some (nearBits p (mean xs)) ∧ wordAt (W.getD i []) s f ≤ wordAt (W'.getD i []) s f ∧
          (nearBits p (mean xs) ∉ bps → wordAt (W'.getD i []) s f = wordAt (W.getD i []) s f) := by
  obtain ⟨W, h1, h2⟩ := sax_entry bps hS hne
  obtain ⟨W', h3, h4⟩ := rSax_entry (nearBits p) sum bps hS hne
  refine ⟨_, W, W', rPaaTransform_ok _ sum hne hS, h1, h3, fun i hi s hs f hf xs h hx e hz hlt => ?_⟩
  have hs' := C105_short_sum p e (hsum xs) hz hlt
  have he : (rPaaRaw (nearBits p) sum S X).entry i s f = some (nearBits p (mean xs)) := by
    rw [rPaaRaw_entry _ sum hi hs hf h hx, hs']; rfl
  refine ⟨he, ?_⟩
  rw [h2 i hi s hs f hf, h4 i hi s hs f hf, he, paaRaw_entry' hi hs hf h hx]
  have hmono := (nearBits_oddMono (K := K) p).mono
  have key : ∀ b ∈ bps, (nearBits p (mean xs) < b → mean xs < b) := by
    intro b hbm hlt
    by_contra hc
    rw [not_lt] at hc
    have := hmono hc
    rw [hb b hbm] at this
    exact absurd hlt (not_lt.2 this)
  have key2 : nearBits p (mean xs) ∉ bps → ∀ b ∈ bps, (mean xs < b → nearBits p (mean xs) < b) := by
    intro hn b hbm hlt
    have := hmono hlt.le
    rw [hb b hbm] at this
    exact lt_of_le_of_ne this fun e => hn (e ▸ hbm)
  clear h2 h4 he h1 h3
  rw [paaToSymbol_eq, paaToSymbol_eq]
  generalize nearBits p (mean xs) = m' at *
  generalize mean xs = m at *
  clear hb
  constructor
  · clear key2
    induction bps with
    | nil => simp
    | cons b l ih =>
      rw [List.findIdx_cons, List.findIdx_cons]
      have k := key b (by simp)
      have := ih fun c hc => key c (List.mem_cons_of_mem _ hc)
      simp only [ltOpt, Option.any_some] at *
      by_cases hq : m < b
      · simp [hq]
      · have : ¬ m' < b := fun h => hq (k h)
        simpa [hq, this]
  · intro hn
    have hk := key2 hn
    clear hn key2
    induction bps with
    | nil => simp
    | cons b l ih =>
      rw [List.findIdx_cons, List.findIdx_cons]
      have k := key b (by simp)
      have k2 := hk b (by simp)
      have ih' := ih (fun c hc => key c (List.mem_cons_of_mem _ hc)) (fun c hc => hk c (List.mem_cons_of_mem _ hc))
      have : ltOpt (some m') b = ltOpt (some m) b := by
        simp only [ltOpt, Option.any_some]
        rw [decide_eq_decide]
        exact ⟨k, k2⟩
      rw [this, ih']

/-- A constant segment of `n` samples `z 2ᵉ` with `n |z| < 2ᵖ⁺¹` keeps its value and its symbol. -/
theorem C112_constant (p : ℕ) {sum : List K → K} (hsum : ∀ l, RoundedSum (nearBits p) l (sum l)) (bps : List K)
    (S : ℕ) (hS : 0 < S) (X : Arr3 K) (hne : X.data ≠ []) :
    ∃ P' W', rPaaTransform (nearBits p) sum X.d S X = .ok P' ∧ rSaxTransform (nearBits p) sum X.d none bps S X = .ok W' ∧
      ∀ i < X.data.length, ∀ s < S, ∀ f < X.d, ∀ (n : ℕ) (z e : ℤ), 0 < n → IsSegment X S i s f (List.replicate n ((z : K) * 2 ^ e)) →
        n * |z| < 2 ^ (p + 1) → P'.entry i s f = some ((z : K) * 2 ^ e) ∧ wordAt (W'.getD i []) s f = paaToSymbol bps (some ((z : K) * 2 ^ e)) := by
  obtain ⟨W', h3, h4⟩ := rSax_entry (nearBits p) sum bps hS hne
  refine ⟨_, W', rPaaTransform_ok _ sum hne hS, h3, fun i hi s hs f hf n z e hn h hz => ?_⟩
  have hx : List.replicate n ((z : K) * 2 ^ e) ≠ [] := by
    intro h; have := congrArg List.length h; simp at this; omega
  have he2 : (0 : K) < 2 ^ e := zpow_pos (by norm_num) _
  have hs' := C105_short_sum p e (hsum (List.replicate n ((z : K) * 2 ^ e))) (by
    intro a ha; exact ⟨z, List.eq_of_mem_replicate ha⟩) (by
    simp only [List.map_replicate, List.sum_replicate, nsmul_eq_mul, abs_mul, abs_of_pos he2]
    rw [← mul_assoc]
    apply mul_lt_mul_of_pos_right _ he2
    exact_mod_cast hz)
  have hm : (List.replicate n ((z : K) * 2 ^ e)).sum / ((List.replicate n ((z : K) * 2 ^ e)).length : K) = z * 2 ^ e := by
    simp only [List.sum_replicate, List.length_replicate, nsmul_eq_mul]
    have : (n : K) ≠ 0 := by exact_mod_cast hn.ne'
    field_simp
  have hzp : |z| < 2 ^ (p + 1) := by
    refine lt_of_le_of_lt ?_ hz
    have := abs_nonneg z
    have : (1 : ℤ) ≤ n := by exact_mod_cast hn
    nlinarith
  have he : (rPaaRaw (nearBits p) sum S X).entry i s f = some ((z : K) * 2 ^ e) := by
    rw [rPaaRaw_entry _ sum hi hs hf h hx, hs', hm, nearBits_exact p e z hzp]
  refine ⟨he, ?_⟩
  rw [h4 i hi s hs f hf, he]

/-- Multiplying the samples by a power of two multiplies the means by it, without a further error. -/
theorem C112_scale (p : ℕ) (j : ℤ) (S : ℕ) (hS : 0 < S) (X Y : Arr3 K) (hne : X.data ≠ []) (hl : Y.data.length = X.data.length) (hd : Y.d = X.d) :
    ∃ P Q, rPaaTransform (nearBits p) (orderSum (nearBits p)) X.d S X = .ok P ∧ rPaaTransform (nearBits p) (orderSum (nearBits p)) X.d S Y = .ok Q ∧
      ∀ i < X.data.length, ∀ s < S, ∀ f < X.d, ∀ xs, IsSegment X S i s f xs → IsSegment Y S i s f (xs.map fun a => 2 ^ j * a) → xs ≠ [] →
        ∃ m, P.entry i s f = some m ∧ Q.entry i s f = some (2 ^ j * m) := by
  refine ⟨_, rPaaRaw (nearBits p) (orderSum (nearBits p)) S Y, rPaaTransform_ok _ _ hne hS, ?_, fun i hi s hs f hf xs h h' hx =>
    ⟨_, rPaaRaw_entry _ _ hi hs hf h hx, ?_⟩⟩
  · rw [← hd]; exact rPaaTransform_ok _ _ (by intro e; rw [e] at hl; exact hne (List.length_eq_zero_iff.1 hl.symm)) hS
  · rw [rPaaRaw_entry _ _ (hl ▸ hi) hs (hd ▸ hf) h' (by simpa using hx)]
    have : ∀ (l : List K) (a : K), (l.map fun a => 2 ^ j * a).foldl (fun s a => nearBits p (s + a)) (2 ^ j * a) =
        2 ^ j * l.foldl (fun s a => nearBits p (s + a)) a := by
      intro l
      induction l with
      | nil => intro a; rfl
      | cons b l ih =>
        intro a
        simp only [List.map_cons, List.foldl_cons]
        rw [← mul_add, nearBits_scale, ih]
    have h0 := this xs 0
    rw [mul_zero] at h0
    rw [orderSum, h0, List.length_map, mul_div_assoc, nearBits_scale]
    rfl

end

/-! ## Distances -/

theorem Spec.NearRel.mul {u : ℝ} {N M : ℕ} {a' a b' b : ℝ} (hu1 : u ≤ 1) (hu : 0 ≤ u) (ha : 0 ≤ a) (hb : 0 ≤ b) (h : NearRel u N a' a)
    (h' : NearRel u M b' b) : NearRel u (N + M) (a' * b') (a * b) := by
  have h1 : 0 ≤ (1 - u) := by linarith
  constructor
  · calc _ = ((1 - u) ^ N * a) * ((1 - u) ^ M * b) := by ring
      _ ≤ _ := mul_le_mul h.1 h'.1 (by positivity) (h.nonneg hu1 ha)
  · calc _ ≤ ((1 + u) ^ N * a) * ((1 + u) ^ M * b) := mul_le_mul h.2 h'.2 (h'.nonneg hu1 hb) (by positivity)
      _ = _ := by ring

theorem Spec.NearRel.eq_zero_iff {u : ℝ} {N : ℕ} {a' a : ℝ} (hu1 : u < 1) (ha : 0 ≤ a) (h : NearRel u N a' a) : a' = 0 ↔ a = 0 := by
  constructor
  · rintro rfl
    have h1 : 0 < (1 - u) ^ N := pow_pos (by linarith) _
    have := h.1
    nlinarith
  · rintro rfl
    have h1 := h.1
    have h2 := h.2
    simp only [mul_zero] at h1 h2
    exact le_antisymm h2 h1

/-- The square of a rounded number. -/
theorem Spec.NearRel.rndSq {rnd : ℝ → ℝ} {u : ℝ} (hr : RelErr rnd u) (hu : 0 ≤ u) (hu1 : u ≤ 1) {N : ℕ} {r w : ℝ} (hr0 : 0 ≤ r)
    (h : NearRel u N (r ^ 2) w) : 0 ≤ rnd r ∧ NearRel u (N + 2) (rnd r ^ 2) w := by
  obtain ⟨h1, h2⟩ := hr.bounds hr0
  have h0 : 0 ≤ (1 - u) * r := mul_nonneg (by linarith) hr0
  refine ⟨h0.trans h1, ?_, ?_⟩
  · calc _ = (1 - u) ^ 2 * ((1 - u) ^ N * w) := by ring
      _ ≤ (1 - u) ^ 2 * r ^ 2 := mul_le_mul_of_nonneg_left h.1 (by positivity)
      _ = ((1 - u) * r) ^ 2 := by ring
      _ ≤ _ := pow_le_pow_left₀ h0 h1 2
  · calc _ ≤ ((1 + u) * r) ^ 2 := pow_le_pow_left₀ (h0.trans h1) h2 2
      _ = (1 + u) ^ 2 * r ^ 2 := by ring
      _ ≤ (1 + u) ^ 2 * ((1 + u) ^ N * w) := mul_le_mul_of_nonneg_left h.2 (by positivity)
      _ = _ := by ring

theorem paa_diffs (rnd : ℝ → ℝ) (dot : List ℝ → ℝ) (N S : ℕ) (P : Arr3 ℝ) (i j : ℕ) (a b : ℕ → ℕ → ℝ)
    (ha : ∀ s < P.sz, ∀ f < P.d, P.entry i s f = some (a s f)) (hb : ∀ s < P.sz, ∀ f < P.d, P.entry j s f = some (b s f)) :
    rDistancePaa rnd dot N S P i j = some (rnd (rnd (Real.sqrt (dot (((List.range P.sz).flatMap fun s => (List.range P.d).map fun f => (s, f)).map
      fun e => rnd (a e.1 e.2 - b e.1 e.2)))) * rnd (Real.sqrt (rnd ((N : ℝ) / (S : ℝ)))))) := by
  unfold rDistancePaa
  have : ((List.range P.sz).flatMap fun s => (List.range P.d).map fun f =>
      (P.entry i s f).bind fun x => (P.entry j s f).map fun y => rnd (x - y)) =
      ((((List.range P.sz).flatMap fun s => (List.range P.d).map fun f => (s, f)).map fun e => rnd (a e.1 e.2 - b e.1 e.2))).map some := by
    rw [List.map_flatMap, List.map_flatMap]
    refine List.flatMap_congr fun s hs => ?_
    rw [List.map_map, List.map_map]
    apply List.map_congr_left
    intro f hf
    rw [List.mem_range] at hs hf
    rw [ha s hs f hf, hb s hs f hf]
    rfl
  rw [this, mapM_id_some]
  rfl

theorem sum_pairs (n d : ℕ) (g : ℕ → ℕ → ℝ) : (((List.range n).flatMap fun s => (List.range d).map fun f => (s, f)).map fun e => g e.1 e.2).sum =
    ∑ s ∈ Finset.range n, ∑ f ∈ Finset.range d, g s f := by
  rw [← listsum_range]
  induction List.range n with
  | nil => rfl
  | cons s l ih =>
    rw [List.flatMap_cons, List.map_append, List.sum_append, ih, List.map_cons, List.sum_cons, List.map_map]
    congr 1

theorem length_pairs (n d : ℕ) : ((List.range n).flatMap fun s => (List.range d).map fun f => (s, f)).length = n * d := by
  simp [List.length_flatMap]

/-- The square of the computed PAA distance carries at most `S d + 10` relative errors; it is 0 exactly when the two arrays are equal. -/
theorem C112_distance {rnd : ℝ → ℝ} {u : ℝ} (hr : RelErr rnd u) (hu : 0 ≤ u) (hu1 : u < 1) {dot : List ℝ → ℝ} (hdot : ∀ l, RoundedDot rnd l (dot l))
    (N S : ℕ) (hN : 0 < N) (hS : 0 < S) (P : Arr3 ℝ) (i j : ℕ) (a b : ℕ → ℕ → ℝ)
    (ha : ∀ s < P.sz, ∀ f < P.d, P.entry i s f = some (a s f)) (hb : ∀ s < P.sz, ∀ f < P.d, P.entry j s f = some (b s f)) :
    ∃ D D', distancePaa N S P i j = some D ∧ rDistancePaa rnd dot N S P i j = some D' ∧ 0 ≤ D' ∧
      NearRel u (P.sz * P.d + 10) (D' ^ 2) (D ^ 2) ∧ (D' = 0 ↔ ∀ s < P.sz, ∀ f < P.d, a s f = b s f) := by
  have hs0 : 0 ≤ ∑ s ∈ Finset.range P.sz, ∑ f ∈ Finset.range P.d, (a s f - b s f) ^ 2 :=
    Finset.sum_nonneg fun s _ => Finset.sum_nonneg fun f _ => sq_nonneg _
  have hq0 : (0 : ℝ) < (N : ℝ) / S := by positivity
  have hD : distancePaa N S P i j = some (Real.sqrt (∑ s ∈ Finset.range P.sz, ∑ f ∈ Finset.range P.d, (a s f - b s f) ^ 2) *
      Real.sqrt ((N : ℝ) / S)) := by
    unfold distancePaa
    rw [sqDistOpt_some _ _ _ _ a b ha hb]
    rfl
  refine ⟨_, _, hD, paa_diffs rnd dot N S P i j a b ha hb, ?_⟩
  set l := (List.range P.sz).flatMap fun s => (List.range P.d).map fun f => (s, f) with hl
  have hsum : ((l.map fun e => a e.1 e.2 - b e.1 e.2).map fun a => a ^ 2).sum =
      ∑ s ∈ Finset.range P.sz, ∑ f ∈ Finset.range P.d, (a s f - b s f) ^ 2 := by
    rw [← sum_pairs P.sz P.d fun s f => (a s f - b s f) ^ 2, List.map_map]; rfl
  have h1 : NearRel u (P.sz * P.d + 3) (dot (l.map fun e => rnd (a e.1 e.2 - b e.1 e.2)))
      (∑ s ∈ Finset.range P.sz, ∑ f ∈ Finset.range P.d, (a s f - b s f) ^ 2) := by
    have := (C104_dot_error hr hu hu1.le (hdot (l.map fun e => rnd (a e.1 e.2 - b e.1 e.2)))).trans hu hu1.le
      (near_diffs hr hu hu1.le l fun e => a e.1 e.2 - b e.1 e.2)
    rw [hsum, List.length_map, hl, length_pairs] at this
    exact this
  obtain ⟨p1, h2⟩ := near_sqrt hr hu1.le hs0 h1
  have h3 : NearRel u 1 (rnd ((N : ℝ) / S)) ((N : ℝ) / S) := NearRel.rnd hr hu hu1.le hq0.le (NearRel.refl _ _)
  obtain ⟨p2, h4⟩ := near_sqrt hr hu1.le hq0.le h3
  have h5 := NearRel.mul hu1.le hu hs0 hq0.le h2 h4
  rw [← mul_pow] at h5
  obtain ⟨p3, h6⟩ := NearRel.rndSq hr hu hu1.le (mul_nonneg p1 p2) h5
  have e : (Real.sqrt (∑ s ∈ Finset.range P.sz, ∑ f ∈ Finset.range P.d, (a s f - b s f) ^ 2) * Real.sqrt ((N : ℝ) / S)) ^ 2 =
      (∑ s ∈ Finset.range P.sz, ∑ f ∈ Finset.range P.d, (a s f - b s f) ^ 2) * ((N : ℝ) / S) := by
    rw [mul_pow, Real.sq_sqrt hs0, Real.sq_sqrt hq0.le]
  refine ⟨p3, by rw [e]; exact h6.mono hu hu1.le (mul_nonneg hs0 hq0.le) (by omega), ?_⟩
  rw [← sq_eq_zero_iff, h6.eq_zero_iff hu1 (mul_nonneg hs0 hq0.le), mul_eq_zero, or_iff_left hq0.ne',
    Finset.sum_eq_zero_iff_of_nonneg fun s _ => Finset.sum_nonneg fun f _ => sq_nonneg _]
  refine forall_congr' fun s => ?_
  rw [Finset.mem_range]
  refine imp_congr_right fun _ => ?_
  rw [Finset.sum_eq_zero_iff_of_nonneg fun f _ => sq_nonneg _]
  refine forall_congr' fun f => ?_
  rw [Finset.mem_range, sq_eq_zero_iff, sub_eq_zero]

theorem sum_filter_cells {A : Type} (l : List A) (q : A → Bool) (g : A → ℝ) : (((l.filter q).map g).map fun a => a ^ 2).sum =
    (l.map fun e => if q e then g e ^ 2 else 0).sum := by
  induction l with
  | nil => rfl
  | cons e l ih =>
    by_cases h : q e
    · simp [h] at ih ⊢; exact ih
    · simp [h] at ih ⊢; exact ih

/-- The square of the computed distance of two words carries at most `S d + 7` relative errors, and it is 0 exactly when the exact one is. -/
theorem C112_words {rnd : ℝ → ℝ} {u : ℝ} (hr : RelErr rnd u) (hu : 0 ≤ u) (hu1 : u < 1) {dot : List ℝ → ℝ} (hdot : ∀ l, RoundedDot rnd l (dot l))
    (bps : List ℝ) (size S d : ℕ) (w w' : List (List ℕ)) :
    0 ≤ rCydistSax rnd dot bps size S d w w' ∧
      NearRel u (S * d + 7) (rCydistSax rnd dot bps size S d w w' ^ 2) (cydistSax bps size S d w w' ^ 2) ∧
      (rCydistSax rnd dot bps size S d w w' = 0 ↔ cydistSax bps size S d w w' = 0) := by
  set l := (List.range S).flatMap fun s => (List.range d).map fun f => (s, f) with hl
  set q : ℕ × ℕ → Bool := fun e => decide (wordAt w e.1 e.2 + 1 < wordAt w' e.1 e.2 ∨ wordAt w' e.1 e.2 + 1 < wordAt w e.1 e.2) with hq
  set g : ℕ × ℕ → ℝ := fun e => bps.getD (max (wordAt w e.1 e.2) (wordAt w' e.1 e.2) - 1) 0 - bps.getD (min (wordAt w e.1 e.2) (wordAt w' e.1 e.2)) 0 with hg
  have hd : ((List.range S).flatMap fun s => ((List.range d).filter fun f =>
      decide (wordAt w s f + 1 < wordAt w' s f ∨ wordAt w' s f + 1 < wordAt w s f)).map fun f =>
    rnd (bps.getD (max (wordAt w s f) (wordAt w' s f) - 1) 0 - bps.getD (min (wordAt w s f) (wordAt w' s f)) 0)) =
      (l.filter q).map fun e => rnd (g e) := by
    rw [hl, List.filter_flatMap, List.map_flatMap]
    refine List.flatMap_congr fun s _ => ?_
    rw [List.filter_map, List.map_map]
    rfl
  set A := ((List.range S).map fun s => ((List.range d).map fun f => saxCell bps (wordAt w s f) (wordAt w' s f)).sum).sum with hA
  have hsum : (((l.filter q).map g).map fun a => a ^ 2).sum = A := by
    rw [sum_filter_cells, hA, listsum_range]
    simp only [listsum_range]
    rw [← sum_pairs]
    congr 1
    apply List.map_congr_left
    intro e _
    simp only [hq, hg, saxCell, decide_eq_true_eq]
  have hA0 : 0 ≤ A := by rw [← hsum]; exact sumSq_nonneg _
  have hlen : (l.filter q).length ≤ S * d := by
    refine (List.length_filter_le _ _).trans ?_
    rw [hl, length_pairs]
  have h1 : NearRel u (S * d + 3) (dot ((l.filter q).map fun e => rnd (g e))) A := by
    have := (C104_dot_error hr hu hu1.le (hdot ((l.filter q).map fun e => rnd (g e)))).trans hu hu1.le
      (near_diffs hr hu hu1.le (l.filter q) g)
    rw [hsum, List.length_map] at this
    exact this.mono hu hu1.le hA0 (by omega)
  have hsz : (0 : ℝ) ≤ size := Nat.cast_nonneg _
  have h2 : NearRel u ((S * d + 3) + 0 + 1) (rnd (dot ((l.filter q).map fun e => rnd (g e)) * (size : ℝ))) (A * size) :=
    NearRel.rnd hr hu hu1.le (mul_nonneg hA0 hsz) (NearRel.mul (N := S * d + 3) (M := 0) hu1.le hu hA0 hsz h1 (NearRel.refl _ _))
  have hS0 : (0 : ℝ) ≤ S := Nat.cast_nonneg _
  have hV0 : 0 ≤ A * size / S := div_nonneg (mul_nonneg hA0 hsz) hS0
  have h3 := NearRel.rnd hr hu hu1.le hV0 (h2.div hS0)
  obtain ⟨p, h4⟩ := near_sqrt hr hu1.le hV0 h3
  have e1 : rCydistSax rnd dot bps size S d w w' = rnd (Real.sqrt (rnd (rnd (dot ((l.filter q).map fun e => rnd (g e)) * (size : ℝ)) / (S : ℝ)))) := by
    unfold rCydistSax
    rw [hd]
  have e2 : cydistSax bps size S d w w' ^ 2 = A * size / S := by
    unfold cydistSax
    rw [Real.sq_sqrt hV0]
  rw [e1]
  refine ⟨p, by rw [e2]; exact h4.mono hu hu1.le hV0 (by omega), ?_⟩
  rw [← sq_eq_zero_iff, h4.eq_zero_iff hu1 hV0, ← e2, sq_eq_zero_iff]

/-! ## What rounding breaks -/

/-- Three samples 0.1, as doubles. -/
def exTenth : Arr3 ℚ := ⟨3, 1, [[[some (7205759403792794 / 2 ^ 56)], [some (7205759403792794 / 2 ^ 56)], [some (7205759403792794 / 2 ^ 56)]]]⟩

/-- Three samples 0.1: their mean is the next double, the symbol is that of a larger number, and the mean lies outside the range of the samples. -/
theorem C112_false_constant : ¬ ∀ (X : Arr3 ℚ) (bps : List ℚ) (P : Arr3 ℚ) (W W' : List (List (List ℕ))) (c : ℚ),
    X.data = [[[some c], [some c], [some c]]] → X.sz = 3 → X.d = 1 → nearBits 52 c = c → (∀ b ∈ bps, nearBits 52 b = b) →
      rPaaTransform (nearBits 52) (orderSum (nearBits 52)) 1 1 X = .ok P → saxTransform 1 none bps 1 X = .ok W →
        rSaxTransform (nearBits 52) (orderSum (nearBits 52)) 1 none bps 1 X = .ok W' → P.entry 0 0 0 = some c ∨ W' = W := by
  intro h
  have := h exTenth [7205759403792795 / 2 ^ 56] (rPaaRaw (nearBits 52) (orderSum (nearBits 52)) 1 exTenth) [[[0]]] [[[1]]] (7205759403792794 / 2 ^ 56)
    rfl rfl rfl (by decide +kernel) (by decide +kernel) (rPaaTransform_ok _ _ (by decide) (by decide)) (by decide +kernel) (by decide +kernel)
  revert this
  decide +kernel

/-- Three equal samples, and the same with the next double at the end. -/
noncomputable def exPaaUlp : Arr3 ℝ :=
  ⟨3, 1, [[[some (2 ^ 52 + 2)], [some (2 ^ 52 + 2)], [some (2 ^ 52 + 2)]], [[some (2 ^ 52 + 2)], [some (2 ^ 52 + 2)], [some (2 ^ 52 + 3)]]]⟩

theorem exPaaUlp_means : orderSum (nearBits 52) [(2 ^ 52 + 2 : ℝ), 2 ^ 52 + 2, 2 ^ 52 + 2] = 3 * (2 ^ 52 + 2) ∧
    orderSum (nearBits 52) [(2 ^ 52 + 2 : ℝ), 2 ^ 52 + 2, 2 ^ 52 + 3] = 3 * 2 ^ 52 + 8 ∧
    nearBits 52 ((2 : ℝ) ^ 52 + 2) = 2 ^ 52 + 2 ∧ nearBits 52 ((3 * 2 ^ 52 + 8 : ℝ) / 3) = 2 ^ 52 + 3 := by
  have h1 : nearBits 52 ((2 : ℝ) ^ 52 + 2) = 2 ^ 52 + 2 := by
    have := nearBits_exact (K := ℝ) 52 0 (2 ^ 52 + 2) (by norm_num)
    norm_num at this ⊢
    exact this
  have h2 : nearBits 52 (((2 : ℝ) ^ 52 + 2) + (2 ^ 52 + 2)) = 2 ^ 53 + 4 := by
    have := nearBits_exact (K := ℝ) 52 1 (2 ^ 52 + 2) (by norm_num)
    norm_num at this ⊢
    exact this
  have h3 : nearBits 52 (((2 : ℝ) ^ 53 + 4) + (2 ^ 52 + 2)) = 3 * (2 ^ 52 + 2) := by
    have := nearBits_exact (K := ℝ) 52 1 (3 * 2 ^ 51 + 3) (by norm_num)
    norm_num at this ⊢
    exact this
  have h4 : nearBits 52 (((2 : ℝ) ^ 53 + 4) + (2 ^ 52 + 3)) = 3 * 2 ^ 52 + 8 := by
    have := nearBits_of (K := ℝ) 52 (((2 : ℝ) ^ 53 + 4) + (2 ^ 52 + 3)) 53 (3 * 2 ^ 51 + 4) (by norm_num) (by norm_num) (by norm_num) (by norm_num)
    rw [this]
    norm_num
  have h5 : nearBits 52 ((3 * 2 ^ 52 + 8 : ℝ) / 3) = 2 ^ 52 + 3 := by
    have := nearBits_of (K := ℝ) 52 ((3 * 2 ^ 52 + 8 : ℝ) / 3) 52 (2 ^ 52 + 3) (by norm_num) (by norm_num) (by norm_num) (by norm_num)
    rw [this]
    norm_num
  refine ⟨?_, ?_, h1, h5⟩
  · simp only [orderSum, List.foldl_cons, List.foldl_nil, zero_add]
    rw [h1, h2, h3]
  · simp only [orderSum, List.foldl_cons, List.foldl_nil, zero_add]
    rw [h1, h2, h4]

/-- The computed PAA distance can exceed the Euclidean distance, by a factor of more than 1.5: series that differ in the last bit of a sample. -/
theorem C112_false_lower_bound : ¬ ∀ (X : Arr3 ℝ) (P : Arr3 ℝ) (D : ℝ) (x y : ℕ → ℕ → ℝ), X.WF → Series X 0 3 x → Series X 1 3 y →
    (∀ t < 3, nearBits 52 (x t 0) = x t 0 ∧ nearBits 52 (y t 0) = y t 0) →
    rPaaTransform (nearBits 52) (orderSum (nearBits 52)) 1 1 X = .ok P →
    rDistancePaa (nearBits 52) (fun l => l.foldl (fun s a => nearBits 52 (s + nearBits 52 (a * a))) 0) 3 1 P 0 1 = some D →
      D < 3 / 2 * euclid 3 1 x y := by
  intro h
  obtain ⟨e1, e2, e3, e4⟩ := exPaaUlp_means
  have e5 : nearBits 52 ((2 : ℝ) ^ 52 + 3) = 2 ^ 52 + 3 := by
    have := nearBits_exact (K := ℝ) 52 0 (2 ^ 52 + 3) (by norm_num)
    norm_num at this ⊢
    exact this
  have e6 : nearBits 52 (1 : ℝ) = 1 := by simpa using nearBits_zpow (K := ℝ) 52 0
  have e7 : nearBits 52 (-1 : ℝ) = -1 := by rw [nearBits_neg, e6]
  have e8 : nearBits 52 (3 : ℝ) = 3 := by simpa using nearBits_int (K := ℝ) 52 3 (by norm_num)
  set P := rPaaRaw (nearBits 52) (orderSum (nearBits 52)) 1 exPaaUlp with hP
  have sz : ∀ i < 2, tsSize (exPaaUlp.data.getD i []) = 3 := by
    intro i hi
    interval_cases i <;> simp [exPaaUlp, tsSize, tsSizeLoop]
  have s0 : IsSegment exPaaUlp 1 0 0 0 [(2 ^ 52 + 2 : ℝ), 2 ^ 52 + 2, 2 ^ 52 + 2] := by
    refine ⟨by rw [sz 0 (by norm_num)]; rfl, ?_⟩
    intro t ht
    simp only [List.length_cons, List.length_nil] at ht
    interval_cases t <;> simp [exPaaUlp, Arr3.entry]
  have s1 : IsSegment exPaaUlp 1 1 0 0 [(2 ^ 52 + 2 : ℝ), 2 ^ 52 + 2, 2 ^ 52 + 3] := by
    refine ⟨by rw [sz 1 (by norm_num)]; rfl, ?_⟩
    intro t ht
    simp only [List.length_cons, List.length_nil] at ht
    interval_cases t <;> simp [exPaaUlp, Arr3.entry]
  have p0 : P.entry 0 0 0 = some (2 ^ 52 + 2) := by
    rw [hP, rPaaRaw_entry _ _ (by decide) (by norm_num) (by decide) s0 (by simp), e1]
    simp only [List.length_cons, List.length_nil]
    norm_num at e3 ⊢
    exact e3
  have p1 : P.entry 1 0 0 = some (2 ^ 52 + 3) := by
    rw [hP, rPaaRaw_entry _ _ (by decide) (by norm_num) (by decide) s1 (by simp), e2]
    simp only [List.length_cons, List.length_nil]
    norm_num at e4 ⊢
    exact e4
  have hD := paa_diffs (nearBits 52) (fun l => l.foldl (fun s a => nearBits 52 (s + nearBits 52 (a * a))) 0) 3 1 P 0 1 (fun _ _ => 2 ^ 52 + 2)
    (fun _ _ => 2 ^ 52 + 3) (by
      intro s hs f hf
      change s < 1 at hs; change f < 1 at hf
      obtain rfl : s = 0 := by omega
      obtain rfl : f = 0 := by omega
      exact p0) (by
      intro s hs f hf
      change s < 1 at hs; change f < 1 at hf
      obtain rfl : s = 0 := by omega
      obtain rfl : f = 0 := by omega
      exact p1)
  change _ = some (nearBits 52 (nearBits 52 (Real.sqrt (nearBits 52 (0 + nearBits 52 (nearBits 52 ((2 ^ 52 + 2) - (2 ^ 52 + 3)) *
    nearBits 52 ((2 ^ 52 + 2) - (2 ^ 52 + 3)))))) * nearBits 52 (Real.sqrt (nearBits 52 (((3 : ℕ) : ℝ) / ((1 : ℕ) : ℝ)))))) at hD
  rw [show ((2 : ℝ) ^ 52 + 2) - (2 ^ 52 + 3) = -1 by norm_num, e7, show (-1 : ℝ) * -1 = 1 by norm_num, e6, zero_add, e6, Real.sqrt_one, e6, one_mul,
    nearBits_idem, show ((3 : ℕ) : ℝ) / ((1 : ℕ) : ℝ) = 3 by norm_num, e8] at hD
  have := h exPaaUlp P _ (fun _ _ => 2 ^ 52 + 2) (fun t _ => if t = 2 then 2 ^ 52 + 3 else 2 ^ 52 + 2) ?_ ?_ ?_ ?_
    (rPaaTransform_ok _ _ (by simp [exPaaUlp]) (by norm_num)) hD
  · have hl : (3 / 2 : ℝ) ≤ Real.sqrt 3 := by
      rw [Real.le_sqrt' (by norm_num)]; norm_num
    have h32 := (nearBits_oddMono (K := ℝ) 52).mono hl
    rw [show nearBits 52 (3 / 2 : ℝ) = 3 / 2 by
      have := nearBits_exact (K := ℝ) 52 (-1) 3 (by norm_num)
      norm_num at this ⊢
      exact this] at h32
    have he : euclid 3 1 (fun _ _ => (2 : ℝ) ^ 52 + 2) (fun t _ => if t = 2 then 2 ^ 52 + 3 else 2 ^ 52 + 2) = 1 := by
      simp only [euclid, Finset.sum_range_succ, Finset.sum_range_zero]
      norm_num
    rw [he] at this
    linarith
  · intro s hs
    simp only [exPaaUlp, List.mem_cons, List.not_mem_nil, or_false] at hs ⊢
    rcases hs with rfl | rfl <;> simp
  · refine ⟨by simp [exPaaUlp], by simp [exPaaUlp], fun t ht f hf => ?_, fun t ht f => ?_⟩
    · obtain rfl : f = 0 := by change f < 1 at hf; omega
      interval_cases t <;> simp [exPaaUlp, Arr3.entry]
    · simp [exPaaUlp, Arr3.entry, ht]
  · refine ⟨by simp [exPaaUlp], by simp [exPaaUlp], fun t ht f hf => ?_, fun t ht f => ?_⟩
    · obtain rfl : f = 0 := by change f < 1 at hf; omega
      interval_cases t <;> simp [exPaaUlp, Arr3.entry]
    · simp [exPaaUlp, Arr3.entry, ht]
  · intro t ht
    refine ⟨e3, ?_⟩
    split_ifs
    · exact e5
    · exact e3

/-- The mean of a segment depends on the order of its samples: 0 for 1, 2⁵³, -2⁵³, and 1/3 for 2⁵³, -2⁵³, 1. -/
theorem C112_false_permutation : ¬ ∀ (X : Arr3 ℚ) (xs ys : List ℚ), IsSegment X 1 0 0 0 xs → IsSegment X 1 1 0 0 ys → xs.Perm ys →
    (rPaaRaw (nearBits 52) (orderSum (nearBits 52)) 1 X).entry 0 0 0 = (rPaaRaw (nearBits 52) (orderSum (nearBits 52)) 1 X).entry 1 0 0 := by
  intro h
  have := h ⟨3, 1, [[[some 1], [some (2 ^ 53)], [some (-2 ^ 53)]], [[some (2 ^ 53)], [some (-2 ^ 53)], [some 1]]]⟩
    [1, 2 ^ 53, -2 ^ 53] [2 ^ 53, -2 ^ 53, 1] ⟨by decide +kernel, by decide +kernel⟩ ⟨by decide +kernel, by decide +kernel⟩ (by decide +kernel)
  revert this
  decide +kernel

/-! ## The hypotheses are met -/

theorem exTenth_segment : IsSegment exTenth 1 0 0 0 [7205759403792794 / 2 ^ 56, 7205759403792794 / 2 ^ 56, 7205759403792794 / 2 ^ 56] :=
  ⟨by decide +kernel, by decide +kernel⟩

/-- `C112_paa`: the computed mean of three samples 0.1 is within 4.5e-17 of 0.1. -/
example : ∃ m', (rPaaRaw (nearBits 52) (orderSum (nearBits 52)) 1 exTenth).entry 0 0 0 = some m' ∧
    |m' - 7205759403792794 / 2 ^ 56| ≤ 45 / 10 ^ 18 := by
  obtain ⟨P, P', -, h2, h3⟩ := C112_paa (nearBits_relErr (K := ℚ) 52) (by norm_num) (orderSum_rounded (nearBits 52)) 1 (by norm_num) exTenth (by decide)
  obtain ⟨m', -, h4, h5⟩ := (h3 0 (by decide) 0 (by decide) 0 (by decide)).2 _ exTenth_segment (by simp)
  have e := rPaaTransform_ok (nearBits (K := ℚ) 52) (orderSum (nearBits 52)) (S := 1) (X := exTenth) (by decide) (by decide)
  rw [e] at h2
  cases h2
  refine ⟨m', h4, ?_⟩
  have e1 : mean [(7205759403792794 / 2 ^ 56 : ℚ), 7205759403792794 / 2 ^ 56, 7205759403792794 / 2 ^ 56] = 7205759403792794 / 2 ^ 56 := by decide +kernel
  rw [e1] at h5
  exact h5.trans (by decide +kernel)

/-- `C112_symbol`: with breakpoints away from 0.1, they get the symbol of 0.1. -/
example : rSaxTransform (nearBits 52) (orderSum (nearBits 52)) 1 none [-1 / 2, 0, 1 / 2] 1 exTenth = .ok [[[2]]] ∧
    (∀ b ∈ [-1 / 2, 0, 1 / 2], ((1 + ((2 : ℚ) ^ (52 + 1))⁻¹) ^ (3 + 1) - 1) *
      meanAbs [(7205759403792794 / 2 ^ 56 : ℚ), 7205759403792794 / 2 ^ 56, 7205759403792794 / 2 ^ 56] <
      |mean [(7205759403792794 / 2 ^ 56 : ℚ), 7205759403792794 / 2 ^ 56, 7205759403792794 / 2 ^ 56] - b|) := by
  constructor <;> decide +kernel

/-- `C112_scaled`: three samples 0.1, scaled with mean 0.4 and deviation 0.2. -/
example : ∃ W W', saxTransform 1 (some fun _ => (some (2 / 5), some (1 / 5))) [-1, 1] 1 exTenth = .ok W ∧
    rSaxTransform (nearBits 52) (orderSum (nearBits 52)) 1 (some fun _ => (some (2 / 5), some (1 / 5))) [-1, 1] 1 exTenth = .ok W' ∧
    wordAt (W'.getD 0 []) 0 0 = wordAt (W.getD 0 []) 0 0 := by
  obtain ⟨W, W', h1, h2, h3⟩ := C112_scaled (nearBits_relErr (K := ℚ) 52) (by norm_num) (orderSum_rounded (nearBits 52)) [-1, 1] [2 / 5] [1 / 5]
    (fun _ => (some (2 / 5), some (1 / 5))) 1 (by norm_num) exTenth (by decide) (by
      intro f hf
      obtain rfl : f = 0 := by change f < 1 at hf; omega
      rfl)
  refine ⟨W, W', h1, h2, (h3 0 3 (fun _ _ => 7205759403792794 / 2 ^ 56) ⟨by decide, by decide, ?_, ?_⟩ (by norm_num) 0 (by norm_num) 0 (by decide) _ rfl
    (by decide +kernel)).1⟩
  · decide +kernel
  · intro t ht f
    simp [exTenth, Arr3.entry, ht]

/-- `C112_order`: a monotone rounding, and two segments, one above the other. -/
example : Monotone (nearBits 52 : ℚ → ℚ) ∧ (∀ l l' : List ℚ, List.Forall₂ (· ≤ ·) l l' → orderSum (nearBits 52) l ≤ orderSum (nearBits 52) l') ∧
    IsSegment (⟨2, 1, [[[some 1], [some 2]], [[some 1], [some 3]]]⟩ : Arr3 ℚ) 1 0 0 0 [1, 2] ∧
    IsSegment (⟨2, 1, [[[some 1], [some 2]], [[some 1], [some 3]]]⟩ : Arr3 ℚ) 1 1 0 0 [1, 3] ∧ List.Forall₂ (· ≤ ·) [(1 : ℚ), 2] [1, 3] :=
  ⟨(nearBits_oddMono 52).mono, orderSum_mono (nearBits_oddMono 52).mono, ⟨by decide +kernel, by decide +kernel⟩, ⟨by decide +kernel, by decide +kernel⟩,
    by norm_num⟩

/-- `C112_grid`: the samples 1, 2, 4 have the mean 7/3, rounded. -/
example : IsSegment (⟨3, 1, [[[some 1], [some 2], [some 4]]]⟩ : Arr3 ℚ) 1 0 0 0 [1, 2, 4] ∧ (∀ a ∈ [(1 : ℚ), 2, 4], ∃ z : ℤ, a = z * 2 ^ (0 : ℤ)) ∧
    (([1, 2, 4] : List ℚ).map abs).sum < 2 ^ (52 + 1) * 2 ^ (0 : ℤ) ∧
    (rPaaRaw (nearBits 52) (orderSum (nearBits 52)) 1 (⟨3, 1, [[[some 1], [some 2], [some 4]]]⟩ : Arr3 ℚ)).entry 0 0 0 = some (nearBits 52 (7 / 3)) ∧
    nearBits 52 (7 / 3 : ℚ) ≠ 7 / 3 := by
  refine ⟨⟨by decide +kernel, by decide +kernel⟩, ?_, by decide +kernel, by decide +kernel, by decide +kernel⟩
  intro a ha
  simp only [List.mem_cons, List.not_mem_nil, or_false] at ha
  rcases ha with rfl | rfl | rfl
  · exact ⟨1, by norm_num⟩
  · exact ⟨2, by norm_num⟩
  · exact ⟨4, by norm_num⟩

/-- `C112_constant`: three samples 5/4. -/
example : IsSegment (⟨3, 1, [[[some (5 / 4)], [some (5 / 4)], [some (5 / 4)]]]⟩ : Arr3 ℚ) 1 0 0 0 (List.replicate 3 (((5 : ℤ) : ℚ) * 2 ^ (-2 : ℤ))) ∧
    ((3 : ℕ) : ℤ) * |5| < 2 ^ (52 + 1) :=
  ⟨⟨by decide +kernel, by decide +kernel⟩, by norm_num⟩

/-- `C112_scale`: four times three samples 0.1. -/
example : IsSegment (⟨3, 1, [[[some (7205759403792794 / 2 ^ 54)], [some (7205759403792794 / 2 ^ 54)], [some (7205759403792794 / 2 ^ 54)]]]⟩ : Arr3 ℚ) 1 0 0 0
    ([7205759403792794 / 2 ^ 56, 7205759403792794 / 2 ^ 56, 7205759403792794 / 2 ^ 56].map fun a => 2 ^ (2 : ℤ) * a) :=
  ⟨by decide +kernel, by decide +kernel⟩

/-- `C112_distance`: two arrays of two segments. -/
example (dot : List ℝ → ℝ) (hdot : ∀ l, RoundedDot (nearBits 52) l (dot l)) : ∃ D D',
    distancePaa 6 2 (⟨2, 1, [[[some 1], [some 2]], [[some 1], [some 3]]]⟩ : Arr3 ℝ) 0 1 = some D ∧
    rDistancePaa (nearBits 52) dot 6 2 (⟨2, 1, [[[some 1], [some 2]], [[some 1], [some 3]]]⟩ : Arr3 ℝ) 0 1 = some D' ∧ D' ≠ 0 ∧
    NearRel ((2 ^ (52 + 1))⁻¹) (2 * 1 + 10) (D' ^ 2) (D ^ 2) := by
  obtain ⟨D, D', h1, h2, -, h3, h4⟩ := C112_distance (nearBits_relErr (K := ℝ) 52) (by norm_num) (by norm_num) hdot 6 2 (by norm_num) (by norm_num)
    (⟨2, 1, [[[some 1], [some 2]], [[some 1], [some 3]]]⟩ : Arr3 ℝ) 0 1 (fun s _ => if s = 0 then 1 else 2) (fun s _ => if s = 0 then 1 else 3)
    (by intro s hs f hf
        obtain rfl : f = 0 := by change f < 1 at hf; omega
        change s < 2 at hs
        interval_cases s <;> simp [Arr3.entry])
    (by intro s hs f hf
        obtain rfl : f = 0 := by change f < 1 at hf; omega
        change s < 2 at hs
        interval_cases s <;> simp [Arr3.entry])
  refine ⟨D, D', h1, h2, fun h => ?_, h3⟩
  have := h4.1 h 1 (by norm_num) 0 (by norm_num)
  norm_num at this

/-- `C112_words`: words two symbols apart. -/
example (dot : List ℝ → ℝ) (hdot : ∀ l, RoundedDot (nearBits 52) l (dot l)) :
    rCydistSax (nearBits 52) dot [-1, 1] 4 2 1 [[0], [1]] [[2], [1]] ≠ 0 := by
  rw [Ne, (C112_words (nearBits_relErr (K := ℝ) 52) (by norm_num) (by norm_num) hdot _ _ _ _ _ _).2.2]
  simp [cydistSax, saxCell, wordAt, List.range_succ]

end Verif
