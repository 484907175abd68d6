import Verif.Proofs.Piecewise
import Mathlib.Data.List.GetD
/-! Lemmas on SAX symbols. -/
set_option linter.unusedSectionVars false
namespace Verif
open Spec
variable {K : Type} [Field K] [LinearOrder K]

theorem mapM_id_mem {α : Type} {l : List (Option α)} {r : List α} (h : l.mapM id = some r) {a : Option α} (ha : a ∈ l) :
    ∃ w, a = some w := by
  induction l generalizing r with
  | nil => simp at ha
  | cons b l ih =>
    rw [List.mapM_cons] at h
    cases b with
    | none => simp at h
    | some b =>
      rcases List.mem_cons.1 ha with rfl | ha
      · exact ⟨b, rfl⟩
      · cases e : l.mapM id with
        | none => rw [e] at h; simp at h
        | some r' => exact ih e ha

theorem symFold_some (x : Option K) (l : List (K × ℕ)) (k : ℕ) : l.foldl (symStep x) (some k) = some k := by
  induction l with
  | nil => rfl
  | cons a l ih => rw [List.foldl_cons]; simpa [symStep] using ih

theorem symFold_none (x : Option K) (bps : List K) : ∀ k, (bps.zipIdx k).foldl (symStep x) none =
    if bps.findIdx (ltOpt x) < bps.length then some (k + bps.findIdx (ltOpt x)) else none := by
  induction bps with
  | nil => intro k; simp
  | cons b bps ih =>
    intro k
    rw [List.zipIdx_cons, List.foldl_cons, List.findIdx_cons]
    by_cases h : ltOpt x b = true
    · simp [symStep, h, symFold_some]
    · rw [Bool.not_eq_true] at h
      have : symStep x none (b, k) = none := by simp [symStep, h]
      rw [this, ih (k + 1), h]
      simp only [cond_false, List.length_cons, Nat.add_lt_add_iff_right]
      split_ifs <;> simp; omega

/-- A symbol is the index of the first larger breakpoint. -/
theorem paaToSymbol_eq (bps : List K) (x : Option K) : paaToSymbol bps x = bps.findIdx (ltOpt x) := by
  unfold paaToSymbol
  rw [show bps.zipIdx = bps.zipIdx 0 from rfl, symFold_none]
  have := List.findIdx_le_length (p := ltOpt x) (xs := bps)
  split_ifs with h
  · simp
  · simp; omega

theorem paaToSymbol_le (bps : List K) (x : Option K) : paaToSymbol bps x ≤ bps.length := by
  rw [paaToSymbol_eq]; exact List.findIdx_le_length

theorem paaToSymbol_lt {bps : List K} {x : K} (h : paaToSymbol bps (some x) < bps.length) :
    x < bps.getD (paaToSymbol bps (some x)) 0 := by
  rw [paaToSymbol_eq] at *
  have := List.findIdx_getElem (w := h)
  rw [List.getD_eq_getElem _ _ h]
  simpa [ltOpt] using this

theorem paaToSymbol_ge {bps : List K} {x : K} {j : ℕ} (h : j < paaToSymbol bps (some x)) : bps.getD j 0 ≤ x := by
  have hl := paaToSymbol_le bps (some x)
  rw [paaToSymbol_eq] at *
  have := List.not_of_lt_findIdx h
  rw [List.getD_eq_getElem _ _ (by omega)]
  simpa [ltOpt] using this

theorem paaToSymbol_mono (bps : List K) {x y : K} (h : x ≤ y) :
    paaToSymbol bps (some x) ≤ paaToSymbol bps (some y) := by
  rw [paaToSymbol_eq, paaToSymbol_eq]
  by_contra hc
  have hl := List.findIdx_le_length (p := ltOpt (some x)) (xs := bps)
  have h1 := List.not_of_lt_findIdx (not_le.1 hc)
  have h2 := List.findIdx_getElem (p := ltOpt (some y)) (xs := bps) (w := by omega)
  simp [ltOpt] at h1 h2
  exact absurd (h2.trans_le h1) (not_lt.2 h)

/-- The cell of a symbol determines it. -/
theorem paaToSymbol_unique {bps : List K} {x : K} {k : ℕ} (hk : k ≤ bps.length)
    (h1 : ∀ j < k, bps.getD j 0 ≤ x) (h2 : k < bps.length → x < bps.getD k 0) : paaToSymbol bps (some x) = k := by
  rcases lt_trichotomy (paaToSymbol bps (some x)) k with h | h | h
  · exact absurd (paaToSymbol_lt (by omega)) (not_lt.2 (h1 _ h))
  · exact h
  · have := paaToSymbol_le bps (some x)
    exact absurd (h2 (by omega)) (not_lt.2 (paaToSymbol_ge h))

/-- The summand of MINDIST is at most the squared difference. -/
theorem saxCell_le [IsStrictOrderedRing K] {bps : List K} (hs : bps.Pairwise (· ≤ ·)) (x y : K) :
    saxCell bps (paaToSymbol bps (some x)) (paaToSymbol bps (some y)) ≤ (x - y) ^ 2 := by
  have key : ∀ x y : K, paaToSymbol bps (some x) + 1 < paaToSymbol bps (some y) →
      (bps.getD (paaToSymbol bps (some y) - 1) 0 - bps.getD (paaToSymbol bps (some x)) 0) ^ 2 ≤ (y - x) ^ 2 := by
    intro x y h
    have hl := paaToSymbol_le bps (some y)
    have h1 : x < bps.getD (paaToSymbol bps (some x)) 0 := paaToSymbol_lt (by omega)
    have h2 : bps.getD (paaToSymbol bps (some y) - 1) 0 ≤ y := paaToSymbol_ge (by omega)
    have h3 : bps.getD (paaToSymbol bps (some x)) 0 ≤ bps.getD (paaToSymbol bps (some y) - 1) 0 := by
      rw [List.getD_eq_getElem _ _ (by omega), List.getD_eq_getElem _ _ (by omega)]
      exact List.pairwise_iff_getElem.1 hs _ _ _ _ (by omega)
    exact pow_le_pow_left₀ (sub_nonneg.2 h3) (by linarith) 2
  unfold saxCell
  split_ifs with h
  · rcases h with h | h
    · rw [max_eq_right (by omega), min_eq_left (by omega)]
      refine (key x y h).trans (le_of_eq (by ring))
    · rw [max_eq_left (by omega), min_eq_right (by omega)]
      exact key y x h
  · positivity

theorem breakpoints_length (ppf : K → K) (n : ℕ) (c : K) : (breakpoints ppf n c).length = n - 1 := by
  simp [breakpoints]

theorem breakpoints_getD (ppf : K → K) (n : ℕ) (c : K) {k : ℕ} (h : k < n - 1) :
    (breakpoints ppf n c).getD k 0 = c * ppf (((k + 1 : ℕ) : K) / (n : K)) := by
  rw [List.getD_eq_getElem _ _ (by rw [breakpoints_length]; exact h)]
  simp [breakpoints]

theorem binMedians_getD (ppf : K → K) (n : ℕ) (c : K) {k : ℕ} (h : k < n) :
    (binMedians ppf n c).getD k 0 = c * ppf (((2 * k + 1 : ℕ) : K) / ((2 * n : ℕ) : K)) := by
  rw [List.getD_eq_getElem _ _ (by simp [binMedians]; exact h)]
  simp [binMedians]

variable [IsStrictOrderedRing K]

theorem frac_mem {a n : ℕ} (h0 : 0 < a) (h : a < n) : ((a : K) / (n : K)) ∈ Set.Ioo (0 : K) 1 := by
  have hn : (0 : K) < n := by exact_mod_cast (by omega : 0 < n)
  have ha : (0 : K) < a := by exact_mod_cast h0
  have h' : (a : K) < n := by exact_mod_cast h
  exact ⟨by positivity, (div_lt_one hn).2 h'⟩

theorem breakpoints_sorted {ppf : K → K} (hp : StrictMonoOn ppf (Set.Ioo 0 1)) (n : ℕ) {c : K} (hc : 0 ≤ c) :
    (breakpoints ppf n c).Pairwise (· ≤ ·) := by
  rw [List.pairwise_iff_getElem]
  intro i j hi hj hij
  have hi' := hi
  have hj' := hj
  rw [breakpoints_length] at hi' hj'
  rw [← List.getD_eq_getElem _ 0 hi, ← List.getD_eq_getElem _ 0 hj, breakpoints_getD _ _ _ hi', breakpoints_getD _ _ _ hj']
  apply mul_le_mul_of_nonneg_left _ hc
  apply (hp (frac_mem (by omega) (by omega)) (frac_mem (by omega) (by omega)) _).le
  have hn : (0 : K) < n := by exact_mod_cast (by omega : 0 < n)
  rw [div_lt_div_iff_of_pos_right hn]
  exact_mod_cast (by omega : i + 1 < j + 1)

/-- The median of a bin lies in the bin. -/
theorem symbol_median {ppf : K → K} (hp : StrictMonoOn ppf (Set.Ioo 0 1)) {n k : ℕ} {c : K} (hc : 0 < c) (hk : k < n) :
    paaToSymbol (breakpoints ppf n c) (some ((binMedians ppf n c).getD k 0)) = k := by
  have hn : (0 : K) < n := by exact_mod_cast (by omega : 0 < n)
  apply paaToSymbol_unique
  · rw [breakpoints_length]; omega
  · intro j hj
    rw [breakpoints_getD _ _ _ (by omega), binMedians_getD _ _ _ hk]
    apply mul_le_mul_of_nonneg_left _ hc.le
    apply (hp (frac_mem (by omega) (by omega)) (frac_mem (by omega) (by omega)) _).le
    rw [div_lt_div_iff₀ hn (by push_cast; linarith)]
    exact_mod_cast (by nlinarith : (j + 1) * (2 * n) < (2 * k + 1) * n)
  · intro h
    rw [breakpoints_length] at h
    rw [breakpoints_getD _ _ _ h, binMedians_getD _ _ _ hk]
    apply mul_lt_mul_of_pos_left _ hc
    apply hp (frac_mem (by omega) (by omega)) (frac_mem (by omega) (by omega))
    rw [div_lt_div_iff₀ (by push_cast; linarith) hn]
    exact_mod_cast (by nlinarith : (2 * k + 1) * n < (k + 1) * (2 * n))

theorem wordAt_symbols {bps : List K} {P : Arr3 K} (hP : P.WF) {i s f : ℕ} (hi : i < P.data.length) (hs : s < P.sz)
    (hf : f < P.d) : wordAt ((paaToSymbols bps P).getD i []) s f = paaToSymbol bps (P.entry i s f) := by
  unfold wordAt paaToSymbols Arr3.entry
  have hw := hP _ (List.getElem_mem hi)
  have hs' : s < (P.data[i]).length := by rw [hw.1]; exact hs
  have hf' : f < (P.data[i][s]).length := by rw [hw.2 _ (List.getElem_mem hs')]; exact hf
  simp only [List.getD_eq_getElem?_getD, List.getElem?_map, List.getElem?_eq_getElem hi, Option.map_some,
    Option.getD_some, List.getElem?_eq_getElem hs', List.getElem?_eq_getElem hf']

/-- Scaling of a series. -/
theorem Spec.Series.scale {X : Arr3 K} {i n : ℕ} {x : ℕ → ℕ → K} (h : Series X i n x) {m : Scaling K} {mu sd : ℕ → K}
    (hm : ∀ f < X.d, m f = (some (mu f), some (sd f))) :
    Series (saxScale (some m) X) i n (fun t f => (x t f - mu f) / sd f) := by
  refine ⟨by simp only [saxScale]; rw [Arr3.build_length]; exact h.1, h.2.1, ?_, ?_⟩
  · intro t ht f hf
    have hf : f < X.d := hf
    simp only [saxScale]
    rw [Arr3.build_entry h.1 (by have := h.2.1; omega) hf, h.2.2.1 t ht f hf, hm f hf]
    rfl
  · intro t ht f
    by_cases hc : t < X.sz ∧ f < X.d
    · simp only [saxScale]
      rw [Arr3.build_entry h.1 hc.1 hc.2, h.2.2.2 t ht f]
      rfl
    · exact entry_outside (Arr3.build_wf _ _ _ _) (by simpa [saxScale, Arr3.build] using hc)

theorem saxScale_wf {X : Arr3 K} (hX : X.WF) (sc : Option (Scaling K)) : (saxScale sc X).WF := by
  cases sc with
  | none => exact hX
  | some m => exact Arr3.build_wf _ _ _ _

end Verif
