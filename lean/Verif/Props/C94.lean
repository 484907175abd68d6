import Verif.Proofs.SoftOld
import Verif.Props.C52
/-!
# C94 — the deprecated soft-DTW functions and their replacements
-/
set_option linter.unusedSectionVars false
namespace Verif
open Spec
open Classical
noncomputable section

theorem nFeatures_denan {ts : List (List (Option ℝ))} {x : List (List ℝ)} (h : denan ts = some x) : nFeatures x = nFeatures ts := by
  unfold denan at h
  cases ts with
  | nil =>
    have : x = [] := by simpa using h.symm
    subst this; rfl
  | cons r rs =>
    simp only [List.mapM_cons, bind, Option.bind_eq_some_iff, pure, Option.some.injEq] at h
    obtain ⟨c, hc, bs, -, rfl⟩ := h
    exact mapM_option_length _ _ _ hc

/-- What `soft_dtw` computes on accepted series. -/
theorem oldSoftDtw_eq {be : Backend} {B : ℝ} {s1 s2 : TsInput (Option ℝ)} {γ : ℝ} (hγ : 0 < γ) {g : Option String} {x y : List (List ℝ)}
    {code : ℕ} (hv : validatePair s1 s2 g = .ok (x, y, code)) :
    oldSoftDtw be B s1 s2 γ = .ok (.num (-γ * Real.log (extZ B (sampleCost x y) γ x.length y.length))) := by
  obtain ⟨h1, h2, -, hx, hy, hf⟩ := validatePair_ok hv
  simp only [oldSoftDtw, if_neg hγ.ne', h1, h2, oldSoftDtwGeneric, oldDist, hx, hy, nFeatures_denan h1, nFeatures_denan h2, hf,
    bind, Except.bind, pure, Except.pure, or_self, if_false, ne_eq, not_true_eq_false]
  rw [compute_eq hγ, sqEucCompute_eq]

/-- The border only adds paths. -/
theorem zsum_lt_extZ (B : ℝ) (D : ℕ → ℕ → ℝ) (γ : ℝ) (i j : ℕ) :
    zsum (Mat.full true) (softK (Mat.full true) D γ) i j ≤ extZ B D γ i j ∧
      (0 < i + j → zsum (Mat.full true) (softK (Mat.full true) D γ) i j < extZ B D γ i j) := by
  induction hs : i + j using Nat.strong_induction_on generalizing i j with
  | _ s ih =>
    rcases i with _ | i <;> rcases j with _ | j
    · rw [extZ_zero, zsum_zero_zero]; exact ⟨le_rfl, fun h => by omega⟩
    · rw [zsum_zero_succ]; exact ⟨(extZ_pos _ _ _ _ _).le, fun _ => extZ_pos _ _ _ _ _⟩
    · rw [zsum_succ_zero]; exact ⟨(extZ_pos _ _ _ _ _).le, fun _ => extZ_pos _ _ _ _ _⟩
    · have h1 := (ih (i + (j + 1)) (by omega) i (j + 1) rfl).2 (by omega)
      have h2 := (ih (i + 1 + j) (by omega) (i + 1) j rfl).1
      have h3 := (ih (i + j) (by omega) i j rfl).1
      rw [extZ_succ, zsum_softK_succ, softK_full]
      have := mul_lt_mul_of_pos_right (add_lt_add_of_lt_of_le (add_lt_add_of_lt_of_le h1 h2) h3) (Real.exp_pos (-D i j / γ))
      exact ⟨this.le, fun _ => this⟩

/-- How far the values may be apart. -/
def oldError (B γ : ℝ) (x y : List (List ℝ)) (p : List (ℕ × ℕ)) : ℝ :=
  γ * 3 ^ (x.length + y.length) * Real.exp ((sumCost (sampleCost x y) p - B) / γ)

/-- `gamma = 0`: the same value, the same refusals. -/
theorem C94_value_zero (be : Backend) (B : ℝ) (s1 s2 : TsInput (Option ℝ)) :
    oldSoftDtw be B s1 s2 0 = softDtw be s1 s2 0 none none none := by
  simp only [oldSoftDtw, softDtw, dtw, dtwSq, dtwSquared, if_true, bind, Except.bind, pure, Except.pure]
  cases validatePair s1 s2 none with
  | error e => rfl
  | ok r =>
    simp only
    cases dtwSqGeneric r.1 r.2.1 r.2.2 none none <;> rfl

theorem soft_pair {be : Backend} {B : ℝ} {s1 s2 : TsInput (Option ℝ)} {γ : ℝ} (hγ : 0 < γ) {x y : List (List ℝ)} {code : ℕ}
    (hv : validatePair s1 s2 none = .ok (x, y, code)) :
    ∃ v w : ℝ, oldSoftDtw be B s1 s2 γ = .ok (.num v) ∧ softDtw be s1 s2 γ none none none = .ok (.num w) ∧ v < w ∧
      ∀ p, Admissible x.length y.length (Mat.full true) p → w - v ≤ oldError B γ x y p := by
  obtain ⟨h1, h2, hc, hx, hy, hf⟩ := validatePair_ok hv
  have hx' := List.length_pos_iff.2 hx
  have hy' := List.length_pos_iff.2 hy
  obtain rfl : code = 0 := by simpa [gcCode] using hc.symm
  have hmask : computeMask x.length y.length 0 none none = .ok (Mat.full true) := rfl
  have hS : ∀ p, p ∈ pathsB (Mat.full true) x.length y.length ↔ Admissible x.length y.length (Mat.full true) p :=
    fun p => mem_pathsB_admissible hx' hy'
  refine ⟨_, _, oldSoftDtw_eq hγ hv, C17_soft_dtw be s1 s2 γ hγ none none none (by simp) x y 0 _ hv hmask _ hS, ?_, fun p hp => ?_⟩
  · have hlt : zsum (Mat.full true) (softK (Mat.full true) (sampleCost x y) γ) x.length y.length <
        extZ B (sampleCost x y) γ x.length y.length :=
      (zsum_lt_extZ B (sampleCost x y) γ _ _).2 (by omega)
    rw [zsum_eq_sum (sampleCost x y) γ hx' hy' hS] at hlt
    obtain ⟨q, hq⟩ := full_reachable x.length y.length (x.length - 1) (y.length - 1) (by omega) (by omega) rfl
    have hpos : 0 < ∑ p ∈ pathsB (Mat.full true) x.length y.length, Real.exp (-sumCost (sampleCost x y) p / γ) := by
      refine Finset.sum_pos (fun _ _ => Real.exp_pos _) ⟨q, (hS q).2 ?_⟩
      rwa [show x.length - 1 + 1 = x.length by omega, show y.length - 1 + 1 = y.length by omega] at hq
    have := Real.log_lt_log hpos hlt
    nlinarith
  · have := (C83_value_partial hx' hy' B (sampleCost x y) (fun _ _ _ _ => sampleCost_nonneg x y _ _) hγ hS p ((hS p).2 hp)).2
    rw [compute_eq hγ] at this
    unfold Spec.softMin at this
    unfold oldError
    linarith

/-- `gamma > 0`, accepted series, both backends: the deprecated function returns a number below the value of its replacement, by no more
than `γ 3^(m+n) exp((c - B)/γ)`, where `c` is the cost of any warping path. -/
theorem C94_value_partial (be : Backend) (B : ℝ) (s1 s2 : TsInput (Option ℝ)) (γ : ℝ) (hγ : 0 < γ) (x y : List (List ℝ)) (code : ℕ)
    (hv : validatePair s1 s2 none = .ok (x, y, code)) (p : List (ℕ × ℕ)) (hp : Admissible x.length y.length (Mat.full true) p) :
    ∃ v w : ℝ, oldSoftDtw be B s1 s2 γ = .ok (.num v) ∧ softDtw be s1 s2 γ none none none = .ok (.num w) ∧ v < w ∧
      w - v ≤ γ * 3 ^ (x.length + y.length) * Real.exp ((sumCost (sampleCost x y) p - B) / γ) := by
  obtain ⟨v, w, h1, h2, h3, h4⟩ := soft_pair (be := be) (B := B) hγ hv
  exact ⟨v, w, h1, h2, h3, h4 p hp⟩

/-- With the NumPy backend series that the replacement refuses are refused. -/
theorem C94_refusals (B : ℝ) (s1 s2 : TsInput (Option ℝ)) (γ : ℝ)
    (h : toTimeSeries s1 true = [] ∨ toTimeSeries s2 true = [] ∨ nFeatures (toTimeSeries s1 true) ≠ nFeatures (toTimeSeries s2 true)) :
    softDtw .numpy s1 s2 γ none none none = .error .valueError ∧
    ((denan (toTimeSeries s1 true)).isSome → (denan (toTimeSeries s2 true)).isSome →
      oldSoftDtw .numpy B s1 s2 γ = .error .valueError) := by
  have hv : validatePair s1 s2 none = .error .valueError := by
    unfold validatePair
    by_cases h0 : (toTimeSeries s1 true).length = 0 ∨ (toTimeSeries s2 true).length = 0
    · simp only [h0, if_true]; rfl
    · have : nFeatures (toTimeSeries s1 true) ≠ nFeatures (toTimeSeries s2 true) := by
        rcases h with h | h | h
        · exact absurd (.inl (by simp [h])) h0
        · exact absurd (.inr (by simp [h])) h0
        · exact h
      simp only [h0, this, if_false, ne_eq, not_false_eq_true, if_true]; rfl
  have hs : softDtw .numpy s1 s2 γ none none none = .error .valueError := by
    simp only [softDtw, hv, bind, Except.bind]
  refine ⟨hs, fun d1 d2 => ?_⟩
  by_cases hγ : γ = 0
  · subst hγ
    rw [C94_value_zero, hs]
  obtain ⟨x, hx⟩ := Option.isSome_iff_exists.1 d1
  obtain ⟨y, hy⟩ := Option.isSome_iff_exists.1 d2
  have lx := denan_length hx
  have ly := denan_length hy
  simp only [oldSoftDtw, if_neg hγ, hx, hy, oldSoftDtwGeneric, oldDist, bind, Except.bind]
  by_cases h0 : x = [] ∨ y = []
  · simp [h0]
  · rw [if_neg h0, if_pos]
    rw [nFeatures_denan hx, nFeatures_denan hy]
    rcases h with h | h | h
    · rw [h] at lx; exact absurd (.inl (List.length_eq_zero_iff.1 lx)) h0
    · rw [h] at ly; exact absurd (.inr (List.length_eq_zero_iff.1 ly)) h0
    · exact h

/-- `soft_dtw_alignment` with `gamma = 0`: the same matrix and value, the same refusals. -/
theorem C94_alignment_zero (be : Backend) (B : ℝ) (s1 s2 : TsInput (Option ℝ)) (am) (junk : Mat Fl) :
    oldSoftDtwAlignment be B s1 s2 0 am = softDtwAlignment be s1 s2 0 none none none am junk := by
  simp only [oldSoftDtwAlignment, softDtwAlignment, dtwPath, if_true, bind, Except.bind, pure, Except.pure]
  cases validatePair s1 s2 none with
  | error e => rfl
  | ok r =>
    simp only
    cases dtwPathGeneric r.1 r.2.1 r.2.2 none none am with
    | error e => rfl
    | ok q =>
      obtain ⟨v, path⟩ := q
      cases path <;> rfl

/-- `soft_dtw_alignment` with `gamma > 0`: values as above, and entries of the alignment matrix that differ by no more than
`3^(m+n) exp((c - B)/γ)`. -/
theorem C94_alignment_partial (be : Backend) (B : ℝ) (s1 s2 : TsInput (Option ℝ)) (γ : ℝ) (hγ : 0 < γ) (x y : List (List ℝ)) (code : ℕ)
    (hv : validatePair s1 s2 none = .ok (x, y, code)) (p : List (ℕ × ℕ)) (hp : Admissible x.length y.length (Mat.full true) p) (am)
    (junk : Mat Fl) :
    ∃ (E E' : Mat Fl) (v w : ℝ), oldSoftDtwAlignment be B s1 s2 γ am = .ok (E, .num v) ∧
      softDtwAlignment be s1 s2 γ none none none am junk = .ok (E', .num w) ∧ v < w ∧
      w - v ≤ γ * 3 ^ (x.length + y.length) * Real.exp ((sumCost (sampleCost x y) p - B) / γ) ∧
      ∀ i < x.length, ∀ j < y.length, ∃ a b : ℝ, E i j = .num a ∧ E' i j = .num b ∧
        |a - b| ≤ 3 ^ (x.length + y.length) * Real.exp ((sumCost (sampleCost x y) p - B) / γ) := by
  obtain ⟨v, w, hold, hnew, hlt, hle⟩ := C94_value_partial be B s1 s2 γ hγ x y code hv p hp
  obtain ⟨h1, h2, hc, hx, hy, hf⟩ := validatePair_ok hv
  have hx' := List.length_pos_iff.2 hx
  have hy' := List.length_pos_iff.2 hy
  obtain rfl : code = 0 := by simpa [gcCode] using hc.symm
  have hmask : computeMask x.length y.length 0 none none = .ok (Mat.full true) := rfl
  have hS : ∀ p, p ∈ pathsB (Mat.full true) x.length y.length ↔ Admissible x.length y.length (Mat.full true) p :=
    fun p => mem_pathsB_admissible hx' hy'
  obtain ⟨E', w', hE', hv'⟩ := C20_visit_probability be x y hx hy γ hγ 0 none none (by simp) _ hmask _ hS junk
  have hw' := C17_alignment_value be x y hx hy γ hγ 0 none none (by simp) junk E' w' hE'
  obtain ⟨E, hE, hvE⟩ := SoftObj.grad_eq hx' hy' (B := B) (D := sqEucCompute x y)
    (R := objForward B γ x.length y.length (sqEucCompute x y) (Mat.full 0)) hγ (fun i j hi hj => objForward_eq hγ _ _ i j hi hj)
  have hww : w' = .num w := by
    simp only [softDtw, hv, bind, Except.bind, if_neg hγ.ne'] at hnew
    rw [hw'] at hnew
    exact Except.ok.inj hnew
  subst hww
  have hvv : v = ((SoftObj.new x.length y.length (sqEucCompute x y) γ).compute B).2 := by
    rw [oldSoftDtw_eq hγ hv] at hold
    rw [compute_eq hγ, sqEucCompute_eq]
    exact (Fl.num.inj (Except.ok.inj hold)).symm
  refine ⟨fun i j => .num (E i j), E', v, w, ?_, ?_, hlt, hle, fun i hi j hj => ⟨_, _, rfl, hv' i j hi hj, ?_⟩⟩
  · have hg : (((SoftObj.new x.length y.length (sqEucCompute x y) γ).compute B).1.grad B).2 = .ok E := hE
    simp only [oldSoftDtwAlignment, if_neg hγ.ne', h1, h2, oldDist, hx, hy, nFeatures_denan h1, nFeatures_denan h2, hf,
      bind, Except.bind, pure, Except.pure, or_self, if_false, ne_eq, not_true_eq_false, hg, ← hvv]
  · simp only [softDtwAlignment, hv, bind, Except.bind, if_neg hγ.ne']
    exact hE'
  · rw [hvE i hi j hj, sqEucCompute_eq]
    exact (visit_close B (sampleCost x y) γ hS (fullPaths _ _) ⟨p, (hS p).2 hp⟩ i j).trans
      (border_share hx' hy' B (sampleCost x y) (fun _ _ _ _ => sampleCost_nonneg x y _ _) hγ hS (fullPaths _ _) p ((hS p).2 hp))

/-! ### Matrices -/

theorem oldSoftDtw_congr (be : Backend) (B : ℝ) {s1 s2 s1' s2' : TsInput (Option ℝ)} (h1 : toTimeSeries s1 true = toTimeSeries s1' true)
    (h2 : toTimeSeries s2 true = toTimeSeries s2' true) (γ : ℝ) : oldSoftDtw be B s1 s2 γ = oldSoftDtw be B s1' s2' γ := by
  simp only [oldSoftDtw, dtw, dtwSq, validatePair, h1, h2]

theorem toTimeSeries_idem (rows : List (List (Option ℝ))) :
    toTimeSeries (.twoD (toTimeSeries (.twoD rows) true)) true = toTimeSeries (.twoD rows) true := by
  simp only [toTimeSeries, if_true]
  exact take_tsSize_idem rows

theorem toTimeSeries_short (e : Bool) (t : Ts ℝ) : toTimeSeries (oldShort e t) true = t.trim.rows := by
  cases e with
  | true => simp [oldShort, toTimeSeries, Ts.trim]
  | false =>
    simp only [oldShort, Bool.false_eq_true, if_false]
    rw [toTimeSeries_idem]
    simp [toTimeSeries, Ts.trim]

/-- Which series comes first does not matter. -/
theorem oldSoftDtw_symm (be : Backend) (B : ℝ) (s1 s2 : TsInput (Option ℝ)) {γ : ℝ} (hγ : 0 ≤ γ) :
    oldSoftDtw be B s1 s2 γ = oldSoftDtw be B s2 s1 γ := by
  by_cases h0 : γ = 0
  · subst h0
    simp only [oldSoftDtw, if_true]
    rw [C04_dtw_symm s1 s2 none none (.inl rfl)]
  have hpos : 0 < γ := lt_of_le_of_ne hγ (Ne.symm h0)
  simp only [oldSoftDtw, if_neg h0]
  cases denan (toTimeSeries s1 true) with
  | none => cases denan (toTimeSeries s2 true) <;> rfl
  | some x =>
    cases denan (toTimeSeries s2 true) with
    | none => rfl
    | some y =>
      have hval : ((SoftObj.new x.length y.length (sqEucCompute x y) γ).compute B).2 =
          ((SoftObj.new y.length x.length (sqEucCompute y x) γ).compute B).2 := by
        rw [compute_eq hpos, compute_eq hpos, extZ_swap]
        rw [show (fun a b => sqEucCompute x y b a) = sqEucCompute y x from funext fun a => funext fun b => sqEucCompute_comm x y b a]
      simp only [oldSoftDtwGeneric, oldDist]
      by_cases hxy : x = [] ∨ y = []
      · rw [if_pos hxy, if_pos hxy.symm]
        cases be
        · rfl
        · simp only [bind, Except.bind, pure, Except.pure, hval]
      · have hyx : ¬(y = [] ∨ x = []) := fun h => hxy h.symm
        simp only [if_neg hxy, if_neg hyx]
        by_cases hf : nFeatures x = nFeatures y
        · simp only [hf, ne_eq, not_true_eq_false, if_false, bind, Except.bind, pure, Except.pure, hval]
        · have hf' : nFeatures y ≠ nFeatures x := Ne.symm hf
          simp only [ne_eq, hf, hf', not_false_eq_true, if_true]
          cases be <;> rfl

theorem oldCdistArr_cross {be : Backend} {B : ℝ} {X Y : Arr3 ℝ} {γ : ℝ} {junk M : Mat Fl}
    (h : oldCdistArr be B X (some Y) γ junk = .ok M) {i j : ℕ} {t t' : Ts ℝ} (hi : X.slots[i]? = some t) (hj : Y.slots[j]? = some t') :
    oldSoftDtw be B (.twoD t.trim.rows) (.twoD t'.trim.rows) γ = .ok (M i j) := by
  unfold oldCdistArr at h
  simp only [Option.isNone_some, Bool.false_eq_true, false_and, if_false, Option.getD_some] at h
  have := crossLoop_ok h i j (List.getElem?_eq_some_iff.1 hi).1 (List.getElem?_eq_some_iff.1 hj).1
  rw [List.getD_eq_getElem?_getD, List.getD_eq_getElem?_getD, hi, hj] at this
  rw [← this]
  refine oldSoftDtw_congr be B ?_ ?_ γ <;> rw [toTimeSeries_short] <;> simp only [toTimeSeries, if_true, Ts.trim, Option.getD_some]
  · exact take_tsSize_idem t.rows
  · exact take_tsSize_idem t'.rows

theorem oldCdistArr_self {be : Backend} {B : ℝ} {X : Arr3 ℝ} {γ : ℝ} (hγ : 0 ≤ γ) {junk M : Mat Fl}
    (h : oldCdistArr be B X none γ junk = .ok M) {i j : ℕ} {t t' : Ts ℝ} (hi : X.slots[i]? = some t) (hj : X.slots[j]? = some t') :
    oldSoftDtw be B (.twoD t.trim.rows) (.twoD t'.trim.rows) γ = .ok (M i j) := by
  unfold oldCdistArr at h
  simp only [Option.isNone_none, true_and, Option.getD_none] at h
  have key : ∀ (i j : ℕ) (t t' : Ts ℝ), X.slots[i]? = some t → X.slots[j]? = some t' → i ≤ j →
      oldSoftDtw be B (.twoD t.trim.rows) (.twoD t'.trim.rows) γ = .ok (M i j) ∧ M j i = M i j := by
    intro i j t t' hi hj hij
    obtain ⟨h1, h2⟩ := selfLoop_ok h i j (List.getElem?_eq_some_iff.1 hj).1 hij
    rw [List.getD_eq_getElem?_getD, List.getD_eq_getElem?_getD, hi, hj] at h1
    refine ⟨?_, h2⟩
    rw [← h1]
    refine oldSoftDtw_congr be B ?_ ?_ γ <;> rw [toTimeSeries_short] <;> simp only [toTimeSeries, if_true, Ts.trim, Option.getD_some]
    · exact take_tsSize_idem t.rows
    · exact take_tsSize_idem t'.rows
  rcases Nat.le_total i j with hij | hij
  · exact (key i j t t' hi hj hij).1
  · obtain ⟨h1, h2⟩ := key j i t' t hj hi hij
    rw [oldSoftDtw_symm be B _ _ hγ, h1, h2]

theorem old_of_trim (be : Backend) (B : ℝ) {s s' t t' : Ts ℝ} (h : s.trim = t.trim) (h' : s'.trim = t'.trim) (γ : ℝ) :
    oldSoftDtw be B (.twoD s.trim.rows) (.twoD s'.trim.rows) γ = oldSoftDtw be B (.twoD t.rows) (.twoD t'.rows) γ := by
  rw [h, h']
  refine oldSoftDtw_congr be B ?_ ?_ γ <;> simp only [toTimeSeries, if_true, Ts.trim]
  · exact take_tsSize_idem t.rows
  · exact take_tsSize_idem t'.rows

/-- `cdist_soft_dtw` of two datasets: entry `(i, j)` is `soft_dtw` (the deprecated one) of the original series, for every `gamma` and
every mix of lengths, whatever was in the uninitialised array. -/
theorem C94_cdist_cross (be : Backend) (B : ℝ) (l l' : List (Ts ℝ)) (d : ℕ) (hwf : ∀ t ∈ l, t.WF ∧ t.d = d)
    (hwf' : ∀ t ∈ l', t.WF ∧ t.d = d) (γ : ℝ) (junk M : Mat Fl)
    (h : oldCdist be B (.series l) (some (.series l')) γ junk = .ok M) (i j : ℕ) (t t' : Ts ℝ) (hi : l[i]? = some t)
    (hj : l'[j]? = some t') : oldSoftDtw be B (.twoD t.rows) (.twoD t'.rows) γ = .ok (M i j) := by
  unfold oldCdist at h
  cases hX : toDataset (.series l) with
  | error e => simp [hX, bind, Except.bind] at h
  | ok X =>
    cases hY : toDataset (.series l') with
    | error e => simp [hX, hY, bind, Except.bind] at h
    | ok Y =>
      simp only [hX, hY, bind, Except.bind] at h
      obtain ⟨s, hs, hst⟩ := slot_trim hwf hX hi
      obtain ⟨s', hs', hst'⟩ := slot_trim hwf' hY hj
      rw [← old_of_trim be B hst hst']
      exact oldCdistArr_cross h hs hs'

/-- `cdist_soft_dtw` of one dataset, `gamma ≥ 0`: every entry, also those that are copied. -/
theorem C94_cdist_self (be : Backend) (B : ℝ) (l : List (Ts ℝ)) (d : ℕ) (hwf : ∀ t ∈ l, t.WF ∧ t.d = d) (γ : ℝ) (hγ : 0 ≤ γ)
    (junk M : Mat Fl) (h : oldCdist be B (.series l) none γ junk = .ok M) (i j : ℕ) (t t' : Ts ℝ) (hi : l[i]? = some t)
    (hj : l[j]? = some t') : oldSoftDtw be B (.twoD t.rows) (.twoD t'.rows) γ = .ok (M i j) := by
  unfold oldCdist at h
  cases hX : toDataset (.series l) with
  | error e => simp [hX, bind, Except.bind] at h
  | ok X =>
    simp only [hX, bind, Except.bind] at h
    obtain ⟨s, hs, hst⟩ := slot_trim hwf hX hi
    obtain ⟨s', hs', hst'⟩ := slot_trim hwf hX hj
    rw [← old_of_trim be B hst hst']
    exact oldCdistArr_self hγ h hs hs'

/-- `cdist_soft_dtw` and its replacement, `gamma > 0`: entries as far apart as the values. -/
theorem C94_cdist_partial (be : Backend) (B : ℝ) (l l' : List (Ts ℝ)) (d : ℕ) (hwf : ∀ t ∈ l, t.WF ∧ t.d = d)
    (hwf' : ∀ t ∈ l', t.WF ∧ t.d = d) (γ : ℝ) (hγ : 0 < γ) (junk M M' : Mat Fl) (run) (hrun : Execution run)
    (h : oldCdist be B (.series l) (some (.series l')) γ junk = .ok M)
    (h' : cdistSoftDtw be (.series l) (some (.series l')) γ none none none run = .ok M')
    (i j : ℕ) (t t' : Ts ℝ) (hi : l[i]? = some t) (hj : l'[j]? = some t') :
    ∃ (x y : List (List ℝ)) (v w : ℝ), denan (toTimeSeries (.twoD t.rows) true) = some x ∧
      denan (toTimeSeries (.twoD t'.rows) true) = some y ∧ M i j = .num v ∧ M' i j = .num w ∧ v < w ∧
      ∀ p, Admissible x.length y.length (Mat.full true) p →
        w - v ≤ γ * 3 ^ (x.length + y.length) * Real.exp ((sumCost (sampleCost x y) p - B) / γ) := by
  have e := C94_cdist_cross be B l l' d hwf hwf' γ junk M h i j t t' hi hj
  have e' := C19_cross_partial be l l' d hwf hwf' γ hγ.ne' none none none run hrun M' h' i j t t' hi hj
  cases hv : validatePair (.twoD t.rows) (.twoD t'.rows) none with
  | error err => simp [softDtw, hv, bind, Except.bind] at e'
  | ok r =>
    obtain ⟨x, y, code⟩ := r
    obtain ⟨v, w, h1, h2, h3, h4⟩ := soft_pair (be := be) (B := B) hγ hv
    obtain ⟨d1, d2, -⟩ := validatePair_ok hv
    rw [h1] at e
    rw [h2] at e'
    exact ⟨x, y, v, w, d1, d2, (Except.ok.inj e).symm, (Except.ok.inj e').symm, h3, h4⟩

/-- `cdist_soft_dtw` and its replacement, `gamma = 0`: the old entries are the squares of the new ones. -/
theorem C94_cdist_zero (be : Backend) (B : ℝ) (l l' : List (Ts ℝ)) (d : ℕ) (hwf : ∀ t ∈ l, t.WF ∧ t.d = d)
    (hwf' : ∀ t ∈ l', t.WF ∧ t.d = d) (junk M M' : Mat Fl) (run) (hrun : Execution run)
    (h : oldCdist be B (.series l) (some (.series l')) 0 junk = .ok M)
    (h' : cdistSoftDtw be (.series l) (some (.series l')) 0 none none none run = .ok M')
    (i j : ℕ) (t t' : Ts ℝ) (hi : l[i]? = some t) (hj : l'[j]? = some t') : M i j = (M' i j).mul (M' i j) := by
  have e := C94_cdist_cross be B l l' d hwf hwf' 0 junk M h i j t t' hi hj
  have e' := (C19_gamma_zero be l l' d hwf hwf' none none none run hrun M' h' i j t t' hi hj).2
  rw [C94_value_zero, e'] at e
  exact (Except.ok.inj e).symm

/-- False of the code: deprecated function and replacement do not agree. For `gamma = 0` the series `(0)` and `(2)` are at 4 in the
matrix of the one, at 2 in that of the other; for `gamma > 0` no two values are equal (`C94_value_partial`). -/
theorem C94_false_cdist (be : Backend) (B : ℝ) (junk : Mat Fl) : ∃ M M' : Mat Fl,
    oldCdist be B (.series [oneSample 0]) (some (.series [oneSample 2])) 0 junk = .ok M ∧
    cdistSoftDtw be (.series [oneSample 0]) (some (.series [oneSample 2])) 0 none none none seqRun = .ok M' ∧
    M 0 0 = .num 4 ∧ M' 0 0 = .num 2 := by
  obtain ⟨M', h1, h2, h3⟩ := C19_false be
  have hds : ∀ v : ℝ, toDataset (.series [oneSample v]) = .ok ⟨1, 1, [[[some v]]]⟩ := by
    intro v; rfl
  have hval : oldSoftDtw be B (.twoD (oneSample 0).rows) (.twoD (oneSample 2).rows) 0 = .ok (.num 4) := by
    rw [C94_value_zero]; exact h3
  refine ⟨junk.set 0 0 (.num 4), M', ?_, h1, by simp [Mat.set], h2⟩
  unfold oldCdist
  simp only [hds, bind, Except.bind]
  unfold oldCdistArr
  simp only [Option.isNone_some, Bool.false_eq_true, false_and, if_false, Option.getD_some]
  have : oldSoftDtw be B (oldShort (checkEqualSizeArr (⟨1, 1, [[[some 0]]]⟩ : Arr3 ℝ)) (oneSample 0))
      (oldShort (checkEqualSizeArr (⟨1, 1, [[[some 2]]]⟩ : Arr3 ℝ)) (oneSample 2)) 0 = .ok (.num 4) := by
    rw [← hval]
    refine oldSoftDtw_congr be B ?_ ?_ 0 <;> rw [toTimeSeries_short] <;> rfl
  simp only [Arr3.slots, List.map_cons, List.map_nil, List.length_cons, List.length_nil, Nat.zero_add, forRange, bind, Except.bind,
    List.getD_cons_zero, pure, Except.pure]
  unfold oneSample at this
  rw [this]

/-- False of the code: with PyTorch a series without samples is no error, its value is the largest float. -/
theorem C94_false_empty (B γ : ℝ) (hγ : γ ≠ 0) :
    oldSoftDtw .pytorch B (.twoD []) (.twoD [[some 1]]) γ = .ok (.num B) ∧
    softDtw .pytorch (.twoD []) (.twoD [[some 1]]) γ none none none = .error .valueError := by
  constructor
  · simp only [oldSoftDtw, if_neg hγ]
    rfl
  · rfl

/-! ### Normalised matrices -/

theorem oldSelf_ok {be : Backend} {B : ℝ} {X : Arr3 ℝ} {γ : ℝ} {vs : List Fl} (h : oldSelf be B X γ = .ok vs) {i : ℕ} {t : Ts ℝ}
    (hi : X.slots[i]? = some t) : oldSoftDtw be B (.twoD t.trim.rows) (.twoD t.trim.rows) γ = .ok (vs.getD i (.num 0)) := by
  unfold oldSelf at h
  have h' : seqRun (X.slots.map fun t => oldSoftDtw be B (.twoD (toTimeSeries (.twoD t.rows) true)) (.twoD (toTimeSeries (.twoD t.rows) true)) γ) =
      .ok vs := by
    unfold seqRun
    rw [List.mapM_map]
    exact h
  obtain ⟨v, hv, hr⟩ := run_get (.inl rfl) h' (k := i) (by rw [List.getElem?_map, hi]; rfl)
  rw [List.getD_eq_getElem?_getD, hv, Option.getD_some, ← hr]
  simp only [toTimeSeries, if_true, Ts.trim]

/-- `cdist_soft_dtw_normalized` of two datasets: each entry is the deprecated `soft_dtw` of the pair less half the sum of the values
of the two series with themselves. -/
theorem C94_normalized_cross (be : Backend) (B : ℝ) (l l' : List (Ts ℝ)) (d : ℕ) (hwf : ∀ t ∈ l, t.WF ∧ t.d = d)
    (hwf' : ∀ t ∈ l', t.WF ∧ t.d = d) (γ : ℝ) (junk M : Mat Fl)
    (h : oldCdistNormalized be B (.series l) (some (.series l')) γ junk = .ok M) (i j : ℕ) (t t' : Ts ℝ) (hi : l[i]? = some t)
    (hj : l'[j]? = some t') : ∃ a b c : Fl, oldSoftDtw be B (.twoD t.rows) (.twoD t'.rows) γ = .ok a ∧
      oldSoftDtw be B (.twoD t.rows) (.twoD t.rows) γ = .ok b ∧ oldSoftDtw be B (.twoD t'.rows) (.twoD t'.rows) γ = .ok c ∧
      M i j = a.sub (Fl.scale (1/2) (b.add c)) := by
  unfold oldCdistNormalized at h
  cases hX : toDataset (.series l) with
  | error e => simp [hX, bind, Except.bind] at h
  | ok X =>
  cases hY : toDataset (.series l') with
  | error e => simp [hX, hY, bind, Except.bind] at h
  | ok Y =>
  simp only [hX, hY, bind, Except.bind] at h
  cases hc : oldCdistArr be B X (some Y) γ junk with
  | error e => simp [hc] at h
  | ok dists =>
  cases h1 : oldSelf be B X γ with
  | error e => simp [hc, h1] at h
  | ok s1 =>
  cases h2 : oldSelf be B Y γ with
  | error e => simp [hc, h1, h2] at h
  | ok s2 =>
  simp only [hc, h1, h2, pure, Except.pure, Except.ok.injEq] at h
  subst h
  obtain ⟨s, hs, hst⟩ := slot_trim hwf hX hi
  obtain ⟨s', hs', hst'⟩ := slot_trim hwf' hY hj
  refine ⟨_, _, _, ?_, ?_, ?_, normalized_entry _ _ _⟩
  · rw [← old_of_trim be B hst hst']; exact oldCdistArr_cross hc hs hs'
  · rw [← old_of_trim be B hst hst]; exact oldSelf_ok h1 hs
  · rw [← old_of_trim be B hst' hst']; exact oldSelf_ok h2 hs'

/-- The same for one dataset, `gamma ≥ 0`. -/
theorem C94_normalized_self (be : Backend) (B : ℝ) (l : List (Ts ℝ)) (d : ℕ) (hwf : ∀ t ∈ l, t.WF ∧ t.d = d) (γ : ℝ) (hγ : 0 ≤ γ)
    (junk M : Mat Fl) (h : oldCdistNormalized be B (.series l) none γ junk = .ok M) (i j : ℕ) (t t' : Ts ℝ) (hi : l[i]? = some t)
    (hj : l[j]? = some t') : ∃ a b c : Fl, oldSoftDtw be B (.twoD t.rows) (.twoD t'.rows) γ = .ok a ∧
      oldSoftDtw be B (.twoD t.rows) (.twoD t.rows) γ = .ok b ∧ oldSoftDtw be B (.twoD t'.rows) (.twoD t'.rows) γ = .ok c ∧
      M i j = a.sub (Fl.scale (1/2) (b.add c)) := by
  unfold oldCdistNormalized at h
  cases hX : toDataset (.series l) with
  | error e => simp [hX, bind, Except.bind] at h
  | ok X =>
  simp only [hX, bind, Except.bind] at h
  cases hc : oldCdistArr be B X none γ junk with
  | error e => simp [hc] at h
  | ok dists =>
  simp only [hc, pure, Except.pure, Except.ok.injEq] at h
  subst h
  obtain ⟨s, hs, hst⟩ := slot_trim hwf hX hi
  obtain ⟨s', hs', hst'⟩ := slot_trim hwf hX hj
  refine ⟨_, _, _, ?_, ?_, ?_, normalized_entry _ _ _⟩
  · rw [← old_of_trim be B hst hst']; exact oldCdistArr_self hγ hc hs hs'
  · rw [← old_of_trim be B hst hst]; exact oldCdistArr_self hγ hc hs hs
  · rw [← old_of_trim be B hst' hst']; exact oldCdistArr_self hγ hc hs' hs'

theorem validatePair_self {s1 s2 : TsInput (Option ℝ)} {x y : List (List ℝ)} {code : ℕ}
    (hv : validatePair s1 s2 none = .ok (x, y, code)) :
    validatePair s1 s1 none = .ok (x, x, 0) ∧ validatePair s2 s2 none = .ok (y, y, 0) := by
  obtain ⟨h1, h2, -, hx, hy, -⟩ := validatePair_ok hv
  have l1 := denan_length h1
  have l2 := denan_length h2
  have hx' := List.length_pos_iff.2 hx
  have hy' := List.length_pos_iff.2 hy
  constructor
  · have : ¬ (toTimeSeries s1 true).length = 0 := by omega
    simp [validatePair, h1, this, gcCode, bind, Except.bind, pure, Except.pure]
  · have : ¬ (toTimeSeries s2 true).length = 0 := by omega
    simp [validatePair, h2, this, gcCode, bind, Except.bind, pure, Except.pure]

/-- `gamma = 0`: the entries of the deprecated matrix are the values of the present `soft_dtw_normalized` (which are squared DTW
distances). -/
theorem C94_normalized_zero (be : Backend) (B : ℝ) (l l' : List (Ts ℝ)) (d : ℕ) (hwf : ∀ t ∈ l, t.WF ∧ t.d = d)
    (hwf' : ∀ t ∈ l', t.WF ∧ t.d = d) (junk M : Mat Fl)
    (h : oldCdistNormalized be B (.series l) (some (.series l')) 0 junk = .ok M) (i j : ℕ) (t t' : Ts ℝ) (hi : l[i]? = some t)
    (hj : l'[j]? = some t') : softDtwNormalized be (.twoD t.rows) (.twoD t'.rows) 0 none none none = .ok (M i j) := by
  obtain ⟨a, b, c, ha, hb, hc, hM⟩ := C94_normalized_cross be B l l' d hwf hwf' 0 junk M h i j t t' hi hj
  rw [C94_value_zero] at ha hb hc
  have ha' : softDtwNormalized be (.twoD t.rows) (.twoD t'.rows) 0 none none none = .ok a := by
    rw [← ha]; simp only [softDtwNormalized, softDtw, if_true]
  rw [ha', hM]
  cases hv : validatePair (.twoD t.rows) (.twoD t'.rows) none with
  | error err => simp [softDtw, hv, bind, Except.bind] at ha
  | ok r =>
    obtain ⟨x, y, code⟩ := r
    obtain ⟨-, -, -, hx, hy, -⟩ := validatePair_ok hv
    obtain ⟨v1, v2⟩ := validatePair_self hv
    have h0 : ∀ x : List (List ℝ), x ≠ [] → dtwSquared x x 0 none none = .ok (.num 0) := by
      intro x hx
      simp [dtwSquared, (C04_self x hx none).1, bind, Except.bind, pure, Except.pure, sqrtTop, flOfTop, Fl.mul, Fl.scale]
    simp only [softDtw, v1, bind, Except.bind, if_true, h0 x hx, Except.ok.injEq] at hb
    simp only [softDtw, v2, bind, Except.bind, if_true, h0 y hy, Except.ok.injEq] at hc
    subst hb hc
    congr 1
    cases a <;> simp [Fl.sub, Fl.add, Fl.scale, Fl.neg]

/-- The path along the diagonal. -/
theorem diag_admissible (x : List (List ℝ)) (hx : x ≠ []) : ∃ p, Admissible x.length x.length (Mat.full true) p ∧
    sumCost (sampleCost x x) p = 0 := by
  have hx' := List.length_pos_iff.2 hx
  refine ⟨(List.range x.length).map fun i => (i, i), ⟨?_, fun _ _ => rfl⟩, ?_⟩
  · have := diag_path (x.length - 1)
    rw [show x.length - 1 + 1 = x.length by omega] at this
    exact isWarpingPath_iff.2 ⟨x.length - 1, x.length - 1, by omega, by omega, this⟩
  · unfold sumCost
    rw [List.map_map]
    apply List.sum_eq_zero
    intro c hc
    simp only [List.mem_map, Function.comp] at hc
    obtain ⟨i, -, rfl⟩ := hc
    exact sqEuclid_self _

/-- `gamma > 0`: how far the entries of the deprecated matrix are from the values of the present `soft_dtw_normalized`. -/
theorem C94_normalized_partial (be : Backend) (B : ℝ) (l l' : List (Ts ℝ)) (d : ℕ) (hwf : ∀ t ∈ l, t.WF ∧ t.d = d)
    (hwf' : ∀ t ∈ l', t.WF ∧ t.d = d) (γ : ℝ) (hγ : 0 < γ) (junk M : Mat Fl)
    (h : oldCdistNormalized be B (.series l) (some (.series l')) γ junk = .ok M) (i j : ℕ) (t t' : Ts ℝ) (hi : l[i]? = some t)
    (hj : l'[j]? = some t') (x y : List (List ℝ)) (code : ℕ)
    (hv : validatePair (.twoD t.rows) (.twoD t'.rows) none = .ok (x, y, code))
    (p : List (ℕ × ℕ)) (hp : Admissible x.length y.length (Mat.full true) p) :
    ∃ v w : ℝ, M i j = .num v ∧ softDtwNormalized be (.twoD t.rows) (.twoD t'.rows) γ none none none = .ok (.num w) ∧
      |v - w| ≤ γ * 3 ^ (x.length + y.length) * Real.exp ((sumCost (sampleCost x y) p - B) / γ) +
        γ / 2 * (9 ^ x.length + 9 ^ y.length) * Real.exp (-B / γ) := by
  obtain ⟨a, b, c, ha, hb, hc, hM⟩ := C94_normalized_cross be B l l' d hwf hwf' γ junk M h i j t t' hi hj
  obtain ⟨-, -, hcode, hx, hy, -⟩ := validatePair_ok hv
  obtain rfl : code = 0 := by simpa [gcCode] using hcode.symm
  obtain ⟨v1, v2⟩ := validatePair_self hv
  obtain ⟨a1, a2, ea, ea', hla, hda⟩ := soft_pair (be := be) (B := B) hγ hv
  obtain ⟨b1, b2, eb, eb', hlb, hdb⟩ := soft_pair (be := be) (B := B) hγ v1
  obtain ⟨c1, c2, ec, ec', hlc, hdc⟩ := soft_pair (be := be) (B := B) hγ v2
  obtain rfl : a = .num a1 := by rw [ha] at ea; exact Except.ok.inj ea
  obtain rfl : b = .num b1 := by rw [hb] at eb; exact Except.ok.inj eb
  obtain rfl : c = .num c1 := by rw [hc] at ec; exact Except.ok.inj ec
  simp only [softDtw, hv, v1, v2, bind, Except.bind, if_neg hγ.ne'] at ea' eb' ec'
  refine ⟨a1 - 1/2 * (b1 + c1), a2 - 1/2 * (b2 + c2), ?_, ?_, ?_⟩
  · rw [hM]; simp [Fl.sub, Fl.add, Fl.scale, Fl.neg, sub_eq_add_neg]
  · simp only [softDtwNormalized, hv, bind, Except.bind, if_neg hγ.ne', softDtwNormalizedGeneric, ea', eb', ec', pure, Except.pure]
    simp [Fl.sub, Fl.add, Fl.scale, Fl.neg, sub_eq_add_neg]
  · obtain ⟨px, hpx, h0x⟩ := diag_admissible x hx
    obtain ⟨py, hpy, h0y⟩ := diag_admissible y hy
    have h1 := hda p hp
    have h2 := hdb px hpx
    have h3 := hdc py hpy
    unfold oldError at h1 h2 h3
    rw [h0x, zero_sub, ← two_mul, pow_mul, show (3 : ℝ) ^ 2 = 9 by norm_num] at h2
    rw [h0y, zero_sub, ← two_mul, pow_mul, show (3 : ℝ) ^ 2 = 9 by norm_num] at h3
    have e : γ / 2 * (9 ^ x.length + 9 ^ y.length) * Real.exp (-B / γ) =
        1/2 * (γ * 9 ^ x.length * Real.exp (-B / γ) + γ * 9 ^ y.length * Real.exp (-B / γ)) := by ring
    rw [e, abs_le]
    constructor <;> linarith

/-! Concrete cases meeting the hypotheses. -/

example (be : Backend) (B : ℝ) : ∃ v w : ℝ, oldSoftDtw be B (.oneD [some 0, some 1, none]) (.twoD [[some 2]]) 1 = .ok (.num v) ∧
    softDtw be (.oneD [some 0, some 1, none]) (.twoD [[some 2]]) 1 none none none = .ok (.num w) ∧ v < w :=
  have hp : Admissible 2 1 (Mat.full true) [(0, 0), (1, 0)] :=
    ⟨⟨rfl, ⟨1, 0, rfl, rfl, rfl⟩, by simp [WStep]⟩, fun _ _ => rfl⟩
  have ⟨v, w, h1, h2, h3, _⟩ := C94_value_partial be B _ _ 1 one_pos [[0], [1]] [[2]] 0 rfl _ hp
  ⟨v, w, h1, h2, h3⟩

example (B : ℝ) : oldSoftDtw .numpy B (.oneD [none, none]) (.twoD [[some 2]]) 1 = .error .valueError :=
  (C94_refusals B _ _ 1 (.inl rfl)).2 rfl rfl

example (be : Backend) (B : ℝ) : ∃ M : Mat Fl, oldCdist be B (.series [oneSample 0]) (some (.series [oneSample 2])) 0 (Mat.full .nan) = .ok M ∧
    oldSoftDtw be B (.twoD (oneSample 0).rows) (.twoD (oneSample 2).rows) 0 = .ok (M 0 0) ∧ M 0 0 = .num 4 := by
  obtain ⟨M, -, h, -, h4, -⟩ := C94_false_cdist be B (Mat.full .nan)
  refine ⟨M, h, ?_, h4⟩
  refine C94_cdist_cross be B _ _ 1 ?_ ?_ 0 _ M h 0 0 _ _ rfl rfl <;>
  · intro t ht
    simp only [List.mem_singleton] at ht
    subst ht
    exact ⟨by simp [Ts.WF, oneSample], rfl⟩

example (be : Backend) (B : ℝ) : ∃ M : Mat Fl,
    oldCdistNormalized be B (.series [oneSample 0, ⟨1, [[some 1], [some 3]]⟩]) none 1 (Mat.full .nan) = .ok M := by
  have hds : toDataset (.series [oneSample 0, ⟨1, [[some 1], [some 3]]⟩]) =
    .ok (⟨2, 1, [[[some 0], [none]], [[some 1], [some 3]]]⟩ : Arr3 ℝ) := rfl
  have hok : ∀ t ∈ ([⟨1, [[some 0], [none]]⟩, ⟨1, [[some 1], [some 3]]⟩] : List (Ts ℝ)),
      ∀ t' ∈ ([⟨1, [[some 0], [none]]⟩, ⟨1, [[some 1], [some 3]]⟩] : List (Ts ℝ)), ∀ e e',
      ∃ v, oldSoftDtw be B (oldShort e t) (oldShort e' t') 1 = .ok v := by
    intro t ht t' ht' e e'
    rw [oldSoftDtw_congr be B (s1' := .twoD t.rows) (s2' := .twoD t'.rows) (by rw [toTimeSeries_short]; rfl)
      (by rw [toTimeSeries_short]; rfl)]
    simp only [List.mem_cons, List.not_mem_nil, or_false] at ht ht'
    rcases ht with rfl | rfl <;> rcases ht' with rfl | rfl <;> exact ⟨_, oldSoftDtw_eq one_pos (g := none) rfl⟩
  simp only [oldCdistNormalized, hds, bind, Except.bind]
  unfold oldCdistArr
  simp only [Arr3.slots, List.map_cons, List.map_nil, List.length_cons, List.length_nil, Nat.zero_add, Nat.reduceAdd, forRange, bind,
    Except.bind, List.getD_cons_zero, List.getD_cons_succ, pure, Except.pure, Option.isNone_none, Option.getD_none, true_and]
  generalize checkEqualSizeArr _ = e
  obtain ⟨v1, h1⟩ := hok ⟨1, [[some 0], [none]]⟩ (by simp) ⟨1, [[some 0], [none]]⟩ (by simp) e e
  obtain ⟨v2, h2⟩ := hok ⟨1, [[some 0], [none]]⟩ (by simp) ⟨1, [[some 1], [some 3]]⟩ (by simp) e e
  obtain ⟨v3, h3⟩ := hok ⟨1, [[some 1], [some 3]]⟩ (by simp) ⟨1, [[some 1], [some 3]]⟩ (by simp) e e
  simp [h1, h2, h3]

end
end Verif
