import Verif.Proofs.SaxGap
import Verif.Props.C32
import Mathlib.Tactic.NormNum
/-!
# C33 — SAX symbols are in range and order preserving, MINDIST lower-bounds the PAA distance
-/
namespace Verif
open Spec

section
variable {K : Type} [Field K] [LinearOrder K]

theorem saxTransform_ok {sc : Option (Scaling K)} {bps : List K} {S : ℕ} {X : Arr3 K} (hne : X.data ≠ []) (hS : 0 < S) :
    saxTransform X.d sc bps S X = .ok (saxRaw sc bps S X) := by
  simp only [saxTransform, hne, if_false, ne_eq, not_true_eq_false, Nat.pos_iff_ne_zero.1 hS, pure, Except.pure,
    bind, Except.bind]

/-- Every symbol is below the alphabet size, whatever the data (NaN included), and there is one symbol per
series, segment and feature. -/
theorem C33_range (fitD : ℕ) (sc : Option (Scaling K)) (ppf : K → K) (A S : ℕ) (scale : K) (X : Arr3 K)
    (W : List (List (List ℕ))) (hA : 0 < A) (h : saxTransform fitD sc (breakpoints ppf A scale) S X = .ok W) :
    W.length = X.data.length ∧ ∀ w ∈ W, w.length = S ∧ ∀ r ∈ w, r.length = X.d ∧ ∀ c ∈ r, c < A := by
  have hw : W = saxRaw sc (breakpoints ppf A scale) S X := by
    simp only [saxTransform, bind, Except.bind, throw, throwThe, MonadExceptOf.throw, pure, Except.pure] at h
    split_ifs at h
    exact (Except.ok.inj h).symm
  subst hw
  have hlen : (saxScale sc X).data.length = X.data.length ∧ (saxScale sc X).d = X.d := by
    cases sc with
    | none => exact ⟨rfl, rfl⟩
    | some m => exact ⟨Arr3.build_length .., rfl⟩
  have hwf := Arr3.build_wf (saxScale sc X).data.length S (saxScale sc X).d fun i s f =>
    let q := tsSize ((saxScale sc X).data.getD i []) / S
    meanOpt ((List.range q).map fun t => (saxScale sc X).entry i (s * q + t) f)
  unfold saxRaw paaToSymbols
  refine ⟨by rw [List.length_map, ← hlen.1]; exact Arr3.build_length .., ?_⟩
  intro w hw
  obtain ⟨s, hs, rfl⟩ := List.mem_map.1 hw
  refine ⟨by rw [List.length_map]; exact (hwf s hs).1, ?_⟩
  intro r hr
  obtain ⟨r', hr', rfl⟩ := List.mem_map.1 hr
  refine ⟨by rw [List.length_map, ← hlen.2]; exact (hwf s hs).2 r' hr', ?_⟩
  intro c hc
  obtain ⟨x, -, rfl⟩ := List.mem_map.1 hc
  have := paaToSymbol_le (breakpoints ppf A scale) x
  rw [breakpoints_length] at this
  omega

/-- A larger value never gets a smaller symbol, and NaN gets the last one. -/
theorem C33_monotone (bps : List K) :
    (∀ x y : K, x ≤ y → paaToSymbol bps (some x) ≤ paaToSymbol bps (some y)) ∧ paaToSymbol bps none = bps.length := by
  refine ⟨fun x y h => paaToSymbol_mono bps h, ?_⟩
  rw [paaToSymbol_eq, List.findIdx_eq_length]
  intro b _
  rfl

/-- The symbol `k` of a value is the number of its cell: all the breakpoints before `k` are at most the value,
breakpoint `k` is larger. -/
theorem C33_cell (bps : List K) (x : K) (k : ℕ) (hs : bps.Pairwise (· ≤ ·)) :
    paaToSymbol bps (some x) = k ↔ k ≤ bps.length ∧ (∀ j < k, bps.getD j 0 ≤ x) ∧
      ∀ j, k ≤ j → j < bps.length → x < bps.getD j 0 := by
  constructor
  · rintro rfl
    refine ⟨paaToSymbol_le bps _, fun j hj => paaToSymbol_ge hj, fun j hj hl => ?_⟩
    have h1 := paaToSymbol_lt (bps := bps) (x := x) (by omega)
    rcases Nat.eq_or_lt_of_le hj with e | e
    · rwa [← e]
    · refine h1.trans_le ?_
      rw [List.getD_eq_getElem _ _ (by omega), List.getD_eq_getElem _ _ hl]
      exact List.pairwise_iff_getElem.1 hs _ _ _ _ e
  · rintro ⟨h1, h2, h3⟩
    exact paaToSymbol_unique h1 h2 (h3 k le_rfl)

/-- The breakpoints are sorted (the Gaussian quantile function is increasing). -/
theorem C33_breakpoints [IsStrictOrderedRing K] (ppf : K → K) (hp : StrictMonoOn ppf (Set.Ioo 0 1)) (A : ℕ) (scale : K)
    (hs : 0 ≤ scale) : (breakpoints ppf A scale).length = A - 1 ∧ (breakpoints ppf A scale).Pairwise (· ≤ ·) :=
  ⟨breakpoints_length .., breakpoints_sorted hp A hs⟩
end

/-- The SAX distance of the words of two series never exceeds the distance of their PAA representations. -/
theorem C33_mindist (bps : List ℝ) (hs : bps.Pairwise (· ≤ ·)) (N : ℕ) (P : Arr3 ℝ) (hP : P.WF) (i j : ℕ)
    (hi : i < P.data.length) (hj : j < P.data.length) (D : ℝ) (hD : distancePaa N P.sz P i j = some D) :
    cydistSax bps N P.sz P.d ((paaToSymbols bps P).getD i []) ((paaToSymbols bps P).getD j []) ≤ D := by
  have hsome : ∀ s < P.sz, ∀ f < P.d, ∃ u v, P.entry i s f = some u ∧ P.entry j s f = some v := by
    intro s hs' f hf
    unfold distancePaa at hD
    cases e : sqDistOpt P.sz P.d (P.entry i) (P.entry j) with
    | none => rw [e] at hD; simp at hD
    | some v =>
      unfold sqDistOpt at e
      rw [Option.map_eq_some_iff] at e
      obtain ⟨l, hl, -⟩ := e
      have hm := mapM_id_mem hl (a := (P.entry i s f).bind fun x => (P.entry j s f).map fun y => (x - y) ^ 2)
        (List.mem_flatMap.2 ⟨s, List.mem_range.2 hs', List.mem_map.2 ⟨f, List.mem_range.2 hf, rfl⟩⟩)
      obtain ⟨w, hw⟩ := hm
      cases h1 : P.entry i s f with
      | none => simp [h1] at hw
      | some a =>
        cases h2 : P.entry j s f with
        | none => simp [h1, h2] at hw
        | some b => exact ⟨a, b, rfl, rfl⟩
  choose! u v huv using hsome
  have hval := sqDistOpt_some P.sz P.d (P.entry i) (P.entry j) u v (fun s hs f hf => (huv s hs f hf).1)
    (fun s hs f hf => (huv s hs f hf).2)
  unfold distancePaa at hD
  rw [hval, Option.map_some, Option.some.injEq] at hD
  rw [← hD, ← Real.sqrt_mul (Finset.sum_nonneg fun _ _ => Finset.sum_nonneg fun _ _ => sq_nonneg _)]
  unfold cydistSax
  apply Real.sqrt_le_sqrt
  rw [mul_div_assoc]
  apply mul_le_mul_of_nonneg_right _ (by positivity)
  rw [listsum_range]
  apply Finset.sum_le_sum
  intro s hs'
  rw [Finset.mem_range] at hs'
  rw [listsum_range]
  apply Finset.sum_le_sum
  intro f hf
  rw [Finset.mem_range] at hf
  rw [wordAt_symbols hP hi hs' hf, wordAt_symbols hP hj hs' hf, (huv s hs' f hf).1, (huv s hs' f hf).2]
  exact saxCell_le hs _ _

theorem sax_euclid (sc : Option (Scaling ℝ)) (bps : List ℝ) (hs : bps.Pairwise (· ≤ ·)) (X : Arr3 ℝ) (hX : X.WF)
    (S n i j : ℕ) (x y : ℕ → ℕ → ℝ) (hd : (saxScale sc X).d = X.d) (hi : Series (saxScale sc X) i n x)
    (hj : Series (saxScale sc X) j n y) (hn : 0 < n) (hS : S ∣ n) :
    cydistSax bps n S X.d ((saxRaw sc bps S X).getD i []) ((saxRaw sc bps S X).getD j []) ≤ euclid n X.d x y := by
  obtain ⟨P, D, hP, hD, hle⟩ := C32_lower_bound (saxScale sc X) (saxScale_wf hX sc) S n i j x y hi hj hn hS
  rw [paaTransform_ok hi.ne (Nat.pos_of_dvd_of_pos hS hn)] at hP
  obtain rfl := Except.ok.inj hP
  rw [hd] at hle
  refine le_trans ?_ hle
  have := C33_mindist bps hs n (paaRaw S (saxScale sc X)) (Arr3.build_wf _ _ _ _) i j
    (by unfold paaRaw; rw [Arr3.build_length]; exact hi.1) (by unfold paaRaw; rw [Arr3.build_length]; exact hj.1) D hD
  rw [show (paaRaw S (saxScale sc X)).d = X.d from hd] at this
  exact this

/-- Without scaling, the SAX distance never exceeds the Euclidean distance of the series when the segments tile
them and the model was fitted on series of the same size. -/
theorem C33_euclid (bps : List ℝ) (hs : bps.Pairwise (· ≤ ·)) (X : Arr3 ℝ) (hX : X.WF)
    (S n i j : ℕ) (x y : ℕ → ℕ → ℝ) (hi : Series X i n x) (hj : Series X j n y) (hn : 0 < n) (hS : S ∣ n) :
    ∃ W, saxTransform X.d none bps S X = .ok W ∧
      cydistSax bps n S X.d (W.getD i []) (W.getD j []) ≤ euclid n X.d x y :=
  ⟨_, saxTransform_ok hi.ne (Nat.pos_of_dvd_of_pos hS hn), sax_euclid none bps hs X hX S n i j x y rfl hi hj hn hS⟩

/-- With scaling, it never exceeds the Euclidean distance of the scaled series. -/
theorem C33_euclid_scaled (bps : List ℝ) (hs : bps.Pairwise (· ≤ ·)) (m : Scaling ℝ) (mu sd : ℕ → ℝ) (X : Arr3 ℝ)
    (hX : X.WF) (hm : ∀ f < X.d, m f = (some (mu f), some (sd f)))
    (S n i j : ℕ) (x y : ℕ → ℕ → ℝ) (hi : Series X i n x) (hj : Series X j n y) (hn : 0 < n) (hS : S ∣ n) :
    ∃ W, saxTransform X.d (some m) bps S X = .ok W ∧
      cydistSax bps n S X.d (W.getD i []) (W.getD j []) ≤
        euclid n X.d (fun t f => (x t f - mu f) / sd f) (fun t f => (y t f - mu f) / sd f) :=
  ⟨_, saxTransform_ok hi.ne (Nat.pos_of_dvd_of_pos hS hn),
    sax_euclid (some m) bps hs X hX S n i j _ _ rfl (hi.scale hm) (hj.scale hm) hn hS⟩

/-- Its value: how far apart the breakpoints are that separate the means of the segments. -/
theorem C33_value (bps : List ℝ) (hs : bps.Pairwise (· ≤ ·)) (X : Arr3 ℝ) (hX : X.WF)
    (S n i j : ℕ) (x y : ℕ → ℕ → ℝ) (hi : Series X i n x) (hj : Series X j n y) (hS0 : 0 < S) (hS : S ≤ n) :
    ∃ W, saxTransform X.d none bps S X = .ok W ∧
      cydistSax bps n S X.d (W.getD i []) (W.getD j []) = symbolicDist bps n S X.d x y :=
  ⟨_, saxTransform_ok hi.ne hS0, cydistSax_words hs hX hX rfl hi hj hS⟩

/-- Symbols of -1, 0.1 and 2 for the breakpoint 0 (docstring of `_paa_to_symbols`). -/
example : paaToSymbol [(0 : ℝ)] (some (-1)) = 0 ∧ paaToSymbol [(0 : ℝ)] (some 2) = 1 :=
  ⟨(C33_cell _ _ _ (by simp)).2 ⟨by simp, by simp, by intro j _ hj; simp at hj; subst hj; norm_num⟩,
    (C33_cell _ _ _ (by simp)).2 ⟨by simp, by intro j hj; obtain rfl : j = 0 := by omega
                                              simp, by intro j h1 h2; simp at h2; omega⟩⟩

example : ∃ W, saxTransform 1 none [(1 / 4 : ℝ), 1 / 2] 3 exPaa = .ok W ∧
    cydistSax [(1 / 4 : ℝ), 1 / 2] 3 3 1 (W.getD 0 []) (W.getD 1 []) ≤
      euclid 3 1 (fun t _ => if t < 2 then 1 else 0) (fun _ _ => 0) :=
  C33_euclid _ (by simp; norm_num) exPaa exPaa_wf 3 3 0 1 _ _ exPaa_series0 exPaa_series1 (by omega) (by omega)

example : ∃ W, saxTransform 1 none [(1 / 4 : ℝ), 1 / 2] 2 exPaa = .ok W ∧
    cydistSax [(1 / 4 : ℝ), 1 / 2] 3 2 1 (W.getD 0 []) (W.getD 1 []) =
      symbolicDist [(1 / 4 : ℝ), 1 / 2] 3 2 1 (fun t _ => if t < 2 then 1 else 0) (fun _ _ => 0) :=
  C33_value _ (by simp; norm_num) exPaa exPaa_wf 2 3 0 1 _ _ exPaa_series0 exPaa_series1 (by omega) (by omega)

example : (breakpoints (fun p : ℝ => p) 4 1).Pairwise (· ≤ ·) :=
  (C33_breakpoints _ (strictMono_id.strictMonoOn _) 4 1 (by norm_num)).2

example (W) (h : saxTransform 1 none (breakpoints (fun p : ℝ => p) 4 1) 3 exPaa = .ok W) :
    ∀ w ∈ W, ∀ r ∈ w, ∀ c ∈ r, c < 4 := fun w hw r hr =>
  (((C33_range 1 none _ 4 3 1 exPaa W (by omega) h).2 w hw).2 r hr).2

end Verif
