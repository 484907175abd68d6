import Verif.Proofs.SaxGap
import Verif.Props.C33
import Verif.Props.C39
import Verif.Model.KnnSup
/-!
# C75 — Nearest-neighbour classifiers and regressors compare queries with the training series, through the same symbols
-/
set_option linter.unusedSectionVars false
namespace Verif
open Spec

variable {ppf : ℝ → ℝ} {dist : DistFun}

theorem saxRaw_shape (sc : Option (Scaling ℝ)) (bps : List ℝ) (S : ℕ) (X : Arr3 ℝ) :
    (saxRaw sc bps S X).length = X.data.length ∧ ∀ w ∈ saxRaw sc bps S X, w.map List.length = List.replicate S X.d := by
  have hlen : (saxScale sc X).data.length = X.data.length ∧ (saxScale sc X).d = X.d := by
    cases sc with
    | none => exact ⟨rfl, rfl⟩
    | some m => exact ⟨Arr3.build_length .., rfl⟩
  have hwf := Arr3.build_wf (saxScale sc X).data.length S (saxScale sc X).d fun i s f =>
    let q := tsSize ((saxScale sc X).data.getD i []) / S
    meanOpt ((List.range q).map fun t => (saxScale sc X).entry i (s * q + t) f)
  unfold saxRaw paaToSymbols
  refine ⟨by rw [List.length_map, ← hlen.1]; exact Arr3.build_length .., ?_⟩
  intro w hw
  obtain ⟨s, hs, rfl⟩ := List.mem_map.1 hw
  rw [List.map_map, List.eq_replicate_iff]
  refine ⟨by rw [List.length_map]; exact (hwf s hs).1, ?_⟩
  intro b hb
  obtain ⟨r, hr, rfl⟩ := List.mem_map.1 hb
  simp only [Function.comp_apply, List.length_map]
  rw [← hlen.2]; exact (hwf s hs).2 r hr

theorem sameShape_saxRaw (sc sc' : Option (Scaling ℝ)) (bps bps' : List ℝ) (S : ℕ) (X Y : Arr3 ℝ) (hd : Y.d = X.d) :
    sameShape (saxRaw sc bps S X) (saxRaw sc' bps' S Y) = true := by
  have key : ∀ w ∈ saxRaw sc bps S X ++ saxRaw sc' bps' S Y, w.map List.length = List.replicate S X.d := by
    intro w hw
    rcases List.mem_append.1 hw with h | h
    · exact (saxRaw_shape sc bps S X).2 w h
    · rw [← hd]; exact (saxRaw_shape sc' bps' S Y).2 w h
  unfold sameShape
  rw [List.all_eq_true]
  intro w hw
  rw [List.all_eq_true]
  intro w' hw'
  rw [key w hw, key w' hw']
  simp

/-- The words of a dataset under the hyper-parameters `p`. -/
noncomputable def wordsOf (ppf : ℝ → ℝ) (p : SaxParams) (X : Arr3 ℝ) : Words :=
  saxRaw (if p.scale then some (fitScaling X) else none) (breakpoints ppf p.alphabet 1) p.segments X

theorem saxPreprocess_ok (o : KnnSup) (p : SaxParams) (X : Arr3 ℝ) (hX : X.data ≠ []) (hS : (o.sax.getD ⟨p, none⟩).params.segments ≠ 0) :
    saxPreprocess ppf o p X = ({ o with sax := some ⟨(o.sax.getD ⟨p, none⟩).params, some (X.sz, X.d)⟩ },
      .ok (wordsOf ppf (o.sax.getD ⟨p, none⟩).params X)) := by
  unfold saxPreprocess saxFitTransform
  simp only [hX, if_false, hS]
  rfl

/-- State of a classifier fitted with the metric `"sax"`. -/
noncomputable def fittedSax (ppf : ℝ → ℝ) (o : KnnSup) (p : SaxParams) (X : Arr3 ℝ) : KnnSup := { o with
  tsMetric := some .sax
  sax := some ⟨(o.sax.getD ⟨p, none⟩).params, some (X.sz, X.d)⟩
  tsFit := some (.words (o.sax.getD ⟨p, none⟩).params.segments X.d (wordsOf ppf (o.sax.getD ⟨p, none⟩).params X))
  xFit := some (X.data.length, X.d) }

theorem fit_sax (o : KnnSup) (hr : o.regressor = false) (hm : o.metric = .sax) {p : SaxParams} (hp : o.params.sax = .ok p) (X : Arr3 ℝ)
    (hX : X.data ≠ []) (hS : (o.sax.getD ⟨p, none⟩).params.segments ≠ 0) :
    knnSupFit ppf o X = (fittedSax ppf o p X, none) := by
  unfold fittedSax
  unfold knnSupFit
  rw [hm]
  simp only [Metric.elastic, if_true, hX, if_false, hr, and_self, hp]
  have h := saxPreprocess_ok (ppf := ppf) { o with regressor := false, metric := .precomputed, tsMetric := some .sax, tsFit := some (.series X) } p X hX hS
  simp only at h
  rw [h]
  simp only [Option.map_some, Option.getD_some]
  rw [show (wordsOf ppf (o.sax.getD ⟨p, none⟩).params X).length = X.data.length from (saxRaw_shape _ _ _ _).1]

theorem cleaned_sax {q : KnnParams} {p : SaxParams} (h : q.sax = .ok p) : q.cleaned.sax = .ok p := by
  unfold KnnParams.sax at h
  split_ifs at h with h1
  rw [← h]
  unfold KnnParams.sax KnnParams.cleaned
  simp only
  rw [if_neg (by tauto)]

/-- The matrix of a classifier whose representation is `s`. -/
theorem matrix_sax (o : KnnSup) (hm : o.metric = .sax) {p : SaxParams} (hp : o.params.sax = .ok p) {s : SaxObj} (hs : o.sax = some s)
    {S d : ℕ} {W : Words} (hT : o.tsFit = some (.words S d W)) (Q : Arr3 ℝ) (hQ : Q.data ≠ []) (hd : Q.d = d) (hS : s.params.segments ≠ 0)
    (hsh : sameShape (wordsOf ppf s.params Q) W = true) :
    knnSupMatrix ppf dist o Q = ({ o with tsMetric := some .sax, sax := some ⟨s.params, some (Q.sz, Q.d)⟩ },
      .ok fun i j => cydistSax (breakpoints ppf s.params.alphabet 1) Q.sz s.params.segments Q.d ((wordsOf ppf s.params Q).getD i [])
        (W.getD j [])) := by
  unfold knnSupMatrix
  rw [hm, hT]
  simp only [Metric.elastic, if_true, hQ, if_false, TsFit.features, ne_eq, hd, not_true_eq_false]
  unfold precomputeCross
  simp only [hQ, if_false, hm, if_true]
  rw [cleaned_sax hp]
  simp only
  have h := saxPreprocess_ok (ppf := ppf) { o with tsMetric := some .sax, metric := .precomputed } p Q hQ (by simpa [hs] using hS)
  simp only [hs, Option.getD_some] at h
  simp only [hs, hT] at h ⊢
  rw [h]
  simp only [hsh, if_true, hd, Option.getD_some]

/-- A new classifier with the metric `"sax"` and no scaling answers with the symbolic distances of the queries to the training series, under
the hyper-parameters asked for, for queries and training series of the same size; and it keeps its metric. With scaling, or when the
representation was created earlier, it does not: `C75_false_shift`, `C75_false_refit`. -/
theorem C75_matrix_partial (hppf : StrictMonoOn ppf (Set.Ioo 0 1)) (o : KnnSup) (hr : o.regressor = false) (hm : o.metric = .sax)
    (hnew : o.sax = none) {p : SaxParams} (hp : o.params.sax = .ok p) (hsc : p.scale = false) (hS : 0 < p.segments)
    (X : Arr3 ℝ) (hX : X.WF) (hne : X.data ≠ []) (Q : Arr3 ℝ) (hQ : Q.WF) (hQne : Q.data ≠ []) (hd : Q.d = X.d) :
    ∃ o1, knnSupFit ppf o X = (o1, none) ∧ ∃ o2 M, knnSupMatrix ppf dist o1 Q = (o2, .ok M) ∧ o2.metric = .sax ∧ o2.tsFit = o1.tsFit ∧
      ∀ i j x y, Series Q i Q.sz x → Series X j Q.sz y → p.segments ≤ Q.sz →
        M i j = symbolicDist (breakpoints ppf p.alphabet 1) Q.sz p.segments X.d x y := by
  have hS' : (o.sax.getD ⟨p, none⟩).params.segments ≠ 0 := by rw [hnew]; exact hS.ne'
  refine ⟨_, fit_sax o hr hm hp X hne hS', _, _, matrix_sax (fittedSax ppf o p X) hm hp rfl rfl Q hQne hd hS' ?_, hm, rfl, ?_⟩
  · exact sameShape_saxRaw _ _ _ _ _ Q X hd.symm
  · intro i j x y hi hj hle
    simp only [hnew, Option.getD_none]
    unfold wordsOf
    rw [hsc]
    simp only [Bool.false_eq_true, if_false]
    rw [cydistSax_words (breakpoints_sorted hppf _ zero_le_one) hQ hX hd.symm hi hj hle, hd]

theorem gap_sq_le {bps : List ℝ} (hs : bps.Pairwise (· ≤ ·)) (u v : ℝ) : gap bps u v ^ 2 ≤ (u - v) ^ 2 := by
  rw [← saxCell_gap hs]; exact saxCell_le hs u v

/-- These distances never exceed the Euclidean distances when the segments tile the series. -/
theorem C75_lower_bound (hppf : StrictMonoOn ppf (Set.Ioo 0 1)) (A n S d : ℕ) (hn : 0 < n) (hS : S ∣ n) (x y : ℕ → ℕ → ℝ) :
    symbolicDist (breakpoints ppf A 1) n S d x y ≤ euclid n d x y := by
  obtain ⟨q, rfl⟩ := hS
  have hS0 : 0 < S := Nat.pos_of_mul_pos_right hn
  have hq0 : 0 < q := Nat.pos_of_mul_pos_left hn
  unfold symbolicDist euclid
  apply Real.sqrt_le_sqrt
  have hq : S * q / S = q := Nat.mul_div_cancel_left q hS0
  have hc : ((S * q : ℕ) : ℝ) / (S : ℝ) = q := by
    have : (S : ℝ) ≠ 0 := by exact_mod_cast hS0.ne'
    push_cast; field_simp
  rw [hq, hc, Finset.mul_sum, sum_segments]
  apply Finset.sum_le_sum
  intro s _
  rw [Finset.mul_sum, Finset.sum_comm]
  apply Finset.sum_le_sum
  intro f _
  refine le_trans ?_ (segMean_sq_le q s f hq0 x y)
  exact mul_le_mul_of_nonneg_left (gap_sq_le (breakpoints_sorted hppf _ zero_le_one) _ _) (by positivity)

/-- Word `i` only depends on series `i`. -/
theorem saxRaw_local (bps : List ℝ) (S : ℕ) (X Y : Arr3 ℝ) (hd : Y.d = X.d) {i j : ℕ} (hi : i < X.data.length) (hj : j < Y.data.length)
    (h : X.data.getD i [] = Y.data.getD j []) : (saxRaw none bps S X).getD i [] = (saxRaw none bps S Y).getD j [] := by
  have e : ∀ t f, X.entry i t f = Y.entry j t f := by intro t f; unfold Arr3.entry; rw [h]
  simp only [saxRaw, saxScale, paaToSymbols, paaRaw, Arr3.build, List.map_map, List.getD_eq_getElem?_getD, List.getElem?_map,
    List.getElem?_range, hi, hj, Option.map_some, Option.getD_some, Function.comp_apply, hd, e]
  have h' : X.data[i]?.getD [] = Y.data[j]?.getD [] := by simpa [List.getD_eq_getElem?_getD] using h
  simp only [h']

/-- Without scaling, the distances of a query do not depend on the other queries of the call (of the same padded size). -/
theorem C75_batch_partial (o : KnnSup) (hr : o.regressor = false) (hm : o.metric = .sax)
    (hnew : o.sax = none) {p : SaxParams} (hp : o.params.sax = .ok p) (hsc : p.scale = false) (hS : 0 < p.segments)
    (X : Arr3 ℝ) (hne : X.data ≠ []) (Q Q' : Arr3 ℝ) (hsz : Q'.sz = Q.sz) (hd : Q.d = X.d) (hd' : Q'.d = X.d)
    (i i' : ℕ) (hi : i < Q.data.length) (hi' : i' < Q'.data.length) (hq : Q.data.getD i [] = Q'.data.getD i' []) :
    ∃ o1, knnSupFit ppf o X = (o1, none) ∧ ∃ o2 M o2' M', knnSupMatrix ppf dist o1 Q = (o2, .ok M) ∧
      knnSupMatrix ppf dist o1 Q' = (o2', .ok M') ∧ ∀ j, M i j = M' i' j := by
  have hS' : (o.sax.getD ⟨p, none⟩).params.segments ≠ 0 := by rw [hnew]; exact hS.ne'
  have hQ : Q.data ≠ [] := by intro h; rw [h] at hi; simp at hi
  have hQ' : Q'.data ≠ [] := by intro h; rw [h] at hi'; simp at hi'
  refine ⟨_, fit_sax o hr hm hp X hne hS', _, _, _, _,
    matrix_sax (fittedSax ppf o p X) hm hp rfl rfl Q hQ hd hS' (sameShape_saxRaw _ _ _ _ _ Q X hd.symm),
    matrix_sax (fittedSax ppf o p X) hm hp rfl rfl Q' hQ' hd' hS' (sameShape_saxRaw _ _ _ _ _ Q' X hd'.symm), ?_⟩
  intro j
  simp only [hnew, Option.getD_none, wordsOf, hsc, Bool.false_eq_true, if_false, hsz, hd, hd']
  rw [saxRaw_local _ _ Q Q' (by rw [hd, hd']) hi hi' hq]

/-- Two datasets of the same shape, the second moved by `c f` in feature `f`. -/
def Shifted (c : ℕ → ℝ) (Q Q' : Arr3 ℝ) : Prop :=
  Q'.data.length = Q.data.length ∧ Q'.sz = Q.sz ∧ Q'.d = Q.d ∧ ∀ i t f, Q'.entry i t f = (Q.entry i t f).map (· + c f)

theorem group_shift {c : ℕ → ℝ} {Q Q' : Arr3 ℝ} (h : Shifted c Q Q') (f : ℕ) :
    Q'.group false true 0 f = (Q.group false true 0 f).map (· + c f) := by
  obtain ⟨h1, h2, h3, h4⟩ := h
  unfold Arr3.group
  rw [h1, h2, h3, List.map_flatMap]
  refine List.flatMap_congr fun i _ => ?_
  simp only [Bool.false_eq_true, false_and, if_false, true_and]
  rw [List.map_flatMap]
  refine List.flatMap_congr fun t _ => ?_
  rw [List.map_filterMap]
  congr 1
  funext f'
  by_cases hf : f' = f
  · subst hf; simp [h4]
  · simp [hf]

theorem sum_shift (g : List ℝ) (c : ℝ) : (g.map (· + c)).sum = g.sum + g.length * c := by
  induction g with
  | nil => simp
  | cons a g ih => simp only [List.map_cons, List.sum_cons, ih, List.length_cons]; push_cast; ring

theorem nanMean_shift (g : List ℝ) (c : ℝ) : nanMean (g.map (· + c)) = (nanMean g).map (· + c) := by
  unfold nanMean
  rcases eq_or_ne g [] with rfl | hg
  · simp
  · have : (g.length : ℝ) ≠ 0 := by exact_mod_cast (fun h => hg (List.length_eq_zero_iff.1 h))
    rw [if_neg (by simpa using hg), if_neg hg, sum_shift, List.length_map, Option.map_some]
    congr 1
    field_simp

theorem nanStd_shift (g : List ℝ) (c : ℝ) : nanStd (g.map (· + c)) = nanStd g := by
  unfold nanStd
  rw [nanMean_shift, Option.map_map]
  congr 1
  funext m
  simp only [Function.comp_apply, List.map_map, List.length_map]
  congr 3
  apply List.map_congr_left
  intro x _
  simp only [Function.comp_apply]
  ring

theorem fitScaling_shift {c : ℕ → ℝ} {Q Q' : Arr3 ℝ} (h : Shifted c Q Q') (f : ℕ) :
    fitScaling Q' f = ((fitScaling Q f).1.map (· + c f), (fitScaling Q f).2) := by
  unfold fitScaling
  simp only [group_shift h f, nanMean_shift, nanStd_shift]

theorem saxScale_shift {c : ℕ → ℝ} {Q Q' : Arr3 ℝ} (h : Shifted c Q Q') :
    saxScale (some (fitScaling Q')) Q' = saxScale (some (fitScaling Q)) Q := by
  unfold saxScale
  simp only
  rw [h.1, h.2.1, h.2.2.1]
  congr 1
  funext i t f
  rw [h.2.2.2, fitScaling_shift h]
  simp only
  cases Q.entry i t f with
  | none => rfl
  | some x =>
    simp only [Option.map_some, Option.bind_some]
    cases (fitScaling Q f).1 with
    | none => rfl
    | some mu =>
      simp only [Option.map_some, Option.bind_some]
      congr 1
      funext s
      ring_nf

/-- With scaling, the queries of a call are standardised with their own mean and standard deviation, not with those of the training series:
moving all of them by any constant leaves every distance to the training series unchanged. -/
theorem C75_false_shift (o : KnnSup) (hr : o.regressor = false) (hm : o.metric = .sax)
    (hnew : o.sax = none) {p : SaxParams} (hp : o.params.sax = .ok p) (hsc : p.scale = true) (hS : 0 < p.segments)
    (X : Arr3 ℝ) (hne : X.data ≠ []) (Q Q' : Arr3 ℝ) (c : ℕ → ℝ) (hQ : Q.data ≠ []) (hQ' : Shifted c Q Q') (hd : Q.d = X.d) :
    ∃ o1, knnSupFit ppf o X = (o1, none) ∧ ∃ o2 o2' M, knnSupMatrix ppf dist o1 Q = (o2, .ok M) ∧
      knnSupMatrix ppf dist o1 Q' = (o2', .ok M) := by
  have hS' : (o.sax.getD ⟨p, none⟩).params.segments ≠ 0 := by rw [hnew]; exact hS.ne'
  have hq : Q'.data ≠ [] := by
    intro h
    apply hQ
    rw [← List.length_eq_zero_iff, ← hQ'.1, h]; rfl
  have hd' : Q'.d = X.d := hQ'.2.2.1.trans hd
  have h1 := matrix_sax (ppf := ppf) (dist := dist) (fittedSax ppf o p X) hm hp rfl rfl Q hQ hd hS' (sameShape_saxRaw _ _ _ _ _ Q X hd.symm)
  have h2 := matrix_sax (ppf := ppf) (dist := dist) (fittedSax ppf o p X) hm hp rfl rfl Q' hq hd' hS' (sameShape_saxRaw _ _ _ _ _ Q' X hd'.symm)
  simp only [hnew, Option.getD_none, wordsOf, hsc, if_true, saxRaw, saxScale_shift hQ', hQ'.2.1, hQ'.2.2.1] at h1 h2
  exact ⟨_, fit_sax o hr hm hp X hne hS', _, _, _, h1, h2⟩

theorem saxRaw_word_scaled {bps : List ℝ} {X : Arr3 ℝ} {m : Scaling ℝ} {mu sd : ℕ → ℝ} (hm : ∀ f < X.d, m f = (some (mu f), some (sd f)))
    {S n i s f : ℕ} {x : ℕ → ℕ → ℝ} (hX : X.WF) (hi : Series X i n x) (hS : S ≤ n) (hs : s < S) (hf : f < X.d) :
    wordAt ((saxRaw (some m) bps S X).getD i []) s f =
      paaToSymbol bps (some (segMean (n / S) s f fun t f => (x t f - mu f) / sd f)) := by
  have h := saxRaw_word (bps := bps) (saxScale_wf hX (some m)) (hi.scale hm) hS hs hf
  exact h

/-- Two series of one sample, 0 and 10. -/
def twoPoints : Arr3 ℝ := ⟨1, 1, [[[some 0]], [[some 10]]]⟩

theorem twoPoints_wf : twoPoints.WF := by
  intro s hs
  simp only [twoPoints, List.mem_cons, List.not_mem_nil, or_false] at hs
  rcases hs with rfl | rfl <;> exact ⟨rfl, by intro r hr; simp at hr; subst hr; rfl⟩

theorem twoPoints_series : Series twoPoints 0 1 fun _ _ => 0 := by
  refine ⟨by simp [twoPoints], le_refl _, ?_, ?_⟩
  · intro t ht f hf
    obtain rfl : t = 0 := by omega
    obtain rfl : f = 0 := by simp only [twoPoints] at hf; omega
    rfl
  · intro t ht f
    exact entry_outside twoPoints_wf (by simp only [twoPoints]; omega)

/-- The first one alone. -/
def onePoint : Arr3 ℝ := ⟨1, 1, [[[some 0]]]⟩

theorem onePoint_wf : onePoint.WF := by
  intro s hs
  simp only [onePoint, List.mem_cons, List.not_mem_nil, or_false] at hs
  subst hs; exact ⟨rfl, by intro r hr; simp at hr; subst hr; rfl⟩

theorem onePoint_series : Series onePoint 0 1 fun _ _ => 0 := by
  refine ⟨by simp [onePoint], le_refl _, ?_, ?_⟩
  · intro t ht f hf
    obtain rfl : t = 0 := by omega
    obtain rfl : f = 0 := by simp only [onePoint] at hf; omega
    rfl
  · intro t ht f
    exact entry_outside onePoint_wf (by simp only [onePoint]; omega)

theorem twoPoints_scaling : ∀ f < twoPoints.d, fitScaling twoPoints f = (some ((fun _ => (5 : ℝ)) f), some ((fun _ => (5 : ℝ)) f)) := by
  intro f hf
  obtain rfl : f = 0 := by simp only [twoPoints] at hf; omega
  have hg : twoPoints.group false true 0 0 = [0, 10] := rfl
  have hs : Real.sqrt 25 = 5 := by rw [show (25 : ℝ) = 5 ^ 2 by norm_num]; exact Real.sqrt_sq (by norm_num)
  unfold fitScaling
  have hm : nanMean [0, 10] = some 5 := by unfold nanMean; rw [if_neg (by simp)]; norm_num
  have hd : nanStd [0, 10] = some 5 := by
    unfold nanStd
    rw [hm, Option.map_some]
    rw [show ((([0, 10] : List ℝ).map fun x => (x - 5) ^ 2).sum / (([0, 10] : List ℝ).length : ℝ)) = 25 by norm_num, hs]
  simp only [hg, hm, hd, Option.map_some]
  norm_num

theorem onePoint_scaling : ∀ f < onePoint.d, fitScaling onePoint f = (some ((fun _ => (0 : ℝ)) f), some ((fun _ => (1 : ℝ)) f)) := by
  intro f hf
  obtain rfl : f = 0 := by simp only [onePoint] at hf; omega
  have hg : onePoint.group false true 0 0 = [0] := rfl
  unfold fitScaling
  simp only [hg, nanStd, nanMean]
  norm_num

/-- A linear function in place of the Gaussian quantiles. -/
noncomputable def linPpf : ℝ → ℝ := fun p => 10 * p - 5

theorem linPpf_mono : StrictMonoOn linPpf (Set.Ioo 0 1) := by
  intro a _ b _ h; simp only [linPpf]; linarith

theorem lin_symbol (x : ℝ) (k : ℕ) (hk : k ≤ 19) (h1 : (k : ℝ) / 2 - 5 ≤ x) (h2 : x < ((k : ℝ) + 1) / 2 - 5) :
    paaToSymbol (breakpoints linPpf 20 1) (some x) = k := by
  apply paaToSymbol_unique
  · rw [breakpoints_length]; exact hk
  · intro j hj
    rw [breakpoints_getD _ _ _ (by omega)]
    have : ((j : ℝ) + 1) ≤ k := by exact_mod_cast hj
    simp only [linPpf]; push_cast; linarith
  · intro h
    rw [breakpoints_length] at h
    rw [breakpoints_getD _ _ _ (by omega)]
    simp only [linPpf]; push_cast; linarith

/-- So a series of the training data, used as a query, may be at a positive distance of itself. -/
theorem C75_false_own : ¬ ∀ (ppf : ℝ → ℝ) (dist : DistFun) (p : KnnParams) (X Q : Arr3 ℝ) (j : ℕ) (o1 o2 : KnnSup) (M : ℕ → ℕ → ℝ),
    StrictMonoOn ppf (Set.Ioo 0 1) → X.WF → j < X.data.length → Q = ⟨X.sz, X.d, [X.data.getD j []]⟩ →
    knnSupFit ppf { regressor := false, metric := .sax, params := p } X = (o1, none) → knnSupMatrix ppf dist o1 Q = (o2, .ok M) →
    M 0 j = 0 := by
  intro h
  have hf := fit_sax (ppf := linPpf) { regressor := false, metric := .sax, params := { segments := some 1, alphabet := some 20, scale := some true } }
    rfl rfl (p := ⟨1, 20, true⟩) rfl twoPoints (by simp [twoPoints]) (by decide)
  have hM := matrix_sax (ppf := linPpf) (dist := fun _ _ _ _ _ => 0)
    (fittedSax linPpf { regressor := false, metric := .sax, params := { segments := some 1, alphabet := some 20, scale := some true } }
      ⟨1, 20, true⟩ twoPoints) rfl (p := ⟨1, 20, true⟩) rfl rfl rfl onePoint (by simp [onePoint]) rfl (by decide)
    (sameShape_saxRaw _ _ _ _ _ onePoint twoPoints rfl)
  have h0 := h linPpf _ _ twoPoints onePoint 0 _ _ _ linPpf_mono twoPoints_wf (by simp [twoPoints]) rfl hf hM
  simp only [Option.getD_none, wordsOf, if_true] at h0
  unfold cydistSax at h0
  have e1 := saxRaw_word_scaled (bps := breakpoints linPpf 20 1) onePoint_scaling onePoint_wf onePoint_series (le_refl 1) Nat.zero_lt_one
    (by decide : 0 < onePoint.d)
  have e2 := saxRaw_word_scaled (bps := breakpoints linPpf 20 1) twoPoints_scaling twoPoints_wf twoPoints_series (le_refl 1) Nat.zero_lt_one
    (by decide : 0 < twoPoints.d)
  rw [lin_symbol _ 10 (by omega) (by norm_num [segMean]) (by norm_num [segMean])] at e1
  rw [lin_symbol _ 8 (by omega) (by norm_num [segMean]) (by norm_num [segMean])] at e2
  have hd : onePoint.d = 1 := rfl
  have hsz : onePoint.sz = 1 := rfl
  simp only [hd, hsz, List.range_one, List.map_cons, List.map_nil, List.sum_cons, List.sum_nil, e1, e2] at h0
  rw [saxCell_comm] at h0
  unfold saxCell at h0
  rw [if_pos (by omega), breakpoints_getD _ _ _ (by decide), breakpoints_getD _ _ _ (by decide)] at h0
  have := Real.sqrt_ne_zero'.2 (show (0 : ℝ) < ((1 * linPpf (((max 8 10 - 1 + 1 : ℕ) : ℝ) / (20 : ℕ)) -
    1 * linPpf (((min 8 10 + 1 : ℕ) : ℝ) / (20 : ℕ))) ^ 2 + 0 + 0) * ((1 : ℕ) : ℝ) / ((1 : ℕ) : ℝ) by
      simp only [linPpf]; norm_num)
  exact this h0

/-- Changing `metric_params` after a fit has no effect: the next fit represents the series as the first one did. -/
theorem C75_false_refit (o : KnnSup) (hr : o.regressor = false) (hm : o.metric = .sax) {s : SaxObj} (hs : o.sax = some s)
    (hS : s.params.segments ≠ 0) (q : KnnParams) {p p' : SaxParams} (hp : o.params.sax = .ok p) (hq : q.sax = .ok p') (X : Arr3 ℝ) (hX : X.data ≠ []) :
    ∃ o1 o2, knnSupFit ppf o X = (o1, none) ∧ knnSupFit ppf { o with params := q } X = (o2, none) ∧ o2.tsFit = o1.tsFit ∧
      o2.sax = o1.sax ∧ o2.sax.map SaxObj.params = some s.params := by
  have e : ∀ p, (o.sax.getD ⟨p, none⟩) = s := by intro p; rw [hs]; rfl
  refine ⟨_, _, fit_sax o hr hm hp X hX (by rw [e]; exact hS),
    fit_sax { o with params := q } hr hm hq X hX (by simpa [e] using hS), ?_, ?_, ?_⟩
  all_goals simp only [fittedSax, e, Option.map_some]

/-- The regressor accepts the metric `"sax"`, keeps the training series as they are, and then fails on every query: it compares the symbols
of the queries with the values of the training series. -/
theorem C75_false_regressor (o : KnnSup) (hr : o.regressor = true) (hm : o.metric = .sax) {p : SaxParams} (hp : o.params.sax = .ok p)
    (X : Arr3 ℝ) (hX : X.data ≠ []) :
    ∃ o1, knnSupFit ppf o X = (o1, none) ∧ o1.tsFit = some (.series X) ∧
      ∀ Q : Arr3 ℝ, ∃ o2 e, knnSupMatrix ppf dist o1 Q = (o2, .error e) ∧
        (Q.data ≠ [] → Q.d = X.d → (o.sax.getD ⟨p, none⟩).params.segments ≠ 0 → e = .typeError ∧ o2.metric = .precomputed) := by
  refine ⟨{ o with tsMetric := some .sax, tsFit := some (.series X), xFit := some (X.data.length, X.d) }, ?_, rfl, ?_⟩
  · unfold knnSupFit
    rw [hm]
    simp only [Metric.elastic, if_true, hX, if_false, hr, Bool.true_eq_false, and_false]
  · intro Q
    unfold knnSupMatrix
    simp only [hm, Metric.elastic, if_true, TsFit.features]
    by_cases hQ : Q.data = []
    · exact ⟨_, _, by rw [if_pos hQ], fun h => absurd hQ h⟩
    rw [if_neg hQ]
    by_cases hd : Q.d ≠ X.d
    · exact ⟨_, _, by rw [if_pos hd], fun _ h => absurd h hd⟩
    rw [if_neg hd]
    unfold precomputeCross
    simp only [hQ, if_false, if_true]
    rw [cleaned_sax hp]
    simp only
    unfold saxPreprocess saxFitTransform
    simp only [hQ, if_false]
    by_cases hS : (o.sax.getD ⟨p, none⟩).params.segments = 0
    · simp only [hS, if_true]
      exact ⟨_, _, rfl, fun _ _ h => absurd rfl h⟩
    · simp only [hS, if_false]
      exact ⟨_, _, rfl, fun _ _ _ => ⟨rfl, rfl⟩⟩

/-- Keys `n_jobs` and `verbose` of `metric_params` are documented as overridden, and are for the other metrics; with `"sax"` they make `fit`
fail, and the estimator is left without its metric. -/
theorem C75_false_n_jobs (o : KnnSup) (hr : o.regressor = false) (hm : o.metric = .sax) (hp : o.params.nJobs = true ∨ o.params.verbose = true)
    (X : Arr3 ℝ) (hX : X.data ≠ []) : ∃ o1, knnSupFit ppf o X = (o1, some .typeError) ∧ o1.metric = .precomputed := by
  have : o.params.sax = .error .typeError := by unfold KnnParams.sax; rw [if_pos (by tauto)]
  unfold knnSupFit
  rw [hm]
  simp only [Metric.elastic, if_true, hX, if_false, hr, and_self, this]
  exact ⟨_, rfl, rfl⟩

/-- With the other metrics both estimators compare queries with the training series, as often as they are asked. -/
theorem C75_other_metrics (o : KnnSup) (m : Metric) (hm : o.metric = m) (h4 : m = .dtw ∨ m = .ctw ∨ m = .softdtw ∨ m = .frechet)
    (X : Arr3 ℝ) (hX : X.data ≠ []) :
    ∃ o1, knnSupFit ppf o X = (o1, none) ∧ o1.metric = m ∧ ∀ Q : Arr3 ℝ, Q.data ≠ [] → Q.d = X.d →
      knnSupMatrix ppf dist o1 Q = (o1, .ok (dist m Q X)) := by
  have hne : m ≠ .sax := by rcases h4 with h | h | h | h <;> rw [h] <;> decide
  have hel : m.elastic = true := by rcases h4 with h | h | h | h <;> rw [h] <;> rfl
  refine ⟨{ o with tsMetric := some m, tsFit := some (.series X), xFit := some (X.data.length, X.d) }, ?_, hm, ?_⟩
  · unfold knnSupFit
    simp only [hm, hel, if_true, hX, if_false, hne, false_and]
  · intro Q hQ hd
    unfold knnSupMatrix
    simp only [hm, hel, if_true, TsFit.features, hQ, if_false, hd, ne_eq, not_true_eq_false]
    unfold precomputeCross
    simp only [hQ, if_false, if_neg hne, if_pos h4, TsFit.toSeries, Option.getD_some]

/-- `kneighbors(Q)` gives `k` (or all) of the training series, nearest first, with their distances. -/
theorem C75_kneighbors {sel : Selector ℝ} (hsel : sel.Valid) (k : ℕ) (hk : 0 < k) (o : KnnSup) (m : Metric) (hm : o.metric = m)
    (h4 : m = .dtw ∨ m = .ctw ∨ m = .softdtw ∨ m = .frechet) (X : Arr3 ℝ) (hX : X.data ≠ []) :
    ∃ o1, knnSupFit ppf o X = (o1, none) ∧ ∀ Q : Arr3 ℝ, Q.data ≠ [] →
      ∃ R, knnSupKneighbors ppf dist sel k o1 (some Q) = (o1, .ok R) ∧
        ∀ i, KNearest (dist m Q X i) X.data.length (min k X.data.length) (fun _ => True) (R i).1 ∧ (R i).2 = (R i).1.map (dist m Q X i) := by
  have hne : m ≠ .sax := by rcases h4 with h | h | h | h <;> rw [h] <;> decide
  have hel : m.elastic = true := by rcases h4 with h | h | h | h <;> rw [h] <;> rfl
  refine ⟨{ o with tsMetric := some m, tsFit := some (.series X), xFit := some (X.data.length, X.d) }, ?_, ?_⟩
  · unfold knnSupFit
    simp only [hm, hel, if_true, hX, if_false, hne, false_and]
  · intro Q hQ
    refine ⟨fun i => (knnRow sel (dist m Q X i) X.data.length k false, knnDist sel (dist m Q X i) X.data.length k false), ?_, ?_⟩
    · unfold knnSupKneighbors knnSupCross precomputeCross
      simp only [hm, hel, if_true, hQ, if_false, if_neg hne, if_pos h4, TsFit.toSeries, Option.getD_some, Option.isNone_some, Option.map_some, TsFit.count]
    · intro i
      exact ⟨C39_partial hsel _ _ _ hk (List.length_pos_iff.2 hX), rfl⟩

/-- `predict` before `fit` raises `NotFittedError`; queries need series, with as many features as the training series. -/
theorem C75_refused (o : KnnSup) (hm : o.metric.elastic = true) (Q : Arr3 ℝ) :
    (o.tsFit = none → (knnSupMatrix ppf dist o Q).2 = .error .notFitted) ∧
    (∀ T, o.tsFit = some T → Q.data = [] ∨ Q.d ≠ T.features → knnSupMatrix ppf dist o Q = (o, .error .valueError)) := by
  unfold knnSupMatrix
  simp only [hm, if_true]
  constructor
  · intro h; rw [h]
  · intro T hT h
    rw [hT]
    simp only
    split_ifs with h1 h2
    · rfl
    · rfl
    · tauto

/-- Without `metric_params` words have ten segments, four symbols and the series are not standardised; for queries (not for training), `n_jobs` and
`verbose` do not matter. -/
theorem C75_defaults : ({} : KnnParams).sax = .ok ⟨10, 4, false⟩ ∧
    (∀ p : KnnParams, p.gamma = false → p.cleaned.sax = .ok ⟨p.segments.getD 10, p.alphabet.getD 4, p.scale.getD false⟩) ∧
    (∀ p : KnnParams, p.gamma = true → p.cleaned.sax = .error .typeError) := by
  refine ⟨rfl, ?_, ?_⟩
  · intro p hp
    unfold KnnParams.sax KnnParams.cleaned
    rw [if_neg (by simp [hp])]
  · intro p hp
    unfold KnnParams.sax KnnParams.cleaned
    rw [if_pos (by simp [hp])]

/-- `kneighbors()` without a query does not look at the training series: two classifiers or regressors trained on as many series of as many
features give the same answer. -/
theorem C75_false_self (sel : Selector ℝ) (k : ℕ) (o : KnnSup) (m : Metric) (hm : o.metric = m)
    (h4 : m = .dtw ∨ m = .ctw ∨ m = .softdtw ∨ m = .frechet) (X X' : Arr3 ℝ) (hX : X.data ≠ []) (hl : X'.data.length = X.data.length)
    (hd : X'.d = X.d) :
    ∃ o1 o1', knnSupFit ppf o X = (o1, none) ∧ knnSupFit ppf o X' = (o1', none) ∧
      (knnSupKneighbors ppf dist sel k o1 none).2 = (knnSupKneighbors ppf dist sel k o1' none).2 := by
  have hne : m ≠ .sax := by rcases h4 with h | h | h | h <;> rw [h] <;> decide
  have hel : m.elastic = true := by rcases h4 with h | h | h | h <;> rw [h] <;> rfl
  have hX' : X'.data ≠ [] := by
    intro h
    apply hX
    rw [← List.length_eq_zero_iff, ← hl, h]; rfl
  have fitEq : ∀ X : Arr3 ℝ, X.data ≠ [] → knnSupFit ppf o X =
      ({ o with tsMetric := some m, tsFit := some (.series X), xFit := some (X.data.length, X.d) }, none) := by
    intro X hX
    unfold knnSupFit
    simp only [hm, hel, if_true, hX, if_false, hne, false_and]
  refine ⟨_, _, fitEq X hX, fitEq X' hX', ?_⟩
  unfold knnSupKneighbors knnSupCross precomputeCross
  simp only [hm, hel, if_true, hl, hd, if_neg hne, if_pos h4]
  split_ifs <;> rfl

/-- Every distance it reports is zero, when the metric gives zero to two series of zeros (and the number of features divides that of series:
otherwise it fails). -/
theorem C75_false_self_zero (sel : Selector ℝ) (k : ℕ) (o : KnnSup) (m : Metric) (hm : o.metric = m)
    (h4 : m = .dtw ∨ m = .ctw ∨ m = .softdtw ∨ m = .frechet) (X : Arr3 ℝ) (hX : X.data ≠ []) :
    ∃ o1, knnSupFit ppf o X = (o1, none) ∧
      (¬ X.d ∣ X.data.length → (knnSupKneighbors ppf dist sel k o1 none).2 = .error .valueError) ∧
      (X.d ∣ X.data.length → (∀ i j, dist m (zeroSeries X.data.length X.d) (zeroSeries X.data.length X.d) i j = 0) →
        ∃ R, (knnSupKneighbors ppf dist sel k o1 none).2 = .ok R ∧ ∀ i, ∀ v ∈ (R i).2, v = 0) := by
  have hne : m ≠ .sax := by rcases h4 with h | h | h | h <;> rw [h] <;> decide
  have hel : m.elastic = true := by rcases h4 with h | h | h | h <;> rw [h] <;> rfl
  have hpos : 0 < X.data.length := List.length_pos_iff.2 hX
  have hmod : X.data.length * X.data.length % (X.data.length * X.d) = 0 ↔ X.d ∣ X.data.length := by
    rw [Nat.mul_mod_mul_left, Nat.mul_eq_zero, or_iff_right hpos.ne', Nat.dvd_iff_mod_eq_zero]
  refine ⟨{ o with tsMetric := some m, tsFit := some (.series X), xFit := some (X.data.length, X.d) }, ?_, ?_, ?_⟩
  · unfold knnSupFit
    simp only [hm, hel, if_true, hX, if_false, hne, false_and]
  · intro h
    unfold knnSupKneighbors knnSupCross
    simp only [hm, hel, if_true, ne_eq, hmod, h, not_false_eq_true]
  · intro h hz
    have hzne : (zeroSeries X.data.length X.d).data ≠ [] := by
      intro e
      have := Arr3.build_length X.data.length (X.data.length / X.d) X.d fun _ _ _ => some (0 : ℝ)
      rw [show Arr3.build X.data.length (X.data.length / X.d) X.d (fun _ _ _ => some (0 : ℝ)) = zeroSeries X.data.length X.d from rfl, e] at this
      simp at this; omega
    unfold knnSupKneighbors knnSupCross precomputeCross
    simp only [hm, hel, if_true, ne_eq, hmod, h, not_true_eq_false, if_false, hzne, if_neg hne, if_pos h4]
    refine ⟨_, rfl, ?_⟩
    intro i v hv
    simp only [knnDist, List.mem_map, TsFit.toSeries] at hv
    obtain ⟨j, -, rfl⟩ := hv
    exact hz i j

/-! Examples -/

/-- A new classifier with one segment and twenty symbols. -/
def exSax (scale : Bool) : KnnSup :=
  { regressor := false, metric := .sax, params := { segments := some 1, alphabet := some 20, scale := some scale } }

example : ∃ o1, knnSupFit linPpf (exSax false) twoPoints = (o1, none) ∧ ∃ o2 M, knnSupMatrix linPpf dist o1 onePoint = (o2, .ok M) ∧
    M 0 0 = symbolicDist (breakpoints linPpf 20 1) 1 1 1 (fun _ _ => 0) (fun _ _ => 0) := by
  obtain ⟨o1, h1, o2, M, h2, -, -, h3⟩ := C75_matrix_partial (dist := dist) linPpf_mono (exSax false) rfl rfl rfl (p := ⟨1, 20, false⟩) rfl rfl
    Nat.one_pos twoPoints twoPoints_wf (by simp [twoPoints]) onePoint onePoint_wf (by simp [onePoint]) rfl
  exact ⟨o1, h1, o2, M, h2, h3 0 0 _ _ onePoint_series twoPoints_series (le_refl 1)⟩

example : symbolicDist (breakpoints linPpf 20 1) 6 3 2 (fun t _ => t) (fun _ f => f) ≤ euclid 6 2 (fun t _ => t) (fun _ f => f) :=
  C75_lower_bound linPpf_mono 20 6 3 2 (by omega) (by decide) _ _

/-- The query 0 alone, or along with 10. -/
example : ∃ o1, knnSupFit linPpf (exSax false) twoPoints = (o1, none) ∧ ∃ o2 M o2' M', knnSupMatrix linPpf dist o1 onePoint = (o2, .ok M) ∧
    knnSupMatrix linPpf dist o1 twoPoints = (o2', .ok M') ∧ ∀ j, M 0 j = M' 0 j :=
  C75_batch_partial (exSax false) rfl rfl rfl (p := ⟨1, 20, false⟩) rfl rfl Nat.one_pos twoPoints (by simp [twoPoints]) onePoint twoPoints rfl rfl rfl
    0 0 (by simp [onePoint]) (by simp [twoPoints]) rfl

/-- With scaling, the queries 0 and 1000 are the same. -/
example : ∃ o1, knnSupFit linPpf (exSax true) twoPoints = (o1, none) ∧ ∃ o2 o2' M, knnSupMatrix linPpf dist o1 onePoint = (o2, .ok M) ∧
    knnSupMatrix linPpf dist o1 ⟨1, 1, [[[some 1000]]]⟩ = (o2', .ok M) := by
  refine C75_false_shift (exSax true) rfl rfl rfl (p := ⟨1, 20, true⟩) rfl rfl Nat.one_pos twoPoints (by simp [twoPoints]) onePoint _
    (fun _ => 1000) (by simp [onePoint]) ⟨rfl, rfl, rfl, ?_⟩ rfl
  intro i t f
  rcases i with _ | i <;> rcases t with _ | t <;> rcases f with _ | f <;> simp [Arr3.entry, onePoint]

/-- Asked for two segments after a fit with one, the classifier goes on with one. -/
example : ∃ o1 o2, knnSupFit linPpf (fittedSax linPpf (exSax false) ⟨1, 20, false⟩ twoPoints) twoPoints = (o1, none) ∧
    knnSupFit linPpf { fittedSax linPpf (exSax false) ⟨1, 20, false⟩ twoPoints with params := { segments := some 2, alphabet := some 4 } } twoPoints =
      (o2, none) ∧ o2.tsFit = o1.tsFit ∧ o2.sax = o1.sax ∧ o2.sax.map SaxObj.params = some ⟨1, 20, false⟩ :=
  C75_false_refit (fittedSax linPpf (exSax false) ⟨1, 20, false⟩ twoPoints) rfl rfl rfl (by decide) _ (p := ⟨1, 20, false⟩) (p' := ⟨2, 4, false⟩)
    rfl rfl twoPoints (by simp [twoPoints])

example : ∃ o1, knnSupFit linPpf { exSax false with regressor := true } twoPoints = (o1, none) ∧
    ∃ o2, knnSupMatrix linPpf dist o1 onePoint = (o2, .error .typeError) := by
  obtain ⟨o1, h1, -, h2⟩ := C75_false_regressor (ppf := linPpf) (dist := dist) { exSax false with regressor := true } rfl rfl (p := ⟨1, 20, false⟩) rfl
    twoPoints (by simp [twoPoints])
  obtain ⟨o2, e, h3, h4⟩ := h2 onePoint
  obtain ⟨rfl, -⟩ := h4 (by simp [onePoint]) rfl (by decide)
  exact ⟨o1, h1, o2, h3⟩

example : ∃ o1, knnSupFit linPpf { regressor := false, metric := .sax, params := { nJobs := true } } twoPoints = (o1, some .typeError) ∧
    o1.metric = .precomputed := C75_false_n_jobs _ rfl rfl (.inl rfl) _ (by simp [twoPoints])

example : ∃ o1, knnSupFit linPpf { regressor := true, metric := .dtw, params := { nJobs := true } } twoPoints = (o1, none) ∧ o1.metric = .dtw ∧
    ∀ Q : Arr3 ℝ, Q.data ≠ [] → Q.d = twoPoints.d → knnSupMatrix linPpf dist o1 Q = (o1, .ok (dist .dtw Q twoPoints)) :=
  C75_other_metrics _ _ rfl (.inl rfl) _ (by simp [twoPoints])

/-- The neighbours of 0 and 10 are those of 3 and 3. -/
example (sel : Selector ℝ) : ∃ o1 o1', knnSupFit linPpf { regressor := false, metric := .dtw, params := {} } twoPoints = (o1, none) ∧
    knnSupFit linPpf { regressor := false, metric := .dtw, params := {} } ⟨1, 1, [[[some 3]], [[some 3]]]⟩ = (o1', none) ∧
    (knnSupKneighbors linPpf dist sel 1 o1 none).2 = (knnSupKneighbors linPpf dist sel 1 o1' none).2 :=
  C75_false_self sel 1 _ _ rfl (.inl rfl) twoPoints _ (by simp [twoPoints]) rfl rfl

/-- The distance of 0 and 10 is reported as 0. -/
example (sel : Selector ℝ) : ∃ o1, knnSupFit linPpf { regressor := false, metric := .dtw, params := {} } twoPoints = (o1, none) ∧
    ∃ R, (knnSupKneighbors linPpf (fun _ Q X i j => |(Q.entry i 0 0).getD 0 - (X.entry j 0 0).getD 0|) sel 1 o1 none).2 = .ok R ∧
      ∀ i, ∀ v ∈ (R i).2, v = 0 := by
  obtain ⟨o1, h1, -, h2⟩ := C75_false_self_zero (ppf := linPpf) (dist := fun _ Q X i j => |(Q.entry i 0 0).getD 0 - (X.entry j 0 0).getD 0|) sel 1
    { regressor := false, metric := .dtw, params := {} } .dtw rfl (.inl rfl) twoPoints (by simp [twoPoints])
  refine ⟨o1, h1, h2 (by simp [twoPoints]) ?_⟩
  have h0 : ∀ i, ((zeroSeries twoPoints.data.length twoPoints.d).entry i 0 0).getD 0 = 0 := by
    intro i
    rcases i with _ | _ | i <;> simp [zeroSeries, twoPoints, Arr3.entry, Arr3.build]
  intro i j
  simp only [h0, sub_self, abs_zero]

/-- Changing `metric` after a fit with `"sax"` keeps the words: queries are compared, as series, with the numbers of the symbols of the
training series. -/
theorem C75_false_set_metric (o : KnnSup) (hr : o.regressor = false) (hm : o.metric = .sax) (hnew : o.sax = none) {p : SaxParams}
    (hp : o.params.sax = .ok p) (hS : 0 < p.segments) (X : Arr3 ℝ) (hX : X.data ≠ []) (m : Metric)
    (h4 : m = .dtw ∨ m = .ctw ∨ m = .softdtw ∨ m = .frechet) (Q : Arr3 ℝ) (hQ : Q.data ≠ []) (hd : Q.d = X.d) :
    ∃ (o1 : KnnSup) (W : Words), knnSupFit ppf o X = (o1, none) ∧ (saxFitTransform ppf ⟨p, none⟩ X).2 = .ok W ∧
      (knnSupMatrix ppf dist { o1 with metric := m } Q).2 =
        .ok (dist m Q ⟨p.segments, X.d, W.map (List.map (List.map fun c : ℕ => some (c : ℝ)))⟩) := by
  have hne : m ≠ .sax := by rcases h4 with h | h | h | h <;> rw [h] <;> decide
  have hel : m.elastic = true := by rcases h4 with h | h | h | h <;> rw [h] <;> rfl
  refine ⟨_, saxRaw (if p.scale then some (fitScaling X) else none) (breakpoints ppf p.alphabet 1) p.segments X, fit_sax o hr hm hp X hX (by rw [hnew]; exact hS.ne'), ?_, ?_⟩
  · simp only [saxFitTransform, hX, if_false, hS.ne']
  · unfold knnSupMatrix
    simp only [fittedSax, hel, if_true, TsFit.features, hQ, if_false, hd, ne_eq, not_true_eq_false]
    unfold precomputeCross
    simp only [hQ, if_false, if_neg hne, if_pos h4, TsFit.toSeries, hnew, Option.getD_none]
    rfl

example : ∃ (o1 : KnnSup) (W : Words), knnSupFit linPpf (exSax false) twoPoints = (o1, none) ∧ (saxFitTransform linPpf ⟨⟨1, 20, false⟩, none⟩ twoPoints).2 = .ok W ∧
    (knnSupMatrix linPpf dist { o1 with metric := .dtw } onePoint).2 =
      .ok (dist .dtw onePoint ⟨1, 1, W.map (List.map (List.map fun c : ℕ => some (c : ℝ)))⟩) :=
  C75_false_set_metric (exSax false) rfl rfl rfl (p := ⟨1, 20, false⟩) rfl Nat.one_pos twoPoints (by simp [twoPoints]) .dtw (.inl rfl) onePoint
    (by simp [onePoint]) rfl

/-- Five neighbours asked for, two series. -/
example : ∃ o1, knnSupFit linPpf { regressor := true, metric := .dtw, params := {} } twoPoints = (o1, none) ∧ ∀ Q : Arr3 ℝ, Q.data ≠ [] →
    ∃ R, knnSupKneighbors linPpf dist numpySel 5 o1 (some Q) = (o1, .ok R) ∧
      ∀ i, KNearest (dist .dtw Q twoPoints i) 2 2 (fun _ => True) (R i).1 ∧ (R i).2 = (R i).1.map (dist .dtw Q twoPoints i) :=
  C75_kneighbors numpySel_valid 5 (by decide) _ _ rfl (.inl rfl) twoPoints (by simp [twoPoints])

end Verif
