import Verif.Model.Saved
import Mathlib.Tactic.Common
import Verif.Props.C75
/-!
# C121 — saved models
-/
set_option linter.unusedSectionVars false
namespace Verif

/-- The names `saveOf` writes. -/
def keptName : PkgClass → String → Bool
  | .kernelKMeans, n => packedName n || n == "_X_fit"
  | .neighbors e, n => n == (if e then "_ts_fit" else "_X_fit")
  | .knnClassifier _, n => (["_X_fit", "_ts_fit", "_d"] ++ skNames).contains n
  | _, n => packedName n

theorem saveOf_ok {V : Type} {c : PkgClass} {o s : Attrs V} (h : saveOf c o = .ok s) : s = (fun n => if keptName c n then o n else none) ∧
    isFittedOf c o = .ok (some true) := by
  unfold saveOf at h
  split at h
  · cases h
  · rename_i b hb
    unfold checkFitted at h
    by_cases ht : b = some true
    · rw [if_pos ht] at h
      subst ht
      refine ⟨?_, hb⟩
      funext n
      cases c <;> simp only [modelParamsOf] at h
      case kernelKMeans =>
        split at h
        · cases h
          simp [keptName]
        · cases h
      case neighbors e =>
        cases e <;> simp only [Bool.false_eq_true, if_false, if_true] at h <;> split at h <;> cases h <;> simp [keptName]
      case knnClassifier e =>
        split at h
        · cases h
          simp [keptName]
        · cases h
      all_goals (cases h; rfl)
    · rw [if_neg ht] at h
      cases h

theorem mapM_attrs {V : Type} {o s : Attrs V} : ∀ {l : List String}, (∀ n ∈ l, s n = o n) → l.mapM s = l.mapM o
  | [], _ => rfl
  | a :: l, h => by
    rw [List.mapM_cons, List.mapM_cons, h a (by simp), mapM_attrs (fun n hn => h n (by simp [hn]))]

theorem hasAll_attrs {V : Type} {o s : Attrs V} {l : List String} (h : ∀ n ∈ l, s n = o n) : hasAll s l = hasAll o l := by
  unfold hasAll
  rw [Bool.eq_iff_iff, List.all_eq_true, List.all_eq_true]
  exact forall₂_congr fun n hn => by rw [h n hn]

theorem hasAll_true {V : Type} {o : Attrs V} {l : List String} : hasAll o l = true ↔ ∀ n ∈ l, (o n).isSome := by
  unfold hasAll
  rw [List.all_eq_true]

/-- **A loaded model answers as the saved one**, for every state in which it could be saved and every query; the exceptions are `MatrixProfile` and
`KNeighborsTimeSeries` with a metric of scipy. -/
theorem C121_answers {V Q R : Type} (c : PkgClass) (hm : c ≠ .matrixProfile) (hn : c ≠ .neighbors false) (o s : Attrs V) (h : saveOf c o = .ok s)
    (f : List V → Q → Except PyErr R) (q : Q) : answerOf c f (loadOf s) q = answerOf c f o q := by
  obtain ⟨rfl, hf⟩ := saveOf_ok h
  have keep : ∀ n, n ∈ readNames c ∨ n ∈ testedNames c → keptName c n = true := by
    have : ∀ n ∈ readNames c ++ testedNames c, keptName c n = true := by
      cases c with
      | matrixProfile => exact absurd rfl hm
      | neighbors e => cases e <;> first | exact absurd rfl hn | decide +kernel
      | sax b => cases b <;> decide +kernel
      | oneDSax b => cases b <;> decide +kernel
      | knnClassifier b => cases b <;> decide +kernel
      | knnRegressor b => simp [isFittedOf] at hf
      | varima => simp [isFittedOf] at hf
      | autoVarima => simp [isFittedOf] at hf
      | _ => decide +kernel
    intro n h
    exact this n (List.mem_append.2 h)
  unfold answerOf loadOf
  rw [hasAll_attrs (o := o) fun n hn => if_pos (keep n (.inr hn)), mapM_attrs (o := o) fun n hn => if_pos (keep n (.inl hn))]

/-- The exceptions: whatever was fitted, the loaded matrix profile is not fitted, and the loaded neighbours lack an attribute. -/
theorem C121_lost {V Q R : Type} (o s : Attrs V) (f : List V → Q → Except PyErr R) (q : Q) :
    (saveOf .matrixProfile o = .ok s → answerOf .matrixProfile f (loadOf s) q = .error .notFitted) ∧
    (saveOf (.neighbors false) o = .ok s → answerOf (.neighbors false) f (loadOf s) q = .error .attributeError) := by
  constructor
  · intro h
    obtain ⟨rfl, -⟩ := saveOf_ok h
    have : keptName .matrixProfile "_X_fit_dims" = false := by decide +kernel
    simp [answerOf, loadOf, testedNames, hasAll, this]
  · intro h
    obtain ⟨rfl, hf⟩ := saveOf_ok h
    have h1 : keptName (.neighbors false) "_X_fit" = true := by decide +kernel
    have h2 : keptName (.neighbors false) "_d" = false := by decide +kernel
    have h3 : (o "_X_fit").isSome = true := by
      by_contra hc
      simp [isFittedOf, hasAll, hc] at hf
    obtain ⟨v, hv⟩ := Option.isSome_iff_exists.1 h3
    simp [answerOf, loadOf, testedNames, readNames, hasAll, h1, h2, hv, List.mapM_cons]

/-- Right after a successful first `fit`: saving works except for the classifier with a metric of scipy, the regressor and the forecasters. -/
theorem C121_saves {V : Type} (c : PkgClass) (o : Attrs V) (h : ∀ n, (o n).isSome ↔ n ∈ fitNames c) :
    (∃ s, saveOf c o = .ok s) ↔ c ∉ [PkgClass.knnClassifier false, .knnRegressor true, .knnRegressor false, .varima, .autoVarima] := by
  have hall : ∀ l : List String, (∀ n ∈ l, n ∈ fitNames c) → hasAll o l = true := fun l hl => hasAll_true.2 fun n hn => (h n).2 (hl n hn)
  have hno : ∀ l : List String, (∃ n ∈ l, n ∉ fitNames c) → hasAll o l = false := fun l ⟨n, hn, hf⟩ => by
    rw [Bool.eq_false_iff]
    exact fun ha => hf ((h n).1 (hasAll_true.1 ha n hn))
  cases c with
  | kernelKMeans => simp [saveOf, isFittedOf, modelParamsOf, checkFitted, hall _ (by decide +kernel : ∀ n ∈ ["_X_fit"], n ∈ fitNames .kernelKMeans)]
  | kMeans => simp [saveOf, isFittedOf, modelParamsOf, checkFitted, hall _ (by decide +kernel : ∀ n ∈ ["cluster_centers_"], n ∈ fitNames .kMeans)]
  | kShape =>
    simp [saveOf, isFittedOf, modelParamsOf, checkFitted,
      hall _ (by decide +kernel : ∀ n ∈ ["cluster_centers_", "norms_", "norms_centroids_"], n ∈ fitNames .kShape)]
  | dbscan =>
    have : ((fitNames .dbscan).any fun n => packedName n && (o n).isSome) = true := by
      rw [List.any_eq_true]
      exact ⟨"labels_", by decide +kernel, by rw [(h "labels_").2 (by decide +kernel)]; decide +kernel⟩
    simp only [saveOf, isFittedOf, this, checkFitted, modelParamsOf]
    simp
  | matrixProfile => simp [saveOf, isFittedOf, modelParamsOf, checkFitted, hall _ (by decide +kernel : ∀ n ∈ ["_X_fit_dims"], n ∈ fitNames .matrixProfile)]
  | paa => simp [saveOf, isFittedOf, modelParamsOf, checkFitted, hall _ (by decide +kernel : ∀ n ∈ ["_X_fit_dims_"], n ∈ fitNames .paa)]
  | sax b =>
    have := hall (["breakpoints_avg_", "breakpoints_avg_middle_"] ++ (if b then ["mu_", "std_"] else []) ++ ["_X_fit_dims_"]) (by cases b <;> decide +kernel)
    simp only [saveOf, isFittedOf, this, checkFitted, modelParamsOf]
    simp
  | oneDSax b =>
    have := hall (["breakpoints_slope_", "breakpoints_slope_middle_", "breakpoints_avg_", "breakpoints_avg_middle_"] ++
      (if b then ["mu_", "std_"] else []) ++ ["_X_fit_dims_"]) (by cases b <;> decide +kernel)
    simp only [saveOf, isFittedOf, this, checkFitted, modelParamsOf]
    simp
  | neighbors e =>
    have := hall [if e then "_ts_fit" else "_X_fit"] (by cases e <;> decide +kernel)
    simp only [saveOf, isFittedOf, this, checkFitted, modelParamsOf]
    simp
  | knnClassifier e =>
    cases e with
    | false => simp [saveOf, isFittedOf, hno ["_ts_fit"] (by decide +kernel)]
    | true =>
      have h1 := hall ["_ts_fit"] (by decide +kernel)
      have h2 := hall (["_X_fit", "_ts_fit", "_d"] ++ skNames) (by decide +kernel)
      simp only [saveOf, isFittedOf, h1, checkFitted, modelParamsOf, h2]
      simp
  | knnRegressor e => cases e <;> simp [saveOf, isFittedOf, checkFitted]
  | varima => simp [saveOf, isFittedOf, checkFitted]
  | autoVarima => simp [saveOf, isFittedOf, checkFitted]

/-- The regressor and the forecasters are refused in every state, as not fitted. -/
theorem C121_refused {V : Type} (o : Attrs V) : (∀ e, saveOf (.knnRegressor e) o = .error .notFitted) ∧ saveOf .varima o = .error .notFitted ∧
    saveOf .autoVarima o = .error .notFitted := by
  refine ⟨fun e => ?_, ?_, ?_⟩ <;> simp [saveOf, isFittedOf, checkFitted]

/-- Saving a loaded model writes the same file; a loaded matrix profile cannot be saved. -/
theorem C121_again {V : Type} (c : PkgClass) (o s : Attrs V) (h : saveOf c o = .ok s) :
    saveOf c (loadOf s) = if c = .matrixProfile then .error .notFitted else .ok s := by
  obtain ⟨hs, hf⟩ := saveOf_ok h
  have agree : ∀ l : List String, (∀ n ∈ l, keptName c n = true) → hasAll s l = hasAll o l := fun l hl =>
    hasAll_attrs fun n hn => by rw [hs]; exact if_pos (hl n hn)
  have idem : (fun n => if keptName c n then s n else none) = s := by
    rw [hs]
    funext n
    by_cases hk : keptName c n = true <;> simp [hk]
  have fin : isFittedOf c s = isFittedOf c o → (∀ t, modelParamsOf c o = .ok t → ∃ t', modelParamsOf c s = .ok t') → saveOf c s = .ok s := by
    intro hi hp
    have h' := h
    unfold saveOf at h'
    rw [hf] at h'
    simp only [checkFitted, if_true] at h'
    obtain ⟨t', ht'⟩ := hp s h'
    have h2 : saveOf c s = .ok t' := by
      unfold saveOf
      rw [hi, hf]
      simp only [checkFitted, if_true]
      exact ht'
    obtain ⟨e, -⟩ := saveOf_ok h2
    rw [h2, e, idem]
  unfold loadOf
  cases c with
  | matrixProfile =>
    have : keptName .matrixProfile "_X_fit_dims" = false := by decide +kernel
    simp [saveOf, isFittedOf, hasAll, hs, this]
  | knnRegressor e => simp [isFittedOf] at hf
  | varima => simp [isFittedOf] at hf
  | autoVarima => simp [isFittedOf] at hf
  | kernelKMeans =>
    rw [if_neg (by decide)]
    have a := agree ["_X_fit"] (by decide +kernel)
    refine fin (by simp only [isFittedOf, a]) fun t ht => ?_
    simp only [modelParamsOf, a] at ht ⊢
    split at ht
    · rename_i hh; exact ⟨_, by rw [if_pos hh]⟩
    · cases ht
  | kMeans =>
    rw [if_neg (by decide)]
    exact fin (by simp only [isFittedOf, agree ["cluster_centers_"] (by decide +kernel)]) fun t ht => ⟨_, rfl⟩
  | kShape =>
    rw [if_neg (by decide)]
    exact fin (by simp only [isFittedOf, agree ["cluster_centers_", "norms_", "norms_centroids_"] (by decide +kernel)]) fun t ht => ⟨_, rfl⟩
  | dbscan =>
    rw [if_neg (by decide)]
    refine fin ?_ fun t ht => ⟨_, rfl⟩
    have : ∀ n, (packedName n && (s n).isSome) = (packedName n && (o n).isSome) := by
      intro n
      by_cases hk : packedName n = true
      · rw [hs]; simp [keptName, hk]
      · simp [hk]
    simp only [isFittedOf, this]
  | paa =>
    rw [if_neg (by decide)]
    exact fin (by simp only [isFittedOf, agree ["_X_fit_dims_"] (by decide +kernel)]) fun t ht => ⟨_, rfl⟩
  | sax b =>
    rw [if_neg (by simp)]
    refine fin ?_ fun t ht => ⟨_, rfl⟩
    simp only [isFittedOf]
    rw [agree (["breakpoints_avg_", "breakpoints_avg_middle_"] ++ (if b then ["mu_", "std_"] else []) ++ ["_X_fit_dims_"]) (by cases b <;> decide +kernel)]
  | oneDSax b =>
    rw [if_neg (by simp)]
    refine fin ?_ fun t ht => ⟨_, rfl⟩
    simp only [isFittedOf]
    rw [agree (["breakpoints_slope_", "breakpoints_slope_middle_", "breakpoints_avg_", "breakpoints_avg_middle_"] ++
      (if b then ["mu_", "std_"] else []) ++ ["_X_fit_dims_"]) (by cases b <;> decide +kernel)]
  | neighbors e =>
    rw [if_neg (by simp)]
    have a := agree [if e then "_ts_fit" else "_X_fit"] (by cases e <;> decide +kernel)
    refine fin (by simp only [isFittedOf, a]) fun t ht => ?_
    simp only [modelParamsOf, a] at ht ⊢
    by_cases hh : hasAll o [if e then "_ts_fit" else "_X_fit"] = true
    · exact ⟨_, by rw [if_pos hh]⟩
    · rw [if_neg hh] at ht
      cases ht
  | knnClassifier e =>
    rw [if_neg (by simp)]
    have a := agree ["_ts_fit"] (by cases e <;> decide +kernel)
    have a' := agree (["_X_fit", "_ts_fit", "_d"] ++ skNames) (by cases e <;> decide +kernel)
    refine fin (by simp only [isFittedOf, a]) fun t ht => ?_
    simp only [modelParamsOf, a'] at ht ⊢
    split at ht
    · rename_i hh; exact ⟨_, by rw [if_pos hh]⟩
    · cases ht

/-- Attributes of a new estimator after its first `fit`, each with its own name as value. -/
def afterFit (c : PkgClass) : Attrs String := fun n => if n ∈ fitNames c then some n else none

theorem afterFit_names (c : PkgClass) (n : String) : (afterFit c n).isSome ↔ n ∈ fitNames c := by
  unfold afterFit
  split <;> simp_all

/-- The claim is false of the code: fitted models that answer cannot be saved, and fitted models that answer and are saved do not answer once loaded. -/
theorem C121_false : (∀ c ∈ [PkgClass.knnClassifier false, .knnRegressor true, .knnRegressor false, .varima, .autoVarima],
      answerOf c (fun vs (_ : Unit) => .ok vs) (afterFit c) () = .ok (readNames c) ∧ ∀ s, saveOf c (afterFit c) ≠ .ok s) ∧
    ∀ c ∈ [PkgClass.matrixProfile, .neighbors false], answerOf c (fun vs (_ : Unit) => .ok vs) (afterFit c) () = .ok (readNames c) ∧
      ∃ s, saveOf c (afterFit c) = .ok s ∧ ∃ e, answerOf c (fun vs (_ : Unit) => .ok vs) (loadOf s) () = .error e := by
  constructor
  · intro c hc
    refine ⟨?_, fun s hs => (C121_saves c (afterFit c) (afterFit_names c)).1 ⟨s, hs⟩ hc⟩
    simp only [List.mem_cons, List.not_mem_nil, or_false] at hc
    rcases hc with rfl | rfl | rfl | rfl | rfl <;> decide +kernel
  · intro c hc
    simp only [List.mem_cons, List.not_mem_nil, or_false] at hc
    have hsave : ∃ s, saveOf c (afterFit c) = .ok s :=
      (C121_saves c (afterFit c) (afterFit_names c)).2 (by rcases hc with rfl | rfl <;> decide +kernel)
    obtain ⟨s, hs⟩ := hsave
    rcases hc with rfl | rfl
    · exact ⟨by decide +kernel, s, hs, _, (C121_lost _ s _ ()).1 hs⟩
    · exact ⟨by decide +kernel, s, hs, _, (C121_lost _ s _ ()).2 hs⟩

/-- A DTW classifier is saved, loaded, and answers from the attributes it was fitted with. -/
example : ∃ s, saveOf (.knnClassifier true) (afterFit (.knnClassifier true)) = .ok s ∧
    answerOf (.knnClassifier true) (fun vs (_ : Unit) => .ok vs) (loadOf s) () = .ok (["_ts_fit"] ++ skNames) := by
  obtain ⟨s, hs⟩ := (C121_saves (.knnClassifier true) _ (afterFit_names _)).2 (by decide +kernel)
  exact ⟨s, hs, by rw [C121_answers _ (by decide) (by decide) _ s hs]; decide +kernel⟩

/-! ## The representation of metric `"sax"` -/

/-- A saved and loaded classifier compares queries with the training series as before; with metric `"sax"` provided that `metric_params` are still those
its representation was made with. -/
theorem C121_classifier (ppf : ℝ → ℝ) (dist : DistFun) (o : KnnSup) (Q : Arr3 ℝ)
    (h : ∀ s, o.metric = .sax → o.sax = some s → o.params.cleaned.sax = .ok s.params) :
    (knnSupMatrix ppf dist o.reloaded Q).2 = (knnSupMatrix ppf dist o Q).2 := by
  have key : ∀ s : SaxObj, Q.data ≠ [] → saxFitTransform ppf ⟨s.params, none⟩ Q = saxFitTransform ppf s Q := by
    intro s hQ
    unfold saxFitTransform
    rw [if_neg hQ, if_neg hQ]
  unfold knnSupMatrix
  by_cases hm : o.metric.elastic = true
  · rw [show o.reloaded.metric = o.metric from rfl, show o.reloaded.tsFit = o.tsFit from rfl, if_pos hm, if_pos hm]
    cases o.tsFit with
    | none => rfl
    | some T =>
      simp only
      by_cases hQ : Q.data = []
      · rw [if_pos hQ, if_pos hQ]
      · rw [if_neg hQ, if_neg hQ]
        by_cases hd : Q.d ≠ T.features
        · rw [if_pos hd, if_pos hd]
        · rw [if_neg hd, if_neg hd]
          have : (precomputeCross ppf dist o.reloaded Q T).2 = (precomputeCross ppf dist o Q T).2 := by
            unfold precomputeCross
            simp only [KnnSup.reloaded, if_neg hQ]
            by_cases hs : o.metric = .sax
            · simp only [hs, ↓reduceIte]
              cases hp : o.params.cleaned.sax with
              | error e => rfl
              | ok p =>
                have e : saxFitTransform ppf (o.sax.getD ⟨p, none⟩) Q = saxFitTransform ppf ⟨p, none⟩ Q := by
                  cases hx : o.sax with
                  | none => rfl
                  | some s =>
                    have := h s hs hx
                    rw [hp] at this
                    cases this
                    exact (key s hQ).symm
                simp only [saxPreprocess, Option.getD_none, e]
            · simp only [hs, ↓reduceIte]
              by_cases h4 : o.metric = .dtw ∨ o.metric = .ctw ∨ o.metric = .softdtw ∨ o.metric = .frechet <;> simp only [h4, ↓reduceIte]
          rcases h1 : precomputeCross ppf dist o.reloaded Q T with ⟨a, b⟩
          rcases h2 : precomputeCross ppf dist o Q T with ⟨a', b'⟩
          rw [h1, h2] at this
          cases this
          cases b <;> rfl
  · rw [show o.reloaded.metric = o.metric from rfl, if_neg hm, if_neg hm]

/-- A classifier fitted with words of one segment, whose `metric_params` were then set to two segments. -/
noncomputable def resetSax (ppf : ℝ → ℝ) : KnnSup where
  regressor := false
  metric := .sax
  params := { segments := some 2 }
  sax := some ⟨⟨1, 4, false⟩, none⟩
  tsMetric := some .sax
  tsFit := some (.words 1 1 (wordsOf ppf ⟨1, 4, false⟩ onePoint))
  xFit := some (1, 1)

/-- Without that proviso: the saved classifier answers, the loaded one raises. -/
theorem C121_false_sax (ppf : ℝ → ℝ) (dist : DistFun) : (∃ M, (knnSupMatrix ppf dist (resetSax ppf) onePoint).2 = .ok M) ∧
    (knnSupMatrix ppf dist (resetSax ppf).reloaded onePoint).2 = .error .valueError := by
  have hne : onePoint.data ≠ [] := by simp [onePoint]
  constructor
  · exact ⟨_, congrArg Prod.snd (matrix_sax (resetSax ppf) rfl (p := ⟨2, 4, false⟩) rfl (s := ⟨⟨1, 4, false⟩, none⟩) rfl rfl onePoint hne rfl (by decide)
      (sameShape_saxRaw _ _ _ _ _ onePoint onePoint rfl))⟩
  · have hshape : sameShape (wordsOf ppf ⟨2, 4, false⟩ onePoint) (wordsOf ppf ⟨1, 4, false⟩ onePoint) = false := by
      rw [Bool.eq_false_iff]
      intro hs
      obtain ⟨l2, w2⟩ := saxRaw_shape (none : Option (Scaling ℝ)) (breakpoints ppf 4 1) 2 onePoint
      obtain ⟨l1, w1⟩ := saxRaw_shape (none : Option (Scaling ℝ)) (breakpoints ppf 4 1) 1 onePoint
      have e2 : wordsOf ppf ⟨2, 4, false⟩ onePoint = saxRaw none (breakpoints ppf 4 1) 2 onePoint := rfl
      have e1 : wordsOf ppf ⟨1, 4, false⟩ onePoint = saxRaw none (breakpoints ppf 4 1) 1 onePoint := rfl
      rw [e2, e1] at hs
      obtain ⟨a, ha⟩ := List.exists_mem_of_length_pos (show 0 < (saxRaw none (breakpoints ppf 4 1) 2 onePoint).length by rw [l2]; simp [onePoint])
      obtain ⟨b, hb⟩ := List.exists_mem_of_length_pos (show 0 < (saxRaw none (breakpoints ppf 4 1) 1 onePoint).length by rw [l1]; simp [onePoint])
      unfold sameShape at hs
      rw [List.all_eq_true] at hs
      have h1 := hs a (List.mem_append_left _ ha)
      rw [List.all_eq_true] at h1
      have h2 := h1 b (List.mem_append_right _ hb)
      rw [w2 a ha, w1 b hb] at h2
      have h3 := congrArg List.length (beq_iff_eq.1 h2)
      simp at h3
    have hpre := saxPreprocess_ok (ppf := ppf) { (resetSax ppf).reloaded with tsMetric := some .sax, metric := .precomputed } ⟨2, 4, false⟩ onePoint hne (by simp [KnnSup.reloaded])
    unfold knnSupMatrix precomputeCross
    simp only [resetSax, KnnSup.reloaded, Metric.elastic, if_true, hne, if_false, TsFit.features] at hpre ⊢
    rw [if_neg (by simp [onePoint])]
    simp only [KnnParams.cleaned, KnnParams.sax, Option.getD_some, Option.getD_none, Bool.false_eq_true, or_self, if_false] at hpre ⊢
    rw [hpre]
    simp only [hshape, Bool.false_eq_true, if_false]

example (ppf : ℝ → ℝ) (dist : DistFun) : (knnSupMatrix ppf dist { resetSax ppf with params := { segments := some 1 } }.reloaded onePoint).2 =
    (knnSupMatrix ppf dist { resetSax ppf with params := { segments := some 1 } } onePoint).2 :=
  C121_classifier ppf dist _ _ fun s _ hs => by cases hs; rfl

end Verif
