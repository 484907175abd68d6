import Verif.Spec.VarLen
/-!
C90: estimators tell the truth about series of different lengths. The tag `allow_variable_length` and the tag `allow_nan`, in both
interfaces of scikit-learn, against the validation at the beginning of `fit`.
-/
set_option linter.unusedSectionVars false

namespace Verif
open Spec
variable {K : Type} [DecidableEq K]

theorem hasNan_iff (X : XIn K) : hasNan X.series = true ↔ HoldsNan X := by
  simp [hasNan, HoldsNan]

theorem hasInf_iff (X : XIn K) : hasInf X.series = true ↔ HoldsInf X := by
  simp [hasInf, HoldsInf]

theorem checkArray_nan {X : XIn K} (h : HoldsNan X) : checkArray .yes X = .error .valueError := by
  have := (hasNan_iff X).2 h
  unfold checkArray
  split_ifs <;> simp_all

theorem checkArray_padded {X : XIn K} (h : IsPadded X) {f : Finite} (hf : f ≠ .yes) : checkArray f X = .ok X.series := by
  have hi : hasInf X.series = false := by
    have := h.noInf; rw [← hasInf_iff] at this; simpa using this
  unfold checkArray
  simp [h.array.1, h.array.2, hi, hf]

theorem sklearnFinite_nan {X : XIn K} (h : HoldsNan X) : sklearnFinite X.series = .error .valueError := by
  simp [sklearnFinite, (hasNan_iff X).2 h]

/-- C90, one answer: the tags of the old interface (`_more_tags`) and of the new one (`__sklearn_tags__`) are the same for every
estimator and every metric or kernel. -/
theorem C90_tags_agree (c : EstCfg) : moreTags c = sklearnTags c := by
  cases c <;> rfl

/-- C90, no estimator that denies support for different lengths computes something from padded series: every dataset with a NaN is
refused with `ValueError`. -/
theorem C90_denied (c : EstCfg) (X : XIn K) (hc : (sklearnTags c).variableLength = false) (h : HoldsNan X) :
    Refused (fitValidate c X) := by
  have hy := checkArray_nan h
  unfold Refused
  cases c <;> simp [sklearnTags, newTags] at hc <;> simp only [fitValidate, hy, Except.map]
  case kMeans m => subst hc; simp [fitKMeans, hy, bind, Except.bind]
  case dbscan m =>
    have : tslearnValidMetrics.contains m = false := by simpa [tslearnValidMetrics, variableLengthMetrics] using hc
    simp only [fitDbscan, this]
    by_cases hm : m ∈ dbscanMetrics <;> simp [hm, hy, bind, Except.bind, throw, throwThe, MonadExceptOf.throw]

example : HoldsNan (K := ℕ) ⟨false, [[[.num 1], [.num 2]], [[.num 1], [.nan]]]⟩ := by simp [HoldsNan]

/-- Configurations that say they take series of different lengths and whose later stages are scikit-learn's, on flattened series. -/
def flattens : EstCfg → Prop
  | .kernelKMeans k => k ≠ "gak"
  | .svm k => k ≠ "gak"
  | .neighbors m => m ∉ variableLengthMetrics
  | _ => False

/-- A metric the estimator knows. -/
def knownMetric : EstCfg → Prop
  | .kMeans m => m = "euclidean" ∨ m = "dtw" ∨ m = "softdtw"
  | .dbscan m => m ∈ dbscanMetrics
  | _ => True

/-- C90, support that is promised is there: an estimator with `allow_variable_length` accepts every padded array. Partial: outside the
three families of `flattens`, for which it is false. -/
theorem C90_promised_partial (c : EstCfg) (X : XIn K) (hc : (sklearnTags c).variableLength = true) (hk : knownMetric c) (hf : ¬flattens c)
    (h : IsPadded X) : Accepted (fitValidate c X) := by
  have hn := checkArray_padded h (f := .no) (by simp)
  have ha := checkArray_padded h (f := .allowNan) (by simp)
  have hv : checkVariableLength X = .ok (padCells X.series) := by simp [checkVariableLength, h.array.1, hn, Except.map]
  unfold Accepted
  cases c <;> simp [sklearnTags, newTags] at hc <;> simp only [fitValidate]
  case kernelKMeans k =>
    have : k = "gak" := by simpa [flattens] using hf
    simp [fitKernelKMeans, hn, this, bind, Except.bind, pure, Except.pure]
  case kMeans m =>
    rcases hk with rfl | rfl | rfl <;> simp_all [fitKMeans, bind, Except.bind, pure, Except.pure]
  case dbscan m =>
    have h1 : m ∈ dbscanMetrics := hk
    have h2 : m ∈ tslearnValidMetrics := hc
    simp [fitDbscan, h1, h2, ha, bind, Except.bind, pure, Except.pure]
  case neighbors m =>
    have h2 : m ∈ variableLengthMetrics := by simpa [flattens] using hf
    replace h2 : m ∈ tslearnValidMetrics := h2
    simp [fitNeighbors, h2, hn, bind, Except.bind, pure, Except.pure]
  case svm k =>
    have : k = "gak" := by simpa [flattens] using hf
    subst this
    simp [fitSvm, variableLengthMetrics, hn, bind, Except.bind, pure, Except.pure]
  all_goals simp [hn, ha, hv, Except.map]

example : IsPadded (K := ℕ) ⟨false, [[[.num 1], [.num 2]], [[.num 1], [.nan]]]⟩ :=
  ⟨⟨rfl, by simp⟩, by simp [HoldsNan], by simp [HoldsInf]⟩
example : (sklearnTags (.kMeans "dtw")).variableLength = true ∧ knownMetric (.kMeans "dtw") ∧ ¬flattens (.kMeans "dtw") := by
  simp [sklearnTags, knownMetric, flattens]

/-- The metrics `TimeSeriesDBSCAN` takes, and which of them take padded arrays; `"softdtw"` is not among them. -/
theorem C90_dbscan_metrics (m : String) (X : XIn K) (h : IsPadded X) :
    (m ∉ ["dtw", "ctw", "frechet", "softdtw_normalized", "euclidean", "precomputed"] → fitValidate (.dbscan m) X = .error .valueError) ∧
    (m ∈ ["dtw", "ctw", "frechet", "softdtw_normalized"] → Accepted (fitValidate (.dbscan m) X)) ∧
    (m ∈ ["euclidean", "precomputed"] → Refused (fitValidate (.dbscan m) X)) := by
  refine ⟨fun hm => ?_, fun hm => ?_, fun hm => ?_⟩
  · simp only [fitValidate, fitDbscan]
    rw [if_pos (by simpa [dbscanMetrics] using hm)]
    rfl
  · refine C90_promised_partial (.dbscan m) X ?_ ?_ (by simp [flattens]) h
    · simp only [List.mem_cons, List.not_mem_nil, or_false] at hm
      rcases hm with rfl | rfl | rfl | rfl <;> decide
    · simp only [List.mem_cons, List.not_mem_nil, or_false] at hm
      rcases hm with rfl | rfl | rfl | rfl <;> simp [knownMetric, dbscanMetrics]
  · refine C90_denied (.dbscan m) X ?_ h.nan
    simp only [List.mem_cons, List.not_mem_nil, or_false] at hm
    rcases hm with rfl | rfl <;> decide

/-- C90 is false of `KernelKMeans` with any kernel but `"gak"`, of the support vector machines with any kernel but `"gak"` and of the
nearest-neighbour estimators with any metric that is not tslearn's: they promise `allow_variable_length`, and no padded array is accepted. -/
theorem C90_false_flattened (c : EstCfg) (hf : flattens c) (X : XIn K) (h : IsPadded X) :
    (sklearnTags c).variableLength = true ∧ ¬Accepted (fitValidate c X) := by
  have hn := checkArray_padded h (f := .no) (by simp)
  have hy := checkArray_nan h.nan
  have hs := sklearnFinite_nan h.nan
  cases c <;> simp only [flattens] at hf
  case kernelKMeans k =>
    exact ⟨rfl, by simp [Accepted, fitValidate, fitKernelKMeans, hn, hf, hs, bind, Except.bind]⟩
  case neighbors m =>
    refine ⟨rfl, ?_⟩
    have h2 : m ∉ tslearnValidMetrics := hf
    by_cases hp : m = "precomputed"
    · subst hp
      simp [Accepted, fitValidate, fitNeighbors, h2, hn, hs, bind, Except.bind]
    · simp [Accepted, fitValidate, fitNeighbors, h2, hp, hy, bind, Except.bind]
  case svm k =>
    refine ⟨rfl, ?_⟩
    by_cases hk : k ∈ variableLengthMetrics
    · simp [Accepted, fitValidate, fitSvm, hk, hn, hf, bind, Except.bind, throw, throwThe, MonadExceptOf.throw]
    · simp [Accepted, fitValidate, fitSvm, hk, hy, bind, Except.bind]

example : flattens (.kernelKMeans "rbf") ∧ flattens (.svm "rbf") ∧ flattens (.neighbors "euclidean") := by
  simp [flattens, variableLengthMetrics]

/-- C90 is false of the tag `allow_nan` of the support vector machines: it is off, and with the kernel `"gak"` padded arrays are accepted. -/
theorem C90_false_allow_nan (X : XIn K) (h : IsPadded X) :
    (sklearnTags (.svm "gak")).allowNan = false ∧ Accepted (fitValidate (.svm "gak") X) :=
  ⟨rfl, C90_promised_partial (.svm "gak") X rfl trivial (by simp [flattens]) h⟩

/-- C90, `allow_nan` elsewhere: for all other estimators it is the tag `allow_variable_length`. -/
theorem C90_allow_nan (c : EstCfg) (hc : ∀ k, c ≠ .svm k) : (sklearnTags c).allowNan = (sklearnTags c).variableLength := by
  cases c <;> simp_all [sklearnTags, newTags]

theorem not_regular {X : XIn K} {d : ℕ} (h : IsListOfSeries X d) : regularCells X.series = false := by
  obtain ⟨s, hs, t, ht, hst⟩ := h.differ
  by_contra hr
  rw [Bool.not_eq_false, regularCells, List.all_eq_true] at hr
  have h1 := hr s hs
  have h2 := hr t ht
  simp only [Bool.and_eq_true, beq_iff_eq] at h1 h2
  exact hst (h1.1.trans h2.1.symm)

theorem checkArray_list {X : XIn K} {d : ℕ} (h : IsListOfSeries X d) (f : Finite) : checkArray f X = .error .valueError := by
  unfold checkArray
  split_ifs <;> simp_all [not_regular h, h.list]

theorem forM_ok {α : Type} (l : List α) (f : α → Except PyErr Unit) (h : ∀ a ∈ l, f a = .ok ()) : l.forM f = .ok () := by
  induction l with
  | nil => rfl
  | cons a l ih =>
    show (f a >>= fun _ => l.forM f) = _
    rw [h a (by simp)]
    exact ih fun b hb => h b (by simp [hb])

theorem checkVariableLength_list {X : XIn K} {d : ℕ} (h : IsListOfSeries X d) : checkVariableLength X = .ok (padCells X.series) := by
  unfold checkVariableLength
  rw [if_pos h.list]
  rw [forM_ok]
  · rfl
  · intro s hs
    have h0 := h.nonempty s hs
    have hr : regularCells [s] = true := by
      have := h.features s hs
      simp only [regularCells, List.all_cons, List.all_nil, Bool.and_true, List.headD_cons, beq_self_eq_true, Bool.true_and,
        List.all_eq_true, beq_iff_eq]
      intro v hv
      obtain ⟨a, l, rfl⟩ := List.exists_cons_of_ne_nil h0
      rw [this v hv]
      exact (this a (by simp)).symm
    simp [h0, checkArray, hr, bind, Except.bind, pure, Except.pure]

/-- The three transformers that look at lists series by series. -/
def takesLists (c : EstCfg) : Prop := c = .resampler ∨ c = .imputer ∨ c = .synchronizer

/-- C90, lists of series of different lengths: they are accepted by `TimeSeriesResampler`, `TimeSeriesImputer` and
`TimeSeriesFeatureSynchronizer` and by no other estimator, whatever the tags say. -/
theorem C90_lists (c : EstCfg) (X : XIn K) (d : ℕ) (h : IsListOfSeries X d) : Accepted (fitValidate c X) ↔ takesLists c := by
  have hc := fun f => checkArray_list h f
  have hv := checkVariableLength_list h
  cases c <;> simp only [takesLists, Accepted, fitValidate, fitKernelKMeans, fitKMeans, fitNeighbors, fitSvm, hc, hv, Except.map, bind,
    Except.bind] <;> simp
  case dbscan m =>
    intro x
    simp only [fitDbscan]
    by_cases hm : m ∈ dbscanMetrics <;> simp [hm, hc, bind, Except.bind, throw, throwThe, MonadExceptOf.throw]

example : IsListOfSeries (K := ℕ) ⟨true, [[[.num 1], [.num 2]], [[.num 1]]]⟩ 1 :=
  ⟨rfl, by simp, by simp, ⟨_, List.mem_cons_self, [[.num 1]], by simp, by simp⟩⟩

/-- C90 is false of lists: `TimeSeriesKMeans(metric="dtw")` promises `allow_variable_length` and refuses every list of series of
different lengths with `ValueError`. -/
theorem C90_false_lists (X : XIn K) (d : ℕ) (h : IsListOfSeries X d) :
    (sklearnTags (.kMeans "dtw")).variableLength = true ∧ Refused (fitValidate (.kMeans "dtw") X) := by
  refine ⟨by simp [sklearnTags], ?_⟩
  simp [Refused, fitValidate, fitKMeans, checkArray_list h, bind, Except.bind]

theorem le_foldr_max (l : List ℕ) {a : ℕ} (h : a ∈ l) : a ≤ l.foldr max 0 := by
  induction l with
  | nil => simp at h
  | cons b l ih =>
    simp only [List.foldr_cons]
    rcases List.mem_cons.1 h with rfl | h
    · omega
    · have := ih h; omega

/-- C90, what a list becomes: series of the length of the longest one, that begin with the series given and go on with NaN only. -/
theorem C90_padding (X : XIn K) (d : ℕ) (h : IsListOfSeries X d) :
    ∃ Y, checkVariableLength X = .ok Y ∧ Y.length = X.series.length ∧
      ∀ i (hi : i < X.series.length) (hj : i < Y.length),
        (∀ s ∈ X.series, s.length ≤ Y[i].length) ∧ (∃ s ∈ X.series, Y[i].length = s.length) ∧
        ∃ tail, Y[i] = X.series[i] ++ tail ∧ ∀ v ∈ tail, v = List.replicate d TCell.nan := by
  refine ⟨_, checkVariableLength_list h, by simp [padCells], ?_⟩
  intro i hi hj
  set L := X.series.map List.length with hL
  have hd : ((X.series.headD []).headD []).length = d := by
    obtain ⟨s, hs, -⟩ := h.differ
    obtain ⟨a, l, hl⟩ := List.exists_cons_of_ne_nil (List.ne_nil_of_mem hs)
    have hne := h.nonempty a (by simp [hl])
    obtain ⟨b, m, rfl⟩ := List.exists_cons_of_ne_nil hne
    have := h.features (b :: m) (by simp [hl]) b (by simp)
    rw [hl]; exact this
  have hle : X.series[i].length ≤ L.foldr max 0 := le_foldr_max _ (List.mem_map_of_mem (List.getElem_mem hi))
  have hlen : ((padCells X.series)[i]).length = L.foldr max 0 := by
    simp only [padCells, List.getElem_map, List.length_append, List.length_replicate, ← hL]
    omega
  refine ⟨?_, ?_, List.replicate (L.foldr max 0 - X.series[i].length) (List.replicate d .nan), ?_, ?_⟩
  · intro s hs
    rw [hlen]
    exact le_foldr_max _ (List.mem_map_of_mem hs)
  · rw [hlen]
    have : ∀ l : List ℕ, l ≠ [] → l.foldr max 0 ∈ l := by
      intro l
      induction l with
      | nil => simp
      | cons a l ih =>
        intro _
        by_cases hl : l = []
        · simp [hl]
        · have := ih hl
          simp only [List.foldr_cons]
          rcases Nat.le_total a (l.foldr max 0) with hh | hh
          · rw [Nat.max_eq_right hh]; exact List.mem_cons_of_mem _ this
          · rw [Nat.max_eq_left hh]; exact List.mem_cons_self
    have hm := this L (by intro h0; rw [hL, List.map_eq_nil_iff] at h0; rw [h0] at hi; simp at hi)
    obtain ⟨s, hs, he⟩ := List.mem_map.1 hm
    exact ⟨s, hs, he.symm⟩
  · simp only [padCells, List.getElem_map, ← hL, hd]
  · intro v hv
    exact (List.mem_replicate.1 hv).2

/-- Estimators whose validation stops infinite samples. -/
def stopsInf : EstCfg → Prop
  | .kernelKMeans k => k ≠ "gak"
  | .kMeans _ | .dbscan _ | .kShape | .mlp | .early | .varima | .autoVarima => True
  | .neighbors m => m ∉ variableLengthMetrics
  | .svm k => k ≠ "gak"
  | _ => False

/-- C90, infinite samples in an array: refused by exactly the estimators of `stopsInf`. The transformers, `LearningShapelets`, `MatrixProfile`
and whatever uses tslearn's own metrics in nearest neighbours, kernel k-means and support vector machines let them in. -/
theorem C90_infinite (c : EstCfg) (X : XIn K) (ha : IsArray X) (h : HoldsInf X) : Accepted (fitValidate c X) ↔ ¬stopsInf c := by
  have hi := (hasInf_iff X).2 h
  have hn : checkArray .no X = .ok X.series := by simp [checkArray, ha.1, ha.2]
  have hy : checkArray .yes X = .error .valueError := by simp [checkArray, ha.1, ha.2, hi]
  have hb : checkArray .allowNan X = .error .valueError := by simp [checkArray, ha.1, ha.2, hi]
  have hs : sklearnFinite X.series = .error .valueError := by simp [sklearnFinite, hi]
  have hv : checkVariableLength X = .ok (padCells X.series) := by simp [checkVariableLength, ha.1, hn, Except.map]
  cases c <;> simp only [stopsInf, Accepted, fitValidate, hn, hy, hb, hv, Except.map]
  case kernelKMeans k =>
    by_cases hk : k = "gak" <;> simp [fitKernelKMeans, hn, hk, hs, bind, Except.bind, pure, Except.pure]
  case kMeans m =>
    by_cases hm : m = "euclidean" <;> simp [fitKMeans, hm, hy, hb, bind, Except.bind]
  case dbscan m =>
    by_cases hm : m ∈ dbscanMetrics <;> by_cases ht : m ∈ tslearnValidMetrics <;>
      simp [fitDbscan, hm, ht, hy, hb, bind, Except.bind, throw, throwThe, MonadExceptOf.throw]
  case neighbors m =>
    by_cases hm : m ∈ tslearnValidMetrics
    · have hm' : m ∈ variableLengthMetrics := hm
      simp [fitNeighbors, hm, hm', hn, bind, Except.bind, pure, Except.pure]
    · have hm' : m ∉ variableLengthMetrics := hm
      by_cases hp : m = "precomputed"
      · subst hp; simp [fitNeighbors, hm, hm', hn, hs, bind, Except.bind]
      · simp [fitNeighbors, hm, hm', hp, hy, bind, Except.bind]
  case svm k =>
    by_cases hk : k ∈ variableLengthMetrics
    · by_cases hg : k = "gak" <;>
        simp [fitSvm, hk, hg, hn, bind, Except.bind, pure, Except.pure, throw, throwThe, MonadExceptOf.throw]
      simp [variableLengthMetrics, hn]
    · have hg : k ≠ "gak" := by rintro rfl; simp [variableLengthMetrics] at hk
      simp [fitSvm, hk, hg, hy, bind, Except.bind]
  all_goals simp

example : IsArray (K := ℕ) ⟨false, [[[.num 1], [.inf]]]⟩ ∧ HoldsInf (K := ℕ) ⟨false, [[[.num 1], [.inf]]]⟩ :=
  ⟨⟨rfl, by simp⟩, by simp [HoldsInf]⟩

end Verif
