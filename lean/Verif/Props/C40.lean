import Verif.Model.Knn
/-!
C40: histories of calls of `KNeighborsTimeSeries`.
-/
namespace Verif
variable {D Q : Type}

/-- After a successful `fit(X)` with an elastic metric, whatever happened before, `metric` is what it was and every query is answered
from `X` with that metric, or refused. -/
theorem C40_fit_partial (c : KnnChecks D Q) (o : KnnObj D) (X : D) (hm : o.metric.elastic = true) (hok : (knnFit c o X).2 = none) (q : Q) :
    (knnFit c o X).1.metric = o.metric ∧
    ∀ a, (knnKneighbors c (knnFit c o X).1 (some q)).2 = .ok a →
      a = .near o.metric (.flat X) q ∧ (knnKneighbors c (knnFit c o X).1 (some q)).1 = (knnFit c o X).1 := by
  unfold knnFit at hok ⊢
  simp only [hm, if_true] at hok ⊢
  cases h1 : c.fit (decide (Metric.precomputed ≠ Metric.precomputed)) X with
  | some err => rw [h1] at hok; cases hok
  | none =>
    rw [h1] at hok
    simp only [Option.isSome_some, and_self, if_true] at hok ⊢
    cases h2 : c.sk Metric.precomputed ((some (XFit.zeros X)).getD (XFit.flat X)) with
    | some err => rw [h2] at hok; cases hok
    | none =>
      simp only [Option.getD_some]
      refine ⟨trivial, ?_⟩
      intro a ha
      unfold knnKneighbors at ha ⊢
      simp only [hm, if_true] at ha ⊢
      cases h3 : c.query X q with
      | some err => rw [h3] at ha; cases ha
      | none =>
        rw [h3] at ha
        simp only at ha ⊢
        split at ha
        · next hh =>
          rw [if_pos hh]
          cases h4 : c.dist o.metric X q with
          | some err => rw [h4] at ha; cases ha
          | none => rw [h4] at ha; cases ha; exact ⟨rfl, rfl⟩
        · cases ha

/-- The same for a flat metric on an estimator that never had an elastic one. -/
theorem C40_flat_partial (c : KnnChecks D Q) (o : KnnObj D) (X : D) (hm : o.metric.flat = true) (ht : o.tsMetric = none)
    (hok : (knnFit c o X).2 = none) (q : Option Q) :
    (knnFit c o X).1.metric = o.metric ∧ (knnFit c o X).1.tsMetric = none ∧
    ∀ a, (knnKneighbors c (knnFit c o X).1 q).2 = .ok a →
      (a = match q with
        | some q => .near o.metric (.flat X) q
        | none => .self o.metric (.flat X)) ∧ (knnKneighbors c (knnFit c o X).1 q).1 = (knnFit c o X).1 := by
  have he : o.metric.elastic = false := by revert hm; cases o.metric <;> simp [Metric.flat, Metric.elastic]
  have hp : o.metric ≠ .precomputed := by revert hm; cases o.metric <;> simp [Metric.flat]
  unfold knnFit at hok ⊢
  simp only [he, Bool.false_eq_true, if_false] at hok ⊢
  cases h1 : c.fit (decide (o.metric ≠ Metric.precomputed)) X with
  | some err => rw [h1] at hok; cases hok
  | none =>
    rw [h1] at hok
    simp only [hp, false_and, if_false] at hok ⊢
    cases h2 : c.sk o.metric ((some (XFit.flat X)).getD (XFit.flat X)) with
    | some err => rw [h2] at hok; cases hok
    | none =>
      simp only [ht, Option.getD_none]
      refine ⟨trivial, trivial, ?_⟩
      intro a ha
      unfold knnKneighbors knnMixin at ha ⊢
      simp only [he, Bool.false_eq_true, if_false, hp, hm, if_true, Option.getD_none] at ha ⊢
      cases q with
      | none => cases ha; exact ⟨rfl, rfl⟩
      | some q =>
        simp only at ha ⊢
        cases h3 : c.flat (XFit.flat X) q with
        | some err => rw [h3] at ha; cases ha
        | none => rw [h3] at ha; cases ha; exact ⟨rfl, rfl⟩

/-- A history that never sets the metric. -/
def NoSet : List (KnnCall D Q) → Prop
  | [] => True
  | .setMetric _ :: _ => False
  | _ :: h => NoSet h

/-- What a history without `set_params` leaves, whether or not calls raised: `metric` is the one given, or `"precomputed"`. -/
def Kept (m : Metric) (o : KnnObj D) : Prop :=
  (o.metric = m ∨ (o.metric = .precomputed ∧ o.tsMetric = some m)) ∧ (o.tsMetric = none ∨ o.tsMetric = some m)

/-- `fit` from the checks on. -/
def fitTail (c : KnnChecks D Q) (o : KnnObj D) (X : D) : KnnObj D × Option PyErr :=
  match c.fit (o.metric ≠ .precomputed) X with
  | some err => (o, some err)
  | none =>
    let o := if o.metric = .precomputed ∧ o.tsMetric.isSome then { o with tsFit := some X, xFit := some (.zeros X) }
      else { o with xFit := some (.flat X) }
    match c.sk o.metric (o.xFit.getD (.flat X)) with
    | some err => (o, some err)
    | none => ({ o with metric := o.tsMetric.getD o.metric }, none)

theorem knnFit_tail (c : KnnChecks D Q) (o : KnnObj D) (X : D) :
    knnFit c o X = fitTail c (if o.metric.elastic then { o with tsMetric := some o.metric, metric := .precomputed } else o) X := rfl

theorem fitTail_kept (c : KnnChecks D Q) {m : Metric} {o : KnnObj D} (h1 : o.metric = .precomputed) (h2 : o.tsMetric = some m) (X : D) :
    Kept m (fitTail c o X).1 ∧ ((fitTail c o X).2 = none →
      (fitTail c o X).1.metric = m ∧ (fitTail c o X).1.tsFit = some X ∧ (fitTail c o X).1.tsMetric = some m) := by
  unfold fitTail
  cases c.fit (o.metric ≠ .precomputed) X with
  | some err => exact ⟨⟨.inr ⟨h1, h2⟩, .inr h2⟩, fun h => by cases h⟩
  | none =>
    simp only [h1, h2, Option.isSome_some, and_self, if_true]
    split
    · exact ⟨⟨.inr ⟨rfl, rfl⟩, .inr rfl⟩, fun h => by cases h⟩
    · exact ⟨⟨.inl rfl, .inr rfl⟩, fun _ => ⟨rfl, rfl, rfl⟩⟩

theorem fit_kept (c : KnnChecks D Q) {m : Metric} (hm : m.elastic = true) {o : KnnObj D} (h : Kept m o) (X : D) : Kept m (knnFit c o X).1 ∧
    ((knnFit c o X).2 = none → (knnFit c o X).1.metric = m ∧ (knnFit c o X).1.tsFit = some X ∧ (knnFit c o X).1.tsMetric = some m) := by
  rw [knnFit_tail]
  rcases h.1 with h1 | ⟨h1, h2⟩
  · rw [h1, if_pos hm]
    exact fitTail_kept c rfl rfl X
  · rw [if_neg (by rw [h1]; decide)]
    exact fitTail_kept c h1 h2 X

theorem query_kept (c : KnnChecks D Q) {m : Metric} (hm : m.elastic = true) {o : KnnObj D} (h : Kept m o) (q : Option Q) :
    Kept m (knnKneighbors c o q).1 ∧ (knnKneighbors c o q).1.tsFit = o.tsFit ∧
    (∀ a, (knnKneighbors c o q).2 = .ok a → (knnKneighbors c o q).1.metric = m) ∧
    (o.metric = m → ∀ a, (knnKneighbors c o q).2 = .ok a → ∃ X q', o.tsFit = some X ∧ q = some q' ∧ a = .near m (.flat X) q') := by
  unfold knnKneighbors
  rcases h.1 with h1 | ⟨h1, h2⟩
  · simp only [h1, hm, if_true]
    cases o.tsFit with
    | none => exact ⟨⟨.inr ⟨rfl, rfl⟩, .inr rfl⟩, rfl, fun a h => (by cases h), fun _ a h => by cases h⟩
    | some X =>
      cases q with
      | none => exact ⟨⟨.inr ⟨rfl, rfl⟩, .inr rfl⟩, rfl, fun a h => (by cases h), fun _ a h => by cases h⟩
      | some q =>
        simp only
        cases c.query X q with
        | some err => exact ⟨⟨.inr ⟨rfl, rfl⟩, .inr rfl⟩, rfl, fun a h => (by cases h), fun _ a h => by cases h⟩
        | none =>
          simp only
          split
          · split
            · exact ⟨⟨.inr ⟨rfl, rfl⟩, .inr rfl⟩, rfl, fun a h => (by cases h), fun _ a h => by cases h⟩
            · exact ⟨⟨.inl rfl, .inr rfl⟩, rfl, fun a _ => rfl, fun _ a h => by cases h; exact ⟨X, q, rfl, rfl, rfl⟩⟩
          · exact ⟨⟨.inr ⟨rfl, rfl⟩, .inr rfl⟩, rfl, fun a h => (by cases h), fun _ a h => by cases h⟩
  · have he : ¬ o.metric.elastic = true := by rw [h1]; decide
    have hpm : ¬ Metric.precomputed = m := by rintro rfl; cases hm
    rw [if_neg he]
    have hmix : ∀ (x : XFit D) (q : Option Q), Kept m (knnMixin o x q).1 ∧ (knnMixin o x q).1.tsFit = o.tsFit ∧
        (∀ a, (knnMixin o x q).2 = .ok a → (knnMixin o x q).1.metric = m) := by
      intro x q
      unfold knnMixin
      rw [if_pos h1]
      simp only [h2, Option.getD_some]
      exact ⟨⟨.inl rfl, .inr rfl⟩, trivial, fun _ _ => trivial⟩
    cases o.xFit with
    | none => exact ⟨h, rfl, fun a h => (by cases h), fun e => absurd (h1.symm.trans e) hpm⟩
    | some x =>
      cases q with
      | none =>
        obtain ⟨a1, a2, a3⟩ := hmix x none
        exact ⟨a1, a2, a3, fun e => absurd (h1.symm.trans e) hpm⟩
      | some q =>
        simp only
        cases c.flat x q with
        | some err => exact ⟨h, rfl, fun a h => (by cases h), fun e => absurd (h1.symm.trans e) hpm⟩
        | none =>
          obtain ⟨a1, a2, a3⟩ := hmix x (some q)
          exact ⟨a1, a2, a3, fun e => absurd (h1.symm.trans e) hpm⟩

theorem run_kept (c : KnnChecks D Q) {m : Metric} (hm : m.elastic = true) : ∀ (h : List (KnnCall D Q)), NoSet h → ∀ (o : KnnObj D), Kept m o →
    Kept m (knnRun c o h)
  | [], _, _, hk => hk
  | .setMetric _ :: _, hn, _, _ => hn.elim
  | .fit X :: h, hn, _, hk => run_kept c hm h hn _ (fit_kept c hm hk X).1
  | .kneighbors q :: h, hn, _, hk => run_kept c hm h hn _ (query_kept c hm hk q).1

/-- The last dataset of a history in which every call succeeds. -/
def AllOk (c : KnnChecks D Q) : KnnObj D → List (KnnCall D Q) → Prop
  | _, [] => True
  | o, .setMetric m :: h => AllOk c { o with metric := m } h
  | o, .fit X :: h => (knnFit c o X).2 = none ∧ AllOk c (knnFit c o X).1 h
  | o, .kneighbors q :: h => (∃ a, (knnKneighbors c o q).2 = .ok a) ∧ AllOk c (knnKneighbors c o q).1 h

/-- The dataset last fitted. -/
def lastFit : Option D → List (KnnCall D Q) → Option D
  | x, [] => x
  | _, .fit X :: h => lastFit (some X) h
  | x, _ :: h => lastFit x h

/-- Full claim: after every history, `metric` is the one last set and every query is answered from the dataset last fitted. Missing (and
false, see below): histories with calls that raise, and with changes of `metric`. -/
theorem C40_history_partial (c : KnnChecks D Q) (m : Metric) (hm : m.elastic = true) : ∀ (h : List (KnnCall D Q)) (_ : NoSet h) (o : KnnObj D)
    (_ : o.metric = m) (_ : o.tsMetric = none ∨ o.tsMetric = some m) (_ : AllOk c o h),
    (knnRun c o h).metric = m ∧ (knnRun c o h).tsFit = lastFit o.tsFit h ∧
    ∀ q a, (knnKneighbors c (knnRun c o h) q).2 = .ok a → ∃ X q', lastFit o.tsFit h = some X ∧ q = some q' ∧ a = .near m (.flat X) q'
  | [], _, o, h1, h2, _ => by
    obtain ⟨-, -, -, k⟩ := query_kept c hm (o := o) ⟨.inl h1, h2⟩ (none : Option Q)
    exact ⟨h1, rfl, fun q a ha => (query_kept c hm (o := o) ⟨.inl h1, h2⟩ q).2.2.2 h1 a ha⟩
  | .setMetric _ :: _, hn, _, _, _, _ => hn.elim
  | .fit X :: h, hn, o, h1, h2, hok => by
    obtain ⟨a1, a2⟩ := fit_kept c hm (o := o) ⟨.inl h1, h2⟩ X
    obtain ⟨b1, b2, b3⟩ := a2 hok.1
    have := C40_history_partial c m hm h hn (knnFit c o X).1 b1 (.inr b3) hok.2
    rw [b2] at this
    exact this
  | .kneighbors q :: h, hn, o, h1, h2, hok => by
    obtain ⟨a1, a2, a3, -⟩ := query_kept c hm (o := o) ⟨.inl h1, h2⟩ q
    obtain ⟨⟨a, ha⟩, hok⟩ := hok
    have := C40_history_partial c m hm h hn (knnKneighbors c o q).1 (a3 a ha) a1.2 hok
    rw [a2] at this
    exact this

/-- After any history without `set_params`, whether or not calls raised, `metric` is the one given or `"precomputed"`; a successful
`fit` then restores it, and the next query is answered from the data of that `fit`. -/
theorem C40_recover (c : KnnChecks D Q) (m : Metric) (hm : m.elastic = true) (h : List (KnnCall D Q)) (hn : NoSet h) (X : D)
    (hok : (knnFit c (knnRun c (.new m) h) X).2 = none) :
    ((knnRun c (.new m) h).metric = m ∨ (knnRun c (.new m) h).metric = .precomputed) ∧
    (knnFit c (knnRun c (.new m) h) X).1.metric = m ∧
    ∀ q a, (knnKneighbors c (knnFit c (knnRun c (.new m) h) X).1 (some q)).2 = .ok a → a = .near m (.flat X) q := by
  have hk : Kept m (knnRun c (.new m) h) := run_kept c hm h hn _ ⟨.inl rfl, .inl rfl⟩
  obtain ⟨a1, a2⟩ := fit_kept c hm hk X
  obtain ⟨b1, b2, b3⟩ := a2 hok
  refine ⟨hk.1.imp id And.left, b1, fun q a ha => ?_⟩
  obtain ⟨X', q', e1, e2, e3⟩ := (query_kept c hm a1 (some q)).2.2.2 b1 a ha
  rw [b2] at e1
  cases e1
  cases e2
  exact e3

/-- False: `X` may be omitted. With an elastic metric it is always an error. -/
theorem C40_false_omitted (c : KnnChecks D Q) (o : KnnObj D) (hm : o.metric.elastic = true) :
    ∃ err, (knnKneighbors c o none).2 = .error err ∧ (knnKneighbors c o none).1.metric = .precomputed := by
  unfold knnKneighbors
  simp only [hm, if_true]
  cases o.tsFit with
  | none => exact ⟨_, rfl, rfl⟩
  | some X => exact ⟨_, rfl, rfl⟩

/-- False: a call that raises leaves `metric` alone. Every failing query with an elastic metric leaves `"precomputed"` behind. -/
theorem C40_false_error (c : KnnChecks D Q) (o : KnnObj D) (hm : o.metric.elastic = true) (q : Option Q) (err : PyErr)
    (h : (knnKneighbors c o q).2 = .error err) : (knnKneighbors c o q).1.metric = .precomputed ∧ o.metric ≠ .precomputed := by
  refine ⟨?_, fun h => by rw [h] at hm; cases hm⟩
  unfold knnKneighbors at h ⊢
  simp only [hm, if_true] at h ⊢
  cases ht : o.tsFit with
  | none => rfl
  | some X =>
    cases q with
    | none => rfl
    | some q =>
      rw [ht] at h
      simp only at h ⊢
      cases h1 : c.query X q with
      | some err => rfl
      | none =>
        rw [h1] at h
        simp only at h ⊢
        split
        · next hh =>
          rw [if_pos hh] at h
          cases h2 : c.dist o.metric X q with
          | some err => rfl
          | none => rw [h2] at h; cases h
        · rfl

/-- False: queries after a failed one are answered from the fitted data. The next query that passes the checks for flat data has its own
values read as distances. -/
theorem C40_false_raw (c : KnnChecks D Q) (X : D) (q : Q) (h1 : (knnFit c (.new .dtw) X).2 = none) (h2 : c.flat (.zeros X) q = none) :
    (knnKneighbors c (knnKneighbors c (knnFit c (.new .dtw) X).1 none).1 (some q)).2 = .ok (.raw (some q)) := by
  unfold knnFit at h1 ⊢
  cases e1 : c.fit (decide (Metric.precomputed ≠ Metric.precomputed)) X with
  | some err => simp [KnnObj.new, Metric.elastic] at h1 e1; rw [e1] at h1; cases h1
  | none =>
    simp only [KnnObj.new, Metric.elastic, if_true, e1, Option.isSome_some, and_self] at h1 ⊢
    cases e2 : c.sk Metric.precomputed ((some (XFit.zeros X)).getD (XFit.flat X)) with
    | some err => rw [e2] at h1; cases h1
    | none => simp [knnKneighbors, knnMixin, Metric.elastic, h2]

/-- False: setting another metric and fitting again uses that metric and the new data. Fit with `dtw`, set any flat metric, fit on other
data: `metric` is `dtw` again, and queries are answered with `dtw` from the *first* dataset. -/
theorem C40_false_switch (c : KnnChecks D Q) (X1 X2 : D) (m : Metric) (hm : m.flat = true) (q : Q) (h1 : (knnFit c (.new .dtw) X1).2 = none)
    (h2 : (knnFit c { (knnFit c (.new .dtw) X1).1 with metric := m } X2).2 = none) (h3 : c.query X1 q = none) (h4 : c.dist .dtw X1 q = none) :
    (knnFit c { (knnFit c (.new .dtw) X1).1 with metric := m } X2).1.metric = .dtw ∧
    (knnKneighbors c (knnFit c { (knnFit c (.new .dtw) X1).1 with metric := m } X2).1 (some q)).2 = .ok (.near .dtw (.flat X1) q) := by
  have he : m.elastic = false := by revert hm; cases m <;> simp [Metric.flat, Metric.elastic]
  have hp : m ≠ .precomputed := by revert hm; cases m <;> simp [Metric.flat]
  have e0 : (knnFit c (.new .dtw) X1).1 = ⟨.dtw, some .dtw, some X1, some (.zeros X1)⟩ := by
    unfold knnFit at h1 ⊢
    cases e1 : c.fit (decide (Metric.precomputed ≠ Metric.precomputed)) X1 with
    | some err => simp [KnnObj.new, Metric.elastic] at h1 e1; rw [e1] at h1; cases h1
    | none =>
      simp only [KnnObj.new, Metric.elastic, if_true, e1, Option.isSome_some, and_self] at h1 ⊢
      cases e2 : c.sk Metric.precomputed ((some (XFit.zeros X1)).getD (XFit.flat X1)) with
      | some err => rw [e2] at h1; cases h1
      | none => rfl
  rw [e0] at h2 ⊢
  have e1 : (knnFit c { (⟨.dtw, some .dtw, some X1, some (.zeros X1)⟩ : KnnObj D) with metric := m } X2).1 =
      ⟨.dtw, some .dtw, some X1, some (.flat X2)⟩ := by
    unfold knnFit at h2 ⊢
    simp only [he, Bool.false_eq_true, if_false] at h2 ⊢
    cases f1 : c.fit (decide (m ≠ Metric.precomputed)) X2 with
    | some err => rw [f1] at h2; cases h2
    | none =>
      rw [f1] at h2
      simp only [hp, false_and, if_false] at h2 ⊢
      cases f2 : c.sk m ((some (XFit.flat X2)).getD (XFit.flat X2)) with
      | some err => rw [f2] at h2; cases h2
      | none => rfl
  rw [e1]
  refine ⟨rfl, ?_⟩
  simp [knnKneighbors, Metric.elastic, Metric.handled, h3, h4]

/-- False: metrics accepted by `fit` can be queried. `sax`, `gak`, `lcss` and `softdtw_normalized` cannot. -/
theorem C40_false_unhandled (c : KnnChecks D Q) (o : KnnObj D)
    (hm : o.metric = .sax ∨ o.metric = .gak ∨ o.metric = .lcss ∨ o.metric = .softdtwNormalized) (q : Option Q) :
    ∃ err, (knnKneighbors c o q).2 = .error err := by
  have he : o.metric.elastic = true := by rcases hm with h | h | h | h <;> rw [h] <;> rfl
  have hh : o.metric.handled = false := by rcases hm with h | h | h | h <;> rw [h] <;> rfl
  unfold knnKneighbors
  simp only [he, if_true, hh]
  cases o.tsFit with
  | none => exact ⟨_, rfl⟩
  | some X =>
    cases q with
    | none => exact ⟨_, rfl⟩
    | some q =>
      simp only
      cases c.query X q with
      | some err => exact ⟨_, rfl⟩
      | none => exact ⟨_, rfl⟩

/-- The four others can: a query that passes the checks is answered with that metric from the fitted data. -/
theorem C40_handled (c : KnnChecks D Q) (o : KnnObj D) (hm : o.metric = .dtw ∨ o.metric = .ctw ∨ o.metric = .softdtw ∨ o.metric = .frechet)
    (X : D) (hX : o.tsFit = some X) (q : Q) (h1 : c.query X q = none) (h2 : c.dist o.metric X q = none) :
    (knnKneighbors c o (some q)).2 = .ok (.near o.metric (.flat X) q) := by
  have he : o.metric.elastic = true := by rcases hm with h | h | h | h <;> rw [h] <;> rfl
  have hh : o.metric.handled = true := by rcases hm with h | h | h | h <;> rw [h] <;> rfl
  unfold knnKneighbors
  simp only [he, if_true, hh, hX, h1, h2]

/-- The three flat metrics are answered too, on an estimator that never had an elastic one. -/
theorem C40_flat_handled (c : KnnChecks D Q) (o : KnnObj D) (hm : o.metric = .euclidean ∨ o.metric = .sqeuclidean ∨ o.metric = .cityblock)
    (x : XFit D) (hx : o.xFit = some x) (q : Q) (h : c.flat x q = none) :
    (knnKneighbors c o (some q)).2 = .ok (.near o.metric x q) ∧ (knnKneighbors c o none).2 = .ok (.self o.metric x) := by
  have he : o.metric.elastic = false := by rcases hm with h | h | h <;> rw [h] <;> rfl
  have hf : o.metric.flat = true := by rcases hm with h | h | h <;> rw [h] <;> rfl
  have hp : o.metric ≠ .precomputed := by rcases hm with h | h | h <;> rw [h] <;> simp
  unfold knnKneighbors
  simp only [he, Bool.false_eq_true, if_false, hx, h, knnMixin, hp, hf, if_true, and_self]

/-- Changing the metric to another elastic one after `fit` is seen by the next query, which is answered from the same data. -/
theorem C40_set_metric_elastic (c : KnnChecks D Q) (o : KnnObj D) (hm : o.metric.elastic = true) (m' : Metric) (hm' : m'.handled = true)
    (X : D) (hok : (knnFit c o X).2 = none) (q : Q) (h1 : c.query X q = none) (h2 : c.dist m' X q = none) :
    (knnKneighbors c (knnRun c o [.fit X, .setMetric m']) (some q)).2 = .ok (.near m' (.flat X) q) := by
  have ht : (knnFit c o X).1.tsFit = some X := by
    unfold knnFit at hok ⊢
    simp only [hm, if_true] at hok ⊢
    cases h1 : c.fit (decide (Metric.precomputed ≠ Metric.precomputed)) X with
    | some err => rw [h1] at hok; cases hok
    | none =>
      rw [h1] at hok
      simp only [Option.isSome_some, and_self, if_true] at hok ⊢
      split at hok
      · cases hok
      · rfl
  have hh : m' = .dtw ∨ m' = .ctw ∨ m' = .softdtw ∨ m' = .frechet := by revert hm'; cases m' <;> simp [Metric.handled]
  exact C40_handled c (knnRun c o [.fit X, .setMetric m']) hh X ht q h1 h2

/-- Checks that accept everything but dataset 9. -/
def lenient : KnnChecks ℕ ℕ := ⟨fun _ X => if X = 9 then some .valueError else none, fun _ _ => none, fun _ _ => none, fun _ _ _ => none, fun _ _ => none⟩

example : (knnKneighbors lenient (knnFit lenient (.new .dtw) 3).1 (some 7)).2 = .ok (.near .dtw (.flat 3) 7) := rfl

example : (knnFit lenient (.new .dtw) 3).1.metric = .dtw := (C40_fit_partial lenient (.new .dtw) 3 rfl rfl 0).1

example : (knnFit lenient (.new .euclidean) 3).1.metric = .euclidean := (C40_flat_partial lenient (.new .euclidean) 3 rfl rfl rfl none).1

example : (knnRun lenient (.new .ctw) [.fit 3, .kneighbors (some 1), .fit 4]).tsFit = some 4 :=
  (C40_history_partial lenient .ctw rfl [.fit 3, .kneighbors (some 1), .fit 4] trivial (.new .ctw) rfl (.inl rfl)
    ⟨rfl, ⟨.near .ctw (.flat 3) 1, rfl⟩, rfl, trivial⟩).2.1

example : (knnFit lenient (knnRun lenient (.new .dtw) [.fit 3, .kneighbors none, .fit 9]) 5).1.metric = .dtw ∧
    (knnRun lenient (.new .dtw) [.fit 3, .kneighbors none, .fit 9]).metric = .precomputed :=
  ⟨(C40_recover lenient .dtw rfl [.fit 3, .kneighbors none, .fit 9] trivial 5 rfl).2.1, by decide⟩

example : ∃ err, (knnKneighbors lenient (.new .dtw) none).2 = .error err ∧ (knnKneighbors lenient (.new .dtw) none).1.metric = .precomputed :=
  C40_false_omitted lenient (.new .dtw) rfl

example : (knnKneighbors lenient (.new .dtw) (some 1)).1.metric = .precomputed :=
  (C40_false_error lenient (.new .dtw) rfl (some 1) .notFitted rfl).1

example : (knnKneighbors lenient (knnKneighbors lenient (knnFit lenient (.new .dtw) 3).1 none).1 (some 1)).2 = .ok (.raw (some 1)) :=
  C40_false_raw lenient 3 1 rfl rfl

example : (knnKneighbors lenient (knnFit lenient { (knnFit lenient (.new .dtw) 3).1 with metric := .euclidean } 4).1 (some 1)).2 = .ok (.near .dtw (.flat 3) 1) :=
  (C40_false_switch lenient 3 4 .euclidean rfl 1 rfl rfl rfl rfl).2

example : ∃ err, (knnKneighbors lenient (knnFit lenient (.new .sax) 3).1 (some 1)).2 = .error err :=
  C40_false_unhandled lenient (knnFit lenient (.new .sax) 3).1 (.inl rfl) (some 1)

example : (knnKneighbors lenient (knnFit lenient (.new .frechet) 3).1 (some 1)).2 = .ok (.near .frechet (.flat 3) 1) :=
  C40_handled lenient (knnFit lenient (.new .frechet) 3).1 (.inr (.inr (.inr rfl))) 3 rfl 1 rfl rfl

example : (knnKneighbors lenient (knnFit lenient (.new .sqeuclidean) 3).1 (some 1)).2 = .ok (.near .sqeuclidean (.flat 3) 1) :=
  (C40_flat_handled lenient (knnFit lenient (.new .sqeuclidean) 3).1 (.inr (.inl rfl)) (.flat 3) rfl 1 rfl).1

example : (knnKneighbors lenient (knnRun lenient (.new .dtw) [.fit 3, .setMetric .frechet]) (some 1)).2 = .ok (.near .frechet (.flat 3) 1) :=
  C40_set_metric_elastic lenient (.new .dtw) rfl .frechet rfl 3 rfl 1 rfl rfl

end Verif
