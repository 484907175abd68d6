import Verif.Model.Gaps
import Verif.Props.C09
import Verif.Props.C39
import Verif.Props.C115
import Verif.Props.C01
import Mathlib.Data.Set.Card
/-!
# C117 — nearest neighbours and k-means on series with gaps
-/
set_option linter.unusedSectionVars false
namespace Verif
open Spec

section
variable {K : Type} [CommRing K] [LinearOrder K] [IsStrictOrderedRing K]

/-- A series of `d` features with an observed sample. -/
def Usable (d : ℕ) (t : Ts K) : Prop := t.WF ∧ t.d = d ∧ t.trim.rows ≠ []

/-- Some value before the last observed sample, or beside it, is missing. -/
def Gapped (t : Ts K) : Prop := HasMissing t.trim.rows

theorem Usable.seen {d : ℕ} {t t' : Ts K} (h : Usable d t) (h' : Usable d t') : Seen (.twoD t.rows) (.twoD t'.rows) d t.trim.rows t'.trim.rows := by
  refine ⟨rfl, rfl, h.2.2, h'.2.2, ?_, ?_⟩
  · intro r hr
    rw [← h.2.1]
    exact h.1 r (List.mem_of_mem_take hr)
  · intro r hr
    rw [← h'.2.1]
    exact h'.1 r (List.mem_of_mem_take hr)

theorem kernel_eq {d : ℕ} {t t' : Ts K} (h : Usable d t) (h' : Usable d t') (be : Backend) (gc : Option String) (radius : Option ℕ) (slope : Option ℚ)
    {code : ℕ} (hc : gcCode gc = .ok code) :
    onGaps (gapDtwKernel be code radius slope) t t' = nanDtwSq be (.twoD t.rows) (.twoD t'.rows) gc radius slope := by
  unfold onGaps nanDtwSq
  rw [if_neg (by simp [h.2.2, h'.2.2]), (h.seen h').validate, hc]
  rfl

theorem onGaps_congr {W : Type} (f : List (List (Option K)) → List (List (Option K)) → Except PyErr W) {s s' t t' : Ts K} (h : s.trim = t.trim)
    (h' : s'.trim = t'.trim) : onGaps f s s' = onGaps f t t' := by
  unfold onGaps
  rw [h, h']

/-- Entries of the matrix of two datasets. -/
theorem cdist_entry {l l' : List (Ts K)} {d : ℕ} (hl : ∀ t ∈ l, Usable d t) (hl' : ∀ t ∈ l', Usable d t) (be : Backend) {gc : Option String}
    {radius : Option ℕ} {slope : Option ℚ} {run} (hrun : Execution run) {M : Mat (Nv K)}
    (h : gapCdistDtw be (.series l) (some (.series l')) gc radius slope run = .ok M) {i j : ℕ} {t t' : Ts K} (hi : l[i]? = some t)
    (hj : l'[j]? = some t') : nanDtwSq be (.twoD t.rows) (.twoD t'.rows) gc radius slope = .ok (M i j) := by
  simp only [gapCdistDtw, bind, Except.bind] at h
  cases hX : toDataset (.series l) with
  | error e => simp [hX] at h
  | ok X =>
    cases hY : toDataset (.series l') with
    | error e => simp [hX, hY, Except.map] at h
    | ok Y =>
      cases hc : gcCode gc with
      | error e => simp [hX, hY, hc, Except.map] at h
      | ok code =>
        simp only [hX, hY, hc, Except.map] at h
        obtain ⟨s, hs, hst⟩ := slot_trim (fun t ht => ⟨(hl t ht).1, (hl t ht).2.1⟩) hX hi
        obtain ⟨s', hs', hst'⟩ := slot_trim (fun t ht => ⟨(hl' t ht).1, (hl' t ht).2.1⟩) hY hj
        have e := cdistGeneric_cross hrun.faithful h i j s s' hs hs'
        rwa [onGaps_congr _ hst hst', kernel_eq (hl t (List.mem_of_getElem? hi)) (hl' t' (List.mem_of_getElem? hj)) be gc radius slope hc] at e

/-- One dataset: `cdist_dtw(X)` is symmetric, has `dtw(X[i], X[j])` above the diagonal and zero on it. -/
theorem cdist_self {l : List (Ts K)} {d : ℕ} (hl : ∀ t ∈ l, Usable d t) (be : Backend) {gc : Option String}
    {radius : Option ℕ} {slope : Option ℚ} {run} (hrun : Execution run) {M : Mat (Nv K)}
    (h : gapCdistDtw be (.series l) none gc radius slope run = .ok M) {i j : ℕ} {t t' : Ts K} (hi : l[i]? = some t)
    (hj : l[j]? = some t') : (i < j → nanDtwSq be (.twoD t.rows) (.twoD t'.rows) gc radius slope = .ok (M i j)) ∧
      (j < i → nanDtwSq be (.twoD t'.rows) (.twoD t.rows) gc radius slope = .ok (M i j)) ∧ (i = j → M i j = some 0) := by
  simp only [gapCdistDtw, bind, Except.bind, pure, Except.pure] at h
  cases hX : toDataset (.series l) with
  | error e => simp [hX] at h
  | ok X =>
    cases hc : gcCode gc with
    | error e => simp [hX, hc] at h
    | ok code =>
      simp only [hX, hc] at h
      have hwf : ∀ t ∈ l, t.WF ∧ t.d = d := fun t ht => ⟨(hl t ht).1, (hl t ht).2.1⟩
      obtain ⟨s, hs, hst⟩ := slot_trim hwf hX hi
      obtain ⟨s', hs', hst'⟩ := slot_trim hwf hX hj
      obtain ⟨e1, e2, e3⟩ := cdistGeneric_self hrun.faithful h i j s s' hs hs'
      have u := hl t (List.mem_of_getElem? hi)
      have u' := hl t' (List.mem_of_getElem? hj)
      rw [onGaps_congr _ hst hst', kernel_eq u u' be gc radius slope hc] at e1
      rw [onGaps_congr _ hst' hst, kernel_eq u' u be gc radius slope hc] at e2
      exact ⟨e1, e2, fun hij => by simpa using e3 hij⟩

theorem observed_of_whole {x : List (List (Option K))} (h : ¬ HasMissing x) : ∃ u, x = observed u := by
  induction x with
  | nil => exact ⟨[], rfl⟩
  | cons r x ih =>
    obtain ⟨u, hu⟩ := ih fun ⟨row, hr, hm⟩ => h ⟨row, List.mem_cons_of_mem _ hr, hm⟩
    have hr : ∀ v ∈ r, v ≠ none := by
      rintro v hv rfl
      exact h ⟨r, by simp, hv⟩
    have : ∃ w : List K, r = w.map some := by
      clear h hu
      induction r with
      | nil => exact ⟨[], rfl⟩
      | cons v r ihr =>
        obtain ⟨w, hw⟩ := ihr fun v hv => hr v (List.mem_cons_of_mem _ hv)
        obtain ⟨a, ha⟩ := Option.ne_none_iff_exists'.1 (hr v (by simp))
        exact ⟨a :: w, by simp [ha, ← hw]⟩
    obtain ⟨w, hw⟩ := this
    exact ⟨w :: u, by simp [observed, hw, hu]⟩

/-- Two complete series: a number, the least cost of a warping path. -/
theorem whole_dtw {d : ℕ} {t t' : Ts K} (h : Usable d t) (h' : Usable d t') {u v : List (List K)} (hu : t.trim.rows = observed u)
    (hv : t'.trim.rows = observed v) : ∃ w : K, nanDtwSq .numpy (.twoD t.rows) (.twoD t'.rows) none none none = .ok (some (w : WithTop K)) ∧
      IsLeast {c | ∃ p, IsWarpingPath u.length v.length p ∧ c = sumCost (sampleCost u v) p} w := by
  have hs := h.seen h'
  rw [hu, hv] at hs
  have hu0 : u ≠ [] := by rintro rfl; exact h.2.2 (by rw [hu]; rfl)
  have hv0 : v ≠ [] := by rintro rfl; exact h'.2.2 (by rw [hv]; rfl)
  have hm : computeMask u.length v.length 0 none none = .ok (Mat.full true) := rfl
  obtain ⟨w, hw, htop, hval⟩ := C01_dtw_squared u v hu0 hv0 0 none none (Mat.full true) hm
  have hd : nanDtwSq .numpy (.twoD t.rows) (.twoD t'.rows) none none none = .ok (some w) := by
    rw [(C115_agrees _ _ d u v hs none none none).1, dtwSq, hs.validatePair]
    simp only [gcCode, Except.map, bind, Except.bind]
    rw [hw]
  obtain ⟨p, -, hp⟩ := C115_path _ _ d _ _ hs none none none (fun _ _ _ => 0) _ hd
  rw [observed_length, observed_length] at hp
  have hne : w ≠ ⊤ := fun hc => htop.1 hc ⟨p, hp, fun _ _ => rfl⟩
  obtain ⟨a, rfl⟩ := WithTop.ne_top_iff_exists.1 hne
  refine ⟨a, hd, ?_⟩
  have := (hval a).1 rfl
  have he : {c | ∃ p, Admissible u.length v.length (Mat.full true) p ∧ c = sumCost (sampleCost u v) p} =
      {c | ∃ p, IsWarpingPath u.length v.length p ∧ c = sumCost (sampleCost u v) p} := by
    ext c
    exact ⟨fun ⟨p, hp, hc⟩ => ⟨p, hp.1, hc⟩, fun ⟨p, hp, hc⟩ => ⟨p, ⟨hp, fun _ _ => rfl⟩, hc⟩⟩
  rwa [he] at this

/-! ## Nearest neighbours -/

theorem split_sorted {T : Type} [LinearOrder T] (g : ℕ → T) (p : ℕ → Bool) : ∀ out : List ℕ, out.Pairwise (fun i j => g i ≤ g j) →
    (∀ i ∈ out, ∀ j ∈ out, p i = true → p j = false → g i < g j) → out = out.filter p ++ out.filter fun i => !p i
  | [], _, _ => rfl
  | a :: l, hs, hg => by
    have ih := split_sorted g p l (List.pairwise_cons.1 hs).2 fun i hi j hj => hg i (List.mem_cons_of_mem _ hi) j (List.mem_cons_of_mem _ hj)
    by_cases ha : p a = true
    · simp only [List.filter_cons, ha, if_true, List.cons_append]
      rw [if_neg (by simp), ← ih]
    · have hl : ∀ b ∈ l, p b = false := by
        intro b hb
        by_contra hb'
        have := hg b (List.mem_cons_of_mem _ hb) a (by simp) (by simpa using hb') (by simpa using ha)
        exact absurd ((List.pairwise_cons.1 hs).1 b hb) (not_le.2 this)
      have e1 : (a :: l).filter p = [] := by
        rw [List.filter_eq_nil_iff]
        intro b hb
        rcases List.mem_cons.1 hb with rfl | hb
        · exact ha
        · simp [hl b hb]
      have e2 : (a :: l).filter (fun i => !p i) = a :: l := by
        rw [List.filter_eq_self]
        intro b hb
        rcases List.mem_cons.1 hb with rfl | hb
        · simpa using ha
        · simp [hl b hb]
      rw [e1, e2, List.nil_append]

/-- The nearest under an order in which the accepted candidates come before the others. -/
theorem nearest_split {T T' : Type} [LinearOrder T] [LinearOrder T'] (g : ℕ → T) (f : ℕ → T') (n k : ℕ) (p : ℕ → Bool) (out : List ℕ)
    (h : KNearest g n (min k n) (fun _ => True) out) (hsep : ∀ i < n, ∀ j < n, p i = true → p j = false → g i < g j)
    (hf : ∀ i < n, ∀ j < n, p i = true → p j = true → (g i ≤ g j ↔ f i ≤ f j)) :
    out = out.filter p ++ out.filter (fun i => !p i) ∧
      KNearest f n (min k ((List.range n).filter p).length) (fun i => p i = true) (out.filter p) := by
  have hlt : ∀ i ∈ out, i < n := fun i hi => (h.mem i hi).1
  have hsub : ∀ i ∈ out.filter p, i ∈ out ∧ p i = true := fun i hi => List.mem_filter.1 hi
  refine ⟨split_sorted g p out h.sorted fun i hi j hj => hsep i (hlt i hi) j (hlt j hj), ?_, h.nodup.filter _, ?_, ?_, ?_⟩
  · have hle : ∀ l : List ℕ, l.Nodup → (∀ i ∈ l, i < n) → (l.filter p).length ≤ ((List.range n).filter p).length := by
      intro l hn hl
      refine (List.subperm_of_subset (hn.filter _) ?_).length_le
      intro i hi
      rw [List.mem_filter] at hi ⊢
      exact ⟨List.mem_range.2 (hl i hi.1), hi.2⟩
    have h1 := hle out h.nodup hlt
    have h2 : (out.filter p).length ≤ min k n := h.length ▸ List.length_filter_le _ _
    by_cases hall : ∀ j < n, p j = true → j ∈ out
    · have : ((List.range n).filter p).length ≤ (out.filter p).length := by
        refine (List.subperm_of_subset (List.nodup_range.filter _) ?_).length_le
        intro i hi
        rw [List.mem_filter] at hi ⊢
        exact ⟨hall i (List.mem_range.1 hi.1) hi.2, hi.2⟩
      omega
    · push Not at hall
      obtain ⟨j, hj, hp, hnot⟩ := hall
      have hself : out.filter p = out := by
        rw [List.filter_eq_self]
        intro i hi
        by_contra hc
        exact absurd (h.least j hj trivial hnot i hi) (not_le.2 (hsep j hj i (hlt i hi) hp (by simpa using hc)))
      have hstrict : (out.filter p).length < ((List.range n).filter p).length := by
        have := (List.subperm_of_subset (l₁ := j :: out.filter p) (l₂ := (List.range n).filter p)
          (List.nodup_cons.2 ⟨fun hc => hnot (List.mem_filter.1 hc).1, h.nodup.filter _⟩) (by
            intro i hi
            rw [List.mem_filter, List.mem_range]
            rcases List.mem_cons.1 hi with rfl | hi
            · exact ⟨hj, hp⟩
            · exact ⟨hlt i (hsub i hi).1, (hsub i hi).2⟩)).length_le
        simpa using this
      have hcn : ((List.range n).filter p).length ≤ n := by simpa using List.length_filter_le p (List.range n)
      rw [hself, h.length] at hstrict ⊢
      omega
  · exact fun i hi => ⟨hlt i (hsub i hi).1, (hsub i hi).2⟩
  · rw [List.pairwise_filter]
    refine h.sorted.imp_of_mem fun {i j} hi hj hij hpi hpj => (hf i (hlt i hi) j (hlt j hj) hpi hpj).1 hij
  · intro j hj hp hnot i hi
    have hnot' : j ∉ out := fun hc => hnot (List.mem_filter.2 ⟨hc, hp⟩)
    exact (hf i (hlt i (hsub i hi).1) j hj (hsub i hi).2 hp).1 (h.least j hj trivial hnot' i (hsub i hi).1)

theorem dataset_ok {l : List (Ts K)} {d : ℕ} (hl : ∀ t ∈ l, Usable d t) : ∃ X, toDataset (.series l) = .ok X ∧ ∀ s ∈ X.slots, s.trim.rows ≠ [] := by
  have hwf : ∀ t ∈ l, t.WF ∧ t.d = d := fun t ht => ⟨(hl t ht).1, (hl t ht).2.1⟩
  have hX : ∃ X, toDataset (.series l) = .ok X := by
    by_cases h0 : l = []
    · subst h0; exact ⟨_, rfl⟩
    · obtain ⟨X, hX, -⟩ := C23_content l d h0 hwf
      exact ⟨X, hX⟩
  obtain ⟨X, hX⟩ := hX
  refine ⟨X, hX, fun s hs => ?_⟩
  have : s.trim ∈ l.map Ts.trim := by
    rw [← C23_recover l d hwf X hX]
    exact List.mem_map_of_mem hs
  obtain ⟨t, ht, e⟩ := List.mem_map.1 this
  rw [← e]
  exact (hl t ht).2.2

/-- Without a constraint nothing is refused: neither the matrix nor the neighbours. -/
theorem C117_total (S : Selector (WithTop (WithTop K))) (train queries : List (Ts K)) (d k : ℕ) (ht : ∀ t ∈ train, Usable d t)
    (hq : ∀ t ∈ queries, Usable d t) {run} (hrun : Execution run) (be : Backend) :
    (∃ M, gapCdistDtw be (.series train) none none none none run = .ok M) ∧
    (∃ M, gapCdistDtw be (.series queries) (some (.series train)) none none none run = .ok M) ∧
    ∃ r, gapKneighbors S train queries k none none none run = .ok r ∧ r.length = queries.length := by
  obtain ⟨X, hX, hXn⟩ := dataset_ok ht
  obtain ⟨Y, hY, hYn⟩ := dataset_ok hq
  have ker : ∀ (be : Backend) {s s' : Ts K}, s.trim.rows ≠ [] → s'.trim.rows ≠ [] → ∃ v, onGaps (gapDtwKernel be 0 none none) s s' = .ok v := by
    intro be s s' h h'
    unfold onGaps
    rw [if_neg (by simp [h, h'])]
    cases be <;> exact ⟨_, rfl⟩
  have cross : ∀ be, ∃ M, gapCdistDtw be (.series queries) (some (.series train)) none none none run = .ok M := by
    intro be
    obtain ⟨M, hM⟩ := cdistGeneric_total (dist := onGaps (gapDtwKernel be 0 none none)) (zero := some 0) (X := Y.slots) (Y := some X.slots)
      (diag := false) hrun.faithful (fun x hx y hy => ker be (hYn x hx) (hXn y hy))
    refine ⟨M, ?_⟩
    simp only [gapCdistDtw, hX, hY, bind, Except.bind, Except.map, gcCode]
    exact hM
  refine ⟨?_, cross be, ?_⟩
  · obtain ⟨M, hM⟩ := cdistGeneric_total (dist := onGaps (gapDtwKernel be 0 none none)) (zero := some 0) (X := X.slots) (Y := none)
      (diag := false) hrun.faithful (fun x hx y hy => ker be (hXn x hx) (hXn y hy))
    refine ⟨M, ?_⟩
    simp only [gapCdistDtw, hX, bind, Except.bind, pure, Except.pure, gcCode]
    exact hM
  · obtain ⟨M, hM⟩ := cross .numpy
    unfold gapKneighbors
    simp only [hM, bind, Except.bind, pure, Except.pure]
    exact ⟨_, rfl, by simp⟩

open Classical in
/-- `cdist_dtw(X)` of one dataset: symmetric, zero on the diagonal even where `dtw(X[i], X[i])` is NaN. An entry above the diagonal is NaN if the earlier
series has a gap, and if only the later one has, `inf` (NaN if the last sample of that series has a missing feature). -/
theorem C117_cdist (l : List (Ts K)) (d : ℕ) (hl : ∀ t ∈ l, Usable d t) {run} (hrun : Execution run) (M : Mat (Nv K))
    (h : gapCdistDtw .numpy (.series l) none none none none run = .ok M) (i j : ℕ) (t t' : Ts K) (hi : l[i]? = some t) (hj : l[j]? = some t') :
    M i j = M j i ∧ M i i = some 0 ∧ (Gapped t → nanDtwSq .numpy (.twoD t.rows) (.twoD t.rows) none none none = .ok none) ∧
    (i < j → (Gapped t → M i j = none) ∧
      (¬ Gapped t → Gapped t' → M i j = if RowMissing (t'.trim.rows.getLastD []) then none else some ⊤)) := by
  have u := hl t (List.mem_of_getElem? hi)
  have u' := hl t' (List.mem_of_getElem? hj)
  obtain ⟨e1, e2, e3⟩ := cdist_self hl .numpy hrun h hi hj
  obtain ⟨f1, f2, f3⟩ := cdist_self hl .numpy hrun h hj hi
  refine ⟨?_, (cdist_self hl .numpy hrun h hi hi).2.2 rfl, fun hg => C115_dtw_first _ _ d _ _ (u.seen u) hg, fun hij => ⟨fun hg => ?_, fun hw hg => ?_⟩⟩
  · rcases lt_trichotomy i j with hij | hij | hij
    · have := (e1 hij).symm.trans (f2 hij)
      exact Except.ok.inj this
    · rw [hij]
    · have := (e2 hij).symm.trans (f1 hij)
      exact Except.ok.inj this
  · exact Except.ok.inj ((e1 hij).symm.trans (C115_dtw_first _ _ d _ _ (u.seen u') hg))
  · obtain ⟨c1, c2⟩ := C115_dtw_second _ _ d _ _ (u.seen u') hw hg
    split
    · rename_i hr
      exact Except.ok.inj ((e1 hij).symm.trans (c1 hr))
    · rename_i hr
      exact Except.ok.inj ((e1 hij).symm.trans (c2 hr))

open Classical in
/-- A query without gaps. Its neighbours are the nearest complete training series, and only if there are fewer than `k` of them, series with gaps
follow, at distance `inf` or NaN. -/
theorem C117_neighbours {S : Selector (WithTop (WithTop K))} (hS : S.Valid) (train queries : List (Ts K)) (d k : ℕ) (hk : 0 < k) (hn : train ≠ [])
    (ht : ∀ t ∈ train, Usable d t) (hq : ∀ t ∈ queries, Usable d t) {run} (hrun : Execution run) (r : List (List ℕ × List (Nv K)))
    (h : gapKneighbors S train queries k none none none run = .ok r) (i : ℕ) (q : Ts K) (hi : queries[i]? = some q) (hw : ¬ Gapped q) (f : ℕ → K)
    (hf : ∀ j t, train[j]? = some t → ∀ u v, q.trim.rows = observed u → t.trim.rows = observed v →
      IsLeast {c | ∃ p, IsWarpingPath u.length v.length p ∧ c = sumCost (sampleCost u v) p} (f j)) :
    ∃ near rest : List ℕ, r[i]? = some (near ++ rest, near.map (fun j => some ((f j : K) : WithTop K)) ++
        rest.map fun j : ℕ => if RowMissing ((((train[j]?).map Ts.trim).elim [] Ts.rows).getLastD []) then none else some ⊤) ∧
      KNearest f train.length (min k {j : ℕ | ∃ t, train[j]? = some t ∧ ¬ Gapped t}.ncard) (fun j : ℕ => ∃ t, train[j]? = some t ∧ ¬ Gapped t) near ∧
      ∀ j ∈ rest, ∃ t, train[j]? = some t ∧ Gapped t := by
  unfold gapKneighbors at h
  cases hM : gapCdistDtw .numpy (.series queries) (some (.series train)) none none none run with
  | error e => rw [hM] at h; cases h
  | ok M =>
    rw [hM] at h
    simp only [bind, Except.bind, pure, Except.pure, Except.ok.injEq] at h
    have hilt : i < queries.length := (List.getElem?_eq_some_iff.1 hi).1
    have uq := hq q (List.mem_of_getElem? hi)
    obtain ⟨uu, huu⟩ := observed_of_whole hw
    set n := train.length with hnn
    have hn0 : 0 < n := List.length_pos_iff.2 hn
    let p : ℕ → Bool := fun j => decide (∃ t, train[j]? = some t ∧ ¬ Gapped t)
    have hp : ∀ j, p j = true ↔ ∃ t, train[j]? = some t ∧ ¬ Gapped t := fun j => decide_eq_true_iff
    -- the entries of the row
    have hwhole : ∀ j, p j = true → M i j = some ((f j : K) : WithTop K) := by
      intro j hj
      obtain ⟨t, htj, hg⟩ := (hp j).1 hj
      obtain ⟨v, hv⟩ := observed_of_whole hg
      have e := cdist_entry hq ht .numpy hrun hM hi htj
      obtain ⟨w, hw', hl⟩ := whole_dtw uq (ht t (List.mem_of_getElem? htj)) huu hv
      rw [Except.ok.inj (e.symm.trans hw'), hl.unique (hf j t htj uu v huu hv)]
    have hgap : ∀ j t, train[j]? = some t → Gapped t → M i j = if RowMissing (t.trim.rows.getLastD []) then none else some ⊤ := by
      intro j t htj hg
      have e := cdist_entry hq ht .numpy hrun hM hi htj
      obtain ⟨c1, c2⟩ := C115_dtw_second _ _ d _ _ (uq.seen (ht t (List.mem_of_getElem? htj))) hw hg
      split
      · rename_i hr
        exact Except.ok.inj (e.symm.trans (c1 hr))
      · rename_i hr
        exact Except.ok.inj (e.symm.trans (c2 hr))
    have hnot : ∀ j < n, p j = false → ∃ t, train[j]? = some t ∧ Gapped t := by
      intro j hj hpj
      refine ⟨train[j], List.getElem?_eq_getElem hj, ?_⟩
      by_contra hc
      have : p j = true := (hp j).2 ⟨train[j], List.getElem?_eq_getElem hj, hc⟩
      rw [this] at hpj
      cases hpj
    have hrow : ∀ j < n, ((List.range train.length).map (M i)).getD j none = M i j := fun j hj => by simp [List.getD_eq_getElem?_getD, ← hnn, hj]
    have hpn : ∀ j, p j = true → j < n := fun j hj => by
      obtain ⟨t, htj, -⟩ := (hp j).1 hj
      exact (List.getElem?_eq_some_iff.1 htj).1
    set g : ℕ → WithTop (WithTop K) := fun j => nanLast (((List.range train.length).map (M i)).getD j none) with hg
    have hgw : ∀ j, p j = true → g j = (((f j : K) : WithTop K) : WithTop (WithTop K)) := fun j hj => by
      simp only [hg]
      rw [hrow j (hpn j hj), hwhole j hj]
      rfl
    have hgg : ∀ j < n, p j = false → ((⊤ : WithTop K) : WithTop (WithTop K)) ≤ g j := by
      intro j hj hpj
      obtain ⟨t, htj, hgt⟩ := hnot j hj hpj
      simp only [hg]
      rw [hrow j hj, hgap j t htj hgt]
      split
      · exact le_top
      · exact le_rfl
    have hnear := C39_partial hS g n k hk hn0
    set out := knnRow S g n k false with hout
    obtain ⟨s1, s2⟩ := nearest_split g f n k p out hnear
      (fun a _ b hb ha hb' => lt_of_lt_of_le (by rw [hgw a ha]; exact WithTop.coe_lt_coe.2 (WithTop.coe_lt_top _)) (hgg b hb hb'))
      (fun a _ b _ ha hb => by rw [hgw a ha, hgw b hb, WithTop.coe_le_coe, WithTop.coe_le_coe])
    have hcard : ((List.range n).filter p).length = {j : ℕ | ∃ t, train[j]? = some t ∧ ¬ Gapped t}.ncard := by
      have e : {j : ℕ | ∃ t, train[j]? = some t ∧ ¬ Gapped t} = (((List.range n).filter p).toFinset : Set ℕ) := by
        ext j
        simp only [Set.mem_ofPred_eq, List.coe_toFinset, List.mem_filter, List.mem_range]
        rw [hp j]
        constructor
        · rintro ⟨t, h1, h2⟩
          exact ⟨(List.getElem?_eq_some_iff.1 h1).1, t, h1, h2⟩
        · exact fun h => h.2
      rw [e, Set.ncard_coe_finset, List.toFinset_card_of_nodup (List.nodup_range.filter _)]
    rw [hcard] at s2
    have hrest : ∀ j ∈ out.filter (fun i => !p i), ∃ t, train[j]? = some t ∧ Gapped t := by
      intro j hj
      rw [List.mem_filter] at hj
      exact hnot j (hnear.mem j hj.1).1 (by simpa using hj.2)
    refine ⟨out.filter p, out.filter fun i => !p i, ?_, ?_, hrest⟩
    · rw [← h, List.getElem?_map, List.getElem?_range hilt]
      simp only [Option.map_some, Option.some.injEq]
      refine Prod.ext s1 ?_
      simp only
      change List.map _ out = _
      conv_lhs => rw [s1]
      rw [List.map_append]
      congr 1
      · refine List.map_congr_left fun j hj => ?_
        rw [hrow j (hpn j (List.mem_filter.1 hj).2)]
        exact hwhole j (List.mem_filter.1 hj).2
      · refine List.map_congr_left fun j hj => ?_
        obtain ⟨t, htj, hgt⟩ := hrest j hj
        rw [hrow j (List.getElem?_eq_some_iff.1 htj).1, hgap j t htj hgt, htj]
        rfl
    · have e : (fun j => p j = true) = fun j => ∃ t, train[j]? = some t ∧ ¬ Gapped t := funext fun j => propext (hp j)
      rw [e] at s2
      exact s2

/-- A query with a gap: all distances are NaN, and the indices depend on nothing but the number of training series and `k`. -/
theorem C117_query {S : Selector (WithTop (WithTop K))} (hS : S.Valid) (train queries : List (Ts K)) (d k : ℕ) (hk : 0 < k) (hn : train ≠ [])
    (ht : ∀ t ∈ train, Usable d t) (hq : ∀ t ∈ queries, Usable d t) {run} (hrun : Execution run) (r : List (List ℕ × List (Nv K)))
    (h : gapKneighbors S train queries k none none none run = .ok r) (i : ℕ) (q : Ts K) (hi : queries[i]? = some q) (hg : Gapped q) :
    r[i]? = some (knnRow S (fun _ => ⊤) train.length k false, List.replicate (min k train.length) none) := by
  unfold gapKneighbors at h
  cases hM : gapCdistDtw .numpy (.series queries) (some (.series train)) none none none run with
  | error e => rw [hM] at h; cases h
  | ok M =>
    rw [hM] at h
    simp only [bind, Except.bind, pure, Except.pure, Except.ok.injEq] at h
    have hilt : i < queries.length := (List.getElem?_eq_some_iff.1 hi).1
    have uq := hq q (List.mem_of_getElem? hi)
    have hrow : (List.range train.length).map (M i) = (List.range train.length).map fun _ => none := by
      refine List.map_congr_left fun j hj => ?_
      have hj := List.mem_range.1 hj
      have e := cdist_entry hq ht .numpy hrun hM hi (List.getElem?_eq_getElem hj)
      exact Except.ok.inj (e.symm.trans (C115_dtw_first _ _ d _ _ (uq.seen (ht _ (List.getElem_mem hj))) hg))
    have hnone : ∀ j, ((List.range train.length).map fun _ => (none : Nv K)).getD j none = none := by
      intro j
      rw [List.getD_eq_getElem?_getD, List.getElem?_map]
      cases (List.range train.length)[j]? <;> rfl
    rw [← h, List.getElem?_map, List.getElem?_range hilt]
    simp only [Option.map_some, hrow, hnone]
    have hlen := (C39_partial hS (fun _ => (⊤ : WithTop (WithTop K))) train.length k hk (List.length_pos_iff.2 hn)).length
    rw [show (fun _ : ℕ => nanLast (none : Nv K)) = fun _ => ⊤ from rfl, List.map_const', hlen]

end

/-! ## k-means -/
section
variable {P C : Type}

/-- NaN or `inf`. -/
def Unreal (v : Fl) : Prop := v = .nan ∨ v = .inf

theorem Unreal.mul {v : Fl} (h : Unreal v) : Unreal (v.mul v) := by
  rcases h with rfl | rfl
  · exact .inl rfl
  · exact .inr rfl

theorem square_ninf (v : Fl) : v.mul v ≠ .ninf := by
  cases v <;> simp [Fl.mul, Fl.scale]

theorem add_unreal {a b : Fl} (ha : a ≠ .ninf) (hb : b ≠ .ninf) : a.add b ≠ .ninf ∧ (Unreal a ∨ Unreal b → Unreal (a.add b)) := by
  cases a <;> cases b <;> simp_all [Fl.add, Unreal]

theorem sum_unreal : ∀ (l : List Fl) (a : Fl), a ≠ .ninf → (∀ v ∈ l, v ≠ .ninf) → (Unreal a ∨ ∃ v ∈ l, Unreal v) → Unreal (l.foldl Fl.add a)
  | [], a, _, _, h => by simpa using h
  | v :: l, a, ha, hl, h => by
    obtain ⟨h1, h2⟩ := add_unreal ha (hl v (by simp))
    refine sum_unreal l _ h1 (fun w hw => hl w (List.mem_cons_of_mem _ hw)) ?_
    rcases h with h | ⟨w, hw, hn⟩
    · exact .inl (h2 (.inl h))
    · rcases List.mem_cons.1 hw with rfl | hw
      · exact .inl (h2 (.inr hn))
      · exact .inr ⟨w, hw, hn⟩

theorem div_unreal {v : Fl} {c : ℝ} (hc : 0 < c) (h : Unreal v) : Unreal (v.div c) := by
  rcases h with rfl | rfl
  · exact .inl rfl
  · simp [Fl.div, Fl.scale, hc, Unreal]

/-- A training series at no numeric distance from anything. -/
def Lost (e : GapEnv P C) : Prop := ∃ x ∈ e.data, ∀ c v, e.idist x c = .ok v → Unreal v

theorem mapM_mem {α β : Type} {f : α → Except PyErr β} : ∀ {l : List α} {r : List β}, l.mapM f = .ok r →
    r.length = l.length ∧ ∀ (i : ℕ) (a : α), l[i]? = some a → ∃ b, r[i]? = some b ∧ f a = .ok b
  | [], r, h => by
    simp only [List.mapM_nil, pure, Except.pure, Except.ok.injEq] at h
    subst h
    simp
  | a :: l, r, h => by
    simp only [List.mapM_cons, bind, Except.bind, pure, Except.pure] at h
    cases ha : f a with
    | error err => simp [ha] at h
    | ok b =>
      cases hl : l.mapM f with
      | error err => simp [ha, hl] at h
      | ok bs =>
        simp only [ha, hl, Except.ok.injEq] at h
        subst h
        obtain ⟨h1, h2⟩ := mapM_mem hl
        refine ⟨by simp [h1], fun i c hc => ?_⟩
        cases i with
        | zero =>
          simp only [List.getElem?_cons_zero, Option.some.injEq] at hc
          subst hc
          exact ⟨b, rfl, ha⟩
        | succ i => exact h2 i c (by simpa using hc)

theorem gapInertia_unreal {e : GapEnv P C} (hl : Lost e) {labels : List ℕ} {cs : List C} (hlen : labels.length = e.data.length) {v : Fl}
    (h : gapInertia e labels cs = .ok v) : Unreal v := by
  simp only [gapInertia, bind, Except.bind, pure, Except.pure] at h
  split at h
  · cases h
  · rename_i ds hd
    simp only [Except.ok.injEq] at h
    subst h
    obtain ⟨x, hx, hno⟩ := hl
    obtain ⟨i, hi, rfl⟩ := List.getElem_of_mem hx
    have hpos : (0 : ℝ) < e.data.length := by exact_mod_cast Nat.zero_lt_of_lt hi
    obtain ⟨-, hget⟩ := mapM_mem hd
    have hz : (e.data.zip labels)[i]? = some (e.data[i], labels[i]'(by omega)) := by
      rw [List.getElem?_eq_getElem (by simp; omega), List.getElem_zip]
    obtain ⟨b, hb, hbv⟩ := hget i _ hz
    have hbn : Unreal b := by
      cases hc : cs[labels[i]'(by omega)]? with
      | none => simp [hc] at hbv
      | some c => exact hno c b (by simpa [hc] using hbv)
    refine div_unreal hpos (sum_unreal _ _ (by simp) ?_ (.inr ⟨b.mul b, ?_, hbn.mul⟩))
    · intro w hw
      obtain ⟨u, -, rfl⟩ := List.mem_map.1 hw
      exact square_ninf u
    · exact List.mem_map.2 ⟨b, List.mem_of_getElem? hb, rfl⟩

theorem gapLabels_length {e : GapEnv P C} {X : List P} {cs : List C} {l : List ℕ} (h : gapLabels e X cs = .ok l) : l.length = X.length := (mapM_mem h).1

/-- After a step that does not raise, the inertia is no number. -/
theorem gapAssign_lost {e : GapEnv P C} (hl : Lost e) {s s' : GapState C} (h : gapAssign e s = (s', none)) :
    Unreal s'.inertia := by
  unfold gapAssign at h
  cases hc : s.centers with
  | none => simp [hc] at h
  | some cs =>
    simp only [hc] at h
    cases hb : gapLabels e e.data cs with
    | error err => simp [hb] at h
    | ok labels =>
      simp only [hb] at h
      split at h
      · simp at h
      · cases hi : gapInertia e labels cs with
        | error err => simp [hi] at h
        | ok v =>
          simp only [hi, Prod.mk.injEq, and_true] at h
          subst h
          exact gapInertia_unreal hl (gapLabels_length hb) hi

theorem not_close {old v : Fl} (h : Unreal v) (tol : ℝ) : Fl.lt (Fl.abs (old.sub v)) (.num tol) = false := by
  rcases h with rfl | rfl <;> cases old <;> rfl

theorem not_below {v : Fl} (h : Unreal v) : Fl.lt v .inf = false := by
  rcases h with rfl | rfl <;> rfl

/-- What stays true of the attributes during `fit`. -/
structure Unfit (s : GapState C) : Prop where
  inertia : Unreal s.inertia
  xfit : s.xfit = false
  nIter : s.nIter = 0

theorem gapAssign_unfit {e : GapEnv P C} (hl : Lost e) {s : GapState C} (hs : Unfit s) : Unfit (gapAssign e s).1 := by
  unfold gapAssign
  cases hc : s.centers with
  | none => exact hs
  | some cs =>
    simp only
    cases hb : gapLabels e e.data cs with
    | error err => exact hs
    | ok labels =>
      simp only
      split
      · exact ⟨hs.inertia, hs.xfit, hs.nIter⟩
      · cases hi : gapInertia e labels cs with
        | error err => exact ⟨hs.inertia, hs.xfit, hs.nIter⟩
        | ok v => exact ⟨gapInertia_unreal hl (gapLabels_length hb) hi, hs.xfit, hs.nIter⟩

theorem gapLoop_unfit {e : GapEnv P C} (hl : Lost e) : ∀ (n it : ℕ) (old : Fl) (s : GapState C), Unfit s → Unfit (gapLoop e n it old s).1
  | 0, it, old, s, hs => ⟨hs.inertia, hs.xfit, hs.nIter⟩
  | n + 1, it, old, s, hs => by
    have ha := gapAssign_unfit hl hs
    unfold gapLoop
    rcases hr : gapAssign e s with ⟨s1, _ | err⟩
    · rw [hr] at ha
      simp only at ha ⊢
      cases hu : gapUpdate e (s1.labels.getD []) (s1.centers.getD []) with
      | error err => exact ha
      | ok cs =>
        simp only
        rw [if_neg (by rw [not_close ha.inertia]; simp)]
        exact gapLoop_unfit hl n (it + 1) s1.inertia { s1 with centers := some cs } ⟨ha.inertia, ha.xfit, ha.nIter⟩
    · rw [hr] at ha
      exact ha

/-- An attempt never stops early: it runs all rounds or raises. -/
theorem gapLoop_rounds {e : GapEnv P C} (hl : Lost e) : ∀ (n it : ℕ) (old : Fl) (s : GapState C), (gapLoop e n it old s).2 = none →
    (gapLoop e n it old s).1.iter = it + n
  | 0, it, old, s, _ => rfl
  | n + 1, it, old, s, h => by
    unfold gapLoop at h ⊢
    rcases hr : gapAssign e s with ⟨s1, _ | err⟩
    · have ha := gapAssign_lost hl hr
      rw [hr] at h
      simp only at h ⊢
      cases hu : gapUpdate e (s1.labels.getD []) (s1.centers.getD []) with
      | error err => rw [hu] at h; simp at h
      | ok cs =>
        rw [hu] at h
        simp only at h ⊢
        rw [if_neg (by rw [not_close ha]; simp)] at h ⊢
        rw [gapLoop_rounds hl n (it + 1) s1.inertia _ h]
        omega
    · rw [hr] at h
      simp at h

theorem gapFitLoop_unfit {e : GapEnv P C} (hl : Lost e) (inits : ℕ → List C) : ∀ (fuel a n : ℕ) (s : GapState C), Unfit s →
    (gapFitLoop e inits fuel a n none .inf s).1 = (none, .inf) ∧ Unfit (gapFitLoop e inits fuel a n none .inf s).2.1
  | 0, _, _, _, hs => ⟨rfl, hs⟩
  | fuel + 1, a, n, s, hs => by
    unfold gapFitLoop
    split
    · have ho : Unfit (gapFitOne e (inits a) s).1 := by
        unfold gapFitOne
        simp only
        split
        · exact ⟨hs.inertia, hs.xfit, hs.nIter⟩
        · exact gapLoop_unfit hl e.maxIter 0 .inf { s with centers := some (inits a) } ⟨hs.inertia, hs.xfit, hs.nIter⟩
      rcases hr : gapFitOne e (inits a) s with ⟨s1, _ | err⟩
      · rw [hr] at ho
        simp only at ho ⊢
        rw [not_below ho.inertia]
        exact gapFitLoop_unfit hl inits fuel (a + 1) (n + 1) s1 ho
      · rw [hr] at ho
        cases err <;> first | exact gapFitLoop_unfit hl inits fuel (a + 1) n s1 ho | exact ⟨rfl, ho⟩
    · exact ⟨rfl, hs⟩

theorem gapFit_unfit {e : GapEnv P C} (hl : Lost e) (inits : ℕ → List C) (s : GapState C) : Unfit (gapFit e inits s).1 := by
  obtain ⟨h1, h2⟩ := gapFitLoop_unfit hl inits (max e.nInit 10) 0 0
    { s with labels := none, inertia := .inf, centers := none, xfit := false, nIter := 0 } ⟨.inr rfl, rfl, rfl⟩
  unfold gapFit
  rcases hr : gapFitLoop e inits (max e.nInit 10) 0 0 none .inf
      { s with labels := none, inertia := .inf, centers := none, xfit := false, nIter := 0 } with ⟨⟨best, least⟩, s1, _ | err⟩
  · rw [hr] at h1 h2
    obtain ⟨rfl, rfl⟩ := Prod.mk.injEq .. ▸ h1
    exact ⟨h2.inertia, rfl, h2.nIter⟩
  · rw [hr] at h2
    exact h2

/-- A centroid: a two-dimensional array with `d` features. -/
abbrev Centroid (d : ℕ) := {c : Ts ℝ // c.WF ∧ c.d = d}

theorem dtw_unreal {d : ℕ} {x : Ts ℝ} (hx : Usable d x) (hg : Gapped x) (gc : Option String) (radius : Option ℕ) (slope : Option ℚ) (c : Centroid d) (v : Fl)
    (h : gapDtwDist gc radius slope x c.1 = .ok v) : Unreal v ∧ (gc = none → radius = none → slope = none → v = .nan) := by
  simp only [gapDtwDist, bind, Except.bind] at h
  cases hc : gcCode gc with
  | error err => simp [hc] at h
  | ok code =>
    simp only [hc] at h
    by_cases h0 : c.1.trim.rows = []
    · simp [onGaps, h0, Except.map] at h
    · have uc : Usable d c.1 := ⟨c.2.1, c.2.2, h0⟩
      rw [kernel_eq hx uc .numpy gc radius slope hc] at h
      cases hn : nanDtwSq .numpy (.twoD x.rows) (.twoD c.1.rows) gc radius slope with
      | error err => rw [hn] at h; cases h
      | ok w =>
        rw [hn] at h
        simp only [Except.map, Except.ok.injEq] at h
        subst h
        constructor
        · rcases C115_dtw_no_number .numpy _ _ d _ _ (hx.seen uc) (.inl hg) gc radius slope w hn with rfl | rfl
          · exact .inl rfl
          · exact .inr rfl
        · rintro rfl rfl rfl
          rw [C115_dtw_first _ _ d _ _ (hx.seen uc) hg] at hn
          obtain rfl := Except.ok.inj hn
          rfl

theorem soft_nan {d : ℕ} {x : Ts ℝ} (hx : Usable d x) (hg : Gapped x) {γ : ℝ} (hγ : 0 < γ) (c : Centroid d) (v : Fl)
    (h : gapSoftDist γ x c.1 = .ok v) : v = .nan := by
  unfold gapSoftDist at h
  split at h
  · cases h
  · rename_i h0
    push Not at h0
    have uc : Usable d c.1 := ⟨c.2.1, c.2.2, h0.2⟩
    rw [(C115_soft .numpy _ _ d _ _ (hx.seen uc) (.inl hg) γ hγ).2] at h
    exact (Except.ok.inj h).symm

/-- `fit` on data with a gap in one series, with DTW (under any constraint) or soft-DTW as the distance of the inertia, whatever the initial centroids, the
barycenter function and the hyper-parameters: afterwards, whether or not it raised, `_X_fit` is `None`, `n_iter_` is 0 and `inertia_` is NaN or
`inf`. -/
theorem C117_kmeans {d : ℕ} (e : GapEnv (Ts ℝ) (Centroid d)) (he : (∃ gc radius slope, ∀ x c, e.idist x c = gapDtwDist gc radius slope x c.1) ∨
      ∃ γ, 0 < γ ∧ ∀ x c, e.idist x c = gapSoftDist γ x c.1) (x : Ts ℝ) (hx : x ∈ e.data) (hu : Usable d x) (hg : Gapped x)
    (inits : ℕ → List (Centroid d)) (s : GapState (Centroid d)) :
    (gapFit e inits s).1.xfit = false ∧ (gapFit e inits s).1.nIter = 0 ∧ ((gapFit e inits s).1.inertia = .nan ∨ (gapFit e inits s).1.inertia = .inf) := by
  have hl : Lost e := by
    refine ⟨x, hx, fun c v hv => ?_⟩
    rcases he with ⟨gc, radius, slope, he⟩ | ⟨γ, hγ, he⟩
    · rw [he] at hv
      exact (dtw_unreal hu hg gc radius slope c v hv).1
    · rw [he] at hv
      exact .inl (soft_nan hu hg hγ c v hv)
  have h := gapFit_unfit hl inits s
  exact ⟨h.xfit, h.nIter, h.inertia⟩

/-- An attempt on such data runs all `max_iter` rounds unless it raises: the test on the inertia never succeeds. -/
theorem C117_rounds {d : ℕ} (e : GapEnv (Ts ℝ) (Centroid d)) (he : (∃ gc radius slope, ∀ x c, e.idist x c = gapDtwDist gc radius slope x c.1) ∨
      ∃ γ, 0 < γ ∧ ∀ x c, e.idist x c = gapSoftDist γ x c.1) (x : Ts ℝ) (hx : x ∈ e.data) (hu : Usable d x) (hg : Gapped x)
    (init : List (Centroid d)) (s : GapState (Centroid d)) (h : (gapFitOne e init s).2 = none) :
    (gapFitOne e init s).1.iter = e.maxIter := by
  have hl : Lost e := by
    refine ⟨x, hx, fun c v hv => ?_⟩
    rcases he with ⟨gc, radius, slope, he⟩ | ⟨γ, hγ, he⟩
    · rw [he] at hv
      exact (dtw_unreal hu hg gc radius slope c v hv).1
    · rw [he] at hv
      exact .inl (soft_nan hu hg hγ c v hv)
  unfold gapFitOne at h ⊢
  simp only at h ⊢
  split at h
  · cases h
  · rename_i h0
    rw [if_neg h0]
    rw [gapLoop_rounds hl e.maxIter 0 .inf { s with centers := some init } h, Nat.zero_add]

theorem argminF_nan (l : List Fl) (h : ∀ v ∈ l, v = .nan) : argminF l = 0 := by
  cases l with
  | nil => rfl
  | cons v l =>
    obtain rfl := h v (by simp)
    simp [argminF, List.findIdx?_cons, Fl.isNan]

/-- With DTW without a constraint or soft-DTW, a series with a gap gets label 0 from `predict`, whatever the centroids and the other series. -/
theorem C117_label {d : ℕ} (e : GapEnv (Ts ℝ) (Centroid d)) (he : (∀ x c, e.dist x c = gapDtwDist none none none x c.1) ∨
      ∃ γ, 0 < γ ∧ ∀ x c, e.dist x c = gapSoftDist γ x c.1) (s : GapState (Centroid d)) (X : List (Ts ℝ)) (l : List ℕ) (h : gapPredict e s X = .ok l)
    (i : ℕ) (x : Ts ℝ) (hi : X[i]? = some x) (hu : Usable d x) (hg : Gapped x) : l[i]? = some 0 := by
  unfold gapPredict at h
  cases hc : s.centers with
  | none => simp [hc] at h
  | some cs =>
    simp only [hc] at h
    obtain ⟨b, hb, hv⟩ := (mapM_mem h).2 i x hi
    simp only [bind, Except.bind, pure, Except.pure] at hv
    cases hr : cs.mapM (e.dist x) with
    | error err => simp [hr] at hv
    | ok r =>
      simp only [hr, Except.ok.injEq] at hv
      subst hv
      rw [hb]
      congr 1
      refine argminF_nan r fun v hv => ?_
      obtain ⟨k, hk, rfl⟩ := List.getElem_of_mem hv
      obtain ⟨hlen, hget⟩ := mapM_mem hr
      obtain ⟨w, hw, hd⟩ := hget k (cs[k]'(by omega)) (List.getElem?_eq_getElem (by omega))
      rw [List.getElem?_eq_getElem hk] at hw
      obtain rfl := Option.some.inj hw
      rcases he with he | ⟨γ, hγ, he⟩
      · rw [he] at hd
        exact (dtw_unreal hu hg none none none _ _ hd).2 rfl rfl rfl
      · rw [he] at hd
        exact soft_nan hu hg hγ _ _ hd

/-! ## Instances -/

/-- A series of one feature. -/
def ser (l : List (Option K)) : Ts K := ⟨1, l.map fun v => [v]⟩

theorem ser_usable (l : List (Option K)) (h : (ser l).trim.rows ≠ []) : Usable 1 (ser l) := by
  refine ⟨?_, rfl, h⟩
  intro r hr
  simp only [ser, List.mem_map] at hr
  obtain ⟨v, -, rfl⟩ := hr
  rfl

theorem observed_inj {u u' : List (List K)} (h : observed u = observed u') : u = u' :=
  (List.map_injective_iff.2 (List.map_injective_iff.2 (Option.some_injective K))) h

/-- The distances `f` of `C117_neighbours` exist for every dataset. -/
theorem exists_dists [CommRing K] [LinearOrder K] [IsStrictOrderedRing K] (train : List (Ts K)) (q : Ts K) (d : ℕ) (ht : ∀ t ∈ train, Usable d t)
    (hq : Usable d q) : ∃ f : ℕ → K, ∀ (j : ℕ) t, train[j]? = some t → ∀ u v, q.trim.rows = observed u → t.trim.rows = observed v →
      IsLeast {c | ∃ p, IsWarpingPath u.length v.length p ∧ c = sumCost (sampleCost u v) p} (f j) := by
  have key : ∀ j : ℕ, ∃ w : K, ∀ t, train[j]? = some t → ∀ u v, q.trim.rows = observed u → t.trim.rows = observed v →
      IsLeast {c | ∃ p, IsWarpingPath u.length v.length p ∧ c = sumCost (sampleCost u v) p} w := by
    intro j
    by_cases h : ∃ t u v, train[j]? = some t ∧ q.trim.rows = observed u ∧ t.trim.rows = observed v
    · obtain ⟨t, u, v, h1, h2, h3⟩ := h
      obtain ⟨w, -, hw⟩ := whole_dtw hq (ht t (List.mem_of_getElem? h1)) h2 h3
      refine ⟨w, fun t' h1' u' v' h2' h3' => ?_⟩
      obtain rfl := Option.some.inj (h1.symm.trans h1')
      obtain rfl := observed_inj (h2.symm.trans h2')
      obtain rfl := observed_inj (h3.symm.trans h3')
      exact hw
    · exact ⟨0, fun t h1 u v h2 h3 => absurd ⟨t, u, v, h1, h2, h3⟩ h⟩
  exact ⟨fun j => (key j).choose, fun j => (key j).choose_spec⟩

abbrev gapExTrain : List (Ts ℤ) := [ser [some 0, some 1], ser [some 3, none, some 0], ser [some 5]]

theorem gapExTrain_usable : ∀ t ∈ gapExTrain, Usable 1 t := by
  intro t ht
  simp only [List.mem_cons, List.not_mem_nil, or_false] at ht
  rcases ht with rfl | rfl | rfl <;> exact ser_usable _ (by decide +kernel)

theorem gapExQuery_usable : ∀ t ∈ [ser [some (0 : ℤ)], ser [some 1, none, some 2]], Usable 1 t := by
  intro t ht
  simp only [List.mem_cons, List.not_mem_nil, or_false] at ht
  rcases ht with rfl | rfl <;> exact ser_usable _ (by decide +kernel)

theorem gapped_ex : Gapped (ser [some (1 : ℤ), none, some 2]) := ⟨[none], by decide +kernel, by simp [RowMissing]⟩
theorem whole_ex : ¬ Gapped (ser [some (0 : ℤ)]) := by
  have : (ser [some (0 : ℤ)]).trim.rows = [[some 0]] := by decide +kernel
  simp [Gapped, HasMissing, RowMissing, this]

/-- Three training series, the second with a gap; a query without and one with a gap. -/
example : ∃ r near rest, gapKneighbors numpySel gapExTrain [ser [some 0], ser [some 1, none, some 2]] 3 none none none seqRun = .ok r ∧
    (r[0]?.map Prod.fst) = some (near ++ rest) ∧ (∀ j ∈ rest, ∃ t, gapExTrain[j]? = some t ∧ Gapped t) ∧
    r[1]? = some (knnRow numpySel (fun _ => (⊤ : WithTop (WithTop ℤ))) 3 3 false, [none, none, none]) := by
  obtain ⟨-, -, r, hr, -⟩ := C117_total numpySel gapExTrain [ser [some 0], ser [some 1, none, some 2]] 1 3 gapExTrain_usable gapExQuery_usable
    (.inl rfl : Execution seqRun) .numpy
  obtain ⟨f, hf⟩ := exists_dists gapExTrain (ser [some 0]) 1 gapExTrain_usable (gapExQuery_usable _ (by simp))
  obtain ⟨near, rest, h1, -, h3⟩ := C117_neighbours numpySel_valid gapExTrain _ 1 3 (by norm_num) (by simp) gapExTrain_usable gapExQuery_usable (.inl rfl) r hr 0 _ rfl
    whole_ex f hf
  exact ⟨r, near, rest, hr, by rw [h1]; rfl, h3,
    C117_query numpySel_valid gapExTrain _ 1 3 (by norm_num) (by simp) gapExTrain_usable gapExQuery_usable (.inl rfl) r hr 1 _ rfl gapped_ex⟩

/-- The order of the series matters: `inf` if the one with the gap comes second, NaN if it comes first. -/
theorem C117_order : ∃ M M' : Mat (Nv ℤ), gapCdistDtw .numpy (.series [ser [some 0], ser [some 1, none, some 2]]) none none none none seqRun = .ok M ∧
    gapCdistDtw .numpy (.series [ser [some 1, none, some 2], ser [some 0]]) none none none none seqRun = .ok M' ∧ M 0 1 = some ⊤ ∧ M' 0 1 = none ∧
    M' 0 0 = some 0 ∧ nanDtwSq .numpy (.twoD (ser [some (1 : ℤ), none, some 2]).rows) (.twoD (ser [some 1, none, some 2]).rows) none none none = .ok none := by
  have hu' : ∀ t ∈ [ser [some (1 : ℤ), none, some 2], ser [some 0]], Usable 1 t := fun t ht => gapExQuery_usable t (by simpa [or_comm] using ht)
  obtain ⟨⟨M, hM⟩, -⟩ := C117_total (numpySel : Selector (WithTop (WithTop ℤ))) _ [] 1 1 gapExQuery_usable (by simp) (.inl rfl : Execution seqRun) .numpy
  obtain ⟨⟨M', hM'⟩, -⟩ := C117_total (numpySel : Selector (WithTop (WithTop ℤ))) _ [] 1 1 hu' (by simp) (.inl rfl : Execution seqRun) .numpy
  have h1 := C117_cdist _ 1 gapExQuery_usable (.inl rfl) M hM 0 1 _ _ rfl rfl
  have h2 := C117_cdist _ 1 hu' (.inl rfl) M' hM' 0 1 _ _ rfl rfl
  refine ⟨M, M', hM, hM', ?_, (h2.2.2.2 (by norm_num)).1 gapped_ex, h2.2.1, h2.2.2.1 gapped_ex⟩
  rw [(h1.2.2.2 (by norm_num)).2 whole_ex gapped_ex, if_neg]
  have : (ser [some (1 : ℤ), none, some 2]).trim.rows = [[some 1], [none], [some 2]] := by decide +kernel
  simp [this, RowMissing]

noncomputable section

abbrev gapSer : Ts ℝ := ser [some 1, none, some 2]

theorem gapSer_rows : gapSer.trim.rows = [[some 1], [none], [some 2]] := rfl
theorem gapSer_usable : Usable 1 gapSer := ser_usable _ (by rw [gapSer_rows]; simp)
theorem gapSer_gapped : Gapped gapSer := ⟨[none], by rw [gapSer_rows]; simp, by simp [RowMissing]⟩

/-- One cluster, one series with a gap, a barycenter that does not move. -/
def gapExEnv : GapEnv (Ts ℝ) (Centroid 1) := ⟨[gapSer], 1, 1, 1, 0, fun x c => gapDtwDist none none none x c.1, fun x c => gapDtwDist none none none x c.1, fun _ c => .ok c⟩

def gapExCentroid : Centroid 1 := ⟨ser [some 0], (ser_usable _ (by change [[some (0 : ℝ)]] ≠ []; simp)).1, rfl⟩

theorem gapExDist : gapDtwDist none none none gapSer gapExCentroid.1 = .ok .nan := by
  have uc : Usable 1 gapExCentroid.1 := ser_usable _ (by change [[some (0 : ℝ)]] ≠ []; simp)
  simp only [gapDtwDist, gcCode, bind, Except.bind]
  rw [kernel_eq gapSer_usable uc .numpy none none none rfl, C115_dtw_first _ _ 1 _ _ (gapSer_usable.seen uc) gapSer_gapped]
  rfl

/-- `fit` does not raise, sets labels and centroids, and `predict` answers. -/
example (s : GapState (Centroid 1)) : (gapFit gapExEnv (fun _ => [gapExCentroid]) s).2 = none ∧
    (gapFit gapExEnv (fun _ => [gapExCentroid]) s).1.labels = some [0] ∧ (gapFit gapExEnv (fun _ => [gapExCentroid]) s).1.centers = some [gapExCentroid] ∧
    (gapFit gapExEnv (fun _ => [gapExCentroid]) s).1.xfit = false ∧ gapPredict gapExEnv (gapFit gapExEnv (fun _ => [gapExCentroid]) s).1 [gapSer] = .ok [0] := by
  have hd : gapExEnv.dist gapSer gapExCentroid = .ok .nan := gapExDist
  have hi : gapExEnv.idist gapSer gapExCentroid = .ok .nan := gapExDist
  have hl : gapLabels gapExEnv [gapSer] [gapExCentroid] = .ok [0] := by
    simp only [gapLabels, List.mapM_cons, List.mapM_nil, hd, bind, Except.bind, pure, Except.pure]
    rfl
  have hin : gapInertia gapExEnv [0] [gapExCentroid] = .ok .nan := by
    have : gapExEnv.data.zip [0] = [(gapSer, 0)] := rfl
    simp only [gapInertia, this, List.mapM_cons, List.mapM_nil, List.getElem?_cons_zero, hi, bind, Except.bind, pure, Except.pure]
    rfl
  have ha : ∀ t : GapState (Centroid 1), gapAssign gapExEnv { t with centers := some [gapExCentroid] } =
      ({ t with centers := some [gapExCentroid], labels := some [0], inertia := .nan }, none) := by
    intro t
    have h1 : gapLabels gapExEnv gapExEnv.data [gapExCentroid] = .ok [0] := hl
    have h2 : hasEmpty [0] gapExEnv.nClusters = false := by decide
    simp [gapAssign, h1, h2, hin]
  have hup : gapUpdate gapExEnv [0] [gapExCentroid] = .ok [gapExCentroid] := rfl
  have ho : ∀ t : GapState (Centroid 1), gapFitOne gapExEnv [gapExCentroid] t =
      ({ t with centers := some [gapExCentroid], labels := some [0], inertia := .nan, iter := 1 }, none) := by
    intro t
    have h1 : gapExEnv.maxIter = 0 + 1 := rfl
    simp only [gapFitOne, h1, gapLoop, ha, Option.getD_some, hup]
    simp [Fl.lt, Fl.sub, Fl.abs]
  have hf : gapFit gapExEnv (fun _ => [gapExCentroid]) s =
      ({ s with labels := some [0], inertia := .nan, centers := some [gapExCentroid], xfit := false, nIter := 0, iter := 1 }, none) := by
    have hn : gapExEnv.nInit = 1 := rfl
    have hgen : ∀ (n : ℕ) (t : GapState (Centroid 1)), gapFitLoop gapExEnv (fun _ => [gapExCentroid]) (n + 1 + 1) 0 0 none .inf t =
        ((none, .inf), { t with centers := some [gapExCentroid], labels := some [0], inertia := .nan, iter := 1 }, none) := by
      intro n t
      simp [gapFitLoop, ho, hn, Fl.lt]
    unfold gapFit
    rw [show max gapExEnv.nInit 10 = 8 + 1 + 1 from rfl, hgen 8]
    rfl
  rw [hf]
  exact ⟨rfl, rfl, rfl, rfl, hl⟩

end
end
end Verif
