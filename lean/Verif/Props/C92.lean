import Verif.Spec.MetricParams
import Mathlib.Tactic.Common
/-!
C92: `metric_params`.
-/
set_option linter.unusedSectionVars false
namespace Verif
open Spec

theorem lookup_eq_none_iff' (d : Kw) (k : String) : d.lookup k = none ↔ ∀ p ∈ d, p.1 ≠ k := by
  rw [List.lookup_eq_none_iff]
  constructor
  · intro h p hp he
    have := h p hp
    simp [he] at this
  · intro h p hp
    have := (h p hp).symm
    simpa using this

theorem lookup_filter (d : Kw) (k : String) (q : String → Bool) (hk : q k = true) : (d.filter fun p => q p.1).lookup k = d.lookup k := by
  induction d with
  | nil => rfl
  | cons p d ih =>
    obtain ⟨a, b⟩ := p
    by_cases hp : k = a
    · subst hp
      simp [List.filter_cons, hk, List.lookup_cons]
    · have hb : (k == a) = false := by simpa using hp
      by_cases hq : q a = true
      · simp [List.filter_cons, hq, List.lookup_cons, hb, ih]
      · simp [List.filter_cons, hq, List.lookup_cons, hb, ih]

theorem lookup_del {d : Kw} {k j : String} (h : k ≠ j) : (d.del j).lookup k = d.lookup k := by
  have := lookup_filter d k (fun s => decide (s ≠ j)) (by simpa using h)
  simpa [Kw.del] using this

theorem mem_del {d : Kw} {j : String} {p : String × PyArg} : p ∈ d.del j ↔ p ∈ d ∧ p.1 ≠ j := by simp [Kw.del]

theorem isDict_del {d : Kw} (h : IsDict d) (j : String) : IsDict (d.del j) :=
  List.Nodup.sublist (List.Sublist.map _ List.filter_sublist) h

theorem isDict_filter {d : Kw} (h : IsDict d) (q : String × PyArg → Bool) : IsDict (d.filter q) :=
  List.Nodup.sublist (List.Sublist.map _ List.filter_sublist) h

/-- A call whose keywords are known and given once. -/
theorem pyBind_ok {sig : Sig} {pos : List PyArg} {own kw : Kw} (hlen : pos.length ≤ sig.length)
    (hreq : ∀ p ∈ sig, p.2 = none → p.1 ∈ (((sig.map Prod.fst).zip pos ++ own).map Prod.fst))
    (hown : (((sig.map Prod.fst).zip pos ++ own).map Prod.fst).Nodup) (hin : ∀ p ∈ own, p.1 ∈ sig.map Prod.fst) (hkw : IsDict kw)
    (hkin : ∀ p ∈ kw, p.1 ∈ sig.map Prod.fst ∧ p.1 ∉ ((sig.map Prod.fst).zip pos ++ own).map Prod.fst) :
    pyBind sig pos (own ++ kw) = .ok (expected sig ((sig.map Prod.fst).zip pos ++ own) kw) := by
  unfold pyBind
  rw [if_neg]
  · simp only [expected, ← List.append_assoc, List.lookup_append, Option.or_assoc]
  · rintro (h | ⟨p, hp, hn⟩ | h | ⟨p, hp, h1, h2⟩)
    · omega
    · rcases List.mem_append.1 hp with h | h
      · exact hn (hin p h)
      · exact hn (hkin p h).1
    · apply h
      rw [← List.append_assoc, List.map_append, List.nodup_append]
      refine ⟨hown, hkw, ?_⟩
      intro a ha b hb hab
      obtain ⟨q, hq, rfl⟩ := List.mem_map.1 hb
      exact (hkin q hq).2 (hab ▸ ha)
    · rw [← List.append_assoc, List.lookup_append, Option.or_eq_none_iff, lookup_eq_none_iff'] at h2
      obtain ⟨q, hq, he⟩ := List.mem_map.1 (hreq p hp h1)
      exact h2.1 q hq he

/-- A keyword that is unknown, or already given, is refused. -/
theorem pyBind_refused {sig : Sig} {pos : List PyArg} {own kw : Kw} {p : String × PyArg} (hp : p ∈ kw)
    (h : p.1 ∉ sig.map Prod.fst ∨ p.1 ∈ ((sig.map Prod.fst).zip pos ++ own).map Prod.fst) : pyBind sig pos (own ++ kw) = .error .typeError := by
  unfold pyBind
  rw [if_pos]
  rcases h with h | h
  · exact .inr (.inl ⟨p, List.mem_append_right _ hp, h⟩)
  · refine .inr (.inr (.inl ?_))
    rw [← List.append_assoc, List.map_append, List.nodup_append]
    rintro ⟨-, -, hd⟩
    exact hd _ h _ (List.mem_map_of_mem hp) rfl

theorem hasCode_eq {mp : Kw} {code : PyArg} (h : HasCode mp code) : constraintCode ((mp.lookup "global_constraint").getD .none) = .ok code := by
  unfold HasCode at h
  simp only [List.mem_cons, List.not_mem_nil, or_false, Prod.mk.injEq] at h
  rcases h with ⟨h, rfl⟩ | ⟨h, rfl⟩ | ⟨h, rfl⟩ | ⟨h, rfl⟩ <;> rw [h] <;> rfl

theorem expected_fst (sig : Sig) (own mp : Kw) : (expected sig own mp).map Prod.fst = sig.map Prod.fst := by
  simp [expected]

theorem set_eq_map {d : Kw} {k : String} {v : PyArg} (h : k ∈ d.map Prod.fst) : d.put k v = d.map fun p => if p.1 = k then (p.1, v) else p := by
  unfold Kw.put
  rw [if_pos]
  · refine List.map_congr_left fun p _ => ?_
    split
    · next he => rw [he]
    · rfl
  · obtain ⟨p, hp, he⟩ := List.mem_map.1 h
    rw [List.any_eq_true]
    exact ⟨p, hp, by simpa using he⟩

theorem expected_lookup {sig : Sig} (own mp : Kw) {k : String} {dflt : Option PyArg} (h : sig.lookup k = some dflt) :
    (expected sig own mp).lookup k = some (((own.lookup k).or ((mp.lookup k).or dflt)).getD .none) := by
  induction sig with
  | nil => simp at h
  | cons p sig ih =>
    rw [expected, List.map_cons, List.lookup_cons]
    rw [List.lookup_cons] at h
    by_cases hk : k = p.1
    · subst hk
      simp only [beq_self_eq_true] at h ⊢
      simp at h
      rw [h]
    · have hb : (k == p.1) = false := by simpa using hk
      simp only [hb] at h ⊢
      exact ih h

/-- The distances of a dataset: what the estimator sets, then `metric_params`, then the defaults. -/
theorem cdistCall_ok {fn : String} {sig : Sig} {pos : List PyArg} {own kw : Kw} {code : PyArg} (hlen : pos.length ≤ sig.length)
    (hreq : ∀ p ∈ sig, p.2 = none → p.1 ∈ (((sig.map Prod.fst).zip pos ++ own).map Prod.fst))
    (hown : (((sig.map Prod.fst).zip pos ++ own).map Prod.fst).Nodup) (hin : ∀ p ∈ own, p.1 ∈ sig.map Prod.fst) (hkw : IsDict kw)
    (hkin : ∀ p ∈ kw, p.1 ∈ sig.map Prod.fst ∧ p.1 ∉ ((sig.map Prod.fst).zip pos ++ own).map Prod.fst)
    (hsig : sig.lookup "global_constraint" = some (some .none)) (hog : ((sig.map Prod.fst).zip pos ++ own).lookup "global_constraint" = none)
    (hc : HasCode kw code) :
    cdistCall fn sig pos (own ++ kw) = .ok ⟨fn, expectedCoded sig ((sig.map Prod.fst).zip pos ++ own) kw code⟩ := by
  unfold cdistCall
  rw [pyBind_ok hlen hreq hown hin hkw hkin]
  have hl := expected_lookup ((sig.map Prod.fst).zip pos ++ own) kw hsig
  rw [hog, Option.none_or] at hl
  have hm : "global_constraint" ∈ (expected sig ((sig.map Prod.fst).zip pos ++ own) kw).map Prod.fst := by
    rw [expected_fst]
    by_contra hn
    have : sig.lookup "global_constraint" = none := by
      rw [List.lookup_eq_none_iff]
      intro p hp
      have hne : p.1 ≠ "global_constraint" := fun he => hn (List.mem_map.2 ⟨p, hp, he⟩)
      simpa using hne.symm
    rw [this] at hsig
    cases hsig
  have hv : (((kw.lookup "global_constraint").or (some PyArg.none)).getD .none) = (kw.lookup "global_constraint").getD .none := by
    cases kw.lookup "global_constraint" <;> rfl
  simp only [bind, Except.bind, hl, Option.getD_some, hv]
  have hc := hasCode_eq hc
  simp only [hc, pure, Except.pure, set_eq_map hm, expectedCoded]

theorem cdistCall_refused {fn : String} {sig : Sig} {pos : List PyArg} {own kw : Kw} {p : String × PyArg} (hp : p ∈ kw)
    (h : p.1 ∉ sig.map Prod.fst ∨ p.1 ∈ ((sig.map Prod.fst).zip pos ++ own).map Prod.fst) :
    cdistCall fn sig pos (own ++ kw) = .error .typeError := by
  unfold cdistCall
  rw [pyBind_refused hp h]
  rfl

theorem expected_congr {sig : Sig} {own mp mp' : Kw} (h : ∀ p ∈ sig, own.lookup p.1 = none → mp.lookup p.1 = mp'.lookup p.1) :
    expected sig own mp = expected sig own mp' := by
  refine List.map_congr_left fun p hp => ?_
  cases ho : own.lookup p.1 with
  | none => rw [h p hp ho]
  | some v => rfl

theorem hasCode_congr {mp mp' : Kw} {code : PyArg} (h : mp.lookup "global_constraint" = mp'.lookup "global_constraint") (hc : HasCode mp code) :
    HasCode mp' code := by
  unfold HasCode at *
  rwa [← h]

/-- What `TimeSeriesKMeans` sets itself in the distances between `X` and centroids `C`. -/
def kmOwn (X C nJobs verbose : PyArg) : Kw := [("dataset1", X), ("dataset2", C), ("n_jobs", nJobs), ("verbose", verbose)]

/-- `TimeSeriesKMeans(metric="dtw")`: constraint parameters reach the distances and the paths of the barycenter; `n_jobs` in `metric_params` is
overridden. (The constraint reaches the paths as given, see C57 and C62.) -/
theorem C92_kmeans_dtw (mp : Kw) (hd : IsDict mp)
    (hk : ∀ p ∈ mp, p.1 ∈ ["n_jobs", "global_constraint", "sakoe_chiba_radius", "itakura_max_slope"]) {code : PyArg} (hc : HasCode mp code)
    (nJobs verbose m X C M c : PyArg) :
    kmRoundCalls "dtw" (some mp) nJobs verbose m X C M c = .ok
      [⟨"_cdist_dtw", expectedCoded sigCdistDtw (kmOwn X C nJobs verbose) mp code⟩,
        ⟨"_njit_dtw_path", expected sigDtwPath [("s1", M), ("s2", c)] mp⟩] := by
  have hkw : ∀ p ∈ mp.del "n_jobs", p.1 = "global_constraint" ∨ p.1 = "sakoe_chiba_radius" ∨ p.1 = "itakura_max_slope" := by
    intro p hp
    obtain ⟨h1, h2⟩ := mem_del.1 hp
    have := hk p h1
    simp only [List.mem_cons, List.not_mem_nil, or_false] at this
    tauto
  have h1 := cdistCall_ok (fn := "_cdist_dtw") (sig := sigCdistDtw) (pos := [X, C]) (own := [("n_jobs", nJobs), ("verbose", verbose)])
    (kw := mp.del "n_jobs") (code := code) (by simp [sigCdistDtw]) (by simp [sigCdistDtw]) (by simp [sigCdistDtw]) (by simp [sigCdistDtw])
    (isDict_del hd _) (fun p hp => by rcases hkw p hp with h | h | h <;> rw [h] <;> simp [sigCdistDtw]) (by decide) (by simp [sigCdistDtw, List.lookup])
    (hasCode_congr (lookup_del (by decide)).symm hc)
  have h2 := pyBind_ok (sig := sigDtwPath) (pos := [M, c]) (own := []) (kw := mp.del "n_jobs") (by simp [sigDtwPath]) (by simp [sigDtwPath])
    (by simp [sigDtwPath]) (by simp) (isDict_del hd _) (fun p hp => by rcases hkw p hp with h | h | h <;> rw [h] <;> simp [sigDtwPath])
  rw [List.nil_append] at h2
  unfold kmRoundCalls kmMetricParams
  simp only [Option.getD_some, h1, h2, bind, Except.bind, pure, Except.pure]
  have e1 : (sigCdistDtw.map Prod.fst).zip [X, C] ++ [("n_jobs", nJobs), ("verbose", verbose)] = kmOwn X C nJobs verbose := by
    simp [sigCdistDtw, kmOwn]
  have e2 : (sigDtwPath.map Prod.fst).zip [M, c] ++ [] = [("s1", M), ("s2", c)] := by simp [sigDtwPath]
  rw [e1, e2]
  simp only [show ("dtw" = "euclidean") = False from by decide, if_false, if_true]
  have e3 : expected sigCdistDtw (kmOwn X C nJobs verbose) (mp.del "n_jobs") = expected sigCdistDtw (kmOwn X C nJobs verbose) mp :=
    expected_congr fun p hp ho => lookup_del fun he => by rw [he] at ho; simp [kmOwn, List.lookup] at ho
  have e4 : expected sigDtwPath [("s1", M), ("s2", c)] (mp.del "n_jobs") = expected sigDtwPath [("s1", M), ("s2", c)] mp := by
    refine expected_congr fun p hp ho => lookup_del fun he => ?_
    have : ∀ p ∈ sigDtwPath, p.1 ≠ "n_jobs" := by decide
    exact this p hp he
  simp only [expectedCoded, e3, e4]

theorem pyBind_cases (sig : Sig) (pos : List PyArg) (kw : Kw) : pyBind sig pos kw = .error .typeError ∨
    pyBind sig pos kw = .ok (sig.map fun p => (p.1, (((((sig.map Prod.fst).zip pos ++ kw).lookup p.1).or p.2).getD .none))) := by
  unfold pyBind
  simp only
  split
  · exact .inl rfl
  · exact .inr rfl

theorem cdistCall_cases {fn : String} {sig : Sig} {pos : List PyArg} {own kw : Kw} {code : PyArg}
    (hsig : sig.lookup "global_constraint" = some (some .none)) (hog : ((sig.map Prod.fst).zip pos ++ own).lookup "global_constraint" = none)
    (hc : HasCode kw code) : cdistCall fn sig pos (own ++ kw) = .error .typeError ∨ ∃ r, cdistCall fn sig pos (own ++ kw) = .ok r := by
  rcases pyBind_cases sig pos (own ++ kw) with h | h
  · exact .inl (by unfold cdistCall; rw [h]; rfl)
  · right
    have hl := expected_lookup ((sig.map Prod.fst).zip pos ++ own) kw hsig
    rw [hog, Option.none_or] at hl
    have hv : (((kw.lookup "global_constraint").or (some PyArg.none)).getD .none) = (kw.lookup "global_constraint").getD .none := by
      cases kw.lookup "global_constraint" <;> rfl
    have he : (sig.map fun p => (p.1, (((((sig.map Prod.fst).zip pos ++ (own ++ kw)).lookup p.1).or p.2).getD PyArg.none))) =
        expected sig ((sig.map Prod.fst).zip pos ++ own) kw := by
      simp only [expected, ← List.append_assoc, List.lookup_append, Option.or_assoc]
    unfold cdistCall
    have hc := hasCode_eq hc
    simp only [h, he, bind, Except.bind, hl, Option.getD_some, hv, hc]
    exact ⟨_, rfl⟩

/-- Any other entry is refused with `TypeError`. -/
theorem C92_kmeans_dtw_refused (mp : Kw) {p : String × PyArg} (hp : p ∈ mp)
    (hk : p.1 ∉ ["n_jobs", "global_constraint", "sakoe_chiba_radius", "itakura_max_slope"]) {code : PyArg} (hc : HasCode mp code)
    (nJobs verbose m X C M c : PyArg) : kmRoundCalls "dtw" (some mp) nJobs verbose m X C M c = .error .typeError := by
  simp only [List.mem_cons, List.not_mem_nil, or_false, not_or] at hk
  have hpk : p ∈ mp.del "n_jobs" := mem_del.2 ⟨hp, hk.1⟩
  unfold kmRoundCalls kmMetricParams
  simp only [Option.getD_some, show ("dtw" = "euclidean") = False from by decide, if_false, if_true]
  rcases cdistCall_cases (fn := "_cdist_dtw") (sig := sigCdistDtw) (pos := [X, C]) (own := [("n_jobs", nJobs), ("verbose", verbose)])
    (kw := mp.del "n_jobs") (code := code) (by decide) (by simp [sigCdistDtw, List.lookup]) (hasCode_congr (lookup_del (by decide)).symm hc) with h | ⟨r, h⟩
  · rw [h]
    rfl
  · have h2 := pyBind_refused (sig := sigDtwPath) (pos := [M, c]) (own := []) hpk (by simp [sigDtwPath]; tauto)
    rw [List.nil_append] at h2
    rw [h, h2]
    rfl

theorem lookup_put (d : Kw) (k j : String) (v : PyArg) : (d.put k v).lookup j = if j = k then some v else d.lookup j := by
  unfold Kw.put
  split
  · next h =>
    induction d with
    | nil => simp at h
    | cons p d ih =>
      obtain ⟨a, b⟩ := p
      rw [List.map_cons]
      by_cases ha : a = k
      · subst ha
        simp only [if_true]
        by_cases hj : j = a
        · subst hj; simp [List.lookup_cons]
        · have hb : (j == a) = false := by simpa using hj
          simp only [List.lookup_cons, hb, hj, if_false]
          by_cases hd : d.any fun p => p.1 = a
          · rw [ih hd, if_neg hj]
          · have : d.map (fun p => if p.1 = a then (a, v) else p) = d := by
              rw [List.map_congr_left (g := id)]
              · simp
              · intro p hp
                rw [if_neg]
                · rfl
                · intro he
                  exact hd (List.any_eq_true.2 ⟨p, hp, by simpa using he⟩)
            rw [this]
      · simp only [ha, if_false]
        have hd : d.any fun p => p.1 = k := by simpa [ha] using h
        by_cases hj : j = a
        · subst hj
          simp [List.lookup_cons, ha]
        · have hb : (j == a) = false := by simpa using hj
          simp only [List.lookup_cons, hb]
          exact ih hd
  · next h =>
    rw [List.lookup_append]
    by_cases hj : j = k
    · subst hj
      have : d.lookup j = none := by
        rw [lookup_eq_none_iff']
        intro p hp he
        exact h (List.any_eq_true.2 ⟨p, hp, by simpa using he⟩)
      simp [this, List.lookup_cons]
    · have hb : (j == k) = false := by simpa using hj
      simp [List.lookup_cons, hb, hj]

theorem put_fst (d : Kw) (k : String) (v : PyArg) :
    (d.put k v).map Prod.fst = if k ∈ d.map Prod.fst then d.map Prod.fst else d.map Prod.fst ++ [k] := by
  unfold Kw.put
  by_cases h : k ∈ d.map Prod.fst
  · have h' : d.any fun p => p.1 = k := by
      obtain ⟨p, hp, he⟩ := List.mem_map.1 h
      exact List.any_eq_true.2 ⟨p, hp, by simpa using he⟩
    rw [if_pos h', if_pos h, List.map_map]
    refine List.map_congr_left fun p _ => ?_
    simp only [Function.comp]
    split
    · next he => exact he.symm
    · rfl
  · have h' : ¬ d.any fun p => p.1 = k := by
      intro hh
      obtain ⟨p, hp, he⟩ := List.any_eq_true.1 hh
      exact h (List.mem_map.2 ⟨p, hp, by simpa using he⟩)
    rw [if_neg h', if_neg h]
    simp

theorem isDict_put {d : Kw} (h : IsDict d) (k : String) (v : PyArg) : IsDict (d.put k v) := by
  unfold IsDict at *
  rw [put_fst]
  split
  · exact h
  · next hk =>
    rw [List.nodup_append]
    refine ⟨h, by simp, ?_⟩
    intro a ha b hb hab
    rw [List.mem_singleton] at hb
    exact hk (hb ▸ hab ▸ ha)

theorem mem_put {d : Kw} {k : String} {v : PyArg} {p : String × PyArg} (hp : p ∈ d.put k v) : p.1 = k ∨ p.1 ∈ d.map Prod.fst := by
  have : p.1 ∈ (d.put k v).map Prod.fst := List.mem_map_of_mem hp
  rw [put_fst] at this
  split at this
  · exact .inr this
  · rw [List.mem_append, List.mem_singleton] at this
    exact this.symm

/-- What a k-means centroid under soft-DTW is computed with. -/
def kmSoftOwn (mp : Kw) (nJobs code : PyArg) : Kw :=
  [("Z", .obj 10), ("X", .obj 11), ("weights", .obj 12), ("gamma", (mp.lookup "gamma").getD (.int 1)), ("n_jobs", nJobs), ("global_constraint", code)]

theorem softBaryCall_ok (mp : Kw) (hd : IsDict mp)
    (hk : ∀ p ∈ mp, p.1 = "gamma" ∨ p.1 = "global_constraint" ∨ p.1 = "sakoe_chiba_radius" ∨ p.1 = "itakura_max_slope")
    {code : PyArg} (hc : HasCode mp code) (X m init nJobs : PyArg) :
    softBaryCall X m init nJobs mp = .ok ⟨"_acc_softdtw_func", expected sigAccSoftDtw (kmSoftOwn mp nJobs code) mp⟩ := by
  unfold softBaryCall
  have hnd : (([("X", X), ("max_iter", m), ("init", init), ("n_jobs", nJobs)] ++ mp : Kw).map Prod.fst).Nodup := by
    rw [List.map_append, List.nodup_append]
    refine ⟨by simp, hd, ?_⟩
    intro a ha b hb hab
    obtain ⟨q, hq, rfl⟩ := List.mem_map.1 hb
    rw [hab] at ha
    rcases hk q hq with h | h | h | h <;> rw [h] at ha <;> simp at ha
  have hf1 : ([("X", X), ("max_iter", m), ("init", init), ("n_jobs", nJobs)] ++ mp : Kw).filter (fun p => p.1 ∈ sigSoftBary.map Prod.fst) =
      [("X", X), ("max_iter", m), ("init", init), ("n_jobs", nJobs)] ++ mp.filter (fun p => p.1 ∈ sigSoftBary.map Prod.fst) := by
    rw [List.filter_append]
    congr 1
  have hf2 : ([("X", X), ("max_iter", m), ("init", init), ("n_jobs", nJobs)] ++ mp : Kw).filter (fun p => p.1 ∉ sigSoftBary.map Prod.fst) =
      mp.filter (fun p => p.1 ∉ sigSoftBary.map Prod.fst) := by
    rw [List.filter_append]
    have : ([("X", X), ("max_iter", m), ("init", init), ("n_jobs", nJobs)] : Kw).filter (fun p => p.1 ∉ sigSoftBary.map Prod.fst) = [] := rfl
    rw [this, List.nil_append]
  have h1 := pyBind_ok (sig := sigSoftBary) (pos := []) (own := [("X", X), ("max_iter", m), ("init", init), ("n_jobs", nJobs)])
    (kw := mp.filter fun p => p.1 ∈ sigSoftBary.map Prod.fst) (by simp) (by simp [sigSoftBary]) (by simp [sigSoftBary]) (by simp [sigSoftBary])
    (isDict_filter hd _) (fun p hp => by
      obtain ⟨hp1, hp2⟩ := List.mem_filter.1 hp
      refine ⟨by simpa using hp2, ?_⟩
      rcases hk p hp1 with h | h | h | h <;> rw [h] <;> simp)
  have hrest : ∀ k, k ∉ sigSoftBary.map Prod.fst → (mp.filter fun p => p.1 ∉ sigSoftBary.map Prod.fst).lookup k = mp.lookup k := by
    intro k hk
    have := lookup_filter mp k (fun s => decide (s ∉ sigSoftBary.map Prod.fst)) (by simpa using hk)
    simpa using this
  have hgam : (mp.filter fun p => p.1 ∈ sigSoftBary.map Prod.fst).lookup "gamma" = mp.lookup "gamma" := by
    have := lookup_filter mp "gamma" (fun s => decide (s ∈ sigSoftBary.map Prod.fst)) (by decide)
    simpa using this
  have hg : (expected sigSoftBary ((sigSoftBary.map Prod.fst).zip [] ++ [("X", X), ("max_iter", m), ("init", init), ("n_jobs", nJobs)])
      (mp.filter fun p => p.1 ∈ sigSoftBary.map Prod.fst)).lookup "gamma" = some ((mp.lookup "gamma").getD (.int 1)) := by
    rw [expected_lookup (dflt := some (.int 1)) _ _ (by decide), hgam]
    have : ((sigSoftBary.map Prod.fst).zip [] ++ [("X", X), ("max_iter", m), ("init", init), ("n_jobs", nJobs)] : Kw).lookup "gamma" = none := by
      simp [List.lookup]
    rw [this]
    cases mp.lookup "gamma" <;> rfl
  have hj : (expected sigSoftBary ((sigSoftBary.map Prod.fst).zip [] ++ [("X", X), ("max_iter", m), ("init", init), ("n_jobs", nJobs)])
      (mp.filter fun p => p.1 ∈ sigSoftBary.map Prod.fst)).lookup "n_jobs" = some nJobs := by
    rw [expected_lookup (dflt := some .none) _ _ (by decide)]
    have : ((sigSoftBary.map Prod.fst).zip [] ++ [("X", X), ("max_iter", m), ("init", init), ("n_jobs", nJobs)] : Kw).lookup "n_jobs" = some nJobs := by
      simp [List.lookup]
    rw [this]
    rfl
  have hcode : constraintCode (((mp.filter fun p => p.1 ∉ sigSoftBary.map Prod.fst).lookup "global_constraint").getD .none) = .ok code := by
    rw [hrest _ (by decide)]
    exact hasCode_eq hc
  have h2 := pyBind_ok (sig := sigAccSoftDtw) (pos := [.obj 10, .obj 11, .obj 12, (mp.lookup "gamma").getD (.int 1)]) (own := [("n_jobs", nJobs)])
    (kw := Kw.put (mp.filter fun p => p.1 ∉ sigSoftBary.map Prod.fst) "global_constraint" code) (by simp [sigAccSoftDtw]) (by simp [sigAccSoftDtw])
    (by simp [sigAccSoftDtw]) (by simp [sigAccSoftDtw]) (isDict_put (isDict_filter hd _) _ _) (fun p hp => by
      rcases mem_put hp with h | h
      · rw [h]; simp [sigAccSoftDtw]
      · obtain ⟨q, hq, he⟩ := List.mem_map.1 h
        obtain ⟨hq1, hq2⟩ := List.mem_filter.1 hq
        rw [← he]
        rcases hk q hq1 with h | h | h | h <;> rw [h] at hq2 ⊢ <;> simp [sigAccSoftDtw, sigSoftBary] at hq2 ⊢)
  simp only [hnd, not_true_eq_false, if_false, hf1, hf2, h1, bind, Except.bind, pure, Except.pure, hg, hj, Option.getD_some, hcode]
  rw [List.singleton_append] at h2
  rw [h2]
  congr 2
  have e1 : ((sigAccSoftDtw.map Prod.fst).zip [.obj 10, .obj 11, .obj 12, (mp.lookup "gamma").getD (.int 1)] ++ [("n_jobs", nJobs)] : Kw) =
      [("Z", .obj 10), ("X", .obj 11), ("weights", .obj 12), ("gamma", (mp.lookup "gamma").getD (.int 1)), ("n_jobs", nJobs)] := by
    simp [sigAccSoftDtw]
  rw [e1]
  simp only [expected, sigAccSoftDtw, List.map_cons, List.map_nil, kmSoftOwn, List.lookup_cons, lookup_put]
  have r1 := hrest "sakoe_chiba_radius" (by decide)
  have r2 := hrest "itakura_max_slope" (by decide)
  simp only [r1, r2]
  simp

/-- `TimeSeriesKMeans(metric="softdtw")`: `gamma` and the constraint parameters reach the distances and the centroids alike. -/
theorem C92_kmeans_softdtw (mp : Kw) (hd : IsDict mp)
    (hk : ∀ p ∈ mp, p.1 ∈ ["n_jobs", "gamma", "global_constraint", "sakoe_chiba_radius", "itakura_max_slope"]) {code : PyArg} (hc : HasCode mp code)
    (nJobs verbose m X C M c : PyArg) :
    kmRoundCalls "softdtw" (some mp) nJobs verbose m X C M c = .ok
      [⟨"_cdist_soft_dtw", expectedCoded sigCdistSoftDtw (kmOwn X C nJobs verbose) mp code⟩,
        ⟨"_acc_softdtw_func", expected sigAccSoftDtw (kmSoftOwn mp nJobs code) mp⟩] := by
  have hkw : ∀ p ∈ mp.del "n_jobs", p.1 = "gamma" ∨ p.1 = "global_constraint" ∨ p.1 = "sakoe_chiba_radius" ∨ p.1 = "itakura_max_slope" := by
    intro p hp
    obtain ⟨h1, h2⟩ := mem_del.1 hp
    have := hk p h1
    simp only [List.mem_cons, List.not_mem_nil, or_false] at this
    tauto
  have h1 := cdistCall_ok (fn := "_cdist_soft_dtw") (sig := sigCdistSoftDtw) (pos := [X, C]) (own := [("n_jobs", nJobs), ("verbose", verbose)])
    (kw := mp.del "n_jobs") (code := code) (by simp [sigCdistSoftDtw]) (by simp [sigCdistSoftDtw]) (by simp [sigCdistSoftDtw])
    (by simp [sigCdistSoftDtw]) (isDict_del hd _)
    (fun p hp => by rcases hkw p hp with h | h | h | h <;> rw [h] <;> simp [sigCdistSoftDtw]) (by decide) (by simp [sigCdistSoftDtw, List.lookup])
    (hasCode_congr (lookup_del (by decide)).symm hc)
  have h2 := softBaryCall_ok (mp.del "n_jobs") (isDict_del hd _) hkw (hasCode_congr (lookup_del (by decide)).symm hc) M m c nJobs
  unfold kmRoundCalls kmMetricParams
  simp only [Option.getD_some, h1, h2, bind, Except.bind, pure, Except.pure]
  have e1 : (sigCdistSoftDtw.map Prod.fst).zip [X, C] ++ [("n_jobs", nJobs), ("verbose", verbose)] = kmOwn X C nJobs verbose := by
    simp [sigCdistSoftDtw, kmOwn]
  rw [e1]
  simp only [show ("softdtw" = "euclidean") = False from by decide, show ("softdtw" = "dtw") = False from by decide, if_false, if_true]
  have e3 : expected sigCdistSoftDtw (kmOwn X C nJobs verbose) (mp.del "n_jobs") = expected sigCdistSoftDtw (kmOwn X C nJobs verbose) mp :=
    expected_congr fun p hp ho => lookup_del fun he => by rw [he] at ho; simp [kmOwn, List.lookup] at ho
  have e5 : kmSoftOwn (mp.del "n_jobs") nJobs code = kmSoftOwn mp nJobs code := by
    simp only [kmSoftOwn, lookup_del (d := mp) (j := "n_jobs") (k := "gamma") (by decide)]
  have e4 : expected sigAccSoftDtw (kmSoftOwn mp nJobs code) (mp.del "n_jobs") = expected sigAccSoftDtw (kmSoftOwn mp nJobs code) mp :=
    expected_congr fun p hp ho => lookup_del fun he => by rw [he] at ho; simp [kmSoftOwn, List.lookup] at ho
  simp only [expectedCoded, e3, e4, e5]

theorem mem_put_of_mem {d : Kw} {k : String} {v : PyArg} {p : String × PyArg} (hp : p ∈ d) (h : p.1 ≠ k) : p ∈ d.put k v := by
  unfold Kw.put
  split
  · exact List.mem_map.2 ⟨p, hp, by rw [if_neg h]⟩
  · exact List.mem_append_left _ hp

theorem softBaryCall_refused {mp : Kw} {p : String × PyArg} (hp : p ∈ mp) (hs : p.1 ∉ sigSoftBary.map Prod.fst)
    (ha : p.1 ∉ sigAccSoftDtw.map Prod.fst) {code : PyArg} (hc : HasCode mp code) (X m init nJobs : PyArg) :
    softBaryCall X m init nJobs mp = .error .typeError := by
  unfold softBaryCall
  set kw : Kw := [("X", X), ("max_iter", m), ("init", init), ("n_jobs", nJobs)] ++ mp with hkw
  by_cases hnd : (kw.map Prod.fst).Nodup
  · rcases pyBind_cases sigSoftBary [] (kw.filter fun p => p.1 ∈ sigSoftBary.map Prod.fst) with h | h
    · simp only [hnd, not_true_eq_false, if_false, h, bind, Except.bind, pure, Except.pure]
    · have hl : (kw.filter fun p => p.1 ∉ sigSoftBary.map Prod.fst).lookup "global_constraint" = mp.lookup "global_constraint" := by
        have := lookup_filter kw "global_constraint" (fun s => decide (s ∉ sigSoftBary.map Prod.fst)) (by decide)
        rw [this, hkw, List.lookup_append]
        have : ([("X", X), ("max_iter", m), ("init", init), ("n_jobs", nJobs)] : Kw).lookup "global_constraint" = none := by simp [List.lookup]
        rw [this, Option.none_or]
      have hcode : constraintCode (((kw.filter fun p => p.1 ∉ sigSoftBary.map Prod.fst).lookup "global_constraint").getD .none) = .ok code := by
        rw [hl]
        exact hasCode_eq hc
      have hne : p.1 ≠ "global_constraint" := fun he => ha (he ▸ by decide)
      have hmem : p ∈ Kw.put (kw.filter fun p => p.1 ∉ sigSoftBary.map Prod.fst) "global_constraint" code :=
        mem_put_of_mem (List.mem_filter.2 ⟨List.mem_append_right _ hp, by simpa using hs⟩) hne
      simp only [hnd, not_true_eq_false, if_false, h, bind, Except.bind, pure, Except.pure, hcode]
      have hr := fun (pos : List PyArg) (v : PyArg) => pyBind_refused (sig := sigAccSoftDtw) (pos := pos) (own := [("n_jobs", v)]) hmem (.inl ha)
      simp only [List.singleton_append] at hr
      rw [hr]
  · simp only [hnd, not_false_eq_true, if_true, bind, Except.bind, throw, throwThe, MonadExceptOf.throw]

/-- Any other entry is refused with `TypeError`. -/
theorem C92_kmeans_softdtw_refused (mp : Kw) {p : String × PyArg} (hp : p ∈ mp)
    (hk : p.1 ∉ ["n_jobs", "gamma", "global_constraint", "sakoe_chiba_radius", "itakura_max_slope"]) {code : PyArg} (hc : HasCode mp code)
    (nJobs verbose m X C M c : PyArg) : kmRoundCalls "softdtw" (some mp) nJobs verbose m X C M c = .error .typeError := by
  simp only [List.mem_cons, List.not_mem_nil, or_false, not_or] at hk
  have hpk : p ∈ mp.del "n_jobs" := mem_del.2 ⟨hp, hk.1⟩
  have hc' : HasCode (mp.del "n_jobs") code := hasCode_congr (lookup_del (by decide)).symm hc
  unfold kmRoundCalls kmMetricParams
  simp only [Option.getD_some, show ("softdtw" = "euclidean") = False from by decide, show ("softdtw" = "dtw") = False from by decide, if_false, if_true]
  by_cases hbe : p.1 = "be"
  · rcases cdistCall_cases (fn := "_cdist_soft_dtw") (sig := sigCdistSoftDtw) (pos := [X, C]) (own := [("n_jobs", nJobs), ("verbose", verbose)])
      (kw := mp.del "n_jobs") (code := code) (by decide) (by simp [sigCdistSoftDtw, List.lookup]) hc' with h | ⟨r, h⟩
    · rw [h]
      rfl
    · rw [h, softBaryCall_refused hpk (by rw [hbe]; decide) (by rw [hbe]; decide) hc']
      rfl
  · rw [cdistCall_refused hpk]
    · rfl
    · simp [sigCdistSoftDtw]
      tauto

/-- Both steps of a round of k-means measure with one soft-DTW: the same `gamma`, constraint, radius and slope. -/
theorem C92_kmeans_softdtw_one_metric (mp : Kw) (hd : IsDict mp)
    (hk : ∀ p ∈ mp, p.1 ∈ ["n_jobs", "gamma", "global_constraint", "sakoe_chiba_radius", "itakura_max_slope"]) {code : PyArg} (hc : HasCode mp code)
    (nJobs verbose m X C M c : PyArg) : ∃ a b, kmRoundCalls "softdtw" (some mp) nJobs verbose m X C M c = .ok [a, b] ∧
      ∀ k ∈ ["gamma", "global_constraint", "sakoe_chiba_radius", "itakura_max_slope", "n_jobs"], a.args.lookup k = b.args.lookup k := by
  refine ⟨_, _, C92_kmeans_softdtw mp hd hk hc nJobs verbose m X C M c, fun k hk => ?_⟩
  simp only [List.mem_cons, List.not_mem_nil, or_false] at hk
  rcases hk with rfl | rfl | rfl | rfl | rfl <;>
    cases mp.lookup "gamma" <;> simp [expectedCoded, expected, sigCdistSoftDtw, sigAccSoftDtw, kmOwn, kmSoftOwn, List.lookup]

example : kmRoundCalls "softdtw" (some [("gamma", .obj 7), ("global_constraint", .str "sakoe_chiba"), ("sakoe_chiba_radius", .int 2), ("n_jobs", .int 8)])
    (.int 4) (.int 0) (.int 100) (.obj 1) (.obj 2) (.obj 3) (.obj 4) = .ok
      [⟨"_cdist_soft_dtw", [("dataset1", .obj 1), ("dataset2", .obj 2), ("gamma", .obj 7), ("global_constraint", .int 2),
          ("sakoe_chiba_radius", .int 2), ("itakura_max_slope", .none), ("n_jobs", .int 4), ("verbose", .int 0), ("be", .none)]⟩,
        ⟨"_acc_softdtw_func", [("Z", .obj 10), ("X", .obj 11), ("weights", .obj 12), ("gamma", .obj 7), ("global_constraint", .int 2),
          ("sakoe_chiba_radius", .int 2), ("itakura_max_slope", .none), ("n_jobs", .int 4)]⟩] := by
  decide

example : kmRoundCalls "dtw" (some [("be", .str "numpy")]) .none (.int 0) (.int 100) (.obj 1) (.obj 2) (.obj 3) (.obj 4) = .error .typeError :=
  C92_kmeans_dtw_refused _ (p := ("be", .str "numpy")) (by decide) (by decide) (code := .int 0) (by unfold HasCode; decide) ..

/-- What the entries of `metric_params` become in the neighbours estimators: `gamma_sdtw` is another name of `gamma` and wins, `n_jobs` and
`verbose` are set aside, all others stay. -/
theorem C92_knn_entries (mp : Kw) (k : String) : (knnMetricParams (some mp)).lookup k =
    if k = "n_jobs" ∨ k = "verbose" ∨ (k = "gamma_sdtw") then none
    else if k = "gamma" then (mp.lookup "gamma_sdtw").or (mp.lookup "gamma") else mp.lookup k := by
  have hdel : ∀ (d : Kw) (j k : String), (d.del j).lookup k = if k = j then none else d.lookup k := by
    intro d j k
    by_cases h : k = j
    · subst h
      rw [if_pos rfl, lookup_eq_none_iff']
      exact fun p hp => (mem_del.1 hp).2
    · rw [if_neg h, lookup_del h]
  unfold knnMetricParams
  simp only [Option.getD_some, hdel]
  cases hg : mp.lookup "gamma_sdtw" with
  | none =>
    simp only [Option.none_or]
    by_cases h3 : k = "gamma_sdtw"
    · subst h3
      simp only [hg]
      simp
    by_cases h1 : k = "n_jobs" <;> by_cases h2 : k = "verbose" <;> by_cases h4 : k = "gamma" <;> simp_all
  | some g =>
    simp only [hdel, lookup_put, Option.some_or]
    by_cases h1 : k = "n_jobs" <;> by_cases h2 : k = "verbose" <;> by_cases h3 : k = "gamma_sdtw" <;> by_cases h4 : k = "gamma" <;> simp_all

theorem isDict_knn {mp : Kw} (hd : IsDict mp) : IsDict (knnMetricParams (some mp)) := by
  unfold knnMetricParams
  simp only [Option.getD_some]
  split
  · exact isDict_del (isDict_del (isDict_del (isDict_put hd _ _) _) _) _
  · exact isDict_del (isDict_del hd _) _

/-- The function behind a metric of the neighbours estimators, its parameters, and what the estimator sets itself. -/
def knnTable (unsup : Bool) (nJobs verbose X Y : PyArg) : List (String × String × Sig × Kw) :=
  let data : Kw := [("dataset1", X), ("dataset2", Y)]
  let own : Kw := if unsup then [("n_jobs", nJobs), ("verbose", verbose)] else [("n_jobs", nJobs)]
  [("dtw", "_cdist_dtw", sigCdistDtw, data ++ own), ("frechet", "_cdist_frechet", sigCdistDtw, data ++ own),
    ("softdtw", "_cdist_soft_dtw", sigCdistSoftDtw, data), ("ctw", "_cdist_ctw", sigCdistCtw, data)]

/-- In the neighbours estimators all entries reach the function of the metric. -/
theorem C92_knn_partial (unsup : Bool) (mp : Kw) (hd : IsDict mp) (nJobs verbose X Y : PyArg) {metric fn : String} {sig : Sig} {own : Kw}
    (ht : (metric, fn, sig, own) ∈ knnTable unsup nJobs verbose X Y)
    (hk : ∀ p ∈ knnMetricParams (some mp), p.1 ∈ sig.map Prod.fst ∧ p.1 ∉ own.map Prod.fst) {code : PyArg} (hc : HasCode mp code) :
    knnCall unsup metric (some mp) nJobs verbose X Y = .ok ⟨fn, expectedCoded sig own (knnMetricParams (some mp)) code⟩ := by
  have hc' : HasCode (knnMetricParams (some mp)) code := hasCode_congr (by rw [C92_knn_entries]; simp) hc
  have hd' := isDict_knn hd
  simp only [knnTable, List.mem_cons, List.not_mem_nil, or_false, Prod.mk.injEq] at ht
  unfold knnCall
  generalize hkw : knnMetricParams (some mp) = kw at *
  rcases ht with ⟨rfl, rfl, rfl, rfl⟩ | ⟨rfl, rfl, rfl, rfl⟩ | ⟨rfl, rfl, rfl, rfl⟩ | ⟨rfl, rfl, rfl, rfl⟩
  · cases unsup
    · have := cdistCall_ok (fn := "_cdist_dtw") (sig := sigCdistDtw) (pos := [X, Y]) (own := [("n_jobs", nJobs)]) (kw := kw) (code := code)
        (by simp [sigCdistDtw]) (by simp [sigCdistDtw]) (by simp [sigCdistDtw]) (by simp [sigCdistDtw]) hd' (by simpa [sigCdistDtw] using hk)
        (by decide) (by simp [sigCdistDtw, List.lookup]) hc'
      simpa [sigCdistDtw] using this
    · have := cdistCall_ok (fn := "_cdist_dtw") (sig := sigCdistDtw) (pos := [X, Y]) (own := [("n_jobs", nJobs), ("verbose", verbose)]) (kw := kw) (code := code)
        (by simp [sigCdistDtw]) (by simp [sigCdistDtw]) (by simp [sigCdistDtw]) (by simp [sigCdistDtw]) hd' (by simpa [sigCdistDtw] using hk)
        (by decide) (by simp [sigCdistDtw, List.lookup]) hc'
      simpa [sigCdistDtw] using this
  · cases unsup
    · have := cdistCall_ok (fn := "_cdist_frechet") (sig := sigCdistDtw) (pos := [X, Y]) (own := [("n_jobs", nJobs)]) (kw := kw) (code := code)
        (by simp [sigCdistDtw]) (by simp [sigCdistDtw]) (by simp [sigCdistDtw]) (by simp [sigCdistDtw]) hd' (by simpa [sigCdistDtw] using hk)
        (by decide) (by simp [sigCdistDtw, List.lookup]) hc'
      simpa [sigCdistDtw] using this
    · have := cdistCall_ok (fn := "_cdist_frechet") (sig := sigCdistDtw) (pos := [X, Y]) (own := [("n_jobs", nJobs), ("verbose", verbose)]) (kw := kw) (code := code)
        (by simp [sigCdistDtw]) (by simp [sigCdistDtw]) (by simp [sigCdistDtw]) (by simp [sigCdistDtw]) hd' (by simpa [sigCdistDtw] using hk)
        (by decide) (by simp [sigCdistDtw, List.lookup]) hc'
      simpa [sigCdistDtw] using this
  · have := cdistCall_ok (fn := "_cdist_soft_dtw") (sig := sigCdistSoftDtw) (pos := [X, Y]) (own := []) (kw := kw) (code := code)
      (by simp [sigCdistSoftDtw]) (by simp [sigCdistSoftDtw]) (by simp [sigCdistSoftDtw]) (by simp) hd' (by simpa [sigCdistSoftDtw] using hk)
      (by decide) (by simp [sigCdistSoftDtw, List.lookup]) hc'
    simpa [sigCdistSoftDtw] using this
  · have := cdistCall_ok (fn := "_cdist_ctw") (sig := sigCdistCtw) (pos := [X, Y]) (own := []) (kw := kw) (code := code)
      (by simp [sigCdistCtw]) (by simp [sigCdistCtw]) (by simp [sigCdistCtw]) (by simp) hd' (by simpa [sigCdistCtw] using hk)
      (by decide) (by simp [sigCdistCtw, List.lookup]) hc'
    simpa [sigCdistCtw] using this

/-- An entry that the function does not know is refused. -/
theorem C92_knn_refused (unsup : Bool) (mp : Kw) (nJobs verbose X Y : PyArg) {metric fn : String} {sig : Sig} {own : Kw}
    (ht : (metric, fn, sig, own) ∈ knnTable unsup nJobs verbose X Y) {p : String × PyArg} (hp : p ∈ mp)
    (hk : p.1 ∉ ["n_jobs", "verbose", "gamma_sdtw"]) (hs : p.1 ∉ sig.map Prod.fst ∨ p.1 ∈ ["dataset1", "dataset2"]) :
    knnCall unsup metric (some mp) nJobs verbose X Y = .error .typeError := by
  simp only [List.mem_cons, List.not_mem_nil, or_false, not_or] at hk
  have hex : ∃ q ∈ knnMetricParams (some mp), q.1 = p.1 := by
    by_contra hn
    push Not at hn
    have h1 := (lookup_eq_none_iff' _ _).2 hn
    rw [C92_knn_entries, if_neg (by tauto)] at h1
    have h2 : mp.lookup p.1 = none := by
      split at h1
      · next h => rw [h]; exact (Option.or_eq_none_iff.1 h1).2
      · exact h1
    exact (lookup_eq_none_iff' _ _).1 h2 p hp rfl
  obtain ⟨q, hq, hqp⟩ := hex
  rw [← hqp] at hs
  unfold knnCall
  generalize knnMetricParams (some mp) = kw at *
  simp only [knnTable, List.mem_cons, List.not_mem_nil, or_false, Prod.mk.injEq] at ht
  rcases ht with ⟨rfl, rfl, rfl, rfl⟩ | ⟨rfl, rfl, rfl, rfl⟩ | ⟨rfl, rfl, rfl, rfl⟩ | ⟨rfl, rfl, rfl, rfl⟩
  · exact cdistCall_refused hq (hs.imp_right fun h => by simp at h; simp [sigCdistDtw]; tauto)
  · exact cdistCall_refused hq (hs.imp_right fun h => by simp at h; simp [sigCdistDtw]; tauto)
  · exact cdistCall_refused (own := []) hq (hs.imp_right fun h => by simp at h; simp [sigCdistSoftDtw]; tauto)
  · exact cdistCall_refused (own := []) hq (hs.imp_right fun h => by simp at h; simp [sigCdistCtw]; tauto)

example : knnCall false "softdtw" (some [("gamma_sdtw", .obj 7), ("verbose", .int 3)]) .none (.int 0) (.obj 1) (.obj 2) = .ok
    ⟨"_cdist_soft_dtw", [("dataset1", .obj 1), ("dataset2", .obj 2), ("gamma", .obj 7), ("global_constraint", .int 0),
      ("sakoe_chiba_radius", .none), ("itakura_max_slope", .none), ("n_jobs", .none), ("verbose", .int 0), ("be", .none)]⟩ := by
  decide

example : knnCall true "dtw" (some [("gamma", .obj 7)]) (.int 2) (.int 0) (.obj 1) (.obj 2) = .error .typeError :=
  C92_knn_refused true _ _ _ _ _ (fn := "_cdist_dtw") (sig := sigCdistDtw) (own := _) (by unfold knnTable; exact List.mem_cons_self)
    (p := ("gamma", .obj 7)) (by decide) (by decide) (.inl (by decide))

/-- The number of jobs of a neighbours estimator does not reach soft-DTW and CTW. -/
theorem C92_false_knn_jobs (unsup : Bool) {metric : String} (hm : metric = "softdtw" ∨ metric = "ctw") (mp : Option Kw)
    (nJobs nJobs' verbose verbose' X Y : PyArg) : knnCall unsup metric mp nJobs verbose X Y = knnCall unsup metric mp nJobs' verbose' X Y := by
  rcases hm with rfl | rfl <;> rfl

/-- SAX: `fit` refuses the entry `n_jobs` that `predict` sets aside. -/
theorem C92_false_sax_fit (v X : PyArg) : knnSaxCall true (some [("n_jobs", v)]) X = .error .typeError ∧
    knnSaxCall false (some [("n_jobs", v)]) X = .ok ⟨"_sax_preprocess", [("X", X), ("n_segments", .int 10), ("alphabet_size_avg", .int 4),
      ("scale", .obj 1)]⟩ := by
  constructor
  · simp [knnSaxCall, pyBind, sigSaxPreprocess]
  · simp [knnSaxCall, knnMetricParams, Kw.del, pyBind, sigSaxPreprocess, List.lookup]

/-- The Euclidean metric of k-means ignores every entry. -/
theorem C92_false_kmeans_euclidean (mp : Option Kw) (nJobs verbose m X C M c : PyArg) :
    kmRoundCalls "euclidean" mp nJobs verbose m X C M c = .ok [] := rfl

/-- DBSCAN: known entries reach the function, whatever else is there. -/
theorem C92_dbscan_partial (mp : Kw) (hd : IsDict mp) (nJobs X : PyArg) {metric fn : String} {sig : Sig}
    (ht : (metric, fn, sig) ∈ [("dtw", "_cdist_dtw", sigCdistDtw), ("frechet", "_cdist_frechet", sigCdistDtw), ("ctw", "_cdist_ctw", sigCdistCtw),
      ("softdtw_normalized", "_cdist_soft_dtw_normalized", sigCdistSoftDtw)])
    (hk : ∀ p ∈ mp, p.1 ≠ "dataset1") {code : PyArg} (hc : HasCode mp code) (hj : nJobs ≠ .none) :
    dbCall metric (some mp) nJobs X = .ok (some ⟨fn, expectedCoded sig [("dataset1", X), ("n_jobs", nJobs)] mp code⟩) := by
  have hput : ∀ k, (Kw.put mp "n_jobs" nJobs).lookup k = if k = "n_jobs" then some nJobs else mp.lookup k := fun k => lookup_put ..
  have key : ∀ (fn : String) (sig : Sig), (∃ t, sig = ("dataset1", none) :: t ∧ ∀ p ∈ t, p.2 ≠ none) → (sig.map Prod.fst).Nodup →
      sig.lookup "global_constraint" = some (some .none) →
      cdistCall fn sig [X] ((dbMetricParams (some mp) nJobs).filter fun p => p.1 ∈ sig.map Prod.fst) =
        .ok ⟨fn, expectedCoded sig [("dataset1", X), ("n_jobs", nJobs)] mp code⟩ := by
    rintro fn sig ⟨t, rfl, ht⟩ hnd hg
    set sig : Sig := ("dataset1", none) :: t with hsig
    have hz : (sig.map Prod.fst).zip [X] = [("dataset1", X)] := by rw [hsig]; simp
    unfold dbMetricParams
    rw [if_pos hj]
    simp only [Option.getD_some]
    have hlk : ∀ k ∈ sig.map Prod.fst, ((Kw.put mp "n_jobs" nJobs).filter fun p => p.1 ∈ sig.map Prod.fst).lookup k =
        if k = "n_jobs" then some nJobs else mp.lookup k := by
      intro k hk
      rw [← hput]
      have := lookup_filter (Kw.put mp "n_jobs" nJobs) k (fun s => decide (s ∈ sig.map Prod.fst)) (by simpa using hk)
      simpa using this
    have hgm : "global_constraint" ∈ sig.map Prod.fst := by
      by_contra hn
      have : sig.lookup "global_constraint" = none := by
        rw [List.lookup_eq_none_iff]
        intro p hp
        have hne : p.1 ≠ "global_constraint" := fun he => hn (List.mem_map.2 ⟨p, hp, he⟩)
        simpa using hne.symm
      rw [this] at hg
      cases hg
    have := cdistCall_ok (fn := fn) (sig := sig) (pos := [X]) (own := [])
      (kw := (Kw.put mp "n_jobs" nJobs).filter fun p => p.1 ∈ sig.map Prod.fst) (code := code) (by simp [hsig])
      (by
        intro p hp hn
        rw [hz]
        rw [hsig, List.mem_cons] at hp
        rcases hp with rfl | hp
        · simp
        · exact absurd hn (ht p hp)) (by rw [hz]; simp) (by simp) (isDict_filter (isDict_put hd _ _) _)
      (fun p hp => by
        obtain ⟨h1, h2⟩ := List.mem_filter.1 hp
        refine ⟨by simpa using h2, ?_⟩
        rw [hz]
        rcases mem_put h1 with h | h
        · rw [h]; simp
        · obtain ⟨q, hq, he⟩ := List.mem_map.1 h
          have := hk q hq
          rw [he] at this
          simpa using this) hg (by rw [hz]; simp [List.lookup]) (hasCode_congr (by rw [hlk _ hgm]; simp) hc)
    rw [List.nil_append] at this
    rw [this, hz]
    have he : expected sig [("dataset1", X)] ((Kw.put mp "n_jobs" nJobs).filter fun p => p.1 ∈ sig.map Prod.fst) =
        expected sig [("dataset1", X), ("n_jobs", nJobs)] mp := by
      refine List.map_congr_left fun p hp => ?_
      rw [hlk p.1 (List.mem_map_of_mem hp)]
      by_cases h1 : p.1 = "dataset1"
      · simp [h1, List.lookup]
      · by_cases h2 : p.1 = "n_jobs"
        · simp [h2, List.lookup]
        · have b1 : (p.1 == "dataset1") = false := by simpa using h1
          have b2 : (p.1 == "n_jobs") = false := by simpa using h2
          simp [List.lookup_cons, b1, b2, h2]
    simp only [expectedCoded, List.append_nil, he]
  simp only [List.mem_cons, List.not_mem_nil, or_false, Prod.mk.injEq] at ht
  have k1 := fun fn => key fn sigCdistDtw ⟨_, rfl, by simp⟩ (by decide) (by decide)
  have k2 := fun fn => key fn sigCdistCtw ⟨_, rfl, by simp⟩ (by decide) (by decide)
  have k3 := fun fn => key fn sigCdistSoftDtw ⟨_, rfl, by simp⟩ (by decide) (by decide)
  unfold dbCall
  rcases ht with ⟨rfl, rfl, rfl⟩ | ⟨rfl, rfl, rfl⟩ | ⟨rfl, rfl, rfl⟩ | ⟨rfl, rfl, rfl⟩ <;> simp only [dbFunction] <;>
    (simp only [String.reduceEq, if_true, if_false, k1, k2, k3]
     rfl)

/-- DBSCAN drops an entry that the function does not know, such as a misspelt name: no error. -/
theorem C92_false_dbscan_unknown (mp : Kw) (k : String) (v : PyArg) (nJobs X : PyArg) {metric fn : String} {sig : Sig}
    (hf : dbFunction metric = some (fn, sig)) (hk : k ∉ sig.map Prod.fst) (hn : k ≠ "n_jobs") :
    dbCall metric (some ((k, v) :: mp)) nJobs X = dbCall metric (some mp) nJobs X := by
  unfold dbCall
  simp only [hf]
  congr 1
  unfold dbMetricParams
  simp only [Option.getD_some]
  split
  · unfold Kw.put
    simp only [List.any_cons, hn, decide_false, Bool.false_or]
    split
    · simp only [List.map_cons, if_neg hn, List.filter_cons]
      rw [if_neg (by simpa using hk)]
    · simp only [List.cons_append, List.filter_cons]
      rw [if_neg (by simpa using hk)]
  · rw [List.filter_cons, if_neg (by simpa using hk)]

/-- The name `gamma_sdtw` of the neighbours estimators is one of those. -/
theorem C92_false_dbscan_gamma (v nJobs X : PyArg) :
    dbCall "softdtw_normalized" (some [("gamma_sdtw", v)]) nJobs X = dbCall "softdtw_normalized" (some []) nJobs X :=
  C92_false_dbscan_unknown [] "gamma_sdtw" v nJobs X (fn := "_cdist_soft_dtw_normalized") (sig := sigCdistSoftDtw) rfl (by decide) (by decide)

/-- The estimator's default `n_jobs=None` does not override the entry `n_jobs`, contrary to the other estimators. -/
theorem C92_false_dbscan_jobs : ∃ r, dbCall "dtw" (some [("n_jobs", .int 8)]) .none (.obj 1) = .ok (some r) ∧
    r.args.lookup "n_jobs" = some (.int 8) ∧
    ∃ r', knnCall false "dtw" (some [("n_jobs", .int 8)]) .none (.int 0) (.obj 1) (.obj 2) = .ok r' ∧ r'.args.lookup "n_jobs" = some .none :=
  ⟨_, rfl, by decide, _, rfl, by decide⟩

/-- An entry `dataset2` replaces the matrix of distances inside the dataset by distances to another one. -/
theorem C92_false_dbscan_dataset2 : ∃ r, dbCall "dtw" (some [("dataset2", .obj 9)]) .none (.obj 1) = .ok (some r) ∧
    r.args.lookup "dataset2" = some (.obj 9) :=
  ⟨_, rfl, by decide⟩

/-- Without `metric_params`, no call of a round of `TimeSeriesKMeans` has a constraint, and `gamma` is 1. -/
theorem C92_defaults (nJobs verbose m X C M c : PyArg) :
    kmRoundCalls "dtw" none nJobs verbose m X C M c = .ok
      [⟨"_cdist_dtw", [("dataset1", X), ("dataset2", C), ("global_constraint", .int 0), ("sakoe_chiba_radius", .none), ("itakura_max_slope", .none),
          ("n_jobs", nJobs), ("verbose", verbose), ("be", .none)]⟩,
        ⟨"_njit_dtw_path", [("s1", M), ("s2", c), ("global_constraint", .int 0), ("sakoe_chiba_radius", .none), ("itakura_max_slope", .none)]⟩] ∧
    kmRoundCalls "softdtw" none nJobs verbose m X C M c = .ok
      [⟨"_cdist_soft_dtw", [("dataset1", X), ("dataset2", C), ("gamma", .int 1), ("global_constraint", .int 0), ("sakoe_chiba_radius", .none),
          ("itakura_max_slope", .none), ("n_jobs", nJobs), ("verbose", verbose), ("be", .none)]⟩,
        ⟨"_acc_softdtw_func", [("Z", .obj 10), ("X", .obj 11), ("weights", .obj 12), ("gamma", .int 1), ("global_constraint", .int 0),
          ("sakoe_chiba_radius", .none), ("itakura_max_slope", .none), ("n_jobs", nJobs)]⟩] ∧
    kmRoundCalls "euclidean" none nJobs verbose m X C M c = .ok [] :=
  ⟨rfl, rfl, rfl⟩

example : dbCall "dtw" (some [("sakoe_chiba_radius", .int 3), ("global_constraint", .str "sakoe_chiba")]) (.int 2) (.obj 1) =
    .ok (some ⟨"_cdist_dtw", [("dataset1", .obj 1), ("dataset2", .none), ("global_constraint", .int 2), ("sakoe_chiba_radius", .int 3),
      ("itakura_max_slope", .none), ("n_jobs", .int 2), ("verbose", .int 0), ("be", .none)]⟩) := by
  decide

end Verif
