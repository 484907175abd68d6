import Verif.Model.KMeansMetric
import Verif.Proofs.KMeans
import Verif.Props.C58
import Verif.Props.C60
import Mathlib.Algebra.Order.BigOperators.Group.List
/-!
C37: `TimeSeriesKMeans.fit` — runs, restarts, the run that is kept, and the attributes afterwards. The claim that the
attributes describe one clustering without empty clusters is false in three ways (`C37_false_*`).
-/
set_option linter.unusedSectionVars false
namespace Verif
open Spec
variable {P C K : Type} [Field K] [LinearOrder K] [IsStrictOrderedRing K]

/-- One run consists of Lloyd rounds; it ends after `max_iter` rounds, at the first change of inertia below `tol`, or with
`EmptyClusterError`. -/
theorem C37_run (e : KmEnv P C K) (hm : 0 < e.maxIter) (init : List C) (h : init ≠ []) (s : KmState C K) :
    (∃ o s', Succeeds e.problem init o ∧ kmFitOne e init s = (s', none) ∧ s'.centers = some o.1 ∧
      s'.inertia = (o.2.1 : WithTop K) ∧ s'.iter = o.2.2) ∨
    (∃ s', FailsEmpty e.problem init ∧ kmFitOne e init s = (s', some .emptyCluster)) := by
  rcases kmFitOne_cases e hm h s with ⟨o, s', h1, h2, h3, h4, h5, -⟩ | ⟨s', h1, h2, -⟩
  · exact .inl ⟨o, s', h1, h2, h3, h4, h5⟩
  · exact .inr ⟨s', h1, h2⟩

theorem succeeds_ne {p : Problem P C K} {init : List C} {o : List C × K × ℕ} (h : Succeeds p init o) (hi : init ≠ []) : o.1 ≠ [] := by
  obtain ⟨T, cs, lab, v, hr, hT, -, -, rfl⟩ := h
  have : ∀ t ≤ T, (cs t).length = init.length := by
    intro t
    induction t with
    | zero => intro _; rw [hr.start]
    | succ t ih => intro ht; rw [(hr.update t (by omega)).1, ih (by omega)]
  change cs T ≠ []
  rw [← List.length_pos_iff, this T le_rfl]
  exact List.length_pos_iff.2 hi

/-- `max_iter=0`: the loop variable is unbound. -/
theorem C37_no_rounds (e : KmEnv P C K) (hm : e.maxIter = 0) (hn : 0 < e.nInit) (inits : ℕ → List C) (s : KmState C K) :
    (kmFit e inits s).2.2 = some .unboundLocal := by
  unfold kmFit
  obtain ⟨f, hf⟩ : ∃ f, max e.nInit 10 = f + 1 := ⟨max e.nInit 10 - 1, by omega⟩
  simp [hf, kmFitLoop, hn, kmFitOne, hm]

/-- `fit` as a whole. Full claim: `inertia_` is the inertia of `labels_` and `cluster_centers_`, no cluster is empty, `fit` does
not raise. Missing (and false, see below): `inertia_` is the inertia before the last update; the final assignment may raise
`EmptyClusterError`; when no attempt succeeds `fit` returns without fitting. -/
theorem C37_fit_partial (e : KmEnv P C K) (hm : 0 < e.maxIter) (inits : ℕ → List C) (h : ∀ a, inits a ≠ []) (s0 : KmState C K) :
    ∃ (A : ℕ) (out : ℕ → Option (List C × K × ℕ)) (b : KmBest C K) (s : KmState C K) (err : Option PyErr),
      kmFit e inits s0 = (b, s, err) ∧ b.nAttempts = A ∧ A ≤ max e.nInit 10 ∧
      (∀ a < A, (∀ o, out a = some o → Succeeds e.problem (inits a) o) ∧ (out a = none → FailsEmpty e.problem (inits a))) ∧
      ((List.range A).filterMap out).length ≤ e.nInit ∧
      (((List.range A).filterMap out).length = e.nInit ∨ A = max e.nInit 10) ∧
      (((∀ a < A, out a = none) ∧ err = none ∧ s.xfit = false) ∨
       ∃ a < A, ∃ o l, out a = some o ∧
        (∀ a' < A, ∀ o', out a' = some o' → o.2.1 ≤ o'.2.1 ∧ (a' < a → o.2.1 < o'.2.1)) ∧
        s.centers = some o.1 ∧ s.nIter = o.2.2 ∧ s.labels = some l ∧ Nearest e.dist e.data o.1 l ∧
        ((AllUsed e.nClusters l ∧ err = none ∧ s.xfit = true ∧ s.inertia = (o.2.1 : WithTop K)) ∨
          (¬ AllUsed e.nClusters l ∧ err = some .emptyCluster ∧ s.xfit = false))) := by
  have hinv : FitInv e inits 0 (fun _ => none) ⟨none, ⊤, 0, 0⟩
      { s0 with labels := none, inertia := ⊤, centers := none, xfit := false, nIter := 0 } :=
    ⟨by simp, rfl, rfl, Nat.zero_le _, rfl, .inl ⟨by simp, rfl, rfl⟩⟩
  obtain ⟨A, out, b, s, ⟨h1, h2⟩, h3, h4⟩ := kmFitLoop_ok e hm inits h (max e.nInit 10) 0 _ _ _ hinv
  rw [Nat.zero_add] at h3 h4
  have hfit : kmFit e inits s0 = (b, kmPostFit e b s) := by
    unfold kmFit
    simp only [h1]
  refine ⟨A, out, b, (kmPostFit e b s).1, (kmPostFit e b s).2, hfit, h2.attempts, h3, h2.outcome, h2.count ▸ h2.bound,
    h2.count ▸ h4, ?_⟩
  rcases h2.best with ⟨hb0, hb1, hb2⟩ | ⟨a, ha, o, hb0, hb1, hb2, hb4, hb3⟩
  · left
    unfold kmPostFit
    rw [hb1]
    exact ⟨hb0, rfl, rfl⟩
  · right
    have hne : o.1 ≠ [] := succeeds_ne ((h2.outcome a ha).1 o hb0) (h a)
    have key := kmAssign_eq e hne 0 { s with centers := some o.1 } rfl
    have hnear := labSeq_near e hne 0
    refine ⟨a, ha, _, labSeq e o.1 0, hb0, hb3, ?_⟩
    unfold kmPostFit
    rw [hb1]
    have htop : b.minInertia ≠ ⊤ := by rw [hb2]; exact WithTop.coe_ne_top
    by_cases hE : hasEmpty (labSeq e o.1 0) e.nClusters
    · rw [if_pos hE] at key
      simp only [if_pos htop, key]
      exact ⟨trivial, hb4, trivial, hnear, .inr ⟨(hasEmpty_iff _ _).1 hE, trivial, h2.xfit⟩⟩
    · rw [if_neg hE] at key
      simp only [if_pos htop, key]
      refine ⟨trivial, hb4, trivial, hnear, .inl ⟨?_, trivial, trivial, hb2⟩⟩
      by_contra hcon
      exact hE ((hasEmpty_iff _ _).2 hcon)

/-- `predict` on any data names the first nearest centroid. -/
theorem C37_predict (e : KmEnv P C K) (s : KmState C K) (cs : List C) (hc : s.centers = some cs) (hne : cs ≠ []) (X : List P) :
    ∃ l, kmPredict e s X = .ok l ∧ Nearest e.dist X cs l :=
  ⟨_, by unfold kmPredict; rw [hc], kmLabels_nearest e hne X⟩

/-- After a fit that kept a run, `predict` on the training data is `labels_`. -/
theorem C37_predict_train (e : KmEnv P C K) (hm : 0 < e.maxIter) (inits : ℕ → List C) (h : ∀ a, inits a ≠ []) (s0 : KmState C K)
    (b : KmBest C K) (s : KmState C K) (hf : kmFit e inits s0 = (b, s, none)) (hx : s.xfit = true) :
    ∃ l, s.labels = some l ∧ kmPredict e s e.data = .ok l ∧ AllUsed e.nClusters l := by
  obtain ⟨A, out, b', s', err, h1, -, -, h7, -, -, h2⟩ := C37_fit_partial e hm inits h s0
  rw [hf] at h1
  obtain ⟨-, h1⟩ := Prod.mk.inj h1
  obtain ⟨rfl, rfl⟩ := Prod.mk.inj h1
  rcases h2 with ⟨-, -, h2⟩ | ⟨a, ha, o, l, h8, -, h3, -, h4, h5, ⟨h6, -⟩ | ⟨-, h6, -⟩⟩
  · rw [hx] at h2; cases h2
  · refine ⟨l, h4, ?_, h6⟩
    unfold kmPredict
    rw [h3]
    refine congrArg Except.ok ?_
    have hne : o.1 ≠ [] := succeeds_ne ((h7 a ha).1 o h8) (h a)
    have hn := kmLabels_nearest e hne e.data
    refine List.ext_getElem? fun i => ?_
    rcases Nat.lt_or_ge i e.data.length with hi | hi
    · have hi1 : i < (kmLabels e e.data o.1).length := by rw [hn.1]; exact hi
      have hi2 : i < l.length := by rw [h5.1]; exact hi
      rw [List.getElem?_eq_getElem hi1, List.getElem?_eq_getElem hi2]
      obtain ⟨c1, a1, a2⟩ := hn.2 i _ _ (List.getElem?_eq_getElem hi) (List.getElem?_eq_getElem hi1)
      obtain ⟨c2, b1, b2⟩ := h5.2 i _ _ (List.getElem?_eq_getElem hi) (List.getElem?_eq_getElem hi2)
      refine congrArg some ?_
      rcases Nat.lt_trichotomy (kmLabels e e.data o.1)[i] l[i] with hlt | heq | hlt
      · exact absurd ((b2 _ _ a1).2 hlt) (not_lt.2 (a2 _ _ b1).1)
      · exact heq
      · exact absurd ((a2 _ _ b1).2 hlt) (not_lt.2 (b2 _ _ a1).1)
    · rw [List.getElem?_eq_none (by rw [hn.1]; exact hi), List.getElem?_eq_none (by rw [h5.1]; exact hi)]
  · cases h6

/-- A barycenter that keeps an invariant of centroids and never increases the summed squared distances to the members. -/
def BaryDescends (p : Problem P C K) (I : C → Prop) : Prop :=
  ∀ M : List P, M ≠ [] → (∀ x ∈ M, x ∈ p.data) → ∀ c, I c →
    I (p.bary M c) ∧ (M.map fun x => p.idist x (p.bary M c) ^ 2).sum ≤ (M.map fun x => p.idist x c ^ 2).sum

theorem mem_members {data : List P} {lab : List ℕ} {k : ℕ} {x : P} (h : x ∈ members data lab k) : x ∈ data := by
  obtain ⟨a, ha, hx⟩ := List.mem_filterMap.1 h
  by_cases hk : a.2 = k
  · rw [if_pos hk] at hx
    rw [← Option.some.inj hx]
    exact (List.of_mem_zip (a := a.1) (b := a.2) ha).1
  · rw [if_neg hk] at hx; cases hx

theorem members_ne {data : List P} {lab : List ℕ} (hl : lab.length = data.length) {k : ℕ} (h : k ∈ lab) : members data lab k ≠ [] := by
  obtain ⟨i, hi, rfl⟩ := List.getElem_of_mem h
  have : (data[i]'(hl ▸ hi)) ∈ members data lab lab[i] := by
    refine List.mem_filterMap.2 ⟨(data[i]'(hl ▸ hi), lab[i]), ?_, by simp⟩
    exact List.mem_iff_getElem.2 ⟨i, by simp [hl ▸ hi, hi], by simp⟩
  exact List.ne_nil_of_mem this

/-- Better labels: nearest centroids give the least mean. -/
theorem meanSq_nearest {dist : P → C → K} {data : List P} (h0 : ∀ x ∈ data, ∀ c, 0 ≤ dist x c) {cs : List C} {lab lab' : List ℕ}
    (hn : Nearest dist data cs lab') (hl : lab.length = data.length) (hlt : ∀ l ∈ lab, l < cs.length) :
    meanSq dist data cs lab' ≤ meanSq dist data cs lab := by
  unfold meanSq
  refine div_le_div_of_nonneg_right (List.Forall₂.sum_le_sum (List.forall₂_iff_get.2 ⟨by simp [hn.1, hl], fun i hi1 hi2 => ?_⟩))
    (Nat.cast_nonneg _)
  have hi : i < data.length := by simp at hi1; omega
  have hi' : i < lab'.length := by rw [hn.1]; exact hi
  have hi'' : i < lab.length := by rw [hl]; exact hi
  obtain ⟨c, hc, hmin⟩ := hn.2 i _ _ (List.getElem?_eq_getElem hi) (List.getElem?_eq_getElem hi')
  have hc2 := List.getElem?_eq_getElem (hlt _ (List.getElem_mem hi''))
  have hx : data[i] ∈ data := List.getElem_mem hi
  simp only [List.get_eq_getElem, List.getElem_map, List.getElem_zip, hc, hc2]
  exact pow_le_pow_left₀ (h0 _ hx _) (hmin _ _ hc2).1 2

/-- Better centroids: updated barycenters do not increase the mean. -/
theorem meanSq_update {p : Problem P C K} {I : C → Prop} (hb : BaryDescends p I) {cs cs' : List C} {lab : List ℕ}
    (hI : ∀ c ∈ cs, I c) (hl : lab.length = p.data.length) (hlt : ∀ l ∈ lab, l < cs.length) (hu : AllUsed cs.length lab)
    (hlen : cs'.length = cs.length)
    (hup : ∀ (k : ℕ) (c : C), cs[k]? = some c → cs'[k]? = some (p.bary (members p.data lab k) c)) :
    (∀ c ∈ cs', I c) ∧ meanSq p.idist p.data cs' lab ≤ meanSq p.idist p.data cs lab := by
  have hk : ∀ k (hk : k < cs.length), cs'[k]? = some (p.bary (members p.data lab k) cs[k]) ∧
      I (p.bary (members p.data lab k) cs[k]) ∧
      ((members p.data lab k).map fun x => p.idist x (p.bary (members p.data lab k) cs[k]) ^ 2).sum ≤
        ((members p.data lab k).map fun x => p.idist x cs[k] ^ 2).sum := fun k hk =>
    ⟨hup k _ (List.getElem?_eq_getElem hk), hb _ (members_ne hl (hu k hk)) (fun _ => mem_members) _ (hI _ (List.getElem_mem hk))⟩
  refine ⟨fun c hc => ?_, ?_⟩
  · obtain ⟨k, hk', rfl⟩ := List.getElem_of_mem hc
    obtain ⟨h1, h2, -⟩ := hk k (hlen ▸ hk')
    rw [List.getElem?_eq_getElem hk'] at h1
    rw [Option.some.inj h1]
    exact h2
  · unfold meanSq
    refine div_le_div_of_nonneg_right ?_ (Nat.cast_nonneg _)
    have hz : ∀ x ∈ p.data.zip lab, x.2 < cs.length := fun x hx => hlt _ (List.of_mem_zip (a := x.1) (b := x.2) hx).2
    have e1 := sum_by_label cs.length _ (fun x l => match cs'[l]? with
      | some c => p.idist x c ^ 2
      | none => 0) hz
    have e2 := sum_by_label cs.length _ (fun x l => match cs[l]? with
      | some c => p.idist x c ^ 2
      | none => 0) hz
    refine e1.le.trans (le_trans ?_ e2.ge)
    refine List.sum_le_sum fun k hkr => ?_
    have hkl := List.mem_range.1 hkr
    obtain ⟨h1, -, h3⟩ := hk k hkl
    simp only [h1, List.getElem?_eq_getElem hkl]
    exact h3

/-- Lloyd's argument: over the rounds of a run the inertia never increases, and the clustering that is finally reported is at
least as good as the inertia that is reported with it. -/
theorem C37_descent (p : Problem P C K) (hd : p.dist = p.idist) (h0 : ∀ x ∈ p.data, ∀ c, 0 ≤ p.dist x c) (I : C → Prop)
    (hb : BaryDescends p I) (init : List C) (hk : init.length = p.k) (hI : ∀ c ∈ init, I c) (T : ℕ) (cs : ℕ → List C)
    (lab : ℕ → List ℕ) (v : ℕ → K) (hr : Rounds p init T cs lab v) :
    (∀ t, t + 1 < T → v (t + 1) ≤ v t) ∧
      ∀ l, 0 < T → Nearest p.dist p.data (cs T) l → meanSq p.idist p.data (cs T) l ≤ v (T - 1) := by
  have hlen : ∀ t ≤ T, (cs t).length = p.k := by
    intro t
    induction t with
    | zero => intro _; rw [hr.start, hk]
    | succ t ih => intro ht; rw [(hr.update t (by omega)).1, ih (by omega)]
  have hst : ∀ t < T, (∀ c ∈ cs t, I c) → (∀ c ∈ cs (t + 1), I c) ∧ ∀ l, Nearest p.dist p.data (cs (t + 1)) l →
      meanSq p.idist p.data (cs (t + 1)) l ≤ v t := by
    intro t ht hc
    have hn := hr.near t ht
    have hlt := nearest_lt hn
    have hu := hr.used t ht
    rw [← hlen t ht.le] at hu
    obtain ⟨h1, h2⟩ := meanSq_update hb hc hn.1 hlt hu (hr.update t ht).1 (hr.update t ht).2
    refine ⟨h1, fun l hl => ?_⟩
    rw [hr.inertia t ht]
    refine le_trans ?_ h2
    rw [hd] at h0 hl
    exact meanSq_nearest h0 hl hn.1 fun m hm => by rw [(hr.update t ht).1]; exact hlt m hm
  have hall : ∀ t ≤ T, ∀ c ∈ cs t, I c := by
    intro t
    induction t with
    | zero => intro _; rw [hr.start]; exact hI
    | succ t ih => intro ht; exact (hst t (by omega) (ih (by omega))).1
  refine ⟨fun t ht => ?_, fun l hT hl => ?_⟩
  · rw [hr.inertia (t + 1) ht]
    exact (hst t (by omega) (hall t (by omega))).2 _ (hr.near (t + 1) ht)
  · obtain ⟨t, rfl⟩ : ∃ t, T = t + 1 := ⟨T - 1, by omega⟩
    exact (hst t (by omega) (hall t (by omega))).2 l hl

/-- A fit that ends without error and kept a run: `labels_` are the nearest centroids, no cluster is empty, and the true inertia is
at most `inertia_`, which is the best among the successful runs. -/
theorem C37_inertia_bound (e : KmEnv P C K) (hm : 0 < e.maxIter) (hd : e.dist = e.idist) (h0 : ∀ x ∈ e.data, ∀ c, 0 ≤ e.dist x c)
    (I : C → Prop) (hb : BaryDescends e.problem I) (inits : ℕ → List C) (hne : 0 < e.nClusters)
    (hk : ∀ a, (inits a).length = e.nClusters) (hI : ∀ a, ∀ c ∈ inits a, I c) (s0 : KmState C K) (b : KmBest C K)
    (s : KmState C K) (hf : kmFit e inits s0 = (b, s, none)) (hx : s.xfit = true) :
    ∃ l cs v, s.labels = some l ∧ s.centers = some cs ∧ s.inertia = ((v : K) : WithTop K) ∧ AllUsed e.nClusters l ∧
      Nearest e.dist e.data cs l ∧ meanSq e.idist e.data cs l ≤ v := by
  obtain ⟨A, out, b', s', err, h1, -, -, h7, -, -, h2⟩ := C37_fit_partial e hm inits
    (fun a => by rw [← List.length_pos_iff, hk a]; exact hne) s0
  rw [hf] at h1
  obtain ⟨-, h1⟩ := Prod.mk.inj h1
  obtain ⟨rfl, rfl⟩ := Prod.mk.inj h1
  rcases h2 with ⟨-, -, h2⟩ | ⟨a, ha, o, l, h8, -, h3, -, h4, h5, ⟨h6, -, -, h9⟩ | ⟨-, h6, -⟩⟩
  · rw [hx] at h2; cases h2
  · obtain ⟨T, cs, lab, v, hr, hT, -, -, rfl⟩ := (h7 a ha).1 o h8
    exact ⟨l, _, _, h4, h3, h9, h6, h5, (C37_descent e.problem hd h0 I hb (inits a) (hk a) (hI a) T cs lab v hr).2 l (by omega) h5⟩
  · cases h6

section Euclidean

theorem zipSq_eq : ∀ r s : List ℝ, (List.zipWith (fun u v => (u - v) * (u - v)) r s).sum = sqEuclid s r
  | [], s => by simp [sqEuclid]
  | _ :: _, [] => by simp [sqEuclid]
  | u :: r, v :: s => by
    have := zipSq_eq r s
    simp only [sqEuclid, List.zipWith_cons_cons, List.sum_cons, List.zip_cons_cons, List.map_cons] at this ⊢
    rw [this]; ring

theorem zipRows_eq : ∀ x c : List (List ℝ),
    (List.zipWith (fun r s => (List.zipWith (fun u v => (u - v) * (u - v)) r s).sum) x c).sum = (List.zipWith sqEuclid c x).sum
  | [], c => by simp
  | _ :: _, [] => by simp
  | r :: x, s :: c => by
    simp only [List.zipWith_cons_cons, List.sum_cons, zipRows_eq x c, zipSq_eq r s]

theorem sqEuclid_nonneg' (a b : List ℝ) : 0 ≤ sqEuclid a b :=
  List.sum_nonneg fun v hv => by
    obtain ⟨u, -, rfl⟩ := List.mem_map.1 hv
    exact sq_nonneg _

theorem kmEucDist_sq (x c : List (List ℝ)) : kmEucDist x c ^ 2 = (List.zipWith sqEuclid c x).sum := by
  unfold kmEucDist
  rw [zipRows_eq, Real.sq_sqrt]
  refine List.sum_nonneg fun v hv => ?_
  obtain ⟨i, hi, rfl⟩ := List.getElem_of_mem hv
  rw [List.getElem_zipWith]
  exact sqEuclid_nonneg' _ _

theorem eucCost_ones : ∀ (M : List (List (List ℝ))) (b : List (List ℝ)),
    eucCost M (List.replicate M.length 1) b = (M.map fun x => (List.zipWith sqEuclid b x).sum).sum
  | [], b => by simp [eucCost]
  | x :: M, b => by
    have := eucCost_ones M b
    unfold eucCost at this ⊢
    simp [List.replicate_succ, this]

theorem zipWith_ones : ∀ l : List ℝ, List.zipWith (· * ·) l (List.replicate l.length 1) = l
  | [] => rfl
  | a :: l => by
    have := zipWith_ones l
    simp only [List.length_cons, List.replicate_succ, List.zipWith_cons_cons, mul_one, this]

/-- The mean of the members does not increase the summed squared Euclidean distances (it minimises them). -/
theorem kmMean_min {n d : ℕ} {M : List (List (List ℝ))} (hne : M ≠ []) (hM : ∀ x ∈ M, Rect n d x) (c : List (List ℝ)) :
    Rect n d (kmMean n d M c) ∧ ∀ a, Rect n d a →
      (M.map fun x => kmEucDist x (kmMean n d M c) ^ 2).sum ≤ (M.map fun x => kmEucDist x a ^ 2).sum := by
  have hbr : Rect n d (kmMean n d M c) := by
    refine ⟨by simp [kmMean], fun r hr => ?_⟩
    obtain ⟨t, -, rfl⟩ := List.mem_map.1 hr
    simp
  refine ⟨hbr, fun a ha => ?_⟩
  simp only [kmEucDist_sq]
  rw [← eucCost_ones, ← eucCost_ones, eucCost_sum ha hM, eucCost_sum hbr hM]
  refine Finset.sum_le_sum fun t ht => Finset.sum_le_sum fun f hf => ?_
  have hget : ((kmMean n d M c).getD t []).getD f 0 = (M.map fun x => (x.getD t []).getD f 0).sum / (M.length : ℝ) :=
    getD_table (fun _ => d) (fun t f => (M.map fun x => (x.getD t []).getD f 0).sum / (M.length : ℝ)) _
      (Finset.mem_range.1 ht) (Finset.mem_range.1 hf)
  rw [hget, weighted_square M (List.replicate M.length 1) (by simp) (fun x => (x.getD t []).getD f 0) ((a.getD t []).getD f 0)
    ((M.map fun x => (x.getD t []).getD f 0).sum / (M.length : ℝ))]
  have hpos : (0 : ℝ) < M.length := by exact_mod_cast List.length_pos_iff.2 hne
  have h1 : (List.replicate M.length (1 : ℝ)).sum = M.length := by simp
  have h2 : List.zipWith (· * ·) (M.map fun x => (x.getD t []).getD f 0) (List.replicate M.length 1) =
      M.map fun x => (x.getD t []).getD f 0 := by
    have := zipWith_ones (M.map fun x => (x.getD t []).getD f 0)
    rwa [List.length_map] at this
  rw [h1, h2, mul_div_cancel₀ _ hpos.ne', sub_self, mul_zero, add_zero]
  exact le_add_of_nonneg_right (mul_nonneg hpos.le (sq_nonneg _))

/-- Euclidean k-means: the mean is a descending barycenter, so `C37_descent` and `C37_inertia_bound` apply. -/
theorem C37_euclidean (e : KmEnv (List (List ℝ)) (List (List ℝ)) ℝ) (n d : ℕ) (hdist : e.dist = kmEucDist) (hid : e.idist = kmEucDist)
    (hbary : e.bary = kmMean n d) (hdata : ∀ x ∈ e.data, Rect n d x) :
    e.dist = e.idist ∧ (∀ x ∈ e.data, ∀ c, 0 ≤ e.dist x c) ∧ BaryDescends e.problem (Rect n d) := by
  refine ⟨by rw [hdist, hid], fun x _ c => by rw [hdist]; exact Real.sqrt_nonneg _, fun M hM hMd c hc => ?_⟩
  obtain ⟨h1, h2⟩ := kmMean_min hM (fun x hx => hdata x (hMd x hx)) c
  change Rect n d (e.bary M c) ∧ (M.map fun x => e.idist x (e.bary M c) ^ 2).sum ≤ (M.map fun x => e.idist x c ^ 2).sum
  rw [hbary, hid]
  exact ⟨h1, h2 c hc⟩

end Euclidean

section Dtw

/-- The squared distance that the assignment uses is the least cost of an alignment within the mask. -/
theorem kmDtwDist_sq {x c : List (List ℝ)} (hx : x ≠ []) (hc : c ≠ []) {gc : ℕ} {radius : Option ℕ} {slope : Option ℚ}
    (hs : ∀ s, slope = some s → 1 ≤ s) {mask : Mat Bool} (hm : computeMask x.length c.length gc radius slope = .ok mask) :
    IsLeast {v | ∃ p, Admissible c.length x.length (fun i j => mask j i) p ∧ v = sumCost (sampleCost c x) p}
      (kmDtwDist gc radius slope x c ^ 2) := by
  obtain ⟨v, h1, h2, h3⟩ := C01_dtw_squared x c hx hc gc radius slope mask hm
  have hv : v ≠ ⊤ := fun h => h2.1 h (computeMask_reachable (List.length_pos_iff.2 hx) (List.length_pos_iff.2 hc) hs hm).2
  obtain ⟨w, rfl⟩ := WithTop.ne_top_iff_exists.1 hv
  have hw := (h3 w).1 rfl
  have h0 : 0 ≤ w := by
    obtain ⟨p, -, rfl⟩ := hw.1
    refine List.sum_nonneg fun v hv => ?_
    obtain ⟨u, -, rfl⟩ := List.mem_map.1 hv
    exact sqEuclid_nonneg' _ _
  have he : kmDtwDist gc radius slope x c ^ 2 = w := by
    unfold kmDtwDist
    rw [h1]
    exact Real.sq_sqrt h0
  rw [he]
  obtain ⟨⟨p, hp, hpw⟩, hmin⟩ := hw
  refine ⟨⟨p.map Prod.swap, admissible_swap (mask := fun i j => mask j i) hp, ?_⟩, ?_⟩
  · rw [cost_swap]; exact hpw
  · rintro _ ⟨q, hq, rfl⟩
    have := hmin ⟨q.map Prod.swap, admissible_swap (mask := mask) hq, rfl⟩
    rwa [cost_swap] at this

/-- DTW k-means with the constraint codes that the barycenter accepts (no name; a bare radius or slope): Petitjean's barycenter
descends, so `C37_descent` and `C37_inertia_bound` apply. -/
theorem C37_dtw (e : KmEnv (List (List ℝ)) (List (List ℝ)) ℝ) (cfg : DbaCfg ℝ) (size d : ℕ)
    (hdist : e.dist = kmDtwDist cfg.gc.toCode cfg.radius cfg.slope) (hid : e.idist = e.dist)
    (hbary : e.bary = kmDtwBary cfg size d) (hsz : 0 < size) (ham : IsArgmin3 cfg.am) (hs : ∀ s, cfg.slope = some s → 1 ≤ s)
    (hdata : ∀ x ∈ e.data, x ≠ [] ∧ Rect x.length d x ∧
      ∃ m, computeMask x.length size cfg.gc.toCode cfg.radius cfg.slope = .ok m) :
    e.dist = e.idist ∧ (∀ x ∈ e.data, ∀ c, 0 ≤ e.dist x c) ∧ BaryDescends e.problem (Rect size d) := by
  refine ⟨hid.symm, fun x _ c => ?_, fun M hM hMd c hc => ?_⟩
  · rw [hdist]
    unfold kmDtwDist
    cases dtwSqGeneric x c cfg.gc.toCode cfg.radius cfg.slope with
    | ok v => exact Real.sqrt_nonneg _
    | error _ => exact le_rfl
  · have hget : ∀ k < M.length, M.getD k [] ∈ e.data := fun k hk => by
      rw [List.getD_eq_getElem _ _ hk]; exact hMd _ (List.getElem_mem hk)
    let masks : ℕ → Mat Bool := fun k i j =>
      match computeMask (M.getD k []).length size cfg.gc.toCode cfg.radius cfg.slope with
      | .ok m => m j i
      | .error _ => false
    have hmask : ∀ k < M.length, computeMask (M.getD k []).length size cfg.gc.toCode cfg.radius cfg.slope =
        .ok (fun j i => masks k i j) := by
      intro k hk
      obtain ⟨m, hm⟩ := (hdata _ (hget k hk)).2.2
      simp only [masks, hm]
    have hpj : PjOk cfg M size d masks :=
      ⟨hsz, fun k hk => (hdata _ (hget k hk)).1, fun k hk => (hdata _ (hget k hk)).2.1, hmask, hs, ham⟩
    have hMl := List.length_pos_iff.2 hM
    have hw : WeightsOk M (setWeights none M.length : List ℝ) := by
      unfold setWeights
      exact ⟨by simp, fun w h => by rw [List.eq_of_mem_replicate h]; exact zero_le_one,
        1, List.mem_replicate.2 ⟨by omega, rfl⟩, zero_lt_one⟩
    obtain ⟨T, bs, cost, hdes, h0, hT, hrun⟩ := C58_descent cfg M (setWeights none M.length) size d masks hpj hw c hc 30
    have hT' := hT (by norm_num)
    have hb : kmDtwBary cfg size d M c = bs T := by
      unfold kmDtwBary; rw [hrun]
    -- the weighted mean is the mean of the squared distances
    have hin : ∀ b, Rect size d b → IsInertia masks M (setWeights none M.length) b
        ((M.map fun x => kmDtwDist cfg.gc.toCode cfg.radius cfg.slope x b ^ 2).sum / (M.length : ℝ)) := by
      intro b hbr
      have hbne : b ≠ [] := List.length_pos_iff.1 (by rw [hbr.1]; exact hsz)
      refine ⟨fun k => kmDtwDist cfg.gc.toCode cfg.radius cfg.slope (M.getD k []) b ^ 2, fun k hk => ?_, ?_⟩
      · have hm := hmask k hk
        rw [← hbr.1] at hm
        exact kmDtwDist_sq (hdata _ (hget k hk)).1 hbne hs hm
      · have h1 : (setWeights none M.length : List ℝ).sum = M.length := by simp [setWeights]
        rw [h1]
        congr 2
        refine List.ext_getElem (by simp) fun k hk1 hk2 => ?_
        have hk : k < M.length := by simpa using hk1
        have hwk : (setWeights none M.length : List ℝ).getD k 0 = 1 := by
          unfold setWeights
          rw [List.getD_eq_getElem _ _ (by simpa using hk)]
          simp
        simp only [List.getElem_map, List.getElem_range]
        rw [hwk, one_mul, List.getD_eq_getElem _ _ hk]
    have hmono : ∀ t < T, cost t ≤ cost 0 := by
      intro t
      induction t with
      | zero => intro _; exact le_rfl
      | succ t ih => intro ht; exact (hdes.mono t ht).trans (ih (by omega))
    have hfin := (hdes.final _ hT' (hin _ (hdes.rect T le_rfl))).trans (hmono (T - 1) (by omega))
    have hstart := Spec.IsInertia.unique (hdes.inertia 0 hT') (hin _ (hdes.rect 0 (Nat.zero_le _)))
    change Rect size d (e.bary M c) ∧ (M.map fun x => e.idist x (e.bary M c) ^ 2).sum ≤ (M.map fun x => e.idist x c ^ 2).sum
    rw [hbary, hid, hdist, hb]
    refine ⟨hdes.rect T le_rfl, ?_⟩
    rw [hstart, h0] at hfin
    have hpos : (0 : ℝ) < M.length := by exact_mod_cast hMl
    exact (div_le_div_iff_of_pos_right hpos).1 hfin

end Dtw

/-- One-sample univariate series under the Euclidean metric. -/
def pts (data : List ℚ) (k maxIter nInit : ℕ) : KmEnv ℚ ℚ ℚ :=
  ⟨data, k, maxIter, nInit, 1 / 1000000, fun x c => |x - c|, fun x c => |x - c|, fun M _ => M.sum / (M.length : ℚ)⟩

/-- Attributes of a new estimator. -/
def km0 : KmState ℚ ℚ := ⟨none, ⊤, none, false, 0, 0⟩

theorem pts_ok (data : List ℚ) (k maxIter nInit : ℕ) : (pts data k maxIter nInit).dist = (pts data k maxIter nInit).idist ∧
    (∀ x ∈ data, ∀ c, 0 ≤ (pts data k maxIter nInit).dist x c) ∧
    BaryDescends (pts data k maxIter nInit).problem fun _ => True := by
  refine ⟨rfl, fun x _ c => abs_nonneg _, fun M hM _ c _ => ⟨trivial, ?_⟩⟩
  change (M.map fun x => |x - M.sum / (M.length : ℚ)| ^ 2).sum ≤ (M.map fun x => |x - c| ^ 2).sum
  simp only [sq_abs]
  have key : ∀ (L : List ℚ) (m y : ℚ), (L.map fun x => (x - y) ^ 2).sum =
      (L.map fun x => (x - m) ^ 2).sum + L.length * (m - y) ^ 2 + 2 * (m - y) * (L.sum - L.length * m) := by
    intro L m y
    induction L with
    | nil => simp
    | cons a L ih => simp only [List.map_cons, List.sum_cons, ih, List.length_cons]; push_cast; ring
  have hpos : (0 : ℚ) < M.length := by exact_mod_cast List.length_pos_iff.2 hM
  rw [key M (M.sum / (M.length : ℚ)) c, mul_div_cancel₀ _ hpos.ne', sub_self, mul_zero, add_zero]
  exact le_add_of_nonneg_right (mul_nonneg hpos.le (sq_nonneg _))

/-- A complete fit: the first two attempts fail on an empty cluster, the third succeeds, the fourth too with the same inertia. -/
example : (kmFit (pts [0, 1, 10, 11] 2 5 2) (fun a => if a < 2 then [0, 100] else [0, 10]) km0).2.1.labels = some [0, 0, 1, 1] ∧
    (kmFit (pts [0, 1, 10, 11] 2 5 2) (fun a => if a < 2 then [0, 100] else [0, 10]) km0).2.1.centers = some [1 / 2, 21 / 2] ∧
    (kmFit (pts [0, 1, 10, 11] 2 5 2) (fun a => if a < 2 then [0, 100] else [0, 10]) km0).2.1.xfit = true ∧
    (kmFit (pts [0, 1, 10, 11] 2 5 2) (fun a => if a < 2 then [0, 100] else [0, 10]) km0).2.1.inertia = ((1 / 4 : ℚ) : WithTop ℚ) ∧
    (kmFit (pts [0, 1, 10, 11] 2 5 2) (fun a => if a < 2 then [0, 100] else [0, 10]) km0).2.1.nIter = 3 ∧
    (kmFit (pts [0, 1, 10, 11] 2 5 2) (fun a => if a < 2 then [0, 100] else [0, 10]) km0).1.nAttempts = 4 ∧
    (kmFit (pts [0, 1, 10, 11] 2 5 2) (fun a => if a < 2 then [0, 100] else [0, 10]) km0).2.2 = none := by decide +kernel

example : kmPredict (pts [0, 1, 10, 11] 2 5 2) { km0 with centers := some [1 / 2, 21 / 2] } [3, 20, 11 / 2] = .ok [0, 1, 0] := by
  decide +kernel

/-- Restarts: the second run (inertia 1/4) replaces the first (three clusters of unequal quality). -/
example : (kmFit (pts [0, 1, 10, 11, 20, 21] 3 1 2) (fun a => if a = 0 then [0, 1, 10] else [0, 10, 20]) km0).2.1.centers =
    some [1 / 2, 21 / 2, 41 / 2] := by decide +kernel

example : BaryDescends (pts [0, 1, 10, 11] 2 5 2).problem fun _ => True := (pts_ok _ _ _ _).2.2

/-- Hypotheses of the Euclidean and of the DTW instance are met. -/
example : ∀ x ∈ ([[[0], [1]], [[2], [3]]] : List (List (List ℝ))), Rect 2 1 x := by simp [Rect]

example : ∀ x ∈ ([[[0], [1]], [[2], [3], [4]]] : List (List (List ℝ))), x ≠ [] ∧ Rect x.length 1 x ∧
    ∃ m, computeMask x.length 3 0 none none = .ok m := by
  simp [Rect, computeMask]

/-- `inertia_` is not the inertia of the reported clustering. -/
theorem C37_false_inertia : ∃ (e : KmEnv ℚ ℚ ℚ) (inits : ℕ → List ℚ) (b : KmBest ℚ ℚ) (s : KmState ℚ ℚ) (l : List ℕ) (cs : List ℚ),
    kmFit e inits km0 = (b, s, none) ∧ s.xfit = true ∧ s.labels = some l ∧ s.centers = some cs ∧
      s.inertia ≠ ((meanSq e.idist e.data cs l : ℚ) : WithTop ℚ) := by
  refine ⟨pts [0, 1, 10] 1 1 1, fun _ => [0], _, _, [0, 0, 0], [11 / 3], rfl, ?_⟩
  decide +kernel

/-- `fit` raises `EmptyClusterError` although an attempt succeeded. -/
theorem C37_false_raises : (kmFit (pts [-1, 0, 10, 11] 3 1 1) (fun _ => [-6, 5, 16]) km0).1.nSuccessful = 1 ∧
    (kmFit (pts [-1, 0, 10, 11] 3 1 1) (fun _ => [-6, 5, 16]) km0).2.2 = some .emptyCluster := by
  decide +kernel

/-- When every attempt fails, `fit` returns normally with an empty cluster in `labels_`, and `predict` answers. -/
theorem C37_false_silent : (kmFit (pts [-1, 0, 10, 11] 3 2 1) (fun _ => [-6, 5, 16]) km0).2.2 = none ∧
    (kmFit (pts [-1, 0, 10, 11] 3 2 1) (fun _ => [-6, 5, 16]) km0).1.nAttempts = 10 ∧
    (kmFit (pts [-1, 0, 10, 11] 3 2 1) (fun _ => [-6, 5, 16]) km0).2.1.labels = some [0, 0, 2, 2] ∧
    (kmFit (pts [-1, 0, 10, 11] 3 2 1) (fun _ => [-6, 5, 16]) km0).2.1.centers = some [-1, 5, 11] ∧
    (kmFit (pts [-1, 0, 10, 11] 3 2 1) (fun _ => [-6, 5, 16]) km0).2.1.xfit = false := by
  decide +kernel

end Verif
