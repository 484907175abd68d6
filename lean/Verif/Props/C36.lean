import Verif.Proofs.Dba
import Verif.Proofs.Cast
import Mathlib.Tactic.IntervalCases
import Mathlib.Tactic.NormNum
/-!
C36: DBA never increases the cost it reports.
-/
set_option linter.unusedSectionVars false
namespace Verif
open Spec
variable {K : Type} [Field K] [LinearOrder K] [IsStrictOrderedRing K]

/-- The update of the code is the only minimiser of the weighted cost for the given alignments. -/
theorem C36_update (xs : List (List (List K))) (ws : List K) (size d : ℕ) (ps : List (List (ℕ × ℕ)))
    (h : PathsOk xs size d ps) (hw : WeightsOk xs ws) :
    ∃ b', mmUpdate xs ws size d ps = .ok b' ∧ Rect size d b' ∧
      ∀ a, Rect size d a → a ≠ b' → alignCost xs ws ps b' < alignCost xs ws ps a :=
  mmUpdate_min h hw

/-- The assignment step returns cheapest allowed alignments and the weighted mean of the squared DTW distances. -/
theorem C36_assignment (cfg : DbaCfg K) (xs : List (List (List K))) (ws : List K) (size d : ℕ) (masks : ℕ → Mat Bool)
    (h : DbaOk cfg xs size d masks) (hw : WeightsOk xs ws) (b : List (List K))
    (hb : Rect size d b) :
    ∃ ps, ∃ c : K, mmAssignment cfg xs ws b = .ok (ps, (c : WithTop K)) ∧ Aligns masks xs b ps ∧
      IsInertia masks xs ws b c := by
  obtain ⟨ps, c, h1, -, h3, h4, -⟩ := mmAssignment_ok h hw hb
  exact ⟨ps, c, h1, h3, h4⟩

/-- One exact round never increases the inertia. -/
theorem C36_descent (xs : List (List (List K))) (ws : List K) (size d : ℕ) (masks : ℕ → Mat Bool)
    (hw : WeightsOk xs ws) (b b' : List (List K)) (c c' : K) (hb : Rect size d b) (h : IsInertia masks xs ws b c)
    (hu : IsUpdate masks xs ws size d b b') (h' : IsInertia masks xs ws b' c') : c' ≤ c :=
  inertia_descent hw hb h hu h'

/-- The loop of `dtw_barycenter_averaging_one_init`: descent, no "loss is increasing" warning. -/
theorem C36_loop (cfg : DbaCfg K) (xs : List (List (List K))) (ws : List K) (size d : ℕ) (masks : ℕ → Mat Bool)
    (h : DbaOk cfg xs size d masks) (hw : WeightsOk xs ws) (b : List (List K)) (hb : Rect size d b) (maxIter : ℕ) :
    ∃ T bs c, IsDescent masks xs ws size d cfg.tol maxIter T bs c ∧ bs 0 = b ∧ (0 < maxIter → 0 < T) ∧
      dbaLoop cfg xs ws size d maxIter b = .ok (bs T, (List.range T).map (fun t => ((c t : K) : WithTop K)), false) :=
  dbaLoopWith_descent hw cfg.tol (mmRound_ok h hw) b hb maxIter

theorem dbaBest_stable (b : List (List K)) (c : WithTop K) : ∀ (n : ℕ) (best : Option (List (List K))),
    dbaBest (.ok (b, c)) n c best = .ok best := by
  intro n
  induction n with
  | zero => intro best; rfl
  | succ n ih => intro best; simp [dbaBest, bind, Except.bind, ih]

/-- Repeating the run: there is no randomness, so the best of `n_init` attempts is the first one; nothing is returned
without attempts or when the cost is infinite. -/
theorem C36_ninit (cfg : DbaCfg K) (D : DsInput K) (size : Option ℕ) (init : Option (List (List K))) (maxIter : ℕ)
    (weights : Option (List K)) (b : List (List K)) (c : WithTop K)
    (h : dbaOneInit cfg D size init maxIter weights = .ok (b, c)) (nInit : ℕ) :
    dba cfg D size init maxIter weights nInit = .ok (if nInit = 0 ∨ c = ⊤ then none else some b) := by
  unfold dba
  rw [h]
  cases nInit with
  | zero => simp [dbaBest]
  | succ n =>
    by_cases hc : c = ⊤
    · subst hc
      simpa using dbaBest_stable b (⊤ : WithTop K) (n + 1) none
    · have : c < ⊤ := lt_top_iff_ne_top.2 hc
      simp [dbaBest, bind, Except.bind, this, hc, dbaBest_stable]

/-- Fully observed series as a dataset. -/
def dsOf (d : ℕ) (xs : List (List (List K))) : DsInput K := .series (xs.map fun x => ⟨d, x.map (·.map some)⟩)

theorem tsSize_full {d : ℕ} (hd : 0 < d) {x : List (List K)} (hx : ∀ r ∈ x, r.length = d) (m e : ℕ) :
    tsSize (x.map (·.map some) ++ List.replicate m (List.replicate e none)) = x.length := by
  refine IsSize.unique (tsSize_isSize _) ⟨?_, ?_⟩
  · rcases Nat.eq_zero_or_pos x.length with h | h
    · exact .inl h
    · right
      have hl : x.length - 1 < x.length := by omega
      have hr : (x[x.length - 1]).length = d := hx _ (List.getElem_mem _)
      refine ⟨(x[x.length - 1]).map some, ?_, some ((x[x.length - 1])[0]), ?_, rfl⟩
      · rw [List.getElem?_append_left (by simpa using hl), List.getElem?_map, List.getElem?_eq_getElem hl]
        rfl
      · exact List.mem_map.2 ⟨_, List.getElem_mem _, rfl⟩
  · rintro i hi ⟨r, hr, v, hv, hs⟩
    rw [List.getElem?_append_right (by simpa using hi)] at hr
    obtain ⟨-, rfl⟩ := List.mem_replicate.1 (List.mem_of_getElem? hr)
    obtain ⟨-, rfl⟩ := List.mem_replicate.1 hv
    simp at hs

theorem denan_full (x : List (List K)) : denan (x.map (·.map some)) = some x := by
  unfold denan
  induction x with
  | nil => rfl
  | cons r x ih =>
    have : (r.map some).mapM id = some r := by
      induction r with
      | nil => rfl
      | cons a r ihr => simp [ihr]
    simp [this, ih]

/-- Length of the longest series. -/
def maxLen (xs : List (List (List K))) : ℕ := (xs.map List.length).foldr max 0

theorem dsOf_dataset {d : ℕ} (hd : 0 < d) {xs : List (List (List K))} (hne : xs ≠ []) (hx : ∀ x ∈ xs, ∀ r ∈ x, r.length = d) :
    toDataset (dsOf d xs) = .ok ⟨maxLen xs, d, xs.map fun x =>
      x.map (·.map some) ++ List.replicate (maxLen xs - x.length) (List.replicate d none)⟩ := by
  have hs : ∀ x ∈ xs, tsSize (x.map (·.map some)) = x.length := fun x hm => by
    simpa using tsSize_full hd (hx x hm) 0 d
  obtain ⟨x0, xs', rfl⟩ := List.exists_cons_of_ne_nil hne
  have h := toDatasetSeries_wf (α := K) ⟨d, x0.map (·.map some)⟩ (xs'.map fun x => ⟨d, x.map (·.map some)⟩) (by
    intro t ht
    rw [← List.map_cons (f := fun x : List (List K) => (⟨d, x.map (·.map some)⟩ : Ts K))] at ht
    obtain ⟨x, hm, rfl⟩ := List.mem_map.1 ht
    refine ⟨fun r hr => ?_, rfl⟩
    obtain ⟨r', hr', rfl⟩ := List.mem_map.1 hr
    simpa using hx x hm r' hr')
  rw [← List.map_cons (f := fun x : List (List K) => (⟨d, x.map (·.map some)⟩ : Ts K))] at h
  simp only [List.map_map, Function.comp_def] at h
  have e1 : ((x0 :: xs').map fun x => tsSize (x.map (·.map some))) = (x0 :: xs').map List.length :=
    List.map_congr_left hs
  rw [e1] at h
  refine h.trans (congrArg Except.ok (congrArg (Arr3.mk _ d) (List.map_congr_left fun x hm => ?_)))
  rw [hs x hm, List.take_of_length_le (by simp)]
  rfl

theorem dsOf_series {d : ℕ} (hd : 0 < d) (M sz e : ℕ) : ∀ {xs : List (List (List K))}, (∀ x ∈ xs, ∀ r ∈ x, r.length = d) →
    dbaSeries (⟨sz, e, xs.map fun x => x.map (·.map some) ++ List.replicate (M - x.length) (List.replicate d none)⟩ : Arr3 K) =
      .ok xs := by
  intro xs hx
  unfold dbaSeries
  induction xs with
  | nil => rfl
  | cons x l ih =>
    have h2 : (x.map (·.map some) ++ List.replicate (M - x.length) (List.replicate d (none : Option K))).take x.length =
        x.map (·.map some) := by
      rw [List.take_append_of_le_length (by simp), List.take_of_length_le (by simp)]
    have := ih fun y hy => hx y (by simp [hy])
    simp only [List.map_cons, List.mapM_cons] at this ⊢
    rw [this, tsSize_full hd (hx x (by simp)), h2, denan_full]
    rfl

theorem dsOf_entry {d : ℕ} (sz : ℕ) {xs : List (List (List K))} (M : ℕ) (hx : ∀ x ∈ xs, ∀ r ∈ x, r.length = d) (t f : ℕ) (hf : f < d) :
    (List.range xs.length).map (fun i => (⟨sz, d, xs.map fun x =>
      x.map (·.map some) ++ List.replicate (M - x.length) (List.replicate d none)⟩ : Arr3 K).entry i t f) =
      xs.map fun x => x[t]?.map fun r => r.getD f 0 := by
  refine List.ext_getElem (by simp) fun i h1 h2 => ?_
  have hi : i < xs.length := by simpa using h1
  simp only [List.getElem_map, List.getElem_range, Arr3.entry, List.getD_eq_getElem?_getD, List.getElem?_map,
    List.getElem?_eq_getElem hi, Option.map_some, Option.getD_some]
  by_cases ht : t < xs[i].length
  · have hr : (xs[i][t]).length = d := hx _ (List.getElem_mem hi) _ (List.getElem_mem ht)
    rw [List.getElem?_append_left (by simpa using ht)]
    simp [ht, hr, hf]
  · rw [List.getElem?_append_right (by simpa using ht)]
    simp only [List.getElem?_replicate]
    split <;> simp [ht, hf]

/-- The default initial barycenter: at each time the mean of the series that reach it. -/
theorem C36_init (xs : List (List (List K))) (hne : xs ≠ []) (d : ℕ) (hd : 0 < d) (hx : ∀ x ∈ xs, ∀ r ∈ x, r.length = d) :
    ∃ X b, toDataset (dsOf d xs) = .ok X ∧ initAvg X X.sz = .ok b ∧ Rect (maxLen xs) d b ∧
      ∀ t < maxLen xs, ∀ f < d, let o := xs.filterMap fun x => x[t]?.map fun r => r.getD f 0
        o ≠ [] ∧ (b.getD t []).getD f 0 = o.sum / (o.length : K) := by
  have hmean : ∀ t < maxLen xs, ∀ f < d, nanMeanK ((List.range xs.length).map (fun i => (⟨maxLen xs, d, xs.map fun x =>
      x.map (·.map some) ++ List.replicate (maxLen xs - x.length) (List.replicate d none)⟩ : Arr3 K).entry i t f)) =
      some ((xs.filterMap fun x => x[t]?.map fun r => r.getD f 0).sum /
        ((xs.filterMap fun x => x[t]?.map fun r => r.getD f 0).length : K)) ∧
      (xs.filterMap fun x => x[t]?.map fun r => r.getD f 0) ≠ [] := by
    intro t ht f hf
    have hne' : (xs.filterMap fun x => x[t]?.map fun r => r.getD f 0) ≠ [] := by
      rcases foldr_max_mem_or (xs.map List.length) with h | h
      · exact absurd ht (by unfold maxLen; omega)
      · obtain ⟨x, hm, he⟩ := List.mem_map.1 h
        have hl : t < x.length := by unfold maxLen at ht; omega
        intro h0
        rw [List.filterMap_eq_nil_iff] at h0
        have := h0 x hm
        simp [hl] at this
    refine ⟨?_, hne'⟩
    rw [dsOf_entry _ _ hx t f hf]
    unfold nanMeanK
    simp only [List.filterMap_map, Function.comp_def, id]
    rw [if_neg hne']
  let g : ℕ → ℕ → K := fun t f => (xs.filterMap fun x => x[t]?.map fun r => r.getD f 0).sum /
        ((xs.filterMap fun x => x[t]?.map fun r => r.getD f 0).length : K)
  refine ⟨_, (List.range (maxLen xs)).map fun t => (List.range d).map fun f => g t f, dsOf_dataset hd hne hx, ?_, ?_, ?_⟩
  · unfold initAvg
    simp only [if_true, List.length_map]
    have : ((List.range (maxLen xs)).map fun t => (List.range d).map fun f => nanMeanK ((List.range xs.length).map
        (fun i => (⟨maxLen xs, d, xs.map fun x => x.map (·.map some) ++
          List.replicate (maxLen xs - x.length) (List.replicate d none)⟩ : Arr3 K).entry i t f))) =
        ((List.range (maxLen xs)).map fun t => (List.range d).map fun f => g t f).map (·.map some) := by
      rw [List.map_map]
      refine List.map_congr_left fun t ht => ?_
      simp only [Function.comp_def, List.map_map]
      exact List.map_congr_left fun f hf => (hmean t (List.mem_range.1 ht) f (List.mem_range.1 hf)).1
    simp only [bind, Except.bind, pure, Except.pure]
    rw [this, denan_full]
  · refine ⟨by simp, fun r hr => ?_⟩
    obtain ⟨i, -, rfl⟩ := List.mem_map.1 hr
    simp
  · intro t ht f hf
    refine ⟨(hmean t ht f hf).2, ?_⟩
    simp [List.getD_eq_getElem?_getD, ht, hf, g]

/-- `_set_weights`: absent weights, or weights of the wrong length, count as ones. -/
theorem setWeights_ok {xs : List (List (List K))} (hne : xs ≠ []) (weights : Option (List K))
    (hw : ∀ w, weights = some w → w.length = xs.length → (∀ a ∈ w, 0 ≤ a) ∧ ∃ a ∈ w, 0 < a) :
    WeightsOk xs (setWeights weights xs.length) := by
  have hone : WeightsOk xs (List.replicate xs.length (1 : K)) := by
    refine ⟨by simp, fun w hw => ?_, 1, ?_, one_pos⟩
    · obtain ⟨-, rfl⟩ := List.mem_replicate.1 hw; exact zero_le_one
    · exact List.mem_replicate.2 ⟨by simpa using hne, rfl⟩
  cases weights with
  | none => exact hone
  | some w =>
    by_cases hl : w.length = xs.length
    · simp only [setWeights, hl, ne_eq, not_true_eq_false, if_false]
      exact ⟨hl, (hw w rfl hl).1, (hw w rfl hl).2⟩
    · simp only [setWeights, ne_eq, hl, not_false_eq_true, if_true]
      exact hone

/-- `dtw_barycenter_averaging` on fully observed series: the result is the last barycenter of a descent started at the
initial barycenter. -/
theorem C36_dba (cfg : DbaCfg K) (xs : List (List (List K))) (hne : xs ≠ []) (d : ℕ) (hd : 0 < d) (n : ℕ)
    (masks : ℕ → Mat Bool) (h : DbaOk cfg xs n d masks) (weights : Option (List K))
    (hw : ∀ w, weights = some w → w.length = xs.length → (∀ a ∈ w, 0 ≤ a) ∧ ∃ a ∈ w, 0 < a)
    (size : Option ℕ) (init : Option (List (List K))) (b : List (List K)) (hb : Rect n d b)
    (hinit : init = some b ∨ init = none ∧ ∀ X, toDataset (dsOf d xs) = .ok X → initAvg X (size.getD X.sz) = .ok b)
    (maxIter nInit : ℕ) :
    ∃ T bs c, IsDescent masks xs (setWeights weights xs.length) n d cfg.tol maxIter T bs c ∧ bs 0 = b ∧
      dbaOneInit cfg (dsOf d xs) size init maxIter weights =
        .ok (bs T, if maxIter = 0 then ⊤ else ((c (T - 1) : K) : WithTop K)) ∧
      dba cfg (dsOf d xs) size init maxIter weights nInit =
        .ok (if nInit = 0 ∨ maxIter = 0 then none else some (bs T)) := by
  have hx : ∀ x ∈ xs, ∀ r ∈ x, r.length = d := by
    intro x hx
    obtain ⟨k, hk, rfl⟩ := List.getElem_of_mem hx
    have := (h.rect k hk).2
    rwa [List.getD_eq_getElem _ _ hk] at this
  have h1 := dsOf_dataset hd hne hx
  have h4 := dsOf_series hd (maxLen xs) (maxLen xs) d hx
  obtain ⟨T, bs, c, a1, a2, a3, a4⟩ := C36_loop cfg xs _ n d masks h (setWeights_ok hne weights hw) b hb maxIter
  have hlen : b.length = n := hb.1
  have hany : (b.any fun r => decide (r.length ≠ d)) = false := by
    rw [List.any_eq_false]
    intro r hr
    simp [hb.2 r hr]
  have hone : dbaOneInit cfg (dsOf d xs) size init maxIter weights =
      .ok (bs T, if maxIter = 0 then ⊤ else ((c (T - 1) : K) : WithTop K)) := by
    have hlast : ((List.range T).map (fun t => ((c t : K) : WithTop K))).getLastD ⊤ =
        if maxIter = 0 then ⊤ else ((c (T - 1) : K) : WithTop K) := by
      by_cases hm : maxIter = 0
      · have : T = 0 := by have := a1.rounds; omega
        subst this; simp [hm]
      · obtain ⟨T', rfl⟩ : ∃ T', T = T' + 1 := ⟨T - 1, by have := a3 (by omega); omega⟩
        rw [List.range_succ, List.map_append, List.map_singleton, List.getLastD_concat]
        simp [hm]
    have hi : ∀ X, toDataset (dsOf d xs) = .ok X → dbaInit X size init = .ok b := by
      rcases hinit with rfl | ⟨rfl, hi⟩
      · exact fun _ _ => rfl
      · exact hi
    unfold dbaOneInit
    simp only [h1, h4, hi _ h1, bind, Except.bind, List.length_map]
    rw [hlen, hany]
    simp only [a4, hlast, Bool.false_eq_true, if_false]
    rfl
  refine ⟨T, bs, c, a1, a2, hone, ?_⟩
  rw [C36_ninit _ _ _ _ _ _ _ _ hone]
  by_cases hm : maxIter = 0 <;> simp [hm]

/-- The default call: `barycenter_size` and `init_barycenter` left out. -/
theorem C36_default (cfg : DbaCfg K) (xs : List (List (List K))) (hne : xs ≠ []) (d : ℕ) (hd : 0 < d)
    (masks : ℕ → Mat Bool) (h : DbaOk cfg xs (maxLen xs) d masks)
    (weights : Option (List K)) (hw : ∀ w, weights = some w → w.length = xs.length → (∀ a ∈ w, 0 ≤ a) ∧ ∃ a ∈ w, 0 < a)
    (maxIter nInit : ℕ) :
    ∃ T bs c, IsDescent masks xs (setWeights weights xs.length) (maxLen xs) d cfg.tol maxIter T bs c ∧
      (∀ t < maxLen xs, ∀ f < d, let o := xs.filterMap fun x => x[t]?.map fun r => r.getD f 0
        ((bs 0).getD t []).getD f 0 = o.sum / (o.length : K)) ∧
      dba cfg (dsOf d xs) none none maxIter weights nInit =
        .ok (if nInit = 0 ∨ maxIter = 0 then none else some (bs T)) := by
  have hx : ∀ x ∈ xs, ∀ r ∈ x, r.length = d := by
    intro x hx
    obtain ⟨k, hk, rfl⟩ := List.getElem_of_mem hx
    have := (h.rect k hk).2
    rwa [List.getD_eq_getElem _ _ hk] at this
  obtain ⟨X, b, h1, h2, h3, h4⟩ := C36_init xs hne d hd hx
  obtain ⟨T, bs, c, a1, a2, -, a4⟩ := C36_dba cfg xs hne d hd _ masks h weights hw none none b h3
    (.inr ⟨rfl, fun Y hY => by rw [h1] at hY; obtain rfl := Except.ok.inj hY; exact h2⟩) maxIter nInit
  exact ⟨T, bs, c, a1, fun t ht f hf => by rw [a2]; exact (h4 t ht f hf).2, a4⟩

/-- Two series of different lengths, no constraint. -/
def exDba : List (List (List ℚ)) := [[[0], [2]], [[4]]]

def exCfg : DbaCfg ℚ := { tol := 1 / 1000, am := argmin3 }

theorem exDba_ok : DbaOk exCfg exDba 2 1 (fun _ => Mat.full true) where
  pos := by norm_num
  ne := by
    intro k hk
    have hk : k < 2 := hk
    interval_cases k <;> simp [exDba]
  rect := by
    intro k hk
    have hk : k < 2 := hk
    interval_cases k <;> simp [exDba, Rect]
  mask := fun _ _ => rfl
  slope := by simp [exCfg]
  am := argmin3_isArgmin

example : WeightsOk exDba [1, 3] := ⟨rfl, by simp, 1, by simp, one_pos⟩

example : PathsOk exDba 2 1 [[(0, 0), (1, 1)], [(0, 0), (1, 0)]] where
  len := rfl
  wp := by
    intro k hk
    have hk : k < 2 := hk
    interval_cases k
    · exact ⟨rfl, ⟨1, 1, rfl, rfl, rfl⟩, by simp [WStep]⟩
    · exact ⟨rfl, ⟨1, 0, rfl, rfl, rfl⟩, by simp [WStep]⟩
  rect := exDba_ok.rect

/-- The update on these paths: the weighted means. -/
example : mmUpdate exDba [1, 3] 2 1 [[(0, 0), (1, 1)], [(0, 0), (1, 0)]] = .ok [[3], [7 / 2]] := by
  decide +kernel

/-- The whole function with weights 1 and 3, one round from the given start. -/
example : dba exCfg (dsOf 1 exDba) none (some [[0], [2]]) 1 (some [1, 3]) 1 = .ok (some [[3], [7 / 2]]) := by
  decide +kernel

example : ∃ T bs c, IsDescent (fun _ => Mat.full true) exDba (setWeights (some [1, 3]) 2) 2 1 (1 / 1000 : ℚ) 30 T bs c ∧
    dba exCfg (dsOf 1 exDba) none none 30 (some [1, 3]) 1 = .ok (some (bs T)) := by
  obtain ⟨T, bs, c, h1, -, h2⟩ := C36_default exCfg exDba (by simp [exDba]) 1 one_pos _ exDba_ok (some [1, 3])
    (by rintro w ⟨⟩ -; exact ⟨by simp, 1, by simp, one_pos⟩) 30 1
  exact ⟨T, bs, c, h1, by simpa using h2⟩

end Verif
