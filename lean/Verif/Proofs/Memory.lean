import Verif.Spec.Memory
import Verif.Proofs.Cast
import Verif.Proofs.Impute
/-!
Lemmas on memory.
-/
set_option linter.unusedSectionVars false

namespace Verif
open Spec

section
variable {K : Type}

theorem Spec.Untouched.refl (h : Heap K) : Untouched h h := ⟨le_refl _, fun _ _ => rfl⟩

theorem Spec.Untouched.trans {h h' h'' : Heap K} (a : Untouched h h') (b : Untouched h' h'') : Untouched h h'' :=
  ⟨a.1.trans b.1, fun c hc => (b.2 c (hc.trans_le a.1)).trans (a.2 c hc)⟩

theorem Spec.Untouched.only {h h' : Heap K} (a : Untouched h h') (b : ℕ) : OnlyWrites b h h' := ⟨a.1, fun c hc _ => a.2 c hc⟩

theorem Spec.OnlyWrites.trans {b : ℕ} {h h' h'' : Heap K} (a : OnlyWrites b h h') (c : OnlyWrites b h' h'') :
    OnlyWrites b h h'' :=
  ⟨a.1.trans c.1, fun e he hne => (c.2 e (he.trans_le a.1) hne).trans (a.2 e he hne)⟩

/-- Writing to a new array leaves the old ones alone. -/
theorem Spec.Untouched.only_new {h h' h'' : Heap K} {b : ℕ} (a : Untouched h h') (hb : h.next ≤ b)
    (c : OnlyWrites b h' h'') : Untouched h h'' :=
  ⟨a.1.trans c.1, fun e he => (c.2 e (he.trans_le a.1) (by omega)).trans (a.2 e he)⟩

theorem Heap.newDs_untouched (h : Heap K) (X : Arr3 K) : Untouched h (h.newDs X).2 :=
  ⟨Nat.le_succ _, fun b hb => Function.update_of_ne (by omega) _ _⟩

theorem Heap.newTs_untouched (h : Heap K) (sz d : ℕ) (g : ℕ → ℕ → Option K) : Untouched h (h.newTs sz d g).2 :=
  ⟨Nat.le_succ _, fun b hb => Function.update_of_ne (by omega) _ _⟩

theorem Heap.assign_only (h : Heap K) (s : SArr) (m : ℕ → ℕ → Bool) (g : ℕ → ℕ → Option K) :
    OnlyWrites s.buf h (h.assign s m g) :=
  ⟨le_refl _, fun b _ hne => by funext i t f; simp [Heap.assign, hne]⟩

theorem Heap.newDs_ds (h : Heap K) (X : Arr3 K) (hX : X.WF) : (h.newDs X).2.ds (h.newDs X).1 = X := by
  unfold Heap.ds Heap.newDs
  exact Arr3.eq_build hX _ (by intros; simp)

theorem Heap.ds_wf (h : Heap K) (a : DArr) : (h.ds a).WF := by
  unfold Heap.ds; exact Arr3.build_wf _ _ _ _

theorem Heap.ds_congr {h h' : Heap K} {a : DArr} (e : h'.mem a.buf = h.mem a.buf) : h'.ds a = h.ds a := by
  unfold Heap.ds; rw [e]

theorem Heap.ts_congr {h h' : Heap K} {s : SArr} (e : h'.mem s.buf = h.mem s.buf) : h'.ts s = h.ts s := by
  unfold Heap.ts; rw [e]

theorem Heap.ts_length (h : Heap K) (s : SArr) : (h.ts s).length = s.sz := by simp [Heap.ts]

theorem Heap.ts_getD (h : Heap K) (s : SArr) {t f : ℕ} (ht : t < s.sz) (hf : f < s.d) :
    ((h.ts s).getD t []).getD f none = h.mem s.buf s.row t f := by
  simp [Heap.ts, List.getD_eq_getElem?_getD, ht, hf]

theorem Heap.ds_entry (h : Heap K) (a : DArr) {i t f : ℕ} (hi : i < a.n) (ht : t < a.sz) (hf : f < a.d) :
    (h.ds a).entry i t f = h.mem a.buf i t f := Arr3.build_entry hi ht hf

theorem Heap.ds_row (h : Heap K) (a : DArr) {i : ℕ} (hi : i < a.n) : (h.ds a).data.getD i [] = h.ts (a.row i) := by
  simp [Heap.ds, Heap.ts, Arr3.build, DArr.row, List.getD_eq_getElem?_getD, hi]

/-- What a series in a new array contains. -/
theorem Heap.newTs_ts (h : Heap K) (rows : List (List (Option K))) (d : ℕ) (hr : ∀ r ∈ rows, r.length = d) :
    (h.newTs rows.length d fun t f => (rows.getD t []).getD f none).2.ts
      (h.newTs rows.length d fun t f => (rows.getD t []).getD f none).1 = rows := by
  apply list_ext_getD _ _ [] (by rw [Heap.ts_length]; rfl)
  intro t ht
  rw [Heap.ts_length] at ht
  have ht' : t < rows.length := ht
  have hlen : (rows.getD t []).length = d := by
    rw [List.getD_eq_getElem _ _ ht']; exact hr _ (List.getElem_mem ht')
  have e : (Heap.ts (h.newTs rows.length d fun t f => (rows.getD t []).getD f none).2
      (h.newTs rows.length d fun t f => (rows.getD t []).getD f none).1).getD t [] =
      (List.range d).map fun f => (rows.getD t []).getD f none := by
    simp [Heap.ts, Heap.newTs, List.getD_eq_getElem?_getD, ht']
  rw [e]
  apply list_ext_getD _ _ none (by rw [hlen]; simp)
  intro f hf
  simp only [List.length_map, List.length_range] at hf
  simp [List.getD_eq_getElem?_getD, hf]

theorem SSrc.content_wf (h : Heap K) (s : SArr) (be : Be) (b : Bool) : (SSrc.content h (.arr be s b)).WF := by
  intro r hr
  simp only [SSrc.content, Heap.ts] at hr ⊢
  obtain ⟨t, -, rfl⟩ := List.mem_map.1 hr
  simp

theorem SSrc.content_congr {h h' : Heap K} (u : Untouched h h') (x : SSrc K)
    (hx : match x with | .arr _ s _ => s.buf < h.next | .list _ => True) : x.content h' = x.content h := by
  cases x with
  | list t => rfl
  | arr be s b => simp only [SSrc.content]; rw [Heap.ts_congr (u.2 _ hx)]

theorem DSrc.content_congr {h h' : Heap K} (u : Untouched h h') (x : DSrc K) (hx : InMemory h x) :
    x.content h' = x.content h := by
  cases x with
  | arr be a => simp only [DSrc.content]; rw [Heap.ds_congr (u.2 _ hx)]
  | list l =>
    simp only [DSrc.content]
    apply List.map_congr_left
    intro x hxl
    exact SSrc.content_congr u x (hx x hxl)

/-! ### `to_time_series_dataset` -/

theorem bcastRow_length {d : ℕ} {r r' : List (Option K)} (h : bcastRow d r = .ok r') : r'.length = d := by
  unfold bcastRow at h
  split at h
  · cases h; assumption
  · split at h
    · cases h; simp
    · exact absurd h (by simp)

theorem fillSlot_shape {maxSz d : ℕ} {t : Ts K} {s : List (List (Option K))} (h : fillSlot maxSz d t = .ok s)
    (ht : t.rows.length ≤ maxSz) : s.length = maxSz ∧ ∀ r ∈ s, r.length = d := by
  unfold fillSlot at h
  simp only [bind, Except.bind, pure, Except.pure, throw, throwThe, MonadExceptOf.throw] at h
  split at h
  · exact absurd h (by simp)
  · cases hm : t.rows.mapM (bcastRow d) with
    | error e => simp [hm] at h
    | ok rows =>
      simp only [hm, Except.ok.injEq] at h
      subst h
      have hf := mapM_except_inv _ _ _ hm
      have hl := hf.length_eq
      refine ⟨by simp; omega, fun r hr => ?_⟩
      rcases List.mem_append.1 hr with hr | hr
      · obtain ⟨j, hj, rfl⟩ := List.getElem_of_mem hr
        exact bcastRow_length (hf.get (i := j) (by omega) hj)
      · rw [List.eq_of_mem_replicate hr]; simp

theorem toDataset_shape {l : List (Ts K)} {X : Arr3 K} (h : toDataset (.series l) = .ok X) :
    X.WF ∧ X.data.length = l.length := by
  cases l with
  | nil => simp [toDataset, toDatasetSeries] at h; subst h; exact ⟨fun s hs => by simp at hs, rfl⟩
  | cons t0 l =>
    simp only [toDataset, toDatasetSeries, bind, Except.bind, pure, Except.pure] at h
    cases hm : (t0 :: l).mapM (fun t => fillSlot (((t0 :: l).map fun t => tsSize t.rows).foldr max 0) t0.d t.trim) with
    | error e => rw [hm] at h; exact absurd h (by simp)
    | ok data =>
      simp only [hm, Except.ok.injEq] at h
      subst h
      have hf := mapM_except_inv _ _ _ hm
      refine ⟨fun s hs => ?_, hf.length_eq.symm⟩
      obtain ⟨j, hj, rfl⟩ := List.getElem_of_mem hs
      have hj' : j < (t0 :: l).length := by rw [hf.length_eq]; exact hj
      refine fillSlot_shape (hf.get (i := j) hj' hj) ?_
      have := le_foldr_max ((t0 :: l).map fun t => tsSize t.rows) (List.mem_map.2 ⟨_, List.getElem_mem hj', rfl⟩)
      simp only [Ts.trim, List.get_eq_getElem, List.length_take]
      exact (min_le_left _ _).trans this

theorem toDatasetM_ok {h h' : Heap K} {x : DSrc K} {X : DArr} (e : toDatasetM h x = .ok (X, h')) :
    ∃ Y, toDataset (.series (x.content h)) = .ok Y ∧ Y.WF ∧ (X, h') = h.newDs Y := by
  unfold toDatasetM at e
  cases hY : toDataset (.series (x.content h)) with
  | error e' => simp [hY, Except.map] at e
  | ok Y =>
    simp only [hY, Except.map, Except.ok.injEq] at e
    exact ⟨Y, rfl, (toDataset_shape hY).1, e.symm⟩

theorem toDatasetM_of {h : Heap K} {x : DSrc K} {Y : Arr3 K} (e : toDataset (.series (x.content h)) = .ok Y) :
    toDatasetM h x = .ok (h.newDs Y) := by
  unfold toDatasetM; rw [e]; rfl

theorem toDatasetM_error {h : Heap K} {x : DSrc K} {e : PyErr} (he : toDataset (.series (x.content h)) = .error e) :
    toDatasetM h x = .error e := by
  unfold toDatasetM; rw [he]; rfl

theorem toDatasetM_spec {h h' : Heap K} {x : DSrc K} {X : DArr} (e : toDatasetM h x = .ok (X, h')) :
    Untouched h h' ∧ X.buf = h.next ∧ X.buf < h'.next ∧ toDataset (.series (x.content h)) = .ok (h'.ds X) := by
  obtain ⟨Y, hY, hw, hn⟩ := toDatasetM_ok e
  have h1 : X = (h.newDs Y).1 := congrArg Prod.fst hn
  have h2 : h' = (h.newDs Y).2 := congrArg Prod.snd hn
  subst h1 h2
  exact ⟨Heap.newDs_untouched _ _, rfl, Nat.lt_succ_self _, by rw [Heap.newDs_ds _ _ hw]; exact hY⟩

/-! ### Loops over parts of an array -/

/-- A loop whose steps read and write disjoint parts of one buffer does to each part what the step does to it alone. -/
theorem foldlM_regions {ι β : Type} (b : ℕ) (V : ι → Prop) (R : ι → ℕ → ℕ → ℕ → Prop) (m0 : ℕ → ℕ → ℕ → Option K)
    (out : ι → Except PyErr β) (G : ι → β → ℕ → ℕ → ℕ → Option K) (step : Heap K → ι → Except PyErr (Heap K))
    (hdisj : ∀ c c' i t f, c ≠ c' → R c i t f → ¬ R c' i t f)
    (hstep : ∀ h c, V c → b < h.next → (∀ i t f, R c i t f → h.mem b i t f = m0 i t f) →
      (∀ e, out c = .error e → step h c = .error e) ∧
      (∀ v, out c = .ok v → ∃ h', step h c = .ok h' ∧ OnlyWrites b h h' ∧
        (∀ i t f, R c i t f → h'.mem b i t f = G c v i t f) ∧
        (∀ i t f, ¬ R c i t f → h'.mem b i t f = h.mem b i t f))) :
    ∀ (l : List ι), (∀ c ∈ l, V c) → l.Nodup → ∀ h : Heap K, b < h.next → (∀ c ∈ l, ∀ i t f, R c i t f → h.mem b i t f = m0 i t f) →
      (∀ e, l.mapM out = .error e → l.foldlM step h = .error e) ∧
      (∀ vs, l.mapM out = .ok vs → ∃ h', l.foldlM step h = .ok h' ∧ OnlyWrites b h h' ∧
        List.Forall₂ (fun c v => ∀ i t f, R c i t f → h'.mem b i t f = G c v i t f) l vs ∧
        (∀ i t f, (∀ c ∈ l, ¬ R c i t f) → h'.mem b i t f = h.mem b i t f)) := by
  intro l
  induction l with
  | nil =>
    intro _ _ h hb _
    refine ⟨fun e he => by simp [pure, Except.pure] at he, fun vs hvs => ?_⟩
    simp only [List.mapM_nil, pure, Except.pure, Except.ok.injEq] at hvs
    subst hvs
    exact ⟨h, rfl, ⟨le_refl _, fun _ _ _ => rfl⟩, .nil, fun _ _ _ _ => rfl⟩
  | cons c l ih =>
    intro hV hn h hb hm
    rw [List.nodup_cons] at hn
    obtain ⟨s1, s2⟩ := hstep h c (hV c (by simp)) hb (hm c (by simp))
    rw [List.mapM_cons, List.foldlM_cons]
    cases ho : out c with
    | error e0 =>
      rw [s1 e0 ho]
      exact ⟨fun e he => by simpa [bind, Except.bind] using he, fun vs hvs => by simp [bind, Except.bind] at hvs⟩
    | ok v =>
      obtain ⟨h1, e1, w1, g1, k1⟩ := s2 v ho
      rw [e1]
      have hb1 : b < h1.next := hb.trans_le w1.1
      obtain ⟨t1, t2⟩ := ih (fun c' hc' => hV c' (by simp [hc'])) hn.2 h1 hb1 (by
        intro c' hc' i t f hr
        rw [k1 i t f (hdisj c' c i t f (fun h => hn.1 (h ▸ hc')) hr)]
        exact hm c' (by simp [hc']) i t f hr)
      simp only [bind, Except.bind, pure, Except.pure]
      cases hl : l.mapM out with
      | error e0 =>
        exact ⟨fun e he => by rw [t1 e0 hl]; simpa using he, fun vs hvs => by simp at hvs⟩
      | ok vs =>
        refine ⟨fun e he => by simp at he, fun vs' hvs => ?_⟩
        simp only [Except.ok.injEq] at hvs
        subst hvs
        obtain ⟨h2, e2, w2, g2, k2⟩ := t2 vs hl
        refine ⟨h2, e2, w1.trans w2, .cons (fun i t f hr => ?_) g2, fun i t f hr => ?_⟩
        · rw [k2 i t f (fun c' hc' => hdisj c c' i t f (fun h => hn.1 (h ▸ hc')) hr)]
          exact g1 i t f hr
        · rw [k2 i t f (fun c' hc' => hr c' (by simp [hc'])), k1 i t f (hr c (by simp))]

theorem mapM_congr_mem {α β : Type} {f g : α → Except PyErr β} : ∀ {l : List α}, (∀ a ∈ l, f a = g a) → l.mapM f = l.mapM g := by
  intro l
  induction l with
  | nil => intro _; rfl
  | cons a l ih =>
    intro h
    rw [List.mapM_cons, List.mapM_cons, h a (by simp), ih fun b hb => h b (by simp [hb])]

theorem forall2_range_getD {β : Type} {P : ℕ → β → Prop} {n : ℕ} {vs : List β} (h : List.Forall₂ P (List.range n) vs) (e : β) :
    vs.length = n ∧ ∀ i < n, P i (vs.getD i e) := by
  have hl : vs.length = n := by rw [← h.length_eq, List.length_range]
  refine ⟨hl, fun i hi => ?_⟩
  have := h.get (i := i) (by simpa using hi) (by omega)
  rw [List.getD_eq_getElem _ _ (by omega)]
  simpa using this

end

/-! ### Imputation -/

section
variable {K : Type} [Field K] [LinearOrder K] [IsStrictOrderedRing K]

theorem Heap.col_length (h : Heap K) (s : SArr) (f : ℕ) : (h.col s f).length = s.sz := by simp [Heap.col]

theorem Heap.col_getD (h : Heap K) (s : SArr) {t : ℕ} (f : ℕ) (ht : t < s.sz) :
    (h.col s f).getD t none = h.mem s.buf s.row t f := by
  simp [Heap.col, List.getD_eq_getElem?_getD, ht]

/-- Imputed values where a sample was missing, the samples elsewhere: the imputed column. -/
theorem imputeCol_kept (m : ImpMethod K) (c r : List (Option K)) (h : imputeCol m c = .ok r) {t : ℕ}
    (hs : (c.getD t none).isNone = false) : r.getD t none = c.getD t none := by
  cases e : c.getD t none with
  | none => rw [e] at hs; simp at hs
  | some v => exact imputeCol_observed m c r h e

theorem linearImputeM_fold (s : SArr) : ∀ (fs : List ℕ) (h : Heap K), linearImputeM s fs h =
    fs.foldlM (fun h f => (imputeCol .linear (h.col s f)).map fun c' =>
      h.assign s (fun t f' => f' = f && ((h.col s f).getD t none).isNone) fun t _ => c'.getD t none) h := by
  intro fs
  induction fs with
  | nil => intro h; rfl
  | cons f fs ih =>
    intro h
    rw [List.foldlM_cons, linearImputeM]
    cases imputeCol .linear (h.col s f) with
    | error e => rfl
    | ok c => simp only [Except.map, bind, Except.bind]; exact ih _

theorem builtin_spec (m : ImpMethod K) (hm : m ≠ .unknown) (h : Heap K) (s : SArr) (hb : s.buf < h.next) :
    (∀ e, ((List.range s.d).mapM fun f => imputeCol m (h.col s f)) = .error e → builtinImputer m h s = .error e) ∧
    (∀ cols, ((List.range s.d).mapM fun f => imputeCol m (h.col s f)) = .ok cols →
      ∃ r h', builtinImputer m h s = .ok (r, h') ∧ r.sz = s.sz ∧ r.d = s.d ∧ OnlyWrites s.buf h h' ∧
        (∀ t < s.sz, ∀ f < s.d, h'.mem r.buf r.row t f = (cols.getD f []).getD t none) ∧
        (∀ i t f, ¬ (i = s.row ∧ t < s.sz ∧ f < s.d) → h'.mem s.buf i t f = h.mem s.buf i t f)) := by
  have inplace : ∀ (m : ImpMethod K) (cols : List (List (Option K))),
      ((List.range s.d).mapM fun f => imputeCol m (h.col s f)) = .ok cols →
      let h' := h.assign s (fun t f => (h.mem s.buf s.row t f).isNone) fun t f => (cols.getD f []).getD t none
      OnlyWrites s.buf h h' ∧
        (∀ t < s.sz, ∀ f < s.d, h'.mem s.buf s.row t f = (cols.getD f []).getD t none) ∧
        (∀ i t f, ¬ (i = s.row ∧ t < s.sz ∧ f < s.d) → h'.mem s.buf i t f = h.mem s.buf i t f) := by
    intro m cols hc
    have hf := forall2_range_getD (mapM_except_inv _ _ _ hc) []
    refine ⟨Heap.assign_only .., fun t ht f hfd => ?_, fun i t f hn => ?_⟩
    · simp only [Heap.assign, true_and]
      split
      · rfl
      · rename_i hn
        have hs : ((h.col s f).getD t none).isNone = false := by
          rw [Heap.col_getD h s f ht]; simpa [ht, hfd, Option.isSome_iff_ne_none] using hn
        rw [imputeCol_kept m _ _ (hf.2 f hfd) hs, Heap.col_getD h s f ht]
    · simp only [Heap.assign, true_and]
      rw [if_neg]
      tauto
  have anew : ∀ (cols : List (List (Option K))),
      let q := h.newTs s.sz s.d fun t f => (cols.getD f []).getD t none
      q.1.sz = s.sz ∧ q.1.d = s.d ∧ OnlyWrites s.buf h q.2 ∧
        (∀ t < s.sz, ∀ f < s.d, q.2.mem q.1.buf q.1.row t f = (cols.getD f []).getD t none) ∧
        (∀ i t f, ¬ (i = s.row ∧ t < s.sz ∧ f < s.d) → q.2.mem s.buf i t f = h.mem s.buf i t f) := by
    intro cols
    refine ⟨rfl, rfl, (Heap.newTs_untouched ..).only _, fun t _ f _ => by simp [Heap.newTs], fun i t f _ => ?_⟩
    rw [(Heap.newTs_untouched h s.sz s.d _).2 _ hb]
  cases m with
  | unknown => exact absurd rfl hm
  | constant v =>
    refine ⟨fun e he => by simp only [builtinImputer, he]; rfl, fun cols hc => ?_⟩
    obtain ⟨a1, a2, a3, a4, a5⟩ := anew cols
    exact ⟨_, _, by simp only [builtinImputer, hc]; rfl, a1, a2, a3, a4, a5⟩
  | mean =>
    refine ⟨fun e he => by simp only [builtinImputer, he]; rfl, fun cols hc => ?_⟩
    obtain ⟨a1, a2, a3, a4, a5⟩ := anew cols
    exact ⟨_, _, by simp only [builtinImputer, hc]; rfl, a1, a2, a3, a4, a5⟩
  | median =>
    refine ⟨fun e he => by simp only [builtinImputer, he]; rfl, fun cols hc => ?_⟩
    obtain ⟨a1, a2, a3, a4, a5⟩ := anew cols
    exact ⟨_, _, by simp only [builtinImputer, hc]; rfl, a1, a2, a3, a4, a5⟩
  | ffill =>
    refine ⟨fun e he => by simp only [builtinImputer, he]; rfl, fun cols hc => ?_⟩
    obtain ⟨a3, a4, a5⟩ := inplace _ cols hc
    exact ⟨s, _, by simp only [builtinImputer, hc]; rfl, rfl, rfl, a3, a4, a5⟩
  | bfill =>
    refine ⟨fun e he => by simp only [builtinImputer, he]; rfl, fun cols hc => ?_⟩
    obtain ⟨a3, a4, a5⟩ := inplace _ cols hc
    exact ⟨s, _, by simp only [builtinImputer, hc]; rfl, rfl, rfl, a3, a4, a5⟩
  | linear =>
    have key := foldlM_regions (K := K) s.buf (fun f => f < s.d) (fun f i t f' => i = s.row ∧ t < s.sz ∧ f' = f) (h.mem s.buf)
      (fun f => imputeCol .linear (h.col s f)) (fun _ c _ t _ => c.getD t none)
      (fun h f => (imputeCol .linear (h.col s f)).map fun c' =>
        h.assign s (fun t f' => f' = f && ((h.col s f).getD t none).isNone) fun t _ => c'.getD t none)
      (fun c c' i t f hne h1 h2 => hne (h1.2.2.symm.trans h2.2.2))
      (by
        intro g f hfd hg hsame
        have hcol : g.col s f = h.col s f := by
          unfold Heap.col
          apply List.map_congr_left
          intro t ht
          exact hsame s.row t f ⟨rfl, List.mem_range.1 ht, rfl⟩
        rw [hcol]
        refine ⟨fun e he => by rw [he]; rfl, fun v hv => ⟨_, by rw [hv]; rfl, Heap.assign_only .., ?_, ?_⟩⟩
        · rintro i t f' ⟨rfl, ht, rfl⟩
          simp only [Heap.assign, true_and]
          split
          · rfl
          · rename_i hn
            have hs : ((h.col s f').getD t none).isNone = false := by
              simpa [ht, hfd, Option.isSome_iff_ne_none] using hn
            rw [imputeCol_kept _ _ _ hv hs, Heap.col_getD h s f' ht]
            exact hsame s.row t f' ⟨rfl, ht, rfl⟩
        · intro i t f' hn
          simp only [Heap.assign, true_and]
          rw [if_neg]
          rintro ⟨rfl, ht, -, hm⟩
          simp only [Bool.and_eq_true, decide_eq_true_eq] at hm
          exact hn ⟨rfl, ht, hm.1⟩)
      (List.range s.d) (fun c hc => List.mem_range.1 hc) List.nodup_range h hb (fun _ _ _ _ _ _ => rfl)
    refine ⟨fun e he => ?_, fun cols hc => ?_⟩
    · simp only [builtinImputer]
      rw [linearImputeM_fold, key.1 e he]
      rfl
    · obtain ⟨h', e1, w1, g1, k1⟩ := key.2 cols hc
      refine ⟨s, h', ?_, rfl, rfl, w1, ?_, ?_⟩
      · simp only [builtinImputer]
        rw [linearImputeM_fold, e1]
        rfl
      · intro t ht f hf
        exact (forall2_range_getD g1 []).2 f hf s.row t f ⟨rfl, ht, rfl⟩
      · intro i t f hn
        apply k1
        rintro c hc ⟨rfl, ht, rfl⟩
        exact hn ⟨rfl, ht, List.mem_range.1 hc⟩

theorem builtin_confined (m : ImpMethod K) : Confined (builtinImputer m) := by
  intro h s r h' e
  cases m with
  | unknown => simp [builtinImputer] at e
  | linear =>
    simp only [builtinImputer] at e
    have key : ∀ (fs : List ℕ) (h h' : Heap K), linearImputeM s fs h = .ok h' → OnlyWrites s.buf h h' := by
      intro fs
      induction fs with
      | nil => intro h h' e; cases e; exact ⟨le_refl _, fun _ _ _ => rfl⟩
      | cons f fs ih =>
        intro h h' e
        rw [linearImputeM] at e
        cases hc : imputeCol .linear (h.col s f) with
        | error e' => simp [hc, bind, Except.bind] at e
        | ok c =>
          simp only [hc, bind, Except.bind] at e
          exact (Heap.assign_only ..).trans (ih _ _ e)
    cases hl : linearImputeM s (List.range s.d) h with
    | error e' => simp [hl, bind, Except.bind] at e
    | ok g =>
      simp only [hl, bind, Except.bind, pure, Except.pure, Except.ok.injEq, Prod.mk.injEq] at e
      obtain ⟨rfl, rfl⟩ := e
      exact key _ _ _ hl
  | _ =>
    simp only [builtinImputer, bind, Except.bind, pure, Except.pure] at e
    split at e
    · exact absurd e (by simp)
    · cases e
      first | exact Heap.assign_only .. | exact (Heap.newTs_untouched h s.sz s.d _).only _

theorem imputeRow_only {imp : Imputer K} (hi : Confined imp) {keep : Bool} {X : DArr} {h h' : Heap K} {i : ℕ}
    (e : imputeRow imp keep X h i = .ok h') : OnlyWrites X.buf h h' := by
  simp only [imputeRow, bind, Except.bind, pure, Except.pure, throw, throwThe, MonadExceptOf.throw] at e
  have hv : (if keep = true then (X.row i).take (tsSize (h.ts (X.row i))) else X.row i).buf = X.buf := by
    split <;> rfl
  generalize (if keep = true then (X.row i).take (tsSize (h.ts (X.row i))) else X.row i) = v at e hv
  split at e
  · exact absurd e (by simp)
  · rename_i q hq
    split at e
    · exact absurd e (by simp)
    · cases e
      have h1 := hi _ _ q.1 q.2 hq
      rw [hv] at h1
      refine h1.trans ?_
      rw [← hv]
      exact Heap.assign_only ..

theorem foldlM_only {ι : Type} {b : ℕ} {step : Heap K → ι → Except PyErr (Heap K)}
    (hs : ∀ h c h', step h c = .ok h' → OnlyWrites b h h') :
    ∀ (l : List ι) (h h' : Heap K), l.foldlM step h = .ok h' → OnlyWrites b h h' := by
  intro l
  induction l with
  | nil => intro h h' e; cases e; exact ⟨le_refl _, fun _ _ _ => rfl⟩
  | cons c l ih =>
    intro h h' e
    rw [List.foldlM_cons] at e
    cases hc : step h c with
    | error e' => simp [hc, bind, Except.bind] at e
    | ok g =>
      simp only [hc, bind, Except.bind] at e
      exact (hs h c g hc).trans (ih g h' e)

theorem imputeM_untouched {imp : Imputer K} (hi : Confined imp) {known keep : Bool} {fitD : ℕ} {h h' : Heap K} {x : DSrc K}
    {Y : DArr} (e : imputeM imp known keep fitD h x = .ok (Y, h')) : Untouched h h' ∧ h.next < Y.buf := by
  simp only [imputeM, bind, Except.bind, throw, throwThe, MonadExceptOf.throw] at e
  cases hX : toDatasetM h x with
  | error e' => simp [hX] at e
  | ok q =>
    obtain ⟨X, g⟩ := q
    simp only [hX] at e
    obtain ⟨u1, b1, l1, -⟩ := toDatasetM_spec hX
    split at e
    · exact absurd e (by simp)
    · split at e
      · exact absurd e (by simp)
      · split at e
        · exact absurd e (by simp)
        · rename_i g2 hg2
          obtain ⟨u3, b3, l3, -⟩ := toDatasetM_spec e
          have w := foldlM_only (b := X.buf) (fun h c h' => imputeRow_only hi) _ _ _ hg2
          refine ⟨(u1.only_new (by rw [b1]) w).trans u3, ?_⟩
          rw [b3]
          have := w.1
          omega

theorem imputeRow_builtin (m : ImpMethod K) (hm : m ≠ .unknown) (keep : Bool) (X : DArr) (h : Heap K) (i : ℕ)
    (hb : X.buf < h.next) (stop : ℕ) (hstop : stop = if keep then tsSize (h.ts (X.row i)) else X.sz) :
    (∀ e, ((List.range X.d).mapM fun f => imputeCol m ((List.range stop).map fun t => h.mem X.buf i t f)) = .error e →
      imputeRow (builtinImputer m) keep X h i = .error e) ∧
    (∀ cols, ((List.range X.d).mapM fun f => imputeCol m ((List.range stop).map fun t => h.mem X.buf i t f)) = .ok cols →
      ∃ h', imputeRow (builtinImputer m) keep X h i = .ok h' ∧ OnlyWrites X.buf h h' ∧
        ∀ i' t f, h'.mem X.buf i' t f =
          if i' = i ∧ t < stop ∧ f < X.d then (cols.getD f []).getD t none else h.mem X.buf i' t f) := by
  have hle : stop ≤ X.sz := by
    rw [hstop]
    split
    · have := tsSize_le (h.ts (X.row i)); rw [Heap.ts_length] at this; exact this
    · exact le_refl _
  have hv : (if keep = true then (X.row i).take (tsSize (h.ts (X.row i))) else X.row i) = ⟨X.buf, i, stop, X.d⟩ := by
    rw [hstop] at hle ⊢
    split
    · rename_i hk
      simp only [hk, if_true] at hle
      rw [SArr.take, show (X.row i).sz = X.sz from rfl, min_eq_left hle]
      rfl
    · rfl
  obtain ⟨s1, s2⟩ := builtin_spec m hm h ⟨X.buf, i, stop, X.d⟩ hb
  simp only [Heap.col] at s1 s2
  simp only [imputeRow, bind, Except.bind, pure, Except.pure, throw, throwThe, MonadExceptOf.throw]
  rw [hv]
  refine ⟨fun e he => by rw [s1 e he], fun cols hc => ?_⟩
  obtain ⟨r, g, e1, r1, r2, w1, g1, k1⟩ := s2 cols hc
  rw [e1]
  simp only [r1, r2, ne_eq, not_true_eq_false, or_self, if_false]
  refine ⟨_, rfl, w1.trans (Heap.assign_only g ⟨X.buf, i, stop, X.d⟩ _ _), fun i' t f => ?_⟩
  simp only [Heap.assign, true_and, and_true]
  by_cases hc' : i' = i ∧ t < stop ∧ f < X.d
  · rw [if_pos hc', if_pos hc']; exact g1 t hc'.2.1 f hc'.2.2
  · rw [if_neg hc', if_neg hc']; exact k1 i' t f hc'

theorem build_congr {n sz d : ℕ} {g g' : ℕ → ℕ → ℕ → Option K}
    (h : ∀ i < n, ∀ t < sz, ∀ f < d, g i t f = g' i t f) : Arr3.build n sz d g = Arr3.build n sz d g' := by
  unfold Arr3.build
  congr 1
  apply List.map_congr_left
  intro i hi
  apply List.map_congr_left
  intro t ht
  apply List.map_congr_left
  intro f hf
  exact h i (List.mem_range.1 hi) t (List.mem_range.1 ht) f (List.mem_range.1 hf)

/-- The in-place imputation computes the imputed dataset. -/
theorem imputeM_value (m : ImpMethod K) (keep : Bool) (xF : DsInput K) (F : Arr3 K) (hF : toDataset xF = .ok F) (h : Heap K)
    (x : DSrc K) : (imputeM (builtinImputer m) (!(m matches .unknown)) keep F.d h x).map (fun r => r.2.ds r.1) =
      impute m keep xF (.series (x.content h)) := by
  simp only [imputeM, impute, hF, bind, Except.bind, throw, throwThe, MonadExceptOf.throw]
  cases hX : toDataset (.series (x.content h)) with
  | error e => rw [toDatasetM_error hX]; rfl
  | ok X =>
    have hW := (toDataset_shape hX).1
    rw [toDatasetM_of hX]
    have hds := Heap.newDs_ds h X hW
    have hn : (h.newDs X).1.n = X.data.length := rfl
    have hsz : (h.newDs X).1.sz = X.sz := rfl
    have hd : (h.newDs X).1.d = X.d := rfl
    have hb : (h.newDs X).1.buf < (h.newDs X).2.next := Nat.lt_succ_self _
    dsimp only
    generalize (h.newDs X).1 = D at hds hn hsz hd hb ⊢
    generalize (h.newDs X).2 = g at hds hb ⊢
    rw [hd, hn]
    split
    · rfl
    · by_cases hm : m = .unknown
      · subst hm; rfl
      · have hk : (match m with | .unknown => true | _ => false) = false := by
          cases m <;> first | rfl | exact absurd rfl hm
        have hk' : (match m with | .unknown => True | _ => False) = False := by
          cases m <;> first | rfl | exact absurd rfl hm
        simp only [Bool.not_false, Bool.true_eq_false, if_false]
        have hent : ∀ i < X.data.length, ∀ t < X.sz, ∀ f < X.d, g.mem D.buf i t f = X.entry i t f := by
          intro i hi t ht f hf
          rw [← hds]
          exact (Heap.ds_entry g D (by omega) (by omega) (by omega)).symm
        have hrow : ∀ i < X.data.length, X.data.getD i [] = g.ts (D.row i) := by
          intro i hi
          rw [← Heap.ds_row g D (by omega), hds]
        have hcol : ∀ i < X.data.length, ∀ stop ≤ X.sz, ∀ f < X.d, X.col i stop f =
            (List.range stop).map fun t => g.mem D.buf i t f := by
          intro i hi stop hst f hf
          apply List.map_congr_left
          intro t ht
          exact (hent i hi t (by have := List.mem_range.1 ht; omega) f hf).symm
        have hstop : ∀ i < X.data.length, (if keep then tsSize (X.data.getD i []) else X.sz) ≤ X.sz := by
          intro i hi
          split
          · rw [hrow i hi]; have := tsSize_le (g.ts (D.row i)); rw [Heap.ts_length] at this; simpa [DArr.row, hsz] using this
          · exact le_refl _
        have key := foldlM_regions D.buf (fun i => i < X.data.length) (fun i i' _ _ => i' = i) (g.mem D.buf)
          (fun i => (List.range X.d).mapM fun f => imputeCol m (X.col i (if keep then tsSize (X.data.getD i []) else X.sz) f))
          (fun i cols i' t f => if t < (if keep then tsSize (X.data.getD i []) else X.sz) ∧ f < X.d then
            (cols.getD f []).getD t none else g.mem D.buf i' t f)
          (imputeRow (builtinImputer m) keep D)
          (fun c c' i t f hne h1 h2 => hne (h1.symm.trans h2))
          (by
            intro k i hi hkb hsame
            have hts : k.ts (D.row i) = g.ts (D.row i) := by
              unfold Heap.ts
              apply List.map_congr_left
              intro t _
              apply List.map_congr_left
              intro f _
              exact hsame i t f rfl
            have hout : ((List.range X.d).mapM fun f => imputeCol m (X.col i (if keep then tsSize (X.data.getD i []) else X.sz) f))
                = (List.range D.d).mapM fun f => imputeCol m ((List.range (if keep then tsSize (X.data.getD i []) else X.sz)).map
                    fun t => k.mem D.buf i t f) := by
              rw [hd]
              apply mapM_congr_mem
              intro f hf
              rw [hcol i hi _ (hstop i hi) f (List.mem_range.1 hf)]
              congr 1
              apply List.map_congr_left
              intro t _
              exact (hsame i t f rfl).symm
            obtain ⟨s1, s2⟩ := imputeRow_builtin m hm keep D k i hkb (if keep then tsSize (X.data.getD i []) else X.sz)
              (by rw [hts, hsz, hrow i hi])
            refine ⟨fun e he => s1 e (hout ▸ he), fun v hv => ?_⟩
            obtain ⟨k', e1, w1, g1⟩ := s2 v (hout ▸ hv)
            refine ⟨k', e1, w1, fun i' t f hr => ?_, fun i' t f hr => ?_⟩
            · subst hr
              rw [g1, hd]
              simp only [true_and]
              rw [hsame i' t f rfl]
            · rw [g1, if_neg (by tauto)])
          (List.range X.data.length) (fun c hc => List.mem_range.1 hc) List.nodup_range g hb (fun _ _ _ _ _ _ => rfl)
        cases ho : (List.range X.data.length).mapM (fun i => (List.range X.d).mapM fun f =>
            imputeCol m (X.col i (if keep then tsSize (X.data.getD i []) else X.sz) f)) with
        | error e => rw [key.1 e ho]; rfl
        | ok out =>
          obtain ⟨k, e1, w1, g1, k1⟩ := key.2 out ho
          have g2 := (forall2_range_getD g1 []).2
          have hY : k.ds D = Arr3.build X.data.length X.sz X.d fun i t f =>
              if t < (if keep then tsSize (X.data.getD i []) else X.sz) then ((out.getD i []).getD f []).getD t none
              else X.entry i t f := by
            unfold Heap.ds
            rw [hn, hsz, hd]
            apply build_congr
            intro i hi t ht f hf
            rw [g2 i hi i t f rfl]
            simp only [hf, and_true]
            rw [hent i hi t ht f hf]
          rw [e1]
          simp only [← hY]
          cases hf : toDataset (.series (k.ds D).slots) with
          | error e => rw [toDatasetM_error (x := .arr .numpy D) (by exact hf)]; rfl
          | ok Y =>
            rw [toDatasetM_of (x := .arr .numpy D) (by exact hf)]
            simp only [Except.map]
            rw [Heap.newDs_ds _ _ (toDataset_shape hf).1]
            rfl

/-! ### Synchronisation -/

theorem syncCell_only {times : Option (Arr3 K)} {ref refSize maxRef : ℕ} {X : DArr} {i : ℕ} {h h' : Heap K} {f : ℕ}
    (e : syncCell times ref refSize maxRef X i h f = .ok h') : OnlyWrites X.buf h h' := by
  simp only [syncCell, bind, Except.bind, pure, Except.pure] at e
  split at e
  · exact absurd e (by simp)
  · cases e
    exact Heap.assign_only h (X.row i) _ _

theorem syncCell_spec (times : Option (Arr3 K)) (ref refSize maxRef : ℕ) (X : DArr) (i : ℕ) (h : Heap K) (f : ℕ) (hf : f < X.d) :
    (∀ e, interp (syncCoords times i refSize ref) (syncCoords times i (colSize (h.col (X.row i) f)) f)
        ((h.col (X.row i) f).take (colSize (h.col (X.row i) f))) = .error e →
      syncCell times ref refSize maxRef X i h f = .error e) ∧
    (∀ v, interp (syncCoords times i refSize ref) (syncCoords times i (colSize (h.col (X.row i) f)) f)
        ((h.col (X.row i) f).take (colSize (h.col (X.row i) f))) = .ok v →
      ∃ h', syncCell times ref refSize maxRef X i h f = .ok h' ∧ OnlyWrites X.buf h h' ∧
        ∀ i' t f', h'.mem X.buf i' t f' = if i' = i ∧ t < X.sz ∧ f' = f ∧ t < maxRef then
          (if t < refSize then v.getD t none else none) else h.mem X.buf i' t f') := by
  simp only [syncCell, bind, Except.bind, pure, Except.pure]
  refine ⟨fun e he => by rw [he], fun v hv => ?_⟩
  rw [hv]
  refine ⟨_, rfl, Heap.assign_only h (X.row i) _ _, fun i' t f' => ?_⟩
  simp only [Heap.assign, DArr.row, true_and, Bool.and_eq_true, decide_eq_true_eq]
  by_cases hc : i' = i ∧ t < X.sz ∧ f' = f ∧ t < maxRef
  · rw [if_pos hc, if_pos ⟨hc.1, hc.2.1, by rw [hc.2.2.1]; exact hf, hc.2.2⟩]
  · rw [if_neg hc, if_neg (by tauto)]

theorem syncM_untouched {ref fitD : ℕ} {times : Option (Arr3 K)} {h h' : Heap K} {x : DSrc K} {Y : DArr}
    (e : syncM ref fitD times h x = .ok (Y, h')) : Untouched h h' ∧ h.next ≤ Y.buf := by
  simp only [syncM, bind, Except.bind, pure, Except.pure, throw, throwThe, MonadExceptOf.throw] at e
  cases hX : toDatasetM h x with
  | error e' => simp [hX] at e
  | ok q =>
    obtain ⟨X, g⟩ := q
    obtain ⟨u1, b1, l1, -⟩ := toDatasetM_spec hX
    simp only [hX] at e
    have fin : ∀ (st : ℕ → ℕ) (mr : ℕ) (k : Heap K), (List.range X.n).foldlM (fun h i =>
        (List.range X.d).foldlM (syncCell times ref (st i) mr X i) h) g = .ok k → Untouched h k := by
      intro st mr k hk
      exact u1.only_new (by rw [b1]) (foldlM_only (fun h c h' hs => foldlM_only (fun _ _ _ => syncCell_only) _ _ _ hs) _ _ _ hk)
    repeat' split at e
    all_goals first
      | (cases e; done)
      | (rename_i hk; cases e; exact ⟨fin (fun i => _) _ _ hk, by rw [b1]⟩)

theorem colSize_le {α : Type} (c : List (Option α)) : colSize c ≤ c.length := by
  unfold colSize
  have := tsSize_le (c.map fun x => [x])
  simpa using this

/-- The in-place synchronisation computes the synchronised dataset. -/
theorem syncM_value (ref : ℕ) (xF : DsInput K) (F : Arr3 K) (hF : toDataset xF = .ok F) (times : Option (Arr3 K)) (h : Heap K)
    (x : DSrc K) : (syncM ref F.d times h x).map (fun r => r.2.ds r.1) =
      synchronize ref xF (.series (x.content h)) times := by
  simp only [syncM, synchronize, hF, bind, Except.bind, pure, Except.pure, throw, throwThe, MonadExceptOf.throw]
  cases hX : toDataset (.series (x.content h)) with
  | error e => rw [toDatasetM_error hX]; rfl
  | ok X =>
    have hW := (toDataset_shape hX).1
    rw [toDatasetM_of hX]
    have hds := Heap.newDs_ds h X hW
    have hn : (h.newDs X).1.n = X.data.length := rfl
    have hsz : (h.newDs X).1.sz = X.sz := rfl
    have hd : (h.newDs X).1.d = X.d := rfl
    have hb : (h.newDs X).1.buf < (h.newDs X).2.next := Nat.lt_succ_self _
    dsimp only
    generalize (h.newDs X).1 = D at hds hn hsz hd hb ⊢
    generalize (h.newDs X).2 = g at hds hb ⊢
    rw [hd, hn, hsz]
    have hent : ∀ i < X.data.length, ∀ t < X.sz, ∀ f < X.d, g.mem D.buf i t f = X.entry i t f := by
      intro i hi t ht f hf
      rw [← hds]
      exact (Heap.ds_entry g D (by omega) (by omega) (by omega)).symm
    have hcol : ∀ i < X.data.length, ∀ f < X.d, g.col (D.row i) f = X.col i X.sz f := by
      intro i hi f hf
      unfold Heap.col Arr3.col
      rw [show (D.row i).sz = X.sz from hsz]
      apply List.map_congr_left
      intro t ht
      exact hent i hi t (List.mem_range.1 ht) f hf
    have main : ¬ X.d ≤ ref →
        Except.map (fun r : DArr × Heap K => r.2.ds r.1)
          (match (List.range X.data.length).foldlM (fun h i => (List.range X.d).foldlM (syncCell times ref
              (((List.range X.data.length).map fun i => colSize (g.col (D.row i) ref)).getD i 0)
              (((List.range X.data.length).map fun i => colSize (g.col (D.row i) ref)).foldr max 0) D i) h) g with
            | .error err => .error err
            | .ok v => .ok ((⟨D.buf, X.data.length,
                ((List.range X.data.length).map fun i => colSize (g.col (D.row i) ref)).foldr max 0, X.d⟩ : DArr), v)) =
        match (List.range X.data.length).mapM (fun i => (List.range X.d).mapM fun f =>
            interp (syncCoords times i (((List.range X.data.length).map fun i => colSize (X.col i X.sz ref)).getD i 0) ref)
              (syncCoords times i (colSize (X.col i X.sz f)) f) (X.col i (colSize (X.col i X.sz f)) f)) with
          | .error err => .error err
          | .ok out => (.ok (Arr3.build X.data.length
              (((List.range X.data.length).map fun i => colSize (X.col i X.sz ref)).foldr max 0) X.d fun i t f =>
              if t < ((List.range X.data.length).map fun i => colSize (X.col i X.sz ref)).getD i 0 then
                ((out.getD i []).getD f []).getD t none else none) : Except PyErr (Arr3 K)) := by
      intro href
      have hrs : ((List.range X.data.length).map fun i => colSize (g.col (D.row i) ref)) =
          (List.range X.data.length).map fun i => colSize (X.col i X.sz ref) := by
        apply List.map_congr_left
        intro i hi
        rw [hcol i (List.mem_range.1 hi) ref (by omega)]
      rw [hrs]
      have hmr : ∀ i < X.data.length, ((List.range X.data.length).map fun i => colSize (X.col i X.sz ref)).getD i 0 ≤
          ((List.range X.data.length).map fun i => colSize (X.col i X.sz ref)).foldr max 0 := by
        intro i hi
        apply le_foldr_max
        rw [List.getD_eq_getElem _ _ (by simpa using hi)]
        exact List.getElem_mem _
      have hmsz : ((List.range X.data.length).map fun i => colSize (X.col i X.sz ref)).foldr max 0 ≤ X.sz := by
        rcases foldr_max_mem_or ((List.range X.data.length).map fun i => colSize (X.col i X.sz ref)) with h0 | h0
        · omega
        · obtain ⟨i, -, hi⟩ := List.mem_map.1 h0
          rw [← hi]
          have := colSize_le (X.col i X.sz ref)
          simpa [Arr3.col] using this
      generalize ((List.range X.data.length).map fun i => colSize (X.col i X.sz ref)) = rs at hmr hmsz ⊢
      generalize rs.foldr max 0 = mr at hmr hmsz ⊢
      have key := foldlM_regions D.buf (fun i => i < X.data.length) (fun i i' _ _ => i' = i) (g.mem D.buf)
        (fun i => (List.range X.d).mapM fun f => interp (syncCoords times i (rs.getD i 0) ref)
              (syncCoords times i (colSize (X.col i X.sz f)) f) (X.col i (colSize (X.col i X.sz f)) f))
        (fun i cols i' t f => if t < X.sz ∧ f < X.d ∧ t < mr then
            (if t < rs.getD i 0 then (cols.getD f []).getD t none else none) else g.mem D.buf i' t f)
        (fun h i => (List.range X.d).foldlM (syncCell times ref (rs.getD i 0) mr D i) h)
        (fun c c' i t f hne h1 h2 => hne (h1.symm.trans h2))
        (by
          intro k i hi hkb hsame
          have inner := foldlM_regions D.buf (fun f => f < X.d) (fun f i' _ f' => i' = i ∧ f' = f) (g.mem D.buf)
            (fun f => interp (syncCoords times i (rs.getD i 0) ref)
              (syncCoords times i (colSize (X.col i X.sz f)) f) (X.col i (colSize (X.col i X.sz f)) f))
            (fun f c i' t f' => if t < X.sz ∧ t < mr then (if t < rs.getD i 0 then c.getD t none else none)
              else g.mem D.buf i' t f')
            (syncCell times ref (rs.getD i 0) mr D i)
            (fun c c' i t f hne h1 h2 => hne (h1.2.symm.trans h2.2))
            (by
              intro k2 f hf hk2 hsame2
              have hc2 : k2.col (D.row i) f = X.col i X.sz f := by
                rw [← hcol i hi f hf]
                unfold Heap.col
                apply List.map_congr_left
                intro t _
                exact hsame2 i t f ⟨rfl, rfl⟩
              have htk : (X.col i X.sz f).take (colSize (X.col i X.sz f)) = X.col i (colSize (X.col i X.sz f)) f := by
                have := colSize_le (X.col i X.sz f)
                unfold Arr3.col at this ⊢
                rw [← List.map_take, List.take_range]
                congr 2
                simp only [List.length_map, List.length_range] at this
                omega
              obtain ⟨s1, s2⟩ := syncCell_spec times ref (rs.getD i 0) mr D i k2 f (by omega)
              rw [hc2, htk] at s1 s2
              refine ⟨s1, fun v hv => ?_⟩
              obtain ⟨k3, e3, w3, g3⟩ := s2 v hv
              refine ⟨k3, e3, w3, fun i' t f' hr => ?_, fun i' t f' hr => ?_⟩
              · rw [g3, hsz, hsame2 i' t f' hr]
                simp only [hr, true_and]
              · rw [g3, if_neg (by tauto)])
            (List.range X.d) (fun c hc => List.mem_range.1 hc) List.nodup_range k hkb
              (fun c _ i' t f' hr => hsame i' t f' hr.1)
          refine ⟨inner.1, fun v hv => ?_⟩
          obtain ⟨k', e1, w1, g1, k1⟩ := inner.2 v hv
          have g2 := (forall2_range_getD g1 []).2
          refine ⟨k', e1, w1, fun i' t f hr => ?_, fun i' t f hr => k1 i' t f (fun c _ hc => hr hc.1)⟩
          by_cases hf : f < X.d
          · rw [g2 f hf i' t f ⟨hr, rfl⟩]
            simp only [hf, true_and]
          · rw [k1 i' t f (fun c hc hcc => hf (by rw [hcc.2]; exact List.mem_range.1 hc)), if_neg (by tauto)]
            exact hsame i' t f hr)
        (List.range X.data.length) (fun c hc => List.mem_range.1 hc) List.nodup_range g hb (fun _ _ _ _ _ _ => rfl)
      cases ho : (List.range X.data.length).mapM (fun i => (List.range X.d).mapM fun f =>
          interp (syncCoords times i (rs.getD i 0) ref)
            (syncCoords times i (colSize (X.col i X.sz f)) f) (X.col i (colSize (X.col i X.sz f)) f)) with
      | error e => rw [key.1 e ho]; rfl
      | ok out =>
        obtain ⟨k, e1, w1, g1, k1⟩ := key.2 out ho
        have g2 := (forall2_range_getD g1 []).2
        rw [e1]
        simp only [Except.map, Except.ok.injEq]
        unfold Heap.ds
        apply build_congr
        intro i hi t ht f hf
        have ht' : t < mr := ht
        rw [g2 i hi i t f rfl, if_pos ⟨by omega, hf, ht⟩]
    simp only [List.length_eq_zero_iff]
    cases times with
    | none =>
      dsimp only
      split
      · rfl
      · split
        · rfl
        · split
          · rfl
          · rename_i href
            have hm := main href
            revert hm
            generalize (List.foldlM _ g _ : Except PyErr (Heap K)) = A
            generalize (List.mapM _ _ : Except PyErr (List (List (List (Option K))))) = B
            cases A <;> cases B <;> exact id
    | some T =>
      dsimp only
      split
      · rfl
      · cases hT : toDataset (.series T.slots) with
        | error e => rfl
        | ok T' =>
          dsimp only
          split
          · rfl
          · split
            · rfl
            · split
              · rfl
              · split
                · rfl
                · rename_i href
                  have hm := main href
                  revert hm
                  generalize (List.foldlM _ g _ : Except PyErr (Heap K)) = A
                  generalize (List.mapM _ _ : Except PyErr (List (List (List (Option K))))) = B
                  cases A <;> cases B <;> exact id

end
end Verif
