import Verif.Props.C19
/-!
# C52 — cdist_soft_dtw_normalized agrees with soft_dtw_normalized for every n_jobs
True sequentially, and in parallel when both padded datasets have the same length; **false** in
parallel otherwise: the call raises.
-/
namespace Verif
open Spec
open Classical

/-- The sum `cdist + normaliser` is the value of the pairwise function. -/
theorem normalized_entry (a b c : Fl) :
    a.add (Fl.scale (-(1/2)) (b.add c)) = a.sub (Fl.scale (1/2) (b.add c)) := by
  generalize b.add c = d
  have h1 : ¬ ((0 : ℝ) < -(1/2)) := by norm_num
  have h2 : (-(1/2) : ℝ) < 0 := by norm_num
  have h3 : (0 : ℝ) < 1/2 := by norm_num
  cases d with
  | num x =>
    simp only [Fl.scale, Fl.sub, Fl.neg]
    rw [neg_mul]
  | inf => simp only [Fl.scale, h1, h2, h3, if_true, if_false, Fl.sub, Fl.neg]
  | ninf => simp only [Fl.scale, h1, h2, h3, if_true, if_false, Fl.sub, Fl.neg]
  | nan => rfl

/-- Both branches compute the self values of the slots. -/
theorem softSelfValues_ok {be : Backend} {γ : ℝ} {code : ℕ} {radius : Option ℕ} {slope : Option ℚ}
    {X Y : Arr3 ℝ} {par : Bool} {run} (hrun : Execution run) {s1 s2 : List Fl}
    (h : softSelfValues be γ code radius slope X Y par run = .ok (s1, s2)) :
    (∀ (i : ℕ) t, X.slots[i]? = some t → softSelf be γ code radius slope t = .ok (s1.getD i (.num 0))) ∧
    (∀ (j : ℕ) t, Y.slots[j]? = some t → softSelf be γ code radius slope t = .ok (s2.getD j (.num 0))) := by
  unfold softSelfValues at h
  cases par with
  | false =>
    simp only [Bool.false_eq_true, if_false, bind, Except.bind, pure, Except.pure] at h
    cases h1 : seqRun (X.slots.map (softSelf be γ code radius slope)) with
    | error e => simp [h1] at h
    | ok v1 =>
      cases h2 : seqRun (Y.slots.map (softSelf be γ code radius slope)) with
      | error e => simp [h1, h2] at h
      | ok v2 =>
        simp only [h1, h2, Except.ok.injEq, Prod.mk.injEq] at h
        obtain ⟨rfl, rfl⟩ := h
        constructor
        · intro i t ht
          obtain ⟨v, hv, hr⟩ := run_get (.inl rfl) h1 (k := i) (by rw [List.getElem?_map, ht]; rfl)
          rw [hr, List.getD_eq_getElem?_getD, hv]; rfl
        · intro i t ht
          obtain ⟨v, hv, hr⟩ := run_get (.inl rfl) h2 (k := i) (by rw [List.getElem?_map, ht]; rfl)
          rw [hr, List.getD_eq_getElem?_getD, hv]; rfl
  | true =>
    simp only [if_true, bind, Except.bind, pure, Except.pure, throw, throwThe,
      MonadExceptOf.throw] at h
    split_ifs at h with hc
    · cases h1 : run ((X.slots ++ Y.slots).map (softSelf be γ code radius slope)) with
      | error e => simp only [h1, reduceCtorEq] at h
      | ok vals =>
        simp only [h1, Except.ok.injEq, Prod.mk.injEq] at h
        obtain ⟨rfl, rfl⟩ := h
        constructor
        · intro i t ht
          have hlt : i < X.slots.length := (List.getElem?_eq_some_iff.1 ht).1
          obtain ⟨v, hv, hr⟩ := run_get hrun h1 (k := i) (by
            rw [List.getElem?_map, List.getElem?_append_left hlt, ht]; rfl)
          rw [hr, List.getD_eq_getElem?_getD, List.getElem?_take_of_lt hlt, hv]; rfl
        · intro i t ht
          obtain ⟨v, hv, hr⟩ := run_get hrun h1 (k := X.slots.length + i) (by
            rw [List.getElem?_map, List.getElem?_append_right (by omega),
              Nat.add_sub_cancel_left, ht]; rfl)
          rw [hr, List.getD_eq_getElem?_getD, List.getElem?_drop, hv]; rfl

/-- Two datasets, `gamma ≠ 0`: whenever the call returns (sequential or parallel), entry `(i, j)` is
`soft_dtw_normalized` of the original series. -/
theorem C52_cross_partial (be : Backend) (l l' : List (Ts ℝ)) (d : ℕ)
    (hwf : ∀ t ∈ l, t.WF ∧ t.d = d) (hwf' : ∀ t ∈ l', t.WF ∧ t.d = d) (γ : ℝ) (hγ : γ ≠ 0)
    (g : Option String) (radius : Option ℕ) (slope : Option ℚ) (par : Bool)
    (run) (hrun : Execution run) (M : Mat Fl)
    (h : cdistSoftDtwNormalized be (.series l) (some (.series l')) γ g radius slope par run = .ok M)
    (i j : ℕ) (t t' : Ts ℝ) (hi : l[i]? = some t) (hj : l'[j]? = some t') :
    softDtwNormalized be (.twoD t.rows) (.twoD t'.rows) γ g radius slope = .ok (M i j) := by
  unfold cdistSoftDtwNormalized at h
  cases hcd : cdistSoftDtw be (.series l) (some (.series l')) γ g radius slope run with
  | error e => simp [hcd, bind, Except.bind] at h
  | ok cd =>
  simp only [hcd, bind, Except.bind, hγ, if_false, pure, Except.pure] at h
  cases hX : toDataset (.series l) with
  | error e => simp [hX] at h
  | ok X =>
  cases hY : toDataset (.series l') with
  | error e => simp [hX, hY] at h
  | ok Y =>
  cases hg : gcCode g with
  | error e => simp [hX, hY, hg] at h
  | ok code =>
  cases hsv : softSelfValues be γ code radius slope X Y par run with
  | error e => simp [hX, hY, hg, hsv] at h
  | ok s12 =>
  obtain ⟨s1, s2⟩ := s12
  simp only [hX, hY, hg, hsv, Except.ok.injEq] at h
  subst h
  obtain ⟨g1, g2⟩ := softSelfValues_ok hrun hsv
  have hpair := C19_cross_partial be l l' d hwf hwf' γ hγ g radius slope run hrun cd hcd i j t t' hi hj
  have hcd' := hcd
  unfold cdistSoftDtw at hcd'
  simp only [hg, bind, Except.bind, hγ, if_false] at hcd'
  obtain ⟨x, y, hv, hx, hy, hf⟩ := cdistOf_cross hwf hwf' hrun hcd' hg hi hj
  obtain ⟨d1, d2, -⟩ := validatePair_ok hv
  have d1' : denan t.trim.rows = some x := d1
  have d2' : denan t'.trim.rows = some y := d2
  obtain ⟨s, hs, hst⟩ := slot_trim hwf hX hi
  obtain ⟨s', hs', hst'⟩ := slot_trim hwf' hY hj
  have k1 := g1 i s hs
  have k2 := g2 j s' hs'
  rw [softSelf, onSlots_congr _ hst hst] at k1
  rw [softSelf, onSlots_congr _ hst' hst'] at k2
  simp only [onSlots, d1', hx, or_self, if_false] at k1
  simp only [onSlots, d2', hy, or_self, if_false] at k2
  simp only [softDtwNormalized, hv, bind, Except.bind, hγ, if_false, softDtwNormalizedGeneric, hf, k1, k2,
    pure, Except.pure]
  rw [normalized_entry]

/-- One dataset (no constraint or Sakoe-Chiba band), `gamma > 0`: every entry, and the diagonal is 0. -/
theorem C52_self (be : Backend) (l : List (Ts ℝ)) (d : ℕ)
    (hwf : ∀ t ∈ l, t.WF ∧ t.d = d) (γ : ℝ) (hγ : 0 < γ)
    (g : Option String) (hg : g = none ∨ g = some "sakoe_chiba") (radius : Option ℕ) (par : Bool)
    (run) (hrun : Execution run) (M : Mat Fl)
    (h : cdistSoftDtwNormalized be (.series l) none γ g radius none par run = .ok M)
    (i j : ℕ) (t t' : Ts ℝ) (hi : l[i]? = some t) (hj : l[j]? = some t') :
    softDtwNormalized be (.twoD t.rows) (.twoD t'.rows) γ g radius none = .ok (M i j) ∧
      M i i = .num 0 := by
  unfold cdistSoftDtwNormalized at h
  cases hcd : cdistSoftDtw be (.series l) none γ g radius none run with
  | error e => simp [hcd, bind, Except.bind] at h
  | ok cd =>
  simp only [hcd, bind, Except.bind, hγ.ne', if_false, pure, Except.pure, Except.ok.injEq] at h
  subst h
  obtain ⟨code, hcode, hc⟩ : ∃ code, gcCode g = .ok code ∧ (code = 0 ∨ code = 2) := by
    rcases hg with rfl | rfl
    · exact ⟨0, rfl, .inl rfl⟩
    · exact ⟨2, rfl, .inr rfl⟩
  have hcd' := hcd
  unfold cdistSoftDtw at hcd'
  simp only [hcode, bind, Except.bind, hγ.ne', if_false] at hcd'
  have hsymm : ∀ x y : List (List ℝ), x ≠ [] → y ≠ [] →
      softDtwGeneric be x y γ code radius none = softDtwGeneric be y x γ code radius none := by
    intro x y hx hy
    rcases hc with rfl | rfl
    · exact (C18_symm be x y hx hy γ hγ radius).1
    · exact (C18_symm be x y hx hy γ hγ radius).2
  have entry : ∀ {i j : ℕ} {t t' : Ts ℝ}, l[i]? = some t → l[j]? = some t' →
      ∃ x y, denan t.trim.rows = some x ∧ denan t'.trim.rows = some y ∧
      validatePair (.twoD t.rows) (.twoD t'.rows) g = .ok (x, y, code) ∧ x ≠ [] ∧ y ≠ [] ∧
      softDtwGeneric be x y γ code radius none = .ok (cd i j) := by
    intro i j t t' hi hj
    obtain ⟨x, y, hv, hx, hy, hf⟩ := cdistOf_self_symm hwf hrun hcd' hsymm hcode hi hj
    obtain ⟨d1, d2, -⟩ := validatePair_ok hv
    exact ⟨x, y, d1, d2, hv, hx, hy, hf⟩
  obtain ⟨x, y, dx, dy, hv, hx, hy, hf⟩ := entry hi hj
  obtain ⟨x1, x2, dx1, dx2, -, -, -, hfx⟩ := entry hi hi
  obtain ⟨y1, y2, dy1, dy2, -, -, -, hfy⟩ := entry hj hj
  obtain rfl : x = x1 := by rw [dx] at dx1; exact Option.some.inj dx1
  obtain rfl : x = x2 := by rw [dx] at dx2; exact Option.some.inj dx2
  obtain rfl : y = y1 := by rw [dy] at dy1; exact Option.some.inj dy1
  obtain rfl : y = y2 := by rw [dy] at dy2; exact Option.some.inj dy2
  constructor
  · simp only [softDtwNormalized, hv, bind, Except.bind, hγ.ne', if_false, softDtwNormalizedGeneric, hf, hfx,
      hfy, pure, Except.pure]
    rw [normalized_entry]
  · have hn : softDtwNormalizedGeneric be x x γ code radius none = .ok (.num 0) := by
      rcases hc with rfl | rfl
      · exact (C18_normalized be x x hx hx γ hγ radius).1
      · exact (C18_normalized be x x hx hx γ hγ radius).2.2.1
    simp only [softDtwNormalizedGeneric, hfx, bind, Except.bind, pure, Except.pure, Except.ok.injEq] at hn
    exact (normalized_entry _ _ _).trans hn

/-- The sequential branch always returns when the pairwise soft-DTW matrix does and the constraint is
feasible on the self pairs (in particular without constraint). The parallel branch raises as soon as
the two datasets are padded to different lengths. -/
theorem C52_parallel_raises (be : Backend) (l l' : List (Ts ℝ)) (X Y : Arr3 ℝ)
    (hX : toDataset (.series l) = .ok X) (hY : toDataset (.series l') = .ok Y) (hsz : X.sz ≠ Y.sz)
    (γ : ℝ) (hγ : γ ≠ 0) (g : Option String) (radius : Option ℕ) (slope : Option ℚ) (run) (M : Mat Fl) :
    cdistSoftDtwNormalized be (.series l) (some (.series l')) γ g radius slope true run ≠ .ok M := by
  intro h
  unfold cdistSoftDtwNormalized at h
  cases hcd : cdistSoftDtw be (.series l) (some (.series l')) γ g radius slope run with
  | error e => simp [hcd, bind, Except.bind] at h
  | ok cd =>
  cases hg : gcCode g with
  | error e => simp [hcd, hX, hY, hg, bind, Except.bind, hγ] at h
  | ok code =>
  simp [hcd, hX, hY, hg, bind, Except.bind, hγ, softSelfValues, hsz, throw, throwThe,
    MonadExceptOf.throw] at h

/-- The statement is false: on `[(0, 1)]` against `[(2)]` the sequential call returns, the parallel
one raises `ValueError`. -/
theorem C52_false : ∃ (l l' : List (Ts ℝ)), (∀ t ∈ l ++ l', t.WF ∧ t.d = 1) ∧
    (∃ M, cdistSoftDtwNormalized .numpy (.series l) (some (.series l')) 1 none none none false seqRun = .ok M) ∧
    cdistSoftDtwNormalized .numpy (.series l) (some (.series l')) 1 none none none true seqRun =
      .error .valueError := by
  let a : Ts ℝ := ⟨1, [[some 0], [some 1]]⟩
  let b : Ts ℝ := oneSample 2
  have hds : toDataset (.series [b]) = .ok ⟨1, 1, [[[some 2]]]⟩ := rfl
  have hds' : toDataset (.series [a]) = .ok ⟨2, 1, [[[some 0], [some 1]]]⟩ := rfl
  have hcd : ∃ cd, cdistSoftDtw .numpy (.series [a]) (some (.series [b])) 1 none none none seqRun = .ok cd := by
    unfold cdistSoftDtw cdistOf
    simp only [gcCode, bind, Except.bind, one_ne_zero, if_false, hds, hds']
    apply C09_total _ _ _ _ _ _ (.inl rfl)
    intro x hx y hy
    simp only [Arr3.slots, List.map_cons, List.map_nil, List.mem_singleton, Option.getD_some] at hx hy
    subst hx hy
    exact ⟨_, rfl⟩
  obtain ⟨cd, hcd⟩ := hcd
  refine ⟨[a], [b], ?_, ?_, ?_⟩
  · intro t ht
    simp only [List.cons_append, List.nil_append, List.mem_cons, List.not_mem_nil, or_false] at ht
    rcases ht with rfl | rfl
    · refine ⟨fun r hr => ?_, rfl⟩
      simp only [a, List.mem_cons, List.not_mem_nil, or_false] at hr
      rcases hr with rfl | rfl <;> rfl
    · refine ⟨fun r hr => ?_, rfl⟩
      simp only [b, oneSample, List.mem_singleton] at hr
      subst hr; rfl
  · unfold cdistSoftDtwNormalized
    simp only [hcd, hds, hds', gcCode, bind, Except.bind, one_ne_zero, if_false, pure, Except.pure]
    exact ⟨_, rfl⟩
  · unfold cdistSoftDtwNormalized
    simp only [hcd, hds, hds', gcCode, bind, Except.bind, one_ne_zero, if_false, pure, Except.pure]
    rfl

/-- The self call returns on two series of different lengths; `C52_self` then applies. -/
example : ∃ M, cdistSoftDtwNormalized .numpy (.series [⟨1, [[some 0], [some 1]]⟩, oneSample 2]) none 1
    (some "sakoe_chiba") (some 1) none false seqRun = .ok M := by
  have hds : toDataset (.series [⟨1, [[some (0:ℝ)], [some 1]]⟩, oneSample 2]) =
      .ok ⟨2, 1, [[[some 0], [some 1]], [[some 2], [none]]]⟩ := rfl
  have hcd : ∃ cd, cdistSoftDtw .numpy (.series [⟨1, [[some 0], [some 1]]⟩, oneSample 2]) none 1
    (some "sakoe_chiba") (some 1) none seqRun = .ok cd := by
    unfold cdistSoftDtw cdistOf
    simp only [gcCode, bind, Except.bind, one_ne_zero, if_false, hds]
    apply C09_total _ _ _ _ _ _ (.inl rfl)
    intro x hx y hy
    simp only [Arr3.slots, List.map_cons, List.map_nil, List.mem_cons, List.not_mem_nil, or_false,
      Option.getD_none] at hx hy
    rcases hx with rfl | rfl <;> rcases hy with rfl | rfl <;> exact ⟨_, rfl⟩
  obtain ⟨cd, hcd⟩ := hcd
  unfold cdistSoftDtwNormalized
  simp only [hcd, bind, Except.bind, one_ne_zero, if_false, pure, Except.pure]
  exact ⟨_, rfl⟩

end Verif
