import Verif.Model.Package
import Verif.Proofs.Dataset
import Mathlib.Tactic.Ring
/-!
# C27 — saving and loading estimators
-/
set_option linter.unusedSectionVars false
namespace Verif
variable {φ : Type}

/-- `numpy.array` keeps entries that already have one data type. -/
def PromoteOk (promote : List (Cell φ) → List (Cell φ)) : Prop :=
  ∀ l : List (Cell φ), (∀ c ∈ l, ∀ c' ∈ l, c.kind = c'.kind) → promote l = l

/-! ### arrays and nested lists -/

theorem npShapes_map {ι : Type} (g : ι → PyVal φ) (s : ι → List ℕ) (l : List ι)
    (h : ∀ i ∈ l, npShape (g i) = some (s i)) : npShapes (l.map g) = some (l.map s) := by
  induction l with
  | nil => simp [npShapes]
  | cons i l ih =>
    rw [List.map_cons, npShapes, h i (by simp), ih fun j hj => h j (by simp [hj])]
    rfl

theorem leavesL_map {ι : Type} (g : ι → PyVal φ) (c : ι → List (Cell φ)) (l : List ι)
    (h : ∀ i ∈ l, leaves (g i) = c i) : leavesL (l.map g) = (l.map c).flatten := by
  induction l with
  | nil => simp [leavesL]
  | cons i l ih =>
    rw [List.map_cons, leavesL, h i (by simp), ih fun j hj => h j (by simp [hj])]
    rfl

theorem npShape_toListAux (sh : List ℕ) (h0 : 0 ∉ sh) (data : List (Cell φ)) (hl : sh.prod ≤ data.length) :
    npShape (toListAux sh data) = some sh := by
  induction sh generalizing data with
  | nil =>
    match data with
    | [] => simp at hl
    | c :: _ => simp [toListAux, npShape]
  | cons n sh ih =>
    have hn : n ≠ 0 := fun e => h0 (by simp [e])
    have h0' : 0 ∉ sh := fun e => h0 (by simp [e])
    rw [List.prod_cons] at hl
    have key : npShapes ((List.range n).map fun i => toListAux sh (data.drop (i * sh.prod))) =
        some ((List.range n).map fun _ => sh) := by
      apply npShapes_map
      intro i hi
      apply ih h0'
      rw [List.length_drop]
      have := List.mem_range.1 hi
      have h1 : (i + 1) * sh.prod ≤ n * sh.prod := Nat.mul_le_mul_right _ this
      rw [Nat.add_mul] at h1
      omega
    rw [toListAux, npShape, key]
    obtain ⟨m, rfl⟩ := Nat.exists_eq_succ_of_ne_zero hn
    rw [List.map_const', List.length_range, List.replicate_succ]
    simp

theorem leaves_toListAux (sh : List ℕ) (data : List (Cell φ)) (hl : sh.prod ≤ data.length) :
    leaves (toListAux sh data) = data.take sh.prod := by
  induction sh generalizing data with
  | nil =>
    match data with
    | [] => simp at hl
    | c :: _ => simp only [toListAux, leaves, List.prod_nil]; rfl
  | cons n sh ih =>
    rw [List.prod_cons] at hl ⊢
    rw [toListAux, leaves, leavesL_map _ (fun i => (data.drop (i * sh.prod)).take sh.prod)]
    · clear ih
      induction n with
      | zero => simp
      | succ n ihn =>
        have h1 : n * sh.prod ≤ (n + 1) * sh.prod := Nat.mul_le_mul_right _ (Nat.le_succ n)
        rw [List.range_succ, List.map_append, List.flatten_append, ihn (h1.trans hl)]
        simp only [List.map_cons, List.map_nil, List.flatten_cons, List.flatten_nil, List.append_nil]
        rw [Nat.add_mul, Nat.one_mul, List.take_add]
    · intro i hi
      apply ih
      rw [List.length_drop]
      have := List.mem_range.1 hi
      have h1 : (i + 1) * sh.prod ≤ n * sh.prod := Nat.mul_le_mul_right _ this
      rw [Nat.add_mul] at h1
      omega

theorem npArray_tolist {promote : List (Cell φ) → List (Cell φ)} (hp : PromoteOk promote) {a : Nd φ} (ha : a.WF)
    (h0 : 0 ∉ a.shape) : npArray promote a.tolist = some a := by
  unfold npArray Nd.tolist
  rw [npShape_toListAux _ h0 _ ha.1.ge, leaves_toListAux _ _ ha.1.ge]
  rw [← ha.1, List.take_length, hp _ ha.2]
  rfl

theorem jsonOkL_map {ι : Type} (g : ι → PyVal φ) (l : List ι) (h : ∀ i ∈ l, jsonOk (g i) = true) :
    jsonOkL (l.map g) = true := by
  induction l with
  | nil => simp [jsonOkL]
  | cons i l ih =>
    rw [List.map_cons, jsonOkL, h i (by simp), ih fun j hj => h j (by simp [hj])]
    rfl

theorem jsonOk_toListAux (sh : List ℕ) (data : List (Cell φ)) : jsonOk (toListAux sh data) = true := by
  induction sh generalizing data with
  | nil => cases data <;> simp [toListAux, jsonOk]
  | cons n sh ih =>
    rw [toListAux, jsonOk]
    exact jsonOkL_map _ _ fun i _ => ih _

theorem jsonOkD_iff (d : PyDict φ) : jsonOkD d = true ↔ ∀ kv ∈ d, jsonOk kv.2 = true := by
  induction d with
  | nil => simp [jsonOkD]
  | cons kv d ih => simp [jsonOkD, ih]

theorem dictMapM_ok (f : PyVal φ → Except PyErr (PyVal φ)) (g : PyVal φ → PyVal φ) (d : PyDict φ)
    (h : ∀ kv ∈ d, f kv.2 = .ok (g kv.2)) : dictMapM f d = .ok (d.map fun kv => (kv.1, g kv.2)) := by
  unfold dictMapM
  exact mapM_except_ok _ _ d (fun kv hkv => by rw [h kv hkv]; rfl)

/-! ### JSON -/

/-- Values JSON preserves: `None`, numbers, strings, dictionaries of such and of lists, non-empty arrays
of at least one dimension, and lists of such arrays whose shapes are not all the same. -/
inductive JsonStable : PyVal φ → Prop
  | none : JsonStable .none
  | atom (c) : JsonStable (.atom c)
  | dict (d) : jsonOk (.dict d) = true → JsonStable (.dict d)
  | arr (a : Nd φ) : a.WF → 0 ∉ a.shape → a.shape ≠ [] → JsonStable (.arr a)
  | arrs (as : List (Nd φ)) (hw : ∀ a ∈ as, a.WF ∧ 0 ∉ a.shape) (a b : Nd φ) : a ∈ as → b ∈ as →
      a.shape ≠ b.shape → JsonStable (.list (as.map .arr))

theorem mapM_arr (as : List (Nd φ)) :
    (as.map PyVal.arr).mapM elemToList = .ok (as.map Nd.tolist) := by
  rw [List.mapM_map]
  exact mapM_except_ok _ _ as (fun a _ => rfl)

theorem listify_arrs (as : List (Nd φ)) (hne : as ≠ []) :
    listify (.list (as.map .arr)) = .ok (.list (as.map Nd.tolist)) := by
  match as, hne with
  | a :: as, _ =>
    have h := mapM_arr (a :: as)
    rw [List.map_cons] at h ⊢
    simp only [listify, h, bind, Except.bind, pure, Except.pure]

theorem listify_stable {v : PyVal φ} (h : JsonStable v) {promote : List (Cell φ) → List (Cell φ)}
    (hp : PromoteOk promote) :
    ∃ w, listify v = .ok w ∧ jsonOk w = true ∧ unlist promote (byte2string w) = .ok v := by
  cases h with
  | none => exact ⟨_, rfl, by simp [jsonOk], rfl⟩
  | atom c => exact ⟨_, rfl, by simp [jsonOk], rfl⟩
  | dict d hd => exact ⟨_, rfl, hd, rfl⟩
  | arr a ha h0 hs =>
    refine ⟨_, rfl, jsonOk_toListAux _ _, ?_⟩
    have hk := npArray_tolist hp ha h0
    cases a with
    | mk shape data =>
      match shape, hs with
      | n :: sh, _ =>
        simp only [Nd.tolist, toListAux] at hk ⊢
        simp only [byte2string, unlist, hk]
  | arrs as hw a b ha hb hab =>
    refine ⟨_, listify_arrs as (List.ne_nil_of_mem ha), ?_, ?_⟩
    · rw [jsonOk]
      exact jsonOkL_map _ _ fun a _ => jsonOk_toListAux _ _
    · have hsh : npShapes (as.map Nd.tolist) = some (as.map Nd.shape) :=
        npShapes_map _ _ _ fun a ha => by
          have := npShape_toListAux a.shape (hw a ha).2 a.data (hw a ha).1.1.ge
          exact this
      have hnone : npArray promote (.list (as.map Nd.tolist)) = Option.none := by
        unfold npArray
        rw [npShape, hsh]
        match as, ha, hb with
        | c :: cs, ha, hb =>
          simp only [List.map_cons]
          rw [if_neg]
          · rfl
          · rw [List.all_eq_true]
            intro hall
            have he : ∀ x ∈ c :: cs, x.shape = c.shape := by
              intro x hx
              rcases List.mem_cons.1 hx with rfl | hx
              · rfl
              · simpa using hall x.shape (List.mem_map.2 ⟨x, hx, rfl⟩)
            exact hab ((he a ha).trans (he b hb).symm)
      have hm : (as.map Nd.tolist).mapM (elemToArr promote) = .ok (as.map PyVal.arr) := by
        rw [List.mapM_map]
        apply mapM_except_ok
        intro a ha
        simp only [Function.comp, elemToArr, npArray_tolist hp (hw a ha).1 (hw a ha).2]
      simp only [byte2string, unlist, hnone, hm, bind, Except.bind, pure, Except.pure]

theorem json_dict {promote : List (Cell φ) → List (Cell φ)} (hp : PromoteOk promote) (d : PyDict φ)
    (h : ∀ kv ∈ d, JsonStable kv.2) :
    ∃ d', dictMapM listify d = .ok d' ∧ jsonOkD d' = true ∧
      dictMapM (fun v => unlist promote (byte2string v)) d' = .ok d := by
  induction d with
  | nil => exact ⟨[], rfl, by simp [jsonOkD], rfl⟩
  | cons kv d ih =>
    obtain ⟨w, h1, h2, h3⟩ := listify_stable (h kv (by simp)) hp
    obtain ⟨d', h4, h5, h6⟩ := ih fun kv hkv => h kv (by simp [hkv])
    refine ⟨(kv.1, w) :: d', ?_, by simp [jsonOkD, h2, h5], ?_⟩
    · unfold dictMapM at h4 ⊢
      rw [List.mapM_cons, h4, h1]
      rfl
    · unfold dictMapM at h6 ⊢
      rw [List.mapM_cons, h6]
      simp only [h3]
      rfl

/-- JSON: an estimator with such values is written and read back unchanged. -/
theorem C27_json_partial (promote : List (Cell φ) → List (Cell φ)) (hp : PromoteOk promote) (p : Pkg φ)
    (hh : ∀ kv ∈ p.hyper, JsonStable kv.2) (hm : ∀ kv ∈ p.model, JsonStable kv.2) :
    ∃ f, toJson (some true) p = .ok f ∧ fromJson promote f = .ok p := by
  obtain ⟨dm, h1, h2, h3⟩ := json_dict hp p.model hm
  obtain ⟨dh, h4, h5, h6⟩ := json_dict hp p.hyper hh
  refine ⟨⟨dh, dm⟩, ?_, ?_⟩
  · simp [toJson, checkFitted, h1, h4, h2, h5, bind, Except.bind, pure, Except.pure]
  · simp [fromJson, h3, h6, bind, Except.bind, pure, Except.pure]

/-- JSON is **not** faithful to lists: a list of arrays of equal shapes is read back as one array, and an
empty list cannot be written at all. -/
theorem C27_json_false (promote : List (Cell ℚ) → List (Cell ℚ)) (hp : PromoteOk promote) :
    (∃ p f q : Pkg ℚ, toJson (some true) p = .ok f ∧ fromJson promote f = .ok q ∧
      p.model = [("weights_", .list [.arr ⟨[2], [.fl 1, .fl 2]⟩, .arr ⟨[2], [.fl 3, .fl 4]⟩])] ∧
      q.model = [("weights_", .arr ⟨[2, 2], [.fl 1, .fl 2, .fl 3, .fl 4]⟩)]) ∧
    (∀ (k : String) (hyper : PyDict ℚ), toJson (some true) ⟨hyper, [(k, .list [])]⟩ = .error .indexError) := by
  constructor
  · refine ⟨⟨[], [("weights_", .list [.arr ⟨[2], [.fl 1, .fl 2]⟩, .arr ⟨[2], [.fl 3, .fl 4]⟩])]⟩,
      ⟨[], [("weights_", .list [.list [.atom (.fl 1), .atom (.fl 2)], .list [.atom (.fl 3), .atom (.fl 4)]])]⟩,
      ⟨[], [("weights_", .arr ⟨[2, 2], [.fl 1, .fl 2, .fl 3, .fl 4]⟩)]⟩, rfl, ?_, rfl, rfl⟩
    have : promote [Cell.fl 1, .fl 2, .fl 3, .fl 4] = [.fl 1, .fl 2, .fl 3, .fl 4] := by
      apply hp
      intro c hc c' hc'
      simp only [List.mem_cons, List.not_mem_nil, or_false] at hc hc'
      rcases hc with rfl | rfl | rfl | rfl <;> rcases hc' with rfl | rfl | rfl | rfl <;> rfl
    simp [fromJson, dictMapM, unlist, byte2string, npArray, npShape, npShapes, leaves, leavesL, this, bind,
      Except.bind, pure, Except.pure, Except.map]
  · intro k hyper
    rfl

/-! ### pickle -/

/-- Pickle preserves everything except top-level `bytes`, which become strings. -/
theorem C27_pickle (p : Pkg φ) (hh : ∀ kv ∈ p.hyper, ∀ s, kv.2 ≠ .bytes s) (hm : ∀ kv ∈ p.model, ∀ s, kv.2 ≠ .bytes s) :
    (toPickle (some true) p).map fromPickle = .ok p := by
  have key : ∀ d : PyDict φ, (∀ kv ∈ d, ∀ s, kv.2 ≠ .bytes s) → (d.map fun kv => (kv.1, byte2string kv.2)) = d := by
    intro d hd
    conv_rhs => rw [← List.map_id d]
    apply List.map_congr_left
    intro kv hkv
    have := hd kv hkv
    cases kv with
    | mk k v => cases v <;> simp_all [byte2string]
  simp [toPickle, checkFitted, fromPickle, bind, Except.bind, pure, Except.pure, Except.map, key _ hh, key _ hm]

/-! ### HDF5 -/

/-- Values HDF5 preserves inside dictionaries: numbers, arrays and non-empty dictionaries of such. -/
inductive H5Stable : PyVal φ → Prop
  | atom (c) : (∀ s, c ≠ .str s) → H5Stable (.atom c)
  | arr (a) : H5Stable (.arr a)
  | dict (d : PyDict φ) : d ≠ [] → (∀ kv ∈ d, H5Stable kv.2) → H5Stable (.dict d)

theorem toH5D_ok (d : PyDict φ) (h : ∀ kv ∈ d, ∃ t, toH5 kv.2 = .ok (some t) ∧ fromH5 t = kv.2) :
    ∃ l, toH5D d = .ok l ∧ fromH5D l = d ∧ (d ≠ [] → l ≠ []) := by
  induction d with
  | nil => exact ⟨[], by simp [toH5D], by simp [fromH5D], by simp⟩
  | cons kv d ih =>
    obtain ⟨t, h1, h2⟩ := h kv (by simp)
    obtain ⟨l, h3, h4, -⟩ := ih fun kv hkv => h kv (by simp [hkv])
    refine ⟨(kv.1, t) :: l, ?_, by simp [fromH5D, h2, h4], by simp⟩
    simp [toH5D, h1, h3, bind, Except.bind, pure, Except.pure]

theorem H5Stable.ok {v : PyVal φ} (h : H5Stable v) : ∃ t, toH5 v = .ok (some t) ∧ fromH5 t = v := by
  induction h with
  | atom c hc =>
    refine ⟨.data (.atom c), by simp [toH5], ?_⟩
    cases c <;> simp_all [fromH5]
  | arr a => exact ⟨.data (.arr a), by simp [toH5], by simp [fromH5]⟩
  | dict d hne hd ih =>
    obtain ⟨l, h1, h2, h3⟩ := toH5D_ok d ih
    refine ⟨.group l, ?_, by simp [fromH5, h2]⟩
    have := h3 hne
    simp [toH5, h1, bind, Except.bind, pure, Except.pure, List.isEmpty_iff, this]

/-- A top-level value HDF5 preserves: additionally strings. -/
def H5Top (v : PyVal φ) : Prop := H5Stable v ∨ ∃ s, v = .atom (.str s)

theorem H5Top.ok {v : PyVal φ} (h : H5Top v) : ∃ t, toH5 v = .ok (some t) ∧ byte2string (fromH5 t) = v := by
  rcases h with h | ⟨s, rfl⟩
  · obtain ⟨t, h1, h2⟩ := h.ok
    refine ⟨t, h1, ?_⟩
    rw [h2]
    cases h <;> rfl
  · exact ⟨.data (.atom (.str s)), by simp [toH5], by simp [fromH5, byte2string]⟩

theorem toH5D_top (d : PyDict φ) (h : ∀ kv ∈ d, H5Top kv.2) :
    ∃ l, toH5D d = .ok l ∧ ((fromH5D l).map fun kv => (kv.1, byte2string kv.2)) = d ∧ (d ≠ [] → l ≠ []) := by
  induction d with
  | nil => exact ⟨[], by simp [toH5D], by simp [fromH5D], by simp⟩
  | cons kv d ih =>
    obtain ⟨t, h1, h2⟩ := (h kv (by simp)).ok
    obtain ⟨l, h3, h4, -⟩ := ih fun kv hkv => h kv (by simp [hkv])
    refine ⟨(kv.1, t) :: l, ?_, by simp [fromH5D, h2, h4], by simp⟩
    simp [toH5D, h1, h3, bind, Except.bind, pure, Except.pure]

/-- HDF5: hyper-parameters that are `None`, numbers, strings other than `"None"`, arrays or non-empty
dictionaries of numbers and arrays, and fitted attributes of the same kinds except `None`, are read back
unchanged. -/
theorem C27_hdf5_partial (p : Pkg φ) (hne : p.hyper ≠ []) (mne : p.model ≠ [])
    (hh : ∀ kv ∈ p.hyper, kv.2 = .none ∨ (H5Top kv.2 ∧ kv.2 ≠ .atom (.str "None")))
    (hm : ∀ kv ∈ p.model, H5Top kv.2) :
    ∃ f, toHdf5 none (some true) p = (some f, .ok ()) ∧ fromHdf5 (some f) = .ok p := by
  obtain ⟨lm, h1, h2, h3⟩ := toH5D_top p.model hm
  obtain ⟨lh, h4, h5, h6⟩ := toH5D_top (p.hyper.map fun kv => (kv.1, noneToStr kv.2)) (by
    intro kv hkv
    obtain ⟨q, hq, rfl⟩ := List.mem_map.1 hkv
    rcases hh q hq with e | ⟨ht, -⟩
    · right; exact ⟨"None", by simp [e, noneToStr]⟩
    · have : noneToStr q.2 = q.2 := by
        rcases ht with ht | ⟨s, e⟩
        · cases hv : q.2 with
          | none => rw [hv] at ht; cases ht
          | _ => rfl
        · rw [e]; rfl
      simp only [this]
      exact ht)
  have hlm := h3 mne
  have hlh := h6 (by simpa using hne)
  refine ⟨.complete [("hyper_params", .group lh), ("model_params", .group lm)], ?_, ?_⟩
  · simp [toHdf5, checkFitted, toH5D, toH5, h1, h4, bind, Except.bind, pure, Except.pure, List.isEmpty_iff, hlm, hlh]
  · have hback : (((fromH5D lh).map fun kv => (kv.1, byte2string kv.2)).map fun kv => (kv.1, strToNone kv.2)) =
        p.hyper := by
      rw [h5, List.map_map]
      conv_rhs => rw [← List.map_id p.hyper]
      apply List.map_congr_left
      intro kv hkv
      cases kv with
      | mk k v =>
        rcases hh _ hkv with e | ⟨-, hn⟩
        · simp only at e
          subst e
          simp [noneToStr, strToNone]
        · simp only [Function.comp, id, Prod.mk.injEq, true_and]
          cases v with
          | none => simp [noneToStr, strToNone]
          | atom c =>
            cases c with
            | str s =>
              simp only [noneToStr, strToNone]
              rw [if_neg]
              rintro rfl
              exact hn rfl
            | _ => rfl
          | _ => rfl
    rw [List.map_map] at hback
    have hback' : ((fromH5D lh).map fun kv => (kv.1, strToNone (byte2string kv.2))) = p.hyper := hback
    simp [fromHdf5, fromH5D, fromH5, subDict, List.lookup, bind, Except.bind, pure, Except.pure, h2, hback']

/-- HDF5 is **not** faithful to strings inside dictionaries (they come back as `bytes`), to the string
`"None"`, nor to empty dictionaries (they vanish, and with them the hyper-parameter). -/
theorem C27_hdf5_false :
    (∃ f q : _, toHdf5 none (some true) (⟨[("metric_params", .dict [("global_constraint", .atom (.str "sakoe_chiba"))])],
        [("_d", .atom (.int 1))]⟩ : Pkg ℚ) = (some f, .ok ()) ∧ fromHdf5 (some f) = .ok q ∧
      q.hyper = [("metric_params", .dict [("global_constraint", .bytes "sakoe_chiba")])]) ∧
    (∃ f q : _, toHdf5 none (some true) (⟨[("metric", .atom (.str "None"))], [("_d", .atom (.int 1))]⟩ : Pkg ℚ) =
        (some f, .ok ()) ∧ fromHdf5 (some f) = .ok q ∧ q.hyper = [("metric", .none)]) ∧
    (∃ f q : _, toHdf5 none (some true) (⟨[("metric", .atom (.str "dtw")), ("metric_params", .dict [])],
        [("_d", .atom (.int 1))]⟩ : Pkg ℚ) =
        (some f, .ok ()) ∧ fromHdf5 (some f) = .ok q ∧ q.hyper = [("metric", .atom (.str "dtw"))]) := by
  refine ⟨⟨_, _, rfl, rfl, rfl⟩, ⟨_, _, rfl, rfl, rfl⟩, ⟨_, _, rfl, rfl, rfl⟩⟩

/-- `to_hdf5` never touches an existing file. -/
theorem C27_hdf5_no_overwrite (f : H5File φ) (isFitted : Option Bool) (p : Pkg φ) :
    (toHdf5 (some f) isFitted p).1 = some f ∧
      ((toHdf5 (some f) isFitted p).2 = .error .fileExists ∨ (toHdf5 (some f) isFitted p).2 = .error .notFitted) := by
  unfold toHdf5 checkFitted
  split_ifs <;> simp

/-- A save that raises because of an unsupported value leaves a file behind, so that saving again to the
same path raises `FileExistsError` whatever is saved; a `None` or a list among the fitted attributes is such
a value. -/
theorem C27_hdf5_failed_save (p : Pkg φ) (k : String) (v : PyVal φ) (hk : (k, v) ∈ p.model)
    (hv : v = .none ∨ ∃ l, v = .list l) :
    ∃ e, (toHdf5 none (some true) p).2 = .error e ∧
      ∀ q : Pkg φ, (toHdf5 (toHdf5 none (some true) p).1 (some true) q).2 = .error .fileExists := by
  have hmod : ∃ e, toH5D p.model = .error e := by
    revert hk
    generalize p.model = d
    intro hk
    induction d with
    | nil => simp at hk
    | cons kv d ih =>
      cases hh : toH5 kv.2 with
      | error e => exact ⟨e, by simp [toH5D, hh, bind, Except.bind]⟩
      | ok t =>
        rcases List.mem_cons.1 hk with rfl | hk
        · rcases hv with rfl | ⟨l, rfl⟩ <;> simp [toH5] at hh
        · obtain ⟨e, he⟩ := ih hk
          exact ⟨e, by simp [toH5D, hh, he, bind, Except.bind]⟩
  obtain ⟨e, he⟩ := hmod
  have hall : ∃ e', toH5D [("hyper_params", PyVal.dict (p.hyper.map fun kv => (kv.1, noneToStr kv.2))),
      ("model_params", PyVal.dict p.model)] = .error e' := by
    cases hh : toH5 (PyVal.dict (p.hyper.map fun kv => (kv.1, noneToStr kv.2))) with
    | error e' => exact ⟨e', by simp [toH5D, hh, bind, Except.bind]⟩
    | ok t =>
      have hm : toH5 (PyVal.dict p.model) = .error e := by simp [toH5, he, bind, Except.bind]
      exact ⟨e, by simp only [toH5D, hh, hm, bind, Except.bind]⟩
  obtain ⟨e', he'⟩ := hall
  refine ⟨e', by simp [toHdf5, checkFitted, he'], ?_⟩
  intro q
  simp [toHdf5, checkFitted, he']

/-- An array or bytes somewhere inside a value: what `json.dump` cannot write. -/
inductive Unserialisable : PyVal φ → Prop
  | arr (a : Nd φ) : Unserialisable (.arr a)
  | bytes (s : String) : Unserialisable (.bytes s)
  | list {l : List (PyVal φ)} {v : PyVal φ} : v ∈ l → Unserialisable v → Unserialisable (.list l)
  | dict {d : PyDict φ} {kv : String × PyVal φ} : kv ∈ d → Unserialisable kv.2 → Unserialisable (.dict d)

theorem jsonOkL_iff (l : List (PyVal φ)) : jsonOkL l = true ↔ ∀ v ∈ l, jsonOk v = true := by
  induction l with
  | nil => simp [jsonOkL]
  | cons v l ih => simp [jsonOkL, ih]

theorem Unserialisable.not_ok {v : PyVal φ} (h : Unserialisable v) : jsonOk v = false := by
  induction h with
  | arr a => rfl
  | bytes s => rfl
  | @list l v hv _ ih =>
    rw [jsonOk, Bool.eq_false_iff, Ne, jsonOkL_iff]
    intro hall
    rw [hall v hv] at ih
    cases ih
  | @dict d kv hv _ ih =>
    rw [jsonOk, Bool.eq_false_iff, Ne, jsonOkD_iff]
    intro hall
    rw [hall kv hv] at ih
    cases ih

theorem elemToList_mixed (l : List (PyVal φ)) (v : PyVal φ) (hv : v ∈ l) (hn : ∀ a, v ≠ .arr a) :
    l.mapM elemToList = .error .attributeError := by
  induction l with
  | nil => cases hv
  | cons w l ih =>
    rw [List.mapM_cons]
    rcases List.mem_cons.1 hv with rfl | hv
    · cases v with
      | arr a => exact absurd rfl (hn a)
      | none | atom | bytes | list | dict => rfl
    · rw [ih hv]
      cases w <;> rfl

/-- **C27**, what JSON refuses. A list that starts with an array and contains anything else raises `AttributeError`
(`_listify` looks at the first element only), an empty list `IndexError`; a list that does not start with an array, or
a dictionary, with an array or bytes anywhere inside raises `TypeError`. So a package with such an attribute is not
written in a changed form. -/
theorem C27_json_refused (k : String) :
    (∀ (a : Nd φ) (l : List (PyVal φ)) (v : PyVal φ), v ∈ l → (∀ b, v ≠ .arr b) →
      toJson (some true) ⟨[], [(k, .list (.arr a :: l))]⟩ = .error .attributeError) ∧
    toJson (some true) (⟨[], [(k, .list [])]⟩ : Pkg φ) = .error .indexError ∧
    (∀ (w : PyVal φ) (l : List (PyVal φ)) (v : PyVal φ), (∀ b, w ≠ .arr b) → v ∈ w :: l → Unserialisable v →
      toJson (some true) ⟨[], [(k, .list (w :: l))]⟩ = .error .typeError) ∧
    (∀ (d : PyDict φ) (kv : String × PyVal φ), kv ∈ d → Unserialisable kv.2 →
      toJson (some true) ⟨[], [(k, .dict d)]⟩ = .error .typeError) := by
  refine ⟨fun a l v hv hn => ?_, rfl, fun w l v hw hv hu => ?_, fun d kv hv hu => ?_⟩
  · have h1 : listify (.list (.arr a :: l)) = (.error .attributeError : Except PyErr (PyVal φ)) := by
      rw [listify, elemToList_mixed _ v (List.mem_cons_of_mem _ hv) hn]
      rfl
    have h2 : dictMapM listify [(k, .list (.arr a :: l))] = (.error .attributeError : Except PyErr (PyDict φ)) := by
      rw [dictMapM, List.mapM_cons, h1]
      rfl
    rw [toJson]
    simp only [h2]
    rfl
  · have h1 : listify (.list (w :: l)) = (.ok (.list (w :: l)) : Except PyErr (PyVal φ)) := by
      cases w with
      | arr a => exact absurd rfl (hw a)
      | none | atom | bytes | list | dict => rfl
    have h2 : dictMapM listify [(k, .list (w :: l))] = (.ok [(k, .list (w :: l))] : Except PyErr (PyDict φ)) := by
      rw [dictMapM, List.mapM_cons, h1]
      rfl
    have h3 : jsonOkD [(k, .list (w :: l))] = false := by
      rw [Bool.eq_false_iff, Ne, jsonOkD_iff]
      intro hall
      have := (Unserialisable.list hv hu).not_ok
      rw [hall _ (List.mem_singleton.2 rfl)] at this
      cases this
    rw [toJson]
    simp only [h2]
    show (if (jsonOkD ([] : PyDict φ) && jsonOkD [(k, .list (w :: l))]) = true then _ else _) = _
    rw [h3, Bool.and_false]
    rfl
  · have h2 : dictMapM listify [(k, .dict d)] = (.ok [(k, .dict d)] : Except PyErr (PyDict φ)) := rfl
    have h3 : jsonOkD [(k, .dict d)] = false := by
      rw [Bool.eq_false_iff, Ne, jsonOkD_iff]
      intro hall
      have := (Unserialisable.dict hv hu).not_ok
      rw [hall _ (List.mem_singleton.2 rfl)] at this
      cases this
    rw [toJson]
    simp only [h2]
    show (if (jsonOkD ([] : PyDict φ) && jsonOkD [(k, .dict d)]) = true then _ else _) = _
    rw [h3, Bool.and_false]
    rfl

/-- **C27**, HDF5 and empty packages: a fitted estimator without hyper-parameters (or without fitted attributes) is
written without complaint, but the file cannot be read back: `from_hdf5` raises `KeyError`, as no group was written
for an empty dictionary. -/
theorem C27_hdf5_empty (p : Pkg φ) (he : p.hyper = [] ∨ p.model = []) (hh : ∀ kv ∈ p.hyper, H5Top (noneToStr kv.2))
    (hm : ∀ kv ∈ p.model, H5Top kv.2) :
    (toHdf5 none (some true) p).2 = .ok () ∧ fromHdf5 (toHdf5 none (some true) p).1 = .error .keyError := by
  obtain ⟨lm, h1, h2, h3⟩ := toH5D_top p.model hm
  obtain ⟨lh, h4, h5, h6⟩ := toH5D_top (p.hyper.map fun kv => (kv.1, noneToStr kv.2)) (by
    intro kv hkv
    obtain ⟨q, hq, rfl⟩ := List.mem_map.1 hkv
    exact hh q hq)
  have hw : toHdf5 none (some true) p = (some (.complete
      ((if lh.isEmpty then [] else [("hyper_params", .group lh)]) ++
        (if lm.isEmpty then [] else [("model_params", .group lm)]))), .ok ()) := by
    cases lh <;> cases lm <;>
      simp [toHdf5, checkFitted, toH5D, toH5, h1, h4, bind, Except.bind, pure, Except.pure]
  rw [hw]
  refine ⟨rfl, ?_⟩
  have he' : lh = [] ∨ lm = [] := by
    rcases he with he | he
    · left
      rw [he] at h4
      cases h4
      rfl
    · right
      rw [he] at h1
      cases h1
      rfl
  rcases he' with rfl | rfl
  · cases lm <;> simp [fromHdf5, fromH5D, fromH5, subDict, List.lookup, bind, Except.bind, throw, throwThe, MonadExceptOf.throw]
  · cases lh <;> simp [fromHdf5, fromH5D, fromH5, subDict, List.lookup, bind, Except.bind, throw, throwThe, MonadExceptOf.throw]

/-- A list of an array and a number, a dictionary with bytes, and an estimator without hyper-parameters. -/
example : toJson (some true) (⟨[], [("shapelets_", .list [.arr ⟨[1], [.int 1]⟩, .atom (.int 2)])]⟩ : Pkg ℚ) =
      .error .attributeError ∧
    toJson (some true) (⟨[], [("labels_", .dict [("a", .list [.atom (.int 1), .bytes "b"])])]⟩ : Pkg ℚ) =
      .error .typeError ∧
    fromHdf5 (toHdf5 none (some true) (⟨[], [("_d", .atom (.int 1))]⟩ : Pkg ℚ)).1 = .error .keyError :=
  ⟨(C27_json_refused _).1 _ _ (.atom (.int 2)) (by simp) (by simp),
    (C27_json_refused _).2.2.2 _ ("a", .list [.atom (.int 1), .bytes "b"]) (by simp)
      (.list (v := .bytes "b") (by simp) (.bytes "b")),
    (C27_hdf5_empty _ (Or.inl rfl) (by simp) (by
      intro kv hkv
      simp only [List.mem_singleton] at hkv
      subst hkv
      exact Or.inl (.atom _ (by simp)))).2⟩


/-- An estimator that does not override `_is_fitted` (VARIMA, AutoVARIMA, KNeighborsTimeSeriesRegressor)
can never be saved, fitted or not. -/
theorem C27_placeholder_is_fitted (p : Pkg φ) (fs : Option (H5File φ)) :
    toJson none p = .error .notFitted ∧ toPickle none p = .error .notFitted ∧
      toHdf5 fs none p = (fs, .error .notFitted) := ⟨rfl, rfl, rfl⟩

/-- The fitted attributes saved are exactly the non-callable, non-property ones whose name ends with an
underscore and does not start with two. -/
theorem C27_attributes (attrs : List (Attr φ)) (name : List Char) (v : PyVal φ) :
    (name, v) ∈ getModelParams attrs ↔
      ∃ a ∈ attrs, a.name = name ∧ a.val = v ∧ a.isProperty = false ∧ a.callable = false ∧
        (∃ s, name = s ++ ['_']) ∧ ¬ ∃ s, name = ['_', '_'] ++ s := by
  unfold getModelParams
  rw [List.mem_filterMap]
  constructor
  · rintro ⟨a, ha, h⟩
    split_ifs at h with h1 h2
    · simp only [Option.some.injEq, Prod.mk.injEq] at h
      obtain ⟨rfl, rfl⟩ := h
      obtain ⟨h3, h4, h5⟩ := h2
      rw [List.isPrefixOf_iff_prefix] at h3
      rw [List.isSuffixOf_iff_suffix] at h4
      obtain ⟨s, hs⟩ := h4
      refine ⟨a, ha, rfl, rfl, by simpa using h1, by simpa using h5, ⟨s, hs.symm⟩, ?_⟩
      rintro ⟨s', hs'⟩
      exact h3 ⟨s', hs'.symm⟩
  · rintro ⟨a, ha, rfl, rfl, h1, h2, ⟨s, hs⟩, h3⟩
    refine ⟨a, ha, ?_⟩
    rw [if_neg (by simp [h1]), if_pos]
    refine ⟨?_, ?_, by simp [h2]⟩
    · rw [List.isPrefixOf_iff_prefix]
      rintro ⟨s', hs'⟩
      exact h3 ⟨s', hs'.symm⟩
    · rw [List.isSuffixOf_iff_suffix]
      exact ⟨s, hs.symm⟩

/-- A fitted estimator with a `None` and a string hyper-parameter, a 2 × 3 array and a list of arrays of
shapes 2 and 3. -/
def examplePkg : Pkg ℚ :=
  ⟨[("metric", .atom (.str "dtw")), ("metric_params", .none), ("n_clusters", .atom (.int 2))],
   [("centers_", .arr ⟨[2, 3], [.fl 1, .fl 2, .fl 3, .fl 4, .fl 5, .fl (1/2)]⟩),
    ("ragged_", .list [.arr ⟨[2], [.fl 1, .fl 2]⟩, .arr ⟨[3], [.fl 3, .fl 4, .fl 5]⟩])]⟩

example : ∃ f, toJson (some true) examplePkg = .ok f ∧ fromJson id f = .ok examplePkg := by
  refine C27_json_partial id (fun _ _ => rfl) _ ?_ ?_
  · intro kv h
    simp only [examplePkg, List.mem_cons, List.not_mem_nil, or_false] at h
    rcases h with rfl | rfl | rfl
    · exact .atom _
    · exact .none
    · exact .atom _
  · intro kv h
    have hk : ∀ l : List ℚ, ∀ c ∈ l.map Cell.fl, ∀ c' ∈ l.map Cell.fl, c.kind = c'.kind := by
      intro l c hc c' hc'
      obtain ⟨x, -, rfl⟩ := List.mem_map.1 hc
      obtain ⟨y, -, rfl⟩ := List.mem_map.1 hc'
      rfl
    simp only [examplePkg, List.mem_cons, List.not_mem_nil, or_false] at h
    rcases h with rfl | rfl
    · exact .arr _ ⟨rfl, hk [1, 2, 3, 4, 5, 1/2]⟩ (by decide) (by decide)
    · refine .arrs [⟨[2], [.fl 1, .fl 2]⟩, ⟨[3], [.fl 3, .fl 4, .fl 5]⟩] ?_ _ _ (List.mem_cons_self ..) (List.mem_cons_of_mem _ (List.mem_singleton.2 rfl)) (by decide)
      intro a ha
      simp only [List.mem_cons, List.not_mem_nil, or_false] at ha
      rcases ha with rfl | rfl
      · exact ⟨⟨rfl, hk [1, 2]⟩, by decide⟩
      · exact ⟨⟨rfl, hk [3, 4, 5]⟩, by decide⟩

example : ∃ f, toHdf5 none (some true) (⟨[("metric", .atom (.str "dtw")), ("metric_params", .none)],
    [("centers_", .arr ⟨[2], [.fl 1, .fl 2]⟩), ("sizes_", .dict [("3", .atom (.int 2))])]⟩ : Pkg ℚ) = (some f, .ok ()) ∧
    fromHdf5 (some f) = .ok ⟨[("metric", .atom (.str "dtw")), ("metric_params", .none)],
    [("centers_", .arr ⟨[2], [.fl 1, .fl 2]⟩), ("sizes_", .dict [("3", .atom (.int 2))])]⟩ := by
  refine C27_hdf5_partial _ (by simp) (by simp) ?_ ?_
  · intro kv h
    simp only [List.mem_cons, List.not_mem_nil, or_false] at h
    rcases h with rfl | rfl
    · exact .inr ⟨.inr ⟨_, rfl⟩, by simp⟩
    · exact .inl rfl
  · intro kv h
    simp only [List.mem_cons, List.not_mem_nil, or_false] at h
    rcases h with rfl | rfl
    · exact .inl (.arr _)
    · refine .inl (.dict _ (by simp) ?_)
      intro kv h
      simp only [List.mem_cons, List.not_mem_nil, or_false] at h
      subst h
      exact .atom _ (by simp)

end Verif
