import Verif.Proofs.Memory
/-!
# C106: the caller's arrays and the library's are separate

No call changes the arrays it is given, results are new arrays, and fitted estimators do not depend on what happens to the
caller's arrays afterwards. Proved for the functions that write in place; false for tensors and NumPy arrays turned into
series by the PyTorch backend, for `softdtw_barycenter` without iterations, and for `KernelKMeans`.
-/
set_option linter.unusedSectionVars false

namespace Verif
open Spec

section
variable {K : Type}

/-! ### Formatting -/

/-- `to_time_series_dataset` makes a new array with the formatted content, and changes none of the caller's arrays. -/
theorem C106_dataset {h h' : Heap K} {x : DSrc K} {X : DArr} (e : toDatasetM h x = .ok (X, h')) :
    Untouched h h' ∧ h.next ≤ X.buf ∧ toDataset (.series (x.content h)) = .ok (h'.ds X) := by
  obtain ⟨u, b, -, v⟩ := toDatasetM_spec e
  exact ⟨u, b.ge, v⟩

theorem SSrc.copy_spec (h : Heap K) (x : SSrc K) (hx : (x.content h).WF) :
    Untouched h (x.copy h).2 ∧ h.next ≤ (x.copy h).1.buf ∧ (x.copy h).2.ts (x.copy h).1 = (x.content h).rows :=
  ⟨Heap.newTs_untouched .., le_refl _, Heap.newTs_ts h _ _ hx⟩

theorem Heap.ts_take (h : Heap K) (s : SArr) (k : ℕ) : h.ts (s.take k) = (h.ts s).take k := by
  simp only [Heap.ts, SArr.take]
  rw [← List.map_take, List.take_range]

theorem trimmed (h : Heap K) (s : SArr) (removeNans : Bool) :
    h.ts (if removeNans then s.take (tsSize (h.ts s)) else s) =
      if removeNans then (h.ts s).take (tsSize (h.ts s)) else h.ts s := by
  split
  · exact Heap.ts_take ..
  · rfl

/-- With the NumPy backend, `to_time_series` makes a new array: the content of the given one, cut if asked. -/
theorem C106_series_numpy (dt : DtArg) (removeNans : Bool) (h : Heap K) (x : SSrc K) (hx : (x.content h).WF) :
    let r := toTimeSeriesM .numpy dt removeNans h x
    Untouched h r.2 ∧ h.next ≤ r.1.buf ∧
      r.2.ts r.1 = if removeNans then (x.content h).rows.take (tsSize (x.content h).rows) else (x.content h).rows := by
  obtain ⟨u, b, v⟩ := SSrc.copy_spec h x hx
  have e : beArray .numpy dt h x = x.copy h := by cases x <;> rfl
  simp only [toTimeSeriesM, e]
  refine ⟨u, ?_, ?_⟩
  · split <;> exact b
  · rw [trimmed, v]

/-- With the PyTorch backend the content is the same and nothing is changed, whatever is given. -/
theorem C106_series_torch (dt : DtArg) (removeNans : Bool) (h : Heap K) (x : SSrc K) (hx : (x.content h).WF) :
    let r := toTimeSeriesM .torch dt removeNans h x
    Untouched h r.2 ∧
      r.2.ts r.1 = if removeNans then (x.content h).rows.take (tsSize (x.content h).rows) else (x.content h).rows := by
  obtain ⟨u, b, v⟩ := SSrc.copy_spec h x hx
  have e : Untouched h (beArray .torch dt h x).2 ∧ (beArray .torch dt h x).2.ts (beArray .torch dt h x).1 = (x.content h).rows := by
    rcases x with ⟨be, s, f⟩ | t
    · cases be <;> cases dt <;> cases f <;>
        first | exact ⟨u, v⟩ | exact ⟨Untouched.refl h, rfl⟩
    · exact ⟨u, v⟩
  refine ⟨e.1, ?_⟩
  simp only [toTimeSeriesM]
  rw [trimmed, e.2]

/-- It is a new array when a tensor is given together with its own data type, or is not made of 64-bit floats. -/
theorem C106_series_torch_new (dt : DtArg) (removeNans : Bool) (h : Heap K) (s : SArr) (f64 : Bool)
    (hd : dt ≠ .pyFloat ∨ f64 = false) :
    h.next ≤ (toTimeSeriesM .torch dt removeNans h (.arr .torch s f64)).1.buf := by
  have e : beArray .torch dt h (.arr .torch s f64) = SSrc.copy h (.arr .torch s f64) := by
    cases dt <;> cases f64 <;> simp_all [beArray]
  simp only [toTimeSeriesM, e]
  split <;> exact le_refl _

/-- The promise of the docs of `to_time_series` — "always guaranteed to be a new time series and never just a view into the
old one" — is broken for every tensor of 64-bit floats and, with `be="pytorch"`, for every NumPy array of 64-bit floats:
the result is a view, so that writing to it writes to the caller's array. -/
theorem C106_false_series (be : Be) (removeNans : Bool) (h : Heap K) (s : SArr) (v : Option K)
    (hs : 0 < tsSize (h.ts s)) (hd : 0 < s.d) :
    let r := toTimeSeriesM .torch .pyFloat removeNans h (.arr be s true)
    r.1.buf = s.buf ∧ (((r.2.assign r.1 (fun t f => t = 0 && f = 0) fun _ _ => v).ts s).getD 0 []).getD 0 none = v := by
  have hsz : 0 < s.sz := by have := tsSize_le (h.ts s); rw [Heap.ts_length] at this; omega
  have e : beArray .torch .pyFloat h (.arr be s true) = (s, h) := by cases be <;> rfl
  simp only [toTimeSeriesM, e]
  refine ⟨by split <;> rfl, ?_⟩
  rw [Heap.ts_getD _ _ hsz hd]
  simp only [Heap.assign]
  rw [if_pos]
  split
  · exact ⟨rfl, rfl, lt_min hs hsz, hd, rfl⟩
  · exact ⟨rfl, rfl, hsz, hd, rfl⟩

/-- A tensor of one sample, handed to `to_time_series`; the result is set to 5. -/
example : let h : Heap ℚ := ⟨1, fun _ _ _ _ => some 2⟩
    let r := toTimeSeriesM .torch .pyFloat false h (.arr .torch ⟨0, 0, 1, 1⟩ true)
    h.ts ⟨0, 0, 1, 1⟩ = [[some 2]] ∧ (r.2.assign r.1 (fun _ _ => true) fun _ _ => some 5).ts ⟨0, 0, 1, 1⟩ = [[some 5]] := by
  decide +kernel

/-- The same with the NumPy backend. -/
example : let h : Heap ℚ := ⟨1, fun _ _ _ _ => some 2⟩
    let r := toTimeSeriesM .numpy .pyFloat false h (.arr .numpy ⟨0, 0, 1, 1⟩ true)
    (r.2.assign r.1 (fun _ _ => true) fun _ _ => some 5).ts ⟨0, 0, 1, 1⟩ = [[some 2]] := by
  decide +kernel

end

/-! ### Preprocessing -/

section
variable {K : Type} [Field K] [LinearOrder K] [IsStrictOrderedRing K]

/-- `TimeSeriesImputer.transform` changes none of the caller's arrays and returns a new one, with a user-defined method
that writes to nothing but the array it is given. -/
theorem C106_impute {imp : Imputer K} (hi : Confined imp) {known keep : Bool} {fitD : ℕ} {h h' : Heap K} {x : DSrc K}
    {Y : DArr} (e : imputeM imp known keep fitD h x = .ok (Y, h')) : Untouched h h' ∧ h.next ≤ Y.buf :=
  ⟨(imputeM_untouched hi e).1, (imputeM_untouched hi e).2.le⟩

/-- The named methods do, although some of them write into the array they are given. -/
theorem C106_impute_named {m : ImpMethod K} {known keep : Bool} {fitD : ℕ} {h h' : Heap K} {x : DSrc K}
    {Y : DArr} (e : imputeM (builtinImputer m) known keep fitD h x = .ok (Y, h')) : Untouched h h' ∧ h.next ≤ Y.buf :=
  C106_impute (builtin_confined m) e

/-- Writing in place, feature after feature and series after series, does not spoil what is read later: the result is that
of imputing each feature of each series from the data as given. -/
theorem C106_impute_value (m : ImpMethod K) (keep : Bool) (xF : DsInput K) (F : Arr3 K) (hF : toDataset xF = .ok F) (h : Heap K)
    (x : DSrc K) : (imputeM (builtinImputer m) (!(m matches .unknown)) keep F.d h x).map (fun r => r.2.ds r.1) =
      impute m keep xF (.series (x.content h)) :=
  imputeM_value m keep xF F hF h x

/-- Two features, a hole in each. -/
example : let h : Heap ℚ := ⟨1, fun _ _ t f => if t = f then none else some (t + f)⟩
    ((imputeM (builtinImputer .ffill) true false 2 h (.arr .numpy ⟨0, 1, 3, 2⟩)).map fun r =>
      ((r.2.ds r.1).data, (r.2.ds ⟨0, 1, 3, 2⟩).data)).toOption =
    some ([[[none, some 1], [some 1, some 1], [some 2, some 3]]],
      [[[none, some 1], [some 1, none], [some 2, some 3]]]) := by
  decide +kernel

/-- `TimeSeriesFeatureSynchronizer.transform` changes none of the caller's arrays and returns a new one. -/
theorem C106_synchronize {ref fitD : ℕ} {times : Option (Arr3 K)} {h h' : Heap K} {x : DSrc K} {Y : DArr}
    (e : syncM ref fitD times h x = .ok (Y, h')) : Untouched h h' ∧ h.next ≤ Y.buf :=
  syncM_untouched e

/-- Writing in place does not spoil what is read later. -/
theorem C106_synchronize_value (ref : ℕ) (xF : DsInput K) (F : Arr3 K) (hF : toDataset xF = .ok F) (times : Option (Arr3 K))
    (h : Heap K) (x : DSrc K) : (syncM ref F.d times h x).map (fun r => r.2.ds r.1) =
      synchronize ref xF (.series (x.content h)) times :=
  syncM_value ref xF F hF times h x

/-- The second feature has two samples for the three of the first. -/
example : let h : Heap ℚ := ⟨1, fun _ _ t f => if t = 2 ∧ f = 1 then none else some (t : ℚ)⟩
    ((syncM 0 2 none h (.arr .numpy ⟨0, 1, 3, 2⟩)).map fun r => ((r.2.ds r.1).data, (r.2.ds ⟨0, 1, 3, 2⟩).data)).toOption =
    some ([[[some 0, some 0], [some 1, some (1 / 2)], [some 2, some 1]]],
      [[[some 0, some 0], [some 1, some 1], [some 2, none]]]) := by
  decide +kernel

end

/-! ### Forecasting -/

section
variable {K : Type}

theorem rollRows_spec (X : DArr) (sizes : List ℕ) (h : Heap K) :
    OnlyWrites X.buf h (rollRows X sizes h) ∧ (rollRows X sizes h).next = h.next ∧
      ∀ i t f, (rollRows X sizes h).mem X.buf i t f =
        if i < X.n ∧ t < X.sz ∧ f < X.d then h.mem X.buf i ((t + sizes.getD i 0) % X.sz) f else h.mem X.buf i t f := by
  have key : ∀ n, OnlyWrites X.buf h ((List.range n).foldl (fun h i =>
      h.assign (X.row i) (fun _ _ => true) fun t f => h.mem X.buf i ((t + sizes.getD i 0) % X.sz) f) h) ∧
      ((List.range n).foldl (fun h i =>
        h.assign (X.row i) (fun _ _ => true) fun t f => h.mem X.buf i ((t + sizes.getD i 0) % X.sz) f) h).next = h.next ∧
      ∀ i t f, ((List.range n).foldl (fun h i =>
        h.assign (X.row i) (fun _ _ => true) fun t f => h.mem X.buf i ((t + sizes.getD i 0) % X.sz) f) h).mem X.buf i t f =
        if i < n ∧ t < X.sz ∧ f < X.d then h.mem X.buf i ((t + sizes.getD i 0) % X.sz) f else h.mem X.buf i t f := by
    intro n
    induction n with
    | zero => exact ⟨⟨le_refl _, fun _ _ _ => rfl⟩, rfl, fun i t f => by simp⟩
    | succ n ih =>
      rw [List.range_succ, List.foldl_append, List.foldl_cons, List.foldl_nil]
      generalize (List.range n).foldl _ h = k at ih ⊢
      refine ⟨ih.1.trans (Heap.assign_only _ (X.row n) _ _), ih.2.1, fun i t f => ?_⟩
      simp only [Heap.assign, DArr.row, true_and, and_true]
      by_cases hi : i = n
      · subst hi
        by_cases hc : t < X.sz ∧ f < X.d
        · rw [if_pos ⟨rfl, hc⟩, if_pos ⟨by omega, hc⟩, ih.2.2, if_neg (by omega)]
        · rw [if_neg (by tauto), if_neg (by tauto), ih.2.2, if_neg (by tauto)]
      · rw [if_neg (by tauto), ih.2.2]
        by_cases hc : i < n ∧ t < X.sz ∧ f < X.d
        · rw [if_pos hc, if_pos ⟨by omega, hc.2⟩]
        · rw [if_neg hc, if_neg (fun h => hc ⟨by omega, h.2⟩)]
  exact key X.n

/-- What `_get_last_timestamps` leaves in the array: the samples of each series moved to its end, after what followed them. -/
theorem C106_rolled (X : DArr) (sizes : List ℕ) (h : Heap K) {i : ℕ} (hi : i < X.n) (hs : sizes.getD i 0 ≤ X.sz) :
    (rollRows X sizes h).ts (X.row i) = (h.ts (X.row i)).drop (sizes.getD i 0) ++ (h.ts (X.row i)).take (sizes.getD i 0) := by
  obtain ⟨-, -, hm⟩ := rollRows_spec X sizes h
  apply list_ext_getD _ _ [] (by simp [Heap.ts_length]; rw [show (X.row i).sz = X.sz from rfl]; omega)
  intro t ht
  rw [Heap.ts_length] at ht
  have ht' : t < X.sz := ht
  have row : ∀ (k : Heap K) (t : ℕ), t < X.sz → (k.ts (X.row i)).getD t [] =
      (List.range X.d).map fun f => k.mem X.buf i t f := by
    intro k t ht
    simp [Heap.ts, DArr.row, List.getD_eq_getElem?_getD, ht]
  have hl : ((h.ts (X.row i)).drop (sizes.getD i 0)).length = X.sz - sizes.getD i 0 := by
    rw [List.length_drop, Heap.ts_length]; rfl
  have roll : (rollRows X sizes h).ts (X.row i) = (List.range X.sz).map fun t => (List.range X.d).map fun f =>
      h.mem X.buf i ((t + sizes.getD i 0) % X.sz) f := by
    unfold Heap.ts
    apply List.map_congr_left
    intro t ht
    apply List.map_congr_left
    intro f hf
    exact (hm i t f).trans (if_pos ⟨hi, List.mem_range.1 ht, List.mem_range.1 hf⟩)
  rw [roll]
  rw [show ((List.range X.sz).map fun t => (List.range X.d).map fun f => h.mem X.buf i ((t + sizes.getD i 0) % X.sz) f).getD t [] =
    (List.range X.d).map fun f => h.mem X.buf i ((t + sizes.getD i 0) % X.sz) f by
      simp [List.getD_eq_getElem?_getD, ht']]
  by_cases hc : t < X.sz - sizes.getD i 0
  · rw [List.getD_append _ _ _ _ (by omega), Nat.mod_eq_of_lt (by omega), ← row h _ (by omega)]
    simp only [List.getD_eq_getElem?_getD, List.getElem?_drop]
    rw [Nat.add_comm]
  · rw [List.getD_append_right _ _ _ _ (by omega), hl,
      show (t + sizes.getD i 0) % X.sz = t - (X.sz - sizes.getD i 0) by
        rw [Nat.mod_eq_sub_mod (by omega), Nat.mod_eq_of_lt (by omega)]; omega, ← row h _ (by omega)]
    simp only [List.getD_eq_getElem?_getD]
    rw [List.getElem?_take_of_lt (by rw [← List.getD_eq_getElem?_getD]; omega)]

theorem lastTimestampsM_spec (o : VarimaOrders) (X : DArr) (sizes : List ℕ) (h : Heap K) :
    OnlyWrites X.buf h (lastTimestampsM o X sizes h) ∧ (lastTimestampsM o X sizes h).next = h.next := by
  unfold lastTimestampsM
  split
  · exact ⟨(rollRows_spec X sizes h).1, (rollRows_spec X sizes h).2.1⟩
  · exact ⟨⟨le_refl _, fun _ _ _ => rfl⟩, rfl⟩

theorem varimaFitM_spec {β : Type} (est : VarimaOrders → Arr3 K → Except PyErr β) (o : VarimaOrders) (X : DArr)
    (sizes : List ℕ) (h : Heap K) : OnlyWrites X.buf h (varimaFitM est o X sizes h).2 := by
  unfold varimaFitM
  split
  · exact ⟨le_refl _, fun _ _ _ => rfl⟩
  · split
    · exact ⟨le_refl _, fun _ _ _ => rfl⟩
    · exact (lastTimestampsM_spec o X sizes h).1

/-- `VARIMA.fit(X)` and `VARIMA.predict(X)` change none of the caller's arrays, whether they succeed or not. -/
theorem C106_varima {β : Type} (est : VarimaOrders → Arr3 K → Except PyErr β) (predict : Bool) (o : VarimaOrders) (h : Heap K)
    (x : DSrc K) : Untouched h (varimaM est predict o h x).2 := by
  unfold varimaM
  cases hX : toDatasetM h x with
  | error e => exact Untouched.refl h
  | ok q =>
    obtain ⟨X, g⟩ := q
    obtain ⟨u, b, -, -⟩ := toDatasetM_spec hX
    dsimp only
    split
    · split
      · exact u
      · exact u.only_new b.ge (lastTimestampsM_spec ..).1
    · exact u.only_new b.ge (varimaFitM_spec ..)

/-- The candidates of `AutoVARIMA` all see the data as given, although fitting a candidate rearranges the data it works on;
and the data are as before at the end. -/
theorem C106_candidates {β : Type} (est : VarimaOrders → Arr3 K → Except PyErr β) (X : DArr) (sizes : List ℕ)
    (os : List VarimaOrders) (h : Heap K) (hX : X.buf < h.next) :
    Untouched h (candidatesM est X sizes os h).2 ∧
      (candidatesM est X sizes os h).1 = os.map fun o =>
        if sizes.any fun n => n < o.p + o.q + o.d + 1 + o.s then .error .valueError else est o (h.ds X) := by
  induction os generalizing h with
  | nil => exact ⟨Untouched.refl h, rfl⟩
  | cons o os ih =>
    simp only [candidatesM, List.map_cons]
    have u1 := Heap.newDs_untouched h (h.ds X)
    have u2 : Untouched h (varimaFitM est o (h.newDs (h.ds X)).1 sizes (h.newDs (h.ds X)).2).2 :=
      u1.only_new (le_refl _) (varimaFitM_spec est o (h.newDs (h.ds X)).1 sizes _)
    obtain ⟨i1, i2⟩ := ih _ (hX.trans_le u2.1)
    refine ⟨u2.trans i1, ?_⟩
    rw [i2, Heap.ds_congr (u2.2 _ hX)]
    congr 1
    simp only [varimaFitM, Heap.newDs_ds h _ (Heap.ds_wf h X)]
    split
    · rfl
    · cases est o (h.ds X) <;> rfl

/-- If the candidates shared one array, the second would see it rearranged. -/
example : let h : Heap ℚ := ⟨1, fun _ _ t _ => if t = 0 then some 1 else none⟩
    let X : DArr := ⟨0, 1, 2, 1⟩
    let est : VarimaOrders → Arr3 ℚ → Except PyErr (Arr3 ℚ) := fun _ A => .ok A
    ((candidatesM est X [1] [⟨0, 0, 0, 0⟩, ⟨0, 0, 0, 0⟩] h).1.map fun r => r.toOption.map Arr3.data) =
      [some [[[some 1], [none]]], some [[[some 1], [none]]]] ∧
    ((rollRows X [1] h).ds X).data = [[[none], [some 1]]] := by
  decide +kernel

end

/-! ### Barycenters -/

section
variable {K : Type} [Field K] [LinearOrder K] [IsStrictOrderedRing K]

/-- The array holds the barycenter `b`. -/
def HoldsSeries (h : Heap K) (s : SArr) (b : List (List K)) : Prop :=
  b.length = s.sz ∧ (∀ r ∈ b, r.length = s.d) ∧
    ∀ t < s.sz, ∀ f < s.d, h.mem s.buf s.row t f = some ((b.getD t []).getD f 0)

theorem HoldsSeries.nums {h : Heap K} {s : SArr} {b : List (List K)} (H : HoldsSeries h s b) : h.nums s = b := by
  obtain ⟨h1, h2, h3⟩ := H
  apply list_ext_getD _ _ [] (by simp [Heap.nums, h1])
  intro t ht
  have ht' : t < s.sz := by simpa [Heap.nums] using ht
  have hlen : (b.getD t []).length = s.d := by
    rw [List.getD_eq_getElem _ _ (by omega)]; exact h2 _ (List.getElem_mem _)
  have e : (h.nums s).getD t [] = (List.range s.d).map fun f => (h.mem s.buf s.row t f).getD 0 := by
    simp [Heap.nums, List.getD_eq_getElem?_getD, ht']
  rw [e]
  apply list_ext_getD _ _ 0 (by rw [hlen]; simp)
  intro f hf
  have hf' : f < s.d := by simpa using hf
  rw [List.getD_eq_getElem _ _ hf]
  simp [h3 t ht' f hf']

theorem HoldsSeries.ts {h : Heap K} {s : SArr} {b : List (List K)} (H : HoldsSeries h s b) :
    h.ts s = b.map fun r => r.map some := by
  obtain ⟨h1, h2, h3⟩ := H
  apply list_ext_getD _ _ [] (by simp [Heap.ts, h1])
  intro t ht
  have ht' : t < s.sz := by simpa [Heap.ts] using ht
  have hb : t < b.length := by omega
  have hlen : b[t].length = s.d := h2 _ (List.getElem_mem _)
  have e : (h.ts s).getD t [] = (List.range s.d).map fun f => h.mem s.buf s.row t f := by
    simp [Heap.ts, List.getD_eq_getElem?_getD, ht']
  have e2 : (b.map fun r => r.map some).getD t [] = b[t].map some := by
    simp [List.getD_eq_getElem?_getD, hb]
  rw [e, e2]
  apply list_ext_getD _ _ none (by simp [hlen])
  intro f hf
  have hf' : f < s.d := by simpa using hf
  rw [List.getD_eq_getElem _ _ hf]
  have := h3 t ht' f hf'
  rw [List.getD_eq_getElem _ _ hb, List.getD_eq_getElem _ _ (by omega)] at this
  simp [this, List.getD_eq_getElem?_getD, hlen, hf']

theorem HoldsSeries.store (h : Heap K) {s : SArr} {b : List (List K)} (h1 : b.length = s.sz) (h2 : ∀ r ∈ b, r.length = s.d) :
    HoldsSeries (h.store s b) s b :=
  ⟨h1, h2, fun t ht f hf => by simp [Heap.store, Heap.assign, ht, hf]⟩

theorem subgradStep_shape {cfg : DbaCfg K} {xs : List (List (List K))} {ws : List K} {eta : K} {idx : ℕ} {b b' : List (List K)}
    {c : WithTop K} (e : subgradStep cfg xs ws eta idx b = .ok (c, b')) {d : ℕ} (hd : ∀ r ∈ b, r.length = d) :
    b'.length = b.length ∧ ∀ r ∈ b', r.length = d := by
  simp only [subgradStep, subgradUpdate, bind, Except.bind, pure, Except.pure, throw, throwThe, MonadExceptOf.throw] at e
  split at e
  · exact absurd e (by simp)
  · split at e
    · exact absurd e (by simp)
    · rename_i b2 hb2
      split at hb2
      · exact absurd hb2 (by simp)
      · cases hb2
        cases e
        refine ⟨by simp, fun r hr => ?_⟩
        obtain ⟨i, hi, rfl⟩ := List.mem_map.1 hr
        simp only [List.length_map, List.length_range]
        rw [List.getD_eq_getElem _ _ (List.mem_range.1 hi)]
        exact hd _ (List.getElem_mem _)

theorem subgradEpochM_spec (cfg : DbaCfg K) (xs : List (List (List K))) (ws : List K) (delta : K) (s : SArr) :
    ∀ (l : List ℕ) (eta : K) (c : WithTop K) (b : List (List K)) (h : Heap K), HoldsSeries h s b →
      (∀ e, subgradEpoch cfg xs ws delta l (eta, b, c) = .error e → subgradEpochM cfg xs ws delta s l (eta, c) h = .error e) ∧
      (∀ eta' b' c', subgradEpoch cfg xs ws delta l (eta, b, c) = .ok (eta', b', c') →
        ∃ h', subgradEpochM cfg xs ws delta s l (eta, c) h = .ok ((eta', c'), h') ∧ OnlyWrites s.buf h h' ∧
          HoldsSeries h' s b') := by
  intro l
  induction l with
  | nil =>
    intro eta c b h H
    refine ⟨fun e he => by simp [subgradEpoch] at he, fun eta' b' c' he => ?_⟩
    simp only [subgradEpoch, Except.ok.injEq, Prod.mk.injEq] at he
    obtain ⟨rfl, rfl, rfl⟩ := he
    exact ⟨h, rfl, ⟨le_refl _, fun _ _ _ => rfl⟩, H⟩
  | cons idx l ih =>
    intro eta c b h H
    simp only [subgradEpoch, subgradEpochM, H.nums, bind, Except.bind]
    cases hs : subgradStep cfg xs ws eta idx b with
    | error e0 => exact ⟨fun e he => by simpa using he, fun eta' b' c' he => by simp at he⟩
    | ok q =>
      obtain ⟨c1, b1⟩ := q
      obtain ⟨l1, l2⟩ := subgradStep_shape hs H.2.1
      have H1 := HoldsSeries.store h (s := s) (b := b1) (l1.trans H.1) l2
      obtain ⟨i1, i2⟩ := ih (eta - delta) c1 b1 (h.store s b1) H1
      refine ⟨i1, fun eta' b' c' he => ?_⟩
      obtain ⟨h', e1, w1, H2⟩ := i2 eta' b' c' he
      exact ⟨h', e1, (Heap.assign_only h s _ _).trans w1, H2⟩

theorem subgradLoopM_spec (cfg : DbaCfg K) (xs : List (List (List K))) (ws : List K) (delta : K) (perms : ℕ → List ℕ)
    (s : SArr) : ∀ (n it : ℕ) (eta : K) (c prev : WithTop K) (b : List (List K)) (h : Heap K), HoldsSeries h s b →
      (∀ e, subgradLoop cfg xs ws delta perms n it (eta, b, c) prev = .error e →
        subgradLoopM cfg xs ws delta perms s n it (eta, c) prev h = .error e) ∧
      (∀ b', subgradLoop cfg xs ws delta perms n it (eta, b, c) prev = .ok b' →
        ∃ h', subgradLoopM cfg xs ws delta perms s n it (eta, c) prev h = .ok h' ∧ OnlyWrites s.buf h h' ∧
          HoldsSeries h' s b') := by
  intro n
  induction n with
  | zero =>
    intro it eta c prev b h H
    refine ⟨fun e he => by simp [subgradLoop] at he, fun b' he => ?_⟩
    simp only [subgradLoop, Except.ok.injEq] at he
    subst he
    exact ⟨h, rfl, ⟨le_refl _, fun _ _ _ => rfl⟩, H⟩
  | succ n ih =>
    intro it eta c prev b h H
    simp only [subgradLoop, subgradLoopM, bind, Except.bind, pure, Except.pure]
    obtain ⟨e1, e2⟩ := subgradEpochM_spec cfg xs ws (if it = 0 then delta else 0) s (perms it) eta c b h H
    cases hs : subgradEpoch cfg xs ws (if it = 0 then delta else 0) (perms it) (eta, b, c) with
    | error e0 => rw [e1 e0 hs]; exact ⟨fun e he => by simpa using he, fun b' he => by simp at he⟩
    | ok q =>
      obtain ⟨eta', b1, c1⟩ := q
      obtain ⟨h1, q1, w1, H1⟩ := e2 _ _ _ hs
      rw [q1]
      dsimp only
      split
      · refine ⟨fun e he => by simp at he, fun b' he => ?_⟩
        cases he
        exact ⟨h1, rfl, w1, H1⟩
      · split
        · refine ⟨fun e he => by simp at he, fun b' he => ?_⟩
          cases he
          exact ⟨h1, rfl, w1, H1⟩
        · obtain ⟨i1, i2⟩ := ih (it + 1) eta' c1 c1 b1 h1 H1
          refine ⟨i1, fun b' he => ?_⟩
          obtain ⟨h', q2, w2, H2⟩ := i2 b' he
          exact ⟨h', q2, w1.trans w2, H2⟩

theorem HoldsSeries.of_ts {h : Heap K} {s : SArr} {b : List (List K)} (e : h.ts s = b.map fun r => r.map some) :
    HoldsSeries h s b := by
  have hl : b.length = s.sz := by
    have := congrArg List.length e
    rw [Heap.ts_length, List.length_map] at this
    exact this.symm
  have row : ∀ t (ht : t < b.length), (List.range s.d).map (fun f => h.mem s.buf s.row t f) = b[t].map some := by
    intro t ht
    have := congrArg (fun l => l.getD t []) e
    simpa [Heap.ts, List.getD_eq_getElem?_getD, ht, show t < s.sz by omega] using this
  refine ⟨hl, fun r hr => ?_, fun t ht f hf => ?_⟩
  · obtain ⟨t, ht, rfl⟩ := List.getElem_of_mem hr
    have := congrArg List.length (row t ht)
    simpa using this.symm
  · have hw := congrArg List.length (row t (by omega))
    simp only [List.length_map, List.length_range] at hw
    have := congrArg (fun l => l.getD f none) (row t (by omega))
    simp only [List.getD_eq_getElem?_getD, List.getElem?_map, List.getElem?_range hf, Option.map_some, Option.getD_some] at this
    rw [this, List.getElem?_eq_getElem (by omega)]
    rw [List.getD_eq_getElem _ _ (show t < b.length by omega), List.getD_eq_getElem _ _ (by omega)]
    rfl

/-- `dtw_barycenter_averaging_subgradient` updates the barycenter in place, but its own copy of the initial barycenter: the
caller's array stays as it is, the result is a new array, and holds the barycenter the method defines. -/
theorem C106_subgradient (cfg : DbaCfg K) (xs : List (List (List K))) (ws : List K) (step final : K) (perms : ℕ → List ℕ)
    (maxIter : ℕ) (h : Heap K) (init : SSrc K) (hw : (init.content h).WF) (b b' : List (List K))
    (hb : (init.content h).rows.take (tsSize (init.content h).rows) = b.map fun r => r.map some)
    (e : subgradDba cfg xs ws step final perms maxIter b = .ok b') :
    ∃ r h', subgradM cfg xs ws step final perms maxIter h init = .ok (r, h') ∧ Untouched h h' ∧ h.next ≤ r.buf ∧
      h'.ts r = b'.map fun r => r.map some := by
  obtain ⟨u, n1, v⟩ := C106_series_numpy .pyFloat true h init hw
  simp only [if_true] at v
  have H := HoldsSeries.of_ts (v.trans hb)
  obtain ⟨h', q, w, H2⟩ := (subgradLoopM_spec cfg xs ws ((step - final) / (xs.length : K)) perms _ maxIter 0 step ⊤ ⊤ b _ H).2 b' e
  refine ⟨_, h', ?_, u.only_new n1 w, n1, H2.ts⟩
  simp only [subgradM, bind, Except.bind, pure, Except.pure, q]

/-- One step from `0` towards the series `4, 4`: the barycenter moves, the caller's initial barycenter does not. -/
example : let h : Heap ℚ := ⟨1, fun _ _ _ _ => some 0⟩
    ((subgradM ⟨.code 0, none, none, 0, argmin3⟩ [[[4], [4]]] [1] (1 / 4) (1 / 4) (fun _ => [0]) 1 h
      (.arr .numpy ⟨0, 0, 2, 1⟩ true)).map fun r => (r.2.ts r.1, r.2.ts ⟨0, 0, 2, 1⟩)).toOption =
      some ([[some 2], [some 2]], [[some 0], [some 0]]) := by
  decide +kernel

/-- `softdtw_barycenter` returns a new array when it iterates, or makes its own start; it never changes the caller's. -/
theorem C106_softdtw (average : List (List K)) (minimise : List (List K) → List (List K)) (maxIter : ℤ) (h : Heap K)
    (init : Option SArr) : Untouched h (softBarycenterM average minimise maxIter h init).2 ∧
      (0 < maxIter ∨ init = none → h.next ≤ (softBarycenterM average minimise maxIter h init).1.buf) := by
  cases init with
  | none =>
    simp only [softBarycenterM]
    split
    · exact ⟨(Heap.newTs_untouched ..).trans (Heap.newTs_untouched ..), fun _ => Nat.le_succ _⟩
    · exact ⟨Heap.newTs_untouched .., fun _ => le_refl _⟩
  | some s =>
    simp only [softBarycenterM]
    split
    · exact ⟨Heap.newTs_untouched .., fun _ => le_refl _⟩
    · exact ⟨Untouched.refl h, fun hc => by rcases hc with hc | hc <;> simp_all⟩

/-- Without iterations the result is the caller's initial barycenter itself. -/
theorem C106_false_softdtw (average : List (List K)) (minimise : List (List K) → List (List K)) (maxIter : ℤ)
    (hm : maxIter ≤ 0) (h : Heap K) (s : SArr) : softBarycenterM average minimise maxIter h (some s) = (s, h) := by
  simp only [softBarycenterM]
  rw [if_neg (by omega)]

end

/-! ### Fitted estimators -/

section
variable {K : Type}

theorem checkArrayM_untouched (h : Heap K) (x : DSrc K) : Untouched h (checkArrayM h x).2 := by
  cases x with
  | arr be a => exact Untouched.refl h
  | list l => exact Heap.newDs_untouched ..

/-- Nearest neighbours, support vector machines, k-means, KShape and DBSCAN keep copies of the training series: fitting
changes none of the caller's arrays, and whatever the caller writes to their arrays afterwards, the series kept are those
given to `fit`. -/
theorem C106_fitted (k : Keeper) (core : List ℕ) {h h' : Heap K} {x : DSrc K} {A : DArr}
    (e : k.keepM core h x = .ok (A, h')) : Untouched h h' ∧ ∀ h'', LaterWrites h h' h'' → h''.ds A = h'.ds A := by
  have u0 := checkArrayM_untouched h x
  have main : ∀ {B : DArr} {g : Heap K}, toDatasetM (checkArrayM h x).2 (.arr .numpy (checkArrayM h x).1) = .ok (B, g) →
      Untouched h g ∧ ∀ h'', LaterWrites h g h'' → h''.ds B = g.ds B := by
    intro B g hB
    obtain ⟨u, b, l, -⟩ := toDatasetM_spec hB
    refine ⟨u0.trans u, fun h'' hl => Heap.ds_congr (hl _ (by rw [b]; exact u0.1) l)⟩
  cases k with
  | dbscan =>
    simp only [Keeper.keepM] at e
    cases hB : toDatasetM (checkArrayM h x).2 (.arr .numpy (checkArrayM h x).1) with
    | error e' => simp [hB, Except.map] at e
    | ok q =>
      simp only [hB, Except.map, Except.ok.injEq] at e
      cases e
      have u1 := (main hB).1
      exact ⟨u1.trans (Heap.newDs_untouched ..), fun h'' hl => Heap.ds_congr (hl _ u1.1 (Nat.lt_succ_self _))⟩
  | _ => exact main e

/-- What an estimator should keep of the formatted training series `Y`. -/
def keptSeries (k : Keeper) (core : List ℕ) (Y : Arr3 K) : Arr3 K :=
  match k with
  | .dbscan => ⟨Y.sz, Y.d, core.map fun i => Y.data.getD i []⟩
  | _ => Y

/-- The series kept are the formatted training series (for DBSCAN, the core series among them). -/
theorem C106_fitted_content (k : Keeper) (core : List ℕ) {h h' : Heap K} {be : Be} {a A : DArr}
    (e : k.keepM core h (.arr be a) = .ok (A, h')) :
    ∃ Y, toDataset (.series (h.ds a).slots) = .ok Y ∧ ((∀ i ∈ core, i < Y.data.length) →
      h'.ds A = keptSeries k core Y) := by
  cases k with
  | dbscan =>
    simp only [Keeper.keepM, checkArrayM] at e
    cases hB : toDatasetM h (.arr .numpy a) with
    | error e' => simp [hB, Except.map] at e
    | ok q =>
      obtain ⟨B, g⟩ := q
      obtain ⟨u, b, l, v⟩ := toDatasetM_spec hB
      refine ⟨g.ds B, v, fun hc => ?_⟩
      simp only [hB, Except.map, Except.ok.injEq] at e
      have hn : (g.ds B).data.length = B.n := Arr3.build_length ..
      have hrow : (core.map fun i => g.ts (B.row i)) = core.map fun i => (g.ds B).data.getD i [] := by
        apply List.map_congr_left
        intro i hi
        exact (Heap.ds_row g B (by rw [← hn]; exact hc i hi)).symm
      have h1 : A = (g.newDs ⟨B.sz, B.d, core.map fun i => g.ts (B.row i)⟩).1 := (congrArg Prod.fst e).symm
      have h2 : h' = (g.newDs ⟨B.sz, B.d, core.map fun i => g.ts (B.row i)⟩).2 := (congrArg Prod.snd e).symm
      rw [h1, h2, Heap.newDs_ds]
      · rw [hrow]
        rfl
      · intro s hs
        obtain ⟨i, -, rfl⟩ := List.mem_map.1 hs
        refine ⟨Heap.ts_length .., fun r hr => ?_⟩
        obtain ⟨t, -, rfl⟩ := List.mem_map.1 hr
        simp [DArr.row]
  | _ =>
    obtain ⟨u, b, l, v⟩ := toDatasetM_spec e
    exact ⟨_, v, fun _ => rfl⟩

/-- Two series, of which the second is a core series; the caller then overwrites both. -/
example : let h : Heap ℚ := ⟨1, fun _ i t _ => some (10 * i + t)⟩
    let a : DArr := ⟨0, 2, 2, 1⟩
    (((Keeper.dbscan).keepM [1] h (.arr .numpy a)).map fun r =>
      let h'' := (r.2.assign (a.row 0) (fun _ _ => true) fun _ _ => some 7).assign (a.row 1) (fun _ _ => true) fun _ _ => some 7
      ((h''.ds r.1).data, (h''.ds a).data)).toOption =
      some ([[[some 10], [some 11]]], [[[some 7], [some 7]], [[some 7], [some 7]]]) := by
  decide +kernel

variable [Field K] [LinearOrder K] [IsStrictOrderedRing K]

/-- `KernelKMeans` changes none of the caller's arrays, but keeps the training array and the weights it is given. -/
theorem C106_kernel_kmeans_keeps (kern : List (List (Option K)) → List (List (Option K)) → K) (inits : ℕ → List ℕ) (o : KkObj K)
    (h : Heap K) (be : Be) (a : DArr) (w : Option SArr) :
    Untouched h (kkFitM kern inits o h (.arr be a) w).2 ∧ (kkFitM kern inits o h (.arr be a) w).1.1.xfit = a ∧
      ∀ s, w = some s → (kkFitM kern inits o h (.arr be a) w).1.1.sw = s := by
  cases w with
  | none => exact ⟨Heap.newTs_untouched h a.n 1 _, rfl, fun s hs => by simp at hs⟩
  | some s => exact ⟨Untouched.refl h, rfl, fun s' hs => by cases hs; rfl⟩

/-- The predictions of a fitted `KernelKMeans` change when the caller, after `fit`, writes to the array they trained with.
Two series `1` and `-1`, linear kernel, two clusters: the label of the series `1` is 0, and 1 once the caller has negated
their training array. -/
theorem C106_false_kernel_kmeans : ∃ (kern : List (List (Option ℚ)) → List (List (Option ℚ)) → ℚ) (inits : ℕ → List ℕ)
    (o : KkObj ℚ) (h h'' : Heap ℚ) (X Q : DArr),
    (kkFitM kern inits o h (.arr .numpy X) none).1.2 = none ∧
    LaterWrites h (kkFitM kern inits o h (.arr .numpy X) none).2 h'' ∧ h''.mem Q.buf = h.mem Q.buf ∧ Q.buf < h.next ∧
    (kkPredictM kern (kkFitM kern inits o h (.arr .numpy X) none).1.1
      (kkFitM kern inits o h (.arr .numpy X) none).2 Q).toOption = some [0] ∧
    (kkPredictM kern (kkFitM kern inits o h (.arr .numpy X) none).1.1 h'' Q).toOption = some [1] := by
  let kern : List (List (Option ℚ)) → List (List (Option ℚ)) → ℚ := fun x y =>
    (List.zipWith (fun a b => a.getD 0 * b.getD 0) x.flatten y.flatten).sum
  let h : Heap ℚ := ⟨2, fun b i _ _ => if b = 0 ∧ i = 1 then some (-1) else some 1⟩
  let o : KkObj ℚ := ⟨2, false, 10, 0, 1, none, none, none, ⊤, false, false, 0, 0⟩
  let r := kkFitM kern (fun _ => [0, 1]) o h (.arr .numpy ⟨0, 2, 1, 1⟩) none
  refine ⟨kern, fun _ => [0, 1], o, h, ⟨3, fun b i t f => if b = 0 then (h.mem 0 i t f).map (-·) else r.2.mem b i t f⟩,
    ⟨0, 2, 1, 1⟩, ⟨1, 1, 1, 1⟩, by decide +kernel, ?_, rfl, by decide, by decide +kernel, by decide +kernel⟩
  intro b hb _
  have : b ≠ 0 := by have : (2 : ℕ) ≤ b := hb; omega
  simp only [this, if_false]
  rfl

/-- Lists are converted to new arrays, and weights that are not given are made: then later writes do not matter. -/
theorem C106_kernel_kmeans_list (kern : List (List (Option K)) → List (List (Option K)) → K) (inits : ℕ → List ℕ) (o : KkObj K)
    (h h'' : Heap K) (l : List (SSrc K)) (Q Q' : DArr)
    (hl : LaterWrites h (kkFitM kern inits o h (.list l) none).2 h'')
    (hQ : Q'.n = Q.n ∧ ∀ i, h''.ts (Q'.row i) = (kkFitM kern inits o h (.list l) none).2.ts (Q.row i)) :
    kkPredictM kern (kkFitM kern inits o h (.list l) none).1.1 h'' Q' =
      kkPredictM kern (kkFitM kern inits o h (.list l) none).1.1 (kkFitM kern inits o h (.list l) none).2 Q := by
  have hx : h''.mem (kkFitM kern inits o h (.list l) none).1.1.xfit.buf =
      (kkFitM kern inits o h (.list l) none).2.mem (kkFitM kern inits o h (.list l) none).1.1.xfit.buf :=
    hl _ (le_refl _) (by exact Nat.lt_succ_of_lt (Nat.lt_succ_self _))
  have hs : h''.mem (kkFitM kern inits o h (.list l) none).1.1.sw.buf =
      (kkFitM kern inits o h (.list l) none).2.mem (kkFitM kern inits o h (.list l) none).1.1.sw.buf :=
    hl _ (Nat.le_succ _) (by exact Nat.lt_succ_self _)
  generalize (kkFitM kern inits o h (.list l) none).1.1 = m at hx hs ⊢
  generalize (kkFitM kern inits o h (.list l) none).2 = g at hx hs hQ ⊢
  have hk : kkKernel kern h'' Q' m.xfit = kkKernel kern g Q m.xfit := by
    funext x y
    unfold kkKernel
    rw [hQ.2 x, Heap.ts_congr (s := m.xfit.row y) hx]
  unfold kkPredictM
  rw [hk, hs, hQ.1]

end
end Verif
