import Verif.Model.Mlp
import Verif.Spec.Mlp
import Mathlib.Algebra.Order.Ring.Nat
import Mathlib.Tactic.Ring
/-!
C81: perceptrons on time series are perceptrons on flattened series.
-/
set_option linter.unusedSectionVars false
namespace Verif
open Spec
variable {K N Y O : Type}

/-! ### Flattening -/

theorem flatten_length {s : List (List K)} {d : ℕ} (h : ∀ v ∈ s, v.length = d) : s.flatten.length = s.length * d := by
  induction s with
  | nil => simp
  | cons v s ih =>
    rw [List.flatten_cons, List.length_append, ih fun w hw => h w (List.mem_cons_of_mem _ hw), h v List.mem_cons_self, List.length_cons]
    ring

theorem flatten_isRow {s : List (List K)} {d : ℕ} (h : ∀ v ∈ s, v.length = d) : IsRow d s s.flatten := by
  refine ⟨flatten_length h, ?_⟩
  induction s with
  | nil => intro t j ht; simp at ht
  | cons v s ih =>
    intro t j ht hj
    have hv := h v List.mem_cons_self
    have h' : ∀ w ∈ s, w.length = d := fun w hw => h w (List.mem_cons_of_mem _ hw)
    rw [List.flatten_cons]
    cases t with
    | zero => rw [List.getElem?_append_left (by omega)]; simp
    | succ t =>
      rw [List.getElem?_append_right (by rw [hv, Nat.succ_mul]; omega)]
      have e : (t + 1) * d + j - v.length = t * d + j := by rw [hv, Nat.succ_mul]; omega
      rw [e, ih h' t j (by simpa using ht) hj]
      simp

theorem Spec.SeriesSet.head {S : List (List (List K))} {sz d : ℕ} (h : SeriesSet S sz d) :
    (S.headD []).length = sz ∧ ((S.headD []).headD []).length = d ∧ mlpWidth (mlpRows S) = sz * d := by
  obtain ⟨hne, hl, hf, hs, hd⟩ := h
  cases S with
  | nil => exact absurd rfl hne
  | cons s S =>
    have h1 := hl s List.mem_cons_self
    have h2 := hf s List.mem_cons_self
    refine ⟨h1, ?_, ?_⟩
    · cases s with
      | nil => simp at h1; omega
      | cons v s => exact h2 v List.mem_cons_self
    · show s.flatten.length = _
      rw [flatten_length h2, h1]

theorem Spec.SeriesSet.check {S : List (List (List K))} {sz d : ℕ} (h : SeriesSet S sz d) :
    (MlpX.three S).check = none ∧ (MlpX.three S).shape = [S.length, sz, d] := by
  obtain ⟨h1, h2, -⟩ := h.head
  have hs : (MlpX.three S).shape = [S.length, sz, d] := by simp only [MlpX.shape, h1, h2]
  refine ⟨?_, hs⟩
  have hr : (MlpX.three S).regular = true := by
    simp only [MlpX.regular, h1, h2, List.all_eq_true, Bool.and_eq_true, beq_iff_eq]
    exact fun s hs => ⟨h.len s hs, h.feat s hs⟩
  have hn : S.length ≠ 0 := fun e => h.ne (List.length_eq_zero_iff.1 e)
  simp [MlpX.check, hs, hr, hn]

/-- No information is lost: the row of a series determines it, given its sizes, and holds value `j` of time `t` at `t * d + j`. -/
theorem C81_rows {s s' : List (List K)} {d : ℕ} (h : ∀ v ∈ s, v.length = d) (h' : ∀ v ∈ s', v.length = d) (hl : s.length = s'.length) :
    (∀ row, row = s.flatten ↔ IsRow d s row) ∧ (s.flatten = s'.flatten → s = s') := by
  have key : ∀ row, IsRow d s row → row = s.flatten := by
    intro row ⟨r1, r2⟩
    obtain ⟨f1, f2⟩ := flatten_isRow h
    apply List.ext_getElem?
    intro i
    by_cases hi : i < s.length * d
    · have hd : 0 < d := by rcases Nat.eq_zero_or_pos d with e | e; · simp [e] at hi
                            · exact e
      have e : i = i / d * d + i % d := by rw [Nat.mul_comm]; exact (Nat.div_add_mod i d).symm
      have ht : i / d < s.length := (Nat.div_lt_iff_lt_mul hd).2 hi
      rw [e, r2 _ _ ht (Nat.mod_lt _ hd), f2 _ _ ht (Nat.mod_lt _ hd)]
    · rw [List.getElem?_eq_none (by omega), List.getElem?_eq_none (by omega)]
  refine ⟨fun row => ⟨fun e => e ▸ flatten_isRow h, key row⟩, fun e => ?_⟩
  obtain ⟨f1, f2⟩ := flatten_isRow h
  obtain ⟨g1, g2⟩ := flatten_isRow h'
  apply List.ext_getElem hl
  intro t ht ht'
  apply List.ext_getElem?
  intro j
  by_cases hj : j < d
  · rw [← f2 t j ht hj, ← g2 t j ht' hj, e]
  · rw [List.getElem?_eq_none (by rw [h _ (List.getElem_mem ht)]; omega), List.getElem?_eq_none (by rw [h' _ (List.getElem_mem ht')]; omega)]

example : [[1, 2], [3, 4]].flatten = [1, 2, 3, 4] ∧ IsRow 2 [[1, 2], [3, 4]] [1, 2, 3, 4] :=
  ⟨rfl, flatten_isRow (by decide)⟩

/-! ### Training and predicting -/

/-- The estimator after training on series of length `sz` with `d` features. -/
structure MlpObj.Fits (B : MlpBase K N Y O) (o : MlpObj N) (sz d : ℕ) (net : N) : Prop where
  dims : ∃ n, o.dims = some [n, sz, d]
  nfeat : o.nfeat = some d
  nets : o.net = some net
  width : B.width net = sz * d

/-- Training makes a network with as many inputs as there are columns. -/
def MlpBase.Lawful (B : MlpBase K N Y O) : Prop :=
  (∀ incr rows y net e, B.train incr none rows y = (some net, e) → B.width net = mlpWidth rows) ∧
  (∀ incr rows y net net' e, B.train incr (some net) rows y = (some net', e) → B.width net' = B.width net) ∧
  (∀ incr cur rows y net, B.train incr cur rows y = (net, none) → net.isSome)

/-- A perceptron for examples: it remembers the number of columns and the sum of targets, and adds this to the sum of a row. -/
def exMlp (warm : Bool) : MlpBase ℕ (ℕ × ℕ) (List ℕ) ℕ where
  warm := warm
  check _ _ rows y := if rows.length = y.length then none else some .valueError
  train _ cur rows y :=
    match cur with
    | none => (some (mlpWidth rows, y.sum), none)
    | some n => (some (n.1, n.2 + y.sum), none)
  width n := n.1
  eval n row := n.2 + row.sum

theorem exMlp_lawful (warm : Bool) : (exMlp warm).Lawful := by
  refine ⟨?_, ?_, ?_⟩
  · intro incr rows y net e h
    simp only [exMlp, Prod.mk.injEq, Option.some.injEq] at h
    rw [← h.1]; rfl
  · intro incr rows y net net' e h
    simp only [exMlp, Prod.mk.injEq, Option.some.injEq] at h
    rw [← h.1]; rfl
  · intro incr cur rows y net h
    cases cur <;> simp only [exMlp, Prod.mk.injEq] at h <;> rw [← h.1] <;> rfl

theorem exSet : SeriesSet [[[1, 2], [3, 4]], [[5, 6], [7, 8]]] 2 2 := ⟨by decide, by decide, by decide, by decide, by decide⟩
theorem exSet' : SeriesSet [[[1], [2], [3], [4]]] 4 1 := ⟨by decide, by decide, by decide, by decide, by decide⟩
theorem exFits (warm : Bool) : (⟨some [2, 2, 2], some 2, some (4, 7)⟩ : MlpObj (ℕ × ℕ)).Fits (exMlp warm) 2 2 (4, 7) := ⟨⟨2, rfl⟩, rfl, rfl, rfl⟩

/-- Two axes are series of one feature. -/
theorem C81_two_axes (B : MlpBase K N Y O) (o : MlpObj N) (r : List (List K)) (y : Y) (hne : ∀ s ∈ r, s ≠ []) :
    mlpFit B o (.two r) y = mlpFit B o (.three (r.map fun s => s.map fun v => [v])) y ∧
    mlpPartial B o (.two r) y = mlpPartial B o (.three (r.map fun s => s.map fun v => [v])) y ∧
    mlpPredict B o (.two r) = mlpPredict B o (.three (r.map fun s => s.map fun v => [v])) := by
  have hc : (MlpX.two r).check = (MlpX.three (r.map fun s => s.map fun v => [v])).check := by
    cases r with
    | nil => rfl
    | cons s r =>
      cases s with
      | nil => exact absurd rfl (hne [] List.mem_cons_self)
      | cons v s => simp [MlpX.check, MlpX.shape, MlpX.regular, Function.comp_def]
  have hd : ∀ f, r ≠ [] → checkDims (some (MlpX.two r).shape) (some f) true false =
      checkDims (some (MlpX.three (r.map fun s => s.map fun v => [v])).shape) (some f) true false := by
    intro f hr
    cases r with
    | nil => exact absurd rfl hr
    | cons s r =>
      cases s with
      | nil => exact absurd rfl (hne [] List.mem_cons_self)
      | cons v s => simp [checkDims, MlpX.shape]
  by_cases hr : r = []
  · subst hr
    refine ⟨rfl, rfl, rfl⟩
  · refine ⟨?_, ?_, ?_⟩
    · simp only [mlpFit, hc, MlpX.series]
    · simp only [mlpPartial, hc, MlpX.series, hd _ hr]
    · simp only [mlpPredict, hc, MlpX.series, hd _ hr]

example : mlpFit (exMlp false) .fresh (.two [[1, 2], [3, 4]]) [0, 0] = mlpFit (exMlp false) .fresh (.three [[[1], [2]], [[3], [4]]]) [0, 0] :=
  (C81_two_axes _ _ _ _ (by decide)).1

/-- `fit` trains the perceptron on the flattened series, from nothing unless `warm_start`. -/
theorem C81_fit_partial (B : MlpBase K N Y O) (hB : B.Lawful) (o : MlpObj N) (hw : B.warm = false ∨ o.net = none)
    (S : List (List (List K))) (sz d : ℕ) (h : SeriesSet S sz d) (y : Y) (net : N) (hc : B.check false o.net (mlpRows S) y = none)
    (ht : B.train false none (mlpRows S) y = (some net, none)) :
    ∃ o', mlpFit B o (.three S) y = (o', none) ∧ o'.Fits B sz d net := by
  obtain ⟨c1, c2⟩ := h.check
  refine ⟨⟨some [S.length, sz, d], some d, some net⟩, ?_, ⟨⟨_, rfl⟩, rfl, rfl, ?_⟩⟩
  · simp [mlpFit, c1, MlpX.series, c2, MlpBase.fit, hc, ht]
    rcases hw with e | e <;> simp [e]
  · rw [hB.1 _ _ _ _ _ ht, h.head.2.2]

example : ∃ o', mlpFit (exMlp false) .fresh (.three [[[1, 2], [3, 4]], [[5, 6], [7, 8]]]) [3, 4] = (o', none) ∧
    o'.Fits (exMlp false) 2 2 (4, 7) :=
  C81_fit_partial _ (exMlp_lawful _) _ (.inr rfl) _ 2 2 exSet _ _ rfl rfl

/-- `predict` gives the outputs of the network on the flattened series, in order, and refuses series of other sizes. -/
theorem C81_predict (B : MlpBase K N Y O) (o : MlpObj N) (sz d : ℕ) (net : N) (ho : o.Fits B sz d net) (S : List (List (List K)))
    (sz' d' : ℕ) (h : SeriesSet S sz' d') :
    mlpPredict B o (.three S) = (o, if sz' = sz ∧ d' = d then .ok (S.map fun s => B.eval net s.flatten) else .error .valueError) := by
  obtain ⟨⟨n, hd⟩, hn, hnet, hw⟩ := ho
  obtain ⟨c1, c2⟩ := h.check
  have hwd := h.head.2.2
  obtain ⟨od, on, onet⟩ := o
  simp only at hd hn hnet
  subst hd hn hnet
  by_cases e : sz' = sz ∧ d' = d
  · obtain ⟨rfl, rfl⟩ := e
    simp [mlpPredict, c1, c2, checkDims, mlpPatch, MlpBase.predict, MlpX.series, hw, mlpRows, Function.comp_def]
    exact hwd.symm
  · rw [if_neg e]
    have e' : ¬ (sz = sz' ∧ d = d') := fun h => e ⟨h.1.symm, h.2.symm⟩
    simp [mlpPredict, c1, c2, checkDims, e']

example : (mlpPredict (exMlp false) ⟨some [2, 2, 2], some 2, some (4, 7)⟩ (.three [[[1, 2], [3, 4]], [[5, 6], [7, 8]]])).2 = .ok [17, 33] ∧
    (mlpPredict (exMlp false) ⟨some [2, 2, 2], some 2, some (4, 7)⟩ (.three [[[1], [2], [3], [4]]])).2 = .error .valueError :=
  ⟨by rw [C81_predict _ _ 2 2 (4, 7) (exFits _) _ 2 2 exSet]; rfl, by rw [C81_predict _ _ 2 2 (4, 7) (exFits _) _ 4 1 exSet']; rfl⟩

/-- Predicting never changes the estimator, whether it succeeds or not. -/
theorem C81_predict_pure (B : MlpBase K N Y O) (o : MlpObj N) (X : MlpX K) : (mlpPredict B o X).1 = o := by
  unfold mlpPredict
  split
  · rfl
  · split
    · rfl
    · split
      · rfl
      · split
        · rfl
        · unfold mlpPatch
          split
          · rfl
          · rename_i old hold
            simp [← hold]

/-- Before any training, predicting raises `NotFittedError`. -/
theorem C81_unfitted (B : MlpBase K N Y O) (X : MlpX K) : mlpPredict B .fresh X = (.fresh, .error .notFitted) := rfl

/-- The first `partial_fit` starts from nothing. -/
theorem C81_partial_first (B : MlpBase K N Y O) (hB : B.Lawful) (S : List (List (List K))) (sz d : ℕ) (h : SeriesSet S sz d) (y : Y)
    (net : N) (hc : B.check true none (mlpRows S) y = none) (ht : B.train true none (mlpRows S) y = (some net, none)) :
    ∃ o', mlpPartial B .fresh (.three S) y = (o', .ok ()) ∧ o'.Fits B sz d net := by
  obtain ⟨c1, c2⟩ := h.check
  refine ⟨⟨some [S.length, sz, d], some d, some net⟩, ?_, ⟨⟨_, rfl⟩, rfl, rfl, ?_⟩⟩
  · simp [mlpPartial, MlpObj.fresh, c1, MlpX.series, c2, mlpPatch, MlpBase.fit, hc, ht]
  · rw [hB.1 _ _ _ _ _ ht, h.head.2.2]

example : ∃ o', mlpPartial (exMlp false) .fresh (.three [[[1, 2], [3, 4]], [[5, 6], [7, 8]]]) [3, 4] = (o', .ok ()) ∧
    o'.Fits (exMlp false) 2 2 (4, 7) := C81_partial_first _ (exMlp_lawful _) _ 2 2 exSet _ _ rfl rfl

/-- Later calls of `partial_fit` train further on series of the same sizes, and change nothing when the sizes differ. -/
theorem C81_partial_next (B : MlpBase K N Y O) (hB : B.Lawful) (o : MlpObj N) (sz d : ℕ) (net : N) (ho : o.Fits B sz d net)
    (S : List (List (List K))) (sz' d' : ℕ) (h : SeriesSet S sz' d') (y : Y) :
    (¬ (sz' = sz ∧ d' = d) → mlpPartial B o (.three S) y = (o, .error .valueError)) ∧
    (sz' = sz ∧ d' = d → B.check true (some net) (mlpRows S) y = none → ∀ net', B.train true (some net) (mlpRows S) y = (some net', none) →
      ∃ o', mlpPartial B o (.three S) y = (o', .ok ()) ∧ o'.Fits B sz d net') := by
  obtain ⟨⟨n, hd⟩, hn, hnet, hw⟩ := ho
  obtain ⟨c1, c2⟩ := h.check
  have hwd := h.head.2.2
  obtain ⟨od, on, onet⟩ := o
  simp only at hd hn hnet
  subst hd hn hnet
  constructor
  · intro e
    have e' : ¬ (sz = sz' ∧ d = d') := fun h => e ⟨h.1.symm, h.2.symm⟩
    simp [mlpPartial, c1, c2, checkDims, e']
  · rintro ⟨rfl, rfl⟩ hc net' ht
    refine ⟨⟨some [n, sz', d'], some d', some net'⟩, ?_, ⟨⟨_, rfl⟩, rfl, rfl, ?_⟩⟩
    · simp [mlpPartial, c1, c2, checkDims, mlpPatch, MlpBase.fit, hc, ht, MlpX.series, hwd]
    · rw [hB.2.1 _ _ _ _ _ _ ht, hw]

example : ∃ o', mlpPartial (exMlp true) ⟨some [2, 2, 2], some 2, some (4, 7)⟩ (.three [[[1, 2], [3, 4]], [[5, 6], [7, 8]]]) [1, 1] = (o', .ok ()) ∧
    o'.Fits (exMlp true) 2 2 (4, 9) :=
  (C81_partial_next _ (exMlp_lawful _) _ 2 2 (4, 7) (exFits _) _ 2 2 exSet [1, 1]).2 ⟨rfl, rfl⟩ rfl _ rfl

/-- Calls one after the other, as long as none raises. -/
def mlpRun (B : MlpBase K N Y O) : MlpObj N → List (MlpCall K Y) → Option (MlpObj N)
  | o, [] => some o
  | o, c :: cs =>
    match mlpCall B o c with
    | (o, none) => mlpRun B o cs
    | (_, some _) => none

/-- The same calls for a perceptron on rows: from nothing or further, with the flattened series. -/
def mlpFlat : MlpCall K Y → Bool × (List (List K) × Y)
  | .fit X y => (true, (X.series.map List.flatten, y))
  | .partialFit X y => (false, (X.series.map List.flatten, y))

/-- Series of proper sizes. -/
def MlpCall.Ok : MlpCall K Y → Prop
  | .fit (.three S) _ => ∃ sz d, SeriesSet S sz d
  | .partialFit (.three S) _ => ∃ sz d, SeriesSet S sz d
  | _ => False

theorem mlpCall_step (B : MlpBase K N Y O) (hB : B.Lawful) (hw : B.warm = false) (o o' : MlpObj N) (c : MlpCall K Y) (hc : c.Ok)
    (ho : o = .fresh ∨ ∃ sz d net, o.Fits B sz d net) (h : mlpCall B o c = (o', none)) :
    ∃ sz d net, o'.Fits B sz d net ∧
      some net = (B.train (!(mlpFlat c).1) (if (mlpFlat c).1 then none else o.net) (mlpFlat c).2.1 (mlpFlat c).2.2).1 := by
  cases c with
  | fit X y =>
    cases X with
    | two r => exact absurd hc (by simp [MlpCall.Ok])
    | three S =>
      obtain ⟨sz, d, hS⟩ := hc
      obtain ⟨c1, c2⟩ := hS.check
      simp only [mlpCall] at h
      cases hck : B.check false o.net (mlpRows S) y with
      | some e => simp [mlpFit, c1, MlpX.series, MlpBase.fit, hck] at h
      | none =>
        obtain ⟨n, e⟩ : ∃ n e, B.train false none (mlpRows S) y = (n, e) := ⟨_, _, rfl⟩
        obtain ⟨e, hte⟩ := e
        cases e with
        | some e => simp [mlpFit, c1, MlpX.series, MlpBase.fit, hck, hte, hw] at h
        | none =>
          obtain ⟨net, rfl⟩ := Option.isSome_iff_exists.1 (hB.2.2 _ _ _ _ _ hte)
          obtain ⟨o'', h1, h2⟩ := C81_fit_partial B hB o (.inl hw) S sz d hS y net hck hte
          rw [h1] at h
          obtain rfl : o'' = o' := by simpa using h
          refine ⟨sz, d, net, h2, ?_⟩
          show some net = (B.train false none (mlpRows S) y).1
          rw [hte]
  | partialFit X y =>
    cases X with
    | two r => exact absurd hc (by simp [MlpCall.Ok])
    | three S =>
      obtain ⟨sz, d, hS⟩ := hc
      obtain ⟨c1, c2⟩ := hS.check
      have hwd := hS.head.2.2
      simp only [mlpCall] at h
      rcases ho with rfl | ⟨sz', d', net, ho⟩
      · cases hck : B.check true none (mlpRows S) y with
        | some e => simp [mlpPartial, MlpObj.fresh, c1, MlpX.series, c2, mlpPatch, MlpBase.fit, hck] at h
        | none =>
          obtain ⟨n, e, hte⟩ : ∃ n e, B.train true none (mlpRows S) y = (n, e) := ⟨_, _, rfl⟩
          cases e with
          | some e => simp [mlpPartial, MlpObj.fresh, c1, MlpX.series, c2, mlpPatch, MlpBase.fit, hck, hte] at h
          | none =>
            obtain ⟨net, rfl⟩ := Option.isSome_iff_exists.1 (hB.2.2 _ _ _ _ _ hte)
            obtain ⟨o'', h1, h2⟩ := C81_partial_first B hB S sz d hS y net hck hte
            rw [h1] at h
            obtain rfl : o'' = o' := by simpa using h
            refine ⟨sz, d, net, h2, ?_⟩
            show some net = (B.train true none (mlpRows S) y).1
            rw [hte]
      · obtain ⟨p1, p2⟩ := C81_partial_next B hB o sz' d' net ho S sz d hS y
        by_cases e : sz = sz' ∧ d = d'
        · obtain ⟨rfl, rfl⟩ := e
          have hnet := ho.nets
          cases hck : B.check true (some net) (mlpRows S) y with
          | some e =>
            obtain ⟨⟨n, hd⟩, hn, -, -⟩ := ho
            simp [mlpPartial, c1, MlpX.series, c2, checkDims, hd, mlpPatch, hn, MlpBase.fit, hck, hnet] at h
          | none =>
            obtain ⟨n, e, hte⟩ : ∃ n e, B.train true (some net) (mlpRows S) y = (n, e) := ⟨_, _, rfl⟩
            cases e with
            | some e =>
              obtain ⟨⟨n, hd⟩, hn, -, -⟩ := ho
              simp [mlpPartial, c1, MlpX.series, c2, checkDims, hd, mlpPatch, hn, MlpBase.fit, hck, hnet, hte] at h
            | none =>
              obtain ⟨net', rfl⟩ := Option.isSome_iff_exists.1 (hB.2.2 _ _ _ _ _ hte)
              obtain ⟨o'', h1, h2⟩ := p2 ⟨rfl, rfl⟩ hck net' hte
              rw [h1] at h
              obtain rfl : o'' = o' := by simpa using h
              refine ⟨sz, d, net', h2, ?_⟩
              rw [hnet]
              show some net' = (B.train true (some net) (mlpRows S) y).1
              rw [hte]
        · rw [p1 e] at h
          simp at h

/-- Any sequence of successful calls of `fit` and `partial_fit` makes the network that the perceptron makes of the flattened series; the
estimator then predicts with it (`C81_predict`). Without `warm_start`. -/
theorem C81_calls_partial (B : MlpBase K N Y O) (hB : B.Lawful) (hw : B.warm = false) (cs : List (MlpCall K Y)) (hne : cs ≠ [])
    (hcs : ∀ c ∈ cs, c.Ok) (o : MlpObj N) (h : mlpRun B .fresh cs = some o) :
    ∃ sz d net, o.Fits B sz d net ∧
      trainAll (fun incr n (r : List (List K) × Y) => (B.train incr n r.1 r.2).1) (cs.map mlpFlat) = some net := by
  have gen : ∀ (cs : List (MlpCall K Y)) (_ : ∀ c ∈ cs, c.Ok) (o0 o : MlpObj N)
      (_ : o0 = .fresh ∨ ∃ sz d net, o0.Fits B sz d net) (_ : mlpRun B o0 cs = some o),
      (cs = [] → o = o0) ∧ (cs ≠ [] → ∃ sz d net, o.Fits B sz d net ∧ (cs.map mlpFlat).foldl
        (fun n c => (B.train (!c.1) (if c.1 then none else n) c.2.1 c.2.2).1) o0.net = some net) := by
    intro cs
    induction cs with
    | nil =>
      intro _ o0 o _ h
      exact ⟨fun _ => by simpa [mlpRun] using h.symm, fun h => absurd rfl h⟩
    | cons c cs ih =>
      intro hcs o0 o ho0 h
      refine ⟨fun h => by simp at h, fun _ => ?_⟩
      obtain ⟨o1, e, hce⟩ : ∃ o1 e, mlpCall B o0 c = (o1, e) := ⟨_, _, rfl⟩
      cases e with
      | some e => simp [mlpRun, hce] at h
      | none =>
        obtain ⟨sz, d, net, f1, f2⟩ := mlpCall_step B hB hw o0 o1 c (hcs c List.mem_cons_self) ho0 hce
        simp only [mlpRun, hce] at h
        obtain ⟨i1, i2⟩ := ih (fun c hc => hcs c (List.mem_cons_of_mem _ hc)) o1 o (.inr ⟨sz, d, net, f1⟩) h
        rw [List.map_cons, List.foldl_cons, ← f2]
        by_cases hnil : cs = []
        · subst hnil
          rw [i1 rfl]
          exact ⟨sz, d, net, f1, rfl⟩
        · rw [← f1.nets]
          exact i2 hnil
  exact (gen cs hcs .fresh o (.inl rfl) h).2 hne

example : trainAll (fun incr n (r : List (List ℕ) × List ℕ) => ((exMlp false).train incr n r.1 r.2).1)
    (([.fit (.three [[[1], [2], [3], [4]]]) [5], .partialFit (.three [[[1], [2], [3], [4]]]) [6]] : List (MlpCall ℕ (List ℕ))).map mlpFlat) =
      some (4, 11) ∧
    (mlpRun (exMlp false) .fresh [.fit (.three [[[1], [2], [3], [4]]]) [5], .partialFit (.three [[[1], [2], [3], [4]]]) [6]]).isSome :=
  ⟨rfl, rfl⟩

/-! ### What fails -/

/-- With `warm_start=True` a second `fit` always raises, unless series have one time step: the wrapper leaves the number of features in
`n_features_in_`, which the perceptron compares with the number of columns. -/
theorem C81_false_warm (B : MlpBase K N Y O) (hw : B.warm = true) (o : MlpObj N) (sz d : ℕ) (net : N) (ho : o.Fits B sz d net)
    (S : List (List (List K))) (h : SeriesSet S sz d) (hsz : sz ≠ 1) (y : Y) (hc : B.check false (some net) (mlpRows S) y = none) :
    (mlpFit B o (.three S) y).2 = some .valueError := by
  obtain ⟨⟨n, hd⟩, hn, hnet, -⟩ := ho
  obtain ⟨c1, c2⟩ := h.check
  have hwd := h.head.2.2
  have hne : ¬ d = sz * d := by
    intro e
    have := h.d_pos
    have h1 : 1 * d = sz * d := by rw [Nat.one_mul]; exact e
    exact hsz (Nat.eq_of_mul_eq_mul_right this h1).symm
  simp [mlpFit, c1, MlpX.series, MlpBase.fit, hnet, hc, hw, hn, hwd, hne]

example : (mlpFit (exMlp true) ⟨some [2, 2, 2], some 2, some (4, 7)⟩ (.three [[[1, 2], [3, 4]], [[5, 6], [7, 8]]]) [3, 4]).2 = some .valueError :=
  C81_false_warm _ rfl _ 2 2 (4, 7) (exFits _) _ exSet (by decide) _ rfl

/-- A `fit` that raises replaces the sizes that later queries must have: series of the sizes that were trained on are refused afterwards,
and series of the other sizes are given to a network that was trained on something else, if the number of values is the same. -/
theorem C81_false_failed_fit (B : MlpBase K N Y O) (o : MlpObj N) (sz d : ℕ) (net : N) (ho : o.Fits B sz d net)
    (S : List (List (List K))) (sz' d' : ℕ) (h : SeriesSet S sz' d') (hne : ¬ (sz = sz' ∧ d = d')) (hp : sz' * d' = sz * d) (y : Y) (e : PyErr)
    (hc : B.check false (some net) (mlpRows S) y = some e) :
    ∃ o', mlpFit B o (.three S) y = (o', some e) ∧
      (∀ Q, SeriesSet Q sz d → (mlpPredict B o' (.three Q)).2 = .error .valueError) ∧
      ∀ Q, SeriesSet Q sz' d' → (mlpPredict B o' (.three Q)).2 = .ok (Q.map fun s => B.eval net s.flatten) := by
  obtain ⟨⟨n, hd⟩, hn, hnet, hw⟩ := ho
  obtain ⟨c1, c2⟩ := h.check
  refine ⟨{ o with dims := some [S.length, sz', d'] }, ?_, fun Q hQ => ?_, fun Q hQ => ?_⟩
  · simp [mlpFit, c1, c2, MlpX.series, MlpBase.fit, hnet, hc]
  · obtain ⟨q1, q2⟩ := hQ.check
    have e' : ¬ (sz' = sz ∧ d' = d) := fun h => hne ⟨h.1.symm, h.2.symm⟩
    simp [mlpPredict, hn, q1, q2, checkDims, e']
  · obtain ⟨q1, q2⟩ := hQ.check
    have qw := hQ.head.2.2
    simp only [mlpPredict, hn, q1, q2, checkDims, mlpPatch, MlpBase.predict, MlpX.series, hnet, qw, hw]
    simp [hp, mlpRows, Function.comp_def]

/-- One target too many. -/
example : ∃ o', mlpFit (exMlp false) ⟨some [2, 2, 2], some 2, some (4, 7)⟩ (.three [[[1], [2], [3], [4]]]) [0, 0] = (o', some .valueError) ∧
    (mlpPredict (exMlp false) o' (.three [[[1, 2], [3, 4]], [[5, 6], [7, 8]]])).2 = .error .valueError := by
  obtain ⟨o', h1, h2, -⟩ := C81_false_failed_fit (exMlp false) _ 2 2 (4, 7) (exFits _) _ 4 1 exSet' (by decide) rfl [0, 0] .valueError rfl
  exact ⟨o', h1, h2 _ exSet⟩

/-- If the first `fit` raises because of its targets, no `partial_fit` works any more, whatever its targets: `AttributeError` for series
of the same sizes, `ValueError` for others. -/
theorem C81_false_failed_first (B : MlpBase K N Y O) (S : List (List (List K))) (sz d : ℕ) (h : SeriesSet S sz d) (y : Y) (e : PyErr)
    (hc : B.check false none (mlpRows S) y = some e) :
    ∃ o', mlpFit B .fresh (.three S) y = (o', some e) ∧ ∀ Q sz' d', SeriesSet Q sz' d' → ∀ y',
      mlpPartial B o' (.three Q) y' = (o', .error (if sz' = sz ∧ d' = d then .attributeError else .valueError)) := by
  obtain ⟨c1, c2⟩ := h.check
  refine ⟨⟨some [S.length, sz, d], none, none⟩, ?_, fun Q sz' d' hQ y' => ?_⟩
  · simp [mlpFit, c1, c2, MlpX.series, MlpBase.fit, hc, MlpObj.fresh]
  · obtain ⟨q1, q2⟩ := hQ.check
    by_cases e : sz' = sz ∧ d' = d
    · obtain ⟨rfl, rfl⟩ := e
      simp [mlpPartial, q1, q2, checkDims, mlpPatch]
    · have e' : ¬ (sz = sz' ∧ d = d') := fun h => e ⟨h.1.symm, h.2.symm⟩
      rw [if_neg e]
      simp [mlpPartial, q1, q2, checkDims, e']

example : ∃ o', mlpFit (exMlp false) .fresh (.three [[[1], [2], [3], [4]]]) [0, 0] = (o', some .valueError) ∧
    mlpPartial (exMlp false) o' (.three [[[1], [2], [3], [4]]]) [0] = (o', .error .attributeError) := by
  obtain ⟨o', h1, h2⟩ := C81_false_failed_first (exMlp false) _ 4 1 exSet' [0, 0] .valueError rfl
  exact ⟨o', h1, h2 _ 4 1 exSet' [0]⟩

/-- If the first `partial_fit` raises, the estimator counts as fitted: predicting raises `AttributeError` instead of `NotFittedError`. -/
theorem C81_false_failed_partial (B : MlpBase K N Y O) (S : List (List (List K))) (sz d : ℕ) (h : SeriesSet S sz d) (y : Y) (e : PyErr)
    (hc : B.check true none (mlpRows S) y = some e) :
    ∃ o', mlpPartial B .fresh (.three S) y = (o', .error e) ∧ ∀ Q, SeriesSet Q sz d →
      (mlpPredict B o' (.three Q)).2 = .error .attributeError := by
  obtain ⟨c1, c2⟩ := h.check
  refine ⟨⟨some [S.length, sz, d], some d, none⟩, ?_, fun Q hQ => ?_⟩
  · simp [mlpPartial, MlpObj.fresh, c1, MlpX.series, c2, mlpPatch, MlpBase.fit, hc]
  · obtain ⟨q1, q2⟩ := hQ.check
    simp [mlpPredict, q1, q2, checkDims, mlpPatch, MlpBase.predict, MlpX.series]

example : ∃ o', mlpPartial (exMlp false) .fresh (.three [[[1], [2], [3], [4]]]) [0, 0] = (o', .error .valueError) ∧
    (mlpPredict (exMlp false) o' (.three [[[1], [2], [3], [4]]])).2 = .error .attributeError := by
  obtain ⟨o', h1, h2⟩ := C81_false_failed_partial (exMlp false) _ 4 1 exSet' [0, 0] .valueError rfl
  exact ⟨o', h1, h2 _ exSet'⟩

end Verif
