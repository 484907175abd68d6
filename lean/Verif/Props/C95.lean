import Verif.Model.CdistWords
import Verif.Spec.Words
import Verif.Props.C94
import Verif.Props.C22
import Verif.Props.C33
/-!
# C95 — cross matrices of SAX words and of canonical time warping
-/
set_option linter.unusedSectionVars false
namespace Verif
open Spec
noncomputable section

/-! ### SAX -/

theorem wrap64_id {x : ℤ} (h1 : -2 ^ 63 ≤ x) (h2 : x < 2 ^ 63) : wrap64 x = x :=
  Int.bmod_eq_of_le (by omega) (by omega)

theorem readBp_ok {bps : List ℝ} {k : ℕ} (h : k < bps.length) : readBp bps (k : ℤ) = .ok (bps.getD k 0) := by
  unfold readBp
  have h1 : ¬ (k : ℤ) < 0 := by omega
  have h2 : (0 : ℤ) ≤ k ∧ (k : ℤ) < bps.length := by omega
  simp [h1, h2]

theorem saxCellInt_ok {bps : List ℝ} (hA : bps.length < 2 ^ 63) {a b : ℕ} (ha : a ≤ bps.length) (hb : b ≤ bps.length) :
    saxCellInt bps (a : ℤ) (b : ℤ) = .ok (saxCell bps a b) := by
  unfold saxCellInt saxCell
  have hw : wrap64 ((a : ℤ) - b) = (a : ℤ) - b := wrap64_id (by omega) (by omega)
  have hw' : wrap64 (-((a : ℤ) - b)) = -((a : ℤ) - b) := wrap64_id (by omega) (by omega)
  simp only [hw, hw', bind, Except.bind, pure, Except.pure]
  by_cases h : a + 1 < b ∨ b + 1 < a
  · have h1 : (1 : ℤ) < if (a : ℤ) - b < 0 then -((a : ℤ) - b) else (a : ℤ) - b := by split_ifs <;> omega
    have e1 : wrap64 (max (a : ℤ) b - 1) = ((max a b - 1 : ℕ) : ℤ) := by
      rw [wrap64_id (by omega) (by omega)]; omega
    have e2 : min (a : ℤ) b = ((min a b : ℕ) : ℤ) := by omega
    rw [if_pos h1, if_pos h, e1, e2, readBp_ok (by omega), readBp_ok (by omega)]
  · have h1 : ¬ (1 : ℤ) < if (a : ℤ) - b < 0 then -((a : ℤ) - b) else (a : ℤ) - b := by split_ifs <;> omega
    rw [if_neg h1, if_neg h]

theorem intAt_ints (w : List (List ℕ)) (t f : ℕ) : intAt (w.map (·.map Int.ofNat)) t f = ((wordAt w t f : ℕ) : ℤ) := by
  unfold intAt wordAt
  simp only [List.getD_eq_getElem?_getD, List.getElem?_map]
  cases w[t]? with
  | none => simp
  | some r =>
    simp only [Option.map_some, Option.getD_some, List.getElem?_map]
    cases r[f]? <;> simp

theorem mapM_pure {α β : Type} (f : α → Except PyErr β) (g : α → β) : ∀ l : List α, (∀ a ∈ l, f a = .ok (g a)) →
    l.mapM f = .ok (l.map g) := by
  intro l
  induction l with
  | nil => intro _; rfl
  | cons a l ih =>
    intro h
    rw [List.mapM_cons, h a (by simp), ih fun b hb => h b (by simp [hb])]
    rfl

theorem wordAt_le {S d A : ℕ} {W : List (List (List ℕ))} (hW : Words S d A W) {w : List (List ℕ)} (hw : w ∈ W) (t f : ℕ) :
    wordAt w t f ≤ A := by
  unfold wordAt
  simp only [List.getD_eq_getElem?_getD]
  cases ht : w[t]? with
  | none => simp
  | some r =>
    simp only [Option.getD_some]
    cases hf : r[f]? with
    | none => simp
    | some a => exact (((hW w hw).2 r (List.mem_of_getElem? ht)).2 a (List.mem_of_getElem? hf))

theorem cydistSaxInt_ok {bps : List ℝ} (hA : bps.length < 2 ^ 63) {S d : ℕ} (hS : 0 < S) {W W' : List (List (List ℕ))}
    (hW : Words S d bps.length W) (hW' : Words S d bps.length W') (size : ℕ) {w w' : List (List ℕ)} (hw : w ∈ W) (hw' : w' ∈ W') :
    cydistSaxInt bps size (S, d) (S, d) (w.map (·.map Int.ofNat)) (w'.map (·.map Int.ofNat)) = .ok (cydistSax bps size S d w w') := by
  unfold cydistSaxInt cydistSax
  simp only [ne_eq, not_true_eq_false, if_false, hS.ne']
  rw [mapM_pure _ (fun c : ℕ × ℕ => saxCell bps (wordAt w c.1 c.2) (wordAt w' c.1 c.2))]
  · simp only [bind, Except.bind, pure, Except.pure]
    congr 4
    generalize List.range S = l
    induction l with
    | nil => rfl
    | cons s l ih => simp [List.flatMap_cons, ih, Function.comp_def]
  · intro c _
    rw [intAt_ints, intAt_ints, saxCellInt_ok hA (wordAt_le hW hw _ _) (wordAt_le hW' hw' _ _)]

theorem wordDataset_ok {S d A : ℕ} (hS : 0 < S) {W : List (List (List ℕ))} (hW : Words S d A W) (hne : W ≠ []) :
    wordDataset (ints W) = .ok (S, d, ints W) := by
  obtain ⟨w0, W0, rfl⟩ := List.exists_cons_of_ne_nil hne
  have hmax : ∀ l : List (List (List ℕ)), (∀ w ∈ l, w.length = S) → l ≠ [] → ((ints l).map List.length).foldr max 0 = S := by
    intro l
    induction l with
    | nil => intro _ h; exact absurd rfl h
    | cons w l ih =>
      intro h _
      have hw := h w (by simp)
      cases l with
      | nil => simp [ints, hw]
      | cons w' l =>
        have := ih (fun v hv => h v (by simp [hv])) (by simp)
        simp only [ints, List.map_cons, List.foldr_cons, List.length_map] at this ⊢
        omega
  have hd : ((w0.map (·.map Int.ofNat)).headD []).length = d := by
    obtain ⟨h1, h2⟩ := hW w0 (by simp)
    cases w0 with
    | nil => simp at h1; omega
    | cons r w0 => simpa using (h2 r (by simp)).1
  have hfill : (ints (w0 :: W0)).mapM (fillWord S d) = .ok ((ints (w0 :: W0)).map id) := by
    apply mapM_pure
    intro v hv
    obtain ⟨w, hw, rfl⟩ := List.mem_map.1 hv
    obtain ⟨h1, h2⟩ := hW w hw
    unfold fillWord
    rw [mapM_pure _ id]
    · simp [bind, Except.bind, pure, Except.pure, h1]
    · intro r hr
      obtain ⟨r', hr', rfl⟩ := List.mem_map.1 hr
      simp [(h2 r' hr').1]
  have hm := hmax (w0 :: W0) (fun w hw => (hW w hw).1) hne
  unfold wordDataset
  simp only [ints, List.map_cons] at hm hfill ⊢
  rw [hm, hd, hfill]
  simp [bind, Except.bind, pure, Except.pure]

theorem ints_get {W : List (List (List ℕ))} {i : ℕ} {w : List (List ℕ)} (h : W[i]? = some w) :
    (ints W)[i]? = some (w.map (·.map Int.ofNat)) := by
  unfold ints; rw [List.getElem?_map, h]; rfl

theorem cydistSax_comm (bps : List ℝ) (size S d : ℕ) (w w' : List (List ℕ)) :
    cydistSax bps size S d w w' = cydistSax bps size S d w' w := by
  unfold cydistSax; simp only [saxCell_comm]

theorem cydistSax_self (bps : List ℝ) (size S d : ℕ) (w : List (List ℕ)) : cydistSax bps size S d w w = 0 := by
  unfold cydistSax
  have : ∀ a, saxCell bps a a = 0 := by intro a; unfold saxCell; rw [if_neg (by omega)]
  simp [this]

/-- Two sets of words of the same shape over the alphabet: the matrix is computed, and each entry is the distance of the two words,
however the jobs are run. -/
theorem C95_sax (bps : List ℝ) (hA : bps.length < 2 ^ 63) (S d : ℕ) (hS : 0 < S) (W W' : List (List (List ℕ)))
    (hW : Words S d bps.length W) (hW' : Words S d bps.length W') (size : ℕ) (run) (hrun : Execution run) :
    ∃ M, cdistSax (ints W) bps size (some (ints W')) run = .ok M ∧
      ∀ i j w w', W[i]? = some w → W'[j]? = some w' → M i j = cydistSax bps size S d w w' := by
  have hds : ∀ V : List (List (List ℕ)), Words S d bps.length V → ∃ sz d', wordDataset (ints V) = .ok (sz, d', ints V) ∧
      (V ≠ [] → (sz, d') = (S, d)) := by
    intro V hV
    by_cases h : V = []
    · subst h; exact ⟨0, 0, rfl, fun h => absurd rfl h⟩
    · exact ⟨S, d, wordDataset_ok hS hV h, fun _ => rfl⟩
  obtain ⟨sz, c, e, he⟩ := hds W hW
  obtain ⟨sz', c', e', he'⟩ := hds W' hW'
  have hval : ∀ w ∈ W, ∀ w' ∈ W', cydistSaxInt bps size (sz, c) (sz', c') (w.map (·.map Int.ofNat)) (w'.map (·.map Int.ofNat)) =
      .ok (cydistSax bps size S d w w') := by
    intro w hw w' hw'
    rw [he (List.ne_nil_of_mem hw), he' (List.ne_nil_of_mem hw')]
    exact cydistSaxInt_ok hA hS hW hW' size hw hw'
  simp only [cdistSax, e, e', bind, Except.bind]
  obtain ⟨M, hM⟩ := cdistGeneric_total (dist := cydistSaxInt bps size (sz, c) (sz', c')) (zero := (0 : ℝ)) (X := ints W)
    (Y := some (ints W')) (diag := false) hrun.faithful (by
      intro x hx y hy
      obtain ⟨w, hw, rfl⟩ := List.mem_map.1 hx
      obtain ⟨w', hw', rfl⟩ := List.mem_map.1 hy
      exact ⟨_, hval w hw w' hw'⟩)
  refine ⟨M, hM, fun i j w w' hi hj => ?_⟩
  have := cdistGeneric_cross hrun.faithful hM i j _ _ (ints_get hi) (ints_get hj)
  rw [hval w (List.mem_of_getElem? hi) w' (List.mem_of_getElem? hj)] at this
  exact (Except.ok.inj this).symm

/-- One set of words: the same, diagonal and mirrored half included. -/
theorem C95_sax_self (bps : List ℝ) (hA : bps.length < 2 ^ 63) (S d : ℕ) (hS : 0 < S) (W : List (List (List ℕ)))
    (hW : Words S d bps.length W) (size : ℕ) (run) (hrun : Execution run) :
    ∃ M, cdistSax (ints W) bps size none run = .ok M ∧
      ∀ i j w w', W[i]? = some w → W[j]? = some w' → M i j = cydistSax bps size S d w w' := by
  by_cases hne : W = []
  · subst hne
    obtain ⟨M, hM⟩ := cdistGeneric_total (dist := cydistSaxInt bps size (0, 0) (0, 0)) (zero := (0 : ℝ)) (X := [])
      (Y := none) (diag := false) hrun.faithful (by simp)
    exact ⟨M, hM, by simp⟩
  have hval : ∀ w ∈ W, ∀ w' ∈ W, cydistSaxInt bps size (S, d) (S, d) (w.map (·.map Int.ofNat)) (w'.map (·.map Int.ofNat)) =
      .ok (cydistSax bps size S d w w') := fun w hw w' hw' => cydistSaxInt_ok hA hS hW hW size hw hw'
  simp only [cdistSax, wordDataset_ok hS hW hne, bind, Except.bind]
  obtain ⟨M, hM⟩ := cdistGeneric_total (dist := cydistSaxInt bps size (S, d) (S, d)) (zero := (0 : ℝ)) (X := ints W)
    (Y := none) (diag := false) hrun.faithful (by
      intro x hx y hy
      obtain ⟨w, hw, rfl⟩ := List.mem_map.1 hx
      obtain ⟨w', hw', rfl⟩ := List.mem_map.1 (show y ∈ ints W from hy)
      exact ⟨_, hval w hw w' hw'⟩)
  refine ⟨M, hM, fun i j w w' hi hj => ?_⟩
  have h := cdistGeneric_self hrun.faithful hM i j _ _ (ints_get hi) (ints_get hj)
  rcases Nat.lt_trichotomy i j with hij | rfl | hij
  · have := h.1 hij
    rw [hval w (List.mem_of_getElem? hi) w' (List.mem_of_getElem? hj)] at this
    exact (Except.ok.inj this).symm
  · have := h.2.2 rfl
    rw [hi] at hj
    obtain rfl := Option.some.inj hj
    rw [cydistSax_self]
    simpa using this
  · have := h.2.1 hij
    rw [hval w' (List.mem_of_getElem? hj) w (List.mem_of_getElem? hi)] at this
    rw [cydistSax_comm]
    exact (Except.ok.inj this).symm

theorem saxRaw_words {sc : Option (Scaling ℝ)} {bps : List ℝ} {S : ℕ} {X : Arr3 ℝ} (hd : (saxScale sc X).d = X.d) :
    Words S X.d bps.length (saxRaw sc bps S X) := by
  intro w hw
  unfold saxRaw paaToSymbols at hw
  obtain ⟨p, hp, rfl⟩ := List.mem_map.1 hw
  obtain ⟨h1, h2⟩ := Arr3.build_wf _ _ _ _ p hp
  refine ⟨by rw [List.length_map, h1]; rfl, fun r hr => ?_⟩
  obtain ⟨q, hq, rfl⟩ := List.mem_map.1 hr
  refine ⟨by rw [List.length_map, h2 q hq]; exact hd, fun a ha => ?_⟩
  obtain ⟨v, -, rfl⟩ := List.mem_map.1 ha
  exact paaToSymbol_le bps v

/-- The words of a dataset: each entry measures the gaps between the segment means of the two series, and does not exceed their
Euclidean distance when the segments tile them. -/
theorem C95_sax_series (bps : List ℝ) (hs : bps.Pairwise (· ≤ ·)) (hA : bps.length < 2 ^ 63) (X : Arr3 ℝ) (hX : X.WF) (hne : X.data ≠ [])
    (S n : ℕ) (hS0 : 0 < S) (hS : S ≤ n) (run) (hrun : Execution run) :
    ∃ W M, saxTransform X.d none bps S X = .ok W ∧ cdistSax (ints W) bps n none run = .ok M ∧
      ∀ i j x y, Series X i n x → Series X j n y →
        M i j = symbolicDist bps n S X.d x y ∧ (S ∣ n → M i j ≤ euclid n X.d x y) := by
  obtain ⟨M, hM, hv⟩ := C95_sax_self bps hA S X.d hS0 (saxRaw none bps S X) (saxRaw_words rfl) n run hrun
  refine ⟨_, M, saxTransform_ok hne hS0, hM, fun i j x y hi hj => ?_⟩
  have get : ∀ {i x}, Series X i n x → (saxRaw none bps S X)[i]? = some ((saxRaw none bps S X).getD i []) := by
    intro i x hi
    have : i < (saxRaw none bps S X).length := by
      unfold saxRaw paaToSymbols paaRaw
      rw [List.length_map, Arr3.build_length]
      exact hi.1
    rw [List.getElem?_eq_getElem this, List.getD_eq_getElem _ _ this]
  rw [hv i j _ _ (get hi) (get hj)]
  refine ⟨cydistSax_words hs hX hX rfl hi hj hS, fun hd => ?_⟩
  exact sax_euclid none bps hs X hX S n i j x y rfl hi hj (by omega) hd

/-- Words of two different shapes are refused. -/
theorem C95_sax_shapes (bps : List ℝ) (S d S' d' A A' : ℕ) (hS : 0 < S) (hS' : 0 < S') (hne : (S, d) ≠ (S', d'))
    (W W' : List (List (List ℕ))) (hW : Words S d A W) (hW' : Words S' d' A' W') (h0 : W ≠ []) (h0' : W' ≠ []) (size : ℕ) :
    cdistSax (ints W) bps size (some (ints W')) seqRun = .error .assertion ∧
    ∀ run, Execution run → ∀ M, cdistSax (ints W) bps size (some (ints W')) run ≠ .ok M := by
  have hval : ∀ w w', cydistSaxInt bps size (S, d) (S', d') w w' = .error .assertion := by
    intro w w'
    simp only [cydistSaxInt, if_pos hne, bind, Except.bind, throw, throwThe, MonadExceptOf.throw]
  obtain ⟨w, W, rfl⟩ := List.exists_cons_of_ne_nil h0
  obtain ⟨w', W', rfl⟩ := List.exists_cons_of_ne_nil h0'
  constructor
  · simp only [cdistSax, wordDataset_ok hS hW h0, wordDataset_ok hS' hW' h0', bind, Except.bind, cdistGeneric]
    have : ∃ l, jobsOf (cydistSaxInt bps size (S, d) (S', d')) (ints (w :: W)) (ints (w' :: W'))
        (crossJobs (ints (w :: W)).length (ints (w' :: W')).length) = .error .assertion :: l := by
      simp [jobsOf, crossJobs, ints, List.range_succ_eq_map, hval]
    obtain ⟨l, hl⟩ := this
    rw [hl]
    rfl
  · intro run hrun M h
    simp only [cdistSax, wordDataset_ok hS hW h0, wordDataset_ok hS' hW' h0', bind, Except.bind] at h
    have := cdistGeneric_cross hrun.faithful h 0 0 _ _ (ints_get (W := w :: W) rfl) (ints_get (W := w' :: W') rfl)
    rw [hval] at this
    cases this

/-- False of the code: words of different lengths in one set. The function of a pair refuses them; the matrix is computed with the
integer that stands for NaN, and the words `(0)` and `(0, 0)` are at distance 0. -/
theorem C95_false_lengths (bps : List ℝ) (size : ℕ) :
    cydistSaxInt bps size (1, 1) (2, 1) [[0]] [[0], [0]] = .error .assertion ∧
    ∃ M, cdistSax [[[0]], [[0], [0]]] bps size none seqRun = .ok M ∧ M 0 1 = 0 := by
  refine ⟨by simp [cydistSaxInt, bind, Except.bind, throw, throwThe, MonadExceptOf.throw], ?_⟩
  have e : wordDataset [[[0]], [[0], [0]]] = .ok (2, 1, [[[0], [intNan]], [[0], [0]]]) := rfl
  have c : ∀ a b, (a = 0 ∨ a = intNan) → (b = 0 ∨ b = intNan) → saxCellInt bps a b = .ok 0 := by
    have w1 : wrap64 0 = 0 := by decide
    have w2 : wrap64 (-2 ^ 63) = -2 ^ 63 := by decide
    have w3 : wrap64 (2 ^ 63) = -2 ^ 63 := by decide
    rintro a b (rfl | rfl) (rfl | rfl) <;>
      simp [saxCellInt, intNan, w1, bind, Except.bind, pure, Except.pure] <;> norm_num at w2 w3 ⊢ <;> simp [w2, w3]
  have hval : ∀ x ∈ [[[0], [intNan]], [[0], [0]]], ∀ y ∈ [[[0], [intNan]], [[0], [0]]],
      cydistSaxInt bps size (2, 1) (2, 1) x y = .ok 0 := by
    intro x hx y hy
    have hx' : ∀ t f, intAt x t f = 0 ∨ intAt x t f = intNan := by
      intro t f
      simp only [List.mem_cons, List.not_mem_nil, or_false] at hx
      rcases hx with rfl | rfl <;> rcases t with _ | _ | t <;> rcases f with _ | f <;> simp [intAt]
    have hy' : ∀ t f, intAt y t f = 0 ∨ intAt y t f = intNan := by
      intro t f
      simp only [List.mem_cons, List.not_mem_nil, or_false] at hy
      rcases hy with rfl | rfl <;> rcases t with _ | _ | t <;> rcases f with _ | f <;> simp [intAt]
    unfold cydistSaxInt
    rw [mapM_pure _ (fun _ => (0 : ℝ)) _ fun k _ => c _ _ (hx' _ _) (hy' _ _)]
    simp [bind, Except.bind, pure, Except.pure]
  simp only [cdistSax, e, bind, Except.bind]
  obtain ⟨M, hM⟩ := cdistGeneric_total (dist := cydistSaxInt bps size (2, 1) (2, 1)) (zero := (0 : ℝ))
    (X := [[[0], [intNan]], [[0], [0]]]) (Y := none) (diag := false) (Execution.faithful (.inl rfl))
    (fun x hx y hy => ⟨0, hval x hx y hy⟩)
  refine ⟨M, hM, ?_⟩
  have := (cdistGeneric_self (Execution.faithful (.inl rfl)) hM 0 1 _ _ rfl rfl).1 (by omega)
  rw [hval _ (by simp) _ (by simp)] at this
  exact (Except.ok.inj this).symm

/-- False of the code: with another symbol opposite the missing one, the breakpoints are read outside of the array. -/
theorem C95_false_outside (bps : List ℝ) (hA : bps.length < 2 ^ 62) (size : ℕ) :
    cdistSax [[[0]], [[0], [1]]] bps size none seqRun = .error .notModelled := by
  have e : wordDataset [[[0]], [[0], [1]]] = .ok (2, 1, [[[0], [intNan]], [[0], [1]]]) := rfl
  have c0 : saxCellInt bps 0 0 = .ok 0 := saxCellInt_ok (a := 0) (b := 0) (by omega) (by omega) (by omega)
  have c : saxCellInt bps intNan 1 = .error .notModelled := by
    have w1 : wrap64 (intNan - 1) = 2 ^ 63 - 1 := by decide
    have w2 : wrap64 (max intNan 1 - 1) = 0 := by decide
    have w3 : min intNan 1 = -2 ^ 63 := by decide
    have r : readBp bps (-2 ^ 63) = .error .notModelled := by
      unfold readBp
      have : ¬ ((0 : ℤ) ≤ -2 ^ 63 + (bps.length : ℤ) ∧ -2 ^ 63 + (bps.length : ℤ) < bps.length) := by omega
      simp only [show (-2 ^ 63 : ℤ) < 0 by norm_num, if_true, this, if_false]
    unfold saxCellInt
    simp only [w1, w2, w3, r, show ¬ (2 ^ 63 - 1 : ℤ) < 0 by norm_num, show (1 : ℤ) < 2 ^ 63 - 1 by norm_num, if_true, if_false, bind,
      Except.bind]
    unfold readBp
    simp only [lt_irrefl, if_false, le_refl, true_and]
    split_ifs <;> rfl
  have hd : cydistSaxInt bps size (2, 1) (2, 1) [[0], [intNan]] [[0], [1]] = .error .notModelled := by
    have : ((List.range 2).flatMap fun t => (List.range 1).map fun f => (t, f)) = [(0, 0), (1, 0)] := rfl
    unfold cydistSaxInt
    rw [this]
    have e0 : saxCellInt bps (intAt [[0], [intNan]] 0 0) (intAt [[0], [1]] 0 0) = .ok 0 := c0
    have e1 : saxCellInt bps (intAt [[0], [intNan]] 1 0) (intAt [[0], [1]] 1 0) = .error .notModelled := c
    simp only [List.mapM_cons, e0, e1, bind, Except.bind, ne_eq, not_true_eq_false, if_false]
  simp only [cdistSax, e, bind, Except.bind, cdistGeneric]
  have : jobsOf (cydistSaxInt bps size (2, 1) (2, 1)) [[[0], [intNan]], [[0], [1]]] [[[0], [intNan]], [[0], [1]]]
      (selfJobs 2 false) = [.error .notModelled] := by
    rw [show selfJobs 2 false = [(0, 1)] from rfl]
    simp [jobsOf, hd]
  simp only [List.length_cons, List.length_nil, Nat.zero_add, Nat.reduceAdd, this]
  rfl

/-! ### Canonical time warping -/

theorem ctw_congr (fit) {s1 s2 s1' s2' : TsInput (Option ℝ)} (h1 : toTimeSeries s1 true = toTimeSeries s1' true)
    (h2 : toTimeSeries s2 true = toTimeSeries s2' true) (maxIter nComp gc radius slope am) :
    ctw fit s1 s2 maxIter nComp gc radius slope am = ctw fit s1' s2' maxIter nComp gc radius slope am := by
  unfold ctw ctwPathSq; rw [h1, h2]

theorem ctw_trim (fit) {s t s' t' : Ts ℝ} (h : s.trim = t.trim) (h' : s'.trim = t'.trim) (maxIter nComp gc radius slope am) :
    ctw fit (.twoD s.trim.rows) (.twoD s'.trim.rows) maxIter nComp gc radius slope am =
      ctw fit (.twoD t.rows) (.twoD t'.rows) maxIter nComp gc radius slope am := by
  rw [h, h']
  refine ctw_congr fit ?_ ?_ _ _ _ _ _ _
  · exact toTimeSeries_idem t.rows
  · exact toTimeSeries_idem t'.rows

/-- Two datasets: each entry is the score of the pair. -/
theorem C95_ctw_cross (fit) (l l' : List (Ts ℝ)) (d : ℕ) (hwf : ∀ t ∈ l, t.WF ∧ t.d = d) (hwf' : ∀ t ∈ l', t.WF ∧ t.d = d)
    (maxIter nComp gc radius slope am run) (hrun : Execution run) (M : Mat (WithTop ℝ))
    (h : cdistCtw fit (.series l) (some (.series l')) maxIter nComp gc radius slope am run = .ok M) (i j : ℕ) (t t' : Ts ℝ)
    (hi : l[i]? = some t) (hj : l'[j]? = some t') :
    ctw fit (.twoD t.rows) (.twoD t'.rows) maxIter nComp gc radius slope am = .ok (M i j) := by
  unfold cdistCtw at h
  cases hX : toDataset (.series l) with
  | error e => simp [hX, bind, Except.bind] at h
  | ok X =>
  cases hY : toDataset (.series l') with
  | error e => simp [hX, hY, bind, Except.bind] at h
  | ok Y =>
  simp only [hX, hY, bind, Except.bind] at h
  obtain ⟨s, hs, hst⟩ := slot_trim hwf hX hi
  obtain ⟨s', hs', hst'⟩ := slot_trim hwf' hY hj
  rw [← ctw_trim fit hst hst']
  exact cdistGeneric_cross hrun.faithful h i j s s' hs hs'

/-- One dataset: the score of each pair is computed once, with the earlier series first, and mirrored; the diagonal is 0. -/
theorem C95_ctw_self (fit) (l : List (Ts ℝ)) (d : ℕ) (hwf : ∀ t ∈ l, t.WF ∧ t.d = d)
    (maxIter nComp gc radius slope am run) (hrun : Execution run) (M : Mat (WithTop ℝ))
    (h : cdistCtw fit (.series l) none maxIter nComp gc radius slope am run = .ok M) (i j : ℕ) (t t' : Ts ℝ)
    (hi : l[i]? = some t) (hj : l[j]? = some t') :
    (i < j → ctw fit (.twoD t.rows) (.twoD t'.rows) maxIter nComp gc radius slope am = .ok (M i j) ∧ M j i = M i j) ∧ M i i = 0 := by
  unfold cdistCtw at h
  cases hX : toDataset (.series l) with
  | error e => simp [hX, bind, Except.bind] at h
  | ok X =>
  simp only [hX, bind, Except.bind] at h
  obtain ⟨s, hs, hst⟩ := slot_trim hwf hX hi
  obtain ⟨s', hs', hst'⟩ := slot_trim hwf hX hj
  have h1 := cdistGeneric_self hrun.faithful h i j s s' hs hs'
  have h2 := cdistGeneric_self hrun.faithful h j i s' s hs' hs
  have h3 := cdistGeneric_self hrun.faithful h i i s s hs hs
  refine ⟨fun hij => ⟨?_, ?_⟩, by simpa using h3.2.2 rfl⟩
  · rw [← ctw_trim fit hst hst']; exact h1.1 hij
  · have e1 := h1.1 hij
    have e2 := h2.2.1 hij
    rw [e1] at e2
    exact (Except.ok.inj e2).symm

/-- Series of the same number of features, default number of components: whatever the projections, the matrix is the one of DTW. -/
theorem C95_ctw_dtw (fit) (l l' : List (Ts ℝ)) (d : ℕ) (hwf : ∀ t ∈ l, t.WF ∧ t.d = d) (hwf' : ∀ t ∈ l', t.WF ∧ t.d = d)
    (maxIter gc radius slope am) (ham : IsArgmin3 am) (run) (hrun : Execution run) (M : Mat (WithTop ℝ))
    (h : cdistCtw fit (.series l) (some (.series l')) maxIter none gc radius slope am run = .ok M) (i j : ℕ) (t t' : Ts ℝ)
    (hi : l[i]? = some t) (hj : l'[j]? = some t') : dtw (.twoD t.rows) (.twoD t'.rows) gc radius slope = .ok (M i j) := by
  have hm := hwf t (List.mem_of_getElem? hi)
  have hm' := hwf' t' (List.mem_of_getElem? hj)
  refine C22_ctw_is_dtw fit t.rows t'.rows d ?_ ?_ maxIter gc radius slope am ham _
    (C95_ctw_cross fit l l' d hwf hwf' maxIter none gc radius slope am run hrun M h i j t t' hi hj)
  · intro r hr; rw [hm.1 r hr, hm.2]
  · intro r hr; rw [hm'.1 r hr, hm'.2]

/-- The same for one dataset without constraint or in a Sakoe-Chiba band, off the diagonal. -/
theorem C95_ctw_dtw_self (fit) (l : List (Ts ℝ)) (d : ℕ) (hwf : ∀ t ∈ l, t.WF ∧ t.d = d)
    (maxIter gc radius am) (hg : gc = none ∨ gc = some "sakoe_chiba") (ham : IsArgmin3 am) (run) (hrun : Execution run)
    (M : Mat (WithTop ℝ)) (h : cdistCtw fit (.series l) none maxIter none gc radius none am run = .ok M) (i j : ℕ) (t t' : Ts ℝ)
    (hi : l[i]? = some t) (hj : l[j]? = some t') (hij : i ≠ j) :
    dtw (.twoD t.rows) (.twoD t'.rows) gc radius none = .ok (M i j) := by
  have key : ∀ i j t t', l[i]? = some t → l[j]? = some t' → i < j →
      dtw (.twoD t.rows) (.twoD t'.rows) gc radius none = .ok (M i j) ∧ M j i = M i j := by
    intro i j t t' hi hj hij
    have hm := hwf t (List.mem_of_getElem? hi)
    have hm' := hwf t' (List.mem_of_getElem? hj)
    obtain ⟨e, hs⟩ := (C95_ctw_self fit l d hwf maxIter none gc radius none am run hrun M h i j t t' hi hj).1 hij
    refine ⟨C22_ctw_is_dtw fit t.rows t'.rows d ?_ ?_ maxIter gc radius none am ham _ e, hs⟩
    · intro r hr; rw [hm.1 r hr, hm.2]
    · intro r hr; rw [hm'.1 r hr, hm'.2]
  rcases Nat.lt_or_gt_of_ne hij with h' | h'
  · exact (key i j t t' hi hj h').1
  · obtain ⟨e, hs⟩ := key j i t' t hj hi h'
    rw [C04_dtw_symm _ _ _ _ hg, e, hs]

/-- False of the code: the diagonal is not the score of the pair. When no projection can be fitted (say, one sample), the function
of the pair raises, and the matrix of one dataset has a 0. -/
theorem C95_false_diagonal (run) (hrun : Execution run) (am) (ham : IsArgmin3 am) :
    ∃ (fit : List (List ℝ) → List (List ℝ) → Except PyErr (Proj ℝ)) (M : Mat (WithTop ℝ)),
      ctw fit (.twoD (oneSample 0).rows) (.twoD (oneSample 0).rows) 2 none none none none am = .error .valueError ∧
      cdistCtw fit (.series [oneSample 0]) none 2 none none none none am run = .ok M ∧ M 0 0 = 0 := by
  have hne : ([[0]] : List (List ℝ)) ≠ [] := by simp
  obtain ⟨p, hp, -⟩ := C02_path_terminates am (accumulatedMatrix [[(0 : ℝ)]] [[0]] (Mat.full true)) 1 1 (by omega) (by omega)
  let fit : List (List ℝ) → List (List ℝ) → Except PyErr (Proj ℝ) := fun _ _ => .error .valueError
  obtain ⟨M, hM⟩ := cdistGeneric_total (dist := fun t t' : Ts ℝ => (.ok 0 : Except PyErr (WithTop ℝ))) (zero := (0 : WithTop ℝ))
    (X := [oneSample 0]) (Y := none) (diag := false) hrun.faithful (fun _ _ _ _ => ⟨0, rfl⟩)
  refine ⟨fit, M, ?_, ?_, by simpa using (cdistGeneric_self hrun.faithful hM 0 0 _ _ rfl rfl).2.2 rfl⟩
  · have hd : ∃ v, dtwPathGeneric [[(0 : ℝ)]] [[0]] 0 none none am = .ok (v, some p) := by
      refine ⟨lastEntry (accumulatedMatrix [[(0 : ℝ)]] [[0]] (Mat.full true)) 1 1, ?_⟩
      rw [← hp]; rfl
    obtain ⟨v, hd⟩ := hd
    have h1 : denan (toTimeSeries (.twoD (oneSample 0).rows) true) = some [[(0 : ℝ)]] := rfl
    unfold ctw ctwPathSq
    simp only [h1, bind, Except.bind, gcCode]
    have e : eyeMul ((none : Option ℕ).getD (min (nFeatures [[(0 : ℝ)]]) (nFeatures [[(0 : ℝ)]]))) [[(0 : ℝ)]] = [[0]] := rfl
    rw [e, hd]
    rfl
  · rw [← hM]
    rfl

/-! Concrete cases meeting the hypotheses. -/

theorem exWords : Words 2 1 2 [[[0], [2]], [[2], [0]], [[1], [1]]] := by
  intro w hw
  simp only [List.mem_cons, List.not_mem_nil, or_false] at hw
  rcases hw with rfl | rfl | rfl <;> simp

/-- Breakpoints -1 and 1, words of series of 4 samples: the words `(0, 2)` and `(2, 0)` are at `sqrt (2 * (4 + 4))`. -/
example : ∃ M, cdistSax (ints [[[0], [2]], [[2], [0]], [[1], [1]]]) [-1, 1] 4 none seqRun = .ok M ∧ M 0 1 = 4 ∧ M 1 0 = 4 ∧ M 0 2 = 0 := by
  obtain ⟨M, h, hv⟩ := C95_sax_self [-1, 1] (by norm_num) 2 1 (by omega) _ exWords 4 seqRun (.inl rfl)
  have e : ∀ w w', (w = [[0], [2]] ∧ w' = [[2], [0]]) ∨ (w' = [[0], [2]] ∧ w = [[2], [0]]) → cydistSax [-1, 1] 4 2 1 w w' = 4 := by
    have : Real.sqrt ((((1 + 1) ^ 2 : ℝ) + (1 + 1) ^ 2) * 4 / 2) = 4 := by
      rw [show (((1 + 1) ^ 2 : ℝ) + (1 + 1) ^ 2) * 4 / 2 = 4 ^ 2 by norm_num]
      exact Real.sqrt_sq (by norm_num)
    rintro w w' (⟨rfl, rfl⟩ | ⟨rfl, rfl⟩) <;>
    · unfold cydistSax
      rw [← this]
      norm_num [saxCell, wordAt, List.range_succ]
  refine ⟨M, h, ?_, ?_, ?_⟩
  · rw [hv 0 1 _ _ rfl rfl, e _ _ (.inl ⟨rfl, rfl⟩)]
  · rw [hv 1 0 _ _ rfl rfl, e _ _ (.inr ⟨rfl, rfl⟩)]
  · rw [hv 0 2 _ _ rfl rfl]
    norm_num [cydistSax, saxCell, wordAt, List.range_succ]

example : ∃ M, cdistSax (ints [[[0], [2]], [[2], [0]], [[1], [1]]]) [-1, 1] 4 (some (ints [[[0], [2]], [[2], [0]], [[1], [1]]]))
    (fun jobs => parRun (List.range jobs.length).reverse jobs) = .ok M ∧ M 1 1 = 0 := by
  obtain ⟨M, h, hv⟩ := C95_sax [-1, 1] (by norm_num) 2 1 (by omega) _ _ exWords exWords 4
    (fun jobs => parRun (List.range jobs.length).reverse jobs)
    (.inr ⟨fun n => (List.range n).reverse, fun n => List.reverse_perm _, rfl⟩)
  exact ⟨M, h, by rw [hv 1 1 _ _ rfl rfl, cydistSax_self]⟩

example : ∃ W M, saxTransform 1 none [(1 / 4 : ℝ), 1 / 2] 3 exPaa = .ok W ∧ cdistSax (ints W) [(1 / 4 : ℝ), 1 / 2] 3 none seqRun = .ok M ∧
    M 0 1 ≤ euclid 3 1 (fun t _ => if t < 2 then 1 else 0) (fun _ _ => 0) := by
  obtain ⟨W, M, h1, h2, h3⟩ := C95_sax_series [(1 / 4 : ℝ), 1 / 2] (by simp; norm_num) (by norm_num) exPaa exPaa_wf (by simp [exPaa]) 3 3
    (by omega) le_rfl seqRun (.inl rfl)
  exact ⟨W, M, h1, h2, (h3 0 1 _ _ exPaa_series0 exPaa_series1).2 (dvd_refl _)⟩

example : cdistSax (ints [[[0], [2]]]) [-1, 1] 4 (some (ints [[[0]]])) seqRun = .error .assertion :=
  (C95_sax_shapes [-1, 1] 2 1 1 1 2 0 (by omega) (by omega) (by simp) _ _
    (by intro w hw; simp only [List.mem_singleton] at hw; subst hw; simp)
    (by intro w hw; simp only [List.mem_singleton] at hw; subst hw; simp) (by simp) (by simp) 4).1

/-- One alignment, no projection: the matrix of the series `(0)` and `(2)`. -/
example (fit) : ∃ M, cdistCtw fit (.series [oneSample 0, oneSample 2]) none 1 none none none none argmin3 seqRun = .ok M ∧
    dtw (.twoD (oneSample 0).rows) (.twoD (oneSample 2).rows) none none none = .ok (M 0 1) ∧ M 1 0 = M 0 1 := by
  have hok : ∀ x ∈ [oneSample (0 : ℝ), oneSample 2], ∀ y ∈ [oneSample (0 : ℝ), oneSample 2],
      ∃ v, ctw fit (.twoD x.trim.rows) (.twoD y.trim.rows) 1 none none none none argmin3 = .ok v := by
    intro x hx y hy
    simp only [List.mem_cons, List.not_mem_nil, or_false] at hx hy
    rcases hx with rfl | rfl <;> rcases hy with rfl | rfl <;> exact ⟨_, rfl⟩
  obtain ⟨M, hM⟩ := cdistGeneric_total (dist := fun t t' : Ts ℝ => ctw fit (.twoD t.trim.rows) (.twoD t'.trim.rows) 1 none none none none
    argmin3) (zero := (0 : WithTop ℝ)) (X := [oneSample 0, oneSample 2]) (Y := none) (diag := false)
    (Execution.faithful (.inl rfl)) hok
  have h : cdistCtw fit (.series [oneSample 0, oneSample 2]) none 1 none none none none argmin3 seqRun = .ok M := hM
  have hwf : ∀ t ∈ [oneSample (0 : ℝ), oneSample 2], t.WF ∧ t.d = 1 := by
    intro t ht
    simp only [List.mem_cons, List.not_mem_nil, or_false] at ht
    rcases ht with rfl | rfl <;> exact ⟨by simp [Ts.WF, oneSample], rfl⟩
  exact ⟨M, h, C95_ctw_dtw_self fit _ 1 hwf 1 none none argmin3 (.inl rfl) argmin3_isArgmin seqRun (.inl rfl) M h 0 1 _ _ rfl rfl
    (by omega), ((C95_ctw_self fit _ 1 hwf 1 none none none none argmin3 seqRun (.inl rfl) M h 0 1 _ _ rfl rfl).1 (by omega)).2⟩

end
end Verif
