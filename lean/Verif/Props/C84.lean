import Verif.Spec.ShapeletNet
import Verif.Props.C45
import Mathlib.Tactic.FieldSimp
import Mathlib.Tactic.Positivity
import Mathlib.Tactic.IntervalCases
import Mathlib.Data.List.Forall2
/-!
C84: shapelets, weights, outputs and saved models of `LearningShapelets`.
-/
set_option linter.unusedSectionVars false
namespace Verif
open Spec

section
variable {K : Type}

theorem shpName_inj {i j : ℕ} (h : shpName i = shpName j) : i = j := by
  unfold shpName at h
  apply Nat.repr_injective
  have := congrArg String.toList h
  simp only [String.toList_append] at this
  exact String.toList_injective (List.append_cancel_left this)

theorem shpName_ne_pre (s : String) (i : ℕ) (h : s.toList.head? ≠ some 's') : s ≠ shpName i := by
  intro e
  apply h
  rw [e]
  simp [shpName, String.toList_append]

theorem mem_sig {sizes : List (ℕ × ℕ)} {init : ℕ → ℕ → Ten K} {dense bias : Ten K} {net : List (NetLayer K)}
    (h : setModelLayers sizes init dense bias = .ok net) (l : NetLayer K) : l ∈ net ↔
      l = ⟨"input", []⟩ ∨ (∃ i p, sizes[i]? = some p ∧ (l = ⟨"patching_" ++ Nat.repr i, []⟩ ∨ l = ⟨shpName i, [init p.1 p.2]⟩ ∨
        l = ⟨"min_pooling_" ++ Nat.repr i, []⟩)) ∨ (1 < sizes.length ∧ l = ⟨"concatenate", []⟩) ∨ l = ⟨"classification", [dense, bias]⟩ := by
  unfold setModelLayers at h
  by_cases h1 : sizes = []
  · rw [if_pos h1] at h; cases h
  · rw [if_neg h1] at h
    obtain rfl := Except.ok.inj h
    simp only [List.cons_append, List.append_assoc, List.mem_cons, List.mem_append, List.mem_flatMap, List.not_mem_nil, or_false]
    constructor
    · rintro (h | ⟨⟨p, i⟩, hm, h⟩ | h | h)
      · exact .inl h
      · exact .inr (.inl ⟨i, p, by simpa using List.mk_mem_zipIdx_iff_getElem?.1 hm, h⟩)
      · by_cases h2 : 1 < sizes.length
        · exact .inr (.inr (.inl ⟨h2, by simpa [h2] using h⟩))
        · simp [h2] at h
      · exact .inr (.inr (.inr h))
    · rintro (h | ⟨i, p, hm, h⟩ | ⟨h2, h⟩ | h)
      · exact .inl h
      · exact .inr (.inl ⟨(p, i), List.mk_mem_zipIdx_iff_getElem?.2 (by simpa using hm), h⟩)
      · exact .inr (.inr (.inl (by simp [h2, h])))
      · exact .inr (.inr (.inr h))

theorem getLayer_ok {net : List (NetLayer K)} {name : String} {l : NetLayer K} (h : getLayer net name = .ok l) : l ∈ net ∧ l.name = name := by
  unfold getLayer at h
  split at h
  · next l' hl =>
    cases h
    exact ⟨List.mem_of_find?_eq_some hl, by simpa using List.find?_some hl⟩
  · cases h

theorem getLayer_total {net : List (NetLayer K)} {l : NetLayer K} (h : l ∈ net) : ∃ l', getLayer net l.name = .ok l' := by
  unfold getLayer
  cases hf : net.find? fun l' => l'.name == l.name with
  | some l' => exact ⟨l', rfl⟩
  | none => exact absurd (by simp) (List.find?_eq_none.1 hf l h)

theorem sig_transfer {net net' : List (NetLayer K)} (h : netSig net = netSig net') {l : NetLayer K} (hl : l ∈ net) :
    ∃ l' ∈ net', l'.name = l.name ∧ l'.weights.map Ten.shape = l.weights.map Ten.shape := by
  have : (l.name, l.weights.map Ten.shape) ∈ netSig net' := h ▸ List.mem_map.2 ⟨l, hl, rfl⟩
  obtain ⟨l', h1, h2⟩ := List.mem_map.1 this
  exact ⟨l', h1, congrArg Prod.fst h2, congrArg Prod.snd h2⟩

/-- The layer of length number `i`. -/
theorem FittedNet_layer {sizes : List (ℕ × ℕ)} {d units : ℕ} {net : List (NetLayer K)} (h : FittedNet sizes d units net) {i : ℕ} {p : ℕ × ℕ}
    (hi : sizes[i]? = some p) : ∃ w, getLayer net (shpName i) = .ok ⟨shpName i, [w]⟩ ∧ w.shape = [p.2, p.1, d] ∧ w.WF := by
  obtain ⟨init, dense, bias, net₀, h1, h2, h3, h4, h5⟩ := h.built
  obtain ⟨l, hl, hn, -⟩ := sig_transfer h5.symm ((mem_sig h4 ⟨shpName i, [init p.1 p.2]⟩).2 (.inr (.inl ⟨i, p, hi, .inr (.inl rfl)⟩)))
  obtain ⟨l', hl'⟩ := getLayer_total hl
  simp only [hn] at hl'
  obtain ⟨hm, hn'⟩ := getLayer_ok hl'
  obtain ⟨l₀, hl₀, hn₀, hs⟩ := sig_transfer h5 hm
  rw [hn'] at hn₀
  have hs₀ : l₀.weights.map Ten.shape = [[p.2, p.1, d]] := by
    rcases (mem_sig h4 l₀).1 hl₀ with e | ⟨j, q, hj, e | e | e⟩ | ⟨-, e⟩ | e
    · exact absurd hn₀ (by rw [e]; exact shpName_ne_pre _ _ (by simp))
    · exact absurd hn₀ (by rw [e]; exact shpName_ne_pre _ _ (by simp [String.toList_append]))
    · rw [e] at hn₀
      have := shpName_inj hn₀
      subst this
      rw [hi] at hj
      cases hj
      simp [e, h1]
    · exact absurd hn₀ (by rw [e]; exact shpName_ne_pre _ _ (by simp [String.toList_append]))
    · exact absurd hn₀ (by rw [e]; exact shpName_ne_pre _ _ (by simp))
    · exact absurd hn₀ (by rw [e]; exact shpName_ne_pre _ _ (by simp))
  rw [hs₀] at hs
  obtain ⟨name, ws⟩ := l'
  match ws, hs with
  | [], hs => simp at hs
  | _ :: _ :: _, hs => simp at hs
  | [w], hs =>
    refine ⟨w, ?_, by simpa using hs.symm, h.wf _ hm w (by simp)⟩
    simp only at hn'
    rw [hl', hn']

/-- The classification layer. -/
theorem FittedNet_dense {sizes : List (ℕ × ℕ)} {d units : ℕ} {net : List (NetLayer K)} (h : FittedNet sizes d units net) :
    ∃ w b, getLayer net "classification" = .ok ⟨"classification", [w, b]⟩ ∧ w.shape = [(sizes.map Prod.snd).sum, units] ∧ b.shape = [units] ∧
      w.WF ∧ b.WF := by
  obtain ⟨init, dense, bias, net₀, h1, h2, h3, h4, h5⟩ := h.built
  obtain ⟨l, hl, hn, -⟩ := sig_transfer h5.symm ((mem_sig h4 ⟨"classification", [dense, bias]⟩).2 (.inr (.inr (.inr rfl))))
  obtain ⟨l', hl'⟩ := getLayer_total hl
  simp only [hn] at hl'
  obtain ⟨hm, hn'⟩ := getLayer_ok hl'
  obtain ⟨l₀, hl₀, hn₀, hs⟩ := sig_transfer h5 hm
  rw [hn'] at hn₀
  have key : ∀ a b : String, a.toList.head? ≠ b.toList.head? → a ≠ b := fun a b h e => h (by rw [e])
  have hs₀ : l₀.weights.map Ten.shape = [[(sizes.map Prod.snd).sum, units], [units]] := by
    rcases (mem_sig h4 l₀).1 hl₀ with e | ⟨j, q, hj, e | e | e⟩ | ⟨-, e⟩ | e
    · exact absurd hn₀ (by rw [e]; simp)
    · exact absurd hn₀ (by rw [e]; exact key _ _ (by simp [String.toList_append]))
    · exact absurd hn₀ (by rw [e]; exact (shpName_ne_pre _ _ (by simp)).symm)
    · exact absurd hn₀ (by rw [e]; exact key _ _ (by simp [String.toList_append]))
    · exact absurd hn₀ (by rw [e]; simp)
    · simp [e, h2, h3]
  rw [hs₀] at hs
  obtain ⟨name, ws⟩ := l'
  match ws, hs with
  | [], hs => simp at hs
  | [_], hs => simp at hs
  | _ :: _ :: _ :: _, hs => simp at hs
  | [w, b], hs =>
    simp only [List.map_cons, List.map_nil, List.cons.injEq, and_true] at hs
    refine ⟨w, b, ?_, hs.1.symm, hs.2.symm, h.wf _ hm w (by simp), h.wf _ hm b (by simp)⟩
    simp only at hn'
    rw [hl', hn']

theorem storeRows (w : Ten K) (A : List (Option (Ten K))) (m n : ℕ) (h : n ≤ m) :
    (List.range n).foldlM (storeRow w) (A ++ List.replicate m none, A.length) =
      .ok (A ++ (List.range n).map (fun k => some (w.row k)) ++ List.replicate (m - n) none, A.length + n) := by
  induction n with
  | zero => simp [pure, Except.pure]
  | succ n ih =>
    rw [List.range_succ, List.foldlM_append, ih (by omega)]
    have hm : m - n = (m - (n + 1)) + 1 := by omega
    simp only [bind, Except.bind, List.foldlM_cons, List.foldlM_nil, storeRow, List.map_append, List.map_cons, List.map_nil]
    rw [if_pos (by simp; omega)]
    simp only [pure, Except.pure, Except.ok.injEq, Prod.mk.injEq]
    refine ⟨?_, by omega⟩
    rw [hm, List.replicate_succ, List.set_append_right _ _ (by simp)]
    simp

theorem zipIdx_take_succ {α : Type} (l : List α) (n : ℕ) (a : α) (h : l[n]? = some a) :
    (l.take (n + 1)).zipIdx = (l.take n).zipIdx ++ [(a, n)] := by
  obtain ⟨hn, rfl⟩ := List.getElem?_eq_some_iff.1 h
  rw [List.take_succ_eq_append_getElem hn, List.zipIdx_append]
  simp [Nat.min_eq_left hn.le]

theorem length_shapeletList (sizes : List (ℕ × ℕ)) (W : ℕ → Ten K) : (shapeletList sizes W).length = (sizes.map Prod.snd).sum := by
  unfold shapeletList
  rw [List.length_flatMap]
  simp only [List.length_map, List.length_range]
  congr 1
  have : (fun p : (ℕ × ℕ) × ℕ => p.1.2) = Prod.snd ∘ Prod.fst := rfl
  rw [this, ← List.map_map, List.zipIdx_map_fst]

theorem storeLayers {sizes : List (ℕ × ℕ)} {d units : ℕ} {net : List (NetLayer K)} (h : FittedNet sizes d units net) (W : ℕ → Ten K)
    (hW : ∀ i < sizes.length, getLayer net (shpName i) = .ok ⟨shpName i, [W i]⟩) (n : ℕ) (hn : n ≤ sizes.length) :
    (List.range n).foldlM (storeLayer net) (List.replicate (sizes.map Prod.snd).sum none, 0) =
      .ok ((shapeletList (sizes.take n) W).map some ++ List.replicate ((sizes.map Prod.snd).sum - (shapeletList (sizes.take n) W).length) none,
        (shapeletList (sizes.take n) W).length) := by
  induction n with
  | zero => simp [shapeletList, pure, Except.pure]
  | succ n ih =>
    have hlt : n < sizes.length := hn
    rw [List.range_succ, List.foldlM_append, ih (by omega)]
    obtain ⟨w, hw, hs, -⟩ := FittedNet_layer h (List.getElem?_eq_getElem hlt)
    have hww : W n = w := by
      have := hw ▸ hW n hlt
      simpa using this.symm
    have hl : (shapeletList (sizes.take n) W).length + sizes[n].2 ≤ (sizes.map Prod.snd).sum := by
      rw [length_shapeletList]
      have := congrArg (fun l => (l.map Prod.snd).sum) (List.take_append_drop (n + 1) sizes)
      rw [List.take_succ_eq_append_getElem hlt] at this
      simp only [List.map_append, List.sum_append, List.map_cons, List.map_nil, List.sum_cons, List.sum_nil] at this
      omega
    have hsucc : shapeletList (sizes.take (n + 1)) W = shapeletList (sizes.take n) W ++ (List.range sizes[n].2).map fun k => (W n).row k := by
      unfold shapeletList
      rw [zipIdx_take_succ sizes n _ (List.getElem?_eq_getElem hlt)]
      simp
    simp only [bind, Except.bind, List.foldlM_cons, List.foldlM_nil, storeLayer, hw, hs, List.headD_cons]
    rw [show (shapeletList (sizes.take n) W).length = ((shapeletList (sizes.take n) W).map some).length by simp, storeRows _ _ _ _ (by simp; omega), hsucc, hww]
    simp only [pure, Except.pure, Except.ok.injEq, Prod.mk.injEq, List.length_append, List.length_map, List.length_range, List.map_append, List.map_map,
      Nat.sub_sub]
    exact ⟨rfl, trivial⟩

/-- For every network `fit` can leave: `shapelets_` lists, length after length in the order of the dictionary, the rows of the weights that
`get_weights("shapelets_i")` gives, each of its length and number of features. -/
theorem C84_shapelets (sizes : List (ℕ × ℕ)) (d units : ℕ) (net : List (NetLayer K)) (h : FittedNet sizes d units net) :
    ∃ W : ℕ → Ten K, (∀ i p, sizes[i]? = some p → netGetWeights net (some (shpName i)) = .ok [W i] ∧ (W i).shape = [p.2, p.1, d] ∧ (W i).WF) ∧
      shapeletsAttr sizes net = .ok ((shapeletList sizes W).map some) ∧
      (shapeletList sizes W).length = (sizes.map Prod.snd).sum ∧
      ∀ i p k, sizes[i]? = some p → k < p.2 → ((W i).row k).shape = [p.1, d] ∧ ((W i).row k).WF ∧
        (shapeletList sizes W)[((sizes.take i).map Prod.snd).sum + k]? = some ((W i).row k) := by
  have hex : ∀ i, ∃ w : Ten K, ∀ p, sizes[i]? = some p → getLayer net (shpName i) = .ok ⟨shpName i, [w]⟩ ∧ w.shape = [p.2, p.1, d] ∧ w.WF := by
    intro i
    cases hi : sizes[i]? with
    | none => exact ⟨⟨[], []⟩, fun p hp => by cases hp⟩
    | some p =>
      obtain ⟨w, hw⟩ := FittedNet_layer h hi
      exact ⟨w, fun q hq => by cases hq; exact hw⟩
  choose W hW using hex
  have hfold := storeLayers h W (fun i hi => (hW i _ (List.getElem?_eq_getElem hi)).1) sizes.length le_rfl
  refine ⟨W, fun i p hp => ⟨by simp [netGetWeights, (hW i p hp).1, bind, Except.bind, pure, Except.pure], (hW i p hp).2⟩, ?_,
    length_shapeletList sizes W, ?_⟩
  · unfold shapeletsAttr
    simp only [hfold, bind, Except.bind, List.take_length, length_shapeletList, pure, Except.pure]
    simp
  · intro i p k hp hk
    obtain ⟨-, hs, hwf⟩ := hW i p hp
    refine ⟨by simp [Ten.row, hs], ?_, ?_⟩
    · unfold Ten.WF at hwf ⊢
      rw [hs] at hwf
      simp only [Ten.row, hs, List.tail_cons, List.length_take, List.length_drop, hwf, List.prod_cons, List.prod_nil, mul_one]
      rw [← Nat.sub_mul]
      exact Nat.min_eq_left (Nat.le_mul_of_pos_left _ (by omega))
    · obtain ⟨hi, hpe⟩ := List.getElem?_eq_some_iff.1 hp
      have hsplit : shapeletList sizes W = shapeletList (sizes.take i) W ++ ((List.range p.2).map fun k => (W i).row k) ++
          ((sizes.drop (i + 1)).zipIdx (i + 1)).flatMap fun p => (List.range p.1.2).map fun k => (W p.2).row k := by
        unfold shapeletList
        conv_lhs => rw [← List.take_append_drop (i + 1) sizes, List.zipIdx_append, zipIdx_take_succ sizes i p hp]
        simp [Nat.min_eq_left (show i + 1 ≤ sizes.length from hi)]
      rw [hsplit, List.append_assoc, List.getElem?_append_right (by rw [length_shapeletList]; omega), length_shapeletList, Nat.add_sub_cancel_left,
        List.getElem?_append_left (by simpa using hk)]
      simp [hk]

theorem foldlMax_mem (l : List ℕ) (a x : ℕ) (h : x = a ∨ x ∈ l) : x ≤ l.foldl max a := by
  induction l generalizing a x with
  | nil => simpa using h.elim le_of_eq (fun h => absurd h (by simp))
  | cons b l ih =>
    rw [List.foldl_cons]
    rcases h with rfl | h
    · exact le_trans (le_max_left x b) (ih _ _ (.inl rfl))
    · rcases List.mem_cons.1 h with rfl | h
      · exact le_trans (le_max_right a x) (ih _ _ (.inl rfl))
      · exact ih _ _ (.inr h)

theorem mapM_ok {α β : Type} (f : α → Except PyErr β) (g : α → β) (l : List α) (h : ∀ a ∈ l, f a = .ok (g a)) : l.mapM f = .ok (l.map g) := by
  induction l with
  | nil => rfl
  | cons a l ih =>
    rw [List.mapM_cons, h a (by simp), ih fun b hb => h b (by simp [hb])]
    rfl

/-- `shapelets_as_time_series_` has one series per entry of `shapelets_`, of the greatest length: its first samples are those of the shapelet,
the others missing. -/
theorem C84_as_series [Zero K] (sizes : List (ℕ × ℕ)) (d units : ℕ) (net : List (NetLayer K)) (h : FittedNet sizes d units net)
    (shp : List (Ten K)) (hs : shapeletsAttr sizes net = .ok (shp.map some)) (hpos : shp ≠ []) :
    ∃ M, (∃ p ∈ sizes, p.1 = M) ∧ (∀ p ∈ sizes, p.1 ≤ M) ∧
      shapeletsAsSeries sizes net = .ok (shp.map fun w => (List.range M).map fun t => (List.range d).map fun f =>
        if t < w.shape.headD 0 then some (w.at2 d t f) else none) := by
  obtain ⟨W, hW, hattr, hlen, hrow⟩ := C84_shapelets sizes d units net h
  have hshp : shp = shapeletList sizes W := by
    rw [hs] at hattr
    have := Except.ok.inj hattr
    exact List.map_injective_iff.2 (Option.some_injective _) this
  have hmem : ∀ w ∈ shp, ∃ p ∈ sizes, w.shape = [p.1, d] := by
    intro w hw
    rw [hshp] at hw
    obtain ⟨⟨p, i⟩, hp, hkm⟩ := List.mem_flatMap.1 hw
    obtain ⟨k, hk, rfl⟩ := List.mem_map.1 hkm
    have hp' := List.mk_mem_zipIdx_iff_getElem?.1 hp
    exact ⟨p, List.mem_of_getElem? hp', (hrow i p k hp' (List.mem_range.1 hk)).1⟩
  have hne : sizes ≠ [] := by
    rintro rfl
    exact hpos (by simp [hshp, shapeletList])
  refine ⟨(sizes.map Prod.fst).foldl max 0, ?_, fun p hp => foldlMax_mem _ _ _ (.inr (List.mem_map.2 ⟨p, hp, rfl⟩)), ?_⟩
  · have key : ∀ (l : List ℕ) (a : ℕ), l.foldl max a = a ∨ l.foldl max a ∈ l := by
      intro l
      induction l with
      | nil => simp
      | cons b l ih =>
        intro a
        rw [List.foldl_cons]
        rcases ih (max a b) with h | h
        · rw [h]
          rcases max_choice a b with h | h <;> simp [h]
        · exact .inr (by simp [h])
    rcases key (sizes.map Prod.fst) 0 with h0 | h0
    · obtain ⟨p, hp⟩ := List.exists_mem_of_ne_nil _ hne
      have := foldlMax_mem (sizes.map Prod.fst) 0 p.1 (.inr (List.mem_map.2 ⟨p, hp, rfl⟩))
      exact ⟨p, hp, by omega⟩
    · exact List.mem_map.1 h0
  · unfold shapeletsAsSeries
    simp only [hne, if_false, hs, bind, Except.bind, pure, Except.pure]
    obtain ⟨w, shp', rfl⟩ := List.exists_cons_of_ne_nil hpos
    · obtain ⟨p, hp, hw⟩ := hmem w (by simp)
      simp only [List.map_cons, hw]
      rw [← List.map_cons (f := some), mapM_ok _ (fun o => (o.map fun w => (List.range ((sizes.map Prod.fst).foldl max 0)).map fun t => (List.range d).map fun f =>
        if t < w.shape.headD 0 then some (w.at2 d t f) else none).getD [])]
      · simp [hw]
      · intro o ho
        obtain ⟨v, hv, rfl⟩ := List.mem_map.1 ho
        obtain ⟨q, hq, hvs⟩ := hmem v hv
        have hle := foldlMax_mem (sizes.map Prod.fst) 0 q.1 (.inr (List.mem_map.2 ⟨q, hq, rfl⟩))
        simp [padShapelet, hvs, hle]

end

section
variable {K : Type} [Field K] [LinearOrder K] [IsStrictOrderedRing K]

theorem forall2_flatMap {α β γ : Type} {R : β → γ → Prop} {f : α → List β} {g : α → List γ} (l : List α) (h : ∀ a ∈ l, List.Forall₂ R (f a) (g a)) :
    List.Forall₂ R (l.flatMap f) (l.flatMap g) := by
  induction l with
  | nil => simp
  | cons a l ih =>
    rw [List.flatMap_cons, List.flatMap_cons]
    exact List.rel_append (h a (by simp)) (ih fun b hb => h b (by simp [hb]))

theorem forall2_map {α β γ : Type} {R : β → γ → Prop} {f : α → β} {g : α → γ} (l : List α) (h : ∀ a ∈ l, R (f a) (g a)) :
    List.Forall₂ R (l.map f) (l.map g) := by
  induction l with
  | nil => simp
  | cons a l ih => exact .cons (h a (by simp)) (ih fun b hb => h b (by simp [hb]))

theorem kernelAt_row (w : Ten K) (nb L d k l f : ℕ) (hs : w.shape = [nb, L, d]) (hl : l < L) (hf : f < d) :
    kernelAt w k l f = (w.row k).at2 d l f := by
  have hlt : l * d + f < L * d := calc
    l * d + f < l * d + d := by omega
    _ = (l + 1) * d := by ring
    _ ≤ L * d := Nat.mul_le_mul_right _ hl
  simp only [kernelAt, Ten.row, Ten.at2, hs, List.getD_eq_getElem?_getD, List.tail_cons, List.prod_cons, List.prod_nil, mul_one]
  rw [List.getElem?_take_of_lt hlt, List.getElem?_drop]
  congr 2
  simp only [List.getElem?_cons_succ, List.getElem?_cons_zero, Option.getD_some]
  ring

theorem windowDist_congr (L d : ℕ) (x : ℕ → ℕ → Option K) (s s' : ℕ → ℕ → K) (t : ℕ) (h : ∀ l < L, ∀ f < d, s l f = s' l f) :
    windowDist L d x s t = windowDist L d x s' t := by
  unfold windowDist
  congr 1
  refine Finset.sum_congr rfl fun l hl => Finset.sum_congr rfl fun f hf => ?_
  rw [h l (Finset.mem_range.1 hl) f (Finset.mem_range.1 hf)]

theorem shpKernel_eq {net : List (NetLayer K)} {i : ℕ} {w : Ten K} (h : netGetWeights net (some (shpName i)) = .ok [w]) : shpKernel net i = w := by
  unfold netGetWeights at h
  unfold shpKernel
  cases hg : getLayer net (shpName i) with
  | error e => simp [hg, bind, Except.bind] at h
  | ok l =>
    simp only [hg, bind, Except.bind, pure, Except.pure, Except.ok.injEq] at h
    simp [h]

/-- Column `j` of `transform` is the least distance between a window and shapelet `j` of `shapelets_`, whatever the number of lengths, for every
series with a window of that length, in any batch. Missing: several features together with several shapelets of one length, where the layer computes
something else (`C45_false_features`). -/
theorem C84_transform_partial (sizes : List (ℕ × ℕ)) (d units : ℕ) (net : List (NetLayer K)) (h : FittedNet sizes d units net)
    (hd : d = 1 ∨ ∀ p ∈ sizes, p.2 = 1) (shp : List (Ten K)) (hs : shapeletsAttr sizes net = .ok (shp.map some)) (sz B : ℕ)
    (X : ℕ → ℕ → ℕ → Option K) (b : ℕ) (hb : b < B) :
    List.Forall₂ (fun w v => (∃ t, ValidWindow sz (w.shape.headD 0) d (X b) t) → ShapeletDist sz (w.shape.headD 0) d (X b) (w.at2 d) v)
      shp (netTransform sizes net sz d B X b) := by
  obtain ⟨W, hW, hattr, hlen, hrow⟩ := C84_shapelets sizes d units net h
  have hshp : shp = shapeletList sizes W := by
    rw [hs] at hattr
    exact List.map_injective_iff.2 (Option.some_injective _) (Except.ok.inj hattr)
  rw [hshp]
  refine forall2_flatMap _ fun p hp => forall2_map _ fun k hk => ?_
  obtain ⟨p, i⟩ := p
  have hp' := List.mk_mem_zipIdx_iff_getElem?.1 hp
  have hk' := List.mem_range.1 hk
  obtain ⟨hg, hsh, hwf⟩ := hW i p hp'
  simp only [(hrow i p k hp' hk').1, List.headD_cons, shpKernel_eq hg]
  intro hv
  have hT := C45_transform_partial sz p.1 d p.2 B (kernelAt (W i)) X b k hb hk' (hd.imp id fun h => h p (List.mem_of_getElem? hp')) hv
  have hset : {v | ∃ t, ValidWindow sz p.1 d (X b) t ∧ v = windowDist p.1 d (X b) (kernelAt (W i) k) t} =
      {v | ∃ t, ValidWindow sz p.1 d (X b) t ∧ v = windowDist p.1 d (X b) (((W i).row k).at2 d) t} := by
    ext v
    simp only [Set.mem_setOf_eq, windowDist_congr p.1 d (X b) _ _ _ fun l hl f hf => kernelAt_row (W i) p.2 p.1 d k l f hsh hl hf]
  unfold ShapeletDist at hT ⊢
  rwa [hset] at hT

/-- Column `j` of `locate` is the first window closest to shapelet `j` of `shapelets_`, when values are missing only at the end. -/
theorem C84_locate_partial (sizes : List (ℕ × ℕ)) (d units : ℕ) (net : List (NetLayer K)) (h : FittedNet sizes d units net)
    (hd : d = 1 ∨ ∀ p ∈ sizes, p.2 = 1) (shp : List (Ten K)) (hs : shapeletsAttr sizes net = .ok (shp.map some)) (sz B : ℕ)
    (X : ℕ → ℕ → ℕ → Option K) (b : ℕ) (hb : b < B)
    (hpre : ∀ L t t', t' ≤ t → ValidWindow sz L d (X b) t → ValidWindow sz L d (X b) t') :
    List.Forall₂ (fun w t => (∃ t, ValidWindow sz (w.shape.headD 0) d (X b) t) → ValidWindow sz (w.shape.headD 0) d (X b) t ∧
        ShapeletDist sz (w.shape.headD 0) d (X b) (w.at2 d) (windowDist (w.shape.headD 0) d (X b) (w.at2 d) t) ∧
        ∀ t' < t, windowDist (w.shape.headD 0) d (X b) (w.at2 d) t < windowDist (w.shape.headD 0) d (X b) (w.at2 d) t')
      shp (netLocate sizes net sz d B X b) := by
  obtain ⟨W, hW, hattr, hlen, hrow⟩ := C84_shapelets sizes d units net h
  have hshp : shp = shapeletList sizes W := by
    rw [hs] at hattr
    exact List.map_injective_iff.2 (Option.some_injective _) (Except.ok.inj hattr)
  rw [hshp]
  refine forall2_flatMap _ fun p hp => forall2_map _ fun k hk => ?_
  obtain ⟨p, i⟩ := p
  have hp' := List.mk_mem_zipIdx_iff_getElem?.1 hp
  have hk' := List.mem_range.1 hk
  obtain ⟨hg, hsh, hwf⟩ := hW i p hp'
  simp only [(hrow i p k hp' hk').1, List.headD_cons, shpKernel_eq hg]
  intro hv
  have hd' := hd.imp id fun h => h p (List.mem_of_getElem? hp')
  have hT := C45_transform_partial sz p.1 d p.2 B (kernelAt (W i)) X b k hb hk' hd' hv
  obtain ⟨h1, h2, h3⟩ := C45_locate_partial sz p.1 d p.2 B (kernelAt (W i)) X b k hb hk' hd' hv (hpre p.1)
  have hc : ∀ t, windowDist p.1 d (X b) (kernelAt (W i) k) t = windowDist p.1 d (X b) (((W i).row k).at2 d) t := fun t =>
    windowDist_congr p.1 d (X b) _ _ t fun l hl f hf => kernelAt_row (W i) p.2 p.1 d k l f hsh hl hf
  unfold ShapeletDist at hT ⊢
  simp only [hc] at h2 h3 hT
  rw [← h2] at h3 hT
  exact ⟨h1, hT, h3⟩

end

section
variable {K : Type}

theorem sameShapes_iff (vs ws : List (Ten K)) : sameShapes vs ws = true ↔ vs.map Ten.shape = ws.map Ten.shape := by
  simp [sameShapes]

theorem giveWeights_self (net : List (NetLayer K)) : giveWeights net (net.flatMap NetLayer.weights) = net := by
  induction net with
  | nil => rfl
  | cons l net ih =>
    simp only [giveWeights, List.flatMap_cons, List.take_left, List.drop_left, ih]

theorem giveWeights_flat (net : List (NetLayer K)) (ws : List (Ten K)) (h : ws.length = (net.flatMap NetLayer.weights).length) :
    (giveWeights net ws).flatMap NetLayer.weights = ws := by
  induction net generalizing ws with
  | nil =>
    have : ws = [] := List.length_eq_zero_iff.1 (by simpa using h)
    simp [giveWeights, this]
  | cons l net ih =>
    simp only [List.flatMap_cons, List.length_append] at h
    simp only [giveWeights, List.flatMap_cons]
    rw [ih _ (by rw [List.length_drop]; omega), List.take_append_drop]

/-- The weights of the whole network: setting those that were read changes nothing; after setting weights exactly these are read; setting
succeeds exactly when their shapes are those of the network. -/
theorem C84_all_weights (net : List (NetLayer K)) (ws : List (Ten K)) :
    (∀ vs, netGetWeights net none = .ok vs → netSetWeights net vs none = .ok net ∧
      ((∃ net', netSetWeights net ws none = .ok net') ↔ vs.map Ten.shape = ws.map Ten.shape)) ∧
    ∀ net', netSetWeights net ws none = .ok net' → netGetWeights net' none = .ok ws ∧ netSig net' = netSig net := by
  have hset : ∀ net', netSetWeights net ws none = .ok net' → (net.flatMap NetLayer.weights).map Ten.shape = ws.map Ten.shape ∧ net' = giveWeights net ws := by
    intro net' h
    unfold netSetWeights at h
    split_ifs at h with h1
    exact ⟨(sameShapes_iff _ _).1 h1, (Except.ok.inj h).symm⟩
  refine ⟨fun vs hv => ?_, fun net' h => ?_⟩
  · obtain rfl := Except.ok.inj hv
    refine ⟨by simp [netSetWeights, sameShapes, giveWeights_self], fun ⟨net', h⟩ => (hset net' h).1, fun h => ?_⟩
    exact ⟨_, by rw [netSetWeights, if_pos ((sameShapes_iff _ _).2 h)]⟩
  · obtain ⟨h1, rfl⟩ := hset net' h
    refine ⟨by rw [netGetWeights, giveWeights_flat _ _ (by simpa using (congrArg List.length h1).symm)], ?_⟩
    clear h hset
    induction net generalizing ws with
    | nil => rfl
    | cons l net ih =>
      simp only [List.flatMap_cons, List.map_append] at h1
      have h2 : ws = ws.take l.weights.length ++ ws.drop l.weights.length := (List.take_append_drop _ _).symm
      have h0 := congrArg List.length h1
      rw [h2, List.map_append] at h1
      have hl : (l.weights.map Ten.shape).length = ((ws.take l.weights.length).map Ten.shape).length := by
        simp only [List.length_append, List.length_map, List.length_take] at h0 ⊢
        omega
      obtain ⟨h3, h4⟩ := List.append_inj h1 hl
      have := ih _ h4
      simp only [netSig, giveWeights, List.map_cons, h3] at this ⊢
      rw [this]

theorem getLayer_set {net : List (NetLayer K)} {name : String} {l : NetLayer K} (h : getLayer net name = .ok l) (ws : List (Ten K)) (name' : String) :
    getLayer (net.set (net.findIdx fun l => l.name == name) { l with weights := ws }) name' =
      if name' = name then .ok { l with weights := ws } else getLayer net name' := by
  have hn := (getLayer_ok h).2
  have hf : net.find? (fun l => l.name == name) = some l := by
    unfold getLayer at h
    split at h
    · next l' hl => rw [hl, Except.ok.inj h]
    · cases h
  clear h
  unfold getLayer
  induction net with
  | nil => simp at hf
  | cons a net ih =>
    rw [List.findIdx_cons]
    by_cases ha : a.name = name
    · have hal : a = l := by simpa [ha] using hf
      subst hal
      by_cases hn' : name' = name
      · simp [ha, hn']
      · have : ¬a.name = name' := fun e => hn' (e.symm.trans ha)
        simp [ha, hn', Ne.symm hn']
    · have hf' : net.find? (fun l => l.name == name) = some l := by simpa [ha] using hf
      have := ih hf'
      have hb : (a.name == name) = false := by simpa using ha
      rw [hb, cond_false, List.set_cons_succ]
      by_cases hn' : name' = name
      · subst hn'
        simpa [ha] using this
      · by_cases han : a.name = name'
        · simp [han, hn']
        · simpa [ha, han, hn'] using this

/-- The weights of one layer: `set_weights(w, name)` succeeds exactly for a name of the network and weights of the shapes of that layer, raises
`ValueError` otherwise; afterwards `get_weights(name)` gives `w`, and all other layers have the weights they had. -/
theorem C84_layer_weights (net : List (NetLayer K)) (ws : List (Ten K)) (name : String) :
    (∀ net', netSetWeights net ws (some name) = .ok net' → netGetWeights net' (some name) = .ok ws ∧
      ∀ name' ≠ name, netGetWeights net' (some name') = netGetWeights net (some name')) ∧
    (∀ vs, netGetWeights net (some name) = .ok vs → vs.map Ten.shape = ws.map Ten.shape → ∃ net', netSetWeights net ws (some name) = .ok net') ∧
    (∀ vs, netGetWeights net (some name) = .ok vs → vs.map Ten.shape ≠ ws.map Ten.shape → netSetWeights net ws (some name) = .error .valueError) ∧
    ((∀ l ∈ net, l.name ≠ name) → netSetWeights net ws (some name) = .error .valueError ∧ netGetWeights net (some name) = .error .valueError) := by
  refine ⟨fun net' h => ?_, fun vs hv hs => ?_, fun vs hv hs => ?_, fun hn => ?_⟩
  · unfold netSetWeights at h
    cases hg : getLayer net name with
    | error e => simp [hg, bind, Except.bind] at h
    | ok l =>
      simp only [hg, bind, Except.bind, pure, Except.pure] at h
      split_ifs at h with h1
      obtain rfl := Except.ok.inj h
      refine ⟨by simp [netGetWeights, getLayer_set hg, bind, Except.bind, pure, Except.pure], fun name' hne => ?_⟩
      simp [netGetWeights, getLayer_set hg, hne]
  · cases hg : getLayer net name with
    | error e => simp [netGetWeights, hg, bind, Except.bind] at hv
    | ok l =>
      have hv' : l.weights = vs := by simpa [netGetWeights, hg, bind, Except.bind, pure, Except.pure] using hv
      refine ⟨net.set (net.findIdx fun l => l.name == name) { l with weights := ws }, ?_⟩
      · simp [netSetWeights, hg, bind, Except.bind, pure, Except.pure, (sameShapes_iff l.weights ws).2 (by rw [hv', hs])]
  · cases hg : getLayer net name with
    | error e => simp [netGetWeights, hg, bind, Except.bind] at hv
    | ok l =>
      have hv' : l.weights = vs := by simpa [netGetWeights, hg, bind, Except.bind, pure, Except.pure] using hv
      have : sameShapes l.weights ws = false := by
        rw [← Bool.not_eq_true, sameShapes_iff, hv']
        exact hs
      simp [netSetWeights, hg, bind, Except.bind, this, throw, throwThe, MonadExceptOf.throw]
  · have : getLayer net name = .error .valueError := by
      unfold getLayer
      rw [List.find?_eq_none.2 fun l hl => by simpa using hn l hl]
    simp [netSetWeights, netGetWeights, this, bind, Except.bind]

theorem set_sig {net net' : List (NetLayer K)} {ws : List (Ten K)} {name : String} (h : netSetWeights net ws (some name) = .ok net') :
    netSig net' = netSig net ∧ ∀ l ∈ net', l ∈ net ∨ l.weights = ws := by
  unfold netSetWeights at h
  cases hg : getLayer net name with
  | error e => simp [hg, bind, Except.bind] at h
  | ok l =>
    simp only [hg, bind, Except.bind, pure, Except.pure] at h
    split_ifs at h with h1
    obtain rfl := Except.ok.inj h
    have hf : net.find? (fun l => l.name == name) = some l := by
      unfold getLayer at hg
      split at hg
      · next l' hl => rw [hl, Except.ok.inj hg]
      · cases hg
    refine ⟨?_, fun l' hl' => ?_⟩
    · unfold netSig
      rw [List.map_set]
      simp only [← (sameShapes_iff _ _).1 h1]
      apply List.ext_getElem?
      intro i
      rw [List.getElem?_set]
      split_ifs with h2 h3
      · subst h2
        rw [List.getElem?_map]
        have hlt : (net.findIdx fun l => l.name == name) < net.length := by simpa using h3
        have := List.find?_eq_some_iff_getElem.1 hf
        obtain ⟨-, j, hj, hjl, hmin⟩ := this
        have hij : (net.findIdx fun l => l.name == name) = j := by
          rw [List.findIdx_eq hj]
          refine ⟨by rw [hjl]; simpa using (getLayer_ok hg).2, fun k hk => by simpa using hmin k hk⟩
        rw [hij, List.getElem?_eq_getElem hj, hjl]
        rfl
      · exact (List.getElem?_eq_none (Nat.le_of_not_lt (h2 ▸ h3))).symm
      · rfl
    · rcases List.mem_or_eq_of_mem_set hl' with h | h
      · exact .inl h
      · exact .inr (by rw [h])

/-- `set_weights` keeps the estimator in a state `fit` could have left; with the weights of a shapelets layer, `shapelets_` then has the rows given
for that length, and the others as before. -/
theorem C84_set_shapelets (sizes : List (ℕ × ℕ)) (d units : ℕ) (net net' : List (NetLayer K)) (h : FittedNet sizes d units net) (i : ℕ) (w : Ten K)
    (hwf : w.WF) (hset : netSetWeights net [w] (some (shpName i)) = .ok net') :
    FittedNet sizes d units net' ∧ ∃ W : ℕ → Ten K, shapeletsAttr sizes net = .ok ((shapeletList sizes W).map some) ∧
      shapeletsAttr sizes net' = .ok ((shapeletList sizes (Function.update W i w)).map some) := by
  obtain ⟨hsig, hmem⟩ := set_sig hset
  have hfit : FittedNet sizes d units net' := by
    refine ⟨?_, fun l hl v hv => ?_⟩
    · obtain ⟨init, dense, bias, net₀, h1, h2, h3, h4, h5⟩ := h.built
      exact ⟨init, dense, bias, net₀, h1, h2, h3, h4, hsig.trans h5⟩
    · rcases hmem l hl with h' | h'
      · exact h.wf l h' v hv
      · rw [h'] at hv
        rw [List.mem_singleton.1 hv]
        exact hwf
  obtain ⟨W, hW, hattr, -⟩ := C84_shapelets sizes d units net h
  obtain ⟨W', hW', hattr', -⟩ := C84_shapelets sizes d units net' hfit
  obtain ⟨hset1, hset2⟩ := (C84_layer_weights net [w] (shpName i)).1 net' hset
  refine ⟨hfit, W, hattr, ?_⟩
  rw [hattr']
  congr 2
  unfold shapeletList
  refine List.flatMap_congr fun p hp => ?_
  have hp' := List.mk_mem_zipIdx_iff_getElem?.1 (show (p.1, p.2) ∈ _ from hp)
  have hk : W' p.2 = Function.update W i w p.2 := by
    by_cases hi : p.2 = i
    · have := (hW' p.2 p.1 hp').1
      rw [hi, hset1] at this
      rw [hi, Function.update_self]
      simpa using this.symm
    · have := (hW' p.2 p.1 hp').1
      rw [hset2 _ fun e => hi (shpName_inj e), (hW p.2 p.1 hp').1] at this
      rw [Function.update_of_ne hi]
      simpa using this.symm
  rw [hk]

/-- A saved model is loaded as it was, whatever the weights `model_from_json` starts with. -/
theorem C84_saved (fresh : List ℕ → Ten K) (hf : ∀ s, (fresh s).shape = s) (m : ShpModel K) : shpLoad fresh (shpSave m) = .ok m := by
  have hkeys : ∀ s : List (ℕ × ℕ), intKeys (s.map fun p => (Nat.repr p.1, p.2)) = .ok s := by
    intro s
    unfold intKeys
    rw [mapM_ok _ (fun p => (p.1.toNat?.getD 0, p.2))]
    · simp [Function.comp_def, Nat.toNat?_repr]
    · intro p hp
      obtain ⟨q, -, rfl⟩ := List.mem_map.1 hp
      simp [Nat.toNat?_repr]
  have hnet : netSetWeights ((m.net.map fun l => (l.name, l.weights.map Ten.shape)).map fun l => (⟨l.1, l.2.map fresh⟩ : NetLayer K))
      (m.net.flatMap NetLayer.weights) none = .ok m.net := by
    have hg : ∀ net : List (NetLayer K), giveWeights ((net.map fun l => (l.name, l.weights.map Ten.shape)).map fun l => (⟨l.1, l.2.map fresh⟩ : NetLayer K))
        (net.flatMap NetLayer.weights) = net := by
      intro net
      induction net with
      | nil => rfl
      | cons l net ih => simp [giveWeights] at ih ⊢; exact ih
    rw [netSetWeights, if_pos, hg]
    rw [sameShapes_iff]
    generalize m.net = net
    induction net with
    | nil => rfl
    | cons l net ih =>
      simp only [List.map_cons, List.flatMap_cons, List.map_append] at ih ⊢
      rw [ih]
      congr 1
      simp [hf]
  unfold shpLoad
  have hparam : loadParam (shpSave m).param = .ok m.param := by
    cases hp : m.param with
    | none => simp [shpSave, hp, loadParam]
    | some s =>
      cases s with
      | nil => simp [shpSave, hp, loadParam]
      | cons p s =>
        have := hkeys (p :: s)
        simp only [List.map_cons] at this
        simp [shpSave, hp, this, loadParam, Except.map]
  simp only [hparam, bind, Except.bind]
  simp only [shpSave, hnet, hkeys, pure, Except.pure]

end

theorem denseSums_eq (units : ℕ) (w b : Ten ℝ) (feat : List ℝ) : denseSums units w b feat = (List.range units).map (linScore units w b feat) := by
  unfold denseSums linScore Ten.at2
  refine List.map_congr_left fun u _ => ?_
  congr 1

/-- `predict_proba` is the softmax of linear scores of the columns of `transform`, one column per label; with two labels the first has score 0. -/
theorem C84_proba (sizes : List (ℕ × ℕ)) (d nClasses : ℕ) (net : List (NetLayer ℝ)) (h : FittedNet sizes d (shpUnits nClasses) net) (hn : 2 ≤ nClasses)
    (sz B : ℕ) (X : ℕ → ℕ → ℕ → Option ℝ) (b : ℕ) :
    ∃ w bias, netGetWeights net (some "classification") = .ok [w, bias] ∧ w.shape.headD 0 = (netTransform sizes net sz d B X b).length ∧
      netProba sizes net nClasses sz d B X b = .ok (softmaxL (classScores nClasses w bias (netTransform sizes net sz d B X b))) := by
  obtain ⟨w, bias, hg, hw, hb, -⟩ := FittedNet_dense h
  have hfl : (netTransform sizes net sz d B X b).length = (sizes.map Prod.snd).sum := by
    rw [← length_shapeletList sizes fun _ => (⟨[], []⟩ : Ten ℝ)]
    unfold netTransform shapeletList
    simp only [List.length_flatMap, List.length_map]
  refine ⟨w, bias, by simp [netGetWeights, hg, bind, Except.bind, pure, Except.pure], by rw [hw, hfl]; rfl, ?_⟩
  unfold netProba
  simp only [hg, bind, Except.bind]
  generalize netTransform sizes net sz d B X b = feat
  rw [denseSums_eq]
  by_cases h2 : 2 < nClasses
  · have hu : shpUnits nClasses = nClasses := by simp [shpUnits, h2]
    have hc : classScores nClasses w bias feat = (List.range nClasses).map (linScore nClasses w bias feat) := by
      unfold classScores
      rw [if_neg (by omega)]
    rw [hu, hc]
    have hact : shpActivation nClasses ((List.range nClasses).map (linScore nClasses w bias feat)) =
        softmaxL ((List.range nClasses).map (linScore nClasses w bias feat)) := by simp [shpActivation, h2, softmaxL]
    rw [hact]
    have hl : (softmaxL ((List.range nClasses).map (linScore nClasses w bias feat))).length = nClasses := by simp [softmaxL]
    generalize softmaxL _ = ps at hl
    match ps, hl with
    | [], h' => rfl
    | [_], h' => simp at h'; omega
    | p :: q :: ps, h' => rfl
  · obtain rfl : nClasses = 2 := by omega
    have hu : shpUnits 2 = 1 := by simp [shpUnits]
    rw [hu]
    simp only [shpActivation, lt_irrefl, if_false, List.range_one, List.map_cons, List.map_nil, if_true, classScores, softmaxL, List.sum_cons, List.sum_nil,
      Real.exp_zero, pure, Except.pure, Except.ok.injEq, List.cons.injEq, and_true, add_zero]
    generalize linScore 1 w bias feat 0 = a
    have h1 := Real.exp_pos a
    have h2 : Real.exp (-a) = 1 / Real.exp a := by rw [Real.exp_neg, one_div]
    rw [h2]
    constructor <;> field_simp <;> ring

/-- They are positive and add up to one. -/
theorem C84_probabilities (z : List ℝ) (h : z ≠ []) : (softmaxL z).length = z.length ∧ (∀ p ∈ softmaxL z, 0 < p) ∧ (softmaxL z).sum = 1 := by
  have hge : ∀ l : List ℝ, 0 ≤ (l.map Real.exp).sum := fun l => List.sum_nonneg (by
    intro x hx
    obtain ⟨a, -, rfl⟩ := List.mem_map.1 hx
    exact (Real.exp_pos a).le)
  have hpos : 0 < (z.map Real.exp).sum := by
    obtain ⟨a, z', rfl⟩ := List.exists_cons_of_ne_nil h
    rw [List.map_cons, List.sum_cons]
    exact add_pos_of_pos_of_nonneg (Real.exp_pos a) (hge z')
  refine ⟨by simp [softmaxL], fun p hp => ?_, ?_⟩
  · obtain ⟨a, -, rfl⟩ := List.mem_map.1 hp
    exact div_pos (Real.exp_pos a) hpos
  · have : softmaxL z = (z.map Real.exp).map (fun a => a * ((z.map Real.exp).sum)⁻¹) := by
      simp [softmaxL, List.map_map, Function.comp_def, div_eq_mul_inv]
    rw [this, List.sum_map_mul_right, List.map_id', mul_inv_cancel₀ hpos.ne']

/-- The dictionary of lengths found by the heuristic belongs to the estimator: later changes of dictionaries in use before do not touch it. -/
theorem C84_heuristic_sizes (heap : DictHeap) (s s' : List (ℕ × ℕ)) (new r : ℕ) (hr : r ≠ new) :
    let st := fitSizes heap none s new
    Function.update st.1 r s' st.2 = s := by
  simp [fitSizes, Ne.symm hr]

section Demo

/-- One shapelet of two samples and two of one sample, for series of one feature and two classes. -/
def demoNet (K : Type) [Ring K] : List (NetLayer K) :=
  [⟨"input", []⟩, ⟨"patching_0", []⟩, ⟨"shapelets_0", [⟨[1, 2, 1], [1, 2]⟩]⟩, ⟨"min_pooling_0", []⟩, ⟨"patching_1", []⟩,
    ⟨"shapelets_1", [⟨[2, 1, 1], [5, 7]⟩]⟩, ⟨"min_pooling_1", []⟩, ⟨"concatenate", []⟩,
    ⟨"classification", [⟨[3, 1], [1, 0, -1]⟩, ⟨[1], [2]⟩]⟩]

theorem demoNet_fitted (K : Type) [Ring K] : FittedNet [(2, 1), (1, 2)] 1 1 (demoNet K) where
  built := ⟨fun L nb => ⟨[nb, L, 1], []⟩, ⟨[3, 1], []⟩, ⟨[1], []⟩, _, fun _ _ => rfl, rfl, rfl, rfl, rfl⟩
  wf := by simp [demoNet, Ten.WF]

example : shapeletsAttr [(2, 1), (1, 2)] (demoNet ℚ) = .ok [some ⟨[2, 1], [1, 2]⟩, some ⟨[1, 1], [5]⟩, some ⟨[1, 1], [7]⟩] := by decide +kernel

example : (shapeletsAsSeries [(2, 1), (1, 2)] (demoNet ℚ)).toOption =
    some [[[some 1], [some 2]], [[some 5], [none]], [[some 7], [none]]] := by decide +kernel

/-- The series 0, 1, 2, 6 and a missing value. -/
def demoX : ℕ → ℕ → ℕ → Option ℚ := fun _ t _ => [some 0, some 1, some 2, some 6, none].getD t none

example : netTransform [(2, 1), (1, 2)] (demoNet ℚ) 5 1 1 demoX 0 = [0, 1, 1] ∧ netLocate [(2, 1), (1, 2)] (demoNet ℚ) 5 1 1 demoX 0 = [1, 3, 3] := by
  decide +kernel

example : ∃ t, ValidWindow 5 2 1 (demoX 0) t := ⟨0, by decide, by decide⟩

example : ∀ L t t', t' ≤ t → ValidWindow 5 L 1 (demoX 0) t → ValidWindow 5 L 1 (demoX 0) t' := by
  intro L t t' ht ⟨h1, h2⟩
  refine ⟨by omega, fun l hl f hf => ?_⟩
  have h4 : t + (L - 1) < 4 := by
    by_contra hc
    refine h2 (L - 1) (by omega) 0 (by omega) ?_
    have : t + (L - 1) = 4 := by omega
    simp [demoX, this]
  have h3 : t' + l < 4 := by omega
  generalize t' + l = k at h3
  interval_cases k <;> simp [demoX]

example : ∃ w bias, netGetWeights (demoNet ℝ) (some "classification") = .ok [w, bias] ∧
    netProba [(2, 1), (1, 2)] (demoNet ℝ) 2 5 1 1 (fun _ _ _ => some 0) 0 =
      .ok (softmaxL (classScores 2 w bias (netTransform [(2, 1), (1, 2)] (demoNet ℝ) 5 1 1 (fun _ _ _ => some 0) 0))) := by
  obtain ⟨w, bias, h1, -, h2⟩ := C84_proba _ 1 2 _ (demoNet_fitted ℝ) le_rfl 5 1 (fun _ _ _ => some 0) 0
  exact ⟨w, bias, h1, h2⟩

example : ((netSetWeights (demoNet ℚ) [⟨[1, 2, 1], [8, 9]⟩] (some "shapelets_0")).toOption.map fun net =>
    (shapeletsAttr [(2, 1), (1, 2)] net).toOption) = some (some [some ⟨[2, 1], [8, 9]⟩, some ⟨[1, 1], [5]⟩, some ⟨[1, 1], [7]⟩]) := by decide +kernel

example : (netSetWeights (demoNet ℚ) [⟨[1, 3, 1], [8, 9, 9]⟩] (some "shapelets_0")).toOption.isNone ∧
    (netGetWeights (demoNet ℚ) (some "shapelets_2")).toOption = none := by decide +kernel

example : ∃ f : List ℕ → Ten ℚ, ∀ s, (f s).shape = s := ⟨fun s => ⟨s, []⟩, fun _ => rfl⟩

example : (shpSave (⟨some [(12, 1)], [(12, 1)], [5, 20, 1], []⟩ : ShpModel ℚ)).sizes = [("12", 1)] := by decide +kernel

end Demo

/-- False: the shapelets of a fitted estimator depend only on what was learnt. With `n_shapelets_per_size` given, the attribute
`n_shapelets_per_size_` is the same dictionary: when its owner adds an entry to it after `fit`, `shapelets_` raises. -/
theorem C84_false_alias : ∃ (heap : DictHeap) (r : ℕ) (net : List (NetLayer ℚ)),
    let st := fitSizes heap (some r) [] 0
    FittedNet (st.1 st.2) 1 1 net ∧ (∃ l, shapeletsAttr (st.1 st.2) net = .ok l) ∧
      shapeletsAttr (Function.update st.1 r (st.1 r ++ [(4, 1)]) st.2) net = .error .valueError :=
  ⟨fun _ => [(2, 1), (1, 2)], 3, demoNet ℚ, demoNet_fitted ℚ, ⟨_, by
    show shapeletsAttr [(2, 1), (1, 2)] (demoNet ℚ) = .ok [some ⟨[2, 1], [1, 2]⟩, some ⟨[1, 1], [5]⟩, some ⟨[1, 1], [7]⟩]
    decide +kernel⟩, by decide +kernel⟩

end Verif
