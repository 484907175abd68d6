import Verif.Proofs.OrderDba
import Verif.Model.SoftBary
import Verif.Model.Cdist
/-!
Datasets, Euclidean and soft-DTW barycenters of series given in another order.
-/
set_option linter.unusedSectionVars false
namespace Verif

section
variable {α : Type}

theorem foldr_max_perm {l l' : List ℕ} (h : l.Perm l') : l.foldr max 0 = l'.foldr max 0 := by
  induction h with
  | nil => rfl
  | cons a _ ih => simp [ih]
  | swap a b l => simp only [List.foldr_cons]; omega
  | trans _ _ h1 h2 => exact h1.trans h2

theorem toDataset_series (l : List (Ts α)) : toDataset (.series l) = toDatasetSeries l := rfl

theorem toDatasetSeries_cons (d : ℕ) (l : List (Ts α)) (hl : l ≠ []) (hd : ∀ t ∈ l, t.d = d) :
    toDatasetSeries l = (l.mapM fun t => fillSlot ((l.map fun t => tsSize t.rows).foldr max 0) d t.trim).map
      fun data => ⟨(l.map fun t => tsSize t.rows).foldr max 0, d, data⟩ := by
  cases l with
  | nil => exact absurd rfl hl
  | cons t0 l =>
    unfold toDatasetSeries
    have h0 : t0.d = d := hd t0 (by simp)
    simp only [h0]
    cases hm : (t0 :: l).mapM fun t => fillSlot (((t0 :: l).map fun t => tsSize t.rows).foldr max 0) d t.trim with
    | error e => rfl
    | ok data => rfl

/-- Series with the same number of features: both orders fail, or the slots of one dataset are those of the other, reordered alike. -/
theorem toDatasetSeries_order {β : Type} (d : ℕ) {z z' : List (Ts α × β)} (h : z.Perm z') (hd : ∀ p ∈ z, p.1.d = d) :
    ((∃ e, toDatasetSeries (z.map Prod.fst) = .error e) ∧ ∃ e, toDatasetSeries (z'.map Prod.fst) = .error e) ∨
    ∃ (g : Ts α → List (List (Option α))) (sz dd : ℕ),
      toDatasetSeries (z.map Prod.fst) = .ok ⟨sz, dd, (z.map Prod.fst).map g⟩ ∧
      toDatasetSeries (z'.map Prod.fst) = .ok ⟨sz, dd, (z'.map Prod.fst).map g⟩ := by
  by_cases hz : z = []
  · subst hz
    obtain rfl := h.nil_eq
    exact Or.inr ⟨fun _ => [], 0, 0, rfl, rfl⟩
  have hz' : z' ≠ [] := fun h0 => hz (by rw [h0] at h; exact h.eq_nil)
  have hm := foldr_max_perm ((h.map Prod.fst).map fun t => tsSize t.rows)
  rw [toDatasetSeries_cons d (z.map Prod.fst) (by simpa using hz) (by simpa using fun a b hab => hd (a, b) hab),
    toDatasetSeries_cons d (z'.map Prod.fst) (by simpa using hz') (by simpa using fun a b hab => hd (a, b) (h.mem_iff.2 hab)), hm]
  set f := fun t : Ts α => fillSlot (((z'.map Prod.fst).map fun t => tsSize t.rows).foldr max 0) d t.trim
  by_cases herr : ∃ x ∈ z.map Prod.fst, ∃ e, f x = .error e
  · left
    have herr' : ∃ x ∈ z'.map Prod.fst, ∃ e, f x = .error e := by
      obtain ⟨x, hx, he⟩ := herr
      exact ⟨x, (h.map Prod.fst).mem_iff.1 hx, he⟩
    obtain ⟨e, he⟩ := mapM_error f _ herr
    obtain ⟨e', he'⟩ := mapM_error f _ herr'
    rw [he, he']
    exact ⟨⟨e, rfl⟩, ⟨e', rfl⟩⟩
  · right
    have hg : ∃ g : Ts α → List (List (Option α)), ∀ x ∈ z.map Prod.fst, f x = .ok (g x) := by
      refine ⟨fun x => match f x with | .ok v => v | .error _ => [], fun x hx => ?_⟩
      cases hp : f x with
      | ok v => simp [hp]
      | error e => exact absurd ⟨x, hx, e, hp⟩ herr
    obtain ⟨g, hg⟩ := hg
    have hg' : ∀ x ∈ z'.map Prod.fst, f x = .ok (g x) := fun x hx => hg x ((h.map Prod.fst).mem_iff.2 hx)
    rw [mapM_ok_map f g _ hg, mapM_ok_map f g _ hg']
    exact ⟨g, _, d, rfl, rfl⟩

end

section
variable {K : Type} [Field K] [LinearOrder K]

theorem mapM_id_pairs {A : Type} (c : A → Option K) (y : List (A × K)) :
    (y.map fun p => c p.1).mapM id = if ∀ p ∈ y, (c p.1).isSome then some (y.map fun p => (c p.1).getD 0) else none := by
  induction y with
  | nil => rfl
  | cons p y ih =>
    rw [List.map_cons, List.mapM_cons, ih]
    cases hc : c p.1 with
    | none => simp [hc]
    | some v =>
      by_cases hy : ∀ q ∈ y, (c q.1).isSome
      · rw [if_pos hy, if_pos (by simpa [hc] using fun a b hab => hy (a, b) hab)]
        simp [hc]
      · rw [if_neg hy, if_neg (fun hh => hy fun q hq => hh q (by simp [hq]))]
        simp

theorem nanMean_perm {l l' : List (Option K)} (h : l.Perm l') : nanMeanK l = nanMeanK l' := by
  have hp : (l.filterMap id).Perm (l'.filterMap id) := h.filterMap id
  unfold nanMeanK
  simp only [hp.sum_eq, hp.length_eq]
  by_cases h0 : l'.filterMap id = []
  · rw [if_pos h0, if_pos (by rw [h0] at hp; exact hp.eq_nil)]
  · rw [if_neg h0, if_neg fun h1 => h0 (by rw [h1] at hp; exact hp.nil_eq.symm)]

theorem entry_pairs {A : Type} (g : A → List (List (Option K))) (y : List (A × K)) (sz d t f : ℕ) :
    ((List.range y.length).map fun i => (⟨sz, d, (y.map Prod.fst).map g⟩ : Arr3 K).entry i t f) = y.map fun p => ((g p.1).getD t []).getD f none := by
  refine List.ext_getElem (by simp) fun k h1 h2 => ?_
  have hk : k < y.length := by simpa using h2
  simp [Arr3.entry, hk]

variable {z z' : List (Ts K × K)}

theorem zip_sum_pairs {A : Type} (v : A → K) (y : List (A × K)) :
    (List.zipWith (· * ·) (y.map fun p => v p.1) (y.map Prod.snd)).sum = (y.map fun p => v p.1 * p.2).sum := by
  rw [List.zipWith_map, List.zipWith_self]

theorem euclideanBarycenter_order {d : ℕ} (h : z.Perm z') (hd : ∀ p ∈ z, p.1.d = d) {w w' : Option (List K)}
    (hw : setWeights w z.length = z.map Prod.snd) (hw' : setWeights w' z'.length = z'.map Prod.snd) :
    (euclideanBarycenter (.series (z'.map Prod.fst)) w').toOption = (euclideanBarycenter (.series (z.map Prod.fst)) w).toOption := by
  unfold euclideanBarycenter
  rw [toDataset_series, toDataset_series]
  rcases toDatasetSeries_order d h hd with ⟨⟨e, he⟩, ⟨e', he'⟩⟩ | ⟨g, sz, dd, hg, hg'⟩
  · rw [he, he']; rfl
  · have hcell : ∀ t f, (match (z'.map fun p => ((g p.1).getD t []).getD f none).mapM id with
          | some col => some ((List.zipWith (· * ·) col (z'.map Prod.snd)).sum / (z'.map Prod.snd).sum)
          | none => none) =
        (match (z.map fun p => ((g p.1).getD t []).getD f none).mapM id with
          | some col => some ((List.zipWith (· * ·) col (z.map Prod.snd)).sum / (z.map Prod.snd).sum)
          | none => none) := by
      intro t f
      rw [mapM_id_pairs (fun a => ((g a).getD t []).getD f none), mapM_id_pairs (fun a => ((g a).getD t []).getD f none)]
      have hiff : (∀ p ∈ z', ((((g p.1).getD t []).getD f none)).isSome) ↔ ∀ p ∈ z, ((((g p.1).getD t []).getD f none)).isSome := by
        simp only [h.mem_iff]
      by_cases hz : ∀ p ∈ z, ((((g p.1).getD t []).getD f none)).isSome
      · rw [if_pos hz, if_pos (hiff.2 hz)]
        simp only
        rw [zip_sum_pairs (fun a => (((g a).getD t []).getD f none).getD 0), zip_sum_pairs (fun a => (((g a).getD t []).getD f none).getD 0),
          (h.map _).sum_eq, (h.map Prod.snd).sum_eq]
      · rw [if_neg hz, if_neg (fun hh => hz (hiff.1 hh))]
    rw [hg, hg']
    simp only [bind, Except.bind, List.length_map, hw, hw', entry_pairs]
    by_cases hs : (z.map Prod.snd).sum = 0
    · rw [if_pos hs, if_pos (by rw [← (h.map Prod.snd).sum_eq]; exact hs)]
      rfl
    · rw [if_neg hs, if_neg (by rw [← (h.map Prod.snd).sum_eq]; exact hs)]
      exact congrArg (fun r => (pure r : Except PyErr _).toOption)
        (List.map_congr_left fun t _ => List.map_congr_left fun f _ => hcell t f)

/-- `dbaSeries` on slots: both orders fail, or each series is read alike. -/
theorem dbaSeries_order (g : Ts K → List (List (Option K))) (h : z.Perm z') (sz d : ℕ) :
    ((∃ e, dbaSeries ⟨sz, d, (z.map Prod.fst).map g⟩ = .error e) ∧ ∃ e, dbaSeries ⟨sz, d, (z'.map Prod.fst).map g⟩ = .error e) ∨
    ∃ k : Ts K → List (List K), dbaSeries ⟨sz, d, (z.map Prod.fst).map g⟩ = .ok ((z.map Prod.fst).map k) ∧
      dbaSeries ⟨sz, d, (z'.map Prod.fst).map g⟩ = .ok ((z'.map Prod.fst).map k) := by
  set f : List (List (Option K)) → Except PyErr (List (List K)) := fun s =>
    match denan (s.take (tsSize s)) with
    | some x => .ok x
    | none => .error .notModelled with hf
  have hdef : ∀ y : List (Ts K × K), dbaSeries ⟨sz, d, (y.map Prod.fst).map g⟩ = ((y.map Prod.fst).map g).mapM f := fun y => rfl
  rw [hdef, hdef]
  have hp := (h.map Prod.fst).map g
  by_cases herr : ∃ x ∈ (z.map Prod.fst).map g, ∃ e, f x = .error e
  · left
    have herr' : ∃ x ∈ (z'.map Prod.fst).map g, ∃ e, f x = .error e := by
      obtain ⟨x, hx, he⟩ := herr
      exact ⟨x, hp.mem_iff.1 hx, he⟩
    exact ⟨mapM_error f _ herr, mapM_error f _ herr'⟩
  · right
    have hk : ∃ k : List (List (Option K)) → List (List K), ∀ x ∈ (z.map Prod.fst).map g, f x = .ok (k x) := by
      refine ⟨fun x => match f x with | .ok v => v | .error _ => [], fun x hx => ?_⟩
      cases hp : f x with
      | ok v => simp [hp]
      | error e => exact absurd ⟨x, hx, e, hp⟩ herr
    obtain ⟨k, hk⟩ := hk
    have hk' : ∀ x ∈ (z'.map Prod.fst).map g, f x = .ok (k x) := fun x hx => hk x (hp.mem_iff.2 hx)
    rw [mapM_ok_map f k _ hk, mapM_ok_map f k _ hk']
    exact ⟨k ∘ g, by rw [List.map_map], by rw [List.map_map]⟩

theorem initAvg_order (g : Ts K → List (List (Option K))) (h : z.Perm z') (sz d size : ℕ) :
    initAvg ⟨sz, d, (z'.map Prod.fst).map g⟩ size = initAvg ⟨sz, d, (z.map Prod.fst).map g⟩ size := by
  have hcell : ∀ t f, nanMeanK (z'.map fun p => ((g p.1).getD t []).getD f none) = nanMeanK (z.map fun p => ((g p.1).getD t []).getD f none) :=
    fun t f => (nanMean_perm (h.map _)).symm
  unfold initAvg
  simp only [List.length_map, entry_pairs, hcell]

theorem dbaOneInit_order (cfg : DbaCfg K) {d : ℕ} (h : z.Perm z') (hd : ∀ p ∈ z, p.1.d = d) {w w' : Option (List K)}
    (hw : setWeights w z.length = z.map Prod.snd) (hw' : setWeights w' z'.length = z'.map Prod.snd)
    (size : Option ℕ) (init : Option (List (List K))) (maxIter : ℕ) :
    (dbaOneInit cfg (.series (z'.map Prod.fst)) size init maxIter w').toOption = (dbaOneInit cfg (.series (z.map Prod.fst)) size init maxIter w).toOption := by
  unfold dbaOneInit
  rw [toDataset_series, toDataset_series]
  rcases toDatasetSeries_order d h hd with ⟨⟨e, he⟩, ⟨e', he'⟩⟩ | ⟨g, sz, dd, hg, hg'⟩
  · rw [he, he']; rfl
  · rw [hg, hg']
    simp only [bind, Except.bind]
    rcases dbaSeries_order g h sz dd with ⟨⟨e, he⟩, ⟨e', he'⟩⟩ | ⟨k, hk, hk'⟩
    · rw [he, he']; rfl
    · rw [hk, hk']
      simp only [List.length_map, hw, hw']
      have hi : dbaInit ⟨sz, dd, (z'.map Prod.fst).map g⟩ size init = dbaInit ⟨sz, dd, (z.map Prod.fst).map g⟩ size init := by
        cases init with
        | none => exact initAvg_order g h sz dd _
        | some b => rfl
      rw [hi]
      cases dbaInit ⟨sz, dd, (z.map Prod.fst).map g⟩ size init with
      | error e => rfl
      | ok b =>
        simp only
        split_ifs
        · rfl
        · have hl := dbaLoop_order cfg (h.map fun p => (k p.1, p.2)) b.length dd maxIter b
          simp only [List.map_map, Function.comp_def] at hl ⊢
          revert hl
          generalize dbaLoop cfg (z.map fun x => k x.1) (z.map fun x => x.2) b.length dd maxIter b = r
          generalize dbaLoop cfg (z'.map fun x => k x.1) (z'.map fun x => x.2) b.length dd maxIter b = r'
          intro hl
          cases r <;> cases r' <;> simp_all [Except.toOption]

theorem dbaBest_order {run run' : Except PyErr (List (List K) × WithTop K)} (h : run'.toOption = run.toOption) :
    ∀ (n : ℕ) (c : WithTop K) (b : Option (List (List K))), (dbaBest run' n c b).toOption = (dbaBest run n c b).toOption
  | 0, _, _ => rfl
  | n + 1, c, b => by
    unfold dbaBest
    cases h1 : run with
    | error e =>
      cases h2 : run' with
      | error e' => rfl
      | ok v => rw [h1, h2] at h; cases h
    | ok v =>
      cases h2 : run' with
      | error e' => rw [h1, h2] at h; cases h
      | ok v' =>
        have hv : v' = v := by rw [h1, h2] at h; exact Option.some.inj h
        subst hv
        rw [← h1]

theorem dba_order (cfg : DbaCfg K) {d : ℕ} (h : z.Perm z') (hd : ∀ p ∈ z, p.1.d = d) {w w' : Option (List K)}
    (hw : setWeights w z.length = z.map Prod.snd) (hw' : setWeights w' z'.length = z'.map Prod.snd)
    (size : Option ℕ) (init : Option (List (List K))) (maxIter nInit : ℕ) :
    (dba cfg (.series (z'.map Prod.fst)) size init maxIter w' nInit).toOption = (dba cfg (.series (z.map Prod.fst)) size init maxIter w nInit).toOption :=
  dbaBest_order (dbaOneInit_order cfg h hd hw hw' size init maxIter) nInit ⊤ none

end

section
theorem Fl.add_comm' (a b : Fl) : a.add b = b.add a := by
  cases a <;> cases b <;> simp [Fl.add, add_comm]

theorem Fl.add_right_comm' (a b c : Fl) : (a.add b).add c = (a.add c).add b := by
  cases a <;> cases b <;> cases c <;> simp [Fl.add, add_right_comm]

theorem accSoftdtwFunc_order (γ : ℝ) (gc : ℕ) (radius : Option ℕ) (slope : Option ℚ) (junk : Mat Fl) (c : List (List ℝ)) (d : ℕ)
    {z z' : List (List (List ℝ) × ℝ)} (h : z.Perm z') : ∀ (obj : Fl) (G : Mat Fl),
    (accSoftdtwFunc γ gc radius slope junk c d z' obj G).toOption = (accSoftdtwFunc γ gc radius slope junk c d z obj G).toOption := by
  induction h with
  | nil => exact fun _ _ => rfl
  | cons p _ ih =>
    intro obj G
    obtain ⟨x, w⟩ := p
    unfold accSoftdtwFunc
    cases softdtwFunc γ gc radius slope junk c x w with
    | error e => rfl
    | ok v => exact ih _ _
  | swap p q l =>
    intro obj G
    obtain ⟨x, w⟩ := p
    obtain ⟨y, u⟩ := q
    unfold accSoftdtwFunc
    cases h1 : softdtwFunc γ gc radius slope junk c x w with
    | error e =>
      cases h2 : softdtwFunc γ gc radius slope junk c y u with
      | error e' => rfl
      | ok v =>
        simp only [bind, Except.bind]
        unfold accSoftdtwFunc
        rw [h1]; rfl
    | ok v =>
      cases h2 : softdtwFunc γ gc radius slope junk c y u with
      | error e' =>
        simp only [bind, Except.bind]
        unfold accSoftdtwFunc
        rw [h2]; rfl
      | ok v' =>
        simp only [bind, Except.bind]
        unfold accSoftdtwFunc
        rw [h1, h2]
        simp only [bind, Except.bind]
        rw [Fl.add_right_comm']
        have : (fun i k => ((G i k).add (v.2 i k)).add (v'.2 i k)) = fun i k => ((G i k).add (v'.2 i k)).add (v.2 i k) := by
          funext i k
          rw [Fl.add_right_comm']
        rw [this]
  | trans _ _ h1 h2 => exact fun obj G => (h2 obj G).trans (h1 obj G)

end
end Verif
