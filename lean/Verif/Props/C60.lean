import Verif.Props.C36
/-!
C60: `euclidean_barycenter` is the unique minimiser of the weighted sum of squared Euclidean distances; with series of different
lengths exactly the samples that some series lacks are NaN.
-/
set_option linter.unusedSectionVars false
namespace Verif
open Spec
variable {K : Type} [Field K] [LinearOrder K] [IsStrictOrderedRing K]

theorem mapM_id_cases {α : Type} : ∀ l : List (Option α), (∃ l', l.mapM id = some l' ∧ l = l'.map some) ∨
    l.mapM id = none ∧ none ∈ l := by
  intro l
  induction l with
  | nil => exact .inl ⟨[], rfl, rfl⟩
  | cons a l ih =>
    cases a with
    | none => right; exact ⟨by simp, by simp⟩
    | some a =>
      rcases ih with ⟨l', h1, h2⟩ | ⟨h1, h2⟩
      · left; exact ⟨a :: l', by simp [h1], by simp [h2]⟩
      · right; exact ⟨by simp [h1], by simp [h2]⟩

/-- The value as a function of the series. -/
theorem euclidean_eq {d : ℕ} (hd : 0 < d) {xs : List (List (List K))} (hne : xs ≠ [])
    (hx : ∀ x ∈ xs, ∀ r ∈ x, r.length = d) (weights : Option (List K)) (hs : (setWeights weights xs.length).sum ≠ 0) :
    euclideanBarycenter (dsOf d xs) weights = .ok ((List.range (maxLen xs)).map fun t => (List.range d).map fun f =>
      match (xs.map fun x => x[t]?.map fun r => r.getD f 0).mapM id with
      | some col => some ((List.zipWith (· * ·) col (setWeights weights xs.length)).sum / (setWeights weights xs.length).sum)
      | none => none) := by
  unfold euclideanBarycenter
  rw [dsOf_dataset hd hne hx]
  simp only [bind, Except.bind, List.length_map]
  rw [if_neg hs]
  refine congrArg Except.ok (List.map_congr_left fun t _ => List.map_congr_left fun f hf => ?_)
  rw [dsOf_entry (maxLen xs) (maxLen xs) hx t f (List.mem_range.1 hf)]
  cases (xs.map fun x => x[t]?.map fun r => r.getD f 0).mapM id <;> rfl

/-- Different lengths: NaN exactly where some series has ended. -/
theorem C60_nan (d : ℕ) (hd : 0 < d) (xs : List (List (List K))) (hne : xs ≠ []) (hx : ∀ x ∈ xs, ∀ r ∈ x, r.length = d)
    (weights : Option (List K)) (hs : (setWeights weights xs.length).sum ≠ 0) :
    ∃ b, euclideanBarycenter (dsOf d xs) weights = .ok b ∧ Rect (maxLen xs) d b ∧
      ∀ t < maxLen xs, ∀ f < d, ((b.getD t []).getD f none = none ↔ ∃ x ∈ xs, x.length ≤ t) := by
  refine ⟨_, euclidean_eq hd hne hx weights hs, ⟨by simp, fun r hr => ?_⟩, fun t ht f hf => ?_⟩
  · obtain ⟨t, -, rfl⟩ := List.mem_map.1 hr
    simp
  · rw [getD_table (fun _ => d) _ _ ht hf]
    have hiff : none ∈ (xs.map fun x => x[t]?.map fun r => r.getD f 0) ↔ ∃ x ∈ xs, x.length ≤ t := by
      simp
    rw [← hiff]
    rcases mapM_id_cases (xs.map fun x => x[t]?.map fun r => r.getD f 0) with ⟨l', h1, h2⟩ | ⟨h1, h2⟩
    · rw [h1, h2]; simp
    · rw [h1]; simp only [true_iff]; exact h2

theorem eucCost_sum {n d : ℕ} {b : List (List K)} (hb : Rect n d b) : ∀ {xs : List (List (List K))} {ws : List K},
    (∀ x ∈ xs, Rect n d x) → eucCost xs ws b =
      ∑ t ∈ Finset.range n, ∑ f ∈ Finset.range d, (List.zipWith (fun x w => w * ((b.getD t []).getD f 0 -
        (x.getD t []).getD f 0) ^ 2) xs ws).sum := by
  intro xs
  induction xs with
  | nil => intro ws _; simp [eucCost]
  | cons x xs ih =>
    intro ws hx
    cases ws with
    | nil => simp [eucCost]
    | cons w ws =>
      have := ih (ws := ws) fun y hy => hx y (by simp [hy])
      unfold eucCost at this ⊢
      simp only [List.zipWith_cons_cons, List.sum_cons, this, Finset.sum_add_distrib]
      congr 1
      have hr := hx x (by simp)
      have : (List.zipWith sqEuclid b x).sum = ∑ t ∈ Finset.range n, sqEuclid (b.getD t []) (x.getD t []) := by
        rw [← listsum_range]
        refine congrArg _ (List.ext_getElem (by simp [hb.1, hr.1]) fun t h1 h2 => ?_)
        have ht : t < n := by simpa using h2
        rw [List.getElem_zipWith, List.getElem_map, List.getElem_range, List.getD_eq_getElem _ _ (by rw [hb.1]; exact ht),
          List.getD_eq_getElem _ _ (by rw [hr.1]; exact ht)]
      rw [this, Finset.mul_sum]
      refine Finset.sum_congr rfl fun t ht => ?_
      rw [sqEuclid_sum (hb.get (Finset.mem_range.1 ht)) (hr.get (Finset.mem_range.1 ht)), Finset.mul_sum]

/-- One coordinate: weighted squares around the weighted mean. -/
theorem weighted_square : ∀ (xs : List (List (List K))) (ws : List K) (_ : ws.length = xs.length) (g : List (List K) → K) (y m : K),
    (List.zipWith (fun x w => w * (y - g x) ^ 2) xs ws).sum = (List.zipWith (fun x w => w * (m - g x) ^ 2) xs ws).sum +
      ws.sum * (y - m) ^ 2 + 2 * (y - m) * (ws.sum * m - (List.zipWith (· * ·) (xs.map g) ws).sum) := by
  intro xs
  induction xs with
  | nil =>
    intro ws h g y m
    obtain rfl : ws = [] := List.length_eq_zero_iff.1 (by simpa using h)
    simp
  | cons x xs ih =>
    intro ws h g y m
    cases ws with
    | nil => simp at h
    | cons w ws =>
      have := ih ws (by simpa using h) g y m
      simp only [List.zipWith_cons_cons, List.sum_cons, List.map_cons, this]
      ring

/-- Equal lengths: the unique minimiser of the weighted cost, whenever the weights have a positive sum. -/
theorem C60_minimiser (d n : ℕ) (hd : 0 < d) (xs : List (List (List K))) (hne : xs ≠ []) (hx : ∀ x ∈ xs, Rect n d x)
    (weights : Option (List K)) (hs : 0 < (setWeights weights xs.length).sum) :
    ∃ b, euclideanBarycenter (dsOf d xs) weights = .ok (b.map (·.map some)) ∧ Rect n d b ∧
      ∀ a, Rect n d a → a ≠ b →
        eucCost xs (setWeights weights xs.length) b < eucCost xs (setWeights weights xs.length) a := by
  have hlen : (setWeights weights xs.length).length = xs.length := by
    unfold setWeights
    cases weights with
    | none => simp
    | some w => by_cases h : w.length = xs.length <;> simp [h]
  set ws := setWeights weights xs.length with hws
  have hmax : maxLen xs = n := by
    unfold maxLen
    have : xs.map List.length = List.replicate xs.length n := by
      refine List.eq_replicate_iff.2 ⟨by simp, fun l hl => ?_⟩
      obtain ⟨x, h1, rfl⟩ := List.mem_map.1 hl
      exact (hx x h1).1
    rw [this]
    obtain ⟨x, xs, rfl⟩ := List.exists_cons_of_ne_nil hne
    rw [List.length_cons, List.replicate_succ, List.foldr_cons]
    have : ∀ m, (List.replicate m n).foldr max 0 ≤ n := by
      intro m
      induction m with
      | zero => simp
      | succ m ih => simp [List.replicate_succ, ih]
    exact max_eq_left (this _)
  let mean : ℕ → ℕ → K := fun t f => (List.zipWith (· * ·) (xs.map fun x => (x.getD t []).getD f 0) ws).sum / ws.sum
  have hbr : Rect n d ((List.range n).map fun t => (List.range d).map fun f => mean t f) := by
    refine ⟨by simp, fun r hr => ?_⟩
    obtain ⟨t, -, rfl⟩ := List.mem_map.1 hr
    simp
  have hget : ∀ t < n, ∀ f < d, ((((List.range n).map fun t => (List.range d).map fun f => mean t f).getD t []).getD f 0) =
      mean t f := by
    intro t ht f hf
    exact getD_table (fun _ => d) mean _ ht hf
  refine ⟨(List.range n).map fun t => (List.range d).map fun f => mean t f, ?_, hbr, fun a ha hab => ?_⟩
  · rw [euclidean_eq hd hne (fun x h => (hx x h).2) weights (hws ▸ hs.ne'), hmax, ← hws, List.map_map]
    refine congrArg Except.ok (List.map_congr_left fun t ht => ?_)
    rw [Function.comp, List.map_map]
    refine List.map_congr_left fun f _ => ?_
    have : (xs.map fun x => x[t]?.map fun r => r.getD f 0) = (xs.map fun x => (x.getD t []).getD f 0).map some := by
      rw [List.map_map]
      refine List.map_congr_left fun x h => ?_
      have : t < x.length := by rw [(hx x h).1]; exact List.mem_range.1 ht
      simp [List.getElem?_eq_getElem this]
    rw [this]
    have : ∀ l : List K, (l.map some).mapM id = some l := by
      intro l
      induction l with
      | nil => rfl
      | cons a l ih => simp [ih]
    rw [this]
    rfl
  · rw [eucCost_sum ha hx, eucCost_sum hbr hx]
    have key : ∀ t < n, ∀ f < d, (List.zipWith (fun x w => w * ((a.getD t []).getD f 0 - (x.getD t []).getD f 0) ^ 2) xs ws).sum =
        (List.zipWith (fun x w => w * (mean t f - (x.getD t []).getD f 0) ^ 2) xs ws).sum +
          ws.sum * ((a.getD t []).getD f 0 - mean t f) ^ 2 := by
      intro t ht f hf
      rw [weighted_square xs ws hlen (fun x => (x.getD t []).getD f 0) _ (mean t f)]
      have : ws.sum * mean t f = (List.zipWith (· * ·) (xs.map fun x => (x.getD t []).getD f 0) ws).sum :=
        mul_div_cancel₀ _ hs.ne'
      rw [this]; ring
    have hne' : ∃ t < n, ∃ f < d, (a.getD t []).getD f 0 ≠ mean t f := by
      by_contra hcon
      push Not at hcon
      exact hab (rect_ext ha hbr fun t ht f hf => by rw [hget t ht f hf]; exact hcon t ht f hf)
    obtain ⟨t0, ht0, f0, hf0, h0⟩ := hne'
    have hle : ∀ t < n, ∀ f < d, (List.zipWith (fun x w => w * (((((List.range n).map fun t => (List.range d).map fun f =>
        mean t f).getD t []).getD f 0) - (x.getD t []).getD f 0) ^ 2) xs ws).sum ≤
        (List.zipWith (fun x w => w * ((a.getD t []).getD f 0 - (x.getD t []).getD f 0) ^ 2) xs ws).sum := by
      intro t ht f hf
      rw [hget t ht f hf, key t ht f hf]
      exact le_add_of_nonneg_right (mul_nonneg hs.le (sq_nonneg _))
    refine Finset.sum_lt_sum (fun t ht => Finset.sum_le_sum fun f hf => hle t (Finset.mem_range.1 ht) f (Finset.mem_range.1 hf))
      ⟨t0, Finset.mem_range.2 ht0, Finset.sum_lt_sum (fun f hf => hle t0 ht0 f (Finset.mem_range.1 hf))
        ⟨f0, Finset.mem_range.2 hf0, ?_⟩⟩
    rw [hget t0 ht0 f0 hf0, key t0 ht0 f0 hf0]
    refine lt_add_of_pos_right _ (mul_pos hs (sq_pos_of_ne_zero (sub_ne_zero.2 h0)))

/-- Weights of a wrong length are silently replaced by ones. -/
theorem C60_wrong_length (D : DsInput K) (X : Arr3 K) (h : toDataset D = .ok X) (w : List K) (hl : w.length ≠ X.data.length) :
    euclideanBarycenter D (some w) = euclideanBarycenter D none := by
  unfold euclideanBarycenter
  rw [h]
  simp [bind, Except.bind, setWeights, hl]

/-- Weights with sum zero are refused. -/
theorem C60_zero (D : DsInput K) (X : Arr3 K) (h : toDataset D = .ok X) (w : List K) (hl : w.length = X.data.length)
    (hz : w.sum = 0) : euclideanBarycenter D (some w) = .error .zeroDivision := by
  unfold euclideanBarycenter
  rw [h]
  simp [bind, Except.bind, setWeights, hl, hz, throw, throwThe, MonadExceptOf.throw]

example : euclideanBarycenter (dsOf 1 [[[1], [2], [3], [4]], [[1], [2], [4], [5]]]) none =
    .ok [[some 1], [some 2], [some (7 / 2)], [some (9 / 2 : ℚ)]] := by decide +kernel

example : euclideanBarycenter (dsOf 1 [[[0], [2]], [[4]]]) (some [1, 3]) = .ok [[some (3 : ℚ)], [none]] := by decide +kernel

example : euclideanBarycenter (dsOf 1 [[[0], [2]], [[4], [1]]]) (some [1, -1]) = (.error .zeroDivision : Except PyErr (List (List (Option ℚ)))) := by
  decide +kernel

end Verif
