import Verif.Model.AutoVarima
import Mathlib.Data.Finset.Prod
import Mathlib.Data.Fintype.Basic
import Mathlib.Algebra.Order.Ring.Rat
import Mathlib.Algebra.Field.Rat
import Mathlib.Data.Finset.Card
import Mathlib.Data.Fintype.Card
import Mathlib.Tactic.Ring
/-!
C44: the order search of AutoVARIMA.
-/
set_option linter.unusedSectionVars false
namespace Verif
variable {K : Type} [LinearOrder K]

/-- Within the bounds the user gave. -/
def Spec.AvBounded (maxP maxQ : ℕ) (k : AvKey) : Prop := k.1 ≤ maxP ∧ k.2.1 ≤ maxQ

/-- `b` is what a search that fitted the models of `log` may return: one of them, of least criterion. -/
def Spec.AvBest (aic : AvKey → Option K) (log : List AvKey) (b : AvKey × K) : Prop :=
  b.1 ∈ log ∧ aic b.1 = some b.2 ∧ ∀ k ∈ log, ∀ a, aic k = some a → b.2 ≤ a

/-- `k'` differs from `k` by the constant, or by at most one in each order. -/
def Spec.AvNeighbour (k k' : AvKey) : Prop :=
  (k'.1 = k.1 ∧ k'.2.1 = k.2.1 ∧ k'.2.2 = !k.2.2) ∨
  (k'.2.2 = k.2.2 ∧ k'.1 ≤ k.1 + 1 ∧ k.1 ≤ k'.1 + 1 ∧ k'.2.1 ≤ k.2.1 + 1 ∧ k.2.1 ≤ k'.2.1 + 1)

open Spec

theorem mem_avAround (most n j : ℕ) (hn : n ≤ most) : j ∈ avAround most n ↔ j ≤ most ∧ j ≤ n + 1 ∧ n ≤ j + 1 := by
  unfold avAround
  by_cases h1 : n + 1 > most <;> by_cases h2 : 1 ≤ n <;> simp [h1, h2] <;> omega

theorem mem_avVariations (maxP maxQ : ℕ) (b : AvKey) (log : List AvKey) (hb : AvBounded maxP maxQ b) (k : AvKey) :
    k ∈ avVariations maxP maxQ b log ↔ (AvNeighbour b k ∧ AvBounded maxP maxQ k) ∧ k ∉ log := by
  obtain ⟨p, q, c⟩ := b
  obtain ⟨p', q', c'⟩ := k
  obtain ⟨h1, h2⟩ := hb
  unfold avVariations
  simp only [List.mem_filter, List.mem_dedup, List.mem_cons, List.mem_flatMap, List.mem_map, mem_avAround maxP p _ h1, mem_avAround maxQ q _ h2,
    decide_eq_true_eq, Prod.mk.injEq, AvNeighbour, AvBounded]
  simp only at h1 h2
  constructor
  · rintro ⟨h | ⟨x, hx, y, hy, rfl, rfl, rfl⟩, hn⟩
    · refine ⟨⟨.inl h, ?_, ?_⟩, hn⟩
      · rw [h.1]; exact h1
      · rw [h.2.1]; exact h2
    · exact ⟨⟨.inr ⟨rfl, hx.2.1, hx.2.2, hy.2.1, hy.2.2⟩, hx.1, hy.1⟩, hn⟩
  · rintro ⟨⟨h | ⟨rfl, h3, h4, h5, h6⟩, h7, h8⟩, hn⟩
    · exact ⟨.inl h, hn⟩
    · exact ⟨.inr ⟨p', ⟨h7, h3, h4⟩, q', ⟨h8, h5, h6⟩, rfl, rfl, rfl⟩, hn⟩

theorem avInit_spec (maxP maxQ d : ℕ) : (avInit maxP maxQ d).Nodup ∧ (0, 0, decide (d < 2)) ∈ avInit maxP maxQ d ∧
    ∀ k ∈ avInit maxP maxQ d, AvBounded maxP maxQ k := by
  unfold avInit
  by_cases h1 : 0 < maxP <;> by_cases h2 : 0 < maxQ <;> by_cases h3 : 1 < maxP ∧ 1 < maxQ <;> by_cases h4 : d ≤ 1 <;>
    simp [h1, h2, h3, h4, AvBounded] <;> omega

/-- `b` after the models of `log`. -/
def BestOf (aic : AvKey → Option K) (log : List AvKey) : Option (AvKey × K) → Prop
  | none => ∀ k ∈ log, aic k = none
  | some b => AvBest aic log b

theorem avStep_log (aic : AvKey → Option K) (s : AvState K) (k : AvKey) : (avStep aic s k).log = s.log ++ [k] := by
  unfold avStep
  cases aic k with
  | none => rfl
  | some a =>
    simp only
    cases s.best with
    | none => rfl
    | some b => simp only; split <;> rfl

theorem avStep_best (aic : AvKey → Option K) (s : AvState K) (k : AvKey) (h : BestOf aic s.log s.best) :
    BestOf aic (s.log ++ [k]) (avStep aic s k).best := by
  unfold avStep
  cases ha : aic k with
  | none =>
    simp only
    cases hb : s.best with
    | none =>
      rw [hb] at h
      intro k' hk'
      rcases List.mem_append.mp hk' with h1 | h1
      · exact h k' h1
      · rw [List.mem_singleton.mp h1]; exact ha
    | some b =>
      rw [hb] at h
      refine ⟨List.mem_append_left _ h.1, h.2.1, fun k' hk' a' ha' => ?_⟩
      rcases List.mem_append.mp hk' with h1 | h1
      · exact h.2.2 k' h1 a' ha'
      · rw [List.mem_singleton.mp h1, ha] at ha'; cases ha'
  | some a =>
    simp only
    cases hb : s.best with
    | none =>
      rw [hb] at h
      refine ⟨by simp, ha, fun k' hk' a' ha' => ?_⟩
      rcases List.mem_append.mp hk' with h1 | h1
      · rw [h k' h1] at ha'; cases ha'
      · rw [List.mem_singleton.mp h1, ha] at ha'; cases ha'; exact le_refl _
    | some b =>
      rw [hb] at h
      simp only
      by_cases hlt : a < b.2
      · rw [if_pos hlt]
        refine ⟨by simp, ha, fun k' hk' a' ha' => ?_⟩
        rcases List.mem_append.mp hk' with h1 | h1
        · exact le_of_lt (lt_of_lt_of_le hlt (h.2.2 k' h1 a' ha'))
        · rw [List.mem_singleton.mp h1, ha] at ha'; cases ha'; exact le_refl _
      · rw [if_neg hlt]
        refine ⟨List.mem_append_left _ h.1, h.2.1, fun k' hk' a' ha' => ?_⟩
        rcases List.mem_append.mp hk' with h1 | h1
        · exact h.2.2 k' h1 a' ha'
        · rw [List.mem_singleton.mp h1, ha] at ha'; cases ha'; exact le_of_not_gt hlt

theorem avRound (aic : AvKey → Option K) (l : List AvKey) (s : AvState K) (h : BestOf aic s.log s.best) :
    (l.foldl (avStep aic) s).log = s.log ++ l ∧ BestOf aic (s.log ++ l) (l.foldl (avStep aic) s).best := by
  induction l generalizing s with
  | nil => simp only [List.foldl_nil, List.append_nil]; exact ⟨trivial, h⟩
  | cons k l ih =>
    have h1 := avStep_best aic s k h
    rw [← avStep_log aic s k] at h1
    have := ih (avStep aic s k) h1
    rw [avStep_log, List.append_assoc, List.singleton_append] at this
    exact this

/-- What the loop keeps true. -/
structure AvInv (maxP maxQ : ℕ) (aic : AvKey → Option K) (s : AvState K) (models : List AvKey) : Prop where
  best : BestOf aic s.log s.best
  nodup : s.log.Nodup
  mnodup : models.Nodup
  disj : ∀ k ∈ models, k ∉ s.log
  bounded : ∀ k ∈ s.log, AvBounded maxP maxQ k
  mbounded : ∀ k ∈ models, AvBounded maxP maxQ k

theorem avInv_init (maxP maxQ d : ℕ) (aic : AvKey → Option K) : AvInv maxP maxQ aic ⟨none, []⟩ (avInit maxP maxQ d) :=
  ⟨fun k hk => (by cases hk), List.nodup_nil, (avInit_spec maxP maxQ d).1, fun _ _ h => (by cases h), fun k hk => (by cases hk),
    (avInit_spec maxP maxQ d).2.2⟩

theorem avInv_round {maxP maxQ : ℕ} {aic : AvKey → Option K} {s : AvState K} {models l : List AvKey} (h : AvInv maxP maxQ aic s models)
    (hp : l.Perm models) :
    (l.foldl (avStep aic) s).log = s.log ++ l ∧ BestOf aic (s.log ++ l) (l.foldl (avStep aic) s).best ∧ (s.log ++ l).Nodup ∧
    ∀ k ∈ s.log ++ l, AvBounded maxP maxQ k := by
  obtain ⟨h1, h2⟩ := avRound aic l s h.best
  refine ⟨h1, h2, ?_, ?_⟩
  · rw [List.nodup_append]
    refine ⟨h.nodup, hp.nodup_iff.mpr h.mnodup, ?_⟩
    rintro a ha b hb rfl
    exact h.disj a (hp.mem_iff.mp hb) ha
  · intro k hk
    rcases List.mem_append.mp hk with h3 | h3
    · exact h.bounded k h3
    · exact h.mbounded k (hp.mem_iff.mp h3)

theorem avInv_next {maxP maxQ : ℕ} {aic : AvKey → Option K} {s : AvState K} {models l : List AvKey} (h : AvInv maxP maxQ aic s models)
    (hp : l.Perm models) {k : AvKey} {a : K} (hb : (l.foldl (avStep aic) s).best = some (k, a)) :
    AvInv maxP maxQ aic (l.foldl (avStep aic) s) (avVariations maxP maxQ k (l.foldl (avStep aic) s).log) := by
  obtain ⟨h1, h2, h3, h4⟩ := avInv_round h hp
  rw [hb] at h2
  have hk : AvBounded maxP maxQ k := h4 k h2.1
  refine ⟨?_, ?_, ?_, ?_, ?_, ?_⟩
  · rw [h1, hb]; exact h2
  · rw [h1]; exact h3
  · exact (List.nodup_dedup _).filter _
  · intro k' hk'
    exact ((mem_avVariations maxP maxQ k _ hk k').mp hk').2
  · rw [h1]; exact h4
  · intro k' hk'
    exact ((mem_avVariations maxP maxQ k _ hk k').mp hk').1.2

theorem avLog_length {maxP maxQ : ℕ} {log : List AvKey} (h1 : log.Nodup) (h2 : ∀ k ∈ log, AvBounded maxP maxQ k) :
    log.length ≤ (maxP + 1) * ((maxQ + 1) * 2) := by
  have hsub : log.toFinset ⊆ Finset.range (maxP + 1) ×ˢ (Finset.range (maxQ + 1) ×ˢ (Finset.univ : Finset Bool)) := by
    intro k hk
    rw [List.mem_toFinset] at hk
    have := h2 k hk
    simp only [Finset.mem_product, Finset.mem_range, Finset.mem_univ, and_true]
    exact ⟨Nat.lt_succ_of_le this.1, Nat.lt_succ_of_le this.2⟩
  have := Finset.card_le_card hsub
  rw [List.toFinset_card_of_nodup h1] at this
  simpa [Finset.card_product] using this

theorem avLoop_terminates {maxP maxQ : ℕ} {aic : AvKey → Option K} {ord : ℕ → List AvKey → List AvKey} (ho : ∀ i l, (ord i l).Perm l) :
    ∀ (fuel i : ℕ) (s : AvState K) (models : List AvKey), AvInv maxP maxQ aic s models →
      (maxP + 1) * ((maxQ + 1) * 2) < fuel + s.log.length → ∃ r, avLoop maxP maxQ aic ord fuel i s models = some r := by
  intro fuel
  induction fuel with
  | zero =>
    intro i s models h hf
    have := avLog_length h.nodup h.bounded
    omega
  | succ fuel ih =>
    intro i s models h hf
    unfold avLoop
    by_cases hm : models = []
    · rw [if_pos hm]; exact ⟨_, rfl⟩
    · rw [if_neg hm]
      simp only
      cases hb : ((ord i models).foldl (avStep aic) s).best with
      | none => exact ⟨_, rfl⟩
      | some b =>
        simp only
        obtain ⟨k, a⟩ := b
        refine ih _ _ _ (avInv_next h (ho i models) hb) ?_
        rw [(avInv_round h (ho i models)).1, List.length_append, (ho i models).length_eq]
        have := List.length_pos_iff.mpr hm
        omega

/-- The search ends after at most `2 (max_p + 1) (max_q + 1)` rounds, whatever the criteria and the orders of iteration. -/
theorem C44_terminates (maxP maxQ d : ℕ) (aic : AvKey → Option K) (ord : ℕ → List AvKey → List AvKey) (ho : ∀ i l, (ord i l).Perm l)
    (fuel : ℕ) (hf : 2 * (maxP + 1) * (maxQ + 1) < fuel) : ∃ r, avSearch maxP maxQ d aic ord fuel = some r := by
  refine avLoop_terminates ho fuel 0 _ _ (avInv_init maxP maxQ d aic) ?_
  simp only [List.length_nil, Nat.add_zero]
  have : (maxP + 1) * ((maxQ + 1) * 2) = 2 * (maxP + 1) * (maxQ + 1) := by
    rw [Nat.mul_comm (maxQ + 1) 2, ← Nat.mul_assoc, Nat.mul_comm (maxP + 1) 2]
  omega

theorem avLoop_sound {maxP maxQ : ℕ} {aic : AvKey → Option K} {ord : ℕ → List AvKey → List AvKey} (ho : ∀ i l, (ord i l).Perm l) :
    ∀ (fuel i : ℕ) (s : AvState K) (models : List AvKey) (r : AvState K), AvInv maxP maxQ aic s models →
      (models = [] → ∃ b, s.best = some b ∧ ∀ k, AvNeighbour b.1 k → AvBounded maxP maxQ k → k ∈ s.log) →
      avLoop maxP maxQ aic ord fuel i s models = some (.ok r) →
      r.log.Nodup ∧ (∀ k ∈ r.log, AvBounded maxP maxQ k) ∧ (∀ k ∈ models, k ∈ r.log) ∧ (∀ k ∈ s.log, k ∈ r.log) ∧
        ∃ b, r.best = some b ∧ AvBest aic r.log b ∧ ∀ k, AvNeighbour b.1 k → AvBounded maxP maxQ k → k ∈ r.log := by
  intro fuel
  induction fuel with
  | zero => intro i s models r _ _ h; cases h
  | succ fuel ih =>
    intro i s models r h hend hr
    unfold avLoop at hr
    by_cases hm : models = []
    · rw [if_pos hm] at hr
      cases hr
      obtain ⟨b, hb, hn⟩ := hend hm
      have := h.best
      rw [hb] at this
      exact ⟨h.nodup, h.bounded, fun k hk => (by rw [hm] at hk; cases hk), fun _ hk => hk, b, hb, this, hn⟩
    · rw [if_neg hm] at hr
      simp only at hr
      cases hb : ((ord i models).foldl (avStep aic) s).best with
      | none => rw [hb] at hr; cases hr
      | some b =>
        obtain ⟨k, a⟩ := b
        rw [hb] at hr
        simp only at hr
        have hi := avInv_next h (ho i models) hb
        obtain ⟨h1, h2, h3, h4⟩ := avInv_round h (ho i models)
        rw [hb] at h2
        have hk : AvBounded maxP maxQ k := h4 k h2.1
        obtain ⟨r1, r2, r3, r4, r5⟩ := ih _ _ _ r hi (fun he => ⟨(k, a), hb, fun k' hn hb' => by
          by_contra hc
          have : k' ∈ avVariations maxP maxQ k ((ord i models).foldl (avStep aic) s).log :=
            (mem_avVariations maxP maxQ k _ hk k').mpr ⟨⟨hn, hb'⟩, hc⟩
          rw [he] at this
          cases this⟩) hr
        rw [h1] at r4
        exact ⟨r1, r2, fun k' hk' => r4 k' (List.mem_append_right _ ((ho i models).mem_iff.mpr hk')),
          fun k' hk' => r4 k' (List.mem_append_left _ hk'), r5⟩

/-- A search that ends without an error fitted no model twice, stayed within the bounds, tried all the initial models, and returns a model
of least criterion among all those fitted; every neighbour of it within the bounds has been tried. -/
theorem C44_search (maxP maxQ d : ℕ) (aic : AvKey → Option K) (ord : ℕ → List AvKey → List AvKey) (ho : ∀ i l, (ord i l).Perm l) (fuel : ℕ)
    (r : AvState K) (h : avSearch maxP maxQ d aic ord fuel = some (.ok r)) :
    r.log.Nodup ∧ (∀ k ∈ r.log, AvBounded maxP maxQ k) ∧ (∀ k ∈ avInit maxP maxQ d, k ∈ r.log) ∧
      ∃ b, r.best = some b ∧ AvBest aic r.log b ∧ AvBounded maxP maxQ b.1 ∧
        ∀ k, AvNeighbour b.1 k → AvBounded maxP maxQ k → k ∈ r.log := by
  obtain ⟨h1, h2, h3, -, b, h4, h5, h6⟩ := avLoop_sound ho fuel 0 _ _ r (avInv_init maxP maxQ d aic) (fun he => by
    have := (avInit_spec maxP maxQ d).2.1
    rw [he] at this
    cases this) h
  exact ⟨h1, h2, h3, b, h4, h5, h2 _ h5.1, h6⟩

theorem avLoop_no_error {maxP maxQ : ℕ} {aic : AvKey → Option K} {ord : ℕ → List AvKey → List AvKey} (ho : ∀ i l, (ord i l).Perm l) :
    ∀ (fuel i : ℕ) (s : AvState K) (models : List AvKey) (e : PyErr), AvInv maxP maxQ aic s models →
      avLoop maxP maxQ aic ord fuel i s models = some (.error e) → e = .attributeError ∧ s.best = none ∧ ∀ k ∈ models, aic k = none := by
  intro fuel
  induction fuel with
  | zero => intro i s models e _ h; cases h
  | succ fuel ih =>
    intro i s models e h hr
    unfold avLoop at hr
    by_cases hm : models = []
    · rw [if_pos hm] at hr; cases hr
    · rw [if_neg hm] at hr
      simp only at hr
      obtain ⟨h1, h2, h3, h4⟩ := avInv_round h (ho i models)
      cases hb : ((ord i models).foldl (avStep aic) s).best with
      | none =>
        rw [hb] at hr h2
        cases hr
        refine ⟨rfl, ?_, fun k hk => h2 k (List.mem_append_right _ ((ho i models).mem_iff.mpr hk))⟩
        cases hs : s.best with
        | none => rfl
        | some b =>
          have := h.best
          rw [hs] at this
          have h5 := h2 b.1 (List.mem_append_left _ this.1)
          rw [this.2.1] at h5
          cases h5
      | some b =>
        obtain ⟨k, a⟩ := b
        rw [hb] at hr
        have := (ih _ _ _ e (avInv_next h (ho i models) hb) hr).2.1
        rw [hb] at this
        cases this

/-- The only error is the `AttributeError` of a search none of whose initial models could be fitted, and then it always occurs. -/
theorem C44_error (maxP maxQ d : ℕ) (aic : AvKey → Option K) (ord : ℕ → List AvKey → List AvKey) (ho : ∀ i l, (ord i l).Perm l)
    (fuel : ℕ) (hf : 0 < fuel) (e : PyErr) :
    avSearch maxP maxQ d aic ord fuel = some (.error e) ↔ e = .attributeError ∧ ∀ k ∈ avInit maxP maxQ d, aic k = none := by
  constructor
  · intro h
    obtain ⟨h1, -, h3⟩ := avLoop_no_error ho fuel 0 _ _ e (avInv_init maxP maxQ d aic) h
    exact ⟨h1, h3⟩
  · rintro ⟨rfl, h⟩
    obtain ⟨f, rfl⟩ : ∃ f, fuel = f + 1 := ⟨fuel - 1, by omega⟩
    unfold avSearch avLoop
    rw [if_neg (fun he => by have := (avInit_spec maxP maxQ d).2.1; rw [he] at this; cases this)]
    simp only
    obtain ⟨-, h2, -, -⟩ := avInv_round (avInv_init maxP maxQ d aic) (ho 0 (avInit maxP maxQ d))
    cases hb : ((ord 0 (avInit maxP maxQ d)).foldl (avStep aic) ⟨none, []⟩).best with
    | none => rfl
    | some b =>
      rw [hb] at h2
      have h3 := h b.1 ((ho 0 _).mem_iff.mp (by simpa using h2.1))
      rw [h2.2.1] at h3
      cases h3

/-- Two models never tie. -/
def Spec.AvDistinct (aic : AvKey → Option K) : Prop := ∀ k k' a, aic k = some a → aic k' = some a → k = k'

theorem bestOf_unique {aic : AvKey → Option K} (hd : AvDistinct aic) {l l' : List AvKey} (hl : ∀ k, k ∈ l ↔ k ∈ l') {b b' : Option (AvKey × K)}
    (h : BestOf aic l b) (h' : BestOf aic l' b') : b = b' := by
  cases b with
  | none =>
    cases b' with
    | none => rfl
    | some c =>
      have := h c.1 ((hl _).mpr h'.1)
      rw [h'.2.1] at this
      cases this
  | some c =>
    cases b' with
    | none =>
      have := h' c.1 ((hl _).mp h.1)
      rw [h.2.1] at this
      cases this
    | some c' =>
      have e1 := h.2.2 c'.1 ((hl _).mpr h'.1) _ h'.2.1
      have e2 := h'.2.2 c.1 ((hl _).mp h.1) _ h.2.1
      have e := le_antisymm e1 e2
      have hk := hd c.1 c'.1 c.2 h.2.1 (by rw [e]; exact h'.2.1)
      rw [Prod.ext hk e]

theorem avLoop_order {maxP maxQ : ℕ} {aic : AvKey → Option K} (hd : AvDistinct aic) {ord ord' : ℕ → List AvKey → List AvKey}
    (ho : ∀ i l, (ord i l).Perm l) (ho' : ∀ i l, (ord' i l).Perm l) :
    ∀ (fuel i : ℕ) (s s' : AvState K) (models : List AvKey) (r : AvState K), AvInv maxP maxQ aic s models → AvInv maxP maxQ aic s' models →
      s.best = s'.best → (∀ k, k ∈ s.log ↔ k ∈ s'.log) → avLoop maxP maxQ aic ord fuel i s models = some (.ok r) →
      ∃ r', avLoop maxP maxQ aic ord' fuel i s' models = some (.ok r') ∧ r'.best = r.best ∧ ∀ k, k ∈ r'.log ↔ k ∈ r.log := by
  intro fuel
  induction fuel with
  | zero => intro i s s' models r _ _ _ _ h; cases h
  | succ fuel ih =>
    intro i s s' models r h h' hbest hlog hr
    unfold avLoop at hr ⊢
    by_cases hm : models = []
    · rw [if_pos hm] at hr ⊢
      cases hr
      exact ⟨s', rfl, hbest.symm, fun k => (hlog k).symm⟩
    · rw [if_neg hm] at hr ⊢
      simp only at hr ⊢
      obtain ⟨h1, h2, h3, h4⟩ := avInv_round h (ho i models)
      obtain ⟨g1, g2, g3, g4⟩ := avInv_round h' (ho' i models)
      have hmem : ∀ k, k ∈ s.log ++ ord i models ↔ k ∈ s'.log ++ ord' i models := by
        intro k
        rw [List.mem_append, List.mem_append, hlog k, (ho i models).mem_iff, (ho' i models).mem_iff]
      have hb := bestOf_unique hd hmem h2 g2
      cases hc : ((ord i models).foldl (avStep aic) s).best with
      | none => rw [hc] at hr; cases hr
      | some b =>
        obtain ⟨k, a⟩ := b
        rw [hc] at hr hb
        simp only at hr
        have hc' := hb.symm
        rw [hc']
        simp only
        have hv : avVariations maxP maxQ k ((ord' i models).foldl (avStep aic) s').log =
            avVariations maxP maxQ k ((ord i models).foldl (avStep aic) s).log := by
          unfold avVariations
          apply List.filter_congr
          intro x _
          rw [g1, h1, decide_eq_decide, not_iff_not]
          exact (hmem x).symm
        have hi' := avInv_next h' (ho' i models) hc'
        rw [hv] at hi' ⊢
        exact ih _ _ _ _ r (avInv_next h (ho i models) hc) hi' (by rw [hc, hc']) (by rw [h1, g1]; exact hmem) hr

/-- If no two models tie, the result does not depend on the order in which sets are iterated, nor does the set of models fitted. -/
theorem C44_order (maxP maxQ d : ℕ) (aic : AvKey → Option K) (hd : AvDistinct aic) (ord ord' : ℕ → List AvKey → List AvKey)
    (ho : ∀ i l, (ord i l).Perm l) (ho' : ∀ i l, (ord' i l).Perm l) (fuel : ℕ) (r : AvState K)
    (h : avSearch maxP maxQ d aic ord fuel = some (.ok r)) :
    ∃ r', avSearch maxP maxQ d aic ord' fuel = some (.ok r') ∧ r'.best = r.best ∧ ∀ k, k ∈ r'.log ↔ k ∈ r.log :=
  avLoop_order hd ho ho' fuel 0 _ _ _ r (avInv_init maxP maxQ d aic) (avInv_init maxP maxQ d aic) rfl (fun _ => Iff.rfl) h

/-- With ties it does: two orders of iteration of the same set give two models. -/
theorem C44_false_ties : ∃ (aic : AvKey → Option ℚ) (ord ord' : ℕ → List AvKey → List AvKey),
    (∀ i l, (ord i l).Perm l) ∧ (∀ i l, (ord' i l).Perm l) ∧
    ((avSearch 1 0 0 aic ord 9).map fun r => r.toOption.map (·.best)) ≠ (avSearch 1 0 0 aic ord' 9).map fun r => r.toOption.map (·.best) :=
  ⟨fun _ => some 1, fun _ l => l, fun _ l => l.reverse, fun _ _ => .refl _, fun _ _ => List.reverse_perm _, by decide +kernel⟩

/-- The criterion is the one documented. -/
theorem C44_aic {F : Type} [Field F] (lle : AvKey → Option F) (p q : ℕ) (c : Bool) (l : F) (h : lle (p, q, c) = some l) :
    avAic lle (p, q, c) = some (-2 * l + 2 * ((p + q + 1 + c.toNat : ℕ) : F)) := by
  unfold avAic
  rw [h]
  cases c <;> simp <;> ring

/-- The differencing order: the first one up to `max_d` for which the data are stationary; failing that the default, or an error. -/
theorem C44_differencing (maxD : ℕ) (default : Option ℕ) (st : ℕ → Bool) :
    (∀ d ≤ maxD, st d = true → (∀ e < d, st e = false) → avDetermine maxD default st = .ok d) ∧
    ((∀ d ≤ maxD, st d = false) → avDetermine maxD default st = match default with
      | some e => .ok e
      | none => .error .valueError) := by
  have key : ∀ n d0, n + d0 = maxD + 1 → 0 < n →
      (∀ d ≤ maxD, d0 ≤ d → st d = true → (∀ e < d, d0 ≤ e → st e = false) → avDetermineFrom maxD default st n d0 = .ok d) ∧
      ((∀ d ≤ maxD, d0 ≤ d → st d = false) → avDetermineFrom maxD default st n d0 = match default with
        | some e => .ok e
        | none => .error .valueError) := by
    intro n
    induction n with
    | zero => intro _ _ h; omega
    | succ n ih =>
      intro d0 hn _
      unfold avDetermineFrom
      constructor
      · intro d hd h0 hst hbefore
        rcases Nat.eq_or_lt_of_le h0 with rfl | hlt
        · rw [if_pos hst]
        · rw [if_neg (by rw [hbefore d0 hlt (le_refl _)]; decide), if_neg (by omega)]
          exact (ih (d0 + 1) (by omega) (by omega)).1 d hd hlt hst fun e he h1 => hbefore e he (by omega)
      · intro h
        rw [if_neg (by rw [h d0 (by omega) (le_refl _)]; decide)]
        by_cases hm : d0 + 1 > maxD
        · rw [if_pos hm]
          cases default <;> rfl
        · rw [if_neg hm]
          exact (ih (d0 + 1) (by omega) (by omega)).2 fun d hd h1 => h d hd (by omega)
  have := key (maxD + 1) 0 rfl (by omega)
  exact ⟨fun d hd hst hb => this.1 d hd (Nat.zero_le _) hst fun e he _ => hb e he, fun h => this.2 fun d hd _ => h d hd⟩

/-- A search that moves from `(0, 0)` to `(1, 1)`. -/
def avDemo (k : AvKey) : Option ℚ := some ((k.1 : ℚ) ^ 2 - 3 * k.1 + (k.2.1 : ℚ) ^ 2 - (5 / 2) * k.2.1 + if k.2.2 then 1 / 10 else 0)

example : (avSearch 3 3 1 avDemo (fun _ l => l.reverse) 33).map (fun r => r.toOption.map fun s => s.best.map Prod.fst) =
    some (some (some (1, 1, false))) := by decide +kernel
example : (avSearch 3 3 1 avDemo (fun _ l => l.reverse) 33).map (fun r => r.toOption.map fun s => s.log.length) = some (some 23) := by
  decide +kernel
example : AvDistinct fun k : AvKey => if k = (0, 0, true) then some (1 : ℚ) else if k = (1, 0, true) then some 0 else none := by
  intro k k' a h h'
  simp only at h h'
  split at h <;> split at h' <;> (try split at h) <;> (try split at h') <;> simp_all
  · cases h; simp_all
  · rw [← h'] at h; simp at h
example : avDetermine 2 none (fun d => d = 2) = .ok 2 ∧ avDetermine 2 (some 5) (fun _ => false) = .ok 5 := by decide
example : avSearch 2 2 0 (fun _ => (none : Option ℚ)) (fun _ l => l) 5 = some (.error .attributeError) := by rfl

end Verif
