import Verif.Spec.Early
import Verif.Proofs.Argmin
import Mathlib.Tactic.Ring
import Mathlib.Tactic.Linarith
import Mathlib.Algebra.Order.Ring.Rat
import Mathlib.Algebra.Field.Rat
/-!
C41: early classification is causal, and its online and offline forms agree.
-/
set_option linter.unusedSectionVars false
namespace Verif
open Spec
variable {K S L : Type} [Field K] [LinearOrder K] [IsStrictOrderedRing K]

theorem sum_range_map (n : ℕ) (f : ℕ → K) : ((List.range n).map f).sum = ∑ i ∈ Finset.range n, f i := by
  induction n with
  | zero => simp
  | succ n ih => simp [List.range_succ, Finset.sum_range_succ, ih]

theorem ecCosts_get (m : EarlyModel K S L) (p : ℕ → K) (t τ : ℕ) (h0 : m.minT ≤ t) (ht : t + τ ≤ m.T) :
    (ecCosts m p t)[τ]? = some (expectedCost m p t τ) := by
  unfold ecCosts expectedCost ecCostTime
  have hlt : τ < m.T + 1 - t := by omega
  rw [List.getElem?_map, List.getElem?_range hlt, Option.map_some, sum_range_map]
  congr 2
  · apply Finset.sum_congr rfl
    intro k _
    rw [sum_range_map, mul_comm]
    congr 1
    apply Finset.sum_congr rfl
    intro y _
    rw [sum_range_map, mul_comm]
    congr 1
    apply Finset.sum_congr rfl
    intro z _
    congr 1
    omega
  · ring

theorem ecCosts_length (m : EarlyModel K S L) (p : ℕ → K) (t : ℕ) : (ecCosts m p t).length = m.T + 1 - t := by simp [ecCosts]

theorem bestDelay_unique (m : EarlyModel K S L) (xs : List S) (a b : ℕ) (ha : BestDelay m xs a) (hb : BestDelay m xs b) : a = b := by
  unfold BestDelay at ha hb
  cases h : m.probas xs with
  | none => rw [h] at ha hb; simp only at ha hb; omega
  | some p =>
    rw [h] at ha hb
    simp only at ha hb
    obtain ⟨a1, a2, a3⟩ := ha
    obtain ⟨b1, b2, b3⟩ := hb
    rcases lt_trichotomy a b with hl | he | hl
    · exact absurd (b3 a hl) (not_lt.mpr (a2 b b1))
    · exact he
    · exact absurd (a3 b hl) (not_lt.mpr (b2 a a1))

/-- The delay announced online is the first one of least expected cost, among those within the fitted length. -/
theorem C41_delay (m : EarlyModel K S L) (xs : List S) (h0 : m.minT ≤ xs.length) (h1 : xs.length ≤ m.T) : BestDelay m xs (ecDelay m xs) := by
  unfold BestDelay ecDelay
  cases h : m.probas xs with
  | none => rfl
  | some p =>
    simp only
    have hne : ecCosts m p xs.length ≠ [] := by
      intro he
      have := congrArg List.length he
      rw [ecCosts_length] at this
      simp only [List.length_nil] at this
      omega
    obtain ⟨v, hv, hle, hlt⟩ := argminL_spec _ hne
    have hb : argminL (ecCosts m p xs.length) < m.T + 1 - xs.length := by
      rw [← ecCosts_length m p]
      exact (List.getElem?_eq_some_iff.mp hv).1
    rw [ecCosts_get m p _ _ h0 (by omega)] at hv
    cases hv
    refine ⟨by omega, ?_, ?_⟩
    · intro σ hσ
      exact hle _ (List.mem_of_getElem? (ecCosts_get m p _ σ h0 hσ))
    · intro σ hσ
      exact hlt σ hσ _ (ecCosts_get m p _ σ h0 (by omega))

theorem ecDelay_zero_iff (m : EarlyModel K S L) (xs : List S) (h0 : m.minT ≤ xs.length) (h1 : xs.length ≤ m.T) :
    ecDelay m xs = 0 ↔ BestDelay m xs 0 := by
  constructor
  · intro h
    rw [← h]
    exact C41_delay m xs h0 h1
  · intro h
    exact bestDelay_unique m xs _ _ (C41_delay m xs h0 h1) h

theorem take_length (m : EarlyModel K S L) (xs : List S) (t : ℕ) (h0 : m.minT ≤ t) (h1 : t ≤ m.T) (hx : m.minT ≤ xs.length) :
    m.minT ≤ (xs.take t).length ∧ (xs.take t).length ≤ m.T := by
  rw [List.length_take]
  omega

theorem ecTimeFrom_spec (m : EarlyModel K S L) (xs : List S) (hx : m.minT ≤ xs.length) (n t0 t : ℕ) (h0 : m.minT ≤ t0)
    (hn : n + t0 = m.T + 1) :
    ecTimeFrom m xs n t0 = some t ↔
      t0 ≤ t ∧ t ≤ m.T ∧ (t = m.T ∨ BestDelay m (xs.take t) 0) ∧ ∀ s, t0 ≤ s → s < t → ¬BestDelay m (xs.take s) 0 := by
  induction n generalizing t0 with
  | zero =>
    simp only [ecTimeFrom]
    constructor
    · intro h; cases h
    · rintro ⟨h1, h2, -⟩; omega
  | succ n ih =>
    have hl := take_length m xs t0 h0 (by omega) hx
    have hz := ecDelay_zero_iff m (xs.take t0) hl.1 hl.2
    simp only [ecTimeFrom]
    by_cases hs : t0 = m.T ∨ ecDelay m (xs.take t0) = 0
    · rw [if_pos hs]
      constructor
      · intro h
        cases h
        refine ⟨le_refl _, by omega, ?_, fun s h1 h2 => by omega⟩
        rcases hs with hs | hs
        · exact .inl hs
        · exact .inr (hz.mp hs)
      · rintro ⟨h1, h2, h3, h4⟩
        rcases Nat.lt_or_ge t0 t with hlt | hge
        · exfalso
          rcases hs with hs | hs
          · omega
          · exact h4 t0 (le_refl _) hlt (hz.mp hs)
        · rw [Nat.le_antisymm h1 hge]
    · rw [if_neg hs]
      push Not at hs
      rw [ih (t0 + 1) (by omega) (by omega)]
      constructor
      · rintro ⟨h1, h2, h3, h4⟩
        refine ⟨by omega, h2, h3, fun s h5 h6 => ?_⟩
        rcases Nat.eq_or_lt_of_le h5 with he | hlt
        · rw [← he]
          exact fun hb => hs.2 (hz.mpr hb)
        · exact h4 s hlt h6
      · rintro ⟨h1, h2, h3, h4⟩
        have hne : t0 ≠ t := by
          rintro rfl
          rcases h3 with h3 | h3
          · exact hs.1 h3
          · exact hs.2 (hz.mpr h3)
        exact ⟨by omega, h2, h3, fun s h5 h6 => h4 s (by omega) h6⟩

theorem ecTime_spec (m : EarlyModel K S L) (xs : List S) (hx : m.minT ≤ xs.length) (t : ℕ) :
    ecTime m xs = some t ↔ DecisionTime m xs t := by
  unfold ecTime DecisionTime
  by_cases h : m.minT ≤ m.T + 1
  · exact ecTimeFrom_spec m xs hx _ _ t (le_refl _) (by omega)
  · have : m.T + 1 - m.minT = 0 := by omega
    rw [this]
    simp only [ecTimeFrom]
    constructor
    · intro h; cases h
    · rintro ⟨h1, h2, -⟩; omega

/-- The offline decision: the class and time are exactly those of the first time at which waiting longer does not pay. -/
theorem C41_decision (m : EarlyModel K S L) (xs : List S) (y : L) (t : ℕ) (hx : m.minT ≤ xs.length) :
    ecPredict m xs = .ok (y, t) ↔ DecisionTime m xs t ∧ m.clf t (xs.take t) = .ok y := by
  unfold ecPredict
  cases h : ecTime m xs with
  | none =>
    simp only
    constructor
    · intro h; cases h
    · rintro ⟨h1, -⟩
      rw [← ecTime_spec m xs hx, h] at h1
      cases h1
  | some u =>
    simp only [Nat.not_lt.mpr hx, if_false]
    have hu := (ecTime_spec m xs hx u).mp h
    constructor
    · intro h2
      cases h3 : m.clf u (xs.take u) with
      | error e => rw [h3] at h2; cases h2
      | ok z => rw [h3] at h2; cases h2; exact ⟨hu, h3⟩
    · rintro ⟨h1, h2⟩
      rw [← ecTime_spec m xs hx, h] at h1
      cases h1
      rw [h2]

/-- The decision time lies between `min_t` and the fitted length. -/
theorem C41_range (m : EarlyModel K S L) (xs : List S) (y : L) (t : ℕ) (h : ecPredict m xs = .ok (y, t)) : m.minT ≤ t ∧ t ≤ m.T := by
  have hx : m.minT ≤ xs.length := by
    by_contra hc
    unfold ecPredict at h
    cases h1 : ecTime m xs with
    | none => rw [h1] at h; cases h
    | some u => rw [h1] at h; simp only [Nat.lt_of_not_le hc, if_true] at h; cases h
  obtain ⟨⟨h1, h2, -⟩, -⟩ := (C41_decision m xs y t hx).mp h
  exact ⟨h1, h2⟩

/-- There always is a decision time when `min_t` is at most the fitted length: `predict` fails only if the classifier of that time does. -/
theorem C41_total (m : EarlyModel K S L) (xs : List S) (hT : m.minT ≤ m.T) (hx : m.minT ≤ xs.length) :
    ∃ t, DecisionTime m xs t ∧ ecPredict m xs = (m.clf t (xs.take t)).map fun y => (y, t) := by
  have hex : ∀ n t0, m.minT ≤ t0 → n + t0 = m.T + 1 → 0 < n → ∃ t, ecTimeFrom m xs n t0 = some t := by
    intro n
    induction n with
    | zero => intro _ _ _ h; omega
    | succ n ih =>
      intro t0 h0 hn _
      simp only [ecTimeFrom]
      by_cases hs : t0 = m.T ∨ ecDelay m (xs.take t0) = 0
      · rw [if_pos hs]; exact ⟨_, rfl⟩
      · rw [if_neg hs]
        push Not at hs
        exact ih (t0 + 1) (by omega) (by omega) (by omega)
  obtain ⟨t, ht⟩ := hex (m.T + 1 - m.minT) m.minT (le_refl _) (by omega) (by omega)
  have ht' : ecTime m xs = some t := ht
  refine ⟨t, (ecTime_spec m xs hx t).mp ht', ?_⟩
  unfold ecPredict
  rw [ht']
  simp only [Nat.not_lt.mpr hx, if_false]
  cases m.clf t (xs.take t) <;> rfl

/-- A classifier fitted with a `min_t` greater than the length of its training series cannot classify anything. -/
theorem C41_min_t (m : EarlyModel K S L) (xs : List S) (hT : m.T < m.minT) : ecPredict m xs = .error .keyError := by
  unfold ecPredict ecTime
  have : m.T + 1 - m.minT = 0 := by omega
  rw [this]
  rfl

/-- Causality: another series with the same samples up to the decision time gets the same class at the same time. -/
theorem C41_causal (m : EarlyModel K S L) (xs ys : List S) (y : L) (t : ℕ) (hx : m.minT ≤ xs.length) (h : ecPredict m xs = .ok (y, t))
    (he : ys.take t = xs.take t) : ecPredict m ys = .ok (y, t) := by
  obtain ⟨⟨h1, h2, h3, h4⟩, h5⟩ := (C41_decision m xs y t hx).mp h
  have hy : m.minT ≤ ys.length := by
    have := congrArg List.length he
    simp only [List.length_take] at this
    omega
  have hpre : ∀ s, s ≤ t → ys.take s = xs.take s := by
    intro s hs
    have := congrArg (List.take s) he
    rwa [List.take_take, List.take_take, Nat.min_eq_left hs] at this
  refine (C41_decision m ys y t hy).mpr ⟨⟨h1, h2, ?_, ?_⟩, ?_⟩
  · rw [hpre t (le_refl _)]; exact h3
  · intro s hs hlt
    rw [hpre s (Nat.le_of_lt hlt)]
    exact h4 s hs hlt
  · rw [he]; exact h5

theorem rdropWhile_id (p : S → Bool) (xs : List S) (h : ∀ x ∈ xs, p x = false) : xs.rdropWhile p = xs := by
  rw [List.rdropWhile_eq_self_iff]
  intro hl
  simp [h _ (List.getLast_mem hl)]

/-- Online, a series of too few samples (trailing NaN ignored) has no answer yet; otherwise the class is that of the classifier of its
length and the delay is the best one. -/
theorem C41_online_answer (m : EarlyModel K S L) (ts xs : List S) (hts : ts.rdropWhile m.isNan = xs) (hT : xs.length ≤ m.T) :
    (xs.length < m.minT → ecEarlyOne m ts = .ok none) ∧
    (m.minT ≤ xs.length → ∀ y τ, ecEarlyOne m ts = .ok (some (y, τ)) ↔ m.clf xs.length xs = .ok y ∧ BestDelay m xs τ) := by
  unfold ecEarlyOne
  rw [hts]
  constructor
  · intro h; simp only [h, if_true]
  · intro h y τ
    simp only [Nat.not_lt.mpr h, if_false]
    cases hc : m.clf xs.length xs with
    | error e =>
      simp only
      constructor
      · intro h; cases h
      · rintro ⟨h, -⟩; cases h
    | ok z =>
      simp only
      constructor
      · intro h2; cases h2; exact ⟨rfl, C41_delay m xs h hT⟩
      · rintro ⟨h2, h3⟩
        cases h2
        rw [bestDelay_unique m xs _ _ h3 (C41_delay m xs h hT)]

/-- A complete series read sample by sample: the offline decision is the first online answer of delay 0. The answers before are positive
delays, and the class at the decision time is the offline class. -/
theorem C41_online_partial (m : EarlyModel K S L) (xs : List S) (hlen : xs.length = m.T) (hnan : ∀ x ∈ xs, m.isNan x = false)
    (y : L) (t : ℕ) (hT : m.minT ≤ m.T) :
    ecPredict m xs = .ok (y, t) ↔
      m.minT ≤ t ∧ t ≤ m.T ∧ ecEarlyOne m (xs.take t) = .ok (some (y, 0)) ∧
        ∀ s, m.minT ≤ s → s < t → ecDelay m (xs.take s) ≠ 0 ∧ ∀ z, ecEarlyOne m (xs.take s) ≠ .ok (some (z, 0)) := by
  have hstrip : ∀ s, (xs.take s).rdropWhile m.isNan = xs.take s :=
    fun s => rdropWhile_id _ _ fun x hx => hnan x (List.mem_of_mem_take hx)
  have hl : ∀ s, s ≤ m.T → (xs.take s).length = s := by
    intro s hs
    rw [List.length_take]
    omega
  have hlast : BestDelay m (xs.take m.T) 0 := by
    rw [← ecDelay_zero_iff m _ (by rw [hl _ (le_refl _)]; exact hT) (by rw [hl _ (le_refl _)])]
    have hb := C41_delay m (xs.take m.T) (by rw [hl _ (le_refl _)]; exact hT) (by rw [hl _ (le_refl _)])
    unfold BestDelay at hb
    cases h : m.probas (xs.take m.T) with
    | none => rw [h] at hb; exact hb
    | some p => rw [h] at hb; have := hb.1; rw [hl _ (le_refl _)] at this; omega
  rw [C41_decision m xs y t (by omega)]
  have key : ∀ s, m.minT ≤ s → s ≤ m.T → ∀ z τ, ecEarlyOne m (xs.take s) = .ok (some (z, τ)) ↔
      m.clf s (xs.take s) = .ok z ∧ BestDelay m (xs.take s) τ := by
    intro s h0 h1 z τ
    have := (C41_online_answer m (xs.take s) (xs.take s) (hstrip s) (by rw [hl s h1]; exact h1)).2 (by rw [hl s h1]; exact h0) z τ
    rwa [hl s h1] at this
  constructor
  · rintro ⟨⟨h1, h2, h3, h4⟩, h5⟩
    refine ⟨h1, h2, (key t h1 h2 y 0).mpr ⟨h5, ?_⟩, ?_⟩
    · rcases h3 with h3 | h3
      · rw [h3]; exact hlast
      · exact h3
    · intro s h0 h6
      constructor
      · intro hz
        exact h4 s h0 h6 ((ecDelay_zero_iff m _ (by rw [hl s (by omega)]; exact h0) (by rw [hl s (by omega)]; omega)).mp hz)
      · intro z hz
        exact h4 s h0 h6 ((key s h0 (by omega) z 0).mp hz).2
  · rintro ⟨h1, h2, h3, h4⟩
    obtain ⟨h5, h6⟩ := (key t h1 h2 y 0).mp h3
    refine ⟨⟨h1, h2, .inr h6, ?_⟩, h5⟩
    intro s h0 hs hb
    exact (h4 s h0 hs).1 ((ecDelay_zero_iff m _ (by rw [hl s (by omega)]; exact h0) (by rw [hl s (by omega)]; omega)).mpr hb)

/-! Streams of chunks. -/

theorem streamRow_append {S : Type} (cs : List (ℕ × List (List S))) (c : ℕ × List (List S)) (i : ℕ) :
    streamRow (cs ++ [c]) i = streamRow cs i ++ c.2.getD i [] := by simp [streamRow]

theorem append_stream {S : Type} (n : ℕ) (cs : List (ℕ × List (List S))) (c : ℕ × List (List S)) (hc : Fits n c) :
    ecAppend ((cs.map Prod.fst).sum, (List.range n).map (streamRow cs)) c =
      (((cs ++ [c]).map Prod.fst).sum, (List.range n).map (streamRow (cs ++ [c]))) := by
  unfold ecAppend
  rw [if_pos ⟨by simp [hc.1], hc.2⟩]
  refine Prod.ext (by simp) ?_
  apply List.ext_getElem?
  intro i
  by_cases hi : i < n
  · have h2 : i < c.2.length := by rw [hc.1]; exact hi
    simp [hi, h2, streamRow_append]
  · simp [hi]

/-- A chunk of another number of series or of uneven rows is dropped: the generator answers as if nothing had been sent. -/
theorem C41_bad_chunk (m : EarlyModel K S L) (data : ℕ × List (List S)) (c : ℕ × List (List S)) (hc : ¬Fits data.2.length c) :
    ecSend m (some data) (some c) = ecSend m (some data) none := by
  unfold ecSend
  have : ecAppend data c = data := by
    unfold ecAppend
    exact if_neg hc
  simp only [this]

/-- However a stream is cut into chunks, as long as no call has failed, what the generator answers to the last one is what `early_predict`
answers for all the samples sent so far. -/
theorem C41_stream (m : EarlyModel K S L) (n : ℕ) (chunks : List (ℕ × List (List S))) (c : ℕ × List (List S))
    (hfit : ∀ d ∈ chunks ++ [c], Fits n d)
    (hok : ∀ j ≤ chunks.length, ∃ r, ecEarly m (((chunks.take j).map Prod.fst).sum) ((List.range n).map (streamRow (chunks.take j))) = .ok r) :
    (ecFeed m (ecGen m n).1 ((chunks ++ [c]).map some)).2.getLast? =
      some (some (ecEarly m ((chunks ++ [c]).map Prod.fst).sum ((List.range n).map (streamRow (chunks ++ [c]))))) := by
  have hgen : (ecGen m n).1 = some (((([] : List (ℕ × List (List S))).map Prod.fst).sum), (List.range n).map (streamRow [])) := by
    have h0 := hok 0 (Nat.zero_le _)
    have hrep : (List.range n).map (streamRow ([] : List (ℕ × List (List S)))) = List.replicate n [] := by
      apply List.ext_getElem
      · simp
      · intro i h1 h2; simp [streamRow]
    simp only [List.take_zero, List.map_nil, List.sum_nil, hrep] at h0 ⊢
    obtain ⟨r, hr⟩ := h0
    unfold ecGen
    rw [hr]
  have hsend : ∀ (pre : List (ℕ × List (List S))) (d : ℕ × List (List S)), Fits n d →
      ecSend m (some ((pre.map Prod.fst).sum, (List.range n).map (streamRow pre))) (some d) =
        (match ecEarly m ((pre ++ [d]).map Prod.fst).sum ((List.range n).map (streamRow (pre ++ [d]))) with
          | .error err => (none, some (.error err))
          | .ok r => (some (((pre ++ [d]).map Prod.fst).sum, (List.range n).map (streamRow (pre ++ [d]))), some (.ok r))) := by
    intro pre d hd
    unfold ecSend
    simp only [append_stream n pre d hd]
    generalize ecEarly m ((pre ++ [d]).map Prod.fst).sum ((List.range n).map (streamRow (pre ++ [d]))) = e
    cases e <;> rfl
  have main : ∀ (rest pre : List (ℕ × List (List S))), pre ++ rest = chunks →
      (ecFeed m (some ((pre.map Prod.fst).sum, (List.range n).map (streamRow pre))) ((rest ++ [c]).map some)).2.getLast? =
      some (some (ecEarly m ((chunks ++ [c]).map Prod.fst).sum ((List.range n).map (streamRow (chunks ++ [c]))))) := by
    intro rest
    induction rest with
    | nil =>
      intro pre hp
      rw [List.append_nil] at hp
      subst hp
      simp only [List.nil_append, List.map_cons, List.map_nil, ecFeed]
      rw [hsend pre c (hfit c (by simp))]
      generalize ecEarly m ((pre ++ [c]).map Prod.fst).sum ((List.range n).map (streamRow (pre ++ [c]))) = e
      cases e <;> rfl
    | cons d rest ih =>
      intro pre hp
      have hd : Fits n d := hfit d (by rw [← hp]; simp)
      have hj := hok (pre.length + 1) (by rw [← hp]; simp)
      have htake : chunks.take (pre.length + 1) = pre ++ [d] := by
        rw [← hp]
        simp [List.take_append]
      rw [htake] at hj
      obtain ⟨r, hr⟩ := hj
      simp only [List.cons_append, List.map_cons, ecFeed]
      rw [hsend pre d hd, hr]
      simp only
      have := ih (pre ++ [d]) (by rw [← hp]; simp)
      have hne : (ecFeed m (some (((pre ++ [d]).map Prod.fst).sum, (List.range n).map (streamRow (pre ++ [d])))) ((rest ++ [c]).map some)).2 ≠ [] := by
        intro he
        rw [he] at this
        cases this
      rw [List.getLast?_cons_of_ne_nil hne]
      exact this
  rw [hgen]
  exact main chunks [] rfl

/-- Too many samples raise, and end the generator: every later call is `StopIteration`. -/
theorem C41_stream_end (m : EarlyModel K S L) (data c : ℕ × List (List S)) (hc : Fits data.2.length c) (hT : m.T < data.1 + c.1)
    (rest : List (Option (ℕ × List (List S)))) :
    ecFeed m (some data) (some c :: rest) = (none, some (.error .valueError) :: rest.map fun _ => none) := by
  have h1 : ecSend m (some data) (some c) = (none, some (.error .valueError)) := by
    have h0 : ecAppend data c = (data.1 + c.1, data.2.zipWith (· ++ ·) c.2) := if_pos hc
    unfold ecSend ecEarly
    simp only [h0, hT, if_true]
  have h2 : ∀ r : List (Option (ℕ × List (List S))), ecFeed m none r = (none, r.map fun _ => none) := by
    intro r
    induction r with
    | nil => rfl
    | cons x r ih => simp only [ecFeed, ecSend, ih, List.map_cons]
  simp only [ecFeed, h1, h2]

theorem mapM_get {A B : Type} (f : A → Except PyErr B) (xs : List A) (ys : List B) (h : xs.mapM f = .ok ys) :
    ys.length = xs.length ∧ ∀ b ∈ ys, ∃ a ∈ xs, f a = .ok b := by
  induction xs generalizing ys with
  | nil => cases h; simp
  | cons x xs ih =>
    rw [List.mapM_cons] at h
    cases h1 : f x with
    | error e => rw [h1] at h; cases h
    | ok b =>
      cases h2 : xs.mapM f with
      | error e => rw [h1, h2] at h; cases h
      | ok bs =>
        rw [h1, h2] at h
        cases h
        obtain ⟨h3, h4⟩ := ih bs h2
        refine ⟨by simp [h3], ?_⟩
        intro c hc
        rcases List.mem_cons.mp hc with rfl | hc
        · exact ⟨x, by simp, h1⟩
        · obtain ⟨a, ha, hf⟩ := h4 c hc
          exact ⟨a, by simp [ha], hf⟩

/-- The early classification cost lies between the cost of waiting `min_t` samples, without an error, and that of waiting for the whole
series, with errors only. -/
theorem C41_score [DecidableEq L] (m : EarlyModel K S L) (X : List (List S)) (y : List L) (pred : List (L × ℕ)) (hX : X ≠ [])
    (hy : y.length = X.length) (hc : 0 ≤ m.costTime) (h : ecPredictAll m X = .ok pred) :
    m.minT * m.costTime ≤ ecScore m pred y ∧ ecScore m pred y ≤ 1 + m.T * m.costTime := by
  obtain ⟨h1, h2⟩ := mapM_get _ X pred h
  have hn : 0 < X.length := List.length_pos_iff.mpr hX
  have hn' : (0 : K) < (X.length : K) := by exact_mod_cast hn
  have hb : ∀ l : List (L × ℕ), (∀ p ∈ l, m.minT ≤ p.2 ∧ p.2 ≤ m.T) →
      l.length * (m.minT * m.costTime) ≤ (l.map fun p => ecCostTime m p.2).sum ∧
      (l.map fun p => ecCostTime m p.2).sum ≤ l.length * (m.T * m.costTime) := by
    intro l
    induction l with
    | nil => intro _; simp
    | cons p l ih =>
      intro hp
      obtain ⟨i1, i2⟩ := ih fun q hq => hp q (by simp [hq])
      obtain ⟨p1, p2⟩ := hp p (by simp)
      have q1 : (m.minT : K) * m.costTime ≤ p.2 * m.costTime := mul_le_mul_of_nonneg_right (by exact_mod_cast p1) hc
      have q2 : (p.2 : K) * m.costTime ≤ m.T * m.costTime := mul_le_mul_of_nonneg_right (by exact_mod_cast p2) hc
      simp only [List.map_cons, List.sum_cons, List.length_cons, Nat.cast_add, Nat.cast_one, ecCostTime] at i1 i2 ⊢
      constructor <;> linarith
  obtain ⟨b1, b2⟩ := hb pred fun p hp => by
    obtain ⟨x, -, hx⟩ := h2 p hp
    exact C41_range m x p.1 p.2 hx
  rw [h1, mul_comm (X.length : K)] at b1 b2
  have f1 : (((pred.zip y).filter fun p => p.1.1 = p.2).length : K) ≤ X.length := by
    have : ((pred.zip y).filter fun p => p.1.1 = p.2).length ≤ X.length :=
      le_trans (List.length_filter_le _ _) (by rw [List.length_zip]; omega)
    exact_mod_cast this
  have f0 : (0 : K) ≤ (((pred.zip y).filter fun p => p.1.1 = p.2).length : K) := Nat.cast_nonneg _
  unfold ecScore
  rw [hy, h1]
  have g1 := (div_le_one hn').mpr f1
  have g0 := div_nonneg f0 hn'.le
  have k1 := (le_div_iff₀ hn').mpr b1
  have k2 := (div_le_iff₀ hn').mpr b2
  constructor <;> linarith

/-- The cost, times the number of series, counts one for each wrong class, and the waiting of each series. -/
theorem C41_score_value [DecidableEq L] (m : EarlyModel K S L) (pred : List (L × ℕ)) (y : List L) (hn : y ≠ []) (hy : pred.length = y.length) :
    ecScore m pred y * y.length = ((pred.zip y).map fun p => (if p.1.1 = p.2 then 0 else 1) + (p.1.2 : K) * m.costTime).sum := by
  have hl : (y.length : K) ≠ 0 := by
    have := List.length_pos_iff.mpr hn
    exact_mod_cast this.ne'
  have key : ∀ (pred : List (L × ℕ)) (y : List L), pred.length = y.length →
      (y.length : K) - (((pred.zip y).filter fun p => p.1.1 = p.2).length : K) + (pred.map fun p => ecCostTime m p.2).sum =
        ((pred.zip y).map fun p => (if p.1.1 = p.2 then 0 else 1) + (p.1.2 : K) * m.costTime).sum := by
    intro pred
    induction pred with
    | nil => intro y h; have : y = [] := List.length_eq_zero_iff.mp h.symm; subst this; simp
    | cons p pred ih =>
      intro y h
      cases y with
      | nil => cases h
      | cons a y =>
        have := ih y (by simpa using h)
        by_cases he : p.1 = a
        · simp only [List.zip_cons_cons, List.filter_cons, he, decide_true, if_true, List.length_cons, Nat.cast_add, Nat.cast_one, List.map_cons,
            List.sum_cons, ← this, ecCostTime]
          ring
        · simp only [List.zip_cons_cons, List.filter_cons, he, decide_false, Bool.false_eq_true, if_false, List.length_cons, Nat.cast_add, Nat.cast_one,
            List.map_cons, List.sum_cons, ← this, ecCostTime]
          ring
  rw [← key pred y hy]
  unfold ecScore
  rw [hy]
  rw [add_mul, sub_mul, one_mul, div_mul_cancel₀ _ hl, div_mul_cancel₀ _ hl]

/-- Read in chunks of more than one sample, the first online answer of delay 0 need not be the offline decision: here waiting never pays,
offline the decision is made after one sample, online after the two of the chunk, with another classifier. -/
theorem C41_false_chunks : ∃ (m : EarlyModel ℚ ℕ ℕ), m.minT ≤ m.T ∧ m.T = 2 ∧ ecPredict m [0, 0] = .ok (1, 1) ∧
    (ecFeed m (ecGen m 1).1 [some (2, [[0, 0]])]).2 = [some (.ok [some (2, 0)])] :=
  ⟨⟨2, 1, 1, 0, fun _ _ _ _ => 0, fun _ _ => 0, 1, fun _ => some fun _ => 1, fun t _ => .ok t, fun _ => false⟩,
    by decide, rfl, by decide +kernel, by decide +kernel⟩

/-- An incomplete series can get a decision time beyond its samples, where online it is told to wait. -/
theorem C41_false_incomplete : ∃ (m : EarlyModel ℚ ℕ ℕ), m.minT ≤ m.T ∧ ecPredict m [0, 0] = .ok (3, 3) ∧
    ecEarlyOne m [0, 0] = .ok (some (2, 1)) :=
  ⟨⟨3, 1, 1, 1, fun t _ _ _ => if t = 2 then 0 else 10, fun _ _ => 1, 1, fun _ => some fun _ => 1, fun t _ => .ok t, fun _ => false⟩,
    by decide, by decide +kernel, by decide +kernel⟩

/-- A model that waits for the second of three samples, and the class the second sample gives. -/
def ecDemo : EarlyModel ℚ ℕ ℕ :=
  ⟨3, 1, 1, 1, fun t _ _ _ => if t = 0 then 10 else 0, fun _ _ => 1, 1, fun _ => some fun _ => 1, fun t xs => .ok (xs.getD (t - 1) 0),
    fun n => n = 9⟩

example : ecPredict ecDemo [4, 5, 6] = .ok (5, 2) ∧ ecPredict ecDemo [4, 5, 7] = .ok (5, 2) := by decide +kernel
example : ecEarlyOne ecDemo [4, 9] = .ok (some (4, 1)) ∧ ecEarlyOne ecDemo [4, 5, 9] = .ok (some (5, 0)) ∧ ecEarlyOne ecDemo [9] = .ok none := by
  decide +kernel
example : (ecFeed ecDemo (ecGen ecDemo 1).1 [some (1, [[4]]), some (1, [[4], [5]]), none, some (2, [[5, 6]]), some (1, [[1]]), none]).2 =
    [some (.ok [some (4, 1)]), some (.ok [some (4, 1)]), some (.ok [some (4, 1)]), some (.ok [some (6, 0)]), some (.error .valueError), none] := by
  decide +kernel
example : ecPredictAll ecDemo [[4, 5, 6], [1, 2, 3]] = .ok [(5, 2), (2, 2)] ∧ ecScore ecDemo [(5, 2), (2, 2)] [5, 3] = 5 / 2 := by
  decide +kernel
example : ecScore ecDemo [(5, 2), (2, 2), (1, 1)] [5, 3, 1] = 2 := by decide +kernel
example : Fits 2 (3, [[1, 2, 3], [4, 5, 6]]) ∧ streamRow [(1, [[1], [4]]), (2, [[2, 3], [5, 6]])] 1 = [4, 5, 6] := by
  simp [Fits, streamRow]

end Verif
