import Verif.Model.Sync
import Verif.Proofs.Impute
import Mathlib.Tactic.NormNum
import Mathlib.Tactic.FinCases
import Mathlib.Tactic.IntervalCases
import Mathlib.Algebra.Order.Ring.Rat
import Mathlib.Algebra.Field.Rat
/-!
# C54 — feature synchronisation keeps the reference feature and puts the others on its grid
-/
set_option linter.unusedSectionVars false
namespace Verif
open Spec
variable {K : Type} [Field K] [LinearOrder K] [IsStrictOrderedRing K]

/-- Feature `f` of series `i` has `n` samples: the last is observed and only NaN follows. -/
def Spec.FeatSize (X : Arr3 K) (i f n : ℕ) : Prop :=
  (n = 0 ∨ X.entry i (n - 1) f ≠ none) ∧ ∀ t, n ≤ t → X.entry i t f = none

theorem observed_single (c : List (Option K)) (t : ℕ) :
    Observed (c.map fun x => [x]) t ↔ c.getD t none ≠ none := by
  unfold Observed
  rw [List.getD_eq_getElem?_getD]
  constructor
  · rintro ⟨r, hr, v, hv, hs⟩
    rw [List.getElem?_map] at hr
    cases e : c[t]? with
    | none => rw [e] at hr; simp at hr
    | some y =>
      rw [e] at hr
      simp only [Option.map_some, Option.some.injEq] at hr
      subst hr
      simp only [List.mem_singleton] at hv
      subst hv
      simp only [Option.getD_some]
      exact Option.ne_none_iff_isSome.2 hs
  · intro h
    cases e : c[t]? with
    | none => rw [e] at h; simp at h
    | some y =>
      rw [e] at h
      exact ⟨[y], by simp [e], y, by simp, Option.ne_none_iff_isSome.1 h⟩

theorem entry_out {X : Arr3 K} (hX : X.WF) {i t f : ℕ} (h : X.sz ≤ t) : X.entry i t f = none := by
  apply entry_none
  refine le_trans (tsSize_le _) ?_
  by_cases hi : i < X.data.length
  · rw [List.getD_eq_getElem _ _ hi, (hX _ (List.getElem_mem hi)).1]; exact h
  · rw [List.getD_eq_default _ _ (not_lt.1 hi)]; simp

theorem colSize_eq {X : Arr3 K} (hX : X.WF) {i f n : ℕ} (h : FeatSize X i f n) :
    colSize (X.col i X.sz f) = n := by
  apply IsSize.unique (tsSize_isSize _)
  have hn : n ≤ X.sz := by
    by_contra hc
    rcases h.1 with h0 | h0
    · omega
    · exact h0 (entry_out hX (by omega))
  constructor
  · rcases h.1 with h0 | h0
    · exact .inl h0
    · rcases Nat.eq_zero_or_pos n with hz | hz
      · exact .inl hz
      · right
        rw [observed_single, col_get X (by omega)]
        exact h0
  · intro t ht
    rw [observed_single, not_not]
    rcases Nat.lt_or_ge t X.sz with h' | h'
    · rw [col_get X h']; exact h.2 t ht
    · rw [List.getD_eq_default _ _ (by rw [col_length]; exact h')]

theorem exists_featSize {X : Arr3 K} (hX : X.WF) (i f : ℕ) : ∃ n, FeatSize X i f n ∧ n ≤ X.sz := by
  have h := tsSize_isSize ((X.col i X.sz f).map fun x => [x])
  have hle : tsSize ((X.col i X.sz f).map fun x => [x]) ≤ X.sz := by
    refine le_trans (tsSize_le _) ?_
    simp [col_length]
  refine ⟨_, ⟨?_, ?_⟩, hle⟩
  · rcases h.1 with h0 | h0
    · exact .inl h0
    · rcases Nat.eq_zero_or_pos (tsSize ((X.col i X.sz f).map fun x => [x])) with hz | hz
      · exact .inl hz
      · right
        rw [observed_single, col_get X (by omega)] at h0
        exact h0
  · intro t ht
    rcases Nat.lt_or_ge t X.sz with h' | h'
    · have := h.2 t ht
      rw [observed_single, col_get X h', not_not] at this
      exact this
    · exact entry_out hX h'

/-- The timestamps pass the checks of the code. -/
def TimesOk (X : Arr3 K) (times : Option (Arr3 K)) : Prop :=
  ∀ T, times = some T → ∃ T', toDataset (.series T.slots) = .ok T' ∧ T'.data.length = X.data.length ∧
    T'.sz = X.sz ∧ T'.d = X.d ∧ increasingTimes T = true

theorem sync_ok (ref : ℕ) (xF x : DsInput K) (F X : Arr3 K) (times : Option (Arr3 K))
    (hF : toDataset xF = .ok F) (hx : toDataset x = .ok X) (hX : X.WF) (hd : F.d = X.d) (hne : X.data ≠ [])
    (href : ref < X.d) (ht : TimesOk X times) (N : ℕ → ℕ → ℕ)
    (hN : ∀ i < X.data.length, ∀ f < X.d, FeatSize X i f (N i f) ∧ 0 < N i f) :
    ∃ Y, synchronize ref xF x times = .ok Y ∧ Y.WF ∧ Y.data.length = X.data.length ∧ Y.d = X.d ∧
      (∀ i < X.data.length, N i ref ≤ Y.sz) ∧ (∃ i < X.data.length, N i ref = Y.sz) ∧
      ∀ i < X.data.length, ∀ t < Y.sz, ∀ f < X.d, Y.entry i t f =
        if t < N i ref then
          ((syncCoords times i (N i ref) ref).map (interp1 (syncCoords times i (N i f) f) (X.col i (N i f) f))).getD t none
        else none := by
  have hsz : ∀ i < X.data.length, ∀ f < X.d, colSize (X.col i X.sz f) = N i f :=
    fun i hi f hf => colSize_eq hX (hN i hi f hf).1
  set refSizes := (List.range X.data.length).map fun i => colSize (X.col i X.sz ref) with hrs
  have hget : ∀ i < X.data.length, refSizes.getD i 0 = N i ref := by
    intro i hi
    rw [hrs, range_map_getD _ _ _ hi, hsz i hi ref href]
  have hlen : ∀ i n f, (syncCoords times i n f).length = n := by
    intro i n f
    unfold syncCoords
    cases times with
    | none => exact linspace01_length n
    | some T => simp [col_length]
  have hout : ((List.range X.data.length).mapM fun i => (List.range X.d).mapM fun f =>
      interp (syncCoords times i (refSizes.getD i 0) ref) (syncCoords times i (colSize (X.col i X.sz f)) f)
        (X.col i (colSize (X.col i X.sz f)) f)) =
      Except.ok (ε := PyErr) ((List.range X.data.length).map fun i => (List.range X.d).map fun f =>
        (syncCoords times i (N i ref) ref).map (interp1 (syncCoords times i (N i f) f) (X.col i (N i f) f))) := by
    apply mapM_except_ok
    intro i hi
    apply mapM_except_ok
    intro f hf
    rw [List.mem_range] at hi hf
    rw [hget i hi, hsz i hi f hf, interp, if_neg]
    intro e
    have := hlen i (N i f) f
    rw [e] at this
    have := (hN i hi f hf).2
    simp at *
    omega
  refine ⟨Arr3.build X.data.length (refSizes.foldr max 0) X.d fun i t f =>
    if t < N i ref then
          ((syncCoords times i (N i ref) ref).map (interp1 (syncCoords times i (N i f) f) (X.col i (N i f) f))).getD t none
        else none, ?_, Arr3.build_wf _ _ _ _, Arr3.build_length .., rfl, ?_, ?_, ?_⟩
  · have fin : (Arr3.build X.data.length (refSizes.foldr max 0) X.d fun i t f =>
        if t < refSizes.getD i 0 then ((((List.range X.data.length).map fun i => (List.range X.d).map fun f =>
        (syncCoords times i (N i ref) ref).map (interp1 (syncCoords times i (N i f) f) (X.col i (N i f) f))).getD i []).getD f []).getD t none else none) =
        Arr3.build X.data.length (refSizes.foldr max 0) X.d fun i t f =>
          if t < N i ref then
            ((syncCoords times i (N i ref) ref).map (interp1 (syncCoords times i (N i f) f) (X.col i (N i f) f))).getD t none
          else none := by
      apply Arr3.build_congr
      intro i hi t _ f hf
      rw [hget i hi, range_map_getD _ _ _ hi, range_map_getD _ _ _ hf]
    unfold synchronize
    cases times with
    | none =>
      simp only [hF, hx, bind, Except.bind, hd, ne_eq, not_true_eq_false, if_false, pure, Except.pure, hne,
        not_le.2 href, ← hrs, hout, fin]
    | some T =>
      obtain ⟨T', h1, h2, h3, h4, h5⟩ := ht T rfl
      simp only [hF, hx, bind, Except.bind, hd, ne_eq, not_true_eq_false, if_false, pure, Except.pure, hne,
        not_le.2 href, ← hrs, hout, fin, h1, h2, h3, h4, h5, or_self]
  · intro i hi
    refine le_foldr_max _ ?_
    rw [← hget i hi, List.getD_eq_getElem _ _ (by simpa [hrs] using hi)]
    exact List.getElem_mem _
  · have hmem : refSizes.foldr max 0 ∈ refSizes := by
      rcases foldr_max_mem_or refSizes with e | e
      · have h0 : 0 < X.data.length := List.length_pos_iff.2 hne
        have := (hN 0 h0 ref href).2
        have h1 : N 0 ref ≤ refSizes.foldr max 0 := by
          refine le_foldr_max _ ?_
          rw [← hget 0 h0, List.getD_eq_getElem _ _ (by simpa [hrs] using h0)]
          exact List.getElem_mem _
        omega
      · exact e
    obtain ⟨i, hi, e⟩ := List.mem_iff_getElem.1 hmem
    have hi' : i < X.data.length := by simpa [hrs] using hi
    refine ⟨i, hi', ?_⟩
    rw [← hget i hi', List.getD_eq_getElem _ _ hi, e]
    rfl
  · intro i hi t ht f hf
    exact Arr3.build_entry hi ht hf


/-- Without timestamps: the reference feature is kept, every other feature is read at the equally spaced
positions `k (n-1) / (R-1)`, and the rest is NaN. -/
theorem C54_grid (ref : ℕ) (xF x : DsInput K) (F X : Arr3 K) (hF : toDataset xF = .ok F)
    (hx : toDataset x = .ok X) (hX : X.WF) (hd : F.d = X.d) (hne : X.data ≠ []) (href : ref < X.d)
    (hobs : ∀ i < X.data.length, ∀ f < X.d, ∃ t, X.entry i t f ≠ none) :
    ∃ Y, synchronize ref xF x none = .ok Y ∧ Y.WF ∧ Y.data.length = X.data.length ∧ Y.d = X.d ∧
      (∃ i < X.data.length, FeatSize X i ref Y.sz) ∧
      ∀ i < X.data.length, ∀ R, FeatSize X i ref R → R ≤ Y.sz ∧
        (∀ t < Y.sz, R ≤ t → ∀ f < X.d, Y.entry i t f = none) ∧
        (∀ t < R, Y.entry i t ref = X.entry i t ref) ∧
        ∀ f < X.d, ∀ n, FeatSize X i f n → Y.entry i 0 f = X.entry i 0 f ∧
          ∀ k < R, ∀ p r, r < R - 1 → k * (n - 1) = p * (R - 1) + r →
            Y.entry i k f = if r = 0 then X.entry i p f else
              (X.entry i p f).bind fun a => (X.entry i (p + 1) f).map fun b =>
                a + (b - a) * ((r : K) / ((R - 1 : ℕ) : K)) := by
  have hex : ∀ i f, ∃ n, FeatSize X i f n := fun i f => (exists_featSize hX i f).imp fun n h => h.1
  choose N hN using hex
  have huniq : ∀ i f n, FeatSize X i f n → n = N i f := fun i f n h =>
    (colSize_eq hX h).symm.trans (colSize_eq hX (hN i f))
  have hpos : ∀ i < X.data.length, ∀ f < X.d, 0 < N i f := by
    intro i hi f hf
    obtain ⟨t, ht⟩ := hobs i hi f hf
    by_contra hc
    exact ht ((hN i f).2 t (by omega))
  obtain ⟨Y, hY, hw, hl, hd', hle, ⟨i0, hi0, he0⟩, hent⟩ := sync_ok ref xF x F X none hF hx hX hd hne href
    (fun T h => by simp at h) N (fun i hi f hf => ⟨hN i f, hpos i hi f hf⟩)
  refine ⟨Y, hY, hw, hl, hd', ⟨i0, hi0, he0 ▸ hN i0 ref⟩, ?_⟩
  intro i hi R hR
  obtain rfl := huniq i ref R hR
  have hRle := hle i hi
  have hval : ∀ f < X.d, ∀ k < N i ref, Y.entry i k f =
      interp1 (linspace01 (X.col i (N i f) f).length) (X.col i (N i f) f) ((linspace01 (N i ref) : List K).getD k 0) := by
    intro f hf k hk
    have hk' : k < (linspace01 (N i ref) : List K).length := by rw [linspace01_length]; exact hk
    rw [hent i hi k (by omega) f hf, if_pos hk, col_length]
    simp only [syncCoords]
    rw [List.getD_eq_getElem _ _ (by simpa using hk'), List.getElem_map, ← List.getD_eq_getElem _ 0 hk']
  have hform : ∀ f < X.d, ∀ k < N i ref, ∀ p r, r < N i ref - 1 → k * (N i f - 1) = p * (N i ref - 1) + r →
            Y.entry i k f = if r = 0 then X.entry i p f else
              (X.entry i p f).bind fun a => (X.entry i (p + 1) f).map fun b =>
                a + (b - a) * ((r : K) / ((N i ref - 1 : ℕ) : K)) := by
    intro f hf k hk p r hr hpr
    have h1 := interp1_linspace (X.col i (N i f) f) (N i ref) k p r (by rw [col_length]; exact hpos i hi f hf)
      (by omega) hk hr (by rw [col_length]; exact hpr)
    rw [hval f hf k hk, h1]
    have hcol : ∀ t, (X.col i (N i f) f).getD t none = X.entry i t f := by
      intro t
      rcases Nat.lt_or_ge t (N i f) with h | h
      · exact col_get X h
      · rw [(hN i f).2 t h, List.getD_eq_default _ _ (by rw [col_length]; exact h)]
    rw [hcol, hcol]
    by_cases hr0 : r = 0
    · rw [if_pos hr0, if_pos hr0]
    · rw [if_neg hr0, if_neg hr0]
      cases X.entry i p f <;> cases X.entry i (p + 1) f <;> rfl
  have hfirst : ∀ f < X.d, Y.entry i 0 f = X.entry i 0 f := by
    intro f hf
    have hR0 := hpos i hi ref href
    rw [hval f hf 0 hR0]
    have h0 : ∀ m, 0 < m → (linspace01 m : List K).getD 0 0 = 0 := by
      intro m hm; rw [linspace01_getD hm]; split_ifs <;> simp
    have hn := hpos i hi f hf
    rw [h0 _ hR0, ← col_get X (i := i) (f := f) hn]
    apply interp1_node
    · rw [linspace01_length, col_length]; exact hn
    · omega
    · exact h0 _ (by rw [col_length]; exact hn)
    · rw [linspace01_length, col_length]
      intro h
      rw [linspace01_getD h, if_neg (by omega)]
      have : (0 : K) < ((N i f - 1 : ℕ) : K) := by exact_mod_cast (by omega : 0 < N i f - 1)
      positivity
  refine ⟨hRle, ?_, ?_, ?_⟩
  · intro t ht hRt f hf
    rw [hent i hi t ht f hf, if_neg (by omega)]
  · intro t ht
    rcases Nat.eq_or_lt_of_le (show 1 ≤ N i ref by omega) with h | h
    · obtain rfl : t = 0 := by omega
      exact hfirst ref href
    · rw [hform ref href t ht t 0 (by omega) (by simp), if_pos rfl]
  · intro f hf n hn
    obtain rfl := huniq i f n hn
    exact ⟨hfirst f hf, hform f hf⟩

/-- With timestamps: the reference feature is kept, and every other feature is interpolated at the reference
timestamps, with its first and last values outside of its own range of timestamps. `τ i t f` is the timestamp of
sample `(i, t, f)`. -/
theorem C54_times (ref : ℕ) (xF x : DsInput K) (F X T T' : Arr3 K) (hF : toDataset xF = .ok F)
    (hx : toDataset x = .ok X) (hX : X.WF) (hd : F.d = X.d) (hne : X.data ≠ []) (href : ref < X.d)
    (hobs : ∀ i < X.data.length, ∀ f < X.d, ∃ t, X.entry i t f ≠ none)
    (hT : toDataset (.series T.slots) = .ok T') (hs1 : T'.data.length = X.data.length) (hs2 : T'.sz = X.sz)
    (hs3 : T'.d = X.d) (hinc : increasingTimes T = true) (τ : ℕ → ℕ → ℕ → K)
    (hτ : ∀ i < X.data.length, ∀ f < X.d, ∀ n, FeatSize X i f n → ∀ t < n, T.entry i t f = some (τ i t f))
    (hmono : ∀ i < X.data.length, ∀ f < X.d, ∀ n, FeatSize X i f n → ∀ t, t + 1 < n → τ i t f < τ i (t + 1) f) :
    ∃ Y, synchronize ref xF x (some T) = .ok Y ∧ Y.WF ∧ Y.data.length = X.data.length ∧ Y.d = X.d ∧
      (∃ i < X.data.length, FeatSize X i ref Y.sz) ∧
      ∀ i < X.data.length, ∀ R, FeatSize X i ref R → R ≤ Y.sz ∧
        (∀ t < Y.sz, R ≤ t → ∀ f < X.d, Y.entry i t f = none) ∧
        (∀ t < R, Y.entry i t ref = X.entry i t ref) ∧
        ∀ f < X.d, ∀ n, FeatSize X i f n → ∀ k < R,
          (τ i k ref ≤ τ i 0 f → Y.entry i k f = X.entry i 0 f) ∧
          (τ i (n - 1) f ≤ τ i k ref → Y.entry i k f = X.entry i (n - 1) f) ∧
          (∀ p < n, τ i p f = τ i k ref → Y.entry i k f = X.entry i p f) ∧
          ∀ p, p + 1 < n → τ i p f < τ i k ref → τ i k ref < τ i (p + 1) f →
            Y.entry i k f = (X.entry i p f).bind fun a => (X.entry i (p + 1) f).map fun b =>
                a + (b - a) * ((τ i k ref - τ i p f) / (τ i (p + 1) f - τ i p f)) := by
  have hex : ∀ i f, ∃ n, FeatSize X i f n := fun i f => (exists_featSize hX i f).imp fun n h => h.1
  choose N hN using hex
  have huniq : ∀ i f n, FeatSize X i f n → n = N i f := fun i f n h =>
    (colSize_eq hX h).symm.trans (colSize_eq hX (hN i f))
  have hpos : ∀ i < X.data.length, ∀ f < X.d, 0 < N i f := by
    intro i hi f hf
    obtain ⟨t, ht⟩ := hobs i hi f hf
    by_contra hc
    exact ht ((hN i f).2 t (by omega))
  obtain ⟨Y, hY, hw, hl, hd', hle, ⟨i0, hi0, he0⟩, hent⟩ := sync_ok ref xF x F X (some T) hF hx hX hd hne href
    (fun T'' h => by cases h; exact ⟨T', hT, hs1, hs2, hs3, hinc⟩) N (fun i hi f hf => ⟨hN i f, hpos i hi f hf⟩)
  refine ⟨Y, hY, hw, hl, hd', ⟨i0, hi0, he0 ▸ hN i0 ref⟩, ?_⟩
  intro i hi R hR
  obtain rfl := huniq i ref R hR
  have hRle := hle i hi
  have hco : ∀ f < X.d, ∀ t < N i f, (syncCoords (some T) i (N i f) f).getD t 0 = τ i t f := by
    intro f hf t ht
    simp only [syncCoords]
    rw [List.getD_eq_getElem _ _ (by simpa [col_length] using ht), List.getElem_map,
      ← List.getD_eq_getElem _ none (by rw [col_length]; exact ht), col_get T ht, hτ i hi f hf _ (hN i f) t ht]
    rfl
  have hlen : ∀ f n, (syncCoords (some T) i n f).length = n := by
    intro f n; simp [syncCoords, col_length]
  have hval : ∀ f < X.d, ∀ k < N i ref, Y.entry i k f =
      interp1 (syncCoords (some T) i (N i f) f) (X.col i (N i f) f) (τ i k ref) := by
    intro f hf k hk
    have hk' : k < (syncCoords (some T) i (N i ref) ref).length := by rw [hlen]; exact hk
    rw [hent i hi k (by omega) f hf, if_pos hk, List.getD_eq_getElem _ _ (by simpa using hk'), List.getElem_map,
      ← List.getD_eq_getElem _ 0 hk', hco ref href k hk]
  have hlt : ∀ f < X.d, ∀ b < N i f, ∀ a < b, τ i a f < τ i b f := by
    intro f hf b
    induction b with
    | zero => omega
    | succ b ih =>
      intro hb a ha
      have h1 := hmono i hi f hf _ (hN i f) b hb
      rcases Nat.lt_succ_iff_lt_or_eq.1 ha with h | rfl
      · exact (ih (by omega) a h).trans h1
      · exact h1
  have hcol : ∀ f, ∀ t < N i f, (X.col i (N i f) f).getD t none = X.entry i t f := fun f t ht => col_get X ht
  have hnode : ∀ f < X.d, ∀ k < N i ref, ∀ p < N i f, τ i p f = τ i k ref → Y.entry i k f = X.entry i p f := by
    intro f hf k hk p hp he
    rw [hval f hf k hk, interp1_node _ _ _ p (by rw [hlen]; exact hp), hcol f p hp]
    · intro j hj
      rw [hco f hf j (by omega), ← he]
      exact (hlt f hf p hp j hj).le
    · rw [hco f hf p hp, he]
    · rw [hlen]
      intro h
      rw [hco f hf _ h, ← he]
      exact hlt f hf _ h p (by omega)
  refine ⟨hRle, ?_, fun t ht => hnode ref href t ht t ht rfl, ?_⟩
  · intro t ht hRt f hf
    rw [hent i hi t ht f hf, if_neg (by omega)]
  · intro f hf n hn k hk
    obtain rfl := huniq i f n hn
    have hn0 := hpos i hi f hf
    refine ⟨?_, ?_, hnode f hf k hk, ?_⟩
    · intro h
      rcases h.eq_or_lt with h | h
      · exact hnode f hf k hk 0 hn0 h.symm
      · rw [hval f hf k hk, interp1_left, hcol f 0 hn0]
        intro _
        rw [hco f hf 0 hn0]; exact h
    · intro h
      rw [hval f hf k hk, interp1_right _ _ _ (N i f - 1) (by rw [hlen]; omega), hcol f _ (by omega)]
      intro j hj
      rw [hlen] at hj
      rw [hco f hf j hj]
      rcases Nat.lt_or_ge j (N i f - 1) with h' | h'
      · exact (hlt f hf _ (by omega) j h').le.trans h
      · obtain rfl : j = N i f - 1 := by omega
        exact h
    · intro p hp h1 h2
      rw [hval f hf k hk, interp1_inside _ _ _ p (by rw [hlen]; exact hp), hcol f p (by omega), hcol f _ hp,
        hco f hf p (by omega), hco f hf _ hp]
      · cases X.entry i p f with
        | none => rfl
        | some a =>
          cases X.entry i (p + 1) f with
          | none => rfl
          | some b =>
            simp only [Option.bind_some, Option.map_some, Option.some.injEq]
            ring
      · intro j hj
        rw [hco f hf j (by omega)]
        exact (hlt f hf p (by omega) j hj).le.trans h1.le
      · rw [hco f hf p (by omega)]; exact h1
      · rw [hco f hf _ hp]; exact h2

/-- What the check on timestamps asks for: two consecutive timestamps present somewhere, and a strict increase
wherever two consecutive ones are present. -/
theorem C54_order_check (T : Arr3 K) : increasingTimes T = true ↔
    (∃ i < T.data.length, ∃ t, t + 1 < T.sz ∧ ∃ f < T.d, ∃ a b, T.entry i t f = some a ∧ T.entry i (t + 1) f = some b) ∧
    ∀ i < T.data.length, ∀ t, t + 1 < T.sz → ∀ f < T.d, ∀ a b, T.entry i t f = some a → T.entry i (t + 1) f = some b → a < b := by
  unfold increasingTimes validPair
  simp only [Bool.and_eq_true, List.any_eq_true, List.all_eq_true, List.mem_range, Option.isSome_iff_exists]
  refine and_congr ⟨?_, ?_⟩ ⟨?_, ?_⟩
  · rintro ⟨i, hi, t, ht, f, hf, ⟨a, ha⟩, b, hb⟩
    exact ⟨i, hi, t, by omega, f, hf, a, b, ha, hb⟩
  · rintro ⟨i, hi, t, ht, f, hf, a, b, ha, hb⟩
    exact ⟨i, hi, t, by omega, f, hf, ⟨a, ha⟩, b, hb⟩
  · intro h i hi t ht f hf a b ha hb
    have := h i hi t (by omega) f hf
    rw [ha, hb] at this
    simpa using this
  · intro h i hi t ht f hf
    cases ha : T.entry i t f with
    | none => rfl
    | some a =>
      cases hb : T.entry i (t + 1) f with
      | none => rfl
      | some b => simpa using h i hi t (by omega) f hf a b ha hb

/-- Timestamps without two consecutive present ones are refused as well, though nothing is out of order:
one timestamp per series is not enough. -/
theorem C54_no_pair (ref : ℕ) (xF x : DsInput K) (X T : Arr3 K) (hx : toDataset x = .ok X)
    (h : ∀ i < T.data.length, ∀ t, t + 1 < T.sz → ∀ f < T.d, T.entry i t f = none ∨ T.entry i (t + 1) f = none) :
    ∃ e, synchronize ref xF x (some T) = .error e := by
  have hno : ¬ increasingTimes T = true := by
    rw [C54_order_check]
    rintro ⟨⟨i, hi, t, ht, f, hf, a, b, ha, hb⟩, -⟩
    rcases h i hi t ht f hf with h | h
    · rw [h] at ha; cases ha
    · rw [h] at hb; cases hb
  cases hF : toDataset xF with
  | error e => exact ⟨e, by simp [synchronize, hF, bind, Except.bind]⟩
  | ok F =>
    cases hT : toDataset (.series T.slots) with
    | error e =>
      simp only [synchronize, hF, hx, hT, bind, Except.bind, throw, throwThe, MonadExceptOf.throw]
      split_ifs <;> exact ⟨_, rfl⟩
    | ok T' =>
      simp only [synchronize, hF, hx, hT, bind, Except.bind, throw, throwThe, MonadExceptOf.throw]
      split_ifs <;> exact ⟨_, rfl⟩

/-- Timestamps of another shape, or two consecutive timestamps that do not increase, are refused. -/
theorem C54_refused (ref : ℕ) (xF x : DsInput K) (X T : Arr3 K) (hx : toDataset x = .ok X)
    (h : (∀ T', toDataset (.series T.slots) = .ok T' → T'.data.length ≠ X.data.length ∨ T'.sz ≠ X.sz ∨ T'.d ≠ X.d) ∨
      ∃ i < T.data.length, ∃ t, t + 1 < T.sz ∧ ∃ f < T.d, ∃ a b, T.entry i t f = some a ∧
        T.entry i (t + 1) f = some b ∧ b ≤ a) :
    ∃ e, synchronize ref xF x (some T) = .error e := by
  cases hs : synchronize ref xF x (some T) with
  | error e => exact ⟨e, rfl⟩
  | ok Y =>
    exfalso
    cases hF : toDataset xF with
    | error e => simp [synchronize, hF, bind, Except.bind] at hs
    | ok F =>
      cases hT : toDataset (.series T.slots) with
      | error e =>
        simp only [synchronize, hF, hx, hT, bind, Except.bind, throw, throwThe, MonadExceptOf.throw] at hs
        split_ifs at hs
      | ok T' =>
        simp only [synchronize, hF, hx, hT, bind, Except.bind, throw, throwThe, MonadExceptOf.throw] at hs
        split_ifs at hs with h1 h2 h3
        · rename_i hs'
          rcases h with h | ⟨i, hi, t, ht, f, hf, a, b, ha, hb, hab⟩
          · exact h2 (h T' hT)
          · unfold increasingTimes at h3
            rw [Bool.and_eq_true, List.all_eq_true] at h3
            have h4 := h3.2 i (List.mem_range.2 hi)
            rw [List.all_eq_true] at h4
            have h5 := h4 t (List.mem_range.2 (by omega))
            rw [List.all_eq_true] at h5
            have h6 := h5 f (List.mem_range.2 hf)
            rw [ha, hb] at h6
            simp only [decide_eq_true_eq] at h6
            exact absurd hab (not_le.2 h6)

/-- `[[1, 2], [2, 4], [9, NaN]]`: the second feature has two samples, the reference three. -/
def exSync : Arr3 ℚ := ⟨3, 2, [[[some 1, some 2], [some 2, some 4], [some 9, none]]]⟩

theorem exSync_formatted : Formatted exSync :=
  ⟨by intro s hs; fin_cases hs; exact ⟨rfl, by intro r hr; fin_cases hr <;> rfl⟩,
    fun h => by simp [exSync] at h,
    .inr ⟨_, List.mem_cons_self, .inr ⟨_, rfl, _, List.mem_cons_self, rfl⟩, by
      rintro i hi ⟨r, hr, -⟩
      have := (List.getElem?_eq_some_iff.1 hr).1
      simp [exSync] at this hi
      omega⟩⟩

theorem exSync_size0 : FeatSize exSync 0 0 3 := by
  refine ⟨.inr (by simp [exSync, Arr3.entry]), fun t ht => entry_out exSync_formatted.wf ht⟩

theorem exSync_size1 : FeatSize exSync 0 1 2 := by
  refine ⟨.inr (by simp [exSync, Arr3.entry]), fun t ht => ?_⟩
  rcases Nat.eq_or_lt_of_le ht with rfl | h
  · rfl
  · exact entry_out exSync_formatted.wf h

theorem exSync_obs : ∀ i < exSync.data.length, ∀ f < exSync.d, ∃ t, exSync.entry i t f ≠ none := by
  intro i hi f hf
  simp [exSync] at hi hf
  subst hi
  refine ⟨0, ?_⟩
  interval_cases f <;> simp [exSync, Arr3.entry]

example : ∃ Y, synchronize 0 (.series exSync.slots) (.series exSync.slots) none = .ok Y ∧
    Y.entry 0 1 0 = some (2 : ℚ) ∧ Y.entry 0 1 1 = some 3 ∧ Y.entry 0 2 1 = some 4 := by
  obtain ⟨Y, hY, -, -, -, -, h⟩ := C54_grid (K := ℚ) 0 _ _ exSync exSync exSync_formatted.toDataset_slots
    exSync_formatted.toDataset_slots exSync_formatted.wf rfl (by simp [exSync]) (by decide) exSync_obs
  obtain ⟨-, -, h1, h2⟩ := h 0 (by decide) 3 exSync_size0
  obtain ⟨-, h3⟩ := h2 1 (by decide) 2 exSync_size1
  refine ⟨Y, hY, h1 1 (by omega), ?_, ?_⟩
  · rw [h3 1 (by omega) 0 1 (by omega) (by omega)]
    simp [exSync, Arr3.entry]
    norm_num
  · rw [h3 2 (by omega) 1 0 (by omega) (by omega)]
    rfl

/-- The documented example: timestamps (1, 3, 10) for the reference and (2, 7) for the second feature. -/
def exTimes : Arr3 ℚ := ⟨3, 2, [[[some 1, some 2], [some 3, some 7], [some 10, none]]]⟩

theorem exTimes_formatted : Formatted exTimes :=
  ⟨by intro s hs; fin_cases hs; exact ⟨rfl, by intro r hr; fin_cases hr <;> rfl⟩,
    fun h => by simp [exTimes] at h,
    .inr ⟨_, List.mem_cons_self, .inr ⟨_, rfl, _, List.mem_cons_self, rfl⟩, by
      rintro i hi ⟨r, hr, -⟩
      have := (List.getElem?_eq_some_iff.1 hr).1
      simp [exTimes] at this hi
      omega⟩⟩

example : ∃ Y, synchronize 0 (.series exSync.slots) (.series exSync.slots) (some exTimes) = .ok Y ∧
    Y.entry 0 1 0 = some (2 : ℚ) ∧ Y.entry 0 0 1 = some 2 ∧ Y.entry 0 1 1 = some (12 / 5) := by
  have hsz : ∀ i < exSync.data.length, ∀ f < exSync.d, ∀ n, FeatSize exSync i f n →
      i = 0 ∧ ((f = 0 ∧ n = 3) ∨ (f = 1 ∧ n = 2)) := by
    intro i hi f hf n hn
    simp [exSync] at hi hf
    subst hi
    refine ⟨rfl, ?_⟩
    interval_cases f
    · exact .inl ⟨rfl, (colSize_eq exSync_formatted.wf hn).symm.trans (colSize_eq exSync_formatted.wf exSync_size0)⟩
    · exact .inr ⟨rfl, (colSize_eq exSync_formatted.wf hn).symm.trans (colSize_eq exSync_formatted.wf exSync_size1)⟩
  obtain ⟨Y, hY, -, -, -, -, h⟩ := C54_times (K := ℚ) 0 _ _ exSync exSync exTimes exTimes
    exSync_formatted.toDataset_slots exSync_formatted.toDataset_slots exSync_formatted.wf rfl (by simp [exSync])
    (by decide) exSync_obs exTimes_formatted.toDataset_slots rfl rfl rfl
    (by decide) (fun i t f => (exTimes.entry i t f).getD 0)
    (by
      intro i hi f hf n hn t ht
      obtain ⟨rfl, ⟨rfl, rfl⟩ | ⟨rfl, rfl⟩⟩ := hsz i hi f hf n hn <;> interval_cases t <;> rfl)
    (by
      intro i hi f hf n hn t ht
      obtain ⟨rfl, ⟨rfl, rfl⟩ | ⟨rfl, rfl⟩⟩ := hsz i hi f hf n hn
      · obtain rfl | rfl : t = 0 ∨ t = 1 := by omega
        all_goals simp [exTimes, Arr3.entry]; try norm_num
      · obtain rfl : t = 0 := by omega
        simp [exTimes, Arr3.entry]; norm_num)
  obtain ⟨-, -, h1, h2⟩ := h 0 (by decide) 3 exSync_size0
  have h3 := h2 1 (by decide) 2 exSync_size1
  refine ⟨Y, hY, h1 1 (by omega), ?_, ?_⟩
  · rw [(h3 0 (by omega)).1 (by simp [exTimes, Arr3.entry])]
    rfl
  · rw [(h3 1 (by omega)).2.2.2 0 (by omega) (by simp [exTimes, Arr3.entry]; norm_num) (by simp [exTimes, Arr3.entry]; norm_num)]
    simp [exSync, exTimes, Arr3.entry]
    norm_num

/-- Non-vacuity of the refusal: timestamps in order, but no two consecutive ones. -/
example : ∃ e, synchronize 0 (.series exSync.slots) (.series exSync.slots)
    (some (⟨3, 2, [[[some 0, none], [none, some 1], [some 5, none]]]⟩ : Arr3 ℚ)) = .error e := by
  refine C54_no_pair 0 _ _ exSync _ exSync_formatted.toDataset_slots fun i hi t ht f hf => ?_
  simp at hi ht hf
  obtain rfl : i = 0 := hi
  interval_cases f <;> (obtain rfl | rfl : t = 0 ∨ t = 1 := by omega) <;> simp [Arr3.entry]

end Verif
