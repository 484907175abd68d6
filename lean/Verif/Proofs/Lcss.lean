import Verif.Model.Lcss
import Verif.Spec.Matching
import Verif.Proofs.Dp
import Verif.Proofs.Masks
/-!
LCSS table and traceback.
-/
namespace Verif
open Spec

theorem Spec.IsMatching.mono {n m n' m' : ℕ} {hit : ℕ → ℕ → Prop} {p} (h : IsMatching n m hit p)
    (hn : n ≤ n') (hm : m ≤ m') : IsMatching n' m' hit p :=
  ⟨h.incr, fun c hc => ⟨(h.inside c hc).1.trans_le hn, (h.inside c hc).2.trans_le hm⟩, h.hits⟩

theorem Spec.IsMatching.snoc {n m : ℕ} {hit : ℕ → ℕ → Prop} {p} (h : IsMatching n m hit p)
    (hh : hit n m) : IsMatching (n+1) (m+1) hit (p ++ [(n, m)]) := by
  refine ⟨?_, ?_, ?_⟩
  · rw [List.pairwise_append]
    refine ⟨h.incr, by simp, ?_⟩
    intro a ha b hb
    simp at hb; subst hb
    exact h.inside a ha
  · intro c hc
    simp at hc
    rcases hc with hc | rfl
    · have := h.inside c hc; omega
    · simp
  · intro c hc
    simp at hc
    rcases hc with hc | rfl
    · exact h.hits c hc
    · exact hh

/-- A matching in an `(n+1) × (m+1)` prefix either ends with the corner, or leaves the last row or
the last column unused. -/
theorem Spec.IsMatching.cases {n m : ℕ} {hit : ℕ → ℕ → Prop} {p} (h : IsMatching (n+1) (m+1) hit p) :
    (∃ q, p = q ++ [(n, m)] ∧ IsMatching n m hit q ∧ hit n m) ∨
    IsMatching n (m+1) hit p ∨ IsMatching (n+1) m hit p := by
  induction p using List.reverseRecOn with
  | nil => exact .inr (.inl ⟨List.Pairwise.nil, by simp, by simp⟩)
  | append_singleton q c _ =>
    have hinc := h.incr
    rw [List.pairwise_append] at hinc
    have hlt : ∀ a ∈ q, a.1 < c.1 ∧ a.2 < c.2 := fun a ha => hinc.2.2 a ha c (by simp)
    have hc := h.inside c (by simp)
    by_cases h1 : c.1 = n
    · by_cases h2 : c.2 = m
      · left
        have hce : c = (n, m) := Prod.ext h1 h2
        refine ⟨q, by rw [hce], ⟨hinc.1, fun a ha => ?_, fun a ha => h.hits a (by simp [ha])⟩, ?_⟩
        · have := hlt a ha; omega
        · have := h.hits c (by simp); rwa [hce] at this
      · right; right
        refine ⟨h.incr, fun a ha => ?_, h.hits⟩
        have := h.inside a ha
        simp at ha
        rcases ha with ha | rfl
        · have := hlt a ha; omega
        · omega
    · right; left
      refine ⟨h.incr, fun a ha => ?_, h.hits⟩
      have := h.inside a ha
      simp at ha
      rcases ha with ha | rfl
      · have := hlt a ha; omega
      · omega

theorem Spec.IsMatching.length_le {n m : ℕ} {hit : ℕ → ℕ → Prop} {p} (h : IsMatching n m hit p) :
    p.length ≤ min n m := by
  induction n generalizing m p with
  | zero =>
    cases p with
    | nil => simp
    | cons a p => have := h.inside a (by simp); omega
  | succ n ih =>
    induction m generalizing p with
    | zero =>
      cases p with
      | nil => simp
      | cons a p => have := h.inside a (by simp); omega
    | succ m ihm =>
      rcases h.cases with ⟨q, rfl, hq, -⟩ | h | h
      · have := ih hq; simp at this ⊢; omega
      · have := ih h; omega
      · have := ihm h; omega

/-- Pairs allowed by the mask and matching. -/
def okPair (mask : Mat Bool) (hit : ℕ → ℕ → Bool) (i j : ℕ) : Prop := mask i j = true ∧ hit i j = true

/-- What the mask must satisfy for the in-place recursion to be exact: it is closed by diagonal
steps back, and when a neighbour of an allowed cell is forbidden, the allowed pairs of the
corresponding prefix fit in the other (allowed) neighbour's prefix. -/
structure LcssMask (l1 l2 : ℕ) (mask : Mat Bool) : Prop where
  diag : ∀ i j, i + 1 < l1 → j + 1 < l2 → mask (i+1) (j+1) = true → mask i j = true
  up : ∀ i j, i + 1 < l1 → j < l2 → mask (i+1) j = true → mask i j = false →
    (∀ a b, a ≤ i → b ≤ j → mask a b = true → b < j) ∧ ∃ j', j = j' + 1 ∧ mask (i+1) j' = true
  left : ∀ i j, i < l1 → j + 1 < l2 → mask i (j+1) = true → mask i j = false →
    (∀ a b, a ≤ i → b ≤ j → mask a b = true → a < i) ∧ ∃ i', i = i' + 1 ∧ mask i' (j+1) = true

theorem lcssAcc_isDP (l1 l2 : ℕ) (mask : Mat Bool) (hit : ℕ → ℕ → Bool) :
    IsDP l1 l2 mask (fun i j up left diag => if hit i j then 1 + diag else max left up) (Mat.full 0)
      (lcssAcc l1 l2 mask hit) := dpLoop_isDP _ _ _ _ _

/-- Hits may be matched greedily: if the corner of an allowed cell matches, a longest matching ends
there. -/
theorem matching_corner {n m : ℕ} {hit : ℕ → ℕ → Prop} {p} (h : IsMatching (n+1) (m+1) hit p) :
    ∃ q, IsMatching n m hit q ∧ p.length ≤ q.length + 1 := by
  rcases List.eq_nil_or_concat p with rfl | ⟨q, c, rfl⟩
  · exact ⟨[], ⟨List.Pairwise.nil, by simp, by simp⟩, by simp⟩
  · simp only [List.concat_eq_append] at h ⊢
    have hinc := h.incr
    rw [List.pairwise_append] at hinc
    refine ⟨q, ⟨hinc.1, fun a ha => ?_, fun a ha => h.hits a (by simp [ha])⟩, by simp⟩
    have := hinc.2.2 a ha c (by simp)
    have := h.inside c (by simp)
    omega

theorem lcssAcc_le {l1 l2 : ℕ} {mask : Mat Bool} {hit : ℕ → ℕ → Bool} {i j : ℕ} (hi : i ≤ l1)
    (hj : j ≤ l2) : ∃ p, IsMatching i j (okPair mask hit) p ∧ p.length = lcssAcc l1 l2 mask hit i j := by
  have h := lcssAcc_isDP l1 l2 mask hit
  induction i generalizing j with
  | zero => exact ⟨[], ⟨List.Pairwise.nil, by simp, by simp⟩, by rw [h.row0]; rfl⟩
  | succ i ih =>
    induction j with
    | zero => exact ⟨[], ⟨List.Pairwise.nil, by simp, by simp⟩, by rw [h.col0]; rfl⟩
    | succ j ihj =>
      rw [h.body i j (by omega) (by omega)]
      by_cases hm : mask i j
      · by_cases hh : hit i j
        · obtain ⟨p, hp, hl⟩ := ih (j := j) (by omega) (by omega)
          exact ⟨p ++ [(i, j)], hp.snoc ⟨hm, hh⟩, by simp [hm, hh, hl, add_comm]⟩
        · simp only [hm, hh, if_true]
          rcases le_total (lcssAcc l1 l2 mask hit (i+1) j) (lcssAcc l1 l2 mask hit i (j+1)) with hle | hle
          · obtain ⟨p, hp, hl⟩ := ih (j := j+1) (by omega) (by omega)
            exact ⟨p, hp.mono (by omega) (by omega), by simp [hl, hle]⟩
          · obtain ⟨p, hp, hl⟩ := ihj (by omega)
            exact ⟨p, hp.mono (by omega) (by omega), by simp [hl, hle]⟩
      · exact ⟨[], ⟨List.Pairwise.nil, by simp, by simp⟩, by simp [hm, Mat.full]⟩

/-- Exactness of the table at allowed cells (and on the border). -/
theorem lcssAcc_ge {l1 l2 : ℕ} {mask : Mat Bool} {hit : ℕ → ℕ → Bool} (hM : LcssMask l1 l2 mask)
    {i j : ℕ} (hi : i < l1) (hj : j < l2) (hm : mask i j = true) {p : List (ℕ × ℕ)}
    (hp : IsMatching (i+1) (j+1) (okPair mask hit) p) :
    p.length ≤ lcssAcc l1 l2 mask hit (i+1) (j+1) := by
  have h := lcssAcc_isDP l1 l2 mask hit
  induction hs : i + j using Nat.strong_induction_on generalizing i j p with
  | _ s ih =>
    rw [h.body i j hi hj]
    simp only [hm, if_true]
    by_cases hh : hit i j
    · simp only [hh, if_true]
      obtain ⟨q, hq, hle⟩ := matching_corner hp
      suffices q.length ≤ lcssAcc l1 l2 mask hit i j by omega
      rcases i with _ | i
      · have := hq.length_le; simp at this; simp [this]
      · rcases j with _ | j
        · have := hq.length_le; simp at this; simp [this]
        · exact ih (i + j) (by omega) (by omega) (by omega) (hM.diag i j hi hj hm) hq rfl
    · simp only [hh]
      simp only [Bool.false_eq_true, if_false]
      have upc : ∀ p, IsMatching i (j+1) (okPair mask hit) p →
          p.length ≤ max (lcssAcc l1 l2 mask hit (i+1) j) (lcssAcc l1 l2 mask hit i (j+1)) := by
        intro p hp
        rcases i with _ | i
        · have := hp.length_le; simp at this; simp [this]
        · by_cases hmu : mask i j
          · exact (ih (i + j) (by omega) (by omega) hj hmu hp rfl).trans (le_max_right _ _)
          · obtain ⟨hall, j', rfl, hmj⟩ := hM.up i j hi hj hm (by simpa using hmu)
            have hp' : IsMatching (i+1+1) (j'+1) (okPair mask hit) p := by
              refine ⟨hp.incr, fun c hc => ⟨?_, ?_⟩, hp.hits⟩
              · have := hp.inside c hc; omega
              · have := hp.inside c hc
                exact hall c.1 c.2 (by omega) (by omega) (hp.hits c hc).1
            exact (ih (i + 1 + j') (by omega) hi (by omega) hmj hp' rfl).trans (le_max_left _ _)
      have leftc : ∀ p, IsMatching (i+1) j (okPair mask hit) p →
          p.length ≤ max (lcssAcc l1 l2 mask hit (i+1) j) (lcssAcc l1 l2 mask hit i (j+1)) := by
        intro p hp
        rcases j with _ | j
        · have := hp.length_le; simp at this; simp [this]
        · by_cases hmu : mask i j
          · exact (ih (i + j) (by omega) (by omega) (by omega) hmu hp rfl).trans (le_max_left _ _)
          · obtain ⟨hall, i', rfl, hmj⟩ := hM.left i j hi hj hm (by simpa using hmu)
            have hp' : IsMatching (i'+1) (j+1+1) (okPair mask hit) p := by
              refine ⟨hp.incr, fun c hc => ⟨?_, ?_⟩, hp.hits⟩
              · have := hp.inside c hc
                exact hall c.1 c.2 (by omega) (by omega) (hp.hits c hc).1
              · have := hp.inside c hc; omega
            exact (ih (i' + (j + 1)) (by omega) (by omega) hj hmj hp' rfl).trans (le_max_right _ _)
      rcases hp.cases with ⟨q, -, -, -, hh'⟩ | hp | hp
      · exact absurd hh' hh
      · exact upc p hp
      · exact leftc p hp

theorem lcssMask_full (l1 l2 : ℕ) : LcssMask l1 l2 (Mat.full true) :=
  ⟨by simp [Mat.full], by simp [Mat.full], by simp [Mat.full]⟩

/-- The band satisfies the condition unless it is a bare diagonal. -/
theorem lcssMask_sakoe (l1 l2 r : ℕ) (hr : 1 ≤ r ∨ l1 ≠ l2) : LcssMask l1 l2 (sakoeChibaMask l1 l2 r) := by
  refine ⟨fun i j hi hj h => ?_, fun i j hi hj h h0 => ?_, fun i j hi hj h h0 => ?_⟩
  · rw [sakoeChibaMask_iff _ _ _ _ _ (by omega) (by omega)] at h ⊢
    unfold InBand at h ⊢; omega
  · rw [sakoeChibaMask_iff _ _ _ _ _ (by omega) (by omega)] at h
    have h0' : ¬ (sakoeChibaMask l1 l2 r i j = true) := by simp [h0]
    rw [sakoeChibaMask_iff _ _ _ _ _ (by omega) (by omega)] at h0'
    unfold InBand at h h0'
    refine ⟨fun a b ha hb hab => ?_, j - 1, by omega, ?_⟩
    · rw [sakoeChibaMask_iff _ _ _ _ _ (by omega) (by omega)] at hab
      unfold InBand at hab; omega
    · rw [sakoeChibaMask_iff _ _ _ _ _ (by omega) (by omega)]
      unfold InBand; omega
  · rw [sakoeChibaMask_iff _ _ _ _ _ (by omega) (by omega)] at h
    have h0' : ¬ (sakoeChibaMask l1 l2 r i j = true) := by simp [h0]
    rw [sakoeChibaMask_iff _ _ _ _ _ (by omega) (by omega)] at h0'
    unfold InBand at h h0'
    refine ⟨fun a b ha hb hab => ?_, i - 1, by omega, ?_⟩
    · rw [sakoeChibaMask_iff _ _ _ _ _ (by omega) (by omega)] at hab
      unfold InBand at hab; omega
    · rw [sakoeChibaMask_iff _ _ _ _ _ (by omega) (by omega)]
      unfold InBand; omega

/-- Table value of the last cell: the largest matching. -/
theorem lcssAcc_isGreatest {l1 l2 : ℕ} {mask : Mat Bool} {hit : ℕ → ℕ → Bool}
    (hM : LcssMask l1 l2 mask) (h1 : 0 < l1) (h2 : 0 < l2) (hm : mask (l1 - 1) (l2 - 1) = true) :
    IsGreatest (MatchingSizes l1 l2 (okPair mask hit)) (lcssAcc l1 l2 mask hit l1 l2) := by
  obtain ⟨n, rfl⟩ : ∃ n, l1 = n + 1 := ⟨l1 - 1, by omega⟩
  obtain ⟨m, rfl⟩ : ∃ m, l2 = m + 1 := ⟨l2 - 1, by omega⟩
  refine ⟨?_, ?_⟩
  · obtain ⟨p, hp, hl⟩ := lcssAcc_le (mask := mask) (hit := hit) (le_refl (n+1)) (le_refl (m+1))
    exact ⟨p, hp, hl⟩
  · rintro k ⟨p, hp, rfl⟩
    exact lcssAcc_ge hM (by omega) (by omega) (by simpa using hm) hp

/-- Traceback with an always-true guard terminates. -/
theorem lcssPathLoop_total (hit : ℕ → ℕ → Bool) (acc : Mat ℕ) (test : ℕ → ℕ → Bool) (i j fuel : ℕ)
    (ht : ∀ a b, a < i → b < j → test a b = true)
    (hf : i + j < fuel) (rest : List (ℕ × ℕ)) :
    ∃ p, lcssPathLoop test hit acc fuel i j rest = some p := by
  induction fuel generalizing i j rest with
  | zero => omega
  | succ fuel ih =>
    unfold lcssPathLoop
    by_cases h : 0 < i ∧ 0 < j
    · rw [if_pos h, if_pos (ht _ _ (by omega) (by omega))]
      split_ifs
      · exact ih _ _ (fun a b ha hb => ht a b (by omega) (by omega)) (by omega) _
      · exact ih _ _ (fun a b ha hb => ht a b (by omega) (by omega)) (by omega) _
      · exact ih _ _ (fun a b ha hb => ht a b (by omega) (by omega)) (by omega) _
    · rw [if_neg h]; exact ⟨rest, rfl⟩

/-- Whatever it returns is a matching of tested pairs, prepended to what was collected. -/
theorem lcssPathLoop_sound {test hit : ℕ → ℕ → Bool} {acc : Mat ℕ} {fuel i j : ℕ}
    {rest p : List (ℕ × ℕ)} (h : lcssPathLoop test hit acc fuel i j rest = some p) :
    ∃ q, p = q ++ rest ∧ IsMatching i j (okPair test hit) q := by
  induction fuel generalizing i j rest with
  | zero => simp [lcssPathLoop] at h
  | succ fuel ih =>
    unfold lcssPathLoop at h
    split_ifs at h with h1 h2 h3 h4
    · obtain ⟨q, rfl, hq⟩ := ih h
      refine ⟨q ++ [(i - 1, j - 1)], by simp, ?_⟩
      have := hq.snoc ⟨h2, h3⟩
      rwa [Nat.sub_add_cancel h1.1, Nat.sub_add_cancel h1.2] at this
    · obtain ⟨q, rfl, hq⟩ := ih h
      exact ⟨q, rfl, hq.mono (by omega) le_rfl⟩
    · obtain ⟨q, rfl, hq⟩ := ih h
      exact ⟨q, rfl, hq.mono le_rfl (by omega)⟩
    · exact ih h
    · cases h
      exact ⟨[], rfl, ⟨List.Pairwise.nil, by simp, by simp⟩⟩

/-- When the guard is the mask the table was built with, the number of collected pairs is the table
value. -/
theorem lcssPathLoop_count {l1 l2 : ℕ} {mask hit : ℕ → ℕ → Bool} {fuel i j : ℕ}
    {rest p : List (ℕ × ℕ)} (hi : i ≤ l1) (hj : j ≤ l2)
    (h : lcssPathLoop mask hit (lcssAcc l1 l2 mask hit) fuel i j rest = some p) :
    p.length = lcssAcc l1 l2 mask hit i j + rest.length := by
  have hD := lcssAcc_isDP l1 l2 mask hit
  induction fuel generalizing i j rest with
  | zero => simp [lcssPathLoop] at h
  | succ fuel ih =>
    unfold lcssPathLoop at h
    by_cases h1 : 0 < i ∧ 0 < j
    · obtain ⟨i, rfl⟩ : ∃ n, i = n + 1 := ⟨i - 1, by omega⟩
      obtain ⟨j, rfl⟩ : ∃ n, j = n + 1 := ⟨j - 1, by omega⟩
      have hb := hD.body i j (by omega) (by omega)
      simp only [Nat.add_sub_cancel] at h
      rw [if_pos h1] at h
      split_ifs at h with h2 h3 h4
      · have := ih (by omega) (by omega) h
        simp [h2, h3] at hb
        simp at this
        omega
      · have := ih (by omega) (by omega) h
        simp [h2, h3] at hb
        omega
      · have := ih (by omega) (by omega) h
        simp [h2, h3] at hb
        omega
      · exact ih hi hj h
    · rw [if_neg h1] at h
      cases h
      have : i = 0 ∨ j = 0 := by omega
      rcases this with rfl | rfl
      · rw [hD.row0]; simp [Mat.full]
      · rw [hD.col0]; simp [Mat.full]

/-- Stuck: at a forbidden cell the loop never ends. -/
theorem lcssPathLoop_stuck {test hit : ℕ → ℕ → Bool} {acc : Mat ℕ} {i j : ℕ} (hi : 0 < i) (hj : 0 < j)
    (ht : test (i - 1) (j - 1) = false) (fuel : ℕ) (rest : List (ℕ × ℕ)) :
    lcssPathLoop test hit acc fuel i j rest = none := by
  induction fuel with
  | zero => rfl
  | succ fuel ih =>
    unfold lcssPathLoop
    rw [if_pos ⟨hi, hj⟩, if_neg (by simp [ht])]
    exact ih
end Verif
