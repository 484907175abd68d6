import Verif.Spec.UnitsKm
import Verif.Proofs.Units
/-!
k-means under a change of origin and unit.
-/
set_option linter.unusedSectionVars false
namespace Verif
open Spec
variable {P C K : Type} [Field K] [LinearOrder K] [IsStrictOrderedRing K]

theorem argminL_mono {A B : Type*} [LinearOrder A] [LinearOrder B] (f : A → B) (hf : ∀ x y, f x < f y ↔ x < y) :
    ∀ l : List A, argminL (l.map f) = argminL l
  | [] => rfl
  | [_] => rfl
  | a :: b :: l => by
    have ih := argminL_mono f hf (b :: l)
    simp only [List.map_cons] at ih
    simp only [List.map_cons, argminL, ih]
    have : (f b :: l.map f)[argminL (b :: l)]? = ((b :: l)[argminL (b :: l)]?).map f := by
      rw [← List.map_cons, List.getElem?_map]
    rw [this]
    cases (b :: l)[argminL (b :: l)]? with
    | none => rfl
    | some m => simp only [Option.map_some, hf]

section
variable {φ : P → P} {ψ : C → C} {s : K} {Ok : C → Prop} {e e' : KmEnv P C K}

/-- The centroids of a run: as many as clusters, all of them admissible. -/
def CsOk (e : KmEnv P C K) (Ok : C → Prop) (cs : List C) : Prop := cs.length = e.nClusters ∧ ∀ c ∈ cs, Ok c

theorem kmLabels_remeasured (h : Remeasured φ ψ s Ok e e') (hs : 0 < s) (X : List P) (hX : ∀ x ∈ X, x ∈ e.data) {cs : List C}
    (hc : ∀ c ∈ cs, Ok c) : kmLabels e' (X.map φ) (cs.map ψ) = kmLabels e X cs := by
  unfold kmLabels
  rw [List.map_map]
  refine List.map_congr_left fun x hx => ?_
  have : (cs.map ψ).map (e'.dist (φ x)) = (cs.map (e.dist x)).map (s * ·) := by
    rw [List.map_map, List.map_map]
    exact List.map_congr_left fun c hcs => h.dist x (hX x hx) c (hc c hcs)
  simp only [Function.comp, this]
  exact argminL_mono (s * ·) (fun x y => mul_lt_mul_iff_right₀ hs) _

theorem mapM_option_map {α β γ δ : Type} (T : α → β) (g : γ → δ) (f : α → Option γ) (f' : β → Option δ) :
    ∀ l : List α, (∀ a ∈ l, f' (T a) = (f a).map g) → (l.map T).mapM f' = (l.mapM f).map (List.map g)
  | [], _ => rfl
  | a :: l, h => by
    rw [List.map_cons, List.mapM_cons, List.mapM_cons, h a (by simp), mapM_option_map T g f f' l fun c hc => h c (by simp [hc])]
    cases f a with
    | none => rfl
    | some v =>
      cases l.mapM f with
      | none => rfl
      | some r => rfl

theorem kmInertia_remeasured (h : Remeasured φ ψ s Ok e e') (labels : List ℕ) {cs : List C} (hc : ∀ c ∈ cs, Ok c) :
    kmInertia e' labels (cs.map ψ) = (kmInertia e labels cs).map (s ^ 2 * ·) := by
  unfold kmInertia
  have hz : e'.data.zip labels = (e.data.zip labels).map fun xl => (φ xl.1, xl.2) := by
    rw [h.data, List.zip_map_left]
    rfl
  rw [hz, mapM_option_map (fun xl : P × ℕ => (φ xl.1, xl.2)) (s * ·) (fun xl => cs[xl.2]?.map (e.idist xl.1))]
  · cases (e.data.zip labels).mapM fun xl => cs[xl.2]?.map (e.idist xl.1) with
    | none => rfl
    | some ds =>
      simp only [Option.map_some, Option.bind_eq_bind, Option.bind_some, Option.pure_def, Option.some.injEq, List.map_map, h.data,
        List.length_map]
      have : (fun d : K => d ^ 2) ∘ (fun d => s * d) = fun d => s ^ 2 * d ^ 2 := by funext d; simp [mul_pow]
      rw [this, List.sum_map_mul_left, mul_div_assoc]
  · intro xl hxl
    simp only [List.getElem?_map]
    cases hcs : cs[xl.2]? with
    | none => rfl
    | some c =>
      simp only [Option.map_some, Option.some.injEq]
      exact h.idist xl.1 (List.of_mem_zip (a := xl.1) (b := xl.2) hxl).1 c (hc c (List.mem_of_getElem? hcs))

theorem kmMembers_remeasured (h : Remeasured φ ψ s Ok e e') (labels : List ℕ) (k : ℕ) : kmMembers e' labels k = (kmMembers e labels k).map φ := by
  unfold kmMembers
  have hz : e'.data.zip labels = (e.data.zip labels).map fun xl => (φ xl.1, xl.2) := by
    rw [h.data, List.zip_map_left]
    rfl
  rw [hz, List.filter_map, List.map_map, List.map_map]
  rfl

theorem kmMembers_mem {labels : List ℕ} {k : ℕ} : ∀ x ∈ kmMembers e labels k, x ∈ e.data := by
  intro x hx
  simp only [kmMembers, List.mem_map, List.mem_filter] at hx
  obtain ⟨xl, ⟨hxl, -⟩, rfl⟩ := hx
  exact (List.of_mem_zip (a := xl.1) (b := xl.2) hxl).1

theorem kmMembers_nonempty {labels : List ℕ} (hl : labels.length = e.data.length) (hn : hasEmpty labels e.nClusters = false) {k : ℕ}
    (hk : k < e.nClusters) : kmMembers e labels k ≠ [] := by
  have hc : 0 < labels.count k := by
    rw [Nat.pos_iff_ne_zero]
    intro h0
    have : hasEmpty labels e.nClusters = true := by
      rw [hasEmpty, List.any_eq_true]
      exact ⟨k, List.mem_range.2 hk, by simpa using h0⟩
    rw [hn] at this
    cases this
  obtain ⟨i, hi, hik⟩ := List.mem_iff_getElem.1 (List.count_pos_iff.1 hc)
  rw [kmMembers, Ne, List.map_eq_nil_iff, List.filter_eq_nil_iff]
  intro hall
  have hi' : i < e.data.length := hl ▸ hi
  have hz : i < (e.data.zip labels).length := by simp [hi, hi']
  have := hall _ (List.getElem_mem hz)
  simp [hik] at this

theorem kmUpdate_remeasured (h : Remeasured φ ψ s Ok e e') {labels : List ℕ} (hl : labels.length = e.data.length)
    (hn : hasEmpty labels e.nClusters = false) {cs : List C} (hc : CsOk e Ok cs) :
    kmUpdate e' labels (cs.map ψ) = (kmUpdate e labels cs).map ψ ∧ CsOk e Ok (kmUpdate e labels cs) := by
  unfold kmUpdate
  have hM : ∀ k < cs.length, kmMembers e labels k ≠ [] := fun k hk => kmMembers_nonempty hl hn (hc.1 ▸ hk)
  refine ⟨List.ext_getElem (by simp) fun k h1 h2 => ?_, by simpa using hc.1, fun c hcm => ?_⟩
  · have hk : k < cs.length := by simpa using h1
    simp only [List.getElem_mapIdx, List.getElem_map, kmMembers_remeasured h]
    exact h.bary _ (hM k hk) kmMembers_mem _ (hc.2 _ (List.getElem_mem hk))
  · obtain ⟨k, hk, rfl⟩ := List.mem_iff_getElem.1 hcm
    have hk' : k < cs.length := by simpa using hk
    rw [List.getElem_mapIdx]
    exact h.ok _ (hM k hk') kmMembers_mem _ (hc.2 _ (List.getElem_mem hk'))

theorem kmAssign_remeasured (h : Remeasured φ ψ s Ok e e') (hs : 0 < s) {σ : KmState C K} {cs : List C} (hσ : σ.centers = some cs)
    (hc : CsOk e Ok cs) : kmAssign e' (stateIn ψ s σ) = ((stateIn ψ s (kmAssign e σ).1), (kmAssign e σ).2) := by
  unfold kmAssign
  have h1 : (stateIn ψ s σ).centers = some (cs.map ψ) := by simp [stateIn, hσ]
  have h2 : kmLabels e' e'.data (cs.map ψ) = kmLabels e e.data cs := by
    rw [h.data]
    exact kmLabels_remeasured h hs e.data (fun x hx => hx) hc.2
  simp only [h1, hσ, h2, h.clusters, kmInertia_remeasured h _ hc.2]
  split_ifs
  · simp [stateIn, hσ]
  · cases kmInertia e (kmLabels e e.data cs) cs with
    | none => simp [stateIn, hσ]
    | some v => simp [stateIn, hσ, rescaleCost_coe]

theorem kmAssign_ok {σ σ' : KmState C K} {cs : List C} (hσ : σ.centers = some cs) (h : kmAssign e σ = (σ', none)) :
    σ'.centers = some cs ∧ σ'.labels = some (kmLabels e e.data cs) ∧ hasEmpty (kmLabels e e.data cs) e.nClusters = false := by
  unfold kmAssign at h
  simp only [hσ] at h
  split_ifs at h with h0
  · simp at h
  · cases hk : kmInertia e (kmLabels e e.data cs) cs with
    | none => simp [hk] at h
    | some v =>
      simp only [hk, Prod.mk.injEq, and_true] at h
      subst h
      exact ⟨by simp [hσ], rfl, by simpa using h0⟩

theorem kmAssign_centers {σ : KmState C K} : (kmAssign e σ).1.centers = σ.centers := by
  unfold kmAssign
  cases hσ : σ.centers with
  | none => simp [hσ]
  | some cs =>
    simp only
    split_ifs
    · simp [hσ]
    · cases kmInertia e (kmLabels e e.data cs) cs <;> simp [hσ]

theorem kmClose_remeasured (hs : 0 < s) (tol : K) (c c' : WithTop K) :
    kmClose (s ^ 2 * tol) (rescaleCost s c) (rescaleCost s c') = kmClose tol c c' := by
  induction c using WithTop.recTopCoe with
  | top => rfl
  | coe c =>
    induction c' using WithTop.recTopCoe with
    | top => rfl
    | coe c' =>
      change decide (|s ^ 2 * c - s ^ 2 * c'| < s ^ 2 * tol) = decide (|c - c'| < tol)
      have hp : 0 < s ^ 2 := by positivity
      rw [← mul_sub, abs_mul, abs_of_pos hp, decide_eq_decide]
      exact mul_lt_mul_iff_right₀ hp

theorem kmLoop_remeasured (h : Remeasured φ ψ s Ok e e') (hs : 0 < s) :
    ∀ (n it : ℕ) (old : WithTop K) (σ : KmState C K) (cs : List C), σ.centers = some cs → CsOk e Ok cs →
      kmLoop e' n it (rescaleCost s old) (stateIn ψ s σ) = ((stateIn ψ s (kmLoop e n it old σ).1), (kmLoop e n it old σ).2) ∧
        ∃ cs', (kmLoop e n it old σ).1.centers = some cs' ∧ CsOk e Ok cs'
  | 0, it, old, σ, cs, hσ, hc => ⟨rfl, cs, hσ, hc⟩
  | n + 1, it, old, σ, cs, hσ, hc => by
    rw [kmLoop, kmLoop, kmAssign_remeasured h hs hσ hc]
    cases hA : kmAssign e σ with
    | mk σ' err =>
      cases err with
      | some er =>
        refine ⟨rfl, cs, ?_, hc⟩
        have := kmAssign_centers (e := e) (σ := σ)
        rw [hA, hσ] at this
        exact this
      | none =>
        obtain ⟨h1, h2, h3⟩ := kmAssign_ok hσ hA
        have hu := kmUpdate_remeasured h (labels := kmLabels e e.data cs) (by simp [kmLabels]) h3 hc
        have hst : ({ stateIn ψ s σ' with centers := (stateIn ψ s σ').centers.map (kmUpdate e' ((stateIn ψ s σ').labels.getD [])) } : KmState C K) =
            stateIn ψ s { σ' with centers := σ'.centers.map (kmUpdate e (σ'.labels.getD [])) } := by
          simp [stateIn, h1, h2, hu.1]
        simp only [hst]
        have hcl : kmClose e'.tol (rescaleCost s old) (stateIn ψ s σ').inertia =
            kmClose e.tol old σ'.inertia := by
          rw [h.tol]
          exact kmClose_remeasured hs e.tol old σ'.inertia
        simp only [hcl]
        have hcen : ({ σ' with centers := σ'.centers.map (kmUpdate e (σ'.labels.getD [])) } : KmState C K).centers =
            some (kmUpdate e (kmLabels e e.data cs) cs) := by simp [h1, h2]
        by_cases hcb : kmClose e.tol old σ'.inertia = true
        · simp only [hcb, if_true]
          refine ⟨?_, _, hcen, hu.2⟩
          simp [stateIn, h1, h2, hu.1]
        · simp only [hcb, Bool.false_eq_true, if_false]
          exact kmLoop_remeasured h hs n (it + 1) σ'.inertia _ _ hcen hu.2

theorem kmFitOne_remeasured (h : Remeasured φ ψ s Ok e e') (hs : 0 < s) {init : List C} (hc : CsOk e Ok init) (σ : KmState C K) :
    kmFitOne e' (init.map ψ) (stateIn ψ s σ) = (stateIn ψ s (kmFitOne e init σ).1, (kmFitOne e init σ).2) ∧
      ∃ cs', (kmFitOne e init σ).1.centers = some cs' ∧ CsOk e Ok cs' := by
  unfold kmFitOne
  rw [h.rounds]
  have hst : ({ stateIn ψ s σ with centers := some (init.map ψ) } : KmState C K) = stateIn ψ s { σ with centers := some init } := by
    simp [stateIn]
  simp only [hst]
  split_ifs
  · exact ⟨rfl, init, rfl, hc⟩
  · exact kmLoop_remeasured h hs e.maxIter 0 ⊤ _ init rfl hc

/-- The best centroids found so far are admissible. -/
def BestOk (e : KmEnv P C K) (Ok : C → Prop) (b : KmBest C K) : Prop := ∀ cs, b.best = some cs → CsOk e Ok cs

theorem kmFitLoop_remeasured (h : Remeasured φ ψ s Ok e e') (hs : 0 < s) {inits : ℕ → List C} (hc : ∀ a, CsOk e Ok (inits a)) :
    ∀ (fuel : ℕ) (b : KmBest C K) (σ : KmState C K), BestOk e Ok b →
      kmFitLoop e' (fun a => (inits a).map ψ) fuel (bestIn ψ s b) (stateIn ψ s σ) =
        (bestIn ψ s (kmFitLoop e inits fuel b σ).1, stateIn ψ s (kmFitLoop e inits fuel b σ).2.1, (kmFitLoop e inits fuel b σ).2.2) ∧
        BestOk e Ok (kmFitLoop e inits fuel b σ).1
  | 0, b, σ, hb => ⟨rfl, hb⟩
  | fuel + 1, b, σ, hb => by
    unfold kmFitLoop
    have hn : (bestIn ψ s b).nSuccessful = b.nSuccessful := rfl
    rw [hn, h.attempts]
    by_cases hlt : b.nSuccessful < e.nInit
    · simp only [hlt, if_true]
      have hb' : BestOk e Ok { b with nAttempts := b.nAttempts + 1 } := hb
      have hone := kmFitOne_remeasured h hs (hc b.nAttempts) σ
      have hat : (bestIn ψ s b).nAttempts = b.nAttempts := rfl
      simp only [hat, hone.1]
      have hbe : ({ bestIn ψ s b with nAttempts := b.nAttempts + 1 } : KmBest C K) = bestIn ψ s { b with nAttempts := b.nAttempts + 1 } := rfl
      cases hF : kmFitOne e (inits b.nAttempts) σ with
      | mk σ' err =>
        cases err with
        | none =>
          simp only
          have hmi : (stateIn ψ s σ').inertia < (bestIn ψ s b).minInertia ↔ σ'.inertia < b.minInertia := rescaleCost_lt hs.ne'
          by_cases hin : σ'.inertia < b.minInertia
          · simp only [hmi.2 hin, hin, if_true]
            refine kmFitLoop_remeasured h hs hc fuel { b with best := σ'.centers, minInertia := σ'.inertia, nSuccessful := b.nSuccessful + 1, nAttempts := b.nAttempts + 1 }
              { σ' with nIter := σ'.iter } ?_
            obtain ⟨cs', h1, h2⟩ := hone.2
            rw [hF] at h1
            intro cs hcs
            have he : some cs' = some cs := h1.symm.trans hcs
            exact Option.some.inj he ▸ h2
          · have hin' : ¬ (stateIn ψ s σ').inertia < (bestIn ψ s b).minInertia := fun hh => hin (hmi.1 hh)
            simp only [hin', hin, if_false]
            exact kmFitLoop_remeasured h hs hc fuel { b with nSuccessful := b.nSuccessful + 1, nAttempts := b.nAttempts + 1 } σ' hb
        | some er =>
          cases er <;> first | exact kmFitLoop_remeasured h hs hc fuel { b with nAttempts := b.nAttempts + 1 } σ' hb' | exact ⟨rfl, hb⟩
    · simp only [hlt, if_false]
      exact ⟨trivial, hb⟩

theorem kmPostFit_remeasured (h : Remeasured φ ψ s Ok e e') (hs : 0 < s) {b : KmBest C K} (hb : BestOk e Ok b) (σ : KmState C K) :
    kmPostFit e' (bestIn ψ s b) (stateIn ψ s σ) = (stateIn ψ s (kmPostFit e b σ).1, (kmPostFit e b σ).2) := by
  unfold kmPostFit
  cases hbe : b.best with
  | none => simp [bestIn, hbe, stateIn]
  | some cs =>
    have h1 : (bestIn ψ s b).best = some (cs.map ψ) := by simp [bestIn, hbe]
    have h2 : (bestIn ψ s b).minInertia ≠ ⊤ ↔ b.minInertia ≠ ⊤ := not_congr rescaleCost_eq_top
    simp only [h1]
    by_cases ht : b.minInertia = ⊤
    · have ht' : ¬ (bestIn ψ s b).minInertia ≠ ⊤ := fun hh => h2.1 hh ht
      simp [ht, ht', stateIn]
    · simp only [h2.2 ht, ht, ne_eq, not_false_eq_true, if_true]
      have hst : ({ stateIn ψ s σ with centers := some (cs.map ψ) } : KmState C K) = stateIn ψ s { σ with centers := some cs } := by simp [stateIn]
      rw [hst, kmAssign_remeasured h hs rfl (hb cs hbe)]
      cases hA : kmAssign e { σ with centers := some cs } with
      | mk σ' err =>
        cases err with
        | none => simp [stateIn, bestIn]
        | some er => rfl

theorem kmFit_remeasured (h : Remeasured φ ψ s Ok e e') (hs : 0 < s) {inits : ℕ → List C} (hc : ∀ a, CsOk e Ok (inits a)) (σ : KmState C K) :
    kmFit e' (fun a => (inits a).map ψ) (stateIn ψ s σ) =
      (bestIn ψ s (kmFit e inits σ).1, stateIn ψ s (kmFit e inits σ).2.1, (kmFit e inits σ).2.2) := by
  unfold kmFit
  rw [h.attempts]
  have key := kmFitLoop_remeasured h hs hc (max e.nInit 10) ⟨none, ⊤, 0, 0⟩
    { σ with labels := none, inertia := ⊤, centers := none, xfit := false, nIter := 0 } (fun cs hcs => by simp at hcs)
  have hst : ({ stateIn ψ s σ with labels := none, inertia := ⊤, centers := none, xfit := false, nIter := 0 } : KmState C K) =
      stateIn ψ s { σ with labels := none, inertia := ⊤, centers := none, xfit := false, nIter := 0 } := by simp [stateIn, rescaleCost_top]
  have hbe : (⟨none, ⊤, 0, 0⟩ : KmBest C K) = bestIn ψ s ⟨none, ⊤, 0, 0⟩ := by simp [bestIn, rescaleCost_top]
  simp only [hst]
  conv_lhs => rw [hbe]
  rw [key.1]
  cases hL : kmFitLoop e inits (max e.nInit 10) ⟨none, ⊤, 0, 0⟩ { σ with labels := none, inertia := ⊤, centers := none, xfit := false, nIter := 0 } with
  | mk b r =>
    obtain ⟨σ', err⟩ := r
    cases err with
    | some er => rfl
    | none =>
      have hb : BestOk e Ok b := by
        have := key.2
        rwa [hL] at this
      simp only [kmPostFit_remeasured h hs hb]

end

end Verif
