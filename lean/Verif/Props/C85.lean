import Verif.Spec.PieceLife
import Verif.Proofs.Cast
import Mathlib.Tactic.NormNum
import Mathlib.Tactic.Linarith
/-!
C85: fits, refits and changed parameters of PAA, SAX and 1d-SAX estimators.
-/
set_option linter.unusedSectionVars false
namespace Verif
open Spec
variable (ppf : ℝ → ℝ) (junk : ℕ → ℕ → ℕ → Option ℝ)

namespace PwEst

/-! ### What a fit leaves -/

/-- What `_fit` of 1d-SAX does. -/
theorem oneDFit_cases (e : PwEst) (X : Arr3 ℝ) :
    e.oneDFit ppf X = (e.saxFit ppf X, .error .zeroDivision) ∨
      ∃ s, e.oneDFit ppf X = ((e.saxFit ppf X).setSlopes ppf s, .ok ()) := by
  by_cases h0 : e.par.nSeg = 0
  · left; simp [oneDFit, h0]
  · cases hs : e.par.sigma with
    | some s => right; exact ⟨s, by simp [oneDFit, h0, hs]⟩
    | none =>
      by_cases h1 : X.sz / e.par.nSeg = 0
      · left; simp only [oneDFit, h0, hs, h1, if_true, if_false]
      · right
        refine ⟨Real.sqrt (3 / 100 / ((X.sz / e.par.nSeg : ℕ) : ℝ)), ?_⟩
        simp only [oneDFit, h0, hs, h1, if_false]

theorem fitCore_par (e : PwEst) (X : Arr3 ℝ) : (e.fitCore ppf X).1.par = e.par ∧ (e.fitCore ppf X).1.kind = e.kind := by
  cases hk : e.kind <;> simp only [fitCore, hk]
  · exact ⟨rfl, hk⟩
  · exact ⟨rfl, hk⟩
  · rcases oneDFit_cases ppf e X with h | ⟨s, h⟩ <;> rw [h] <;> exact ⟨rfl, hk⟩

theorem fit_par (e : PwEst) (X : Arr3 ℝ) : (e.fit ppf X).1.par = e.par ∧ (e.fit ppf X).1.kind = e.kind := by
  simp only [fit]
  split_ifs
  · exact ⟨rfl, rfl⟩
  · exact fitCore_par ppf e X

theorem fitCore_dims (e : PwEst) (X : Arr3 ℝ) : (e.fitCore ppf X).1.dims = some (X.data.length, X.sz, X.d) := by
  cases hk : e.kind <;> simp only [fitCore, hk]
  · rfl
  · rfl
  · rcases oneDFit_cases ppf e X with h | ⟨s, h⟩ <;> rw [h] <;> rfl

/-- The attributes of a fitted 1d-SAX. -/
theorem oneDFit_ok {e : PwEst} {X : Arr3 ℝ} (h : (e.oneDFit ppf X).2 = .ok ()) :
    e.par.nSeg ≠ 0 ∧ ∃ s, (e.oneDFit ppf X).1 = (e.saxFit ppf X).setSlopes ppf s ∧
      (s = match e.par.sigma with
        | some s => s
        | none => Real.sqrt (3 / 100 / ((X.sz / e.par.nSeg : ℕ) : ℝ))) := by
  by_cases h0 : e.par.nSeg = 0
  · simp [oneDFit, h0] at h
  · refine ⟨h0, ?_⟩
    cases hs : e.par.sigma with
    | some s => exact ⟨s, by simp [oneDFit, h0, hs], rfl⟩
    | none =>
      by_cases h1 : X.sz / e.par.nSeg = 0
      · simp only [oneDFit, h0, hs, h1, if_true, if_false] at h; cases h
      · exact ⟨_, by simp only [oneDFit, h0, hs, h1, if_false], rfl⟩

theorem fitCore_fitted {e : PwEst} {X : Arr3 ℝ} (h : (e.fitCore ppf X).2 = .ok ()) :
    (e.fitCore ppf X).1.isFitted = .ok () := by
  have hs : (e.saxFit ppf X).saxFitted = .ok () := by
    simp only [saxFitted, saxFit, paaFit, paaFitted, present, Option.isSome_some, Bool.and_self, if_true]
    by_cases hsc : e.par.scale = true
    · simp only [hsc, if_true]; rfl
    · simp only [hsc]; rfl
  cases hk : e.kind with
  | paa => simp only [fitCore, hk, isFitted, paaFit, paaFitted, present]; rfl
  | sax =>
    simp only [fitCore, hk]
    have : (e.saxFit ppf X).kind = .sax := hk
    simp only [isFitted, this, hs]
  | oneD =>
    simp only [fitCore, hk] at h ⊢
    obtain ⟨-, s, hs1, -⟩ := oneDFit_ok ppf h
    rw [hs1]
    have : ((e.saxFit ppf X).setSlopes ppf s).kind = .oneD := hk
    simp only [isFitted, this]
    exact hs

end PwEst

/-! ### `fit_transform` -/

/-- **C85**, `fit_transform`: from every state, `fit_transform(X)` leaves the estimator that `fit(X)` leaves; it
raises what `fit` raises, and otherwise gives the answer, or the exception, of `transform(X)` after the fit. -/
theorem C85_fit_transform (e : PwEst) (X : Arr3 ℝ) :
    (e.fitTransform ppf X).1 = (e.fit ppf X).1 ∧
    (e.fitTransform ppf X).2 = (e.fit ppf X).2.bind fun _ => (e.fit ppf X).1.transform X := by
  simp only [PwEst.fitTransform, PwEst.fit]
  split_ifs with h0
  · exact ⟨rfl, rfl⟩
  · have hd := PwEst.fitCore_dims ppf e X
    have hf := @PwEst.fitCore_fitted ppf e X
    rcases hfc : e.fitCore ppf X with ⟨e', r⟩
    rw [hfc] at hd hf
    cases r with
    | error x => exact ⟨rfl, rfl⟩
    | ok u =>
      refine ⟨rfl, ?_⟩
      show e'.core X = e'.transform X
      have hf := hf rfl
      simp only [PwEst.transform]
      rw [show e'.isFitted = .ok () from hf, show e'.dims = _ from hd]
      simp [h0, Bind.bind, Except.bind]

/-! ### Histories -/

namespace PwEst

/-- A class never has the attributes of its subclasses. -/
def Own (e : PwEst) : Prop :=
  (e.kind = .paa → e.bps = none ∧ e.med = none ∧ e.sc = none) ∧ (e.kind ≠ .oneD → e.bpsl = none ∧ e.medl = none)

theorem own_new (k : PwKind) (p : PwParams) : (new k p).Own := ⟨fun _ => ⟨rfl, rfl, rfl⟩, fun _ => ⟨rfl, rfl⟩⟩

theorem own_fit {e : PwEst} (h : e.Own) (X : Arr3 ℝ) : (e.fit ppf X).1.Own := by
  simp only [fit]
  split_ifs
  · exact h
  · obtain ⟨h1, h2⟩ := h
    cases hk : e.kind <;> simp only [fitCore, hk]
    · exact ⟨fun _ => h1 hk, fun _ => h2 (by rw [hk]; decide)⟩
    · refine ⟨fun hc => ?_, fun _ => h2 (by rw [hk]; decide)⟩
      rw [show (e.saxFit ppf X).kind = .sax from hk] at hc
      cases hc
    · have hk' : (e.oneDFit ppf X).1.kind = .oneD := by
        rcases oneDFit_cases ppf e X with h | ⟨s, h⟩ <;> rw [h] <;> exact hk
      refine ⟨fun hc => ?_, fun hc => absurd hk' hc⟩
      rw [hk'] at hc
      cases hc

theorem fitTransform_fst (e : PwEst) (X : Arr3 ℝ) : (e.fitTransform ppf X).1 = (e.fit ppf X).1 :=
  (C85_fit_transform ppf e X).1

theorem own_step {e : PwEst} (h : e.Own) (c : PwCmd) : (e.step ppf junk c).1.Own := by
  cases c with
  | setParams p => exact h
  | fit X => exact own_fit ppf h X
  | fitTransform X =>
    show (e.fitTransform ppf X).1.Own
    rw [fitTransform_fst]; exact own_fit ppf h X
  | query q => exact h

theorem own_run {e : PwEst} (h : e.Own) (l : List PwCmd) : (e.run ppf junk l).1.Own := by
  induction l generalizing e with
  | nil => exact h
  | cons c l ih => exact ih (own_step ppf junk h c)

theorem kind_step (e : PwEst) (c : PwCmd) : (e.step ppf junk c).1.kind = e.kind := by
  cases c with
  | setParams p => rfl
  | fit X => exact (fit_par ppf e X).2
  | fitTransform X =>
    show (e.fitTransform ppf X).1.kind = _
    rw [fitTransform_fst]; exact (fit_par ppf e X).2
  | query q => rfl

theorem kind_run (e : PwEst) (l : List PwCmd) : (e.run ppf junk l).1.kind = e.kind := by
  induction l generalizing e with
  | nil => rfl
  | cons c l ih => exact (ih _).trans (kind_step ppf junk e c)

/-! ### Refits -/

/-- The outcome of a fit depends on class, parameters and data. -/
theorem fit_snd (e : PwEst) (X : Arr3 ℝ) : (e.fit ppf X).2 = ((new e.kind e.par).fit ppf X).2 := by
  simp only [fit]
  split_ifs
  · rfl
  · cases hk : e.kind
    · simp only [fitCore, hk, new]
    · simp only [fitCore, hk, new]
    · have e1 : (new .oneD e.par).fitCore ppf X = (new .oneD e.par).oneDFit ppf X := rfl
      have e2 : e.fitCore ppf X = e.oneDFit ppf X := by simp only [fitCore, hk]
      rw [e1, e2]
      have hp : (new .oneD e.par).par = e.par := rfl
      by_cases h0 : e.par.nSeg = 0
      · simp [oneDFit, h0, hp]
      · cases hs : e.par.sigma with
        | some s => simp [oneDFit, h0, hs, hp]
        | none =>
          by_cases h1 : X.sz / e.par.nSeg = 0
          · simp only [oneDFit, h0, hs, h1, if_true, if_false, hp]
          · simp only [oneDFit, h0, hs, h1, if_false, hp]

/-- What a successful fit leaves is that of a new estimator, but for kept statistics. -/
theorem fit_fst {e : PwEst} (ho : e.Own) {X : Arr3 ℝ} (h : (e.fit ppf X).2 = .ok ()) :
    (e.fit ppf X).1 = { ((new e.kind e.par).fit ppf X).1 with
      sc := if e.kind ≠ .paa ∧ e.par.scale = true then some (X.d, fitScaling X) else e.sc } := by
  obtain ⟨k, p, dm, b, m, bl, ml, sc⟩ := e
  by_cases hX : X.data = []
  · simp only [fit, if_pos hX] at h; cases h
  · simp only [fit, if_neg hX] at h ⊢
    obtain ⟨h1, h2⟩ := ho
    cases k
    · obtain ⟨rfl, rfl, rfl⟩ := h1 rfl
      obtain ⟨rfl, rfl⟩ := h2 (by simp)
      simp [fitCore, paaFit, new]
    · obtain ⟨rfl, rfl⟩ := h2 (by simp)
      simp [fitCore, saxFit, paaFit, new]
    · simp only [fitCore] at h
      obtain ⟨h0, s, hs, hs'⟩ := oneDFit_ok ppf h
      have e1 : fitCore ppf (new .oneD p) X = oneDFit ppf (new .oneD p) X := rfl
      have hf : ((new .oneD p).oneDFit ppf X).2 = .ok () := by
        have := fit_snd ppf ⟨.oneD, p, dm, b, m, bl, ml, sc⟩ X
        simp only [fit, if_neg hX] at this
        rw [← e1, ← this]
        exact h
      obtain ⟨-, t, ht, ht'⟩ := oneDFit_ok ppf hf
      have hst : t = s := by rw [hs', ht']; rfl
      subst hst
      simp only [e1]
      rw [ht]
      refine Eq.trans (show (fitCore ppf _ X).1 = (oneDFit ppf ⟨.oneD, p, dm, b, m, bl, ml, sc⟩ X).1 from rfl) ?_
      rw [hs]
      simp [setSlopes, saxFit, paaFit, new]

/-- Estimators without scaling that differ in kept statistics only. -/
def Alike (e e' : PwEst) : Prop := (∃ sc, e' = { e with sc := sc }) ∧ e.par.scale = false

theorem Alike.ask {e e' : PwEst} (h : Alike e e') (q : PwQuery) : e.ask junk q = e'.ask junk q := by
  obtain ⟨⟨sc, rfl⟩, hp⟩ := h
  obtain ⟨k, p, dm, b, m, bl, ml, sc0⟩ := e
  have hp : p.scale = false := hp
  have hsf : ∀ s, saxFitted ⟨k, p, dm, b, m, bl, ml, s⟩ = saxFitted ⟨k, p, dm, b, m, bl, ml, sc0⟩ := by
    intro s; simp [saxFitted, hp]; rfl
  have hif : ∀ s, isFitted ⟨k, p, dm, b, m, bl, ml, s⟩ = isFitted ⟨k, p, dm, b, m, bl, ml, sc0⟩ := by
    intro s; cases k <;> simp only [isFitted, hsf s]
    rfl
  have hsx : ∀ s X, scaleX ⟨k, p, dm, b, m, bl, ml, s⟩ X = .ok X := by
    intro s X; simp [scaleX, hp]
  have hux : ∀ s X, unscaleX ⟨k, p, dm, b, m, bl, ml, s⟩ X = .ok X := by
    intro s X; simp [unscaleX, hp]
  have hsc : ∀ s X, saxCore ⟨k, p, dm, b, m, bl, ml, s⟩ X = saxCore ⟨k, p, dm, b, m, bl, ml, sc0⟩ X := by
    intro s X; simp only [saxCore, hsx]
  have hoc : ∀ s X, oneDCore ⟨k, p, dm, b, m, bl, ml, s⟩ X = oneDCore ⟨k, p, dm, b, m, bl, ml, sc0⟩ X := by
    intro s X; simp only [oneDCore, hsx, hsc s]
  have hco : ∀ s X, core ⟨k, p, dm, b, m, bl, ml, s⟩ X = core ⟨k, p, dm, b, m, bl, ml, sc0⟩ X := by
    intro s X; cases k <;> simp only [core, hsc s, hoc s]
  have ht : ∀ s X, transform ⟨k, p, dm, b, m, bl, ml, s⟩ X = transform ⟨k, p, dm, b, m, bl, ml, sc0⟩ X := by
    intro s X; simp only [transform, hif s, hco s]
  have hdp : ∀ s P, distPaa ⟨k, p, dm, b, m, bl, ml, s⟩ P = distPaa ⟨k, p, dm, b, m, bl, ml, sc0⟩ P := by
    intro s P; simp only [distPaa, hif s]
  have hds : ∀ s S d w1 w2, distSax ⟨k, p, dm, b, m, bl, ml, s⟩ S d w1 w2 = distSax ⟨k, p, dm, b, m, bl, ml, sc0⟩ S d w1 w2 := by
    intro s S d w1 w2; cases k <;> simp only [distSax, hif s]
  have hd1 : ∀ s S d w1 w2, dist1d ⟨k, p, dm, b, m, bl, ml, s⟩ S d w1 w2 = dist1d ⟨k, p, dm, b, m, bl, ml, sc0⟩ S d w1 w2 := by
    intro s S d w1 w2; cases k <;> simp only [dist1d, hif s]
  cases q with
  | transform X => exact (ht sc X).symm
  | distance sz d a b => simp only [PwEst.ask, distance, ht sc, hdp sc, hds sc, hd1 sc]
  | distPaa P => exact (hdp sc P).symm
  | distSax S d w1 w2 => exact (hds sc S d w1 w2).symm
  | dist1d S d w1 w2 => exact (hd1 sc S d w1 w2).symm
  | inverse R => cases k <;> simp only [PwEst.ask, inverse, hif sc, hux]

theorem Alike.fit {e e' : PwEst} (h : Alike e e') (X : Arr3 ℝ) :
    Alike (e.fit ppf X).1 (e'.fit ppf X).1 ∧ (e.fit ppf X).2 = (e'.fit ppf X).2 := by
  obtain ⟨⟨sc, rfl⟩, hp⟩ := h
  refine ⟨⟨⟨sc, ?_⟩, by rw [(fit_par ppf e X).1]; exact hp⟩, ?_⟩
  · by_cases hX : X.data = []
    · simp only [PwEst.fit, if_pos hX]
    · simp only [PwEst.fit, if_neg hX]
      cases hk : e.kind
      · simp only [fitCore, hk, paaFit]
      · simp only [fitCore, hk, saxFit, paaFit, hp]; rfl
      · obtain ⟨k, p, dm, b, m, bl, ml, sc0⟩ := e
        have hq : p.scale = false := hp
        have hk : k = .oneD := hk
        subst hk
        by_cases h0 : p.nSeg = 0
        · simp [fitCore, oneDFit, h0, saxFit, paaFit, hq]
        · cases hsg : p.sigma with
          | some s => simp [fitCore, oneDFit, h0, hsg, setSlopes, saxFit, paaFit, hq]
          | none =>
            by_cases h1 : X.sz / p.nSeg = 0
            · simp only [fitCore, oneDFit, h0, h1, if_true, if_false, hsg, saxFit, paaFit, hq]; rfl
            · simp only [fitCore, oneDFit, h0, h1, if_false, hsg, setSlopes, saxFit, paaFit, hq]; rfl
  · rw [fit_snd ppf e X, fit_snd ppf { e with sc := sc } X]

theorem Alike.step {e e' : PwEst} (h : Alike e e') (c : PwCmd) (hc : ∀ p, c = .setParams p → p.scale = false) :
    Alike (e.step ppf junk c).1 (e'.step ppf junk c).1 ∧ (e.step ppf junk c).2 = (e'.step ppf junk c).2 := by
  cases c with
  | setParams p =>
    obtain ⟨⟨sc, rfl⟩, -⟩ := h
    exact ⟨⟨⟨sc, rfl⟩, hc p rfl⟩, rfl⟩
  | fit X =>
    have hf := Alike.fit ppf h X
    refine ⟨hf.1, ?_⟩
    simp only [PwEst.step, hf.2]
  | fitTransform X =>
    have hf := Alike.fit ppf h X
    have h1 := C85_fit_transform ppf e X
    have h2 := C85_fit_transform ppf e' X
    refine ⟨?_, ?_⟩
    · show Alike (e.fitTransform ppf X).1 (e'.fitTransform ppf X).1
      rw [h1.1, h2.1]; exact hf.1
    · simp only [PwEst.step, h1.2, h2.2, hf.2]
      have ha : (e.fit ppf X).1.transform X = (e'.fit ppf X).1.transform X := Alike.ask (fun _ _ _ => none) hf.1 (.transform X)
      rw [ha]
  | query q => exact ⟨h, by simp only [PwEst.step, Alike.ask junk h q]⟩

theorem Alike.answers {e e' : PwEst} (h : Alike e e') (l : List PwCmd) (hl : KeepsScaleOff l) :
    answers ppf junk e l = answers ppf junk e' l := by
  induction l generalizing e e' with
  | nil => rfl
  | cons c l ih =>
    have hs := Alike.step ppf junk h c fun p hp => hl p (by rw [hp]; exact List.mem_cons_self)
    have := ih hs.1 fun p hp => hl p (List.mem_cons_of_mem _ hp)
    show (e.step ppf junk c).2 :: _ = (e'.step ppf junk c).2 :: _
    rw [hs.2]
    exact congrArg _ this

end PwEst

/-- **C85**, refits: whatever was called before (fits, failed fits, changed parameters, questions), a fit raises
exactly if that of a new estimator with the current parameters does, with the same exception; and if it succeeds,
all later calls answer as they would on the new estimator fitted to the same data. The second part needs that
the fit scaled the data, or that `scale` is not switched on afterwards (see `C85_false_stale_scale`), unless the
class has no scaling. -/
theorem C85_refit_partial (k : PwKind) (p : PwParams) (h : List PwCmd) (X : Arr3 ℝ) :
    let e := ((PwEst.new k p).run ppf junk h).1
    let e' := PwEst.new k e.par
    (e.fit ppf X).2 = (e'.fit ppf X).2 ∧
    ((e.fit ppf X).2 = .ok () → ∀ l, (k = .paa ∨ e.par.scale = true ∨ KeepsScaleOff l) →
      answers ppf junk (e.fit ppf X).1 l = answers ppf junk (e'.fit ppf X).1 l) := by
  intro e e'
  have ho : e.Own := PwEst.own_run ppf junk (PwEst.own_new k p) h
  have hk : e.kind = k := PwEst.kind_run ppf junk _ h
  have hs := PwEst.fit_snd ppf e X
  rw [hk] at hs
  refine ⟨hs, fun hok l hl => ?_⟩
  have hf := PwEst.fit_fst ppf ho hok
  have hok' : (e'.fit ppf X).2 = .ok () := hs ▸ hok
  have hf' := PwEst.fit_fst ppf (PwEst.own_new k e.par) hok'
  rw [hk] at hf
  have hk' : e'.kind = k := rfl
  by_cases hc : k ≠ .paa ∧ e.par.scale = true
  · have : (e.fit ppf X).1 = (e'.fit ppf X).1 := by
      rw [hf, hf']
      have hc' : (PwEst.new k e.par).kind ≠ .paa ∧ (PwEst.new k e.par).par.scale = true := hc
      simp only [if_pos hc', if_pos hc]
    rw [this]
  · by_cases hpa : k = .paa
    · have : (e.fit ppf X).1 = (e'.fit ppf X).1 := by
        rw [hf, hf', if_neg hc]
        rw [(ho.1 (hk.trans hpa)).2.2]
        simp [PwEst.new, hpa]
      rw [this]
    · have hsf : e.par.scale = false := by simpa using fun hh => hc ⟨hpa, hh⟩
      have hl' : KeepsScaleOff l := by
        rcases hl with hl | hl | hl
        · exact absurd hl hpa
        · rw [hsf] at hl; cases hl
        · exact hl
      refine (PwEst.Alike.answers ppf junk (e := (e'.fit ppf X).1) ⟨⟨_, hf⟩, ?_⟩ l hl').symm
      rw [(PwEst.fit_par ppf e' X).1]; exact hsf

/-! ### Never fitted -/

namespace PwEst

/-- The attribute that the class assigns last is absent. -/
def Bare (e : PwEst) : Prop :=
  match e.kind with
  | .paa => e.dims = none
  | .sax => e.bps = none
  | .oneD => e.bpsl = none

theorem Bare.isFitted {e : PwEst} (h : e.Bare) : e.isFitted = .error .notFitted := by
  cases hk : e.kind <;> simp only [Bare, hk] at h <;> simp only [PwEst.isFitted, hk]
  · simp [paaFitted, present, h]
  · simp only [saxFitted, present, h, Option.isSome_none, Bool.false_and]; rfl
  · simp only [present, h, Option.isSome_none, Bool.false_and]; rfl

theorem Bare.ask {e : PwEst} (h : e.Bare) {q : PwQuery} (hq : Offers e.kind q) : e.ask junk q = .error .notFitted := by
  have hf := h.isFitted
  cases q with
  | transform X => simp only [PwEst.ask, transform, hf]; rfl
  | distance sz d a b => simp only [PwEst.ask, distance, transform, hf]; rfl
  | distPaa P => simp only [PwEst.ask, distPaa, hf]; rfl
  | distSax S d w1 w2 =>
    cases hk : e.kind
    · rw [hk] at hq; exact hq.elim
    · simp only [PwEst.ask, distSax, hf, hk]; rfl
    · simp only [PwEst.ask, distSax, hf, hk]; rfl
  | dist1d S d w1 w2 =>
    cases hk : e.kind
    · rw [hk] at hq; exact hq.elim
    · rw [hk] at hq; exact hq.elim
    · simp only [PwEst.ask, dist1d, hf, hk]; rfl
  | inverse R => simp only [PwEst.ask, inverse, hf]; rfl

/-- The state after a fit that raised. -/
theorem fit_error {e : PwEst} {X : Arr3 ℝ} {x : PyErr} (h : (e.fit ppf X).2 = .error x) :
    (X.data = [] ∧ x = .valueError ∧ (e.fit ppf X).1 = e) ∨
      (X.data ≠ [] ∧ e.kind = .oneD ∧ x = .zeroDivision ∧ (e.fit ppf X).1 = e.saxFit ppf X) := by
  by_cases hX : X.data = []
  · left
    simp only [fit, if_pos hX, Except.error.injEq] at h ⊢
    exact ⟨hX, h.symm, trivial⟩
  · right
    simp only [fit, if_neg hX] at h ⊢
    cases hk : e.kind
    · simp only [fitCore, hk] at h; cases h
    · simp only [fitCore, hk] at h; cases h
    · simp only [fitCore, hk] at h ⊢
      rcases oneDFit_cases ppf e X with h' | ⟨s, h'⟩
      · rw [h'] at h ⊢
        simp only [Except.error.injEq] at h
        exact ⟨hX, trivial, h.symm, rfl⟩
      · rw [h'] at h; cases h

theorem Bare.fit {e : PwEst} (h : e.Bare) {X : Arr3 ℝ} {x : PyErr} (hx : (e.fit ppf X).2 = .error x) :
    (e.fit ppf X).1.Bare := by
  rcases fit_error ppf hx with ⟨-, -, h'⟩ | ⟨-, hk, -, h'⟩
  · rw [h']; exact h
  · rw [h']
    have : (e.saxFit ppf X).kind = .oneD := hk
    simp only [Bare, this]
    simp only [Bare, hk] at h
    exact h

theorem run_append (e : PwEst) (l m : List PwCmd) :
    (e.run ppf junk (l ++ m)).1 = ((e.run ppf junk l).1.run ppf junk m).1 := by
  induction l generalizing e with
  | nil => rfl
  | cons c l ih => exact ih _

end PwEst

/-- **C85**, not fitted: as long as no fit has succeeded, every method of the class raises `NotFittedError`,
whatever parameters were set and whatever fits failed in between, also fits of 1d-SAX that failed half-way. -/
theorem C85_not_fitted (k : PwKind) (p : PwParams) (h : List PwCmd)
    (hn : NeverFitted ppf junk (PwEst.new k p) h) (q : PwQuery) (hq : Offers k q) :
    ((PwEst.new k p).run ppf junk h).1.ask junk q = .error .notFitted := by
  have hb : ((PwEst.new k p).run ppf junk h).1.Bare := by
    induction h using List.reverseRecOn with
    | nil => cases k <;> rfl
    | append_singleton pre c ih =>
      have hpre : ((PwEst.new k p).run ppf junk pre).1.Bare := by
        refine ih fun a c' post hh => hn a c' (post ++ [c]) (by rw [hh]; simp)
      have hc := hn pre c [] rfl
      rw [PwEst.run_append]
      show (((PwEst.new k p).run ppf junk pre).1.step ppf junk c).1.Bare
      cases c with
      | setParams p' => exact hpre
      | fit X => obtain ⟨x, hx⟩ := hc; exact hpre.fit ppf hx
      | fitTransform X => exact hc.elim
      | query q => exact hpre
  exact hb.ask junk (by rw [PwEst.kind_run]; exact hq)

/-! ### Fits that raise -/

/-- **C85**, failures: from every state, a fit raises exactly for a dataset without series (`ValueError`), and in
1d-SAX also for zero segments, or, with `sigma_l=None`, more segments than samples (`ZeroDivisionError`). -/
theorem C85_fit_raises (e : PwEst) (X : Arr3 ℝ) (x : PyErr) :
    (e.fit ppf X).2 = .error x ↔
      (X.data = [] ∧ x = .valueError) ∨
      (X.data ≠ [] ∧ e.kind = .oneD ∧ x = .zeroDivision ∧
        (e.par.nSeg = 0 ∨ (e.par.sigma = none ∧ X.sz < e.par.nSeg))) := by
  by_cases hX : X.data = []
  · have hf : (e.fit ppf X).2 = .error .valueError := by simp only [PwEst.fit, if_pos hX]
    rw [hf]
    simp [hX, eq_comm]
  · have hf : (e.fit ppf X).2 = (e.fitCore ppf X).2 := by simp only [PwEst.fit, if_neg hX]
    rw [hf]
    simp only [hX, ne_eq, not_false_eq_true, true_and, false_and, false_or]
    cases hk : e.kind
    · simp [PwEst.fitCore, hk]
    · simp [PwEst.fitCore, hk]
    · simp only [PwEst.fitCore, hk, true_and]
      by_cases h0 : e.par.nSeg = 0
      · simp [PwEst.oneDFit, h0, eq_comm]
      · cases hs : e.par.sigma with
        | some s => simp [PwEst.oneDFit, h0, hs]
        | none =>
          have hlt : X.sz / e.par.nSeg = 0 ↔ X.sz < e.par.nSeg := by
            rw [Nat.div_eq_zero_iff]; simp [h0]
          by_cases h1 : X.sz / e.par.nSeg = 0
          · simp only [PwEst.oneDFit, h0, hs, h1, if_true, if_false, Except.error.injEq, hlt.1 h1, false_or, and_true]
            exact eq_comm
          · simp only [PwEst.oneDFit, h0, hs, h1, if_false, hlt.not.1 h1]
            simp

/-- **C85**, failures: a fit of PAA or SAX that raises leaves the estimator as it was; so does one of 1d-SAX on a
dataset without series. Not proved, because false (`C85_false_failed_fit`): the same for 1d-SAX with too many
segments. -/
theorem C85_failed_fit_partial (e : PwEst) (X : Arr3 ℝ) (x : PyErr) (h : (e.fit ppf X).2 = .error x)
    (hk : e.kind ≠ .oneD ∨ X.data = []) : (e.fit ppf X).1 = e := by
  rcases PwEst.fit_error ppf h with ⟨-, -, h'⟩ | ⟨hX, hk', -, -⟩
  · exact h'
  · rcases hk with hk | hk
    · exact absurd hk' hk
    · exact absurd hk hX

/-! ### Parameters changed after the fit -/

/-- **C85**, parameters: new alphabet sizes and `sigma_l` have no effect before the next fit. -/
theorem C85_alphabet_at_fit (e : PwEst) (p : PwParams) (hS : p.nSeg = e.par.nSeg) (hs : p.scale = e.par.scale)
    (q : PwQuery) : (e.step ppf junk (.setParams p)).1.ask junk q = e.ask junk q := by
  obtain ⟨k, ⟨S, a, b, sg, sl⟩, dm, bp, m, bl, ml, sc⟩ := e
  obtain ⟨S', a', b', sg', sl'⟩ := p
  simp only at hS hs
  subst hS hs
  cases q <;> rfl

/-- **C85**, parameters: a new number of segments takes effect at once, exactly as if the estimator had been fitted
with it; in 1d-SAX this needs a given `sigma_l` (see `C85_false_segments`) and numbers other than zero. -/
theorem C85_segments_live (e : PwEst) (X : Arr3 ℝ) (S : ℕ)
    (hk : e.kind = .oneD → e.par.sigma ≠ none ∧ e.par.nSeg ≠ 0 ∧ S ≠ 0) :
    ((e.fit ppf X).1.step ppf junk (.setParams { e.par with nSeg := S })).1 =
      ((e.step ppf junk (.setParams { e.par with nSeg := S })).1.fit ppf X).1 := by
  obtain ⟨k, ⟨S0, a, b, sg, sl⟩, dm, bp, m, bl, ml, sc⟩ := e
  by_cases hX : X.data = []
  · simp only [PwEst.step, PwEst.fit, if_pos hX]
  · simp only [PwEst.step, PwEst.fit, if_neg hX]
    cases k
    · rfl
    · rfl
    · obtain ⟨h1, h2, h3⟩ := hk rfl
      simp only at h1 h2
      cases sg with
      | none => exact absurd rfl h1
      | some s => simp only [PwEst.fitCore, PwEst.oneDFit, h2, h3, if_false, PwEst.setSlopes, PwEst.saxFit, PwEst.paaFit]

/-! ### The estimators compute the transforms of `Verif.Model.Piecewise` -/

/-- **C85**, values: after a successful fit on `X`, from whatever state, `transform` is the function of the
parameters and of the data of that fit alone that the properties C31 to C36 and C55 are about. -/
theorem C85_transform (e : PwEst) (X : Arr3 ℝ) (h : (e.fit ppf X).2 = .ok ()) (Y : Arr3 ℝ) :
    let sc := if e.par.scale = true then some (fitScaling X) else none
    let s := e.par.sigma.getD (Real.sqrt (3 / 100 / ((X.sz / e.par.nSeg : ℕ) : ℝ)))
    (e.fit ppf X).1.transform Y =
      match e.kind with
      | .paa => (paaTransform X.d e.par.nSeg Y).map .nums
      | .sax => (saxTransform X.d sc (breakpoints ppf e.par.alphaAvg 1) e.par.nSeg Y).map .words
      | .oneD => (oneDTransform X.d sc (breakpoints ppf e.par.alphaAvg 1) (breakpoints ppf e.par.alphaSlope s)
          e.par.nSeg Y).map .words := by
  intro sc s
  by_cases hX : X.data = []
  · simp only [PwEst.fit, if_pos hX] at h; cases h
  · simp only [PwEst.fit, if_neg hX] at h ⊢
    have hf := PwEst.fitCore_fitted ppf h
    have hd := PwEst.fitCore_dims ppf e X
    have hp := PwEst.fitCore_par ppf e X
    have hscale : ∀ e' : PwEst, e'.par = e.par → (e.par.scale = true → e'.sc = some (X.d, fitScaling X)) →
        ∀ Z : Arr3 ℝ, Z.d = X.d → e'.scaleX Z = .ok (saxScale sc Z) := by
      intro e' h1 h2 Z hZ
      by_cases hs : e.par.scale = true
      · simp only [PwEst.scaleX, h1, hs, if_true, h2 hs, PwEst.broadcast, hZ, sc]
        rfl
      · simp only [PwEst.scaleX, h1, hs, sc]
        rfl
    have hsd : ∀ Z : Arr3 ℝ, Z.d = X.d → (saxScale sc Z).d = X.d := by
      intro Z hZ
      by_cases hs : e.par.scale = true
      · simp only [sc, hs, if_true, saxScale]; exact hZ
      · simp only [sc, hs]; exact hZ
    simp only [PwEst.transform, hf, hd]
    by_cases hY : Y.data = []
    · cases hk : e.kind <;>
        simp only [hY, paaTransform, saxTransform, oneDTransform, if_true] <;> rfl
    by_cases hYd : Y.d = X.d
    swap
    · cases hk : e.kind <;>
        simp only [hY, hYd, paaTransform, saxTransform, oneDTransform, if_false, ne_eq, not_false_eq_true, if_true] <;> rfl
    cases hk : e.kind
    · have hkk : (e.fitCore ppf X).1.kind = .paa := hp.2.trans hk
      simp only [hY, hYd, paaTransform, if_false, ne_eq, not_true_eq_false, PwEst.core, hkk, hp.1]
      by_cases h0 : e.par.nSeg = 0
      · simp only [h0, if_true]; rfl
      · simp only [h0, if_false]; rfl
    · have hkk : (e.fitCore ppf X).1.kind = .sax := hp.2.trans hk
      have he : (e.fitCore ppf X).1 = e.saxFit ppf X := by simp only [PwEst.fitCore, hk]
      have hsx := hscale (e.saxFit ppf X) rfl (fun hs => by simp [PwEst.saxFit, PwEst.paaFit, hs]) Y hYd
      simp only [hY, hYd, saxTransform, if_false, ne_eq, not_true_eq_false, PwEst.core, hkk]
      rw [he]
      simp only [PwEst.saxCore, hsx, show (e.saxFit ppf X).par = e.par from rfl,
        show (e.saxFit ppf X).bps = some (breakpoints ppf e.par.alphaAvg 1) from rfl]
      by_cases h0 : e.par.nSeg = 0
      · simp only [h0, if_true]; rfl
      · simp only [h0, if_false]; rfl
    · have hkk : (e.fitCore ppf X).1.kind = .oneD := hp.2.trans hk
      have he : (e.fitCore ppf X).1 = (e.oneDFit ppf X).1 := by simp only [PwEst.fitCore, hk]
      have hok : (e.oneDFit ppf X).2 = .ok () := by simpa only [PwEst.fitCore, hk] using h
      obtain ⟨h0, t, ht, hts⟩ := PwEst.oneDFit_ok ppf hok
      have hst : t = s := by
        rw [hts]; cases hsg : e.par.sigma <;> simp [s, hsg]
      subst hst
      rw [ht] at he
      have hsx := hscale ((e.saxFit ppf X).setSlopes ppf s) rfl
        (fun hs => by simp [PwEst.saxFit, PwEst.paaFit, PwEst.setSlopes, hs])
      simp only [hY, hYd, oneDTransform, if_false, ne_eq, not_true_eq_false, PwEst.core, hkk, h0]
      rw [he]
      simp only [PwEst.oneDCore, hsx Y hYd]
      show Except.map _ (Except.bind (PwEst.saxCore _ (saxScale sc Y)) _) = _
      simp only [PwEst.saxCore, hsx _ (hsd Y hYd)]
      simp only [show ((e.saxFit ppf X).setSlopes ppf s).par = e.par from rfl,
        show ((e.saxFit ppf X).setSlopes ppf s).bps = some (breakpoints ppf e.par.alphaAvg 1) from rfl,
        show ((e.saxFit ppf X).setSlopes ppf s).bpsl = some (breakpoints ppf e.par.alphaSlope s) from rfl, h0, if_false]
      rfl

/-- **C85**, values: after a successful fit on `X`, the distances between representations use the length of the
series of that fit and its breakpoints, and `distance` is `transform` followed by the distance of the class. -/
theorem C85_distances (e : PwEst) (X : Arr3 ℝ) (h : (e.fit ppf X).2 = .ok ()) :
    let s := e.par.sigma.getD (Real.sqrt (3 / 100 / ((X.sz / e.par.nSeg : ℕ) : ℝ)))
    let e' := (e.fit ppf X).1
    (e.par.nSeg ≠ 0 → ∀ P, e'.ask junk (.distPaa P) = .ok (.num (distancePaa X.sz e.par.nSeg P 0 1))) ∧
    (e.kind ≠ .paa → ∀ S d w1 w2, e'.ask junk (.distSax S d w1 w2) =
      .ok (.num (some (cydistSax (breakpoints ppf e.par.alphaAvg 1) X.sz S d w1 w2)))) ∧
    (e.kind = .oneD → ∀ S d w1 w2, e'.ask junk (.dist1d S d w1 w2) =
      .ok (.num (some (cydist1dSax (binMedians ppf e.par.alphaAvg 1) (binMedians ppf e.par.alphaSlope s) X.sz S d w1 w2)))) ∧
    (∀ sz d a b W, e'.ask junk (.transform ⟨sz, d, [a, b]⟩) = .ok W →
      e'.ask junk (.distance sz d a b) =
        match W with
        | .nums P => e'.ask junk (.distPaa P)
        | .words W =>
          if e.kind = .oneD then e'.ask junk (.dist1d e.par.nSeg (((W.getD 0 []).headD []).length / 2) (W.getD 0 []) (W.getD 1 []))
          else e'.ask junk (.distSax e.par.nSeg ((W.getD 0 []).headD []).length (W.getD 0 []) (W.getD 1 []))
        | .num _ => .error .notModelled) := by
  intro s e'
  by_cases hX : X.data = []
  · simp only [PwEst.fit, if_pos hX] at h; cases h
  have he' : e' = (e.fitCore ppf X).1 := by simp only [e', PwEst.fit, if_neg hX]
  have h' : (e.fitCore ppf X).2 = .ok () := by simpa only [PwEst.fit, if_neg hX] using h
  have hf : e'.isFitted = .ok () := by rw [he']; exact PwEst.fitCore_fitted ppf h'
  have hd : e'.dims = some (X.data.length, X.sz, X.d) := by rw [he']; exact PwEst.fitCore_dims ppf e X
  have hp : e'.par = e.par := by rw [he']; exact (PwEst.fitCore_par ppf e X).1
  have hk : e'.kind = e.kind := by rw [he']; exact (PwEst.fitCore_par ppf e X).2
  have hb : e.kind ≠ .paa → e'.bps = some (breakpoints ppf e.par.alphaAvg 1) ∧ e'.med = some (binMedians ppf e.par.alphaAvg 1) := by
    intro hk'
    rw [he']
    cases hkk : e.kind
    · exact absurd hkk hk'
    · simp only [PwEst.fitCore, hkk]; exact ⟨rfl, rfl⟩
    · simp only [PwEst.fitCore, hkk]
      rcases PwEst.oneDFit_cases ppf e X with h | ⟨s, h⟩ <;> rw [h] <;> exact ⟨rfl, rfl⟩
  have hml : e.kind = .oneD → e'.medl = some (binMedians ppf e.par.alphaSlope s) := by
    intro hkk
    have hok : (e.oneDFit ppf X).2 = .ok () := by simpa only [PwEst.fitCore, hkk] using h'
    obtain ⟨-, t, ht, hts⟩ := PwEst.oneDFit_ok ppf hok
    have hst : t = s := by
      rw [hts]; cases hsg : e.par.sigma <;> simp [s, hsg]
    rw [he']
    simp only [PwEst.fitCore, hkk, ht, hst]
    rfl
  refine ⟨fun h0 P => ?_, fun hk' S d w1 w2 => ?_, fun hk' S d w1 w2 => ?_, fun sz d a b W hW => ?_⟩
  · simp only [PwEst.ask, PwEst.distPaa, hf, hd, hp, h0]; rfl
  · obtain ⟨hb1, -⟩ := hb hk'
    cases hkk : e.kind
    · exact absurd hkk hk'
    · simp only [PwEst.ask, PwEst.distSax, hk, hkk, hf, hd, hb1]; rfl
    · simp only [PwEst.ask, PwEst.distSax, hk, hkk, hf, hd, hb1]; rfl
  · obtain ⟨-, hb2⟩ := hb (by rw [hk']; decide)
    simp only [PwEst.ask, PwEst.dist1d, hk, hk', hf, hd, hb2, hml hk']; rfl
  · have hW : e'.transform ⟨sz, d, [a, b]⟩ = .ok W := hW
    simp only [PwEst.ask, PwEst.distance, hW]
    cases W with
    | nums P => rfl
    | num v => rfl
    | words W => rw [← hk, ← hp]; cases hkk : e'.kind <;> rfl

/-- **C85**, values: after a successful fit on `X`, `inverse_transform` of SAX and 1d-SAX words are the
reconstructions that C34 is about, in the length of that fit and rescaled with its statistics. -/
theorem C85_inverse (e : PwEst) (X : Arr3 ℝ) (h : (e.fit ppf X).2 = .ok ()) (S d : ℕ) (hS : S ≠ 0)
    (W : List (List (List ℕ))) (hW : W ≠ []) :
    let sc := if e.par.scale = true then some (fitScaling X) else none
    let s := e.par.sigma.getD (Real.sqrt (3 / 100 / ((X.sz / e.par.nSeg : ℕ) : ℝ)))
    let e' := (e.fit ppf X).1
    (e.kind = .paa → ∀ P, P.data ≠ [] → P.sz ≠ 0 →
      e'.ask junk (.inverse (.nums P)) = .ok (.nums (invPaa (List.range P.sz) P X.sz))) ∧
    (e.kind = .sax → e'.ask junk (.inverse (.words S d W)) =
      if d = X.d then .ok (.nums (saxInverse sc (binMedians ppf e.par.alphaAvg 1) S d W X.sz)) else .error .valueError) ∧
    (e.kind = .oneD → e'.ask junk (.inverse (.words S d W)) =
      if d = 2 * X.d then .ok (.nums (oneDInverse junk sc (binMedians ppf e.par.alphaAvg 1)
        (binMedians ppf e.par.alphaSlope s) S X.d W X.sz)) else .error .valueError) := by
  intro sc s e'
  by_cases hX : X.data = []
  · simp only [PwEst.fit, if_pos hX] at h; cases h
  have he' : e' = (e.fitCore ppf X).1 := by simp only [e', PwEst.fit, if_neg hX]
  have h' : (e.fitCore ppf X).2 = .ok () := by simpa only [PwEst.fit, if_neg hX] using h
  have hf : e'.isFitted = .ok () := by rw [he']; exact PwEst.fitCore_fitted ppf h'
  have hd : e'.dims = some (X.data.length, X.sz, X.d) := by rw [he']; exact PwEst.fitCore_dims ppf e X
  have hp : e'.par = e.par := by rw [he']; exact (PwEst.fitCore_par ppf e X).1
  have hk : e'.kind = e.kind := by rw [he']; exact (PwEst.fitCore_par ppf e X).2
  have hun : (e.par.scale = true → e'.sc = some (X.d, fitScaling X)) → ∀ Z : Arr3 ℝ, Z.d = X.d →
      e'.unscaleX Z = .ok (saxUnscale sc Z) := by
    intro h2 Z hZ
    by_cases hs : e.par.scale = true
    · simp only [PwEst.unscaleX, hp, hs, if_true, h2 hs, PwEst.broadcast, hZ, sc]
      rfl
    · simp only [PwEst.unscaleX, hp, hs, sc]
      rfl
  refine ⟨fun hkk P hP hz => ?_, fun hkk => ?_, fun hkk => ?_⟩
  · simp only [PwEst.ask, PwEst.inverse, hf, hd, hk, hkk, hP, hz]; rfl
  · have he2 : e' = e.saxFit ppf X := by rw [he']; simp only [PwEst.fitCore, hkk]
    have hm : e'.med = some (binMedians ppf e.par.alphaAvg 1) := by rw [he2]; rfl
    have hu := hun (fun hs => by rw [he2]; simp [PwEst.saxFit, PwEst.paaFit, hs])
    by_cases hdd : d = X.d
    · subst hdd
      simp only [PwEst.ask, PwEst.inverse, hf, hd, hk, hkk, hm, hW, hS, if_true]
      have := hu (invSaxRaw (binMedians ppf e.par.alphaAvg 1) S X.d W X.sz) rfl
      simp only [this, ne_eq, not_true_eq_false, if_false]
      rfl
    · simp only [PwEst.ask, PwEst.inverse, hf, hd, hk, hkk, hm, hW, hdd, if_false, ne_eq, not_false_eq_true, if_true]; rfl
  · have hok : (e.oneDFit ppf X).2 = .ok () := by simpa only [PwEst.fitCore, hkk] using h'
    obtain ⟨-, t, ht, hts⟩ := PwEst.oneDFit_ok ppf hok
    have hst : t = s := by
      rw [hts]; cases hsg : e.par.sigma <;> simp [s, hsg]
    have he2 : e' = (e.saxFit ppf X).setSlopes ppf s := by
      rw [he', ← hst, ← ht]; simp only [PwEst.fitCore, hkk]
    have hm : e'.med = some (binMedians ppf e.par.alphaAvg 1) := by rw [he2]; rfl
    have hml : e'.medl = some (binMedians ppf e.par.alphaSlope s) := by rw [he2]; rfl
    have hu := hun (fun hs => by rw [he2]; simp [PwEst.saxFit, PwEst.paaFit, PwEst.setSlopes, hs])
    by_cases hdd : d = 2 * X.d
    · simp only [PwEst.ask, PwEst.inverse, hf, hd, hk, hkk, hm, hml, hW, hS, hdd, if_true]
      have := hu (inv1dRaw junk (binMedians ppf e.par.alphaAvg 1) (binMedians ppf e.par.alphaSlope s) S X.d W X.sz) rfl
      simp only [this, ne_eq, not_true_eq_false, if_false]
      rfl
    · simp only [PwEst.ask, PwEst.inverse, hf, hd, hk, hkk, hm, hml, hW, hdd, if_false, ne_eq, not_false_eq_true, if_true]; rfl

/-! ### What fails -/

/-- A dataset of one series with one feature. -/
def oneSer (l : List ℝ) : Arr3 ℝ := ⟨l.length, 1, [l.map fun x => [some x]]⟩

theorem fitScaling_one (a : ℝ) : fitScaling (oneSer [a]) 0 = (some a, some 1) := by
  simp [fitScaling, oneSer, Arr3.group, Arr3.entry, nanMean, nanStd, List.range_succ]

theorem breakpoints_two (hppf : ppf (1 / 2) = 0) (s : ℝ) : breakpoints ppf 2 s = [0] := by
  have : ((1 : ℕ) : ℝ) / ((2 : ℕ) : ℝ) = 1 / 2 := by norm_num
  simp only [breakpoints, Nat.add_one_sub_one, List.range_succ, List.range_zero, List.nil_append, List.map_cons, List.map_nil, zero_add,
    this, hppf, mul_zero]

theorem word_one (hppf : ppf (1 / 2) = 0) (m : Scaling ℝ) (a mu : ℝ) (h : m 0 = (some mu, some 1)) :
    paaToSymbols (breakpoints ppf 2 1) (paaRaw 1 (saxScale (some m) (oneSer [a]))) = [[[if a < mu then 0 else 1]]] := by
  rw [breakpoints_two ppf hppf]
  have h1 : saxScale (some m) (oneSer [a]) = oneSer [a - mu] := by
    simp [saxScale, oneSer, Arr3.build, Arr3.entry, List.range_succ, h]
  have h2 : paaRaw 1 (oneSer [a - mu]) = oneSer [a - mu] := by
    simp [oneSer, Arr3.build, Arr3.entry, paaRaw, List.range_succ, tsSize, tsSizeLoop, meanOpt]
  rw [h1, h2]
  simp only [paaToSymbols, oneSer, List.map_cons, List.map_nil, paaToSymbol, symStep, ltOpt, List.zipIdx_cons, List.zipIdx_nil, List.foldl_cons, List.foldl_nil]
  by_cases hlt : a < mu <;> simp [hlt]

/-- What a SAX estimator with scaling answers on one sample. -/
theorem sax_one (hppf : ppf (1 / 2) = 0) {e : PwEst} {m : Scaling ℝ} {n sz : ℕ} {a mu : ℝ} (hk : e.kind = .sax)
    (hp : e.par = ⟨1, 2, 5, none, true⟩) (hd : e.dims = some (n, sz, 1)) (hb : e.bps = some (breakpoints ppf 2 1))
    (hm : e.med = some (binMedians ppf 2 1)) (hs : e.sc = some (1, m)) (h : m 0 = (some mu, some 1)) :
    e.ask junk (.transform (oneSer [a])) = .ok (.words [[[if a < mu then 0 else 1]]]) := by
  have hf : e.isFitted = .ok () := by
    simp only [PwEst.isFitted, hk, PwEst.saxFitted, hb, hm, hs, hp, PwEst.paaFitted, hd, PwEst.present]; rfl
  have hx : e.scaleX (oneSer [a]) = .ok (saxScale (some m) (oneSer [a])) := by
    simp only [PwEst.scaleX, hp, hs, PwEst.broadcast, oneSer]; rfl
  have hc : e.saxCore (oneSer [a]) = .ok [[[if a < mu then 0 else 1]]] := by
    simp only [PwEst.saxCore, hx, hp, hb]
    rw [← word_one ppf hppf m a mu h]; rfl
  simp only [PwEst.ask, PwEst.transform, hf, hd, PwEst.core, hk, hc]
  rfl

/-- **C85** is false of `scale`: `mu_` and `std_` of an earlier dataset survive a fit with `scale=False`. Switching
`scale` on again then standardises with the statistics of the dataset before (here the mean 10 of another series),
where a new estimator raises `NotFittedError` and one fitted with `scale=True` answers differently. -/
theorem C85_false_stale_scale (hppf : ppf (1 / 2) = 0) :
    ∃ (p0 p1 : PwParams) (X1 X2 : Arr3 ℝ),
      let q := PwQuery.transform X2
      let old := ((PwEst.new .sax p0).run ppf junk [.fit X1, .setParams p1, .fit X2, .setParams p0]).1
      let fresh := ((PwEst.new .sax p1).run ppf junk [.fit X2, .setParams p0]).1
      let again := ((PwEst.new .sax p0).run ppf junk [.fit X2]).1
      fresh.ask junk q = .error .notFitted ∧ old.ask junk q = .ok (.words [[[0]]]) ∧
        again.ask junk q = .ok (.words [[[1]]]) := by
  refine ⟨⟨1, 2, 5, none, true⟩, ⟨1, 2, 5, none, false⟩, oneSer [10], oneSer [0], ?_, ?_, ?_⟩
  · simp [PwEst.run, PwEst.step, PwEst.fit, PwEst.fitCore, PwEst.new, oneSer, PwEst.saxFit, PwEst.paaFit, PwEst.ask, PwEst.transform, PwEst.isFitted, PwEst.saxFitted, PwEst.present]
    rfl
  · have := sax_one ppf junk hppf (a := 0) (e := ((PwEst.new .sax ⟨1, 2, 5, none, true⟩).run ppf junk
      [.fit (oneSer [10]), .setParams ⟨1, 2, 5, none, false⟩, .fit (oneSer [0]), .setParams ⟨1, 2, 5, none, true⟩]).1)
      (n := 1) (sz := 1) rfl rfl rfl rfl rfl rfl (fitScaling_one 10)
    simpa using this
  · have := sax_one ppf junk hppf (a := 0) (e := ((PwEst.new .sax ⟨1, 2, 5, none, true⟩).run ppf junk
      [.fit (oneSer [0])]).1) (n := 1) (sz := 1) rfl rfl rfl rfl rfl rfl (fitScaling_one 0)
    simpa using this

theorem fitScaling_zeros : fitScaling (oneSer [0, 0]) 0 = (some 0, some 1) := by
  simp [fitScaling, oneSer, Arr3.group, Arr3.entry, nanMean, nanStd, List.range_succ]

theorem scale_pair (m : Scaling ℝ) (a mu : ℝ) (h : m 0 = (some mu, some 1)) :
    saxScale (some m) (oneSer [a, a]) = oneSer [a - mu, a - mu] := by
  simp [saxScale, oneSer, Arr3.build, Arr3.entry, List.range_succ, h]

theorem paa_pair (a b : ℝ) : paaRaw 2 (oneSer [a, b]) = oneSer [a, b] := by
  simp [oneSer, Arr3.build, Arr3.entry, paaRaw, List.range_succ, tsSize, tsSizeLoop, meanOpt]

theorem slopes_pair (a b : ℝ) : getSlopes 2 (oneSer [a, b]) = .ok (oneSer [0, 0]) := by
  have hc : ∀ t (x : ℝ), slopeCell t [some x] = .ok (some 0) := by
    intro t x
    simp [slopeCell, lsSlope]
  simp [getSlopes, oneSer, List.range_succ, Arr3.entry, hc]
  rfl

/-- What a 1d-SAX estimator with scaling and two segments answers on the series (0, 0). -/
theorem oneD_zeros (hppf : ppf (1 / 2) = 0) {e : PwEst} {m : Scaling ℝ} {n sz : ℕ} {mu s : ℝ} (hk : e.kind = .oneD)
    (hp : e.par = ⟨2, 2, 2, none, true⟩) (hd : e.dims = some (n, sz, 1)) (hb : e.bps = some (breakpoints ppf 2 1))
    (hm : e.med = some (binMedians ppf 2 1)) (hbl : e.bpsl = some (breakpoints ppf 2 s))
    (hml : e.medl = some (binMedians ppf 2 s)) (hs : e.sc = some (1, m)) (h : m 0 = (some mu, some 1)) :
    e.ask junk (.transform (oneSer [0, 0])) =
      .ok (.words [[[if 0 < mu then 0 else 1, 1], [if 0 < mu then 0 else 1, 1]]]) := by
  have hf : e.isFitted = .ok () := by
    simp only [PwEst.isFitted, hk, PwEst.saxFitted, hb, hm, hs, hp, PwEst.paaFitted, hd, PwEst.present, hbl, hml]; rfl
  have hx : ∀ a, e.scaleX (oneSer [a, a]) = .ok (oneSer [a - mu, a - mu]) := by
    intro a
    rw [← scale_pair m a mu h]
    simp only [PwEst.scaleX, hp, hs, PwEst.broadcast, oneSer]; rfl
  have hlt : (0 - mu - mu < 0) ↔ 0 < mu := by constructor <;> intro h <;> linarith
  have hw : paaToSymbols [(0 : ℝ)] (oneSer [0 - mu - mu, 0 - mu - mu]) =
      [[[if 0 < mu then 0 else 1], [if 0 < mu then 0 else 1]]] := by
    simp only [paaToSymbols, oneSer, List.map_cons, List.map_nil, paaToSymbol, symStep, ltOpt, List.zipIdx_cons,
      List.zipIdx_nil, List.foldl_cons, List.foldl_nil]
    by_cases hl : 0 < mu
    · simp [hl]
    · simp [hl]
  have hz : paaToSymbols [(0 : ℝ)] (oneSer [0, 0]) = [[[1], [1]]] := by
    simp [paaToSymbols, oneSer, paaToSymbol, symStep, ltOpt]
  have hc : e.saxCore (oneSer [0 - mu, 0 - mu]) = .ok [[[if 0 < mu then 0 else 1], [if 0 < mu then 0 else 1]]] := by
    simp only [PwEst.saxCore, hx, hp, hb, breakpoints_two ppf hppf]
    rw [← hw]
    exact congrArg (fun P => Except.ok (paaToSymbols [(0 : ℝ)] P)) (paa_pair _ _)
  have ho : e.oneDCore (oneSer [0, 0]) = .ok [[[if 0 < mu then 0 else 1, 1], [if 0 < mu then 0 else 1, 1]]] := by
    simp only [PwEst.oneDCore, hx]
    show Except.bind (e.saxCore _) _ = _
    rw [hc, hp]
    show Except.bind (getSlopes 2 _) _ = _
    rw [slopes_pair]
    simp only [hbl, breakpoints_two ppf hppf, Except.bind, hz]
    rfl
  simp only [PwEst.ask, PwEst.transform, hf, hd, PwEst.core, hk, ho]
  rfl

/-- **C85** is false of failed fits of 1d-SAX: with more segments than samples, `fit` raises `ZeroDivisionError` after
the averages, the statistics and the dimensions of the new data have been stored. The estimator then answers with
the statistics of data on which it never was fitted (here another word for the training series), or refuses the
data it was trained on. -/
theorem C85_false_failed_fit (hppf : ppf (1 / 2) = 0) :
    (∃ (p : PwParams) (X1 X2 : Arr3 ℝ) (W W' : List (List (List ℕ))),
      let e := ((PwEst.new .oneD p).fit ppf X1).1
      ((PwEst.new .oneD p).fit ppf X1).2 = .ok () ∧ (e.fit ppf X2).2 = .error .zeroDivision ∧
      e.ask junk (.transform X1) = .ok (.words W) ∧ (e.fit ppf X2).1.ask junk (.transform X1) = .ok (.words W') ∧ W ≠ W') ∧
    (∃ (p : PwParams) (X1 X2 : Arr3 ℝ) (W : List (List (List ℕ))),
      let e := ((PwEst.new .oneD p).fit ppf X1).1
      ((PwEst.new .oneD p).fit ppf X1).2 = .ok () ∧ (e.fit ppf X2).2 = .error .zeroDivision ∧
      e.ask junk (.transform X1) = .ok (.words W) ∧
      (e.fit ppf X2).1.ask junk (.transform X1) = .error .valueError) := by
  have h1 : ((PwEst.new .oneD ⟨2, 2, 2, none, true⟩).fit ppf (oneSer [0, 0])).2 = .ok () := by
    simp [PwEst.fit, PwEst.fitCore, PwEst.oneDFit, PwEst.new, oneSer]
  have hst : ((PwEst.new .oneD ⟨2, 2, 2, none, true⟩).fit ppf (oneSer [0, 0])).1 =
      ((PwEst.new .oneD ⟨2, 2, 2, none, true⟩).saxFit ppf (oneSer [0, 0])).setSlopes ppf (Real.sqrt (3 / 100 / ((1 : ℕ) : ℝ))) := by
    simp [PwEst.fit, PwEst.fitCore, PwEst.oneDFit, PwEst.new, oneSer]
  have hf : ∀ (e : PwEst) X, e.kind = .oneD → e.par = ⟨2, 2, 2, none, true⟩ → X.data ≠ [] → X.sz = 1 →
      e.fit ppf X = (e.saxFit ppf X, .error .zeroDivision) := by
    intro e X hk hp hX hz
    simp [PwEst.fit, PwEst.fitCore, PwEst.oneDFit, hk, hp, hX, hz]
  have ha := oneD_zeros ppf junk hppf (e := ((PwEst.new .oneD ⟨2, 2, 2, none, true⟩).fit ppf (oneSer [0, 0])).1)
    (n := 1) (sz := 2) (s := Real.sqrt (3 / 100 / ((1 : ℕ) : ℝ))) (mu := 0) (m := fitScaling (oneSer [0, 0]))
    (by rw [hst]; rfl) (by rw [hst]; rfl) (by rw [hst]; rfl) (by rw [hst]; rfl) (by rw [hst]; rfl) (by rw [hst]; rfl)
    (by rw [hst]; rfl) (by rw [hst]; rfl) fitScaling_zeros
  constructor
  · refine ⟨⟨2, 2, 2, none, true⟩, oneSer [0, 0], oneSer [10], [[[1, 1], [1, 1]]], [[[0, 1], [0, 1]]], h1, ?_, ?_, ?_, by decide⟩
    · rw [hf _ _ (by rw [hst]; rfl) (by rw [hst]; rfl) (by simp [oneSer]) rfl]
    · rw [ha]; simp
    · rw [hf _ _ (by rw [hst]; rfl) (by rw [hst]; rfl) (by simp [oneSer]) rfl]
      have hb := oneD_zeros ppf junk hppf (e := (((PwEst.new .oneD ⟨2, 2, 2, none, true⟩).fit ppf (oneSer [0, 0])).1).saxFit ppf (oneSer [10]))
        (n := 1) (sz := 1) (s := Real.sqrt (3 / 100 / ((1 : ℕ) : ℝ))) (mu := 10) (m := fitScaling (oneSer [10]))
        (by rw [hst]; rfl) (by rw [hst]; rfl) (by rw [hst]; rfl) (by rw [hst]; rfl) (by rw [hst]; rfl) (by rw [hst]; rfl)
        (by rw [hst]; rfl) (by rw [hst]; rfl) (fitScaling_one 10)
      rw [hb]; norm_num
  · refine ⟨⟨2, 2, 2, none, true⟩, oneSer [0, 0], ⟨1, 2, [[[some 1, some 1]]]⟩, [[[1, 1], [1, 1]]], h1, ?_, ?_, ?_⟩
    · rw [hf _ _ (by rw [hst]; rfl) (by rw [hst]; rfl) (by simp) rfl]
    · rw [ha]; simp
    · rw [hf _ _ (by rw [hst]; rfl) (by rw [hst]; rfl) (by simp) rfl, hst]
      rfl

/-- **C85** is false of the number of segments of 1d-SAX with `sigma_l=None`: the slope breakpoints stay those of the
number of segments at the fit, while the words already have the new number of segments. -/
theorem C85_false_segments (h1 : ppf (1 / 3) < 0) (h2 : 0 < ppf (2 / 3)) :
    ∃ (p : PwParams) (S : ℕ) (X : Arr3 ℝ) (W W' : List (List (List ℕ))),
      ((PwEst.new .oneD p).run ppf junk [.fit X, .setParams { p with nSeg := S }]).1.ask junk (.transform X) =
        .ok (.words W) ∧
      ((PwEst.new .oneD { p with nSeg := S }).run ppf junk [.fit X]).1.ask junk (.transform X) = .ok (.words W') ∧
      W ≠ W' := by
  let v : ℝ := Real.sqrt (3 / 100 / 4) * ppf (2 / 3)
  let X := oneSer [0, v, 0, v]
  have hbp : ∀ s, breakpoints ppf 3 s = [s * ppf (1 / 3), s * ppf (2 / 3)] := by
    intro s
    have e1 : ((1 : ℕ) : ℝ) / ((3 : ℕ) : ℝ) = 1 / 3 := by norm_num
    have e2 : ((2 : ℕ) : ℝ) / ((3 : ℕ) : ℝ) = 2 / 3 := by norm_num
    simp only [breakpoints, List.range_succ, List.range_zero, List.nil_append, Nat.add_one_sub_one, List.cons_append,
      List.map_cons, List.map_nil, zero_add, Nat.reduceAdd, e1, e2]
  have hsl : getSlopes 2 X = .ok (oneSer [v, v]) := by
    have hc : ∀ t, slopeCell t [some 0, some v] = .ok (some v) := by
      intro t
      have : lsSlope t [0, v] = v := by
        simp only [lsSlope, List.length_cons, List.length_nil, List.range_succ, List.range_zero, List.nil_append,
          List.map_append, List.map_cons, List.map_nil, List.sum_append, List.sum_cons, List.sum_nil, List.cons_append]
        simp
        field_simp
        ring
      simp [slopeCell, this]
    have hc0 := hc 0
    have hc2 := hc 2
    simp [getSlopes, X, oneSer, List.range_succ, Arr3.entry, hc0, hc2]
    rfl
  have hv : 0 < v := mul_pos (Real.sqrt_pos.2 (by norm_num)) h2
  have hwd : ∀ s, 0 < s → paaToSymbols (breakpoints ppf 3 s) (oneSer [v, v]) =
      if v < s * ppf (2 / 3) then [[[1], [1]]] else [[[2], [2]]] := by
    intro s hs
    have hn : ¬ v < s * ppf (1 / 3) := by
      have := mul_neg_of_pos_of_neg hs h1
      linarith
    rw [hbp]
    generalize ppf (1 / 3) = c1 at hn ⊢
    by_cases hh : v < s * ppf (2 / 3) <;>
      simp [paaToSymbols, oneSer, paaToSymbol, symStep, ltOpt, hn, hh]
  have hpa : paaToSymbols ([] : List ℝ) (paaRaw 2 X) = [[[0], [0]]] := by
    simp [paaToSymbols, X, oneSer, paaRaw, Arr3.build, List.range_succ, paaToSymbol]
  have hask : ∀ (e : PwEst) s n sz, 0 < s → e.kind = .oneD → e.par = ⟨2, 1, 3, none, false⟩ → e.dims = some (n, sz, 1) →
      e.bps = some [] → e.med ≠ none → e.bpsl = some (breakpoints ppf 3 s) → e.medl ≠ none →
      e.ask junk (.transform X) = .ok (.words (if v < s * ppf (2 / 3) then [[[0, 1], [0, 1]]] else [[[0, 2], [0, 2]]])) := by
    intro e s n sz hs hk hp hd hb hm hbl hml
    obtain ⟨m1, hm⟩ := Option.ne_none_iff_exists'.1 hm
    obtain ⟨m2, hml⟩ := Option.ne_none_iff_exists'.1 hml
    have hf : e.isFitted = .ok () := by
      simp only [PwEst.isFitted, hk, PwEst.saxFitted, hb, hm, hp, PwEst.paaFitted, hd, PwEst.present, hbl, hml]; rfl
    have hx : e.scaleX X = .ok X := by
      simp only [PwEst.scaleX, hp]; rfl
    have hc : e.saxCore X = .ok [[[0], [0]]] := by
      simp only [PwEst.saxCore, hx, hp, hb]
      rw [← hpa]; rfl
    have ho : e.oneDCore X = .ok (if v < s * ppf (2 / 3) then [[[0, 1], [0, 1]]] else [[[0, 2], [0, 2]]]) := by
      simp only [PwEst.oneDCore, hx]
      show Except.bind (e.saxCore _) _ = _
      rw [hc, hp]
      show Except.bind (getSlopes 2 _) _ = _
      rw [hsl]
      simp only [hbl, Except.bind, hwd s hs]
      split_ifs <;> rfl
    simp only [PwEst.ask, PwEst.transform, hf, hd, PwEst.core, hk, ho]
    rfl
  have hb1 : breakpoints ppf 1 1 = [] := by simp [breakpoints]
  refine ⟨⟨1, 1, 3, none, false⟩, 2, X, [[[0, 2], [0, 2]]], [[[0, 1], [0, 1]]], ?_, ?_, by decide⟩
  · rw [hask _ (Real.sqrt (3 / 100 / 4)) 1 4 (Real.sqrt_pos.2 (by norm_num))]
    · simp [v]
    all_goals simp [PwEst.run, PwEst.step, PwEst.fit, PwEst.fitCore, PwEst.oneDFit, PwEst.new, X, oneSer, PwEst.setSlopes, PwEst.saxFit, PwEst.paaFit, hb1]
  · rw [hask _ (Real.sqrt (3 / 100 / 2)) 1 4 (Real.sqrt_pos.2 (by norm_num))]
    · have : v < Real.sqrt (3 / 100 / 2) * ppf (2 / 3) :=
        mul_lt_mul_of_pos_right (Real.sqrt_lt_sqrt (by norm_num) (by norm_num)) h2
      rw [if_pos this]
    all_goals simp [PwEst.run, PwEst.step, PwEst.fit, PwEst.fitCore, PwEst.oneDFit, PwEst.new, X, oneSer, PwEst.setSlopes, PwEst.saxFit, PwEst.paaFit, hb1]

/-- **C85**, words given to PAA: `inverse_transform` of an array of symbols is that of the same numbers. -/
theorem C85_inverse_words (e : PwEst) (hk : e.kind = .paa) (S d : ℕ) (W : List (List (List ℕ))) (P : Arr3 ℝ)
    (hP : P.WF) (hl : P.data.length = W.length) (hs : P.sz = S) (hd : P.d = d)
    (he : ∀ i < W.length, ∀ s < S, ∀ f < d,
      P.entry i s f = some ((((W.getD i []).getD s []).getD f 0 : ℕ) : ℝ)) :
    e.ask junk (.inverse (.words S d W)) = e.ask junk (.inverse (.nums P)) := by
  have : PwEst.wordsAsNums S d W = P := by
    subst hs hd
    rw [PwEst.wordsAsNums, ← hl]
    exact Arr3.eq_build hP _ (fun i hi s hs f hf => by
      rw [he i (hl ▸ hi) s hs f hf]
      rfl)
  simp only [PwEst.ask, PwEst.inverse, hk, this]

/-- **C85**, statistics left over by an earlier fit: with `mu_` and `std_` of `D` features and data of `X.d`
features, a transform with `scale` standardises every feature with the same statistics when `D = 1`, and raises
`ValueError` when `D` and `X.d` differ and none of them is 1. -/
theorem C85_stale_features (X1 X2 Y : Arr3 ℝ) (p0 p1 : PwParams) (h0 : p0.scale = true) (h1 : p1.scale = false)
    (hn : p0.nSeg ≠ 0) (hX1 : X1.data ≠ []) (hX2 : X2.data ≠ []) (hY : Y.data ≠ []) (hd : Y.d = X2.d)
    (hne : X1.d ≠ X2.d) :
    let e := ((PwEst.new .sax p0).run ppf junk [.fit X1, .setParams p1, .fit X2, .setParams p0]).1
    (X1.d = 1 → e.ask junk (.transform Y) = .ok (.words (paaToSymbols (breakpoints ppf p1.alphaAvg 1)
      (paaRaw p0.nSeg (saxScale (some fun _ => fitScaling X1 0) Y))))) ∧
    (X1.d ≠ 1 → X2.d ≠ 1 → e.ask junk (.transform Y) = .error .valueError) := by
  intro e
  have he : e = ⟨.sax, p0, some (X2.data.length, X2.sz, X2.d), some (breakpoints ppf p1.alphaAvg 1),
      some (binMedians ppf p1.alphaAvg 1), none, none, some (X1.d, fitScaling X1)⟩ := by
    simp [e, PwEst.run, PwEst.step, PwEst.fit, PwEst.fitCore, PwEst.new, PwEst.saxFit, PwEst.paaFit, hX1, hX2, h0, h1]
  have hY' : X1.d ≠ Y.d := fun h => hne (h.trans hd)
  have hf : e.isFitted = .ok () := by
    rw [he]
    simp [PwEst.isFitted, PwEst.saxFitted, PwEst.paaFitted, PwEst.present, h0, bind, Except.bind]
  have hask : e.ask junk (.transform Y) = (e.saxCore Y).map .words := by
    simp only [PwEst.ask, PwEst.transform, hf]
    rw [he]
    simp [bind, Except.bind, hY, hd, PwEst.core]
  rw [hask]
  constructor
  · intro hone
    have hsx : e.scaleX Y = .ok (saxScale (some fun _ => fitScaling X1 0) Y) := by
      rw [he]
      simp only [PwEst.scaleX, h0, if_true, PwEst.broadcast, if_neg hY', if_pos hone, Except.map]
    simp only [PwEst.saxCore, hsx]
    rw [he]
    simp [bind, Except.bind, hn, pure, Except.pure, Except.map]
  · intro hone htwo
    have hsx : e.scaleX Y = .error .valueError := by
      rw [he]
      simp only [PwEst.scaleX, h0, if_true, PwEst.broadcast, hd, if_neg hne, if_neg hone, if_neg htwo, Except.map]
    simp only [PwEst.saxCore, hsx]
    rfl

/-! ### Cases -/

/-- A history with a change of parameters, a failed fit and a question, before a fit that succeeds. -/
example : let p : PwParams := ⟨2, 2, 2, none, true⟩
    let e := ((PwEst.new .oneD p).run ppf junk [.fit (oneSer [1]), .query (.transform (oneSer [1])), .setParams p]).1
    (e.fit ppf (oneSer [0, 0])).2 = .ok () ∧ e.par.scale = true := by
  simp [PwEst.run, PwEst.step, PwEst.fit, PwEst.fitCore, PwEst.oneDFit, PwEst.new, oneSer, PwEst.saxFit, PwEst.paaFit]

/-- A history without a successful fit: 1d-SAX fitted to one sample with two segments. -/
example : NeverFitted ppf junk (PwEst.new .oneD ⟨2, 2, 2, none, false⟩)
    [.fit (oneSer [1]), .query (.transform (oneSer [1]))] := by
  intro pre c post h
  rcases pre with _ | ⟨c0, _ | ⟨c1, pre⟩⟩
  · simp only [List.nil_append, List.cons.injEq] at h
    obtain ⟨rfl, -⟩ := h
    exact ⟨.zeroDivision, by simp [PwEst.run, PwEst.fit, PwEst.fitCore, PwEst.oneDFit, PwEst.new, oneSer]⟩
  · simp only [List.cons_append, List.nil_append, List.cons.injEq] at h
    obtain ⟨-, rfl, -⟩ := h
    trivial
  · simp at h

/-- The fits that raise: no series, and too many segments. -/
example : ((PwEst.new .sax ⟨2, 2, 2, none, false⟩).fit ppf ⟨1, 1, []⟩).2 = .error .valueError ∧
    ((PwEst.new .oneD ⟨2, 2, 2, none, false⟩).fit ppf (oneSer [1])).2 = .error .zeroDivision := by
  constructor <;> simp [PwEst.fit, PwEst.fitCore, PwEst.oneDFit, PwEst.new, oneSer]

/-- The values of a fitted 1d-SAX with `sigma_l` given, for a new number of segments. -/
example : (PwEst.new .oneD ⟨2, 2, 2, some 1, false⟩).par.sigma ≠ none ∧ (2 : ℕ) ≠ 0 := by simp [PwEst.new]

/-- Statistics of one feature, then data of two; symbols as numbers. -/
example : let X1 : Arr3 ℝ := oneSer [1]
    let X2 : Arr3 ℝ := ⟨1, 2, [[[some 1, some 2]]]⟩
    X1.data ≠ [] ∧ X2.data ≠ [] ∧ X1.d ≠ X2.d ∧ X1.d = 1 := by simp [oneSer]

example : let P : Arr3 ℝ := ⟨2, 1, [[[some 3], [some 0]]]⟩
    P.data.length = [[[3], [0]]].length ∧ P.entry 0 0 0 = some (3 : ℝ) := by simp [Arr3.entry]

end Verif
