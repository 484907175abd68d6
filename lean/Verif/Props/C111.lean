import Verif.Spec.Random
import Verif.Props.C110
import Verif.Props.C74
import Verif.Props.C37
import Mathlib.Logic.Function.Basic
import Mathlib.Tactic.Linarith
/-!
C111: `random_state` does what it says.
-/
set_option linter.unusedSectionVars false
namespace Verif
open Spec

section
variable {K α : Type} {R : Rng K}

theorem withRs_tame (prog : R.G → α × R.G) : Tame (withRs (R := R) prog) := by
  refine ⟨fun s w w' => ⟨rfl, rfl⟩, fun i w w' h => ?_, fun w w' h => ?_, fun s i w w' h h' => ?_⟩
  · simp only [withRs, h, Function.update_self]
    refine ⟨trivial, trivial, fun j hj => ?_, trivial, trivial⟩
    rw [Function.update_of_ne hj]
  · simp only [withRs, h, and_self]
  · simp only [withRs, h, h', and_self]

theorem Spec.Tame.map {β : Type} {f : RandomArg → World R → α × World R} (h : Tame f) (φ : α → β) :
    Tame fun r w => (φ (f r w).1, (f r w).2) := by
  refine ⟨fun s w w' => ⟨?_, (h.seeded s w w').2⟩, fun i w w' hi => ?_, fun w w' hg => ?_, fun s i w w' hi hg => ?_⟩
  · exact congrArg φ (h.seeded s w w').1
  · obtain ⟨h1, h2⟩ := h.own i w w' hi
    exact ⟨congrArg φ h1, h2⟩
  · obtain ⟨h1, h2⟩ := h.glob w w' hg
    exact ⟨congrArg φ h1, h2⟩
  · obtain ⟨h1, h2⟩ := h.same s i w w' hi hg
    exact ⟨congrArg φ h1, congrArg φ h2⟩

theorem ignores_const (a : α) : Ignores (fun (_ : RandomArg) (w : World R) => (a, w)) := fun _ _ _ _ => ⟨rfl, rfl⟩

theorem Spec.Ignores.tame {f : RandomArg → World R → α × World R} (h : Ignores f) : Tame f := by
  refine ⟨fun s w w' => ⟨(h _ _ w w').1, (h _ (.int s) w w').2⟩, fun i w w' hi => ?_, fun w w' hg => ?_,
    fun s i w w' hi hg => ⟨(h _ _ w w).1, (h _ _ w' w).1⟩⟩
  · rw [(h (.inst i) .none w w').2, (h (.inst i) .none w' w').2]
    exact ⟨(h _ _ w w').1, hi, fun _ _ => rfl, rfl, rfl⟩
  · rw [(h .none .none w w').2, (h .none .none w' w').2]
    exact ⟨(h _ _ w w').1, hg, rfl, rfl⟩

theorem withRs_ignores {prog : R.G → α × R.G} {a : α} (h : ∀ g, prog g = (a, g)) : Ignores (withRs (R := R) prog) := by
  intro r r' w w'
  have h1 : ∀ r w, withRs (R := R) prog r w = (a, w) := by
    intro r w
    cases r <;> simp [withRs, h, Function.update_eq_self]
  rw [h1, h1]
  exact ⟨rfl, rfl⟩

theorem rngAfter_const {G : Type} {step : G → α × G} {a : α} (h : ∀ g, step g = (a, g)) (n : ℕ) (g : G) : rngAfter step n g = g := by
  induction n generalizing g with
  | zero => rfl
  | succ n ih => rw [rngAfter, ih, h]

theorem rngDraw_const {G : Type} {step : G → α × G} {a : α} (h : ∀ g, step g = (a, g)) (g : G) : rngDraw step g = fun _ => a := by
  funext n
  rw [rngDraw, h]

theorem rngAfter_add {G : Type} (step : G → α × G) (n m : ℕ) (g : G) : rngAfter step (n + m) g = rngAfter step m (rngAfter step n g) := by
  induction n generalizing g with
  | zero => simp [rngAfter]
  | succ n ih => rw [Nat.succ_add, rngAfter, ih, rngAfter]

theorem rngDraw_after {G : Type} (step : G → α × G) (n m : ℕ) (g : G) : rngDraw step (rngAfter step n g) m = rngDraw step g (n + m) := by
  rw [rngDraw, rngDraw, rngAfter_add]

/-- A first call and, for some of its results, a second one with the same argument: only the agreement of the three ways is lost. -/
theorem seq_generators {β : Type} {f : RandomArg → World R → α × World R} {k : α → RandomArg → World R → β × World R}
    (hf : Tame f) (hk : ∀ a, Tame (k a)) :
    Seeded (fun r w => k (f r w).1 r (f r w).2) ∧ OwnGenerator (fun r w => k (f r w).1 r (f r w).2) ∧
      GlobalGenerator (fun r w => k (f r w).1 r (f r w).2) := by
  refine ⟨fun s w w' => ?_, fun i w w' hi => ?_, fun w w' hg => ?_⟩
  · obtain ⟨h1, h2⟩ := hf.seeded s w w'
    obtain ⟨-, h2'⟩ := hf.seeded s w' w'
    simp only [h2, h2', h1]
    exact (hk _).seeded s w w'
  · obtain ⟨h1, h2, h3, h4, h5⟩ := hf.own i w w' hi
    simp only [h1]
    obtain ⟨k1, k2, k3, k4, k5⟩ := (hk (f (.inst i) w').1).own i _ _ h2
    exact ⟨k1, k2, fun j hj => (k3 j hj).trans (h3 j hj), k4.trans h4, k5.trans h5⟩
  · obtain ⟨h1, h2, h3, h4⟩ := hf.glob w w' hg
    simp only [h1]
    obtain ⟨k1, k2, k3, k4⟩ := (hk (f .none w').1).glob _ _ h2
    exact ⟨k1, k2, k3.trans h3, k4.trans h4⟩

end

section
variable {K : Type} [Field K] [LinearOrder K]

/-- Generators of data, bandwidths, barycenters, clusterings and silhouettes: with an integer the result depends on nothing else and no
generator is touched; with a `RandomState` object or with `None` it depends on that generator, which alone changes; and the three ways agree
for equal states. -/
theorem C111_calls (R : Rng K) :
    (∀ (n sz d : ℕ) (mu std : K), Tame (walksR R n sz d mu std)) ∧
    (∀ (nPer sz d nBlobs : ℕ) (noise : K), Tame (blobsR R nPer sz d nBlobs noise)) ∧
    (∀ (cfg : DbaCfg K) (xs ws step final maxIter b), Tame (subgradDbaR R cfg xs ws step final maxIter b)) ∧
    (∀ {P C : Type} (e : KmEnv P C K) (asC : P → C) (init s), Tame (kmFitR R e asC init s)) ∧
    (∀ (o : KkObj K) (D nValid sig), Tame (kkFitR R o D nValid sig)) :=
  ⟨fun _ _ _ _ _ => withRs_tame _, fun _ _ _ _ _ => withRs_tame _, fun _ _ _ _ _ _ _ => withRs_tame _,
    fun _ _ _ _ => withRs_tame _, fun _ _ _ _ => withRs_tame _⟩

/-- The same for the functions on real numbers. -/
theorem C111_calls_real (R : Rng ℝ) :
    (∀ (be : MedianOf) (x : DsInput ℝ) (n : ℕ), Tame (sigmaGakR R be x n)) ∧
    (∀ (be : MedianOf) (x : DsInput ℝ) (n : ℕ), Tame (gammaSoftDtwR R be x n)) ∧
    (∀ (e : KsEnv) (init iter0), Tame (ksFitR R e init iter0)) ∧
    (∀ {L : Type} [LinearOrder L] (n : ℕ) (lab : ℕ → L) (D : ℕ → ℕ → ℝ) (sample : Option ℕ), Tame (silScoreR R n lab D sample)) := by
  refine ⟨fun _ _ _ => withRs_tame _, fun be x n => ?_, fun _ _ _ => withRs_tame _, fun n lab D sample => ?_⟩
  · exact (withRs_tame (R := R) _).map fun p : Except PyErr ℝ => p.map fun s => 2 * s ^ 2
  · cases sample with
    | none => exact (ignores_const _).tame
    | some m =>
      have h : silScoreR R n lab D (some m) = withRs fun g =>
          (silScore ((R.perm n g).1.take m).length (fun i => lab (((R.perm n g).1.take m).getD i 0))
            fun i j => D (((R.perm n g).1.take m).getD i 0) (((R.perm n g).1.take m).getD j 0), (R.perm n g).2) := rfl
      rw [h]
      exact withRs_tame _

/-- The early classifier gives `random_state` to its clustering and then to the split of the data: still, with an integer the result depends on
nothing else and no generator is touched, otherwise only the generator given is used. -/
theorem C111_early (R : Rng K) {P C β : Type} (e : KmEnv P C K) (asC : P → C) (draw : R.G → List C × R.G)
    (split : List ℕ → R.G → Except PyErr β × R.G) (s : KmState C K) :
    Seeded (earlyFitR R e asC draw split s) ∧ OwnGenerator (earlyFitR R e asC draw split s) ∧
      GlobalGenerator (earlyFitR R e asC draw split s) := by
  let k (a : KmState C K × Option PyErr) (r : RandomArg) (w : World R) : (KmState C K × Except PyErr β) × World R :=
    match a.2 with
    | some err => ((a.1, Except.error err), w)
    | none => ((a.1, (withRs (split (a.1.labels.getD [])) r w).1), (withRs (split (a.1.labels.getD [])) r w).2)
  have key : earlyFitR R e asC draw split s =
      fun r w => k (kmFitR R e asC (.kpp draw) s r w).1 r (kmFitR R e asC (.kpp draw) s r w).2 := by
    funext r w
    unfold earlyFitR
    rcases kmFitR R e asC (.kpp draw) s r w with ⟨⟨s', _ | err⟩, w'⟩ <;> rfl
  rw [key]
  refine seq_generators (f := kmFitR R e asC (.kpp draw) s) (k := k) (withRs_tame _) fun a => ?_
  rcases a with ⟨s', _ | err⟩
  · exact (withRs_tame (R := R) (split (s'.labels.getD []))).map fun p => (s', p)
  · exact (ignores_const _).tame

/-- With an array of initial centroids k-means does not look at `random_state`. -/
theorem C111_array_kmeans (R : Rng K) {P C : Type} (e : KmEnv P C K) (asC : P → C) (cs : List C) (s : KmState C K) :
    Ignores (kmFitR R e asC (.array cs) s) := by
  refine withRs_ignores (a := (kmFit e (fun _ => cs) s).2) fun g => ?_
  have h : ∀ g, initDraw R (e.data.map asC) e.nClusters (.array cs) g = (cs, g) := fun g => rfl
  simp only [rngDraw_const h, rngAfter_const h]

/-- The same for KShape. -/
theorem C111_array_kshape (R : Rng ℝ) (e : KsEnv) (cs : List KsSer) (iter0 : ℕ) : Ignores (ksFitR R e (.array cs) iter0) := by
  refine withRs_ignores (a := ksFit { e with initArray := true } (fun _ => cs) iter0) fun g => ?_
  have h : ∀ g, initDraw R e.data e.nClusters (.array cs) g = (cs, g) := fun g => rfl
  simp only [rngDraw_const h, rngAfter_const h]

theorem subgradLoopR_eq (R : Rng K) (cfg : DbaCfg K) (xs : List (List (List K))) (ws : List K) (delta : K) (perms : ℕ → List ℕ) (n it : ℕ)
    (s prev) (g : R.G) (hp : ∀ k, perms (it + k) = rngDraw (R.perm xs.length) g k) :
    (subgradLoopR R cfg xs ws delta n it s prev g).1 = subgradLoop cfg xs ws delta perms n it s prev := by
  induction n generalizing it s prev g with
  | zero => rfl
  | succ n ih =>
    rw [subgradLoopR, subgradLoop]
    have h0 : perms it = (R.perm xs.length g).1 := hp 0
    rw [h0]
    cases h : subgradEpoch cfg xs ws (if it = 0 then delta else 0) (R.perm xs.length g).1 s with
    | error e => rfl
    | ok r =>
      obtain ⟨eta, b, cost⟩ := r
      simp only [bind, Except.bind]
      split_ifs with h1 h2
      · rfl
      · rfl
      · refine ih _ _ _ _ fun k => ?_
        rw [Nat.add_assoc, Nat.add_comm 1, hp]
        rfl

/-- The subgradient barycenter of a seed is the one for the shuffles that the seed gives, in order (so that C59 speaks of it). -/
theorem C111_shuffles (R : Rng K) (cfg : DbaCfg K) (xs : List (List (List K))) (ws : List K) (step final : K) (maxIter : ℕ) (b : List (List K))
    (s : ℕ) (w : World R) :
    (subgradDbaR R cfg xs ws step final maxIter b (.int s) w).1 =
      subgradDba cfg xs ws step final (rngDraw (R.perm xs.length) (R.seed s)) maxIter b :=
  subgradLoopR_eq R cfg xs ws _ _ maxIter 0 _ _ _ fun k => by rw [Nat.zero_add]

/-- Asking for more walks with the same `random_state` gives the same first walks. -/
theorem C111_walks_prefix (R : Rng K) (n m sz d : ℕ) (mu std : K) (r : RandomArg) (w : World R) :
    (walksR R n sz d mu std r w).1 = (walksR R (n + m) sz d mu std r w).1 := by
  cases r <;> rfl

/-- Blobs without noise are copies of the walks that the same `random_state` gives. -/
theorem C111_blobs_noiseless (R : Rng K) (nPer sz d nBlobs : ℕ) (r : RandomArg) (w : World R) :
    (∀ X l, (blobsR R nPer sz d nBlobs 0 r w).1 = .ok (X, l) → ∃ Y, (walksR R nBlobs sz d 0 1 r w).1 = .ok Y ∧ ∀ i t f, X i t f = Y (i / nPer) t f) ∧
    ∀ Y, (walksR R nBlobs sz d 0 1 r w).1 = .ok Y → ∃ X l, (blobsR R nPer sz d nBlobs 0 r w).1 = .ok (X, l) := by
  by_cases h0 : sz = 0
  · cases r <;> simp [blobsR, walksR, withRs, randomWalkBlobs, randomWalks, h0]
  · cases r <;>
    · simp only [blobsR, walksR, withRs, randomWalkBlobs, randomWalks, h0, if_false, Except.ok.injEq, Prod.mk.injEq]
      refine ⟨?_, fun _ _ => ⟨_, _, rfl, rfl⟩⟩
      rintro X l ⟨rfl, -⟩
      exact ⟨_, rfl, fun i t f => by simp⟩

/-- Two calls in a row on one `RandomState` object give the walks of one call, first ones first. -/
theorem C111_walks_continue (R : Rng K) (n m sz d : ℕ) (mu std : K) (i : ℕ) (w : World R) (X Y Z : ℕ → ℕ → ℕ → K)
    (hX : (walksR R n sz d mu std (.inst i) w).1 = .ok X)
    (hY : (walksR R m sz d mu std (.inst i) (walksR R n sz d mu std (.inst i) w).2).1 = .ok Y)
    (hZ : (walksR R (n + m) sz d mu std (.inst i) w).1 = .ok Z) :
    (∀ a t f, X a t f = Z a t f) ∧ (∀ a t f, Y a t f = Z (n + a) t f) ∧
    (walksR R m sz d mu std (.inst i) (walksR R n sz d mu std (.inst i) w).2).2 = (walksR R (n + m) sz d mu std (.inst i) w).2 := by
  simp only [walksR, withRs, randomWalks, Function.update_self] at hX hY hZ ⊢
  split_ifs at hX hY hZ with h0
  cases hX; cases hY; cases hZ
  refine ⟨fun _ _ _ => rfl, fun a t f => ?_, ?_⟩
  · induction t with
    | zero =>
      simp only [walkLoop, randn]
      rw [rngDraw_after]
      congr 3; ring
    | succ t ih =>
      rw [walkLoop, ih, walkLoop]
      simp only [randn]
      rw [rngDraw_after]
      congr 4; ring
  · congr 1
    funext j
    by_cases hj : j = i
    · subst hj
      simp only [Function.update_self]
      rw [← rngAfter_add]
      congr 1; ring
    · simp only [Function.update_of_ne hj]

end

section
variable {K : Type} [Field K] [LinearOrder K] (R : Rng K)

theorem kmFitR_none_world {P C : Type} (e : KmEnv P C K) (asC : P → C) (init) (s : KmState C K) (w w' : World R) (h : w.glob = w'.glob) :
    (kmFitR R e asC init s .none w).1 = (kmFitR R e asC init s .none w').1 ∧
    (kmFitR R e asC init s .none w).2.glob = (kmFitR R e asC init s .none w').2.glob ∧
    (kmFitR R e asC init s .none w).2.inst = w.inst ∧ (kmFitR R e asC init s .none w).2.keras = w.keras :=
  (withRs_tame (R := R) _).glob w w' h

theorem initShapeletsR_world {P M : Type} (S : ShpWork K R.G R.KG P M) (len nb : ℕ) (w w' : World R) (h : w.glob = w'.glob) :
    (initShapeletsR R S len nb w).1 = (initShapeletsR R S len nb w').1 ∧
    (initShapeletsR R S len nb w).2.glob = (initShapeletsR R S len nb w').2.glob ∧
    (initShapeletsR R S len nb w).2.inst = w.inst ∧ (initShapeletsR R S len nb w).2.keras = w.keras := by
  unfold initShapeletsR
  simp only [h]
  set p := drawPieces R S.nTs S.nDraw len S.size w'.glob
  set pieces := p.1.map fun it => S.sub len it.1 it.2
  obtain ⟨h1, h2, h3, h4⟩ := kmFitR_none_world R (S.env nb pieces) id (.kpp (S.draw nb pieces)) S.fresh { w with glob := p.2 } { w' with glob := p.2 } rfl
  rcases ha : kmFitR R (S.env nb pieces) id (.kpp (S.draw nb pieces)) S.fresh .none { w with glob := p.2 } with ⟨⟨s, o⟩, v⟩
  rcases hb : kmFitR R (S.env nb pieces) id (.kpp (S.draw nb pieces)) S.fresh .none { w' with glob := p.2 } with ⟨⟨s', o'⟩, v'⟩
  rw [ha, hb] at h1 h2
  rw [ha] at h3 h4
  cases h1
  rcases o with _ | err <;> exact ⟨rfl, h2, h3, h4⟩

theorem shapeletLayersR_world {P M : Type} (S : ShpWork K R.G R.KG P M) (sizes : List (ℕ × ℕ)) (w w' : World R) (h : w.glob = w'.glob) :
    (shapeletLayersR R S sizes w).1 = (shapeletLayersR R S sizes w').1 ∧
    (shapeletLayersR R S sizes w).2.glob = (shapeletLayersR R S sizes w').2.glob ∧
    (shapeletLayersR R S sizes w).2.inst = w.inst ∧ (shapeletLayersR R S sizes w).2.keras = w.keras := by
  induction sizes generalizing w w' with
  | nil => exact ⟨rfl, h, rfl, rfl⟩
  | cons p sizes ih =>
    obtain ⟨len, nb⟩ := p
    obtain ⟨h1, h2, h3, h4⟩ := initShapeletsR_world R S len nb w w' h
    unfold shapeletLayersR
    rcases ha : initShapeletsR R S len nb w with ⟨a, v⟩
    rcases hb : initShapeletsR R S len nb w' with ⟨a', v'⟩
    rw [ha, hb] at h1 h2
    rw [ha] at h3 h4
    cases h1
    rcases a with e | c
    · exact ⟨rfl, h2, h3, h4⟩
    · obtain ⟨k1, k2, k3, k4⟩ := ih v v' h2
      simp only
      rcases hc : shapeletLayersR R S sizes v with ⟨b, u⟩
      rcases hd : shapeletLayersR R S sizes v' with ⟨b', u'⟩
      rw [hc, hd] at k1 k2
      rw [hc] at k3 k4
      cases k1
      rcases b with e | cs
      · exact ⟨rfl, k2, k3.trans h3, k4.trans h4⟩
      · exact ⟨rfl, k2, k3.trans h3, k4.trans h4⟩

theorem shapeletTrainR_world {P M : Type} (S : ShpWork K R.G R.KG P M) (sizes : List (ℕ × ℕ)) (w w' : World R) (h : w.glob = w'.glob)
    (hk : w.keras = w'.keras) :
    (shapeletTrainR R S sizes w).1 = (shapeletTrainR R S sizes w').1 ∧
    (shapeletTrainR R S sizes w).2.glob = (shapeletTrainR R S sizes w').2.glob ∧
    (shapeletTrainR R S sizes w).2.keras = (shapeletTrainR R S sizes w').2.keras ∧
    (shapeletTrainR R S sizes w).2.inst = w.inst := by
  obtain ⟨h1, h2, h3, h4⟩ := shapeletLayersR_world R S sizes w w' h
  obtain ⟨-, -, -, h5⟩ := shapeletLayersR_world R S sizes w' w' rfl
  unfold shapeletTrainR
  rcases ha : shapeletLayersR R S sizes w with ⟨a, v⟩
  rcases hb : shapeletLayersR R S sizes w' with ⟨a', v'⟩
  rw [ha, hb] at h1 h2
  rw [ha] at h3 h4
  rw [hb] at h5
  cases h1
  have hkk : v.keras = v'.keras := h4.trans (hk.trans h5.symm)
  rcases a with e | cs
  · exact ⟨rfl, h2, hkk, h3⟩
  · simp only [hkk]
    exact ⟨trivial, h2, trivial, h3⟩

/-- `LearningShapelets.fit` with an integer: the result depends on nothing else, and the user's `RandomState` objects are not touched; without,
it depends on the two global generators. A `RandomState` object is refused. -/
theorem C111_shapelets_partial {P M : Type} (S : ShpWork K R.G R.KG P M) (sizes : List (ℕ × ℕ)) (s i : ℕ) (w w' : World R) :
    (shapeletFitR R S sizes (.int s) w).1 = (shapeletFitR R S sizes (.int s) w').1 ∧
    (shapeletFitR R S sizes (.int s) w).2.inst = w.inst ∧
    (w.glob = w'.glob → w.keras = w'.keras →
      (shapeletFitR R S sizes .none w).1 = (shapeletFitR R S sizes .none w').1 ∧ (shapeletFitR R S sizes .none w).2.inst = w.inst) ∧
    shapeletFitR R S sizes (.inst i) w = (.error .valueError, w) := by
  refine ⟨(shapeletTrainR_world R S sizes { w with glob := R.seed s, keras := R.kseed s } { w' with glob := R.seed s, keras := R.kseed s } rfl rfl).1,
    (shapeletTrainR_world R S sizes { w with glob := R.seed s, keras := R.kseed s } { w with glob := R.seed s, keras := R.kseed s } rfl rfl).2.2.2, fun h hk => ?_, rfl⟩
  obtain ⟨h1, -, -, h4⟩ := shapeletTrainR_world R S sizes w w' h hk
  exact ⟨h1, h4⟩

/-- False for `LearningShapelets`: an integer does not leave the other generators alone. Whatever state NumPy's global generator was in before
the call, afterwards it is always in the same one, and every later draw of the program with it. -/
theorem C111_false_shapelets {P M : Type} (S : ShpWork K R.G R.KG P M) (sizes : List (ℕ × ℕ)) (s : ℕ) :
    (∀ w w' : World R, (shapeletFitR R S sizes (.int s) w).2.glob = (shapeletFitR R S sizes (.int s) w').2.glob ∧
      (shapeletFitR R S sizes (.int s) w).2.keras = (shapeletFitR R S sizes (.int s) w').2.keras) ∧
    ∀ (w : World R) (g : R.G), g ≠ w.glob → ¬ Seeded (shapeletFitR R S sizes) := by
  have h (w w' : World R) := shapeletTrainR_world R S sizes { w with glob := R.seed s, keras := R.kseed s }
    { w' with glob := R.seed s, keras := R.kseed s } rfl rfl
  refine ⟨fun w w' => ⟨(h w w').2.1, (h w w').2.2.1⟩, fun w g hg hs => hg ?_⟩
  have h1 := (hs s w w).2
  have h2 := (hs s { w with glob := g } w).2
  have h3 : (shapeletFitR R S sizes (.int s) { w with glob := g }).2.glob = (shapeletFitR R S sizes (.int s) w).2.glob := (h _ _).2.1
  rw [h1, h2] at h3
  exact h3

end
section
variable {K : Type} [Field K] [LinearOrder K]

theorem kmFitLoop_minInertia {P C : Type} (e : KmEnv P C K) (inits : ℕ → List C) (fuel : ℕ) (b : KmBest C K) (s : KmState C K) :
    (kmFitLoop e inits fuel b s).1.minInertia ≤ b.minInertia := by
  induction fuel generalizing b s with
  | zero => exact le_refl _
  | succ fuel ih =>
    unfold kmFitLoop
    split_ifs with h
    · simp only
      rcases kmFitOne e (inits b.nAttempts) s with ⟨s', _ | err⟩
      · simp only
        split_ifs with hi
        · exact (ih _ _).trans hi.le
        · exact ih _ _
      · cases err <;> first | exact ih _ _ | exact le_refl _
    · exact le_refl _

theorem kmFitLoop_more {P C : Type} (e : KmEnv P C K) (inits : ℕ → List C) (n' : ℕ) (hn : e.nInit ≤ n') (fuel fuel' : ℕ) (hf : fuel ≤ fuel')
    (b : KmBest C K) (s : KmState C K) :
    (kmFitLoop { e with nInit := n' } inits fuel' b s).1.minInertia ≤ (kmFitLoop e inits fuel b s).1.minInertia := by
  induction fuel generalizing fuel' b s with
  | zero => exact kmFitLoop_minInertia _ _ _ _ _
  | succ fuel ih =>
    obtain ⟨fuel', rfl⟩ : ∃ k, fuel' = k + 1 := ⟨fuel' - 1, by omega⟩
    have hf' : fuel ≤ fuel' := by omega
    by_cases h : b.nSuccessful < e.nInit
    · have h' : b.nSuccessful < n' := h.trans_le hn
      unfold kmFitLoop
      simp only [if_pos h, if_pos h']
      have hone : kmFitOne { e with nInit := n' } (inits b.nAttempts) s = kmFitOne e (inits b.nAttempts) s := by
        have hl : ∀ k it old (s : KmState C K), kmLoop { e with nInit := n' } k it old s = kmLoop e k it old s := by
          intro k
          induction k with
          | zero => intros; rfl
          | succ k ih => intro it old s; unfold kmLoop; simp only [ih]; rfl
        unfold kmFitOne; simp only [hl]
      rw [hone]
      rcases kmFitOne e (inits b.nAttempts) s with ⟨s', _ | err⟩
      · simp only
        split_ifs with hi
        · exact ih _ hf' _ _
        · exact ih _ hf' _ _
      · cases err <;> first | exact ih _ hf' _ _ | exact le_refl _
    · have : kmFitLoop e inits (fuel + 1) b s = (b, s, none) := by rw [kmFitLoop, if_neg h]
      rw [this]
      exact kmFitLoop_minInertia _ _ _ _ _

theorem kmFit_inertia {P C : Type} (e : KmEnv P C K) (inits : ℕ → List C) (s : KmState C K)
    (hx : (kmFit e inits s).2.1.xfit = true) (he : (kmFit e inits s).2.2 = none) :
    (kmFit e inits s).2.1.inertia = (kmFitLoop e inits (max e.nInit 10) ⟨none, ⊤, 0, 0⟩
      { s with labels := none, inertia := ⊤, centers := none, xfit := false, nIter := 0 }).1.minInertia := by
  revert hx he
  unfold kmFit
  simp only
  rcases kmFitLoop e inits (max e.nInit 10) ⟨none, ⊤, 0, 0⟩
      { s with labels := none, inertia := ⊤, centers := none, xfit := false, nIter := 0 } with ⟨b, s', _ | err⟩
  · intro hx he
    simp only [kmPostFit] at hx he ⊢
    rcases hb : b.best with _ | cs
    · rw [hb] at hx; cases hx
    · rw [hb] at hx he
      simp only at hx he ⊢
      split_ifs at hx he ⊢ with h1
      rcases hq : kmAssign e { s' with centers := some cs } with ⟨q, _ | err⟩
      · rfl
      · rw [hq] at he; cases he
  · intro hx he; cases he

/-- More attempts with the same `random_state` never give a larger inertia: the first attempts are the same ones. -/
theorem C111_more_attempts (R : Rng K) {P C : Type} (e : KmEnv P C K) (asC : P → C) (init : InitArg R.G C) (s : KmState C K)
    (r : RandomArg) (w : World R) (n' : ℕ) (hn : e.nInit ≤ n')
    (h : (kmFitR R e asC init s r w).1.1.xfit = true ∧ (kmFitR R e asC init s r w).1.2 = none)
    (h' : (kmFitR R { e with nInit := n' } asC init s r w).1.1.xfit = true ∧ (kmFitR R { e with nInit := n' } asC init s r w).1.2 = none) :
    (kmFitR R { e with nInit := n' } asC init s r w).1.1.inertia ≤ (kmFitR R e asC init s r w).1.1.inertia := by
  have key : ∀ e : KmEnv P C K, (kmFitR R e asC init s r w).1.2 = none → ∀ inits : ℕ → List C, inits = rngDraw (initDraw R (e.data.map asC) e.nClusters init) (match r with
      | .none => w.glob
      | .int s => R.seed s
      | .inst i => w.inst i) → (kmFitR R e asC init s r w).1 = (kmFit e inits s).2 := by
    intro e he inits hi
    subst hi
    unfold kmFitR at he ⊢
    cases r <;> simp only [withRs] at he ⊢ <;> cases init <;> simp only at he ⊢ <;> split_ifs at he ⊢ <;> rfl
  have k1 := key e h.2 _ rfl
  have k2 := key { e with nInit := n' } h'.2 _ rfl
  rw [k1] at h ⊢
  rw [k2] at h' ⊢
  rw [kmFit_inertia _ _ _ h.1 h.2, kmFit_inertia _ _ _ h'.1 h'.2]
  exact kmFitLoop_more e _ n' hn _ _ (by simp only; omega) _ _

end

section
variable {K : Type} [Field K] [LinearOrder K] [IsStrictOrderedRing K]

theorem kkFitLoop_minInertia (D : KkData K) (M : ℕ → ℕ → K) (fuel : ℕ) (b : KkBest K) (o : KkObj K) :
    (kkFitLoop D M fuel b o).1.minInertia ≤ b.minInertia := by
  induction fuel generalizing b o with
  | zero => exact le_refl _
  | succ fuel ih =>
    unfold kkFitLoop
    split_ifs with h
    · simp only
      rcases kkFitOne D M (D.inits b.nAttempts) o with ⟨s', _ | err⟩
      · simp only
        split_ifs with hi
        · exact (ih _ _).trans hi.le
        · exact ih _ _
      · cases err <;> first | exact ih _ _ | exact le_refl _
    · exact le_refl _

theorem kkLoop_other (D D' : KkData K) (hD : D' = { D with autoSigma := D'.autoSigma, inits := D'.inits }) (M : ℕ → ℕ → K) (n' : ℕ) :
    ∀ (r it : ℕ) (old : WithTop K) (o : KkObj K),
      kkLoop D' M r it old { o with nInit := n' } = ({ (kkLoop D M r it old o).1 with nInit := n' }, (kkLoop D M r it old o).2) := by
  intro r
  induction r with
  | zero => intros; rfl
  | succ r ih =>
    intro it old o
    rw [hD] at ih ⊢
    unfold kkLoop
    simp only
    cases kkDist o.nClusters D.n D.sw M (o.labels.getD []) with
    | error err => rfl
    | ok ds =>
      simp only
      by_cases he : hasEmpty (ds.map argminL) o.nClusters = true
      · simp only [if_pos he]
      · simp only [if_neg he]
        by_cases hc : kmClose o.tol old ((kkInertia ds : K) : WithTop K) = true
        · simp only [if_pos hc]
        · simp only [if_neg hc]
          exact ih (it + 1) _ { o with labels := some (ds.map argminL), inertia := ((kkInertia ds : K) : WithTop K) }

theorem kkFitOne_other (D D' : KkData K) (hD : D' = { D with autoSigma := D'.autoSigma, inits := D'.inits }) (M : ℕ → ℕ → K) (n' : ℕ)
    (init : List ℕ) (o : KkObj K) :
    kkFitOne D' M init { o with nInit := n' } = ({ (kkFitOne D M init o).1 with nInit := n' }, (kkFitOne D M init o).2) := by
  unfold kkFitOne
  simp only
  by_cases h : o.maxIter = 0
  · simp only [if_pos h]
  · simp only [if_neg h]
    exact kkLoop_other D D' hD M n' _ _ _ { o with labels := some init }

theorem kkFitLoop_more (D : KkData K) (M : ℕ → ℕ → K) (n' fuel fuel' : ℕ) (hf : fuel ≤ fuel') (b : KkBest K) (o : KkObj K)
    (hn : o.nInit ≤ n') :
    (kkFitLoop D M fuel' b { o with nInit := n' }).1.minInertia ≤ (kkFitLoop D M fuel b o).1.minInertia := by
  induction fuel generalizing fuel' b o with
  | zero => exact kkFitLoop_minInertia _ _ _ _ _
  | succ fuel ih =>
    obtain ⟨fuel', rfl⟩ : ∃ k, fuel' = k + 1 := ⟨fuel' - 1, by omega⟩
    have hf' : fuel ≤ fuel' := by omega
    by_cases h : b.nSuccessful < o.nInit
    · have h' : b.nSuccessful < n' := h.trans_le hn
      unfold kkFitLoop
      simp only [if_pos h, if_pos h', kkFitOne_other D D rfl M n']
      have hk := (kkFitOne_nInit D M (D.inits b.nAttempts) o).1
      generalize kkFitOne D M (D.inits b.nAttempts) o = r at *
      rcases r with ⟨s', _ | err⟩
      · simp only at hk ⊢
        split_ifs with hi
        · exact ih _ hf' _ { s' with nIter := s'.iter } (by simp only [hk]; exact hn)
        · exact ih _ hf' _ _ (by rw [hk]; exact hn)
      · cases err <;> first | exact ih _ hf' _ _ (by rw [hk]; exact hn) | exact le_refl _
    · rw [kkFitLoop_done _ _ _ _ _ h]
      exact kkFitLoop_minInertia _ _ _ _ _

theorem kkLoop_xfit (D : KkData K) (M : ℕ → ℕ → K) : ∀ (r it : ℕ) (old : WithTop K) (o : KkObj K),
    (kkLoop D M r it old o).1.xfit = o.xfit := by
  intro r
  induction r with
  | zero => intros; rfl
  | succ r ih =>
    intro it old o
    unfold kkLoop
    simp only
    cases kkDist o.nClusters D.n D.sw M (o.labels.getD []) with
    | error err => rfl
    | ok ds =>
      simp only
      split_ifs
      · rfl
      · rfl
      · rw [ih]

theorem kkFitLoop_xfit (D : KkData K) (M : ℕ → ℕ → K) (fuel : ℕ) (b : KkBest K) (o : KkObj K) :
    (kkFitLoop D M fuel b o).2.1.xfit = o.xfit := by
  have hone : ∀ init (o : KkObj K), (kkFitOne D M init o).1.xfit = o.xfit := by
    intro init o
    unfold kkFitOne
    simp only
    split_ifs
    · rfl
    · exact kkLoop_xfit _ _ _ _ _ _
  induction fuel generalizing b o with
  | zero => rfl
  | succ fuel ih =>
    unfold kkFitLoop
    split_ifs with h
    · simp only
      have h1 := hone (D.inits b.nAttempts) o
      generalize kkFitOne D M (D.inits b.nAttempts) o = r at *
      rcases r with ⟨s', _ | err⟩
      · simp only at h1 ⊢
        split_ifs with hi
        · rw [ih]; exact h1
        · rw [ih]; exact h1
      · cases err <;> first | exact (ih _ _).trans h1 | exact h1
    · rfl

theorem kkFit_more (o : KkObj K) (D : KkData K) (n' : ℕ) (hn : o.nInit ≤ n') (h : (kkFit o D).1.xfit = true ∧ (kkFit o D).2 = none)
    (h' : (kkFit { o with nInit := n' } D).1.xfit = true ∧ (kkFit { o with nInit := n' } D).2 = none) :
    (kkFit { o with nInit := n' } D).1.inertia ≤ (kkFit o D).1.inertia := by
  rw [kkFit_ready] at h h' ⊢
  rw [kkFit_ready]
  have hr : kkReady { o with nInit := n' } D.autoSigma = ((kkReady o D.autoSigma).1, { (kkReady o D.autoSigma).2 with nInit := n' }) := rfl
  have hi : (kkReady o D.autoSigma).2.nInit = o.nInit := rfl
  have hx : (kkReady o D.autoSigma).2.xfit = false := rfl
  rw [hr] at h' ⊢
  rw [← hi] at hn
  clear hr hi
  generalize kkReady o D.autoSigma = r at *
  obtain ⟨kp, q⟩ := r
  simp only at hn hx
  unfold kkFrom at h h' ⊢
  have hg : kkGakMatrix { q with nInit := n' } kp D.gakMat = kkGakMatrix q kp D.gakMat := rfl
  simp only [hg] at h h' ⊢
  cases hM : (if q.gak = true then kkGakMatrix q kp D.gakMat else D.pairMat kp) with
  | error err => rw [hM] at h
  | ok M =>
    rw [hM] at h h'
    simp only at h h' ⊢
    have hm := kkFitLoop_more D M n' (max q.nInit 10) (max n' 10) (by omega) ⟨none, ⊤, 0, 0⟩ q hn
    have hs1 := kkFitLoop_xfit D M (max q.nInit 10) ⟨none, ⊤, 0, 0⟩ q
    have hs2 := kkFitLoop_xfit D M (max n' 10) ⟨none, ⊤, 0, 0⟩ { q with nInit := n' }
    rw [hx] at hs1
    simp only [hx] at hs2 h' hm ⊢
    generalize kkFitLoop D M (max q.nInit 10) ⟨none, ⊤, 0, 0⟩ q = r1 at *
    generalize kkFitLoop D M (max n' 10) ⟨none, ⊤, 0, 0⟩ _ = r2 at *
    rcases r1 with ⟨b1, o1, _ | e1⟩
    · rcases r2 with ⟨b2, o2, _ | e2⟩
      · simp only at h h' hs1 hs2 hm ⊢
        split_ifs at h h' ⊢ with c1 c2
        · exact hm
        · rw [hs1] at h; cases h.1
        · rw [hs2] at h'; cases h'.1
        · rw [hs1] at h; cases h.1
      · cases h'.2
    · cases h.2

end

section
variable {K : Type} [Field K] [LinearOrder K] [IsStrictOrderedRing K]

/-- The same for kernel k-means. -/
theorem C111_more_attempts_kernel (R : Rng K) (o : KkObj K) (D : KkData K) (nValid : ℕ) (sig : List ℕ → Except PyErr K) (r : RandomArg) (w : World R)
    (n' : ℕ) (hn : o.nInit ≤ n') (h : (kkFitR R o D nValid sig r w).1.1.xfit = true ∧ (kkFitR R o D nValid sig r w).1.2 = none)
    (h' : (kkFitR R { o with nInit := n' } D nValid sig r w).1.1.xfit = true ∧ (kkFitR R { o with nInit := n' } D nValid sig r w).1.2 = none) :
    (kkFitR R { o with nInit := n' } D nValid sig r w).1.1.inertia ≤ (kkFitR R o D nValid sig r w).1.1.inertia := by
  have key : ∀ (o : KkObj K), (kkFitR R o D nValid sig r w).1.2 = none →
      ∀ g : R.G, g = (match r with
        | .none => w.glob
        | .int s => R.seed s
        | .inst i => w.inst i) →
      (kkFitR R o D nValid sig r w).1 = kkFit o (
        if o.gak = true ∧ (kkGetParams o).1.sigma = some .auto then
          { D with autoSigma := ((sigmaDraw R nValid 100 sig g).1.toOption).getD 0
                   inits := rngDraw (R.randint o.nClusters D.n) (sigmaDraw R nValid 100 sig g).2 }
        else { D with autoSigma := 0, inits := rngDraw (R.randint o.nClusters D.n) g }) := by
    intro o ho g hg
    subst hg
    unfold kkFitR at ho ⊢
    cases r <;> simp only [withRs] at ho ⊢ <;> split_ifs at ho ⊢ with hc <;>
      first
      | rfl
      | (generalize sigmaDraw R nValid 100 sig _ = q at *
         rcases q with ⟨e | σ, g⟩
         · cases ho
         · rfl)
  have k1 := key o h.2 _ rfl
  have k2 := key { o with nInit := n' } h'.2 _ rfl
  have hp : (kkGetParams { o with nInit := n' }).1 = (kkGetParams o).1 := by
    obtain ⟨a, g, c, d, e, kp, sg, h, j, k, l, m, n⟩ := o
    cases g <;> cases kp <;> cases sg <;> rfl
  rw [hp] at k2
  simp only at k2
  rw [k1] at h ⊢
  rw [k2] at h' ⊢
  exact kkFit_more o _ n' hn h h'

theorem kkFitLoop_auto (D : KkData K) (σ : K) (M : ℕ → ℕ → K) (fuel : ℕ) (b : KkBest K) (o : KkObj K) :
    kkFitLoop { D with autoSigma := σ } M fuel b o = kkFitLoop D M fuel b o := by
  have hone : ∀ init (o : KkObj K), kkFitOne { D with autoSigma := σ } M init o = kkFitOne D M init o := by
    intro init o
    have h := kkFitOne_other D { D with autoSigma := σ } rfl M o.nInit init o
    rw [show ({ o with nInit := o.nInit } : KkObj K) = o from rfl] at h
    rw [h]
    have h2 := (kkFitOne_nInit D M init o).1
    generalize kkFitOne D M init o = r at *
    obtain ⟨q, e⟩ := r
    rw [← h2]
  induction fuel generalizing b o with
  | zero => rfl
  | succ fuel ih =>
    unfold kkFitLoop
    simp only [hone, ih]

/-- The bandwidth `"auto"` is the first thing drawn: a fit of a new object with an integer gives what a fit with the bandwidth it finds, given as a number,
gives with a `RandomState` object from which the bandwidth has been drawn already. -/
theorem C111_kernel_auto (R : Rng K) (o : KkObj K) (D : KkData K) (nValid : ℕ) (sig : List ℕ → Except PyErr K) (s i : ℕ) (w w' : World R)
    (rest : List (String × ℕ)) (hg : o.gak = true) (h0 : o.sigma = none) (hp : o.kernelParams = some ⟨some .auto, rest⟩) (σ : K)
    (hv : 0 < nValid) (hσ : sig (R.choice nValid 100 (nValid < 100) (R.seed s)).1 = .ok σ)
    (hw : w'.inst i = (R.choice nValid 100 (nValid < 100) (R.seed s)).2) :
    (kkFitR R o D nValid sig (.int s) w).1 = (kkFitR R { o with kernelParams := some ⟨some (.num σ), rest⟩ } D nValid sig (.inst i) w').1 := by
  obtain ⟨a, g, c, d, e, kp, sg, h, j, k, l, m, n⟩ := o
  simp only at hg h0 hp
  subst hg h0 hp
  have hd : sigmaDraw R nValid 100 sig (R.seed s) = (.ok σ, (R.choice nValid 100 (nValid < 100) (R.seed s)).2) := by
    unfold sigmaDraw
    rw [if_neg (by omega)]
    simp only [hσ]
  have h1 : (kkGetParams (⟨a, true, c, d, e, some ⟨some .auto, rest⟩, none, h, j, k, l, m, n⟩ : KkObj K)).1.sigma = some .auto := rfl
  have h2 : ¬ (kkGetParams (⟨a, true, c, d, e, some ⟨some (.num σ), rest⟩, none, h, j, k, l, m, n⟩ : KkObj K)).1.sigma = some .auto := by
    simp [kkGetParams]
  simp only [kkFitR, withRs, h1, h2, hd, hw, and_self, and_false, if_true, if_false, kkFitFrom]
  rw [kkFit_ready, kkFit_ready]
  unfold kkFrom
  simp only [kkFitLoop_auto { D with inits := rngDraw (R.randint a D.n) (R.choice nValid 100 (decide (nValid < 100)) (R.seed s)).2 }]
  rfl

end

section

/-- The solver of `TimeSeriesSVC` gets a second use of `random_state`, after that of the bandwidth: with an integer the fit depends on nothing else and no
generator is touched, otherwise only the generator given is used. -/
theorem C111_svc (R : Rng ℝ) {M : Type} (run : List (Except PyErr ℝ) → Except PyErr (List ℝ)) (o : SvmObj M) (X : DsInput ℝ) (check : Option PyErr)
    (solve : ℕ → ℝ → SkX → Except PyErr M) :
    Seeded (svcFitR R run o X check solve) ∧ OwnGenerator (svcFitR R run o X check solve) ∧ GlobalGenerator (svcFitR R run o X check solve) := by
  let f (r : RandomArg) (w : World R) : List ℕ × World R :=
    match check, toDataset X, o.gamma with
    | none, .ok Y, .auto =>
      if (validPoints Y).length = 0 then ([], w)
      else withRs (R.choice (validPoints Y).length 100 ((validPoints Y).length < 100)) r w
    | _, _, _ => ([], w)
  let k (d : List ℕ) (r : RandomArg) (w : World R) : (SvmObj M × Option PyErr) × World R :=
    if svcReached run o X check d then
      (svmFit run o ⟨X, check, d, solve ((withRs (R.randint 2147483647 1) r w).1.getD 0 0)⟩, (withRs (R.randint 2147483647 1) r w).2)
    else (svmFit run o ⟨X, check, d, solve 0⟩, w)
  have key : svcFitR R run o X check solve = fun r w => k (f r w).1 r (f r w).2 := rfl
  rw [key]
  refine seq_generators (f := f) (k := k) ?_ fun d => ?_
  · show Tame fun r w => f r w
    simp only [f]
    split
    · split_ifs
      · exact (ignores_const _).tame
      · exact withRs_tame _
    · exact (ignores_const _).tame
  · show Tame fun r w => k d r w
    simp only [k]
    split_ifs
    · exact (withRs_tame (R := R) (R.randint 2147483647 1)).map fun l => svmFit run o ⟨X, check, d, solve (l.getD 0 0)⟩
    · exact (ignores_const _).tame

/-- Unlike for kernel k-means, with an integer the bandwidth `"auto"` and the number it finds, given as `gamma`, lead `TimeSeriesSVC` to the same fit:
the solver gets its seed from the integer again. -/
theorem C111_svc_auto (R : Rng ℝ) {M : Type} (run : List (Except PyErr ℝ) → Except PyErr (List ℝ)) (o : SvmObj M) (X : DsInput ℝ) (Y : Arr3 ℝ)
    (solve : ℕ → ℝ → SkX → Except PyErr M) (hX : toDataset X = .ok Y) (hY : toDataset (.series Y.slots) = .ok Y) (s : ℕ) (w : World R) (v : ℝ)
    (hv : (gammaSoftDtwR R .numpy X 100 (.int s) w).1 = .ok v) :
    let p := (svcFitR R run { o with gamma := .auto } X none solve (.int s) w).1
    let q := (svcFitR R run { o with gamma := .value v } X none solve (.int s) w).1
    p.1.est = q.1.est ∧ p.1.gammaFit = q.1.gammaFit ∧ p.1.gammaFit = some v ∧ p.1.xFit = q.1.xFit ∧ p.2 = q.2 := by
  have hn : (validPoints Y).length ≠ 0 := by
    intro h
    simp [gammaSoftDtwR, sigmaGakR, withRs, hX, sigmaDraw, h, Except.map] at hv
  set d := (R.choice (validPoints Y).length 100 (decide ((validPoints Y).length < 100)) (R.seed s)).1 with hd
  have hg : svmGamma .auto Y d = .ok v := by
    simp only [gammaSoftDtwR, sigmaGakR, withRs, hX, sigmaDraw, if_neg hn] at hv
    simp only [svmGamma, gammaSoftDtw]
    rw [← hd] at hv
    simp only [sigmaGak, hX, hY] at hv ⊢
    exact hv
  have ha : svmGamma (.value v) Y [] = .ok v := rfl
  simp only [svcFitR, hX, if_neg hn, withRs, svcReached, svmFit, hg, ← hd, ha]
  cases svmFitX run o.gak v Y with
  | error e => simp
  | ok S =>
    simp only [Option.isNone_none, if_true]
    cases solve ((R.randint 2147483647 1 (R.seed s)).1.getD 0 0) v S <;> simp

end

section

/-- The hypotheses of `C111_svc_auto` are met by a series of seven samples and any generator that draws at least two of them. -/
example (R : Rng ℝ) (s : ℕ) (w : World R) (h : (R.choice 7 100 true (R.seed s)).1.length = 100) :
    toDataset (.series sevenSamples.slots) = .ok sevenSamples ∧
    ∃ v, (gammaSoftDtwR R .numpy (.series sevenSamples.slots) 100 (.int s) w).1 = .ok v := by
  have hX : toDataset (.series sevenSamples.slots) = .ok sevenSamples := rfl
  refine ⟨hX, ?_⟩
  simp only [gammaSoftDtwR, sigmaGakR, withRs, hX, sigmaDraw, sevenSamples_points, sigmaGak, medianDist, bind, Except.bind, pure, Except.pure]
  simp only [List.length_cons, List.length_nil]
  norm_num [h]
  exact ⟨_, rfl⟩

/-- A small generator to compute with: the state is the number of draws since the seed, counted from the seed. -/
def counter : Rng ℚ where
  G := ℕ
  KG := ℕ
  seed := id
  kseed := id
  choice n m _ g := ((List.range m).map fun i => (i + g) % n, g + 1)
  randint k n g := ((List.range n).map fun i => (i + g) % k, g + 1)
  perm n g := ((List.range n).map fun i => (i + g) % n, g + 1)
  randn g := ((g : ℚ), g + 1)
  uniform n g := ((List.range n).map fun i => ((i + g) : ℚ), g + 1)

/-- The state of the small generator, as a number. -/
def count (g : counter.G) : ℕ := g

/-- A process that has drawn 5 numbers from the global generator, and has one `RandomState` object seeded with 3. -/
def aWorld : World counter := ⟨(5 : ℕ), (7 : ℕ), fun _ => (3 : ℕ)⟩

/-- Walks: seed 3, the object and the global generator in state 3 agree; the global generator in state 5 gives something else; the object has moved on. -/
example : ((walksR counter 1 2 1 0 1 (.int 3) aWorld).1.toOption.map fun X => (X 0 0 0, X 0 1 0)) = some (3, 7) ∧
    ((walksR counter 1 2 1 0 1 (.inst 0) aWorld).1.toOption.map fun X => (X 0 0 0, X 0 1 0)) = some (3, 7) ∧
    ((walksR counter 1 2 1 0 1 .none aWorld).1.toOption.map fun X => (X 0 0 0, X 0 1 0)) = some (5, 11) ∧
    count ((walksR counter 1 2 1 0 1 (.inst 0) aWorld).2.inst 0) = 5 ∧ count ((walksR counter 1 2 1 0 1 (.inst 0) aWorld).2.inst 1) = 3 ∧
    count ((walksR counter 1 2 1 0 1 .none aWorld).2.glob) = 7 ∧ count ((walksR counter 1 2 1 0 1 (.int 3) aWorld).2.glob) = 5 := by
  decide +kernel

/-- Two calls on one object, as in `C111_walks_continue`. -/
example : ((walksR counter 2 2 1 0 1 (.inst 0) aWorld).1.toOption.map fun X => (X 1 0 0, X 1 1 0)) =
    ((walksR counter 1 2 1 0 1 (.inst 0) (walksR counter 1 2 1 0 1 (.inst 0) aWorld).2).1.toOption.map fun X => (X 0 0 0, X 0 1 0)) := by
  decide +kernel

/-- k-means with `"random"`: attempts with different centroids, the second is better. -/
example : (kmFitR counter (pts [0, 1, 10, 11] 2 1 1) id .random km0 (.int 4) aWorld).1.1.xfit = true ∧
    (kmFitR counter (pts [0, 1, 10, 11] 2 1 1) id .random km0 (.int 4) aWorld).1.2 = none ∧
    (kmFitR counter (pts [0, 1, 10, 11] 2 1 2) id .random km0 (.int 4) aWorld).1.1.xfit = true ∧
    (kmFitR counter (pts [0, 1, 10, 11] 2 1 2) id .random km0 (.int 4) aWorld).1.2 = none ∧
    (kmFitR counter (pts [0, 1, 10, 11] 2 1 2) id .random km0 (.int 4) aWorld).1.1.inertia <
      (kmFitR counter (pts [0, 1, 10, 11] 2 1 1) id .random km0 (.int 4) aWorld).1.1.inertia := by
  decide +kernel

/-- Kernel k-means of two series, bandwidth `"auto"`, identity kernel. -/
def autoObj (n : ℕ) : KkObj ℚ := ⟨2, true, 5, 1 / 1000, n, some ⟨some .auto, []⟩, none, none, ⊤, false, false, 0, 0⟩

/-- Its data: any bandwidth gives the identity as kernel matrix. -/
def autoData : KkData ℚ := ⟨2, fun _ i j => if i = j then 1 else 0, fun _ => .error .typeError, 0, fun _ => 1, fun _ => []⟩

/-- The hypotheses of `C111_kernel_auto` and `C111_more_attempts_kernel` are met. -/
example : (kkFitR counter (autoObj 1) autoData 2 (fun l => .ok (l.length : ℚ)) (.int 0) aWorld).1.1.labels = some [1, 0] ∧
    (kkFitR counter (autoObj 1) autoData 2 (fun l => .ok (l.length : ℚ)) (.int 0) aWorld).1.1.xfit = true ∧
    (kkFitR counter (autoObj 1) autoData 2 (fun l => .ok (l.length : ℚ)) (.int 0) aWorld).1.2 = none ∧
    (kkFitR counter (autoObj 2) autoData 2 (fun l => .ok (l.length : ℚ)) (.int 0) aWorld).1.1.xfit = true ∧
    (kkFitR counter (autoObj 2) autoData 2 (fun l => .ok (l.length : ℚ)) (.int 0) aWorld).1.2 = none ∧
    (kkFitR counter { autoObj 1 with kernelParams := some ⟨some (.num 100), []⟩ } autoData 2 (fun l => .ok (l.length : ℚ)) (.inst 0)
      { aWorld with inst := fun _ => (1 : ℕ) }).1.1.labels = some [1, 0] := by
  decide +kernel

/-- Fitting the same object on the same data with the same integer again gives other labels: the first fit has put the number it found into the user's
`kernel_params`, so the second one does not draw a bandwidth, and its labels are drawn from the seed itself. -/
theorem C111_false_refit : ∃ (R : Rng ℚ) (o : KkObj ℚ) (D : KkData ℚ) (nValid : ℕ) (sig : List ℕ → Except PyErr ℚ) (s : ℕ) (w : World R) (l l' : List ℕ),
    (kkFitR R o D nValid sig (.int s) w).1.2 = none ∧
    (kkFitR R (kkFitR R o D nValid sig (.int s) w).1.1 D nValid sig (.int s) w).1.2 = none ∧
    (kkFitR R o D nValid sig (.int s) w).1.1.labels = some l ∧
    (kkFitR R (kkFitR R o D nValid sig (.int s) w).1.1 D nValid sig (.int s) w).1.1.labels = some l' ∧ l ≠ l' := by
  refine ⟨counter, autoObj 1, autoData, 2, fun l => .ok (l.length : ℚ), 0, aWorld, [1, 0], [0, 1], ?_⟩
  decide +kernel

/-- Giving the bandwidth that `"auto"` finds as a number changes the labels that the same integer gives. -/
theorem C111_false_auto : ∃ (R : Rng ℚ) (o : KkObj ℚ) (D : KkData ℚ) (nValid : ℕ) (sig : List ℕ → Except PyErr ℚ) (s : ℕ) (w : World R) (σ : ℚ) (l l' : List ℕ),
    o.kernelParams = some ⟨some .auto, []⟩ ∧ (kkFitR R o D nValid sig (.int s) w).1.1.sigma = some (.num σ) ∧
    (kkFitR R o D nValid sig (.int s) w).1.1.labels = some l ∧
    (kkFitR R { o with kernelParams := some ⟨some (.num σ), []⟩ } D nValid sig (.int s) w).1.1.labels = some l' ∧ l ≠ l' := by
  refine ⟨counter, autoObj 1, autoData, 2, fun l => .ok (l.length : ℚ), 0, aWorld, 100, [1, 0], [0, 1], ?_⟩
  decide +kernel

/-- A clustering of the early classifier, and a split that reports the state it starts from. -/
def earlyCase (r : RandomArg) : (KmState ℚ ℚ × Except PyErr ℕ) × World counter :=
  earlyFitR counter (pts [0, 1, 10, 11] 2 5 1) id (fun g => ([0, 10], Nat.succ g)) (fun _ g => (.ok g, Nat.succ g)) km0 r aWorld

example : (earlyCase (.int 3)).1.1.labels = some [0, 0, 1, 1] ∧ count ((earlyCase (.int 3)).2.glob) = 5 ∧ count ((earlyCase .none).2.glob) = 7 := by decide +kernel

/-- For the early classifier an integer and a new `RandomState` object with that seed are not the same: the integer starts the split from the seed again,
the object goes on. -/
theorem C111_false_early : ∃ (R : Rng ℚ) (e : KmEnv ℚ ℚ ℚ) (draw : R.G → List ℚ × R.G) (split : List ℕ → R.G → Except PyErr ℕ × R.G) (s : KmState ℚ ℚ),
    ¬ Interchangeable (earlyFitR R e id draw split s) := by
  refine ⟨counter, pts [0, 1, 10, 11] 2 5 1, fun g => ([0, 10], Nat.succ g), fun _ g => (.ok g, Nat.succ g), km0, fun h => ?_⟩
  have h1 := congrArg (fun p => p.2.toOption) (h 3 0 aWorld ⟨(3 : ℕ), (0 : ℕ), fun _ => (3 : ℕ)⟩ rfl rfl).1
  revert h1
  decide +kernel

/-- Blobs: asking for more blobs changes the series of the first ones, whose noise is drawn after all the walks. -/
theorem C111_false_blobs : ∃ (R : Rng ℚ) (s : ℕ) (w : World R) (X Y : (ℕ → ℕ → ℕ → ℚ) × List ℕ),
    (blobsR R 1 1 1 1 1 (.int s) w).1 = .ok X ∧ (blobsR R 1 1 1 2 1 (.int s) w).1 = .ok Y ∧ X.1 0 0 0 ≠ Y.1 0 0 0 := by
  refine ⟨counter, 3, aWorld, _, _, rfl, rfl, ?_⟩
  decide +kernel

end
end Verif
