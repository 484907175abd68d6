import Verif.Model.Generators
import Verif.Model.Bandwidth
import Verif.Model.KernelKMeans
import Verif.Model.KInit
import Verif.Model.KShape
import Verif.Model.Dba
import Verif.Model.Svm
import Verif.Model.Silhouette
/-!
Where random numbers come from: every function of tslearn that takes `random_state`, with the generators it draws from. The
deterministic parts are the models of the other files. Number generation itself is a library (`Rng`).
-/
namespace Verif

/-- What tslearn asks of `numpy.random.RandomState` (library): `G` is the state of a generator, a method gives its answer and the
state afterwards. `KG` is the state of the generator behind Keras. -/
structure Rng (K : Type) where
  G : Type
  KG : Type
  /-- `RandomState(seed)` -/
  seed : ℕ → G
  /-- `keras.utils.set_random_seed(seed)`, for the part of Keras -/
  kseed : ℕ → KG
  /-- `choice(n, size, replace)` -/
  choice : ℕ → ℕ → Bool → G → List ℕ × G
  /-- `randint(k, size=n)` -/
  randint : ℕ → ℕ → G → List ℕ × G
  /-- `permutation(n)` -/
  perm : ℕ → G → List ℕ × G
  /-- one number of `randn` -/
  randn : G → K × G
  /-- `random_sample(n)` -/
  uniform : ℕ → G → List K × G

/-- The generators of a Python process: NumPy's global one, that of Keras, and the `RandomState` objects made by the user. -/
structure World {K : Type} (R : Rng K) where
  glob : R.G
  keras : R.KG
  inst : ℕ → R.G

/-- The argument `random_state`: `None`, an integer, or a `RandomState` object. -/
inductive RandomArg
  | none
  | int (s : ℕ)
  | inst (i : ℕ)

section
variable {K α : Type} {R : Rng K}

/-- `rs = check_random_state(random_state)` (scikit-learn) followed by draws from `rs`: `None` is the global generator, an integer
a new one; e.g. tslearn/generators/generators.py:48, tslearn/metrics/_gak.py:84, tslearn/clustering/kmeans.py:341 and 822,
tslearn/clustering/kshape.py:233, tslearn/barycenters/dba.py:846. -/
def withRs (prog : R.G → α × R.G) : RandomArg → World R → α × World R
  | .none, w => ((prog w.glob).1, { w with glob := (prog w.glob).2 })
  | .int s, w => ((prog (R.seed s)).1, w)
  | .inst i, w => ((prog (w.inst i)).1, { w with inst := Function.update w.inst i (prog (w.inst i)).2 })

/-- The state of a generator after `n` draws. -/
def rngAfter {G : Type} (step : G → α × G) : ℕ → G → G
  | 0, g => g
  | n + 1, g => rngAfter step n (step g).2

/-- Draw number `a` of a generator. -/
def rngDraw {G : Type} (step : G → α × G) (g : G) (a : ℕ) : α := (step (rngAfter step a g)).1

end

section
variable {K : Type} [Ring K] (R : Rng K)

/-- `random_walks(…, random_state)`, tslearn/generators/generators.py:7-54. -/
def walksR (n sz d : ℕ) (mu std : K) : RandomArg → World R → Except PyErr (ℕ → ℕ → ℕ → K) × World R :=
  withRs fun g => ((randomWalks n sz d mu std (rngDraw R.randn g)).2, rngAfter R.randn (n * sz * d) g)

/-- `random_walk_blobs(…, random_state)`, tslearn/generators/generators.py:57-112: the base walks and the noise come from one
generator (for series without samples the numbers of draws are zero). -/
def blobsR (nPer sz d nBlobs : ℕ) (noise : K) : RandomArg → World R → Except PyErr ((ℕ → ℕ → ℕ → K) × List ℕ) × World R :=
  withRs fun g => (randomWalkBlobs nPer sz d nBlobs noise (rngDraw R.randn g),
    rngAfter R.randn (nBlobs * sz * d + nPer * nBlobs * sz * d) g)

end

section
variable {K : Type} (R : Rng K)

/-- The draw of `_sigma_gak`, tslearn/metrics/_gak.py:84-91, among `nValid` points: `choice` refuses to draw from nothing. `rest`
is what is computed from the indices. -/
def sigmaDraw {β : Type} (nValid nSamples : ℕ) (rest : List ℕ → Except PyErr β) (g : R.G) : Except PyErr β × R.G :=
  if nValid = 0 then (.error .valueError, g)
  else
    let r := R.choice nValid nSamples (nValid < nSamples) g
    (rest r.1, r.2)

end

section
variable (R : Rng ℝ)

/-- `sigma_gak(dataset, n_samples, random_state)`, tslearn/metrics/_gak.py:20-96. -/
noncomputable def sigmaGakR (be : MedianOf) (x : DsInput ℝ) (nSamples : ℕ) : RandomArg → World R → Except PyErr ℝ × World R :=
  withRs fun g =>
    match toDataset x with
    | .error e => (.error e, g)
    | .ok X => sigmaDraw R (validPoints X).length nSamples (sigmaGak be x) g

/-- `gamma_soft_dtw(dataset, n_samples, random_state)`, tslearn/metrics/softdtw_variants.py:36-88. -/
noncomputable def gammaSoftDtwR (be : MedianOf) (x : DsInput ℝ) (nSamples : ℕ) (r : RandomArg) (w : World R) :
    Except PyErr ℝ × World R :=
  let p := sigmaGakR R be x nSamples r w
  (p.1.map fun s => 2 * s ^ 2, p.2)

end

section
variable {K : Type} [Field K] [LinearOrder K] (R : Rng K)

/-- The loop of `dtw_barycenter_averaging_subgradient`, tslearn/barycenters/dba.py:862-892, with the generator that shuffles. -/
def subgradLoopR (cfg : DbaCfg K) (xs : List (List (List K))) (ws : List K) (delta : K) :
    ℕ → ℕ → K × List (List K) × WithTop K → WithTop K → R.G → Except PyErr (List (List K)) × R.G
  | 0, _, (_, b, _), _, g => (.ok b, g)
  | n + 1, it, s, prev, g =>
    match subgradEpoch cfg xs ws (if it = 0 then delta else 0) (R.perm xs.length g).1 s with
    | .error e => (.error e, (R.perm xs.length g).2)
    | .ok (eta, b, cost) =>
      if closeTo cfg.tol prev cost then (.ok b, (R.perm xs.length g).2)
      else if prev < cost then (.ok b, (R.perm xs.length g).2)
      else subgradLoopR cfg xs ws delta n (it + 1) (eta, b, cost) cost (R.perm xs.length g).2

/-- `dtw_barycenter_averaging_subgradient(…, random_state)` after validation, tslearn/barycenters/dba.py:846-892. -/
def subgradDbaR (cfg : DbaCfg K) (xs : List (List (List K))) (ws : List K) (step final : K) (maxIter : ℕ) (b : List (List K)) :
    RandomArg → World R → Except PyErr (List (List K)) × World R :=
  withRs fun g => subgradLoopR R cfg xs ws ((step - final) / (xs.length : K)) maxIter 0 (step, b, ⊤) ⊤ g

/-- `init` of `TimeSeriesKMeans` and `KShape`: an array, `"random"`, or `"k-means++"`, which draws in its own way (`_k_init_metric`,
`kppDraws`, or scikit-learn's function). -/
inductive InitArg (G C : Type)
  | array (cs : List C)
  | random
  | kpp (draw : G → List C × G)

/-- `_k_init_metric(X, n_clusters, cdist_metric, random_state)`, tslearn/clustering/kmeans.py:46-126, with the generator it draws from. -/
noncomputable def kppDraws {S : Type} (n k : ℕ) (X : ℕ → S) (dist : S → S → K) (g : R.G) : List S × R.G :=
  let r := R.randint n 1 g
  (kppCenters X (kppRun n X dist (r.1.getD 0 0) (fun c => rngDraw (R.uniform (kppTrials k)) r.2 (c - 1)) (k - 1)),
    rngAfter (R.uniform (kppTrials k)) (k - 1) r.2)

/-- The initial centroids of one attempt, tslearn/clustering/kmeans.py:646-691 and tslearn/clustering/kshape.py:166-174. -/
def initDraw {C : Type} (data : List C) (k : ℕ) : InitArg R.G C → R.G → List C × R.G
  | .array cs, g => (cs, g)
  | .random, g => ((R.choice data.length k false g).1.filterMap fun i => data[i]?, (R.choice data.length k false g).2)
  | .kpp draw, g => draw g

/-- `TimeSeriesKMeans.fit`, tslearn/clustering/kmeans.py:792-855: one generator for all attempts, which are made while they are needed. `asC`
turns a training series into a centroid. With more clusters than series `choice` raises `ValueError` at the first attempt. -/
def kmFitR {P C : Type} (e : KmEnv P C K) (asC : P → C) (init : InitArg R.G C) (s : KmState C K) :
    RandomArg → World R → (KmState C K × Option PyErr) × World R :=
  withRs fun g =>
    match init with
    | .random =>
      if e.data.length < e.nClusters ∧ 0 < e.nInit then
        (({ s with labels := none, inertia := ⊤, centers := none, xfit := false, nIter := 0 }, some .valueError), g)
      else
        let step := initDraw R (e.data.map asC) e.nClusters init
        ((kmFit e (rngDraw step g) s).2, rngAfter step (kmFit e (rngDraw step g) s).1.nAttempts g)
    | _ =>
      let step := initDraw R (e.data.map asC) e.nClusters init
      ((kmFit e (rngDraw step g) s).2, rngAfter step (kmFit e (rngDraw step g) s).1.nAttempts g)

/-- How many attempts `KernelKMeans.fit` makes, tslearn/clustering/kmeans.py:360-382: none if the kernel cannot be computed. -/
def kkAttempts (o : KkObj K) (D : KkData K) : ℕ :=
  let o := kkSigma o D.autoSigma
  let o := { o with labels := none, inertia := ⊤, fitted := true, xfit := false, nIter := 0 }
  match kkGetKernel o D.gakMat D.pairMat with
  | (_, .error _) => 0
  | (o, .ok M) => (kkFitLoop D M (max o.nInit 10) ⟨none, ⊤, 0, 0⟩ o).1.nAttempts

/-- The attempts of `KernelKMeans.fit` with labels from the generator `g`, tslearn/clustering/kmeans.py:294-297 and 352-388. -/
def kkFitFrom (o : KkObj K) (D : KkData K) (σ : K) (g : R.G) : (KkObj K × Option PyErr) × R.G :=
  let D := { D with autoSigma := σ, inits := rngDraw (R.randint o.nClusters D.n) g }
  (kkFit o D, rngAfter (R.randint o.nClusters D.n) (kkAttempts o D) g)

/-- `KernelKMeans.fit`, tslearn/clustering/kmeans.py:321-388: the bandwidth is drawn first, if it is `"auto"`, from the same generator. `sig` is
`sigma_gak` of the data for drawn indices, among `nValid` samples. -/
def kkFitR (o : KkObj K) (D : KkData K) (nValid : ℕ) (sig : List ℕ → Except PyErr K) :
    RandomArg → World R → (KkObj K × Option PyErr) × World R :=
  withRs fun g =>
    if o.gak ∧ (kkGetParams o).1.sigma = some .auto then
      match sigmaDraw R nValid 100 sig g with
      | (.error e, g) => (({ (kkGetParams o).2 with sigma := some .auto }, some e), g)
      | (.ok σ, g) => kkFitFrom R o D σ g
    else kkFitFrom R o D 0 g

/-- `NonMyopicEarlyClassifier.fit`, tslearn/early_classification/early_classification.py:156-178: `random_state` is given to the clustering and then again to
`train_test_split`, each of which makes its own generator from an integer. `draw` is scikit-learn's `k-means++`, `split labels` its stratified split. What
follows does not draw (with the default classifier). -/
def earlyFitR {P C β : Type} (e : KmEnv P C K) (asC : P → C) (draw : R.G → List C × R.G) (split : List ℕ → R.G → Except PyErr β × R.G)
    (s : KmState C K) (r : RandomArg) (w : World R) : (KmState C K × Except PyErr β) × World R :=
  match kmFitR R e asC (.kpp draw) s r w with
  | ((s, some err), w) => ((s, .error err), w)
  | ((s, none), w) =>
    let p := withRs (split (s.labels.getD [])) r w
    ((s, p.1), p.2)

/-- Pieces drawn by `_kmeans_init_shapelets`, tslearn/shapelets/shapelets.py:51-59, from NumPy's global generator: the series of every piece first, then
its start. `size i` is the length of series `i`. -/
def drawPieces (nTs nDraw len : ℕ) (size : ℕ → ℕ) (g : R.G) : List (ℕ × ℕ) × R.G :=
  (R.choice nTs nDraw true g).1.foldl (fun acc i =>
    (acc.1 ++ [(i, (R.choice (size i - len + 1) 1 true acc.2).1.getD 0 0)], (R.choice (size i - len + 1) 1 true acc.2).2))
    ([], (R.choice nTs nDraw true g).2)

/-- What `LearningShapelets.fit` works on: the series, the pieces `sub len i t` of length `len` of series `i` from time `t`, the k-means of a list of
pieces (with its `k-means++`), the attributes of a new k-means, and the training by Keras, which draws from the generator behind Keras. -/
structure ShpWork (K G KG P M : Type) where
  nTs : ℕ
  nDraw : ℕ
  size : ℕ → ℕ
  sub : ℕ → ℕ → ℕ → P
  env : ℕ → List P → KmEnv P P K
  draw : ℕ → List P → G → List P × G
  fresh : KmState P K
  train : List (List P) → KG → M × KG

/-- `_kmeans_init_shapelets(X, n_shapelets, shp_len)`, tslearn/shapelets/shapelets.py:49-64; the k-means has `random_state=None`. -/
def initShapeletsR {P M : Type} (S : ShpWork K R.G R.KG P M) (len nb : ℕ) (w : World R) : Except PyErr (List P) × World R :=
  let p := drawPieces R S.nTs S.nDraw len S.size w.glob
  let pieces := p.1.map fun it => S.sub len it.1 it.2
  match kmFitR R (S.env nb pieces) id (.kpp (S.draw nb pieces)) S.fresh .none { w with glob := p.2 } with
  | ((_, some err), w) => (.error err, w)
  | ((s, none), w) => (.ok (s.centers.getD []), w)

/-- The initial shapelets of every length, in the order of the dictionary, tslearn/shapelets/shapelets.py:778-796. -/
def shapeletLayersR {P M : Type} (S : ShpWork K R.G R.KG P M) : List (ℕ × ℕ) → World R → Except PyErr (List (List P)) × World R
  | [], w => (.ok [], w)
  | (len, nb) :: sizes, w =>
    match initShapeletsR R S len nb w with
    | (.error e, w) => (.error e, w)
    | (.ok c, w) =>
      match shapeletLayersR S sizes w with
      | (.error e, w) => (.error e, w)
      | (.ok cs, w) => (.ok (c :: cs), w)

/-- The layers and the training, tslearn/shapelets/shapelets.py:509-541, with whatever the global generators are. -/
def shapeletTrainR {P M : Type} (S : ShpWork K R.G R.KG P M) (sizes : List (ℕ × ℕ)) (w : World R) : Except PyErr (List (List P) × M) × World R :=
  match shapeletLayersR R S sizes w with
  | (.error e, w) => (.error e, w)
  | (.ok cs, w) => (.ok (cs, (S.train cs w.keras).1), { w with keras := (S.train cs w.keras).2 })

/-- `LearningShapelets.fit` after validation, tslearn/shapelets/shapelets.py:506-541: an integer goes to `keras.utils.set_random_seed`, which seeds the
generator behind Keras and NumPy's *global* one (Python's own is left out), and refuses anything else. -/
def shapeletFitR {P M : Type} (S : ShpWork K R.G R.KG P M) (sizes : List (ℕ × ℕ)) :
    RandomArg → World R → Except PyErr (List (List P) × M) × World R
  | .none, w => shapeletTrainR R S sizes w
  | .int s, w => shapeletTrainR R S sizes { w with glob := R.seed s, keras := R.kseed s }
  | .inst _, w => (.error .valueError, w)

end

noncomputable section
variable (R : Rng ℝ)

/-- `KShape.fit`, tslearn/clustering/kshape.py:200-256: one generator for all attempts (a single attempt with an array). -/
def ksFitR (e : KsEnv) (init : InitArg R.G KsSer) (iter0 : ℕ) : RandomArg → World R → (KsState × Option PyErr) × World R :=
  withRs fun g =>
    let e := { e with initArray := match init with
      | .array _ => true
      | _ => false }
    let step := initDraw R e.data e.nClusters init
    let s : KsState := { labels := none, inertia := ⊤, centers := none, norms := ksNorms e.data, normsC := [], xfit := true,
                         nIter := 0, iter := iter0 }
    (ksFit e (rngDraw step g) iter0,
      rngAfter step (ksFitLoop e (rngDraw step g) (if e.initArray then 1 else max e.nInit 10) ⟨none, ⊤, 0, 0⟩ s).1.nAttempts g)

/-- `silhouette_score(…, sample_size, random_state)`, tslearn/clustering/utils.py:211-215: scikit-learn draws the series to use with one permutation,
if a size is given. -/
def silScoreR {L : Type} [LinearOrder L] (n : ℕ) (lab : ℕ → L) (D : ℕ → ℕ → ℝ) (sample : Option ℕ) (r : RandomArg) (w : World R) :
    Except PyErr ℝ × World R :=
  match sample with
  | none => (silScore n lab D, w)
  | some m => withRs (fun g =>
      let idx := (R.perm n g).1.take m
      (silScore idx.length (fun i => lab (idx.getD i 0)) fun i j => D (idx.getD i 0) (idx.getD j 0), (R.perm n g).2)) r w

/-- Does `TimeSeriesSVC.fit` get as far as the solver? tslearn/svm/svm.py:310-318. -/
def svcReached {M : Type} (run : List (Except PyErr ℝ) → Except PyErr (List ℝ)) (o : SvmObj M) (X : DsInput ℝ) (check : Option PyErr) (draw : List ℕ) : Bool :=
  (svmFit (M := Unit) run ⟨o.gak, o.gamma, none, none, none⟩ ⟨X, check, draw, fun _ _ => .ok ()⟩).2.isNone

/-- `TimeSeriesSVC.fit`, tslearn/svm/svm.py:56-59 and 310-330: `random_state` is given to `gamma_soft_dtw` if `gamma` is `"auto"`, whatever the kernel, and
then again to scikit-learn's `SVC`, which draws the seed of the solver. A failing draw is an error of `gamma_soft_dtw`. -/
def svcFitR {M : Type} (run : List (Except PyErr ℝ) → Except PyErr (List ℝ)) (o : SvmObj M) (X : DsInput ℝ) (check : Option PyErr)
    (solve : ℕ → ℝ → SkX → Except PyErr M) (r : RandomArg) (w : World R) : (SvmObj M × Option PyErr) × World R :=
  let d : List ℕ × World R :=
    match check, toDataset X, o.gamma with
    | none, .ok Y, .auto =>
      if (validPoints Y).length = 0 then ([], w)
      else withRs (R.choice (validPoints Y).length 100 ((validPoints Y).length < 100)) r w
    | _, _, _ => ([], w)
  if svcReached run o X check d.1 then
    let s := withRs (R.randint 2147483647 1) r d.2
    (svmFit run o ⟨X, check, d.1, solve (s.1.getD 0 0)⟩, s.2)
  else (svmFit run o ⟨X, check, d.1, solve 0⟩, d.2)

end
end Verif
