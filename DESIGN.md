# Formal model of tslearn in Lean 4

Source read: `/repo` (python). Nothing in `/repo` was run or changed. The Lean project is `/verif/lean`.

## Layout

* `Verif/Model/*.lean`  – the model: one Lean definition per Python function, each with a comment citing file and lines.
* `Verif/Spec/*.lean`   – small, independent specifications (what a warping path is, what "longest common subsequence" means, ...). They do not mention the model.
* `Verif/Proofs/*.lean` – lemmas.
* `Verif/Props/*.lean`  – the property theorems (names `Cxx_...`), each followed by an `example` instantiating it on concrete non-trivial data.

`MANIFEST.json` maps every property of `properties.jsonl` to theorem names. `seeded/LOG.jsonl` records mutation testing of the model.

## Trusted base

* Lean's kernel, and for each theorem at most the axioms `propext`, `Classical.choice`, `Quot.sound` (no own axioms, no `sorry`, no `native_decide`/`bv_decide`).
* The reading of Python: the model is a hand translation. NumPy/numba/torch primitives (slicing, `min`, `argmin` first-minimum rule, `argpartition` contract, `isfinite`, ...) are modelled by their documented meaning.
* Third-party code (scikit-learn solvers, scipy optimisers, keras training, h5py/json encoders, joblib) is never modelled; where it matters it is a parameter (an arbitrary function, an arbitrary answer satisfying the documented contract, an arbitrary completion order).

## Modelling conventions

* Arrays are total functions `Nat → Nat → α` together with their sizes when only in-range indices are used, and `List` when bounds or shapes matter.
* `for` loops are folds (`forRange`), `while` loops are fuel-indexed functions returning `Option` (`none` = not finished yet), so that termination is a theorem and non-termination can be stated.
* Exceptions are values (`Except`).
* Numbers: the dynamic programmes are modelled over an arbitrary linear order with top (`+inf`) and an arbitrary monotone `step`; real arithmetic, max (Frechet) and *floating-point addition with any monotone rounding* are instances. Everything else uses a linearly ordered field or `ℝ`. NaN is modelled explicitly (`Option`) where the code tests for it. Overflow to inf and NaN arithmetic inside the real-valued formulas are not modelled unless stated.

## Properties

(The table below is kept in step with `MANIFEST.json`.)

| id | what is modelled | how |
|----|------------------|-----|
| C01 | `_njit_accumulated_matrix` as a double loop over a generic cost algebra | loop invariant → recursion; induction on cells against an inductive notion of warping path |
| C02 | `_compute_path_generic` as a fuel loop | invariant: remaining suffix is a path from the current cell, accumulated value is the prefix cost |
| C03 | `_torch_acc_matrix_from_dist_matrix` as a loop over anti-diagonals with vectorised update | both loops satisfy the same recursion equations |
| C04–C06 | `dtw`, `_sakoe_chiba_mask_generic` | path reversal/transposition; exact characterisation of the slice loops; explicit feasible path |
| C51 | `_itakura_mask_generic` with rounding to two decimals, exact rationals | corridor of nondecreasing bounds: every row and column nonempty ⇒ path exists; converse: a path visits all rows and columns |
| C07 | `compute_mask` / `_compute_mask_generic` | case analysis |
| C08, C23 | `_ts_size`, `to_time_series`, `to_time_series_dataset` over `Option`-valued samples | list lemmas; silent broadcast of univariate series is shown by an example |
| C09 | `_cdist_generic`: job list, completion order as an arbitrary permutation | refinement to the entry-wise function; with Itakura the self-distance matrix mirrors an asymmetric function (counterexample) |
| C10, C11 | Frechet instance of the DP; `_cdist_frechet` constraint plumbing | instance of C01; C11 is false of the code: negation + restricted positive theorem |
| C12 | three-index DP with step-count dimension | induction |
| C13 | subsequence DP (free start row) | instance of the DP over all start points |
| C14 | `lb_envelope`, `lb_keogh` | window characterisation + path argument |
| C15, C16 | LCSS DP and traceback | induction against index-pair lists; nontermination witness for masked traceback |
| C17, C18 | soft-DTW recursions over ℝ extended with inf/-inf/NaN (`Fl`), numba and torch engines | log-sum-exp over the finite set of paths; agreement needs every allowed cell reachable, proved for every mask `compute_mask` returns with slope ≥ 1 |
| C19 | `cdist_soft_dtw` | false at gamma = 0 (unsquared): negation + theorem for gamma ≠ 0 |
| C20 | `_soft_dtw_grad`, `soft_dtw_alignment` | forward sums × backward sums / total = visit probability |
| C52 | `cdist_soft_dtw_normalized` with its `np.vstack` | false in parallel when padded lengths differ: negation + agreement whenever it returns |
| C21 | GAK DP over ℝ (`unnormalized_gak`, `gak`, `cdist_gak`) | sum over the finite set of paths; the documented Gaussian local kernel is refuted (code uses κ/(2−κ)) |
| C53 | same | the kernel on prefixes is the limit of PSD kernels obtained by iterating a PSD-preserving operator (Schur product theorem) |
| C22 | `ctw_path` loop with arbitrary projection oracle | negation witness + what holds |
| C25 | `check_dims` | case analysis |
| C24 | text format, dyadic/decimal printing as an injective printer parameter | list/string lemmas |
| C26 | conversions to and from other libraries' formats | list lemmas; tsfresh round trip is false (negation), the rest proved (partial) |
| C27 | `to_json`/`to_hdf5`/`to_pickle` on trees of python values | lists, nested strings and empty dicts are not preserved (negations); VARIMA, AutoVARIMA and the KNN regressor are never saveable; `C27_json_refused`, `C27_hdf5_empty`: what is refused or cannot be read back |
| C28 | `TimeSeriesScalerMinMax` over an ordered field with NaN | algebra + list induction |
| C29 | `TimeSeriesScalerMeanVariance` | moments; idempotence needs a target std ≥ 0 |
| C30 | `TimeSeriesImputer`, all methods | per-feature characterisation; "linear" raises on a feature without any observation (negation) |
| C31 | `TimeSeriesResampler` with `np.interp` on `np.linspace` | exact rational position arithmetic; target size 1 gives the nanmean; an empty series is a ValueError |
| C54 | `TimeSeriesFeatureSynchronizer`, with and without timestamps (timestamps as an array; a list fails in the code) | interpolation lemmas of C31 |
| C32 | `PiecewiseAggregateApproximation` and `cydist_paa` over an ordered field with NaN; the segment length of the fitted size | Cauchy–Schwarz per segment; the lower bound is false when the segments do not tile the series (negation) |
| C33 | SAX symbols, breakpoints from an arbitrary increasing quantile function, `cydist_sax` (MINDIST) | order lemmas on the symbol loop; MINDIST ≤ PAA distance ≤ Euclidean distance |
| C34 | `inverse_transform` of the three representations, uninitialised memory as a parameter | exact entries; the tail left by segments that do not tile is zero or arbitrary (negation + partial theorems) |
| C55 | transform after inverse_transform | segment means and regression slopes of reconstructions; 1d-SAX with `scale=True` scales twice (negation), single-sample segments lose the slope symbol (negation); what 1d-SAX refuses to code (`C55_oned_refuses`) |
| C56 | `cydist_1d_sax` against `inv_transform_1d_sax` | exact gap formula: the two place the middle of a segment differently (negation + partial theorem) |
| C35 | `MatrixProfile` (numpy implementation) with NaN and inf, standardisation through the model of C29, the reshape after it | characterisation of the banded row minimum; NaN spreads and a series shorter than the window makes the scaled transform fail (theorems) |
| C36 | `dtw_barycenter_averaging` from the dataset conversion to the choice among `n_init` runs; exact arithmetic, no NaN inside series | the update is the unique minimiser (exact quadratic identity), alignment is a minimum over paths, the loop is a descent; all `n_init` runs coincide and `max_iter=0` gives `None` (theorem) |
| C57 | constraint parameters as they reach the compiled function | negation: a constraint given by name is silently dropped; integer codes work (partial) |
| C58 | `dtw_barycenter_averaging_petitjean` | its update equals the one of C36 for the same alignments, its loop is a descent |
| C59 | `dtw_barycenter_averaging_subgradient`, shuffles as a parameter | the update is the gradient step, exact decrease formula; negation: positive weights do not influence the steps |
| C60 | `euclidean_barycenter` | weighted squares around the mean |
| C61 | objective of `softdtw_barycenter` over the reals with inf/NaN (`Fl`); the optimiser itself is not modelled | value from C17, alignment matrix from C20, chain rule through the Gibbs expectation |
| C37 | `TimeSeriesKMeans.fit`/`predict` as a state machine over its attributes, random initialisations an arbitrary sequence; metric and barycenter are parameters with Euclidean and DTW instances | loop invariants; Lloyd's descent argument from C58 and the mean. Three negations: `inertia_` is measured before the last update, the final assignment may raise `EmptyClusterError`, a fit without successful attempt returns silently. `max_iter_barycenter` is not passed on for `metric="dtw"` |
| C62 | the two call chains of `metric_params` in DTW k-means | negation: a named constraint reaches only the assignment, a round can increase the inertia; partial for a bare radius or slope |
| C63 | `KShape.fit` over ℝ: all attempts, `EmptyClusterError`, `_post_fit` (Model/KShape); the last column of `eigh` is a parameter | partial: attributes of the best attempt for all runs; negation: `norms_centroids_` come from the last, possibly failed, attempt, so a fitted model may carry wrong labels (concrete run, with an eigenvector `eigh` may return) |
| C64 | `_shape_extraction` | optimality given that the last column of `eigh` is a unit vector of greatest quadratic form; sign right for one feature, negation for two (the column is subtracted from every feature) |
| C65 | `_fit_one_init` of `KShape` | induction over the rounds: the sequence of centroids, labels and inertias, stopping rule, descent by `tol` |
| C50 | `cycc.py` over the reals, the FFT being the exact discrete Fourier transform; `dists += dists.T` with numpy semantics | correlation theorem by orthogonality of roots of unity, Cauchy–Schwarz. Negations: energy below 1e-9 makes a series dissimilar to itself; length-one series give three values and can be shifted out |
| C42 | `KShape.predict` (Model/KShape) | partial: right labels for at most as many queries as training series and training norms away from zero; negations for more queries (index past `norms_`) and for a zero training series |
| C38 | `KernelKMeans` as a state machine: `_get_kernel_params`, `_get_kernel`, `fit` | refit equals fresh fit when `sigma_gak_` is not stale; refuted otherwise (`C38_false_dict`, `_set_params`, `_switch`) |
| C66 | `_fit_one_init`, `fit`, `_compute_dist`, `predict` of `KernelKMeans`, weights positive | attempts as sequences of rounds, both directions; invariant of the loop over attempts |
| C67 | the same, against means in feature space | identity `used = feature + 1 - norm`; refuted on Gram matrices of unit vectors of the plane |
| C39 | selection in `KNeighborsTimeSeriesMixin.kneighbors`; `argpartition`, `argsort` any functions meeting their contract | permutation and order facts; refuted for omitted `X` with numpy's `dumb_select` |
| C40 | `KNeighborsTimeSeries` as a state machine of `set_params`, `fit`, `kneighbors`; answers are symbolic (which metric, data and query), SAX preprocessing of the classifier left out | invariants over histories; counterexample histories |
| C46 | `LearningShapelets.fit/transform/predict` as far as lengths go (Model/ShapeletFit): `max_size`, the length kept by the first fit, padding and the `ValueError` for longer data | transition system; with `max_size` given a refit is a fresh fit after any history (also of failed fits). Negations: refits on longer data raise, on shorter data are padded to the old length |
| C41 | decision loop, online predictions and generator of `NonMyopicEarlyClassifier` (Model/Early); classifiers and cluster probabilities are arbitrary functions of the prefix, NaN probabilities included | decision time characterised by a specification of expected costs; induction over streams of chunks; negations for coarse chunks and incomplete series |
| C68 | `get_cluster_probas` over ℝ (Model/EarlyProba), `pyck_` and the normalisation of confusion matrices | algebra; negation: columns are normalised where rows are documented |
| C43 | `VARIMA` for one series (Model/Varima): a sample is an element of a commutative group, coefficients are functions, NaN padding is `none`; the numerical search for coefficients is left out | forward differences of the continued timeline; negation for second differences (`_undifference` uses wrong signs and `sd` holds undifferenced samples) |
| C69 | the same, `fit`, `predict()` and `predict(X)` | induction over the horizon; residuals on padded data; negations for q > p on padded data and for d = 2 |
| C70 | `compute_var`, `_default_params_per_ts`, `_unravel_params` without moving average | index arithmetic of ravel and reshape; negation for two features |
| C44 | order search of `AutoVARIMA` (Model/AutoVarima): the criterion is an arbitrary partial function, set iteration an arbitrary permutation per round; KPSS an arbitrary predicate | loop invariant, cardinality bound on fitted models, lockstep of two orders |
| C45 | the layers `PatchingLayer`, `LocalSquaredDistanceLayer`, `GlobalMinPooling1D`, `GlobalArgminPooling1D` (Model/Shapelets) on arrays with missing samples; Keras assumed to pass the masks between layers, infinities left out | algebra and index arithmetic of the reshape; right for one feature or one shapelet. Negations: for two features and two shapelets the cross term reads another shapelet (negative distances), leading NaN, batch-wide maximum |
| C47 | `metrics/performance.py` (Model/Performance): mae, mse, mase, aggregations | algebra, Jensen. Negations: averages of mase depend on the units of each feature; mismatched shapes accepted |
| C48 | `instantiate_backend` (Model/Backend): arguments as kinds (name, backend object, numpy, torch, other) | case analysis of the scan. Negations: first argument wins over an explicit one, order matters, lists |
| C49 | DBSCAN after the distance matrix (Model/Dbscan); `_patch_attribute` as a state transformer whose body may raise | counting; case analysis. Negation: `components_` has two dimensions without core series |
| C71 | `dbscan_inner` of scikit-learn (stack search, fuel shown enough) | invariants of the search and of the outer loop; labels characterised completely for symmetric distances. Negation: one-way distances |
| C72 | predictions of the nearest-neighbour classifier and regressor; `predict`, `predict_proba`, `_get_weights`, `weighted_mode` of scikit-learn from its source | weights non-negative: first class of greatest weight, probabilities, convex combination. Negations: with `weights="distance"` and soft-DTW (negative for a series and itself) the class is 0 whatever the vote, `predict_proba` disagrees, regression leaves the range of the targets |
| C73 | `TimeSeriesSVC`/`TimeSeriesSVR`: keyword arguments, bandwidth, matrices, state after fits; solver of scikit-learn a parameter | lookup tables; matrices from C21; state machine over any calls. Negations: `epsilon` of the regressor is never handed over, `gamma="auto"` of other kernels is not `1/n_features`, a fit that raises destroys the fitted model |
| C74 | `sigma_gak`, `gamma_soft_dtw`; the random draw is a parameter with the contract of `choice` | both medians shown to be in the middle of the pairwise distances, units, relation of both bandwidths. Negations: zero for data with two values though points differ, PyTorch's lower median |
| C75 | supervised nearest neighbours with `_sax`, `_sax_preprocess`, `_precompute_cross_dist`, `kneighbors`; distances of the other metrics are a parameter; numba refuses float indices (`cydist_sax` of words and series) | MINDIST shown equal to the gap of the breakpoints separating segment means, new classifier without scaling. Negations: scaling refitted on the queries, `_sax` never replaced, regressor compares words with series, `n_jobs` key, `kneighbors()` on zeros, changing `metric` after a SAX fit keeps comparing words |
| C76 | `silhouette_score` and what it calls in scikit-learn (`silhouette_samples`, number of labels, zero diagonal, upper triangle for callables); matrices of `cdist_dtw` and soft-DTW are parameters; `sample_size` left out | score shown to be the mean coefficient of a separate definition; range, perfect clusters, scaling and relabelling follow from it. Negations: callables without parameters, padding refused, `verbose` key, asymmetric callables |
| C77 | `grabocka_params_to_shapelet_size_dict` in exact arithmetic (`int(log10 x)` is the number of digits less one), windows of `_kmeans_init_shapelets`, `_preprocess_labels`, state of `fit`, `predict`, `predict_proba`; training is a parameter giving a network | exact condition for the heuristic; targets are indicators, predictions the first greatest probability. Negations: lengths that do not fit, short queries, labels and network after a failed fit |
| C78 | `random_walks`, `random_walk_blobs` from a stream of normal draws | increments and closed forms by induction, draws enumerated by position, labels counted |
| C79 | `SoftLoss` (Model/SoftLoss): mask, in-place `inf`, accumulated table, rounding `torch.Tensor` as a parameter `f32` (concrete: `f32Round`, 24 bits, ties to even), backward pass, autograd through the default distance | `C79_rounded` for any rounding, `C79_error` (relative error 2⁻²⁴); value, agreement with `soft_dtw`, backward and both gradients without rounding (`_partial`); refuted: the caller's matrix is overwritten (`C79_false_overwritten`), loss and gradient in 64-bit precision (`C79_false_precision`). Autograd itself and the arithmetic of floats other than the explicit conversions are idealised. |
| C80 | `Datasets` (Model/Datasets): paths as component lists, a file system of files and directories, server, parsers and `Path.stem` as parameters; aliases, removal of the old copy, extraction, choice of format, lists, baseline scores | `C80_cached`, `C80_download` (result is the dataset of the archive, stale files gone, rest unchanged), `C80_frame`, `C80_again`, `C80_bad`, `C80_alias`, `C80_lists`, `C80_baseline`. Refuted: failures give None and keep the copy (`C80_false_offline`), listed means available (`C80_false_listed`), refresh of corrupt copies (`C80_false_corrupt`), names stay inside the cache (`C80_false_empty_name`, `C80_false_parent`), offline lists and scores (`C80_false_lists`). Not modelled: symbolic links, permissions, the temporary directory (it leaks when the download raises), corruption found in the middle of an archive |
| C81 | `Mlp` (Model/Mlp): the wrappers of `neural_network.py` with their attributes as state; scikit-learn's perceptron is a parameter (validation, training, width, evaluation) except for how `_fit` and `predict` treat `n_features_in_`, which is library behaviour taken as read | `C81_rows`, `C81_two_axes`, `C81_predict`, `C81_predict_pure`, `C81_partial_first`, `C81_partial_next`, `C81_unfitted` for all; `C81_fit_partial` and `C81_calls_partial` (simulation over all call sequences) without `warm_start` and without failures. Refuted: `C81_false_warm`, `C81_false_failed_fit`, `C81_false_failed_first`, `C81_false_failed_partial`. Left out: inputs with one or more than three axes, empty axes, non-finite values (refused by the library) |
| C82 | `_k_init_metric` (Model/KInit) over any metric and field; random draws are parameters, sums exact; `_check_initial_guess` | `C82_draw`, `C82_seeds`, `C82_greedy`, `C82_trials`, `C82_guess` for all; `C82_new_partial`, `C82_distinct_partial` for separating metrics and positive draws; `C82_nearest_partial` for values that are not negative. Refuted: `C82_false_zero`, `C82_false_softdtw`, `C82_false_nearest` (the last two on values of the soft-DTW model). Euclidean seeding is scikit-learn's and left out |
| C83 | `SoftDTW`, `SquaredEuclidean` and the loops of `soft_dtw_fast.py` (Model/SoftObj) over the reals; `DBL_MAX` is a parameter `B`, objects are states | `C83_value_border` (value = soft minimum on the grid with border), `C83_gradient`, `C83_calls`, `C83_chain` for all; `C83_value_partial` bounds the effect of the border. Refuted: `C83_false_exact` (a finite border always lowers the value, visibly for huge `gamma`). Left out: empty matrices, `gamma = 0`, overflow and underflow of floats |
| C84 | layers by name, weights as shape and entries, `shapelets_`, `get_weights`/`set_weights`, outputs, JSON files (Model/ShapeletNet); Keras is trusted to find layers by name, check shapes and share layers between models | proved for every network with the layers and shapes that `fit` builds; `C84_transform_partial`, `C84_locate_partial` as in C45; refuted: `C84_false_alias` (the fitted attribute is the caller's dictionary). Left out: training, state of the optimiser, network left by a failed `set_weights` |
| C85 | `Model/PieceLife`: the three piecewise estimators as objects (parameters, attributes possibly absent), `fit`, `fit_transform`, all queries, histories of calls; NumPy's broadcast of kept statistics is modelled; `sigma_l` positive | Partial, as it is false in three ways: `C85_false_stale_scale` (statistics of an earlier dataset), `C85_false_failed_fit` (half-finished fit of 1d-SAX), `C85_false_segments` (stale slope breakpoints). Proved: `C85_fit_transform`, `C85_not_fitted`, `C85_fit_raises`, `C85_alphabet_at_fit`, `C85_segments_live`, `C85_transform`, `C85_distances`, `C85_inverse` (links to C31-C36, C55), `C85_inverse_words`, `C85_stale_features`, `C85_refit_partial`, `C85_failed_fit_partial` |
| C86 | `Model/VarimaFit`: the loop of `_loss` with the errors it adds up, `n_valid_samples`, `variance`, `lle_`, the fit with the optimiser as a parameter (contract: not worse than its start), starting values of the moving average; real logarithm, so a sum of squares of zero is excluded | `C86_errors`, `C86_count`, `C86_value`, `C86_scaled`, `C86_fit`, `C86_ma_reversed` for all models and datasets. Partial, as it is false in three ways: `C86_false_lle` (likelihood of `p`, `q` > 0 multiplied by samples, not errors), `C86_false_features` (two features counted as one), `C86_false_ma_start` (lags of the starting moving average reversed); `C86_lle_partial` and `C86_ma_start_partial` where it holds |
| C87 | the profile of `Model/MatrixProfile`, and `MatrixProfile` as an object (`MpEst`: parameters, number of features of the fit); real arithmetic; stumpy is third-party | proved from the characterisation of C35 (`IsProfile`, least distance outside the exclusion zone): affine images, reversal, bound, longer subsequences, motif pairs, independence of the other series, histories |
| C88 | the models of `dtw`, `frechet`, `soft_dtw`, `gak`, `lcss` and of the masks, unchanged; `Proofs/Reverse` reads warping paths backwards | every accepted mask is point-symmetric (rounding half to even of `N - t` is `N` minus the rounding of `t`, also at two decimals), so reversing paths is a bijection of the admissible ones that keeps their costs; similarities multiply every cost by one number, and optima follow monotone maps. **False for `lcss` in a band of radius 0** (`C88_false_lcss_radius_zero`, 0 against 2/3): cells outside the band hold 0 and a miss on a bare diagonal forgets what was counted; and **false under Itakura** with its default slope (`C88_false_lcss_itakura`, 0 against 1/4); true without constraint and for other bands |
| C89 | the models of `dtw` and `frechet`, unchanged; `Spec/Runs.squeeze` keeps one sample of every run | two optimal paths sharing a series are composed into a path every pair of which goes through a sample of the shared series (`WP.compose`); the Euclidean triangle inequality on lists gives Fréchet's. Zero pairs by induction on a path of equal samples, in both directions. **False**: the triangle inequality in bands of one radius (`C89_false_frechet_band`; proved with added radii) and for `dtw` (`C89_false_dtw_triangle`; proved with the factor √(n+m−1)) |
| C90 | `Model/Tags`: tags of all estimators in both interfaces, `check_array` with its three settings, `check_variable_length_input`, the validation at the beginning of every `fit` including scikit-learn's; kinds of samples only | case analysis over estimators with metric names left free. **False**: `C90_false_flattened` (kernels other than gak, metrics that are not tslearn's), `C90_false_allow_nan`, `C90_false_lists`; `C90_promised_partial` is what holds |
| C91 | the k-means, DBA, k-means++, DBSCAN and silhouette models; `Spec/Units`, `Spec/UnitsKm`: samples `a * x + t`, costs times `a ^ 2`, attributes of an estimator in the new unit | the accumulated matrix is mapped entry by entry, the traceback makes the same choices, updates are affine; k-means by induction on rounds and attempts for any metric that follows the change, instances Euclidean and DTW. **False** for units with absolute tolerances: `C91_false_kmeans`, `C91_false_dba` |
| C92 | Python's binding of arguments to parameters (`pyBind`), the signatures of the functions of the metrics, and the code that prepares and forwards `metric_params` in k-means, the neighbours estimators and DBSCAN (Model/MetricParams); values are opaque | for all dictionaries: the full binding of every call and `TypeError` for other entries (k-means, neighbours); soft-DTW k-means measures with one metric in both steps. Negations: DBSCAN drops unknown entries, does not override `n_jobs` with `None`, accepts `dataset2`; neighbours ignore `n_jobs` under soft-DTW and CTW; SAX `fit` refuses `n_jobs`; Euclidean k-means ignores all (partial) |
| C93 | The existing models of datasets, barycenters, `_cdist_generic`, k-means, silhouette, neighbours and DBSCAN, on permuted inputs (Spec/Order: `LabelsFollow`, `SameButOrder`, `Renumbers`) | sums and multisets over lists of pairs (series, weight); k-means by a relation between the two runs; sorted lists for neighbours. Negations: the first series fixes the number of features; a tie at the last neighbour and border series of DBSCAN go with the series given first |
| C94 | The deprecated `soft_dtw`, `soft_dtw_alignment`, `cdist_soft_dtw`, `cdist_soft_dtw_normalized` of softdtw_variants.py (Model/SoftOld; the recursion with the border `DBL_MAX` as a parameter `B`) beside the present functions | the border recursion is a sum over alignments of the matrix with a border of cost `B`; paths through the border have weight at most `3^(m+n) exp(-B/gamma)`; reversed matrix for the gradient. Negations: at `gamma = 0` the deprecated matrix holds squared distances where its replacement holds distances; a series without observed sample is refused by one and not by the other backend as before |
| C95 | `cdist_sax` with the conversion to 64-bit integers (`nan` becomes the smallest integer, wrap-around, unchecked reads of the breakpoints = outside of the model), `cdist_ctw` (Model/CdistWords) | no overflow for symbols of the alphabet, then the generic matrix lemmas, C33 (lower bound), C22 (CTW score). Negations: words of different lengths in one set are not refused, `(0)` and `(0, 0)` are at 0 and other symbols read outside of the array; the diagonal of `cdist_ctw` is 0 where `ctw` of the pair raises |
| C96 | no new model: `dtw`, `frechet`, `soft_dtw`, `unnormalized_gak`, `lcss` on joined, stretched and thinned series | concatenation of warping paths (injective, so it also bounds the sums over paths), alignments built from the front with their cost for repeated samples, composition of paths (C89) for Fréchet, order embeddings of subsequences for LCSS. Refuted besides: squared DTW is not unchanged by repetition, and neither holds in a Sakoe-Chiba band (band version proved for pieces of equal lengths) |
| C97 | `softdtw_barycenter` with its default start (mean, or mean of the resampled series) and the optimiser as an arbitrary function of the objective (Model/SoftBary), `totalWeight` in Spec/Weighted | `totalWeight` (`Spec/Weighted`) is the weight of a series over all its occurrences. If all totals agree up to a factor, `C97_dba` (given start), `C97_petitjean` and `C97_euclidean` (series of one length) give the same results round by round, `C97_dba_copies` turns weights into copies, `C97_soft_objective` scales soft-DTW's objective and gradient and `C97_softdtw` has the same result for every optimiser when the totals agree (given start, or default start when the longest series have one length). `C97_false_dba_default`: DBA's default start ignores the weights, so weight 2 and two copies end elsewhere. `C97_false_zero`: a series of weight 0 sets the length of a DBA barycenter and makes a Euclidean one NaN. |
| C98 | Model/Rounded: the DTW and Fréchet kernels with a rounding after each subtraction, product, addition and square root (same table engine, order of the source). Spec/Rounded: `RelErr`, `OddMono`, `NearRel` and a concrete truncation to `p+1` bits. No overflow/underflow/NaN. | Proved: one relative error per operation along a path of at most `n+m-1` pairs, transferred to the optimum in both directions; symmetry, zero self distance, sign, mask monotonicity, power-of-two scaling and exactness on integers for any monotone odd rounding; truncation is shown to meet every hypothesis. `C98_false_time_reversal`: reversal changes the computed value (3 bits: 8 against 10). |
| C99 | no new model; Spec/Wiggle: `Wiggle d ε x x'` (same times and features, samples within `ε`), `WithinTop` | two triangle inequalities per pair of samples, Minkowski along a path of at most `n+m-1` pairs, and the optimum of either pair is a competitor for the other; the envelope and the distance to an interval are 1-Lipschitz (`lb_keogh`); sums of exponentials (`soft_dtw`); matchings survive a larger threshold (`lcss`, free or in a band). Negations, for every perturbation `δ > 0`: `lcss` at a fixed `eps` jumps from 1 to 0, mean-variance scaling of a constant series jumps by 1, symbols differ. Not covered: LCSS with an Itakura mask or a band that is a bare diagonal |
| C100 | nothing new: `Knn`, `KnnPredict`, `KMeans` (labels), `Dbscan`; spec `Moved`, `Gap` (`Spec/Margin.lean`) | neighbours, order, class, probabilities and target of uniform neighbours, k-means labels and the whole DBSCAN fit are unchanged under a gap of more than twice the change, for any valid selector; composed with C99 for DTW and Fréchet; inverse distances with a margin of the votes (`C100_distance`); the factor 2 is needed (`C100_sharp`); refuted for inverse distances with only a margin of the distances (`C100_false_distance`) |
| C101 | `Blocks.lean`: `compute_mask` with sizes, NumPy integers or series, `dtw_accumulated_matrix` with NaN (how `min` orders NaN is left open), `frechet_accumulated_matrix` | composition for unpadded series (`C101_dtw`, `C101_frechet`), entries are distances of prefixes (`C101_prefix`); refuted for padding, different numbers of features, unknown codes, mixed sizes and series, NumPy integers |
| C102 | `Files.lean`: `_load_txt_uea` and `_load_arff_uea` from what `numpy.loadtxt` and `loadarff` return (the parsers themselves are library code) | entries and labels for all tables of at least two series whose ends are not all missing (`C102_txt`), ARFF (`C102_arff`, `C102_multivariate`), equality of both (`C102_same`); refuted for one series in a text file (also through `load_dataset`), series of one sample in ARFF, labels with fractions, ends that are missing everywhere |
| C103 | `Scaler.lean`, `Interp.lean` (scalers, imputer, resampler), `Spec/Rescale.lean` (a dataset in other units) | invariance of both scalers under increasing affine maps per group (`C103_minmax_units`, `C103_meanvar_units`), from it that a later scaler forgets an earlier one of the same or larger groups, for pipelines fitted on one dataset and applied to another (`C103_forgets`, `C103_forgets_fit_transform`); idempotence of every imputation method and of resampling (`C103_impute_twice`, `C103_resample_twice`); commutation with units (`C103_impute_units`, `C103_resample_units`); resampling by way of a finer grid (`C103_resample_through`). False for a scaler fitted on constant data and applied to other data, which divides by one in every unit (`C103_false_constant_fit`); sharp in that smaller groups are not forgotten and coarser grids lose samples (`C103_false_finer`, `C103_false_coarse`) |
| C104 | `RoundedMore.lean` (LB_Keogh, subsequence search and LCSS with a rounding after every operation), `Spec/Dot.lean` (the values a sum of squares may take, in any order of summation, with or without fused multiply-add) | relative error of sums of squares in any order (`C104_dot_error`), of LB_Keogh (`C104_keogh_error`), its zeros (`C104_keogh_zero`) and its use for pruning (`C104_keogh_safe`); near-optimality of the computed window and path (`C104_subsequence`); LCSS sandwiched between thresholds (`C104_lcss_hits`, `C104_lcss`, `C104_lcss_exact`). Sharpness: without the slack the computed bound exceeds the computed distance (`C104_false_keogh`), the worse window can win (`C104_false_best_match`), a pair beyond the threshold can match (`C104_false_lcss_threshold`). As in C87 the rounding is any monotone function of bounded relative error: overflow and underflow are left out |
| C105 | `RoundedScaler.lean` (both scalers with a rounding after every operation), `Spec/Binary.lean` (rounding to nearest even, sums in any order), `Proofs/Binary.lean` (nearest-even rounding is monotone, odd, idempotent, of relative error 2^-(p+1) and commutes with powers of two) | error, order and range of min-max scaling (`C105_minmax_error`, `C105_minmax_order`, `C105_minmax_low`, `C105_minmax_range`); sums (`C105_sum_error`, `C105_short_sum`); mean-variance scaling as the affine map of a perturbed mean and deviation, its order and bounds, constant series of few bits (`C105_meanvar_error`, `C105_meanvar_order`, `C105_meanvar_bounded`, `C105_constant`). What fails in doubles: `C105_false_constant` ([0.1, 0.1, 0.1] is scaled to -1), `C105_false_range` ((0, 0.1) is left). Overflow and underflow are left out |
| C106 | `Memory.lean` (buffers, arrays as windows on them, assignments in place; `be.array` of both backends, `to_time_series`, `to_time_series_dataset`, `check_array`, imputer, synchroniser, VARIMA's rolling, AutoVARIMA's candidates, subgradient DBA, soft-DTW barycenter, what estimators keep, `KernelKMeans`), `Spec/Memory.lean` | results are new and nothing of the caller's is written to (`C106_dataset`, `C106_series_numpy`, `C106_series_torch_new`, `C106_impute`, `C106_synchronize`, `C106_varima`, `C106_subgradient`, `C106_softdtw`); in-place work computes what the pure models of C30, C58, C59 define (`C106_impute_value`, `C106_synchronize_value`, `C106_rolled`, `C106_candidates`); fitted estimators keep copies (`C106_fitted`, `C106_fitted_content`, `C106_kernel_kmeans_list`). False: `C106_false_series` (the PyTorch backend returns views), `C106_false_softdtw`, `C106_false_kernel_kmeans` (predictions change with the caller's array). What a call that fails halfway leaves in its own working copy is only modelled for VARIMA |
| C107 | `FloatGak.lean` (`_unnormalized_gak`, `gak`, `cdist_gak` with rounding, infinities and NaN; the format is a rounding and a bound, concretely IEEE doubles with subnormal numbers; computed `exp` and `log` are parameters with weak contracts), `Spec/FloatGak.lean` | symmetry to the last bit (`C107_symm`), numbers for up to 256 samples (`C107_finite`), self-similarity 1 up to 5 roundings (`C107_self`), matrix of numbers with diagonal 1 up to 6 roundings (`C107_cdist`), entries equal to `gak` up to 12 roundings unless close to underflow (`C107_cdist_entries`, `C107_cdist_query`). False: `C107_false_long`, `C107_false_constant` (1026 equal samples give NaN), `C107_false_cdist`, `C107_false_cdist_query` (one long series turns the whole matrix NaN). Trusted besides: the matrix product evaluates all products (zeros included) and adds them in some order; the sign of zeros is left out; bandwidths whose square under- or overflows are excluded |
| C108 | `FloatSoft.lean` (`softmin3`, the NumPy table, `soft_dtw` in the formats of C107), `Spec/FloatSoft.lean` (errors of rounding, exponential and logarithm) | error bound against the soft minimum over all admissible paths of C17, for every constraint (`C108_error`); symmetry to the last bit (`C108_symm`); doubles meet the hypotheses (`C108_doubles`). False for very small `gamma`: `C108_false_small_gamma` (the quotient by `gamma` overflows and the max-shift gives `inf - inf`). PyTorch and the normalised variant are not covered |
| C109 | `FloatKernelKMeans.lean` (`_compute_dist`, `_compute_inertia`, `_fit_one_init`, `fit`, `predict` on kernel values that may be infinite or NaN, in the formats of C107; `numpy.argmin` and `numpy.min` with their NaN rule; `numpy.sum` under the contract of C107), `Spec/FloatKernelKMeans.lean` | the three outcomes of `fit` for every kernel matrix, weights and drawn labels (`C109_outcomes`), and what `predict` does in each (`C109_predict`, `C109_no_rounds`). The claim is false: `C109_false_nan`, `C109_false_one_cluster`, and for the kernel "gak" with one long series `C109_false_gak` |
| C110 | the model of C66 (`KernelKMeans.lean`), `Spec/Pooled.lean` (datasets with the same series in other places, numbers of copies and weights) | fits correspond when every series has the same number of copies, the weights sharing a common factor (`C110_fit`: order, scaling of the weights, repeated datasets), predictions correspond for any numbers of copies (`C110_predict`), and weights are multiplicities for one attempt without tolerance (`C110_multiplicity_partial`). In general they are not, as the inertia leaves the weights out: `C110_false_attempts`, `C110_false_tol`. Drawn labels are assumed to follow the series |
| C111 | `Model/Random.lean`: every function with `random_state`, with the generators of the process as explicit state (`World`: NumPy's global one, that of Keras, the user's `RandomState` objects) around the models of the other files; `Spec/Random.lean` says what good behaviour is. Number generation (`Rng`: state space and the answers of `choice`, `randint`, `permutation`, `randn`, `random_sample`), scikit-learn's k-means++, split and solver, and the training by Keras are arbitrary parameters; Python's own generator, which `set_random_seed` also seeds, is left out | `C111_calls`, `C111_calls_real`, `C111_early`, `C111_svc`, `C111_svc_auto`, `C111_array_*`, `C111_shuffles`, `C111_walks_*`, `C111_blobs_noiseless`, `C111_more_attempts*`, `C111_kernel_auto`, `C111_shapelets_partial`. False: `C111_false_shapelets` (an integer reseeds the global generator), `C111_false_refit`, `C111_false_auto` (KernelKMeans), `C111_false_early`, `C111_false_blobs` |
| C112 | `Model/RoundedPaa.lean`: PAA, SAX, `distance_paa` and `cydist_sax` with every operation rounded (`rnd`); the order of NumPy's sums is a parameter (`Spec.RoundedSum`, `Spec.RoundedDot`: any order and grouping). `Spec/RoundedPaa.lean`: the samples of a segment, their mean and mean absolute value. Overflow and underflow are left out; breakpoints are the stored ones | `C112_paa` (error of a mean), `C112_symbol` (same symbol away from breakpoints), `C112_scaled` (the same with scaling), `C112_order` (monotone), `C112_grid`, `C112_constant`, `C112_scale` (IEEE rounding to nearest), `C112_distance`, `C112_words` (relative errors of the squared distances, zero exactly when the exact one is). Refuted: `C112_false_constant` (three samples 0.1), `C112_false_permutation`, `C112_false_lower_bound` (series differing in the last bit of one sample) |
| C113 | `Model/RoundedMasks.lean`: the bounds of `itakura_mask` with every operation rounded (`rnd`; the theorems take IEEE rounding to nearest `nearBits p`, doubles `p = 52`), filled and checked by `itakuraFill` of `Model/Masks.lean`. NumPy backend; PyTorch would use `float32` arrays. Overflow and underflow are left out. Compared with the exact `itakuraMask` of C51 and its spec `InParallelogram` | `C113_bounds` (within one), `C113_parallelogram`, `C113_feasible`, `C113_equal_lengths`, `C113_margin`, `C113_rational`, `C113_default` (same outcome as exact arithmetic). Refuted: `C113_false_mask`, `C113_false_raises`, `C113_false_passes`, `C113_false_default` |
| C114 | `Model/RoundedBary.lean`: `euclidean_barycenter`, the update of DTW barycenter averaging and Petitjean's update with every operation rounded (`rnd`); the orders of NumPy's sums and matrix products are parameters (`Spec.RoundedSum`, `Spec.RoundedInner`: any order and grouping, products fused or not). The alignment paths are given (their cost in rounded arithmetic is C98). `Spec/RoundedBary.lean`: weighted means of the aligned samples. Overflow and underflow are left out | `C114_euclidean`, `C114_dba`, `C114_petitjean` (errors), `C114_weights` (powers of two), `C114_grid`, `C114_copies` (IEEE rounding to nearest). Refuted: `C114_false_dba_copies`, `C114_false_range`, `C114_false_weights` |
| C115 | `Model/Missing.lean`: `dtw`, `dtw_path`, `frechet`, `soft_dtw`, `gak`, `lcss` on series with NaN; costs are NaN, `inf` or exact numbers. Trusted besides: Numba's `min` and `max` of floats follow Python's (`b if b < a else a`), `torch.min`/`torch.max` return NaN when an operand is NaN; PyTorch's `cdist` gives NaN exactly where a row has NaN. `argmin` of the path is arbitrary. `lcss` and `gak` without a constraint. Infinite samples are left out. `Spec/Missing.lean` | `C115_dtw_no_number`, `C115_dtw_first`, `C115_dtw_second`, `C115_torch`, `C115_frechet_first`, `C115_frechet_second`, `C115_soft`, `C115_gak`, `C115_path`, `C115_lcss`, `C115_lcss_count`, `C115_rejects`; `C115_agrees`, `C115_agrees_torch`, `C115_agrees_real` (without NaN these are the other models). Refuted: `C115_false_symmetric`, `C115_false_backends`, `C115_false_frechet` |
| C116 | The model of C109 (`Model/FloatKernelKMeans.lean`: rounding, overflow, NaN) with kernel values that are numbers; sums in any order and grouping (`Spec.FlSum` in `Spec/KernelDistances.lean`); exact distances `Spec.kernelDist`. Underflow is left out (the rounding has a relative error everywhere) | `C116_distance`, `C116_predict`, `C116_fit`, `C116_stop`, `C116_zero_bandwidth`. Refuted: `C116_false_nearest` (doubles; a mean kernel value of 2^-60 is not told from 0) |
| C117 | `Model/Gaps.lean` over the distances of C115: `cdist_dtw` with NumPy, `kneighbors` (NaN sorts last, after `inf`), `fit` and `predict` of `TimeSeriesKMeans` with NaN and `inf` costs (`Fl`), given initial centroids and an arbitrary barycenter function of centroids. The distance of the inertia may differ from that of the labels (they do for the metric `softdtw`); an exception in the barycenter leaves all old centroids. Infinite samples and series without any observed sample are left out | `C117_total`, `C117_cdist`, `C117_order`, `C117_neighbours`, `C117_query`, `C117_kmeans`, `C117_rounds`, `C117_label` |
| C118 | `Model/GapBary.lean`: the three versions of DTW barycenter averaging with NaN samples and `inf`/NaN costs, over the tables of C115 and the paths of C02 (any argmin). Trusted: `numpy.dot` multiplies and adds all entries, so that `0 * NaN` is NaN. Left out: series without any observed sample, weights summing to zero, initial barycenters of another number of features | `C118_none`, `C118_returns`, `C118_mm`, `C118_tol`, `C118_petitjean`, `C118_subgradient`; on complete series the model equals that of `Model/Dba.lean`: `C118_complete`, `C118_complete_updates` |
| C119 | `Model/GapSearch.lean`: `subsequence_cost_matrix`, `subsequence_path` and `dtw_subsequence_path` with NaN costs (both backends call Python's `min`), `lb_envelope` and `lb_keogh` with NaN samples. Trusted: `numpy.argmin` answers the first NaN if there is one; `numpy.min` and `numpy.max`, also Numba's, answer NaN if the slice has one. Infinite samples and series without any observed sample are left out | `C119_matrix`, `C119_end`, `C119_best`, `C119_query`, `C119_reference`, `C119_keogh`, `C119_keogh_bound`, `C119_keogh_padded`; on complete series these are the models of C13 and C14: `C119_complete`, `C119_keogh_complete`. Refuted: `C119_false_search`, `C119_false_keogh` |
| C120 | `Model/Surround.lean`: `cast`, `check_keras_backend`, `_check_root_dir`, `cache_all` (over the loader of C80's model), `CachedDatasets`, `in_file_string_replace`, `EmptyClusterError.__str__`, `ts_size`. Trusted: `pathlib`'s stem and suffix, `str.replace` and `str.lower` on ASCII letters, `import_module` as an outcome per name, `tolist` and `array` keep the content | `C120_cast`, `C120_cast_twice`, `C120_cast_other`, `C120_keras`, `C120_root`, `C120_cache_all`, `C120_cached`, `C120_replace`, `C120_in_file`, `C120_error`, `C120_size`. Three parts are false of the code: `C120_false_cast` (unknown array types give a NumPy array or the data itself), `C120_false_cache_all` (a corrupt archive is not cached and not warned about), `C120_false_cached` (a listed name with a dot is looked for under another name) |
| C121 | `Model/Saved.lean`: for every estimator the attributes its `fit` sets, those `_is_fitted` asks for, those `_get_model_params` writes and those the answering call reads, by name; what the call computes from the attributes it reads is an arbitrary function. Values and formats of files are C27's subject. A classifier with metric `"sax"`, whose representation is not written, is treated on the model of C75 | `C121_answers` (any state that can be saved), `C121_saves` (after a first fit), `C121_again`, `C121_refused`, `C121_lost`, `C121_classifier`. False of the code: `C121_false` (a classifier with a metric of scipy, the regressor and the forecasters cannot be saved; a loaded `MatrixProfile` is not fitted, a loaded `KNeighborsTimeSeries` with a metric of scipy lacks `_d`), `C121_false_sax` (`metric_params` changed after the fit) |
| C122 | `Model/FloatSoftNorm.lean`, on the soft-DTW of C108: `soft_dtw_normalized` and `cdist_soft_dtw_normalized` with every operation rounded and put into the format; `gamma = 0` (plain DTW) is left out; the self values of two datasets are computed in order (the parallel branch is C52's subject); the order of operations is the one written in the code (no fused multiply-add) | `C122_self` (exact zero when `soft_dtw(s, s)` is finite and its double does not overflow), `C122_self_zero` (sufficient condition on data and `gamma`), `C122_symm`, `C122_error` (within `(4 L + 1) * step` of the normalised soft minimum over paths), `C122_cdist_self`, `C122_cdist_cross` (to the last bit), `C122_cdist_diag`, `C122_doubles`. False of the code for a huge `gamma`: `C122_false_overflow`, `C122_false_gamma`, `C122_false` (`soft_dtw_normalized([0, 0], [0, 0], gamma=2**1023)` is infinite) |
| C123 | `Model/RoundedLimited.lean`: the table of costs by length of C12 with the rounded kernel of C98 (a rounding after each subtraction, product, addition and square root); the first entry is stored without an addition, as in the code. No overflow, underflow or NaN | Proved: `C123_optimal` (least rounded cost over short paths, and the path that attains it), `C123_squared_error` and `C123_error` (`L + d + 3` relative errors before the root), `C123_eq_dtw` (bit for bit, which needs the rounding to be idempotent because `dtw` adds zero to the first local cost), `C123_symm`, `C123_self`, `C123_monotone`, `C123_scale`, `C123_integers`, `C123_rejects` |
| C124 | No new code: the selection of neighbours (Model/Knn, Model/KnnSup), the labels of k-means (Model/KMeans), DBSCAN (Model/Dbscan) and the rounded distances of C98. The distances computed in rounded arithmetic are any values within a relative error of the exact ones; the sums over votes are exact | Proved: `C124_quality`, `C124_same`, `C124_distance`, `C124_kmeans`, `C124_dbscan` for every relative error, `C124_dtw` and `C124_frechet` for the errors of C98. Without a gap the decision can flip: `C124_false_label` (three bits, two centers computed at the same distance) |
