{
 "claims": [
  {
   "property": "C01",
   "status": "proved",
   "theorems": [
    "Verif.C01_accumulated_matrix_optimal",
    "Verif.C01_rounded_addition",
    "Verif.C01_dtw_squared",
    "Verif.C01_dtw"
   ],
   "note": "Squared DTW is the least admissible path cost (any monotone accumulation, exact and rounded); +inf iff no admissible path."
  },
  {
   "property": "C02",
   "status": "proved",
   "theorems": [
    "Verif.C02_path_terminates",
    "Verif.C02_path_optimal",
    "Verif.C02_dtw_path_from_metric",
    "Verif.C02_dtw_path"
   ],
   "note": "Traceback terminates; path valid, inside mask, cost equals value."
  },
  {
   "property": "C03",
   "status": "proved",
   "theorems": [
    "Verif.C03_traversal_orders_agree",
    "Verif.C03_dtw_backends_agree"
   ],
   "note": "Row-major and anti-diagonal engines compute the same table."
  },
  {
   "property": "C04",
   "status": "proved",
   "theorems": [
    "Verif.C04_nonneg",
    "Verif.C04_self_of_diagonal",
    "Verif.C04_self",
    "Verif.C04_transpose",
    "Verif.C04_symm",
    "Verif.C04_dtw_symm",
    "Verif.C04_itakura_not_symmetric"
   ],
   "note": "Non-negative for all constraints; reflexive and symmetric unconstrained and under Sakoe-Chiba. Also proved: symmetry is false under Itakura (concrete witness), outside the property's statement."
  },
  {
   "property": "C05",
   "status": "proved",
   "theorems": [
    "Verif.C05_band_wide",
    "Verif.C05_band_tall",
    "Verif.C05_transpose",
    "Verif.C05_feasible",
    "Verif.C05_dtw_finite"
   ],
   "note": "Exact band, transpose, feasibility, finiteness."
  },
  {
   "property": "C06",
   "status": "proved",
   "theorems": [
    "Verif.C06_mask_monotone",
    "Verif.C06_radius_monotone",
    "Verif.C06_unconstrained_least",
    "Verif.C06_slope_monotone",
    "Verif.C06_radius_zero",
    "Verif.C06_radius_large",
    "Verif.C06_le_euclidean"
   ],
   "note": "Monotone in mask, radius and Itakura slope; radius 0 = Euclidean; large radius = unconstrained; DTW <= Euclidean. Frechet analogue: see C10 theorems."
  },
  {
   "property": "C07",
   "status": "proved",
   "theorems": [
    "Verif.C07_ambiguous",
    "Verif.C07_inferred",
    "Verif.C07_explicit",
    "Verif.C07_names",
    "Verif.C07_unknown_code"
   ],
   "note": "Complete decision table of compute_mask and of constraint names."
  },
  {
   "property": "C08",
   "status": "proved",
   "theorems": [
    "Verif.C08_size",
    "Verif.C08_to_time_series",
    "Verif.C08_to_time_series_flat",
    "Verif.C08_validate",
    "Verif.C08_dtw",
    "Verif.C08_frechet",
    "Verif.C08_lcss",
    "Verif.C08_soft_dtw",
    "Verif.C08_gak",
    "Verif.C08_limited_warping"
   ],
   "note": "dtw, dtw_path, frechet, lcss, limited warping, soft_dtw (3 entry points), gak; interior-NaN values are an error value of the model, equal on both sides"
  },
  {
   "property": "C09",
   "status": "proved",
   "theorems": [
    "Verif.C09_cross",
    "Verif.C09_self",
    "Verif.C09_self_symmetric",
    "Verif.C09_schedule_independent",
    "Verif.C09_total",
    "Verif.C09_cdist_dtw_cross",
    "Verif.C09_cdist_dtw_self",
    "Verif.C09_itakura_false"
   ],
   "note": "generic cdist engine for every completion order of jobs, and cdist_dtw on raw datasets. With an Itakura constraint the self-similarity claim is false (C09_itakura_false), because the lower triangle is a transposed copy"
  },
  {
   "property": "C10",
   "status": "proved",
   "theorems": [
    "Verif.C10_frechet_squared",
    "Verif.C10_path_from_metric",
    "Verif.C10_backends_agree",
    "Verif.C10_le_dtw",
    "Verif.C10_mask_monotone",
    "Verif.C10_transpose",
    "Verif.C10_symm",
    "Verif.C10_self",
    "Verif.C10_frechet_path"
   ],
   "note": "value, path, both engines, symmetry, reflexivity, monotonicity, comparison with DTW"
  },
  {
   "property": "C100",
   "status": "partial",
   "theorems": [
    "Verif.C100_neighbours",
    "Verif.C100_class",
    "Verif.C100_proba",
    "Verif.C100_target",
    "Verif.C100_order",
    "Verif.C100_kmeans",
    "Verif.C100_dbscan",
    "Verif.C100_distance",
    "Verif.C100_false_distance",
    "Verif.C100_sharp",
    "Verif.C100_dtw",
    "Verif.C100_frechet"
   ],
   "note": "Unchanged predictions under a margin are proved for neighbours, uniform votes, targets, k-means labels and DBSCAN, also composed with the bounds of C99. For weights='distance' the claim is false (C100_false_distance); proved there with a margin of the votes."
  },
  {
   "property": "C101",
   "status": "partial",
   "theorems": [
    "Verif.C101_matrix",
    "Verif.C101_dtw",
    "Verif.C101_frechet",
    "Verif.C101_prefix",
    "Verif.C101_mask",
    "Verif.C101_false_sizes",
    "Verif.C101_false_code",
    "Verif.C101_false_features",
    "Verif.C101_false_padding"
   ],
   "note": "Composition and prefixes proved for unpadded series of equal numbers of features; false otherwise (C101_false_padding, C101_false_features, C101_false_code, C101_false_sizes)."
  },
  {
   "property": "C102",
   "status": "partial",
   "theorems": [
    "Verif.C102_txt",
    "Verif.C102_arff",
    "Verif.C102_same",
    "Verif.C102_multivariate",
    "Verif.C102_false_one_series",
    "Verif.C102_false_one_series_load",
    "Verif.C102_false_one_sample",
    "Verif.C102_false_labels",
    "Verif.C102_false_missing_end"
   ],
   "note": "Proved for text files of at least two series with integer labels and a last timestamp observed somewhere, and for ARFF files of series that are not of length 1; false otherwise (C102_false_*)."
  },
  {
   "property": "C103",
   "status": "partial",
   "theorems": [
    "Verif.C103_minmax_units",
    "Verif.C103_meanvar_units",
    "Verif.C103_forgets",
    "Verif.C103_forgets_fit_transform",
    "Verif.C103_impute_twice",
    "Verif.C103_impute_units",
    "Verif.C103_resample_units",
    "Verif.C103_resample_twice",
    "Verif.C103_resample_through",
    "Verif.C103_false_constant_fit",
    "Verif.C103_false_finer",
    "Verif.C103_false_coarse"
   ],
   "note": "False of the code for a global scaler fitted on constant data and applied to other data (C103_false_constant_fit): the zero range is replaced by one, so the result depends on the unit. Everything else is proved for all datasets and parameters."
  },
  {
   "property": "C104",
   "status": "proved",
   "theorems": [
    "Verif.C104_dot_error",
    "Verif.C104_keogh_error",
    "Verif.C104_keogh_zero",
    "Verif.C104_keogh_safe",
    "Verif.C104_subsequence",
    "Verif.C104_lcss_hits",
    "Verif.C104_lcss",
    "Verif.C104_lcss_exact",
    "Verif.C104_false_keogh",
    "Verif.C104_false_lcss_threshold",
    "Verif.C104_false_best_match"
   ],
   "note": "Error bounds for all inputs and all rounding functions of bounded relative error; the C104_false_... theorems show the slack in the bounds is needed. Overflow and underflow are outside the rounding model."
  },
  {
   "property": "C105",
   "status": "proved",
   "theorems": [
    "Verif.C105_minmax_error",
    "Verif.C105_minmax_order",
    "Verif.C105_minmax_range",
    "Verif.C105_sum_error",
    "Verif.C105_meanvar_error",
    "Verif.C105_meanvar_order",
    "Verif.C105_meanvar_bounded",
    "Verif.C105_minmax_low",
    "Verif.C105_short_sum",
    "Verif.C105_constant",
    "Verif.C105_false_constant",
    "Verif.C105_false_range"
   ],
   "note": "For all rounding functions of bounded relative error; nearest-even binary rounding is shown to be an instance. The C105_false_... theorems are the failures in double precision that the statement names."
  },
  {
   "property": "C106",
   "status": "partial",
   "theorems": [
    "Verif.C106_dataset",
    "Verif.C106_series_numpy",
    "Verif.C106_series_torch",
    "Verif.C106_series_torch_new",
    "Verif.C106_false_series",
    "Verif.C106_impute",
    "Verif.C106_impute_named",
    "Verif.C106_impute_value",
    "Verif.C106_synchronize",
    "Verif.C106_synchronize_value",
    "Verif.C106_rolled",
    "Verif.C106_varima",
    "Verif.C106_candidates",
    "Verif.C106_subgradient",
    "Verif.C106_softdtw",
    "Verif.C106_false_softdtw",
    "Verif.C106_fitted",
    "Verif.C106_fitted_content",
    "Verif.C106_kernel_kmeans_keeps",
    "Verif.C106_false_kernel_kmeans",
    "Verif.C106_kernel_kmeans_list"
   ],
   "note": "Proved for the functions that write in place; false for the PyTorch backend's to_time_series (views of the caller's memory), softdtw_barycenter without iterations and KernelKMeans, with witnesses."
  },
  {
   "property": "C107",
   "status": "partial",
   "theorems": [
    "Verif.C107_doubles",
    "Verif.C107_symm",
    "Verif.C107_false_long",
    "Verif.C107_false_constant",
    "Verif.C107_finite",
    "Verif.C107_self",
    "Verif.C107_false_cdist",
    "Verif.C107_false_cdist_query",
    "Verif.C107_cdist",
    "Verif.C107_cdist_entries",
    "Verif.C107_cdist_query"
   ],
   "note": "False of the code for long series: sums over alignments overflow and gak(s, s) is NaN (C107_false_long, C107_false_constant, C107_false_cdist, C107_false_cdist_query). Symmetry, finiteness, unit self-similarity and agreement of matrix and function are proved for series of up to 256 samples in doubles."
  },
  {
   "property": "C108",
   "status": "partial",
   "theorems": [
    "Verif.C108_doubles",
    "Verif.C108_error",
    "Verif.C108_symm",
    "Verif.C108_false_small_gamma"
   ],
   "note": "The error bound and bitwise symmetry are proved (C108_error, C108_symm); the claim fails for very small gamma, where the first quotient overflows and the result is NaN (C108_false_small_gamma)."
  },
  {
   "property": "C109",
   "status": "partial",
   "theorems": [
    "Verif.C109_outcomes",
    "Verif.C109_no_rounds",
    "Verif.C109_predict",
    "Verif.C109_false_nan",
    "Verif.C109_false_one_cluster",
    "Verif.C109_false_gak"
   ],
   "note": "False as claimed (C109_false_nan, C109_false_one_cluster, C109_false_gak): a kernel matrix of NaN makes fit end silently in a state where predict fails. Proved for every matrix: the three end states and predict in each. Not covered: rounding errors of the distances, kernels other than gak."
  },
  {
   "property": "C11",
   "status": "partial",
   "theorems": [
    "Verif.C11_constraint_ignored",
    "Verif.C11_cdist_frechet_partial",
    "Verif.C11_false"
   ],
   "note": "The property is false of the code (C11_false): the constraint is ignored. C11_cdist_frechet_partial: entries equal the unconstrained frechet"
  },
  {
   "property": "C110",
   "status": "partial",
   "theorems": [
    "Verif.C110_fit",
    "Verif.C110_predict",
    "Verif.C110_multiplicity_partial",
    "Verif.C110_false_attempts",
    "Verif.C110_false_tol"
   ],
   "note": "Reordering, scaling of weights and repetition of the whole dataset: proved for complete fits and predictions. Weights as multiplicities: proved for one attempt without tolerance, false otherwise (C110_false_attempts, C110_false_tol) because the inertia ignores the weights. The random draw itself depends on positions, not on series; drawn labels are assumed to follow."
  },
  {
   "property": "C111",
   "status": "partial",
   "theorems": [
    "Verif.C111_calls",
    "Verif.C111_calls_real",
    "Verif.C111_early",
    "Verif.C111_array_kmeans",
    "Verif.C111_array_kshape",
    "Verif.C111_shuffles",
    "Verif.C111_walks_prefix",
    "Verif.C111_blobs_noiseless",
    "Verif.C111_walks_continue",
    "Verif.C111_shapelets_partial",
    "Verif.C111_false_shapelets",
    "Verif.C111_more_attempts",
    "Verif.C111_more_attempts_kernel",
    "Verif.C111_kernel_auto",
    "Verif.C111_svc",
    "Verif.C111_svc_auto",
    "Verif.C111_false_refit",
    "Verif.C111_false_auto",
    "Verif.C111_false_early",
    "Verif.C111_false_blobs"
   ],
   "note": "Proved for all functions but LearningShapelets (C111_false_shapelets: an integer reseeds NumPy's global generator; RandomState refused; the result still depends on the integer only). Also false: refit of KernelKMeans with sigma='auto' (C111_false_refit), replacing 'auto' by the number found (C111_false_auto), integer vs RandomState for the early classifier (C111_false_early), prefix stability of blobs (C111_false_blobs)."
  },
  {
   "property": "C112",
   "status": "partial",
   "theorems": [
    "Verif.C112_paa",
    "Verif.C112_symbol",
    "Verif.C112_scaled",
    "Verif.C112_order",
    "Verif.C112_grid",
    "Verif.C112_constant",
    "Verif.C112_scale",
    "Verif.C112_distance",
    "Verif.C112_words",
    "Verif.C112_false_constant",
    "Verif.C112_false_lower_bound",
    "Verif.C112_false_permutation"
   ],
   "note": "Proved: error of the computed means for any order of summation, symbols away from breakpoints with and without scaling, monotonicity, exactness on short samples, scaling by powers of two, relative errors of both distances. False of the code and refuted: constant segments keep their value, means do not depend on the order of samples, the PAA distance lower-bounds the Euclidean distance. Overflow and underflow are not modelled."
  },
  {
   "property": "C113",
   "status": "partial",
   "theorems": [
    "Verif.C113_parallelogram",
    "Verif.C113_bounds",
    "Verif.C113_feasible",
    "Verif.C113_equal_lengths",
    "Verif.C113_margin",
    "Verif.C113_rational",
    "Verif.C113_default",
    "Verif.C113_false_mask",
    "Verif.C113_false_raises",
    "Verif.C113_false_passes",
    "Verif.C113_false_default"
   ],
   "note": "Equality with the exact mask is false of the code (four refutations in doubles); the bounds within one, the enclosing parallelograms, exact feasibility of the computed corridor and equality away from the deciding values are proved."
  },
  {
   "property": "C114",
   "status": "partial",
   "theorems": [
    "Verif.C114_euclidean",
    "Verif.C114_dba",
    "Verif.C114_petitjean",
    "Verif.C114_weights",
    "Verif.C114_grid",
    "Verif.C114_copies",
    "Verif.C114_false_dba_copies",
    "Verif.C114_false_range",
    "Verif.C114_false_weights"
   ],
   "note": "Errors of the three updates, invariance under powers of two and exactness on integer grids are proved. False of the code in doubles: copies of a series are a fixed point of the DBA update, barycenters stay within the samples, only the ratios of weights matter (refutations)."
  },
  {
   "property": "C115",
   "status": "partial",
   "theorems": [
    "Verif.C115_dtw_no_number",
    "Verif.C115_dtw_first",
    "Verif.C115_dtw_second",
    "Verif.C115_torch",
    "Verif.C115_frechet_second",
    "Verif.C115_frechet_first",
    "Verif.C115_agrees",
    "Verif.C115_agrees_torch",
    "Verif.C115_path",
    "Verif.C115_soft",
    "Verif.C115_gak",
    "Verif.C115_lcss",
    "Verif.C115_agrees_real",
    "Verif.C115_lcss_count",
    "Verif.C115_false_symmetric",
    "Verif.C115_false_backends",
    "Verif.C115_false_frechet",
    "Verif.C115_rejects"
   ],
   "note": "Proved as stated; symmetry, agreement of the backends and the bound by the observed samples are false of the code and refuted (C115_false_*)."
  },
  {
   "property": "C116",
   "status": "partial",
   "theorems": [
    "Verif.C116_distance",
    "Verif.C116_predict",
    "Verif.C116_stop",
    "Verif.C116_fit",
    "Verif.C116_zero_bandwidth",
    "Verif.C116_false_nearest"
   ],
   "note": "Proved as stated; that predict gives the exactly nearest cluster is false of the code and refuted (C116_false_nearest)."
  },
  {
   "property": "C117",
   "status": "proved",
   "theorems": [
    "Verif.C117_total",
    "Verif.C117_cdist",
    "Verif.C117_neighbours",
    "Verif.C117_query",
    "Verif.C117_kmeans",
    "Verif.C117_rounds",
    "Verif.C117_label",
    "Verif.C117_order"
   ],
   "note": "cdist_dtw, kneighbors and k-means on series with missing values; NaN and inf as values, sums of numbers exact."
  },
  {
   "property": "C118",
   "status": "proved",
   "theorems": [
    "Verif.C118_none",
    "Verif.C118_mm",
    "Verif.C118_tol",
    "Verif.C118_petitjean",
    "Verif.C118_returns",
    "Verif.C118_subgradient",
    "Verif.C118_complete",
    "Verif.C118_complete_updates"
   ],
   "note": "Over the exact model with NaN and inf; on complete series the model is that of the other barycenter properties."
  },
  {
   "property": "C119",
   "status": "partial",
   "theorems": [
    "Verif.C119_matrix",
    "Verif.C119_query",
    "Verif.C119_reference",
    "Verif.C119_end",
    "Verif.C119_best",
    "Verif.C119_complete",
    "Verif.C119_keogh",
    "Verif.C119_keogh_bound",
    "Verif.C119_keogh_complete",
    "Verif.C119_keogh_padded",
    "Verif.C119_false_search",
    "Verif.C119_false_keogh"
   ],
   "note": "False of the code, proved: dtw_subsequence_path finds an occurrence in a reference with gaps; lb_keogh of series of different lengths padded to a common size bounds dtw. Everything else in the statement is proved."
  },
  {
   "property": "C12",
   "status": "proved",
   "theorems": [
    "Verif.C12_optimal",
    "Verif.C12_rejects",
    "Verif.C12_monotone",
    "Verif.C12_eq_dtw"
   ],
   "note": "value, path, budget rejection, monotonicity in the budget, agreement with DTW"
  },
  {
   "property": "C120",
   "status": "partial",
   "theorems": [
    "Verif.C120_cast",
    "Verif.C120_cast_twice",
    "Verif.C120_cast_other",
    "Verif.C120_false_cast",
    "Verif.C120_keras",
    "Verif.C120_root",
    "Verif.C120_cache_all",
    "Verif.C120_false_cache_all",
    "Verif.C120_cached",
    "Verif.C120_false_cached",
    "Verif.C120_replace",
    "Verif.C120_in_file",
    "Verif.C120_error",
    "Verif.C120_size"
   ],
   "note": "Proved except for three parts that are false of the code and refuted (C120_false_cast, C120_false_cache_all, C120_false_cached)."
  },
  {
   "property": "C121",
   "status": "partial",
   "theorems": [
    "Verif.C121_answers",
    "Verif.C121_lost",
    "Verif.C121_saves",
    "Verif.C121_refused",
    "Verif.C121_again",
    "Verif.C121_false",
    "Verif.C121_classifier",
    "Verif.C121_false_sax"
   ],
   "note": "False of the code in general (C121_false, C121_false_sax); proved for all estimators but the ones named in C121_false, for every state, value and query (C121_answers, C121_saves, C121_again, C121_classifier)."
  },
  {
   "property": "C122",
   "status": "partial",
   "theorems": [
    "Verif.C122_doubles",
    "Verif.C122_self",
    "Verif.C122_false_overflow",
    "Verif.C122_symm",
    "Verif.C122_cdist_self",
    "Verif.C122_cdist_cross",
    "Verif.C122_cdist_diag",
    "Verif.C122_error",
    "Verif.C122_self_zero",
    "Verif.C122_false_gamma",
    "Verif.C122_false"
   ],
   "note": "The zero on equal series needs twice soft_dtw(s, s) not to overflow (C122_self; C122_self_zero gives a condition on data and gamma); false of the code otherwise (C122_false: infinite in doubles). Symmetry, error bound and agreement of the matrices with the pairwise function are proved."
  },
  {
   "property": "C123",
   "status": "proved",
   "theorems": [
    "Verif.C123_optimal",
    "Verif.C123_rejects",
    "Verif.C123_monotone",
    "Verif.C123_eq_dtw",
    "Verif.C123_symm",
    "Verif.C123_self",
    "Verif.C123_scale",
    "Verif.C123_integers",
    "Verif.C123_squared_error",
    "Verif.C123_error"
   ],
   "note": "Any monotone idempotent rounding without overflow; error in units of relative errors, linear form for the distance."
  },
  {
   "property": "C124",
   "status": "proved",
   "theorems": [
    "Verif.C124_quality",
    "Verif.C124_same",
    "Verif.C124_kmeans",
    "Verif.C124_distance",
    "Verif.C124_dbscan",
    "Verif.C124_dtw",
    "Verif.C124_frechet",
    "Verif.C124_false_label"
   ],
   "note": "The statement asks for a gap; C124_false_label shows that it is needed. Votes themselves are summed exactly."
  },
  {
   "property": "C13",
   "status": "proved",
   "theorems": [
    "Verif.C13_optimal"
   ],
   "note": "value, path and window optimality for exact arithmetic"
  },
  {
   "property": "C14",
   "status": "proved",
   "theorems": [
    "Verif.C14_envelope",
    "Verif.C14_any_envelope",
    "Verif.C14_lower_bound_squared",
    "Verif.C14_lower_bound"
   ],
   "note": "envelope exactness; bound for every enclosing envelope; squared and real versions"
  },
  {
   "property": "C15",
   "status": "proved",
   "theorems": [
    "Verif.C15_value",
    "Verif.C15_band_value",
    "Verif.C15_bounds",
    "Verif.C15_self",
    "Verif.C15_symmetric",
    "Verif.C15_eps_monotone",
    "Verif.C15_radius_zero_false"
   ],
   "note": "value, bounds, self, symmetry, eps-monotonicity; also exact under Sakoe-Chiba bands other than a bare diagonal; a radius-0 band resets the count at each mismatch (C15_radius_zero_false)"
  },
  {
   "property": "C16",
   "status": "partial",
   "theorems": [
    "Verif.C16_unconstrained_partial",
    "Verif.C16_when_it_ends_partial",
    "Verif.C16_stuck",
    "Verif.C16_nontermination",
    "Verif.C16_false",
    "Verif.C16_from_metric_terminates",
    "Verif.C16_from_metric_false"
   ],
   "note": "false under a constraint: traceback loops forever on a forbidden cell (C16_nontermination, C16_false), NumPy from_metric variant returns forbidden pairs (C16_from_metric_false); proved without constraint, and conditionally on termination with one"
  },
  {
   "property": "C17",
   "status": "proved",
   "theorems": [
    "Verif.C17_paths_finite",
    "Verif.C17_softmin",
    "Verif.C17_soft_dtw",
    "Verif.C17_gamma_zero",
    "Verif.C17_alignment_value",
    "Verif.C17_unreachable_cells_differ"
   ],
   "note": "Path sums (finite set of paths) for the numba and torch engines; engines agree for every mask compute_mask can build with slope >= 1; NaN/inf difference on unreachable allowed cells exhibited for hand-made masks."
  },
  {
   "property": "C18",
   "status": "proved",
   "theorems": [
    "Verif.C18_bracket",
    "Verif.C18_antitone",
    "Verif.C18_limit",
    "Verif.C18_symm",
    "Verif.C18_normalized"
   ],
   "note": "Bracket, monotonicity in gamma, limit at 0, symmetry, normalised variant."
  },
  {
   "property": "C19",
   "status": "partial",
   "theorems": [
    "Verif.C19_cross_partial",
    "Verif.C19_self_partial",
    "Verif.C19_gamma_zero",
    "Verif.C19_false"
   ],
   "note": "False for gamma = 0 (cdist returns unsquared DTW): C19_false; proved for gamma != 0 and the exact value for gamma = 0 (C19_gamma_zero)."
  },
  {
   "property": "C20",
   "status": "proved",
   "theorems": [
    "Verif.C20_visit_probability",
    "Verif.C20_shape",
    "Verif.C20_gradient",
    "Verif.C20_gamma_zero"
   ],
   "note": "Any backend/constraint (slope >= 1): entries are visit probabilities, [0,1], corners 1, row/column sums >= 1; gradient statement; gamma = 0 is the 0/1 matrix of an optimal path. The deprecated SoftDTW class is not covered."
  },
  {
   "property": "C21",
   "status": "proved",
   "theorems": [
    "Verif.C21_alignments_finite",
    "Verif.C21_unnormalized",
    "Verif.C21_gak",
    "Verif.C21_symm",
    "Verif.C21_self",
    "Verif.C21_sigma_zero",
    "Verif.C21_cdist_self",
    "Verif.C21_cdist_cross",
    "Verif.C21_documented_kernel_false"
   ],
   "note": "Sum over all alignments of the local kernel kappa/(2-kappa); symmetry, unit diagonal, cdist entry-wise for any schedule; C21_documented_kernel_false: the docstring's plain Gaussian local kernel is not what the code uses"
  },
  {
   "property": "C22",
   "status": "partial",
   "theorems": [
    "Verif.C22_warped_series",
    "Verif.C22_result",
    "Verif.C22_path_partial",
    "Verif.C22_ctw_is_dtw",
    "Verif.C22_false"
   ],
   "note": "C22_false: claim is false of the code (the stop test compares the path with itself): two concrete refutations. Proved instead: exact result for every projection and max_iter; the score equals plain DTW; the path is optimal for the projected series."
  },
  {
   "property": "C23",
   "status": "proved",
   "theorems": [
    "Verif.C23_content",
    "Verif.C23_recover",
    "Verif.C23_idempotent",
    "Verif.C23_scalars",
    "Verif.C23_check_equal_size",
    "Verif.C23_check_dataset",
    "Verif.C23_width_mismatch",
    "Verif.C23_empty"
   ],
   "note": "content, recovery, idempotence, equal-size test, check_dataset; a width-1 series is silently broadcast"
  },
  {
   "property": "C24",
   "status": "proved",
   "theorems": [
    "Verif.C24_series",
    "Verif.C24_ragged",
    "Verif.C24_dataset",
    "Verif.C24_formatted"
   ],
   "note": "For every print/parse pair that round-trips on single values; any number of features >= 1; datasets read back as to_time_series_dataset of what was written, identical when already formatted; text with features of different lengths is refused"
  },
  {
   "property": "C25",
   "status": "proved",
   "theorems": [
    "Verif.C25_none",
    "Verif.C25_shape",
    "Verif.C25_no_fit",
    "Verif.C25_full",
    "Verif.C25_features_only",
    "Verif.C25_two_dim"
   ],
   "note": "all branches of check_dims on shapes"
  },
  {
   "property": "C26",
   "status": "partial",
   "theorems": [
    "Verif.C26_domain",
    "Verif.C26_sklearn",
    "Verif.C26_seglearn",
    "Verif.C26_stumpy",
    "Verif.C26_pyts",
    "Verif.C26_pyts_refused",
    "Verif.C26_sktime",
    "Verif.C26_cesium",
    "Verif.C26_pyflux",
    "Verif.C26_tsfresh",
    "Verif.C26_tsfresh_identity_partial",
    "Verif.C26_tsfresh_false",
    "Verif.C26_sktime_order",
    "Verif.C26_sktime_other",
    "Verif.C26_sktime_names",
    "Verif.C26_sklearn_empty"
   ],
   "note": "all formats round-trip on their domain; tsfresh is characterised exactly and its unrestricted round trip refuted (all-NaN series lost, set enumeration order)"
  },
  {
   "property": "C27",
   "status": "partial",
   "theorems": [
    "Verif.C27_json_partial",
    "Verif.C27_json_false",
    "Verif.C27_pickle",
    "Verif.C27_hdf5_partial",
    "Verif.C27_hdf5_false",
    "Verif.C27_hdf5_no_overwrite",
    "Verif.C27_hdf5_failed_save",
    "Verif.C27_json_refused",
    "Verif.C27_hdf5_empty",
    "Verif.C27_placeholder_is_fitted",
    "Verif.C27_attributes"
   ],
   "note": "JSON, pickle and HDF5 round-trip on the values they support; the unrestricted statement is refuted (lists, nested strings, empty dictionaries); to_hdf5 never overwrites; JSON refuses mixed lists and values with arrays or bytes inside (C27_json_refused); a package without hyper-parameters or attributes cannot be read back from HDF5 (C27_hdf5_empty)."
  },
  {
   "property": "C28",
   "status": "proved",
   "theorems": [
    "Verif.C28_affine",
    "Verif.C28_range",
    "Verif.C28_independent",
    "Verif.C28_bad_range"
   ],
   "note": "fit/transform of TimeSeriesScalerMinMax for 3-D arrays with NaN, both per_timeseries and per_feature settings; range, attained bounds, constant groups, independence, refused ranges."
  },
  {
   "property": "C29",
   "status": "proved",
   "theorems": [
    "Verif.C29_affine",
    "Verif.C29_moments",
    "Verif.C29_idempotent",
    "Verif.C29_independent",
    "Verif.C29_negative_std"
   ],
   "note": "Moments over the reals for every setting; idempotence for std >= 0, with a counterexample for negative std."
  },
  {
   "property": "C30",
   "status": "proved",
   "theorems": [
    "Verif.C30_observed",
    "Verif.C30_constant",
    "Verif.C30_mean",
    "Verif.C30_median",
    "Verif.C30_ffill",
    "Verif.C30_bfill",
    "Verif.C30_linear",
    "Verif.C30_success",
    "Verif.C30_linear_uncomputable_false"
   ],
   "note": "Observed samples kept; constant, mean, median, ffill, bfill, linear fillings characterised; linear refuses a feature without observation (C30_linear_uncomputable_false)"
  },
  {
   "property": "C31",
   "status": "proved",
   "theorems": [
    "Verif.C31_exact",
    "Verif.C31_resample",
    "Verif.C31_identity",
    "Verif.C31_unit",
    "Verif.C31_empty_series"
   ],
   "note": "Exact linear resampling, identity at the original size, target size one gives the mean, empty series refused"
  },
  {
   "property": "C32",
   "status": "partial",
   "theorems": [
    "Verif.C32_value",
    "Verif.C32_bound",
    "Verif.C32_lower_bound",
    "Verif.C32_reconstruction",
    "Verif.C32_false"
   ],
   "note": "Value and reconstruction proved in general; the lower bound is proved when the segments tile the series (size divisible by n_segments) and refuted otherwise (C32_false)."
  },
  {
   "property": "C33",
   "status": "proved",
   "theorems": [
    "Verif.C33_range",
    "Verif.C33_monotone",
    "Verif.C33_cell",
    "Verif.C33_breakpoints",
    "Verif.C33_mindist",
    "Verif.C33_euclid",
    "Verif.C33_euclid_scaled",
    "Verif.C33_value"
   ],
   "note": "Symbols, monotonicity, cells and MINDIST lower bounds for every increasing quantile function; the Euclidean bound for tiled segments, as stated."
  },
  {
   "property": "C34",
   "status": "partial",
   "theorems": [
    "Verif.C34_paa_partial",
    "Verif.C34_sax_partial",
    "Verif.C34_sax_scaled_partial",
    "Verif.C34_oned_partial",
    "Verif.C34_paa_tiled",
    "Verif.C34_false"
   ],
   "note": "Exact entries of the reconstructions; the claim for the tail is false (C34_false): the trailing samples are zeros (PAA, SAX) or uninitialised memory (1d-SAX)."
  },
  {
   "property": "C35",
   "status": "proved",
   "theorems": [
    "Verif.C35_raw",
    "Verif.C35_scaled",
    "Verif.C35_nan",
    "Verif.C35_short"
   ],
   "note": "Both settings of scale, for all observed series and lengths; also the exact NaN behaviour and the failure on series shorter than the window. The stumpy implementations are third-party."
  },
  {
   "property": "C36",
   "status": "proved",
   "theorems": [
    "Verif.C36_update",
    "Verif.C36_assignment",
    "Verif.C36_descent",
    "Verif.C36_loop",
    "Verif.C36_ninit",
    "Verif.C36_init",
    "Verif.C36_dba",
    "Verif.C36_default"
   ],
   "note": "Exact arithmetic; datasets without NaN inside series."
  },
  {
   "property": "C37",
   "status": "partial",
   "theorems": [
    "Verif.C37_run",
    "Verif.C37_no_rounds",
    "Verif.C37_fit_partial",
    "Verif.C37_predict",
    "Verif.C37_predict_train",
    "Verif.C37_descent",
    "Verif.C37_inertia_bound",
    "Verif.C37_euclidean",
    "Verif.C37_dtw",
    "Verif.C37_false_inertia",
    "Verif.C37_false_raises",
    "Verif.C37_false_silent"
   ],
   "note": "Lloyd rounds, restarts, best run, descent and its Euclidean and DTW instances are proved for all data and initialisations; the claim itself is false in three ways (C37_false_inertia, C37_false_raises, C37_false_silent), C37_fit_partial is what holds."
  },
  {
   "property": "C38",
   "status": "partial",
   "theorems": [
    "Verif.C38_partial",
    "Verif.C38_stale",
    "Verif.C38_writes",
    "Verif.C38_false_dict",
    "Verif.C38_false_set_params",
    "Verif.C38_false_switch"
   ],
   "note": "a refit equals a fresh fit only for kernels other than gak, or when sigma_gak_ is absent or already the wanted number; C38_false_*: the user's dict is overwritten, set_params(sigma) is ignored, switching to gak fails"
  },
  {
   "property": "C39",
   "status": "partial",
   "theorems": [
    "Verif.C39_partial",
    "Verif.C39_dist",
    "Verif.C39_self_partial",
    "Verif.C39_false_nearest",
    "Verif.C39_false_self",
    "Verif.C39_false_any"
   ],
   "note": "proved for queries, for every partition and sort meeting numpy's contract; with X omitted only when the partition happens to sort the row and no other series equals the query. C39_false_*: with numpy's selection the neighbour is not the nearest, or is the query itself"
  },
  {
   "property": "C40",
   "status": "partial",
   "theorems": [
    "Verif.C40_fit_partial",
    "Verif.C40_flat_partial",
    "Verif.C40_history_partial",
    "Verif.C40_recover",
    "Verif.C40_false_omitted",
    "Verif.C40_false_error",
    "Verif.C40_false_raw",
    "Verif.C40_false_switch",
    "Verif.C40_false_unhandled",
    "Verif.C40_handled",
    "Verif.C40_flat_handled",
    "Verif.C40_set_metric_elastic"
   ],
   "note": "proved for histories in which metric is not changed and no call raises, and recovery by the next successful fit after any failures; C40_false_*: failing calls leave metric='precomputed', the next query is read as distances, a changed metric is reverted and queries use the old data"
  },
  {
   "property": "C41",
   "status": "partial",
   "theorems": [
    "Verif.C41_delay",
    "Verif.C41_decision",
    "Verif.C41_range",
    "Verif.C41_total",
    "Verif.C41_min_t",
    "Verif.C41_causal",
    "Verif.C41_online_answer",
    "Verif.C41_online_partial",
    "Verif.C41_bad_chunk",
    "Verif.C41_stream",
    "Verif.C41_stream_end",
    "Verif.C41_score",
    "Verif.C41_score_value",
    "Verif.C41_false_chunks",
    "Verif.C41_false_incomplete"
   ],
   "note": "Range, totality, causality, offline decision = first online answer of delay 0 sample by sample, and independence of chunking of what the generator answers are proved. Chunks of several samples can decide later with another class (C41_false_chunks); incomplete series can get a decision time beyond their samples (C41_false_incomplete); min_t above the fitted length makes predict raise KeyError (C41_min_t)."
  },
  {
   "property": "C42",
   "status": "partial",
   "theorems": [
    "Verif.C42_partial",
    "Verif.C42_zero_norm",
    "Verif.C42_false_zero",
    "Verif.C42_false_more"
   ],
   "note": "Proved for at most as many queries as training series and training norms away from zero; refuted for more queries and for a zero training series."
  },
  {
   "property": "C43",
   "status": "partial",
   "theorems": [
    "Verif.C43_residuals",
    "Verif.C43_refused",
    "Verif.C43_partial",
    "Verif.C43_actual",
    "Verif.C43_false_order_two"
   ],
   "note": "Proved for d <= 1 with any seasonal period (C43_partial) for every horizon. False for d >= 2: predict integrates once only (C43_actual, C43_false_order_two)."
  },
  {
   "property": "C44",
   "status": "proved",
   "theorems": [
    "Verif.C44_terminates",
    "Verif.C44_search",
    "Verif.C44_error",
    "Verif.C44_order",
    "Verif.C44_false_ties",
    "Verif.C44_aic",
    "Verif.C44_differencing"
   ],
   "note": "Also shown: the criterion, the choice of d, the only error (no initial model could be fitted, AttributeError), and that ties make the result depend on set order (C44_false_ties)."
  },
  {
   "property": "C45",
   "status": "partial",
   "theorems": [
    "Verif.C45_patching",
    "Verif.C45_actual",
    "Verif.C45_distance_partial",
    "Verif.C45_transform_partial",
    "Verif.C45_locate_partial",
    "Verif.C45_false_features",
    "Verif.C45_false_locate",
    "Verif.C45_false_batch"
   ],
   "note": "Distances, transform and localisation proved for one feature or one shapelet (localisation with NaN only at the end); refuted with two of both (distance -8 for a match), with leading NaN, and for series without a valid window."
  },
  {
   "property": "C46",
   "status": "partial",
   "theorems": [
    "Verif.C46_partial",
    "Verif.C46_failed_partial",
    "Verif.C46_actual",
    "Verif.C46_false_longer",
    "Verif.C46_false_shorter",
    "Verif.C46_query",
    "Verif.C46_lengths"
   ],
   "note": "With max_size given refits equal fresh fits after any history; refuted without it (longer data raise, shorter data are padded to the length of the first fit)."
  },
  {
   "property": "C47",
   "status": "partial",
   "theorems": [
    "Verif.C47_value",
    "Verif.C47_nonneg_zero",
    "Verif.C47_symmetric",
    "Verif.C47_jensen",
    "Verif.C47_uniform",
    "Verif.C47_mase_perfect",
    "Verif.C47_mase_units_raw",
    "Verif.C47_mase_units",
    "Verif.C47_mase_value",
    "Verif.C47_false_units",
    "Verif.C47_false_shape"
   ],
   "note": "Values, sign, symmetry, zero, Jensen, perfect forecasts and joint rescaling proved; refuted: averages of mase depend on units per feature; mismatched shapes are accepted."
  },
  {
   "property": "C48",
   "status": "partial",
   "theorems": [
    "Verif.C48_first",
    "Verif.C48_explicit_partial",
    "Verif.C48_ignored",
    "Verif.C48_backend_name",
    "Verif.C48_named",
    "Verif.C48_false_explicit",
    "Verif.C48_false_order",
    "Verif.C48_false_list",
    "Verif.C48_false_both"
   ],
   "note": "First recognised argument decides, proved; Backend(name) is PyTorch exactly for names with \"torch\" in them; explicit choice proved only where it comes first; refuted otherwise."
  },
  {
   "property": "C49",
   "status": "proved",
   "theorems": [
    "Verif.C49_core",
    "Verif.C49_self",
    "Verif.C49_components_partial",
    "Verif.C49_false_components",
    "Verif.C49_restored",
    "Verif.C49_unchanged",
    "Verif.C49_nested",
    "Verif.C49_missing"
   ],
   "note": "Core series and restoration on every exit proved. Beside the statement: the documented shape of components_ is lost without core series."
  },
  {
   "property": "C50",
   "status": "partial",
   "theorems": [
    "Verif.C50_value",
    "Verif.C50_bounds",
    "Verif.C50_self",
    "Verif.C50_false_self",
    "Verif.C50_swap",
    "Verif.C50_cdist_self",
    "Verif.C50_cdist",
    "Verif.C50_shift",
    "Verif.C50_align",
    "Verif.C50_zero_ref",
    "Verif.C50_false_length",
    "Verif.C50_false_shift"
   ],
   "note": "Values, bounds, symmetry and shift are proved for all series of length at least 2 (bounds for all lengths). The claim fails for a non-zero series with energy below 1e-9 (similarity 0 to itself) and for length-one series (three values, series shifted out): shown as C50_false_*."
  },
  {
   "property": "C51",
   "status": "proved",
   "theorems": [
    "Verif.C51_parallelogram",
    "Verif.C51_feasibility_exact",
    "Verif.C51_dtw_finite",
    "Verif.C51_equal_lengths"
   ],
   "note": "Parallelogram sandwich; feasibility check equivalent to path existence."
  },
  {
   "property": "C52",
   "status": "partial",
   "theorems": [
    "Verif.C52_cross_partial",
    "Verif.C52_self",
    "Verif.C52_parallel_raises",
    "Verif.C52_false"
   ],
   "note": "False in parallel when padded lengths differ (C52_false, C52_parallel_raises); entry-wise agreement whenever the call returns."
  },
  {
   "property": "C53",
   "status": "proved",
   "theorems": [
    "Verif.C53_range",
    "Verif.C53_unnormalized_psd",
    "Verif.C53_gak_psd",
    "Verif.C53_cdist_psd"
   ],
   "note": "Schur products + monotone fixed-point iteration; values in (0,1] by Cauchy-Schwarz"
  },
  {
   "property": "C54",
   "status": "proved",
   "theorems": [
    "Verif.C54_grid",
    "Verif.C54_times",
    "Verif.C54_order_check",
    "Verif.C54_no_pair",
    "Verif.C54_refused"
   ],
   "note": "Both modes, with refusals; timestamps missing on observed samples are not modelled; the order check stated in full, with the refusal of timestamps that have no two consecutive present ones"
  },
  {
   "property": "C55",
   "status": "partial",
   "theorems": [
    "Verif.C55_paa",
    "Verif.C55_sax",
    "Verif.C55_sax_scaled",
    "Verif.C55_fit",
    "Verif.C55_oned_partial",
    "Verif.C55_oned_scaled_false",
    "Verif.C55_oned_single_false",
    "Verif.C55_oned_refuses",
    "Verif.C55_refusals"
   ],
   "note": "Proved for PAA and SAX (with and without scaling) and for 1d-SAX without scaling on segments of at least two samples; refuted for scaled 1d-SAX and for single-sample segments. 1d-SAX refuses missing samples and series shorter than the number of segments (C55_oned_refuses); all three refuse empty datasets, another number of features and zero segments (C55_refusals)."
  },
  {
   "property": "C56",
   "status": "partial",
   "theorems": [
    "Verif.C56_gap",
    "Verif.C56_partial",
    "Verif.C56_false"
   ],
   "note": "Exact difference of the two squared distances; equality for words with the same slopes, refuted otherwise (C56_false)."
  },
  {
   "property": "C57",
   "status": "partial",
   "theorems": [
    "Verif.C57_name_ignored",
    "Verif.C57_name_ignored_dba",
    "Verif.C57_false",
    "Verif.C57_partial"
   ],
   "note": "False for names (C57_false, C57_name_ignored); holds for integer codes."
  },
  {
   "property": "C58",
   "status": "proved",
   "theorems": [
    "Verif.C58_update",
    "Verif.C58_descent",
    "Verif.C58_same_cost"
   ],
   "note": "Exact arithmetic."
  },
  {
   "property": "C59",
   "status": "partial",
   "theorems": [
    "Verif.C59_step",
    "Verif.C59_descent",
    "Verif.C59_schedule",
    "Verif.C59_weights_ignored",
    "Verif.C59_false",
    "Verif.C59_loop"
   ],
   "note": "Weights are ignored (C59_weights_ignored, C59_false); the rest is proved."
  },
  {
   "property": "C60",
   "status": "proved",
   "theorems": [
    "Verif.C60_nan",
    "Verif.C60_minimiser",
    "Verif.C60_wrong_length",
    "Verif.C60_zero"
   ],
   "note": "Exact arithmetic."
  },
  {
   "property": "C61",
   "status": "proved",
   "theorems": [
    "Verif.C61_gradient",
    "Verif.C61_parallel",
    "Verif.C61_names"
   ],
   "note": "Real arithmetic; L-BFGS is outside the model."
  },
  {
   "property": "C62",
   "status": "partial",
   "theorems": [
    "Verif.C62_update_unconstrained",
    "Verif.C62_false",
    "Verif.C62_partial"
   ],
   "note": "False for constraints given by name (C62_false); holds for a bare radius or slope or no constraint (C62_partial)."
  },
  {
   "property": "C63",
   "status": "partial",
   "theorems": [
    "Verif.C63_norms",
    "Verif.C63_fit",
    "Verif.C63_scaled",
    "Verif.C63_unit",
    "Verif.C63_partial",
    "Verif.C63_false_labels"
   ],
   "note": "Best attempt, inertia, n_iter_ and labels proved for every run; nearest labels only when norms_centroids_ are the norms of the centroids; refuted by a run whose last attempt fails."
  },
  {
   "property": "C64",
   "status": "partial",
   "theorems": [
    "Verif.C64_direction",
    "Verif.C64_sign_partial",
    "Verif.C64_false_sign"
   ],
   "note": "Optimality proved for any number of features given what eigh promises; sign proved for one feature and refuted for two."
  },
  {
   "property": "C65",
   "status": "proved",
   "theorems": [
    "Verif.C65_attempt",
    "Verif.C65_descent",
    "Verif.C65_no_rounds"
   ],
   "note": "Whole attempts as sequences of rounds, with stopping rule, step back, descent by tol and the bound on the number of rounds; max_iter=0 fails."
  },
  {
   "property": "C66",
   "status": "proved",
   "theorems": [
    "Verif.C66_attempt",
    "Verif.C66_fit",
    "Verif.C66_unfitted",
    "Verif.C66_predict"
   ],
   "note": "attempts characterised exactly (C66_attempt is an iff), whole fit, failed fit, predict"
  },
  {
   "property": "C67",
   "status": "partial",
   "theorems": [
    "Verif.C67_distance_partial",
    "Verif.C67_nearest_partial",
    "Verif.C67_inertia_partial",
    "Verif.C67_predict_train",
    "Verif.C67_false_nearest",
    "Verif.C67_false_inertia",
    "Verif.C67_false_descent",
    "Verif.C67_false_fit_predict"
   ],
   "note": "the code drops the squared norm of the means: nearest only when all norms agree, inertia off by the sum of 1 - norm; C67_false_*: concrete fits where predict is not nearest, inertia is not the inertia, it rises, and predict differs from labels_"
  },
  {
   "property": "C68",
   "status": "partial",
   "theorems": [
    "Verif.C68_defined",
    "Verif.C68_nan",
    "Verif.C68_distribution",
    "Verif.C68_order",
    "Verif.C68_pyck",
    "Verif.C68_pyhat_partial",
    "Verif.C68_false_conditional",
    "Verif.C68_false_cost"
   ],
   "note": "Cluster probabilities and pyck_ proved to be distributions. pyhatyck_ is normalised over the true class: it holds P(y | predicted), not P(predicted | y) (C68_pyhat_partial, C68_false_conditional), and the expected error can be 2 (C68_false_cost)."
  },
  {
   "property": "C69",
   "status": "partial",
   "theorems": [
    "Verif.C69_train_partial",
    "Verif.C69_false_train",
    "Verif.C69_horizon",
    "Verif.C69_recursive_partial",
    "Verif.C69_false_recursive"
   ],
   "note": "Prefix property proved (C69_horizon). predict(train) = predict() proved when q <= p or without padding, refuted otherwise (C69_false_train). Recursion proved for d <= 1, refuted for d = 2 (C69_false_recursive)."
  },
  {
   "property": "C70",
   "status": "partial",
   "theorems": [
    "Verif.C70_partial",
    "Verif.C70_transposed",
    "Verif.C70_optimal_partial",
    "Verif.C70_false"
   ],
   "note": "Proved for one feature (C70_partial, C70_optimal_partial); for several features the coefficient matrices are transposed (C70_transposed, C70_false)."
  },
  {
   "property": "C71",
   "status": "proved",
   "theorems": [
    "Verif.C71_terminates",
    "Verif.C71_noise",
    "Verif.C71_same",
    "Verif.C71_border",
    "Verif.C71_numbering",
    "Verif.C71_range",
    "Verif.C71_false_asymmetric"
   ],
   "note": "Complete characterisation of the labels for symmetric distances, termination included; refuted for one-way distances."
  },
  {
   "property": "C72",
   "status": "partial",
   "theorems": [
    "Verif.C72_class_partial",
    "Verif.C72_proba_partial",
    "Verif.C72_nearest",
    "Verif.C72_false_negative",
    "Verif.C72_false_disagree",
    "Verif.C72_soft_dtw_negative",
    "Verif.C72_regress_partial",
    "Verif.C72_false_regress"
   ],
   "note": "Proved where the weights of the neighbours are non-negative with positive sum, as for metrics with non-negative distances. Refuted for weights='distance' with negative distances: soft-DTW of a series to itself is negative, then predict returns class 0 and disagrees with predict_proba, and regression leaves the range of the targets."
  },
  {
   "property": "C73",
   "status": "partial",
   "theorems": [
    "Verif.C73_svc_params",
    "Verif.C73_svr_params_partial",
    "Verif.C73_false_epsilon",
    "Verif.C73_history",
    "Verif.C73_fit_matrix",
    "Verif.C73_query_matrix",
    "Verif.C73_training_query",
    "Verif.C73_sigma",
    "Verif.C73_zero",
    "Verif.C73_false_failed_zero",
    "Verif.C73_false_failed_solver",
    "Verif.C73_given_gamma",
    "Verif.C73_unfitted",
    "Verif.C73_false_gamma",
    "Verif.C73_support_vectors"
   ],
   "note": "Kernel matrices, bandwidths, histories of calls, support vectors and all parameters but one proved; refuted: SVR never hands epsilon over; gamma='auto' of other kernels is not 1/n_features; a fit that raises (bandwidth zero, solver error) makes the fitted model unusable."
  },
  {
   "property": "C74",
   "status": "partial",
   "theorems": [
    "Verif.C74_median",
    "Verif.C74_nonneg",
    "Verif.C74_gamma",
    "Verif.C74_no_points",
    "Verif.C74_false_positive",
    "Verif.C74_false_two_values",
    "Verif.C74_backends_partial",
    "Verif.C74_false_backends",
    "Verif.C74_units"
   ],
   "note": "Median, sign, units, refusal of data without points and the relation to gamma proved on both backends; refuted: zero whenever more than half of the drawn pairs coincide (all unbalanced two-valued data), and PyTorch takes the lower of two middle values where NumPy takes their mean."
  },
  {
   "property": "C75",
   "status": "partial",
   "theorems": [
    "Verif.C75_matrix_partial",
    "Verif.C75_lower_bound",
    "Verif.C75_batch_partial",
    "Verif.C75_false_shift",
    "Verif.C75_false_own",
    "Verif.C75_false_refit",
    "Verif.C75_false_regressor",
    "Verif.C75_false_n_jobs",
    "Verif.C75_other_metrics",
    "Verif.C75_kneighbors",
    "Verif.C75_refused",
    "Verif.C75_defaults",
    "Verif.C75_false_self",
    "Verif.C75_false_self_zero",
    "Verif.C75_false_set_metric"
   ],
   "note": "Proved for a new classifier without scaling, and for the other metrics; refuted: with scale=True queries are standardised with their own statistics, changed metric_params are ignored by later fits, the regressor fails on every query, n_jobs and verbose keys make fit fail, kneighbors() without query looks at zeros instead of the training series."
  },
  {
   "property": "C76",
   "status": "partial",
   "theorems": [
    "Verif.C76_value",
    "Verif.C76_range",
    "Verif.C76_perfect",
    "Verif.C76_scale",
    "Verif.C76_relabel",
    "Verif.C76_params",
    "Verif.C76_precomputed",
    "Verif.C76_euclidean_partial",
    "Verif.C76_callable_partial",
    "Verif.C76_false_callable",
    "Verif.C76_false_variable",
    "Verif.C76_false_verbose",
    "Verif.C76_false_asymmetric"
   ],
   "note": "The score of every matrix with zero diagonal is proved to be the mean coefficient, its range, its value for perfect clusters, and its invariance under scaling and relabelling. False as stated: callables get neither metric_params nor keyword arguments, series of different lengths are refused with euclidean and callables, metric_params with verbose is refused, and the score with a callable that is not symmetric depends on the order. sample_size is not modelled."
  },
  {
   "property": "C77",
   "status": "partial",
   "theorems": [
    "Verif.C77_sizes_partial",
    "Verif.C77_sizes_exact",
    "Verif.C77_false_sizes",
    "Verif.C77_init",
    "Verif.C77_targets",
    "Verif.C77_predict",
    "Verif.C77_two",
    "Verif.C77_unfitted",
    "Verif.C77_false_failed_fit",
    "Verif.C77_false_failed_sizes",
    "Verif.C77_false_short"
   ],
   "note": "Sizes of the heuristic proved when the fraction times the number of lengths is at most 1 and characterised exactly otherwise; windows, targets, probabilities and predictions proved for every network. False as stated: lengths that do not fit raise ValueError or OverflowError instead of being left out, queries shorter than shapelets chosen by the heuristic are accepted, a fit on a single label raises but replaces the labels of the estimator, a fit whose heuristic fails takes the network away."
  },
  {
   "property": "C78",
   "status": "proved",
   "theorems": [
    "Verif.C78_draws",
    "Verif.C78_walks",
    "Verif.C78_empty",
    "Verif.C78_blobs",
    "Verif.C78_no_noise"
   ],
   "note": "Draws are a stream of numbers; each is proved to be used for one sample, walks and blobs are given in closed form, with labels, the noiseless case and the error for series without samples."
  },
  {
   "property": "C79",
   "status": "partial",
   "theorems": [
    "Verif.C79_rounded",
    "Verif.C79_value_partial",
    "Verif.C79_soft_dtw_partial",
    "Verif.C79_backward_partial",
    "Verif.C79_gradient_partial",
    "Verif.C79_refused",
    "Verif.C79_overwrites",
    "Verif.C79_false_overwritten",
    "Verif.C79_error",
    "Verif.C79_false_precision"
   ],
   "note": "Value, error bound, gradients and refusals proved; the full claim is false: the distance matrix is overwritten in place and 64-bit inputs are rounded to 32 bits, which corrupts loss and gradient (both refuted with witnesses). Gradients are proved for exact arithmetic."
  },
  {
   "property": "C80",
   "status": "partial",
   "theorems": [
    "Verif.C80_alias",
    "Verif.C80_cached",
    "Verif.C80_download",
    "Verif.C80_bad",
    "Verif.C80_frame",
    "Verif.C80_again",
    "Verif.C80_false_offline",
    "Verif.C80_false_listed",
    "Verif.C80_false_corrupt",
    "Verif.C80_false_empty_name",
    "Verif.C80_false_parent",
    "Verif.C80_lists",
    "Verif.C80_false_lists",
    "Verif.C80_baseline"
   ],
   "note": "Cached loads, downloads, the frame, repeated loads, lists and baseline scores proved for all file systems, servers and parsers. False as stated: an exception of the download propagates and the old copy is gone by then; a name that does not exist is listed as cached afterwards; a corrupt copy is never refreshed; the empty name wipes the cache and '..' wipes its parent; offline, the cached univariate summary and the local baseline scores are not used."
  },
  {
   "property": "C81",
   "status": "partial",
   "theorems": [
    "Verif.C81_rows",
    "Verif.C81_two_axes",
    "Verif.C81_fit_partial",
    "Verif.C81_predict",
    "Verif.C81_predict_pure",
    "Verif.C81_unfitted",
    "Verif.C81_partial_first",
    "Verif.C81_partial_next",
    "Verif.C81_calls_partial",
    "Verif.C81_false_warm",
    "Verif.C81_false_failed_fit",
    "Verif.C81_false_failed_first",
    "Verif.C81_false_failed_partial"
   ],
   "note": "Proved for every perceptron without warm_start and for calls that succeed: network, predictions, refusals, purity of predictions. False as stated: with warm_start a second fit always raises (n_features_in_ holds the number of features, not of columns); a failed fit replaces the expected sizes, so that the trained sizes are refused and others are accepted; after a failed first fit every partial_fit raises; after a failed first partial_fit the estimator counts as fitted."
  },
  {
   "property": "C82",
   "status": "partial",
   "theorems": [
    "Verif.C82_draw",
    "Verif.C82_seeds",
    "Verif.C82_greedy",
    "Verif.C82_new_partial",
    "Verif.C82_distinct_partial",
    "Verif.C82_false_zero",
    "Verif.C82_false_softdtw",
    "Verif.C82_false_nearest",
    "Verif.C82_nearest_partial",
    "Verif.C82_trials",
    "Verif.C82_guess"
   ],
   "note": "Members, invariant, greedy choice and distribution of candidates proved for every metric and draws. Distinctness proved for metrics that separate series and draws other than 0; refuted for a draw of 0 and, on intervals of draws, for soft-DTW, whose self values do not vanish; with soft-DTW the value kept need not be that of the nearest centre."
  },
  {
   "property": "C83",
   "status": "partial",
   "theorems": [
    "Verif.C83_value_border",
    "Verif.C83_value_partial",
    "Verif.C83_gradient",
    "Verif.C83_calls",
    "Verif.C83_chain",
    "Verif.C83_false_exact"
   ],
   "note": "Gradient, chain rule and call order proved for all inputs and every border value. The value is the soft minimum on a grid with border of finite cost B: equal to soft-DTW up to an explicit error (C83_value_partial), never exactly (C83_false_exact)."
  },
  {
   "property": "C84",
   "status": "partial",
   "theorems": [
    "Verif.C84_shapelets",
    "Verif.C84_as_series",
    "Verif.C84_transform_partial",
    "Verif.C84_locate_partial",
    "Verif.C84_all_weights",
    "Verif.C84_layer_weights",
    "Verif.C84_set_shapelets",
    "Verif.C84_saved",
    "Verif.C84_proba",
    "Verif.C84_probabilities",
    "Verif.C84_heuristic_sizes",
    "Verif.C84_false_alias"
   ],
   "note": "All parts proved for every fitted network, except columns of transform and locate with several features and several shapelets of one length (false, C45) and the alias of the parameter's dictionary (refuted, C84_false_alias)."
  },
  {
   "property": "C85",
   "status": "partial",
   "theorems": [
    "Verif.C85_fit_transform",
    "Verif.C85_refit_partial",
    "Verif.C85_not_fitted",
    "Verif.C85_fit_raises",
    "Verif.C85_failed_fit_partial",
    "Verif.C85_alphabet_at_fit",
    "Verif.C85_segments_live",
    "Verif.C85_transform",
    "Verif.C85_distances",
    "Verif.C85_inverse",
    "Verif.C85_false_stale_scale",
    "Verif.C85_false_failed_fit",
    "Verif.C85_false_segments",
    "Verif.C85_inverse_words",
    "Verif.C85_stale_features"
   ],
   "note": "fit_transform, not fitted, exceptions, alphabet sizes, values of all methods and refits proved for all histories. False as stated: mu_ and std_ survive a fit with scale=False and are used when scale is switched on again; a fit of 1d-SAX with more segments than samples raises after half of the attributes were replaced; with sigma_l=None a new number of segments keeps the slope breakpoints of the old one. Statistics left over of another number of features broadcast or raise (C85_stale_features)."
  },
  {
   "property": "C86",
   "status": "partial",
   "theorems": [
    "Verif.C86_errors",
    "Verif.C86_count",
    "Verif.C86_value",
    "Verif.C86_scaled",
    "Verif.C86_lle_partial",
    "Verif.C86_false_lle",
    "Verif.C86_false_features",
    "Verif.C86_fit",
    "Verif.C86_ma_reversed",
    "Verif.C86_ma_start_partial",
    "Verif.C86_false_ma_start"
   ],
   "note": "False of the code in three ways, each refuted: lle_ multiplies by the number of differenced samples instead of the number of errors (p or q > 0), counts several features as one, and the starting moving average reverses the lags (q >= 2). Proved: errors, count, value of lle_ for all models and datasets, the scaled likelihood is the maximum, equality without lags, the contract of the fit, the reversed lags."
  },
  {
   "property": "C87",
   "status": "proved",
   "theorems": [
    "Verif.C87_affine_scaled",
    "Verif.C87_affine_raw",
    "Verif.C87_reverse",
    "Verif.C87_own_series",
    "Verif.C87_bound",
    "Verif.C87_longer",
    "Verif.C87_motif",
    "Verif.C87_history",
    "Verif.C87_fit_transform"
   ],
   "note": "Metamorphic laws of the NumPy implementation and the object, on top of C35."
  },
  {
   "property": "C88",
   "status": "partial",
   "theorems": [
    "Verif.C88_constraints_symmetric",
    "Verif.C88_dtw_reverse",
    "Verif.C88_frechet_reverse",
    "Verif.C88_similarity",
    "Verif.C88_translation",
    "Verif.C88_scaling",
    "Verif.C88_feature_order",
    "Verif.C88_dtw",
    "Verif.C88_soft_dtw_reverse",
    "Verif.C88_soft_dtw_similarity",
    "Verif.C88_gak_reverse",
    "Verif.C88_gak_similarity",
    "Verif.C88_lcss_reverse_partial",
    "Verif.C88_false_lcss_radius_zero",
    "Verif.C88_false_lcss_itakura"
   ],
   "note": "Reversal proved for all constraints for dtw, frechet, soft_dtw; for gak; similarities for all but lcss. LCSS: proved without constraint and for bands that are not a bare diagonal, refuted for radius 0 and under Itakura."
  },
  {
   "property": "C89",
   "status": "partial",
   "theorems": [
    "Verif.C89_frechet_triangle",
    "Verif.C89_frechet_triangle_bands",
    "Verif.C89_false_frechet_band",
    "Verif.C89_false_dtw_triangle",
    "Verif.C89_dtw_le_frechet",
    "Verif.C89_zero",
    "Verif.C89_dtw_relaxed_triangle"
   ],
   "note": "All proved for frechet without constraint, for the zero pairs and the bounds; with one radius the triangle inequality is refuted (holds with added radii), for dtw refuted and proved with the factor sqrt(n+m-1)."
  },
  {
   "property": "C90",
   "status": "partial",
   "theorems": [
    "Verif.C90_tags_agree",
    "Verif.C90_denied",
    "Verif.C90_promised_partial",
    "Verif.C90_dbscan_metrics",
    "Verif.C90_false_flattened",
    "Verif.C90_false_allow_nan",
    "Verif.C90_allow_nan",
    "Verif.C90_lists",
    "Verif.C90_false_lists",
    "Verif.C90_padding",
    "Verif.C90_infinite"
   ],
   "note": "False of the code in three ways: kernel k-means and support vector machines with kernels other than gak and nearest neighbours with metrics that are not tslearn's promise variable lengths and accept no padded array (C90_false_flattened); support vector machines with gak accept NaN though allow_nan is off (C90_false_allow_nan); lists of series are accepted by three transformers only (C90_lists, C90_false_lists). Proved: agreement of both interfaces, refusal where support is denied, acceptance elsewhere, padding, infinite samples."
  },
  {
   "property": "C91",
   "status": "partial",
   "theorems": [
    "Verif.C91_dba",
    "Verif.C91_petitjean",
    "Verif.C91_dba_origin",
    "Verif.C91_false_dba",
    "Verif.C91_kmeans",
    "Verif.C91_kmeans_euclidean",
    "Verif.C91_kmeans_dtw",
    "Verif.C91_origin_euclidean",
    "Verif.C91_origin_dtw",
    "Verif.C91_predict",
    "Verif.C91_seeds",
    "Verif.C91_dbscan",
    "Verif.C91_silhouette",
    "Verif.C91_false_kmeans"
   ],
   "note": "Origins: proved of k-means (Euclidean, DTW), predict, seeds and both DBA loops. Units: proved when the tolerances are converted too (C91_dba, C91_petitjean, C91_kmeans_*). With the default absolute tolerances the claim is false of the code: C91_false_kmeans, C91_false_dba."
  },
  {
   "property": "C92",
   "status": "partial",
   "theorems": [
    "Verif.C92_kmeans_dtw",
    "Verif.C92_kmeans_dtw_refused",
    "Verif.C92_kmeans_softdtw",
    "Verif.C92_kmeans_softdtw_refused",
    "Verif.C92_kmeans_softdtw_one_metric",
    "Verif.C92_knn_entries",
    "Verif.C92_knn_partial",
    "Verif.C92_knn_refused",
    "Verif.C92_false_knn_jobs",
    "Verif.C92_false_sax_fit",
    "Verif.C92_false_kmeans_euclidean",
    "Verif.C92_dbscan_partial",
    "Verif.C92_false_dbscan_unknown",
    "Verif.C92_false_dbscan_gamma",
    "Verif.C92_false_dbscan_jobs",
    "Verif.C92_false_dbscan_dataset2",
    "Verif.C92_defaults"
   ],
   "note": "Bindings proved for all dictionaries in k-means (dtw, softdtw) and the neighbours estimators, with TypeError for unknown entries; the claim is false: DBSCAN drops unknown entries silently, keeps an entry n_jobs when its own is None and accepts dataset2, soft-DTW and CTW neighbours ignore n_jobs, SAX fit refuses n_jobs, Euclidean k-means ignores all entries."
  },
  {
   "property": "C93",
   "status": "partial",
   "theorems": [
    "Verif.C93_dataset_partial",
    "Verif.C93_false_features",
    "Verif.C93_euclidean",
    "Verif.C93_euclidean_uniform",
    "Verif.C93_dba",
    "Verif.C93_dba_uniform",
    "Verif.C93_petitjean",
    "Verif.C93_softdtw",
    "Verif.C93_cdist_cross",
    "Verif.C93_cdist_self",
    "Verif.C93_kmeans",
    "Verif.C93_kmeans_euclidean",
    "Verif.C93_kmeans_dtw",
    "Verif.C93_silhouette",
    "Verif.C93_kneighbors",
    "Verif.C93_neighbours_partial",
    "Verif.C93_classifier_partial",
    "Verif.C93_regressor_partial",
    "Verif.C93_false_knn_ties",
    "Verif.C93_dbscan_partial",
    "Verif.C93_false_dbscan_border"
   ],
   "note": "Proved for all permutations: Euclidean, DBA (both algorithms, all rounds) and soft-DTW barycenters (objective and gradient), cross-distance matrices, k-means (generic, Euclidean, DTW) from given centroids, silhouette, distances of kneighbors. Datasets of one number of features, neighbours and predictions without a tie at the last neighbour, noise, core series and their grouping in DBSCAN are proved under these hypotheses; the negations show they are needed: mixed numbers of features, ties, border series. Exact arithmetic; when a call fails, which exception comes first may depend on the order."
  },
  {
   "property": "C94",
   "status": "partial",
   "theorems": [
    "Verif.C94_value_zero",
    "Verif.C94_value_partial",
    "Verif.C94_refusals",
    "Verif.C94_alignment_zero",
    "Verif.C94_alignment_partial",
    "Verif.C94_cdist_cross",
    "Verif.C94_cdist_self",
    "Verif.C94_cdist_partial",
    "Verif.C94_cdist_zero",
    "Verif.C94_false_cdist",
    "Verif.C94_false_empty",
    "Verif.C94_normalized_cross",
    "Verif.C94_normalized_self",
    "Verif.C94_normalized_zero",
    "Verif.C94_normalized_partial"
   ],
   "note": "False of the code in two corners: at gamma = 0 cdist_soft_dtw (deprecated) returns squared DTW distances while its replacement returns unsquared ones (C94_false_cdist), and series without observed samples are treated differently (C94_false_empty). Values, alignments, matrices and normalised matrices are otherwise equal at gamma = 0 and within an explicit exponentially small bound for gamma > 0; float rounding not modelled."
  },
  {
   "property": "C95",
   "status": "partial",
   "theorems": [
    "Verif.C95_sax",
    "Verif.C95_sax_self",
    "Verif.C95_sax_series",
    "Verif.C95_sax_shapes",
    "Verif.C95_false_lengths",
    "Verif.C95_false_outside",
    "Verif.C95_ctw_cross",
    "Verif.C95_ctw_self",
    "Verif.C95_ctw_dtw",
    "Verif.C95_ctw_dtw_self",
    "Verif.C95_false_diagonal"
   ],
   "note": "Proved for words of one shape over the alphabet (fewer than 2^63 breakpoints) and for cdist_ctw off the diagonal. False of the code for words of different lengths in one set (C95_false_lengths, C95_false_outside) and for the diagonal of cdist_ctw when no projection can be fitted (C95_false_diagonal)."
  },
  {
   "property": "C96",
   "status": "proved",
   "theorems": [
    "Verif.C96_concat",
    "Verif.C96_concat_band",
    "Verif.C96_false_band",
    "Verif.C96_stretched",
    "Verif.C96_false_stretched",
    "Verif.C96_dtw_frechet",
    "Verif.C96_dtw_frechet_stretched",
    "Verif.C96_soft_dtw",
    "Verif.C96_gak",
    "Verif.C96_lcss",
    "Verif.C96_lcss_sublist",
    "Verif.C96_lcss_contained"
   ],
   "note": "Concatenation and repetition laws of all five alignment measures at the public functions; C96_false_band and C96_false_stretched record where a stronger reading fails."
  },
  {
   "property": "C97",
   "status": "partial",
   "theorems": [
    "Verif.C97_dba",
    "Verif.C97_dba_copies",
    "Verif.C97_petitjean",
    "Verif.C97_euclidean",
    "Verif.C97_soft_objective",
    "Verif.C97_softdtw_start",
    "Verif.C97_softdtw",
    "Verif.C97_false_dba_default",
    "Verif.C97_false_zero"
   ],
   "note": "False of the code for DBA's default start, which ignores the weights (C97_false_dba_default), and for series of weight 0 (C97_false_zero); proved for a given start, for Petitjean's version, for Euclidean barycenters of series of one length and for soft-DTW barycenters."
  },
  {
   "property": "C98",
   "status": "proved",
   "theorems": [
    "Verif.C98_dtw_squared_error",
    "Verif.C98_frechet_squared_error",
    "Verif.C98_path_nearly_optimal",
    "Verif.C98_near_linear",
    "Verif.C98_dtw_error",
    "Verif.C98_frechet_error",
    "Verif.C98_exact",
    "Verif.C98_transpose",
    "Verif.C98_symm",
    "Verif.C98_self",
    "Verif.C98_nonneg",
    "Verif.C98_mask_mono",
    "Verif.C98_scale",
    "Verif.C98_integers",
    "Verif.C98_false_time_reversal"
   ],
   "note": "Rounding is a parameter: relative error u (RelErr) for the bounds, monotone and odd (OddMono) for the laws; truncation to p+1 bits is proved to be an instance of all hypotheses. Overflow, underflow and NaN are outside the model. C98_false_time_reversal shows a law that does not survive."
  },
  {
   "property": "C99",
   "status": "partial",
   "theorems": [
    "Verif.C99_dtw",
    "Verif.C99_frechet",
    "Verif.C99_limited",
    "Verif.C99_subsequence",
    "Verif.C99_lcss",
    "Verif.C99_lcss_band",
    "Verif.C99_keogh",
    "Verif.C99_softdtw",
    "Verif.C99_false_lcss",
    "Verif.C99_false_scaler",
    "Verif.C99_false_symbol"
   ],
   "note": "Proved for dtw, frechet, dtw_limited_warping_length, dtw_subsequence_path, lb_keogh, soft_dtw and for lcss with a raised threshold; false of lcss at a fixed eps (C99_false_lcss), of mean-variance scaling (C99_false_scaler) and of symbols (C99_false_symbol)."
  }
 ]
}