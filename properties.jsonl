{"id": "C01", "title": "DTW value is the optimum over warping paths", "statement": "dtw(x, y) (squared) equals the minimum, over every warping path from the first pair of timestamps to the last one that stays inside the global-constraint mask, of the summed squared distances of the aligned samples; it is +inf exactly when no such path exists. The same holds when every addition is followed by a monotone rounding (floating point), the path cost then being the rounded left-to-right sum.", "quantifier": "for all pairs of non-empty series of any lengths and dimensions, all masks, all admissible warping paths, all monotone roundings", "why_tests_cant": "the number of warping paths is exponential in the lengths; tests compare a few hand-made series with a fixed expected value", "anchors": ["tslearn/metrics/_dtw.py:_njit_accumulated_matrix", "tslearn/metrics/_dtw.py:_dtw_generic", "tslearn/metrics/_dtw.py:dtw", "tslearn/metrics/_dtw.py:accumulated_matrix"]}
{"id": "C02", "title": "DTW path is a valid optimal alignment inside the mask", "statement": "When the DTW value is finite, the path returned by dtw_path / dtw_path_from_metric starts at (0,0), ends at (len(x)-1, len(y)-1), advances by (1,0), (0,1) or (1,1) at each step, stays inside the constraint mask, and its cost is exactly the returned distance (squared for dtw_path, raw for dtw_path_from_metric).", "quantifier": "for all series, all local cost matrices with non-negative entries or arbitrary finite ones, all masks for which the value is finite", "why_tests_cant": "traceback correctness depends on ties and on mask geometry; sample tests fix a couple of alignments", "anchors": ["tslearn/metrics/utils.py:_compute_path_generic", "tslearn/metrics/_dtw.py:_dtw_path_generic", "tslearn/metrics/_dtw.py:dtw_path_from_metric"]}
{"id": "C03", "title": "NumPy and PyTorch DTW engines compute the same matrix", "statement": "The row-by-row accumulation used with the NumPy backend and the anti-diagonal vectorised accumulation used with the PyTorch backend produce the same accumulated cost matrix, hence the same DTW, Frechet and soft-DTW values and paths.", "quantifier": "for all lengths, all local cost matrices, all masks", "why_tests_cant": "tests compare the two backends on a few shapes; index arithmetic of anti-diagonals depends on both lengths", "anchors": ["tslearn/metrics/utils.py:_torch_acc_matrix_from_dist_matrix", "tslearn/metrics/_dtw.py:_njit_accumulated_matrix", "tslearn/metrics/_frechet.py:_njit_accumulated_matrix", "tslearn/metrics/_soft_dtw.py:_njit_accumulated_matrix"]}
{"id": "C04", "title": "DTW is a symmetric, non-negative, reflexive dissimilarity", "statement": "dtw(x, y) >= 0, dtw(x, x) = 0, dtw(x, y) = dtw(y, x); the last two also hold under a Sakoe-Chiba band of any radius >= 0 and the first for any constraint.", "quantifier": "for all pairs of series of any lengths, all radii", "why_tests_cant": "only universally quantified; symmetry under a band for series of different lengths depends on the mask code", "anchors": ["tslearn/metrics/_dtw.py:dtw", "tslearn/metrics/_masks.py:_sakoe_chiba_mask_generic"]}
{"id": "C05", "title": "Sakoe-Chiba mask is exactly the documented band and always feasible", "statement": "For lengths n <= m and radius r >= 0 the mask is True exactly at cells (i, j) with i - r <= j <= i + (m - n) + r (and the transposed band for n > m); transposing the mask is the mask with swapped lengths; it contains a complete warping path; the constrained DTW is therefore always finite.", "quantifier": "for all lengths >= 1 and all radii >= 0", "why_tests_cant": "slicing bounds interact with lengths and radius in unboundedly many ways", "anchors": ["tslearn/metrics/_masks.py:_sakoe_chiba_mask_generic", "tslearn/metrics/_masks.py:sakoe_chiba_mask"]}
{"id": "C06", "title": "Constraint relaxation is monotone and its extremes are known", "statement": "Enlarging the set of allowed cells (in particular increasing sakoe_chiba_radius) never increases DTW or Frechet; radius 0 on equal lengths gives exactly the Euclidean distance; a radius >= max(len)-1 gives the unconstrained DTW; unconstrained DTW of equal-length series never exceeds the Euclidean distance.", "quantifier": "for all series, all pairs of nested masks, all radii r <= r'", "why_tests_cant": "quantifies over pairs of constraints and all series", "anchors": ["tslearn/metrics/_dtw.py:dtw", "tslearn/metrics/_masks.py:compute_mask"]}
{"id": "C07", "title": "Constraint resolution table of compute_mask", "statement": "compute_mask resolves (global_constraint, sakoe_chiba_radius, itakura_max_slope): with no global_constraint, giving both a radius and a slope is an error, giving one selects the corresponding constraint, giving none allows everything; an explicit global_constraint always wins and falls back to radius 1 / slope 2 when its parameter is missing; an unknown name raises.", "quantifier": "for all parameter combinations and all lengths", "why_tests_cant": "the table has unbounded numeric parameters; a test visits a few rows", "anchors": ["tslearn/metrics/_masks.py:compute_mask", "tslearn/metrics/_masks.py:_compute_mask_generic", "tslearn/metrics/_masks.py:GLOBAL_CONSTRAINT_CODE"]}
{"id": "C08", "title": "Padding with trailing NaN rows never changes a distance", "statement": "Appending any number of all-NaN timestamps to a series (which is what to_time_series_dataset does to equalise lengths) leaves dtw, frechet, soft_dtw, gak and lcss unchanged; the length seen by the metrics is the index of the last timestamp with a non-NaN feature plus one.", "quantifier": "for all series, all numbers of padding rows, also for series with interior NaN", "why_tests_cant": "universally quantified over series and padding amounts", "anchors": ["tslearn/utils/utils.py:_ts_size", "tslearn/utils/utils.py:to_time_series", "tslearn/metrics/_dtw.py:dtw"]}
{"id": "C09", "title": "cdist matrices are entry-wise the pairwise metric, for every worker schedule", "statement": "cdist_* (dataset1, dataset2)[i, j] equals the pairwise metric of series i and j; with dataset2=None the matrix is symmetric, its diagonal is the self value (or 0 when the diagonal is skipped), and the result does not depend on the order in which parallel jobs complete.", "quantifier": "for all datasets, all symmetric pairwise metrics, all completion orders of the jobs", "why_tests_cant": "schedules of parallel jobs and dataset sizes are unbounded", "anchors": ["tslearn/metrics/utils.py:_cdist_generic"]}
{"id": "C10", "title": "Discrete Frechet value is the min-max over warping paths", "statement": "frechet(x, y) equals the minimum over admissible warping paths of the maximum aligned sample distance; the returned path is admissible and attains it; it is symmetric, zero on identical series, and never exceeds the DTW distance of the same pair.", "quantifier": "for all pairs of non-empty series, all masks, all warping paths", "why_tests_cant": "exponentially many paths; only a few pairs can be tested", "anchors": ["tslearn/metrics/_frechet.py:_njit_accumulated_matrix", "tslearn/metrics/_frechet.py:_frechet_generic", "tslearn/metrics/_frechet.py:frechet_path"]}
{"id": "C11", "title": "cdist_frechet honours global constraints like frechet does", "statement": "cdist_frechet(X, Y, global_constraint=g, sakoe_chiba_radius=r, itakura_max_slope=s)[i, j] equals frechet(X[i], Y[j], g, r, s).", "quantifier": "for all datasets and constraint parameters", "why_tests_cant": "needs a comparison for every constraint and dataset; the shipped tests never pass a constraint to cdist_frechet", "anchors": ["tslearn/metrics/_frechet.py:_cdist_frechet", "tslearn/metrics/_frechet.py:frechet", "tslearn/metrics/_masks.py:GLOBAL_CONSTRAINT_CODE"]}
{"id": "C12", "title": "DTW with limited warping length is optimal among short paths", "statement": "dtw_limited_warping_length(x, y, L) squared equals the minimum cost over warping paths of at most L pairs; L smaller than max(len) is rejected; with L >= len(x)+len(y)-1 it equals plain DTW; it is non-increasing in L; the returned path has at most L pairs and that cost.", "quantifier": "for all series, all L, all warping paths of length <= L", "why_tests_cant": "three-dimensional dynamic programme with dictionary states; exponentially many paths", "anchors": ["tslearn/metrics/dtw_variants.py:_limited_warping_length_cost", "tslearn/metrics/dtw_variants.py:dtw_limited_warping_length", "tslearn/metrics/dtw_variants.py:dtw_path_limited_warping_length", "tslearn/metrics/dtw_variants.py:_return_path_limited_warping_length"]}
{"id": "C13", "title": "Subsequence DTW is the best DTW over all contiguous subsequences", "statement": "dtw_subsequence_path(q, x) returns the minimum over all contiguous subsequences of x of their DTW to q, and a path that matches the whole of q onto one contiguous subsequence at that cost.", "quantifier": "for all queries and longer series, all subsequence start and end positions", "why_tests_cant": "quantifies over all subsequences and all paths", "anchors": ["tslearn/metrics/dtw_variants.py:_njit_subsequence_cost_matrix", "tslearn/metrics/dtw_variants.py:subsequence_path", "tslearn/metrics/dtw_variants.py:dtw_subsequence_path"]}
{"id": "C14", "title": "LB_Keogh lower-bounds band-constrained DTW", "statement": "For equal-length univariate series, lb_keogh(q, candidate, radius r) <= dtw(q, candidate, sakoe_chiba_radius=r), and the envelope returned by lb_envelope contains the candidate and is exactly the windowed min/max.", "quantifier": "for all series of equal length, all radii", "why_tests_cant": "a pruning bound is only useful if it never over-estimates on any input", "anchors": ["tslearn/metrics/dtw_variants.py:lb_keogh", "tslearn/metrics/dtw_variants.py:lb_envelope", "tslearn/metrics/dtw_variants.py:_njit_lb_envelope"]}
{"id": "C15", "title": "LCSS is the normalised longest epsilon-common subsequence", "statement": "lcss(x, y, eps) equals (length of the longest pair of strictly increasing index sequences whose samples match within eps) / min(len); it lies in [0, 1]; it is 1 on identical series (eps >= 0), symmetric, and non-decreasing in eps.", "quantifier": "for all series, all eps, all index sequences", "why_tests_cant": "exponentially many common subsequences", "anchors": ["tslearn/metrics/dtw_variants.py:njit_lcss_accumulated_matrix", "tslearn/metrics/dtw_variants.py:_lcss", "tslearn/metrics/dtw_variants.py:lcss"]}
{"id": "C16", "title": "lcss_path terminates and returns a matching of the reported size", "statement": "lcss_path terminates and returns strictly increasing index pairs, all of them matching within eps and allowed by the constraint, as many as lcss times min(len).", "quantifier": "for all series, all eps, all constraints", "why_tests_cant": "termination of a while-loop cannot be settled by running it on samples", "anchors": ["tslearn/metrics/dtw_variants.py:_return_lcss_path", "tslearn/metrics/dtw_variants.py:_njit_return_lcss_path", "tslearn/metrics/dtw_variants.py:lcss_path"]}
{"id": "C17", "title": "Soft-DTW is the soft minimum over all warping paths", "statement": "soft_dtw(x, y, gamma) = -gamma * log(sum over warping paths of exp(-cost/gamma)) for gamma > 0.", "quantifier": "for all series, all gamma > 0, all warping paths", "why_tests_cant": "exponentially many paths and a continuous parameter", "anchors": ["tslearn/metrics/_soft_dtw.py:_njit_accumulated_matrix", "tslearn/metrics/soft_dtw_fast.py:_njit_softmin3", "tslearn/metrics/soft_dtw_fast.py:_njit_soft_dtw"]}
{"id": "C18", "title": "Soft-DTW brackets squared DTW and decreases with gamma", "statement": "dtw(x,y)^2 - gamma*log(number of warping paths) <= soft_dtw(x,y,gamma) <= dtw(x,y)^2; soft_dtw is non-increasing in gamma and symmetric.", "quantifier": "for all series and all 0 < gamma <= gamma'", "why_tests_cant": "continuous parameter and exponentially many paths", "anchors": ["tslearn/metrics/_soft_dtw.py:soft_dtw"]}
{"id": "C19", "title": "cdist_soft_dtw agrees with soft_dtw for every gamma including 0", "statement": "cdist_soft_dtw(X, Y, gamma)[i, j] equals soft_dtw(X[i], Y[j], gamma), also for gamma = 0 where soft_dtw is the squared DTW.", "quantifier": "for all datasets and gamma >= 0", "why_tests_cant": "the gamma=0 branch is a separate code path in the dataset-level function", "anchors": ["tslearn/metrics/_soft_dtw.py:_cdist_soft_dtw", "tslearn/metrics/_soft_dtw.py:soft_dtw"]}
{"id": "C20", "title": "Soft-DTW alignment matrix is the Gibbs expectation of warping paths", "statement": "soft_dtw_alignment returns the gradient of soft-DTW with respect to the local costs: entry (i, j) is the probability that a path drawn with probability proportional to exp(-cost/gamma) visits (i, j); hence entries lie in [0, 1], the corners are 1, every row and column sums to at least 1.", "quantifier": "for all cost matrices, gamma > 0", "why_tests_cant": "a backward recursion with floating borders; equality with a path expectation cannot be sampled", "anchors": ["tslearn/metrics/_soft_dtw.py:_soft_dtw_grad_generic", "tslearn/metrics/_soft_dtw.py:soft_dtw_alignment", "tslearn/metrics/soft_dtw_fast.py:_njit_soft_dtw_grad"]}
{"id": "C21", "title": "GAK is a normalised symmetric sum over alignments", "statement": "unnormalized_gak is the sum over warping paths of the product of local kernels; gak is symmetric, gak(x, x) = 1, gak > 0; cdist_gak is symmetric with unit diagonal and agrees with gak.", "quantifier": "for all series, sigma > 0, all warping paths", "why_tests_cant": "exponentially many paths, continuous sigma", "anchors": ["tslearn/metrics/_gak.py:_gak_from_gram_matrix", "tslearn/metrics/_gak.py:gak", "tslearn/metrics/_gak.py:_cdist_gak"]}
{"id": "C22", "title": "CTW iterates until the alignment stops changing", "statement": "ctw_path repeats alignment and projection until the warping path no longer changes or max_iter is reached, and the returned similarity is the score of the returned path.", "quantifier": "for all inputs and all max_iter, whatever projection is computed", "why_tests_cant": "behaviour across an arbitrary sequence of alternations", "anchors": ["tslearn/metrics/ctw.py:ctw_path"]}
{"id": "C23", "title": "Dataset construction is faithful and idempotent", "statement": "to_time_series_dataset pads to the longest series with NaN, keeps every value, is idempotent, and each original series (without trailing NaN rows) is recovered by removing the trailing NaN rows of its slot.", "quantifier": "for all lists of series of any lengths and dimensions", "why_tests_cant": "unbounded shapes and NaN patterns", "anchors": ["tslearn/utils/utils.py:to_time_series_dataset", "tslearn/utils/utils.py:to_time_series", "tslearn/utils/utils.py:_ts_size"]}
{"id": "C24", "title": "Text serialisation of time series round-trips", "statement": "str_to_time_series(time_series_to_str(x)) = x whenever the number formatting used round-trips, for any dimension; the same for a dataset written by save_time_series_txt and read back.", "quantifier": "for all series, given a parse/print pair that round-trips on numbers", "why_tests_cant": "separator handling must be right for every shape", "anchors": ["tslearn/utils/utils.py:time_series_to_str", "tslearn/utils/utils.py:str_to_time_series", "tslearn/utils/utils.py:save_time_series_txt", "tslearn/utils/utils.py:load_time_series_txt"]}
{"id": "C25", "title": "check_dims decision table", "statement": "check_dims accepts or rejects an array exactly according to the documented dimension rules (missing array, extension of 2-D arrays, equality of all or only of the feature dimension with the fitted shape) and returns the array unchanged otherwise.", "quantifier": "for all shapes and fitted shapes", "why_tests_cant": "unbounded shapes", "anchors": ["tslearn/utils/utils.py:check_dims"]}
{"id": "C26", "title": "Library casts round-trip", "statement": "from_X(to_X(dataset)) = dataset for the supported third-party formats (sklearn, pyts, seglearn, stumpy, sktime, cesium, tsfresh), including ragged datasets where the format allows them.", "quantifier": "for all datasets in the domain of the format", "why_tests_cant": "reshapes/transposes must be mutually inverse for every shape", "anchors": ["tslearn/utils/cast.py"]}
{"id": "C27", "title": "Model serialisation round-trips", "statement": "A model saved with to_json / to_hdf5 / to_pickle and read back has the same hyper-parameters and fitted parameters, and to_hdf5 never overwrites an existing file.", "quantifier": "for all hyper-parameter and fitted-attribute dictionaries", "why_tests_cant": "unbounded nested values", "anchors": ["tslearn/bases/bases.py:BaseModelPackage", "tslearn/hdftools/hdftools.py"]}
{"id": "C28", "title": "Min-max scaling lands in the requested range, per series", "statement": "TimeSeriesScalerMinMax maps every non-constant series feature onto exactly [min, max] (both attained), maps a constant feature to the lower bound, ignores NaN, and scales each series independently of the rest of the dataset.", "quantifier": "for all datasets, all ranges min < max", "why_tests_cant": "continuous inputs; independence is a relational property", "anchors": ["tslearn/preprocessing/preprocessing.py:TimeSeriesScalerMinMax"]}
{"id": "C29", "title": "Mean-variance scaling has the requested moments, per series", "statement": "TimeSeriesScalerMeanVariance produces mean mu and standard deviation std on every non-constant series feature, mean mu on a constant one, independently per series; applying it twice is the same as once.", "quantifier": "for all datasets, mu, std", "why_tests_cant": "continuous inputs", "anchors": ["tslearn/preprocessing/preprocessing.py:TimeSeriesScalerMeanVariance"]}
{"id": "C30", "title": "Imputation never alters observed values and fills exactly what it promises", "statement": "TimeSeriesImputer leaves every observed (non-NaN) sample unchanged; forward fill writes the last previous observation (leading gaps stay NaN), backward fill the next one, constant/mean/median write that statistic, linear interpolates inside gaps; trailing NaN padding is kept when keep_trailing_nans is set.", "quantifier": "for all NaN patterns and all series", "why_tests_cant": "exponentially many NaN patterns", "anchors": ["tslearn/preprocessing/preprocessing.py:TimeSeriesImputer"]}
{"id": "C31", "title": "Resampling keeps endpoints, bounds and identity", "statement": "TimeSeriesResampler outputs series of the requested size whose first/last samples are those of the input, whose values stay within the input's min/max, and it is the identity when the size is already right.", "quantifier": "for all series and sizes", "why_tests_cant": "continuous inputs, arbitrary sizes", "anchors": ["tslearn/preprocessing/preprocessing.py:TimeSeriesResampler"]}
{"id": "C32", "title": "PAA distance lower-bounds the Euclidean distance", "statement": "distance_paa (hence distance_sax) never exceeds the Euclidean distance of the original series, and distances on representations agree with Euclidean distances of the reconstructed series.", "quantifier": "for all series and segment counts", "why_tests_cant": "a lower-bounding guarantee must hold for every pair", "anchors": ["tslearn/piecewise/piecewise.py:PiecewiseAggregateApproximation", "tslearn/metrics/cysax.py:cydist_sax", "tslearn/metrics/cysax.py:inv_transform_paa"]}
{"id": "C33", "title": "SAX symbols are in range and order-preserving, MINDIST lower-bounds PAA", "statement": "Every SAX symbol lies in [0, alphabet_size); a larger PAA value never gets a smaller symbol; the SAX distance never exceeds the PAA distance, hence the Euclidean one when the segments tile the series.", "quantifier": "for all series, alphabet sizes and sorted breakpoints", "why_tests_cant": "every breakpoint configuration and value must be covered", "anchors": ["tslearn/piecewise/piecewise.py:_paa_to_symbols", "tslearn/piecewise/piecewise.py:SymbolicAggregateApproximation", "tslearn/metrics/cysax.py:cydist_sax"]}
{"id": "C34", "title": "Piecewise inverse_transform reconstructs every timestamp", "statement": "inverse_transform(transform(X)) has the original length and each timestamp holds the value of the segment it belongs to.", "quantifier": "for all lengths and segment counts", "why_tests_cant": "tail handling depends on divisibility", "anchors": ["tslearn/metrics/cysax.py:inv_transform_paa", "tslearn/metrics/cysax.py:inv_transform_sax", "tslearn/metrics/cysax.py:inv_transform_1d_sax"]}
{"id": "C35", "title": "Matrix profile is the nearest non-trivial match", "statement": "Entry i of the matrix profile of a fully observed series is the minimum Euclidean distance (of standardised subsequences when scale=True) between subsequence i and any subsequence outside the exclusion zone (|i-j| > ceil(m/4)), never a trivial self match, and +inf exactly when no such subsequence exists; a missing value makes every entry compared with it NaN.", "quantifier": "for all series, all subsequence lengths", "why_tests_cant": "quantifies over all pairs of subsequences", "anchors": ["tslearn/matrix_profile/matrix_profile.py:MatrixProfile._transform"]}
{"id": "C36", "title": "DBA never increases the cost it reports", "statement": "With fixed assignments the weighted mean update minimises the cost, re-assignment by DTW minimises it over paths; hence the sequence of costs of dtw_barycenter_averaging is non-increasing, the loop stops after at most max_iter rounds and keeps the best of n_init.", "quantifier": "for all datasets, non-negative weights not all zero, constraints (Itakura slope at least 1), initial barycenters, max_iter, tol, n_init", "why_tests_cant": "monotonicity along an unbounded iteration", "anchors": ["tslearn/barycenters/dba.py:dtw_barycenter_averaging", "tslearn/barycenters/dba.py:_mm_update_barycenter", "tslearn/barycenters/dba.py:dtw_barycenter_averaging_one_init"]}
{"id": "C37", "title": "TimeSeriesKMeans fit loop: attempts, best run, consistent attributes", "statement": "fit performs at most the documented number of attempts and n_init successful runs, keeps the run with the lowest inertia, never reports an empty cluster, and after fit labels_, cluster_centers_ and inertia_ describe the same clustering.", "quantifier": "for all outcomes of the random initialisations and all data", "why_tests_cant": "depends on arbitrary sequences of successes, failures and inertia values", "anchors": ["tslearn/clustering/kmeans.py:TimeSeriesKMeans.fit", "tslearn/clustering/kmeans.py:TimeSeriesKMeans._fit_one_init", "tslearn/clustering/utils.py:TimeSeriesCentroidBasedClusteringMixin._post_fit"]}
{"id": "C38", "title": "KernelKMeans refit depends only on its parameters and data", "statement": "Fitting a KernelKMeans a second time, or after set_params, gives what a fresh estimator with the same hyper-parameters would give; hyper-parameters passed by the user are not modified by fit.", "quantifier": "for all histories of set_params / fit / predict", "why_tests_cant": "a property of call histories", "anchors": ["tslearn/clustering/kmeans.py:KernelKMeans._get_kernel_params", "tslearn/clustering/kmeans.py:KernelKMeans.fit"]}
{"id": "C39", "title": "Nearest-neighbour queries return the k nearest, sorted", "statement": "kneighbors(X, k) returns for each query k distinct training indices in order of distance such that no other training series is strictly closer; with X omitted the query itself is excluded.", "quantifier": "for all datasets, metrics, k, and every partial sort consistent with numpy.argpartition's contract", "why_tests_cant": "argpartition leaves the order unspecified, so a passing run proves nothing about other orders", "anchors": ["tslearn/neighbors/neighbors.py:KNeighborsTimeSeriesMixin.kneighbors"]}
{"id": "C40", "title": "Nearest-neighbour estimators survive errors and reconfiguration", "statement": "After any sequence of fit, kneighbors, set_params and failing calls, the metric hyper-parameter is the one the user last set and a successful fit makes later queries use exactly the data and metric of that fit.", "quantifier": "for all call histories, including calls that raise", "why_tests_cant": "a property of call histories with exceptions", "anchors": ["tslearn/neighbors/neighbors.py:KNeighborsTimeSeries", "tslearn/neighbors/neighbors.py:KNeighborsTimeSeriesMixin"]}
{"id": "C41", "title": "Early classification is causal and consistent", "statement": "The class and decision time produced for a series depend only on its samples up to the decision time; the decision time lies in [min_t, fitted length]; feeding the series chunk by chunk through the online generator gives the same decisions as the offline call.", "quantifier": "for all series, chunkings, fitted models", "why_tests_cant": "relational property over futures of a stream", "anchors": ["tslearn/early_classification/early_classification.py:NonMyopicEarlyClassifier"]}
{"id": "C42", "title": "Cross-correlation based clustering uses the query's own norms", "statement": "KShape.predict on any number of query series gives for each the cluster maximising normalised cross-correlation computed with that query's norm.", "quantifier": "for all training sets and query sets of any size", "why_tests_cant": "depends on the relation between sizes of training and query sets", "anchors": ["tslearn/clustering/kshape.py:KShape", "tslearn/metrics/cycc.py:cdist_normalized_cc", "tslearn/metrics/cycc.py:normalized_cc"]}
{"id": "C43", "title": "VARIMA forecasts invert differencing", "statement": "For a model with differencing order d (and seasonal period s) the forecasts on the original scale, differenced again together with the history, give back the forecasts of the differenced model.", "quantifier": "for all d, s, histories and horizons", "why_tests_cant": "algebraic identity for every order and horizon", "anchors": ["tslearn/forecasting/_arima.py:VARIMA._undifference", "tslearn/forecasting/_arima.py:VARIMA.predict", "tslearn/forecasting/_arima.py:VARIMA._seasonal_differencing"]}
{"id": "C44", "title": "AutoVARIMA search terminates within its bounds", "statement": "The stepwise search terminates, never fits the same (p, q, constant) twice, only returns p <= max_p, q <= max_q, the returned model has the least AIC of all fitted ones, and with distinct AICs the result does not depend on set iteration order.", "quantifier": "for all AIC functions, bounds and set iteration orders", "why_tests_cant": "Python set order is unspecified; termination must hold for every criterion", "anchors": ["tslearn/forecasting/_arima.py:AutoVARIMA._get_best_model_for_given_d", "tslearn/forecasting/_arima.py:AutoVARIMA._compute_model_variations"]}
{"id": "C45", "title": "Shapelet transform is the minimal mean squared distance to a window", "statement": "transform returns for each shapelet the minimum over valid windows of the series of the mean squared distance between the window and the shapelet; locate returns a position attaining it; windows touching padding are ignored.", "quantifier": "for all series, shapelets, dimensions and paddings", "why_tests_cant": "tensor reshapes must be right for every number of shapelets and features", "anchors": ["tslearn/shapelets/shapelets.py:LocalSquaredDistanceLayer", "tslearn/shapelets/shapelets.py:GlobalMinPooling1D", "tslearn/shapelets/shapelets.py:PatchingLayer"]}
{"id": "C46", "title": "LearningShapelets can be refitted on any dataset", "statement": "fit on a dataset accepted by a fresh estimator is accepted by an already fitted one with the same parameters, and sees the same preprocessed data.", "quantifier": "for all call histories", "why_tests_cant": "a property of call histories", "anchors": ["tslearn/shapelets/shapelets.py:LearningShapelets.fit", "tslearn/shapelets/shapelets.py:LearningShapelets._check_series_length", "tslearn/shapelets/shapelets.py:LearningShapelets._preprocess_series"]}
{"id": "C47", "title": "Forecast error metrics obey their laws", "statement": "mean_absolute_error and mean_squared_error are non-negative, zero exactly on equal inputs, symmetric, and (mae)^2 <= mse for uniform averaging; uniform averaging is the mean of the raw values; mean_absolute_scaled_error of a perfect forecast is 0 and scales out units.", "quantifier": "for all arrays and weights", "why_tests_cant": "continuous inputs", "anchors": ["tslearn/metrics/performance.py"]}
{"id": "C48", "title": "Backend selection is decided by the documented rule", "statement": "instantiate_backend returns the first explicit backend argument, otherwise the first argument naming numpy or torch, otherwise numpy, whatever else is passed.", "quantifier": "for all argument lists", "why_tests_cant": "unbounded argument lists", "anchors": ["tslearn/backend/backend.py:instantiate_backend", "tslearn/backend/backend.py:select_backend"]}
{"id": "C49", "title": "DBSCAN neighbourhoods and attribute restoration", "statement": "Core samples are exactly the series with at least min_ts training series (itself included) within eps; temporarily patched attributes are restored on success and on exception.", "quantifier": "for all datasets, eps, min_ts, and any exception point", "why_tests_cant": "exception points and datasets are unbounded", "anchors": ["tslearn/clustering/dbscan.py", "tslearn/bases/bases.py:TimeSeriesMixin._patch_attribute"]}
{"id": "C50", "title": "SBD and cross-correlation bounds", "statement": "normalized_cc values lie in [-1, 1] (0 on a zero-norm operand); cdist_normalized_cc with self_similarity=False and identical series attains 1; y_shifted_sbd_vec returns a zero-padded shift of the input.", "quantifier": "for all series, all shifts", "why_tests_cant": "Cauchy-Schwarz for every shift and dimension", "anchors": ["tslearn/metrics/cycc.py:normalized_cc", "tslearn/metrics/cycc.py:cdist_normalized_cc", "tslearn/metrics/cycc.py:y_shifted_sbd_vec"]}
{"id": "C51", "title": "Itakura mask is the documented parallelogram and its feasibility check is exact", "statement": "For max slope >= 1 the Itakura mask contains every cell of the exact parallelogram and no cell outside the parallelogram widened by 0.005 (bounds are rounded to two decimals); compute_mask raises its 'unfeasible' warning exactly when the corridor contains no complete warping path; it never raises for equal lengths; constrained DTW is finite whenever it returns.", "quantifier": "for all lengths n, m >= 1, all rational max slopes >= 1, all series", "why_tests_cant": "the check only looks at empty rows and columns; that this is equivalent to the existence of a warping path needs an argument over all lengths and slopes", "anchors": ["tslearn/metrics/_masks.py:_itakura_mask_generic", "tslearn/metrics/_masks.py:compute_mask"]}
{"id": "C52", "title": "cdist_soft_dtw_normalized agrees with soft_dtw_normalized for every n_jobs", "statement": "cdist_soft_dtw_normalized(X, Y, gamma, n_jobs=k)[i, j] equals soft_dtw_normalized(X[i], Y[j], gamma), whatever the lengths of the series in X and Y and whatever k.", "quantifier": "for all pairs of datasets of variable-length series, gamma > 0, all n_jobs and schedules", "why_tests_cant": "the sequential and the parallel branch compute the normaliser by different code; the parallel branch stacks the two padded datasets", "anchors": ["tslearn/metrics/_soft_dtw.py:_cdist_soft_dtw_normalized", "tslearn/metrics/_soft_dtw.py:_soft_dtw_normalized_generic"]}
{"id": "C53", "title": "GAK is a positive semidefinite kernel with values in (0, 1]", "statement": "For any finite family of time series (any lengths, same number of features) the Gram matrices of unnormalized_gak and of gak, and the matrix returned by cdist_gak(X) for any n_jobs, are positive semidefinite; gak takes values in (0, 1].", "quantifier": "for all finite families of variable-length series, all sigma != 0, all n_jobs/schedules", "why_tests_cant": "positive semidefiniteness quantifies over all families and coefficient vectors; it depends on the exact form of the local kernel (kappa/(2-kappa))", "anchors": ["tslearn/metrics/_gak.py:_unnormalized_gak", "tslearn/metrics/_gak.py:gak", "tslearn/metrics/_gak.py:cdist_gak"]}
{"id": "C54", "title": "Feature synchronisation keeps the reference feature and puts the others on its grid", "statement": "TimeSeriesFeatureSynchronizer leaves the reference feature of every series unchanged, gives every series the length of its reference feature (NaN padded to the longest), and writes in every other feature the linear interpolation of that feature at the reference positions: k(n-1)/(R-1) without timestamps, the reference timestamps otherwise (constant extension outside the sampled range). Non-increasing timestamps and shape mismatches are refused.", "quantifier": "for all datasets, reference features and timestamp arrays", "why_tests_cant": "continuous inputs, every combination of sizes", "anchors": ["tslearn/preprocessing/_synchronizer.py:TimeSeriesFeatureSynchronizer"]}
{"id": "C55", "title": "Piecewise representations survive reconstruction", "statement": "transform(inverse_transform(R)) = R for every PAA, SAX or 1d-SAX representation R whose symbols are in range, with or without the scaling learnt at fit time: the median of a bin is coded by the symbol of that bin, and the line of a segment has the average and the slope it was built from.", "quantifier": "for all representations, alphabet sizes, segment counts, increasing quantile functions and fitted scalings", "why_tests_cant": "every word over every alphabet, every fitted scaling", "anchors": ["tslearn/piecewise/piecewise.py:SymbolicAggregateApproximation", "tslearn/piecewise/piecewise.py:OneD_SymbolicAggregateApproximation", "tslearn/metrics/cysax.py:inv_transform_1d_sax"]}
{"id": "C56", "title": "1d-SAX distance is the Euclidean distance of the reconstructions", "statement": "distance_1d_sax(w1, w2) equals the Euclidean distance of inverse_transform(w1) and inverse_transform(w2) when the segments tile the fitted size.", "quantifier": "for all words and bin medians", "why_tests_cant": "two independent formulas for the middle of a segment must agree for all symbols", "anchors": ["tslearn/metrics/cysax.py:cydist_1d_sax", "tslearn/metrics/cysax.py:inv_transform_1d_sax"]}
{"id": "C57", "title": "Constraint parameters mean the same for DBA as for dtw_path", "statement": "metric_params of dtw_barycenter_averaging are documented as the parameters of dtw_path, so a constraint given by the name or code that dtw_path accepts restricts the alignments in the same way.", "quantifier": "for all constraint names and codes, radii, slopes, datasets", "why_tests_cant": "tests check a result exists, not which alignments were allowed", "anchors": ["tslearn/barycenters/dba.py:_mm_assignment", "tslearn/metrics/_masks.py:_compute_mask_generic"]}
{"id": "C58", "title": "Petitjean's implementation performs the same update as the MM implementation", "statement": "For the same alignments, dtw_barycenter_averaging_petitjean computes exactly the update of dtw_barycenter_averaging; its loop is a descent too and without constraints both report the same cost for the same barycenter.", "quantifier": "for all datasets, alignments, weights, barycenters", "why_tests_cant": "equality of two algorithms on all inputs", "anchors": ["tslearn/barycenters/dba.py:_petitjean_assignment", "tslearn/barycenters/dba.py:_petitjean_update_barycenter", "tslearn/barycenters/dba.py:dtw_barycenter_averaging_petitjean"]}
{"id": "C59", "title": "Subgradient DBA: steps, step sizes and weights", "statement": "Each step of dtw_barycenter_averaging_subgradient moves the barycenter against the gradient of the squared DTW distance to the current series, step sizes go linearly from initial to final during the first epoch, short steps never increase that distance, and weights weigh the series.", "quantifier": "for all datasets, positive weights, step sizes, shuffles, numbers of iterations", "why_tests_cant": "no test compares runs with different weights", "anchors": ["tslearn/barycenters/dba.py:dtw_barycenter_averaging_subgradient", "tslearn/barycenters/dba.py:_subgradient_update_barycenter"]}
{"id": "C60", "title": "The Euclidean barycenter is the unique minimiser of the weighted squared Euclidean cost", "statement": "For series of equal length and weights of positive sum euclidean_barycenter returns the only minimiser of the weighted sum of squared distances; for different lengths exactly the samples some series lacks are NaN; weights of sum zero raise ZeroDivisionError, weights of a wrong length count as ones.", "quantifier": "for all datasets and weights", "why_tests_cant": "optimality among all series", "anchors": ["tslearn/barycenters/euclidean.py:euclidean_barycenter", "tslearn/barycenters/utils.py:_set_weights"]}
{"id": "C61", "title": "softdtw_barycenter hands the optimiser the true objective and its gradient", "statement": "The value given to scipy.optimize.minimize is the weighted sum of the soft-DTW values to the series, the gradient given with it is the derivative of that value in every direction, and neither depends on the order in which parallel workers finish; constraint names are translated and unknown names refused.", "quantifier": "for all datasets, weights, gamma > 0, constraints (Itakura slope at least 1), barycenters and directions", "why_tests_cant": "finite differences at samples only approximate a derivative", "anchors": ["tslearn/barycenters/softdtw.py:_acc_softdtw_func", "tslearn/barycenters/softdtw.py:_njit_jacobian_product_sq_euc", "tslearn/barycenters/softdtw.py:softdtw_barycenter"]}
{"id": "C62", "title": "DTW k-means uses one metric for assignment and centroid update", "statement": "TimeSeriesKMeans with metric='dtw' and constraint parameters in metric_params assigns series and updates centroids with the same constrained DTW, so that no round of a run increases the inertia.", "quantifier": "for all datasets, initial centroids and admissible constraint parameters", "why_tests_cant": "the parameters travel through two different call chains and only the interplay of particular alignments makes the inertia rise", "anchors": ["tslearn/clustering/kmeans.py:TimeSeriesKMeans._transform", "tslearn/clustering/kmeans.py:TimeSeriesKMeans._update_centroids", "tslearn/metrics/_dtw.py:_cdist_dtw", "tslearn/barycenters/dba.py:dtw_barycenter_averaging_petitjean"]}
{"id": "C63", "title": "KShape.fit's attributes belong to its best attempt", "statement": "After KShape.fit returns fitted, cluster_centers_, inertia_ and n_iter_ are those of the first successful attempt of least inertia, norms_centroids_ are the norms of these centroids, and labels_ gives for every training series the centroid of greatest shape similarity.", "quantifier": "for all datasets, initial draws, hyper-parameters and numbers of failed attempts", "why_tests_cant": "depends on the order in which random attempts succeed and fail", "anchors": ["tslearn/clustering/kshape.py:KShape.fit", "tslearn/clustering/kshape.py:KShape._fit_one_init", "tslearn/clustering/utils.py:TimeSeriesCentroidBasedClusteringMixin._post_fit"]}
{"id": "C64", "title": "Shape extraction returns the vector its members project on most, with the right sign", "statement": "Each feature of a KShape centroid before standardisation is a unit vector maximising the sum of squared inner products with the aligned, centred members of the cluster, and of the two signs it has the one nearer to that feature of the members.", "quantifier": "for all clusters, old centroids and numbers of features", "why_tests_cant": "the optimality is over all unit vectors, and the sign is only wrong for series whose features disagree", "anchors": ["tslearn/clustering/kshape.py:KShape._shape_extraction", "tslearn/metrics/cycc.py:y_shifted_sbd_vec"]}
{"id": "C65", "title": "An attempt of KShape.fit descends and stops as its parameters say", "statement": "A successful attempt of KShape.fit makes between 1 and max_iter rounds of shape extraction and assignment, recorded in n_iter_; every round but the last lowers the inertia by at least tol; it stops at the first round that does not and then steps back one round. With max_iter=0 it fails.", "quantifier": "for all datasets, initial centroids, tolerances and round limits", "why_tests_cant": "unbounded number of rounds; the stopping rule depends on every inertia met", "anchors": ["tslearn/clustering/kshape.py:KShape._fit_one_init", "tslearn/clustering/kshape.py:KShape._update_centroids", "tslearn/clustering/kshape.py:KShape._assign"]}
{"id": "C66", "title": "KernelKMeans.fit keeps the first best successful attempt", "statement": "With positive weights and a kernel matrix that can be computed, KernelKMeans.fit never raises. Attempts are made until n_init succeeded or max(n_init, 10) were made. An attempt succeeds exactly when its rounds of relabelling leave no cluster empty, and stops after max_iter rounds or when the inertia moved by less than tol. labels_, inertia_ and n_iter_ are those of the first successful attempt of least inertia. When no attempt succeeds the estimator is left unfitted and predict raises AttributeError. predict labels a series with the first cluster of least distance to the training series.", "quantifier": "for all kernel matrices, positive weights, draws, numbers of clusters, tolerances, round and attempt limits, and previous states of the estimator", "why_tests_cant": "unbounded numbers of attempts and rounds; the kept attempt depends on all of them", "anchors": ["tslearn/clustering/kmeans.py:KernelKMeans.fit", "tslearn/clustering/kmeans.py:KernelKMeans._fit_one_init", "tslearn/clustering/kmeans.py:KernelKMeans._compute_dist", "tslearn/clustering/kmeans.py:KernelKMeans.predict"]}
{"id": "C67", "title": "KernelKMeans assigns to nearest means, its inertia is that of the clustering and never rises", "statement": "The distance of KernelKMeans between a series and a cluster is the squared distance in feature space to the weighted mean of the cluster, so that labels_ and predict give the nearest mean, inertia_ is the sum of squared distances, a further round never raises it, and fit(X).predict(X) equals fit_predict(X).", "quantifier": "for all normalised kernel matrices, weights and labels", "why_tests_cant": "holds or fails depending on the norms of the means in feature space, which no attribute shows", "anchors": ["tslearn/clustering/kmeans.py:KernelKMeans._compute_dist", "tslearn/clustering/kmeans.py:KernelKMeans._compute_inertia", "tslearn/clustering/kmeans.py:KernelKMeans.predict"]}
{"id": "C68", "title": "The probabilities of the early classifier are probabilities", "statement": "get_cluster_probas gives positive numbers summing to 1, larger for nearer centers when lamb > 0 and equal when lamb = 0, whenever one center differs from the observed samples; pyck_ holds for each cluster the distribution of classes; pyhatyck_ holds P(predicted class | true class, cluster) off the diagonal, so that the expected misclassification cost is at most 1.", "quantifier": "for all prefixes, centers, lamb, numbers of clusters, class counts and confusion matrices", "why_tests_cant": "identities over all real inputs; the wrong normalisation only shows on unbalanced confusion matrices", "anchors": ["tslearn/early_classification/early_classification.py:NonMyopicEarlyClassifier.get_cluster_probas", "tslearn/early_classification/early_classification.py:NonMyopicEarlyClassifier.fit", "tslearn/early_classification/early_classification.py:NonMyopicEarlyClassifier._expected_costs"]}
{"id": "C69", "title": "VARIMA forecasts are consistent between horizons and calls", "statement": "predict(n) is the beginning of predict(n + k); predict(X) on the training data equals predict(); and each forecast satisfies the recursion of the documented model on the continued series, residuals of the future being zero.", "quantifier": "for all orders, seasonal periods, coefficients, series, lengths of the longest series and horizons", "why_tests_cant": "holds for every horizon; fails only when the moving average order exceeds the autoregressive one on padded data, or from second differences on", "anchors": ["tslearn/forecasting/_arima.py:VARIMA.predict", "tslearn/forecasting/_arima.py:VARIMA._get_last_timestamps", "tslearn/forecasting/_arima.py:_loss"]}
{"id": "C70", "title": "Autoregressive coefficients are those of the least-squares regression", "statement": "For a model without moving average fitted on one series, the one-step predictions of the fitted model equal those of the least-squares regression on the preceding samples, so the fitted model has the least sum of squared errors among all models of its order.", "quantifier": "for all orders, numbers of features, series and regression coefficients", "why_tests_cant": "the transposition cancels for one feature and for symmetric matrices, and no attribute exposes the regression", "anchors": ["tslearn/forecasting/_arima.py:VARIMA._default_params_per_ts", "tslearn/forecasting/_arima.py:VARIMA._unravel_params", "tslearn/forecasting/_arima.py:compute_var"]}
{"id": "C71", "title": "DBSCAN labels are the density-connected components", "statement": "After TimeSeriesDBSCAN.fit with symmetric distances, a series is labelled -1 exactly if it is neither core nor within eps of a core series; two core series share a label exactly if a chain of core series, each within eps of the one before, joins them; a series that is not core gets the least label among the core series within eps of it; labels are consecutive from 0 and clusters are numbered in the order of their first core series. The search always ends.", "quantifier": "for all symmetric distance matrices, eps, min_ts and numbers of series", "why_tests_cant": "chains, ties between clusters and search orders are unbounded", "anchors": ["tslearn/clustering/dbscan.py:TimeSeriesDBSCAN.fit"]}
{"id": "C72", "title": "Nearest-neighbour predictions are those of the weighted vote", "statement": "predict of the classifier returns the first class of greatest total weight among the k nearest training series, equal to the first class of greatest predict_proba; probabilities are non-negative and sum to one; predict of the regressor is the weighted mean of the neighbours' targets and lies between their least and greatest.", "quantifier": "for all training sets, queries, distances, numbers of neighbours and weights", "why_tests_cant": "ties, zero and negative distances are rare in samples, and numbers of neighbours and classes are unbounded", "anchors": ["tslearn/neighbors/neighbors.py:KNeighborsTimeSeriesClassifier.predict", "tslearn/neighbors/neighbors.py:KNeighborsTimeSeriesClassifier.predict_proba", "tslearn/neighbors/neighbors.py:KNeighborsTimeSeriesRegressor.predict"]}
{"id": "C73", "title": "Support vector machines use the parameters, kernel and data they were given", "statement": "Fitting hands scikit-learn every documented parameter, gamma='auto' meaning gamma_soft_dtw of the data for the kernel gak and 1/n_features for others; with gak the matrix of fit holds gak of every two training series with bandwidth sqrt(gamma_/2), queries use the same kernel against the training series, and a query with the training data gives the matrix of fit; support_vectors_ are the training series at support_, split by class; the outcome of fit does not depend on earlier calls, and a fit that raises leaves the fitted model as it was.", "quantifier": "for all datasets, parameters, solvers, draws, schedules of jobs and sequences of calls", "why_tests_cant": "parameters that are not handed over raise no error, and sequences of calls and schedules are unbounded", "anchors": ["tslearn/svm/svm.py:TimeSeriesSVMMixin._preprocess_sklearn", "tslearn/svm/svm.py:TimeSeriesSVC.fit", "tslearn/svm/svm.py:TimeSeriesSVC.support_vectors_", "tslearn/svm/svm.py:TimeSeriesSVR.fit"]}
{"id": "C74", "title": "Bandwidths chosen from data are medians of distances", "statement": "sigma_gak is the square root of the greatest size of a series times a median of the Euclidean distances between the drawn points without NaN: at least half of the pairs are at most that far apart and at least half at least that far, on both backends, which agree; it follows changes of unit and origin; it is positive for data with different points; gamma_soft_dtw is twice its square, so that sqrt(gamma/2) gives it back; data without complete points are refused.", "quantifier": "for all datasets, numbers of samples and random draws, on both backends", "why_tests_cant": "draws are random and the failing ones need an even number of pairs or many equal values", "anchors": ["tslearn/metrics/_gak.py:sigma_gak", "tslearn/metrics/softdtw_variants.py:gamma_soft_dtw"]}
{"id": "C75", "title": "Nearest-neighbour classifiers and regressors compare queries with the training series, with metric sax through one representation", "statement": "With metric 'sax' the classifier and the regressor compare the symbols of queries and of training series under one representation, with the hyper-parameters in metric_params at the time of fit and scaled with the statistics of the training series: distances are the MINDIST of the words, never above the Euclidean distance, a query does not depend on the other queries of the call, and a training series is at distance zero of itself; with the other metrics distances are those of the metric; kneighbors() without argument gives the neighbours of the training series; keys n_jobs and verbose of metric_params are overridden.", "quantifier": "for all training sets, queries, hyper-parameters and orders of calls", "why_tests_cant": "the tests use one fit with scale=False and never omit the query; wrong representations give plausible labels", "anchors": ["tslearn/neighbors/neighbors.py:KNeighborsTimeSeriesMixin._sax_preprocess", "tslearn/neighbors/neighbors.py:KNeighborsTimeSeriesMixin._precompute_cross_dist", "tslearn/neighbors/neighbors.py:KNeighborsTimeSeriesMixin.kneighbors", "tslearn/neighbors/neighbors.py:KNeighborsTimeSeriesClassifier.fit", "tslearn/neighbors/neighbors.py:KNeighborsTimeSeriesRegressor.fit", "tslearn/metrics/cysax.py:cydist_sax"]}
{"id": "C76", "title": "silhouette_score is the mean silhouette coefficient under the metric asked for, with its parameters", "statement": "silhouette_score returns the mean over the series of (b - a) / max(a, b), a being the mean distance to the other series of the cluster and b the least mean distance to another cluster (0 for a series alone in its cluster), with the distances of the metric called with metric_params overridden by the keyword arguments; it lies in [-1, 1], is 1 for clusters of identical series, does not depend on the scale of the distances, the names of the labels or the order of the series; labels that make fewer than two clusters or as many clusters as series are refused; a callable metric receives metric_params and series without padding, of any lengths.", "quantifier": "for all datasets, labels, metrics and parameters", "why_tests_cant": "the doctest compares six numbers; the tests use no callable with parameters and no series of different lengths", "anchors": ["tslearn/clustering/utils.py:silhouette_score"]}
{"id": "C77", "title": "Shapelets fit in the series, and LearningShapelets gives labels back as it got them", "statement": "The numbers and lengths of shapelets chosen by the heuristic of Grabocka et al. are the multiples of the base length that fit in the shortest series, with at least one shapelet each; initial shapelets are made of windows of the series without padding, and series shorter than a shapelet are refused in fit and in queries; training targets are the indicators of the labels in increasing order (of the greater one when there are two), predict returns the label of greatest probability, which is a label of the training set, and predict_proba has one column per label; an estimator whose later fit raises goes on predicting as before.", "quantifier": "for all numbers of series, lengths, fractions, labels, networks and sequences of fits", "why_tests_cant": "tests use default fractions, well-behaved labels and never call fit twice with an error in between", "anchors": ["tslearn/shapelets/shapelets.py:grabocka_params_to_shapelet_size_dict", "tslearn/shapelets/shapelets.py:_kmeans_init_shapelets", "tslearn/shapelets/shapelets.py:LearningShapelets._preprocess_labels", "tslearn/shapelets/shapelets.py:LearningShapelets.fit", "tslearn/shapelets/shapelets.py:LearningShapelets.predict", "tslearn/shapelets/shapelets.py:LearningShapelets.predict_proba"]}
{"id": "C78", "title": "Random walks are sums of their own normal draws, blobs are noisy copies of one walk", "statement": "random_walks(n_ts, sz, d, mu, std) gives series whose first samples and increments are mu + std times normal draws, each draw of the generator being used for exactly one sample; random_walk_blobs gives n_ts_per_blob series with each label 0 .. n_blobs - 1, in order, which are one random walk of unit steps per blob plus noise_level times draws used for nothing else; the result depends on the generator only through these draws, and no samples are refused with an error.", "quantifier": "for all numbers of series, lengths, dimensions, parameters and sequences of draws", "why_tests_cant": "tests look at shapes of a few datasets", "anchors": ["tslearn/generators/generators.py:random_walks", "tslearn/generators/generators.py:random_walk_blobs"]}
{"id": "C79", "title": "The PyTorch soft-DTW loss is the soft-DTW value and its gradients are exact", "statement": "SoftDTWLossPyTorch returns, for each pair of a batch, the soft minimum over the allowed warping paths of the costs given by the distance function (minus the mean of the two self values with normalize), equal to soft_dtw / soft_dtw_normalized for the default distance; the gradients delivered to x and y are the derivatives of that value; invalid shapes, constraint names and parameter combinations are refused; the matrix returned by the distance function is left alone and 64-bit inputs are processed in 64-bit precision.", "quantifier": "for every batch, series lengths, gamma > 0, distance function, accepted constraint, normalize flag, incoming gradient and direction of change", "why_tests_cant": "The repository compares a few random batches with a tolerance that hides rounding; derivatives in all directions and over all path sets cannot be sampled.", "anchors": ["tslearn/metrics/soft_dtw_loss_pytorch.py:37-109", "tslearn/metrics/soft_dtw_loss_pytorch.py:242-353"]}
{"id": "C80", "title": "Dataset loading: cache, download, lists and baseline scores", "statement": "UCR_UEA_datasets.load_dataset returns the training and test parts of a cached dataset without touching the disk or the network; otherwise (or with use_cache=False) it replaces the directory of that dataset by the downloaded archive, returns its text version if both parts are there, else its ARFF version, and leaves every file outside that directory alone; what has been loaded loads again from the cache with the same result; any failure gives four None and keeps what was cached; only available datasets are listed as cached; names of datasets cannot reach outside the cache; the lists are those of the summaries, also from cached summaries when offline; baseline_accuracy holds exactly the numeric scores of the requested datasets and methods.", "quantifier": "for every file system, server behaviour, parser, dataset name, cache flag, archive content, summary file and score table", "why_tests_cant": "Tests need the network and run against one server that answers; failures in the middle, stale or corrupt copies and hostile names never occur in them.", "anchors": ["tslearn/datasets/ucr_uea.py:78-120", "tslearn/datasets/ucr_uea.py:158-248", "tslearn/datasets/ucr_uea.py:293-375", "tslearn/datasets/datasets.py:17-54"]}
{"id": "C81", "title": "Time series perceptrons are perceptrons on flattened series", "statement": "TimeSeriesMLPClassifier and TimeSeriesMLPRegressor train scikit-learn's perceptron on the rows that hold all values of each series (value j of time t at place t*d+j) and predict, in order, its outputs on such rows; any sequence of fit and partial_fit calls has the effect of the same calls of the perceptron on the flattened series, with all hyper-parameters of the perceptron; queries must have the length and number of features of the training series and are refused otherwise; two-axis inputs are univariate series; predicting changes nothing, and a call that raises leaves the estimator as it was.", "quantifier": "for every perceptron (validation, training and evaluation), every sequence of calls, all series sets and targets", "why_tests_cant": "The repository checks shapes of coefficients and a few scores after one fit; histories with failed calls, refits and warm starts are unbounded.", "anchors": ["tslearn/neural_network/neural_network.py:39-130", "tslearn/neural_network/neural_network.py:159-230", "tslearn/bases/bases.py:55-63"]}
{"id": "C82", "title": "k-means++ seeds", "statement": "The k-means++ seeding of TimeSeriesKMeans for DTW and soft-DTW returns the requested number of centres, all of them series of the dataset; each round draws candidates with probability proportional to the squared distance to the nearest centre so far and keeps the one that lowers the sum of these squared distances most, a sum that never grows; a series is not chosen twice while other series are left. At least two candidates are tried per round. Initial centroids given as an array are accepted iff there is one per cluster.", "quantifier": "for every dataset, metric, number of clusters and every sequence of random draws", "why_tests_cant": "Tests run a handful of seeds and look at final labels; the draws at the ends of intervals and repeated centres never show.", "anchors": ["tslearn/clustering/kmeans.py:46-126", "tslearn/clustering/utils.py:218-222"]}
{"id": "C83", "title": "SoftDTW and SquaredEuclidean objects", "statement": "SoftDTW(D, gamma).compute() returns the soft-DTW value of the matrix D (minus gamma times the logarithm of the sum over all warping paths of exp(-cost/gamma)); grad() returns the gradient of that value with respect to D, raises ValueError before the first compute(), and calls may be repeated in any order with the same results; SquaredEuclidean(X, Y).jacobian_product(grad()) is the gradient with respect to the samples of X when D is SquaredEuclidean(X, Y).compute().", "quantifier": "for all sizes, matrices, positive gamma, series, directions of change and sequences of calls", "why_tests_cant": "Gradients are compared with finite differences at a few points within a tolerance; the finite border value cannot show there.", "anchors": ["tslearn/metrics/softdtw_variants.py:653-835", "tslearn/metrics/soft_dtw_fast.py:51-365"]}
{"id": "C84", "title": "LearningShapelets: shapelets, weights, outputs and saved models belong together", "statement": "For every fitted LearningShapelets: shapelets_ lists the rows of get_weights('shapelets_i') length after length, shapelets_as_time_series_ the same padded with NaN to the greatest length; column j of transform and locate is the distance to, and the first position of, entry j of shapelets_; predict_proba is the softmax of linear scores of these columns; set_weights followed by get_weights returns the weights, leaves other layers alone and refuses unknown layers and other shapes; a saved and loaded model is the same model; and changing the dictionary given as n_shapelets_per_size after fit does not change the fitted estimator.", "quantifier": "for all dictionaries of lengths, numbers of features and classes, weights, batches of series", "why_tests_cant": "Tests use one or two lengths and univariate series, and compare shapes rather than the order of columns.", "anchors": ["tslearn/shapelets/shapelets.py:LearningShapelets.shapelets_", "tslearn/shapelets/shapelets.py:LearningShapelets.shapelets_as_time_series_", "tslearn/shapelets/shapelets.py:LearningShapelets._set_model_layers", "tslearn/shapelets/shapelets.py:LearningShapelets.get_weights", "tslearn/shapelets/shapelets.py:LearningShapelets.set_weights", "tslearn/shapelets/shapelets.py:LearningShapelets._organize_model"]}
{"id": "C85", "title": "PAA, SAX and 1d-SAX estimators: refits, failed fits and changed parameters", "statement": "For PiecewiseAggregateApproximation, SymbolicAggregateApproximation and OneD_SymbolicAggregateApproximation, whatever calls came before: fit_transform(X) leaves the estimator of fit(X) and answers (or raises) what transform(X) would after it; until a fit succeeds every method raises NotFittedError; a successful fit makes all later calls answer as on a new estimator with the same parameters fitted to the same data; a fit that raises leaves the estimator as it was; alphabet sizes and sigma_l set after the fit have no effect before the next fit, and a new number of segments acts as if it had been used in the fit; transform is the function of the parameters and the data of the last fit that C31-C36 and C55 speak about.", "quantifier": "all classes, parameters, histories of set_params, fit, fit_transform and queries (with failures), datasets with or without NaN, quantile functions", "why_tests_cant": "the claim ranges over unbounded histories; tests fit once on good data, so statistics kept from an earlier fit and half-finished fits do not show", "anchors": ["tslearn/piecewise/piecewise.py:118-259", "tslearn/piecewise/piecewise.py:344-516", "tslearn/piecewise/piecewise.py:612-803"]}
{"id": "C86", "title": "VARIMA: the likelihood of a fitted model and the lags of its moving average", "statement": "For VARIMA fitted to series of any lengths: the loss adds up, once each, the one-step errors of every series after differencing, from the first with all its predecessors to the last, whatever the padding; the variance is their sum of squares over their number; lle_ is the largest Gaussian log-likelihood of these errors over all variances; it is that of the stored coefficients and at least that of the starting coefficients when the optimiser returns nothing worse than its start; a fit is refused exactly when a series has fewer than p+q+d+1+seasonal_period samples; and the starting moving average predicts, from the residuals of the first regression, what the second regression predicts.", "quantifier": "all orders, coefficients, datasets of series of any lengths, starting points and optimisers that never worsen", "why_tests_cant": "the claim is an optimum over all variances and an identity over all datasets and orders; tests compare forecasts of small models", "anchors": ["tslearn/forecasting/_arima.py:21-108", "tslearn/forecasting/_arima.py:204-245", "tslearn/forecasting/_arima.py:279-339"]}
{"id": "C87", "title": "Symmetries, bounds and histories of the matrix profile", "statement": "For MatrixProfile with implementation 'numpy' on fully observed univariate series: the profile of a series depends on that series only; with scaling it is unchanged when the series is replaced by a*x+b with a non-zero (negative too) and its finite entries lie between 0 and 2*sqrt(subsequence_length); without scaling it is multiplied by |a|, and longer subsequences have no nearer matches; reading the series backwards reverses it; the least entry occurs at least twice, at positions outside each other's exclusion zone. As an object: fit_transform is fit then transform, transform raises NotFittedError until a fit succeeded and ValueError for another number of features than the last fit, and otherwise depends on the parameters in force and its argument only.", "quantifier": "all datasets, lengths, subsequence lengths, affine maps, positions and histories of calls", "why_tests_cant": "metamorphic laws over all real series and lengths; tests compare one profile with stored numbers", "anchors": ["tslearn/matrix_profile/matrix_profile.py:122-252"]}
{"id": "C88", "title": "The elastic metrics do not see the direction of time, nor where and in which unit samples are measured", "statement": "dtw, frechet, soft_dtw, gak, unnormalized_gak and lcss return the same value when both series are read backwards, under every global constraint the functions accept. Moving both series by one vector or reordering their features changes none of them; multiplying both by a multiplies dtw and frechet by |a|, soft_dtw with gamma multiplied by a\u00b2 by a\u00b2, and leaves gak with sigma multiplied by |a| as it is.", "quantifier": "all pairs of non-empty series of any lengths and dimension, all Sakoe-Chiba radii, all Itakura slopes at least 1, all gamma > 0, all sigma, all similarities", "why_tests_cant": "the rounded Itakura bounds are symmetric only for a reason of arithmetic that holds for all lengths and slopes; LCSS agrees on most random pairs and breaks only for particular bands", "anchors": ["tslearn/metrics/_masks.py:91-140", "tslearn/metrics/_dtw.py:41-82", "tslearn/metrics/_frechet.py:33-75", "tslearn/metrics/_soft_dtw.py:33-110", "tslearn/metrics/_gak.py:247-274", "tslearn/metrics/dtw_variants.py:948-1033"]}
{"id": "C89", "title": "DTW and Fr\u00e9chet as distances: triangle inequality and pairs at distance zero", "statement": "frechet satisfies the triangle inequality without constraint, and in Sakoe-Chiba bands the triangle inequality with the same radius; dtw satisfies it up to a factor. dtw and frechet are zero for the same pairs, those whose series become equal once every run of repeated samples is reduced to one; dtw\u00b2 is at most n+m-1 times frechet\u00b2.", "quantifier": "all triples and pairs of non-empty series of any lengths and one dimension, all radii", "why_tests_cant": "the inequality is about all triples of series and needs two optimal alignments to be composed; the failing triples for bands are rare", "anchors": ["tslearn/metrics/_frechet.py:33-168", "tslearn/metrics/_dtw.py:30-163", "tslearn/metrics/_masks.py:318-351"]}
{"id": "C90", "title": "Estimators tell the truth about series of different lengths", "statement": "The tags allow_variable_length and allow_nan of an estimator say what its fit accepts: where they are on, every dataset of series of different lengths (padded with NaN, or a list of series) is accepted; where they are off, such a dataset is refused with ValueError and nothing is computed from it. Both interfaces for tags (_more_tags and __sklearn_tags__) give the same answer, and a list becomes an array that begins with the given series and goes on with NaN.", "quantifier": "every estimator of the library, every metric or kernel name, every dataset (any number of series, lengths, features, positions of NaN and infinities)", "why_tests_cant": "tests try default metrics on a few padded arrays; which combinations of estimator, metric name and input form are refused is a table over all names and all inputs", "anchors": ["tslearn/bases/bases.py:TimeSeriesMixin", "tslearn/utils/utils.py:check_variable_length_input", "tslearn/clustering/kmeans.py:KernelKMeans.fit", "tslearn/clustering/dbscan.py:TimeSeriesDBSCAN.fit", "tslearn/neighbors/neighbors.py:KNeighborsTimeSeries.fit", "tslearn/svm/svm.py:TimeSeriesSVMMixin"]}
{"id": "C91", "title": "Origin and unit of the measurements do not change clusterings and barycenters", "statement": "With the same hyper-parameters and the same random draws, data measured from another origin give the same labels, inertia, number of iterations and errors of TimeSeriesKMeans, the same k-means++ seeds, and centroids and DTW barycenters that are translated alike. Data measured in another unit (factor a) give the same labels, centroids and barycenters multiplied by a, and inertia and costs multiplied by a squared; DBSCAN labels with eps in the new unit and silhouette scores do not change.", "quantifier": "every dataset, origin, unit, initial centroids or barycenter, number of rounds and attempts, global constraint, sequence of draws", "why_tests_cant": "a test compares two runs on one dataset; stopping rules compare costs with absolute tolerances, so a run that stops too early in another unit only shows on data with small late gains", "anchors": ["tslearn/clustering/kmeans.py:TimeSeriesKMeans._fit_one_init", "tslearn/clustering/kmeans.py:_k_init_metric", "tslearn/barycenters/dba.py:dtw_barycenter_averaging_one_init", "tslearn/barycenters/dba.py:dtw_barycenter_averaging_petitjean", "tslearn/clustering/dbscan.py:TimeSeriesDBSCAN.fit", "tslearn/clustering/utils.py:silhouette_score"]}
{"id": "C92", "title": "metric_params means the same in every estimator", "statement": "Every entry of metric_params reaches the function of the metric under its own name with its own value, in every step that measures with that metric; the number of jobs of the estimator overrides an entry n_jobs; an entry that the metric does not know raises TypeError; no entry is dropped silently.", "quantifier": "all dictionaries metric_params, all values of n_jobs and verbose, all metrics of TimeSeriesKMeans, of the neighbours estimators and of TimeSeriesDBSCAN", "why_tests_cant": "The claim ranges over all dictionaries of entries, including unknown ones and all combinations of known ones, and over every estimator that forwards them through different code; tests pass a few fixed dictionaries.", "anchors": ["tslearn/clustering/kmeans.py:633-640", "tslearn/clustering/kmeans.py:712-790", "tslearn/barycenters/softdtw.py:191-208", "tslearn/neighbors/neighbors.py:44-97", "tslearn/neighbors/neighbors.py:380-407", "tslearn/clustering/dbscan.py:102-109", "tslearn/clustering/dbscan.py:149-159"]}
{"id": "C93", "title": "The order in which the series of a dataset are given does not matter", "statement": "Giving the same series in another order (with their labels, targets and weights) gives the same series in that order as dataset, the same Euclidean, DTW and soft-DTW barycenters, cross-distance matrices with rows and columns reordered alike, the same silhouette score, the same k-means centroids, inertia, iterations and label of each series from the same initial centroids, the same nearest neighbours with the same distances and predictions, and the same DBSCAN clusters and noise.", "quantifier": "all datasets, all permutations of their series, all weights, labels, hyper-parameters, initial centroids and barycenters, all correct selection algorithms", "why_tests_cant": "There are n! orders of a dataset and unboundedly many datasets; a test shuffles one dataset once. The exceptions need ties, series on the border of two clusters or mixed numbers of features, which random data do not contain.", "anchors": ["tslearn/utils/utils.py:262-286", "tslearn/barycenters/euclidean.py:42-44", "tslearn/barycenters/dba.py:34-89", "tslearn/barycenters/dba.py:625-743", "tslearn/barycenters/softdtw.py:24-93", "tslearn/metrics/utils.py:57-189", "tslearn/clustering/kmeans.py:643-855", "tslearn/clustering/utils.py:70-214", "tslearn/clustering/dbscan.py:142-199", "tslearn/neighbors/neighbors.py:124-188"]}
{"id": "C94", "title": "The deprecated soft-DTW functions and their replacements", "statement": "The functions of tslearn.metrics.softdtw_variants that are kept for backward compatibility (soft_dtw, soft_dtw_alignment, cdist_soft_dtw, cdist_soft_dtw_normalized) give what the functions replacing them give: the same value for gamma = 0, for gamma > 0 a value that is below the new one by at most gamma*3^(m+n)*exp((cost of any alignment - DBL_MAX)/gamma), alignment matrices as close, the same refusals, and matrices whose entries are those values of the series, normalised by half the two self values.", "quantifier": "all pairs and datasets of series of all lengths, all gamma >= 0, all backends", "why_tests_cant": "The deprecated recursion starts from a border of DBL_MAX instead of infinity: the difference is far below rounding on all data a test uses but is not zero, and how it grows with gamma, lengths and costs needs a proof over all alignments. The exceptions (gamma = 0 matrices, empty series) are single corner cases.", "anchors": ["tslearn/metrics/softdtw_variants.py:91-650", "tslearn/metrics/_soft_dtw.py", "tslearn/metrics/soft_dtw_fast.py"]}
{"id": "C95", "title": "Cross matrices of SAX words and of canonical time warping", "statement": "cdist_sax of words over the alphabet gives, for every pair, the SAX distance of the two words (symmetric, zero diagonal; for the words of a dataset the gaps between segment means, never more than the Euclidean distance), refuses words of different shapes, and does not depend on how the jobs are run; cdist_ctw gives for every pair the score of ctw, and with the default number of components this is the DTW distance of the pair whatever the projections are.", "quantifier": "all sets of words over all alphabets, all breakpoints and sizes, all datasets, all projections, all numbers of iterations, constraints and job schedules", "why_tests_cant": "Tests call the SAX matrix on words of one length; the integer standing for NaN, integer overflow and unchecked reads only show with words of different lengths, where the outcome depends on memory. That the CTW matrix equals the DTW matrix for every projection is a statement about all CCA fits.", "anchors": ["tslearn/metrics/sax.py:10-106", "tslearn/metrics/cysax.py:38-74", "tslearn/metrics/ctw.py:301-454", "tslearn/utils/utils.py:215-286", "tslearn/metrics/utils.py:57-189"]}
{"id": "C96", "title": "Series joined from pieces and series recorded slower", "statement": "Without constraint, joining x with x' and y with y' end to end gives series whose squared DTW is at most the sum over the pieces, whose Frechet distance is at most the worse piece, whose soft-DTW is at most the sum, whose unnormalized alignment kernel is at least the product, and in which LCSS matches at least as many samples as in the pieces together. Repeating samples in place (each at most k times in one series and l times in the other) leaves the Frechet distance unchanged and moves squared DTW up by a factor of at most k*l. Dropping samples never raises the number of LCSS matches, and a series compared with any series containing it as a subsequence has LCSS similarity 1.", "quantifier": "all pairs of pieces of any lengths and values, all repetitions, all subsequences, all gamma, sigma and eps", "why_tests_cant": "Relations between calls on different inputs of arbitrary length; they follow from how paths of the pieces compose and fail silently (by a little) when a recurrence or border is wrong.", "anchors": ["tslearn/metrics/_dtw.py:9-160", "tslearn/metrics/_frechet.py:13-165", "tslearn/metrics/_soft_dtw.py:40-198", "tslearn/metrics/_gak.py:96-176", "tslearn/metrics/dtw_variants.py:846-1053"]}
{"id": "C97", "title": "Weights of barycenters are multiplicities", "statement": "Barycenters depend on the series and their weights only through the total weight each distinct series has: splitting a series into copies that share its weight, merging equal series, reordering, and (for DBA and Euclidean barycenters) multiplying all the weights by a number do not change the barycenter; in particular an unweighted barycenter over k copies is the barycenter over one series of weight k, and a series of weight 0 does not count.", "quantifier": "all datasets, weights, numbers of rounds, constraints, initial barycenters, optimisers", "why_tests_cant": "The equality concerns pairs of datasets of unbounded size and every round of the iteration; tests compare one weighted call with one stored result.", "anchors": ["tslearn/barycenters/dba.py:_mm_update_barycenter", "tslearn/barycenters/dba.py:dtw_barycenter_averaging", "tslearn/barycenters/dba.py:dtw_barycenter_averaging_petitjean", "tslearn/barycenters/euclidean.py:euclidean_barycenter", "tslearn/barycenters/softdtw.py:softdtw_barycenter", "tslearn/barycenters/utils.py:_set_weights"]}
{"id": "C98", "title": "DTW and the Fr\u00e9chet distance are accurate in rounded arithmetic, and keep their exact laws", "statement": "When every subtraction, product, addition and square root of dtw and frechet is rounded with relative error at most u (in the order of the source, no overflow or underflow), the computed value is infinite exactly when the exact one is; otherwise dtw has a relative error of at most 2(n+m+d+4)u and frechet of at most 2(d+5)u whatever the lengths n, m (d features). The path of dtw_path is admissible, its rounded cost is the returned value, and its exact cost is optimal up to the same factors. With a monotone odd rounding both distances stay exactly symmetric, zero between a series and itself, non-negative, monotone in the mask, and scale exactly with factors the rounding commutes with (powers of two); integer data of moderate size gives exact squared values. Reversal in time is not among the laws that survive.", "quantifier": "all roundings with the stated properties, all non-empty series, masks, constraints, lengths and numbers of features", "why_tests_cant": "Tests compare a few values with a tolerance chosen by hand; no set of runs bounds the rounding error for every length, magnitude and rounding, nor shows that a law holds to the last bit for all inputs.", "anchors": ["tslearn/metrics/_dtw.py:325-344", "tslearn/metrics/_dtw.py:391-400", "tslearn/metrics/_dtw.py:425-435", "tslearn/metrics/_frechet.py:326-348", "tslearn/metrics/_frechet.py:398-407"]}
{"id": "C99", "title": "Small changes of the samples change the distances little", "statement": "If every sample of one series moves by at most e (Euclidean norm over features) and every sample of the other by at most f, then under any constraint dtw is infinite for both pairs or for none and moves by at most sqrt(n+m-1)(e+f), frechet by at most e+f, dtw_limited_warping_length by sqrt(max_length)(e+f), the root of the subsequence cost by sqrt(n+m-1)(e+f), lb_keogh by sqrt(n)(e+f); soft_dtw moves by at most n+m-1 times the largest change of a local cost, for every gamma; lcss does not decrease if eps is raised by e+f. Distances to data rounded to a grid, quantised or stored in single precision are therefore off by a known amount. The same would be expected of lcss at a fixed eps, of scaled series and of symbols.", "quantifier": "all pairs of series and perturbed series, all constraints, all perturbation sizes", "why_tests_cant": "A test perturbs a few series and compares with a tolerance; no number of runs yields the constant that is right for all series, constraints and perturbations, nor the absence of any constant where the output jumps.", "anchors": ["tslearn/metrics/_dtw.py:30-163", "tslearn/metrics/_frechet.py:30-168", "tslearn/metrics/dtw_variants.py:314-399", "tslearn/metrics/dtw_variants.py:500-601", "tslearn/metrics/dtw_variants.py:880-1095", "tslearn/metrics/dtw_variants.py:658-760", "tslearn/metrics/_soft_dtw.py:30-150", "tslearn/preprocessing/preprocessing.py:383-408", "tslearn/piecewise/piecewise.py:17-33"]}
{"id": "C100", "title": "A margin certifies a prediction", "statement": "If all distances of a query to the training series move by at most d, whatever the reason, and the k nearest neighbours are nearer than every other series by more than 2d, then the set of neighbours, the predicted class, the class probabilities and the regression target with uniform weights are exactly the same, for every way in which argpartition and argsort break ties; the neighbours come in the same order if their own gaps exceed 2d. A series keeps its k-means label if its nearest center is ahead by more than 2d. DBSCAN returns exactly the same labels, core series and components if no distance is within d of eps. With the bounds on how much dtw and frechet move with the samples, predictions on measured, rounded or compressed data can be certified. The same would be expected of weights='distance'.", "quantifier": "all rows and matrices of distances, all perturbations of them, all selection algorithms, all k, all series under any constraint", "why_tests_cant": "A test perturbs some data and sees the prediction unchanged; a certificate must hold for every perturbation of the given size and for every tie-breaking of the sorting routines, and the case in which no margin is enough is a set of measure zero that random data does not meet.", "anchors": ["tslearn/neighbors/neighbors.py:161-180", "tslearn/neighbors/neighbors.py:578-605", "tslearn/neighbors/neighbors.py:735-750", "tslearn/clustering/kmeans.py:746-762", "tslearn/clustering/dbscan.py:150-190", "tslearn/metrics/_dtw.py:30-163", "tslearn/metrics/_frechet.py:30-168"]}
{"id": "C101", "title": "The published building blocks compose to the metrics", "statement": "dtw(s1, s2, ...) is the root of the last entry of dtw_accumulated_matrix(s1, s2, compute_mask(s1, s2, ...)), and likewise frechet with frechet_accumulated_matrix, for every constraint; without constraint every entry [i, j] of the matrix is the squared DTW of the prefixes of i+1 and j+1 samples; compute_mask may be given two sizes or two series. What the metrics refuse or repair - different numbers of features, unknown constraints, padding with NaN - the building blocks would be expected to refuse or repair too, and sizes and series to be accepted in any combination.", "quantifier": "all pairs of series, all constraints and parameters, all entries of the matrix, every treatment of NaN by min", "why_tests_cant": "Tests compare a few matrices with recorded values; that all entries are distances of prefixes for all series, and what happens on inputs that the metrics would have rejected, is not visible in them.", "anchors": ["tslearn/metrics/_masks.py:199-307", "tslearn/metrics/_masks.py:318-351", "tslearn/metrics/_dtw.py:286-344", "tslearn/metrics/_frechet.py:288-348", "tslearn/metrics/_dtw.py:145-163"]}
{"id": "C102", "title": "A dataset file gives the series and labels that are written in it, in either format", "statement": "Loading a text file of the archive gives X[i, t, 0] = the number at row i and column t+1, and the labels of the first column; loading an ARFF file of univariate series gives the same X for the same table, and the classes as strings in the same order; in an ARFF file of multivariate series X[i, t, c] is field t of channel c of instance i. Every table of series and labels would be expected to load, labels to be kept apart, and both formats to give the same array.", "quantifier": "all tables of series, labels and missing values, all instances, channels and fields", "why_tests_cant": "Tests load a few datasets of the archive from the network; files with one series, series of one sample, labels that are no integers or ends that are missing everywhere do not occur among them.", "anchors": ["tslearn/utils/utils.py:624-677", "tslearn/utils/utils.py:680-703", "tslearn/datasets/ucr_uea.py:317-344", "tslearn/utils/utils.py:215-286"]}
{"id": "C103", "title": "Preprocessing steps compose", "statement": "Scalers do not see units and origins: data measured in other (positive) units from other origins, one per group of values the scaler looks at together, are scaled to the same result. Hence a scaler forgets every earlier scaler that looked at the same or larger groups: a pipeline of the two, fitted on one dataset and applied to another, is the second scaler alone, and fit_transform twice is once. Imputing imputed data, or resampling resampled data to the same size, changes nothing; both commute with a change of units (imputation of a constant excepted); resampling by way of a size whose grid contains the samples of every series loses nothing.", "quantifier": "for all datasets with NaNs and of unequal lengths, all parameters of TimeSeriesScalerMinMax and TimeSeriesScalerMeanVariance, all imputation methods, all sizes", "why_tests_cant": "The laws relate results on infinitely many datasets and pairs of pipelines; they hold in exact arithmetic and tests see rounding, or only the groupings that happen to be tried.", "anchors": ["tslearn/preprocessing/preprocessing.py:45-127", "tslearn/preprocessing/preprocessing.py:188-269", "tslearn/preprocessing/preprocessing.py:332-408", "tslearn/preprocessing/preprocessing.py:510-647"]}
{"id": "C104", "title": "LB_Keogh, subsequence search and LCSS survive rounding", "statement": "Evaluated in arithmetic that rounds every operation with relative error at most u (square root and order of summation of the norm included), LB_Keogh of series of length n is within relative error 2(n+9)u of its exact value, and is zero exactly when the query lies in the envelope; the computed bound exceeds the computed constrained DTW by a factor of at most 1+O(nu), so pruning with that slack loses no neighbour (without the slack it does). The subsequence search returns a genuine window and warping path whose cost is within a relative factor of every other window's, though not necessarily the best one. LCSS is between the exact scores for thresholds just below and just above, and equal to the rounded exact score when no pair of samples is within rounding of the threshold.", "quantifier": "for all real series, radii, thresholds, global constraints, monotone rounding functions of relative error u, and orders of summation (with or without fused multiply-add)", "why_tests_cant": "Tests compare to tolerances chosen by hand and see one rounding function and one summation order; pruning errors show up only for near ties.", "anchors": ["tslearn/metrics/dtw_variants.py:403-430", "tslearn/metrics/dtw_variants.py:654-720", "tslearn/metrics/dtw_variants.py:723-799", "tslearn/metrics/dtw_variants.py:948-1215"]}
{"id": "C105", "title": "Scaling in rounded arithmetic", "statement": "Evaluated in arithmetic that rounds every operation with relative error at most u, TimeSeriesScalerMinMax gives each value to within 7u of its distance to the lower end plus one rounding, keeps order and NaNs, sends the smallest value to the lower end, and for ranges whose width is a power of two (the default (0, 1) among them) never leaves the range and reaches both ends; for other ranges it may leave them. TimeSeriesScalerMeanVariance keeps order and NaNs, applies the affine map given by a computed mean whose error is relative to the mean absolute value and a computed deviation around that computed mean, never leaves \u00b1std\u00b7\u221an(1+O(nu)) when mu is 0, and sends constant series of few significant bits to mu; other constant series, such as [0.1, 0.1, 0.1] in doubles, it sends elsewhere.", "quantifier": "for all datasets with NaNs, all parameters of the two scalers, all rounding functions of relative error u (monotone for the order laws), all orders of summation; doubles (nearest, ties to even) are an instance", "why_tests_cant": "Tests use tolerances and a few ranges; the failures are one unit in the last place beyond a range end, or constants whose multiples do not round back.", "anchors": ["tslearn/preprocessing/preprocessing.py:188-269", "tslearn/preprocessing/preprocessing.py:332-408"]}
{"id": "C106", "title": "The caller's arrays and the library's are separate", "statement": "No call changes the arrays it is given, results are new arrays, and what a fitted estimator answers does not depend on what the caller does to their arrays after fit. to_time_series (NumPy backend), to_time_series_dataset, TimeSeriesImputer and TimeSeriesFeatureSynchronizer (which work in place), VARIMA and AutoVARIMA (which roll series in place), subgradient DBA (which updates in place), nearest neighbours, SVMs, k-means, KShape and DBSCAN satisfy this, and their in-place work gives the same values as working on fresh arrays. The PyTorch backend's to_time_series returns the caller's memory for 64-bit floats although its docs guarantee a new series, softdtw_barycenter without iterations returns the caller's initial barycenter, and KernelKMeans keeps the caller's training array and weights, so that its predictions change with them.", "quantifier": "for all memories, all arrays and lists in them, all parameters, all user-defined imputers that write only to the array they get, and all later writes of the caller", "why_tests_cant": "Tests compare values and rarely look at the arguments again or write to them after a call; aliasing shows only in particular sequences of calls and writes.", "anchors": ["tslearn/utils/utils.py:154-286", "tslearn/backend/pytorch_backend.py:106-132", "tslearn/preprocessing/preprocessing.py:519-647", "tslearn/preprocessing/_synchronizer.py:100-149", "tslearn/forecasting/_arima.py:202-277", "tslearn/barycenters/dba.py:475-484", "tslearn/barycenters/softdtw.py:188-215", "tslearn/clustering/kmeans.py:337-388"]}
{"id": "C107", "title": "The global alignment kernel in floating-point arithmetic", "statement": "Computed in doubles, gak(s, t) and gak(t, s) are the same to the last bit, gak(s, s) is 1 up to rounding, and cdist_gak returns numbers with a diagonal of 1 up to rounding. For series of up to 256 samples this holds whatever the samples and the (not under- or overflowing) bandwidth: the results are nonnegative numbers, |gak(s, s) - 1| <= 5u and the diagonal of cdist_gak is within 6u of 1, and the entries of cdist_gak agree with gak up to a relative 12u away from underflow (u = 2^-53), however inaccurate the sums over alignments are. It is false for long series: the sum over alignments overflows, so gak(s, s) of a constant series of 1026 samples, or of any series that long whose steps are small compared to the bandwidth, is NaN; and one such series in a dataset turns every entry of cdist_gak NaN, those of the other series included, because the normalisation multiplies by dense diagonal matrices (0 * inf).", "quantifier": "for all series, numbers of features and bandwidths whose computed 2*sigma*sigma is a positive double, all computed exponentials and logarithms right to three decimals on the ranges used, all orders of summation in the matrix products and all schedules", "why_tests_cant": "Tests use series of a few dozen samples; overflow appears only beyond a length that depends on how smooth the series are, and the NaN spreads to pairs that are fine on their own.", "anchors": ["tslearn/metrics/_gak.py:99-175", "tslearn/metrics/_gak.py:247-286", "tslearn/metrics/_gak.py:289-427"]}
{"id": "C108", "title": "Soft-DTW in floating-point arithmetic", "statement": "In IEEE double precision soft_dtw (NumPy backend, gamma > 0) returns a number close to the soft minimum over all admissible warping paths: the error is at most (n + m) times a step that is the rounding error of one local cost, plus the unit roundoff times the largest possible value, plus gamma times the error of exp and log, because of the max-shift in softmin3. The value is symmetric to the last bit without constraint and with a Sakoe-Chiba band. This should hold for every gamma > 0.", "quantifier": "all pairs of series, all gamma > 0, all constraints accepted by soft_dtw, all roundings with relative error u or absolute error tau, all computed exp and log with absolute error epsilon", "why_tests_cant": "Tests compare a few float results with a tolerance; a bound for every length, bandwidth and sample range, and bitwise symmetry for every input, need a proof. The loss of the value for very small gamma occurs only when a quotient overflows.", "anchors": ["tslearn/metrics/soft_dtw_fast.py:15-48", "tslearn/metrics/_soft_dtw.py:349-370", "tslearn/metrics/_soft_dtw.py:431-441", "tslearn/metrics/_soft_dtw.py:40-198"]}
{"id": "C109", "title": "KernelKMeans when kernel values are not numbers", "statement": "After a call of KernelKMeans.fit that raises nothing (kernel \"gak\", floating-point arithmetic), the object has one label per training series, every cluster has a member, each series carries the label that has the least computed distance, inertia_ is the sum of the distances at those labels, and predict works. This is false: when the kernel values are not numbers - one constant training series of 1026 samples is enough, since it turns all of cdist_gak(X) into NaN - fit with two or more clusters raises nothing and leaves labels_ all zero (or the random labels of the last attempt), inertia_ None and _X_fit None, so that predict fails with an AttributeError; with one cluster labels_ is None (fit_predict returns None), inertia_ is infinite and predict fails with EmptyClusterError. What holds for every kernel matrix is that fit ends in one of three states, the third of which is the one promised.", "quantifier": "all kernel matrices of floats with infinities and NaN, all weights, all sequences of drawn labels, all numbers of clusters, rounds and attempts, all contracts of numpy.sum that propagate NaN", "why_tests_cant": "Test series are short, so the kernel never overflows; the silent failure needs a series of a thousand samples, and that the three end states are the only ones is a statement about all kernel matrices and all draws.", "anchors": ["tslearn/clustering/kmeans.py:294-319", "tslearn/clustering/kmeans.py:321-388", "tslearn/clustering/kmeans.py:390-411", "tslearn/clustering/kmeans.py:435-455", "tslearn/metrics/_gak.py:384-410"]}
{"id": "C110", "title": "Order, copies and weights of the series in KernelKMeans", "statement": "From initial labels that follow the series, KernelKMeans.fit and predict depend on the training set only through the total weight each series has: reordering the series, multiplying all weights by a number, giving the whole dataset several times (with a tolerance multiplied alike) and replacing a series of weight k by k copies of weight 1 give every series the same label, the same number of iterations, and the same predictions for any query. False for copies in different numbers: inertia_ ignores sample_weight, so that another attempt may win when n_init > 1, and the rounds may stop earlier under a positive tol.", "quantifier": "all kernel matrices (gak and others), all weights, all maps between places of the two datasets, all sequences of drawn labels, all hyper-parameters", "why_tests_cant": "Tests run a few datasets with default weights; the correspondence is about pairs of runs on different datasets through every round and every attempt, and the counterexamples need attempts with close inertias.", "anchors": ["tslearn/clustering/kmeans.py:294-319", "tslearn/clustering/kmeans.py:321-388", "tslearn/clustering/kmeans.py:390-411", "tslearn/clustering/kmeans.py:435-455"]}
{"id": "C111", "title": "random_state does what it says", "statement": "For random_walks, random_walk_blobs, sigma_gak, gamma_soft_dtw, dtw_barycenter_averaging_subgradient, silhouette_score, TimeSeriesKMeans, KShape, KernelKMeans, NonMyopicEarlyClassifier and TimeSeriesSVC: with an integer random_state the result depends on the arguments and this integer only and no other generator of the process changes; with a RandomState object or None it depends on the state of that generator (NumPy's global one for None), which alone changes; and for all but the last two an integer, a new RandomState with that seed and the global generator in that state give the same result. An array of initial centroids makes random_state irrelevant, more attempts with the same random_state never give a larger inertia, and more walks with the same random_state begin with the same walks. False: LearningShapelets with an integer reseeds NumPy's global generator and refuses RandomState objects; a second fit of KernelKMeans with sigma='auto' and an integer may give other labels, as may giving the bandwidth found by 'auto' as a number; for NonMyopicEarlyClassifier an integer and a RandomState object with that seed differ; more blobs change the first ones. Blobs generated without noise are copies of the random walks the same random_state gives.", "quantifier": "all generators (any state space and any answers to choice, randint, permutation, randn, random_sample), all states of the process, all data and hyper-parameters", "why_tests_cant": "Tests fix one or two seeds and compare results in one process; they neither look at the other generators nor vary their state, and a leak or a hidden dependence shows only in programs that draw elsewhere.", "anchors": ["tslearn/generators/generators.py:7-112", "tslearn/metrics/_gak.py:20-96", "tslearn/metrics/softdtw_variants.py:36-88", "tslearn/barycenters/dba.py:846-892", "tslearn/clustering/kmeans.py:321-388", "tslearn/clustering/kmeans.py:792-855", "tslearn/clustering/kshape.py:200-256", "tslearn/clustering/utils.py:211-215", "tslearn/early_classification/early_classification.py:156-178", "tslearn/shapelets/shapelets.py:49-64", "tslearn/shapelets/shapelets.py:506-541", "tslearn/svm/svm.py:56-59", "tslearn/svm/svm.py:310-330"]}
{"id": "C112", "title": "Rounding of PAA means, SAX symbols and their distances", "statement": "With floating-point arithmetic, whatever the order in which NumPy adds, each value of PiecewiseAggregateApproximation.transform on a segment of n samples is within ((1+u)^(n+1)-1) times the mean absolute sample of the exact mean, and is missing exactly when the exact one is. SymbolicAggregateApproximation gives the symbol of the exact mean whenever this is farther than that from every breakpoint. The same holds with scale=True for the samples scaled by the stored means and deviations, with exponent n+3. Larger samples (added in the same order) never get a smaller mean or symbol. Samples on a common binary grid with sums below 2^53 steps have the correctly rounded mean, whose symbol is at least the exact one and differs only if the mean was rounded up to a breakpoint; a constant segment then keeps its value. Scaling by a power of two scales the means. The squares of distance_paa and of the SAX distance carry at most S*d+10 and S*d+7 relative errors, and both distances are 0 exactly when the exact ones are. False: a constant segment always keeps its value and symbol; the mean does not depend on the order of the samples; the computed PAA distance never exceeds the Euclidean distance.", "quantifier": "all roundings with a relative error (respectively all monotone ones, or IEEE rounding to nearest for any precision), all orders of summation, all arrays, numbers of segments, breakpoints and words", "why_tests_cant": "Tests compare a few rounded values with a tolerance. A bound for every segment length and order of summation, and the samples for which a symbol flips or the lower bound of Euclidean distance is lost in the last bit, are not found by sampling.", "anchors": ["tslearn/piecewise/piecewise.py:147-176", "tslearn/piecewise/piecewise.py:195-217", "tslearn/piecewise/piecewise.py:402-442", "tslearn/metrics/cysax.py:38-74"]}
{"id": "C113", "title": "The Itakura band in floating-point arithmetic", "statement": "itakura_mask computes its bounds in doubles. For max_slope s and n rows with 2^18 (1+s+1/s) n <= 2^53, each computed bound is within one of the exact bound. For s >= 1 the returned mask contains the exact parallelogram and is contained in the one widened by 1/200 + 16 (1+s+1/s) n 2^-53. The call succeeds exactly when the computed corridor has a complete warping path. For equal lengths it never raises and the diagonal is allowed. The outcome (mask or warning) equals the one of exact arithmetic whenever no line of the parallelogram comes that close to half a hundredth beside a row; in particular with the default slope 2, at most 2^33 rows and fewer than 2^53/22400 cells, whenever the second length divided by the greatest common divisor of the lengths is no multiple of 100. False: the outcome always equals the one of exact arithmetic (another mask for 7x7 and 1.995; a warning only in doubles for 6x8 and 1.33; a warning only in exact arithmetic for 4x8 and 1.99; another bound for 67x100 and the default slope).", "quantifier": "all lengths, all slopes, all precisions of IEEE rounding to nearest", "why_tests_cant": "The cells where rounding decides are on lines that hit half a hundredth up to the last bit, for few sizes and slopes; a test on sampled sizes sees agreement and cannot say for which sizes it is certain.", "anchors": ["tslearn/metrics/_masks.py:91-140", "tslearn/metrics/_masks.py:189-196"]}
{"id": "C114", "title": "Barycenters in floating-point arithmetic", "statement": "With floating-point arithmetic of unit roundoff u <= 1/2, whatever the order in which NumPy adds, for non-negative weights that are not all zero: each sample of euclidean_barycenter of n series is NaN exactly where some series has ended, and otherwise within ((1+u)^(3n+2)-1) times the weighted mean absolute sample of the exact weighted mean. One update of DTW barycenter averaging along given paths never divides by zero and each of its samples is within ((1+u)^(3(L+n+1)+size+2)-1) times the weighted mean absolute aligned sample of the exact weighted mean of the samples aligned with it (n series of at most L samples). For Petitjean's implementation the exponent is 3nL+2. Multiplying all weights by a power of two changes nothing. With uniform weights and samples on a common binary grid with sums below 2^53 steps, the Euclidean barycenter is the correctly rounded mean, so copies of such a series give it back. False: the DBA update on copies of an integer series, aligned with themselves, gives it back or agrees with Petitjean's (49 copies of 1); a Euclidean barycenter lies in the range of the samples (three times 0.1); only the ratios of the weights matter (weights 3 and 3).", "quantifier": "all roundings with a relative error (respectively IEEE rounding to nearest for any precision), all orders of summation, all datasets, weights and alignment paths", "why_tests_cant": "Tests compare a few barycenters with a tolerance of their own. A bound for every number and length of series, every path and every order of summation, and the last bits in which two equivalent implementations differ, are not found by sampling.", "anchors": ["tslearn/barycenters/euclidean.py:42-44", "tslearn/barycenters/dba.py:84-89", "tslearn/barycenters/dba.py:345-353", "tslearn/barycenters/dba.py:392-399", "tslearn/barycenters/dba.py:427-436"]}
{"id": "C115", "title": "A missing value inside a series", "statement": "Take two series of the same number of features, one of which has a NaN that to_time_series(remove_nans=True) does not remove (it is followed by an observed value, or stands beside one). Under every constraint and in both backends dtw and soft_dtw (gamma > 0) return NaN or inf, never a number. Without a constraint: soft_dtw and gak are NaN; with PyTorch so are dtw and frechet. With NumPy, dtw is NaN if the first series has the NaN; if only the second one has it, dtw and frechet are NaN when the last timestamp has a NaN and inf otherwise. If a timestamp of the first series has a NaN and numbers follow, frechet is a number: the least Fr\u00e9chet distance of what follows and some end piece of the second series. dtw_path always ends and returns a warping path. lcss counts the largest matching of fully observed timestamps: dropping a timestamp with NaN changes only the length the count is divided by. Series of NaN only and series of different numbers of features are refused with a ValueError. False: with such series dtw and frechet are symmetric; the backends agree; the Fr\u00e9chet distance is at least what the observed samples impose ([100, nan, 0] is at distance 0 from [0, 0]).", "quantifier": "all pairs of series with missing values in any place, all constraints where stated, both backends, all gamma > 0, sigma, eps", "why_tests_cant": "Tests avoid NaN inside series. What comes out depends on which argument has the gap, where it is, on the argument order inside min and max and on the backend; one finite result hides samples that were never compared.", "anchors": ["tslearn/metrics/_dtw.py:325-344", "tslearn/metrics/_dtw.py:346-353", "tslearn/metrics/_dtw.py:391-400", "tslearn/metrics/_frechet.py:326-348", "tslearn/metrics/utils.py:194-230", "tslearn/metrics/_soft_dtw.py:349-370", "tslearn/metrics/_gak.py:247-274", "tslearn/metrics/dtw_variants.py:977-985", "tslearn/utils/utils.py:511-518"]}
{"id": "C116", "title": "Kernel k-means in floating-point arithmetic", "statement": "In floating-point arithmetic of unit roundoff u <= 1/2 that overflows but does not underflow, with n training series, positive weights, kernel values that are numbers of absolute value at most B, and enough room below the overflow threshold: every computed distance is a number within ((1+u)^(3n+5)-1)(2+2 mean|k|) of the exact 2(1 - mean kernel value), whatever the order in which NumPy adds. predict gives every query a cluster whose exact distance is the least one up to twice that error. fit either finds nothing (no attempt keeps all clusters populated) or ends with labels of which every cluster has some, each within twice the error of the best, and with a number for inertia_, within ((1+u)^(4n+5)-1) n (2+2B) of the sum of the exact distances; it never ends with labels_ None and infinite inertia. An attempt that stops before max_iter rounds has two consecutive inertias that are numbers and whose computed difference is less than tol. A bandwidth of zero raises RuntimeError. False: predict gives the cluster at the least exact distance.", "quantifier": "all kernel matrices of numbers, positive weights, drawn labels, numbers of clusters and rounds; all roundings with relative error u and all orders of summation", "why_tests_cant": "Tests compare labels on a handful of well separated datasets; a bound for every size, weighting and order of summation, and near-ties that rounding decides, are not sampled.", "anchors": ["tslearn/clustering/kmeans.py:267-279", "tslearn/clustering/kmeans.py:294-319", "tslearn/clustering/kmeans.py:321-388", "tslearn/clustering/kmeans.py:390-411", "tslearn/clustering/kmeans.py:435-455"]}
{"id": "C117", "title": "Nearest neighbours and k-means on series with gaps", "statement": "A series has a gap if a value is missing before or beside its last observed sample; all series have an observed sample and the same number of features. Without a constraint cdist_dtw never refuses such data. cdist_dtw(X) is symmetric with a zero diagonal even where dtw(x, x) is NaN; above the diagonal the entry is NaN if the earlier series has a gap, and if only the later has one it is NaN when its last timestamp has a NaN and inf otherwise: reordering the dataset changes inf into NaN. kneighbors with the metric dtw: a query without gaps gets first its nearest neighbours among the training series without gaps, by true DTW, and series with gaps only after all of them, at distance inf or NaN; a query with a gap gets NaN distances and neighbours that depend on nothing but the number of training series and k. TimeSeriesKMeans.fit with DTW (any constraint) or soft-DTW on data where some series has a gap ends, whether or not it raises, with _X_fit None, n_iter_ 0 and inertia_ NaN or inf, for all initial centroids, barycenters and hyper-parameters; an attempt that does not raise runs all max_iter rounds. It can end without an exception and then predict answers; a series with a gap always gets label 0 from predict (without a constraint).", "quantifier": "all datasets of series with missing values in any place, all k, all parallel schedules, all initialisations, barycenter functions, numbers of clusters, rounds and initialisations", "why_tests_cant": "Tests of cdist_dtw, kneighbors and k-means use complete series. What a gap does depends on the order of the series, on the order of operands in comparisons with NaN, and on a convergence test that silently never succeeds.", "anchors": ["tslearn/metrics/utils.py:124-189", "tslearn/metrics/_dtw.py:751-793", "tslearn/neighbors/neighbors.py:124-188", "tslearn/clustering/kmeans.py:642-856", "tslearn/clustering/kmeans.py:881-906", "tslearn/clustering/utils.py:51-67", "tslearn/clustering/utils.py:225-235"]}
{"id": "C118", "title": "DTW barycenters of series with gaps", "statement": "If one of the series has a gap (a value missing before or beside its last observed sample), dtw_barycenter_averaging raises nothing and returns None, for every initial barycenter, constraint, size, max_iter, n_init and non-negative weights (not all zero). One attempt (dtw_barycenter_averaging_one_init, which is public) returns a cost that is inf or NaN and a barycenter of the size asked for in which every timestamp of a feature is NaN as soon as one series misses that feature once, because the matrix product multiplies NaN by zero; the features no series misses are numbers. The tolerance plays no role: all max_iter rounds are made. Petitjean's version has NaN at some timestamp of such a feature, not at all of them, and numbers elsewhere. The subgradient version has NaN at all timestamps of such a feature after one epoch, whatever the shuffles, and nowhere else (besides the NaN of the initial barycenter). On complete series all of this reduces to the barycenters of the other properties.", "quantifier": "all datasets of series with missing values in any place, all initial barycenters, sizes, weights, constraints, tolerances, numbers of rounds, attempts and shuffles", "why_tests_cant": "Tests average complete series, or series padded at the end. That None is returned, and that a single NaN erases a whole feature, follows from 0 * NaN in a matrix product and from NaN in a comparison, for all inputs.", "anchors": ["tslearn/barycenters/dba.py:23-31", "tslearn/barycenters/dba.py:34-89", "tslearn/barycenters/dba.py:92-228", "tslearn/barycenters/dba.py:231-307", "tslearn/barycenters/dba.py:310-436", "tslearn/barycenters/dba.py:439-484", "tslearn/barycenters/dba.py:487-622", "tslearn/barycenters/dba.py:625-743", "tslearn/barycenters/dba.py:862-892"]}
{"id": "C119", "title": "Searching a series with gaps", "statement": "Query and reference have an observed sample each and the same number of features; a sample with a missing value that is followed by an observed one is a gap. subsequence_cost_matrix is NaN exactly in the rows from the first gap of the query on and in the columns of gaps of the reference. For a complete query the last row is, at every fully observed position, the square of the least DTW between the query and a window without gaps ending there, so that the smallest number of the row, NaN left aside, gives the best window without gaps. dtw_subsequence_path nevertheless always returns NaN when there is a gap: with NumPy its path aligns the whole query with sample 0 if the query has a gap, else with the first gap of the reference, even if the query occurs exactly elsewhere. lb_keogh is always a number: a sample of the query counts only if it is observed and all samples of the candidate within the radius are. It is at most what any alignment within the radius pays for pairs of observed samples; for series with equally many samples, padded with NaN to a common size, it is at most dtw with that radius. False: dtw_subsequence_path finds an occurrence of the query in a reference with gaps; lb_keogh of series of different lengths padded to a common size is at most dtw with that radius.", "quantifier": "all queries and references with missing values in any place, all candidates, radii and paddings", "why_tests_cant": "Tests use complete series. The answer depends on the order of the arguments of min, on argmin preferring NaN, and on lb_envelope keeping the padding that dtw removes; a wrong bound shows only as a neighbour that was pruned.", "anchors": ["tslearn/metrics/dtw_variants.py:403-430", "tslearn/metrics/dtw_variants.py:505-547", "tslearn/metrics/dtw_variants.py:714-720", "tslearn/metrics/dtw_variants.py:780-798", "tslearn/metrics/dtw_variants.py:822-838"]}
{"id": "C120", "title": "Casting data, choosing Keras and caching datasets", "statement": "cast gives the container asked for, whatever the letter case of the name, with the same content, and casting twice is casting once; a name other than numpy, pytorch and list is refused. check_keras_backend keeps a choice of the user, otherwise takes the first installed of torch, tensorflow and jax, raises ImportError exactly if none is installed, and keeps its choice on later calls. Datasets live in the directory asked for, else below XDG_DATA_HOME, else below the home directory. cache_all treats every dataset in order, whatever fails, and warns exactly for those it could not cache. Every dataset listed by CachedDatasets can be loaded by its name, training set first. in_file_string_replace replaces every occurrence from left to right in that file only. The text of an EmptyClusterError ends with its message in brackets, and ts_size is the length kept by to_time_series(remove_nans=True).", "quantifier": "for all data, type names, import outcomes, directories, servers, file systems, texts and series", "why_tests_cant": "the claims range over all names, texts, orders of failing downloads and installed packages; two of them are wrong only for names nobody tries (a dot in a dataset name, an unknown array type) or for corrupt archives", "anchors": ["tslearn/backend/backend.py:88-116", "tslearn/backend/__init__.py:12-34", "tslearn/datasets/ucr_uea.py:12-33", "tslearn/datasets/ucr_uea.py:377-385", "tslearn/datasets/cached.py:24-85", "tslearn/datasets/datasets.py:56-77", "tslearn/clustering/utils.py:17-28", "tslearn/utils/utils.py:470-508"]}
{"id": "C121", "title": "A saved and loaded model answers as before", "statement": "Every estimator with to_json, to_hdf5 and to_pickle (LearningShapelets is C84) can be saved once it is fitted, and the loaded estimator answers every query (predict, transform, kneighbors) as the saved one; saving it again writes the same attributes.", "quantifier": "for all such estimators, all states they can be in, all values of their attributes and all queries", "why_tests_cant": "which attributes are written is decided by their names and by lists kept by hand, and what is read depends on the metric; a test of one metric of one estimator says nothing about the others", "anchors": ["tslearn/bases/bases.py:78-199", "tslearn/neighbors/neighbors.py:104-188", "tslearn/neighbors/neighbors.py:306-350", "tslearn/neighbors/neighbors.py:523-580", "tslearn/matrix_profile/matrix_profile.py:129-136", "tslearn/forecasting/_arima.py:111", "tslearn/clustering/kmeans.py:248-255", "tslearn/piecewise/piecewise.py:121-128"]}
{"id": "C122", "title": "Normalised soft-DTW in floating-point arithmetic", "statement": "In doubles, soft_dtw_normalized of a series with itself is exactly zero; soft_dtw_normalized is symmetric to the last bit without constraint and with a Sakoe-Chiba band, and close to the normalised soft minimum over warping paths; the entries of cdist_soft_dtw_normalized are those of soft_dtw_normalized to the last bit, for one dataset and for two.", "quantifier": "for all series, gamma > 0, constraints, datasets and executions of the job list, and all formats whose rounding is odd, monotone and exact on doubles of its numbers", "why_tests_cant": "an exact zero on the diagonal depends on the rounding of three values and of three operations; tests compare with a tolerance and use ordinary values of gamma", "anchors": ["tslearn/metrics/_soft_dtw.py:201-346", "tslearn/metrics/_soft_dtw.py:349-370", "tslearn/metrics/_soft_dtw.py:456-498", "tslearn/metrics/_soft_dtw.py:943-1193", "tslearn/metrics/soft_dtw_fast.py:15-48"]}
{"id": "C123", "title": "DTW with a limited warping length in floating-point arithmetic", "statement": "In rounded arithmetic dtw_limited_warping_length returns the square root of the least rounded cost over the alignments of at most max_length pairs, within a relative error that depends on max_length and the number of features only; dtw_path_limited_warping_length returns such an alignment, optimal up to the same error; the value is symmetric to the last bit, exactly zero on equal series, never increases with max_length, and equals that of dtw to the last bit once max_length reaches len(s1) + len(s2) - 1; before the root it scales exactly with powers of two and is exact on integers of moderate size.", "quantifier": "for all series without NaN, all budgets, all tie-breakings of argmin and all monotone idempotent roundings (odd for symmetry)", "why_tests_cant": "tests compare a few doubles with a tolerance; equality to the last bit with another implementation of DTW and monotonicity in the budget need every sequence of roundings", "anchors": ["tslearn/metrics/dtw_variants.py:60-67", "tslearn/metrics/dtw_variants.py:70-98", "tslearn/metrics/dtw_variants.py:101-156", "tslearn/metrics/dtw_variants.py:226-239", "tslearn/metrics/dtw_variants.py:242-297", "tslearn/metrics/dtw_variants.py:378-399", "tslearn/metrics/_dtw.py:325-344"]}
{"id": "C124", "title": "Neighbours, classes and clusters decided by rounded distances", "statement": "Nearest neighbours found from distances computed in floating point are nearest up to the factor of the rounding error; when the exact neighbours are separated from the other series by more than that factor, kneighbors returns the same series and the class, the probabilities and the target of uniform neighbours are those of exact arithmetic; votes weighted by inverse distances need the votes to be ahead by that factor as well; the same holds of the label of TimeSeriesKMeans.predict, and of a whole DBSCAN clustering when no distance is within the relative error of eps. The factor under DTW depends on the lengths and the number of features only, under the Fr\u00e9chet distance on the number of features only.", "quantifier": "for all queries, training series, constraints, numbers of neighbours, tie-breakings of argpartition and argsort and all monotone roundings of bounded relative error", "why_tests_cant": "a decision that flips needs distances within the rounding error of each other, which sampled data hardly ever show; the factor has to hold for every table of distances", "anchors": ["tslearn/neighbors/neighbors.py:161-181", "tslearn/neighbors/neighbors.py:352-428", "tslearn/clustering/kmeans.py:742-757", "tslearn/metrics/_dtw.py:325-344", "tslearn/metrics/_dtw.py:391-400", "tslearn/metrics/_frechet.py:398-407"]}
