{"id": "C01", "title": "Univariate same-length transform equals its definition", "statement": "transform on equal-length univariate series returns a matrix of shape (n_samples, 3*n_shapelets) whose row i, columns 3k..3k+2 are the three features (minimum distance, position of the minimum, number of windows at distance <= threshold) obtained by comparing shapelet k alone with series i alone, although the code groups shapelets by (length, dilation), shares one window matrix per group and normalises that matrix in place.", "quantifier": "all datasets, all well-formed shapelet sets (any mix and repetition of lengths, dilations, normalisation flags), both phase settings", "why_tests_cant": "the grouping, the offset arrays and the in-place normalisation interact differently for every multiset of (length, dilation, flag); tests sample a few random shapelet sets", "anchors": ["convst/transformers/_univariate_same_length.py:U_SL_apply_all_shapelets", "convst/transformers/_commons.py:apply_one_shapelet_one_sample_univariate"]}
{"id": "C02", "title": "Univariate variable-length transform equals its definition", "statement": "transform on univariate series of different lengths returns, for every series i and shapelet k, the features obtained by comparing shapelet k with the first len(i) values of series i only.", "quantifier": "all lists of series of any lengths, all well-formed shapelet sets, both phase settings", "why_tests_cant": "every combination of true lengths and paddings must work", "anchors": ["convst/transformers/_univariate_variable_length.py:U_VL_apply_all_shapelets"]}
{"id": "C03", "title": "Multivariate same-length transform equals its definition", "statement": "transform on equal-length multivariate series returns, for every series i and shapelet k, the features of the distance summed over exactly the channels of shapelet k, where the channels and values of shapelet k are the k-th blocks of the flattened arrays.", "quantifier": "all datasets, all well-formed multivariate shapelet sets with any number of channels per shapelet, both phase settings", "why_tests_cant": "cumulative offsets into flattened arrays depend on every earlier shapelet", "anchors": ["convst/transformers/_multivariate_same_length.py:M_SL_apply_all_shapelets", "convst/transformers/_commons.py:apply_one_shapelet_one_sample_multivariate"]}
{"id": "C04", "title": "Multivariate variable-length transform equals its definition", "statement": "transform on multivariate series of different lengths returns, for every series i and shapelet k, the features of the channel-summed distance computed on the first len(i) time points only.", "quantifier": "all lists of multivariate series of any lengths, all well-formed shapelet sets, both phase settings", "why_tests_cant": "as C02 and C03 combined", "anchors": ["convst/transformers/_multivariate_variable_length.py:M_VL_apply_all_shapelets"]}
{"id": "C05", "title": "Meaning of the three features", "statement": "When a series offers at least one window, the first feature is the least of the window distances, the second is the first window position attaining it, the third is the number of windows whose distance is <= the threshold; hence min >= 0, 0 <= position < n_windows, 0 <= count <= n_windows, and count >= 1 exactly when min <= threshold.", "quantifier": "all series, shapelets and thresholds in exact arithmetic", "why_tests_cant": "the -1 sentinel and running minimum must be right for every distance sequence, including ties and zeros", "anchors": ["convst/transformers/_commons.py:apply_one_shapelet_one_sample_univariate", "convst/transformers/_commons.py:apply_one_shapelet_one_sample_multivariate", "convst/transformers/_commons.py:manhattan"]}
{"id": "C06", "title": "Transform is row-wise and batch independent", "statement": "Transforming a concatenation of two batches gives the concatenation of the two transforms, and permuting the input series permutes the rows; for variable-length input this holds although the padding width depends on the whole batch.", "quantifier": "all batches, all splits, all permutations", "why_tests_cant": "quantifies over all batch compositions", "anchors": ["convst/transformers/rdst.py:R_DST.transform", "convst/transformers/rdst.py:R_DST._format_uneven_timestamps"]}
{"id": "C07", "title": "Transform is column-wise", "statement": "The three columns of shapelet k depend on shapelet k only: they equal the transform with the singleton shapelet set {k}, so adding, removing or reordering other shapelets never changes them.", "quantifier": "all shapelet sets and all series", "why_tests_cant": "the grouping code mixes all shapelets of equal parameters", "anchors": ["convst/transformers/_univariate_same_length.py:U_SL_apply_all_shapelets"]}
{"id": "C08", "title": "Transform result does not depend on the parallel schedule", "statement": "Executing the parallel loop iterations of transform (over samples and parameter groups) in any order, with their writes to the output interleaved in any way, gives the same output matrix.", "quantifier": "all interleavings of the result writes of all parallel iterations", "why_tests_cant": "schedules cannot be enumerated by tests", "anchors": ["convst/transformers/_univariate_same_length.py:U_SL_apply_all_shapelets", "convst/transformers/_multivariate_variable_length.py:M_VL_apply_all_shapelets"]}
{"id": "C09", "title": "Padding is irrelevant", "statement": "For variable-length input the values stored beyond the true length of a series in the padded array never influence transform.", "quantifier": "all padded arrays that agree on the true prefixes", "why_tests_cant": "all paddings", "anchors": ["convst/transformers/_univariate_variable_length.py:U_VL_apply_all_shapelets", "convst/transformers/_multivariate_variable_length.py:M_VL_apply_all_shapelets"]}
{"id": "C10", "title": "Variable-length and same-length transforms agree", "statement": "On a dataset whose series all have the same length, the variable-length transform and the same-length transform return identical matrices.", "quantifier": "all equal-length datasets and shapelet sets", "why_tests_cant": "two separately written kernels must agree everywhere", "anchors": ["convst/transformers/_univariate_variable_length.py:U_VL_apply_all_shapelets", "convst/transformers/_univariate_same_length.py:U_SL_apply_all_shapelets", "convst/transformers/_multivariate_variable_length.py:M_VL_apply_all_shapelets", "convst/transformers/_multivariate_same_length.py:M_SL_apply_all_shapelets"]}
{"id": "C11", "title": "Multivariate transform of one channel agrees with the univariate one", "statement": "On single-channel data, with shapelets all using channel 0, the multivariate transform returns the same matrix as the univariate transform.", "quantifier": "all univariate datasets and shapelet sets in exact arithmetic", "why_tests_cant": "two separately written kernels with different layouts must agree everywhere", "anchors": ["convst/transformers/_multivariate_same_length.py:M_SL_apply_all_shapelets", "convst/transformers/_univariate_same_length.py:U_SL_apply_all_shapelets"]}
{"id": "C12", "title": "Transform safety and exact failure condition", "statement": "Without phase invariance transform never reads or writes out of bounds; it fails (ValueError, negative dimension) exactly when some series has fewer than (length-1)*dilation points for some shapelet; a series with exactly (length-1)*dilation points has no window and silently yields the features (-1, 0, 0). With phase invariance it succeeds for every non-empty series.", "quantifier": "all series lengths and shapelet parameters", "why_tests_cant": "out-of-bounds reads in compiled code do not raise, so a test can pass by accident", "anchors": ["convst/transformers/_commons.py:_generate_strides_1D", "convst/transformers/_commons.py:_generate_strides_1D_phase", "convst/transformers/_univariate_same_length.py:U_SL_apply_all_shapelets"]}
{"id": "C13", "title": "Phase invariance", "statement": "With phase_invariance=True, rotating a series circularly leaves the minimum and the occurrence count of every shapelet unchanged, and the distance vector is rotated by the same amount.", "quantifier": "all series, all rotations, all shapelets", "why_tests_cant": "all rotations of all series", "anchors": ["convst/transformers/_commons.py:_generate_strides_1D_phase", "convst/transformers/_commons.py:compute_shapelet_dist_vector"]}
{"id": "C14", "title": "Normalised shapelets ignore the offset of the series", "statement": "Adding a constant to a series leaves all three features of every normalised shapelet unchanged (exact arithmetic).", "quantifier": "all series, constants, shapelets", "why_tests_cant": "all real offsets", "anchors": ["convst/transformers/_univariate_same_length.py:U_SL_apply_all_shapelets"]}
{"id": "C15", "title": "Scale invariance of normalised shapelets is only approximate", "statement": "Because 1e-8 is added to the standard deviation, the normalised window of a*x equals (x-mean)/(std+1e-8/a); every normalised value of a*x and x differ by at most |x_j-mean|*|1e-8-1e-8/a|/(std+...)..., so scale invariance is not exact, and fails grossly when std is comparable to 1e-8.", "quantifier": "all windows and positive scales", "why_tests_cant": "needs a bound for every window", "anchors": ["convst/transformers/_commons.py:_compute_shapelet_dist_vector_norm", "convst/transformers/_univariate_same_length.py:U_SL_apply_all_shapelets"]}
{"id": "C16", "title": "normalize_output has an effect as documented (violated)", "statement": "The documentation says normalize_output=True divides argmin and occurrence by the length of the series; the code never reads the option, so transform returns the same matrix for both values, and the features can exceed 1.", "quantifier": "all datasets, shapelets", "why_tests_cant": "negative result over all inputs", "anchors": ["convst/transformers/rdst.py:R_DST.__init__", "convst/transformers/rdst.py:R_DST.transform"]}
{"id": "C17", "title": "Fit-time and interpreter distance vector agrees with transform", "statement": "compute_shapelet_dist_vector(x, values, length, dilation, norm, phase), used at fit time and by the interpreter, returns the vector whose minimum, first argmin and threshold count are the features transform computes for the same shapelet.", "quantifier": "all series and shapelets, four option combinations", "why_tests_cant": "two independent code paths must agree everywhere", "anchors": ["convst/transformers/_commons.py:compute_shapelet_dist_vector", "convst/interpreters/rdst_interpreter.py:Shapelet.plot_distance_vector"]}
{"id": "C18", "title": "The distance functions are metrics", "statement": "manhattan and euclidean on equal-length vectors are non-negative, symmetric, zero exactly on equal vectors and satisfy the triangle inequality; squared_euclidean is the square of euclidean.", "quantifier": "all vectors of any length", "why_tests_cant": "universally quantified algebraic laws", "anchors": ["convst/transformers/_commons.py:manhattan", "convst/transformers/_commons.py:euclidean", "convst/transformers/_commons.py:squared_euclidean"]}
{"id": "C19", "title": "Univariate same-length fit is total and well-formed", "statement": "fit on equal-length univariate data with valid parameters terminates without error or out-of-bounds access for every random outcome and returns arrays of equal length, at most n_shapelets shapelets, each with length in shapelet_lengths, dilation >= 1 and (length-1)*dilation < n_timestamps.", "quantifier": "all datasets, parameters, random generator outcomes and thread schedules", "why_tests_cant": "random outcomes and schedules cannot be enumerated", "anchors": ["convst/transformers/_univariate_same_length.py:U_SL_generate_shapelet", "convst/transformers/_univariate_same_length.py:U_SL_init_random_shapelet_params"]}
{"id": "C20", "title": "Univariate variable-length fit is total and well-formed", "statement": "The same for variable-length data, when min_len is at most the length of every training series: every shapelet satisfies (length-1)*dilation < min_len.", "quantifier": "all lists of series, parameters, random outcomes and schedules", "why_tests_cant": "as C19", "anchors": ["convst/transformers/_univariate_variable_length.py:U_VL_generate_shapelet"]}
{"id": "C21", "title": "Multivariate same-length fit is total and well-formed", "statement": "The same for multivariate data: every shapelet has between 1 and max_channels distinct channels in range, and the flattened value and channel arrays have exactly the lengths implied by the per-shapelet parameters, also after discarding shapelets.", "quantifier": "all datasets, parameters, random outcomes and schedules", "why_tests_cant": "as C19 plus flattened-offset bookkeeping", "anchors": ["convst/transformers/_multivariate_same_length.py:M_SL_generate_shapelet"]}
{"id": "C22", "title": "Multivariate variable-length fit is total and well-formed", "statement": "The same for multivariate variable-length data with min_len at most every length.", "quantifier": "all lists of series, parameters, random outcomes and schedules", "why_tests_cant": "as C19", "anchors": ["convst/transformers/_multivariate_variable_length.py:M_VL_generate_shapelet"]}
{"id": "C23", "title": "Every shapelet is a subsequence of training data and matches its source exactly", "statement": "For every returned shapelet there are a training series and a start position such that the shapelet values are the (normalised, when flagged) dilated subsequence starting there; therefore transforming the training set gives minimum distance 0 for that shapelet on that series.", "quantifier": "all datasets, parameters, random outcomes", "why_tests_cant": "random outcomes", "anchors": ["convst/transformers/_commons.py:get_subsequence", "convst/transformers/_univariate_same_length.py:U_SL_generate_shapelet"]}
{"id": "C24", "title": "Thresholds lie between the two percentiles of a distance vector", "statement": "Each threshold lies between the p_min-th and p_max-th percentile of the distance vector between the shapelet and some training series of the same class (a different one when the class has more than one member); hence that series has occurrence count >= 1.", "quantifier": "all datasets, percentiles in [0,100], random outcomes", "why_tests_cant": "random outcomes", "anchors": ["convst/transformers/_univariate_same_length.py:U_SL_generate_shapelet", "convst/transformers/rdst.py:R_DST._validate_percentiles"]}
{"id": "C25", "title": "alpha similarity limits overlap of sampled shapelets", "statement": "Two univariate shapelets sampled from the same series with the same dilation and normalisation flag share at most max(1, floor((1-alpha)*min_length)) time points (twice as many with phase_invariance=True, where windows wrap around) whenever the later one is not longer than the earlier one. Two multivariate ones that share more have at most a proportion 1-alpha of the later one's channels in common. The limit can be exceeded when the later one is longer.", "quantifier": "all datasets, parameters, random outcomes", "why_tests_cant": "depends on the whole sampling history", "anchors": ["convst/transformers/_univariate_same_length.py:U_SL_generate_shapelet", "convst/transformers/_univariate_variable_length.py:U_VL_generate_shapelet"]}
{"id": "C26", "title": "Fit iterations over dilations are independent", "statement": "The parallel iterations of fit, one per distinct dilation, touch disjoint parts of the masks and outputs: for fixed per-iteration random streams, executing them in any order gives the same shapelets.", "quantifier": "all orders of the parallel iterations", "why_tests_cant": "schedules", "anchors": ["convst/transformers/_univariate_same_length.py:U_SL_generate_shapelet"]}
{"id": "C27", "title": "Variable-length fit never samples padding", "statement": "Every shapelet fitted on variable-length data is read from the true prefix of its source series, and changing the padding values or the padded width changes nothing in the result of fit.", "quantifier": "all lists of series, random outcomes", "why_tests_cant": "random outcomes", "anchors": ["convst/transformers/_univariate_variable_length.py:U_VL_generate_shapelet", "convst/transformers/_multivariate_variable_length.py:M_VL_generate_shapelet"]}
{"id": "C28", "title": "prime_dilations yields primes or 1", "statement": "is_prime(n) is true exactly for primes and for 1; prime_up_to(n) lists exactly these numbers up to n in increasing order; with prime_dilations=True every dilation is 1 or prime (the documentation says prime).", "quantifier": "all naturals, all random outcomes", "why_tests_cant": "infinite domain", "anchors": ["convst/transformers/_commons.py:is_prime", "convst/transformers/_commons.py:prime_up_to"]}
{"id": "C29", "title": "Which dilations are sampled", "statement": "For length l in [2,n] the sampled dilation d satisfies 1 <= d and (l-1)*d <= n-1 for every random draw. With prime_dilations=True the dilations some draw produces are exactly 1 and the primes for which the shapelet fits; otherwise exactly 1 and the dilations strictly below the largest one that fits, which is never produced when it is at least 2.", "quantifier": "all lengths, series lengths and draws in exact arithmetic", "why_tests_cant": "all draws", "anchors": ["convst/transformers/_univariate_same_length.py:U_SL_init_random_shapelet_params"]}
{"id": "C30", "title": "Log-weighted choice stays in range", "statement": "choice_log(n, m) returns m indices, each in [0, n) for n >= 1, for every random draw, and larger draws give larger indices.", "quantifier": "all sizes and draws in exact arithmetic", "why_tests_cant": "all draws", "anchors": ["convst/transformers/_commons.py:choice_log"]}
{"id": "C31", "title": "proba_norm extremes", "statement": "proba_norm <= 0 gives no normalised shapelet and proba_norm >= 1 gives only normalised shapelets.", "quantifier": "all random outcomes", "why_tests_cant": "random outcomes", "anchors": ["convst/transformers/_univariate_same_length.py:U_SL_init_random_shapelet_params"]}
{"id": "C32", "title": "When shapelets are discarded", "statement": "Documentation says fewer than n_shapelets are returned only when the search space is covered. Multivariate fit discards a shapelet exactly when no admissible position is left; univariate fit also discards any shapelet whose values are all zero, e.g. a normalised constant subsequence (violated claim).", "quantifier": "all datasets, random outcomes", "why_tests_cant": "random outcomes", "anchors": ["convst/transformers/_univariate_same_length.py:U_SL_generate_shapelet", "convst/transformers/_multivariate_same_length.py:M_SL_generate_shapelet"]}
{"id": "C33", "title": "Unique parameter combinations", "statement": "The list of distinct (length, dilation) pairs computed from the shapelets contains every occurring pair exactly once, in order of first occurrence, and nothing else, without out-of-bounds access.", "quantifier": "all pairs of equal-length integer arrays", "why_tests_cant": "all arrays", "anchors": ["convst/transformers/_commons.py:_combinations_1d"]}
{"id": "C34", "title": "Automatic selection of the transform type", "statement": "With transform_type='auto', lists and object arrays select a variable-length transformer and int64/float64 arrays a same-length one, multivariate exactly when there is more than one channel; other dtypes (e.g. float32) are rejected with an error.", "quantifier": "all inputs", "why_tests_cant": "all dtypes and shapes", "anchors": ["convst/transformers/rdst.py:R_DST._auto_class", "convst/transformers/rdst.py:R_DST._set_fit_transform"]}
{"id": "C35", "title": "Every documented transform type is accepted (violated)", "statement": "Constructing R_DST with transform_type='univariate_variable' raises, although fit itself sets that value; all other documented values are accepted, case-insensitively.", "quantifier": "all strings", "why_tests_cant": "all strings", "anchors": ["convst/transformers/rdst.py:R_DST._validate_transform_type"]}
{"id": "C36", "title": "Candidate lengths from bounds", "statement": "With shapelet_lengths_bounds=[b0,b1] the candidate lengths are non-empty, strictly increasing, all >= 3, start at max(3,b0), do not exceed max(3,b0,b1); a reduction r > 0 on n>3 lengths keeps at least floor(n*r) and fewer than 2*floor(n*r) lengths when floor(n*r)>0, and all of them otherwise.", "quantifier": "all integer or fractional bounds, all reductions < 1, all series lengths", "why_tests_cant": "all numeric parameters", "anchors": ["convst/transformers/rdst.py:R_DST._set_lengths"]}
{"id": "C37", "title": "Validated shapelet lengths fit the series", "statement": "After parameter checking all candidate lengths lie in [2, n_timestamps] when n_timestamps >= 4; for n_timestamps = 3 a too long candidate is replaced by length 1 (violated).", "quantifier": "all length arrays, all n_timestamps", "why_tests_cant": "all arrays", "anchors": ["convst/transformers/rdst.py:R_DST._check_params"]}
{"id": "C38", "title": "Refitting recomputes lengths from the original parameters (violated for fractions)", "statement": "Fitting the same object twice on the same data uses the same candidate lengths when shapelet_lengths are integers or bounds are given, but not when they are fractions: the first fit overwrites the fractions with absolute lengths which the second fit multiplies by the series length again.", "quantifier": "all histories of fit calls", "why_tests_cant": "histories", "anchors": ["convst/transformers/rdst.py:R_DST.fit", "convst/transformers/rdst.py:R_DST._set_lengths"]}
{"id": "C39", "title": "Fit history leaks through min_len, max_channels and transform_type", "statement": "For variable-length data the first fit (even one that later raises) fixes min_len, max_channels and the transform type for all later fits; for same-length data min_len is recomputed at every fit.", "quantifier": "all histories of successful and failing fit calls", "why_tests_cant": "histories and failure points", "anchors": ["convst/transformers/rdst.py:R_DST.fit"]}
{"id": "C40", "title": "Padding of uneven series is lossless", "statement": "Formatting a list of (n_features, len_i) series gives an array whose first len_i values of sample i are the series, zero elsewhere, together with the true lengths; it raises exactly when the numbers of features differ (or on an empty list).", "quantifier": "all lists of series", "why_tests_cant": "all lists", "anchors": ["convst/transformers/rdst.py:R_DST._format_uneven_timestamps"]}
{"id": "C41", "title": "Subsampling keeps series, labels and lengths aligned (violated for variable length)", "statement": "With n_samples set, the subsampled series and labels stay paired, but for variable-length data the array of true lengths is not subsampled, so a series can be used with the length of another one.", "quantifier": "all datasets and index selections", "why_tests_cant": "random selections", "anchors": ["convst/transformers/rdst.py:R_DST.fit"]}
{"id": "C42", "title": "random_state determines fit", "statement": "With n_samples=None the fitted shapelets are a function of the parameters, data, random_state and the per-thread generator states; with n_samples set they also depend on the global NumPy generator, which random_state does not control (violated).", "quantifier": "all generators and histories", "why_tests_cant": "all generator states", "anchors": ["convst/transformers/rdst.py:R_DST.fit", "convst/transformers/rdst.py:R_DST._check_params"]}
{"id": "C43", "title": "Fit then transform never fails on long enough series", "statement": "After a successful fit, transform succeeds on every batch whose series have at least min_len points (n_timestamps for same-length data) and the same number of channels, and every minimum feature is >= 0.", "quantifier": "all datasets, test batches, random outcomes", "why_tests_cant": "end-to-end over random outcomes and unseen data", "anchors": ["convst/transformers/rdst.py:R_DST.fit", "convst/transformers/rdst.py:R_DST.transform"]}
{"id": "C44", "title": "n_jobs normalisation", "statement": "check_n_jobs returns a value in [1, cpu_count] for None, for n_jobs >= 1 and for -cpu_count <= n_jobs <= -1; for 0 and for smaller negative values it returns a non-positive count without raising (violated).", "quantifier": "all integers and core counts", "why_tests_cant": "all integers", "anchors": ["convst/utils/checks_utils.py:check_n_jobs"]}
{"id": "C45", "title": "Ensemble job split", "statement": "The ensemble splits the total jobs into outer and inner jobs with both >= 1 and outer*inner <= total; repeating fit recomputes from the overwritten value, so the second fit can use fewer inner threads (violated idempotence); n_jobs=0 raises ZeroDivisionError.", "quantifier": "all job counts, ensemble sizes and fit histories", "why_tests_cant": "histories", "anchors": ["convst/classifiers/rdst_ensemble.py:R_DST_Ensemble._manage_n_jobs"]}
{"id": "C46", "title": "Thread count is global", "statement": "The number of threads used by a model is that of the most recently constructed (or fitted ensemble) object, not its own n_jobs.", "quantifier": "all histories of constructions", "why_tests_cant": "histories", "anchors": ["convst/transformers/rdst.py:R_DST.__init__", "convst/classifiers/rdst_ridge.py:R_DST_Ridge.__init__"]}
{"id": "C47", "title": "Scaler keeps exactly the non-constant features", "statement": "The scaler of the classifier keeps, in order, exactly the features that are not constant on the training set; on the training set every kept feature is rescaled to mean 0 and standard deviation 1; at predict time the same features are kept.", "quantifier": "all feature matrices", "why_tests_cant": "all matrices", "anchors": ["convst/transformers/_input_transformers.py:c_StandardScaler", "convst/transformers/_input_transformers.py:c_MinMaxScaler"]}
{"id": "C48", "title": "Shapelet importance vector", "statement": "The importance vector has one entry per transform feature: the ridge coefficient at kept features and 0 elsewhere, so its product with a feature row equals the product of the coefficients with the kept features; for two classes the vectors of the classes are opposite.", "quantifier": "all coefficient matrices and kept feature sets", "why_tests_cant": "all index sets", "anchors": ["convst/interpreters/rdst_interpreter.py:RDST_Ridge_interpreter._get_shp_importance"]}
{"id": "C49", "title": "Best shapelets of a class", "statement": "The shapelets visualised for a class are distinct, min(n_shp, n_shapelets) in number, and no unselected shapelet has a feature coefficient larger than the best coefficient of a selected one.", "quantifier": "all coefficient vectors, all argsort tie orders", "why_tests_cant": "all ties", "anchors": ["convst/interpreters/rdst_interpreter.py:RDST_Ridge_interpreter.visualize_best_shapelets_one_class"]}
{"id": "C50", "title": "Ensemble prediction", "statement": "predict returns, for each series, the first index maximising the weighted sum of the members' class probabilities, hence an index in [0, n_classes); a class preferred by all members wins; the value returned is a class index, not a label, so labels other than 0..n_classes-1 are never returned as given (violated).", "quantifier": "all probability tables and weights", "why_tests_cant": "all tables", "anchors": ["convst/classifiers/rdst_ensemble.py:R_DST_Ensemble.predict"]}
{"id": "C51", "title": "Ensemble weights", "statement": "Each member weight is a training accuracy in [0,1] raised to a_w, hence in [0,1] for a_w >= 0; softmax probabilities are positive and sum to one per series.", "quantifier": "all predictions", "why_tests_cant": "all inputs", "anchors": ["convst/classifiers/rdst_ensemble.py:_internalRidgeCV.get_loocv_train_acc", "convst/classifiers/rdst_ensemble.py:_internalRidgeCV.predict_proba"]}
{"id": "C52", "title": "Ensemble seeds depend on the schedule", "statement": "The members draw their seeds from one shared generator while fitting in parallel: sequentially member i gets the i-th draw, but under other schedules the draws are permuted, so a fixed random_state does not fix the ensemble when n_jobs > 1 (violated reproducibility).", "quantifier": "all schedules", "why_tests_cant": "schedules", "anchors": ["convst/classifiers/rdst_ensemble.py:R_DST_Ensemble.fit"]}
{"id": "C53", "title": "Ridge classifier composition", "statement": "R_DST_Ridge.predict applies the fitted classifier to the transform of the fitted transformer row by row, so a prediction for a series does not depend on the other series of the batch, and score is the fraction of correct predictions.", "quantifier": "all batches", "why_tests_cant": "all batches", "anchors": ["convst/classifiers/rdst_ridge.py:R_DST_Ridge.predict", "convst/classifiers/rdst_ridge.py:R_DST_Ridge.score"]}
{"id": "C54", "title": "nb_unique", "statement": "nb_unique on a non-empty 2D array returns its distinct rows in lexicographic order, the index of the first occurrence of each and the number of occurrences; the counts sum to the number of rows. The replacement of np.all for 2D boolean arrays gives the conjunction along the axis whenever there are at least two entries along it (with a single one it reads outside the array).", "quantifier": "all non-empty integer matrices, both axes", "why_tests_cant": "all matrices", "anchors": ["convst/utils/numba_utils.py:nb_unique", "convst/utils/numba_utils.py:np_all"]}
{"id": "C55", "title": "Stratified resampling is a partition", "statement": "_resample returns a train and test set whose union is a permutation of the original (series, label) pairs, with exactly the original number of instances of each class in train and in test, for every shuffle; its final assertions never fail; it raises exactly when train and test classes differ.", "quantifier": "all datasets and shuffles", "why_tests_cant": "all shuffles", "anchors": ["convst/utils/experiments_utils.py:_resample"]}
{"id": "C56", "title": "Cross-validation index recovery", "statement": "The cross-validation splitter maps each resampled series back to the position of the first series having some channel equal to the corresponding channel; this recovers the series when no two series share a channel, and can return a wrong series or the same position for train and test otherwise (violated).", "quantifier": "all datasets", "why_tests_cant": "all datasets with duplicates", "anchors": ["convst/utils/experiments_utils.py:_sklearn_cv.split"]}
{"id": "C57", "title": "z-normalisation", "statement": "z-normalising a series gives mean 0 and standard deviation s/(s+1e-8) in [0,1), a constant series gives zeros, lengths are preserved, and dataset-level functions act on each channel separately.", "quantifier": "all series in exact arithmetic", "why_tests_cant": "all reals", "anchors": ["convst/utils/dataset_utils.py:z_norm_3D", "convst/transformers/_input_transformers.py:z_norm_all_samples", "convst/utils/dataset_utils.py:z_norm_3D_list"]}
{"id": "C58", "title": "Holm correction", "statement": "The pairwise comparison marks exactly the longest prefix of the ascending p-values with p_i <= alpha/(k-i) as significant; so significance is downward closed in p, every p <= alpha/k is significant, and increasing alpha never removes significance.", "quantifier": "all p-value lists and alpha", "why_tests_cant": "all lists", "anchors": ["convst/utils/plot_utils.py:_wilcoxon_holm"]}
{"id": "C59", "title": "Win/draw/loss counts partition the datasets", "statement": "For margin >= 0 the win, draw and loss counts displayed sum to the number of datasets, each dataset counting exactly once; for negative margin this fails.", "quantifier": "all score vectors and margins in exact arithmetic", "why_tests_cant": "all reals", "anchors": ["convst/utils/plot_utils.py:pairwise_plot"]}
{"id": "C60", "title": "Average ranks", "statement": "The average ranks of m classifiers over any number of datasets sum to m(m+1)/2 and each lies in [1, m], with ties sharing the mean rank.", "quantifier": "all score tables", "why_tests_cant": "all ties", "anchors": ["convst/utils/plot_utils.py:_wilcoxon_holm"]}
{"id": "C61", "title": "Derivate", "statement": "Derivate(order=k) shortens every series by k, is linear, ignores polynomials of degree < k (constant offsets for k=1), and for k=1 the series is recovered from its first value and the cumulative sum.", "quantifier": "all series and orders", "why_tests_cant": "all series", "anchors": ["convst/transformers/_input_transformers.py:Derivate"]}
{"id": "C62", "title": "Input validation", "statement": "check_array_3D/2D/1D return the input unchanged exactly when it has the right number of dimensions, no empty dimension and (3D) more than two timestamps (and one channel when required), and otherwise raise ValueError.", "quantifier": "all shapes", "why_tests_cant": "all shapes", "anchors": ["convst/utils/checks_utils.py:check_array_3D", "convst/utils/checks_utils.py:check_array_2D", "convst/utils/checks_utils.py:check_array_1D"]}
{"id": "C63", "title": "Interpreters on unsupported models", "statement": "The interpreter of a multivariate transformer raises (ValueError from unpacking instead of the intended NotImplementedError) for every shapelet id, and the ensemble interpreter cannot be constructed from any fitted ensemble because it requires an attribute that ensembles never have (violated).", "quantifier": "all fitted models", "why_tests_cant": "all models", "anchors": ["convst/interpreters/rdst_interpreter.py:RDST_interpreter._get_params", "convst/interpreters/rdst_interpreter.py:RDST_Ensemble_interpreter.__init__"]}
{"id": "C64", "title": "Best match shown by the interpreter", "statement": "The positions highlighted by plot_on_X are exactly the time points of the first best-matching window, all inside the series; for a normalised shapelet read from that very window the rescaled values differ from the series by at most |x_j-mean|*1e-8/(std+1e-8).", "quantifier": "all series and shapelets", "why_tests_cant": "all series", "anchors": ["convst/interpreters/rdst_interpreter.py:Shapelet.plot_on_X"]}
{"id": "C65", "title": "Dataset loader minimum length", "statement": "The min_len returned by the loader is the least length over train and test series; passing it to R_DST makes fit on train and transform on test free of length errors.", "quantifier": "all variable-length datasets", "why_tests_cant": "all datasets", "anchors": ["convst/utils/dataset_utils.py:load_UCR_UEA_dataset_split"]}
{"id": "C66", "title": "Statistical comparison does not depend on row order (violated)", "statement": "The p-values pair the scores of two classifiers by row order of the table, not by dataset name, so permuting the rows of one classifier can change them, while the average ranks do not change; they agree when each classifier's rows are in the same dataset order.", "quantifier": "all tables and row permutations", "why_tests_cant": "all permutations", "anchors": ["convst/utils/plot_utils.py:_wilcoxon_holm"]}
{"id": "C67", "title": "Ensemble with labels that are not class indices (violated)", "statement": "When no training label is a class index 0..n_classes-1, R_DST_Ensemble.fit gives every member the weight 0 (for a_w > 0), and predict then returns 0 for every series, whatever the members learned.", "quantifier": "all training sets with such labels, all members, all test series, all a_w > 0", "why_tests_cant": "all label sets and inputs", "anchors": ["convst/classifiers/rdst_ensemble.py:_internalRidgeCV.get_loocv_train_acc", "convst/classifiers/rdst_ensemble.py:R_DST_Ensemble"]}
{"id": "C68", "title": "A failed refit of R_DST_Ridge keeps the fitted classifier (violated)", "statement": "If fit raises on an R_DST_Ridge that was fitted before, every later predict raises, for every input: the classifier fitted before is lost.", "quantifier": "all fitted classifiers, all failing fits, all later inputs", "why_tests_cant": "all histories ending in a failed fit", "anchors": ["convst/classifiers/rdst_ridge.py:R_DST_Ridge.fit"]}
{"id": "C69", "title": "R_DST_Ridge refit is from scratch", "statement": "With an integer random_state and n_samples=None, fitting an R_DST_Ridge after any sequence of fits, failed or not, gives the same outcome, transformer and classifier as fitting a new one.", "quantifier": "all histories of fits, all data", "why_tests_cant": "all histories", "anchors": ["convst/classifiers/rdst_ridge.py:R_DST_Ridge.fit"]}
{"id": "C70", "title": "Distance features separate unrelated series", "statement": "Without z-normalisation (proba_norm <= 0) the distance feature of a fitted shapelet is 0 on the series it was taken from and positive on every series sharing no value with that series.", "quantifier": "all training sets, parameters, generator outcomes, test series", "why_tests_cant": "all inputs and random draws", "anchors": ["convst/transformers/rdst.py:R_DST.fit", "convst/transformers/rdst.py:R_DST.transform"]}
{"id": "C71", "title": "The interpreter shows the class it is asked for", "statement": "visualize_best_shapelets_one_class(X, y, class_id) selects the shapelets by the coefficients of the class whose label is class_id and contrasts the series labelled class_id with the others. It holds when the labels of the classifier are 0..k-1; for other integer labels class_id is read as a position among the classes when selecting shapelets and as a label when selecting series, so the figures mix two classes or the call raises IndexError.", "quantifier": "every fitted univariate ridge classifier with integer labels, every class_id", "why_tests_cant": "tests use labels encoded as 0..k-1, for which position and label coincide", "anchors": ["convst/interpreters/rdst_interpreter.py:RDST_Ridge_interpreter._get_shp_importance", "convst/interpreters/rdst_interpreter.py:RDST_Ridge_interpreter.visualize_best_shapelets_one_class"]}
{"id": "C72", "title": "Cross-validation folds are independent", "statement": "Cross-validating one R_DST_Ridge object with an integer random_state and n_samples=None gives, fold by fold, the score (or exception) a new never-fitted object would give on that fold, although the same object is refitted.", "quantifier": "all datasets, splits, scorers, numbers of folds and process states", "why_tests_cant": "all histories of refits", "anchors": ["convst/utils/experiments_utils.py:cross_validate_UCR_UEA.score", "convst/classifiers/rdst_ridge.py:R_DST_Ridge.fit"]}
{"id": "C73", "title": "Pairwise plot layout and content", "statement": "For at least one competitor and max_ncols >= 1, pairwise_plot draws one panel per other column, in name order, at distinct places, at most max_ncols per row; each panel shows the competitor's scores against the baseline's, the win/draw/loss counts and the names of exactly the datasets whose scores differ by more than show_names_above. Violated for max_ncols=1 with several competitors (IndexError); without competitors or with max_ncols <= 0 it raises.", "quantifier": "all tables, baselines, margins, thresholds and max_ncols", "why_tests_cant": "all table shapes, the failing corner depends on the number of competitors", "anchors": ["convst/utils/plot_utils.py:pairwise_plot"]}
{"id": "C74", "title": "Bars of the critical difference diagram", "statement": "In a critical difference diagram the ends of each bar are two classifiers not found different, and any two classifiers not found different are under a common bar. The converse (classifiers under a common bar were not found different) holds when non-significance is convex in the rank order, and is violated in general: a bar also covers every classifier ranked between.", "quantifier": "all tables, tests, alphas and clique enumerations", "why_tests_cant": "all graphs of non-significant pairs", "anchors": ["convst/utils/plot_utils.py:draw_cd_diagram", "convst/utils/plot_utils.py:_form_cliques", "convst/utils/plot_utils.py:_graph_ranks"]}
{"id": "C75", "title": "Axis of the critical difference diagram", "statement": "The axis of the diagram of k classifiers goes from 1 to k, every classifier is marked at the place of its average rank inside the axis, and a better rank is further right.", "quantifier": "all tables, widths and tests", "why_tests_cant": "all rank vectors", "anchors": ["convst/utils/plot_utils.py:_graph_ranks"]}
{"id": "C76", "title": "Labels of the critical difference diagram", "statement": "Every compared classifier has exactly one label, no two labels are at the same side and height, the connecting lines of a side do not cross, and the labels are within the figure height exactly for an even number <= 16 or an odd number <= 11 of classifiers (so not always).", "quantifier": "all tables, widths and tests", "why_tests_cant": "all numbers of classifiers", "anchors": ["convst/utils/plot_utils.py:_graph_ranks"]}
{"id": "C77", "title": "Saving of the critical difference diagram", "statement": "For at least three compared classifiers run on the same datasets draw_cd_diagram succeeds. Without a path it saves cd-diagram.png; with a path it saves nothing (violated: a user who passes a path expects the file there).", "quantifier": "all tables, tests, paths", "why_tests_cant": "all tables", "anchors": ["convst/utils/plot_utils.py:draw_cd_diagram"]}
{"id": "C78", "title": "Repeated fits of one R_DST object", "statement": "R_DST turns an integer random_state into a stateful generator in its constructor, so after k successful fits, on whatever data, the next fit starts from the (k+1)-st seed of that generator. Hence fitting the same object twice on the same data can give two different sets of shapelets although random_state is an integer (violated: a user expects fit with a fixed random_state to be repeatable).", "quantifier": "all objects with a generator of their own, all histories of successful fits", "why_tests_cant": "all histories of fits, all data", "anchors": ["convst/transformers/rdst.py:R_DST.__init__", "convst/transformers/rdst.py:R_DST._check_params"]}
{"id": "C79", "title": "Exactly which sets of shapelets fit can return", "statement": "The lists of shapelets fit can return are exactly those the sampling rules allow: lengths among the requested ones, dilations and flags that may be drawn, each shapelet in turn read from any position not too close to earlier ones (discarded only if there is none), with any distinct channels and any threshold between the two percentiles of its distances to another sample of the class. Every outcome, for every schedule, is allowed, and every allowed outcome occurs for some random draws; no admissible position, channel set, test sample or threshold is excluded.", "quantifier": "all training sets, options, random outcomes and schedules; all allowed lists of shapelets", "why_tests_cant": "existence of draws for every allowed outcome, for all data", "anchors": ["convst/transformers/_univariate_same_length.py:U_SL_generate_shapelet", "convst/transformers/_univariate_variable_length.py:U_VL_generate_shapelet", "convst/transformers/_multivariate_same_length.py:M_SL_generate_shapelet", "convst/transformers/_multivariate_variable_length.py:M_VL_generate_shapelet"]}
{"id": "C80", "title": "Cloning R_DST", "statement": "scikit-learn's clone of an R_DST object always raises, for every value of its parameters, fitted or not, because the constructor stores the string returned by transform_type.lower() and not the string it is given; an object just built is refused with RuntimeError, one whose transform_type is 'univariate_variable' with ValueError. Hence no pipeline with an R_DST step can be cloned, i.e. used in GridSearchCV or cross_validate (violated: a user expects a scikit-learn transformer to be clonable).", "quantifier": "all R_DST objects (any attributes), all pipelines with such a step", "why_tests_cant": "all parameter values and all states of the object", "anchors": ["convst/transformers/rdst.py:R_DST.__init__", "convst/transformers/rdst.py:R_DST._validate_transform_type"]}
{"id": "C81", "title": "Cloning the classifiers", "statement": "Every R_DST_Ridge and every R_DST_Ensemble object that the constructor accepts can be cloned, any number of times; the clone has the same arguments: immutable ones are the very same objects, arrays, lists, generators and input transformers are equal but share nothing with the original, and the clone has as many input transformers as the original.", "quantifier": "all accepted constructor arguments", "why_tests_cant": "all combinations of argument values and types", "anchors": ["convst/classifiers/rdst_ridge.py:R_DST_Ridge.__init__", "convst/classifiers/rdst_ensemble.py:R_DST_Ensemble.__init__"]}
{"id": "C82", "title": "Random state of clones", "statement": "All clones of one R_DST_Ensemble start from the same generator state, each in a generator of its own, whatever random_state is; in particular with random_state=None the original follows NumPy's process-wide generator but a clone holds a private copy of its state, so that clones repeat each other. A clone of R_DST_Ridge keeps random_state itself: None stays None and an integer stays the same integer.", "quantifier": "all accepted constructor arguments, all sequences of clones", "why_tests_cant": "all arguments and object histories", "anchors": ["convst/classifiers/rdst_ridge.py:R_DST_Ridge.__init__", "convst/classifiers/rdst_ensemble.py:R_DST_Ensemble.__init__"]}
{"id": "C83", "title": "Class labels are only names", "statement": "Renaming the class labels in any injective way changes nothing that fit does: R_DST.fit on the renamed labels leaves the same object (the same shapelets), consumes the same random numbers and raises the same exceptions. With n_samples set this also needs the stratified resampling to return the same indices for the renamed labels.", "quantifier": "all training sets, label types, injective renamings, options, seeds and execution orders", "why_tests_cant": "all label types and renamings", "anchors": ["convst/transformers/rdst.py:R_DST.fit", "convst/transformers/_univariate_same_length.py:U_SL_generate_shapelet", "convst/transformers/_univariate_variable_length.py:U_VL_generate_shapelet", "convst/transformers/_multivariate_same_length.py:M_SL_generate_shapelet", "convst/transformers/_multivariate_variable_length.py:M_VL_generate_shapelet"]}
{"id": "C84", "title": "Change of units", "statement": "If every measurement v of the training set and of the batch is replaced by c*v+b, then, with the same random_state, R_DST.fit samples the same shapelets expressed in the new units and R_DST.transform gives the same matrix with every distance column multiplied by |c| and with unchanged position and occurrence columns. This holds when |c|=1 (an offset, a change of sign) and, for any c different from 0, when no shapelet is normalised. In the univariate transform a non-zero offset b additionally needs every shapelet to be normalised, because fit drops shapelets that are identically zero: on series equal to 1, subtracting 1 makes fit return no shapelet at all.", "quantifier": "all datasets, numbers c and b, parameters, seeds and execution orders (exact arithmetic)", "why_tests_cant": "all data, scales and offsets", "anchors": ["convst/transformers/rdst.py:R_DST.fit", "convst/transformers/rdst.py:R_DST.transform", "convst/transformers/_commons.py:get_subsequence", "convst/transformers/_univariate_same_length.py:U_SL_generate_shapelet", "convst/transformers/_univariate_variable_length.py:U_VL_generate_shapelet", "convst/transformers/_multivariate_same_length.py:M_SL_generate_shapelet", "convst/transformers/_multivariate_variable_length.py:M_VL_generate_shapelet"]}
{"id": "C85", "title": "Predictions do not depend on the units", "statement": "If every measurement v of the training set and of the batch is replaced by c*v+b, then, with the same random_state and under the conditions of C84 (|c|=1, or c different from 0 and no shapelet normalised; in the univariate transform a non-zero b needs every shapelet normalised), R_DST_Ridge.fit ends in the same way (success or the same exception, same use of the process-wide random state), R_DST_Ridge.predict returns exactly the same labels and R_DST_Ridge.score the same accuracy.", "quantifier": "all datasets, batches, numbers c and b, parameters, seeds, ridge learners and execution orders (exact arithmetic)", "why_tests_cant": "all data, scales, offsets and learners", "anchors": ["convst/classifiers/rdst_ridge.py:R_DST_Ridge.fit", "convst/classifiers/rdst_ridge.py:R_DST_Ridge.predict", "convst/classifiers/rdst_ridge.py:R_DST_Ridge.score", "convst/transformers/_input_transformers.py:c_StandardScaler", "convst/transformers/rdst.py:R_DST.fit"]}
{"id": "C86", "title": "Use before fit and after a failed fit", "statement": "Until a call of fit has succeeded, R_DST.transform and R_DST_Ensemble.predict raise NotFittedError for every input, whatever number of fits raised; so do predict and score of an R_DST_Ridge that was never fitted, or whose transformer could not be fitted. A fit that raises on an R_DST or an R_DST_Ensemble changes no later transform or prediction, whatever happened before (R_DST_Ridge behaves differently, see C68).", "quantifier": "all parameters, inputs and histories of fit calls", "why_tests_cant": "all histories of successful and failed calls and all inputs", "anchors": ["convst/transformers/rdst.py:R_DST.fit", "convst/transformers/rdst.py:R_DST.transform", "convst/classifiers/rdst_ridge.py:R_DST_Ridge.predict", "convst/classifiers/rdst_ensemble.py:R_DST_Ensemble.predict"]}
{"id": "C87", "title": "RandomState instance given to R_DST_Ridge", "statement": "With a RandomState instance as random_state, every successful R_DST_Ridge.fit advances the caller's generator by exactly one draw: after k successful fits on whatever data the generator is k draws further, and the next fit starts from the (k+1)-st seed, giving the same transformer, classifier and predictions as a new classifier given the advanced generator (with an integer random_state a refit repeats the first one, see C69).", "quantifier": "all data, parameters, generators and numbers of fits", "why_tests_cant": "all numbers of fits on all data", "anchors": ["convst/classifiers/rdst_ridge.py:R_DST_Ridge.fit", "convst/classifiers/rdst_ridge.py:R_DST_Ridge._init_components", "convst/transformers/rdst.py:R_DST._check_params"]}
{"id": "C88", "title": "Loading a whole dataset (violated for uneven lengths)", "statement": "load_UCR_UEA_dataset returns the training series followed by the test series, each with the code of its own label (its rank among the sorted training labels), when all series have the same shape. When two series of the dataset differ in length it raises ValueError, although load_UCR_UEA_dataset_split loads that dataset.", "quantifier": "all datasets, labels and values of normalize", "why_tests_cant": "all datasets", "anchors": ["convst/utils/dataset_utils.py:load_UCR_UEA_dataset", "convst/utils/dataset_utils.py:load_UCR_UEA_dataset_split"]}
{"id": "C89", "title": "Small changes of the data", "statement": "If every value of a batch changes by at most e, then for every fitted R_DST transform changes each distance feature by at most (number of channels of the shapelet) x (its length) x e, or for a z-normalised shapelet three times that divided by s + 1e-8, s being the least standard deviation of the windows compared. The position feature does not change if all other windows are farther by more than twice that amount, and the number of occurrences does not change if no distance is that close to the threshold; without this condition arbitrarily small changes can change the number of occurrences.", "quantifier": "all training data, parameters, schedules, batches and perturbations, real arithmetic", "why_tests_cant": "all data and all perturbations", "anchors": ["convst/transformers/rdst.py:R_DST.transform", "convst/transformers/_univariate_same_length.py:U_SL_apply_all_shapelets", "convst/transformers/_commons.py:apply_one_shapelet_one_sample_multivariate"]}
{"id": "C90", "title": "Longer recordings", "statement": "Without phase invariance, when points are added before and after a series the distance feature of every shapelet can only decrease and the number of occurrences can only increase, by at most the number of points added; when the distance stays the same and points were only appended the position stays the same too, and when it decreases the position is that of a new window. With phase invariance a longer series can be farther from a shapelet.", "quantifier": "all training data, parameters, schedules, series and numbers of points added, real arithmetic", "why_tests_cant": "all series and extensions", "anchors": ["convst/transformers/rdst.py:R_DST.transform", "convst/transformers/_univariate_variable_length.py:U_VL_apply_all_shapelets", "convst/transformers/_multivariate_variable_length.py:M_VL_apply_all_shapelets"]}
{"id": "C91", "title": "Random input transformers of an ensemble", "statement": "With random=True an input transformer of R_DST_Ensemble takes, at every fit, an order from 1 to 4 (Derivate) or one of the listed windows (Periodigram), every one of which can occur, and the other transformers never change. When the transformer objects are distinct every member predicts with the representation it was fitted on. Violated: the draws come from NumPy's global generator, whatever random_state is; when one object is listed several times, earlier members predict with a representation they were not fitted on; a fit that fails changes the transformers of the ensemble fitted before.", "quantifier": "all transformers, ensembles, lists of transformer objects (with or without repetition), global generator states, member orders, inputs", "why_tests_cant": "all draws and all sharing patterns of objects", "anchors": ["convst/transformers/_input_transformers.py:Derivate", "convst/transformers/_input_transformers.py:Periodigram", "convst/classifiers/rdst_ensemble.py:R_DST_Ensemble.fit", "convst/classifiers/rdst_ensemble.py:R_DST_Ensemble.predict"]}
{"id": "C92", "title": "Series of different lengths and the ensemble (violated)", "statement": "R_DST_Ensemble announces support for variable lengths. With Raw as only input transformer fit and predict work on lists of series of different lengths (usable parameters). Violated: with the default transformers, or any selection with a Periodigram, fit and predict raise on every list of series and every object array, whatever the lengths and the order of the members; with a Derivate they raise on series of different lengths; on an object array of series of one shape Derivate subtracts consecutive series instead of consecutive points.", "quantifier": "all lists and object arrays of series, ensembles, member orders, schedules, random outcomes", "why_tests_cant": "all inputs and parameters", "anchors": ["convst/classifiers/rdst_ensemble.py:R_DST_Ensemble", "convst/transformers/_input_transformers.py:Periodigram.transform", "convst/transformers/_input_transformers.py:Derivate.transform"]}
{"id": "C93", "title": "FastHankelTransform", "statement": "FastHankelTransform replaces every channel of every series of a 3D array by its Hankel transform, keeps the shape and rejects lists; with use_optimal_offset the parameter offset has no influence. Violated: the optimal offset is computed for order dln and bias 0, starting from the value of bias, instead of for order mu and bias bias, so that it is low-ringing for the transform computed only if the phases of the two kernels differ by an integer number of half-turns (mu = dln and bias = 0, for instance), and it is not for the default parameters.", "quantifier": "all arrays and parameters; any phase function for the first part, real arithmetic", "why_tests_cant": "all parameters", "anchors": ["convst/transformers/_input_transformers.py:FastHankelTransform"]}
{"id": "C94", "title": "Grid searches give the scores of cross-validations", "statement": "grid_search_UCR_UEA over the parameters of R_DST_Ridge, with an integer random_state and n_samples=None, on a dataset in which no two series have a common channel: the row of a candidate in the returned table holds the scores that cross_validate_UCR_UEA gives to a classifier with these parameters, fold by fold, whatever the other candidates are and whatever the processes that compute them; the search returns as soon as one fit and the final refit succeed, and raises ValueError when every fit fails. Violated: on a dataset in which a series occurs twice the scores can differ (a classifier with score 0 gets score 1), on a dataset with series of different lengths the search raises ValueError, and on a pipeline with an R_DST step it never returns.", "quantifier": "all datasets, candidates, numbers of folds, shuffles and process states; real data", "why_tests_cant": "every dataset and every grid; the two functions are run separately in practice", "anchors": ["convst/utils/experiments_utils.py:grid_search_UCR_UEA", "convst/utils/experiments_utils.py:_sklearn_cv", "convst/utils/experiments_utils.py:cross_validate_UCR_UEA"]}
{"id": "C95", "title": "Rounding and summation order change features by a known relative error only", "statement": "transform computed in an arithmetic in which every operation is rounded with relative error u (float64: u = 2^-53), compared with the same fitted object computing exactly: it succeeds or raises the same error on the same inputs, and for every shapelet compared with the raw (non-normalised) series the distance feature has relative error at most \u03b3, is zero exactly when the exact one is, the position is that of a distance which is the least up to these errors (the exact position when the least distance is separated from the others by more than the error), and the number of occurrences is the exact one when no distance is within the error of the threshold. \u03b3 is about 2(length + channels + 1)u, below 2^-32 for float64 and a million values. The same holds when the sums of a distance are reassociated or vectorised in any way, as fastmath allows.", "quantifier": "all rounding functions (monotone, with relative error u), shapelets, series, summation orders, phase settings; no overflow or underflow", "why_tests_cant": "every float input and every summation order a compiler may choose", "anchors": ["convst/transformers/_univariate_same_length.py:U_SL_apply_all_shapelets", "convst/transformers/_multivariate_same_length.py:M_SL_apply_all_shapelets", "convst/transformers/_univariate_variable_length.py:U_VL_apply_all_shapelets", "convst/transformers/_multivariate_variable_length.py:M_VL_apply_all_shapelets", "convst/transformers/_commons.py:compute_shapelet_dist_vector"]}
{"id": "C96", "title": "Rounding of z-normalised windows costs an error proportional to amplitude over deviation", "statement": "transform computed in an arithmetic in which every operation is rounded with relative error u, compared with the same fitted object computing exactly: it succeeds or raises the same error on the same inputs, and for every normalised shapelet each distance v is computed with an error of at most g v + (1+g)\u00b7channels\u00b7length\u00b7g\u00b7(1 + 2B/(\u03c3 + 1e-8)), where g is about 2(length + channels + 9)u, B bounds the absolute values of the series and \u03c3 the standard deviations of its windows from below; the distance feature has that error, the position and the number of occurrences are the exact ones when distances are separated from each other and from the threshold by more than it. The sums in the mean, the deviation and the distance may be reassociated in any way. For float64, shapelets below 1000 values, |x| \u2264 100 and deviations \u2265 0.1 the error is below 1e-12 v + 1e-5 per channel; windows with a small deviation compared with their values have no such guarantee.", "quantifier": "all rounding functions (monotone, with relative error u), shapelets, series, summation orders, phase settings; no overflow or underflow", "why_tests_cant": "every float input and every summation order a compiler may choose", "anchors": ["convst/transformers/_univariate_same_length.py:U_SL_apply_all_shapelets", "convst/transformers/_multivariate_same_length.py:M_SL_apply_all_shapelets", "convst/transformers/_univariate_variable_length.py:U_VL_apply_all_shapelets", "convst/transformers/_multivariate_variable_length.py:M_VL_apply_all_shapelets", "convst/transformers/_commons.py:get_subsequence"]}
{"id": "C97", "title": "Interrupted benchmarks can be resumed without losing or mixing up results", "statement": "The benchmark script (one row for each dataset and model, the file rewritten after each row): after a run without resume and any number of runs with resume, each killed at any point between two writes, the file has one row for each pair, every row is the initial one or the result of its own dataset and model; rows with an accuracy other than 0 are never lost, changed or computed again; a resumed run whose evaluations succeed reaches its end and leaves a complete table, and when evaluations are reproducible it is the table of an uninterrupted run. Violated: a dataset on which a model raises blocks all later rows however often the script is resumed; a kill during the write of the file makes every later resumed run fail; resuming with other models or datasets evaluates nothing and leaves the results of the old ones.", "quantifier": "all grids, evaluation outcomes, numbers of runs and kill points", "why_tests_cant": "every sequence of kill points and failures", "anchors": ["PaperScripts/test_models.py"]}
{"id": "C98", "title": "What the constructor of R_DST accepts, stores and changes", "statement": "R_DST(..) succeeds exactly when transform_type is, in any case, one of auto, univariate, multivariate, multivariate_variable, shapelet_lengths is not empty, shapelet_lengths_bounds is None or has two elements, lengths_bounds_reduction < 1, percentiles has at least two elements with the first not above the second, and n_jobs is a boolean or asks for between 1 and the available number of threads. The object then carries every argument, and the process-wide thread count is the one asked for (unchanged for a boolean). Otherwise it raises and leaves the process unchanged. Percentiles after the second are ignored. Violated: a single percentile raises IndexError instead of ValueError, and percentiles outside [0, 100] are accepted although every computation of a threshold then raises.", "quantifier": "all arguments of the right types and process states", "why_tests_cant": "all combinations of arguments", "anchors": ["convst/transformers/rdst.py:R_DST.__init__", "convst/transformers/rdst.py:R_DST._validate_percentiles", "convst/transformers/rdst.py:R_DST._validate_transform_type"]}
{"id": "C99", "title": "Parameters of the ensemble reach its members", "statement": "R_DST_Ensemble(..) succeeds exactly when shapelet_lengths and proba_norm are not empty and there are as many probabilities as input transformers (three when none are given), and otherwise raises ValueError. After a successful fit member i uses the i-th input transformer, the i-th probability of normalisation and the other parameters of the ensemble. Violated: normalize_output has no effect on fit or predict, and wrong values of the parameters of R_DST are accepted by the constructor and found by fit, after it has changed the thread count of the process.", "quantifier": "all arguments, training sets, schedules and process states", "why_tests_cant": "all combinations of arguments and schedules", "anchors": ["convst/classifiers/rdst_ensemble.py:R_DST_Ensemble.__init__", "convst/classifiers/rdst_ensemble.py:R_DST_Ensemble.fit"]}
{"id": "C100", "title": "fit in floating-point arithmetic", "statement": "With usable parameters, R_DST.fit computed in rounded arithmetic succeeds on every well-formed training set of fewer than N points: no array is indexed outside its bounds, the result is the same for every schedule of the parallel loops, every shapelet has an offered length, a dilation for which it fits, and values that are exactly a window of a training series (normalised when flagged), and a threshold computed from the two percentiles of its distances to a training series of the same class and a number drawn in [0, 1); transform then succeeds on every set of series long enough and gives the specified rows of three columns per shapelet. N = 2^40 for double precision with correctly rounded log2 and 2**x. Violated: percentile bounds between 100 - 10^-12 and 100 can make numba's percentile read past the end of the distances.", "quantifier": "all roundings with the stated accuracy, all training sets, labels, parameters, seeds and schedules", "why_tests_cant": "rounding errors in log2 and powers can exceed a bound for one seed and length only; all schedules", "anchors": ["convst/transformers/_univariate_same_length.py:U_SL_generate_shapelet", "convst/transformers/_univariate_variable_length.py:U_VL_generate_shapelet", "convst/transformers/_multivariate_same_length.py:M_SL_generate_shapelet", "convst/transformers/_multivariate_variable_length.py:M_VL_generate_shapelet", "convst/transformers/rdst.py:R_DST.fit"]}
{"id": "C101", "title": "Order of the training samples and of the channels", "statement": "The order in which the training samples are given to fit carries no information: every list of shapelets (lengths, dilations, flags, values, thresholds, channels) that fit can return for one order of the labelled series can be returned for every other order, and likewise for another order of the channels up to their numbers.", "quantifier": "all training sets, labels, reorderings of samples and channels, parameters, random outcomes and schedules, the four variants of the generator", "why_tests_cant": "ranges over all reorderings and all random outcomes; for one seed the two orders give different shapelets, so single runs cannot be compared", "anchors": ["convst/transformers/_univariate_same_length.py:U_SL_generate_shapelet", "convst/transformers/_univariate_variable_length.py:U_VL_generate_shapelet", "convst/transformers/_multivariate_same_length.py:M_SL_generate_shapelet", "convst/transformers/_multivariate_variable_length.py:M_VL_generate_shapelet"]}
{"id": "C102", "title": "Probability of every outcome of fit", "statement": "When the draws of the generators are uniform and independent, the shapelets returned by fit have exactly the distribution the method announces: lengths uniform over the given lengths, dilations and flags by their schemes, number of channels and channels uniform, position uniform among the positions still admissible (series of equal length) or uniform in a series which is uniform among those with an admissible position (series of different lengths), threshold uniform between the two percentiles of the distances to a series drawn uniformly among the others of the class.", "quantifier": "all training sets, parameters, sources, thresholds and schedules, every ideal generator, the four variants of the generator", "why_tests_cant": "a probability is a statement about all random outcomes; a statistical test of a sampler cannot separate close distributions nor cover all training sets", "anchors": ["convst/transformers/_univariate_same_length.py:U_SL_generate_shapelet", "convst/transformers/_univariate_variable_length.py:U_VL_generate_shapelet", "convst/transformers/_multivariate_same_length.py:M_SL_generate_shapelet", "convst/transformers/_multivariate_variable_length.py:M_VL_generate_shapelet"]}
{"id": "C103", "title": "Parameters of the shapelets are independent of the data", "statement": "When the draws are uniform and independent, the lengths, dilations, flags and numbers of channels of the shapelets drawn by fit are independent from shapelet to shapelet, with the announced probabilities, which depend on the parameters and on the number of points of the (shortest) series only, not on the values of the series nor on the labels.", "quantifier": "all training sets, parameters and values of the parameters drawn, every ideal generator, the four variants of the generator", "why_tests_cant": "a probability ranges over all random outcomes, and independence from the data over all data", "anchors": ["convst/transformers/_univariate_same_length.py:U_SL_generate_shapelet", "convst/transformers/_univariate_variable_length.py:U_VL_generate_shapelet", "convst/transformers/_multivariate_same_length.py:M_SL_generate_shapelet", "convst/transformers/_multivariate_variable_length.py:M_VL_generate_shapelet"]}
{"id": "C104", "title": "Equal lengths against the method for different lengths", "statement": "On series that all have the same length, fit for series of different lengths samples a single shapelet with the same probabilities as fit for series of equal length; from two shapelets on the two samplings are not the same in general (the user may expect that they are: the code has a TODO about it).", "quantifier": "all training sets of equal length, parameters, outcomes and ideal generators", "why_tests_cant": "compares two distributions over all random outcomes", "anchors": ["convst/transformers/_univariate_same_length.py:U_SL_generate_shapelet", "convst/transformers/_univariate_variable_length.py:U_VL_generate_shapelet", "convst/transformers/_multivariate_same_length.py:M_SL_generate_shapelet", "convst/transformers/_multivariate_variable_length.py:M_VL_generate_shapelet"]}
{"id": "C105", "title": "Series with missing values", "statement": "transform accepts series containing NaN. On each series the features of a shapelet are computed from the windows that contain no missing value (in the channels of the shapelet, for multivariate models): least available distance, first position attaining it, number of available distances within the threshold. If the first window contains a missing value, the minimum is NaN and the position 0 whatever follows. Series without missing value get the same features as ever. A shapelet containing NaN gives NaN, 0, 0.", "quantifier": "all fitted models, inputs (arrays and lists), places of missing values, and values they are replaced with", "why_tests_cant": "must hold for every placement of missing values and every shapelet", "anchors": ["convst/transformers/rdst.py:R_DST.transform", "convst/transformers/_commons.py:apply_one_shapelet_one_sample_univariate", "convst/transformers/_commons.py:apply_one_shapelet_one_sample_multivariate", "convst/utils/checks_utils.py:check_array_3D"]}
{"id": "C106", "title": "Repeated values in alphas_ridge", "statement": "The values listed in alphas_ridge only influence R_DST_Ensemble through the classifiers chosen from them: when they are all different, fit succeeds whenever its members can be fitted and the weights are powers of the leave-one-out accuracies of the chosen values. (Violated when the value chosen by a member is listed twice: fit raises ValueError after fitting all members, a new object stays unfitted, and a previously fitted one predicts with the new members and the old weights.)", "quantifier": "all ensembles, inputs, labels, generators, orders of the members, lists of values and chosen values", "why_tests_cant": "depends on which value is chosen for every data set and member", "anchors": ["convst/classifiers/rdst_ensemble.py:_internalRidgeCV.get_loocv_train_acc", "convst/classifiers/rdst_ensemble.py:R_DST_Ensemble.fit", "convst/classifiers/rdst_ensemble.py:R_DST_Ensemble.predict"]}
{"id": "C107", "title": "Training series with missing values", "statement": "R_DST.fit accepts training series containing NaN and never reports them: with usable parameters it succeeds, with the same result for every schedule. Every shapelet is a window of a training series and contains a missing value exactly when that window does. The threshold of a shapelet is NaN exactly when its window, or some window of the series it was compared with, contains a missing value (in the channels of the shapelet); otherwise it is a number between the two percentiles of the distances. transform then succeeds; the number of occurrences of a shapelet with threshold NaN is 0 on every series, and a shapelet containing a missing value gives NaN, 0, 0 on every series.", "quantifier": "all training sets (arrays and lists) with missing values anywhere, labels, parameters, seeds, schedules, and series transformed", "why_tests_cant": "must hold for every placement of missing values, every random draw and every schedule", "anchors": ["convst/transformers/rdst.py:R_DST.fit", "convst/transformers/_univariate_same_length.py:U_SL_generate_shapelet", "convst/transformers/_multivariate_same_length.py:M_SL_generate_shapelet", "convst/transformers/_univariate_variable_length.py:U_VL_generate_shapelet", "convst/transformers/_multivariate_variable_length.py:M_VL_generate_shapelet", "convst/utils/checks_utils.py:check_array_3D"]}
{"id": "C108", "title": "set_params is the same as constructing with the new values, for the values the constructor stores unchanged", "statement": "set_params stops at the first name that is no constructor argument, raises ValueError and keeps the values stored before. For arguments that the constructor stores as they are (and not n_jobs) an R_DST object, fitted or not, after set_params shows in every sequence of later fit and transform calls what an object constructed with the new values shows once it is fitted; the same for R_DST_Ridge and R_DST_Ensemble. For the other values it does not: a list of lengths or a float number of shapelets makes fit raise, values that the constructor refuses are accepted, a transform_type with an upper-case letter makes fit raise ValueError, an integer random_state makes every later fit repeat the same draws (and every member of the ensemble draw from that seed), n_jobs does not change the number of threads. On a fitted object set_params changes what transform returns only through phase_invariance and transform_type.", "quantifier": "all objects, fitted or not, all lists of arguments and values of set_params, all later sequences of fit and transform calls with all data, seeds, schedules and states of the process", "why_tests_cant": "must hold for every combination of arguments and every later use of the object", "anchors": ["convst/transformers/rdst.py:R_DST.__init__", "convst/transformers/rdst.py:R_DST.fit", "convst/transformers/rdst.py:R_DST.transform", "convst/classifiers/rdst_ridge.py:R_DST_Ridge", "convst/classifiers/rdst_ensemble.py:R_DST_Ensemble"]}
{"id": "C109", "title": "The three minimum-distance functions timed by early_vs_material.py return the same number", "statement": "PaperScripts/early_vs_material.py compares the running times of a plain scan over the windows, a scan that leaves a window as soon as its partial sum exceeds the least distance so far, and the latter with shuffled windows. For every series, every shapelet and every order of the windows the three return the same number: the least of 1e100 and the distances of the windows. They also agree to the last bit in rounded arithmetic, and with missing values (windows that contain one are passed over). For a shapelet of dilation 1 without normalisation and phase invariance this is the minimum that transform writes, if some distance is below 1e100.", "quantifier": "all series, all shapelet values, all permutations of the windows, all idempotent roundings", "why_tests_cant": "must hold for every order of the windows and every input; equality of floating-point results cannot be sampled", "anchors": ["PaperScripts/early_vs_material.py:apply_one_shapelet_one_sample", "PaperScripts/early_vs_material.py:apply_one_shapelet_one_sample_ea", "PaperScripts/early_vs_material.py:apply_one_shapelet_one_sample_ea_random"]}
{"id": "C110", "title": "Infinite values, overflow and underflow in transform", "statement": "With float64 data, the range of the numbers is bounded: values can be infinite and sums can overflow. For a shapelet that is not normalised, transform treats a window with an infinite value, or whose distance overflows, as infinitely far: it is never counted as an occurrence and never the closest, unless there is no other window, in which case the minimum is inf. The other windows are unaffected and underflow loses nothing: when the closest window does not overflow and no value is infinite, transform returns exactly what it would return with an unbounded range, the arithmetic in which C95 bounds the error. Data bounded by a stated magnitude never overflow. For a normalised shapelet a window with an infinite value is passed over like one with a missing value, except that an infinite value in the first window makes the minimum NaN.", "quantifier": "all binary floating-point formats with a bounded range (float64 included), all fitted models, all inputs of every kind, all series with and without infinite values", "why_tests_cant": "must hold for every placement of infinite values and every magnitude of the data, up to the largest float", "anchors": ["convst/transformers/_univariate_same_length.py:U_SL_apply_all_shapelets", "convst/transformers/_multivariate_same_length.py:M_SL_apply_all_shapelets", "convst/transformers/_commons.py:apply_one_shapelet_one_sample_univariate", "convst/transformers/_commons.py:compute_shapelet_dist_vector"]}
{"id": "C111", "title": "transform leaves the caller's arrays and the fitted model unchanged under every interleaving of its memory operations", "statement": "Arrays live in a memory shared by the caller, the fitted model and the threads of the parallel loop. Whenever transform returns a matrix for the input, then for every order in which the threads of the parallel loop perform their individual reads, writes and allocations: no execution goes on for ever, no access is outside an array, no execution is stuck, the final content of the result is that matrix, and at every moment every array that existed before the call (the input series, in whatever memory layout, the shapelet values and thresholds) has its original content; the latter holds for every input, also when transform fails. By contrast the dataset utility z_norm_3D returns the very array it was given, overwritten with the normalised series.", "quantifier": "all initial memories, all memory layouts of the input, all fitted models and inputs of every kind, all interleavings of the memory operations of all threads, all reachable intermediate states", "why_tests_cant": "the number of interleavings of memory operations is astronomic, and a data race or a write through a view may show only in rare schedules", "anchors": ["convst/transformers/_univariate_same_length.py:U_SL_apply_all_shapelets", "convst/transformers/_univariate_variable_length.py:U_VL_apply_all_shapelets", "convst/transformers/_multivariate_same_length.py:M_SL_apply_all_shapelets", "convst/transformers/_multivariate_variable_length.py:M_VL_apply_all_shapelets", "convst/transformers/_commons.py:generate_strides_1D", "convst/utils/dataset_utils.py:z_norm_3D"]}
{"id": "C112", "title": "fit is free of data races: its result does not depend on the interleaving of its threads' memory operations", "statement": "The threads of the parallel loops of fit share the result arrays (values, thresholds, channel numbers, flags) and the mask of the subsequences already drawn. However the iterations are divided between threads, and in whatever order the threads perform their individual reads and writes: the call ends, no thread fails or accesses an element outside of an array, no execution is stuck, the caller's arrays have their original content at every moment, and the shapelets returned are the same in all interleavings; they are those of a sequential execution of the loop in which the random generator of a thread passes from one of its iterations to the next (the first iteration starts with the state the thread had on entering the loop, every later one with the state the iteration before it left). Every shapelet is a window of a training series. This holds for all four kinds of input, with missing values and in rounded arithmetic.", "quantifier": "all initial memories and memory layouts of the series, all usable parameters, all divisions of the iterations between threads, all generator states, all interleavings of single memory operations, all reachable intermediate states", "why_tests_cant": "the interleavings are too many to enumerate, and a data race shows only in rare schedules", "anchors": ["convst/transformers/_univariate_same_length.py:U_SL_generate_shapelet", "convst/transformers/_univariate_variable_length.py:U_VL_generate_shapelet", "convst/transformers/_multivariate_same_length.py:M_SL_generate_shapelet", "convst/transformers/_multivariate_variable_length.py:M_VL_generate_shapelet"]}
{"id": "C113", "title": "fit never fails because of infinite, missing, huge or tiny training values, and shapelets with values that are not finite get the threshold NaN and the same features for every series", "statement": "With usable parameters and series of fewer than 2^40 points, fit in float64 arithmetic (bounded range, overflow to infinities, underflow, NaN) succeeds whatever the training values are, infinities and NaN included, for every state of the random generator and every schedule, with the same result; every shapelet is a window of a training series, with a threshold computed from two percentiles of its distances to a series of the same class. transform then succeeds on every array of compatible shape. A shapelet with the threshold NaN is never counted as occurring. A shapelet taken from a window with an infinite or missing value has the threshold NaN, and gives the same useless features (infinite or NaN, 0, 0) on every series. A shapelet whose threshold is infinite is counted at every window whose distance is not NaN.", "quantifier": "all formats of bounded range satisfying stated accuracy bounds (float64 among them), all training arrays and lists of such numbers including infinities and NaN, all usable parameters, all lawful generators, all schedules, all test series", "why_tests_cant": "overflow, underflow and infinities can appear in any of the sums, ranks, weights and percentiles of fit, for any combination of values, lengths and draws", "anchors": ["convst/transformers/rdst.py:R_DST.fit", "convst/transformers/_univariate_same_length.py:U_SL_generate_shapelet", "convst/transformers/_multivariate_same_length.py:M_SL_generate_shapelet", "convst/transformers/_univariate_variable_length.py:U_VL_generate_shapelet", "convst/transformers/_multivariate_variable_length.py:M_VL_generate_shapelet", "convst/transformers/_commons.py"]}
{"id": "C114", "title": "Asking for no shapelets gives a usable empty transformer, except with prime dilations where fit raises", "statement": "Take any object whose fit succeeds on some data. The same object with n_shapelets = 0: without prime_dilations its fit succeeds on the same data and leaves the same attributes and the same process-wide state, with an empty set of shapelets; transform then returns one empty row per series, for every input it accepts, and accepts arrays and lists of series with any number of channels and at least three points. With prime_dilations its fit raises ValueError, and shapelets of an earlier fit are kept.", "quantifier": "all arithmetics, parameters, training data, random states and schedules for which the fit asked for some shapelets succeeds; all test inputs", "why_tests_cant": "ranges over all parameters, data, types of transformer and random states; the failing branch depends on an unrelated parameter", "anchors": ["convst/transformers/rdst.py:R_DST.fit", "convst/transformers/_univariate_same_length.py:U_SL_init_random_shapelet_params", "convst/transformers/_multivariate_same_length.py:M_SL_init_random_shapelet_params", "convst/transformers/_univariate_same_length.py:U_SL_apply_all_shapelets"]}
{"id": "C115", "title": "Shapelet parameters are independent; an offered length may stay unused and the number of normalised shapelets is binomial", "statement": "With a uniform generator, for each of the four fitting methods: the length, dilation, normalisation flag and number of channels of different shapelets are independent, each shapelet following the law of one shapelet. An offered length l that makes up the fraction w of shapelet_lengths is drawn by none of the n shapelets with probability exactly (1-w)^n, and some offered length is drawn by none with probability at most the sum of these. With at least this probability the fitted shapelets contain none of length l, so no number of shapelets makes the use of every offered length certain. The number of normalised shapelets drawn is binomial with parameters n and proba_norm clipped to [0, 1].", "quantifier": "all training sets, parameters, uniform generators and schedules; all sets of parameters in the independence statement", "why_tests_cant": "a statement about probabilities, for all numbers of shapelets and lists of lengths; the shipped test on length bounds carries a note that it may fail by bad luck", "anchors": ["convst/transformers/_univariate_same_length.py:U_SL_init_random_shapelet_params", "convst/transformers/_multivariate_same_length.py:M_SL_init_random_shapelet_params", "convst/transformers/rdst.py:R_DST.fit", "tests/test_rdst.py:test_length_bounds"]}
{"id": "C116", "title": "The sampling rules of fit hold in floating-point arithmetic, with missing and with infinite values", "statement": "With usable parameters, fit on float64 data (rounded arithmetic; with missing values; with infinite values, overflow and underflow) returns shapelets that follow the sampling rules, whatever the generator and the schedule. Each requested shapelet is read at a position of a training series that is free, or dropped when no free position is left. Two shapelets from the same series with the same dilation and flag, the later one not longer, share at most int(max(1, (1-alpha)*m)) time points as computed, m being an offered length not above any returned length with this dilation (twice as many with phase_invariance); a pair of multivariate shapelets that shares more has few channels in common. The computed limit is between 1 and the length and differs from the exact one by at most two roundings. With prime_dilations every dilation is 1 or prime. Each flag is the outcome of comparing a number drawn in [0, 1) with proba_norm, so proba_norm <= 0 normalises none and proba_norm >= 1 all. With alpha <= 1, at least min(n_shapelets, n_samples) shapelets are returned by the multivariate methods, and by every method when proba_norm <= 0 and the training series contain no zero.", "quantifier": "all training sets, labels, parameters, generators and schedules, in every rounding mode that is accurate enough, and in float64 with infinite and missing values", "why_tests_cant": "the positions depend on random draws and on the rounding of (1-alpha)*m and n*alpha; a test sees some draws in one arithmetic only", "anchors": ["convst/transformers/_univariate_same_length.py:U_SL_generate_shapelet", "convst/transformers/_univariate_variable_length.py:U_VL_generate_shapelet", "convst/transformers/_multivariate_same_length.py:M_SL_generate_shapelet", "convst/transformers/_multivariate_variable_length.py:M_VL_generate_shapelet", "convst/transformers/rdst.py:R_DST.fit"]}
{"id": "C117", "title": "The limited range of float64 does not affect transform on data of moderate magnitude", "statement": "On series of up to 2^40 points whose values are 0 or between 2^-247 and 2^300 in magnitude, with shapelets of up to 2^40 points and channels whose values do not exceed 2^400, normalised or not, transform in double precision returns finite numbers only, and they are the ones computed with the same precision and an unbounded range. In particular normalising a window (mean, deviations, squares, square root, quotient) neither overflows nor underflows, and the features of normalised shapelets have the accuracy stated for unbounded rounded arithmetic: the exact ones up to a relative error and an absolute error of the distances.", "quantifier": "all fitted objects, all kinds of input, all shapelets (normalised or not), all moderate values, every rounding rule for ties", "why_tests_cant": "overflow of a square or underflow of a deviation depends on the magnitudes met in one window of one series; tests use a few magnitudes", "anchors": ["convst/transformers/_commons.py:_compute_shapelet_dist_vector", "convst/transformers/_univariate_same_length.py:U_SL_apply_all_shapelets", "convst/transformers/_univariate_variable_length.py:U_VL_apply_all_shapelets", "convst/transformers/_multivariate_same_length.py:M_SL_apply_all_shapelets", "convst/transformers/_multivariate_variable_length.py:M_VL_apply_all_shapelets", "convst/transformers/rdst.py:R_DST.transform"]}
{"id": "C118", "title": "No NaN and no infinity appears in fit and transform on float64 data of moderate magnitude", "statement": "When the training values are finite numbers that are 0 or between 2^-247 and 2^300 in magnitude, fit in double precision with usable parameters succeeds with the same result for every schedule, all values and all thresholds of the learned shapelets (normalised or not) are finite numbers, and transform then succeeds on every input of such data with the same number of channels and enough points, all cells of the output being finite numbers. A classifier that refuses NaN and infinity therefore never fails after fit_transform on such data.", "quantifier": "all arrays and lists of moderate data, all usable parameters, all generators, all schedules, every rounding rule for ties", "why_tests_cant": "an overflow or 0/0 depends on one window of one series and on the drawn parameters; tests see a few draws", "anchors": ["convst/transformers/rdst.py:R_DST.fit", "convst/transformers/rdst.py:R_DST.transform", "convst/transformers/_univariate_same_length.py:U_SL_generate_shapelet", "convst/transformers/_univariate_variable_length.py:U_VL_generate_shapelet", "convst/transformers/_multivariate_same_length.py:M_SL_generate_shapelet", "convst/transformers/_multivariate_variable_length.py:M_VL_generate_shapelet"]}
{"id": "C119", "title": "Which features the scaler of the classifier keeps in floating-point arithmetic", "statement": "Fitting the scaler of the ridge classifier keeps, in increasing order, the features with a value different from the computed mean of their column, and raises ValueError when there are none. With any rounding every feature that takes two values on the training series is kept; in double precision the features 'position of the best match' and 'number of occurrences' are kept exactly when they take two values (below 2^53 points in total). A constant feature which is not an integer can be kept (three times 0.1), and a feature whose values differ by a tiny amount can be dropped because of underflow.", "quantifier": "all feature matrices, all outputs of transform, all roundings; double precision with every rule for ties", "why_tests_cant": "the exceptions depend on the rounding of one sum; the guarantee is about every matrix", "anchors": ["convst/classifiers/rdst_ridge.py:R_DST_Ridge.fit", "convst/transformers/_input_transformers.py:c_StandardScaler"]}
{"id": "C120", "title": "R_DST_Ridge gives finite numbers only to its linear classifier on float64 data of moderate magnitude", "statement": "Assume that scikit-learn's ridge classifier accepts every matrix of finite numbers. When the training values are 0 or between 2^-247 and 2^300 in magnitude, R_DST_Ridge.fit with usable parameters either succeeds, with the same result for every schedule, or raises ValueError because every feature has standard deviation 0; the scaled features given to the ridge classifier are finite numbers. After a successful fit, predict on every input of such data gives finite numbers to the linear model and returns one of the learned classes for each series.", "quantifier": "all arrays and lists of moderate data, all usable parameters, all generators, all schedules, all ridge learners satisfying the assumption, every rounding rule for ties", "why_tests_cant": "a NaN appears for particular combinations of draws and data only (0/0 in a deviation, overflow of a square)", "anchors": ["convst/classifiers/rdst_ridge.py:R_DST_Ridge.fit", "convst/classifiers/rdst_ridge.py:R_DST_Ridge.predict", "convst/transformers/_input_transformers.py:c_StandardScaler"]}
{"id": "C121", "title": "On digitised data the raw-series features are exact in double precision, whatever the order of the sums", "statement": "When the values of the training series and of the series to transform are integers of at most B steps of size 2^e (as those of an analogue-digital converter), and the number of points times the number of channels times 2B is at most 2^53, then after fit every feature of every shapelet compared with the raw (not normalised) series, as computed by transform in double precision, is exactly the one real arithmetic gives for the same shapelets; the order in which numba's fastmath adds up the terms has no influence.", "quantifier": "all digitised arrays and lists of series, all usable parameters, all generators and schedules, all orders and associations of the sums, every arithmetic with 53 digits", "why_tests_cant": "the order of the additions depends on the vectorisation chosen by the compiler; tests see one order and a few data sets", "anchors": ["convst/transformers/_univariate_same_length.py", "convst/transformers/_multivariate_variable_length.py", "convst/transformers/_commons.py:compute_shapelet_dist_vector", "convst/transformers/rdst.py:R_DST.transform"]}
{"id": "C122", "title": "The vote of the ensemble in double precision: finite, bounded, and faithful to a unanimous clear margin", "statement": "When the members of a fitted R_DST_Ensemble give finite scores to the series and the weights are numbers between 0 and 1, predict succeeds in double precision: every probability is a finite number between 0 and 1 (no overflow of the softmax, no division by 0), every vote is between 0 and the number of members, and each series is given to the first class of greatest vote. A class whose score is at least as great as another's for every member has a vote at least as great; a class preferred by every member by a margin of at least 1 is the predicted one (weights 0 or at least 2^-900, not all 0).", "quantifier": "all fitted ensembles, all finite scores however great, all numbers of classes and members up to 2^40, all inputs, every arithmetic with 53 digits and a sound exponential", "why_tests_cant": "overflow in the exponentials and rounding in the softmax and the weighted sum depend on the scores; tests try a few", "anchors": ["convst/classifiers/rdst_ensemble.py:_internalRidgeCV.predict_proba", "convst/classifiers/rdst_ensemble.py:_parallel_predict", "convst/classifiers/rdst_ensemble.py:R_DST_Ensemble.predict"]}
{"id": "C123", "title": "Fit of the ensemble in double precision on data of moderate magnitude", "statement": "When the transformed training data of every member are 3D arrays of moderate magnitude (each value 0 or between 2^-247 and 2^300 in absolute value) and the parameters are usable, R_DST_Ensemble.fit in double precision succeeds, or raises ValueError because a member kept no shapelet. When it succeeds, each RidgeClassifierCV was given finite numbers only, there is exactly one weight per member and it is a number between 0 and 1, and every member turns any further data of moderate magnitude with at least as many points into finite scaled features and scores: no NaN and no infinity.", "quantifier": "all numbers of members, all data of moderate magnitude, all labels, all seeds and draws, all orders in which the members are fitted, all schedules of the parallel loops, every arithmetic with 53 digits and a sound power", "why_tests_cant": "overflow, NaN and division by 0 depend on the data, the drawn shapelets and the folds; schedules and draws are not enumerable", "anchors": ["convst/classifiers/rdst_ensemble.py:R_DST_Ensemble.fit", "convst/classifiers/rdst_ensemble.py:_internalRidgeCV.get_loocv_train_acc", "convst/classifiers/rdst_ensemble.py:_parallel_fit"]}
{"id": "C124", "title": "Rounding changes a prediction of R_DST_Ridge only within a computable margin", "statement": "Compare predict of a fitted R_DST_Ridge with the same fitted classifier computing with exact real numbers. Both raise the same exception, or both predict one class per series; and the class is the same for every series whose exact scores are clear: the only score is farther from 0, or the greatest score exceeds every other one, by more than an explicit bound. The bound is the size of the added numbers (standardised feature times coefficient, and intercept) times (1+u)^(n+4)-1 for n selected features, plus what the errors of the features themselves contribute. In double precision with up to a million features the first factor is below 2^-32, whatever the order in which the products are added. On digitised data with raw shapelets the features are exact and only the first part remains.", "quantifier": "all fitted classifiers, all data, all numbers of classes, every rounding with relative error u, every order of summation of the scores", "why_tests_cant": "a test sees some data on one machine; the order of summation in a matrix product depends on the library and on the processor, and whether a rounding error changes a class depends on all features together", "anchors": ["convst/classifiers/rdst_ridge.py:R_DST_Ridge.predict", "convst/transformers/_input_transformers.py:c_StandardScaler.transform", "convst/transformers/rdst.py:R_DST.transform"]}
{"id": "C125", "title": "Flat training series give no normalised shapelet, up to rounding", "statement": "A window whose points are all equal carries no shape: after normalisation it is zero, and univariate fit discards it. So fit with proba_norm 1 on series that are all flat keeps no shapelet. In floating-point arithmetic this holds for digitised values (whole multiples of a step, with sums that are represented exactly). It is false in general: the comparison with zero is exact, and rounding of the mean can leave a residue. In double precision, series flat at 1-2^-53 with windows of 5 points give only normalised shapelets with positive values, none discarded. The residue is bounded: with up to 1000 points it is below 3e-5 times the size of the series.", "quantifier": "all flat univariate data sets of equal length, all parameters in range, all random streams, all schedules, every rounding with relative error u", "why_tests_cant": "whether rounding leaves a residue depends on the value, the length and the order of the sum; a test with values such as 0 or 1 always passes", "anchors": ["convst/transformers/_univariate_same_length.py:U_SL_generate_shapelet", "convst/transformers/_commons.py:get_subsequence", "convst/transformers/rdst.py:R_DST.fit"]}
{"id": "C126", "title": "Recordings played backwards", "statement": "Nothing in the method prefers a direction of time. transform of reversed series with reversed shapelets gives the same distances and the same numbers of occurrences; the position found is the mirror image of a window at the same least distance, and of the same window when it is the only one. When all shapelets have one length, fit on reversed series is the mirror image of fit on the series: every choice of sources, parameters and thresholds is exactly as probable as the mirrored choice, whose shapelets are the original ones read backwards. With several lengths this fails: on the series 1, 2, 4 with lengths 2 and 3 and alpha 1, fit can return 2,4 and then 1,2,4, but on 4, 2, 1 it never returns 4,2 and then 4,2,1.", "quantifier": "all data sets of equal or different lengths, univariate or multivariate, all parameters in range, all random streams and schedules; transform: all well-formed shapelets and all series", "why_tests_cant": "the law of fit is a statement about all random streams at once, and the failure with several lengths needs two shapelets with one history of sources", "anchors": ["convst/transformers/_univariate_same_length.py:U_SL_generate_shapelet", "convst/transformers/_multivariate_same_length.py:M_SL_generate_shapelet", "convst/transformers/_univariate_variable_length.py:U_VL_generate_shapelet", "convst/transformers/_multivariate_variable_length.py:M_VL_generate_shapelet", "convst/transformers/rdst.py:R_DST.transform"]}
{"id": "C127", "title": "The order of the samples and channels does not change the probability of any result of fit", "statement": "C101 says that fit on a reordered training set can return the same shapelets. This is the quantitative version: for an ideal generator, each outcome of fit (parameters, sources, thresholds below given bounds) has exactly the same probability on the reordered training set, with the samples and channels renumbered. The shapelets are the same, with channels renumbered.", "quantifier": "all training sets of equal or different lengths, univariate or multivariate, all parameters in range, all orders of the samples, all orders of the channels, all schedules, all outcomes", "why_tests_cant": "a fixed seed gives different shapelets for different orders; equality of distributions cannot be established by sampling", "anchors": ["convst/transformers/_univariate_same_length.py:U_SL_generate_shapelet", "convst/transformers/_multivariate_same_length.py:M_SL_generate_shapelet", "convst/transformers/_univariate_variable_length.py:U_VL_generate_shapelet", "convst/transformers/_multivariate_variable_length.py:M_VL_generate_shapelet"]}
{"id": "C128", "title": "Every training sample of a given length is equally likely to provide a shapelet, and no class is favoured", "statement": "For an ideal generator, training samples of equal length are exchangeable as sources: no event about the samples from which the shapelets are taken changes its probability when samples of equal length are permuted, so each of them is as likely as any other to provide the k-th shapelet. With series of equal length a class therefore provides the k-th shapelet in proportion to its number of samples (there is no balancing of classes), and the first shapelet comes from a class with probability exactly its share of the training set.", "quantifier": "all training sets of equal or different lengths, univariate or multivariate, all parameters in range, all schedules, all events about the sources, all shapelets, all pairs of samples, all classes", "why_tests_cant": "a statement about the distribution of the outcomes of fit over all seeds, for every training set; later sources depend on the earlier ones through the masks", "anchors": ["convst/transformers/_univariate_same_length.py:U_SL_generate_shapelet", "convst/transformers/_multivariate_same_length.py:M_SL_generate_shapelet", "convst/transformers/_univariate_variable_length.py:U_VL_generate_shapelet", "convst/transformers/_multivariate_variable_length.py:M_VL_generate_shapelet"]}
{"id": "C129", "title": "Members of an ensemble standardise all features with the statistics of their training series", "statement": "Inside R_DST_Ensemble each member standardises the features it computes with the means and standard deviations of the features of its own training series, at fit and at prediction. Unlike R_DST_Ridge it keeps the features that are constant on the training set: these are centred only, hence 0 on the training set, and at prediction the difference with the training value. On the training set every other feature has mean 0 and standard deviation 1. Rows with another number of features are refused with ValueError.", "quantifier": "all feature matrices with a row and a column, all ensembles and training sets for which fit succeeds, all members, all matrices to transform", "why_tests_cant": "holds for every training matrix, including the degenerate ones in which a feature is constant, and for every later matrix", "anchors": ["convst/classifiers/rdst_ensemble.py:_internalRidgeCV.fit", "convst/classifiers/rdst_ensemble.py:_internalRidgeCV.predict_proba"]}
{"id": "C130", "title": "The place of the next shapelet depends on the parameters and the earlier places only, and on the lengths but not the values of the series", "statement": "For an ideal generator, given the parameters of all shapelets and the channels and places of the first k, shapelet k+1 first draws its channels; it is discarded exactly when no position is left; otherwise, with series of equal length, every position left is equally likely, and with series of different lengths every series with a position left is equally likely and then every position left in it. Neither the values of the series, nor the labels, nor thresholds drawn earlier change this. With series of different lengths the first shapelet comes from each series with probability exactly 1/n_samples, however long or short, whatever the parameters.", "quantifier": "all training sets, univariate or multivariate, of equal or different lengths, all parameters in range, all schedules, all numbers k, all earlier choices, all series", "why_tests_cant": "a conditional distribution over all seeds for every training set and every history of earlier choices", "anchors": ["convst/transformers/_univariate_same_length.py:U_SL_generate_shapelet", "convst/transformers/_multivariate_same_length.py:M_SL_generate_shapelet", "convst/transformers/_univariate_variable_length.py:U_VL_generate_shapelet", "convst/transformers/_multivariate_variable_length.py:M_VL_generate_shapelet"]}
{"id": "C131", "title": "max_channels above the number of channels: fit is all or nothing, and how often it raises", "statement": "Nothing compares max_channels with the number of channels. For any max_channels >= 1 and given random choices, either fit returns the same shapelets under every schedule, meeting all the guarantees of fit with at most min(max_channels, n_features) channels per shapelet, or it raises under every schedule. For an ideal generator it returns with probability (min(n_features, max_channels) / max_channels) ^ n_shapelets, whatever the data. In particular an object first fitted on n1 channels and fitted again on n2 <= n1 channels returns with probability (n2/n1)^n_shapelets only. max_channels = 0 always raises.", "quantifier": "all training sets of equal or different lengths, all numbers of channels and values of max_channels, all parameters in range, all random choices, all schedules, all histories of earlier fits", "why_tests_cant": "a test sees one seed and one schedule; the claim is about every one of them and about the exact probability over all seeds", "anchors": ["convst/transformers/_multivariate_same_length.py:M_SL_init_random_shapelet_params", "convst/transformers/_multivariate_same_length.py:M_SL_generate_shapelet", "convst/transformers/_multivariate_variable_length.py:M_VL_generate_shapelet", "convst/transformers/rdst.py:R_DST.fit"]}
{"id": "C132", "title": "Recordings at a multiple of the sampling rate", "statement": "Take recordings and the same recordings at r times the sampling rate, each value held for r points. If the dilation of every shapelet is multiplied by r and nothing else is changed, then transform accepts the new recordings whenever it accepts the old ones, and the features say the same: the least distance is the same number, and the position of the best match and the number of occurrences are r times as large. The classifier trained on such features raises the same exception or makes the same predictions. With the old dilations this fails: a shapelet cut from a recording is not found any more in the same recording at twice the rate.", "quantifier": "all r >= 1, all shapelets, all recordings of equal or different lengths and any number of channels, all four transformer types, with and without phase, all labels; the features also in floating-point arithmetic including NaN and infinities", "why_tests_cant": "a test compares one pair of recordings at one rate; the claim is for every rate, every set of shapelets and every recording, and for floating-point values for which no tolerance is needed", "anchors": ["convst/transformers/_commons.py:generate_strides_1D", "convst/transformers/_commons.py:apply_one_shapelet_one_sample_univariate", "convst/transformers/_commons.py:apply_one_shapelet_one_sample_multivariate", "convst/transformers/rdst.py:R_DST.transform", "convst/classifiers/rdst_ridge.py:R_DST_Ridge.fit"]}
{"id": "C133", "title": "Phase invariance and periodic recordings", "statement": "transform with phase_invariance=True finds for every shapelet the same least distance at the same position as transform without it finds in the recordings continued periodically, from their beginning, by at least as many points as the shapelet spans; continued by exactly that many points, the number of occurrences is the same too. With phase_invariance=True, recordings that repeat a period m times give the same least distance and position as one period and m times the number of occurrences, and the classifier trained on them raises the same exception or makes the same predictions. All these recordings are accepted whenever the original ones are.", "quantifier": "all m >= 1, all numbers of added points, all shapelets, all recordings of equal or different lengths and any number of channels, all four transformer types, all labels; the features also in floating-point arithmetic including NaN and infinities", "why_tests_cant": "a test compares a few recordings and shapelets; the claim is for every length of the continuation, every number of periods and every set of shapelets, and without tolerance in floating point", "anchors": ["convst/transformers/_commons.py:_generate_strides_1D_phase", "convst/transformers/_commons.py:_generate_strides_2D_phase", "convst/transformers/_commons.py:apply_one_shapelet_one_sample_univariate", "convst/transformers/_commons.py:apply_one_shapelet_one_sample_multivariate", "convst/transformers/rdst.py:R_DST.transform", "convst/classifiers/rdst_ridge.py:R_DST_Ridge.fit"]}
{"id": "C134", "title": "The values of a series that a shapelet looks at", "statement": "The three features of a shapelet depend on a series only through the channels of the shapelet (the first one, for the univariate transform types, whatever the number of channels of the data) and, in these, through the points under some value of the shapelet in some window. With phase_invariance these are all points. Without it, they are all points exactly if the shapelet has one value or if its length times its dilation is at most the number of points; otherwise there are points between its values that no window reaches. None of the points can be left out: for a shapelet compared with raw values there are two series that differ in that point only and have different distance features. R_DST_Ridge predicts the same label for series that agree wherever some shapelet looks. For the univariate transform types fit too depends on the first channels only: the same shapelets or the same exception, the same use of the random generators and the same fitted object except its max_channels, whatever the other channels and their number.", "quantifier": "all shapelets, all four transformer types, all series of any length and number of channels, all batches they are part of; any arithmetic for the features", "why_tests_cant": "a test changes a few values of a few series; the claim is that no other value ever matters and that each of the named ones does, for every length, dilation and number of points", "anchors": ["convst/transformers/_commons.py:_generate_strides_1D", "convst/transformers/_commons.py:_generate_strides_1D_phase", "convst/transformers/_commons.py:_generate_strides_2D", "convst/transformers/_univariate_same_length.py:U_SL_apply_all_shapelets", "convst/transformers/_multivariate_same_length.py:M_SL_apply_all_shapelets", "convst/transformers/rdst.py:R_DST.transform", "convst/classifiers/rdst_ridge.py:R_DST_Ridge.predict"]}
{"id": "C135", "title": "Phase invariance only adds windows", "statement": "When phase_invariance is switched on for a fitted transformer, the windows seen so far are still seen, and as many wrapped ones are added as the shapelet spans points after its first. So for every shapelet and every series longer than its span: the distance feature stays the same, and then so does the position, or it drops, and then the position is one of those that were not available; no occurrence is lost and at most as many are added as there are new windows. For shapelets of one value all three features are the same. transform never fails with the setting on where it succeeded with it off.", "quantifier": "all fitted transformers of the four types, all shapelets, all series and batches; the statement on the windows and the one for shapelets of one value in any arithmetic, the others in exact arithmetic", "why_tests_cant": "a test compares both settings on a few series; the relation must hold for every length, dilation, series and tie between windows", "anchors": ["convst/transformers/_commons.py:_generate_strides_1D", "convst/transformers/_commons.py:_generate_strides_1D_phase", "convst/transformers/_commons.py:_generate_strides_2D_phase", "convst/transformers/rdst.py:R_DST.transform"]}
