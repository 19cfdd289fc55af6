{
 "C15": {
  "status": "proved",
  "note": "The statement is the exact formula and bound; exact scale invariance is refuted by C15_not_scale_invariant."
 },
 "C16": {
  "status": "proved",
  "note": "Finding: the documented effect does not exist; the theorems prove that the option is ignored."
 },
 "C25": {
  "status": "proved",
  "note": "Includes the counterexample C25_longer_can_exceed for a later, longer shapelet."
 },
 "C32": {
  "status": "proved",
  "note": "Finding: univariate fit also discards identically zero shapelets (C32_constant_series_no_shapelet)."
 },
 "C35": {
  "status": "proved",
  "note": "Finding: C35_univariate_variable_rejected; acceptance of the other values is C35_transform_type_partial."
 },
 "C37": {
  "status": "proved",
  "note": "Finding: C37_three_points; the expected property holds for at least 4 points (C37_validated_lengths_partial)."
 },
 "C38": {
  "status": "proved",
  "note": "Finding: C38_fractions_change_on_refit; the expected property holds for integers and bounds (the _partial theorems)."
 },
 "C41": {
  "status": "proved",
  "note": "Finding: C41_wrong_length; series and labels stay paired (C41_series_labels_paired_partial)."
 },
 "C42": {
  "status": "proved",
  "note": "Finding: C42_subsampling_uses_global_generator; reproducibility holds for n_samples=None."
 },
 "C44": {
  "status": "proved",
  "note": "Finding: C44_nonpositive; in range for the other values (C44_n_jobs_partial)."
 },
 "C45": {
  "status": "proved",
  "note": "Finding: C45_second_fit, C45_failure."
 },
 "C50": {
  "status": "proved",
  "note": "Finding: C50_label_never_predicted; correct for labels 0..k-1 (C50_index_is_label_partial)."
 },
 "C52": {
  "status": "proved",
  "note": "Finding: C52_order_changes_members; reproducible for a fixed order (C52_same_order_partial)."
 },
 "C56": {
  "status": "proved",
  "note": "Finding: C56_duplicates, C56_common_channel; correct when no two series share a channel (C56_folds_partial)."
 },
 "C59": {
  "status": "proved",
  "note": "For a negative margin the counts do not partition: C59_negative_margin."
 },
 "C63": {
  "status": "proved",
  "note": "Finding: both claims are failures of the interpreters, proved for every model."
 },
 "C66": {
  "status": "proved",
  "note": "Finding: C66_row_order_matters; correct for consistent row orders (the _partial theorems)."
 },
 "C67": {
  "status": "proved",
  "note": "Finding: proved for every training set whose labels are no class indices."
 },
 "C68": {
  "status": "proved",
  "note": "Finding: proved for every failing fit, with C68_witness."
 },
 "C71": {
  "status": "proved",
  "note": "Finding: C71_position_not_label; correct for labels 0..k-1 (C71_class_by_label_partial)."
 },
 "C73": {
  "status": "proved",
  "note": "Finding: C73_single_column."
 },
 "C74": {
  "status": "proved",
  "note": "Finding: C74_violated; the converse holds for convex non-significance (C74_joined_iff_partial). Clique enumeration is a parameter with the law CliqueLaw."
 },
 "C76": {
  "status": "proved",
  "note": "Finding: exactly when the labels fit is characterised by C76_labels_fit."
 },
 "C77": {
  "status": "proved",
  "note": "Finding: C77_path_saves_nothing."
 },
 "C78": {
  "status": "proved",
  "note": "Finding: C78_refit_differs."
 },
 "C80": {
  "status": "proved",
  "note": "Finding: the statement says that cloning fails; it is proved for all attribute values."
 },
 "C82": {
  "status": "proved",
  "note": "Finding: clones of an ensemble without random_state repeat each other."
 },
 "C104": {
  "status": "proved",
  "note": "Finding: the two samplings agree for one shapelet (C104_one_shapelet_*) and differ from two on (C104_different_laws)."
 },
 "C106": {
  "status": "proved",
  "note": "Finding: C106_repeated_alpha, C106_repeated_not_fitted and C106_repeated_refit prove the violation for a repeated value; C106_distinct_alphas is the property for different values."
 },
 "C107": {
  "status": "proved",
  "note": "Finding: missing values in the training set silently disable thresholds and shapelets; the theorems say exactly which."
 },
 "C108": {
  "status": "proved",
  "note": "Finding: set_params skips the constructor's conversions and checks; the theorems say for which values the object still behaves like a constructed one (C108_rdst, C108_ridge, C108_ensemble) and what happens for the others (C108_violated_*, C108_ensemble_*)."
 },
 "C109": {
  "status": "proved",
  "note": "Finding: the script's import is broken; its functions are modelled with the library's window extraction."
 },
 "C110": {
  "status": "proved",
  "note": "Findings 45 and 46: C110_first_value_matters and C110_overflow are the witnesses of what fails (an infinite value in the first window of a normalised shapelet; finite data at an infinite distance). Source semantics: fastmath lets the compiler assume the absence of NaN and infinities."
 },
 "C111": {
  "status": "proved",
  "note": "Finding 47: C111_z_norm_3D_in_place shows that, unlike transform, z_norm_3D overwrites the caller's array."
 },
 "C112": {
  "status": "proved",
  "note": "For data with missing values in otherwise exact arithmetic, and in rounded arithmetic (_rounded)."
 },
 "C93": {
  "status": "proved",
  "note": "Finding: use_optimal_offset calls fhtoffset with the wrong arguments. C93_optimal_offset_partial gives the case in which the offset is still low-ringing; C93_default_offset is the counterexample for the default parameters."
 },
 "C113": {
  "status": "proved",
  "note": "For every format of bounded range satisfying Ranged; C113_float64 shows that float64 does (ties rounded upwards, correctly rounded log, log2 and 2**x)."
 },
 "C114": {
  "status": "proved",
  "note": "In any arithmetic, relative to the fit of the same object asked for some shapelets."
 },
 "C115": {
  "status": "proved",
  "note": "For real arithmetic and a fair generator, as C102 and C103."
 },
 "C116": {
  "status": "proved",
  "note": "For the arithmetics of C100 (rounded), C107 (missing values) and C113 (bounded range); on real numbers the same rules are C25, C28 and C31."
 },
 "C117": {
  "status": "proved",
  "note": "The operations in the order of the source code (fastmath may reorder them, see DESIGN.md)."
 },
 "C118": {
  "status": "proved",
  "note": "The operations in the order of the source code (fastmath may reorder them, see DESIGN.md)."
 },
 "C119": {
  "status": "proved",
  "note": "The full 'constant features are dropped, varying ones are kept' is violated in both directions (C119_constant_kept, C119_tiny_dropped, findings 52 and 53); C119_kept says exactly what is kept in rounded arithmetic."
 },
 "C120": {
  "status": "proved",
  "note": "scikit-learn's ridge learner is a parameter; the assumption on it is Spec.AcceptsFinite. StandardScaler is modelled by mean and population deviation (its incremental algorithm and its tolerance for near-constant features are simplified, see handleZero)."
 },
 "C121": {
  "status": "proved",
  "note": "Shapelets compared with normalised series are not covered (normalisation divides); for them see C96 and C117. Sums in an arbitrary order are covered by C121_any_order; the transform theorems use the order of the source."
 },
 "C122": {
  "status": "proved",
  "note": "That the scores are finite is a hypothesis (the coefficients come from scikit-learn); the exponential is assumed to be 1 at 0, in [0,1] and increasing on the negative numbers and at most 1/2 at -1. Margins below 1 may be lost by rounding: C122_tie_to_first is a counterexample to the statement without a margin."
 },
 "C123": {
  "status": "proved",
  "note": "RidgeClassifierCV is assumed to accept finite matrices and to keep one leave-one-out prediction per series; the power is assumed to keep [0,1]. That the ridge coefficients, hence the scores, are finite is not claimed (scikit-learn computes them); C122 takes finite scores as a hypothesis."
 },
 "C124": {
  "status": "proved",
  "note": "Rounding without overflow and underflow (see C113, C119 for the range). scikit-learn's decision function is modelled as a product, an added intercept and an argmax; `C124_any_order` is independent of the order of the additions."
 },
 "C125": {
  "status": "proved",
  "note": "Finding: C125_flat_kept (the claim without rounding is false in double precision); it holds for digitised data (C125_digital_none_partial), and what is left is bounded in general (C125_flat_small, C125_double_residue)."
 },
 "C126": {
  "status": "proved",
  "note": "Finding: with several shapelet lengths fit is not symmetric in time (`C126_several_lengths_violated`, finding 56). Symmetry is proved for shapelets of one length, and for transform in general."
 },
 "C127": {
  "status": "proved",
  "note": "All four variants for the order of the samples, both multivariate variants for the order of the channels."
 },
 "C128": {
  "status": "proved",
  "note": "All four variants; class shares for series of equal length. alpha <= 1 is needed for the multivariate class shares: with alpha > 1 every position is refused."
 },
 "C129": {
  "status": "proved",
  "note": "Exact arithmetic; double precision is the subject of the theorems of C123."
 },
 "C130": {
  "status": "proved",
  "note": "All four variants; the statement about the first shapelet for the two variable-length ones (alpha <= 1 in the multivariate one)."
 },
 "C131": {
  "status": "proved",
  "note": "Both multivariate variants; the probability is stated for the call of the fitter with ideal random choices."
 },
 "C132": {
  "status": "proved",
  "note": "About transform and the classifier for given shapelets; the random choice of shapelets by fit on the two sets of recordings is not compared."
 },
 "C133": {
  "status": "proved",
  "note": "About transform and the classifier for given shapelets; the random choice of shapelets by fit on the two sets of recordings is not compared."
 },
 "C134": {
  "status": "proved",
  "note": "That every read value matters is proved for shapelets compared with the raw series; for normalised ones it is false (a normalised shapelet of one value sees 0 everywhere)."
 },
 "C135": {
  "status": "proved",
  "note": "C135_accepts: transform succeeds with phase invariance wherever it does without."
 }
}