# Design

Formal model in Lean 4 (4.33.0, Mathlib) of baraline/convst, read from the sources in `/repo`.
The project lives in `lean/`; `lake build` checks everything. `MANIFEST.json` maps each property
of `properties.jsonl` to the theorems proving it.

## Layout

* `lean/Verif/Model/*.lean` : the model, function by function. Every definition cites the
  file and lines it models and says where it simplifies.
* `lean/Verif/Spec/*.lean` : small declarative specifications, independent of the model's helpers.
* `lean/Verif/Proofs/*.lean` : helper lemmas.
* `lean/Verif/Props/*.lean` : the property theorems (named `C01_...`), each followed by an `example`
  showing that its hypotheses are satisfiable by a concrete non-trivial case.

## Modelling decisions

* **Scalars.** The code is modelled once, over a class `Scalar K` of operations without laws.
  Theorems that use no arithmetic law are stated for every `Scalar K`; they hold in particular for IEEE
  doubles (`Float` is an instance). Theorems needing arithmetic are stated for the instance `ℝ`, i.e.
  in exact arithmetic. A third instance, `Fl r`, follows every real operation by an arbitrary rounding of
  relative error `u` (`Model/Rounded.lean`); C95 and C96 relate features computed in it, with sums in any order, to
  the exact ones. A fourth, `Nf`, adds NaN to exact arithmetic (`Model/Missing.lean`, C105). A fifth, `Ieee F`,
  has a bounded range with infinities, overflow, underflow and NaN (`Model/Ieee.lean`, C110).
* **Integers** are unbounded (`Nat`/`Int`), no int64 overflow.
* **Exceptions and undefined behaviour** are values of `Except Err`. Numba code does not check array
  bounds; the model does, and an out-of-bounds access gives the distinguished error `Err.oob`.
  A theorem concluding `= .ok _` therefore also proves memory safety.
* **Randomness.** A generator is any type `G` with functions `randint` and `unit`;
  `choice` with and without replacement and `uniform` are modelled on top of them as numba
  implements them. Theorems hold for every lawful generator and every state: all random outcomes.
* **Parallelism.** `prange` iterations are modelled as separate state transformers / write lists;
  order independence is a theorem. Numba's random state is per thread, so in `fit` each parallel
  iteration starts from its own, arbitrary generator state.
* **Arrays** are lists (of lists); boolean sampling masks are functions with checked writes.

## Trusted base

* Lean's kernel, and the axioms `propext`, `Classical.choice`, `Quot.sound` (no other axiom is
  used; no `sorry`, `native_decide`, `bv_decide`, `implemented_by` or `unsafe`).
* The reading of the Python/numba/NumPy semantics written in the model's comments.
* Where a theorem needs a fact about a library that is a parameter of the model, the fact is an explicit
  hypothesis of that theorem. These are: the laws of a random generator (`LawfulGen`: draws in range), that
  `np.argsort` returns a sorting permutation (C49), that `shuffle` permutes (C55), that a fitted ridge model
  has the shape scikit-learn documents (C50, C53), and that `networkx.find_cliques` enumerates the maximal
  cliques (`CliqueLaw`, C74).

### Modelled

| File in `/repo/convst` | Model | Remarks |
| --- | --- | --- |
| `transformers/_commons.py` | `Model/Commons.lean` | all functions used by fit, transform and the interpreter |
| `transformers/_univariate_same_length.py`, `_univariate_variable_length.py`, `_multivariate_same_length.py`, `_multivariate_variable_length.py` | `Model/Apply.lean`, `Model/Fit.lean`, `Model/Random.lean` | both halves (generate, apply) of the four files |
| `transformers/rdst.py` | `Model/Rdst.lean` | constructor, fit, transform, validation, state |
| `transformers/_input_transformers.py` | `Model/InputTransformers.lean` | scalers, Z-normaliser, Derivate, Periodigram, FastHankelTransform; the periodogram and the Hankel transform of one channel are parameters |
| input transformers as objects that change at `fit` (`random=True`), and the ensemble that holds them | `Model/StatefulInputs.lean` | a heap of transformer objects; `np.random.choice` is a parameter |
| `classifiers/rdst_ridge.py`, `classifiers/rdst_ensemble.py` | `Model/Classifiers.lean` | the ridge regression is a parameter |
| `interpreters/rdst_interpreter.py` | `Model/Interpreter.lean` | data drawn, not the drawing |
| `utils/checks_utils.py` | `Model/Checks.lean` | array and parameter checks |
| `utils/numba_utils.py` | `Model/NumbaUtils.lean` | `nb_unique` and its helpers |
| `utils/experiments_utils.py`, loaders of `utils/dataset_utils.py` | `Model/Experiments.lean` | downloads are inputs; timings left out |
| constructors of the three estimators, as seen by `sklearn.base.clone` | `Model/Cloning.lean` | object identities are part of the state; the algorithm of `clone` (copy, construct, compare identities) is transcribed from scikit-learn |
| `utils/plot_utils.py` | `Model/PlotUtils.lean` | SciPy tests and clique enumeration are parameters |
| `grid_search_UCR_UEA` of `utils/experiments_utils.py` | `Model/GridSearch.lean` | scikit-learn's `GridSearchCV` as documented; which candidate is best is a parameter |
| float64 arithmetic of the transform | `Model/Rounded.lean` | rounding to 53 bits without overflow or underflow; `exp`, `log`, powers arbitrary |
| `PaperScripts/test_models.py` | `Model/Benchmark.lean` | the evaluation of a pair is an oracle; CSV writing and reading are inverse |
| `convst/classifiers/rdst_ensemble.py` constructor | `Model/EnsembleInit.lean` | arguments of the checked types; transformers as functions |
| `_commons.py` on NaN | `Model/Missing.lean` | arithmetic with NaN (exact on numbers), as an instance of `Scalar` |
| `_internalRidgeCV.get_loocv_train_acc` with its selection of `alpha_` | `Model/Alphas.lean` | `alpha_` and `cv_values_` of the fitted learner are given |
| `set_params` of the three estimators, and `fit`/`transform` on attributes stored by it | `Model/SetParams.lean` | scikit-learn's `BaseEstimator.set_params` is a sequence of `setattr` with a check of the names |
| `PaperScripts/early_vs_material.py:13-77` | `Model/EarlyAbandon.lean` | the three distance functions; not the timing loop and the figures |
| range of float64 (infinities, overflow, underflow, NaN) in the transform | `Model/Ieee.lean` | results beyond the largest number are infinite, results are on the grid of the subnormals; the sign of zero is not modelled; `exp`, `log`, powers as in `Model/Rounded.lean` |
| memory operations of the `*_apply_all_shapelets` kernels, copies made by `transform`; `dataset_utils.z_norm_3D` in place | `Model/Memory.lean` | one thread per iteration; integer and boolean arrays are values; freeing memory is not modelled; individual reads and writes are atomic (word-sized on the supported machines) |
| memory operations of the four `*_generate_shapelet` functions: allocation, masking of padding, the parallel loop over dilations, the second parallel loop and the selection of the univariate functions | `Model/MemoryFit.lean` | the arrays `lengths`, `dilations`, `normalize`, `n_channels` are not written after the parameters are drawn and are values; a worker is a list of iterations and the state of its generator; reads and writes of single elements are atomic |
| `np.percentile` of numba with infinite entries (maximum replaced by `NaN` at percentile 100) | `Model/Random.lean` `maxOrNan` | quickselect modelled by sorting |

### Not modelled

Rounding in other places than the transform and fit (C95, C96, C100) and the scaler and classifiers (C117 to C124), NaN in other
places than the transform and fit (C105, C107) and the scaler and classifiers (C119 to C124), infinities, overflow and underflow in
other places than those (C110, C113, C119 to C124), how numba reports an exception raised inside a parallel loop (in the model the
call raises), numba compilation and typing,
the internals of scikit-learn, SciPy, networkx and aeon, matplotlib drawing (colours, fonts, sizes), file
downloads, timings, negative values of `n_shapelets`, `min_len`, `max_channels`.

`PaperScripts/test_on_arff_resamples.py`, `params_cv.py` and `benchmark.py` are not modelled: they import
`ARFF_stratified_resample`, `UCR_stratified_resample`, `run_pipeline`, `load_sktime_arff_file_resample_id` or
`load_sktime_dataset_split` from `convst.utils`, which does not define them, so each script ends with `ImportError`
before its first statement.

## Findings

Places where the code does not do what its documentation, its names or a user's expectation says. Each is
proved as a theorem about the model, usually with a concrete witness; the part that does hold is proved beside
it (suffix `_partial` when the expected property holds only under an additional hypothesis).

1. `normalize_output` is never read: same matrix for both values, counts above 1 (C16).
2. `transform_type='univariate_variable'` is rejected by the constructor although `fit` sets it (C35).
3. With `n_samples`, variable-length `fit` resamples series and labels but not their lengths (C41), and draws from
   the global NumPy generator, which `random_state` does not control (C42).
4. `is_prime(1)` is true, so `prime_dilations` also gives dilation 1 (C28).
5. With three time points a too long candidate length is replaced by length 1 (C37).
6. Fractional `shapelet_lengths` are overwritten by `fit`; a second fit multiplies them again (C38).
7. The first fit freezes `min_len` (variable length), `max_channels` and `transform_type` (C39).
8. The reduction of candidate lengths keeps between k and 2k-1 of them, k being the announced number; the
   documented value 1 is rejected (C36).
9. The overlap bound of `alpha_similarity` holds only when the later shapelet is not longer, and is twice as large
   with phase invariance (C25).
10. Univariate `fit` drops identically zero shapelets, e.g. all normalised constant ones (C32).
11. A series one point too short yields the features (-1, 0, 0) silently (C12).
12. float32 and int32 arrays are rejected with an unrelated error (C34).
13. `check_n_jobs` can return a non-positive count (C44); the ensemble's job split is not idempotent and divides by
    zero for `n_jobs=0` (C45); the thread count is process-wide (C46).
14. `R_DST_Ensemble.predict` returns class indices, never labels (C50); member weights compare class indices with
    labels, so that with labels 1..k some or all weights vanish (C67); members share one generator, so that
    the result depends on the schedule (C52).
15. `RDST_interpreter` cannot interpret a multivariate model and `RDST_Ensemble_interpreter` cannot be built (C63).
16. Normalised distances are only approximately scale invariant because of the added 1e-8 (C15).
17. `_sklearn_cv` recovers positions by the first series sharing a channel: wrong for duplicated channels (C56).
18. `_wilcoxon_holm` pairs scores by row order, not by dataset (C66).
19. `pairwise_plot` fails for `max_ncols=1` with several competitors (C73); counts partition only for a non-negative
    margin (C59).
20. The largest dilation that fits, when at least 2, is never drawn by the default scheme (C29).
21. A failed refit of `R_DST_Ridge` loses the classifier fitted before (C68).
22. `class_id` of the interpreter is used both as a position and as a label (C71).
23. Bars of the critical difference diagram can cover classifiers found different (C74); labels overflow the figure
    for 13, 15, 17 and from 18 classifiers on (C76); with a path nothing is saved (C77).
24. Refitting an `R_DST` with an integer `random_state` uses the next seed: not repeatable (C78).
25. The scaler of the classifier accepts matrices with extra columns (C47); `z_norm_3D` overwrites the caller's
    array (C57).
26. `R_DST` objects, and pipelines containing them, can never be cloned by scikit-learn (C80); clones of an
    `R_DST_Ensemble` without `random_state` repeat each other (C82).
27. `load_UCR_UEA_dataset` raises on every dataset with series of different lengths (C88).
28. Input transformers with `random=True` draw from NumPy's global generator, so `random_state` does not determine
    the ensemble; an object listed twice makes earlier members predict with a representation they were not fitted
    on; a failed `fit` changes the transformers used by the ensemble fitted before (C91).
29. The default `R_DST_Ensemble` cannot be fitted on, or predict, lists or object arrays, although its tags announce
    variable lengths; `Derivate` on an object array subtracts consecutive series (C92).
30. `FastHankelTransform` passes `dln` as order and `bias` as initial value to `scipy.fft.fhtoffset` (C93).
31. `grid_search_UCR_UEA` evaluates on the wrong series when a series occurs twice in a dataset, and cannot be used with datasets of
    uneven length nor with pipelines that contain `R_DST` (C94).
32. `PaperScripts/test_models.py`: an exception on one dataset blocks all later rows on every resume, the file is not
    written atomically, and rows are matched by number, not by dataset and model (C97).
33. The replacement of `np.all` for compiled code (`convst/utils/numba_utils.py`) reads outside the array when there is a
    single row (`axis=0`) or a single column (`axis=1`) (C54).
34. `R_DST`: a single percentile raises `IndexError`; percentiles outside [0, 100] are accepted and only `fit` raises (C98).
35. `R_DST_Ensemble` does not pass `normalize_output` on, and does not check the parameters of `R_DST` before `fit` (C99).
36. A percentile strictly between 100 - 10^-12 and 100 (such as the predecessor of 100) can make the rank of numba's `np.percentile` round up to the number of distances, which is read past the end (C100, `C100_percentile_out_of_bounds`). numba's code, reached through `fit`; integer and ordinary percentiles are safe.
37. On series of equal length the method for different lengths does not sample like the one for equal lengths: it draws the
    series first, so that positions in series with few remaining admissible positions are preferred; same distribution for one shapelet, different from two on (C104).
38. Missing values are never reported. In `transform` they are ignored, except in the first window, where they turn the minimum into NaN and its
    position into 0 although matches are still counted: the same recording is usable or not depending on where the gap is (C105).
39. If the value of `alphas_ridge` chosen by a member is listed twice, `R_DST_Ensemble.fit` raises `ValueError` after fitting all members. A new
    object stays unfitted; one fitted before predicts with the new members and the old weights, unlike after the other failures of C86 (C106).
40. Missing values in the training set are never reported by `fit`. One missing value in a series is enough to make the thresholds of all shapelets
    compared with that series NaN as soon as one of their windows meets it: their third feature is then 0 on every series, for ever; shapelets extracted
    across a gap give NaN, 0 and 0 on every series (C107).
41. `set_params` skips the conversions and checks of the constructors (C108). On `R_DST`: `shapelet_lengths=[...]` makes `fit` raise `AttributeError` and a
    float `n_shapelets` makes it raise where the constructed object is fitted; decreasing percentiles, a reduction of
    1 or more, more than two bounds and the type `univariate_variable` are accepted; `transform_type="Univariate"`, accepted by the constructor, makes `fit` raise `ValueError`.
42. `set_params(random_state=7)` keeps the integer, where the constructor stores a generator: every later `fit` of `R_DST` on the same data
    repeats the same draws, and all members of an `R_DST_Ensemble` draw from that same seed, whatever their order; with the constructor refits go on in the
    stream of the generator (C78) and members share it (C52, C108).
43. `set_params(n_jobs=...)` has no effect on the number of threads of `R_DST` and `R_DST_Ridge`; a `proba_norm` shorter than the list of representations
    makes the ensemble raise `IndexError` at `fit`; `transform_type` of the other family (same or variable length) on a fitted object makes
    `transform` raise until the next `fit` (C108).
44. `PaperScripts/early_vs_material.py` imports `generate_strides_1D` from `convst.utils.shapelets_utils`, a module that does not exist, and calls it with three
    arguments where the library's function takes four: the script cannot run. The model reads the call as dilation 1 without phase invariance (C109).
45. An infinite value in the first window of a normalised shapelet makes the minimum NaN and the position 0, whereas elsewhere the window is passed over; for a shapelet that is
    not normalised the first window is passed over as well (`C110_first_value_matters`).
46. Finite float64 values can be at an infinite distance: the difference of 2^1023 and -2^1023 overflows, and transform returns inf for finite data (`C110_overflow`).
47. `z_norm_3D` and `z_norm_3D_list` normalise in place: the array of the caller is overwritten and the returned array is the same object (`C111_z_norm_3D_in_place`).
48. An infinite value in one training series is accepted, and every shapelet drawn from a window containing it is silently useless: its threshold is `NaN` and its features are (infinite or `NaN`, 0, 0) on every series (`C113_fit_same_length`). Nothing in `fit` removes such shapelets.
49. The percentile 0 (`p_min = 0`) of distances with a single finite value is `NaN`, not that value, since the code under numba computes `lower * 1 + upper * 0` with an infinite `upper` (`C113_percentile_zero`). A threshold which is `+∞` counts every window without `NaN` as an occurrence, infinitely far ones included (`C113_infinite_threshold_univariate`, `C113_infinite_threshold_multivariate`).
50. `n_shapelets=0` is accepted by `fit` without `prime_dilations` and an error with it, from `upper_bounds.max()` of an empty array (`C114_fit`, `C114_fit_prime`).
51. `tests/test_rdst.py:test_length_bounds` expects every offered length among the fitted shapelets; for each offered length this fails with probability at least `(1-w)^n` (`C115_length_absent_univariate`, `C115_never_certain`).
52. **Constant features can reach the classifier (C119).** On three rows holding `0.1` the computed mean is not `0.1`, so the computed deviation is about 1e-17 and the feature is kept; `c_StandardScaler` exists to remove such features. Integer-valued features are not affected.
53. **Varying features can be dropped (C119).** Values closer than about 2^-538 have a computed deviation of 0 by underflow and their feature is dropped; if it is the only one, `fit` raises `ValueError`.
54. Small margins are lost in the vote (`C122_tie_to_first`): with doubles, an ensemble of one member of weight 1 answers the first class for every series to which its member gives a positive score of at most 2^-60, although the member's own classifier answers the second class: both exponentials round to the same probability 1/2, and `argmax` takes the first.
55. Flat windows can survive as normalised shapelets (C125). `_univariate_same_length.py:220` and `_univariate_variable_length.py:250` discard a shapelet when all its normalised values compare equal to 0. When the computed mean of equal numbers is not that number, the values are a rounding residue divided by 1e-8, not 0, and the shapelet is kept. `C125_flat_kept` gives the case.
56. With several lengths, sampling is not symmetric in time (C126). The mask of `fit` blocks starting points around the starting point of an earlier shapelet, whatever the lengths. Two windows with the same end and different lengths have different starting points, so they may both be drawn, while two windows with the same start may not. `C126_several_lengths_violated` gives a case.
57. With series of different lengths a shapelet comes from a short series as often as from a long one (the series is drawn first, then the position), so a single position of a short series is more likely to be used than one of a long series; with the code for equal lengths all positions are equally likely (C130, C104).
58. `fit` of a multivariate transformer with `max_channels` above the number of channels raises `ValueError` with probability `1 - (n_features / max_channels) ^ n_shapelets`: nearly always with the default 10000 shapelets, but not with few. A transformer fitted once remembers `max_channels` (finding on C39), so fitting the same object on data with fewer channels nearly always raises (C131). How numba reports an exception raised inside the parallel loop is not modelled; in the model the call raises.
59. `R_DST` with a univariate `transform_type` accepts series with several channels (`check_array_3D` is called with `is_univariate=False`) and silently looks at the first channel only (C134; also in `fit`: `C134_fit_same_length`, `C134_fit_variable_length`).

## Plan per property

* **C01 Univariate same-length transform equals its definition.** Model `uslApply` with the grouping arrays, the shared window matrix and the in-place normalisation; prove that it returns `ok` and that every cell equals the features of one (series, shapelet) pair computed by a naive specification. No arithmetic law needed, so it holds for any scalar type, IEEE floats included.
* **C02 Univariate variable-length transform equals its definition.** As C01 for `uvlApply`, on the prefix of each series.
* **C03 Multivariate same-length transform equals its definition.** As C01 for `mslApply`, with flattened value and channel arrays and their cumulative offsets.
* **C04 Multivariate variable-length transform equals its definition.** As C01 for `mvlApply`.
* **C05 Meaning of the three features.** Over ℝ: the running-minimum fold equals IsLeast / first index / countP.
* **C06 Transform is row-wise and batch independent.** Corollary of C01-C04 (cells depend on one series), plus formatting lemma for padding.
* **C07 Transform is column-wise.** Corollary of C01-C04 for the four kernels (`Verif/Props/Transform.lean`, `Verif/Props/Variants.lean`); for several channels the flattened value and channel arrays are cut and re-assembled (`mPick`).
* **C08 Transform result does not depend on the parallel schedule.** Writes of all iterations form a list; any permutation of the writes executed on the output gives the same matrix (pairwise disjoint targets).
* **C09 Padding is irrelevant.** Corollary of C02/C04.
* **C10 Variable-length and same-length transforms agree.** Corollary of C01-C04.
* **C11 Multivariate transform of one channel agrees with the univariate one.** Corollary of C01/C03 plus 0 + x = x (ℝ).
* **C12 Transform safety and exact failure condition.** Exact characterisation of the `ok`/`error` results of the modelled transform; out-of-bounds accesses are an explicit error value `Err.oob`.
* **C13 Phase invariance.** Over any scalar type: windows of the rotated series are the rotated windows; over ℝ: min and count are permutation invariant.
* **C14 Normalised shapelets ignore the offset of the series.** Over ℝ: mean(x+c)=mean x + c, std unchanged.
* **C15 Scale invariance of normalised shapelets is only approximate.** Over ℝ: exact formula, error bound, counterexample.
* **C16 normalize_output has an effect as documented (violated).** Object model: transform does not read the option; equality for all inputs, and a concrete output > 1.
* **C17 Fit-time and interpreter distance vector agrees with transform.** Equality of the two code paths.
* **C18 The distance functions are metrics.** Over ℝ; euclidean through Minkowski / Cauchy-Schwarz in Mathlib.
* **C19 Univariate same-length fit is total and well-formed.** Model of parameter drawing and of the sampling loop in a state monad over an arbitrary generator; total-correctness Hoare rules; all random outcomes = all lawful generators and states.
* **C20 Univariate variable-length fit is total and well-formed.** As C19.
* **C21 Multivariate same-length fit is total and well-formed.** As C19, with offsets.
* **C22 Multivariate variable-length fit is total and well-formed.** As C19.
* **C23 Every shapelet is a subsequence of training data and matches its source exactly.** Loop invariant recording the source of each written row.
* **C24 Thresholds lie between the two percentiles of a distance vector.** Percentile model (numba algorithm) and interval lemma.
* **C25 alpha similarity limits overlap of sampled shapelets.** Loop invariant relating the mask to earlier draws; `C25_longer_can_exceed` shows random draws for which a later, longer shapelet exceeds the limit.
* **C26 Fit iterations over dilations are independent.** Each iteration is a function of the state that commutes with the others.
* **C27 Variable-length fit never samples padding.** Loop invariant.
* **C28 prime_dilations yields primes or 1.** Number theory with Mathlib's Nat.Prime.
* **C29 Which dilations are sampled.** Real log2/power arithmetic; the set of reachable dilations is characterised exactly, and the largest fitting dilation is shown never to be drawn by the default scheme.
* **C30 Log-weighted choice stays in range.** Real arithmetic on cumulative sums.
* **C31 proba_norm extremes.** Hoare rule.
* **C32 When shapelets are discarded.** Exact characterisation of the retained rows.
* **C33 Unique parameter combinations.** Induction on the scan loop.
* **C34 Automatic selection of the transform type.** Case analysis on a model of inputs (dtype, shape).
* **C35 Every documented transform type is accepted (violated).** Concrete rejection plus acceptance theorem for others.
* **C36 Candidate lengths from bounds.** Integer/real arithmetic on the stepped slice.
* **C37 Validated shapelet lengths fit the series.** Case analysis; counterexample n=3.
* **C38 Refitting recomputes lengths from the original parameters (violated for fractions).** Object state machine; idempotence theorem and counterexample.
* **C39 Fit history leaks through min_len, max_channels and transform_type.** Object state machine.
* **C40 Padding of uneven series is lossless.** Induction on list.
* **C41 Subsampling keeps series, labels and lengths aligned (violated for variable length).** Object model; theorem for same length; counterexample for variable length.
* **C42 random_state determines fit.** Object model; functional dependence; counterexample.
* **C43 Fit then transform never fails on long enough series.** Composition of C19-C22 with C12.
* **C44 n_jobs normalisation.** Integer case analysis.
* **C45 Ensemble job split.** Integer arithmetic, counterexample on history.
* **C46 Thread count is global.** Trace model of constructions.
* **C47 Scaler keeps exactly the non-constant features.** List filtering plus real mean/variance.
* **C48 Shapelet importance vector.** Scatter/gather lemma.
* **C49 Best shapelets of a class.** Prefix of a sorted list, for every sorting permutation.
* **C50 Ensemble prediction.** Argmax fold.
* **C51 Ensemble weights.** Real arithmetic.
* **C52 Ensemble seeds depend on the schedule.** Shared generator as a trace of draws.
* **C53 Ridge classifier composition.** Composition, abstract downstream classifier.
* **C54 nb_unique.** Stable LSD sort correctness; loop invariants for the two `np.all` replacements.
* **C55 Stratified resampling is a partition.** Permutation lemmas per class.
* **C56 Cross-validation index recovery.** First-match lookup; counterexample.
* **C57 z-normalisation.** Real arithmetic.
* **C58 Holm correction.** Induction on the sorted list.
* **C59 Win/draw/loss counts partition the datasets.** countP partition.
* **C60 Average ranks.** Sum over pairs.
* **C61 Derivate.** Finite differences.
* **C62 Input validation.** Case analysis.
* **C63 Interpreters on unsupported models.** Object model of the attributes.
* **C64 Best match shown by the interpreter.** Index equality; real bound.
* **C65 Dataset loader minimum length.** Minimum of lists; composition with C43.
* **C66 Statistical comparison does not depend on row order (violated).** Counterexample and invariance theorem.
* **C67 Ensemble with labels that are not class indices (violated).** The leave-one-out accuracy is 0 for every member; the weighted vote is a matrix of zeros.
* **C68 A failed refit of R_DST_Ridge keeps the fitted classifier (violated).** Theorem over all failing fits, and a concrete fitted classifier.
* **C69 R_DST_Ridge refit is from scratch.** Induction over the history of fits.
* **C70 Distance features separate unrelated series.** From the well-formedness of the fitted set and the L1 distance.
* **C71 Interpreter class (violated unless the labels are 0..k-1).** The importance vector is indexed by position; witness with labels 1 and 2; the property is proved for labels 0..k-1.
* **C72 Cross-validation folds are independent.** Model the scoring loop over the object; by induction on the folds, using C69 (refit from scratch), it equals mapping a fresh fit over the splits.
* **C73 Pairwise plot layout and content.** Model the grid shape, what `plt.subplots` returns and the indexing; arithmetic of `i / ncols`, `i % ncols`.
* **C74 Bars of the critical difference diagram (violated in general).** Clique enumeration is abstract with the documented law; from the law and the adjacency of the pairs; a concrete diagram violating the converse.
* **C75 Axis of the critical difference diagram.** From the bounds on average ranks (C60) and linear arithmetic.
* **C76 Labels of the critical difference diagram (overflow for many classifiers).** Index arithmetic of the two label loops.
* **C77 Saving of the critical difference diagram (violated).** Composition of C58 and C60 with the drawing; the saved file is part of the result.
* **C78 Repeated fits of one R_DST object (violated).** Induction over histories of successful fits with C42 (one draw per fit); a concrete object whose refit returns a shapelet of another length.
* **C79 Exactly which sets of shapelets fit can return.** Soundness from the loop invariant of C19-C25; completeness by reachability lemmas for every random primitive (`Reach`), for the four sampling steps, the parallel loop and the initial parameters. The same construction gives the counterexample of C25.
* **C80 Cloning R_DST.** Model of the constructor with object identities and of `clone`; `lower` creates a new object, so the identity check fails for every argument list; the other checks are stable on values they accepted, which gives the exact error for objects just built.
* **C81 Cloning the classifiers.** Every check of the two constructors is stable: it returns its argument itself when it is (a copy of) a value it returned before. Induction on the list of assignments.
* **C82 Random state of clones.** The stored generator is found through the list of assignments; its copy has a fresh identity (counter argument) and the same state.
* **C83 Class labels are only names.** The fitters look at labels only through equality with one label (`pickOther`), so the steps, hence the programs, are equal after an injective renaming; lifted through subsampling to `fit`.
* **C84 Change of units.** The steps of the four fitters commute with `v ↦ c v + b` as programs (draws included), group by group; `Spec/Units.lean` says what the shapelets and rows become; windows, distances and features are then scaled. Lifted to `fit`/`transform` on objects for arrays and lists. The offset restriction of the univariate functions is shown necessary (`C84_offset_loses_shapelets`).
* **C85 Predictions and units.** The scaler divides each column by its own spread, so multiplying a column of the feature matrix by a positive number changes neither the kept columns nor the scaled matrix (`scaler_units`); the learner, any function of the scaled matrix, then gets the same input. Combined with C84 for `fit`, `predict` and `score` of `R_DST_Ridge`.
* **C86 Lifecycle.** Induction over histories of calls: a failed `fit` leaves the shapelets and, once known, the transform type; a successful one makes the type definite. For the ensemble, weights are written last.
* **C87 `RandomState` instance.** One draw per successful fit (C42) through `_init_components`; induction over the number of fits; `fit` depends on the earlier life of the classifier through its parameters and generator only.
* **C88 Whole datasets.** `loadAll` with the exact condition of `np.concatenate`; positive theorem for one shape, `ValueError` as soon as two lengths differ.
* **C89 Small changes.** Lipschitz bounds of the L1 distance and of z-normalisation (mean, standard deviation, quotient), then of minimum, first minimiser and count; lifted through `fitted_array`/`fitted_list` (every successful fit gives shapelets whose `transform` is `shpRow`). Counterexample at the threshold.
* **C90 Longer recordings.** The distances of the longer series contain those of the original one as a block; counterexample with phase invariance.
* **C91 Random input transformers of an ensemble.** The ensemble is modelled again over a heap of transformer objects; without random transformers it refines the model of C45-C50. An invariant over the members in the order of execution; witness with one object listed twice.
* **C92 Series of different lengths and the ensemble (violated).** A member whose transformer raises makes fit raise; with Raw only, the fit of each member on lists is total and keeps at least one shapelet (C32), then as C50.
* **C93 FastHankelTransform.** SciPy's offset function is transcribed, with the phase of the gamma function as a parameter; the low-ringing condition is the specification. For the default parameters the phase is taken in its high-frequency form.
* **C94 Grid searches give the scores of cross-validations.** `GridSearchCV.fit` is described as documented (clone, folds, failures as `nan`, refit of the best candidate); folds and labels come from C55/C56, the independence of the folds from C72, the failing clone from C80. Violations on concrete data. `C94_param_grid` takes for the candidates keyword arguments of `set_params` (model of C108): each row holds the scores of the classifier constructed with them.
* **C95 Rounding and summation order change features by a known relative error only.** The model of the code is instantiated with a `Scalar` whose operations are the real ones followed by an arbitrary monotone rounding of relative error `u`; the standard `(1 ± u)^n` analysis by induction on trees of additions gives the distances, monotonicity the features.
* **C96 Rounding of z-normalised windows costs an error proportional to amplitude over deviation.** The model over `Fl r` (C95). Every computed number is the exact one times a factor between `(1-u)^k` and `(1-u)^-k`; the mean has an absolute error `μ`, and the root mean square of the deviations from a wrong mean lies between the standard deviation and the standard deviation plus `μ`.
* **C97 Interrupted benchmarks can be resumed without losing or mixing up results.** The loop as a function that gives the successive contents of the file; histories as an inductive predicate over kill points; invariants by induction on the history and on the loop.
* **C98 What the constructor of R_DST accepts, stores and changes.** Case analysis of the constructor in the order of its checks against a list of conditions and a list of attributes stated separately.
* **C99 Parameters of the ensemble reach its members.** Constructor modelled check by check; members from the steps of a successful fit and C98; for normalize_output the two runs are compared step by step.
* **C100 fit in floating-point arithmetic.** The proofs of the loop of fit are generic in the arithmetic; what they need of it (dilation draws in range, inverse of the cumulative distribution found, percentile inside the array) is proved for any rounding with a relative error bound and accurate log2 and 2**x, and for doubles.
* **C101 Order of the training samples and of the channels.** By C79 the results of fit are those allowed by the rules of Spec/Fit.lean; the rules are shown invariant under renaming of samples and channels, and reordered inputs are renamed training sets.
* **C102 Probability of every outcome of fit.** Measure-theoretic: `Fair` says what an ideal generator is (uniform draws, independent of the next state). A calculus of exact probabilities of RM programs (Proofs/Law.lean) is applied to the draws, to the initialisation, to one step and to the loop of one group of shapelets; the groups are independent because each parallel iteration starts from its own state (product measure). `Tape`, an infinite list of uniform numbers, is shown to be Fair. Assumption to keep in mind: the states of the parallel iterations are taken as independent with the same law.
* **C103 Parameters of the shapelets are independent of the data.** Marginal of C102: the parameters are drawn by the initialisation, whose law is computed draw by draw; `paramsLaw` mentions neither the series nor the labels.
* **C104 Equal lengths against the method for different lengths.** True for a single shapelet (proved: nothing is blocked yet, so all series have the same number of admissible positions). False in general: concrete training set with two shapelets where one outcome has probability 1/12 with one method and 1/8 with the other; the code has a TODO about it.
* **C105 Series with missing values.** Fourth instance of `Scalar` with a NaN passed on by operations and refused by comparisons; the transform theorems C01-C04 hold for it as they hold for every instance. Induction over the scan gives the features; windows with a missing value have distance NaN, with and without z-normalisation. Source semantics only: the kernels are compiled with fastmath, which lets the compiler assume that there is no NaN.
* **C106 Repeated values in alphas_ridge.** `Model/Alphas.lean` models the selection `np.where(self.alphas == self.alpha_)` and the array of indices handed to `accuracy_score`; with distinct values it is shown equal to the model of `Model/Classifiers.lean`; with a repeated chosen value `fit` fails after the members, for every successful run of that model.
* **C107 Training series with missing values.** The generic proof of the loop of fit (C100) is instantiated with the arithmetic with NaN of C105: the draws are numbers, a percentile of distances with a NaN is NaN (numba's `_can_collect_percentiles`), and a distance is NaN exactly when the window or the shapelet contains a missing value. Source semantics only: the kernels are compiled with fastmath.
* **C108 set_params is the same as constructing with the new values, for the values the constructor stores unchanged.** set_params is a fold of setattr over the arguments (scikit-learn's BaseEstimator, not in /repo: its documented behaviour is modelled). An object whose attributes were stored that way keeps, beside the attributes of a constructed one, what the constructor would have converted (list of lengths, float count, type as written, short tuple of percentiles, integer seed). A simulation relation with the constructed object is kept by every call; where the constructor converts or refuses, the difference is proved instead.
* **C109 The three minimum-distance functions timed by early_vs_material.py return the same number.** The inner loops are recursions over the positions, with and without the break; the outer loop a recursion over the list of windows. A partial sum that has passed the current minimum stays there (exact and rounded arithmetic: adding an absolute value never decreases a rounded number, because rounding is monotone and idempotent; with NaN: it becomes NaN), so the abandoned window would not have been the new minimum. Keeping the minimum is commutative, hence the order is irrelevant. `rndBin_idem` proves the idempotence for the 53-digit rounding.
* **C110 Infinite values, overflow and underflow in transform.** `Ieee F` is the scalar type nan / inf / finite with results rounded and replaced by an infinity beyond the largest number; `FloatFormat.float64` is the instance with 53 digits, least number 2^-1074 and largest below 2^1024. Sums of multiples of the least number are multiples of it, so additions, subtractions and absolute values never underflow, and the sum of absolute differences is the one of the unbounded range or inf. The scans are then computed on a list of distances with some replaced by inf. The bound on the magnitude multiplies the growth of the rounded sum. Source semantics only for infinities: the kernels are compiled with fastmath, which lets the compiler assume that there is no NaN and no infinity and reorder sums.
* **C111 transform leaves the caller's arrays and the fitted model unchanged under every interleaving of its memory operations.** A program is a tree of memory operations over a heap of buffers and every iteration of the double `prange` loop is a thread; a step is one memory operation of one thread. A weakest-precondition calculus gives each thread the frame it may write (its own cells of the result, and buffers it allocated itself); an invariant over all reachable configurations combines the threads (every thread's precondition survives the steps of the others because the frames are disjoint). Termination by the cut-expand order on the multiset of the remaining programs. The final matrix is identified with the one of the value model by `C07`'s stores.
* **C112 fit is free of data races: its result does not depend on the interleaving of its threads' memory operations.** Each worker of the `prange` loops is a program of memory operations over a heap whose buffers hold numbers, flags and indices; its generator state is private. A weakest-precondition calculus with a frame (cells the thread may write, cells it may read) is related to all interleavings by one general theorem: threads whose write cells are disjoint, and which read only what they may write or what nobody writes, have one possible final memory, that of running them one after the other (`parallel_eq`, by an invariant over reachable configurations). Every sampling step in memory is proved to simulate the step of the value model on the mask and result arrays held in the heap. Disjointness: mask cells by dilation index, result rows by shapelet index, channel blocks by the monotonicity of the offsets. The sequential execution is then the one of the value model, for which C19-C22, C100 and C107 hold.
* **C113 fit never fails because of infinite, missing, huge or tiny training values, and shapelets with values that are not finite get the threshold NaN and the same features for every series.** `Ieee F` is a format with a bounded range. `Ranged` lists what is asked of the format (monotone rounding, accurate `log2` and `2**x`, exact integers up to N); `C113_float64` proves it for `float64`. The draws of dilations, the weights of `choice_log` and the ranks of percentiles are shown to stay finite and in range, so that the generic theorem on `fit` in any arithmetic applies. Distances to a vector with a value that is not finite are `+∞` or `NaN`; interpolating between such distances gives such a value, and the difference of two of them is `NaN`, hence the threshold.
* **C114 Asking for no shapelets gives a usable empty transformer, except with prime dilations where fit raises.** Everything before the call of the fitter is shown not to depend on `n_shapelets`; the four fitters are then evaluated on `n_shapelets = 0` (the loop over dilations is empty; the maximum of no bounds is an error). `transform` follows from the row theorem on the empty set.
* **C115 Shapelet parameters are independent; an offered length may stay unused and the number of normalised shapelets is binomial.** The law of the parameters (C103) is summed over the countable disjoint events `SameParams`: outside a finite grid the weights vanish, and inside it the sum of products factors into the product of sums. The weights of lengths, flags, channels and dilations sum to one (telescoping logarithms; induction over primes). The binomial law adds the sets of normalised indices.
* **C116 The sampling rules of fit hold in floating-point arithmetic, with missing and with infinite values.** `Spec/Sampling.lean` states the rules over any arithmetic, with the limit and the comparison of channels as computed. The four step functions, the loop over dilations and the four generate functions are followed without any law of arithmetic (`Proofs/SamplingSteps.lean`, `Proofs/SamplingAll.lean`); the rules on returned shapelets follow in `Proofs/SamplingRules.lean`. The object theorems of C100, C107 and C113 give the three instances, and the limits are bounded in each arithmetic. The count of shapelets follows from the rules: a dropped shapelet means that every series has been used before (`Proofs/SamplingCount.lean`).
* **C117 The limited range of float64 does not affect transform on data of moderate magnitude.** `Spec/Double.lean` states what double precision is (numbers of 53 digits, exponents from -1022 to 1023, any rule for ties) and which data are moderate. `Proofs/Double.lean` follows the magnitudes and the spacing (multiples of powers of two) of every intermediate result of the normalisation and of the sums, which gives equality with the unbounded rounded arithmetic; `Props/Double.lean` lifts it to `transform` for every kind of input, and combines it with C96 for the accuracy.
* **C118 No NaN and no infinity appears in fit and transform on float64 data of moderate magnitude.** C113 gives totality and the origin of every value and threshold in the bounded range; C117's lemmas bound the windows and the distances; `Proofs/DoubleFit.lean` bounds the rank, the interpolation of the percentiles and the drawn threshold, and the cells. The bounds are powers of two followed through each operation.
* **C119 Which features the scaler of the classifier keeps in floating-point arithmetic.** `Proofs/ScalerAny.lean` computes the scaler in any arithmetic; `Proofs/ScalerFloat.lean` shows that a rounded standard deviation is 0 iff all values equal the computed mean (a rounded sum of squares is 0 iff all are), and that the mean of a constant column is exact when its multiples are representable. The two exceptions are computed in double precision.
* **C120 R_DST_Ridge gives finite numbers only to its linear classifier on float64 data of moderate magnitude.** C118's bounds give features of magnitude at most 2^409; `Proofs/ScalerDouble.lean` bounds the means, shows that a deviation is 0 or at least 2^-537 (no smaller positive square exists), so that the scaled values stay below 2^947. `Proofs/LinearAny.lean`: the linear model chooses a class in any arithmetic.
* **C121 On digitised data the raw-series features are exact in double precision, whatever the order of the sums.** `Spec/Digital.lean` defines digitised data. `Proofs/Digital.lean`: by induction on the tree of additions, a sum of n integers of at most C steps is an integer of at most nC steps, hence never rounded while nC ≤ 2^53. Combined with C95 (every distance is such a tree of rounded additions) and C100 (shapelets learned by fit are windows of the training series).
* **C122 The vote of the ensemble in double precision: finite, bounded, and faithful to a unanimous clear margin.** `Spec/DoubleVote.lean` states what is assumed of the exponential and what it means for a member to give finite scores. `Proofs/DoubleVote.lean`: the differences to the maximum are non-positive, so the exponentials are in [0,1] and their sum is at least 1; induction over the classes and over the members bounds the sums; monotony of rounding gives the order, and exactness of doubling in binary keeps a factor of two between the preferred class and the others through the softmax, the weights and the sum.
* **C123 Fit of the ensemble in double precision on data of moderate magnitude.** `Spec/DoubleEns.lean` states moderate arrays, what is assumed of RidgeClassifierCV and of the power, and what a finite member is. One member: `fit` and `transform` of R_DST in double precision (C118) and the standard scaler (C119) give finite matrices. Induction over the order of the members carries success or the `ValueError`; the leave-one-out accuracy is a rounded quotient in [0,1], and so is its power.
* **C124 Rounding changes a prediction of R_DST_Ridge only within a computable margin.** `Spec/RoundedRidge.lean` defines the size of the terms, the contribution of the features and when scores are clear. `C124_any_order`: a sum tree over the rounded products is within the bound (C95's `SumsTo`). `C124_predict` instantiates it for the model's order of summation and compares the index chosen with the exact one. `C124_digital` puts C121 under it. `C124_double` gives the size in double precision.
* **C125 Flat training series give no normalised shapelet, up to rounding.** `object_uni` reads a univariate fit in any arithmetic as the trace of C100. A window of a flat series is flat (`window_flat`); its normalisation is zero when the mean is exact (`mean_flat_digital`), and at most `flatResidue` otherwise (`znorm_flat_small`). The violation evaluates double rounding on five equal numbers.
* **C126 Recordings played backwards.** `window_reverse` identifies the windows of a reversed series, `mirror_perm` shows that mirroring permutes the starting points, so distances are permuted and percentiles, minima and counts stay. `near_mirror` shows that the overlap mask is symmetric when both shapelets have the same span; `law_mirror` then compares the law of C102 factor by factor. The violation uses C79: a completeness witness on one side and soundness on the other.
* **C127 The order of the samples and channels does not change the probability of any result of fit.** Each factor of the law of C102 is shown not to depend on the numbers (`Renamed.channelWeight`, `posWeight`, `testWeight`, `stepWeight`), with the renumbering already used for C101.
* **C128 Every training sample of a given length is equally likely to provide a shapelet, and no class is favoured.** The law of C102 is summed over the threshold samples and the thresholds (`SourceLaw.measure_key`): what remains is a weight that depends on the training set only through the number and the lengths of the samples, and is invariant when samples of equal length are permuted (`SourceLaw.srcWeight_moved`). Every event about sources is a countable disjoint union of such outcomes. Specification: `Spec/Sources.lean`.
* **C129 Members of an ensemble standardise all features with the statistics of their training series.** `fitPlainScaler` and `plainTransform` are compared, column by column, with the formula `standardised`, which is written with the cases of C47; `C129_members` goes through a successful `Ensemble.fit`.
* **C130 The place of the next shapelet depends on the parameters and the earlier places only, and on the lengths but not the values of the series.** The law of C102, thresholds and threshold samples summed out (`SourceLaw.measure_key`), is summed over the later shapelets by downward induction on k (`SourceLaw.measure_upto`): the weight of shapelet i depends on the keys of the earlier ones only, and the weights of all possible channels and places of one shapelet add up to 1 (`SourceLaw.sum_next`). Specification: `Spec/Places.lean`.
* **C131 max_channels above the number of channels: fit is all or nothing, and how often it raises.** If all drawn numbers of channels are at most n_features the loop invariant of C21/C22 applies unchanged (`ManyChannels.mslGenerate_fits`, `mvlGenerate_fits`); if one is larger, every run that ends without error would have run the step of that shapelet successfully (`fitLoop_step`), which the draw without replacement excludes (`choiceNoRep_inv`). The probability comes from the exact law of the parameters (C115), summed over the grid of parameters (`ManyChannels.sum_fit`).
* **C132 Recordings at a multiple of the sampling rate.** The windows of the held recording are the windows of the original one, each r times in a row; hence the list of distances is the old list with each entry held r times (`C132_distances`, any scalar type), and the scan over it gives the same minimum and r times the position and the count (`C132_transform`). `C132_predictions` follows because the scaler divides each column by a spread which the factors 1 or r change alike. `C132_dilations_needed` is a concrete pair of recordings.
* **C133 Phase invariance and periodic recordings.** The windows with wrap-around are the windows of the periodic continuation, read modulo the length, so that the lists of distances are periodic themselves (`C133_distances_periods`, `C133_distances_continued`, any scalar type). A scan that meets the same distances again keeps the minimum and its place (`scanMin_again`), which needs only that `<` is transitive and irreflexive, true of float64 with NaN and infinities. Predictions: as in C132, the scaler undoes the factor of the counts.
* **C134 The values of a series that a shapelet looks at.** `Spec/Reads.lean` says which points are under a value in some window. Windows, hence distances, hence features are functions of these points (`C134_distances`, `C134_transform`, any scalar type; `C134_predict`). `C134_points`, `C134_all_points`, `C134_points_wrapped` give them in closed form. `C134_needed`: a constant series above all values of the shapelet, and the same with the point lowered: the windows that contain it get nearer, the least distance drops. `C134_fit_object_same_length`, `C134_fit_object_variable_length` (`Props/ReadsFit.lean`): a whole `fit` call on data with the same first channels leaves the same world, result and object, up to `max_channels`, which is set to the number of channels.
* **C135 Phase invariance only adds windows.** `Spec/PhaseSwitch.lean` states the relation of the two rows. `C135_distances`: the list of distances without wrapping is a prefix of the one with it, in any arithmetic (window indices stay below the length of the series, so `%` does nothing). `C135_transform`: features of a list and of a longer one (as in C90). `C135_no_span`: no window is added. `C135_accepts`: `transform` does not fail with wrapping where it succeeded without. Both are about `transform` of one object whose attribute `phase_invariance` is changed.
