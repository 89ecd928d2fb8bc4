# Formal model of kalepy in Lean 4

`/repo` (lzkelley/kalepy, pinned commit) is modelled function by function under
`lean/Verif/Model/`. Specifications that do not use the model's helpers are under
`lean/Verif/Spec/`. Helper lemmas are under `lean/Verif/Proofs/`. One theorem (or a small
group) per property of `properties.jsonl`, with an `example` beside it that its hypotheses are
satisfiable, is under `lean/Verif/Props/`. `MANIFEST.json` maps properties to theorems.

## Modelling decisions

* **Numbers.** Arithmetic code is modelled over an arbitrary linearly ordered field `K`
  (so results hold for ℚ, where the model runs, and ℝ). Code that needs sqrt, exp, powers, π or
  integrals is modelled over ℝ. In these models floating-point rounding, overflow, NaN and infinities are *not*
  modelled, except where NaN/inf is itself the subject (weight validation, C16).
* **Rounding.** `Model/Rounded.lean` models the evaluation of densities and the sampling of grids a second time, with a
  rounding `fl : ℝ → ℝ` after every arithmetic operation. `fl` is arbitrary up to a relative error (`Spec.Accurate`), or
  rounds to a nearest number with `p` binary digits (`Spec.Nearest`), with ties broken in any way. Exponents are unbounded
  (no overflow or underflow); exp, log2, powers and sqrt are the exact functions followed by a rounding. Used by C135 to C137,
  for automatic edges and quantiles (`Model/RoundedEdges.lean`) by C144 and C148, for the cumulative distribution
  (`Model/RoundedCdf.lean`) by C149, and for grids and midpoints (`Model/RoundedSpacing.lean`, with arbitrary functions for
  log10 and powers of ten) by C154. C156 and C157 take the models of C135 and C136 with gradual underflow, i.e. with a smallest
  exponent (`Spec/Underflow.lean`). C158 adds the errors of the whitening matrix and the norm, which are results of numpy and scipy, as
  given bounds. C161 allows any behaviour beyond a largest number (overflow).
* **Arrays.** A (D,N) data array is a `List (Fin D → K)`: the list of its columns, i.e. of data
  points. `np.append(..., axis=-1)` is list append; boolean masks are filters. D-dimensional arrays are a
  shape and an index function (`NDArr`), compared on valid indices.
* **Exceptions** are values: `Except PyErr`.
* **Randomness.** Every random draw is an argument (an arbitrary stream). Theorems hold for all
  streams, or for all streams with the range numpy guarantees ([0,1) for `random.uniform`).
  For C48 and C49 the distribution of the draw is Lebesgue measure.
* **External library calls** (numpy/scipy) are modelled by their documented exact-arithmetic
  behaviour, in `Model/Np.lean` and `Model/LinAlg.lean`. `np.argsort`/`np.sort` on ties is unstable,
  so the code's argsort results are arguments restricted only by "is a sorting permutation".
* **Mutable state.** Lazy caches are fields of a state record and methods are state transformers.
  Aliased Python lists (cumtrapz padding, `_parse_extrema`) are modelled with an explicit store.
* **Python arguments.** Where the code inspects the form of an argument (bandwidth, reflect, extrema, edges, params,
  kernel), the argument is a value of an inductive type listing the forms the code distinguishes.
* **Plotting.** What a plotting function draws is the list of its drawing calls with their coordinates; how matplotlib
  renders them is not modelled. `Corner` is a record of panels, stored limits and stored defaults.
* **Outside the model.** An execution that leaves the modelled part (NaN, infinities, ragged numpy conversions) ends in
  the error `PyErr.unmodelled`; a theorem about results says nothing about such a run, and no theorem claims one.

## Trusted base

* Lean 4.33.0 kernel and Mathlib. The axioms of every theorem of MANIFEST.json are listed in `AXIOMS.md` (output of
  `#print axioms`); no others than `propext`, `Classical.choice` and `Quot.sound` occur.
* The transcription of /repo into `Verif/Model` (each definition cites the lines it models). `INVENTORY.md` lists every
  function of /repo with the definitions that model it, and the functions that are not modelled.
* The exact-arithmetic reading of numpy/scipy primitives: cumsum, diff, linspace, interp, searchsorted, argsort,
  meshgrid/ravel (C order), unravel_index, choice, inv, det, cov, RegularGridInterpolator, trapz, pad, histogram, gradient,
  percentile. `np.linalg.cholesky` is an algorithm in the model and is proved correct.
* `np.linalg.pinv` (used for singular matrices) and `scipy.stats.norm.ppf` are uninterpreted functions (`Ext`), so nothing
  is claimed about their values.

## Not modelled

* Floating point other than in C135 to C137, C144, C148, C149, C154 and C156 to C158 and C161 (overflow only in C161, underflow only in C156 to C158 and C161, NaN
  only in C16, C145 and C146); numba compilation; how matplotlib renders what it is asked to draw; logging and warnings other than those of `KDE._finalize`; integer
  arrays except where the element type is an argument (`DType`).
* the formatting of single numbers, colours and colour maps other than
  `_color_to_cmap` and `_invert_color`. The complete list is in `INVENTORY.md`.
* Private functions that nothing in the package calls: `Kernel._get_truncation_bounds` (its only call is commented out, `kernels.py:330`) and
  `utils._prep_msg`. `utils._ndim` is `np.ndim` with warnings silenced; where it is used, the number of dimensions is part of the type of the model.
* The statistical quality of random generators. Theorems about single runs hold for every outcome of the generator; C84
  takes the distribution and independence of the numbers as a hypothesis (`Spec.RandomNumbers`), which is shown to be
  satisfiable.

## Plan per property

| id | model | proof |
|----|-------|-------|
| C01 | `Kernel.density` as a function on lists of points incl. reflection loop | map/append induction over the reflection steps |
| C02 | whitening with an explicit Cholesky algorithm, inverse, det | UᵀU = A by block recursion, quadratic form identity |
| C03 C04 C05 | `_evaluate_numba` sum | list sums, induction over reflection steps |
| C06 | constructor: neff, cov, bandwidth, matrix | scale cancellation |
| C07 | distribution norms + density | polar coordinates (`integral_fun_norm_addHaar`), Beta/Gamma integrals, change of variables by the whitening matrix |
| C08 | constructor + density | covariance transforms as A C Aᵀ; quadratic form invariant |
| C09 | eff_extrema + density | Cauchy–Schwarz in the M⁻¹ metric |
| C10 | params submatrix | Gaussian: Schur complement integral; Box: counterexample (claim false) |
| C11 | reflection loop | claim false for ≥ 2 reflecting dims (witness); partial: last reflecting dim, also for the class |
| C12 | reflection loop, any dimension | exact mass formula; claim false in general (two close boundaries; corners); partial: one boundary, or a finite kernel that fits; bound by one; for the pdf of one parameter of several (`C12_marginal_partial`) from C82 and the one-dimensional folding, whatever the other boundaries and correlations |
| C13 | reflection loop | unfolding |
| C14 | state machine with caches | cache invariant, induction over call histories |
| C15 | meshgrid / ravel / reshape | ravel–unravel bijection |
| C16–C19 | constructor | case analysis; Cauchy–Schwarz; Schur product with ones |
| C20 C21 | `_check_reflect` on a syntax of Python arguments | case analysis; C21 false for negative data (witness), partial for positive data |
| C22 | `_parse_extrema` with list store | false for aliased rows (witness); partial: per-dimension rows or no missing bound |
| C23 | from_hist | false for non-uniform bins (witness), partial uniform bins |
| C24 | string lookup; the names of the classes and the list of all classes (`Model/Registry`) | case analysis; `C24_all` by induction over the loop that skips classes already seen |
| C25 | keyword routing | claim false: always TypeError |
| C26 C27 C31 | `_resample_reflect` loop as recursion with fuel = MAX | loop invariant |
| C28–C30 C33 | `_resample_clear` | pointwise |
| C32 | `_reflect_data`, `_truncate_reflections` | false: mirror images are all dropped |
| C34–C45 | utils | list induction |
| C46–C54 | sample.py | invariants of csum/argsort/searchsorted; Lebesgue measure of intervals |
| C55–C60 | plot helpers | list induction |
| C61 | cdf | ND multilinear interpolation of a monotone grid |
| C62 | add_cov/rem_cov | matrix algebra |
| C63 | triweight CDF | derivative, monotone |
| C64 | `_check_reflect` with an explicit store for the caller's list | false: True entries are overwritten (witness); partial otherwise |
| C65 | `Kernel.density` with the element type of the data array (float or int) | false: mirror images truncated (witness); partial for integer and half-integer boundaries; exact formula in 1D |
| C66 | `resample(keep=True)` | pointwise, from C28 and C30 |
| C67 | `_sigma_to_quantiles`, `_quantiles_to_sigma` | inverse functions of the normal cdf (monotone, symmetric) |
| C68 | `dist1d`'s call of the confidence bands | false: weights dropped (witness); partial without weights |
| C69 | mutable default dictionaries of Corner's methods as a store threaded through calls | false for later calls (witness); partial for first calls |
| C70 C75 | layout of the corner axes for each origin | case analysis on panel indices |
| C71 | limits of scatter/carpet, alpha | list extrema |
| C72 | smoothing and upsampling of 2D histograms | false for upsample=False; partial otherwise |
| C73 | hist1d masking | false for zero bins; partial: negative bins |
| C74 | arguments of the drawing calls of Corner's methods | false for hist and stored data; partial for others |
| C76 C77 | Sample_Grid scalars, sample_grid_proportional | exact formula for the scalar; false for bins of volume ≠ 1 (witness) |
| C78 | spacing, bins | even and logarithmic grids, ceiling bounds |
| C79 C80 | `_Distribution.evaluate`, `grid` | integrals of C07; index bijection of C15 |
| C81 | `inside` | false for Gaussian, 1D arrays, the sphere of Box; partial otherwise |
| C82 C83 | `KDE.density` with params, stored boundaries, default points | closed form of the reflection loop for the restricted matrix; equality of call results |
| C84 | `resample` as a random variable (random numbers specified in `Spec/Random.lean`) and `pdf` | law of the choice, law of the noise (Gaussian product, median of three uniforms), change of variables, mixture; false for all other kernels and dimensions and for all data: second moments (parabola, triweight) and mixed fourth moments (box) differ, so the claim is characterised exactly |
| C85 | moments of `pdf` and of samples | second moment of a radial kernel from its integral in two more dimensions, symmetry, change of variables, sum over the data |
| C86 | moments of samples for all kernels | law of noise and choice for all four samplers; direction of a Gaussian vector, moments of the radius (exact for the box, up to the table for the triweight); false for the parabola from two dimensions on and for the triweight, for all data |
| C87 | independence of samples | product measure of the random numbers of the single samples; each sample is one measurable function of its own numbers |
| C88 | `hist2d` | histogram as a sum over the points in each cell; exactly one cell for each point within the edges; sum over all cells |
| C89 | `hist2d(mask_below=...)` | exact rule for hidden cells; false for cells of area 10/9 or more, concrete counterexample |
| C90 | `carpet` positions | selection without repetition as oracle; positions are a sub-multiset of the data |
| C91 | `carpet` sizes | monotone if the median of the (logarithmic) weights is positive; counterexample otherwise |
| C92 | `carpet` on any axis | success for non-negative dispersions; always an error for a negative upper axis limit |
| C93 | arrays of samples | shapes by cases; false for one sample in one dimension |
| C94 | `reflect` of `None` only | rows without boundaries change no density (fold of identity steps); extrema by cases on the number of parameters |
| C95 | components of `dist2d` | composition of scatter, medians, histogram and padded contour grid; each shown to come from the same two parameters |
| C96 | success of `dist2d` | edges from the extrema cover all data, so the histogram is not empty and levels exist; failure for incomplete boundaries by evaluation |
| C97 | `mask_below` of `dist2d` | the lowest level is the positive density of some bin, so this bin is hidden |
| C98 | success of `hist1d` | case analysis over edges, weights and kind of sequence; histogram exists because the edges increase |
| C99 | area of the curve of `hist1d` | trapezoid area of the step polyline by induction over bins; sum of bin weights from C44 |
| C100 | components of `dist1d` | inversion of the composition; density of a row of points reduced to single points |
| C101 | normalisation in `dist1d` | marginal density from C07/C10, integral over the line; histogram area from C99; with boundaries (`C101_reflect`) from `C12_marginal_partial` |
| C102 | `edges` of `dist1d` | evaluation of `density` for each kind of `edges`; refuted for numbers of bins |
| C103 | `dist1d` of data | C98 and C99 through the composition |
| C104 | panels of `Corner.plot_kde` | inversion of the loops over the panels; C45 for the edges, C100 and C95 for the panels; `C104_default`: the components of the default settings |
| C105 | panels of `Corner.plot_kde` | edges from C45, curves and contours from the success theorems of densities and `dist1d`, `dist2d`; with boundaries (`C105_reflect`) from C82 and C05, where the given edges of the panels avoid the failure of C96 |
| C106 | `contour` | success from C88; padding and levels from C55, C58; fractions from the sums over bins; refuted for padding |
| C107 | panels of `Corner.plot_data` | as C104, for data; `dist2d` of data is that of their KDE; success from C110; `C107_default`, `C107_kde_default`: the components of the default settings |
| C108 | `corner` | the weights reach `Corner.plot` only, after a KDE has been stored; refuted |
| C109 | `KDE.__init__` extrema | sign of the normal quantile (`Proofs/NormalQuantile.lean`); refuted for effective numbers below 2 |
| C110 | `KDE.__init__` with defaults | positivity of the covariance factor and of the effective number minus 1 (C17) |
| C111 | `_resample_reflect`, its rejection loop | the loop run on the positions of the candidates depends only on which are accepted; finite sum over acceptance patterns under the product law (`Proofs/Rejection.lean`); success: noise near zero has positive probability |
| C112 | `KDE.resample` without boundaries | independence and the law of the samples (C84) with Hoeffding's inequality from Mathlib; conversely, frequencies that follow the density for all sizes force the law to be the density, which C84 excludes for the other kernels |
| C113 | `Sample_Grid.sample` | random numbers as measurable functions with uniform independent laws; sorting independent draws preserves the law of the positions that follow them (skew product over the sorting permutation); masses of bins from the lengths of the intervals of the cumulative masses; the order by induction on the sorted list; two samples of unequal bins refute independence in the returned order; with interpolation, the distribution function of the position is inverted (strictly increasing on the part of the bin that is used) and compared with the integral of the linear density; two linear densities with different slopes differ on half the bin |
| C114 | `Sample_Outliers.sample` with uniform and Poisson random numbers | the outliers are the samples of a grid with the high masses removed (C113); conditioning on the Poisson number of outliers leaves the uniform numbers uniform and independent; the expectation is the sum over the numbers of outliers; centroids lie strictly inside their bins (C41) |
| C115 | `KDE._finalize` as the list of messages it logs, `KDE.__init__` with it | extrema decide the largest distance of logarithms (via C34); the condition for the tiny-elements warning contradicts the enclosing `isclose` test: refuted, exact condition for the other warning |
| C116 | `quantiles` with axis 0 or 1 of 2D arrays, with numpy's in-place broadcasting | each line reduces to the 1D model (C35); exact shapes for which axis 0 raises `ValueError`; a square array with wrong quantiles |
| C117 | `array_str`, `stats` with any element formatting, Python slices with negative bounds | case analysis on the slices; `num=0` and the missing shape refute the full claim |
| C118 | `stats_str` for float and integer element types, any formatting | text equals an independent join of the requested parts; truncation of integer quantiles and `percs=None` refute the full claim |
| C119 | `_guess_str_format_from_range` | extrema of values of one sign are extrema in size; mixed signs refute |
| C120 | `Corner.legend`: which anchor, `loc` and transform reach matplotlib | case analysis; `np.argwhere`-like choice of panel from C70; dropped box and overwritten `loc` refute |
| C121 | `run_if*`, `_python_environment` as functions of the text of the class of the shell, `nbshow` | substrings decide the environment; a hosted shell refutes |
| C122 | `_color_to_cmap`, `_invert_color`, matplotlib's RGB/HSV conversions | ranges of the conversions, round trip RGB-HSV by the six sectors; grey colours refute |
| C123 | `KDE.__init__` (default covariance `np.cov`, bandwidth) and `KDE.pdf` on the first n of independent random points | mean of the kernel average by the peak-function theorem, its variance by independence (Chebyshev); the data covariance tends to the true one by the strong law, and kernels with nearly equal matrices have nearly equal values |
| C124 | as C123, and `KDE.resample` | smoothing tends to the identity in L1 (continuity of translations), subsequences, dominated convergence and Markov's inequality; the deficit form of the L1 distance needs only a lower bound of the pdf by a pdf with a fixed matrix; samples by C84; with boundaries, the mirror images of the data are themselves independent data with the mirrored density, and the L1 errors of all of them bound that of the pdf (`Props/TotalVariationReflect.lean`); samples with boundaries by C111 |
| C125 | as C123 with `reflect` given as rows | the pdf is an average over the data of kernels at the data and their mirror images; the mean is the kernel smoothing of the density plus its mirror images, which near a point equals the density within a cone (at most one boundary violated) and 0 elsewhere; smoothing at the tip of a cone; corners refute |
| C126 | as C123 | the same with the cone of the box itself; symmetry gives the part of the kernel in the cone |
| C127 | the element type numpy gives to Python scalars and lists of them | induction over the fold of type promotion; exact characterisation; large integers refute |
| C128 | `jshape` on nested lists, as an object array with a number of axes | mutual induction; a jagged list with as many scalars as rows refutes |
| C129 | `_parse_color_cmap` over abstract colours and maps; `_cut_colormap` as linear interpolation of a component | cases; interpolation on an equally spaced grid is a convex combination of neighbours; a colour with a map refutes |
| C130 | the lines drawn, with level, colour and outline | lists of zips; fewer colours than levels refute |
| C131 | what `_figax` asks matplotlib for | arithmetic of clipping |
| C132 | `KDE.pdf`, with and without boundaries, as a function of the point | the pdf is the weighted mean of `Spec.kernelAt` (shape over its integral), plus one such mean for each boundary; bounds and limits of one kernel carry over; termwise comparison for replaced points; `C132_mostly`: the box kernel jumps only on the boundary of a convex set, which has no volume, and so do the cut-offs at the boundaries |
| C133 | constructor and pdf of independent data (as in C123), given covariance and bandwidth | exact mean from the common law; Hoeffding bound for the mean of `n` independent kernels in `[0, K(0)]` |
| C134 | constructor with weights and with repeated points | sums over the repeated points are weighted sums; `_refuted` with two points of weight 2 and the box kernel, covariances 1/2 and 1/3 |
| C135 | `_evaluate_numba` and `Kernel.density` with a rounding after every operation, the whitening matrix and the norm being given | calculus of approximations `(1+u)^k`; every kernel is Lipschitz in the rounded distance; the box away from its edge |
| C136 | `_data_to_cumulative`, `Sample_Grid` without interpolation and `np.random.choice` with roundings | rounding is monotone and fixes floats, so that cumulative sums increase exactly at positive masses and edges bound the samples |
| C137 | one-dimensional `Sample_Grid.sample` with interpolation, with roundings | `_refuted` by a nearly flat bin (witness outside the grid), and a nearly flat density with three possible samples; partial: error bound with the gradient in the denominator |
| C138 | `Model/Alias`: a memory of arrays and lists by address, the references a `KDE` object keeps (`_dataset`, `_covariance`, `_reflect`, `_points`), method calls on the current values (`Spec/Calls`), and in-place changes by the caller | the covariance is not read after the construction (`noCov_*`); an invariant over sequences of calls and writes (`SnapInv`: caches agree with the values at construction) gives `C138_partial`; `C138_stale` and `C138_returned` say exactly what a change of the data array and of a returned array of points does; both full claims are refuted |
| C139 | dictionaries of plot options as named objects; the `setdefault` calls of the five drawing methods of `Corner`, the `TypeError`s of colliding and unknown keys, and the options the panels are drawn with | false (`plot_kde`, then `plot_data`); partial when earlier users of the dictionaries were the same call or `plot_data`; contents of dictionaries characterised by induction over the `setdefault`s and over programs |
| C140 | `Sample_Grid` with each argument as a list or as an array of floats or integers: the attribute `flat` of the masses, subscripts and in-place sums of scalar masses | false (masses as a list); all forms compared with arrays of floats, case by case |
| C141 | memory of arrays by address; which arrays a `Sample_Grid` refers to and what it computed once; assignments by the caller | false (masses changed); partial without assignments to passed arrays, by induction over the assignments; what remains true after any assignments |
| C142 | matplotlib's check of contour levels (`axContour`): shape at least (2, 2), levels strictly increasing unless none is inside the range | false (equal levels for the default arguments); exact condition; partial for separated fractions and densities without large ties, by the masses above each level |
| C143 | `mask_dense`: its default, the array and coordinates it uses, its two levels, and matplotlib's check of them | what is covered: from the levels of the contours and the mask of the histogram; false that it never prevents the plot; exact condition with contours |
| C144 | `parse_edges`, `_get_edges_1d`, `_guess_edges`, `quantiles`, `np.interp` and `np.linspace` with a rounding after every operation (`Model/RoundedEdges.lean`) | rounding to nearest is monotone and fixes floats, so the ends cover the extrema; the last but one value of `linspace` is at most the end because its relative error is below one part in the number of bins; strictly increasing if the step exceeds the errors of two neighbouring values (range above 16 n units of rounding); with weights the effective number is computed to be at least 3/4 (errors of sums, Bernoulli), so that its logarithm plus one is positive; refuted for identical data by absorption of 1e-16 |
| C145 | `Model/Missing.lean`: values are `Option ℝ` with `none` for NaN; arithmetic propagates it, comparisons with it are false. `KDE.__init__` (covariance and weights), `_check_reflect`, `matrix_invert`, the whitening, `_evaluate_numba`, the reflections, `params` and `pdf`. Assumed, not proved: numba's `np.maximum` and `np.power` propagate NaN, an inverse of a matrix with NaN contains NaN in it or raises (`Spec.Propagates`), scipy's `cholesky` refuses matrices with NaN (its default `check_finite`). Not modelled with NaN: automatic points, `grid=True`, boundaries `True`. | `C145_covariance`, `C145_partial`, `C145_params`, `C145_box`, `C145_reflect`, `C145_points` by simulation of the sums of kernels by those of the complete points; `C145_refuted` with the data `[NaN, 0]`. |
| C146 | `Model/MissingResample.lean`: `KDE.resample`, `_resample_clear`, `_resample_reflect` (mirror images, truncation, weights, rejection loop) and `cov_keep_vars` on values that may be NaN; `bound_indices` with NaN is false in every dimension, also one with infinite bounds. Not modelled with NaN: `squeeze=True`, boundaries `True`. | `C146_plain` by simulation with any filled-in data, `C146_share` with the law of `np.random.choice`, `C146_partial`, `C146_reflect` by simulation of the rejection loop on the complete points, `C146_none`, `C146_covariance`; `C146_refuted` with the data `[NaN, 0]`. |
| C147 | `KDE.defaultReflect`, `reflectLength`, `KDE.density`, `KDE.resample` (`Model/KDE.lean`, `Model/Resample.lean`) and the constructor; automatic points are excluded because they depend on the stored boundaries through the extrema. | `C147_partial`, `C147_pdf`, `C147_params`, `C147_resample`: the two KDEs share data, weights and kernel, and the check of the given boundaries gives the stored ones; `C147_bool` and `C147_refuted` with `reflect=False`. |
| C148 | `quantilesFl` (`Model/Rounded.lean`): `utils.quantiles` with every operation followed by a rounding `fl`; rounding to nearest, ties to even, is `Spec.Nearest` with `Spec.TiesEven`, and `exists_nearest_even` shows that it exists. | `C148_partial`: monotonicity of rounding gives the lower bound, the rounding errors of slope, product and sum give the upper bound; `C148_refuted`: a case in double precision above the largest value. |
| C149 | `cdfFl` (`Model/RoundedCdf.lean`): widths, volumes, masses, cumulative sums and the division by the largest value, each operation followed by a rounding; the interpolation between the points of the grid (scipy) and the rounding of the density itself (C135) are not part of it. | `C149_cdf`: rounding is monotone and fixes its results, so each cumulative sum increases along its axis and keeps the order along the others; relative errors multiply. `C149_exact`: without rounding it is the model `cdfOf` of C61. |
| C150 | `KDE.cdf`, `cdfPoints`; scipy's reshaping of a flat array to `(-1, D)` is part of the model. | `C150_cdf_points`: the interpolator does not change between calls (C14), and the groups of D values are the points. |
| C151 | `KDE.__init__`, `KDE.pdf` on random data (as C123 and C133). | `C151_bias`, `C151_lipschitz`: first and second moments of the kernels (Proofs/Moments) against the tangent plane, then C133; `C151_nearTangent`: bounded second derivatives suffice. |
| C152 | `Corner.__init__` (labels, ticks, sides of the axes) in `Model/CornerLabels`. | `C152_labels`, `C152_every_parameter`, `C152_sides`, `C152_errors`: case analysis on the position of the panel; the specification says which parameter each axis shows. |
| C153 | Programs that share objects of limits between corner plots (`Model/CornerShared`): lists, tuples, arrays of floats and integers at addresses. | `C153_alone_partial`: refinement, an unshared corner plot mirrors the model of C56; `C153_caller_partial`: only calls that ask for new limits write. Refuted for shared objects and arrays of integers. |
| C154 | `spacing`, `midpoints`, `bins`, `subdivide` with a rounding after each operation, and arbitrary functions for `log10` and `10**y` (`Model/RoundedSpacing`). | `C154_midpoints`, `C154_subdivide`, `C154_linear`, `C154_bins`: monotonicity of the rounding and error bounds. `C154_linear_strict`, `C154_bins_strict`: as for `C144_strict_partial`, the step exceeds the errors. `C154_log_partial`: error bounds of the ends. `C154_log_refuted`: pigeonhole, there are more floating point numbers in [16, 32) than logarithms of them, so no implementation can restore all of them. |
| C155 | The pdf of `KDE(data, kernel=, bandwidth=b, covariance=C)` for independent data (`Spec.DrawnFrom`). | `C155_variance`: the pdf is the average of `n` independent bounded functions of the data (`IndepFun.variance_sum`), expanding the square. `C155_error`: with the bound on the bias of C151. |
| C156 | The model of C135 (`Model/Rounded`) with roundings whose error is `u (|x| + t)`; `t` is the smallest normal number (`Spec/Underflow`). No overflow. | `C156_accuracy`, `C156_double`: the calculus of C135 with errors measured by sizes of at least `t` (numbers below `r = √t` count as `r`, so that squares are at least `t`). `C156_nonneg`, `C156_vanishes`: monotonicity, exponentials below half of the smallest number. |
| C157 | The models of C136 (`Model/Rounded`) with a smallest exponent (`Spec/Underflow`). | `C157_samples_in_grid`: the proof of C136 from monotonicity and fixed points of the rounding only; differences of small numbers are exact. `C157_choice`, `C157_lost`: the quotient of the largest weight is kept, those of tiny weights are zero. |
| C158 | The models of C135 and C156 with a whitening matrix and a norm that have errors of their own (those of the factorisations of numpy and scipy, given as bounds). | `C158_matrix`, `C158_underflow`: kernels are Lipschitz in the squared distance, the triangle inequality with the bounds of C135 and C156. `C158_box`: boxes do not change away from their edges. |
| C159 | `_random_data_1d_01`, `_1d_02`, `_2d_01`, `_3d_01`, `_3d_02` in `Model/ExampleData`, the random numbers being inputs. | Lists and indices for sizes and places; the density by the substitution `u = 2 log x` in the normal density; the matrices as sums of squares. |
| C160 | `_random_data_2d_02`, `_2d_03`, `_3d_03` in `Model/ExampleData`; permutations and argsort are arbitrary. | Assignment to distinct places keeps the others; permutations of pairs; choices without repetition are sublists of permutations. |
| C161 | The model of C156 with a rounding which agrees with one without overflow up to a largest number and is arbitrary beyond it. | `C161_no_overflow`: bounds for each intermediate number of the loops, by induction over the sums. `C161_double`: double precision with bounds of the inputs. `C161_nonneg`: signs. |
| C162 | The rejection loop of C31 and C111 with independent random numbers. | `C162_bound`: the expected number of missing samples falls by the factor `(1-P)^g` in each of the nine rounds after the first (every missing sample has its own group of `g` candidates). `C162_many`: in two phases, Hoeffding's bound until few samples are missing, then the factor as before. `C162_one_boundary`, `C162_one_boundary_many`: the noise of all kernels is symmetric. `C162_can_fail`: all candidates may be outside. `C162_fails`, `C162_large_fails`: Hoeffding's bound for all candidates that can be drawn. |
| C163 | As C111 and C162. | `C163_frequencies`: the samples given success are independent (C111); the events that fix which samples lie in the region are boxes, whose probabilities are those of a product measure, to which Hoeffding's bound applies. `C163_total`, `C163_consistent`: with the bounds of C162. `C163_density`: with C111. |
| C164 | `_reflect_data` with the element type of the data as an argument (`Model/IntResample`); an assignment to an integer array truncates towards zero. | `C164_repeated`: blocks of mirror images; a truncated image inside of the boundaries is the point itself. `C164_partial`: no such points, or boundaries at half integers. `C164_refuted`: the probability of a region is 2/3 instead of 1/2. |
| C165 | `Sample_Outliers.sample` with Poisson numbers that are independent of each other and of the uniform numbers (`Spec.PoissonNumbers`). | `C165_poisson`: conditioning on the Poisson numbers leaves the law of the uniform numbers; by C113 the outliers are then independent draws, so that the joint characteristic function of the weights is a generating function of the number of outliers; it is the product of Poisson characteristic functions. |
| C166 | `midpoints` along a list of axes of a D-dimensional array (`Model/MidpointsNd`). | `C166_succeeds` by induction on the list of axes with the number of occurrences of each axis; `C166_mean`, `C166_log`: sums over the subsets of the axes; `C166_order`, `C166_range` follow. |
| C167 | `rem_cov(data)` with `cov=None` (`Model/RemCov`), with the meaning that `np.cov(*data)` gives to each row. | `C167_whitens`: covariance of linearly transformed data and the Cholesky factor. `C167_partial`: one and two dimensions. `C167_fails`: all failures. `C167_refuted`: six points in space. |
| C168 | `trapz_nd` and `trapz_dens_to_mass` with any list of integers as `axis` (`Model/Axes`), including numpy's broadcasting where the two ways in which the code decides what an axis is disagree. | `C168_trapz_partial`: invariant of the loop (the array over the axes that are left). `C168_all`, `C168_mass_all`: agreement with C38. `C168_trapz_last`: one axis counted from the end. `C168_mass_partial`, `C168_sum`: induction over the axes. `C168_mass_negative`: exactly what one negative axis does. `C168_refuted`, `C168_mass_refuted`: concrete arrays. |
| C169 | The arrays returned by `resample`, `sample_grid`, `sample_outliers`, with shape and entries in C order (`Model/SampleArrays`). | `C169_resample`, `C169_grid`, `C169_outliers`: lengths from C26 and induction over the rows. `C169_resample_single`, `C169_grid_single`, `C169_outliers_single`: the excluded case. `C169_refuted`: one sample of two points. |
| C170 | `resample` with `keep` (`Model/Resample`) on independent random numbers (`Spec.RandomNumbers`). | `C170_combine`: all stages but the zeroed dimensions agree; `C170_others` from it. `C170_law`: one noise law for all `keep`, law of the choice of the datum from `Proofs/Law`. `C170_kept`: law on sets of kept coordinates. `C170_pdf`: `C170_others` with `C84_partial`. |
| C171 | The pair of arrays unpacked in `sample_grid_proportional` (`Model/ProportionalArrays`). | `C171_partial`: shapes, order and agreement with the samples of C77. `C171_unpacked`, `C171_error`: `return_scalar=False` in two and in other dimensions. `C171_refuted`: the unit square. |
| C172 | `_resample_reflect` with data outside (`Model/Resample`). | `draw_perm`: the points drawn from are the specified centres up to order and a common factor of the weights; then the rejection argument of C111 with the law of these candidates. `C172_law`; `C172_empty` for no centres of positive weight; `C172_inside`, `C172_mirrored`, `C172_dropped` say what the centres are. |
| C173 | `Corner(data)` followed by the first call of a method, from data to panels (`Model/CornerTop`). | `C173_components`: exactly these components; `C173_kde`, `C173_hist`: what they show, from C104 and C107 with the settings of the methods; `C173_succeeds` from C105 and C107. |
| C174 | `KDE.cdf` in the model of C61, and the Lebesgue integral of the function that `pdf` reports. | `C174_exact`: the interpolant at the points of the grid, with C38/C39; `C174_integral`, `C174_probability`: splitting the box into half-open cells; `C174_finite`: the default points of finite kernels cover their support (C09); `C174_succeeds`: the largest cumulative sum is positive; `C174_limit`, `C174_grid`, `C174_cdf`: uniform continuity on compact boxes, monotonicity (C61) between the points, C132 and C07; `C174_reflect`: the same with boundaries (the pdf is continuous inside them, C132); `C174_all`, `C174_cdf_all`, `C174_cdf_kernels`: all kernels and boxes, since the pdf is continuous except on a closed set without volume (`C132_mostly`) and the cells near this set have little volume. |
| C175 | `KDE.cdf`, `KDE.points` and `parse_edges` in the models of C61, C14 and C45; a division by a zero maximum gives no numbers. | `C175_zero`, `C175_refuted`: box kernels of radius 1 at 0 and 1000; `C175_outlier`: default bandwidth, one outlier among 100000 values; `C175_iff`, `C175_data`: C174 and the positivity of the weighted average; `C175_partial` (Gaussian kernel) and `C175_spacing`, `C175_spacing_nd` (finite kernels in one or more dimensions and close default points). |
| C176 | `trapz_nd`, `trapz_dens_to_mass`, `Sample_Grid` and `KDE.pdf` in the models of C38, C113 and C15; random numbers as in C113. | `C176_trapz`, `C176_samples`, `C176_frequencies`: each cell's mass is its volume times the mean of its corners, so the error in a cell is at most the variation times its volume (as in C174), and the law of C113 without interpolation is uniform in each cell; `C176_bins`: the same for unions of cells with or without interpolation; `C176_values`, `C176_integral`, `C176_limit` for `KDE.pdf` by uniform continuity; `C176_interpolated`: a set and its complement each contain a union of cells, and the remaining cells lie in a thin neighbourhood of the set's boundary; `C176_reflect_integral`, `C176_reflect_samples`: `KDE.pdf` with boundaries; `C176_trapz_total` and the other `_total` theorems: a different bound in each cell; `C176_mostly`, `C176_all_integral`, `C176_all_samples`, `C176_all_limit`: all kernels and boxes, as in C174; `C176_unit`, `C176_total`, `C176_unit_one_sided`: the integral over large boxes (C07, C12); `C176_finite` for the default points of finite kernels, `C176_zero`, `C176_outlier`: why the error bound is needed. |
| C177 | `Sample_Grid.grid` and its stored value, in programs that sample, look at it and assign to arrays (`Model/SamplerGrid`, memory as in C141) | `C177_actual`, `C177_partial`, `C177_samples` by induction over the program; `C177_refuted`: the edges are doubled after the first use |
| C178 | `midpoints(squeeze=True)`, whose result has a number of axes that depends on the shape (`Model/Squeeze`) | `C178_squeeze`: the increasing enumeration of the axes kept; `C178_unique`: strictly increasing maps with the same range are equal |

A property that the code violates is kept in full in `properties.jsonl`; its negation is proved with a
concrete witness (`..._refuted`) and what does hold is proved as `..._partial`. The same holds for the few theorems
without the suffix in a partial claim: they are complete statements about a part of the property.

## What the proofs found in the code

Each of these is a theorem about the model (the refutation of the property named); the lines are those of /repo.

| where | what | property |
|---|---|---|
| `kernels.py` `Kernel.density` | values outside a boundary are set to zero before later dimensions add mirror images, so density outside is positive | C11 |
| same | data are mirrored at each boundary but not at corners, and once per boundary, so mass is lost in corners or between close boundaries | C12 |
| `kernels.py` `Kernel.density(params)` | for kernels of finite support the density of a subset of parameters is not the marginal | C10 |
| `kernels.py` `_truncate_reflections` | mirror images are truncated to the inside of the boundaries, so all are dropped and samples follow the unreflected density | C32 |
| `utils.py` `cov_keep_vars` + Cholesky | keep together with reflect always fails: the zeroed matrix has no Cholesky factor | C29 |
| `kernels.py` `Parabola._sample` | samples in more than one dimension leave the unit ball and have another covariance than the density, so they do not follow `pdf` | C33, C84, C86 |
| `kernels.py` `Triweight._sample` | one radius per coordinate, with the distribution of the radius on the line: in more than one dimension the covariance of the samples is not the one of the density, for any data. On the line the linear interpolation of the table makes the variance slightly too large | C84, C86 |
| `plot.py` `hist2d` | `mask_below=True` compares the density with 0.9/N, i.e. assumes bins of unit area: bins that contain data are hidden if their area is large | C89 |
| `plot.py` `carpet` | if the weights span more than a decade, their logarithms are divided by their median, which may be negative: heavier points are then drawn smaller | C91 |
| `plot.py` `carpet` | the default dispersion is a fraction of the upper axis limit; if that is negative, `np.random.normal` raises `ValueError` | C92 |
| `kernels.py` `_Distribution.sample` | a single sample in one dimension is returned as an array without axes | C93 |
| `kernels.py` `Box._sample` | one radius per coordinate instead of one per sample: in more than one dimension the samples are not uniform in the ball (mixed fourth moments are wrong), for any data | C84 |
| `kernels.py` `Gaussian.inside`, `_inside_unit_nball` | TypeError for the Gaussian, ValueError for 1D arrays; the sphere is excluded although Box is positive there | C81 |
| `kernels.py` `_check_reflect` | True for negative data puts the boundary inside the data; the caller's list is overwritten | C21, C64 |
| `kernels.py` `Kernel.density` | mirror images of integer data are stored in an integer array, truncated towards zero | C65 |
| `utils.py` `_parse_extrema` | rows share one list, so all dimensions get the extrema of the first | C22 |
| `kde.py` `_set_bandwidth` | a sequence of length one is refused for 1D data | C18 |
| `kde.py` `from_hist` | counts of bins of different widths are not weighted correctly | C23 |
| `kde.py` `cdf` | extrapolates outside of the grid, giving values below 0 or above 1 | C61 |
| `__init__.py` `kalepy.pdf` | always raises: `params` ends up as an unknown keyword of `Kernel` | C25 |
| `utils.py` `minmax` | `prev` is truncated for integer data | C34 |
| `utils.py` `quantiles` | zero weights and ties: not the minimum at 0, dependent on order | C35 |
| `utils.py` `subdivide` | num=0 returns an empty array | C37 |
| `utils.py` `cumtrapz` | with an axis, prepend=True pads the other axes too | C39 |
| `utils.py` `bound_indices` | outside=True selects points outside in every dimension; without bounds it returns integers | C42 |
| `utils.py` `isjagged` | false for some jagged lists | C43 |
| `sample.py` `_intrabin_linear_interp` | gradients are normalised by the mean over the grid, not over the bin | C49 |
| `sample.py` `Sample_Grid.sample` | scalars carry the bin volume and use the uniform number for the position; `sample_grid` with scalars fails in 1D | C54, C76, C77 |
| `plot.py` `_dfm_levels` | integer histograms raise TypeError | C55 |
| `plot.py` `Corner` limits | truncated when integer data follow float data | C56 |
| `plot.py:851` | bands of lower limits are drawn to the wrong end | C60 |
| `plot.py` `dist1d`, `Corner.hist`, `Corner.plot_data` | weights are dropped | C68, C74 |
| `plot.py` default arguments | values set in one call leak into the next | C69 |
| `plot.py` smoothing | upsample=False also disables smoothing | C72 |
| `plot.py` `hist1d` | positive=True draws empty bins | C73 |
| `kde.py` constructor | reflect=[None, None, None] raises ValueError; reflect=[None, None] uses the range of parameter 0 for both | C94 |
| `plot.py` `dist2d` | params=[1, 0] of a two-parameter KDE is ignored by all components but the contours | C95 |
| `utils.py` `_parse_extrema` | boundaries selected by params are not completed: dist2d raises TypeError for one-sided or partly absent boundaries of three or more parameters | C96 |
| `plot.py` `dist2d` | mask_below=True always hides a bin with data | C97 |
| `plot.py` `hist1d` | weighted data without edges raise TypeError: np.histogram cannot choose bins for weighted data | C98, C103 |
| `utils.py` `histogram` | a list of unweighted data with probability=True raises AttributeError (`.size` of a list) | C98, C103 |
| `plot.py` `dist1d` | a number of bins is passed on as the point at which the density is evaluated: TypeError for several parameters, a single point for one | C102 |
| `plot.py` `dist1d` | KDE of an array of shape (1, N): ValueError from ax.plot with default edges | C102 |
| `plot.py` `draw_contour2d` | padding adds cells with the smallest density of the histogram; if no bin is empty they count as data, and the levels do not enclose the requested fractions | C106 |
| `kde.py` `KDE.__init__` | with the Gaussian kernel and an effective number of points below 2 (e.g. data `[0, 1]`, weights `[1, 2]`) the quantile `ppf(1 - 1/neff)` is negative, so the default extrema and points lie inside the data | C109 |
| `plot.py` `corner` | `weights` is passed to `Corner.plot`, which refuses weights for the KDE stored by the constructor: `corner(data, weights=w)` always raises `ValueError` | C108 |
| `sample.py` `Sample_Grid._random_bins` | the uniform random numbers are sorted, so samples are returned ordered by the mass of their bins: the first half of the samples is not a fair sample of the density | C113 |
| `sample.py` `Sample_Outliers.sample` | without poisson_outside the number of outliers is rounded: the expected weight of every bin below the threshold is off by the factor round(S)/S, and for S <= 1/2 no outlier is ever drawn | C114 |
| `kde.py` `KDE._finalize` | the warning that all matrix elements are below 1e-10 can never be given: it is only considered if some off-diagonal element exceeds 1e-8 | C115 |
| `utils.py` `quantiles` | `axis=0` raises `ValueError` unless the array is square or a single column, and square arrays whose columns have different total weights give wrong quantiles silently | C116 |
| `utils.py` `array_str`, `stats` | `num=0` (`sample=0`) shows all of the data after the dots; without the shape the text starts with a dash | C117 |
| `utils.py` `stats_str` | quantiles of integer data are truncated towards zero; `percs=None` raises `TypeError` | C118 |
| `utils.py` `_guess_str_format_from_range` | small values are overlooked if values of both signs occur: -1, 0.001, 1 are shown as -1.00, 0.00, 1.00 | C119 |
| `plot.py` `Corner.legend` | `bbox_to_anchor`/`bbox` are popped and never passed on; a `loc` given without `index` is overwritten | C120 |
| `utils.py` `run_if` | unknown IPython shells (hosted notebooks) make every variant raise `AttributeError` | C121 |
| `plot.py` `_color_to_cmap` | the colour map of a grey colour is reddish: saturation is increased with hue 0 | C122 |
| `kernels.py` `Kernel.density` with reflection in several dimensions | images in two boundaries at once are not added: at corners the pdf tends to 3/4 (two dimensions), 1/2 (three) of the density | C125 |
| `utils.py` `isinteger` | False for integers of more than 64 bits, for the empty list, for `[1, 2**63]` (numpy makes floats) and for `True`, but True for `[True, 1]` | C127 |
| `utils.py` `jshape` | inherits the test of `isjagged`: `[[], [1, 2]]` is reported as (2,) | C128 |
| `plot.py` `_parse_color_cmap` | a colour map given together with a colour is ignored without warning | C129 |
| `plot.py` `_draw_colorbar_contours` | levels beyond the given colours are left out without warning | C130 |
| `kde.py` `KDE.__init__` | integer weights are not the same as repeated points: the weights go to `np.cov` as `aweights`, so that the automatic covariance differs by the factor `(M - S/M)/(M - 1)`, and the effective number is `M²/S` instead of `M` (both are legitimate conventions, but weights are not counts) | C134 |
| `sample.py` `_intrabin_linear_interp` | the threshold 1e-16 on the gradient is below the precision of the subtraction `y1 - sqrt(...)`: in double precision a nearly flat bin gives samples outside the bin and the grid, or samples on three points only | C137 |
| `kde.py` `KDE.__init__`, `KDE.points` | the object refers to the caller's data array and list of boundaries, and returns its own array of default points: after in-place changes the density mixes new data with the old kernel matrix, weights and extrema | C138 |
| `plot.py` `Corner.clean`, `hist`, `plot`, `plot_kde` | add their own defaults to the caller's `dist1d` and `dist2d`: later calls with the same dictionaries draw differently or raise `TypeError` | C139 |
| `sample.py` `Sample_Grid.__init__`, `sample` | `mass` as a list raises `AttributeError`; `scalar_mass` as a list raises `TypeError`, and so does an array of integers with interpolation | C140 |
| `sample.py` `Sample_Grid` | keeps references to the arrays it is given: changing `mass` later changes the default number of samples, but not the probabilities of the bins; changing `edges` moves the samples | C141 |
| `plot.py` `_dfm_levels`, `draw_contour2d` | two fractions can have the same level (a cell holds more than the difference of the fractions); matplotlib then raises `ValueError: Contour levels must be increasing` | C142 |
| `plot.py` `dist2d` | the levels of the mask are the lowest contour level and the largest density; if they are equal, `contourf` raises `ValueError` | C143 |
| `utils.py` `_guess_edges` | for identical data the bin width is 1e-16, which is lost when added to a value of size 2 or more: all edges are equal, every bin has zero width | C144 |
| `kernels.py` `_evaluate_numba`, `Box._evaluate` | NaN in the data is never checked; the box kernel (`y2 <= 1.0` is false for NaN) drops points with NaN silently, but their weight still counts in the normalisation, so `pdf` no longer integrates to one | C145 |
| `kernels.py` `_resample_clear` | data points with NaN are drawn like others: the samples contain NaN in the proportion of their weight. With boundaries in any dimension, `bound_indices` silently removes them instead | C146 |
| `kde.py` `KDE.density` | `reflect=True` and `reflect=False` raise `TypeError` (`len` of a boolean), although the constructor and `resample` accept them; the boundaries of the constructor cannot be switched off in `density` or `pdf` with `False` | C147 |
| `utils.py` `quantiles` | the linear interpolation is rounded, so a quantile can exceed the largest value: values [-1, 29/2^55, 30/2^55] with weights [0, 1, 4] and the largest percentile below 0.1 give 2^-50 | C148 |
| `plot.py` `Corner.plot_kde`, `plot_data` | With `limit=True`, new limits are written into the object the caller passed as `limits`: other corner plots that were given the same list change their limits, and an array of integers rounds them towards zero, so that data are cut off. | C153 |
| `utils.py` `spacing`, `subdivide` with a logarithmic scale | The ends of the grid are computed as `10**log10(x)`, which for every implementation of these functions differs from `x` for some `x`: the extremes of the data may lie outside the grid, and subdivided edges are not kept. | C154 |
| `utils.py` `_random_data_1d_01`, `_random_data_1d_02` | They call `np.random.seed(12345)` and so reset the generator of the whole program, whatever the user seeded it with. | C159 |
| `utils.py` `_random_data_2d_03`, `_random_data_3d_03` | `ValueError` when fewer than `num` of the `3 num` numbers drawn are positive, always if `par` puts them below one. | C160 |
| `kernels.py` `Kernel._resample_reflect` | a valid call of `resample` with boundaries may raise RuntimeError: the loop gives up after 10 rounds (proved: with positive probability whenever the kernels reach over a boundary, rarely with a single boundary, almost surely for large sizes if less than a tenth of the candidates are inside) | C162 |
| `kernels.py` `_reflect_data` | mirror images of integer data are truncated towards zero; next to a boundary which is farther from zero they fall back on the data themselves, which are then drawn twice as often | C164 |
| `utils.py` `rem_cov` | `np.cov(*data)` passes the third row as `rowvar` and so on: without `cov`, data of three and more dimensions always raise | C167 |
| `utils.py` `trapz_nd`, `trapz_dens_to_mass` | negative axes: after the first axis is integrated away, the others are counted in the smaller array (`axis=[-1, -2]` integrates along the first axis); `ii in axis` is never true for a negative axis, so masses raise or come out wrong | C168 |
| `kernels.py` `Kernel.resample`, `sample.py` `sample_grid`, `sample_outliers` | one sample of one-dimensional data comes back as a 0-d array instead of shape (1,): `squeeze()` removes every axis of length one | C169 |
| `sample.py` `sample_grid_proportional` | with `return_scalar=False` in two dimensions the coordinates of the samples are returned as positions and weights; in other dimensions ValueError | C171 |
| `kde.py` `KDE.cdf`, `KDE.points` | kernels of finite support and data much wider than the bandwidth: all of the at most 201 default points can miss the kernels, then the cdf is 0/0 = NaN everywhere; with default bandwidth this happens for 100000 equal values and one outlier | C175 |
| `kde.py` `KDE.points` | kernels of finite support and data much wider than the bandwidth: the pdf on the default points can integrate to 0 instead of 1 | C176 |
| `sample.py` `Sample_Grid.grid` | computed at the first use and kept, although `_edges` refers to arrays of the caller: after they are changed, `grid` is not the grid that is sampled; the stored list itself is returned, so assignments to it are kept | C177 |

## Tests of the theorems

`seeded/LOG.jsonl` records edits of the model that imitate a realistic bug, the claim each breaks, the theorems whose proofs
failed, and the theorems that were tightened when none did.
