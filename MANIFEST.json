{
 "claims": [
  {
   "property": "C01",
   "status": "proved",
   "theorems": [
    "Kalepy.C01_density_pointwise",
    "Kalepy.C01_density_params_pointwise",
    "Kalepy.C01_density_append",
    "Kalepy.C01_density_length",
    "Kalepy.C01_kde_density_pointwise"
   ],
   "note": "Kernel.density (params and no params, every cache state) and KDE.density (every state of the object)."
  },
  {
   "property": "C02",
   "status": "proved",
   "theorems": [
    "Kalepy.C02_density_eq_kernelSum",
    "Kalepy.C02_kde_density"
   ],
   "note": "Kernel.density and KDE.density/pdf. Cholesky factorisation is modelled as an algorithm and proved correct."
  },
  {
   "property": "C03",
   "status": "proved",
   "theorems": [
    "Kalepy.C03_density_perm",
    "Kalepy.C03_density_perm_unweighted",
    "Kalepy.C03_kde_perm"
   ],
   "note": "Kernel level for any kernel and reflection; class level: constructor and every density call at given points."
  },
  {
   "property": "C04",
   "status": "proved",
   "theorems": [
    "Kalepy.C04_density_data_append",
    "Kalepy.C04_density_weights_smul",
    "Kalepy.C04_density_zero_weight",
    "Kalepy.C04_density_integer_weight",
    "Kalepy.C04_density_weights_none"
   ],
   "note": ""
  },
  {
   "property": "C05",
   "status": "proved",
   "theorems": [
    "Kalepy.C05_density_nonneg",
    "Kalepy.C05_kde_density",
    "Kalepy.C05_kde_all"
   ],
   "note": "C05_kde_all: after any history of calls, for every points, reflect, params, grid and probability argument of density and pdf."
  },
  {
   "property": "C06",
   "status": "proved",
   "theorems": [
    "Kalepy.C06_weights_scale"
   ],
   "note": "Constructor gives the same object up to the weights; pdf for all arguments incl. default points, and cdf."
  },
  {
   "property": "C07",
   "status": "proved",
   "theorems": [
    "Kalepy.C07_normalised"
   ],
   "note": "For boundaries absent: the reported density integrates to one over the whole space for every kernel, dimension, positive definite kernel matrix, weighting and call history"
  },
  {
   "property": "C08",
   "status": "proved",
   "theorems": [
    "Kalepy.C08_affine",
    "Kalepy.C08_translate"
   ],
   "note": "Affine: positive definite kernel matrix, scalar bandwidth. Translation: any bandwidth and covariance."
  },
  {
   "property": "C09",
   "status": "proved",
   "theorems": [
    "Kalepy.C09_extrema",
    "Kalepy.C09_zero_outside",
    "Kalepy.C09_grid_exists",
    "Kalepy.C09_grid"
   ],
   "note": "Finite kernels vanish outside the extrema; the default points exist and run exactly over the extrema."
  },
  {
   "property": "C10",
   "status": "partial",
   "theorems": [
    "Kalepy.C10_gaussian_partial",
    "Kalepy.C10_params_density",
    "Kalepy.C10_refuted"
   ],
   "note": "False for the kernels with finite support (C10_refuted: box kernel). Proved for the Gaussian kernel, every subset and order of parameters, data, weights and history (C10_gaussian_partial); C10_params_density says what params computes for every kernel."
  },
  {
   "property": "C11",
   "status": "partial",
   "theorems": [
    "Kalepy.C11_reflect_zero_outside_partial",
    "Kalepy.C11_kde_partial",
    "Kalepy.C11_refuted"
   ],
   "note": "The full claim is false of the code (C11_refuted): zeroing is done per dimension before later dimensions add mirror images. Proved for kernels and for the class: holds for the last dimension with boundaries."
  },
  {
   "property": "C12",
   "status": "partial",
   "theorems": [
    "Kalepy.C12_mass",
    "Kalepy.C12_reflect_partial",
    "Kalepy.C12_at_most_one",
    "Kalepy.C12_refuted",
    "Kalepy.C12_mass_dims",
    "Kalepy.C12_at_most_one_dims",
    "Kalepy.C12_one_sided_total",
    "Kalepy.C12_dims_partial",
    "Kalepy.C12_corner_refuted",
    "Kalepy.C12_marginal_partial"
   ],
   "note": "False as stated (C12_refuted): with two boundaries closer than the kernel is wide the mass is below one; and also with one boundary per dimension (C12_corner_refuted), because data are not mirrored at corners. C12_mass (one dimension) and C12_mass_dims (any dimensions, kernel uncoupled there) compute the mass exactly; C12_reflect_partial and C12_dims_partial give one where the kernel fits; C12_one_sided_total gives one over the whole space for one boundary per dimension; C12_at_most_one(_dims) bound it by one. C12_marginal_partial does the same for the pdf of one parameter of several (params=[i]), where neither corners nor correlations matter: at most one always, one where the kernel fits."
  },
  {
   "property": "C13",
   "status": "proved",
   "theorems": [
    "Kalepy.C13_null_reflect",
    "Kalepy.C13_single_dim",
    "Kalepy.C13_mirrored_data_eq_mirrored_point",
    "Kalepy.C13_kde",
    "Kalepy.C13_all_dims",
    "Kalepy.C13_kde_dims"
   ],
   "note": ""
  },
  {
   "property": "C14",
   "status": "proved",
   "theorems": [
    "Kalepy.C14_history",
    "Kalepy.C14_points"
   ],
   "note": ""
  },
  {
   "property": "C15",
   "status": "proved",
   "theorems": [
    "Kalepy.C15_grid",
    "Kalepy.C15_single"
   ],
   "note": ""
  },
  {
   "property": "C16",
   "status": "proved",
   "theorems": [
    "Kalepy.C16_weights",
    "Kalepy.C16_refused",
    "Kalepy.C16_list_refused",
    "Kalepy.C16_accepted"
   ],
   "note": ""
  },
  {
   "property": "C17",
   "status": "proved",
   "theorems": [
    "Kalepy.C17_unweighted",
    "Kalepy.C17_bounds",
    "Kalepy.C17_eq_number_iff",
    "Kalepy.C17_eq_one_iff",
    "Kalepy.C17_invariant"
   ],
   "note": ""
  },
  {
   "property": "C18",
   "status": "partial",
   "theorems": [
    "Kalepy.C18_bandwidth",
    "Kalepy.C18_matrix",
    "Kalepy.C18_refuses",
    "Kalepy.C18_factors",
    "Kalepy.C18_accepted_partial",
    "Kalepy.C18_refuted"
   ],
   "note": "What is stored, the factors and the refusals are proved in full. Acceptance fails for a sequence or array of length one with one-dimensional data (C18_refuted)."
  },
  {
   "property": "C19",
   "status": "proved",
   "theorems": [
    "Kalepy.C19_covariance",
    "Kalepy.C19_covariance_transform",
    "Kalepy.C19_kernel_matrix"
   ],
   "note": "Covariance equals the unbiased weighted covariance, symmetric PSD, transformation rule; kernel matrix."
  },
  {
   "property": "C20",
   "status": "proved",
   "theorems": [
    "Kalepy.C20_list",
    "Kalepy.C20_bool",
    "Kalepy.C20_flat",
    "Kalepy.C20_flat_true",
    "Kalepy.C20_flat_mixed",
    "Kalepy.C20_flat_seq",
    "Kalepy.C20_result",
    "Kalepy.C20_idempotent"
   ],
   "note": "C20_list: exact acceptance condition and meaning of a list with one entry per dimension, ValueError otherwise; C20_bool/C20_flat/C20_flat_true/C20_flat_mixed/C20_flat_seq: None/False/True and flat 1D pairs; C20_result: one row per dimension, increasing boundaries, for every accepted argument; C20_idempotent: re-checking a checked argument changes nothing. Ragged numpy conversions of a sequence next to a scalar are not modelled."
  },
  {
   "property": "C21",
   "status": "partial",
   "theorems": [
    "Kalepy.C21_refuted",
    "Kalepy.C21_partial",
    "Kalepy.C21_flat_refuted",
    "Kalepy.C21_constant"
   ],
   "note": "False as claimed (C21_refuted, negative data; C21_flat_refuted, [True, x] for 1D data). C21_partial: exact condition under which a True boundary encloses the data. C21_constant: constant non-positive data raise."
  },
  {
   "property": "C22",
   "status": "partial",
   "theorems": [
    "Kalepy.C22_refuted",
    "Kalepy.C22_none",
    "Kalepy.C22_partial",
    "Kalepy.C22_flat",
    "Kalepy.C22_flat_given",
    "Kalepy.C22_all_none"
   ],
   "note": "False as claimed (C22_refuted: shared list). Proved for no extrema, one entry per dimension (not all None) and a complete flat pair; C22_flat states what a flat pair with None gives; C22_all_none: a list of None only is refused."
  },
  {
   "property": "C23",
   "status": "partial",
   "theorems": [
    "Kalepy.C23_scale",
    "Kalepy.C23_uniform_partial",
    "Kalepy.C23_uniform_nd_partial",
    "Kalepy.C23_accepted",
    "Kalepy.C23_refuted"
   ],
   "note": "Proved for bins of equal width (1D and ND) and invariance under rescaling of the counts; refuted for bins of different widths (C23_refuted)."
  },
  {
   "property": "C24",
   "status": "proved",
   "theorems": [
    "Kalepy.C24_name",
    "Kalepy.C24_otherwise",
    "Kalepy.C24_kinds",
    "Kalepy.C24_own_name",
    "Kalepy.C24_all"
   ],
   "note": ""
  },
  {
   "property": "C25",
   "status": "partial",
   "theorems": [
    "Kalepy.C25_never_returns",
    "Kalepy.C25_refuted"
   ],
   "note": "False of the code: kalepy.pdf always raises (C25_never_returns, C25_refuted); there is no part of the claim that holds."
  },
  {
   "property": "C26",
   "status": "proved",
   "theorems": [
    "Kalepy.C26_size",
    "Kalepy.C26_succeeds"
   ],
   "note": "For every stream of random numbers; C26_succeeds: with valid random numbers, positive definite matrix and no boundaries the call does succeed."
  },
  {
   "property": "C27",
   "status": "proved",
   "theorems": [
    "Kalepy.C27_inside"
   ],
   "note": "Boundaries as stored or as given in the call."
  },
  {
   "property": "C28",
   "status": "proved",
   "theorems": [
    "Kalepy.C28_keep"
   ],
   "note": ""
  },
  {
   "property": "C29",
   "status": "partial",
   "theorems": [
    "Kalepy.C29_refuted",
    "Kalepy.C29_never",
    "Kalepy.C29_conflict"
   ],
   "note": "False of the code: C29_refuted. C29_never: no call that keeps a dimension and reflects ever returns a non-empty sample (the Cholesky decomposition of the zeroed matrix fails). C29_conflict: the ValueError half of the property holds."
  },
  {
   "property": "C30",
   "status": "proved",
   "theorems": [
    "Kalepy.C30_positive_weight"
   ],
   "note": ""
  },
  {
   "property": "C31",
   "status": "proved",
   "theorems": [
    "Kalepy.C31_finite",
    "Kalepy.C31_draws",
    "Kalepy.C31_gives_up"
   ],
   "note": "C31_finite is the statement at the level of the API; C31_draws and C31_gives_up describe the rejection loop."
  },
  {
   "property": "C32",
   "status": "partial",
   "theorems": [
    "Kalepy.C32_refuted",
    "Kalepy.C32_candidates_partial"
   ],
   "note": "False of the code: C32_refuted (mirror images of data inside the boundaries are always truncated away, so samples follow the unreflected density). C32_candidates_partial says what is returned instead."
  },
  {
   "property": "C33",
   "status": "partial",
   "theorems": [
    "Kalepy.C33_refuted",
    "Kalepy.C33_support_partial"
   ],
   "note": "False of the parabola kernel in more than one dimension: C33_refuted. Proved for box and triweight in every dimension and for the parabola in one."
  },
  {
   "property": "C34",
   "status": "partial",
   "theorems": [
    "Kalepy.C34_extrema",
    "Kalepy.C34_stretch",
    "Kalepy.C34_covers_partial",
    "Kalepy.C34_limit_partial",
    "Kalepy.C34_limit_interval_partial",
    "Kalepy.C34_batches",
    "Kalepy.C34_batches_order",
    "Kalepy.C34_int_refuted"
   ],
   "note": "Extrema, positive, empty data, batches and order for both element types; exact stretch, covering data and prev, and limit proved for float data; refuted for integer arrays (prev is truncated)."
  },
  {
   "property": "C35",
   "status": "partial",
   "theorems": [
    "Kalepy.C35_quantiles",
    "Kalepy.C35_min_partial",
    "Kalepy.C35_min_refuted",
    "Kalepy.C35_rescale",
    "Kalepy.C35_order_partial",
    "Kalepy.C35_order_refuted",
    "Kalepy.C35_iqrange"
   ],
   "note": "Bounds, monotonicity, maximum at 1, rescaling, iqrange proved in full; minimum at 0 for positive weights (refuted with zero weights); order independence when equal values have equal weights (refuted for ties with different weights)."
  },
  {
   "property": "C36",
   "status": "proved",
   "theorems": [
    "Kalepy.C36_midpoints",
    "Kalepy.C36_midpoints_increasing",
    "Kalepy.C36_short",
    "Kalepy.C36_midpoints_log"
   ],
   "note": "1D arrays; linear over any ordered field, log over the reals."
  },
  {
   "property": "C37",
   "status": "partial",
   "theorems": [
    "Kalepy.C37_subdivide_partial",
    "Kalepy.C37_increasing_partial",
    "Kalepy.C37_zero",
    "Kalepy.C37_refuted"
   ],
   "note": "Proved for num >= 1; refuted for num = 0 (empty result)."
  },
  {
   "property": "C38",
   "status": "proved",
   "theorems": [
    "Kalepy.C38_mass_eq",
    "Kalepy.C38_mass_sum",
    "Kalepy.C38_mass_nonneg",
    "Kalepy.C38_mass_linear",
    "Kalepy.C38_mass_const",
    "Kalepy.C38_mismatch"
   ],
   "note": "trapz_nd modelled for axis=None; mass for any set of axes, theorems for all axes."
  },
  {
   "property": "C39",
   "status": "partial",
   "theorems": [
    "Kalepy.C39_cumtrapz_eq",
    "Kalepy.C39_cumtrapz_lower_face",
    "Kalepy.C39_cumtrapz_mono",
    "Kalepy.C39_cumtrapz_last",
    "Kalepy.C39_cumtrapz_axis_partial",
    "Kalepy.C39_axis_refuted",
    "Kalepy.C39_axis_prepend",
    "Kalepy.C39_axis_1d"
   ],
   "note": "axis=None fully proved. With an axis and prepend=True the documented shape is false of the code in two and more dimensions (C39_axis_refuted; C39_axis_prepend says exactly what is returned, C39_axis_1d that one dimension is right); prepend=False with an axis is proved."
  },
  {
   "property": "C40",
   "status": "proved",
   "theorems": [
    "Kalepy.C40_cumsum_prefix",
    "Kalepy.C40_cumsum_axis"
   ],
   "note": ""
  },
  {
   "property": "C41",
   "status": "proved",
   "theorems": [
    "Kalepy.C41_centroid_inside",
    "Kalepy.C41_centroid_exact"
   ],
   "note": ""
  },
  {
   "property": "C42",
   "status": "partial",
   "theorems": [
    "Kalepy.C42_inside",
    "Kalepy.C42_outside_partial",
    "Kalepy.C42_complement_1d",
    "Kalepy.C42_outside_refuted",
    "Kalepy.C42_none_rows"
   ],
   "note": "Inside mask proved; outside selects points outside in every dimension (1D: complement up to boundary), refuted for the box reading in 2D; without bounds the selection is right but given as integers (C42_none_rows)."
  },
  {
   "property": "C43",
   "status": "partial",
   "theorems": [
    "Kalepy.C43_flatten",
    "Kalepy.C43_flatlen",
    "Kalepy.C43_really1d",
    "Kalepy.C43_isjagged_partial",
    "Kalepy.C43_isjagged_refuted"
   ],
   "note": "flatten, flatlen, really1d proved for all nestings; isjagged: false for all regular arrays, converse refuted."
  },
  {
   "property": "C44",
   "status": "proved",
   "theorems": [
    "Kalepy.C44_counted_once",
    "Kalepy.C44_counts",
    "Kalepy.C44_total",
    "Kalepy.C44_density"
   ],
   "note": "Explicit edges, any ordered field."
  },
  {
   "property": "C45",
   "status": "proved",
   "theorems": [
    "Kalepy.C45_edges",
    "Kalepy.C45_covers",
    "Kalepy.C45_succeeds",
    "Kalepy.C45_succeeds_extrema",
    "Kalepy.C45_succeeds_iff",
    "Kalepy.C45_identical"
   ],
   "note": "C45_edges: shape and spacing for every kind of specification; C45_covers: strictly increasing, cover the extrema; C45_succeeds: always succeeds for data of non-zero range; C45_succeeds_extrema: likewise for given extrema; C45_succeeds_iff: exactly when edges are returned, otherwise ValueError; C45_identical: the edges of identical data."
  },
  {
   "property": "C46",
   "status": "proved",
   "theorems": [
    "Kalepy.C46_samples_in_grid",
    "Kalepy.C46_sample_grid"
   ],
   "note": "Class method (any mass array) and sample_grid(edges,dens,nsamp): succeeds for all random values in [0,1), every sample in a bin of positive mass."
  },
  {
   "property": "C47",
   "status": "proved",
   "theorems": [
    "Kalepy.C47_empty_bins_not_sampled",
    "Kalepy.C48_bin_probability"
   ],
   "note": "No sample strictly inside a zero-mass bin (closed bins share faces); the selection rule of C48 never selects one."
  },
  {
   "property": "C48",
   "status": "proved",
   "theorems": [
    "Kalepy.C48_bin_probability"
   ],
   "note": "Lebesgue length of the set of uniform values selecting a bin is mass/total; samples lie in the selected bins."
  },
  {
   "property": "C49",
   "status": "partial",
   "theorems": [
    "Kalepy.C49_refuted",
    "Kalepy.C49_position_partial",
    "Kalepy.C49_exact_bin_partial",
    "Kalepy.C49_law"
   ],
   "note": "False of the code: densities are normalised by the grid mean, not the bin mean (C49_refuted). Proved: the position that is drawn (C49_position_partial); exact if the bin mean equals the grid mean (C49_exact_bin_partial), and as distributions if and only if it does (C49_law)."
  },
  {
   "property": "C50",
   "status": "proved",
   "theorems": [
    "Kalepy.C50_outlier_mass_conserved",
    "Kalepy.C50_nsamp_refused"
   ],
   "note": ""
  },
  {
   "property": "C51",
   "status": "proved",
   "theorems": [
    "Kalepy.C51_outliers_where"
   ],
   "note": ""
  },
  {
   "property": "C52",
   "status": "proved",
   "theorems": [
    "Kalepy.C52_unravel_bijective",
    "Kalepy.C52_flat_lookup"
   ],
   "note": ""
  },
  {
   "property": "C53",
   "status": "proved",
   "theorems": [
    "Kalepy.C53_number_of_samples"
   ],
   "note": ""
  },
  {
   "property": "C54",
   "status": "partial",
   "theorems": [
    "Kalepy.C54_refuted",
    "Kalepy.C54_scalars_partial"
   ],
   "note": "False in 1D with default squeeze (AttributeError). Proved for every other dimension and for squeeze=False."
  },
  {
   "property": "C55",
   "status": "partial",
   "theorems": [
    "Kalepy.C55_levels_partial",
    "Kalepy.C55_mass_partial",
    "Kalepy.C55_zero",
    "Kalepy.C55_refuted"
   ],
   "note": "For histograms of floats. Missing: a histogram of integers (as np.histogram2d without weights never gives, but a user may pass) raises a TypeError (refuted)."
  },
  {
   "property": "C56",
   "status": "partial",
   "theorems": [
    "Kalepy.C56_limits_partial",
    "Kalepy.C56_order_partial",
    "Kalepy.C56_grow_partial",
    "Kalepy.C56_given",
    "Kalepy.C56_kde_data",
    "Kalepy.C56_refuted"
   ],
   "note": "For all histories in which each parameter keeps its element type (e.g. floats throughout); limits given at construction stay. Refuted when integer data follow float data: the stored limits are truncated to integers."
  },
  {
   "property": "C57",
   "status": "proved",
   "theorems": [
    "Kalepy.C57_bands",
    "Kalepy.C57_content",
    "Kalepy.C57_content_weighted"
   ],
   "note": "The bands are given explicitly; the weight between their ends is the asked fraction within the weight of one datum, also for weighted data."
  },
  {
   "property": "C58",
   "status": "proved",
   "theorems": [
    "Kalepy.C58_pad",
    "Kalepy.C58_match",
    "Kalepy.C58_prep"
   ],
   "note": ""
  },
  {
   "property": "C59",
   "status": "proved",
   "theorems": [
    "Kalepy.C59_curve",
    "Kalepy.C59_renormalized",
    "Kalepy.C59_mismatch"
   ],
   "note": ""
  },
  {
   "property": "C60",
   "status": "partial",
   "theorems": [
    "Kalepy.C60_target_partial",
    "Kalepy.C60_below",
    "Kalepy.C60_refuted",
    "Kalepy.C60_lengths"
   ],
   "note": "Targets and upper limits everywhere, lower limits on the diagonal. In the 2D panels the band of a lower limit is drawn to the wrong end of the axis (refuted); C60_below says exactly what is drawn there."
  },
  {
   "property": "C61",
   "status": "partial",
   "theorems": [
    "Kalepy.C61_cdf_partial",
    "Kalepy.C61_refuted",
    "Kalepy.C61_notImplemented"
   ],
   "note": "Monotone, in [0,1], 0 on the lower faces and 1 in the upper corner: proved inside the grid of evaluation points (monotone in each coordinate also beyond it). Outside the grid the code extrapolates linearly, so the bound 0..1 is false there: C61_refuted. params and reflect raise NotImplementedError: C61_notImplemented."
  },
  {
   "property": "C62",
   "status": "proved",
   "theorems": [
    "Kalepy.C62_rem_add_cov",
    "Kalepy.C62_add_rem_cov",
    "Kalepy.C62_add_cov_is_root",
    "Kalepy.C62_add_cov_not_posDef"
   ],
   "note": ""
  },
  {
   "property": "C63",
   "status": "proved",
   "theorems": [
    "Kalepy.C63_cdf",
    "Kalepy.C63_inverse"
   ],
   "note": ""
  },
  {
   "property": "C64",
   "status": "partial",
   "theorems": [
    "Kalepy.C64_refuted",
    "Kalepy.C64_partial",
    "Kalepy.C64_pair",
    "Kalepy.C64_actual"
   ],
   "note": "False as claimed (C64_refuted). C64_partial: holds for arguments without True inside a list. C64_pair: and for a pair in one dimension. C64_actual: otherwise the list keeps the boundaries of the first data."
  },
  {
   "property": "C65",
   "status": "partial",
   "theorems": [
    "Kalepy.C65_partial",
    "Kalepy.C65_truncated",
    "Kalepy.C65_refuted"
   ],
   "note": "C65_partial: no boundaries, or boundaries at integers and half-integers, all points, params, grids, any dimension. C65_truncated: the exact pdf of integer data with boundaries in one dimension (mirror images truncated towards zero). C65_refuted: the full claim is false of the code (datum 1, boundary 1/4)."
  },
  {
   "property": "C66",
   "status": "proved",
   "theorems": [
    "Kalepy.C66_bootstrap",
    "Kalepy.C66_equal"
   ],
   "note": "With weights and without."
  },
  {
   "property": "C67",
   "status": "proved",
   "theorems": [
    "Kalepy.C67_quantiles",
    "Kalepy.C67_default",
    "Kalepy.C67_inverse"
   ],
   "note": "Quantiles outside [0,1) give no sigma (inf or NaN) and are excluded in C67_inverse."
  },
  {
   "property": "C68",
   "status": "partial",
   "theorems": [
    "Kalepy.C68_unweighted_partial",
    "Kalepy.C68_refuted"
   ],
   "note": "Holds without weights (or with equal results); dist1d drops its weights when drawing the bands (refuted in general)."
  },
  {
   "property": "C69",
   "status": "partial",
   "theorems": [
    "Kalepy.C69_partial",
    "Kalepy.C69_actual",
    "Kalepy.C69_refuted"
   ],
   "note": "Holds for the first call of a method without dictionaries and for calls with own dictionaries; refuted for later calls. C69_actual says in every program whose arguments each call uses."
  },
  {
   "property": "C70",
   "status": "proved",
   "theorems": [
    "Kalepy.C70_legend"
   ],
   "note": ""
  },
  {
   "property": "C71",
   "status": "proved",
   "theorems": [
    "Kalepy.C71_scatter",
    "Kalepy.C71_alpha"
   ],
   "note": ""
  },
  {
   "property": "C72",
   "status": "partial",
   "theorems": [
    "Kalepy.C72_partial",
    "Kalepy.C72_refuted"
   ],
   "note": "Holds except for upsample=False (or 0), which turns smoothing off (refuted)."
  },
  {
   "property": "C73",
   "status": "partial",
   "theorems": [
    "Kalepy.C73_partial",
    "Kalepy.C73_refuted"
   ],
   "note": "Negative bins are masked and the others drawn; zero bins are drawn too, against the documentation (refuted)."
  },
  {
   "property": "C74",
   "status": "partial",
   "theorems": [
    "Kalepy.C74_weights_partial",
    "Kalepy.C74_refuted",
    "Kalepy.C74_refuted_stored",
    "Kalepy.C74_errors"
   ],
   "note": "Holds for plot, clean, plot_kde and plot_data with arguments; hist and plot_data on stored data drop the weights (refuted)."
  },
  {
   "property": "C75",
   "status": "proved",
   "theorems": [
    "Kalepy.C75_origin"
   ],
   "note": ""
  },
  {
   "property": "C76",
   "status": "partial",
   "theorems": [
    "Kalepy.C76_formula_partial",
    "Kalepy.C76_constant_partial",
    "Kalepy.C76_positions",
    "Kalepy.C76_refuted",
    "Kalepy.C76_unit_refuted"
   ],
   "note": "False of the code: the scalar is the field's integral over the bin instead of its average (C76_refuted) and the interpolation uses the uniform number instead of the position (C76_unit_refuted). Proved: the exact value returned, the cases where it agrees with the claim (constant fields on unit bins), and that asking for scalars does not change the positions."
  },
  {
   "property": "C77",
   "status": "partial",
   "theorems": [
    "Kalepy.C77_weights_partial",
    "Kalepy.C77_refuted"
   ],
   "note": "False of the code: the weights carry an extra factor, the volume of the bin (C77_refuted); the argument mass is ignored. Proved: the positions are those of sampling the portion, and the exact weights."
  },
  {
   "property": "C78",
   "status": "proved",
   "theorems": [
    "Kalepy.C78_log",
    "Kalepy.C78_num",
    "Kalepy.C78_errors",
    "Kalepy.C78_bins"
   ],
   "note": "Over the reals; requested numbers below two points and NaN are outside the theorems."
  },
  {
   "property": "C79",
   "status": "proved",
   "theorems": [
    "Kalepy.C79_evaluate"
   ],
   "note": "Integral with respect to Lebesgue measure."
  },
  {
   "property": "C80",
   "status": "proved",
   "theorems": [
    "Kalepy.C80_grid"
   ],
   "note": ""
  },
  {
   "property": "C81",
   "status": "partial",
   "theorems": [
    "Kalepy.C81_inside_partial",
    "Kalepy.C81_gaussian",
    "Kalepy.C81_vectors",
    "Kalepy.C81_sphere",
    "Kalepy.C81_refuted"
   ],
   "note": "False of the code: Gaussian.inside always raises TypeError, 1D arrays of two or more points raise ValueError, and Box is positive on the sphere, which is not inside. Proved: the finite kernels with 2D arrays."
  },
  {
   "property": "C82",
   "status": "proved",
   "theorems": [
    "Kalepy.C82_params_reflect"
   ],
   "note": "Exact values, after any history of calls."
  },
  {
   "property": "C83",
   "status": "proved",
   "theorems": [
    "Kalepy.C83_default_points_params",
    "Kalepy.C83_default_points",
    "Kalepy.C83_scalar"
   ],
   "note": "Equal answers for all arguments, errors included."
  },
  {
   "property": "C84",
   "status": "partial",
   "theorems": [
    "Kalepy.C84_partial",
    "Kalepy.C84_refuted",
    "Kalepy.exists_randomNumbers",
    "Kalepy.C84_iid",
    "Kalepy.C84_iff"
   ],
   "note": "Exact characterisation (C84_iff): for every KDE without boundaries the samples are independent draws from the density iff the kernel is the Gaussian, or there is one parameter and the kernel is the box or the parabola. So the full claim is false (C84_refuted), for all data, for the box and parabola kernels in several dimensions and the triweight kernel in every dimension. Independence and equal distribution hold for all kernels (C84_iid)."
  },
  {
   "property": "C85",
   "status": "proved",
   "theorems": [
    "Kalepy.C85_moments",
    "Kalepy.C85_estimated",
    "Kalepy.C85_samples"
   ],
   "note": "Mean and covariance of the density for all kernels and dimensions; the multiple of the estimated covariance; the same moments for samples of kernels that are sampled exactly (C84)."
  },
  {
   "property": "C86",
   "status": "partial",
   "theorems": [
    "Kalepy.C86_partial",
    "Kalepy.C86_same_covariance",
    "Kalepy.C86_wrong_covariance",
    "Kalepy.C86_refuted"
   ],
   "note": "For all kernels and dimensions: independent samples with the mean of the density and covariance popCov + v * kernel matrix, v given per kernel (C86_partial). v is the kernel's variance for the Gaussian and box kernels and the parabola in one dimension (C86_same_covariance). False for the parabola kernel in every dimension from two on and for the triweight kernel in every dimension, for all data (C86_wrong_covariance, C86_refuted)."
  },
  {
   "property": "C87",
   "status": "proved",
   "theorems": [
    "Kalepy.C84_iid"
   ],
   "note": "all kernels, weighted or not; conditions on the probability space are the ones of C84"
  },
  {
   "property": "C88",
   "status": "proved",
   "theorems": [
    "Kalepy.C88_heights",
    "Kalepy.C88_succeeds"
   ],
   "note": "heights, normalisation, orientation; success for automatic edges and numbers of bins"
  },
  {
   "property": "C89",
   "status": "partial",
   "theorems": [
    "Kalepy.C89_partial",
    "Kalepy.C89_rule",
    "Kalepy.C89_value",
    "Kalepy.C89_refuted"
   ],
   "note": "the code hides the bins with density at most 0.9/N: empty bins are always hidden, but bins with data of area 10/9 or more may be hidden too (refuted). Exact rule in C89_rule"
  },
  {
   "property": "C90",
   "status": "proved",
   "theorems": [
    "Kalepy.C90_points",
    "Kalepy.C90_position"
   ],
   "note": "fancy=False"
  },
  {
   "property": "C91",
   "status": "partial",
   "theorems": [
    "Kalepy.C91_partial",
    "Kalepy.C91_actual",
    "Kalepy.C91_refuted"
   ],
   "note": "Refuted: logarithms below zero are divided by a negative median. C91_actual: in all cases in which order the sizes are; with weights at most one whose logarithms have an interquartile range above one (like normalised weights) heavier points are never larger."
  },
  {
   "property": "C92",
   "status": "partial",
   "theorems": [
    "Kalepy.C92_partial",
    "Kalepy.C92_fails",
    "Kalepy.C92_refuted"
   ],
   "note": "holds if the upper axis limit is not negative, or dispersion or baseline are given, or the fuzz is uniform; always fails with a negative upper limit otherwise"
  },
  {
   "property": "C93",
   "status": "partial",
   "theorems": [
    "Kalepy.C93_partial",
    "Kalepy.C93_refuted"
   ],
   "note": "holds for all sizes but 1, where an array without axes is returned; the unit ball is left by the parabola in more than one dimension (C33)"
  },
  {
   "property": "C94",
   "status": "partial",
   "theorems": [
    "Kalepy.C94_partial",
    "Kalepy.C94_fails",
    "Kalepy.C94_two",
    "Kalepy.C94_refuted"
   ],
   "note": "False as stated: for any number of parameters other than two the constructor raises ValueError (C94_fails), and for two parameters the range of the first parameter is used for both (C94_two). It holds if extrema are given or one entry is [None, None]."
  },
  {
   "property": "C95",
   "status": "partial",
   "theorems": [
    "Kalepy.C95_partial",
    "Kalepy.C95_refuted"
   ],
   "note": "False as stated: a KDE of two parameters is drawn in its own order whatever params. It holds for more than two parameters and for two parameters in their own order. Smoothing and upsampling of the contours are not modelled."
  },
  {
   "property": "C96",
   "status": "partial",
   "theorems": [
    "Kalepy.C96_partial",
    "Kalepy.C96_fails",
    "Kalepy.C96_refuted"
   ],
   "note": "False as stated: for more than two parameters dist2d raises TypeError whenever a shown parameter has no or only one boundary while some parameter has boundaries (C96_fails). It holds without boundaries, for complete pairs, and for two parameters unless all boundaries are None. Contours are drawn only under the hypothesis that they can be."
  },
  {
   "property": "C97",
   "status": "partial",
   "theorems": [
    "Kalepy.C97_partial",
    "Kalepy.C97_rule",
    "Kalepy.C97_always",
    "Kalepy.C97_refuted"
   ],
   "note": "False as documented: the bins hidden are those with density at most the lowest contour level (C97_rule), which always include a bin with data (C97_always). Empty bins are hidden."
  },
  {
   "property": "C98",
   "status": "partial",
   "theorems": [
    "Kalepy.C98_partial",
    "Kalepy.C98_refuted"
   ],
   "note": "Refuted: weighted data without edges raise TypeError (np.histogram 'auto' does not accept weights), unweighted lists with probability=True raise AttributeError. C98_partial characterises success and both failures exactly."
  },
  {
   "property": "C99",
   "status": "proved",
   "theorems": [
    "Kalepy.C99_area"
   ],
   "note": ""
  },
  {
   "property": "C100",
   "status": "proved",
   "theorems": [
    "Kalepy.C100_components"
   ],
   "note": "The bands are those of confidence() without the weights (C68)."
  },
  {
   "property": "C101",
   "status": "proved",
   "theorems": [
    "Kalepy.C101_same_scale",
    "Kalepy.C101_reflect"
   ],
   "note": "C101_reflect: KDEs of several parameters with reflecting boundaries."
  },
  {
   "property": "C102",
   "status": "partial",
   "theorems": [
    "Kalepy.C102_partial",
    "Kalepy.C102_fails",
    "Kalepy.C102_refuted"
   ],
   "note": "Refuted: with several parameters a number of bins raises TypeError. C102_partial: success with the exact abscissae for arrays and default points; C102_fails: exact result of all other cases (single point for a number of bins in one dimension, ValueError for default points of a KDE of a (1,N) array and for param=-1 in one dimension)."
  },
  {
   "property": "C103",
   "status": "partial",
   "theorems": [
    "Kalepy.C103_partial",
    "Kalepy.C103_refuted"
   ],
   "note": "Refuted: default call with a list raises AttributeError, with weights TypeError. C103_partial characterises success and failure, and the area drawn."
  },
  {
   "property": "C104",
   "status": "proved",
   "theorems": [
    "Kalepy.C104_panels",
    "Kalepy.C104_default"
   ],
   "note": ""
  },
  {
   "property": "C105",
   "status": "proved",
   "theorems": [
    "Kalepy.C105_succeeds",
    "Kalepy.C105_default",
    "Kalepy.C105_reflect"
   ],
   "note": "KDEs with default points; C105_default for KDEs made from data alone, C105_reflect for KDEs with reflecting boundaries. The drawing commands are computed; that matplotlib accepts the levels of the contours is C142"
  },
  {
   "property": "C106",
   "status": "partial",
   "theorems": [
    "Kalepy.C106_succeeds",
    "Kalepy.C106_drawn",
    "Kalepy.C106_partial",
    "Kalepy.C106_refuted"
   ],
   "note": "succeeds and what is drawn proved; the fractions proved for automatic edges and numbers of bins if there is no padding or an empty bin; the full claim is false of the code (refuted): padding adds cells with the smallest density, which count as data"
  },
  {
   "property": "C107",
   "status": "proved",
   "theorems": [
    "Kalepy.C107_data",
    "Kalepy.C107_kde",
    "Kalepy.C107_succeeds",
    "Kalepy.C107_default",
    "Kalepy.C107_kde_default"
   ],
   "note": ""
  },
  {
   "property": "C108",
   "status": "partial",
   "theorems": [
    "Kalepy.C108_partial",
    "Kalepy.C108_fails",
    "Kalepy.C108_refuted"
   ],
   "note": "the full claim is false of the code (refuted): with the argument weights the function always raises ValueError; proved without it, with the weights of the KDE or those in kwcorner"
  },
  {
   "property": "C109",
   "status": "partial",
   "theorems": [
    "Kalepy.C109_partial",
    "Kalepy.C109_exact",
    "Kalepy.C109_unweighted",
    "Kalepy.C109_strictly",
    "Kalepy.C109_refuted"
   ],
   "note": "proved for finite kernels and if the effective number of points is at least 2, in particular without weights; exact criterion for the Gaussian kernel below 2; the full claim is false of the code (refuted): the normal quantile is then negative, and the extrema lie inside the data"
  },
  {
   "property": "C110",
   "status": "proved",
   "theorems": [
    "Kalepy.C110_default"
   ],
   "note": ""
  },
  {
   "property": "C111",
   "status": "proved",
   "theorems": [
    "Kalepy.C111_law",
    "Kalepy.C111_density"
   ],
   "note": "C111_law: all kernels, joint law given success in terms of resample(1, reflect=False), success has positive probability; C111_density: law in terms of pdf of the KDE without boundaries."
  },
  {
   "property": "C112",
   "status": "partial",
   "theorems": [
    "Kalepy.C112_frequencies",
    "Kalepy.C112_partial",
    "Kalepy.C112_iff",
    "Kalepy.C112_refuted"
   ],
   "note": "Hoeffding bound proved for all kernels against the law of the samples, and against pdf exactly for the kernels that are sampled correctly (Gaussian; box and parabola in one dimension); refuted for the others."
  },
  {
   "property": "C113",
   "status": "partial",
   "theorems": [
    "Kalepy.C113_partial",
    "Kalepy.C113_interpolated",
    "Kalepy.C113_frequencies",
    "Kalepy.C113_interpolated_frequencies",
    "Kalepy.C113_order",
    "Kalepy.C113_refuted"
   ],
   "note": "C113_partial: up to their order, the samples are independent draws of one law, with the bins' shares of the mass and uniform positions without interpolation. C113_interpolated: the exact law with interpolation (linear densities in each bin). C113_frequencies, C113_interpolated_frequencies: exponential bounds for the frequencies. The full claim is false (C113_refuted): random numbers are sorted before the bins are looked up, so samples are returned ordered by the mass of their bins (C113_order)."
  },
  {
   "property": "C114",
   "status": "partial",
   "theorems": [
    "Kalepy.C114_partial",
    "Kalepy.C114_iff",
    "Kalepy.C114_refuted"
   ],
   "note": "Proved with poisson_outside=True, and without it if the mass below the threshold is a whole number. The full claim is false (C114_refuted): without poisson_outside the number of outliers is rounded, so the expected weights are off by that factor unless the mass is a whole number (C114_iff)."
  },
  {
   "property": "C115",
   "status": "partial",
   "theorems": [
    "Kalepy.C115_partial",
    "Kalepy.C115_refuted"
   ],
   "note": "The ratio warning and the harmlessness of the diagnostics are proved exactly; the warning about tiny elements is never given (C115_refuted)."
  },
  {
   "property": "C116",
   "status": "partial",
   "theorems": [
    "Kalepy.C116_partial",
    "Kalepy.C116_fails",
    "Kalepy.C116_refuted",
    "Kalepy.C116_square_wrong"
   ],
   "note": "Holds along the last axis, and along the first for single columns or square arrays with equal column weights; otherwise ValueError (C116_fails) or silently wrong values (C116_square_wrong)."
  },
  {
   "property": "C117",
   "status": "partial",
   "theorems": [
    "Kalepy.C117_partial",
    "Kalepy.C117_refuted",
    "Kalepy.C117_stats_refuted"
   ],
   "note": "Exact text for every length and num; num=0 and stats without shape violate the claim."
  },
  {
   "property": "C118",
   "status": "partial",
   "theorems": [
    "Kalepy.C118_partial",
    "Kalepy.C118_refuted",
    "Kalepy.C118_int_refuted"
   ],
   "note": "Exact text; integer quantiles are truncated and percs=None raises."
  },
  {
   "property": "C119",
   "status": "partial",
   "theorems": [
    "Kalepy.C119_partial",
    "Kalepy.C119_actual",
    "Kalepy.C119_refuted"
   ],
   "note": "Exact: C119_actual says when the format is exponential; small values between the least and the greatest are overlooked."
  },
  {
   "property": "C120",
   "status": "partial",
   "theorems": [
    "Kalepy.C120_partial",
    "Kalepy.C120_refuted",
    "Kalepy.C120_loc_refuted"
   ],
   "note": "The full claim is refuted: a given box is dropped by the code, and without index a given loc is overwritten. Proved: exact placement in every case (panel with negative indices, IndexError for missing panels, an empty upper panel by default)."
  },
  {
   "property": "C121",
   "status": "partial",
   "theorems": [
    "Kalepy.C121_partial",
    "Kalepy.C121_refuted",
    "Kalepy.C121_nbshow"
   ],
   "note": "The full claim is refuted: in an IPython shell that is neither zmq nor terminal (hosted notebooks) every variant raises AttributeError. Proved for scripts, notebooks, terminal IPython; exact failure in all other shells."
  },
  {
   "property": "C122",
   "status": "partial",
   "theorems": [
    "Kalepy.C122_partial",
    "Kalepy.C122_hue",
    "Kalepy.C122_refuted",
    "Kalepy.C122_invert"
   ],
   "note": "The full claim is refuted for grey colours, whose maps are reddish. Proved: components in [0,1], the map gets darker, hue kept for every colour that is not grey (C122_hue), inversion is an involution."
  },
  {
   "property": "C123",
   "status": "proved",
   "theorems": [
    "Kalepy.C123_consistent",
    "Kalepy.C123_named",
    "Kalepy.C123_default",
    "Kalepy.C123_given_covariance"
   ],
   "note": "Convergence in probability at points of continuity, for every kernel; the covariance is the one computed from the data (strong law of large numbers) or a given one."
  },
  {
   "property": "C124",
   "status": "proved",
   "theorems": [
    "Kalepy.C124_consistent",
    "Kalepy.C124_default",
    "Kalepy.C124_samples",
    "Kalepy.C124_reflect",
    "Kalepy.C124_reflect_samples"
   ],
   "note": "Convergence in mean over space for every density with second moments; consequences for regions and for resample; with and without boundaries."
  },
  {
   "property": "C125",
   "status": "partial",
   "theorems": [
    "Kalepy.C125_partial",
    "Kalepy.C125_refuted",
    "Kalepy.C125_corner_low",
    "Kalepy.C125_corner"
   ],
   "note": "holds inside the boundaries and on the boundaries of one dimension; where boundaries of m dimensions meet only m+1 of the 2^m images needed are added, so the pdf tends to less than f, to (m+1)/2^m f if the dimensions are uncoupled"
  },
  {
   "property": "C126",
   "status": "proved",
   "theorems": [
    "Kalepy.C126_half",
    "Kalepy.C126_low",
    "Kalepy.C126_corner"
   ],
   "note": "the exact limit at sides for every covariance, at edges and corners for uncoupled dimensions, strictly below f everywhere on the surface"
  },
  {
   "property": "C127",
   "status": "partial",
   "theorems": [
    "Kalepy.C127_partial",
    "Kalepy.C127_usual_partial",
    "Kalepy.C127_refuted"
   ],
   "note": "2^64, the empty list and lists mixing 1 with 2^63 are not recognised, booleans only beside integers (refuted); the partial theorem characterises exactly what is recognised"
  },
  {
   "property": "C128",
   "status": "partial",
   "theorems": [
    "Kalepy.C128_partial",
    "Kalepy.C128_rows",
    "Kalepy.C128_refuted"
   ],
   "note": "everything but the last clause is proved; [[], [1, 2]] is reported with the plain shape (2,) (refuted)"
  },
  {
   "property": "C129",
   "status": "partial",
   "theorems": [
    "Kalepy.C129_partial",
    "Kalepy.C129_refuted",
    "Kalepy.C129_cut",
    "Kalepy.C129_cut_close",
    "Kalepy.C129_contours",
    "Kalepy.C129_linear"
   ],
   "note": "a colour map given together with a colour is ignored (refuted); all other clauses are proved; 256-step rounding of positions is not modelled"
  },
  {
   "property": "C130",
   "status": "partial",
   "theorems": [
    "Kalepy.C130_lines",
    "Kalepy.C130_orientation",
    "Kalepy.C130_colors_partial",
    "Kalepy.C130_refuted"
   ],
   "note": "with fewer given colours than levels the other levels are left out (refuted); without given colours every level is drawn"
  },
  {
   "property": "C131",
   "status": "proved",
   "theorems": [
    "Kalepy.C131_given",
    "Kalepy.C131_default",
    "Kalepy.C131_grid"
   ],
   "note": "arguments passed on unchanged to matplotlib are left out"
  },
  {
   "property": "C132",
   "status": "proved",
   "theorems": [
    "Kalepy.C132_regular",
    "Kalepy.C132_sensitivity",
    "Kalepy.C132_reflect",
    "Kalepy.C132_sensitivity_reflect",
    "Kalepy.C132_mostly"
   ],
   "note": "C132_regular and C132_sensitivity without boundaries, C132_reflect and C132_sensitivity_reflect with boundaries. C132_mostly: all kernels."
  },
  {
   "property": "C133",
   "status": "proved",
   "theorems": [
    "Kalepy.C133_deviation"
   ],
   "note": "Non-asymptotic counterpart of C123, for a given covariance."
  },
  {
   "property": "C134",
   "status": "partial",
   "theorems": [
    "Kalepy.C134_partial",
    "Kalepy.C134_covariance",
    "Kalepy.C134_neff",
    "Kalepy.C134_refuted"
   ],
   "note": "Holds when covariance and bandwidth are the same (C134_partial). Refuted in general: np.cov gets the weights as aweights and neff is (sum w)^2 / sum w^2. The exact relations of covariances and effective numbers are proved."
  },
  {
   "property": "C135",
   "status": "proved",
   "theorems": [
    "Kalepy.C135_accuracy",
    "Kalepy.C135_double",
    "Kalepy.C135_limit",
    "Kalepy.C135_box",
    "Kalepy.C135_nonneg",
    "Kalepy.C135_order",
    "Kalepy.C135_reflect",
    "Kalepy.C135_outside",
    "Kalepy.C135_exact"
   ],
   "note": "Model of evaluation with a rounding after every operation, for a given whitening matrix and norm; no overflow, underflow or NaN. C135_exact: without roundings it is the exact model."
  },
  {
   "property": "C136",
   "status": "proved",
   "theorems": [
    "Kalepy.C136_samples_in_grid",
    "Kalepy.C136_choice",
    "Kalepy.C136_exact",
    "Kalepy.C136_choice_exact"
   ],
   "note": "Rounding to nearest with p digits, unbounded exponents. The _exact theorems: without roundings this is the exact model."
  },
  {
   "property": "C137",
   "status": "partial",
   "theorems": [
    "Kalepy.C137_partial",
    "Kalepy.C137_refuted",
    "Kalepy.C137_three_values",
    "Kalepy.C137_exact"
   ],
   "note": "Violated: gradients just above the threshold 1e-16 lose all digits (C137_refuted gives a sample outside the grid, C137_three_values a nearly flat density whose samples take three values). C137_partial bounds the excursion by 120 u / gamma of the bin width for gradients of at least gamma. C137_exact: without roundings this is the exact model."
  },
  {
   "property": "C138",
   "status": "partial",
   "theorems": [
    "Kalepy.C138_partial",
    "Kalepy.C138_stale",
    "Kalepy.C138_returned",
    "Kalepy.C138_refuted",
    "Kalepy.C138_returned_refuted"
   ],
   "note": "The object keeps references to the data array and to the list of boundaries and hands out its own arrays of default points: the full claims are refuted. Proved: no call notices changes of any other array that existed before the construction (weights, covariance, data given as lists), and exactly what the density is after the data array was overwritten, and what the points are after a returned array was changed."
  },
  {
   "property": "C139",
   "status": "partial",
   "theorems": [
    "Kalepy.C139_partial",
    "Kalepy.C139_refuted",
    "Kalepy.C139_kept",
    "Kalepy.C139_options",
    "Kalepy.C139_one_dict"
   ],
   "note": "False of the code: the methods add their defaults to the caller's dictionaries (plot_kde, then plot_data with the same dictionary raises TypeError). Proved: a call draws as if it were the first one if the earlier calls given one of its dictionaries were the same call or plot_data; entries of the caller are never changed or removed; exactly which options a call draws with; one dictionary for both arguments of clean, hist or plot raises TypeError."
  },
  {
   "property": "C140",
   "status": "partial",
   "theorems": [
    "Kalepy.C140_arrays",
    "Kalepy.C140_exact",
    "Kalepy.C140_partial",
    "Kalepy.C140_refuted"
   ],
   "note": "False in full (C140_refuted): masses given as a list raise AttributeError when the sampler is made; scalar masses that are used raise TypeError as a list, and as an array of integers with interpolation. C140_exact says these are the only differences, C140_partial that samples never change silently."
  },
  {
   "property": "C141",
   "status": "partial",
   "theorems": [
    "Kalepy.C141_initial",
    "Kalepy.C141_partial",
    "Kalepy.C141_lists",
    "Kalepy.C141_mass",
    "Kalepy.C141_bins",
    "Kalepy.C141_refuted"
   ],
   "note": "False in full (C141_refuted): the sampler keeps references to the arrays it is given, but the cumulative masses are computed once. Arrays that were not passed, and lists, have no effect; the masses only change the default number of samples; for a given number each sample stays in its bin."
  },
  {
   "property": "C142",
   "status": "partial",
   "theorems": [
    "Kalepy.C142_exact",
    "Kalepy.C142_partial",
    "Kalepy.C142_dist2d_partial",
    "Kalepy.C142_kde_partial",
    "Kalepy.C142_default",
    "Kalepy.C142_toomany",
    "Kalepy.C142_refuted"
   ],
   "note": "false of the code with the default arguments (C142_refuted: six points in four bins give equal levels, and matplotlib raises ValueError). Exactly when the contours of data are accepted: C142_exact. Accepted if the fractions are at least delta apart and cells of equal density hold at most the fraction delta (C142_partial for contour, C142_dist2d_partial and C142_kde_partial for the contours of a KDE); more fractions than distinct densities are always refused (C142_toomany)"
  },
  {
   "property": "C143",
   "status": "partial",
   "theorems": [
    "Kalepy.C143_contour",
    "Kalepy.C143_hist",
    "Kalepy.C143_off",
    "Kalepy.C143_lines",
    "Kalepy.C143_partial",
    "Kalepy.C143_refuted"
   ],
   "note": "what is covered is proved for every mask that is drawn; C143_lines: the mask does not change the lines that are drawn; that the mask never prevents the plot is false of the code (C143_refuted: all data in one bin; the lowest level is the largest density and matplotlib raises ValueError). C143_partial says exactly when the plot with contours is drawn"
  },
  {
   "property": "C144",
   "status": "partial",
   "theorems": [
    "Kalepy.C144_partial",
    "Kalepy.C144_strict_partial",
    "Kalepy.C144_refuted",
    "Kalepy.C144_identical",
    "Kalepy.C144_succeeds",
    "Kalepy.C144_succeeds_weights",
    "Kalepy.C144_exact"
   ],
   "note": "strictly increasing is false of the code (C144_refuted: data 2, 2 give edges all equal to 2, since the arbitrary width 1e-16 is lost in rounding; C144_identical: so for every common value of size 2 or more). C144_partial: weakly increasing, number, covering, for every precision of at least 3 digits and up to 2^(p-3) bins; C144_strict_partial: strictly increasing if the extrema are more than 16 n units of rounding apart, relative to the larger, for n bins; C144_succeeds, C144_succeeds_weights: edges are returned, without and (for fewer than 2^(p-4) data) with weights; C144_exact: without rounding the model is that of C45"
  },
  {
   "property": "C145",
   "status": "partial",
   "theorems": [
    "Kalepy.C145_partial",
    "Kalepy.C145_covariance",
    "Kalepy.C145_params",
    "Kalepy.C145_box",
    "Kalepy.C145_reflect",
    "Kalepy.C145_points",
    "Kalepy.C145_refuted"
   ],
   "note": "The box kernel with an explicit covariance silently drops points with NaN (C145_refuted; C145_box says exactly what it returns). Everything else raises or returns NaN. NaN is modelled as a missing value; propagation through LAPACK is an explicit hypothesis."
  },
  {
   "property": "C146",
   "status": "partial",
   "theorems": [
    "Kalepy.C146_partial",
    "Kalepy.C146_reflect",
    "Kalepy.C146_none",
    "Kalepy.C146_covariance",
    "Kalepy.C146_plain",
    "Kalepy.C146_share",
    "Kalepy.C146_refuted"
   ],
   "note": "Proved: exact behaviour with boundaries (only numbers, those of the KDE of the complete points), without boundaries (NaN exactly in the missing dimensions of the point drawn, with the probability of its weight), and without explicit covariance (always raises). The full claim is refuted: without boundaries NaN is returned."
  },
  {
   "property": "C147",
   "status": "partial",
   "theorems": [
    "Kalepy.C147_partial",
    "Kalepy.C147_pdf",
    "Kalepy.C147_params",
    "Kalepy.C147_resample",
    "Kalepy.C147_bool",
    "Kalepy.C147_refuted"
   ],
   "note": "Proved for lists of boundaries (density, pdf, with and without params) and for every form in resample; refuted for True and False in density, which raise TypeError."
  },
  {
   "property": "C148",
   "status": "partial",
   "theorems": [
    "Kalepy.C148_partial",
    "Kalepy.C148_refuted"
   ],
   "note": "Missing: that no quantile exceeds the largest value, which is false in floating point (C148_refuted); the excess is bounded."
  },
  {
   "property": "C149",
   "status": "proved",
   "theorems": [
    "Kalepy.C149_cdf",
    "Kalepy.C149_exact"
   ],
   "note": "Grid values only; the interpolation between them is scipy's."
  },
  {
   "property": "C150",
   "status": "proved",
   "theorems": [
    "Kalepy.C150_cdf_points"
   ],
   "note": "For every KDE whose cdf can be evaluated, after any history."
  },
  {
   "property": "C151",
   "status": "proved",
   "theorems": [
    "Kalepy.C151_bias",
    "Kalepy.C151_lipschitz",
    "Kalepy.C151_nearTangent"
   ],
   "note": "Bias of the pdf at a fixed bandwidth; combined with the deviation bound of C133."
  },
  {
   "property": "C152",
   "status": "proved",
   "theorems": [
    "Kalepy.C152_labels",
    "Kalepy.C152_every_parameter",
    "Kalepy.C152_sides",
    "Kalepy.C152_errors",
    "Kalepy.C152_defaults"
   ],
   "note": "Whether numbers are written at the ticks is not modelled (matplotlib)."
  },
  {
   "property": "C153",
   "status": "partial",
   "theorems": [
    "Kalepy.C153_alone_partial",
    "Kalepy.C153_caller_partial",
    "Kalepy.C153_shared_refuted",
    "Kalepy.C153_integers_refuted"
   ],
   "note": "True if no two corner plots share an object of limits and it is no array of integers; refuted otherwise: new limits are written into the object of the caller."
  },
  {
   "property": "C154",
   "status": "partial",
   "theorems": [
    "Kalepy.C154_exact",
    "Kalepy.C154_midpoints",
    "Kalepy.C154_subdivide",
    "Kalepy.C154_linear",
    "Kalepy.C154_linear_strict",
    "Kalepy.C154_bins",
    "Kalepy.C154_bins_strict",
    "Kalepy.C154_log_partial",
    "Kalepy.C154_log_refuted"
   ],
   "note": "Linear scales: proved in full for rounding to nearest with any number of digits, for at most 2^(p-3) points; C154_linear_strict, C154_bins_strict: strictly increasing, with positive widths, if the ends are more than 16 n units of rounding apart, relative to the larger, for n bins. Logarithmic scales: error bounds are proved; exact ends and kept edges are refuted for every implementation of log10 and 10**y."
  },
  {
   "property": "C155",
   "status": "proved",
   "theorems": [
    "Kalepy.C155_variance",
    "Kalepy.C155_error"
   ],
   "note": "exact variance and mean squared error for independent data with a given covariance and fixed bandwidth; bound by bandwidth, number of data and curvature of the density"
  },
  {
   "property": "C156",
   "status": "proved",
   "theorems": [
    "Kalepy.C156_accuracy",
    "Kalepy.C156_double",
    "Kalepy.C156_nonneg",
    "Kalepy.C156_vanishes"
   ],
   "note": "roundings to nearest with gradual underflow; overflow is not modelled"
  },
  {
   "property": "C157",
   "status": "proved",
   "theorems": [
    "Kalepy.C157_samples_in_grid",
    "Kalepy.C157_choice",
    "Kalepy.C157_lost"
   ],
   "note": "roundings to nearest with gradual underflow; overflow is not modelled"
  },
  {
   "property": "C158",
   "status": "proved",
   "theorems": [
    "Kalepy.C158_matrix",
    "Kalepy.C158_underflow",
    "Kalepy.C158_box"
   ],
   "note": "Errors of the factorisation enter as bounds (hypotheses); the factorisations themselves are not modelled in floating point."
  },
  {
   "property": "C159",
   "status": "proved",
   "theorems": [
    "Kalepy.C159_bimodal",
    "Kalepy.C159_edge",
    "Kalepy.C159_reseeds",
    "Kalepy.C159_sequential",
    "Kalepy.C159_truth",
    "Kalepy.C159_points",
    "Kalepy.C159_noise",
    "Kalepy.C159_noise_errors",
    "Kalepy.C159_range",
    "Kalepy.C159_covariance"
   ],
   "note": "Random numbers are inputs; C159_sequential: with a generator that hands out its numbers one after the other, each value has a number of its own. In the scaled normal data the largest second coordinate is positive (otherwise the code produces NaN, which is not modelled)."
  },
  {
   "property": "C160",
   "status": "proved",
   "theorems": [
    "Kalepy.C160_sorted",
    "Kalepy.C160_covary",
    "Kalepy.C160_positive2",
    "Kalepy.C160_positive3"
   ],
   "note": "Random numbers, permutations and argsort are inputs."
  },
  {
   "property": "C161",
   "status": "proved",
   "theorems": [
    "Kalepy.C161_no_overflow",
    "Kalepy.C161_double",
    "Kalepy.C161_nonneg"
   ],
   "note": "Density in arithmetic that is arbitrary beyond a largest number; sizes given as explicit conditions; without reflection."
  },
  {
   "property": "C162",
   "status": "proved",
   "theorems": [
    "Kalepy.C162_bound",
    "Kalepy.C162_many",
    "Kalepy.C162_one_boundary",
    "Kalepy.C162_one_boundary_many",
    "Kalepy.C162_can_fail",
    "Kalepy.C162_fails",
    "Kalepy.C162_large_fails"
   ],
   "note": "Upper bounds for sizes up to a chunk and for larger sizes; positive probability of failure for all sizes; failure almost sure for large sizes if less than a tenth of the candidates are inside."
  },
  {
   "property": "C163",
   "status": "proved",
   "theorems": [
    "Kalepy.C163_frequencies",
    "Kalepy.C163_total",
    "Kalepy.C163_consistent",
    "Kalepy.C163_density"
   ],
   "note": "All kernels; in terms of pdf for the kernels that are sampled exactly."
  },
  {
   "property": "C164",
   "status": "partial",
   "theorems": [
    "Kalepy.C164_repeated",
    "Kalepy.C164_partial",
    "Kalepy.C164_refuted"
   ],
   "note": "The full claim is false of the code (C164_refuted). C164_repeated: the exact effect - points nearer than 1/2 to a boundary that is farther from zero are repeated. C164_partial: same samples otherwise."
  },
  {
   "property": "C165",
   "status": "proved",
   "theorems": [
    "Kalepy.C165_poisson"
   ],
   "note": "Joint law of the weights of all bins, with poisson_outside=True, with and without poisson_inside and interpolation."
  },
  {
   "property": "C166",
   "status": "proved",
   "theorems": [
    "Kalepy.C166_succeeds",
    "Kalepy.C166_mean",
    "Kalepy.C166_log",
    "Kalepy.C166_order",
    "Kalepy.C166_range"
   ],
   "note": "midpoints with axis=None or any list of axes; squeeze is not modelled."
  },
  {
   "property": "C167",
   "status": "partial",
   "theorems": [
    "Kalepy.C167_whitens",
    "Kalepy.C167_partial",
    "Kalepy.C167_fails",
    "Kalepy.C167_refuted"
   ],
   "note": "True in one and two dimensions; in three and more the call always raises (C167_fails, C167_refuted)."
  },
  {
   "property": "C168",
   "status": "partial",
   "theorems": [
    "Kalepy.C168_trapz_partial",
    "Kalepy.C168_all",
    "Kalepy.C168_trapz_last",
    "Kalepy.C168_refuted",
    "Kalepy.C168_mass_partial",
    "Kalepy.C168_mass_all",
    "Kalepy.C168_mass_negative",
    "Kalepy.C168_mass_refuted",
    "Kalepy.C168_sum"
   ],
   "note": "True for distinct axes counted from the front in any order and for one axis counted from the end behind all others (trapz_nd); false for other negative axes (refuted); what one negative axis does in trapz_dens_to_mass is stated exactly"
  },
  {
   "property": "C169",
   "status": "partial",
   "theorems": [
    "Kalepy.C169_resample_partial",
    "Kalepy.C169_resample_single",
    "Kalepy.C169_grid_partial",
    "Kalepy.C169_grid_single",
    "Kalepy.C169_outliers_partial",
    "Kalepy.C169_outliers_single",
    "Kalepy.C169_refuted"
   ],
   "note": "Exact up to the one case in which the code violates the claim (one sample, one dimension), which is characterised and refuted."
  },
  {
   "property": "C170",
   "status": "proved",
   "theorems": [
    "Kalepy.C170_combine",
    "Kalepy.C170_others",
    "Kalepy.C170_law",
    "Kalepy.C170_kept",
    "Kalepy.C170_pdf"
   ],
   "note": "Without boundaries. Same-random-number identity for all three calls, full law for any kernel, weighted bootstrap on kept coordinates, unchanged probabilities on the others."
  },
  {
   "property": "C171",
   "status": "partial",
   "theorems": [
    "Kalepy.C171_partial",
    "Kalepy.C171_unpacked",
    "Kalepy.C171_error",
    "Kalepy.C171_refuted"
   ],
   "note": "The code violates the full statement for return_scalar=False (C171_refuted, exact behaviour in C171_unpacked and C171_error); proved for all other options."
  },
  {
   "property": "C172",
   "status": "proved",
   "theorems": [
    "Kalepy.C172_law",
    "Kalepy.C172_empty",
    "Kalepy.C172_inside",
    "Kalepy.C172_mirrored",
    "Kalepy.C172_dropped"
   ],
   "note": "For positive definite kernel matrices and chunk sizes other than zero; the noise law is the normalised kernel for the Gaussian kernel and, in one dimension, the box and parabola kernels."
  },
  {
   "property": "C173",
   "status": "proved",
   "theorems": [
    "Kalepy.C173_components",
    "Kalepy.C173_kde",
    "Kalepy.C173_hist",
    "Kalepy.C173_succeeds"
   ],
   "note": "First calls without dictionaries of options (later calls: C69). Matplotlib's own work is not modelled."
  },
  {
   "property": "C174",
   "status": "proved",
   "theorems": [
    "Kalepy.C174_exact",
    "Kalepy.C174_succeeds",
    "Kalepy.C174_integral",
    "Kalepy.C174_probability",
    "Kalepy.C174_finite",
    "Kalepy.C174_limit",
    "Kalepy.C174_grid",
    "Kalepy.C174_cdf",
    "Kalepy.C174_reflect",
    "Kalepy.C174_integral_total",
    "Kalepy.C174_mostly",
    "Kalepy.C174_all",
    "Kalepy.C174_cdf_all",
    "Kalepy.C174_cdf_kernels"
   ],
   "note": "C174_cdf_all (every KDE), C174_cdf_kernels (without boundaries, every kernel) and C174_all (any box) give the limits for arrays of evaluation points given by the user. For automatic evaluation points the bounds apply (their steps and extent are fixed by the data; for finite kernels the default points cover the whole support, C174_finite)."
  },
  {
   "property": "C175",
   "status": "partial",
   "theorems": [
    "Kalepy.C175_refuted",
    "Kalepy.C175_zero",
    "Kalepy.C175_outlier",
    "Kalepy.C175_iff",
    "Kalepy.C175_data",
    "Kalepy.C175_partial",
    "Kalepy.C175_spacing",
    "Kalepy.C175_spacing_nd"
   ],
   "note": "Refuted for kernels of finite support by C175_refuted (C175_zero gives the witness), and by C175_outlier with every argument but the kernel at its default. C175_partial proves the claim for the Gaussian kernel, C175_spacing for finite kernels in one dimension with close default points; C175_iff and C175_data say exactly when cdf returns numbers. C175_spacing_nd: finite kernels in any dimension, if the default points are close enough."
  },
  {
   "property": "C176",
   "status": "proved",
   "theorems": [
    "Kalepy.C176_trapz",
    "Kalepy.C176_samples",
    "Kalepy.C176_frequencies",
    "Kalepy.C176_bins",
    "Kalepy.C176_values",
    "Kalepy.C176_integral",
    "Kalepy.C176_limit",
    "Kalepy.C176_finite",
    "Kalepy.C176_zero",
    "Kalepy.C176_outlier",
    "Kalepy.C176_interpolated",
    "Kalepy.C176_reflect_integral",
    "Kalepy.C176_reflect_samples",
    "Kalepy.C176_trapz_total",
    "Kalepy.C176_samples_total",
    "Kalepy.C176_frequencies_total",
    "Kalepy.C176_bins_total",
    "Kalepy.C176_mostly",
    "Kalepy.C176_all_integral",
    "Kalepy.C176_all_samples",
    "Kalepy.C176_all_limit",
    "Kalepy.C176_unit",
    "Kalepy.C176_total",
    "Kalepy.C176_unit_one_sided"
   ],
   "note": "Error bounds for integrals and for samples, for every function evaluated on a grid (with one bound of the variation, or with different bounds in different cells: _total), and limits for the pdf of every KDE (C176_all_integral, C176_all_samples, C176_all_limit). For arbitrary sets without interpolation, for unions of cells and, in the limit, for all sets whose boundary has no volume also with it (C176_interpolated, C176_mostly). C176_zero and C176_outlier show that no fixed tolerance holds for the default evaluation points. C176_unit: the pdf of every KDE without boundaries integrates to 1 on large and fine grids. C176_total: with boundaries, the result is the integral of the pdf over the whole space; C176_unit_one_sided: this is 1 with at most one boundary in each dimension (C12)."
  },
  {
   "property": "C177",
   "status": "partial",
   "theorems": [
    "Kalepy.C177_partial",
    "Kalepy.C177_samples",
    "Kalepy.C177_actual",
    "Kalepy.C177_refuted"
   ],
   "note": "False in full (C177_refuted): the coordinates are kept after the first use and handed out. C177_partial: right if nothing is assigned to the edges passed and the arrays returned; C177_actual: what is returned in every program; C177_samples: no effect on samples."
  },
  {
   "property": "C178",
   "status": "proved",
   "theorems": [
    "Kalepy.C178_squeeze",
    "Kalepy.C178_unique"
   ],
   "note": "C178_unique: the specification determines the result."
  }
 ]
}