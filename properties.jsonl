{"id": "C01", "title": "Density is a pointwise function of the evaluation points", "statement": "KDE.density / Kernel.density return one value per evaluation point, in order, and the value at a point does not depend on which other points are evaluated in the same call: evaluating a concatenation of two point sets gives the concatenation of the two results, with or without `reflect`, `params` and `weights`.", "quantifier": "all datasets, weights, kernels, bandwidth matrices, reflect and params settings, and all lists of evaluation points", "why_tests_cant": "a test fixes a handful of point lists; the claim is about every split of every list, including the in-place boundary zeroing", "anchors": ["kalepy/kernels.py:Kernel.density", "kalepy/kernels.py:_evaluate_numba", "kalepy/kde.py:KDE.density"]}
{"id": "C02", "title": "Density is the weighted kernel sum in the inverse bandwidth-matrix metric", "statement": "Without reflection the density at x is sum_j w_j K((x-d_j)^T M^-1 (x-d_j)) / (sqrt(det M) * norm_K(D)) where M = covariance * bandwidth^2 (elementwise); the whitening by the Cholesky factor of M^-1 introduces no other dependence.", "quantifier": "all dimensions D, all positive-definite kernel matrices, all datasets, weights and points, and each of the four kernels", "why_tests_cant": "correctness of whitening for every positive definite matrix cannot be sampled", "anchors": ["kalepy/kernels.py:Kernel.density", "kalepy/kernels.py:_evaluate_numba"]}
{"id": "C03", "title": "Density does not depend on the order of the data", "statement": "Permuting the data points together with their weights leaves every density value unchanged (also with reflection).", "quantifier": "all permutations of all datasets and weights", "why_tests_cant": "permutations of arbitrary length datasets", "anchors": ["kalepy/kernels.py:_evaluate_numba", "kalepy/kernels.py:Kernel.density"]}
{"id": "C04", "title": "Density is additive in the data and linear in the weights", "statement": "For a fixed kernel matrix, the density of a concatenated dataset is the sum of the densities; multiplying all weights by c multiplies the density by c; a data point of weight 0 contributes nothing and a point of integer weight k contributes the same as k copies of weight 1; omitted weights mean weight 1 for every point.", "quantifier": "all datasets, splits, weights, constants, kernels, reflections", "why_tests_cant": "algebraic law over all inputs", "anchors": ["kalepy/kernels.py:Kernel.density", "kalepy/kernels.py:_evaluate_numba"]}
{"id": "C05", "title": "Density is never negative", "statement": "For nonnegative weights (the only ones KDE accepts) every returned density/pdf value is >= 0, with and without reflection.", "quantifier": "all datasets, weights >= 0, kernels, positive-definite matrices, reflections and points", "why_tests_cant": "universally quantified inequality", "anchors": ["kalepy/kernels.py:Kernel.density", "kalepy/kde.py:KDE.density"]}
{"id": "C06", "title": "The pdf is invariant under rescaling of the weights", "statement": "KDE(data, weights=c*w).pdf(x) = KDE(data, weights=w).pdf(x) for every c > 0: effective number of points, covariance, bandwidth, kernel matrix and normalised density are all unchanged.", "quantifier": "all datasets, weights, c > 0, bandwidth methods, kernels, points", "why_tests_cant": "algebraic invariance through the whole constructor", "anchors": ["kalepy/kde.py:KDE.__init__", "kalepy/kde.py:KDE.density", "kalepy/kde.py:KDE._set_bandwidth"]}
{"id": "C07", "title": "The pdf integrates to one", "statement": "The unreflected pdf (probability=True) integrates to exactly 1 over R^D.", "quantifier": "every dimension D >= 1, each of the four kernels, every dataset with valid weights and every positive-definite kernel matrix", "why_tests_cant": "tests integrate numerically in D <= 4 for the identity matrix; normalisation involves Gamma/Beta functions in D and a determinant", "anchors": ["kalepy/kernels.py:Kernel.norm", "kalepy/kernels.py:_nball_vol", "kalepy/kernels.py:_beta_kernel_norm", "kalepy/kernels.py:Gaussian.norm", "kalepy/kernels.py:Box.norm", "kalepy/kernels.py:Parabola.norm", "kalepy/kernels.py:Triweight.norm"]}
{"id": "C08", "title": "KDE is equivariant under translation and invertible linear maps", "statement": "With a scalar (or Scott/Silverman) full bandwidth, transforming data and points by x -> A x + b divides the pdf by |det A|; in particular translating data and points changes nothing.", "quantifier": "all invertible A, all b, all datasets/weights/points/kernels", "why_tests_cant": "continuous group of transformations", "anchors": ["kalepy/kde.py:KDE.__init__", "kalepy/kernels.py:Kernel.density"]}
{"id": "C09", "title": "Finite kernels vanish outside the reported extrema", "statement": "For the box, parabola and triweight kernels the unreflected density is 0 at every point outside the box KDE.extrema (data min/max extended by sqrt(M_ii) (1+1e-8)), so the default evaluation grid covers the whole support.", "quantifier": "every dimension, every positive-definite kernel matrix (correlated or not), every dataset", "why_tests_cant": "needs a Cauchy-Schwarz argument for every matrix", "anchors": ["kalepy/kde.py:KDE.__init__ (eff_extrema)", "kalepy/kernels.py:Box._evaluate", "kalepy/kernels.py:Parabola._evaluate", "kalepy/kernels.py:Triweight._evaluate"]}
{"id": "C10", "title": "density(params=...) is the marginal of the full density", "statement": "Evaluating with `params` gives the density with all other parameters integrated out ('the other parameters are projected over').", "quantifier": "all subsets of parameters, all datasets, kernels and positive-definite matrices", "why_tests_cant": "an integral identity over all inputs", "anchors": ["kalepy/kde.py:KDE.density", "kalepy/kernels.py:Kernel.density"]}
{"id": "C11", "title": "With reflect, density is zero outside the reflecting boundaries", "statement": "A point that violates any given boundary (below a lower or above an upper one) in any dimension gets density 0.", "quantifier": "all dimensions, boundary specifications, datasets and points", "why_tests_cant": "the order of in-place additions and zeroings matters and must be checked for every point/boundary combination", "anchors": ["kalepy/kernels.py:Kernel.density"]}
{"id": "C12", "title": "Reflection conserves probability", "statement": "With reflecting boundaries the pdf still integrates to 1 over the allowed region.", "quantifier": "all boundary specifications and datasets", "why_tests_cant": "integral identity", "anchors": ["kalepy/kernels.py:Kernel.density"]}
{"id": "C13", "title": "Null reflections change nothing and a single boundary gives the folded density", "statement": "reflect entries that are None / [None, None] leave the density unchanged; with boundaries in one dimension the density inside is that of the data plus that of the data mirrored at each boundary; if the kernel matrix does not couple this dimension to others (always in 1D) this is f(x) + f(mirror image of x).", "quantifier": "all datasets, points, dimensions", "why_tests_cant": "for-all statement", "anchors": ["kalepy/kernels.py:Kernel.density"]}
{"id": "C14", "title": "Results do not depend on the history of calls", "statement": "KDE.density, pdf, cdf, points and resample return the same value whatever sequence of other calls was made before on the same instance (lazy caches of matrix inverse, norm, points and cdf are transparent).", "quantifier": "all sequences of method calls of any length", "why_tests_cant": "all histories", "anchors": ["kalepy/kernels.py:Kernel.matrix_inv", "kalepy/kernels.py:Kernel.norm", "kalepy/kde.py:KDE.points", "kalepy/kde.py:KDE.cdf"]}
{"id": "C15", "title": "Grid evaluation equals pointwise evaluation on the product grid", "statement": "density(points, grid=True) returns an array whose shape is the lengths of the coordinate lists and whose entry [i,j,...] is the density at (points[0][i], points[1][j], ...).", "quantifier": "all numbers of dimensions and all coordinate lists", "why_tests_cant": "index arithmetic for all shapes", "anchors": ["kalepy/kde.py:KDE.density", "kalepy/utils.py:meshgrid"]}
{"id": "C16", "title": "Only valid weights are accepted", "statement": "KDE(...) raises unless weights is None or an array with one finite nonnegative value per data point, not all zero; whenever it succeeds the stored weights are exactly those given; an empty dataset is rejected.", "quantifier": "all weights arrays incl. NaN/inf/negative/wrong length", "why_tests_cant": "every invalid entry position", "anchors": ["kalepy/kde.py:KDE.__init__"]}
{"id": "C17", "title": "Effective sample size is between 1 and N", "statement": "neff = (sum w)^2 / sum w^2 satisfies 1 <= neff <= N, equals N exactly when all weights are equal, equals N for weights=None, equals 1 exactly when one point carries all the weight, and is invariant under permutation and rescaling of weights.", "quantifier": "all N and all valid weight vectors", "why_tests_cant": "Cauchy-Schwarz over all vectors", "anchors": ["kalepy/kde.py:KDE.__init__"]}
{"id": "C18", "title": "Bandwidth specification", "statement": "A scalar bandwidth b fills the bandwidth matrix (only its diagonal if diagonal=True); a vector gives a diagonal matrix; a DxD array is used entry by entry; 'scott'/'silverman' give neff^(-1/(D+4)) and (neff (D+2)/4)^(-1/(D+4)), which are positive and strictly decreasing in neff (Scott's is <= 1); anything else raises ValueError; bw_rescale multiplies elementwise.", "quantifier": "all D, specifications and neff >= 1", "why_tests_cant": "all shapes/specifications", "anchors": ["kalepy/kde.py:KDE._set_bandwidth", "kalepy/kde.py:KDE._compute_bandwidth", "kalepy/kde.py:KDE._scott_factor", "kalepy/kde.py:KDE._silverman_factor"]}
{"id": "C19", "title": "The kernel matrix is symmetric and positive semidefinite", "statement": "For weights with more than one effective point, the weighted data covariance is symmetric positive semidefinite, invariant under permutation of data and translation, and the kernel matrix (covariance times bandwidth^2 elementwise) is symmetric PSD for scalar and for diagonal bandwidths; it is positive definite when the covariance is and the bandwidths are non-zero.", "quantifier": "all datasets, weights, D and bandwidths", "why_tests_cant": "for-all inequality", "anchors": ["kalepy/kde.py:KDE.__init__", "kalepy/kernels.py:Kernel.__init__"]}
{"id": "C20", "title": "reflect validation", "statement": "_check_reflect (run by the constructor, density and resample) returns, for every accepted argument, exactly one entry per dimension, each None or a pair whose two values, if both given, are strictly increasing; explicit numbers are returned unchanged; wrong lengths, scalar rows, rows not of length 2 and out-of-order pairs raise ValueError.", "quantifier": "all reflect arguments built from None/True/False/numbers/sequences, all data", "why_tests_cant": "all nestings", "anchors": ["kalepy/kernels.py:_check_reflect"]}
{"id": "C21", "title": "reflect=True puts the boundaries around the data", "statement": "A boundary given as True is placed so that all data lie inside the boundaries ('the KDE will guess the reflection points based on the data extrema').", "quantifier": "all datasets, all positions of True", "why_tests_cant": "sign of the extrema matters; tests use a loose tolerance", "anchors": ["kalepy/kernels.py:_check_reflect"]}
{"id": "C22", "title": "Extrema specification is completed per dimension", "statement": "Given extrema (None, one pair for all dimensions, or one entry per dimension), every missing bound is filled in with that dimension's own data minimum/maximum and every given bound is kept.", "quantifier": "all D, all patterns of missing bounds, all data", "why_tests_cant": "aliasing between dimensions", "anchors": ["kalepy/utils.py:_parse_extrema"]}
{"id": "C23", "title": "from_hist uses bin centres weighted by the counts", "statement": "KDE.from_hist(bins, hist) is the KDE whose data are the bin centres (all combinations in D dimensions) each weighted proportionally to its own count; rescaling hist does not change the pdf.", "quantifier": "all D, all bin edges, all histograms", "why_tests_cant": "alignment of flattened grid and flattened histogram for all shapes; non-uniform bins", "anchors": ["kalepy/kde.py:KDE.from_hist"]}
{"id": "C24", "title": "Kernel lookup", "statement": "get_distribution_class accepts None (Gaussian), a distribution class, or one of the names gaussian/box/parabola/epanechnikov/triweight in any letter case with surrounding whitespace; everything else raises ValueError. The name of every distribution class is accepted in the same way and stands for this class, and the list of all distribution classes contains every class that has a name exactly once.", "quantifier": "all strings", "why_tests_cant": "infinitely many strings", "anchors": ["kalepy/kernels.py:get_distribution_class", "kalepy/kernels.py:DISTRIBUTIONS"]}
{"id": "C25", "title": "kalepy.pdf(data) computes density(probability=True)", "statement": "The module-level convenience function pdf() returns the same as density(..., probability=True).", "quantifier": "all arguments", "why_tests_cant": "keyword routing for all arguments", "anchors": ["kalepy/__init__.py:pdf", "kalepy/__init__.py:density", "kalepy/kernels.py:Kernel.__init__"]}
{"id": "C26", "title": "resample returns exactly the requested number of samples", "statement": "resample(size) returns `size` samples (N if size is None) for every outcome of the random generator, or raises; with reflection it never returns partially filled output.", "quantifier": "all random draws, sizes, chunk sizes, boundaries", "why_tests_cant": "all random outcomes and loop iterations", "anchors": ["kalepy/kernels.py:Kernel.resample", "kalepy/kernels.py:Kernel._resample_clear", "kalepy/kernels.py:Kernel._resample_reflect"]}
{"id": "C27", "title": "Reflected resamples stay strictly inside the boundaries", "statement": "With reflect, every returned sample is strictly inside all the given boundaries, for every outcome of the random generator.", "quantifier": "all random draws, boundaries, sizes, chunk sizes, any number of loop iterations", "why_tests_cant": "all random outcomes", "anchors": ["kalepy/kernels.py:Kernel._resample_reflect", "kalepy/utils.py:bound_indices"]}
{"id": "C28", "title": "keep preserves original data values", "statement": "resample(keep=k) returns samples whose coordinates in the kept dimensions are exactly those of one and the same original data point.", "quantifier": "all keep specifications, data, draws (without reflection)", "why_tests_cant": "all random outcomes", "anchors": ["kalepy/kernels.py:Kernel._resample_clear", "kalepy/utils.py:cov_keep_vars"]}
{"id": "C29", "title": "keep and reflect can be combined on different dimensions", "statement": "resample(keep=i, reflect=...) with reflection only on other dimensions returns samples; asking for both on the same dimension raises ValueError.", "quantifier": "all data, matrices, keep/reflect combinations", "why_tests_cant": "the failure is structural (a singular matrix), for every input", "anchors": ["kalepy/kernels.py:Kernel._resample_reflect", "kalepy/utils.py:cov_keep_vars", "kalepy/utils.py:add_cov"]}
{"id": "C30", "title": "Zero-weight data points are never resampled", "statement": "Without reflection each sample is a data point of positive weight plus kernel noise, for every random outcome.", "quantifier": "all weights and random outcomes in [0,1)", "why_tests_cant": "measure-zero and boundary draws", "anchors": ["kalepy/kernels.py:Kernel._resample_clear"]}
{"id": "C31", "title": "Reflected resampling terminates", "statement": "The rejection loop performs at most 10*ceil(size/chunk) draws, each of at least one and at most `chunk` candidates after the first, then returns or raises RuntimeError.", "quantifier": "all random outcomes, sizes, chunks, dimensions", "why_tests_cant": "worst-case bound over all executions", "anchors": ["kalepy/kernels.py:Kernel._resample_reflect"]}
{"id": "C32", "title": "resample follows the same reflected density that density() reports", "statement": "With reflect, samples are drawn from the reflected density (data plus mirror images, restricted to the region).", "quantifier": "all data and boundaries", "why_tests_cant": "distributional claim", "anchors": ["kalepy/kernels.py:Kernel._reflect_data", "kalepy/kernels.py:Kernel._truncate_reflections"]}
{"id": "C33", "title": "Samples of a finite kernel lie in its support", "statement": "For a finite-support kernel every (unreflected) sample x comes from some data point d with (x-d)^T M^-1 (x-d) <= 1, so the density at x is the kernel's support of that point.", "quantifier": "all random outcomes, dimensions, positive-definite matrices", "why_tests_cant": "all random outcomes", "anchors": ["kalepy/kernels.py:Box._sample", "kalepy/kernels.py:Parabola._sample", "kalepy/kernels.py:Triweight._sample", "kalepy/utils.py:add_cov"]}
{"id": "C34", "title": "minmax: extrema, prev and limit", "statement": "minmax returns values bounding all data; with prev the result also covers prev; with limit the result is within limit; stretch never shrinks; feeding batches one after another through prev equals minmax of the concatenation, in any order.", "quantifier": "all data, batches, prev, limit, stretch >= 0", "why_tests_cant": "all histories of updates", "anchors": ["kalepy/utils.py:minmax"]}
{"id": "C35", "title": "quantiles are order statistics", "statement": "Weighted quantiles lie between the data minimum and maximum, are monotone in the requested fraction, give the minimum at 0 and the maximum at 1, are unchanged by rescaling the weights, and do not depend on the order in which (value, weight) pairs are supplied.", "quantifier": "all values, nonnegative weights, fractions in [0,1], all permutations, any sorting order of ties", "why_tests_cant": "all inputs; unstable sort", "anchors": ["kalepy/utils.py:quantiles", "kalepy/utils.py:iqrange"]}
{"id": "C36", "title": "midpoints lie between neighbours", "statement": "midpoints (linear) of a length n >= 2 array has length n-1, each strictly between its neighbours if these differ, increasing if the input is; log midpoints are geometric means; shorter input raises.", "quantifier": "all arrays", "why_tests_cant": "all arrays", "anchors": ["kalepy/utils.py:midpoints", "kalepy/utils.py:_midpoints_1d"]}
{"id": "C37", "title": "subdivide refines edges", "statement": "subdivide(xx, num) of X edges has (X-1)(num+1)+1 edges, contains every original edge at position k(num+1), preserves strict monotonicity and divides each bin evenly.", "quantifier": "all edge arrays and num >= 0", "why_tests_cant": "all lengths and num (including 0)", "anchors": ["kalepy/utils.py:subdivide"]}
{"id": "C38", "title": "Trapezoid masses sum to the trapezoid integral", "statement": "trapz_dens_to_mass gives each cell volume times the mean of its 2^D corners; the masses sum to trapz_nd; they are nonnegative for nonnegative densities and increasing edges, linear in the density, and a constant density gives constant * total volume; mismatched shapes raise.", "quantifier": "all D, shapes, edges and densities", "why_tests_cant": "all D", "anchors": ["kalepy/utils.py:trapz_dens_to_mass", "kalepy/utils.py:trapz_nd"]}
{"id": "C39", "title": "cumtrapz is the cumulative integral", "statement": "cumtrapz(pdf, edges) has the shape of pdf, is 0 on all lower faces, is nondecreasing along every axis for nonnegative pdf, and its last entry is trapz_nd; with an axis it has the shape of pdf as documented.", "quantifier": "all D, shapes, axis choices", "why_tests_cant": "all D; list aliasing in the padding", "anchors": ["kalepy/utils.py:cumtrapz", "kalepy/utils.py:cumsum"]}
{"id": "C40", "title": "cumsum without axis is the multidimensional prefix sum", "statement": "cumsum(vals)[i,j,...] = sum of vals over all indices <= (i,j,...) componentwise, for any number of dimensions.", "quantifier": "all D and shapes", "why_tests_cant": "all D", "anchors": ["kalepy/utils.py:cumsum"]}
{"id": "C41", "title": "Centroids lie inside their cells and are exact", "statement": "For nonnegative densities, centroids() gives for each cell a point inside the cell; along each axis it is the exact centre of mass of the (multi)linear interpolant of the corner densities when these are not all zero.", "quantifier": "all D, edges, densities", "why_tests_cant": "all D", "anchors": ["kalepy/utils.py:centroids"]}
{"id": "C42", "title": "bound_indices is the open-interval mask", "statement": "bound_indices(data, bounds) is True exactly for points strictly inside all bounds (missing bounds ignored); outside=True selects the values outside of the bounds.", "quantifier": "all data, bounds, D", "why_tests_cant": "boundary equality, None rows", "anchors": ["kalepy/utils.py:bound_indices"]}
{"id": "C43", "title": "flatten/flatlen agree on jagged lists", "statement": "For any nested list without mixed scalar/list levels flatten keeps all scalars in order, flatlen equals their number, and isjagged/really1d are consistent; mixed levels raise in flatten.", "quantifier": "all finite nestings", "why_tests_cant": "unbounded nesting", "anchors": ["kalepy/utils.py:flatten", "kalepy/utils.py:flatlen", "kalepy/utils.py:really1d", "kalepy/utils.py:isjagged"]}
{"id": "C44", "title": "histogram normalisation", "statement": "histogram(probability=True) sums to 1 and with density=True integrates to 1 when all data are within the edges; in general to the in-range weight fraction; every datum in range is counted exactly once.", "quantifier": "all data, weights, increasing edges", "why_tests_cant": "bin boundary conventions for all data", "anchors": ["kalepy/utils.py:histogram"]}
{"id": "C45", "title": "Automatic edges are increasing and cover the requested range", "statement": "parse_edges returns for each dimension n+1 equally spaced strictly increasing edges covering the extrema (extended by nonnegative padding), where n is the requested number or an automatic number between nmin and nmax; explicit 1D edges are returned unchanged.", "quantifier": "all data with non-zero range, all settings", "why_tests_cant": "all data", "anchors": ["kalepy/utils.py:parse_edges", "kalepy/utils.py:_get_edges_1d", "kalepy/utils.py:_guess_edges"]}
{"id": "C46", "title": "Grid samples fall inside the grid", "statement": "Every sample of sample_grid lies inside the bin that was chosen for it and hence inside the grid, for every outcome of the random generator, with and without interpolation, and no numerical domain error (sqrt of a negative number, index out of range) can occur when the total mass is positive.", "quantifier": "all D, edges, densities >= 0, random values in [0,1)", "why_tests_cant": "all random outcomes incl. exactly 0; arbitrary gradients", "anchors": ["kalepy/sample.py:Sample_Grid.sample", "kalepy/sample.py:Sample_Grid._random_bins", "kalepy/sample.py:_intrabin_linear_interp", "kalepy/sample.py:_data_to_cumulative"]}
{"id": "C47", "title": "Empty bins are never sampled", "statement": "A bin of zero mass is never chosen, whatever the random values.", "quantifier": "all masses >= 0 with positive total, all random values in [0,1), any tie order of the sort", "why_tests_cant": "draw exactly on a CDF value, draw 0", "anchors": ["kalepy/sample.py:Sample_Grid._random_bins", "kalepy/sample.py:_data_to_cumulative"]}
{"id": "C48", "title": "Bins are chosen proportionally to their mass", "statement": "The set of uniform random values in [0,1) that select a bin has length mass/total mass.", "quantifier": "all masses >= 0 with positive total, every bin", "why_tests_cant": "exact probability", "anchors": ["kalepy/sample.py:Sample_Grid._random_bins", "kalepy/sample.py:_data_to_cumulative"]}
{"id": "C49", "title": "Within a bin, positions follow the linearly interpolated density", "statement": "With interpolate=True the position within a bin is distributed proportionally to the density interpolated linearly across the bin.", "quantifier": "all densities and bins", "why_tests_cant": "distribution function identity for all gradients", "anchors": ["kalepy/sample.py:_intrabin_linear_interp", "kalepy/sample.py:Sample_Grid.sample", "kalepy/sample.py:_grad_along"]}
{"id": "C50", "title": "Outlier sampling conserves total mass", "statement": "Without Poisson noise the weights returned by sample_outliers sum to the total mass to within 1/2; interior bins (mass > threshold >= 0) each give exactly one sample with weight equal to their mass; all other samples have weight 1 and number round(outlier mass); nsamp equals the number of samples.", "quantifier": "all masses, thresholds >= 0, random outcomes", "why_tests_cant": "all random outcomes", "anchors": ["kalepy/sample.py:Sample_Outliers.__init__", "kalepy/sample.py:Sample_Outliers.sample"]}
{"id": "C51", "title": "Outlier samples only come from low-mass bins, interior samples are centroids", "statement": "Every weight-1 sample lies in a bin of mass <= threshold (and > 0); every interior sample is the centroid of its bin, inside the bin.", "quantifier": "all masses, thresholds >= 0, random outcomes", "why_tests_cant": "all random outcomes", "anchors": ["kalepy/sample.py:Sample_Outliers.sample"]}
{"id": "C52", "title": "Flat and multidimensional bin indices agree", "statement": "np.unravel_index on the C-ordered flat bin number is a bijection between 0..prod-1 and index tuples, so gradients/masses looked up by flat number belong to the bin whose edges are used.", "quantifier": "all shapes of any dimension", "why_tests_cant": "all shapes", "anchors": ["kalepy/sample.py:Sample_Grid.sample"]}
{"id": "C53", "title": "Default number of grid samples", "statement": "sample(nsamp=None) draws floor(total mass) samples and sample(nsamp=n) draws int(n) samples, each with D coordinates; with scalars one scalar per sample.", "quantifier": "all masses, n", "why_tests_cant": "all inputs", "anchors": ["kalepy/sample.py:Sample_Grid.sample", "kalepy/sample.py:sample_grid"]}
{"id": "C54", "title": "sample_grid accepts scalars in any dimension", "statement": "sample_grid(edges, dens, scalar_dens=s) returns samples and scalar weights for every dimension of dens.", "quantifier": "all D >= 1", "why_tests_cant": "1D default squeeze path for all inputs", "anchors": ["kalepy/sample.py:sample_grid"]}
{"id": "C55", "title": "Contour levels enclose at most the requested mass", "statement": "The contour levels drawn by dist2d/contour for a set of quantiles: one level per quantile, ascending, each a value occurring in the (smoothed) histogram; the cells at or above the level carry at most the requested fraction of the total mass unless a single cell exceeds it, and taking in the next-highest cell exceeds the fraction; larger quantiles give lower levels.", "quantifier": "all nonnegative histograms, quantiles in [0,1], tie orders", "why_tests_cant": "all histograms", "anchors": ["kalepy/plot.py:_dfm_levels"]}
{"id": "C56", "title": "Corner-plot limits cover everything plotted so far", "statement": "After any sequence of plot calls with automatic limits, the axis limits of each parameter contain all data plotted so far in that parameter, never shrink, and do not depend on the order of the calls.", "quantifier": "all sequences of plotted datasets", "why_tests_cant": "all histories", "anchors": ["kalepy/plot.py:Corner.plot_data", "kalepy/plot.py:Corner.plot_kde", "kalepy/utils.py:minmax"]}
{"id": "C57", "title": "Confidence bands are nested and contain the median", "statement": "confidence() draws for each quantile an interval containing the median, and larger quantiles give larger intervals, within the data range.", "quantifier": "all data, quantiles in [0,1]", "why_tests_cant": "all data", "anchors": ["kalepy/plot.py:confidence"]}
{"id": "C58", "title": "Histogram padding keeps the histogram and increasing edges", "statement": "Padding a histogram before smoothing (contour/dist2d with pad) adds the given number of bins of the minimum value on every side, leaves the original values and edges in the middle and keeps the edges increasing; edges and histogram always stay of matching shape.", "quantifier": "all shapes, pads", "why_tests_cant": "all shapes", "anchors": ["kalepy/plot.py:_pad_hist", "kalepy/plot.py:_match_edges_to_hist"]}
{"id": "C59", "title": "Step-plot coordinates", "statement": "The curve drawn by hist1d/dist1d for a histogram runs, bin by bin, from (edge_j, h_j) to (edge_{j+1}, h_j), with NaN gaps between the bins without joints; masks hide exactly the bins they name, renormalisation scales the highest bin to the given value, and a histogram that does not fit its edges is refused.", "quantifier": "all histograms", "why_tests_cant": "all lengths", "anchors": ["kalepy/plot.py:draw_hist1d"]}
{"id": "C60", "title": "Corner.target shades from lower limits upward", "statement": "Lower-limit bands extend from the limit to the upper axis limit in the 1D and 2D panels alike.", "quantifier": "all limits/targets", "why_tests_cant": "all panels", "anchors": ["kalepy/plot.py:Corner.target"]}
{"id": "C61", "title": "cdf is a cumulative distribution function", "statement": "KDE.cdf is nondecreasing in every coordinate, lies in [0,1], is 0 on the lower faces of the evaluation grid and 1 at its upper corner.", "quantifier": "all datasets, dimensions, points", "why_tests_cant": "monotonicity of an ND interpolant everywhere", "anchors": ["kalepy/kde.py:KDE.cdf", "kalepy/utils.py:cumtrapz"]}
{"id": "C62", "title": "Removing and adding covariance are inverse", "statement": "rem_cov(add_cov(data, C), C) = data and add_cov(rem_cov(data, C), C) = data for every positive definite C.", "quantifier": "all positive definite C of all sizes, all data", "why_tests_cant": "algebraic law for all matrices", "anchors": ["kalepy/utils.py:add_cov", "kalepy/utils.py:rem_cov"]}
{"id": "C63", "title": "Triweight radial CDF", "statement": "The tabulated radial CDF of the triweight kernel is a strictly increasing bijection of [0,1] whose derivative is twice the normalised 1D kernel, so inverse-CDF sampling has the right radial law and never leaves [0,1].", "quantifier": "all x in [0,1]", "why_tests_cant": "all reals", "anchors": ["kalepy/kernels.py:_triweight_cdf", "kalepy/kernels.py:Triweight._sample"]}
{"id": "C64", "title": "The reflect list can be reused", "statement": "A list passed as reflect is not modified: constructing a second KDE (for other data) with the same list gives the same result as with a fresh copy of it.", "quantifier": "all reflect arguments, all pairs of datasets", "why_tests_cant": "aliasing across calls; a single construction looks right", "anchors": ["kalepy/kernels.py:_check_reflect", "kalepy/kde.py:KDE.__init__"]}
{"id": "C65", "title": "Densities do not depend on the element type of the data", "statement": "For data whose values are integers, KDE.density and KDE.pdf give the same values whether the array has an integer or a float element type, with and without `reflect`. (False for boundaries that are not integers or half-integers: the mirror images are stored in a copy of the integer array and truncated.)", "quantifier": "all integer datasets in any dimension, weights, kernels, bandwidths, boundaries, points, params and grids", "why_tests_cant": "tests use float data; the truncation depends on the boundary and on the sign of the mirror image, for infinitely many boundaries", "anchors": ["kalepy/kernels.py:Kernel.density", "kalepy/kde.py:KDE.density", "kalepy/kde.py:KDE.__init__"]}
{"id": "C66", "title": "keep=True is a weighted bootstrap", "statement": "resample(keep=True) without boundaries returns data points only, and each sample is data point j exactly when one uniform random number falls in an interval of length w_j / sum(w); every sample uses its own random number.", "quantifier": "all data, weights, sizes, random outcomes", "why_tests_cant": "a claim on the probability of every data point for all weights", "anchors": ["kalepy/kernels.py:Kernel._resample_clear", "kalepy/kde.py:KDE.resample"]}
{"id": "C67", "title": "Sigmas and quantiles are converted consistently", "statement": "Contours and confidence bands given by sigmas use the mass of the standard 2D normal distribution within that many standard deviations; these lie in [0,1), increase with sigma, and converting quantiles to sigmas and back returns them.", "quantifier": "all lists of sigmas or quantiles", "why_tests_cant": "all real values; the identity with the normal mass is an integral", "anchors": ["kalepy/plot.py:_default_quantiles", "kalepy/plot.py:contour", "kalepy/plot.py:dist2d"]}
{"id": "C68", "title": "dist1d confidence bands use the weights", "statement": "dist1d(data, weights=w, confidence=True) draws the same bands and median as confidence(data, weights=w).", "quantifier": "all data, weights and quantiles", "why_tests_cant": "all weights; with uniform weights the difference is invisible", "anchors": ["kalepy/plot.py:dist1d", "kalepy/plot.py:confidence"]}
{"id": "C69", "title": "Plot arguments do not leak between calls", "statement": "The quantiles and line style given to Corner.plot, Corner.clean or Corner.plot_kde are those used for its panels, whatever calls were made before on this or another Corner.", "quantifier": "all programs of plot calls", "why_tests_cant": "all call histories; each call alone is right", "anchors": ["kalepy/plot.py:Corner.plot", "kalepy/plot.py:Corner.clean", "kalepy/plot.py:Corner.plot_kde"]}
{"id": "C70", "title": "The legend is placed at an empty panel", "statement": "The default position of the legend of a corner plot is a panel of the plot, and with two or more parameters one of the invisible panels.", "quantifier": "all numbers of parameters, all earlier calls", "why_tests_cant": "all sizes", "anchors": ["kalepy/plot.py:Corner.legend"]}
{"id": "C71", "title": "Scatter and carpet limits", "statement": "dist2d(scatter=...) and dist1d(carpet=...) draw no points for False/None, all points for True, and for a number n >= 1 exactly min(n, N) points, each data point at most as often as it occurs; smaller numbers are refused. The default opacity is in (0,1] and never grows with the number of points.", "quantifier": "all data, limits and random choices", "why_tests_cant": "all random choices and sizes", "anchors": ["kalepy/plot.py:_scatter_limit", "kalepy/plot.py:draw_scatter", "kalepy/plot.py:carpet"]}
{"id": "C72", "title": "Smoothing width does not depend on upsampling", "statement": "The smoothing width of contours, in units of the histogram's bins, is the number given, whatever the upsample argument.", "quantifier": "all widths and upsample arguments", "why_tests_cant": "all arguments", "anchors": ["kalepy/plot.py:_prep_hist"]}
{"id": "C73", "title": "hist1d(positive=True) draws only positive bins", "statement": "With positive=True exactly the bins of positive value are drawn.", "quantifier": "all histograms", "why_tests_cant": "all histograms", "anchors": ["kalepy/plot.py:hist1d", "kalepy/plot.py:draw_hist1d"]}
{"id": "C74", "title": "Corner plots draw with the given weights", "statement": "Every drawing method of Corner uses the weights given with the data, those of the given KDE, or those given at construction when it draws the stored data.", "quantifier": "all data, weights, methods", "why_tests_cant": "all call combinations", "anchors": ["kalepy/plot.py:Corner.hist", "kalepy/plot.py:Corner.plot_data", "kalepy/plot.py:Corner.plot", "kalepy/plot.py:_parse_kde_data"]}
{"id": "C75", "title": "Origin of corner plots", "statement": "origin names the corner of the figure in which the labelled last row and first column meet; every panel has its own cell.", "quantifier": "all numbers of parameters and origins", "why_tests_cant": "all sizes", "anchors": ["kalepy/plot.py:Corner.__init__", "kalepy/plot.py:_parse_origin"]}
{"id": "C76", "title": "Scalars returned with grid samples are the field's value at the sample", "statement": "When a Sample_Grid is given a scalar field on the grid points, the scalar returned with each sample is the value of the field at the sampled position; in particular a field that is an affine function of the position is reproduced, and requesting scalars does not change the sampled positions.", "quantifier": "all grids, densities, scalar fields, sample sizes, interpolation settings and random numbers", "why_tests_cant": "a test with unit-width bins and a constant field cannot distinguish the bin average from the bin integral, nor the position from the uniform number it was computed from", "anchors": ["kalepy/sample.py:Sample_Grid.__init__", "kalepy/sample.py:Sample_Grid.sample", "kalepy/sample.py:Sample_Grid._intrabin_linear_interp"]}
{"id": "C77", "title": "Proportional grid samples carry the weight density / portion", "statement": "sample_grid_proportional(edges, dens, portion, nsamp) draws samples from the distribution given by `portion` and returns with each the weight dens/portion, so that the weighted samples represent `dens`; when dens = c * portion, every weight is c.", "quantifier": "all grids, densities, portions, optional masses, sample sizes and random numbers", "why_tests_cant": "whether the weights scale with the bin volume depends on the grid, which a test fixes", "anchors": ["kalepy/sample.py:sample_grid_proportional"]}
{"id": "C78", "title": "spacing and bins return grids with the requested number of points between the extremes of the data", "statement": "utils.spacing returns points from the smallest to the largest (positive) value, evenly spaced in value ('lin') or in logarithm ('log'), with exactly the requested number of points, or by default 20 ('lin') or the smallest number that gives at least `dex` points per decade ('log'); unknown scales and data without usable values raise an error. utils.bins returns the even grid with the centre and the width of each bin.", "quantifier": "all data, scale names, numbers of points, points per decade and the positive flag", "why_tests_cant": "the number of points depends on the logarithmic range of arbitrary data", "anchors": ["kalepy/utils.py:spacing", "kalepy/utils.py:bins"]}
{"id": "C79", "title": "The distributions are normalised, radially decreasing densities in every dimension", "statement": "evaluate of each distribution class is, in every dimension, a fixed nonnegative function of the distance from the origin, applied to each point separately; it integrates to one, does not increase with the distance, is zero outside the unit ball for the finite distributions and positive everywhere for the Gaussian. A 1D array is treated as points in one dimension.", "quantifier": "all four distributions, all dimensions D >= 1 and all arrays of points", "why_tests_cant": "normalisation in every dimension is an integral identity involving the volume of the D-ball", "anchors": ["kalepy/kernels.py:_Distribution.evaluate", "kalepy/kernels.py:Gaussian", "kalepy/kernels.py:Box", "kalepy/kernels.py:Parabola", "kalepy/kernels.py:Triweight"]}
{"id": "C80", "title": "Evaluating a distribution on a grid is evaluating it at each grid point", "statement": "grid(edges) returns an array with one axis per edge array whose entry at an index is what evaluate returns for the grid point with this index.", "quantifier": "all distributions, all numbers and lengths of edge arrays, all indices", "why_tests_cant": "the correspondence of flattened and multi-dimensional indices must hold for every shape", "anchors": ["kalepy/kernels.py:_Distribution.grid"]}
{"id": "C81", "title": "inside marks the points where the distribution is positive", "statement": "inside(points) returns a mask that is true exactly for those points where the distribution is positive, for every distribution and for 1D and 2D arrays of points.", "quantifier": "all distributions, dimensions and arrays of points", "why_tests_cant": "points on the boundary of the support and arrays of any shape", "anchors": ["kalepy/kernels.py:_inside_unit_nball", "kalepy/kernels.py:Gaussian.inside", "kalepy/kernels.py:Box.inside", "kalepy/kernels.py:Parabola.inside", "kalepy/kernels.py:Triweight.inside"]}
{"id": "C82", "title": "params with boundaries", "statement": "density/pdf with a list of `params` (negative numbers count from the end) of a KDE constructed with `reflect` uses the data, the kernel matrix and the boundaries of exactly the selected parameters, in the order of the list: one entry of `reflect` belongs to one parameter however the parameters are ordered in the call.", "quantifier": "all KDEs with boundaries in any dimensions, all lists of parameters with positive definite restricted matrix, all points, after any history of calls", "why_tests_cant": "tests select one or two parameters in increasing order with symmetric boundaries; the claim is about every order and subset", "anchors": ["kalepy/kde.py:KDE.density", "kalepy/kernels.py:Kernel.density"]}
{"id": "C83", "title": "Default points and scalar params", "statement": "Without `points`, density evaluates at the KDE's own points: with one or no selected parameter along this row, otherwise on the product grid of the rows of the selected parameters in the order of `params`, whatever `grid` says. A scalar `params=p` gives the values of `params=[p]` with axes of length one removed and the points as a 1D array.", "quantifier": "all KDEs in two or more dimensions, lists of parameters, points, reflect arguments, flags", "why_tests_cant": "all combinations of points, params, grid and probability", "anchors": ["kalepy/kde.py:KDE.density", "kalepy/kde.py:KDE.points"]}
{"id": "C84", "title": "Resampling follows the density", "statement": "If the random generator delivers independent standard normal and uniform numbers, then with probability one `resample(size)` of a KDE without boundaries returns `size` samples which are independent of each other, and each of which is distributed with the density that `pdf` returns.", "quantifier": "all data, weights, bandwidths and covariances with a positive definite kernel matrix, kernels, dimensions, sizes, and all probability spaces with such random numbers", "why_tests_cant": "a property of the distribution of the output; a statistical test of finitely many samples can neither establish the law nor the independence", "anchors": ["kalepy/kde.py:KDE.resample", "kalepy/kernels.py:Kernel._resample_clear", "kalepy/kernels.py:_Distribution._sample", "kalepy/kde.py:KDE.pdf"]}
{"id": "C85", "title": "Mean and covariance of the density", "statement": "Without boundaries the density that `pdf` returns has the weighted mean of the data as mean, and as covariance the covariance of the weighted data plus c times the kernel matrix (covariance times bandwidth squared), where c is 1 for the Gaussian, 1/(d+2) for the box, 1/(d+4) for the parabola and 1/(d+8) for the triweight kernel in d dimensions. With estimated covariance and one bandwidth b this is the estimated covariance times 1 - 1/neff + c b^2. Samples from `resample` have this mean and covariance where they follow the density (C84).", "quantifier": "all data, weights, bandwidths and covariances with a positive definite kernel matrix, all four kernels, all dimensions, after any history of calls", "why_tests_cant": "integrals over the whole space for every dataset and dimension; numerical integration checks single cases up to an error", "anchors": ["kalepy/kde.py:KDE.pdf", "kalepy/kernels.py:_Distribution.evaluate", "kalepy/kernels.py:Kernel.density", "kalepy/kde.py:KDE.resample"]}
{"id": "C86", "title": "Samples have the mean and covariance of the density", "statement": "If the random generator delivers independent standard normal and uniform numbers, then the samples that `resample` of a KDE without boundaries returns have the same mean and the same covariance as the density that `pdf` returns.", "quantifier": "all data, weights, bandwidths and covariances with a positive definite kernel matrix, all four kernels, all dimensions, sizes, and all probability spaces with such random numbers", "why_tests_cant": "expectations over the distribution of the output for every dataset and dimension; averages of finitely many samples have statistical errors as large as the differences", "anchors": ["kalepy/kde.py:KDE.resample", "kalepy/kernels.py:Kernel._resample_clear", "kalepy/kernels.py:Box._sample", "kalepy/kernels.py:Parabola._sample", "kalepy/kernels.py:Triweight._sample", "kalepy/kde.py:KDE.pdf"]}
{"id": "C87", "title": "Samples are independent and identically distributed", "statement": "If the random generator delivers independent standard normal and uniform numbers, then the samples that one call of `resample` on a KDE without boundaries returns are independent of each other, and all have the same distribution, for every kernel.", "quantifier": "all data, weights, bandwidths and covariances, all four kernels, all dimensions, sizes, and all probability spaces with such random numbers", "why_tests_cant": "independence and equality of distributions cannot be established from finitely many samples", "anchors": ["kalepy/kde.py:KDE.resample", "kalepy/kernels.py:Kernel._resample_clear", "kalepy/kernels.py:_Distribution.sample"]}
{"id": "C88", "title": "hist2d draws the density of each bin", "statement": "`hist2d` colours the cell between two neighbouring edges of each dimension with the total weight of the data in it (upper edges belong to the last cell only), divided by the area of the cell and by the total weight within the edges; with x along the horizontal axis. The values times the areas add up to one. With automatic edges or a number of bins the call succeeds for all data that vary in both dimensions, and the edges enclose all data.", "quantifier": "all data, edges and weights", "why_tests_cant": "must hold for every dataset and all bins, transposed axes and lost boundary points are invisible in symmetric or generic examples", "anchors": ["kalepy/plot.py:hist2d", "kalepy/plot.py:draw_hist2d", "kalepy/utils.py:parse_edges"]}
{"id": "C89", "title": "hist2d(mask_below=True) hides the empty bins", "statement": "Without weights, `hist2d(mask_below=True)` hides exactly the bins that contain no data. A number for `mask_below` hides exactly the bins with a density not above it.", "quantifier": "all data and edges", "why_tests_cant": "depends on the scale of the data: tests with data of order unity and small bins pass", "anchors": ["kalepy/plot.py:hist2d", "kalepy/plot.py:draw_hist2d"]}
{"id": "C90", "title": "carpet draws the data where they are", "statement": "`carpet` draws each datum once, at its own position along the data axis; with a limit, that many different data. The ordinates of normal fuzz are the baseline plus the dispersion times standard normal numbers, those of uniform fuzz lie within one dispersion of the baseline. With rotate=True the axes are exchanged.", "quantifier": "all data, weights, limits, random numbers and further arguments", "why_tests_cant": "a statement about every datum and every random selection", "anchors": ["kalepy/plot.py:carpet"]}
{"id": "C91", "title": "carpet draws heavier points not smaller", "statement": "If the weight of a datum is at least the one of another, `carpet` draws it with at least the same size.", "quantifier": "all data and positive weights", "why_tests_cant": "depends on the range of the weights", "anchors": ["kalepy/plot.py:carpet", "kalepy/utils.py:iqrange"]}
{"id": "C92", "title": "carpet works on any axis", "statement": "`carpet` draws any non-empty data on an axis with any limits.", "quantifier": "all data and axis limits", "why_tests_cant": "tests use fresh axes, with limits from 0 to 1", "anchors": ["kalepy/plot.py:carpet"]}
{"id": "C93", "title": "Shape of samples of a distribution", "statement": "`sample(size)` of a distribution returns a one-dimensional array of `size` numbers; in `ndim` dimensions, or with squeeze=False, an array of shape (ndim, size). Samples of distributions with finite support lie in the unit ball.", "quantifier": "all distributions, sizes, dimensions and random numbers", "why_tests_cant": "a statement about every size and dimension and every outcome of the random generator", "anchors": ["kalepy/kernels.py:_Distribution.sample"]}
{"id": "C94", "title": "A list of None boundaries is no boundary", "statement": "KDE(data, reflect=[None, ..., None]) gives the same range and the same densities as KDE(data).", "quantifier": "all data, numbers of parameters and lists of entries None or [None, None]", "why_tests_cant": "a statement about every dataset and number of parameters; the two-parameter case differs from all others", "anchors": ["kalepy/kde.py:KDE.__init__", "kalepy/utils.py:_parse_extrema", "kalepy/kernels.py:_check_reflect"]}
{"id": "C95", "title": "All components of dist2d show the same parameters", "statement": "dist2d(kde, params=[i, j]) draws points, median lines, histogram and contours with parameter i along the horizontal and parameter j along the vertical axis.", "quantifier": "all KDEs, pairs of parameters and other arguments", "why_tests_cant": "must hold for every KDE and pair of parameters", "anchors": ["kalepy/plot.py:dist2d", "kalepy/plot.py:draw_hist2d", "kalepy/plot.py:draw_contour2d"]}
{"id": "C96", "title": "dist2d works for every KDE whose parameters vary", "statement": "dist2d of a KDE computes everything that is passed to matplotlib, whatever boundaries the KDE has been given, if both parameters vary and the data respect the boundaries. (Whether matplotlib accepts the levels of the contours is C142, the mask is C143.)", "quantifier": "all KDEs, boundaries, pairs of parameters, numbers of bins and quantiles", "why_tests_cant": "a statement about every combination of boundaries and parameters", "anchors": ["kalepy/plot.py:dist2d", "kalepy/utils.py:parse_edges", "kalepy/utils.py:_parse_extrema"]}
{"id": "C97", "title": "dist2d hides exactly the empty bins", "statement": "Without weights, dist2d(mask_below=True) hides exactly the histogram bins that contain no data.", "quantifier": "all KDEs, edges, quantiles below one and bins", "why_tests_cant": "a statement about every dataset and every bin", "anchors": ["kalepy/plot.py:dist2d", "kalepy/plot.py:draw_hist2d", "kalepy/plot.py:_dfm_levels"]}
{"id": "C98", "title": "hist1d draws every valid data set", "statement": "hist1d succeeds for every non-empty data set with valid weights, for default edges, a number of bins or increasing edges, given as a list or as an array.", "quantifier": "all data, weights, edges and normalisation flags", "why_tests_cant": "a statement about every combination of data, weights and arguments", "anchors": ["kalepy/plot.py:hist1d", "kalepy/utils.py:histogram"]}
{"id": "C99", "title": "area of the histogram curve", "statement": "The area under the curve drawn by hist1d(density=True) is the weight of the data within the edges, or its fraction of the total weight with probability=True; with automatic edges or a number of bins it is the total weight, or one. No part of the curve is hidden.", "quantifier": "all data, valid weights, edges, joints and rotations", "why_tests_cant": "a statement about every data set and every set of edges", "anchors": ["kalepy/plot.py:hist1d", "kalepy/plot.py:draw_hist1d", "kalepy/utils.py:histogram"]}
{"id": "C100", "title": "dist1d shows the chosen parameter", "statement": "Every component drawn by dist1d of a KDE shows the chosen parameter: the curve its marginal density, the histogram and the carpet its data, the bands its quantiles; exactly the requested components are drawn.", "quantifier": "all KDEs, parameters, edges, components and rotations", "why_tests_cant": "a statement about every KDE and every combination of components", "anchors": ["kalepy/plot.py:dist1d", "kalepy/kde.py:KDE.density"]}
{"id": "C101", "title": "dist1d draws curve and histogram on the same scale", "statement": "The density curve and the histogram drawn by dist1d of a KDE have the same normalisation: the curve follows a function with integral one (probability=True) or the total weight, and the area of the histogram is the same, apart from data outside given edges. With reflecting boundaries (of several parameters) the curve vanishes beyond those of the parameter, and has the same integral if there is at most one or if the kernel fits between them, otherwise not a larger one.", "quantifier": "all KDEs, with or without reflection, parameters, edges and weights", "why_tests_cant": "an equality of an integral and a sum for all data", "anchors": ["kalepy/plot.py:dist1d", "kalepy/plot.py:hist1d", "kalepy/kde.py:KDE.density"]}
{"id": "C102", "title": "dist1d draws a curve for all documented edges", "statement": "dist1d of a KDE draws a density curve of every parameter for default edges, a number of bins, or an array of edges.", "quantifier": "all KDEs without reflection, parameters and edges", "why_tests_cant": "a statement about every KDE and all kinds of edges", "anchors": ["kalepy/plot.py:dist1d", "kalepy/kde.py:KDE.density"]}
{"id": "C103", "title": "dist1d draws the histogram of given data", "statement": "dist1d of data draws their histogram, weighted or not, given as a list or as an array.", "quantifier": "all data, valid weights and edges", "why_tests_cant": "a statement about every data set, weighting and edges", "anchors": ["kalepy/plot.py:dist1d", "kalepy/plot.py:hist1d"]}
{"id": "C104", "title": "Panels of a corner plot show the right parameters with shared edges", "statement": "A corner plot of a KDE uses one set of edges per parameter. The diagonal panel of a parameter shows this parameter; the panel in row i and column j below the diagonal shows parameter j horizontally and i vertically; the histograms use the shared edges; exactly the requested components are drawn, and nothing above the diagonal. By default these are the density and the bands on the diagonal, and the median lines and contours below it.", "quantifier": "all KDEs of any number of parameters, edges and drawing options, and all random selections of points", "why_tests_cant": "a statement about every dimension, KDE, combination of options and random choice", "anchors": ["kalepy/plot.py:Corner.plot_kde", "kalepy/plot.py:dist1d", "kalepy/plot.py:dist2d"]}
{"id": "C105", "title": "Everything in the corner plot of a KDE can be computed", "statement": "Plotting the corner plot of a KDE computes everything that is passed to matplotlib, whatever components are shown, if every parameter varies, the kernel matrix is not singular, the extrema are proper, and the edges are automatic or a positive number of bins; this holds without reflecting boundaries, and for several parameters also with stored reflecting boundaries, including boundaries on one side and in some parameters only. (Whether matplotlib accepts the levels of the contours is C142.)", "quantifier": "all KDEs of any number of parameters, all weights, drawing options and random choices of points", "why_tests_cant": "absence of failures for every data set, dimension, option and random choice", "anchors": ["kalepy/plot.py:Corner.plot_kde", "kalepy/plot.py:Corner.plot", "kalepy/plot.py:Corner.clean"]}
{"id": "C106", "title": "Contours of a histogram enclose the requested fractions of the data", "statement": "contour of data with two varying parameters computes what is drawn for automatic edges or a number of bins (whether matplotlib accepts the levels is C142); the coordinates are the centres of the bins and increase; the level of each quantile encloses this fraction of the weight of the data.", "quantifier": "all data, valid weights, edges, quantiles and paddings", "why_tests_cant": "a statement about every data set, weighting, quantile and padding", "anchors": ["kalepy/plot.py:contour", "kalepy/plot.py:draw_contour2d", "kalepy/plot.py:_pad_hist", "kalepy/plot.py:_dfm_levels"]}
{"id": "C107", "title": "Corner plots of data show the right rows with shared edges and weights", "statement": "A corner plot of data uses one set of edges per parameter. The diagonal panel of a parameter shows its data and weights; the panel in row i and column j below the diagonal shows the data of parameter j horizontally and i vertically with the same weights; the histograms use the shared edges; exactly the requested components are drawn, and nothing above the diagonal. It succeeds if all parameters vary, two points count and no densities are asked for. By default the components are the histogram and the points on the diagonal, and the points, median lines and histogram below it.", "quantifier": "all data of any number of parameters, weights, edges and drawing options, and all random selections of points", "why_tests_cant": "a statement about every dimension, data set, combination of options and random choice", "anchors": ["kalepy/plot.py:Corner.plot_data", "kalepy/plot.py:dist1d", "kalepy/plot.py:dist2d"]}
{"id": "C108", "title": "corner() draws with the weights it is given", "statement": "corner(data, weights=weights) draws the data with these weights.", "quantifier": "all data and weights", "why_tests_cant": "a statement about every data set and weighting", "anchors": ["kalepy/plot.py:corner", "kalepy/plot.py:Corner.plot", "kalepy/plot.py:_parse_kde_data"]}
{"id": "C109", "title": "The default extrema of a KDE enclose its data", "statement": "If neither extrema nor reflecting boundaries are given, the extrema of the KDE (between which the default points are placed) enclose all data in every parameter.", "quantifier": "all data, weights, kernels and bandwidths", "why_tests_cant": "a statement about every data set, weighting, kernel and bandwidth", "anchors": ["kalepy/kde.py:KDE.__init__", "kalepy/kde.py:KDE.extrema", "kalepy/utils.py:_parse_extrema"]}
{"id": "C110", "title": "A KDE can be constructed from data alone", "statement": "KDE(data, weights=weights) succeeds whenever two data points count (two points, or two points of positive weight), with the Gaussian kernel and the given data and weights; degenerate and repeated data are no exception.", "quantifier": "all data of any number of parameters and all weights", "why_tests_cant": "absence of failures for every data set and weighting", "anchors": ["kalepy/kde.py:KDE.__init__", "kalepy/kernels.py:get_distribution_class"]}
{"id": "C111", "title": "Samples drawn with boundaries are independent draws from the truncated distribution", "statement": "When all data lie strictly inside the boundaries, resample(size) with reflecting boundaries returns with positive probability, and given that it returns, the samples are independent of each other and each is distributed like a sample of resample(reflect=False) conditioned on lying strictly inside the boundaries. For the Gaussian kernel (and the box and parabola kernels in one dimension) this is the pdf of the KDE constructed without boundaries, cut off at the boundaries and renormalised.", "quantifier": "all dimensions, data, weights, kernels, positive definite kernel matrices, boundaries (given to the constructor or to the call), chunk sizes, numbers of samples, and all probability spaces carrying random numbers as numpy promises them", "why_tests_cant": "The claim is about the joint probability distribution of the samples, conditional on a loop with random length ending in time; tests can only draw finitely many samples and compare histograms.", "anchors": ["kalepy/kernels.py:Kernel._resample_reflect", "kalepy/kernels.py:Kernel._resample_clear", "kalepy/kernels.py:Kernel.resample", "kalepy/kde.py:KDE.resample"]}
{"id": "C112", "title": "Frequencies of samples approach the density", "statement": "Without boundaries, for every region and every number of samples, the fraction of the samples returned by `resample` that fall into the region is within eps of the integral of the density returned by `pdf` over that region, except with a probability of at most 2*exp(-2*size*eps^2); a failing call counts as an exception.", "quantifier": "all data sets, weights, kernels, positive definite kernel matrices, measurable regions, numbers of samples and tolerances, and all random number generators with the promised distribution", "why_tests_cant": "A test can only draw finitely many samples with one generator and look at finitely many regions, and a deviation in a test is either noise or a bug; only a proof gives the bound for all regions and sizes.", "anchors": ["kalepy/kde.py: KDE.resample, KDE.pdf", "kalepy/kernels.py: Kernel._resample_clear, Distribution._sample"]}
{"id": "C113", "title": "Samples drawn from a grid are independent draws with the probabilities of its bins", "statement": "The samples returned by `Sample_Grid.sample` are independent and identically distributed: each one falls into a bin with the bin's share of the total mass, without interpolation uniformly within it, and the fraction of samples in any region approaches that region's share of the mass at an exponential rate. Nothing can be learned about a sample from its position in the returned array.", "quantifier": "all grids of any number of dimensions with increasing edges, all non-negative masses with a positive total, all numbers of samples, and all random number generators with the promised distribution", "why_tests_cant": "A distribution over samples ranges over a continuum of outcomes of the generator; tests draw finitely many samples with fixed seeds, and statistical tests that look only at frequencies cannot see that the order depends on the values.", "anchors": ["kalepy/sample.py: Sample_Grid.sample, Sample_Grid._random_bins, Sample_Grid._intrabin_linear_interp"]}
{"id": "C114", "title": "Outlier sampling is unbiased in every bin", "statement": "The expected total weight of the samples that `Sample_Outliers.sample` (and `sample_outliers`) returns in a bin equals the mass of that bin, for bins above and below the threshold, with or without Poisson noise and interpolation.", "quantifier": "all grids of any dimension with increasing edges and non-negative densities and masses, all thresholds >= 0, all bins with any part of their boundary, all settings of poisson_inside, poisson_outside and interpolate, and all random number generators with the promised uniform and Poisson distributions", "why_tests_cant": "An expectation averages over a continuum of outcomes; tests can only compare finite averages to a tolerance, and a bias from rounding the number of outliers is hidden by the noise when masses are large.", "anchors": ["kalepy/sample.py: Sample_Outliers.__init__, Sample_Outliers.sample, sample_outliers"]}
{"id": "C115", "title": "Construction warns about badly scaled covariances", "statement": "Constructing a KDE warns that all matrix elements are tiny exactly when all elements of the kernel matrix are at most 1e-10 (and some off-diagonal one does not vanish), warns about element ratios exactly when some diagonal and off-diagonal elements differ by at least five orders of magnitude, and these diagnostics never make the construction fail or change its result.", "quantifier": "all datasets of any dimension and all constructor arguments", "why_tests_cant": "The condition depends on all matrix elements of every covariance; tests look at a few matrices and never reach the combination of thresholds that makes a warning impossible.", "anchors": ["kalepy/kde.py: KDE.__init__, KDE._finalize", "kalepy/utils.py: minmax"]}
{"id": "C116", "title": "Quantiles along an axis are those of each line", "statement": "`quantiles(values, percs, weights, axis=...)` of a 2D array gives, for each row or column, the quantiles of that row or column with its weights.", "quantifier": "all 2D arrays of any shape, all nonnegative weights that do not vanish along a line, all fractions in [0, 1], both axes, any order of ties", "why_tests_cant": "A broadcast that is right for one shape of array can fail or silently mix up lines for another; tests use few shapes.", "anchors": ["kalepy/utils.py: quantiles"]}
{"id": "C117", "title": "array_str and stats show the requested parts", "statement": "`array_str(data, num)` shows all elements if there are at most 2*num, otherwise exactly the first and the last num, in order; `stats` shows the requested parts separated by dashes and fails only if nothing is requested.", "quantifier": "all arrays of any length and any element formatting, all num >= 0, all combinations of requested parts", "why_tests_cant": "Slices with negative or zero bounds behave differently at boundary values; tests check typical lengths.", "anchors": ["kalepy/utils.py: array_str, stats"]}
{"id": "C118", "title": "stats_str shows the statistics of the data", "statement": "`stats_str` shows the average, standard deviation and quantiles of the data (of their logarithms with log=True), as requested, in this order and separated by commas; without fractions it shows no quantiles.", "quantifier": "all nonempty arrays of floats or integers, all lists of fractions in [0, 1], all weights with positive sum, all combinations of options, any formatting of numbers", "why_tests_cant": "The shown numbers depend on the element type of the data; tests compare single strings.", "anchors": ["kalepy/utils.py: stats_str, quantiles"]}
{"id": "C119", "title": "The guessed number format hides no value", "statement": "The number format chosen for a summary is exponential exactly when some nonzero value is smaller than 10^-limit or some value is larger than 10^limit, so that no nonzero value is shown as zero.", "quantifier": "all arrays of any length and sign, all limits >= 0, all precisions", "why_tests_cant": "Only the signed extrema are inspected; whether this suffices depends on all the values in between.", "anchors": ["kalepy/utils.py: _guess_str_format_from_range, minmax"]}
{"id": "C120", "title": "Legends of corner plots are placed where asked", "statement": "A box passed to Corner.legend (bbox or bbox_to_anchor) anchors the legend; otherwise a panel passed as index does; a passed loc is used. Without any of these the legend goes to an empty panel of the upper triangle.", "quantifier": "all numbers of variables, all panels (negative indices included), all combinations of index, loc, bbox, bbox_to_anchor and transform", "why_tests_cant": "The arguments interact: the combinations of given and missing ones times the number of variables are unbounded.", "anchors": ["kalepy/plot.py: Corner.legend"]}
{"id": "C121", "title": "Code runs only in the environment it was meant for", "statement": "run_if_notebook runs its function in notebooks and the alternative elsewhere; run_if_script runs its function in scripts and the alternative in every interactive shell; nbshow shows figures in notebooks and closes them elsewhere.", "quantifier": "all interactive shells (any class name) or none, all functions (returning or raising), with and without alternative", "why_tests_cant": "A test runs in one environment; the class of the shell is chosen by the host application.", "anchors": ["kalepy/utils.py: run_if, run_if_notebook, run_if_script, _python_environment", "kalepy/plot.py: nbshow"]}
{"id": "C122", "title": "Colour maps made from a colour", "statement": "The colour map made from a colour runs from a lighter through a more vivid to a darker version of it: all components lie in [0, 1], no component increases along the map, the middle colour has the hue of the given colour, and grey colours give grey maps. Inverting a colour twice gives it back.", "quantifier": "all colours, all exponents >= 0, all fractions sat and val in [0, 1]", "why_tests_cant": "The claim ranges over the continuum of colours, with case distinctions where components tie.", "anchors": ["kalepy/plot.py: _color_to_cmap, _invert_color"]}
{"id": "C123", "title": "The pdf of independent data tends to the density of the data", "statement": "If the data are independent points drawn from a density f with second moments, then the KDE made from the first n of them exists and its pdf at any point where f is continuous is within any given distance of f, with a probability that tends to 1 as n grows. This holds for every kernel, in every dimension, for KDE(data) with all defaults, for the names 'scott' and 'silverman', and for all bandwidth values h_n with h_n -> 0 and n h_n^d -> infinity. With a given covariance no second moments are needed.", "quantifier": "all dimensions, densities f, sequences of independent points with density f, points of continuity of f, kernels, admissible bandwidth sequences and tolerances", "why_tests_cant": "a limit over all data sizes and a probability over all data sets; a test sees finitely many random data sets and one density", "anchors": ["kalepy/kde.py: KDE.__init__, KDE.density, KDE._compute_bandwidth, KDE.pdf", "kalepy/kernels.py: Kernel.density, _Distribution.evaluate", "kalepy/utils.py: cov_from_var_cov"]}
{"id": "C124", "title": "Probabilities computed from the pdf, and samples drawn from it, tend to the truth for all regions at once", "statement": "If the data are independent points drawn from a density f with second moments (f need not be continuous anywhere), then the integral of |pdf - f| over all of space gets smaller than any given number, with a probability that tends to 1 as the number of data grows. So the probabilities of all regions computed from the pdf are close to the true ones at once, and, for the kernels that are sampled exactly, points returned by resample are independent and fall in any region with nearly the probability of a data point. The same holds with reflecting boundaries if f vanishes outside of them: the pdf with reflect is close to f on average (although not at corners, C125), and, given that resample returns, the points it returns are independent draws from a law that gives every region nearly its true probability.", "quantifier": "all dimensions, densities with second moments, sequences of independent points, kernels, admissible bandwidth sequences, regions, sample sizes and tolerances", "why_tests_cant": "a limit over data sizes, a supremum over all regions and a probability over all data sets", "anchors": ["kalepy/kde.py: KDE.__init__, KDE.pdf, KDE.resample", "kalepy/kernels.py: Kernel.density, Kernel.resample"]}
{"id": "C125", "title": "With reflect the pdf of independent data tends to their density up to the boundaries", "statement": "If the data are independent points whose density f vanishes outside the boundaries given as reflect and is continuous within them, then the pdf at every point within or on the boundaries tends to f (in probability, as the number of data grows), for every kernel, every admissible bandwidth and a given or computed covariance.", "quantifier": "all dimensions, boundaries (any combination of lower and upper ones), densities, sequences of independent points, points within or on the boundaries, kernels, admissible bandwidth sequences, covariances and tolerances", "why_tests_cant": "a limit over all data sizes and a probability over all data sets; the claim fails only at points where boundaries of several dimensions meet, which tests of one-dimensional reflection do not visit", "anchors": ["kalepy/kde.py: KDE.__init__, KDE.pdf, KDE.density", "kalepy/kernels.py: Kernel.density, Kernel._check_reflect"]}
{"id": "C126", "title": "Without reflect the pdf tends to half the density at the sides of a box", "statement": "If the data are independent points whose density f vanishes outside a box and is continuous within it, then the pdf of a KDE made without reflect tends to f/2 at points of a side of the box, to f/2^m where m sides of dimensions meet that the covariance does not couple to others, and to less than f wherever f is positive on the surface of the box.", "quantifier": "all dimensions, boxes (also unbounded ones), densities, sequences of independent points, points of the surface, kernels, admissible bandwidth sequences, covariances and tolerances", "why_tests_cant": "a limit over all data sizes and a probability over all data sets", "anchors": ["kalepy/kde.py: KDE.__init__, KDE.pdf", "kalepy/kernels.py: Kernel.density"]}
{"id": "C127", "title": "isinteger recognises exactly the integers", "statement": "isinteger is true exactly for integers and for lists of integers (with iterable=True).", "quantifier": "all scalars (integers of any size, floats, booleans) and all lists of them", "why_tests_cant": "the element type numpy chooses depends on the size and mix of all elements; tests use small integers", "anchors": ["kalepy/utils.py: isinteger"]}
{"id": "C128", "title": "jshape reports the full shape of jagged lists", "statement": "jshape reports a regular array with its shape and other lists with the shape at the top and the shapes of the elements; the reported shapes account for every scalar; a plain shape is reported exactly for regular arrays.", "quantifier": "all nested lists, of any depth and raggedness", "why_tests_cant": "recursion over arbitrarily deep and ragged lists", "anchors": ["kalepy/utils.py: jshape, isjagged"]}
{"id": "C129", "title": "Given colours and colour maps are used; a cut colour map follows the original", "statement": "A colour and a colour map that are given are used, and the missing one of the two is derived from the other. A colour map cut to [lo, hi] with n colours agrees with the original at n equally spaced points, is linear in between, keeps its range of colours, starts and ends with the colours at lo and hi, and differs from the original by at most L (hi - lo)/(n - 1) if that changes by at most L per unit; the part used for contours is within [0, 1].", "quantifier": "all combinations of arguments, all colour maps (functions), ranges, numbers of colours, positions and numbers of quantiles", "why_tests_cant": "holds for all real positions and all functions as colour maps", "anchors": ["kalepy/plot.py: _parse_color_cmap, _cut_colormap, dist2d"]}
{"id": "C130", "title": "Every contour level is marked in the colour bar", "statement": "In a colour bar a line is drawn across the bar at every level, in the colours given, in those of the levels, or in grey; unknown orientations are refused.", "quantifier": "all lists of levels and colours, colour maps and orientations", "why_tests_cant": "lists of any lengths that need not match", "anchors": ["kalepy/plot.py: _draw_colorbar_contours"]}
{"id": "C131", "title": "Figures of corner plots have size x size panels and a bounded default size", "statement": "A figure has as many rows and columns of panels as asked for; given sizes, spacings and grid settings are used; the default size is square, between 6 and 20 inches, does not shrink with more panels, and is four inches per panel for two to five panels.", "quantifier": "all numbers of panels and all combinations of settings", "why_tests_cant": "holds for every number of panels", "anchors": ["kalepy/plot.py: _figax"]}
{"id": "C132", "title": "The pdf is bounded by the peak of one kernel, vanishes far away, is continuous, and depends only little on each point", "statement": "With a positive definite kernel matrix and b reflecting boundaries (b may be 0): the pdf is everywhere between 0 and 1 + b times the peak of a single normalised kernel; it tends to 0 far from the origin; it is continuous inside the boundaries unless the kernel is the box, and with any kernel it is continuous except on a closed set without volume; and replacing some of the data points, with weights, kernel matrix, kernel and boundaries unchanged, changes the pdf nowhere by more than the replaced fraction of the weight times 1 + b times that peak.", "quantifier": "all datasets, dimensions, weights, kernels, covariances, bandwidths, boundaries, points, replaced points", "why_tests_cant": "bounds and limits over all points and all datasets", "anchors": ["kalepy/kde.py:KDE.pdf", "kalepy/kernels.py:Kernel.density", "kalepy/kernels.py:_Distribution.evaluate"]}
{"id": "C133", "title": "The pdf of independent data has the smoothed density as its mean and stays close to it", "statement": "With a given covariance and a fixed bandwidth, for independent data from a density f: for every number of points above one, the pdf at any point x has the mean ∫ K(x-y) f(y) dy exactly, and deviates from it by eps or more with probability at most 2 exp(-2 n eps^2 / K(0)^2).", "quantifier": "all densities, dimensions, kernels, covariances, bandwidths, numbers of data, points and deviations", "why_tests_cant": "a statement about the law of the result for every density and every size of the data", "anchors": ["kalepy/kde.py:KDE.pdf", "kalepy/kde.py:KDE.__init__", "kalepy/kernels.py:Kernel.density"]}
{"id": "C134", "title": "Integer weights mean the same as repeated points", "statement": "A KDE of points with integer weights has the same pdf as the KDE, with the same other arguments, of the points repeated as often as their weights say.", "quantifier": "all datasets, integer weights, kernels and bandwidths", "why_tests_cant": "an equality of two constructions for all data and weights; it fails for the automatic covariance and bandwidth", "anchors": ["kalepy/kde.py:KDE.__init__", "kalepy/kde.py:KDE._compute_bandwidth", "kalepy/kde.py:KDE.pdf"]}
{"id": "C135", "title": "Rounding does not spoil the density", "statement": "Computed in floating point arithmetic (a rounding after every operation of the whitening, distance, kernel, weighted sum and division), each density of a Gaussian, parabolic or triweight KDE differs from the exact weighted sum of kernels by at most a bound proportional to the unit roundoff (in double precision: (9 d + n + 22) / 2^52 times the weighted sum of sizes), tends to the exact value as precision grows, is never negative, with or without reflection, and changes by at most a factor ((1+u)/(1-u))^(n+1) when the data are given in another order; for the box kernel the error is relative, at points not too near the edge of a box.", "quantifier": "all data, nonnegative weights, points, dimensions, kernels, whitening matrices and norms, and all ways of rounding with relative error at most u (for double precision, all roundings to nearest with 53 digits)", "why_tests_cant": "Tests compare with a tolerance on a few random data; they cannot exclude data, orders or points for which cancellation or accumulated roundings give wrong or negative densities.", "anchors": ["kalepy/kernels.py: _evaluate_numba, Kernel.density, Gaussian._evaluate, Box._evaluate, Parabola._evaluate, Triweight._evaluate"]}
{"id": "C136", "title": "Rounding never puts a plain grid sample or a chosen point in an empty place", "statement": "In floating point arithmetic with rounding to nearest, sampling a grid without interpolation succeeds for every random number in [0,1), and each sample lies in the closed bin it was drawn for, which has positive mass; likewise the data point chosen by the cumulative weights for a new sample exists and has positive weight.", "quantifier": "all precisions, grids with float edges, masses, weights, sorting orders and random numbers", "why_tests_cant": "The dangerous cases are single random numbers next to 1 or next to a cumulative sum, and rounding at a bin edge; random tests almost never hit them.", "anchors": ["kalepy/sample.py: Sample_Grid.sample, _data_to_cumulative", "kalepy/kernels.py: Kernel._resample_clear"]}
{"id": "C137", "title": "Interpolated grid samples stay in their bin in floating point", "statement": "In double precision, sampling a one-dimensional grid with interpolation returns, for all random numbers, a sample inside the grid (as it does in exact arithmetic).", "quantifier": "all increasing float grids, positive densities and random numbers", "why_tests_cant": "The failure needs gradients between 1e-16 and about 1e-13 of the mean density, which random densities do not have, though nearly flat ones do.", "anchors": ["kalepy/sample.py: Sample_Grid.sample, _intrabin_linear_interp"]}
{"id": "C138", "title": "A KDE is a snapshot of its arguments", "statement": "Once a KDE object has been constructed, whatever the caller does with the arrays and lists passed to the constructor, or with arrays that the object has returned, does not change the outcome of any later call. (False for the data array, the list of boundaries and the arrays of default points: the object keeps references to them. True for the arrays of weights and covariance and for data given as lists.)", "quantifier": "all memory states, constructor arguments, and sequences of method calls and in-place changes of arrays", "why_tests_cant": "The claim ranges over all interleavings of method calls and writes to memory, including the states of the lazily filled caches.", "anchors": ["kalepy/kde.py: KDE.__init__", "kalepy/kde.py: KDE.points", "kalepy/kde.py: KDE.density", "kalepy/kernels.py: Kernel.__init__", "kalepy/kernels.py: _check_reflect"]}
{"id": "C139", "title": "Dictionaries of plot options can be reused between calls", "statement": "Corner.clean, hist, plot, plot_kde and plot_data draw with the entries of the dictionaries dist1d and dist2d they are given, and with their own defaults for what is not in them, no matter to which earlier calls the same dictionaries were given.", "quantifier": "every sequence of calls of the five methods, every choice of dictionaries (own, shared between calls or arguments, or left out) and every content of them", "why_tests_cant": "whether a call draws as intended depends on the history of all earlier calls that had access to the same dictionaries", "anchors": ["kalepy/plot.py: Corner.clean", "kalepy/plot.py: Corner.hist", "kalepy/plot.py: Corner.plot", "kalepy/plot.py: Corner.plot_kde", "kalepy/plot.py: Corner.plot_data"]}
{"id": "C140", "title": "Array-like arguments of the grid sampler", "statement": "The arguments edges, dens, mass, scalar_dens and scalar_mass of Sample_Grid are array-like: whether they are given as lists or as arrays, and whether the arrays hold floats or integers, the samples drawn with the same random values are the same.", "quantifier": "every grid of every dimension, all masses and scalars, every combination of lists and arrays of either element type, every number of samples, with and without interpolation and scalars, all random values", "why_tests_cant": "the combinations of forms, optional arguments and options are many, and whether one of them is refused or handled differently must be known for all values", "anchors": ["kalepy/sample.py: Sample_Grid.__init__", "kalepy/sample.py: Sample_Grid._init_data", "kalepy/sample.py: Sample_Grid.sample", "kalepy/sample.py: _data_to_cumulative", "kalepy/utils.py: trapz_dens_to_mass"]}
{"id": "C141", "title": "A grid sampler is a snapshot of its arguments", "statement": "Whatever the caller assigns to the elements of arrays after a Sample_Grid has been made, also of the arrays that were passed to it, sample() returns what it would have returned before, for the same random values.", "quantifier": "every grid, every way of passing the arguments (lists or arrays, shared between arguments or not), every sequence of assignments to arrays of the caller, every call of sample", "why_tests_cant": "the result depends on the whole history of assignments between construction and call, and on which arrays are shared", "anchors": ["kalepy/sample.py: Sample_Grid.__init__", "kalepy/sample.py: Sample_Grid._init_data", "kalepy/sample.py: Sample_Grid.sample"]}
{"id": "C142", "title": "The contours of a histogram or a KDE are drawn", "statement": "The levels computed for the contours of data or of a KDE are accepted by matplotlib: contour and the contours of dist2d are drawn for the default fractions, and for any increasing fractions between 0 and 1.", "quantifier": "all data, valid weights, edges, KDEs, fractions and paddings", "why_tests_cant": "whether levels coincide depends on the masses of all cells; a statement about every data set", "anchors": ["kalepy/plot.py:contour", "kalepy/plot.py:draw_contour2d", "kalepy/plot.py:_dfm_levels", "kalepy/plot.py:dist2d"]}
{"id": "C143", "title": "The mask of dist2d hides exactly the points inside the contours", "statement": "With mask_dense, dist2d covers exactly the positions that lie on or inside one of the contours; without contours, exactly the bins of the histogram that are shown. The mask is drawn whenever points are drawn together with a histogram or contours, and it never prevents the plot from being drawn.", "quantifier": "all KDEs, weights, edges, fractions, paddings and components", "why_tests_cant": "a statement about every density on a grid and every choice of components", "anchors": ["kalepy/plot.py:dist2d", "kalepy/plot.py:_dfm_levels"]}
{"id": "C144", "title": "Automatic edges in floating point", "statement": "Computed in double precision, the edges parse_edges makes (automatic ones, or for a number of bins) are strictly increasing, have the requested number or an automatic number between nmin and nmax, begin at or below the lower and end at or above the upper extremum, and they are returned whenever the extrema have a positive range or all data agree.", "quantifier": "all data, extrema, weights, nonnegative paddings, refinements, bandwidths and numbers of bins, and all roundings to nearest", "why_tests_cant": "Edges that coincide or lie on the wrong side of an extremum by one unit of the last digit appear only for particular magnitudes and widths.", "anchors": ["kalepy/utils.py:parse_edges", "kalepy/utils.py:_get_edges_1d", "kalepy/utils.py:_guess_edges", "kalepy/utils.py:quantiles"]}
{"id": "C145", "title": "Missing values (NaN) in the data are never silently mistaken for numbers", "statement": "If a dataset contains NaN in a dimension that is evaluated, no value returned by KDE.density or KDE.pdf is a number that looks like the density of the data: the call raises, or the values are NaN. Exactly: without an explicit covariance every evaluation of that dimension raises; with one, the values are NaN for all kernels except the box kernel; also within reflecting boundaries; NaN in other dimensions than those selected by `params` has no effect; NaN coordinates of evaluation points give NaN. For the box kernel the claim is false: density() is that of the complete points and pdf() is that of the complete points times the share of their weight.", "quantifier": "all datasets of any dimension and size with NaN anywhere, all weights, bandwidths, covariances, kernels, boundaries, selections of parameters and evaluation points (also NaN)", "why_tests_cant": "whether NaN propagates depends on the whole path (covariance, inverse, Cholesky, maximum, boundary masks) for every combination of kernel, covariance, selection and boundary; a test sees one position of one NaN", "anchors": ["kalepy/kde.py:KDE.__init__", "kalepy/kde.py:KDE.density", "kalepy/kernels.py:Kernel.density", "kalepy/kernels.py:_evaluate_numba", "kalepy/kernels.py:Box._evaluate", "kalepy/utils.py:matrix_invert"]}
{"id": "C146", "title": "Resampling data with missing values (NaN) returns numbers or raises", "statement": "KDE.resample of a dataset that contains NaN raises or returns only numbers. Exactly: without an explicit covariance every non-empty resample raises. With one and boundaries in force, only numbers are returned, and they are the samples of the KDE of the complete points alone (same random numbers); if no point is complete it raises. Without boundaries the claim is false: incomplete points are drawn like all others, a sample has NaN exactly in the dimensions missing in the point drawn, the other coordinates are those of the filled-in data, and the probability of NaN is the share of weight of the incomplete points.", "quantifier": "all datasets of any dimension and size with NaN anywhere, all weights, covariances, bandwidths, kernels, boundaries, kept dimensions, sizes, chunk sizes and random numbers", "why_tests_cant": "whether a NaN reaches the output depends on the random choices and on the rejection loop, for every position of NaN and every boundary; a test sees one seed", "anchors": ["kalepy/kde.py:KDE.resample", "kalepy/kernels.py:Kernel.resample", "kalepy/kernels.py:_resample_clear", "kalepy/kernels.py:_resample_reflect", "kalepy/utils.py:bound_indices", "kalepy/utils.py:add_cov"]}
{"id": "C147", "title": "Boundaries given to density, pdf or resample replace those of the constructor", "statement": "Evaluating or resampling a KDE with the argument reflect=r gives exactly what a KDE constructed with reflect=r (and otherwise the same arguments) gives without that argument, whatever boundaries the first KDE was constructed with. With params, the list has one entry per selected parameter in the order of params. True for resample with every accepted form of r and for density and pdf at given points with every accepted list; density and pdf raise TypeError for reflect=True and reflect=False, which the constructor and resample accept.", "quantifier": "all KDEs (data, weights, kernels, bandwidths, stored boundaries), all boundaries accepted by the constructor, all points, params, grid, probability, sizes, kept dimensions and random numbers", "why_tests_cant": "the equality has to hold for every pair of stored and given boundaries and every selection of parameters; a forgotten case shows only if both boundaries differ in a dimension that matters at the points tested", "anchors": ["kalepy/kde.py:KDE.density", "kalepy/kde.py:KDE.pdf", "kalepy/kde.py:KDE.resample", "kalepy/kernels.py:_check_reflect"]}
{"id": "C148", "title": "Quantiles computed in floating point arithmetic", "statement": "In binary floating point arithmetic with rounding to nearest, ties to even, utils.quantiles succeeds for all finite values and all valid weights, returns one number per percentile, and none of them is below the smallest value. A quantile may exceed the largest value, because of roundings inside the linear interpolation, but by at most eight units 2^-p of the magnitudes of the smallest and largest value (p bits of precision).", "quantifier": "all precisions of at least 7 bits, all roundings to nearest with ties to even, all nonempty lists of floating point values, all valid weights or none, all percentiles in [0,1], all argsorts; exponents unbounded", "why_tests_cant": "the excess needs values and percentiles where two roundings conspire; random tests practically never meet one, and the bound has to hold for all of them", "anchors": ["kalepy/utils.py:quantiles"]}
{"id": "C149", "title": "The cumulative distribution computed in floating point arithmetic", "statement": "In binary floating point arithmetic with rounding to nearest, for values of the density on the grid that are nonnegative and not all zero, KDE.cdf computes cumulative values at the points of the grid that lie between 0 and 1, never decrease along any axis, are 0 on the lower faces of the grid and exactly 1 at its upper corner. Each of them agrees with the quotient of the exact trapezoid masses up to a relative error of N/2^p, where p is the number of bits and N = 2(2^d + 2d + sum of the numbers of points per axis) + 5.", "quantifier": "all precisions, all roundings to nearest, all dimensions, all strictly increasing grids with at least two points per axis, all nonnegative values of the density; exponents unbounded, so neither overflow nor underflow", "why_tests_cant": "monotonicity and the exact end value have to survive every accumulation of rounding errors on every grid; tests compare a few values within a tolerance", "anchors": ["kalepy/kde.py:KDE.cdf", "kalepy/utils.py:cumtrapz", "kalepy/utils.py:trapz_dens_to_mass", "kalepy/utils.py:cumsum"]}
{"id": "C150", "title": "cdf is evaluated point by point", "statement": "The values of KDE.cdf are those of one function of a single point, whatever calls were made before: for an array with D rows the n-th value belongs to the n-th column; a flat array is read as consecutive groups of D values, one point each, and raises ValueError if its length is no multiple of D; an array with a number of rows other than D raises ValueError.", "quantifier": "all KDEs whose cdf can be evaluated, all histories of calls, all arrays of points, all dimensions", "why_tests_cant": "all shapes of the points and all histories of calls", "anchors": ["kalepy/kde.py:KDE.cdf"]}
{"id": "C151", "title": "With a fixed bandwidth, the pdf of independent data is near their density, by a stated amount", "statement": "Take independent data with density f, a given covariance C and a fixed bandwidth b. At a point where f differs from its tangent plane by at most B/2 times the squared distance (second derivatives at most B), the mean of the pdf that KDE(...).pdf reports differs from f by at most (B/2) b^2 k tr C, where k C is the covariance of the kernel (k = 1, 1/(D+2), 1/(D+4), 1/(D+8) for the Gaussian, box, parabola and triweight kernels), whatever the number n of data; and the pdf is further than that plus eps from f with a probability of at most 2 exp(-2 n eps^2 / K(0)^2). If f is only Lipschitz at the point with constant L, the same holds with L b sqrt(k tr C).", "quantifier": "all densities, all points, all kernels, dimensions, covariances, bandwidths and numbers of data, all eps > 0", "why_tests_cant": "it is a statement about the law of random data, for every density and every bandwidth", "anchors": ["kalepy/kde.py:KDE.__init__", "kalepy/kde.py:KDE.pdf", "kalepy/kernels.py:Kernel.density", "kalepy/kernels.py:Distribution"]}
{"id": "C152", "title": "Labels and ticks of corner plots are at the axes of their parameters", "statement": "Corner(n, labels=..., ticks=...) writes the label of a parameter along the last row and down the first column of panels, at axes that show this parameter, and nowhere else; every parameter is labelled; its ticks are set on exactly the axes that show it. Labels are on the outside of the figure for every origin, and the ordinates of the diagonal panels never face a visible panel. Fewer labels or ticks than parameters raise IndexError; labels and ticks can be left out, alone or together.", "quantifier": "all numbers of parameters, all labels and ticks, all four origins, rotated or not", "why_tests_cant": "all numbers of parameters and all combinations of origin and rotation", "anchors": ["kalepy/plot.py:Corner.__init__"]}
{"id": "C153", "title": "Corner plots do not influence each other through their limits", "statement": "In any program the limits shown in a corner plot depend only on the values of the limits it was given and on what was plotted in it, not on other corner plots; and the object passed as limits stays as it was.", "quantifier": "all programs that construct limits (lists, tuples, arrays), construct corner plots and plot in them, in any order", "why_tests_cant": "all interleavings of calls on several objects", "anchors": ["kalepy/plot.py:Corner.__init__", "kalepy/plot.py:Corner.plot_kde", "kalepy/plot.py:Corner.plot_data"]}
{"id": "C154", "title": "Grids, midpoints and subdivided edges in floating point arithmetic", "statement": "In floating point arithmetic, spacing(data) goes from exactly the smallest to exactly the largest element in increasing order, midpoints lie between their neighbours, bins have nonnegative widths and contain their centres, and subdivide keeps all given edges and puts the new ones between them; on linear and on logarithmic scales.", "quantifier": "all lists of floating point numbers of any precision, all numbers of points, all roundings to nearest, all implementations of log10 and powers of ten", "why_tests_cant": "rounding errors depend on the individual values; the statement is about all of them and about every implementation of the logarithm", "anchors": ["kalepy/utils.py:spacing", "kalepy/utils.py:midpoints", "kalepy/utils.py:_midpoints_1d", "kalepy/utils.py:bins", "kalepy/utils.py:subdivide"]}
{"id": "C155", "title": "Variance and mean squared error of the pdf", "statement": "For independent data with density f, a given covariance C and a fixed bandwidth b, the mean squared deviation of the pdf at x from its mean is (∫K(x-y)² f(y)dy - (∫K(x-y) f(y)dy)²)/n, at most the peak of the kernel times the mean over n, and the mean squared error is this plus the squared bias; so for smooth densities it is at most K(0) (f(x)+β)/(n b^d) + β² with β proportional to b², and vanishes if b tends to zero and n b^d to infinity.", "quantifier": "all densities f, all numbers of data above one, all dimensions, all kernels, all positive definite covariances, all positive bandwidths, all points", "why_tests_cant": "the variance is an average over all data sets that could have been drawn", "anchors": ["kalepy/kde.py:KDE.pdf", "kalepy/kde.py:KDE.density", "kalepy/kernels.py:Kernel.density"]}
{"id": "C156", "title": "Underflow does not spoil the density", "statement": "With the numbers of IEEE 754 double precision, subnormal numbers included, the computed density of a Gaussian, parabolic or triweight kernel differs from the exact one by at most a stated bound, which exceeds that of C135 by about the smallest normal number only; computed densities are never negative, also with boundaries; and the density of the Gaussian kernel is computed as exactly zero far away from all data.", "quantifier": "all data, points and weights, all dimensions, all roundings to nearest of numbers with a smallest exponent", "why_tests_cant": "there are too many combinations of rounding and underflow in sums of exponentials to try them", "anchors": ["kalepy/kernels.py:_evaluate_numba", "kalepy/kernels.py:Kernel.density", "kalepy/kernels.py:Gaussian._evaluate"]}
{"id": "C157", "title": "Underflow never puts a plain grid sample or a chosen point in an empty place", "statement": "With gradual underflow, sampling a grid without interpolation succeeds and every sample lies in a bin of positive mass, however small edges and masses are; the data point chosen for a new sample exists and has a positive weight. Weights smaller than half of the smallest positive number times their sum are lost: such points are never chosen.", "quantifier": "all grids, masses and weights that are floating point numbers, all random numbers, all roundings to nearest of numbers with a smallest exponent", "why_tests_cant": "concerns every combination of tiny edges, masses and random numbers", "anchors": ["kalepy/sample.py:Sample_Grid.sample", "kalepy/sample.py:_data_to_cumulative", "kalepy/kernels.py:Kernel.resample"]}
{"id": "C158", "title": "Small errors of the whitening matrix and of the norm change the density little", "statement": "If the square of the whitening matrix used in an evaluation differs from the inverse of the bandwidth matrix by at most delta in each entry, and the norm has a relative error of at most nu, then the density of a Gaussian, parabolic or triweight kernel computed with roundings differs from the weighted sum of kernels by at most the rounding error bound plus the weighted mean of slope * delta * (L1 distance)^2 + nu, over the norm. With the box kernel nothing but the norm and the last roundings change, except for points close to the edge of a box.", "quantifier": "all data, points, nonnegative weights, positive definite bandwidth matrices, whitening matrices and norms within the error bounds, all roundings of bounded relative error, with or without gradual underflow", "why_tests_cant": "bounds the error for every data set, every bandwidth matrix and every inexact factorisation", "anchors": ["kalepy/kernels.py:Kernel.density", "kalepy/kernels.py:_evaluate_numba"]}
{"id": "C159", "title": "Example data sets have the stated sizes, ranges and density", "statement": "The one-dimensional example data consist of num // 2 normal numbers followed by lognormal (uniform) numbers, num altogether, and the density returned with them is their density: its integral over any interval of positive numbers is the mean of the probabilities that a number of either kind lies there. Both functions set the global seed, so that the result and all random numbers drawn later do not depend on the state of the generator. The scaled normal data have num points of which exactly int(num * noise) are replaced by noise in different places (or num // 5 points within the range of the others are appended); without points or with more noise than points a ValueError is raised. The covariance matrices are positive definite.", "quantifier": "all numbers of points, fractions of noise, random numbers and permutations; all intervals of positive numbers", "why_tests_cant": "tests fix a seed and a size; the density statement is about all intervals", "anchors": ["kalepy/utils.py:_random_data_1d_01", "kalepy/utils.py:_random_data_1d_02", "kalepy/utils.py:_random_data_2d_01", "kalepy/utils.py:_random_data_3d_01", "kalepy/utils.py:_random_data_3d_02"]}
{"id": "C160", "title": "Sorted and covariant example data", "statement": "_random_data_2d_02 returns num normal numbers in order and num drawn numbers of [0, 2) that are in order but for at most a quarter of the places. _random_data_2d_03 and _random_data_3d_03 return num positive numbers and num numbers of [0, 1), shuffled as pairs from the order of a noisy score, provided at least num of the 3 num numbers drawn are positive; otherwise, or without points, they raise a ValueError.", "quantifier": "all numbers of points, parameters, random numbers, permutations and sorting algorithms", "why_tests_cant": "whether enough numbers are positive depends on the random numbers; tests see a few seeds", "anchors": ["kalepy/utils.py:_random_data_2d_02", "kalepy/utils.py:_random_data_2d_03", "kalepy/utils.py:_random_data_3d_03"]}
{"id": "C161", "title": "Data of moderate size do not make a density overflow", "statement": "Evaluating a density with rounded arithmetic whose results are unspecified beyond a largest number (overflow) gives exactly the values of the arithmetic without overflow, hence nonnegative values with the accuracy of C156, whenever the distances, kernels, weighted sums and quotients stay below the largest number by the factor (1+2u)^(9m+N+22). In double precision it suffices that R = 1 + m(2m(BA+1))^2, for coordinates up to A and whitening entries up to B, satisfies R^degree <= 2^1022 and N (W+1) R^degree <= 2^1022 min(1, norm) for weights up to W.", "quantifier": "all data, points, weights, dimensions, whitening matrices and norms within these sizes, all kernels (accuracy: all except the box), every behaviour of the arithmetic beyond the largest number", "why_tests_cant": "excludes an overflow in every intermediate result for every data set of the given size", "anchors": ["kalepy/kernels.py:Kernel.density", "kalepy/kernels.py:_evaluate_numba"]}
{"id": "C162", "title": "How often sampling with boundaries fails", "statement": "With all data strictly inside the boundaries, let P be the probability that a sample of resample(reflect=False) lies inside. Then resample(size) with the boundaries raises with a probability of at most size*(1-P)^(1+9g), for every g <= 2^D with g*size <= chunk. With a single boundary on one parameter P is at least 1/2 for every kernel, so the call fails with a probability of at most size/2^(1+9g). For larger sizes, drawn in N chunks of 2L points, a single boundary makes the call fail with a probability of at most exp(-size/6) + L/2^(14N-2); with any boundaries there is a bound of the form exp(-2 m g L e^2) + L*(1-P)^(g(10N-1-m)). If P < 1 the probability of a failure (RuntimeError) is never zero. If P < 1/10 large calls fail almost surely: for size a multiple of the chunk size the call returns with a probability of at most exp(-20 size (1/10-P)^2).", "quantifier": "all dimensions, data, weights, kernels, positive definite kernel matrices, boundaries (given to the constructor or to the call), numbers of samples, and all probability spaces carrying random numbers as numpy promises them", "why_tests_cant": "a bound on the probability of failure for all data sets and boundaries; rare failures are not seen in tests", "anchors": ["kalepy/kernels.py:Kernel._resample_reflect", "kalepy/kernels.py:Kernel.resample"]}
{"id": "C163", "title": "Frequencies of samples drawn with boundaries approach the truncated density", "statement": "With all data strictly inside the boundaries, given that resample(size) returns, the fraction of the samples in a region differs by eps or more from the region's share of the samples of resample(reflect=False) that lie inside the boundaries with a probability of at most 2*exp(-2*size*eps^2). For the Gaussian kernel (box and parabola in one dimension) this share is the integral of the pdf of the KDE without boundaries over the part of the region inside, divided by that over all of the inside. With a single boundary, the probability that the call raises or that the fraction is off by eps goes to zero as the number of samples grows.", "quantifier": "all dimensions, data, weights, kernels, positive definite kernel matrices, boundaries (given to the constructor or to the call), measurable regions, tolerances, numbers of samples, and all probability spaces carrying random numbers as numpy promises them", "why_tests_cant": "a probability bound for all data sets, regions and sizes; tests see single random outcomes", "anchors": ["kalepy/kernels.py:Kernel._resample_reflect", "kalepy/kde.py:KDE.resample"]}
{"id": "C164", "title": "Samples do not depend on the element type of the data", "statement": "The distribution of the samples returned by `KDE(data).resample(...)` is the same whether integer data are passed as an integer array or as the same numbers in a float array, with and without boundaries, for every `keep`, `size` and kernel.", "quantifier": "all integer data sets, weights, kernels, boundaries, keep arguments, sizes and random numbers", "why_tests_cant": "the effect depends on the distance of single data points to a boundary that is not an integer, and only changes probabilities of samples", "anchors": ["kalepy/kernels.py: Kernel._reflect_data, Kernel._truncate_reflections, Kernel._resample_reflect", "kalepy/kde.py: KDE.resample"]}
{"id": "C165", "title": "Poisson noise makes the bins of outlier samples independent Poisson counts", "statement": "With `poisson_outside=True`, the total weights of the samples which `sample_outliers` returns in the different bins of the grid are independent of each other, and the weight of each bin follows a Poisson distribution whose mean is the mass of the bin. The only exception: without `poisson_inside`, the weight of a bin above the threshold is the mass of the bin itself.", "quantifier": "all grids with increasing edges in any dimension, non-negative densities and masses, thresholds, interpolation settings and all joint laws of the random numbers that numpy promises", "why_tests_cant": "it is a statement about the joint distribution of the weights of all bins; a test sees finitely many draws, and one Poisson number is shared by all outlier bins, so that independence is not visible in the code", "anchors": ["kalepy/sample.py: Sample_Outliers.sample, Sample_Grid.sample, sample_outliers"]}
{"id": "C166", "title": "Midpoints of arrays of any dimension are means of the cell corners", "statement": "`midpoints(arr, axis=axes)` succeeds exactly if every axis is longer than the number of times it is given (otherwise `RuntimeError`) and shortens each axis by this number. Along different axes each value is the mean of the 2**k surrounding values (with `log=True` their geometric mean), whatever the order of the axes, and stays within the range of the input.", "quantifier": "all arrays of any dimension and shape (positive values for `log=True`), all lists of axes and `axis=None`", "why_tests_cant": "holds for all dimensions, shapes and lists of axes", "anchors": ["kalepy/utils.py: midpoints, _midpoints_1d"]}
{"id": "C167", "title": "rem_cov without a covariance whitens the data", "statement": "`rem_cov(data)` returns as many points whose covariance is the unit matrix, for all data with a positive definite covariance. (It is false: in three and more dimensions the call always raises, because the rows of the data are passed to `np.cov` as separate arguments.)", "quantifier": "all data sets with at least two points, in any dimension", "why_tests_cant": "holds or fails for all data of a dimension; no test calls `rem_cov` without a covariance", "anchors": ["kalepy/utils.py: rem_cov"]}
{"id": "C168", "title": "Integrating along chosen axes", "statement": "`trapz_nd(data, edges, axis)` applies the trapezoid rule along each of the given axes and returns the array over the remaining ones; `trapz_dens_to_mass(pdf, edges, axis)` converts along exactly these axes; the order of the axes does not matter, `None` means all axes, and the masses add up to the integral. Axes may be counted from the end, as in numpy. (The last sentence is false: `trapz_nd` with axis=[-1, -2] of a three-dimensional array integrates along a wrong axis, and `trapz_dens_to_mass` with a negative axis raises or, for an axis with two values, returns a wrong array.)", "quantifier": "all arrays of any dimension, edges, and lists of distinct axes", "why_tests_cant": "all dimensions, shapes and subsets of axes; the tests use no negative axis", "anchors": ["kalepy/utils.py: trapz_nd", "kalepy/utils.py: trapz_dens_to_mass"]}
{"id": "C169", "title": "Shapes of the returned samples", "statement": "`resample(size=L)` returns an array of shape (D, L), or (L,) for one-dimensional data unless `squeeze=False`; `sample_grid` and `sample_outliers` return values of shape (D, N), or (N,) for one-dimensional grids, with N scalars or weights; row `i` holds coordinate `i` of every sample, in order. (It is false for exactly one sample of one-dimensional data: all three return an array without axes, while the weights keep one.)", "quantifier": "all kernel densities, grids, sizes, options and random numbers for which the call succeeds", "why_tests_cant": "all dimensions, sizes and random numbers; the tests never draw a single sample", "anchors": ["kalepy/kernels.py: Kernel.resample", "kalepy/sample.py: sample_grid", "kalepy/sample.py: sample_outliers"]}
{"id": "C170", "title": "What `keep` does to the distribution of the samples", "statement": "Without boundaries, and with the same random numbers, `resample(keep=...)` returns points whose kept coordinates are those of `resample(keep=True)` and whose other coordinates are those of `resample()`. Hence the samples are independent; on the kept coordinates each is a data point chosen with probability proportional to its weight; regions that involve only the other coordinates have the same probability as without `keep`, namely the integral of `pdf` for the kernels that are sampled exactly; and kept and other coordinates of one sample stem from the same data point, with noise whose law does not depend on `keep`.", "quantifier": "all kernel densities without boundaries with positive definite kernel matrix, all kernels, all choices of existing dimensions to keep, all sizes and regions, all random numbers (for the probabilities: independent ones with the laws numpy promises)", "why_tests_cant": "it is a statement about probability laws, all data, weights and choices of dimensions; tests see finitely many draws", "anchors": ["kalepy/kde.py: KDE.resample", "kalepy/kernels.py: Kernel.resample", "kalepy/kernels.py: Kernel._resample_clear"]}
{"id": "C171", "title": "Arrays returned by `sample_grid_proportional`", "statement": "`sample_grid_proportional(edges, dens, portion, nsamp, ...)` returns the positions of the samples, of shape (D, N), and one weight for each, of shape (N,), in the same order, for any of the options passed on to `sample`. (It is false for `return_scalar=False`: in two dimensions the first and the second coordinates of the samples are returned as positions and weights; in other dimensions the call raises ValueError.)", "quantifier": "all grids of any dimension with positive total mass of `portion`, all numbers of samples, options and random numbers", "why_tests_cant": "all dimensions, options and random numbers; the tests never call the function", "anchors": ["kalepy/sample.py: sample_grid_proportional", "kalepy/sample.py: Sample_Grid.sample"]}
{"id": "C172", "title": "Resampling with boundaries when data lie outside of them", "statement": "Wherever the data lie, resample(size) with reflecting boundaries draws from the data and the mirror images of data at a single boundary that lie strictly inside (a datum outside in one dimension is replaced by its images at the boundaries of this dimension, one outside in two dimensions is dropped), each with the weight of its datum. If these have positive total weight, the call returns with positive probability, and given that it returns, the samples are independent and each is distributed like one of these points, chosen in proportion to its weight, plus the same noise as without boundaries, conditioned on lying inside. If they have no weight, every call asking for samples raises ValueError.", "quantifier": "all dimensions, data inside or outside of the boundaries, weights, kernels, positive definite kernel matrices, boundaries, numbers of samples, and all probability spaces carrying random numbers as numpy promises them", "why_tests_cant": "a statement about joint distributions for all positions of the data; the tests only use data inside of the boundaries", "anchors": ["kalepy/kernels.py: Kernel._resample_reflect", "kalepy/kernels.py: _reflect_data", "kalepy/kernels.py: _truncate_reflections"]}
{"id": "C173", "title": "corner(data) and the methods plot, clean and hist draw complete corner plots", "statement": "The first call of corner(data) or of Corner(data, weights).plot() draws density curve, confidence bands and carpet of each parameter on the diagonal, and points, median lines, histogram and contours of each pair below it; clean() draws only the curves, contours and median lines; hist() only histograms and median lines, of the data without their weights. Each parameter has one set of edges, shared by its panels and enclosing the data; nothing is drawn above the diagonal. For automatic edges or a number of bins all of this can be computed if two points count and the parameters vary (hist), or the covariance is not singular and the effective number of points is at least two (clean), and for plot also the upper axis limits are not negative and the weights are positive and not too different.", "quantifier": "all data of any number of parameters, weights, edges, quantiles, rotations, and random selections and positions of points", "why_tests_cant": "the tests only check that a few calls do not raise; the claim ranges over all data and weights", "anchors": ["kalepy/plot.py: corner", "kalepy/plot.py: Corner.plot", "kalepy/plot.py: Corner.clean", "kalepy/plot.py: Corner.hist"]}
{"id": "C174", "title": "cdf is the integral of pdf", "statement": "At every point of the grid of evaluation points, KDE.cdf is the mass of the pdf (by the trapezoid rule) over the cells of the grid below the point, divided by the mass of the whole grid. If the pdf varies by at most eta within each cell, it differs from the integral of the pdf over the part of the grid below the point, divided by the integral over the whole grid, by at most 2 eta V / m (V: volume of the grid, m: its probability), and without boundaries from the probability of all values below the point by at most 2 eta V / m + (1 - m). With arrays of evaluation points covering a sufficiently large box in sufficiently small steps, cdf succeeds and is within any given tolerance of the integral of the pdf over all y <= x divided by the integral of the pdf (which is 1 without boundaries), at every x in the box, for every kernel and with or without boundaries, unless the integral of the pdf is 0. For every other box in which the integral of the pdf is positive, the same holds for the fraction of this integral below x.", "quantifier": "all data, weights, bandwidths, kernels, dimensions, evaluation points, histories of calls, tolerances and points x", "why_tests_cant": "tests compare a few values of the cdf with numbers computed for one data set; the bound and the limit range over all data, grids and points", "anchors": ["kalepy/kde.py: KDE.cdf", "kalepy/utils.py: cumtrapz", "kalepy/kde.py: KDE.pdf"]}
{"id": "C175", "title": "cdf returns numbers with the default evaluation points", "statement": "For every KDE with default evaluation points and extrema and without reflection, KDE.cdf returns numbers. (The code violates this for kernels of finite support: the default points are at most 201 per parameter, and if all of them miss the kernels, the cdf is 0/0. cdf returns numbers if and only if the pdf is positive at one of the default points; this always holds for the Gaussian kernel, in one dimension if neighbouring points are closer than one kernel width, and in several if a box of half the spacing of the points fits into a kernel.)", "quantifier": "all data, weights, bandwidths, kernels, dimensions, histories of calls and query points", "why_tests_cant": "tests use data whose spread is a few bandwidths; the failure needs data sets that are wide compared with the bandwidth, and the positive result ranges over all of them", "anchors": ["kalepy/kde.py: KDE.cdf", "kalepy/kde.py: KDE.points", "kalepy/utils.py: parse_edges", "kalepy/utils.py: _guess_edges"]}
{"id": "C176", "title": "Integrals over and samples from a density evaluated on a grid", "statement": "If an array contains the values of a nonnegative function F at the points of a grid, then trapz_nd(array, edges) differs from the integral of F over the grid by at most eta*V, where eta bounds the variation of F within a cell and V is the volume of the grid; and Sample_Grid(edges, array).sample(n, interpolate=False) returns, up to order, independent draws from a distribution whose probability of every set differs by at most 2*eta*V/integral(F) from the fraction of the integral of F in this set; for unions of cells of the grid this also holds with interpolation (the default). If the variation differs between cells, eta*V may be replaced by the sum of variation times volume over the cells. In particular, for KDE.pdf(points, grid=True) of any kernel, with or without boundaries, on any box in which its integral is positive both errors vanish as the steps of the grid get small, and the fraction of n samples in a set is within eps of the limit except with probability 2*exp(-2*n*eps^2); with interpolation the set must have a boundary without volume, and the probability is 4*exp(-2*n*eps^2). On sufficiently large and fine grids the pdf without boundaries integrates to 1, within any tolerance, and so does the pdf with at most one boundary per dimension if the kernel does not couple dimensions with boundaries to others; with any boundaries the result is the integral of the pdf over the whole space. (No fixed tolerance holds for the default evaluation points: there the pdf on the grid can vanish everywhere and integrate to 0.)", "quantifier": "all functions, grids, dimensions, sets, sample sizes and random numbers; all KDEs, with or without boundaries", "why_tests_cant": "tests compare histograms of samples from a few grids within loose tolerances; the bound ranges over all functions, grids and sets and over all sequences of random numbers", "anchors": ["kalepy/utils.py: trapz_nd", "kalepy/utils.py: trapz_dens_to_mass", "kalepy/sample.py: Sample_Grid", "kalepy/kde.py: KDE.pdf"]}
{"id": "C177", "title": "The grid of a sampler is the grid from which it draws", "statement": "Whatever a program did with a sampler before (samples, looks at the property grid, assignments to arrays), Sample_Grid.grid has one array per dimension, of the shape of the densities, whose element at index idx is edges[i][idx[i]], for the edges from which Sample_Grid.sample draws at this time; and looking at grid has no effect on samples. (The first part is violated by the code: the grid is computed at the first use and kept, and the list that is kept is handed out, so grid is wrong after an assignment to an array of edges or to the arrays that it returned; otherwise it holds.)", "quantifier": "all grids of any dimension, densities and masses, all sequences of samples, uses of grid and assignments, all random numbers", "why_tests_cant": "the claim ranges over all histories of uses and assignments; tests never use the property", "anchors": ["kalepy/sample.py: Sample_Grid.grid", "kalepy/sample.py: Sample_Grid.__init__", "kalepy/sample.py: Sample_Grid.sample"]}
{"id": "C178", "title": "midpoints with squeeze only drops the axes of length one", "statement": "midpoints(..., squeeze=True) succeeds and fails exactly as midpoints(..., squeeze=False), and returns the same array without its axes of length one: the other axes keep their lengths and their order, and every element is found by leaving out the positions along the dropped axes.", "quantifier": "all arrays of any number of dimensions and any shape, linear and logarithmic midpoints, and all choices of axes", "why_tests_cant": "a statement about arrays of every dimension, shape and choice of axes; tests use a few shapes", "anchors": ["kalepy/utils.py: midpoints"]}
