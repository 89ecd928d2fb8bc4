# Axioms each theorem depends on

Output of `#print axioms` for every theorem named in MANIFEST.json.

| property | theorem | axioms |
|---|---|---|
| C01 | `Kalepy.C01_density_pointwise` | propext, Classical.choice, Quot.sound |
| C01 | `Kalepy.C01_density_params_pointwise` | propext, Classical.choice, Quot.sound |
| C01 | `Kalepy.C01_density_append` | propext, Classical.choice, Quot.sound |
| C01 | `Kalepy.C01_density_length` | propext, Classical.choice, Quot.sound |
| C01 | `Kalepy.C01_kde_density_pointwise` | propext, Classical.choice, Quot.sound |
| C02 | `Kalepy.C02_density_eq_kernelSum` | propext, Classical.choice, Quot.sound |
| C02 | `Kalepy.C02_kde_density` | propext, Classical.choice, Quot.sound |
| C03 | `Kalepy.C03_density_perm` | propext, Classical.choice, Quot.sound |
| C03 | `Kalepy.C03_density_perm_unweighted` | propext, Classical.choice, Quot.sound |
| C03 | `Kalepy.C03_kde_perm` | propext, Classical.choice, Quot.sound |
| C04 | `Kalepy.C04_density_data_append` | propext, Classical.choice, Quot.sound |
| C04 | `Kalepy.C04_density_weights_smul` | propext, Classical.choice, Quot.sound |
| C04 | `Kalepy.C04_density_zero_weight` | propext, Classical.choice, Quot.sound |
| C04 | `Kalepy.C04_density_integer_weight` | propext, Classical.choice, Quot.sound |
| C04 | `Kalepy.C04_density_weights_none` | propext, Classical.choice, Quot.sound |
| C05 | `Kalepy.C05_density_nonneg` | propext, Classical.choice, Quot.sound |
| C05 | `Kalepy.C05_kde_density` | propext, Classical.choice, Quot.sound |
| C05 | `Kalepy.C05_kde_all` | propext, Classical.choice, Quot.sound |
| C06 | `Kalepy.C06_weights_scale` | propext, Classical.choice, Quot.sound |
| C07 | `Kalepy.C07_normalised` | propext, Classical.choice, Quot.sound |
| C08 | `Kalepy.C08_affine` | propext, Classical.choice, Quot.sound |
| C08 | `Kalepy.C08_translate` | propext, Classical.choice, Quot.sound |
| C09 | `Kalepy.C09_extrema` | propext, Classical.choice, Quot.sound |
| C09 | `Kalepy.C09_zero_outside` | propext, Classical.choice, Quot.sound |
| C09 | `Kalepy.C09_grid_exists` | propext, Classical.choice, Quot.sound |
| C09 | `Kalepy.C09_grid` | propext, Classical.choice, Quot.sound |
| C10 | `Kalepy.C10_gaussian_partial` | propext, Classical.choice, Quot.sound |
| C10 | `Kalepy.C10_params_density` | propext, Classical.choice, Quot.sound |
| C10 | `Kalepy.C10_refuted` | propext, Classical.choice, Quot.sound |
| C11 | `Kalepy.C11_reflect_zero_outside_partial` | propext, Classical.choice, Quot.sound |
| C11 | `Kalepy.C11_kde_partial` | propext, Classical.choice, Quot.sound |
| C11 | `Kalepy.C11_refuted` | propext, Classical.choice, Quot.sound |
| C12 | `Kalepy.C12_mass` | propext, Classical.choice, Quot.sound |
| C12 | `Kalepy.C12_reflect_partial` | propext, Classical.choice, Quot.sound |
| C12 | `Kalepy.C12_at_most_one` | propext, Classical.choice, Quot.sound |
| C12 | `Kalepy.C12_refuted` | propext, Classical.choice, Quot.sound |
| C12 | `Kalepy.C12_mass_dims` | propext, Classical.choice, Quot.sound |
| C12 | `Kalepy.C12_at_most_one_dims` | propext, Classical.choice, Quot.sound |
| C12 | `Kalepy.C12_one_sided_total` | propext, Classical.choice, Quot.sound |
| C12 | `Kalepy.C12_dims_partial` | propext, Classical.choice, Quot.sound |
| C12 | `Kalepy.C12_corner_refuted` | propext, Classical.choice, Quot.sound |
| C12 | `Kalepy.C12_marginal_partial` | propext, Classical.choice, Quot.sound |
| C13 | `Kalepy.C13_null_reflect` | propext, Classical.choice, Quot.sound |
| C13 | `Kalepy.C13_single_dim` | propext, Classical.choice, Quot.sound |
| C13 | `Kalepy.C13_mirrored_data_eq_mirrored_point` | propext, Classical.choice, Quot.sound |
| C13 | `Kalepy.C13_kde` | propext, Classical.choice, Quot.sound |
| C13 | `Kalepy.C13_all_dims` | propext, Classical.choice, Quot.sound |
| C13 | `Kalepy.C13_kde_dims` | propext, Classical.choice, Quot.sound |
| C14 | `Kalepy.C14_history` | propext, Classical.choice, Quot.sound |
| C14 | `Kalepy.C14_points` | propext, Classical.choice, Quot.sound |
| C15 | `Kalepy.C15_grid` | propext, Classical.choice, Quot.sound |
| C15 | `Kalepy.C15_single` | propext, Classical.choice, Quot.sound |
| C16 | `Kalepy.C16_weights` | propext, Classical.choice, Quot.sound |
| C16 | `Kalepy.C16_refused` | propext, Classical.choice, Quot.sound |
| C16 | `Kalepy.C16_list_refused` | propext, Classical.choice, Quot.sound |
| C16 | `Kalepy.C16_accepted` | propext, Classical.choice, Quot.sound |
| C17 | `Kalepy.C17_unweighted` | propext, Classical.choice, Quot.sound |
| C17 | `Kalepy.C17_bounds` | propext, Classical.choice, Quot.sound |
| C17 | `Kalepy.C17_eq_number_iff` | propext, Classical.choice, Quot.sound |
| C17 | `Kalepy.C17_eq_one_iff` | propext, Classical.choice, Quot.sound |
| C17 | `Kalepy.C17_invariant` | propext, Classical.choice, Quot.sound |
| C18 | `Kalepy.C18_bandwidth` | propext, Classical.choice, Quot.sound |
| C18 | `Kalepy.C18_matrix` | propext, Classical.choice, Quot.sound |
| C18 | `Kalepy.C18_refuses` | propext, Classical.choice, Quot.sound |
| C18 | `Kalepy.C18_factors` | propext, Classical.choice, Quot.sound |
| C18 | `Kalepy.C18_accepted_partial` | propext, Classical.choice, Quot.sound |
| C18 | `Kalepy.C18_refuted` | propext, Classical.choice, Quot.sound |
| C19 | `Kalepy.C19_covariance` | propext, Classical.choice, Quot.sound |
| C19 | `Kalepy.C19_covariance_transform` | propext, Classical.choice, Quot.sound |
| C19 | `Kalepy.C19_kernel_matrix` | propext, Classical.choice, Quot.sound |
| C20 | `Kalepy.C20_list` | propext, Classical.choice, Quot.sound |
| C20 | `Kalepy.C20_bool` | propext, Classical.choice, Quot.sound |
| C20 | `Kalepy.C20_flat` | propext, Classical.choice, Quot.sound |
| C20 | `Kalepy.C20_flat_true` | propext, Classical.choice, Quot.sound |
| C20 | `Kalepy.C20_flat_mixed` | propext, Classical.choice, Quot.sound |
| C20 | `Kalepy.C20_flat_seq` | propext, Classical.choice, Quot.sound |
| C20 | `Kalepy.C20_result` | propext, Classical.choice, Quot.sound |
| C20 | `Kalepy.C20_idempotent` | propext, Classical.choice, Quot.sound |
| C21 | `Kalepy.C21_refuted` | propext, Classical.choice, Quot.sound |
| C21 | `Kalepy.C21_partial` | propext, Classical.choice, Quot.sound |
| C21 | `Kalepy.C21_flat_refuted` | propext, Classical.choice, Quot.sound |
| C21 | `Kalepy.C21_constant` | propext, Classical.choice, Quot.sound |
| C22 | `Kalepy.C22_refuted` | propext, Classical.choice, Quot.sound |
| C22 | `Kalepy.C22_none` | propext, Classical.choice, Quot.sound |
| C22 | `Kalepy.C22_partial` | propext, Classical.choice, Quot.sound |
| C22 | `Kalepy.C22_flat` | propext, Classical.choice, Quot.sound |
| C22 | `Kalepy.C22_flat_given` | propext, Classical.choice, Quot.sound |
| C22 | `Kalepy.C22_all_none` | propext, Classical.choice, Quot.sound |
| C23 | `Kalepy.C23_scale` | propext, Classical.choice, Quot.sound |
| C23 | `Kalepy.C23_uniform_partial` | propext, Classical.choice, Quot.sound |
| C23 | `Kalepy.C23_uniform_nd_partial` | propext, Classical.choice, Quot.sound |
| C23 | `Kalepy.C23_accepted` | propext, Classical.choice, Quot.sound |
| C23 | `Kalepy.C23_refuted` | propext, Classical.choice, Quot.sound |
| C24 | `Kalepy.C24_name` | propext, Classical.choice, Quot.sound |
| C24 | `Kalepy.C24_otherwise` | propext, Classical.choice, Quot.sound |
| C24 | `Kalepy.C24_kinds` | propext, Classical.choice, Quot.sound |
| C24 | `Kalepy.C24_own_name` | propext, Classical.choice, Quot.sound |
| C24 | `Kalepy.C24_all` | propext, Classical.choice, Quot.sound |
| C25 | `Kalepy.C25_never_returns` | propext, Classical.choice, Quot.sound |
| C25 | `Kalepy.C25_refuted` | propext, Classical.choice, Quot.sound |
| C26 | `Kalepy.C26_size` | propext, Classical.choice, Quot.sound |
| C26 | `Kalepy.C26_succeeds` | propext, Classical.choice, Quot.sound |
| C27 | `Kalepy.C27_inside` | propext, Classical.choice, Quot.sound |
| C28 | `Kalepy.C28_keep` | propext, Classical.choice, Quot.sound |
| C29 | `Kalepy.C29_refuted` | propext, Classical.choice, Quot.sound |
| C29 | `Kalepy.C29_never` | propext, Classical.choice, Quot.sound |
| C29 | `Kalepy.C29_conflict` | propext, Classical.choice, Quot.sound |
| C30 | `Kalepy.C30_positive_weight` | propext, Classical.choice, Quot.sound |
| C31 | `Kalepy.C31_finite` | propext, Classical.choice, Quot.sound |
| C31 | `Kalepy.C31_draws` | propext, Classical.choice, Quot.sound |
| C31 | `Kalepy.C31_gives_up` | propext, Classical.choice, Quot.sound |
| C32 | `Kalepy.C32_refuted` | propext, Classical.choice, Quot.sound |
| C32 | `Kalepy.C32_candidates_partial` | propext, Classical.choice, Quot.sound |
| C33 | `Kalepy.C33_refuted` | propext, Classical.choice, Quot.sound |
| C33 | `Kalepy.C33_support_partial` | propext, Classical.choice, Quot.sound |
| C34 | `Kalepy.C34_extrema` | propext, Classical.choice, Quot.sound |
| C34 | `Kalepy.C34_stretch` | propext, Classical.choice, Quot.sound |
| C34 | `Kalepy.C34_covers_partial` | propext, Classical.choice, Quot.sound |
| C34 | `Kalepy.C34_limit_partial` | propext, Classical.choice, Quot.sound |
| C34 | `Kalepy.C34_limit_interval_partial` | propext, Classical.choice, Quot.sound |
| C34 | `Kalepy.C34_batches` | propext, Classical.choice, Quot.sound |
| C34 | `Kalepy.C34_batches_order` | propext, Classical.choice, Quot.sound |
| C34 | `Kalepy.C34_int_refuted` | propext, Classical.choice, Quot.sound |
| C35 | `Kalepy.C35_quantiles` | propext, Classical.choice, Quot.sound |
| C35 | `Kalepy.C35_min_partial` | propext, Classical.choice, Quot.sound |
| C35 | `Kalepy.C35_min_refuted` | propext, Classical.choice, Quot.sound |
| C35 | `Kalepy.C35_rescale` | propext, Classical.choice, Quot.sound |
| C35 | `Kalepy.C35_order_partial` | propext, Quot.sound |
| C35 | `Kalepy.C35_order_refuted` | propext, Classical.choice, Quot.sound |
| C35 | `Kalepy.C35_iqrange` | propext, Classical.choice, Quot.sound |
| C36 | `Kalepy.C36_midpoints` | propext, Classical.choice, Quot.sound |
| C36 | `Kalepy.C36_midpoints_increasing` | propext, Classical.choice, Quot.sound |
| C36 | `Kalepy.C36_short` | propext, Quot.sound |
| C36 | `Kalepy.C36_midpoints_log` | propext, Classical.choice, Quot.sound |
| C37 | `Kalepy.C37_subdivide_partial` | propext, Classical.choice, Quot.sound |
| C37 | `Kalepy.C37_increasing_partial` | propext, Classical.choice, Quot.sound |
| C37 | `Kalepy.C37_zero` | propext, Quot.sound |
| C37 | `Kalepy.C37_refuted` | propext, Classical.choice, Quot.sound |
| C38 | `Kalepy.C38_mass_eq` | propext, Classical.choice, Quot.sound |
| C38 | `Kalepy.C38_mass_sum` | propext, Classical.choice, Quot.sound |
| C38 | `Kalepy.C38_mass_nonneg` | propext, Classical.choice, Quot.sound |
| C38 | `Kalepy.C38_mass_linear` | propext, Classical.choice, Quot.sound |
| C38 | `Kalepy.C38_mass_const` | propext, Classical.choice, Quot.sound |
| C38 | `Kalepy.C38_mismatch` | propext, Classical.choice, Quot.sound |
| C39 | `Kalepy.C39_cumtrapz_eq` | propext, Classical.choice, Quot.sound |
| C39 | `Kalepy.C39_cumtrapz_lower_face` | propext, Classical.choice, Quot.sound |
| C39 | `Kalepy.C39_cumtrapz_mono` | propext, Classical.choice, Quot.sound |
| C39 | `Kalepy.C39_cumtrapz_last` | propext, Classical.choice, Quot.sound |
| C39 | `Kalepy.C39_cumtrapz_axis_partial` | propext, Classical.choice, Quot.sound |
| C39 | `Kalepy.C39_axis_refuted` | propext, Classical.choice, Quot.sound |
| C39 | `Kalepy.C39_axis_prepend` | propext, Classical.choice, Quot.sound |
| C39 | `Kalepy.C39_axis_1d` | propext, Classical.choice, Quot.sound |
| C40 | `Kalepy.C40_cumsum_prefix` | propext, Classical.choice, Quot.sound |
| C40 | `Kalepy.C40_cumsum_axis` | propext, Classical.choice, Quot.sound |
| C41 | `Kalepy.C41_centroid_inside` | propext, Classical.choice, Quot.sound |
| C41 | `Kalepy.C41_centroid_exact` | propext, Classical.choice, Quot.sound |
| C42 | `Kalepy.C42_inside` | propext, Classical.choice, Quot.sound |
| C42 | `Kalepy.C42_outside_partial` | propext, Classical.choice, Quot.sound |
| C42 | `Kalepy.C42_complement_1d` | propext, Classical.choice, Quot.sound |
| C42 | `Kalepy.C42_outside_refuted` | propext, Classical.choice, Quot.sound |
| C42 | `Kalepy.C42_none_rows` | propext, Quot.sound |
| C43 | `Kalepy.C43_flatten` | propext, Classical.choice, Quot.sound |
| C43 | `Kalepy.C43_flatlen` | propext, Quot.sound |
| C43 | `Kalepy.C43_really1d` | propext, Quot.sound |
| C43 | `Kalepy.C43_isjagged_partial` | propext, Quot.sound |
| C43 | `Kalepy.C43_isjagged_refuted` | propext, Quot.sound |
| C44 | `Kalepy.C44_counted_once` | propext, Classical.choice, Quot.sound |
| C44 | `Kalepy.C44_counts` | propext, Classical.choice, Quot.sound |
| C44 | `Kalepy.C44_total` | propext, Classical.choice, Quot.sound |
| C44 | `Kalepy.C44_density` | propext, Classical.choice, Quot.sound |
| C45 | `Kalepy.C45_edges` | propext, Classical.choice, Quot.sound |
| C45 | `Kalepy.C45_covers` | propext, Classical.choice, Quot.sound |
| C45 | `Kalepy.C45_succeeds` | propext, Classical.choice, Quot.sound |
| C45 | `Kalepy.C45_succeeds_extrema` | propext, Classical.choice, Quot.sound |
| C45 | `Kalepy.C45_succeeds_iff` | propext, Classical.choice, Quot.sound |
| C45 | `Kalepy.C45_identical` | propext, Classical.choice, Quot.sound |
| C46 | `Kalepy.C46_samples_in_grid` | propext, Classical.choice, Quot.sound |
| C46 | `Kalepy.C46_sample_grid` | propext, Classical.choice, Quot.sound |
| C47 | `Kalepy.C47_empty_bins_not_sampled` | propext, Classical.choice, Quot.sound |
| C47 | `Kalepy.C48_bin_probability` | propext, Classical.choice, Quot.sound |
| C48 | `Kalepy.C48_bin_probability` | propext, Classical.choice, Quot.sound |
| C49 | `Kalepy.C49_refuted` | propext, Classical.choice, Quot.sound |
| C49 | `Kalepy.C49_position_partial` | propext, Classical.choice, Quot.sound |
| C49 | `Kalepy.C49_exact_bin_partial` | propext, Classical.choice, Quot.sound |
| C49 | `Kalepy.C49_law` | propext, Classical.choice, Quot.sound |
| C50 | `Kalepy.C50_outlier_mass_conserved` | propext, Classical.choice, Quot.sound |
| C50 | `Kalepy.C50_nsamp_refused` | propext, Classical.choice, Quot.sound |
| C51 | `Kalepy.C51_outliers_where` | propext, Classical.choice, Quot.sound |
| C52 | `Kalepy.C52_unravel_bijective` | propext, Classical.choice, Quot.sound |
| C52 | `Kalepy.C52_flat_lookup` | propext, Classical.choice, Quot.sound |
| C53 | `Kalepy.C53_number_of_samples` | propext, Classical.choice, Quot.sound |
| C54 | `Kalepy.C54_refuted` | propext, Classical.choice, Quot.sound |
| C54 | `Kalepy.C54_scalars_partial` | propext, Classical.choice, Quot.sound |
| C55 | `Kalepy.C55_levels_partial` | propext, Classical.choice, Quot.sound |
| C55 | `Kalepy.C55_mass_partial` | propext, Classical.choice, Quot.sound |
| C55 | `Kalepy.C55_zero` | propext, Classical.choice, Quot.sound |
| C55 | `Kalepy.C55_refuted` | propext, Classical.choice, Quot.sound |
| C56 | `Kalepy.C56_limits_partial` | propext, Classical.choice, Quot.sound |
| C56 | `Kalepy.C56_order_partial` | propext, Classical.choice, Quot.sound |
| C56 | `Kalepy.C56_grow_partial` | propext, Classical.choice, Quot.sound |
| C56 | `Kalepy.C56_given` | propext, Classical.choice, Quot.sound |
| C56 | `Kalepy.C56_kde_data` | propext, Classical.choice, Quot.sound |
| C56 | `Kalepy.C56_refuted` | propext, Classical.choice, Quot.sound |
| C57 | `Kalepy.C57_bands` | propext, Classical.choice, Quot.sound |
| C57 | `Kalepy.C57_content` | propext, Classical.choice, Quot.sound |
| C57 | `Kalepy.C57_content_weighted` | propext, Classical.choice, Quot.sound |
| C58 | `Kalepy.C58_pad` | propext, Classical.choice, Quot.sound |
| C58 | `Kalepy.C58_match` | propext, Classical.choice, Quot.sound |
| C58 | `Kalepy.C58_prep` | propext, Classical.choice, Quot.sound |
| C59 | `Kalepy.C59_curve` | propext, Quot.sound |
| C59 | `Kalepy.C59_renormalized` | propext, Classical.choice, Quot.sound |
| C59 | `Kalepy.C59_mismatch` | propext, Quot.sound |
| C60 | `Kalepy.C60_target_partial` | propext, Classical.choice, Quot.sound |
| C60 | `Kalepy.C60_below` | propext, Classical.choice, Quot.sound |
| C60 | `Kalepy.C60_refuted` | propext, Classical.choice, Quot.sound |
| C60 | `Kalepy.C60_lengths` | propext, Classical.choice, Quot.sound |
| C61 | `Kalepy.C61_cdf_partial` | propext, Classical.choice, Quot.sound |
| C61 | `Kalepy.C61_refuted` | propext, Classical.choice, Quot.sound |
| C61 | `Kalepy.C61_notImplemented` | propext, Classical.choice, Quot.sound |
| C62 | `Kalepy.C62_rem_add_cov` | propext, Classical.choice, Quot.sound |
| C62 | `Kalepy.C62_add_rem_cov` | propext, Classical.choice, Quot.sound |
| C62 | `Kalepy.C62_add_cov_is_root` | propext, Classical.choice, Quot.sound |
| C62 | `Kalepy.C62_add_cov_not_posDef` | propext, Classical.choice, Quot.sound |
| C63 | `Kalepy.C63_cdf` | propext, Classical.choice, Quot.sound |
| C63 | `Kalepy.C63_inverse` | propext, Classical.choice, Quot.sound |
| C64 | `Kalepy.C64_refuted` | propext, Classical.choice, Quot.sound |
| C64 | `Kalepy.C64_partial` | propext, Classical.choice, Quot.sound |
| C64 | `Kalepy.C64_pair` | propext, Classical.choice, Quot.sound |
| C64 | `Kalepy.C64_actual` | propext, Classical.choice, Quot.sound |
| C65 | `Kalepy.C65_partial` | propext, Classical.choice, Quot.sound |
| C65 | `Kalepy.C65_truncated` | propext, Classical.choice, Quot.sound |
| C65 | `Kalepy.C65_refuted` | propext, Classical.choice, Quot.sound |
| C66 | `Kalepy.C66_bootstrap` | propext, Classical.choice, Quot.sound |
| C66 | `Kalepy.C66_equal` | propext, Classical.choice, Quot.sound |
| C67 | `Kalepy.C67_quantiles` | propext, Classical.choice, Quot.sound |
| C67 | `Kalepy.C67_default` | propext, Classical.choice, Quot.sound |
| C67 | `Kalepy.C67_inverse` | propext, Classical.choice, Quot.sound |
| C68 | `Kalepy.C68_unweighted_partial` | propext, Quot.sound |
| C68 | `Kalepy.C68_refuted` | propext, Classical.choice, Quot.sound |
| C69 | `Kalepy.C69_partial` | propext, Classical.choice, Quot.sound |
| C69 | `Kalepy.C69_actual` | propext, Classical.choice, Quot.sound |
| C69 | `Kalepy.C69_refuted` | propext, Classical.choice, Quot.sound |
| C70 | `Kalepy.C70_legend` | propext, Classical.choice, Quot.sound |
| C71 | `Kalepy.C71_scatter` | propext, Classical.choice, Quot.sound |
| C71 | `Kalepy.C71_alpha` | propext, Classical.choice, Quot.sound |
| C72 | `Kalepy.C72_partial` | propext, Classical.choice, Quot.sound |
| C72 | `Kalepy.C72_refuted` | propext, Classical.choice, Quot.sound |
| C73 | `Kalepy.C73_partial` | propext, Classical.choice, Quot.sound |
| C73 | `Kalepy.C73_refuted` | propext, Classical.choice, Quot.sound |
| C74 | `Kalepy.C74_weights_partial` | none |
| C74 | `Kalepy.C74_refuted` | propext |
| C74 | `Kalepy.C74_refuted_stored` | none |
| C74 | `Kalepy.C74_errors` | none |
| C75 | `Kalepy.C75_origin` | propext |
| C76 | `Kalepy.C76_formula_partial` | propext, Classical.choice, Quot.sound |
| C76 | `Kalepy.C76_constant_partial` | propext, Classical.choice, Quot.sound |
| C76 | `Kalepy.C76_positions` | propext, Classical.choice, Quot.sound |
| C76 | `Kalepy.C76_refuted` | propext, Classical.choice, Quot.sound |
| C76 | `Kalepy.C76_unit_refuted` | propext, Classical.choice, Quot.sound |
| C77 | `Kalepy.C77_weights_partial` | propext, Classical.choice, Quot.sound |
| C77 | `Kalepy.C77_refuted` | propext, Classical.choice, Quot.sound |
| C78 | `Kalepy.C78_log` | propext, Classical.choice, Quot.sound |
| C78 | `Kalepy.C78_num` | propext, Classical.choice, Quot.sound |
| C78 | `Kalepy.C78_errors` | propext, Classical.choice, Quot.sound |
| C78 | `Kalepy.C78_bins` | propext, Classical.choice, Quot.sound |
| C79 | `Kalepy.C79_evaluate` | propext, Classical.choice, Quot.sound |
| C80 | `Kalepy.C80_grid` | propext, Classical.choice, Quot.sound |
| C81 | `Kalepy.C81_inside_partial` | propext, Classical.choice, Quot.sound |
| C81 | `Kalepy.C81_gaussian` | propext, Classical.choice, Quot.sound |
| C81 | `Kalepy.C81_vectors` | propext, Classical.choice, Quot.sound |
| C81 | `Kalepy.C81_sphere` | propext, Classical.choice, Quot.sound |
| C81 | `Kalepy.C81_refuted` | propext, Classical.choice, Quot.sound |
| C82 | `Kalepy.C82_params_reflect` | propext, Classical.choice, Quot.sound |
| C83 | `Kalepy.C83_default_points_params` | propext, Classical.choice, Quot.sound |
| C83 | `Kalepy.C83_default_points` | propext, Classical.choice, Quot.sound |
| C83 | `Kalepy.C83_scalar` | propext, Classical.choice, Quot.sound |
| C84 | `Kalepy.C84_partial` | propext, Classical.choice, Quot.sound |
| C84 | `Kalepy.C84_refuted` | propext, Classical.choice, Quot.sound |
| C84 | `Kalepy.exists_randomNumbers` | propext, Classical.choice, Quot.sound |
| C84 | `Kalepy.C84_iid` | propext, Classical.choice, Quot.sound |
| C84 | `Kalepy.C84_iff` | propext, Classical.choice, Quot.sound |
| C85 | `Kalepy.C85_moments` | propext, Classical.choice, Quot.sound |
| C85 | `Kalepy.C85_estimated` | propext, Classical.choice, Quot.sound |
| C85 | `Kalepy.C85_samples` | propext, Classical.choice, Quot.sound |
| C86 | `Kalepy.C86_partial` | propext, Classical.choice, Quot.sound |
| C86 | `Kalepy.C86_same_covariance` | propext, Classical.choice, Quot.sound |
| C86 | `Kalepy.C86_wrong_covariance` | propext, Classical.choice, Quot.sound |
| C86 | `Kalepy.C86_refuted` | propext, Classical.choice, Quot.sound |
| C87 | `Kalepy.C84_iid` | propext, Classical.choice, Quot.sound |
| C88 | `Kalepy.C88_heights` | propext, Classical.choice, Quot.sound |
| C88 | `Kalepy.C88_succeeds` | propext, Classical.choice, Quot.sound |
| C89 | `Kalepy.C89_partial` | propext, Classical.choice, Quot.sound |
| C89 | `Kalepy.C89_rule` | propext, Classical.choice, Quot.sound |
| C89 | `Kalepy.C89_value` | propext, Classical.choice, Quot.sound |
| C89 | `Kalepy.C89_refuted` | propext, Classical.choice, Quot.sound |
| C90 | `Kalepy.C90_points` | propext, Classical.choice, Quot.sound |
| C90 | `Kalepy.C90_position` | propext, Classical.choice, Quot.sound |
| C91 | `Kalepy.C91_partial` | propext, Classical.choice, Quot.sound |
| C91 | `Kalepy.C91_actual` | propext, Classical.choice, Quot.sound |
| C91 | `Kalepy.C91_refuted` | propext, Classical.choice, Quot.sound |
| C92 | `Kalepy.C92_partial` | propext, Classical.choice, Quot.sound |
| C92 | `Kalepy.C92_fails` | propext, Classical.choice, Quot.sound |
| C92 | `Kalepy.C92_refuted` | propext, Classical.choice, Quot.sound |
| C93 | `Kalepy.C93_partial` | propext, Classical.choice, Quot.sound |
| C93 | `Kalepy.C93_refuted` | propext, Classical.choice, Quot.sound |
| C94 | `Kalepy.C94_partial` | propext, Classical.choice, Quot.sound |
| C94 | `Kalepy.C94_fails` | propext, Classical.choice, Quot.sound |
| C94 | `Kalepy.C94_two` | propext, Classical.choice, Quot.sound |
| C94 | `Kalepy.C94_refuted` | propext, Classical.choice, Quot.sound |
| C95 | `Kalepy.C95_partial` | propext, Classical.choice, Quot.sound |
| C95 | `Kalepy.C95_refuted` | propext, Classical.choice, Quot.sound |
| C96 | `Kalepy.C96_partial` | propext, Classical.choice, Quot.sound |
| C96 | `Kalepy.C96_fails` | propext, Classical.choice, Quot.sound |
| C96 | `Kalepy.C96_refuted` | propext, Classical.choice, Quot.sound |
| C97 | `Kalepy.C97_partial` | propext, Classical.choice, Quot.sound |
| C97 | `Kalepy.C97_rule` | propext, Classical.choice, Quot.sound |
| C97 | `Kalepy.C97_always` | propext, Classical.choice, Quot.sound |
| C97 | `Kalepy.C97_refuted` | propext, Classical.choice, Quot.sound |
| C98 | `Kalepy.C98_partial` | propext, Classical.choice, Quot.sound |
| C98 | `Kalepy.C98_refuted` | propext, Classical.choice, Quot.sound |
| C99 | `Kalepy.C99_area` | propext, Classical.choice, Quot.sound |
| C100 | `Kalepy.C100_components` | propext, Classical.choice, Quot.sound |
| C101 | `Kalepy.C101_same_scale` | propext, Classical.choice, Quot.sound |
| C101 | `Kalepy.C101_reflect` | propext, Classical.choice, Quot.sound |
| C102 | `Kalepy.C102_partial` | propext, Classical.choice, Quot.sound |
| C102 | `Kalepy.C102_fails` | propext, Classical.choice, Quot.sound |
| C102 | `Kalepy.C102_refuted` | propext, Classical.choice, Quot.sound |
| C103 | `Kalepy.C103_partial` | propext, Classical.choice, Quot.sound |
| C103 | `Kalepy.C103_refuted` | propext, Classical.choice, Quot.sound |
| C104 | `Kalepy.C104_panels` | propext, Classical.choice, Quot.sound |
| C104 | `Kalepy.C104_default` | propext, Classical.choice, Quot.sound |
| C105 | `Kalepy.C105_succeeds` | propext, Classical.choice, Quot.sound |
| C105 | `Kalepy.C105_default` | propext, Classical.choice, Quot.sound |
| C105 | `Kalepy.C105_reflect` | propext, Classical.choice, Quot.sound |
| C106 | `Kalepy.C106_succeeds` | propext, Classical.choice, Quot.sound |
| C106 | `Kalepy.C106_drawn` | propext, Classical.choice, Quot.sound |
| C106 | `Kalepy.C106_partial` | propext, Classical.choice, Quot.sound |
| C106 | `Kalepy.C106_refuted` | propext, Classical.choice, Quot.sound |
| C107 | `Kalepy.C107_data` | propext, Classical.choice, Quot.sound |
| C107 | `Kalepy.C107_kde` | propext, Classical.choice, Quot.sound |
| C107 | `Kalepy.C107_succeeds` | propext, Classical.choice, Quot.sound |
| C107 | `Kalepy.C107_default` | propext, Classical.choice, Quot.sound |
| C107 | `Kalepy.C107_kde_default` | propext, Classical.choice, Quot.sound |
| C108 | `Kalepy.C108_partial` | none |
| C108 | `Kalepy.C108_fails` | none |
| C108 | `Kalepy.C108_refuted` | none |
| C109 | `Kalepy.C109_partial` | propext, Classical.choice, Quot.sound |
| C109 | `Kalepy.C109_exact` | propext, Classical.choice, Quot.sound |
| C109 | `Kalepy.C109_unweighted` | propext, Classical.choice, Quot.sound |
| C109 | `Kalepy.C109_strictly` | propext, Classical.choice, Quot.sound |
| C109 | `Kalepy.C109_refuted` | propext, Classical.choice, Quot.sound |
| C110 | `Kalepy.C110_default` | propext, Classical.choice, Quot.sound |
| C111 | `Kalepy.C111_law` | propext, Classical.choice, Quot.sound |
| C111 | `Kalepy.C111_density` | propext, Classical.choice, Quot.sound |
| C112 | `Kalepy.C112_frequencies` | propext, Classical.choice, Quot.sound |
| C112 | `Kalepy.C112_partial` | propext, Classical.choice, Quot.sound |
| C112 | `Kalepy.C112_iff` | propext, Classical.choice, Quot.sound |
| C112 | `Kalepy.C112_refuted` | propext, Classical.choice, Quot.sound |
| C113 | `Kalepy.C113_partial` | propext, Classical.choice, Quot.sound |
| C113 | `Kalepy.C113_interpolated` | propext, Classical.choice, Quot.sound |
| C113 | `Kalepy.C113_frequencies` | propext, Classical.choice, Quot.sound |
| C113 | `Kalepy.C113_interpolated_frequencies` | propext, Classical.choice, Quot.sound |
| C113 | `Kalepy.C113_order` | propext, Classical.choice, Quot.sound |
| C113 | `Kalepy.C113_refuted` | propext, Classical.choice, Quot.sound |
| C114 | `Kalepy.C114_partial` | propext, Classical.choice, Quot.sound |
| C114 | `Kalepy.C114_iff` | propext, Classical.choice, Quot.sound |
| C114 | `Kalepy.C114_refuted` | propext, Classical.choice, Quot.sound |
| C115 | `Kalepy.C115_partial` | propext, Classical.choice, Quot.sound |
| C115 | `Kalepy.C115_refuted` | propext, Classical.choice, Quot.sound |
| C116 | `Kalepy.C116_partial` | propext, Classical.choice, Quot.sound |
| C116 | `Kalepy.C116_fails` | propext, Classical.choice, Quot.sound |
| C116 | `Kalepy.C116_refuted` | propext, Classical.choice, Quot.sound |
| C116 | `Kalepy.C116_square_wrong` | propext, Classical.choice, Quot.sound |
| C117 | `Kalepy.C117_partial` | propext, Classical.choice, Quot.sound |
| C117 | `Kalepy.C117_refuted` | propext, Classical.choice, Quot.sound |
| C117 | `Kalepy.C117_stats_refuted` | propext, Classical.choice, Quot.sound |
| C118 | `Kalepy.C118_partial` | propext, Classical.choice, Quot.sound |
| C118 | `Kalepy.C118_refuted` | propext, Classical.choice, Quot.sound |
| C118 | `Kalepy.C118_int_refuted` | propext, Classical.choice, Quot.sound |
| C119 | `Kalepy.C119_partial` | propext, Classical.choice, Quot.sound |
| C119 | `Kalepy.C119_actual` | propext, Classical.choice, Quot.sound |
| C119 | `Kalepy.C119_refuted` | propext, Classical.choice, Quot.sound |
| C120 | `Kalepy.C120_partial` | propext, Classical.choice, Quot.sound |
| C120 | `Kalepy.C120_refuted` | none |
| C120 | `Kalepy.C120_loc_refuted` | propext, Classical.choice, Quot.sound |
| C121 | `Kalepy.C121_partial` | propext, Classical.choice, Quot.sound |
| C121 | `Kalepy.C121_refuted` | propext, Classical.choice, Quot.sound |
| C121 | `Kalepy.C121_nbshow` | propext, Classical.choice, Quot.sound |
| C122 | `Kalepy.C122_partial` | propext, Classical.choice, Quot.sound |
| C122 | `Kalepy.C122_hue` | propext, Classical.choice, Quot.sound |
| C122 | `Kalepy.C122_refuted` | propext, Classical.choice, Quot.sound |
| C122 | `Kalepy.C122_invert` | propext, Classical.choice, Quot.sound |
| C123 | `Kalepy.C123_consistent` | propext, Classical.choice, Quot.sound |
| C123 | `Kalepy.C123_named` | propext, Classical.choice, Quot.sound |
| C123 | `Kalepy.C123_default` | propext, Classical.choice, Quot.sound |
| C123 | `Kalepy.C123_given_covariance` | propext, Classical.choice, Quot.sound |
| C124 | `Kalepy.C124_consistent` | propext, Classical.choice, Quot.sound |
| C124 | `Kalepy.C124_default` | propext, Classical.choice, Quot.sound |
| C124 | `Kalepy.C124_samples` | propext, Classical.choice, Quot.sound |
| C124 | `Kalepy.C124_reflect` | propext, Classical.choice, Quot.sound |
| C124 | `Kalepy.C124_reflect_samples` | propext, Classical.choice, Quot.sound |
| C125 | `Kalepy.C125_partial` | propext, Classical.choice, Quot.sound |
| C125 | `Kalepy.C125_refuted` | propext, Classical.choice, Quot.sound |
| C125 | `Kalepy.C125_corner_low` | propext, Classical.choice, Quot.sound |
| C125 | `Kalepy.C125_corner` | propext, Classical.choice, Quot.sound |
| C126 | `Kalepy.C126_half` | propext, Classical.choice, Quot.sound |
| C126 | `Kalepy.C126_low` | propext, Classical.choice, Quot.sound |
| C126 | `Kalepy.C126_corner` | propext, Classical.choice, Quot.sound |
| C127 | `Kalepy.C127_partial` | propext, Classical.choice, Quot.sound |
| C127 | `Kalepy.C127_usual_partial` | propext, Classical.choice, Quot.sound |
| C127 | `Kalepy.C127_refuted` | propext, Classical.choice, Quot.sound |
| C128 | `Kalepy.C128_partial` | propext, Quot.sound |
| C128 | `Kalepy.C128_rows` | propext, Classical.choice, Quot.sound |
| C128 | `Kalepy.C128_refuted` | propext, Quot.sound |
| C129 | `Kalepy.C129_partial` | propext |
| C129 | `Kalepy.C129_refuted` | propext |
| C129 | `Kalepy.C129_cut` | propext, Classical.choice, Quot.sound |
| C129 | `Kalepy.C129_cut_close` | propext, Classical.choice, Quot.sound |
| C129 | `Kalepy.C129_contours` | propext, Classical.choice, Quot.sound |
| C129 | `Kalepy.C129_linear` | propext, Classical.choice, Quot.sound |
| C130 | `Kalepy.C130_lines` | propext, Classical.choice, Quot.sound |
| C130 | `Kalepy.C130_orientation` | propext, Classical.choice, Quot.sound |
| C130 | `Kalepy.C130_colors_partial` | propext, Classical.choice, Quot.sound |
| C130 | `Kalepy.C130_refuted` | propext, Classical.choice, Quot.sound |
| C131 | `Kalepy.C131_given` | propext, Classical.choice, Quot.sound |
| C131 | `Kalepy.C131_default` | propext, Classical.choice, Quot.sound |
| C131 | `Kalepy.C131_grid` | propext, Classical.choice, Quot.sound |
| C132 | `Kalepy.C132_regular` | propext, Classical.choice, Quot.sound |
| C132 | `Kalepy.C132_sensitivity` | propext, Classical.choice, Quot.sound |
| C132 | `Kalepy.C132_reflect` | propext, Classical.choice, Quot.sound |
| C132 | `Kalepy.C132_sensitivity_reflect` | propext, Classical.choice, Quot.sound |
| C132 | `Kalepy.C132_mostly` | propext, Classical.choice, Quot.sound |
| C133 | `Kalepy.C133_deviation` | propext, Classical.choice, Quot.sound |
| C134 | `Kalepy.C134_partial` | propext, Classical.choice, Quot.sound |
| C134 | `Kalepy.C134_covariance` | propext, Classical.choice, Quot.sound |
| C134 | `Kalepy.C134_neff` | propext, Classical.choice, Quot.sound |
| C134 | `Kalepy.C134_refuted` | propext, Classical.choice, Quot.sound |
| C135 | `Kalepy.C135_accuracy` | propext, Classical.choice, Quot.sound |
| C135 | `Kalepy.C135_double` | propext, Classical.choice, Quot.sound |
| C135 | `Kalepy.C135_limit` | propext, Classical.choice, Quot.sound |
| C135 | `Kalepy.C135_box` | propext, Classical.choice, Quot.sound |
| C135 | `Kalepy.C135_nonneg` | propext, Classical.choice, Quot.sound |
| C135 | `Kalepy.C135_order` | propext, Classical.choice, Quot.sound |
| C135 | `Kalepy.C135_reflect` | propext, Classical.choice, Quot.sound |
| C135 | `Kalepy.C135_outside` | propext, Classical.choice, Quot.sound |
| C135 | `Kalepy.C135_exact` | propext, Classical.choice, Quot.sound |
| C136 | `Kalepy.C136_samples_in_grid` | propext, Classical.choice, Quot.sound |
| C136 | `Kalepy.C136_choice` | propext, Classical.choice, Quot.sound |
| C136 | `Kalepy.C136_exact` | propext, Classical.choice, Quot.sound |
| C136 | `Kalepy.C136_choice_exact` | propext, Classical.choice, Quot.sound |
| C137 | `Kalepy.C137_partial` | propext, Classical.choice, Quot.sound |
| C137 | `Kalepy.C137_refuted` | propext, Classical.choice, Quot.sound |
| C137 | `Kalepy.C137_three_values` | propext, Classical.choice, Quot.sound |
| C137 | `Kalepy.C137_exact` | propext, Classical.choice, Quot.sound |
| C138 | `Kalepy.C138_partial` | propext, Classical.choice, Quot.sound |
| C138 | `Kalepy.C138_stale` | propext, Classical.choice, Quot.sound |
| C138 | `Kalepy.C138_returned` | propext, Classical.choice, Quot.sound |
| C138 | `Kalepy.C138_refuted` | propext, Classical.choice, Quot.sound |
| C138 | `Kalepy.C138_returned_refuted` | propext, Classical.choice, Quot.sound |
| C139 | `Kalepy.C139_partial` | propext, Classical.choice, Quot.sound |
| C139 | `Kalepy.C139_refuted` | propext, Classical.choice, Quot.sound |
| C139 | `Kalepy.C139_kept` | propext, Classical.choice, Quot.sound |
| C139 | `Kalepy.C139_options` | propext, Classical.choice, Quot.sound |
| C139 | `Kalepy.C139_one_dict` | propext, Classical.choice, Quot.sound |
| C140 | `Kalepy.C140_arrays` | propext, Classical.choice, Quot.sound |
| C140 | `Kalepy.C140_exact` | propext, Classical.choice, Quot.sound |
| C140 | `Kalepy.C140_partial` | propext, Classical.choice, Quot.sound |
| C140 | `Kalepy.C140_refuted` | propext, Classical.choice, Quot.sound |
| C141 | `Kalepy.C141_initial` | propext, Classical.choice, Quot.sound |
| C141 | `Kalepy.C141_partial` | propext, Classical.choice, Quot.sound |
| C141 | `Kalepy.C141_lists` | propext, Classical.choice, Quot.sound |
| C141 | `Kalepy.C141_mass` | propext, Classical.choice, Quot.sound |
| C141 | `Kalepy.C141_bins` | propext, Classical.choice, Quot.sound |
| C141 | `Kalepy.C141_refuted` | propext, Classical.choice, Quot.sound |
| C142 | `Kalepy.C142_exact` | propext, Classical.choice, Quot.sound |
| C142 | `Kalepy.C142_partial` | propext, Classical.choice, Quot.sound |
| C142 | `Kalepy.C142_dist2d_partial` | propext, Classical.choice, Quot.sound |
| C142 | `Kalepy.C142_kde_partial` | propext, Classical.choice, Quot.sound |
| C142 | `Kalepy.C142_default` | propext, Classical.choice, Quot.sound |
| C142 | `Kalepy.C142_toomany` | propext, Classical.choice, Quot.sound |
| C142 | `Kalepy.C142_refuted` | propext, Classical.choice, Quot.sound |
| C143 | `Kalepy.C143_contour` | propext, Classical.choice, Quot.sound |
| C143 | `Kalepy.C143_hist` | propext, Classical.choice, Quot.sound |
| C143 | `Kalepy.C143_off` | propext, Classical.choice, Quot.sound |
| C143 | `Kalepy.C143_lines` | propext, Classical.choice, Quot.sound |
| C143 | `Kalepy.C143_partial` | propext, Classical.choice, Quot.sound |
| C143 | `Kalepy.C143_refuted` | propext, Classical.choice, Quot.sound |
| C144 | `Kalepy.C144_partial` | propext, Classical.choice, Quot.sound |
| C144 | `Kalepy.C144_strict_partial` | propext, Classical.choice, Quot.sound |
| C144 | `Kalepy.C144_refuted` | propext, Classical.choice, Quot.sound |
| C144 | `Kalepy.C144_identical` | propext, Classical.choice, Quot.sound |
| C144 | `Kalepy.C144_succeeds` | propext, Classical.choice, Quot.sound |
| C144 | `Kalepy.C144_succeeds_weights` | propext, Classical.choice, Quot.sound |
| C144 | `Kalepy.C144_exact` | propext, Classical.choice, Quot.sound |
| C145 | `Kalepy.C145_partial` | propext, Classical.choice, Quot.sound |
| C145 | `Kalepy.C145_covariance` | propext, Classical.choice, Quot.sound |
| C145 | `Kalepy.C145_params` | propext, Classical.choice, Quot.sound |
| C145 | `Kalepy.C145_box` | propext, Classical.choice, Quot.sound |
| C145 | `Kalepy.C145_reflect` | propext, Classical.choice, Quot.sound |
| C145 | `Kalepy.C145_points` | propext, Classical.choice, Quot.sound |
| C145 | `Kalepy.C145_refuted` | propext, Classical.choice, Quot.sound |
| C146 | `Kalepy.C146_partial` | propext, Classical.choice, Quot.sound |
| C146 | `Kalepy.C146_reflect` | propext, Classical.choice, Quot.sound |
| C146 | `Kalepy.C146_none` | propext, Classical.choice, Quot.sound |
| C146 | `Kalepy.C146_covariance` | propext, Classical.choice, Quot.sound |
| C146 | `Kalepy.C146_plain` | propext, Classical.choice, Quot.sound |
| C146 | `Kalepy.C146_share` | propext, Classical.choice, Quot.sound |
| C146 | `Kalepy.C146_refuted` | propext, Classical.choice, Quot.sound |
| C147 | `Kalepy.C147_partial` | propext, Classical.choice, Quot.sound |
| C147 | `Kalepy.C147_pdf` | propext, Classical.choice, Quot.sound |
| C147 | `Kalepy.C147_params` | propext, Classical.choice, Quot.sound |
| C147 | `Kalepy.C147_resample` | propext, Classical.choice, Quot.sound |
| C147 | `Kalepy.C147_bool` | propext, Classical.choice, Quot.sound |
| C147 | `Kalepy.C147_refuted` | propext, Classical.choice, Quot.sound |
| C148 | `Kalepy.C148_partial` | propext, Classical.choice, Quot.sound |
| C148 | `Kalepy.C148_refuted` | propext, Classical.choice, Quot.sound |
| C149 | `Kalepy.C149_cdf` | propext, Classical.choice, Quot.sound |
| C149 | `Kalepy.C149_exact` | propext, Classical.choice, Quot.sound |
| C150 | `Kalepy.C150_cdf_points` | propext, Classical.choice, Quot.sound |
| C151 | `Kalepy.C151_bias` | propext, Classical.choice, Quot.sound |
| C151 | `Kalepy.C151_lipschitz` | propext, Classical.choice, Quot.sound |
| C151 | `Kalepy.C151_nearTangent` | propext, Classical.choice, Quot.sound |
| C152 | `Kalepy.C152_labels` | propext, Classical.choice, Quot.sound |
| C152 | `Kalepy.C152_every_parameter` | propext, Classical.choice, Quot.sound |
| C152 | `Kalepy.C152_sides` | propext, Classical.choice, Quot.sound |
| C152 | `Kalepy.C152_errors` | propext, Classical.choice, Quot.sound |
| C152 | `Kalepy.C152_defaults` | propext, Classical.choice, Quot.sound |
| C153 | `Kalepy.C153_alone_partial` | propext, Classical.choice, Quot.sound |
| C153 | `Kalepy.C153_caller_partial` | propext, Classical.choice, Quot.sound |
| C153 | `Kalepy.C153_shared_refuted` | propext, Classical.choice, Quot.sound |
| C153 | `Kalepy.C153_integers_refuted` | propext, Classical.choice, Quot.sound |
| C154 | `Kalepy.C154_exact` | propext, Classical.choice, Quot.sound |
| C154 | `Kalepy.C154_midpoints` | propext, Classical.choice, Quot.sound |
| C154 | `Kalepy.C154_subdivide` | propext, Classical.choice, Quot.sound |
| C154 | `Kalepy.C154_linear` | propext, Classical.choice, Quot.sound |
| C154 | `Kalepy.C154_linear_strict` | propext, Classical.choice, Quot.sound |
| C154 | `Kalepy.C154_bins` | propext, Classical.choice, Quot.sound |
| C154 | `Kalepy.C154_bins_strict` | propext, Classical.choice, Quot.sound |
| C154 | `Kalepy.C154_log_partial` | propext, Classical.choice, Quot.sound |
| C154 | `Kalepy.C154_log_refuted` | propext, Classical.choice, Quot.sound |
| C155 | `Kalepy.C155_variance` | propext, Classical.choice, Quot.sound |
| C155 | `Kalepy.C155_error` | propext, Classical.choice, Quot.sound |
| C156 | `Kalepy.C156_accuracy` | propext, Classical.choice, Quot.sound |
| C156 | `Kalepy.C156_double` | propext, Classical.choice, Quot.sound |
| C156 | `Kalepy.C156_nonneg` | propext, Classical.choice, Quot.sound |
| C156 | `Kalepy.C156_vanishes` | propext, Classical.choice, Quot.sound |
| C157 | `Kalepy.C157_samples_in_grid` | propext, Classical.choice, Quot.sound |
| C157 | `Kalepy.C157_choice` | propext, Classical.choice, Quot.sound |
| C157 | `Kalepy.C157_lost` | propext, Classical.choice, Quot.sound |
| C158 | `Kalepy.C158_matrix` | propext, Classical.choice, Quot.sound |
| C158 | `Kalepy.C158_underflow` | propext, Classical.choice, Quot.sound |
| C158 | `Kalepy.C158_box` | propext, Classical.choice, Quot.sound |
| C159 | `Kalepy.C159_bimodal` | propext, Classical.choice, Quot.sound |
| C159 | `Kalepy.C159_edge` | propext, Classical.choice, Quot.sound |
| C159 | `Kalepy.C159_reseeds` | propext, Classical.choice, Quot.sound |
| C159 | `Kalepy.C159_sequential` | propext, Classical.choice, Quot.sound |
| C159 | `Kalepy.C159_truth` | propext, Classical.choice, Quot.sound |
| C159 | `Kalepy.C159_points` | propext, Classical.choice, Quot.sound |
| C159 | `Kalepy.C159_noise` | propext, Classical.choice, Quot.sound |
| C159 | `Kalepy.C159_noise_errors` | propext, Classical.choice, Quot.sound |
| C159 | `Kalepy.C159_range` | propext, Classical.choice, Quot.sound |
| C159 | `Kalepy.C159_covariance` | propext, Classical.choice, Quot.sound |
| C160 | `Kalepy.C160_sorted` | propext, Classical.choice, Quot.sound |
| C160 | `Kalepy.C160_covary` | propext, Classical.choice, Quot.sound |
| C160 | `Kalepy.C160_positive2` | propext, Classical.choice, Quot.sound |
| C160 | `Kalepy.C160_positive3` | propext, Classical.choice, Quot.sound |
| C161 | `Kalepy.C161_no_overflow` | propext, Classical.choice, Quot.sound |
| C161 | `Kalepy.C161_double` | propext, Classical.choice, Quot.sound |
| C161 | `Kalepy.C161_nonneg` | propext, Classical.choice, Quot.sound |
| C162 | `Kalepy.C162_bound` | propext, Classical.choice, Quot.sound |
| C162 | `Kalepy.C162_many` | propext, Classical.choice, Quot.sound |
| C162 | `Kalepy.C162_one_boundary` | propext, Classical.choice, Quot.sound |
| C162 | `Kalepy.C162_one_boundary_many` | propext, Classical.choice, Quot.sound |
| C162 | `Kalepy.C162_can_fail` | propext, Classical.choice, Quot.sound |
| C162 | `Kalepy.C162_fails` | propext, Classical.choice, Quot.sound |
| C162 | `Kalepy.C162_large_fails` | propext, Classical.choice, Quot.sound |
| C163 | `Kalepy.C163_frequencies` | propext, Classical.choice, Quot.sound |
| C163 | `Kalepy.C163_total` | propext, Classical.choice, Quot.sound |
| C163 | `Kalepy.C163_consistent` | propext, Classical.choice, Quot.sound |
| C163 | `Kalepy.C163_density` | propext, Classical.choice, Quot.sound |
| C164 | `Kalepy.C164_repeated` | propext, Classical.choice, Quot.sound |
| C164 | `Kalepy.C164_partial` | propext, Classical.choice, Quot.sound |
| C164 | `Kalepy.C164_refuted` | propext, Classical.choice, Quot.sound |
| C165 | `Kalepy.C165_poisson` | propext, Classical.choice, Quot.sound |
| C166 | `Kalepy.C166_succeeds` | propext, Classical.choice, Quot.sound |
| C166 | `Kalepy.C166_mean` | propext, Classical.choice, Quot.sound |
| C166 | `Kalepy.C166_log` | propext, Classical.choice, Quot.sound |
| C166 | `Kalepy.C166_order` | propext, Classical.choice, Quot.sound |
| C166 | `Kalepy.C166_range` | propext, Classical.choice, Quot.sound |
| C167 | `Kalepy.C167_whitens` | propext, Classical.choice, Quot.sound |
| C167 | `Kalepy.C167_partial` | propext, Classical.choice, Quot.sound |
| C167 | `Kalepy.C167_fails` | propext, Classical.choice, Quot.sound |
| C167 | `Kalepy.C167_refuted` | propext, Classical.choice, Quot.sound |
| C168 | `Kalepy.C168_trapz_partial` | propext, Classical.choice, Quot.sound |
| C168 | `Kalepy.C168_all` | propext, Classical.choice, Quot.sound |
| C168 | `Kalepy.C168_trapz_last` | propext, Classical.choice, Quot.sound |
| C168 | `Kalepy.C168_refuted` | propext, Classical.choice, Quot.sound |
| C168 | `Kalepy.C168_mass_partial` | propext, Classical.choice, Quot.sound |
| C168 | `Kalepy.C168_mass_all` | propext, Classical.choice, Quot.sound |
| C168 | `Kalepy.C168_mass_negative` | propext, Classical.choice, Quot.sound |
| C168 | `Kalepy.C168_mass_refuted` | propext, Classical.choice, Quot.sound |
| C168 | `Kalepy.C168_sum` | propext, Classical.choice, Quot.sound |
| C169 | `Kalepy.C169_resample_partial` | propext, Classical.choice, Quot.sound |
| C169 | `Kalepy.C169_resample_single` | propext, Classical.choice, Quot.sound |
| C169 | `Kalepy.C169_grid_partial` | propext, Classical.choice, Quot.sound |
| C169 | `Kalepy.C169_grid_single` | propext, Classical.choice, Quot.sound |
| C169 | `Kalepy.C169_outliers_partial` | propext, Classical.choice, Quot.sound |
| C169 | `Kalepy.C169_outliers_single` | propext, Classical.choice, Quot.sound |
| C169 | `Kalepy.C169_refuted` | propext, Classical.choice, Quot.sound |
| C170 | `Kalepy.C170_combine` | propext, Classical.choice, Quot.sound |
| C170 | `Kalepy.C170_others` | propext, Classical.choice, Quot.sound |
| C170 | `Kalepy.C170_law` | propext, Classical.choice, Quot.sound |
| C170 | `Kalepy.C170_kept` | propext, Classical.choice, Quot.sound |
| C170 | `Kalepy.C170_pdf` | propext, Classical.choice, Quot.sound |
| C171 | `Kalepy.C171_partial` | propext, Classical.choice, Quot.sound |
| C171 | `Kalepy.C171_unpacked` | propext, Classical.choice, Quot.sound |
| C171 | `Kalepy.C171_error` | propext, Classical.choice, Quot.sound |
| C171 | `Kalepy.C171_refuted` | propext, Classical.choice, Quot.sound |
| C172 | `Kalepy.C172_law` | propext, Classical.choice, Quot.sound |
| C172 | `Kalepy.C172_empty` | propext, Classical.choice, Quot.sound |
| C172 | `Kalepy.C172_inside` | propext, Classical.choice, Quot.sound |
| C172 | `Kalepy.C172_mirrored` | propext, Classical.choice, Quot.sound |
| C172 | `Kalepy.C172_dropped` | propext, Classical.choice, Quot.sound |
| C173 | `Kalepy.C173_components` | propext, Classical.choice, Quot.sound |
| C173 | `Kalepy.C173_kde` | propext, Classical.choice, Quot.sound |
| C173 | `Kalepy.C173_hist` | propext, Classical.choice, Quot.sound |
| C173 | `Kalepy.C173_succeeds` | propext, Classical.choice, Quot.sound |
| C174 | `Kalepy.C174_exact` | propext, Classical.choice, Quot.sound |
| C174 | `Kalepy.C174_succeeds` | propext, Classical.choice, Quot.sound |
| C174 | `Kalepy.C174_integral` | propext, Classical.choice, Quot.sound |
| C174 | `Kalepy.C174_probability` | propext, Classical.choice, Quot.sound |
| C174 | `Kalepy.C174_finite` | propext, Classical.choice, Quot.sound |
| C174 | `Kalepy.C174_limit` | propext, Classical.choice, Quot.sound |
| C174 | `Kalepy.C174_grid` | propext, Classical.choice, Quot.sound |
| C174 | `Kalepy.C174_cdf` | propext, Classical.choice, Quot.sound |
| C174 | `Kalepy.C174_reflect` | propext, Classical.choice, Quot.sound |
| C174 | `Kalepy.C174_integral_total` | propext, Classical.choice, Quot.sound |
| C174 | `Kalepy.C174_mostly` | propext, Classical.choice, Quot.sound |
| C174 | `Kalepy.C174_all` | propext, Classical.choice, Quot.sound |
| C174 | `Kalepy.C174_cdf_all` | propext, Classical.choice, Quot.sound |
| C174 | `Kalepy.C174_cdf_kernels` | propext, Classical.choice, Quot.sound |
| C175 | `Kalepy.C175_refuted` | propext, Classical.choice, Quot.sound |
| C175 | `Kalepy.C175_zero` | propext, Classical.choice, Quot.sound |
| C175 | `Kalepy.C175_outlier` | propext, Classical.choice, Quot.sound |
| C175 | `Kalepy.C175_iff` | propext, Classical.choice, Quot.sound |
| C175 | `Kalepy.C175_data` | propext, Classical.choice, Quot.sound |
| C175 | `Kalepy.C175_partial` | propext, Classical.choice, Quot.sound |
| C175 | `Kalepy.C175_spacing` | propext, Classical.choice, Quot.sound |
| C175 | `Kalepy.C175_spacing_nd` | propext, Classical.choice, Quot.sound |
| C176 | `Kalepy.C176_trapz` | propext, Classical.choice, Quot.sound |
| C176 | `Kalepy.C176_samples` | propext, Classical.choice, Quot.sound |
| C176 | `Kalepy.C176_frequencies` | propext, Classical.choice, Quot.sound |
| C176 | `Kalepy.C176_bins` | propext, Classical.choice, Quot.sound |
| C176 | `Kalepy.C176_values` | propext, Classical.choice, Quot.sound |
| C176 | `Kalepy.C176_integral` | propext, Classical.choice, Quot.sound |
| C176 | `Kalepy.C176_limit` | propext, Classical.choice, Quot.sound |
| C176 | `Kalepy.C176_finite` | propext, Classical.choice, Quot.sound |
| C176 | `Kalepy.C176_zero` | propext, Classical.choice, Quot.sound |
| C176 | `Kalepy.C176_outlier` | propext, Classical.choice, Quot.sound |
| C176 | `Kalepy.C176_interpolated` | propext, Classical.choice, Quot.sound |
| C176 | `Kalepy.C176_reflect_integral` | propext, Classical.choice, Quot.sound |
| C176 | `Kalepy.C176_reflect_samples` | propext, Classical.choice, Quot.sound |
| C176 | `Kalepy.C176_trapz_total` | propext, Classical.choice, Quot.sound |
| C176 | `Kalepy.C176_samples_total` | propext, Classical.choice, Quot.sound |
| C176 | `Kalepy.C176_frequencies_total` | propext, Classical.choice, Quot.sound |
| C176 | `Kalepy.C176_bins_total` | propext, Classical.choice, Quot.sound |
| C176 | `Kalepy.C176_mostly` | propext, Classical.choice, Quot.sound |
| C176 | `Kalepy.C176_all_integral` | propext, Classical.choice, Quot.sound |
| C176 | `Kalepy.C176_all_samples` | propext, Classical.choice, Quot.sound |
| C176 | `Kalepy.C176_all_limit` | propext, Classical.choice, Quot.sound |
| C176 | `Kalepy.C176_unit` | propext, Classical.choice, Quot.sound |
| C176 | `Kalepy.C176_total` | propext, Classical.choice, Quot.sound |
| C176 | `Kalepy.C176_unit_one_sided` | propext, Classical.choice, Quot.sound |
| C177 | `Kalepy.C177_partial` | propext, Classical.choice, Quot.sound |
| C177 | `Kalepy.C177_samples` | propext, Classical.choice, Quot.sound |
| C177 | `Kalepy.C177_actual` | propext, Classical.choice, Quot.sound |
| C177 | `Kalepy.C177_refuted` | propext, Classical.choice, Quot.sound |
| C178 | `Kalepy.C178_squeeze` | propext, Classical.choice, Quot.sound |
| C178 | `Kalepy.C178_unique` | propext, Classical.choice, Quot.sound |
