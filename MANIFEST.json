{
 "claims": [
  {
   "property": "C01",
   "status": "proved",
   "theorems": [
    "Verif.Props.C01_ffa_is_shifted_stack",
    "Verif.Props.C01_ffa1_is_shifted_stack"
   ],
   "note": "all shapes with fewer than 2^64 rows, all inputs, exact arithmetic; error branches of ffa1 covered"
  },
  {
   "property": "C02",
   "status": "proved",
   "theorems": [
    "Verif.Props.C02_shift_deviation_logarithmic",
    "Verif.Props.C02_every_shift_table_deviation"
   ],
   "note": ""
  },
  {
   "property": "C03",
   "status": "proved",
   "theorems": [
    "Verif.Props.C03_flux_conserved",
    "Verif.Props.C03_row_zero_is_fold"
   ],
   "note": ""
  },
  {
   "property": "C04",
   "status": "proved",
   "theorems": [
    "Verif.Props.C04_linear",
    "Verif.Props.C04_commutes_with_rotation"
   ],
   "note": ""
  },
  {
   "property": "C05",
   "status": "proved",
   "theorems": [
    "Verif.Props.C05_transform_memory_safe",
    "Verif.Props.C05_repeated_calls"
   ],
   "note": "memory model with unallocated/uninitialised cells"
  },
  {
   "property": "C06",
   "status": "proved",
   "theorems": [
    "Verif.Props.C06_float_index_in_range",
    "Verif.Props.C06_float_transform_is_shifted_stack",
    "Verif.Props.C06_float_transform_memory_safe",
    "Verif.Props.C06_out_of_range_above"
   ],
   "note": "float32 index arithmetic with round to nearest even, with and without fused multiply-add, 3 <= m <= 2^22; witness of failure at 2^24+1"
  },
  {
   "property": "C07",
   "status": "proved",
   "theorems": [
    "Verif.Props.C07_rounding_error"
   ],
   "note": ""
  },
  {
   "property": "C08",
   "status": "proved",
   "theorems": [
    "Verif.Props.C08_rollback",
    "Verif.Props.C08_fused_rollback_add"
   ],
   "note": ""
  },
  {
   "property": "C09",
   "status": "proved",
   "theorems": [
    "Verif.Props.C09_circular_prefix_sum"
   ],
   "note": "exact arithmetic"
  },
  {
   "property": "C10",
   "status": "partial",
   "theorems": [
    "Verif.Props.C10_binding_overflow",
    "Verif.Props.C10_false",
    "Verif.Props.C10_partial"
   ],
   "note": "property is false: the binding allocates size instead of nsum elements"
  },
  {
   "property": "C11",
   "status": "proved",
   "theorems": [
    "Verif.Props.C11_snr_is_matched_filter",
    "Verif.Props.C11_matched_filter_unique"
   ],
   "note": "exact arithmetic"
  },
  {
   "property": "C12",
   "status": "proved",
   "theorems": [
    "Verif.Props.C12_rotation_invariant",
    "Verif.Props.C12_baseline_invariant",
    "Verif.Props.C12_gain",
    "Verif.Props.C12_stdnoise"
   ],
   "note": "exact arithmetic"
  },
  {
   "property": "C13",
   "status": "proved",
   "theorems": [
    "Verif.Props.C13_boxcar_snr_validation",
    "Verif.Props.C13_empty_widths_undefined"
   ],
   "note": "for at least one width; an empty width list is undefined behaviour"
  },
  {
   "property": "C14",
   "status": "proved",
   "theorems": [
    "Verif.Props.C14_downsample_integrates"
   ],
   "note": "exact arithmetic"
  },
  {
   "property": "C15",
   "status": "proved",
   "theorems": [
    "Verif.Props.C15_flux_conserved",
    "Verif.Props.C15_constant",
    "Verif.Props.C15_integer_factor",
    "Verif.Props.C15_linear"
   ],
   "note": "exact arithmetic"
  },
  {
   "property": "C16",
   "status": "partial",
   "theorems": [
    "Verif.Props.C16_false",
    "Verif.Props.C16_partial",
    "Verif.Props.C16_fractional_partial"
   ],
   "note": "property is false for integer factors >= 3: the formula gives (k-1)^2+1 instead of k"
  },
  {
   "property": "C17",
   "status": "proved",
   "theorems": [
    "Verif.Props.C17_outputs_filled_exactly"
   ],
   "note": "real arithmetic, non-empty width list"
  },
  {
   "property": "C18",
   "status": "proved",
   "theorems": [
    "Verif.Props.C18_periods_increasing"
   ],
   "note": "real arithmetic"
  },
  {
   "property": "C19",
   "status": "proved",
   "theorems": [
    "Verif.Props.C19_no_holes"
   ],
   "note": "real arithmetic"
  },
  {
   "property": "C20",
   "status": "proved",
   "theorems": [
    "Verif.Props.C20_buffers_large_enough",
    "Verif.Props.C17_outputs_filled_exactly"
   ],
   "note": ""
  },
  {
   "property": "C21",
   "status": "partial",
   "theorems": [
    "Verif.Props.C21_false",
    "Verif.Props.C21_fails_iff",
    "Verif.Props.C21_partial"
   ],
   "note": "property is false: ValueError from the downsampling code when period_max is much longer than the data"
  },
  {
   "property": "C22",
   "status": "proved",
   "theorems": [
    "Verif.Props.C22_labelled_period_drift",
    "Verif.Props.C22_fold_tracks_signal"
   ],
   "note": ""
  },
  {
   "property": "C23",
   "status": "proved",
   "theorems": [
    "Verif.Props.C23_rejects",
    "Verif.Props.C23_values",
    "Verif.Props.C23_single_row",
    "Verif.Props.C23_agrees_with_periodogram"
   ],
   "note": ""
  },
  {
   "property": "C24",
   "status": "proved",
   "theorems": [
    "Verif.Props.C24_width_trials",
    "Verif.Props.C24_widths_valid"
   ],
   "note": ""
  },
  {
   "property": "C25",
   "status": "proved",
   "theorems": [
    "Verif.Props.C25_running_median",
    "Verif.Props.C25_monotone_equivariant"
   ],
   "note": "any linear order, i.e. no NaN"
  },
  {
   "property": "C26",
   "status": "proved",
   "theorems": [
    "Verif.Props.C26_quickselect",
    "Verif.Props.C26_order_statistic_unique",
    "Verif.Props.C26_subrange"
   ],
   "note": "any linear order, i.e. no NaN"
  },
  {
   "property": "C27",
   "status": "partial",
   "theorems": [
    "Verif.Props.C27_false",
    "Verif.Props.C27_error_iff",
    "Verif.Props.C27_partial"
   ],
   "note": "property is false: even windows shorter than 2*min_points and windows close to the data length are rejected"
  },
  {
   "property": "C28",
   "status": "proved",
   "theorems": [
    "Verif.Props.C28_within_data_range",
    "Verif.Props.C28_affine_equivariant",
    "Verif.Props.C28_baseline_equivariant",
    "Verif.Props.C28_constant"
   ],
   "note": "exact arithmetic"
  },
  {
   "property": "C29",
   "status": "proved",
   "theorems": [
    "Verif.Props.C29_cluster1d",
    "Verif.Props.C29_separation",
    "Verif.Props.C29_sorted_needed"
   ],
   "note": "exact arithmetic"
  },
  {
   "property": "C30",
   "status": "proved",
   "theorems": [
    "Verif.Props.C30_peaks_genuine"
   ],
   "note": "exact arithmetic, arbitrary fitted threshold"
  },
  {
   "property": "C31",
   "status": "proved",
   "theorems": [
    "Verif.Props.C31_none_lost",
    "Verif.Props.C31_peaks_separated"
   ],
   "note": "exact arithmetic, arbitrary fitted threshold"
  },
  {
   "property": "C32",
   "status": "partial",
   "theorems": [
    "Verif.Props.C32_false",
    "Verif.Props.C32_segment_stats_partial",
    "Verif.Props.C32_single_trial",
    "Verif.Props.C32_sparse",
    "Verif.Props.C32_spread_nonneg"
   ],
   "note": "property is false: ZeroDivisionError when the first and last frequency are equal, empty segments when there are fewer trials than segments"
  },
  {
   "property": "C33",
   "status": "proved",
   "theorems": [
    "Verif.Props.C33_error_iff",
    "Verif.Props.C33_coverage"
   ],
   "note": "exact arithmetic"
  },
  {
   "property": "C34",
   "status": "proved",
   "theorems": [
    "Verif.Props.C34_minimal",
    "Verif.Props.C34_duplicates"
   ],
   "note": "exact arithmetic; the DMs must be distinct"
  },
  {
   "property": "C35",
   "status": "proved",
   "theorems": [
    "Verif.Props.C35_iterate_filenames"
   ],
   "note": ""
  },
  {
   "property": "C36",
   "status": "proved",
   "theorems": [
    "Verif.Props.C36_right_range",
    "Verif.Props.C36_never_none",
    "Verif.Props.C36_needs_nonempty_ranges"
   ],
   "note": "period_min < period_max is enforced by the compiled search, not by the validation; without it the function can return None"
  },
  {
   "property": "C37",
   "status": "partial",
   "theorems": [
    "Verif.Props.C37_false",
    "Verif.Props.C37_partial"
   ],
   "note": "property is false: a period equal to period_min = candidates.bins * tsamp_max is accepted by the validation but cannot be folded"
  },
  {
   "property": "C38",
   "status": "proved",
   "theorems": [
    "Verif.Props.C38_shape_and_flux",
    "Verif.Props.C38_profile_independent_of_subints"
   ],
   "note": "exact arithmetic"
  },
  {
   "property": "C39",
   "status": "proved",
   "theorems": [
    "Verif.Props.C39_normalise_pure",
    "Verif.Props.C39_deredden_pure",
    "Verif.Props.C39_downsample_pure",
    "Verif.Props.C39_fold_pure",
    "Verif.Props.C39_ffa_search_pure",
    "Verif.Props.C39_inplace_deredden_is_shared"
   ],
   "note": "heap model with aliasing"
  },
  {
   "property": "C40",
   "status": "partial",
   "theorems": [
    "Verif.Props.C40_false",
    "Verif.Props.C40_partial",
    "Verif.Props.C40_inplace_downsample"
   ],
   "note": "property is false: downsample(inplace=True) does not update tobs"
  },
  {
   "property": "C41",
   "status": "proved",
   "theorems": [
    "Verif.Props.C41_zero_mean_unit_variance",
    "Verif.Props.C41_idempotent",
    "Verif.Props.C41_gain_offset_invariant"
   ],
   "note": "exact arithmetic"
  },
  {
   "property": "C42",
   "status": "proved",
   "theorems": [
    "Verif.Props.C42_htest",
    "Verif.Props.C42_same_period",
    "Verif.Props.C42_exact_harmonic",
    "Verif.Props.C42_rejects"
   ],
   "note": "exact arithmetic; floats are rationals"
  },
  {
   "property": "C43",
   "status": "proved",
   "theorems": [
    "Verif.Props.C43_limit_denominator",
    "Verif.Props.C43_exact",
    "Verif.Props.C43_rejects",
    "Verif.Props.C43_unique_if_close"
   ],
   "note": "the algorithm of the python 3.11 standard library"
  },
  {
   "property": "C44",
   "status": "proved",
   "theorems": [
    "Verif.Props.C44_flag_harmonics",
    "Verif.Props.C44_htest_total"
   ],
   "note": "for every test that does not fail on the pairs at hand; htest is one (C44_htest_total)"
  },
  {
   "property": "C45",
   "status": "proved",
   "theorems": [
    "Verif.Props.C45_no_cap",
    "Verif.Props.C45_cap"
   ],
   "note": ""
  },
  {
   "property": "C46",
   "status": "proved",
   "theorems": [
    "Verif.Props.C46_build_candidates",
    "Verif.Props.C46_iff",
    "Verif.Props.C46_file_names_distinct",
    "Verif.Props.C46_json_ne_png",
    "Verif.Props.C46_load_failure"
   ],
   "note": "loading a time series is outside the try block: C46_load_failure shows that a failure there loses all candidates"
  },
  {
   "property": "C47",
   "status": "proved",
   "theorems": [
    "Verif.Props.C47_schedule_independent",
    "Verif.Props.C47_two_runs"
   ],
   "note": "multiprocessing.Pool.map is modelled by its contract: batches complete in any order, results are stored by position, the first failure is raised"
  },
  {
   "property": "C48",
   "status": "proved",
   "theorems": [
    "Verif.Props.C48_prefix_consistent",
    "Verif.Props.C48_complete"
   ],
   "note": "a file write is two events (created, complete); crash = any prefix of the trace"
  },
  {
   "property": "C49",
   "status": "proved",
   "theorems": [
    "Verif.Props.C49_roundtrip",
    "Verif.Props.C49_stable",
    "Verif.Props.C49_base64",
    "Verif.Props.C49_array",
    "Verif.Props.C49_object",
    "Verif.Props.C49_metadata_type",
    "Verif.Props.C49_frame_types",
    "Verif.Props.C49_reserved_key",
    "Verif.Props.C49_object_array",
    "Verif.Props.C49_tobs"
   ],
   "note": "The JSON text itself (json module) is trusted to restore the tree. \"Equal\" is the equality of the contents (Spec.content): Metadata come back as plain dict except in a TimeSeries, arrays read-only, frames with columns of one type. Not supported: dictionaries with a key __type__, arrays of python objects (witness theorems)."
  },
  {
   "property": "C50",
   "status": "proved",
   "theorems": [
    "Verif.Props.C50_roundtrip",
    "Verif.Props.C50_roundtrip_distinct",
    "Verif.Props.C50_accepted",
    "Verif.Props.C50_starts_with_flag",
    "Verif.Props.C50_flag",
    "Verif.Props.C50_doubles"
   ],
   "note": "Round trip for any keys known through the standard table or extra_keys; termination is that the model function is total (well-founded on the file position)."
  },
  {
   "property": "C51",
   "status": "proved",
   "theorems": [
    "Verif.Props.C51_value_error",
    "Verif.Props.C51_sample_count",
    "Verif.Props.C51_loads",
    "Verif.Props.C51_negative_channels"
   ],
   "note": "Holds also when the data end with an incomplete sample. C51_negative_channels: a header with negative nchans and negative tsamp is accepted and reports a negative number of samples."
  },
  {
   "property": "C52",
   "status": "proved",
   "theorems": [
    "Verif.Props.C52_coordinates"
   ],
   "note": "Exact arithmetic."
  },
  {
   "property": "C53",
   "status": "proved",
   "theorems": [
    "Verif.Props.C53_radio",
    "Verif.Props.C53_high_energy",
    "Verif.Props.C53_other_band",
    "Verif.Props.C53_artificial",
    "Verif.Props.C53_data_fname",
    "Verif.Props.C53_loads",
    "Verif.Props.C53_no_extension"
   ],
   "note": "Numbers in the forms printed by C (%d, %f, %g, %e). The astropy conversion of the coordinates is an arbitrary function. C53_no_extension: a path without extension in a dotted directory gets a data file outside of the directory."
  },
  {
   "property": "C54",
   "status": "proved",
   "theorems": [
    "Verif.Props.C54_accepts",
    "Verif.Props.C54_total",
    "Verif.Props.C54_idempotent",
    "Verif.Props.C54_defensive",
    "Verif.Props.C54_nonstr_keys"
   ],
   "note": "C54_nonstr_keys: contrary to the docstring, keys that are not strings are accepted."
  },
  {
   "property": "C55",
   "status": "partial",
   "theorems": [
    "Verif.Props.C55_accepts",
    "Verif.Props.C55_types",
    "Verif.Props.C55_values",
    "Verif.Props.C55_documented_partial",
    "Verif.Props.C55_false",
    "Verif.Props.C55_clrad_crash",
    "Verif.Props.C55_clrad"
   ],
   "note": "False as stated: a blank find_peaks section and subints: null are documented as valid and are rejected (C55_false); clrad: null is accepted and fails later with a TypeError (C55_clrad_crash). Proved: the exact set of accepted configurations, the types and values of the result, and acceptance of the documented configurations other than these two. Later type errors are only modelled for clrad."
  },
  {
   "property": "C56",
   "status": "proved",
   "theorems": [
    "Verif.Props.C56_rseek_table"
   ],
   "note": "exact arithmetic"
  },
  {
   "property": "C57",
   "status": "partial",
   "theorems": [
    "Verif.Props.C57_false",
    "Verif.Props.C57_fpmin_ignored"
   ],
   "note": "property is false: fpmin is never used"
  },
  {
   "property": "C58",
   "status": "proved",
   "theorems": [
    "Verif.Props.C58_end_to_end"
   ],
   "note": "real arithmetic except for the index computation, which is also single precision"
  },
  {
   "property": "C59",
   "status": "proved",
   "theorems": [
    "Verif.Props.C59_widths_valid_in_search",
    "Verif.Props.C59_ffa_search_widths"
   ],
   "note": "exact arithmetic for the widths"
  },
  {
   "property": "C60",
   "status": "proved",
   "theorems": [
    "Verif.Props.C60_band_of_files",
    "Verif.Props.C60_band_of_arguments",
    "Verif.Props.C60_band_params",
    "Verif.Props.C60_inferred_for_all",
    "Verif.Props.C60_iterator_range"
   ],
   "note": "the cap is passed as a number"
  },
  {
   "property": "C61",
   "status": "proved",
   "theorems": [
    "Verif.Props.C61_gain_offset_invariant"
   ],
   "note": "exact arithmetic"
  },
  {
   "property": "C62",
   "status": "proved",
   "theorems": [
    "Verif.Props.C62_returned_series"
   ],
   "note": "exact arithmetic"
  },
  {
   "property": "C63",
   "status": "partial",
   "theorems": [
    "Verif.Props.C63_denominator_bound_partial",
    "Verif.Props.C63_false"
   ],
   "note": "property is false: for a candidate slower than the fundamental the numerator is bounded, not the denominator (1 Hz against 150 Hz gives 1/150 with denom_max=100)"
  },
  {
   "property": "C64",
   "status": "proved",
   "theorems": [
    "Verif.Props.C64_clusters",
    "Verif.Props.C64_search_sorted"
   ],
   "note": "exact arithmetic"
  },
  {
   "property": "C65",
   "status": "proved",
   "theorems": [
    "Verif.Props.C65_monotone",
    "Verif.Props.C65_linear_trend"
   ],
   "note": "exact arithmetic"
  },
  {
   "property": "C66",
   "status": "proved",
   "theorems": [
    "Verif.Props.C66_deredden",
    "Verif.Props.C66_inplace_agrees",
    "Verif.Props.C66_linear_trend"
   ],
   "note": "exact arithmetic"
  },
  {
   "property": "C67",
   "status": "proved",
   "theorems": [
    "Verif.Props.C67_centre",
    "Verif.Props.C67_cluster_table"
   ],
   "note": "exact arithmetic"
  },
  {
   "property": "C68",
   "status": "proved",
   "theorems": [
    "Verif.Props.C68_every_peak_accounted_for",
    "Verif.Props.C68_deterministic",
    "Verif.Props.C68_harmonics",
    "Verif.Props.C68_failing_test"
   ],
   "note": "loading, dereddening, searching and folding of one file are arbitrary functions here; multiprocessing as in C47"
  },
  {
   "property": "C69",
   "status": "partial",
   "theorems": [
    "Verif.Props.C69_false",
    "Verif.Props.C69_appends_partial"
   ],
   "note": "property is false: build_candidates appends to self.candidates without resetting it, so that the candidates of earlier runs are kept and written again"
  },
  {
   "property": "C70",
   "status": "proved",
   "theorems": [
    "Verif.Props.C70_candidate",
    "Verif.Props.C70_profile_independent_of_subints",
    "Verif.Props.C70_validated_ranges"
   ],
   "note": "exact arithmetic; the last statement needs a sampling time below the one used in the validation (see C37)"
  },
  {
   "property": "C71",
   "status": "partial",
   "theorems": [
    "Verif.Props.C71_false",
    "Verif.Props.C71_plot_partial"
   ],
   "note": "property is false: with a single sub-integration (configured, or only one period fits) the array has one dimension and plot_subints raises ValueError. Of the plot only this is modelled"
  },
  {
   "property": "C72",
   "status": "proved",
   "theorems": [
    "Verif.Props.C72_dm_curve",
    "Verif.Props.C72_peak_of_curve"
   ],
   "note": "exact arithmetic"
  },
  {
   "property": "C73",
   "status": "proved",
   "theorems": [
    "Verif.Props.C73_common_preparation",
    "Verif.Props.C73_gain_offset_invariant",
    "Verif.Props.C73_dm_none"
   ],
   "note": "exact arithmetic; the DM must be known: C73_dm_none shows that DM None raises TypeError"
  },
  {
   "property": "C74",
   "status": "proved",
   "theorems": [
    "Verif.Props.C74_peaks_of_file"
   ],
   "note": "exact arithmetic"
  },
  {
   "property": "C75",
   "status": "proved",
   "theorems": [
    "Verif.Props.C75_double_memory_safe",
    "Verif.Props.C75_ieee_sane",
    "Verif.Props.C75_needs_bound"
   ],
   "note": "no overflow to infinity or NaN; the two copies of an expression in periodogram_length and periodogram round alike (source order evaluation); IEEE double with round to nearest is shown to meet the assumptions"
  },
  {
   "property": "C76",
   "status": "partial",
   "theorems": [
    "Verif.Props.C76_double_periods_partial",
    "Verif.Props.C76_false"
   ],
   "note": "property is false: 48 samples, tsamp 0.9, periods 5.4 to 6.975, 6 to 7 bins give 6.300000000000001 followed by 6.3. Proved: no trial period is below an earlier one by more than one part in 2^48, and all are in the range up to one part in 2^48"
  },
  {
   "property": "C77",
   "status": "proved",
   "theorems": [
    "Verif.Props.C77_snr_range",
    "Verif.Props.C77_no_downsampling",
    "Verif.Props.C77_ffa_search"
   ],
   "note": "exact arithmetic; widths below bins_min, as generated for ducy_max < 1"
  },
  {
   "property": "C78",
   "status": "proved",
   "theorems": [
    "Verif.Props.C78_folding_gain",
    "Verif.Props.C78_pulse_train"
   ],
   "note": "exact arithmetic; period_min must be bins_min * tsamp, so that the data are not downsampled in the first stage"
  },
  {
   "property": "C79",
   "status": "partial",
   "theorems": [
    "Verif.Props.C79_false",
    "Verif.Props.C79_partial",
    "Verif.Props.C79_rmed_minpts"
   ],
   "note": "property is false: --rmed_minpts 101 is converted to the float 101.0, which the compiled running median rejects with TypeError if the data are scrunched (20 s of data, all other options default); true for all other options, and for --rmed_minpts if the window is shorter than 2 rmed_minpts samples"
  },
  {
   "property": "C80",
   "status": "proved",
   "theorems": [
    "Verif.Props.C80_rseek"
   ],
   "note": "exact arithmetic; printing and reading of the file are not modelled"
  },
  {
   "property": "C81",
   "status": "proved",
   "theorems": [
    "Verif.Props.C81_resolution",
    "Verif.Props.C81_find_peaks",
    "Verif.Props.C81_search_and_find",
    "Verif.Props.C81_rseek_succeeds"
   ],
   "note": "exact arithmetic"
  },
  {
   "property": "C82",
   "status": "proved",
   "theorems": [
    "Verif.Props.C82_noiseless",
    "Verif.Props.C82_expected_snr",
    "Verif.Props.C82_optimal"
   ],
   "note": "exact arithmetic, no conversion to float32; the noise is any family of integrable random variables of mean zero (unit variance and pairwise independent for the variance)"
  },
  {
   "property": "C83",
   "status": "proved",
   "theorems": [
    "Verif.Props.C83_generate",
    "Verif.Props.C83_errors",
    "Verif.Props.C83_search"
   ],
   "note": "exact arithmetic, no conversion to float32; the search is with already_normalised and without deredden"
  },
  {
   "property": "C84",
   "status": "partial",
   "theorems": [
    "Verif.Props.C84_false",
    "Verif.Props.C84_partial",
    "Verif.Props.C84_peaks",
    "Verif.Props.C84_arguments",
    "Verif.Props.C84_rmed_minpts"
   ],
   "note": "property is false: the validation accepts rmed_minpts 101.0 (TypeError for windows of 202 samples and more) and even integers (ValueError for every series); proved for odd integers and no clrad: null. The arguments used are proved without these conditions"
  },
  {
   "property": "C85",
   "status": "proved",
   "theorems": [
    "Verif.Props.C85_snr_rounding",
    "Verif.Props.C85_single"
   ],
   "note": "source order evaluation, no overflow or underflow; arithmetic with 24 and 53 significant bits is shown to meet the assumptions"
  },
  {
   "property": "C86",
   "status": "proved",
   "theorems": [
    "Verif.Props.C86_search_rounding",
    "Verif.Props.C86_downsample_rounding"
   ],
   "note": "source order evaluation, no overflow or underflow; the positions of the windows, the factors and the variance of the noise (double) are exact here, rounded in C113"
  },
  {
   "property": "C87",
   "status": "proved",
   "theorems": [
    "Verif.Props.C87_stable"
   ],
   "note": "exact arithmetic"
  },
  {
   "property": "C88",
   "status": "proved",
   "theorems": [
    "Verif.Props.C88_noise",
    "Verif.Props.C88_false_alarms"
   ],
   "note": "exact arithmetic; the noise is any independent family with sub-Gaussian moment generating functions (parameter 1), shown to include the standard normal distribution"
  },
  {
   "property": "C89",
   "status": "proved",
   "theorems": [
    "Verif.Props.C89_detection"
   ],
   "note": "exact arithmetic; noise as for C88"
  },
  {
   "property": "C90",
   "status": "partial",
   "theorems": [
    "Verif.Props.C90_noise_partial",
    "Verif.Props.C90_mean_partial",
    "Verif.Props.C90_variance_false",
    "Verif.Props.C90_mean_false"
   ],
   "note": "property is false: four bins in a period of six samples give variance 5/6, and eight samples of mean zero folded at a period of six samples give a profile of nonzero mean. Proved: the variance of a bin is between 1 - 1/(2 f) and 1 for f samples per bin, and exactly 1 for integer f; the sum of the profile is the sum of the samples in whole periods, so it is zero if the series is a whole number of periods long"
  },
  {
   "property": "C91",
   "status": "proved",
   "theorems": [
    "Verif.Props.C91_search_units",
    "Verif.Props.C91_peak_units"
   ],
   "note": "exact arithmetic; np.polyfit is any function returning a least-squares polynomial (shown to exist), argsort any sort that depends on the order of the elements only"
  },
  {
   "property": "C92",
   "status": "proved",
   "theorems": [
    "Verif.Props.C92_fit",
    "Verif.Props.C92_mean",
    "Verif.Props.C92_gain",
    "Verif.Props.C92_flat"
   ],
   "note": "exact arithmetic; np.polyfit as for C91"
  },
  {
   "property": "C93",
   "status": "proved",
   "theorems": [
    "Verif.Props.C93_nothing_lost",
    "Verif.Props.C93_range_covered"
   ],
   "note": "exact arithmetic in any ordered field"
  },
  {
   "property": "C94",
   "status": "proved",
   "theorems": [
    "Verif.Props.C94_accepts",
    "Verif.Props.C94_selected",
    "Verif.Props.C94_sensitivity",
    "Verif.Props.C94_configured",
    "Verif.Props.C94_searchable",
    "Verif.Props.C94_example"
   ],
   "note": "exact arithmetic; the metadata of the files are given and have a DM"
  },
  {
   "property": "C95",
   "status": "proved",
   "theorems": [
    "Verif.Props.C95_any_period",
    "Verif.Props.C95_in_noise"
   ],
   "note": "exact arithmetic, shifts of the float32 index rule included; noise as for C88"
  },
  {
   "property": "C96",
   "status": "proved",
   "theorems": [
    "Verif.Props.C96_running_median",
    "Verif.Props.C96_fast",
    "Verif.Props.C96_deredden",
    "Verif.Props.C96_sharp"
   ],
   "note": "exact arithmetic"
  },
  {
   "property": "C97",
   "status": "proved",
   "theorems": [
    "Verif.Props.C97_rseek",
    "Verif.Props.C97_worker"
   ],
   "note": "exact arithmetic; the position in frequency of the reported row is given by a chain of significant trials, as for C80"
  },
  {
   "property": "C98",
   "status": "partial",
   "theorems": [
    "Verif.Props.C98_partial",
    "Verif.Props.C98_false",
    "Verif.Props.C98_others",
    "Verif.Props.C98_read_only",
    "Verif.Props.C98_flag_irrelevant",
    "Verif.Props.C98_loaded",
    "Verif.Props.C98_writable_again"
   ],
   "note": "property is false: the array of a series loaded from JSON is read-only (np.frombuffer), so deredden(inplace=True) raises ValueError where the copying call succeeds. Proved for arrays that may be written to and valid metadata; all other calls do not depend on the flag; after copy() or normalise / downsample in place the array may be written to"
  },
  {
   "property": "C99",
   "status": "proved",
   "theorems": [
    "Verif.Props.C99_array",
    "Verif.Props.C99_series",
    "Verif.Props.C99_own_array",
    "Verif.Props.C99_copy_independent",
    "Verif.Props.C99_reference"
   ],
   "note": "exact arithmetic; one-dimensional data; views of arrays (slices) are the subject of C109"
  },
  {
   "property": "C100",
   "status": "proved",
   "theorems": [
    "Verif.Props.C100_no_candidate_lost",
    "Verif.Props.C100_succeeds"
   ],
   "note": "exact arithmetic; each file loads into a time series of its own whose DM is that of its metadata; the harmonic test is any function that does not fail on peaks of positive frequency and duty cycle (shown for htest in C42); ranges have periods of more than candidates.bins samples"
  },
  {
   "property": "C101",
   "status": "proved",
   "theorems": [
    "Verif.Props.C101_peak_to_candidate",
    "Verif.Props.C101_only_passing",
    "Verif.Props.C101_tobs_median",
    "Verif.Props.C101_pulsar",
    "Verif.Props.C101_example"
   ],
   "note": "assumptions as for C100; C101_example is a complete run from samples to a candidate"
  },
  {
   "property": "C102",
   "status": "proved",
   "theorems": [
    "Verif.Props.C102_configured",
    "Verif.Props.C102_run",
    "Verif.Props.C102_no_candidate_lost",
    "Verif.Props.C102_harmonics",
    "Verif.Props.C102_band_order",
    "Verif.Props.C102_htest_rational",
    "Verif.Props.C102_example"
   ],
   "note": "assumptions on the files as for C100; exact arithmetic except the conversion of the ratio of two frequencies to a fraction; no range has a period_min of exactly candidates.bins samples; a rmed_minpts of type float and a null clrad are excluded (see C84)"
  },
  {
   "property": "C103",
   "status": "proved",
   "theorems": [
    "Verif.Props.C103_file",
    "Verif.Props.C103_run",
    "Verif.Props.C103_no_candidate_lost",
    "Verif.Props.C103_radio",
    "Verif.Props.C103_high_energy",
    "Verif.Props.C103_sigproc",
    "Verif.Props.C103_example"
   ],
   "note": "assumptions on configuration and arithmetic as for C102; os.path.realpath is any function that is idempotent and leads to the same file; the parsing of coordinates is a parameter; samples that are not finite are excluded; C103_example is a complete run from a header and a data file to a candidate"
  },
  {
   "property": "C104",
   "status": "proved",
   "theorems": [
    "Verif.Props.C104_number",
    "Verif.Props.C104_order",
    "Verif.Props.C104_table",
    "Verif.Props.C104_saved",
    "Verif.Props.C104_deterministic",
    "Verif.Props.C104_names_sorted",
    "Verif.Props.C104_names_unsorted",
    "Verif.Props.C104_stale",
    "Verif.Props.C104_run",
    "Verif.Props.C104_example"
   ],
   "note": "the text of the tables is that of DataFrame.to_csv on Linux for real numbers (no nan, inf or negative zero); the encoding of a candidate as JSON or as a plot is any function; writing files does not fail"
  },
  {
   "property": "C105",
   "status": "partial",
   "theorems": [
    "Verif.Props.C105_saved",
    "Verif.Props.C105_partial",
    "Verif.Props.C105_all",
    "Verif.Props.C105_none",
    "Verif.Props.C105_false",
    "Verif.Props.C105_plot",
    "Verif.Props.C105_radio",
    "Verif.Props.C105_sigproc"
   ],
   "note": "property is false: five candidates, one process, the first cannot be plotted: the second is not saved. Proved: exactly which files are written, and that all are if there are at most four candidates per process or all can be plotted. The batches are those of multiprocessing.Pool.map in python 3.11; matplotlib itself does not fail; the conversion of the date by astropy is a parameter"
  },
  {
   "property": "C106",
   "status": "proved",
   "theorems": [
    "Verif.Props.C106_number",
    "Verif.Props.C106_table",
    "Verif.Props.C106_printed",
    "Verif.Props.C106_rseek",
    "Verif.Props.C106_succeeds",
    "Verif.Props.C106_pulsar",
    "Verif.Props.C106_high_energy",
    "Verif.Props.C106_example"
   ],
   "note": "assumptions on the disk as for C103, exact arithmetic; the blanks that pandas puts between the cells are a parameter (at least one); the position in frequency of the reported row is given by a chain of significant trials, as for C80"
  },
  {
   "property": "C107",
   "status": "proved",
   "theorems": [
    "Verif.Props.C107_pulsar",
    "Verif.Props.C107_covered",
    "Verif.Props.C107_example"
   ],
   "note": "assumptions on files, configuration and arithmetic as for C103; what the pulses look like in a file of another DM is a hypothesis on the samples of that file; the position in frequency of the peak is given by a chain of significant trials, as for C80"
  },
  {
   "property": "C108",
   "status": "proved",
   "theorems": [
    "Verif.Props.C108_read",
    "Verif.Props.C108_only",
    "Verif.Props.C108_refused",
    "Verif.Props.C108_unambiguous",
    "Verif.Props.C108_written",
    "Verif.Props.C108_ascii",
    "Verif.Props.C108_truncated",
    "Verif.Props.C108_roundtrip",
    "Verif.Props.C108_file",
    "Verif.Props.C108_cut",
    "Verif.Props.C108_again",
    "Verif.Props.C108_same_file",
    "Verif.Props.C108_example"
   ],
   "note": "json.dumps and json.loads of python 3.11; the conversion between finite floats and decimal text is a parameter, assumed to be faithful (float(repr(x)) == x and repr(x) is a JSON number with a fraction or an exponent), which is shown for the exact decimal expansion; lone surrogates in strings, the limit of python on the digits of integers and on the depth of recursion are left out; C108_cut is for files with line feeds"
  },
  {
   "property": "C109",
   "status": "partial",
   "theorems": [
    "Verif.Props.C109_one_dimension",
    "Verif.Props.C109_transform",
    "Verif.Props.C109_boxcar",
    "Verif.Props.C109_copy",
    "Verif.Props.C109_series_partial",
    "Verif.Props.C109_series_refused",
    "Verif.Props.C109_in_place",
    "Verif.Props.C109_agrees",
    "Verif.Props.C109_slice",
    "Verif.Props.C109_false"
   ],
   "note": "property is false: downsample(x[::2], 2.0) raises ValueError for a float32 array (and not for other types), boxcar_snr of a transposed array raises it for every type, and a TimeSeries that holds a view cannot be downsampled, folded or searched as it is. Proved: a result is always that of the elements (never of other memory), exactly which layouts are refused, and that running medians, normalise, deredden, searches that normalise or deredden, and series made with copy=True do not depend on the layout. Arrays with one or two dimensions; exact arithmetic"
  },
  {
   "property": "C110",
   "status": "partial",
   "theorems": [
    "Verif.Props.C110_scalar",
    "Verif.Props.C110_used_partial",
    "Verif.Props.C110_accepted",
    "Verif.Props.C110_octal",
    "Verif.Props.C110_false"
   ],
   "note": "property is false: bins_min: 0240 is accepted and means 160 (zeros in front and only digits up to 7 make an octal number), and clustering radius: 1e-1 is refused (without a dot, or without a sign in the exponent, it is a text). Proved: every other number in an accepted file is used with its value, and exactly which notations each of the 32 numeric entries takes. The rules of PyYAML (YAML 1.1) for scalars are not in the repository and the library was not at hand: they are written down from memory and could not be compared with the library; exact arithmetic"
  },
  {
   "property": "C111",
   "status": "partial",
   "theorems": [
    "Verif.Props.C111_refused_partial",
    "Verif.Props.C111_date",
    "Verif.Props.C111_false"
   ],
   "note": "property is false: a search range named 2020-01-01 (a date in YAML) raises TypeError from json.dumps in the argument of a log message. Proved: true for all files without dates; and every file with a date raises TypeError. Files that are not YAML, tags, anchors and keys that are not strings are not modelled"
  },
  {
   "property": "C112",
   "status": "proved",
   "theorems": [
    "Verif.Props.C112_search",
    "Verif.Props.C112_silent",
    "Verif.Props.C112_peaks",
    "Verif.Props.C112_no_peaks",
    "Verif.Props.C112_genuine",
    "Verif.Props.C112_trial",
    "Verif.Props.C112_running_median",
    "Verif.Props.C112_profile",
    "Verif.Props.C112_transform"
   ],
   "note": "additions, products and quotients in C++ give NaN if an operand is NaN (the extension module is compiled with -ffinite-math-only, which gives no guarantee for values; comparisons are left open); source order evaluation; np.interp, np.percentile and np.polyfit are any functions; positions of the windows in double precision; up to 2^50 samples and periods up to 2^62 samples"
  },
  {
   "property": "C113",
   "status": "proved",
   "theorems": [
    "Verif.Props.C113_search",
    "Verif.Props.C113_downsample",
    "Verif.Props.C113_downsample_safe"
   ],
   "note": "source order evaluation, no overflow or underflow; near the threshold between the two variance formulas (to 2^-50) either formula is allowed; relative to the exact profile of the trial that the double precision plan chose, not to the plan of exact arithmetic"
  },
  {
   "property": "C114",
   "status": "proved",
   "theorems": [
    "Verif.Props.C114_no_holes"
   ],
   "note": "P may not be in the first 2^-48 or last 2^-30 of the range; up to 2^25 samples; source order evaluation"
  },
  {
   "property": "C115",
   "status": "proved",
   "theorems": [
    "Verif.Props.C115_any_period",
    "Verif.Props.C115_in_noise",
    "Verif.Props.C115_false_alarms"
   ],
   "note": "source order evaluation, no overflow or underflow; the bounds hold for trials with K u < 1 where K is the number of roundings of C113; up to 2^25 samples"
  },
  {
   "property": "C116",
   "status": "proved",
   "theorems": [
    "Verif.Props.C116_subints",
    "Verif.Props.C116_table",
    "Verif.Props.C116_dm",
    "Verif.Props.C116_draws",
    "Verif.Props.C116_candidate",
    "Verif.Props.C116_periodogram",
    "Verif.Props.C116_periodogram_errors"
   ],
   "note": "what is given to matplotlib (image and extent, points, limits, texts) in exact arithmetic; that matplotlib draws cells in equal strips of the extent is assumed; texts made by astropy are any function of the metadata; colours and positions of panels are not modelled"
  },
  {
   "property": "C117",
   "status": "partial",
   "theorems": [
    "Verif.Props.C117_partial",
    "Verif.Props.C117_false"
   ],
   "note": "property is false: the median subtracted is that of one and a half periods (profile [0, 1]: bars 0, 1, 0), and the shading begins half a bin late. Proved: the bars are the profile minus one number between its extremes, their own median is zero, and everything shaded is shown for the second time"
  },
  {
   "property": "C118",
   "status": "partial",
   "theorems": [
    "Verif.Props.C118_reads",
    "Verif.Props.C118_untouched",
    "Verif.Props.C118_usage",
    "Verif.Props.C118_log_partial",
    "Verif.Props.C118_products",
    "Verif.Props.C118_runs",
    "Verif.Props.C118_config_lost",
    "Verif.Props.C118_example",
    "Verif.Props.C118_false"
   ],
   "note": "property is false: with -f naming the configuration (or an input) file this is truncated before it is read, the run fails and the file is lost. Proved: everything for log files that are none of the files read or written. Files are contents by real path; log texts are any that the logger may write; argparse is modelled by the values of the options"
  },
  {
   "property": "C119",
   "status": "proved",
   "theorems": [
    "Verif.Props.C119_normalise",
    "Verif.Props.C119_search",
    "Verif.Props.C119_any_period",
    "Verif.Props.C119_result"
   ],
   "note": "no overflow, underflow or NaN; v ** 0.5 is the square root to two double precision roundings; conditions on the sizes: (n+6)-fold double precision rounding error at most 1/100, and with the mean absolute value in units of the standard deviation at most 1/10, one single precision rounding of the mean at most 1/10 of the standard deviation; deredden=False; the rest as for C113 and C115"
  },
  {
   "property": "C120",
   "status": "proved",
   "theorems": [
    "Verif.Props.C120_deredden",
    "Verif.Props.C120_result",
    "Verif.Props.C120_search",
    "Verif.Props.C120_level",
    "Verif.Props.C120_any_period"
   ],
   "note": "no overflow, underflow or NaN; abscissae of np.interp are exact (integers and half-integers); width in samples below 2^53; conditions on the sizes: the error of deredden at most a tenth of the standard deviation, and the largest sample in units of the standard deviation at most 1/25 of 1/u and of 1/eta; the search without noise variation of the level; the rest as for C119"
  },
  {
   "property": "C121",
   "status": "proved",
   "theorems": [
    "Verif.Props.C121_cluster",
    "Verif.Props.C121_peaks",
    "Verif.Props.C121_accuracy",
    "Verif.Props.C121_success",
    "Verif.Props.C121_segments",
    "Verif.Props.C121_table",
    "Verif.Props.C121_reported",
    "Verif.Props.C121_pulses"
   ],
   "note": "no overflow, underflow or NaN; rounding is symmetric in the sign; the values of the fitted polynomial are arbitrary, one for each entry (percentiles, logarithms and polyfit are not computed); for C121_pulses everything as for C120"
  },
  {
   "property": "C122",
   "status": "proved",
   "theorems": [
    "Verif.Props.C122_clusters",
    "Verif.Props.C122_unsorted"
   ],
   "note": "no overflow, underflow or NaN; rounding is symmetric in the sign; a radius below 2^-51 of the largest frequency (far below any use) is excluded"
  },
  {
   "property": "C123",
   "status": "partial",
   "theorems": [
    "Verif.Props.C123_shape_partial",
    "Verif.Props.C123_power_of_two",
    "Verif.Props.C123_rows_false",
    "Verif.Props.C123_rejected",
    "Verif.Props.C123_zero",
    "Verif.Props.C123_candidate_partial",
    "Verif.Props.C123_candidate_false",
    "Verif.Props.C123_refused"
   ],
   "note": "false as stated: nine periods folded into seven sub-integrations give six rows and lose the last seventh of the data; five periods that fill the data exactly are refused; a period equal to the length of the data raises ZeroDivisionError. Proved with a relative margin of 2^-50 between the requested values and the limits: success, the shape for s = None, 1, m and whenever m / s is not rounded up (for instance s a power of two), and s or s - 1 rows in general; refusal with the same margin. No overflow, underflow or NaN; the period is a Python float"
  },
  {
   "property": "C124",
   "status": "proved",
   "theorems": [
    "Verif.Props.C124_period",
    "Verif.Props.C124_accuracy",
    "Verif.Props.C124_profile",
    "Verif.Props.C124_subints",
    "Verif.Props.C124_candidate",
    "Verif.Props.C124_bounded"
   ],
   "note": "no overflow, underflow or NaN; the power -0.5 has a relative error of at most two units of roundoff of double precision"
  },
  {
   "property": "C125",
   "status": "proved",
   "theorems": [
    "Verif.Props.C125_htest",
    "Verif.Props.C125_agree",
    "Verif.Props.C125_harmonic"
   ],
   "note": "no overflow, underflow or NaN; the attributes of peaks are Python floats as find_peaks makes them; peaks of positive frequency and duty cycle, 0 < fmin < fmax"
  },
  {
   "property": "C126",
   "status": "proved",
   "theorems": [
    "Verif.Props.C126_radius",
    "Verif.Props.C126_error_iff",
    "Verif.Props.C126_coverage",
    "Verif.Props.C126_minimal",
    "Verif.Props.C126_equal"
   ],
   "note": "no overflow, underflow or NaN; trials, range and band are Python floats; one channel only if fmax <= 3 fmin"
  },
  {
   "property": "C127",
   "status": "partial",
   "theorems": [
    "Verif.Props.C127_recurrence",
    "Verif.Props.C127_steps",
    "Verif.Props.C127_valid",
    "Verif.Props.C127_equal_partial",
    "Verif.Props.C127_false"
   ],
   "note": "false as stated: with ducy_max = 0.29 and 100 bins the widest trial has 28 bins, not 29. Proved: the recurrence and the limit with rounded products; a rounded product has the integer part of the product of the floats, or the next integer if it is rounded up to it; equality if no product is rounded up to an integer; validity of all widths if ducy_max <= 1 - 2^-52"
  },
  {
   "property": "C128",
   "status": "proved",
   "theorems": [
    "Verif.Props.C128_stages",
    "Verif.Props.C128_peaks",
    "Verif.Props.C128_made",
    "Verif.Props.C128_run",
    "Verif.Props.C128_candidate",
    "Verif.Props.C128_profile",
    "Verif.Props.C128_pulses",
    "Verif.Props.C128_pulsar"
   ],
   "note": "no overflow, underflow or NaN; files are lists of samples with a sampling time and a DM; the samples of a candidate are those that the worker dereddened and normalised, as the same functions are called on the same file; the values of the fitted polynomial are arbitrary; sums of NumPy are any tree of additions; conditions on the sizes and the level as for C120; up to 2^25 samples; the position in frequency is given by chains of significant trials and of peaks, as for C80 and C101"
  },
  {
   "property": "C129",
   "status": "proved",
   "theorems": [
    "Verif.Props.C129_no_error",
    "Verif.Props.C129_single",
    "Verif.Props.C129_worker"
   ],
   "note": "no overflow, underflow or NaN; up to 2^25 samples; two periods fit into the data; the running median of the worker can be computed (C120); rounded samples are rational numbers, as in any floating point format"
  },
  {
   "property": "C130",
   "status": "proved",
   "theorems": [
    "Verif.Props.C130_file",
    "Verif.Props.C130_widths",
    "Verif.Props.C130_rffa",
    "Verif.Props.C130_example"
   ],
   "note": "finite numbers; the two zeros are not distinguished; little-endian computers; the conversion between floats and decimal text is faithful, as for C108; dm is a number; the rounding of the numbers of the candidate and the metadata of the time series are parameters; the text files of the machine keep ASCII text; the log file and names of products as for C118"
  },
  {
   "property": "C131",
   "status": "proved",
   "theorems": [
    "Verif.Props.C131_binary",
    "Verif.Props.C131_unique",
    "Verif.Props.C131_kept",
    "Verif.Props.C131_exact",
    "Verif.Props.C131_whole",
    "Verif.Props.C131_short",
    "Verif.Props.C131_order",
    "Verif.Props.C131_error",
    "Verif.Props.C131_bits",
    "Verif.Props.C131_npy",
    "Verif.Props.C131_npy_cut",
    "Verif.Props.C131_presto",
    "Verif.Props.C131_sigproc",
    "Verif.Props.C131_not_kept"
   ],
   "note": "one-dimensional arrays; little-endian computers; the two zeros, and the NaN, are not distinguished; .npy files of version 1.0 with a header as np.save writes it; the product of tobs is exact"
  },
  {
   "property": "C132",
   "status": "proved",
   "theorems": [
    "Verif.Props.C132_search",
    "Verif.Props.C132_normalised",
    "Verif.Props.C132_constant",
    "Verif.Props.C132_constant_samples",
    "Verif.Props.C132_file",
    "Verif.Props.C132_too_large",
    "Verif.Props.C132_full_width"
   ],
   "note": "IEEE 754 with overflow and subnormal numbers, results rounded to nearest; trial periods and factors in double precision without overflow, as for C114; square roots have a relative error of at most 2^-20; np.interp gives finite numbers of at most twice the size of its values; the two zeros are not distinguished; at most 2^25 samples, 2^23 periods and 2^24 bins, ducy_max < 1"
  },
  {
   "property": "C133",
   "status": "proved",
   "theorems": [
    "Verif.Props.C133_transform",
    "Verif.Props.C133_search",
    "Verif.Props.C133_trials",
    "Verif.Props.C133_lower",
    "Verif.Props.C133_benchmark"
   ],
   "note": "exact arithmetic for factors and periods; the additions of the kernels add and fused_rollback_add are counted, not those of downsample and of the S/N; the counter is proved not to change the result; the benchmark up to 2^22 rows, its clock is not modelled"
  },
  {
   "property": "C134",
   "status": "proved",
   "theorems": [
    "Verif.Props.C134_file",
    "Verif.Props.C134_constant",
    "Verif.Props.C134_silent",
    "Verif.Props.C134_run"
   ],
   "note": "the worker on values that may be NaN or infinite; at most 2^50 samples, bins and periods; constant samples: IEEE 754 arithmetic, at most 2^25 samples of absolute value at most 2^100, numpy.interp between equal values gives this value; the run: the workers return, and the median observing time, which counts all files, is the same"
  },
  {
   "property": "C135",
   "status": "proved",
   "theorems": [
    "Verif.Props.C135_run",
    "Verif.Props.C135_files",
    "Verif.Props.C135_rffa",
    "Verif.Props.C135_last",
    "Verif.Props.C135_same_dm",
    "Verif.Props.C135_example"
   ],
   "note": "the model of the pipeline of C102, C103 and C118; with unreadable files the exception is that of the first one in the order given"
  },
  {
   "property": "C136",
   "status": "proved",
   "theorems": [
    "Verif.Props.C136_periodogram",
    "Verif.Props.C136_search",
    "Verif.Props.C136_widths",
    "Verif.Props.C136_search_widths",
    "Verif.Props.C136_double"
   ],
   "note": "C136_double: double precision for any operations on the samples; the others: exact arithmetic for factors and periods, index arithmetic exact or in single precision; widths below the number of bins (C59)"
  },
  {
   "property": "C137",
   "status": "proved",
   "theorems": [
    "Verif.Props.C137_select",
    "Verif.Props.C137_run",
    "Verif.Props.C137_files",
    "Verif.Props.C137_example"
   ],
   "note": "the model of the pipeline of C102 and C103; C137_run needs only the same median length; headers that cannot be read stop both runs only if they are given (C103)"
  },
  {
   "property": "C138",
   "status": "proved",
   "theorems": [
    "Verif.Props.C138_determined",
    "Verif.Props.C138_repeat",
    "Verif.Props.C138_interrupted",
    "Verif.Props.C138_example"
   ],
   "note": "the model of rffa of C118; the text of candidate files and plots is a function of the candidate"
  },
  {
   "property": "C139",
   "status": "proved",
   "theorems": [
    "Verif.Props.C139_run",
    "Verif.Props.C139_files",
    "Verif.Props.C139_saves",
    "Verif.Props.C139_rffa",
    "Verif.Props.C139_example"
   ],
   "note": "runs that end normally; a run in which a plot fails may leave different files, see C105"
  },
  {
   "property": "C140",
   "status": "proved",
   "theorems": [
    "Verif.Props.C140_valid",
    "Verif.Props.C140_run",
    "Verif.Props.C140_files",
    "Verif.Props.C140_config",
    "Verif.Props.C140_rffa",
    "Verif.Props.C140_example"
   ],
   "note": "the YAML parser gives the nodes of the document, see C110"
  },
  {
   "property": "C141",
   "status": "proved",
   "theorems": [
    "Verif.Props.C141_range",
    "Verif.Props.C141_run",
    "Verif.Props.C141_files",
    "Verif.Props.C141_rffa",
    "Verif.Props.C141_example"
   ],
   "note": "exact arithmetic, in which 0.2 is 1/5; polydeg is left out, as the fit is any function"
  },
  {
   "property": "C142",
   "status": "proved",
   "theorems": [
    "Verif.Props.C142_common",
    "Verif.Props.C142_stricter",
    "Verif.Props.C142_run",
    "Verif.Props.C142_files",
    "Verif.Props.C142_rffa",
    "Verif.Props.C142_example"
   ],
   "note": "exact arithmetic; the first run must have no max_number, as the clusters it leaves out cannot be known"
  },
  {
   "property": "C143",
   "status": "proved",
   "theorems": [
    "Verif.Props.C143_run",
    "Verif.Props.C143_files",
    "Verif.Props.C143_saves",
    "Verif.Props.C143_rffa",
    "Verif.Props.C143_example"
   ],
   "note": "if a plot fails, the run with plots may write fewer candidate files, see C105"
  },
  {
   "property": "C144",
   "status": "proved",
   "theorems": [
    "Verif.Props.C144_cluster1d",
    "Verif.Props.C144_peaks",
    "Verif.Props.C144_rseek",
    "Verif.Props.C144_clusters",
    "Verif.Props.C144_example"
   ],
   "note": "exact arithmetic, as for C29 to C31; rseek also passes clrad to find_peaks, and the statement about its table is for given peaks"
  }
 ]
}