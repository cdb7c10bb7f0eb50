c("C01", "proved", q(C, "fields_own_disjoint_bits"))
c("C02", "proved", q(C, "cut_frame cut_other_frame cutInt_frame"))
c("C03", "proved", q(C, "good_eq_not_bad bad_ok_iff bad_iff_exists cut_bool_accumulates good_bad_with_categories cut_mask_columns"))
c("C04", "proved", q(C, "clear_cut_exact clear_cut_all clear_cut_unknown"))
c("C05", "partial", q(C, "category_codes_injective default_category_code cut_categorical_roundtrip cut_categorical_conflict cut_categorical_unknown cut_bools_category select_several cut_categorical_shadowed_fails"),
  "Holds unless a boolean field has the same name as the categorical one; then it is false (cut_categorical_shadowed_fails).")
c("C06", "proved", q(C, "failed_call_changes_nothing register_boolean_succeeds_iff register_boolean_effect register_categorical_succeeds_iff register_categorical_effect categoryList_spec register_duplicate_names_fails"),
  "Also shown: a new name repeated in one call takes two bits.")
c("C07", "partial", q(C, "new_field_starts_good_partial new_category_starts_default_partial new_field_starts_good_fails new_category_starts_default_fails"),
  "False in general (bits of an unregistered field are recycled without clearing); proved for histories that unregister only unmarked fields.")
c("C08", "partial", q(C, "cut_parameter_pair cut_parameter_ranges_partial cut_parameter_none_unknown cut_parameter_open_range_fails"),
  "Pair form proved in full; sequence form for ranges with at least one limit; a (None, None) range is mishandled.")
N = "Mass.Names."
c("C09", "partial", q(N, "basename_channum_roundtrip basename_no_channum channum_some basename_directory Paths.split_spec Paths.directory_error chan_names_roundtrip_partial chan_names_fails"),
  "Round trip and converse proved; ljh_chan_names is wrong when the extension itself contains _chan<digit>.")
c("C10", "partial", q(N, "file_channum_agrees_partial Paths.int_iff file_channum_agrees_fails"),
  "Proved for names containing _chan once; false in general.")
c("C11", "partial", q(N, "remove_unpaired_keeps_valid remove_unpaired_exact_partial remove_unpaired_repeats_fails remove_unpaired_first_empty_fails"),
  "Exact result proved for lists without repeated channels, for every set iteration order; false with repeats or an empty first list.")
c("C12", "partial", q(N, "sort_names_spec sort_names_other strLe_iff sort_names_inclusion_fails"),
  "Proved without inclusion list; with one the call always raises.")
L = "Mass.Ljh."
c("C13", "proved", q(L, "header_scan header_scan_only header_scan_error"))
c("C14", "proved", q(L, "records_roundtrip records_crash header_crash version_spec"))
c("C15", "proved", q(L, "segments_partition segment_size_ok_iff"))
c("C16", "partial", q(L, "truncate_n_partial truncate_time_partial truncate_too_many truncate_refused truncate_header_fails"),
  "Proved for headers without an indented end-of-header look-alike; with one the output header is cut short (truncate_header_fails).")
c("C17", "partial", q(L, "copy_partial readRec_index copy_refused copy_presamples_fails copy_same_file_fails"),
  "Records, order and sample count proved; the pretrigger count is always reported 3 too high and the subframe settings are lost; copying onto the same file destroys it.")
c("C18", "proved", q(L, "invert_spec"))
c("C21", "partial", q(L, "off_covers_once multi_off_covers_once off_record_local off_empty_file_fails"),
  "Proved for non-empty files; a file without records raises ZeroDivisionError.")
c("C58", "proved", q(L, "frame_count_exact frame_count_fails"))
c("C59", "partial", q(L, "append_partial readRec_index append_after_crash_fails"),
  "Proved for a destination that ends on a record boundary and whose header line is complete; after a crash mid-record the appended records are misread.")
O = "Mass.Off."
c("C19", "partial", q(O, "layout_ok_iff record_size layout_tiles layout_offsets views_agree_partial views_agree_fails"),
  "Gap-free layout and size proved for all versions and basis counts; the descriptive view exists only for 3 or more basis elements (views_agree_fails).")
c("C20", "proved", q(O, "growing_file"))
c("C60", "partial", q(O, "header_offset_partial header_offset_fails"),
  "Proved for ASCII headers; with a multi-byte character in the header the records are read from the wrong place.")
S = "Mass.States."
c("C22", "partial", q(S, "batch_assigns_partial batch_bounds toDouble_mono toDouble_small batch_rounding_fails"),
  "Proved with all times rounded to float64, as the code does; at nanosecond precision it is false for present-day times (batch_rounding_fails).")
c("C23", "partial", q(S, "incremental_eq_batch_partial refresh_step incremental_repeat_fails incremental_return_fails incremental_excluded_fails incremental_late_label_fails incremental_late_pulse_fails refresh_unused_fails"),
  "False in six ways, each with a witness; proved for any number of refreshes in the circumstances named Calm.")
c("C24", "proved", q(S, "parse_incremental parse_incremental_explicit parse_content parse_auto_fails parse_midline_fails"),
  "Also shown: the states in use with 'auto' exclusions depend on the schedule, and a read in mid-line corrupts the list.")
c("C29", "partial", q(S, "index_methods_agree passing_pointwise index_empty_fails index_reversed_fails"),
  "Proved for every non-empty list of slices with start <= stop; an empty list raises, and a reversed slice makes the two methods differ.")
c("C61", "proved", q(S, "select_state select_states select_unknown"))
R = "Mass.Recipe."
c("C25", "partial", q(R, "craft_meaning_partial later_adds_harmless craft_function_value craft_function repeated_ingredient_fails"),
  "Proved for recipes whose ingredient lists have no repeats; with a repeat the arguments are lost (repeated_ingredient_fails).")
c("C26", "proved", q(R, "cut_bang_parity bang_other_refused"))
G = "Mass.Group."
c("C27", "proved", q(G, "off_loop_isolates off_loop_stops core_loop_isolates core_loop_stops"))
c("C28", "partial", q(G, "include_bad_partial include_bad_why_fails include_bad_nested_fails why_always_right"),
  "False for nested use or when the block marks channels; proved for plain blocks.")
c("C53", "partial", q(G, "bookkeeping legal_calls_succeed n_good_partial n_good_skipped_fails unknown_channel_fails"),
  "Bookkeeping invariant proved for all call histories; n_good_channels is wrong after some histories (n_good_skipped_fails).")
A = "Mass.Algo."
c("C30", "partial", q(A, "nearest_arrivals_partial mark_larger nearest_single_fails nearest_no_pulses_fails single_after python_arrivals_spec versions_agree_partial versions_tie_fails python_no_triggers_fails"),
  "Proved for every trigger count except one and at least one pulse; a single trigger gives wrong answers for pulses before it, the two versions differ on ties.")
c("C31", "proved", q(A, "flux_whole_quanta flux_equal_mod flux_succeeds"))
c("C62", "partial", q(A, "flux_no_jump_left_partial flux_small_jump_fails"),
  "Proved when the jump pattern is caught; false when the data span less than a quantum.")
c("C32", "partial", q(A, "stream_eq_lags direct_eq_lags direct_refuses stream_eq_direct coefs_eq_lags vertex_exact parabola_least_squares stream_short_fails"),
  "Exact arithmetic; the one-pass version reads out of bounds for records of fewer than 8 samples.")
T = "Mass.Stat."
c("C33", "proved", q(T, "shorth_shortest shorth_normalized shorth_half_fails shorth_mean_ties_fails shorth_single_normalized_fails"))
c("C34", "partial", q(T, "high_median_never_high high_median_partial high_median_equal_partial high_median_fails"),
  "False from six values on (right_weight omits the pivot); proved for up to five values, for equal weights, and as a one-sided bound in general.")
c("C35", "partial", q(T, "merge_partial merge_empty_first_values merge_empty_first_fails"),
  "Proved for a non-empty first list; with an empty first list all flags are wrong.")
I = "Mass.Lin."
c("C36", "proved", q(I, "mult_solve solve_mult mult_spec solve_posdef solve_asymmetric toeplitz_one_fails mult_int_fails"),
  "Symmetric and general matrices, exact arithmetic; positive definite matrices never meet a zero divisor. Also shown: a 1x1 matrix is refused, mult truncates for integer vectors.")
c("C37", "proved", q(I, "bracketR_spec bracketR_refuses bracketR_empty_fails"))
c("C38", "partial", q(I, "whiten_spec_partial whiten_inverse_partial whiten_delay_partial transpose_inverse applyWT_transpose_partial whiten_pure_AR_fails solveWT_int_fails"),
  "Proved for moving-average (and, for solveW, autoregressive) order at least 1; with order 0 the first element is divided twice. The transposed pair is proved for all orders.")
c("C63", "proved", q(I, "fivelag_shape normalize_refused fivelag_response fivelag_optimal fivelag_whitener_only_fails normalize_negative_fails"),
  "Without low-pass options, exact arithmetic. Also shown: a whitener alone does not suffice although documented; negative-going signals are not scaled to unit amplitude.")
c("C64", "partial", q(I, "ats_response_partial normalize_factor ats_optimal_partial ats_white_optimal_partial ats_whitener_only_fails"),
  "Fails with a whitener and no autocorrelation (TypeError); responses and optimality proved for both paths otherwise, cut windows included (whitener: leading coefficients not zero, moving-average order at least one; autocorrelation: positive definite noise matrix).")
K = "Mass.Calc."
D = "Mass.Line."
c("C39", "partial", q(K, "spline_interpolates spline_smooth spline_smooth2 spline_extrapolates spline_line spline_der3_fails"),
  "over exact real numbers: interpolation, der=1 and der=2 as true derivatives, straight lines outside; der=3 is wrong in the code (spline_der3_fails)")
c("C40", "partial", q(K, "Expr.derivative_partial Expr.simplify_partial Expr.simplify_fails Expr.number_operand_fails Expr.smul_fuel"),
  "true at every regular point of every tree over the reals; the claim fails for fractional powers of plain powers at negative points (simplify_fails) and for a bare number as right operand (number_operand_fails)")
c("C41", "partial", q(K, "Cal.table_aligned Cal.resolve_spec Cal.add_accepted Cal.names_step_partial Cal.names_partial Cal.names_fails"),
  "Alignment holds after every history. Names hold unless a point within the energy error of another name is added: it overwrites that point but keeps the old name (names_fails).")
c("C42", "partial", q(K, "Cal.remove_prefix Cal.remove_energy_partial Cal.remove_energy_fails"), "prefix removal proved in full; removal by energy fails on some tables (remove_energy_fails), proved otherwise")
c("C43", "partial", q(K, "Cal.rejected_partial Cal.no_overwrite Cal.rejected_fails"), "the point that makes the table non-monotone stays in it (rejected_fails); other refusals leave the table unchanged")
c("C44", "partial", q(K, "Cal.constructor_settings Cal.constructor_nonlinearity_fails Cal.nonlinearity_ignored_fails Cal.load_partial Cal.load_fails"),
  "the constructor ignores the nonlinearity for loglog curves; loading does not restore everything (load_fails)")
c("C65", "proved", q(K, "Cal.accepted_monotone Cal.consistent_accepted"))
c("C66", "partial", q(K, "Cal.curve_through_points Cal.linear0_origin Cal.inverse_at_points Cal.inverse_increasing Cal.one_point_gain Cal.one_point_loglog Cal.gain_monotone_fails"),
  "over the reals. Gain curves need the range check of the code to pass: for some monotone tables it raises ValueError (gain_monotone_fails). The approximating splines (approximate=True with 3 or more points) are not modelled.")
c("C67", "partial", q(K, "Cal.empty_identity_partial Cal.empty_fails"), "true for every curve type but loglog, and for loglog with nonlinearity 1.15; for loglog with any other nonlinearity, the default among them, the first use raises ValueError")
c("C45", "proved", q(K, "Fit.fit_ranges Fit.fit_ranges_refused Fit.fit_ranges_ph"), "exact arithmetic; unknown line names fail at once in the model; widths at least 0; the slopes returned beside the ranges are not modelled")
c("C68", "proved", q(K, "Fit.assignment_best Fit.assignment_fails_only Fit.assignment_linear"), "misfits compared by their squares; equal peak positions (NaN in the code) are outside the claim")
c("C46", "proved", q(K, "Corr.drift Corr.drift_removes Corr.phase_piecewise Corr.phase_nonpositive Corr.phase_zero Corr.phase_at_peak Corr.phase_continuous Corr.phase_list"), "exact arithmetic; the per-peak corrections are arbitrary functions, continuous where continuity is claimed")
c("C70", "partial", q(K, "Corr.save_load_partial Corr.save_refused Corr.save_load_fails"), "overwriting a correction that has more levels leaves the surplus of the old one in place (save_load_fails)")
c("C57", "proved", q(T, "Hist.histogram_bins Hist.histogram_refused Hist.one_bin Hist.histogram_total Hist.channel_hist Hist.off_hist Hist.group_hist Hist.group_hist_same_number_fails"), "channels have distinct numbers; with equal numbers one of the two is lost (group_hist_same_number_fails)")
c("C56", "partial", q(T, "FirstN.first_n_good FirstN.limit_mask_partial FirstN.auto_mask_partial FirstN.median_middle FirstN.auto_mask_fails"), "first_n_good_pulses in full; the mask limit of the automatic average for limits of at least 1: limit 0 still uses one pulse if the first pulse passes")
c("C71", "partial", q(T, "FirstN.average_pulse FirstN.average_pulse_kept FirstN.average_pretrigger_zero_fails"), "the documented zero pretrigger holds only on average")
c("C54", "proved", q(T, "Autocorr.padded_length Autocorr.padded_even"), "the power of two is exact in the model; the code finds it with a floating-point logarithm")
c("C69", "partial", q(T, "Autocorr.cont_autocorr Autocorr.broken_autocorr_partial Autocorr.cont_lags_refused Autocorr.cont_one_lag_fails Autocorr.cont_range_fails Autocorr.cont_use_records_fails Autocorr.broken_none_fails"),
  "proved over the reals for as many lags as samples in a record (what compute_noise asks for), FFT included. data_samples selects records instead of samples, use_records is ignored, other numbers of lags are refused or (one lag) spread over all entries, and separate records none of which is quiet give NaN.")
c("C47", "partial", q(T, "Spectrum.add_long Spectrum.add_long_split Spectrum.overlap_offsets Spectrum.add_long_overlap_partial Spectrum.add_long_overlap_fails Spectrum.overlap_split_fails Spectrum.add_halves Spectrum.compute_spectrum_tail_fails"),
  "true without overlap, and with overlap for at least a full segment of data; shorter data raise ValueError, splitting overlapped data loses the segment across the cut, computeSpectrum never uses the last half segment")
c("C72", "partial", q(T, "Spectrum.rebin_partial Spectrum.rebin_fails"), "true exactly for nbins up to (m+1)/2; above that the last bin is NaN")
c("C73", "proved", q(T, "Spectrum.psd_normalised"), "real arithmetic, transform as numpy documents it")
c("C74", "partial", q(T, "Spectrum.noise_spectrum_partial Spectrum.noise_spectrum_odd_fails Spectrum.noise_resegment_fails"), "true for separate records of even length; odd lengths use no record at all, resegmenting fails unless the length divides the data")
c("C48", "partial", q(I, "PM.tsvd_dual PM.flip_dual PM.extend_dual PM.tsvd_degenerate_fails"), "true whenever the triangular factor of the residuals is invertible; residuals of lower rank than the number of components asked for break the duality (tsvd_degenerate_fails)")
c("C49", "partial", q(I, "PM.save_keeps_partial PM.save_inverted_twice_fails"), "true without save_inverted; an inverted save flips the signs of the model in memory as well, so a second save writes the opposite")
c("C75", "partial", q(I, "PM.save_load_partial PM.save_load_memory PM.load_version PM.save_load_fails"), "True without save_inverted. An inverted save is loaded with the signs of all components but the first flipped (save_load_fails); it equals the model in memory after the save.")
c("C76", "partial", q(I, "PM.labels_partial PM.labels_fails"), "one label per component, all different; when there are five-lag components the first of them is called an SVD component (labels_fails)")
c("C50", "partial", q(I, "Kink.kink_coefficients Kink.kink_optimal_partial Kink.kink_defined Kink.kink_refused Kink.kink_unsorted_fails"), "coefficients are optimal for all data; the reported model and X2 belong to the data only if x is sorted (kink_unsorted_fails)")
c("C51", "partial", q(T, "Crosstalk.flags_partial Crosstalk.flags_closed_partial Crosstalk.flags_sound Crosstalk.flags_overlap_fails Crosstalk.flags_edge_fails Neighbors.flagging_fails"),
  "a flagged pulse always has a neighbour in its window; the converse holds when windows do not overlap (and, except for the last pulse, with the end of the window excluded); overlapping windows miss pulses (flags_overlap_fails). The list of neighbours is an input.")
c("C52", "partial", q(T, "Crosstalk.veto_partial Crosstalk.veto_overflow_fails Crosstalk.veto_rounding_fails Crosstalk.veto_before_start_fails"),
  "true for times in whole ms within the table and fewer than 128 coincident hits; the 8-bit counter overflows, fractional times are truncated in the table and rounded in the query, times before the start read the end of the table")
c("C55", "partial", q(A, "Summary.postpeak_partial Summary.peak_partial Summary.postpeak_short_fails Summary.peak_index_fails"),
  "the derivative holds for records with more than six samples from the usual peak on, otherwise LONG_MIN is stored; the peak index is the first greatest sample of the whole record, also if it is before the trigger")
c("C77", "proved", q(A, "Summary.statistics Summary.summary_ignore_fails"), "for fewer ignored than pretrigger samples (otherwise summary_ignore_fails), records of less than 65536 samples, exact arithmetic; rms values by their squares")
c("C78", "partial", q(A, "Summary.peak_partial Summary.summary_fails_only Summary.summary_zero_fails Summary.prompt_short_fails"),
  "a record whose greatest sample lies between the pretrigger mean and its rounded value raises ZeroDivisionError (and only such a record does); records ending before the prompt window divide by six all the same")
c("C79", "partial", q(A, "Summary.rise_spec Summary.rise_linear Summary.rise_positive_partial Summary.rise_negative_fails"), "positive only if the sample before the trigger does not exceed the one at the trigger")
c("C80", "partial", q(A, "Summary.summarize_all_partial Summary.summarize_many_fails Summary.summarize_same_fails"), "true below 65536 records per segment; beyond that an error, or one summary for all")
c("C81", "partial", q(A, "Summary.numpy_partial Summary.numpy_fails"), "agree on pretrigger mean and rms, shift flag and minimum; differ on the rest. Promptness is C160, the rise time of the numpy version C128.")
c("C82", "partial", q(A, "Summary.versions_agree_partial Summary.summary_max_deriv Summary.kernel_length_fails Summary.short_record_fails"), "true for kernels of five coefficients and records of at least seven samples (five without spike rejection)")
c("C83", "proved", q(S, "read_states read_bad_line"), "ASCII text, times written as plain decimal numbers")
c("C84", "proved", q(O, "open_iff open_no_header layout_offsets"), "json.loads is an input of the model")
c("C85", "partial", q(T, "qscale_partial pairDist_unique qscale_small qFactor_spec qscale_constant_fails qscale_column_fails qscale_wrong_fails qscale_single_fails"),
  "whatever is returned is right if no trial is made in the first column (there the column number minus one overflows: an error or a wrong distance), for up to 65537 data and without rounding to single precision; that the loop ends with a result is proved for up to five data only and false for constant data")
c("C86", "partial", q(T, "bisquare_equation bisquare_outliers huber_equation means_perm means_affine bisquare_far means_ties_fails huber_weight_fails"),
  "true of what is returned, except that the Huber mean does give weight to data beyond k, contrary to its description. With the default tolerance nothing is returned if more than half of the data are equal.")
c("C87", "proved", q(T, "trimean_affine trimean_perm trimean_breakdown trimean_median mad_half mad_scale"), "exact arithmetic, percentiles as numpy documents them (linear interpolation)")
c("C88", "partial", q(T, "laplace_entropy_partial laplace_entropy_single laplace_entropy_gap_fails"), "exact mode only (for up to 200000 values by default), real arithmetic; with double precision two neighbouring values more than about 746 scales apart end in a division by zero")
c("C89", "proved", q(T, "cross_entropy_exact kl_divergence_exact kde_density topHat_pos"), "Real arithmetic. Exact mode is the default for up to 200000 values (Approx.mode_spec); for approximate mode see C136.")
c("C90", "proved", q(D, "line_density addline_ok quickLine_density"), "real arithmetic; scipy's wofz as documented (an integral); a component with neither width nor resolution has no density and is excluded. Registering lines by name is not modelled")
c("C91", "partial", q(D, "choose_probability draw_entry rvs_ok rvs_reproducible_fails"), "replacements of non-positive variates come from the module's generator, not from the one passed; termination of the replacements is not claimed")
c("C92", "proved", q(D, "smear_tails interp_point"), "real arithmetic, exact transforms as numpy documents them")
c("C93", "partial", q(D, "model_clean model_clean_units model_tails_scale_fails model_tails_units_fails"), "true without tails and for positive dph_de; a model that can have tails has dph_de squared times the counts, and tails dph_de times as long as said. The peak energy of the line is an input")
c("C94", "proved", q(D, "residual_likelihood residual_sign"), "real arithmetic, counts that the model gives a positive probability")
c("C95", "partial", q(K, "Cal.convert_current Cal.uncertainty_current Cal.uncertainty_stale_fails Cal.no_points_fails"), "true with points, and for uncertainties with at least three points; with fewer, ph2uncertainty gives a former curve's uncertainty or raises. Without points, conversions raise once a setting has been changed. Whether making a curve fails is any function of the data")
c("C96", "partial", q(K, "Cal.convert_keeps Cal.convert_changes_errors_fails"), "except that an approximating curve of three or more points replaces errors that are not positive for good")
c("C97", "partial", q(K, "Cal.drop_one Cal.drop_one_few_fails"), "with one point, and for three curve types with two, it raises instead")
c("C98", "partial", q(K, "Cal.on_curve Cal.point_error Cal.uncertainty_partial Cal.uncertainty_loglog_fails Cal.uncertainty_loggain_fails"), "true of the points' errors; the uncertainty at calibration points is right for linear, linear+0, gain and invgain curves and wrong for loglog and loggain. The fitted spline, its variance and the slope used for the errors are inputs; real arithmetic")
c("C99", "partial", q(K, "Gpr.gpr_best Gpr.gpr_line Gpr.variance_nonneg Gpr.gpr_covariance Gpr.covariance_symm Gpr.kernel_cov Gpr.gpr_works Gpr.variance_call Gpr.negative_abscissa_fails Gpr.variance_scalar_fails"), "true whenever the matrix has a Cholesky factor, as it always has if no abscissa is negative; with negative abscissas the constructor may raise instead, and variance of a single number raises. Real arithmetic; sigmaf and the combined errors are inputs, LAPACK's Cholesky and solve as documented")
c("C100", "proved", q(K, "Gpr.gpr_smoothest Gpr.gpr_penalty"), "whenever construction succeeds (C99); real arithmetic; sigmaf and the combined errors are inputs")
c("C101", "partial", q(C, "apply_cuts apply_cuts_empty median_spec standard_control first_pulse apply_unregistered apply_force_fails apply_again_fails"),
  "apply_cuts gives the state after the call for every reachable state. forceNew is ignored (apply_force_fails), and applying the same cuts again can cut more (apply_again_fails). Infinity is any number above the limits.")
c("C102", "partial", q(C, "auto_cuts_partial auto_skip auto_after_clear rms_limit auto_deriv_fails auto_no_noise_fails auto_reload_fails auto_model_fails auto_clear_reopen_fails"),
  "auto_cuts_partial: everything but the derivative limit, which is that of the last noise record only (auto_deriv_fails). Stored cuts lose lower limits and statistics, and clear_cuts leaves them in the file.")
SS = "Mass.Calc.SSpline."
BS = "Mass.Calc.BSpline."
SM = "Mass.Calc.Smooth."
c("C103", "partial", q(SS, "spline_result eval_ideal any_curve straight_data_fails flat_end_fails") + " " + q(SM, "omega_integral smoothest smooth_result"),
  "In real numbers, with brentq as a root finder that reports equal signs and finds a zero of a continuous function. Data on a line raise ValueError (straight_data_fails), and the derivative beyond a horizontal end is wrong (flat_end_fails). The quadratic fit that turns x errors into y errors is an input; der=3 is left out.")
c("C104", "partial", q(BS, "basisCall_spec raw_cub raw_indep raw2_low raw2_high basis_natural basis_det expand_curve") + " " + q(SS, "derivative_scaled derivative_fails three_knots_fails log_derivative_fails log_dx_fails"),
  "For four or more knots the basis is as stated. With three it is not (three_knots_fails); derivative() works in the wrong coordinates (derivative_fails), the log version returns the exponential of the derivative and changes the caller's array. splev is modelled by the Cox-de Boor recursion.")
c("C105", "partial", q(A, "Trig.triggers_roundtrip Trig.binary_triggers Trig.hdf5_triggers Trig.triggers_again Trig.off_delays_partial Trig.off_group Trig.calc_timing_fails Trig.off_divisions_fails Trig.off_key_fails Trig.off_empty_channel_fails"),
  "Reading is proved in full. Timing is right for OFF files with as many rows as subframes and not exactly one trigger (C30); calc_external_trigger_timing of a TESGroup always raises (calc_timing_fails), other numbers of subframes are ignored (off_divisions_fails, off_key_fails), one empty channel stops the group (off_empty_channel_fails). Comment lines are ASCII.")
c("C106", "partial", q(T, "Neighbors.neighbors_list Neighbors.nearer_iff Neighbors.neighbor_numbers Neighbors.selected_neighbors Neighbors.list_kept Neighbors.list_absent Neighbors.gap_fails Neighbors.flagging_fails"),
  "The list is proved in full. n counts the distances of a full grid, not of existing channels (gap_fails), and the flags are never set (flagging_fails).")
c("C107", "partial", q(K, "linterp_partial linterp_accepts linterp_scale_fails"),
  "linterp_partial: exactly equal knots. Knots up to 1/1000 apart are accepted as equal, whatever their scale (linterp_scale_fails). The third derivative is the class's own (C39).")
c("C108", "partial", q(I, "SavGol.savgol_spec SavGol.savgol_errors SavGol.savgol_polynomial SavGol.savgol_sign_fails SavGol.savgol_factorial_fails SavGol.savgol_end_fails"),
  "savgol_spec characterises the output half a window from the ends: smoothing is as stated, derivatives of order d are (-1)^d / d! times the derivative of the best polynomial (savgol_sign_fails, savgol_factorial_fails). At the ends the padding is wrong for falling data (savgol_end_fails). The pseudo-inverse of the full-rank matrix is its formula.")
c("C109", "partial", q(A, "FilterData.filter_ats FilterData.filter_ats_transform_partial FilterData.filter_noshift FilterData.filter_5lag_python FilterData.filter_5lag_partial FilterData.filter_kept FilterData.filter_refuses FilterData.filter_parts FilterData.late_trigger FilterData.value_scales FilterData.ats_transform_fails FilterData.cython_transform_fails FilterData.interrupted_fails"),
  "Transforms: as stated except with an arrival-time-safe filter one sample shorter than the records on files of several segments, which always raises (ats_transform_fails), and with a five-lag filter by default, where the transform is ignored (cython_transform_fails). Results of an interrupted run are taken for complete (interrupted_fails). Rounding to float32 left out.")
c("C110", "partial", q(K, "TimeDrift.drift_entropy TimeDrift.drift_kept TimeDrift.drift_degrees TimeDrift.drift_pulses TimeDrift.drift_range TimeDrift.drift_mean TimeDrift.drift_succeeds TimeDrift.time_origin TimeDrift.method_stores TimeDrift.coefficients_fails TimeDrift.settings_fails"),
  "All as stated except: the coefficients stay those of a rejected correction (coefficients_fails; drift_kept shows when they agree), and the method ignores its three settings (settings_fails). Entropy estimate and minimizer are arbitrary functions; Legendre polynomials by Rodrigues' formula; the spline copy of the model, which is never returned, is left out.")
c("C111", "partial", q(R, "Cuts.setDefault_spec Cuts.cutAdd_spec Cuts.default_usable Cuts.group_default_partial Cuts.group_named Cuts.load_saved_partial Cuts.load_unknown Cuts.cutAdd_fails Cuts.group_set_default_fails Cuts.marked_good_fails Cuts.load_default_fails Cuts.negated_fails"),
  "All as stated except: cutAdd that raises on the default has still added the recipe (cutAdd_fails), a group can never set the default (group_set_default_fails), defaults differ after a channel is marked good again (marked_good_fails; group_default_partial covers the histories through the group only), defaults are not saved and loading can leave a default that does not exist (load_default_fails), and negated cuts are refused by group fits (negated_fails).")
c("C112", "partial", q(K, "StdDevCut.judged_by_bin_partial StdDevCut.judged_by_last StdDevCut.low_rejected_partial StdDevCut.threshold_robust StdDevCut.half_below_partial StdDevCut.passes_mono StdDevCut.passes_scale StdDevCut.learn_ok StdDevCut.all_rejected_fails StdDevCut.upper_half_fails StdDevCut.single_fails StdDevCut.equal_fails StdDevCut.limit_fails"),
  "All as stated except: pulses in the upper half of a bin are judged by the next bin (upper_half_fails), sparse and empty bins are not left out (single_fails), equal residuals are all rejected (equal_fails), limits above half a bin (limit_fails), and with pulses below the bin size only, or fewer than five, every pulse is rejected (all_rejected_fails). Exact numbers.")
c("C113", "partial", q(K, "Plan.rough_points_partial Plan.lineFor_spec Plan.plan_aligned Plan.unknown_line Plan.calibrate_exact_partial Plan.calibrate_points Plan.stuck_fails Plan.same_line_fails Plan.energy_ignored_fails Plan.other_name_fails Plan.no_points_fails"),
  "All as stated for points with energies more than 0.01 apart, different names and positions in the order of the energies, except: a point that does not fit the others stays in the plan and makes every later call fail (stuck_fails), the same line in two states counts once (same_line_fails), an energy given for a known line is ignored (energy_ignored_fails), other names are changed (other_name_fails), and a calibration without points is installed (no_points_fails). Fits and conversions are arbitrary functions, numbers exact.")
c("C114", "partial", q(K, "Quality.bins_spec Quality.linefit_spec Quality.linefit_ok_partial Quality.check_spec_partial Quality.check_error Quality.both_tolerances Quality.check_fit Quality.check_no_errorbar Quality.drop_one_spec_partial Quality.group_results Quality.group_marks Quality.group_file_partial Quality.group_no_key_error Quality.other_attr_fails Quality.unused_arguments_fails Quality.cut_ignored_fails Quality.failed_fit_fails Quality.sigma_ignored_fails Quality.absolute_raises_fails Quality.no_success_fails Quality.no_errorbars_fails"),
  "All as stated except: attributes other than energies can never be fitted (other_attr_fails), require_errorbars and params_fixed do nothing (unused_arguments_fails), the check ignores the cut named (cut_ignored_fails) and fits that failed (failed_fit_fails), a threshold in sigmas alone is ignored (sigma_ignored_fails) and an absolute one alone raises (absolute_raises_fails), a group without successful fit raises (no_success_fails), a fit without error bars stops the writing of the file (no_errorbars_fails). Histograms and fits are arbitrary functions, numbers exact.")
c("C115", "partial", q(K, "Align.peak_bin Align.partner_exists Align.partner_mono Align.outside_refused Align.gain_recovered_partial Align.cal_points_partial Align.above_refused Align.aligned_plan Align.curvature_spec Align.below_fails Align.same_partner_fails"),
  "All as stated except: a partner below the first bin is taken to be in a bin counted from the end (below_fails); partners can coincide, which gives two points at one position (same_partner_fails). The path is any list with the properties of a warping path; that equal histograms are matched bin by bin is an assumption; bins evenly spaced and wider than 0.01, numbers exact.")
c("C116", "partial", q(S, "Export.alias_spec Export.labels_nodup_iff Export.absorb_nodup Export.hist_default Export.plot_default_partial Export.hists_export_partial Export.hists_export_only Export.export_counts Export.export_twice Export.group_export_partial Export.label_export_partial Export.merged_plot_fails Export.plot_no_states_fails Export.merged_export_fails Export.reserved_name_fails Export.no_channels_fails Export.no_states_fails Export.revisited_fails Export.revisited_empty_fails"),
  "All as stated except: two labels given one name stay two labels, so a default plot counts their pulses twice (merged_plot_fails) and exports end with an error (merged_export_fails; the conditions are necessary by hists_export_only); states named like a summary dataset cannot be exported (reserved_name_fails); no labels or no channels give errors (plot_no_states_fails, no_channels_fails, no_states_fails); a state visited twice cannot be exported with trigger times (revisited_fails). HDF5 is a list of datasets by path, where a name in use is refused; names contain no slash; cuts look at each pulse by itself; the histogram function is arbitrary.")
c("C117", "partial", q(K, "Efficiency.film_thickness Efficiency.film_area Efficiency.film_refused Efficiency.film_complement Efficiency.thicker Efficiency.stack_product Efficiency.stack_nested Efficiency.empty_stack Efficiency.add_new_partial Efficiency.add_by_name Efficiency.efficiency_range Efficiency.oxide_film Efficiency.one_thickness_fails Efficiency.same_name_fails Efficiency.film_add_fails Efficiency.int_fill_fails Efficiency.polymer_fails"),
  "All as stated except: one thickness for several materials counts for the first only (one_thickness_fails); for films with polymer the thicknesses are assigned to the wrong elements and the last element is left out (polymer_fails); a component replaces one of the same name (same_name_fails) and does nothing when added to a film (film_add_fails); a fill fraction of type int is refused (int_fill_fails). Real numbers, nominal values only, one energy at a time; attenuation of xraydb is an arbitrary function proportional to the density; stacks do not contain themselves.")
c("C118", "partial", q(T, "Savgol.smooth_poly_partial Savgol.smooth_rising Savgol.pseudo_exists Savgol.pinv_unique Savgol.savgol_refused Savgol.falling_fails Savgol.derivative_sign_fails Savgol.second_derivative_fails Savgol.short_fails Savgol.stepped_edges Savgol.stepped_area Savgol.stepped_centers Savgol.one_bin_fails Savgol.unequal_fails PoissonHist.band_spec PoissonHist.uneven_fails PoissonHist.poisson_even"),
  "Smoothing as stated, but a falling line is bent at its ends (falling_fails); derivative d comes out as (-1)^d / d! times the derivative (smooth_poly_partial, derivative_sign_fails, second_derivative_fails); signals shorter than half a window give an output of another length (short_fails); one bin given by its center is refused (one_bin_fails); with error bars, bins of unequal width are drawn with wrong edges (uneven_fails). The pseudoinverse is any function meeting the four conditions on the matrices used; exact numbers.")
c("C119", "partial", q(K, "Auto.peaks_found Auto.mem_localMaxima Auto.sort_lines Auto.guess_spec Auto.guess_perm Auto.fit_all Auto.too_many_bins Auto.fit_lines Auto.calibrate_new Auto.calibrate_points Auto.calibrate_failed Auto.calibrate_found Auto.calibrate_found_only Auto.calibrate_order Auto.plateau_fails Auto.excl_fails Auto.found_fails Auto.bins_fails"),
  "All as stated except: peaks with two equal highest samples are missed (plateau_fails); excluded lines are ignored (excl_fails); bin sizes given one for each line stay in the order given (bins_fails); asking for a calibration that exists leaves the energies of whatever calibration was used last (found_fails). Points are exactly one for each line if names differ and energies are more than 0.01 eV apart. The smeared histogram, the fit of one line and the curves are arbitrary functions; the order of peaks of equal height is not that of numpy.")
c("C120", "partial", q(I, "Low.bandLimit_spectrum Low.bandLimit_sum Low.bandLimit_energy Low.bandLimit_hard Low.bandLimit_idempotent Low.bandLimit_nyquist Low.bandLimit_mean Low.compute5_plain Low.fivelag_lowpass_response Low.fivelag_lowpass_ok Low.ats_plain Low.ats_lowpass_dc Low.ats_lowpass_ok Low.normalize1_unit Low.whitenMatrix_exists Low.whitenMatrix_whiten_partial Low.three_db_fails Low.ats_lowpass_response_fails Low.ats_no_sample_time_fails Low.fourier_fails Low.fourier_assertion_fails Low.whitenMatrix_pure_AR_fails"),
  "Proved for the low-pass factor and the five-lag filters. False in the code: f_3db is the 6 dB point (three_db_fails); compute_ats does not normalise again, so a low-pass filtered one does not return the pulse height (ats_lowpass_response_fails), and without a sample time it raises ZeroDivisionError (ats_no_sample_time_fails); compute_fourier always raises (fourier_fails); the whitening matrix differs from whiten for models with one MA coefficient (whitenMatrix_pure_AR_fails). The sum is unchanged for fmax of 0 or more. A five-lag filter with all weights zero (NaN in numpy) is excluded by hypothesis. Transforms are exact; the predicted resolution is not modelled.")
c("C121", "partial", q(I, "File.save_spec File.ats_reopen_partial File.five_reopen_partial File.five63_peakFree File.untyped_ats File.existing_kept File.five_failed File.ats_failed_partial File.interrupted File.five_cuts_fails File.five_peak_fails File.five_ignore_fails File.interrupted_open_fails File.skipped_fails File.reopened_model_fails File.nan_filter_fails"),
  "Proved: the weights, arrival-time weights, peak, variance, resolution and settings of arrival-time-safe filters; the weights and variance of five-lag filters without cut windows and without ignored pretrigger samples; the file after a failed computation; no wrong filter after an interruption. False in the code: a five-lag filter is computed again on opening, without its cut windows (five_cuts_fails), with another peak (five_peak_fails), with all pretrigger samples (five_ignore_fails); the pulse shape of an arrival-time-safe filter is not kept (reopened_model_fails); an interrupted save can make the channel impossible to open (interrupted_open_fails) or keep a filter from being computed without any message (skipped_fails); a NaN filter replaces the previous one in memory (nan_filter_fails). The filter calculations are arbitrary functions (the reopening theorem for five-lag filters assumes that their weights do not depend on the nominal peak and the noise spectrum, shown for the calculation of C63); single HDF5 calls are atomic.")
c("C122", "partial", q(S, "Cat.register_tabled Cat.states_selected Cat.states_new_file_partial Cat.states_again Cat.grown_fails Cat.auto_exclude_fails Cat.alias_fails Cat.uncategorized_fails Cat.gap_fails"),
  "Proved: new HDF5 files, and files opened again, as long as the list of states is the one that was registered, no state is called 'uncategorized', and the cut bits in use were the lowest ones; for sorted times. False in the code: states added to the file after the first opening are selected as others (grown_fails, auto_exclude_fails), aliases confuse the states (alias_fails), so does a state called 'uncategorized' (uncategorized_fails), and so do gaps in the table of cut bits (gap_fails). Times are compared after rounding by a monotone function; labels are turned into strings by an arbitrary function that is one-to-one on them.")
c("C123", "partial", q(K, "Chain.drift_done Chain.phase_done Chain.calibrate_done Chain.energy_again_partial Chain.chain Chain.unforced_kept Chain.stale_drift_fails Chain.stale_phase_fails Chain.other_quantity_fails Chain.calibrate_again_fails Chain.same_name_fails Chain.failed_phase_fails Chain.interrupted_drift_fails Chain.phase_corr_fails"),
  "Proved: what each call computes; the chain in a new file; that unforced calls never change existing values over any history and number of sessions; that a failed calibrate changes nothing; the energies in a later session (if a loaded calibration has the same curve, C44). False in the code: corrections are skipped without an error though the data below them are new (stale_drift_fails, stale_phase_fails) or another quantity was asked for (other_quantity_fails); calibrate does not convert if the calibration exists (calibrate_again_fails), and two quantities can share a name (same_name_fails); a phase correction that raises makes later calls do nothing (failed_phase_fails); an interrupted forced drift correction (interrupted_drift_fails); p_filt_phase_corr is not the corrected phase (phase_corr_fails). The learning functions are arbitrary; exact arithmetic between roundings to the stored type.")
c("C124", "partial", q(K, "PhaseLearn.peaks_found PhaseLearn.learn_perm PhaseLearn.learn_curves PhaseLearn.learn_none PhaseLearn.nGroups_bounds PhaseLearn.window_mem PhaseLearn.window_disjoint PhaseLearn.knots_none PhaseLearn.groupOf_eq PhaseLearn.one_group PhaseLearn.learn_keeps_calibration_partial PhaseLearn.highest_dropped_fails PhaseLearn.forty_bins_fails PhaseLearn.no_peaks_fails PhaseLearn.same_phase_fails PhaseLearn.two_phases_fails PhaseLearn.calibration_changed_fails"),
  "Proved: peaks are increasing, have enough counts and are more than ten bins apart, none is missed except near one found; curves per peak, independent of the order given; groups by phase; the calibration is unchanged if converted before or in order. False in the code: the lowest candidates are taken first (highest_dropped_fails), ten bins rather than forty (forty_bins_fails), IndexError if there is none (no_peaks_fails), empty groups give NaN knots (same_phase_fails, two_phases_fails), and the array of the calibration is sorted in place, away from its energies (calibration_changed_fails). The wavelet transform, the percentiles and the minimization of the entropy are arbitrary functions.")
c("C125", "partial", q(A, "TimeCorr.clusters_sorted TimeCorr.lags_spec TimeCorr.model_at_median TimeCorr.interpolates TimeCorr.extrapolation_limited TimeCorr.one_curve TimeCorr.lengths_refused TimeCorr.lengths_fails TimeCorr.one_cluster_fails TimeCorr.copy_fails TimeCorr.whole_numbers_fails"),
  "Proved: renumbering, the five lags for filters four samples shorter, interpolation and limited extrapolation. False in the code: other filter lengths (lengths_fails), one cluster (one_cluster_fails), copying (copy_fails), arrival times given as whole numbers (whole_numbers_fails). Clustering, polynomial fits and the splines are not modelled; exact arithmetic.")
c("C126", "partial", q(T, "Smoother.nbins_spec Smoother.conv_fft Smoother.kern_spec Smoother.smooth_spec Smoother.contents_total Smoother.smooth_total Smoother.smooth_bounds Smoother.drift_entropy Smoother.drift_default Smoother.drift_perm Smoother.drift_shift Smoother.wraps_fails Smoother.thrown_out_fails"),
  "Proved, including the convolution theorem for the transforms used. False in the code: smoothing joins the two ends (wraps_fails), and the measured entropy falls when pulses are thrown out of the limits (thrown_out_fails). The minimizer is any function whose answer is no worse than the first starting point; medians and percentiles are arbitrary functions with the symmetry asked for. Exact arithmetic.")
c("C127", "partial", q(I, "ChanNoise.white_spec ChanNoise.noise_kept ChanNoise.compute_spec ChanNoise.compute_same ChanNoise.compute_atomic ChanNoise.run_sized ChanNoise.check_spec ChanNoise.filter_scale ChanNoise.white_filter ChanNoise.zero_variance_fails ChanNoise.measured_ignored_fails ChanNoise.old_name_fails ChanNoise.no_step_fails ChanNoise.long_noise_fails ChanNoise.short_noise_fails"),
  "Proved for all histories. False in the code: variance zero is not remembered, measured noise is silently not used after white noise was assumed, compute_noise_spectra always raises, white noise has no frequency step, and noise records of another length than the pulse records give a cut-off spectrum or an error. What the noise file gives is any lists of the right lengths (computed as in C69 and C74). Exact arithmetic; filters without low-pass options.")
c("C128", "partial", q(A, "RiseTime.rise_affine RiseTime.rise_spec RiseTime.rise_lower RiseTime.rel_bounds RiseTime.batch_independent RiseTime.rise_perm RiseTime.ramp_exact RiseTime.two_samples_fails RiseTime.one_sample_fails RiseTime.batch_fails RiseTime.marker_fails"),
  "Proved for pulses with at least two samples between 10% and 90% of the peak, in exact arithmetic. False in the code: with one such sample the rise time is zero; with none it is zero or one second, depending on the other pulses of the batch; the failure mark depends on the batch too, and constant records give NaN.")
c("C129", "partial", q(D, "Fit.guess_spec Fit.pbin_spec Fit.width_spec Fit.background_spec Fit.guess_affine Fit.method_spec Fit.weights_refused Fit.validate_spec Fit.fit_bins Fit.fit_one_bin Fit.bins_mono Fit.same_prefix_fails Fit.zero_width_fails Fit.background_fails Fit.refit_start_fails"),
  "Proved in exact arithmetic, for increasing bins, positive gains and any minimizer; the limits lmfit puts on parameters are not modelled. False in the code: a line plus a component that is no line, with the same prefix, always raises AttributeError after the fit; the guessed width is zero if one bin holds both quartiles; up to 20 bins the background is always 0.1; leastsq_refit without a set of parameters starts again from the beginning.")
c("C130", "partial", q(D, "Asd.parse_levelName Asd.available_spec Asd.wanted_iff Asd.single_spec Asd.lineName_inj Asd.addLines_spec Asd.addLines_max Asd.addRow_spec Asd.rows_spec Asd.write_fails Asd.blank_fails Asd.negative_limit_fails Asd.units_fails Asd.limit_fails Asd.nan_line_fails Asd.again_fails"),
  "Proved for levels whose configuration and term are single words. False in the code: converting a database raises an exception for every table with a level, so nothing is written; levels with a blank in their configuration are never found by a search; a negative limit is no limit; unknown units give None or an empty dictionary; without a ground state a limit of n gives n + 1 lines; levels of unknown energy get a line too; adding lines a second time raises ValueError.")
c("C131", "partial", q(D, "Hci.composite_scale Hci.composite_peak Hci.merge_keeps Hci.peak_free Hci.doublet_prefix Hci.hLike_spec Hci.background_fails Hci.circular_fails Hci.parenthesis_fails Hci.same_prefix_fails"),
  "Proved for components with different prefixes; that lmfit keeps the expressions of the parts of a sum is assumed. False in the code: a linear background for a composite model always raises AttributeError (the model does not exist); choosing another peak component in a composite of composites gives circular expressions; names with parentheses give no valid prefix, and names differing only in stars or dots the same one.")
c("C132", "partial", q(A, "CountRate.hist_total CountRate.rate_spec CountRate.good_le CountRate.rate_shift CountRate.last_pulse_fails CountRate.short_run_fails CountRate.uneven_fails CountRate.order_fails"),
  "Proved in exact arithmetic for positive widths and edges that do not decrease. False in the code: the pulses after the last full edge are not counted, so that the last pulse never is and up to one bin of the run is left out; a run not longer than one bin raises IndexError; rates for uneven edges use the width of the first bin; pulses out of order are lost.")
c("C133", "partial", q(C, "Smart.smart_run Smart.smart_done Smart.smart_keeps Smart.register_keeps_bad Smart.sanitize_spec Smart.sanitize_new Smart.summary_spec Smart.smart_force_fails Smart.smart_again_fails Smart.sanitize_again_fails Smart.sanitize_nan_fails Smart.summary_counts_fails"),
  "Proved for every reachable state of the cut fields of one channel and every fit. False in the code: computing the outliers anew never releases a pulse; cuts that found nothing are computed again without being asked; filtering anew leaves the old phase cuts; a phase that is not a number is kept; the list of counts per field prints the program text instead of the counts.")
c("C134", "partial", q(T, "Masks.masks_spec Masks.masks_fail Masks.mask_gain Masks.average_spec Masks.average_refused Masks.masked_average Masks.average_stops_fails Masks.masks_short_fails"),
  "Proved in exact arithmetic for gains that are not zero. False in the code: a mask of the wrong length stops the loop over channels after some have changed; fewer gains than channels give fewer masks than channels, which the averages refuse.")
c("C135", "partial", q(K, "Invert.brent_exists Invert.exact_inverse Invert.exact_sound Invert.short_spec Invert.short_inverse Invert.long_spec Invert.long_line Invert.long_fixed Invert.curve_continuous Invert.exact_at_points Invert.gain_top Invert.dedph_spec Invert.monotonic_spec Invert.monotonic_of_increasing Invert.monotonic_negative Invert.ismonotonic_fails Invert.new_fails Invert.slope_new_fails Invert.long_int_fails Invert.long_fails Invert.gain_top_fails"),
  "Proved in exact arithmetic, with the root finder as any function which finds zeros of continuous functions. False in the code: more than 1024 energies can give wrong pulse heights, and a TypeError for integers; a new calibration has no exact inverse and slope 0; the range of a gain curve can end below a calibration point; ismonotonic can be true for a curve which is not.")
c("C136", "partial", q(T, "Approx.simpsonW_sum Approx.counts_total Approx.bin_spec Approx.approx_density Approx.approx_upper Approx.kl_nonneg Approx.approx_perm Approx.approx_affine Approx.mode_spec Approx.mode_refused Approx.kl_mixed_fails Approx.outlier_fails Approx.kernel_fails"),
  "Proved over the real numbers, with Simpson's rule as in scipy 1.11 and later, and the convolution exact. Not proved: how close the approximation is to the exact value. False in the code: an outlier 1e8 widths away gives OverflowError; the approximation takes the Laplace kernel for the second set, not the documented top-hat; the default divergence can mix both modes.")
c("C137", "partial", q(G, "Seg.open_spec Seg.open_shape_partial Seg.open_cover_partial Seg.segment_of_sample Seg.set_spec Seg.trace_spec Seg.flux_group Seg.flux_idempotent Seg.flux_twice_fails Seg.set_count_fails Seg.set_refused_fails Seg.empty_first_fails Seg.versions_fails Seg.unknown_channel_fails"),
  "Proved with exact numbers. False in the code: after set_segment_size the number of segments is the number of pulses in each; a refused size leaves no segments; an empty first file switches the comparison of shapes off; mixed file versions break the segments; an unknown channel number reads another channel; a second flux correction loses the original values.")
c("C138", "partial", q(T, "Windows.windows_ok Windows.windows_shape Windows.windows_energy Windows.two_samples_fails Windows.welch_one_fails Windows.voigt_bounds Windows.voigt_mono Windows.voigt_scale Windows.minimum_below"),
  "Proved over the real numbers. Not proved: the distance of the approximate Voigt width from the true one (its bounds are proved). False in the code: windows of two samples vanish (division by zero in the spectrum), and a Welch window of one sample is not a number.")
c("C139", "partial", q(S, "Arr.rel_time Arr.array_states_partial Arr.nano_fails Arr.states_fails Arr.no_time_fails Arr.nano_field Arr.array_group Arr.same_number_fails"),
  "Times are exact. False in the code: times are cut to whole seconds before they are turned to nanoseconds, so records get the wrong state unless every state starts at a whole second (the case proved); channels with equal numbers replace each other; arrays without times have no states.")
c("C140", "partial", q(G, "Restore.generate_name Restore.generate_fails Restore.glob_pairs Restore.max_chans_fails Restore.open_new Restore.restore_partial Restore.no_noise_fails Restore.order_fails Restore.stale_fails Restore.mismatch_fails Restore.one_file_fails"),
  "Restoring is proved for a group opened once with summary files of its own. False in the code: summary files keep channels of earlier groups; lists in different orders leave wrong noise names in the summary files; channels come back in the order of their names; a directory named with _chan<digit> makes pulses and noise share a summary file; max_chans needs noise files.")
c("C141", "partial", q(G, "Vec.setup_ok Vec.reopen Vec.resize_partial Vec.resize_fails Vec.array_ok Vec.off_style Vec.spread_fails Vec.copy_channel_fails Vec.copy_spectrum_partial Vec.copy_spectrum_fails Vec.copy_spectrum_witness"),
  "Types of the vectors are not modelled. False in the code: resizing to fewer pulses always raises and leaves the channel inconsistent; channels and groups cannot be copied (AttributeError); a copy of a power spectrum shares its sum with the original, so adding to one spoils the other.")
c("C142", "partial", q(D, "Xray.columns Xray.title_iff Xray.load_partial Xray.no_header_fails Xray.getitem_partial Xray.getitem_case Xray.getitem_blanks Xray.nickname_fails Xray.nickname_witness_fails Xray.byType_case Xray.byType_nick Xray.byType_greek Xray.byType_lines Xray.elements_nodup Xray.ll_fails"),
  "Only ASCII letters change case; text to number conversion is an arbitrary partial function. False in the code: a file without a title line is read for ever; nicknames never work in look-ups (KeyError); the nickname Ll finds nothing.")
c("C143", "partial", q("Mass.Names.", "Scr.channels_partial Scr.both_ok Scr.here_fails Scr.twice_fails Scr.output_partial Scr.output_fails Scr.aux_fails Scr.convert_partial Scr.max_fails Scr.missing_fails Scr.state_ok Scr.state_late_fails Scr.none_fails Scr.column_fails Scr.projectors_partial Scr.projectors_keep Scr.projectors_lost_fails Scr.weight_fails Scr.ending_fails Scr.negative_fails Scr.modify_partial Scr.modify_fails Scr.modify_lost_fails"),
  "Files are names and contents; reading and converting records is C14's. False in the code: channels of a file in the current directory cannot be found and may be given twice; max_channels 0 converts all; a channel missing in one of several runs ends everything; the column number is lost; noise_weight_basis has no effect; noise files with another ending are looked for as .ljh; LJHModify always raises, having emptied its output; output_basename raises TypeError; timing files cannot be loaded.")
c("C144", "partial", q(G, "Master.chanOf_name Master.jlName_chan Master.master_partial Master.reuse Master.value_fails Master.unclean_fails Master.stale_fails Master.partial_fails Master.directory_fails"),
  "master_partial needs an h5py older than 3 and complete files. False in the code: with h5py 3 no master file can be made, and the remains are taken for a good one; files not cleanly ended are linked all the same and make the group unusable; a master file is used again for other files; a missing file leaves a partial master file; names with _chan in the directory.")
c("C145", "partial", q(R, "Drift.learn_partial Drift.learn_name Drift.drift_fit Drift.saved Drift.saved_two Drift.saved_twice Drift.read_version Drift.read_missing Drift.eq_laws Drift.same_fails Drift.nan_fails Drift.broken_fails"),
  "learn_partial needs two different quantities: with the same one as indicator and uncorrected value the recipe is accepted and crafting raises (same_fails). A NaN number makes the correction read back unequal (nan_fails); saving is not all or nothing (broken_fails). The fits themselves are oracles.")
c("C146", "partial", q(A, "Fake.sample_nearest Fake.sample_trunc Fake.high_fails Fake.noise_fails Fake.read_row Fake.copy_same Fake.times_fails Fake.virtual_fails Fake.counts_spec Fake.scales_spec Fake.equal_fails Fake.few_fails Fake.kludge_sum Fake.kludge_one Fake.times_sorted Fake.presamples_fails Fake.model_spec Fake.peak_fails"),
  "False in the code: a VirtualFile is refused by PulseRecords, NoiseRecords and TESGroup (TypeError), so fake data sets and groups can never be made; levels from 32768 up are read as negative; negative noise is not rounded to nearest; distributions without weights raise; default presamples may be fractional; the number of times is not checked. What holds is proved.")
c("C147", "partial", q(G, "Sums.summarize_spec Sums.progress_spec Sums.noise_spectra_partial Sums.noise_spectra_fails Sums.timestamp_offset_iff Sums.report_line Sums.report_fails Sums.noise_only_files Sums.noise_only_lists_fails Sums.noise_only_max_fails Sums.noise_attrs_partial Sums.noise_attrs_fails Sums.segments_spec Sums.noise_marks_fails Sums.use_records_partial Sums.use_records_fails Sums.seg_lengths Sums.fancy_fails"),
  "False in the code: compute_noise_spectra stops at the first failing channel; a channel without good pulses ends the report; a noise-only group ignores never_use and use_only, cannot be made with max_chans, forgets bad marks when reopened, and with an empty first file accepts files that disagree; the documented form of use_records is a TypeError; compute_fancy_power_spectra raises for LJH files. What holds is proved.")
c("C148", "partial", q(G, "Plots.traces_spec Plots.difference_spec Plots.difference_fails Plots.rebase_spec Plots.quantity_spec Plots.names_fails Plots.scatter_spec Plots.points_bound Plots.ten_thousand_fails Plots.group_downs_spec Plots.group_downs_fails Plots.chosen_spec Plots.chosen_words Plots.group_points_partial Plots.group_all_fails Plots.midnight_spec Plots.multipage_spec Plots.multipage_fails Plots.summary_pages_fails Plots.page_name_fails Plots.noise_limits_partial Plots.noise_limits_fails Plots.y_label_fails Plots.label_heights_spec Plots.label_heights_fails"),
  "False in the code: differences are drawn summed over three samples; three documented names of quantities are refused; up to 19,999 points are drawn, and all channels are thinned like the first; a group plot of all pulses raises; plot_summary_pages and plot_histogram_pages always fail; the axes of a noise plot fit the last channel only and its label ignores sqrt_psd; labels in the second colour alone raise. What holds is proved; what matplotlib makes of it is not modelled.")
c("C149", "partial", q(D, "ByName.line_energies_spec ByName.documented_names ByName.usual_names ByName.get_model_spec ByName.hints_spec ByName.report_digits ByName.report_zero_fails ByName.models_spec ByName.he_complex_spec ByName.unknown_line ByName.models_background_fails"),
  "False in the code: a fitted value of exactly zero makes the report and the plot fail; with has_linear_background=True none of the ready-made models can be made. The rest is proved. The contents of the data files are not modelled: that their names are elements and transitions is a hypothesis (all transitions in the two files are among the eighteen). The rounding done by Python's format 'g' is assumed to be within half a unit of the last digit.")
c("C150", "partial", q(K, "PhaseAlign.align_spec PhaseAlign.peak_moved PhaseAlign.nothing_to_align PhaseAlign.any_order PhaseAlign.align_normal PhaseAlign.offset PhaseAlign.bins_2015 PhaseAlign.counts_total PhaseAlign.ridge_at PhaseAlign.ridge_points PhaseAlign.same_spectra_2015 PhaseAlign.empty_bin_fails PhaseAlign.ridge_low_fails PhaseAlign.centre_mid"),
  "False in the code, by the older method: a phase bin without pulses of the peak puts the curve at zero, so that a pulse there is corrected to twice its height; a bin displaced by half the window raises. The entropy (C88) and Brent's method are arbitrary functions, so nothing is said about how good the displacements are; the parabola of the older method is an oracle.")
c("C151", "partial", q(G, "ModelFile.model_spec ModelFile.model_made ModelFile.lagged_spec ModelFile.extra_fails ModelFile.file_spec ModelFile.keeps_existing ModelFile.rethrow_raises ModelFile.replaced_lost_fails ModelFile.given_file_fails ModelFile.given_new ModelFile.twice_fails ModelFile.name_spec ModelFile.name_fails"),
  "False in the code: the extra components are found from the arrival-time-safe filter, whatever the 5-lag filter; replacing a file when no model can be made leaves an empty one; for a file handed over noise_weight_basis and _rethrow are ignored; writing twice into one file marks all channels bad; a directory with chan in its name is an error. What holds is proved. The averages, filters and the decomposition are oracles; a failure in the middle of writing one entry is not modelled.")
c("C152", "partial", q(G, "LineFits.arange_spec LineFits.linefit_iff LineFits.channel_fit LineFits.default_range LineFits.group_of_one LineFits.group_counts LineFits.attr_fails LineFits.unused_fails LineFits.label_fails LineFits.save_spec LineFits.text_exact LineFits.summarize_fails LineFits.stored_fails"),
  "False in the code: attributes other than energies are refused; guess_params and label do nothing; the label of the plot shows the argument binsize even if other bins are given; summarize_filters leaves out the nominal peak, so its numbers are not those of the filters, and never finds a filter in the file. The rest is proved; guess and fit of the model are arbitrary functions, exact numbers.")
c("C153", "partial", q(O, "Runs.files_spec Runs.load_spec Runs.load_distinct Runs.five_spec Runs.again_fails Runs.group_five Runs.missing_fails Runs.inverted_fails Runs.out_name Runs.bracket_fails Runs.copy_fails Runs.blank_fails"),
  "False in the code: base names with a bracket find no file; other files that begin like those of the run are taken for channels, and of two files with one number only the last is kept; one good channel without model ends the call for the group after a part of it, and a second call is refused; heights from models of inverted data are negative; names of runs with a blank are cut. The rest is proved, in exact numbers; the directory is a list of names, names with a leading dot are not special.")
c("C154", "partial", q(A, "Times.secs_spec Times.unixnano_spec Times.unixnano_fails Times.nano_eq Times.before_entry Times.states_spec Times.states_fails Times.usecSecs_spec Times.usecSecs_fails Times.timeDiff_spec Times.relTime_spec Times.relTime_ljh Times.store_spec Times.store_fails") + " Mass.Fl.fl_err Mass.Fl.fl_mono Mass.Fl.fl_grid Mass.Fl.fl_integral Mass.Algo.Times.toDouble_fl",
  "False in the code: the nanoseconds of an OFF file are not the record's microseconds times 1000, and cut off after the microsecond can be the one before; a record at the very time of an entry of the state file can be given the state before it; a record read from HDF5 microseconds has another time than from LJH; float32 cannot tell near values apart. The states are proved for records with no entry within 750 ns. Rounding is IEEE to nearest even with unbounded exponents (no overflow or subnormal numbers, which times do not reach).")
c("C155", "proved", q(I, "Ideal.average_ideal Ideal.signal_ideal Ideal.response_ideal Ideal.filtered_ideal Ideal.energy_ideal Ideal.off_exact Ideal.off_ideal"),
  "Exact arithmetic. The filter is assumed to have a non-zero weight (a shape to which no filter responds is excluded), and to be made at all (the noise matrix and the cut windows are accepted). Cython filtering of records of fewer than 8 samples is excluded (C109).")
c("C156", "partial", q(C, "Params.keys_fixed Params.types_kept Params.flag_kept Params.flag_frozen Params.set_spec Params.set_unknown Params.controls_spec Params.controls_unknown Params.dicts2ns_spec Params.ns2dicts_spec Params.namespace_roundtrip Params.dump_spec Params.flag_true_fails Params.flag_false_fails Params.type_list_fails Params.shared_name_fails Params.overwritten_variable_fails Params.usage_fails Params.property_reads Params.properties_no_meta_fails Params.blank_property_fails Params.property_shared_fails"),
  "False in the code: a value of another type or None ends the process (also a number for a number), a check of False makes a parameter that cannot be set, a list of types always ends the process, a name in two dictionaries raises KeyError on the way back from a namespace, a variable of the same name is lost, set() prints nothing. properties raises TypeError unless meta data are allowed, a property of a name with a blank raises KeyError, and of a name in two dictionaries it reads the last while set sets the first. Not modelled: dicts2namespace2, which builds code as text.")
c("C157", "proved", q(L, "Open.open_spec Open.key_error_iff Open.error_kinds"),
  "Header lines to dictionary is C14's; a data source that is not UTF-8 is not modelled.")
c("C158", "partial", q(O, "Write.header_lines Write.header_content Write.convert_eq Write.convert_refuses Write.loop_spec Write.file_spec Write.crash Write.written_opens Write.arrays_read Write.fields_read Write.old_version_fails Write.float32_fails Write.few_bases_fails"),
  "False in the code: another off_version raises ValueError and leaves a 0.3.0 file without records; float32 arrays are written under a float64 header; with fewer than three basis elements records are lost. That json.loads inverts json.dumps is assumed for the header at hand; the conversion of one record is an arbitrary function here (C21 has its formulas).")
c("C159", "partial", q(G, "Pages.fmt_spec Pages.combine_spec Pages.one_file_spec Pages.update_spec Pages.time_left_spec Pages.work_spec Pages.summary_progress Pages.group_progress_partial Pages.stale_fails Pages.thousand_fails Pages.template_fails Pages.group_progress_fails Pages.filter_progress_fails"),
  "False in the code: pages of an earlier run are put in and removed, pages from 1000 on are left out, the templates of both callers fit no number (nothing is ever saved), a group whose last channel fails never finishes, filtering shows more than 100 %. Exact arithmetic for the fractions and times.")
c("C160", "partial", q(A, "Prompt.usual_peak_spec Prompt.peak_position Prompt.usual_peak_perm Prompt.usual_peak_shape Prompt.prompt_shift Prompt.np_peak Prompt.prompt_bounds Prompt.prompt_partial Prompt.fast_fails Prompt.prompt_fails Prompt.below_fails"),
  "The position is proved in full. Promptness agrees only if the usual position is 14 or 15 samples after the trigger (prompt_partial); otherwise the two ways differ (prompt_fails), pulses peaking within three samples have none by numpy (fast_fails), and records below their pretrigger mean wrap around (below_fails). Exact arithmetic; cut_post at most the length of a record.")
c("C161", "proved", q(K, "Evidence.like_evidence Evidence.best_sigmaf_spec Evidence.best_sigmaf_failed Evidence.like_line Evidence.like_origin Evidence.like_units_x Evidence.like_units_y Evidence.like_two"),
  "Real arithmetic; that scipy's search finds the smallest value when it reports success is an assumption (Finds); LAPACK's Cholesky and solve as documented. With negative abscissas construction may raise (C99).")
c("C162", "partial", q(I, "KinkFit.fit_best_partial KinkFit.fit_exact KinkFit.fit_bounds KinkFit.range_spec KinkFit.fit_unsorted_fails"),
  "For x in increasing order, if the bounded search finds the smallest value (an assumption). For other orders the value minimised is not the misfit (fit_unsorted_fails). Exact arithmetic.")
c("C163", "proved", q(I, "Rsvd.svd_orthonormal Rsvd.svd_exact Rsvd.svd_best"),
  "Exact arithmetic; LAPACK's QR and SVD as documented; the random matrix is any matrix. Number of random vectors at most the number of rows.")
c("C164", "partial", q(K, "EffUncert.first_order EffUncert.efficiency_std EffUncert.stack_relative EffUncert.film_std EffUncert.ensure_spec EffUncert.fraction_spec EffUncert.default_film EffUncert.mesh_film EffUncert.area_film EffUncert.nominal_film EffUncert.fill_default_fails EffUncert.oxide_exact_fails EffUncert.mixed_fails EffUncert.layer_fails"),
  "Real arithmetic; uncertainties' linear propagation as documented; cross-sections exact. False in the code: an aluminium film gets a fill fraction of 1 with 100 % uncertainty (fill_default_fails), its oxide is exact if the aluminium thickness is uncertain (oxide_exact_fails), lists mixing plain and uncertain numbers are refused (mixed_fails), the elements of one layer count as independent (layer_fails).")
c("C165", "partial", q(K, "CalPlot.plot_curve CalPlot.points_on_curve CalPlot.plot_range CalPlot.plot_refused CalPlot.band_spec CalPlot.bars_partial CalPlot.bars_horizontal CalPlot.slope_removed CalPlot.bars_linear_fails CalPlot.bars_power_fails CalPlot.log_gain_fails CalPlot.log_gain_label_fails CalPlot.one_point_fails"),
  "Real arithmetic, positive pulse heights and energies. Error bars are right for gain, inverse gain and energies per pulse height only (bars_partial, bars_linear_fails, bars_power_fails); log gains below one cannot be plotted (log_gain_fails) and are labelled with the wrong sign (log_gain_label_fails).")
c("C166", "partial", q(K, "LearnPlan.learn_plan LearnPlan.learn_unchanged LearnPlan.learn_order LearnPlan.learn_linear LearnPlan.energies_fails LearnPlan.lost_fails"),
  "Real arithmetic; the smeared histogram is an arbitrary function. False in the code: lines given as energies, which the search accepts, are refused by the plan (energies_fails); an earlier plan is lost when a point is refused (lost_fails).")
c("C167", "partial", q(G, "ChanPlots.average_plot ChanPlots.filters_plot ChanPlots.noise_plot ChanPlots.unknown_fails ChanPlots.axis_fails ChanPlots.legend_fails ChanPlots.noise_fails"),
  "Figures as lists of curves and legends per axes. False in the code: unknown channel numbers give a KeyError (unknown_fails); axes that are not the current ones are ignored by two of the plots (axis_fails) and give an AttributeError with more than twelve channels (legend_fails); one channel without noise ends the plot of all (noise_fails).")
c("C168", "partial", q(K, "Diag.panels_apart Diag.side_minimal Diag.panel_spec Diag.diagnose_spec Diag.diagnose_refused Diag.labels_new Diag.energies_fails Diag.earlier_fails"),
  "Exact arithmetic; what is handed to matplotlib. False in the code: lines given by energies, which the calibration accepts, give an exception (energies_fails); with a calibration that had points before, names are at wrong points (earlier_fails).")
c("C169", "partial", q(S, "Scatter.scatter_states Scatter.every_pulse_once Scatter.compare_states Scatter.map_spec Scatter.compare_bad_fails Scatter.map_axis_fails Scatter.function_bad_fails"),
  "What is handed to matplotlib. False in the code: a comparison of drift corrections with bad pulses always raises (compare_bad_fails); axes given for a two-dimensional histogram are ignored (map_axis_fails); with a function as a cut bad pulses cannot be shown (function_bad_fails).")
c("C170", "partial", q(G, "Progress.work_undisturbed Progress.reports Progress.estimate_steady Progress.summary_reports Progress.filter_over_fails Progress.filter_early_fails Progress.last_channel_fails Progress.no_updater_fails"),
  "Numbers before rounding to what is printed. False in the code: filtering ends above 100% (filter_over_fails), and is said to be finished early and twice if the last segment has one pulse (filter_early_fails); a group whose last channel fails never finishes (last_channel_fails); a channel without group, or in a group from HDF5 files only, cannot be summarized or filtered for want of something to report to (no_updater_fails).")
c("C171", "partial", q(D, "Figs.labels_spec Figs.labels_plain Figs.fit_labels_cal Figs.states_shown Figs.curves_by_state Figs.curves_coadded Figs.diagnose_panels Figs.result_spec Figs.label_height Figs.log_heights Figs.energy_units_fails Figs.slice_label_fails Figs.one_label_fails Figs.tuple_fails Figs.diagnose_empty_fails Figs.result_axis_fails Figs.label_misses_fails Figs.label_axis_fails Figs.log_outside_fails"),
  "What is handed to matplotlib; the format of numbers and the histograms are arbitrary functions. False in the code: energies are labelled arbs (energy_units_fails); fits of slices cannot be shown (slice_label_fails); one state is labelled letter by letter (one_label_fails); tuples of states are refused one by one (tuple_fails); no figure of a calibration without fits (diagnose_empty_fails); channel numbers are indices (result_axis_fails); labels miss narrow peaks (label_misses_fails) and go to the current axes (label_axis_fails), or outside on logarithmic scales (log_outside_fails).")
c("C172", "partial", q(K, "Instruments.lex_ht Instruments.ebit_spec Instruments.horton_spec Instruments.instrument_range Instruments.plot_spec Instruments.raven_fails Instruments.plot_axis_fails"),
  "Nominal values; attenuation proportional to density. False in the code: filters with polymer of the RAVEN instrument have oxide of the thickness of the polymer and lack an element of the polymer (raven_fails); energies in eV are shown as keV (plot_axis_fails).")
c("C173", "partial", q(T, "AutocorrPulses.autocorr_spec AutocorrPulses.array_after AutocorrPulses.baseline_irrelevant AutocorrPulses.again_same AutocorrPulses.scale_sq AutocorrPulses.order_irrelevant AutocorrPulses.parts_weighted AutocorrPulses.lag_zero_largest AutocorrPulses.weighted_sum_zero AutocorrPulses.integers_refused AutocorrPulses.nothing AutocorrPulses.array_changed_fails"),
  "Real arithmetic. False in the code: the means of records are removed in the caller's array (array_changed_fails).")
c("C174", "partial", q(D, "LinePlot.plot_spec LinePlot.plot_negative LinePlot.plot_short LinePlot.ylim_contains LinePlot.default_window LinePlot.window_share LinePlot.like_reference LinePlot.label_per_bin_fails"),
  "Real arithmetic; scipy's wofz as documented for ylim_contains. False in the code: the label says counts per bin, the curve is the density per eV (label_per_bin_fails). The share of the intensity in the window is proved for ideal resolution only.")
c("C175", "proved", q(L, "OffRecord.resid_spec OffRecord.exact_pulse OffRecord.mean_between OffRecord.delta_of_ramp OffRecord.fit_best OffRecord.pulse_irrelevant off_record_local"),
  "Rationals for floats; the fields hold 32-bit roundings of these values. np.polyfit as the solution of the normal equations.")
c("C176", "partial", q(K, "Shapes.array_spec Shapes.scalar_spec Shapes.pieces Shapes.default_spec Shapes.energy2ph_spec Shapes.scalar_differs_fails Shapes.default_changes_fails Shapes.dimensions_fails"),
  "The curve is any function. False in the code: an energy that is not finite is given as it is for a scalar and as 0 in an array; a calibration without points sets such entries of the caller's array to 0 and refuses a list with one; arrays of two dimensions are refused by ph2energy.")
c("C177", "partial", q(L, "Merge.merge_spec_partial Merge.merge_wrong_channel Merge.merge_again Merge.merge_frame Merge.expand_spec Merge.outPath_channum Merge.main_spec_partial Merge.main_no_match_fails Merge.merge_again_fails Merge.merge_lengths_fails Merge.merge_old_version_fails Merge.merge_incomplete_fails"),
  "Proved when the first file is of version 2.2 and ends with a whole record, and all records have the same length. False in the code: nothing of that is checked, and the records are misread; run again with --force and the same pattern, the output is merged too and every record is there twice; a pattern without a match ends in a TypeError.")
c("C178", "partial", q(L, "TruncScript.search_spec TruncScript.outName_inj TruncScript.loop_spec_partial TruncScript.loop_frame TruncScript.main_spec_partial TruncScript.loop_short TruncScript.short_channel_fails TruncScript.wildcard_fails TruncScript.directory_fails TruncScript.no_match_fails"),
  "Proved when every file has enough records. False in the code: a channel with fewer ends the script with IndexError, and the channels after it are not truncated; a basename with wildcards or a directory named like a file makes outputs overwrite each other; no file found is a TypeError.")
c("C179", "partial", q(I, "Lowpass.lowpass_spec_partial Lowpass.lowpass_idem Lowpass.lowpass_passes Lowpass.lowpass_linear Lowpass.lowpass_energy Lowpass.lowpass_odd_fails"),
  "Proved for an even number of samples. False in the code for every odd number: IndexError.")
c("C180", "partial", q(R, "Attrs.attribute_is_recipe_partial Attrs.attribute_after_add Attrs.others_keep Attrs.saved_is_loaded Attrs.save_and_load_refuse Attrs.loaded_recipe_fails Attrs.method_name_fails Attrs.hidden_attribute_fails Attrs.hidden_file_fails Attrs.overwrite_stops_fails"),
  "Proved for names that channels do not use themselves. False in the code for recipes loaded in a new process (no attribute), for names of methods, for names of attributes of channels (hidden in all channels; no channel can be opened any more), and for saving over a book when it does not finish (both lost).")
c("C181", "partial", q(A, "Resume.resumed_partial Resume.safe_steps Resume.safe_resumed Resume.forced_repairs Resume.summarize_complete Resume.marks Resume.phase_resumed Resume.phase_complete Resume.summarize_fails Resume.noise_fails Resume.white_fails Resume.filter_fails Resume.phase_same_session_fails Resume.phase_unopenable_fails Resume.phase_truncated_fails"),
  "Proved for interruptions between steps, anywhere in the average pulse, drift correction, phase_correct2014 and time drift correction, and in the other steps before they look done; and for repair by forceNew. False in the code for the summary, the noise, the filtering and phase_correct once they look done: the rest is never computed, and a half-stored phase corrector keeps the channel from opening or is loaded without its last corrections.")
c("C182", "partial", q(C, "Stored.run_img Stored.history_img Stored.table_shows Stored.categories_shown Stored.long_name_fails Stored.exhausted_fails Stored.same_beginning_fails Stored.split_letter_fails Stored.long_category_fails Stored.empty_table_fails"),
  "Proved for all names of at most 64 bytes of UTF-8 that do not end in a NUL: every history behaves as with the names themselves, so C01 to C08 hold of the stored state. False in the code for longer names: they can be registered again and again until the bits run out, are not found, fall together, or make every question by name raise. The tables are proved where they are printed; they cannot be printed without categorical fields.")
c("C183", "partial", q(L, "Old.old_records Old.old_crash Old.old_in_order Old.open_missing Old.no_divisions_fails Old.short_frames_fails"),
  "Proved for every file with a nonzero number of subframe divisions and a frame of at least 1 ns, in exact arithmetic (the code multiplies floats). False without: a header with 0 divisions is accepted and then no time can be read; frames of less than 1 ns are counted as none.")
c("C184", "partial", q(K, "Agree.ks_spec Agree.ks_nan Agree.ks_symm Agree.hist_perm Agree.ks_extreme Agree.figure_spec Agree.cal_figure Agree.cal_figure_missing Agree.statistics_fails Agree.stale_fails Agree.mark_below_fails"),
  "The formula of the statistic is as stated, and the figures for bins of peaks within the range. False: the statistic (and the cross entropy) are never given, since they read an attribute nothing sets (statistics_fails); the figure of an earlier alignment shows units of the later one (stale_fails); a peak below the bins is marked at the far end (mark_below_fails). Numbers exact, values not NaN.")
c("C185", "partial", q(D, "Report.within_half Report.no_more Report.two_figures Report.exact Report.report_partial Report.label_inj Report.zero_fails"),
  "Proved for all results where no varied parameter with an uncertainty is exactly 0, and no uncertainty is 0. Otherwise there is no report and the figure ends with an error (zero_fails). The formats are modelled by the number they write, logarithms and values are exact; NaN and infinite values are left out.")
c("C186", "partial", q(D, "Builtin.loaded Builtin.name_unique Builtin.builtin_density Builtin.nominal_partial Builtin.pr_fails Builtin.gd_fails Builtin.al_fails Builtin.plot_all_fails Builtin.old_name_fails"),
  "The table (Verif/Line/Builtin.lean) is copied from the source by tools/gen_builtin.py, with exact decimals. Names and densities are proved for all lines. The nominal peak is proved for the lines without heights of Voigt profiles (three lines are such) except PrKAlpha, GdKBeta and AlKAlpha_metal_v1992, where it is false (pr_fails, gd_fails, al_fails). plot_all_spectra never draws (plot_all_fails).")
c("C187", "partial", q(T, "NoiseFile.ac_stored NoiseFile.separate_stored NoiseFile.again_same NoiseFile.sizes_kept NoiseFile.psd_stored NoiseFile.plot_spec NoiseFile.psd_plot_spec NoiseFile.default_fails NoiseFile.lags_fails NoiseFile.first_plot_fails NoiseFile.no_group_fails NoiseFile.resegment_fails"),
  "Proved for as many lags as samples in a record, for the spectrum of separate records of even length, and for the figures of what was computed. False for the default number of lags and any other number, for files without an HDF5 group (compute_noise_nlags never works), for other segment lengths, and for the first figure of the autocorrelation. That h5py refuses a dataset of shape (None,) is assumed; the kind of error plays no part.")
c("C188", "partial", q(D, "XrayData.parse_text XrayData.loaded XrayData.sensible XrayData.builtin_near_partial XrayData.isotope_fails XrayData.two_energies_fails XrayData.nb_fails"),
  "Proved: the reading, the sizes and the orders, and that the line shapes and energies of one name agree within 0.405 eV. False: that every row is found by a name (isotopes share one, the later replaces the earlier), that the energies of a name agree within the uncertainty (MnKBeta), and that each line shape has an energy (NbKBeta24). The rows are copied from the files by tools/gen_xray.py; float() is modelled for plain decimal numbers with exact values.")
c("C189", "partial", q(D, "Ions.ions_loaded Ions.ions_density Ions.h_like_partial Ions.other_peak Ions.series Ions.names_apart Ions.four_p_fails Ions.oxygen_fails"),
  "False for one doublet, whose amplitudes are exchanged (O H-Like 4p), and for one transition of oxygen, which has two energies. The calls are copied from the file by tools/gen_ions.py, with exact numbers.")
c("C190", "partial", q(D, "Target.listed Target.interferences_partial Target.no_line Target.target_shares Target.average_between Target.sortQ_ok Target.print_fails Target.equal_fails Target.between_fails Target.both_fails"),
  "Proved for lines of different energies, pairs without a strong line between them, and different elements in the target. False: pairs of equal energy and pairs with another line between are not reported, the printing ignores the distance, and an element given twice loses a share. The rates come from the package fisx and are arbitrary in the model.")
c("C191", "partial", q(D, "XrayFig.keyed XrayFig.uncertainties_partial XrayFig.energies XrayFig.ticks_ok XrayFig.in_view XrayFig.hidden_fails XrayFig.title_fails XrayFig.missing_fails XrayFig.empty_fails"),
  "Proved: which line is drawn where, in both figures, for every data base that was read. False: lines above 30 keV or with more than 10 eV uncertainty are outside the axes, the Kbeta_3 lines have a title but no panel, the Lgamma_1 panel is titled as a K line, and five curves have no points. The drawing itself is not modelled.")
c("C192", "partial", q(A, "ArrayRate.figure ArrayRate.figure_iff_partial ArrayRate.good_below ArrayRate.lost_fails ArrayRate.others_fails ArrayRate.short_fails"),
  "Proved: what each rate, sum and average is for the bins used, and exactly when there is a figure. False: the bins are those of the first good channel and end before its latest pulse, so pulses of other channels before and after are not counted, the latest pulse never is, and a short run of the first channel raises an IndexError for all.")
c("C193", "partial", q(G, "HdfFiles.kept_partial HdfFiles.made HdfFiles.again HdfFiles.made_iff HdfFiles.clobber_fails HdfFiles.overwrite_fails"),
  "Proved for HDF5 files at any path and all other files except one at the path for the noise. False: a file there that is no HDF5 file (for example a data file given by mistake) is replaced by an empty one, and overwriting empties the file for the pulses even if the call then fails. h5py.File is modelled by what it does to files (modes a and w).")
c("C194", "partial", q(G, "BinSize.channel_size BinSize.group_size BinSize.set_for_all_partial BinSize.block_fails"),
  "Proved: which size is used after any history. False: setting the size of the group within a block that includes bad channels ends the inclusion.")
c("C195", "partial", q(I, "ModelFig.curves_partial ModelFig.residual_spec ModelFig.wrong_spec ModelFig.inverted ModelFig.label_fails ModelFig.legend_fails"),
  "Proved for at least three components, in exact arithmetic. False: the first component from the 5-lag filters is labelled as an SVD component, and with fewer than ten pulses the legends have entries without a curve.")
c("C196", "partial", q(N, "HdfPrint.file_lines_partial HdfPrint.file_order HdfPrint.chosen_spec HdfPrint.kept_iff HdfPrint.put_none HdfPrint.put_mem HdfPrint.main_files HdfPrint.main_stops HdfPrint.contents_fails HdfPrint.usage_fails HdfPrint.scalar_fails HdfPrint.empty_fails HdfPrint.maxchan_fails"),
  "Proved for an h5py whose attributes have iteritems (that of Python 2), without scalar data sets. False: under Python 3 only the name of the first file is printed before an AttributeError; the documented call with a file name raises; scalar data sets raise; empty objects lose their names; maxchan holds for the first level only.")
c("C197", "partial", q(T, "SpectraFig.curve_spec SpectraFig.covers SpectraFig.at_most_two SpectraFig.plot_spec SpectraFig.plot_scaled SpectraFig.overlap_fails SpectraFig.twice_fails SpectraFig.coarse_fails SpectraFig.label_fails"),
  "Proved in exact arithmetic: points, ranges, coverage, at most two curves for a frequency. False: neighbouring curves overlap, so frequencies are shown twice and from two and a half steps on; the names power and amplitude on the axis of a single spectrum are exchanged.")
c("C198", "partial", q(L, "Inverted.history_partial Inverted.any_history_partial Inverted.good_reads Inverted.sets_good Inverted.sets_get Inverted.made_good Inverted.seen_spec Inverted.peak_trough Inverted.copy_fails Inverted.early_fails"),
  "Proved for channels of groups and any settings of any channels. False: a copy shares the file object, so setting the copy changes what the original gives while its own setting stays; a channel made inverted before it has its records gives raw data.")
c("C199", "partial", q(N, "Labels.chan_label Labels.chan_says Labels.chan_distinct_partial Labels.group_label Labels.off_label Labels.off_again Labels.folder_fails Labels.off_reads_fails Labels.isdir_fails"),
  "Proved for files named run_chan<n> with an extension, channel numbers below a million. False: files of the same name in different folders have the same label; reading the label of an OFF group sets its channum; a folder named like the file changes the label of a group.")
c("C200", "partial", q(L, "Polarity.one_reading Polarity.kept Polarity.fresh_partial Polarity.run_inv Polarity.pulse_kept Polarity.pulse_new Polarity.stale_fails"),
  "Proved that summaries come from one call and one polarity, and that those asked for with forceNew belong to the data as read now if the polarity was not set differently since. False: after a change of polarity summarize_data() keeps the summaries of the old one.")
c("C201", "partial", q(I, "File.ask_cases File.asked_used File.fits_history File.unknown_kind File.other_kind_fails File.nan_used_fails File.filtered_history File.filtered_new File.filtered_stale_fails"),
  "Proved for filters without NaN. False: asking for the other kind without forceNew keeps the old kind in use without an exception; an arrival-time-safe filter with NaN replaces a five-lag one in memory and is then applied in the five-lag way; after a new filter filter_data() keeps the values of the old one unless forced.")
c("C202", "partial", q(D, "Registry.add_spec Registry.history_partial Registry.first_stays Registry.fitter_model Registry.fitter_lost_fails Registry.same_name_fails Registry.ambiguous_fails"),
  "Proved for names that do not end in Fitter. False: a line with such a name replaces the fitter of another one; different elements and types can give the same name; models of a line in different materials have the same name.")
c("C203", "partial", q(D, "Sums.build_spec Sums.build_iff Sums.likelihood_partial Sums.order_fails"),
  "Composite models of lmfit are modelled after its documentation. Maximum likelihood is proved for expressions whose first model is of this package. False: with a model of lmfit itself first the fit is an ordinary one.")
c("C204", "partial", q(T, "HistFig.drawn HistFig.returns_iff HistFig.kept HistFig.all_drawn HistFig.label_partial HistFig.linefit_label_partial HistFig.label_fails HistFig.unchanged_fails HistFig.linefit_label_fails"),
  "Printing with a fixed number of decimals and the marks of known lines are not modelled. False: the text gives the width of the first bin only; with one edge IndexError comes after an empty curve is drawn; a line fit with edges given writes the default width.")
c("C205", "partial", q(A, "OffRecord.index_iff OffRecord.which OffRecord.times OffRecord.times_increase OffRecord.pulse OffRecord.projected OffRecord.curve_partial OffRecord.curve_fails"),
  "Exact arithmetic. False: times and pulse are equally many only for records as long as the basis, which nothing checks.")
