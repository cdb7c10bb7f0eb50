{
 "claims": [
  {
   "property": "C01",
   "status": "proved",
   "theorems": [
    "Mass.Cut.fields_own_disjoint_bits"
   ],
   "note": ""
  },
  {
   "property": "C02",
   "status": "proved",
   "theorems": [
    "Mass.Cut.cut_frame",
    "Mass.Cut.cut_other_frame",
    "Mass.Cut.cutInt_frame"
   ],
   "note": ""
  },
  {
   "property": "C03",
   "status": "proved",
   "theorems": [
    "Mass.Cut.good_eq_not_bad",
    "Mass.Cut.bad_ok_iff",
    "Mass.Cut.bad_iff_exists",
    "Mass.Cut.cut_bool_accumulates",
    "Mass.Cut.good_bad_with_categories",
    "Mass.Cut.cut_mask_columns"
   ],
   "note": ""
  },
  {
   "property": "C04",
   "status": "proved",
   "theorems": [
    "Mass.Cut.clear_cut_exact",
    "Mass.Cut.clear_cut_all",
    "Mass.Cut.clear_cut_unknown"
   ],
   "note": ""
  },
  {
   "property": "C05",
   "status": "partial",
   "theorems": [
    "Mass.Cut.category_codes_injective",
    "Mass.Cut.default_category_code",
    "Mass.Cut.cut_categorical_roundtrip",
    "Mass.Cut.cut_categorical_conflict",
    "Mass.Cut.cut_categorical_unknown",
    "Mass.Cut.cut_bools_category",
    "Mass.Cut.select_several",
    "Mass.Cut.cut_categorical_shadowed_fails"
   ],
   "note": "Holds unless a boolean field has the same name as the categorical one; then it is false (cut_categorical_shadowed_fails)."
  },
  {
   "property": "C06",
   "status": "proved",
   "theorems": [
    "Mass.Cut.failed_call_changes_nothing",
    "Mass.Cut.register_boolean_succeeds_iff",
    "Mass.Cut.register_boolean_effect",
    "Mass.Cut.register_categorical_succeeds_iff",
    "Mass.Cut.register_categorical_effect",
    "Mass.Cut.categoryList_spec",
    "Mass.Cut.register_duplicate_names_fails"
   ],
   "note": "Also shown: a new name repeated in one call takes two bits."
  },
  {
   "property": "C07",
   "status": "partial",
   "theorems": [
    "Mass.Cut.new_field_starts_good_partial",
    "Mass.Cut.new_category_starts_default_partial",
    "Mass.Cut.new_field_starts_good_fails",
    "Mass.Cut.new_category_starts_default_fails"
   ],
   "note": "False in general (bits of an unregistered field are recycled without clearing); proved for histories that unregister only unmarked fields."
  },
  {
   "property": "C08",
   "status": "partial",
   "theorems": [
    "Mass.Cut.cut_parameter_pair",
    "Mass.Cut.cut_parameter_ranges_partial",
    "Mass.Cut.cut_parameter_none_unknown",
    "Mass.Cut.cut_parameter_open_range_fails"
   ],
   "note": "Pair form proved in full; sequence form for ranges with at least one limit; a (None, None) range is mishandled."
  },
  {
   "property": "C09",
   "status": "partial",
   "theorems": [
    "Mass.Names.basename_channum_roundtrip",
    "Mass.Names.basename_no_channum",
    "Mass.Names.channum_some",
    "Mass.Names.basename_directory",
    "Mass.Names.Paths.split_spec",
    "Mass.Names.Paths.directory_error",
    "Mass.Names.chan_names_roundtrip_partial",
    "Mass.Names.chan_names_fails"
   ],
   "note": "Round trip and converse proved; ljh_chan_names is wrong when the extension itself contains _chan<digit>."
  },
  {
   "property": "C10",
   "status": "partial",
   "theorems": [
    "Mass.Names.file_channum_agrees_partial",
    "Mass.Names.Paths.int_iff",
    "Mass.Names.file_channum_agrees_fails"
   ],
   "note": "Proved for names containing _chan once; false in general."
  },
  {
   "property": "C100",
   "status": "proved",
   "theorems": [
    "Mass.Calc.Gpr.gpr_smoothest",
    "Mass.Calc.Gpr.gpr_penalty"
   ],
   "note": "whenever construction succeeds (C99); real arithmetic; sigmaf and the combined errors are inputs"
  },
  {
   "property": "C101",
   "status": "partial",
   "theorems": [
    "Mass.Cut.apply_cuts",
    "Mass.Cut.apply_cuts_empty",
    "Mass.Cut.median_spec",
    "Mass.Cut.standard_control",
    "Mass.Cut.first_pulse",
    "Mass.Cut.apply_unregistered",
    "Mass.Cut.apply_force_fails",
    "Mass.Cut.apply_again_fails"
   ],
   "note": "apply_cuts gives the state after the call for every reachable state. forceNew is ignored (apply_force_fails), and applying the same cuts again can cut more (apply_again_fails). Infinity is any number above the limits."
  },
  {
   "property": "C102",
   "status": "partial",
   "theorems": [
    "Mass.Cut.auto_cuts_partial",
    "Mass.Cut.auto_skip",
    "Mass.Cut.auto_after_clear",
    "Mass.Cut.rms_limit",
    "Mass.Cut.auto_deriv_fails",
    "Mass.Cut.auto_no_noise_fails",
    "Mass.Cut.auto_reload_fails",
    "Mass.Cut.auto_model_fails",
    "Mass.Cut.auto_clear_reopen_fails"
   ],
   "note": "auto_cuts_partial: everything but the derivative limit, which is that of the last noise record only (auto_deriv_fails). Stored cuts lose lower limits and statistics, and clear_cuts leaves them in the file."
  },
  {
   "property": "C103",
   "status": "partial",
   "theorems": [
    "Mass.Calc.SSpline.spline_result",
    "Mass.Calc.SSpline.eval_ideal",
    "Mass.Calc.SSpline.any_curve",
    "Mass.Calc.SSpline.straight_data_fails",
    "Mass.Calc.SSpline.flat_end_fails",
    "Mass.Calc.Smooth.omega_integral",
    "Mass.Calc.Smooth.smoothest",
    "Mass.Calc.Smooth.smooth_result"
   ],
   "note": "In real numbers, with brentq as a root finder that reports equal signs and finds a zero of a continuous function. Data on a line raise ValueError (straight_data_fails), and the derivative beyond a horizontal end is wrong (flat_end_fails). The quadratic fit that turns x errors into y errors is an input; der=3 is left out."
  },
  {
   "property": "C104",
   "status": "partial",
   "theorems": [
    "Mass.Calc.BSpline.basisCall_spec",
    "Mass.Calc.BSpline.raw_cub",
    "Mass.Calc.BSpline.raw_indep",
    "Mass.Calc.BSpline.raw2_low",
    "Mass.Calc.BSpline.raw2_high",
    "Mass.Calc.BSpline.basis_natural",
    "Mass.Calc.BSpline.basis_det",
    "Mass.Calc.BSpline.expand_curve",
    "Mass.Calc.SSpline.derivative_scaled",
    "Mass.Calc.SSpline.derivative_fails",
    "Mass.Calc.SSpline.three_knots_fails",
    "Mass.Calc.SSpline.log_derivative_fails",
    "Mass.Calc.SSpline.log_dx_fails"
   ],
   "note": "For four or more knots the basis is as stated. With three it is not (three_knots_fails); derivative() works in the wrong coordinates (derivative_fails), the log version returns the exponential of the derivative and changes the caller's array. splev is modelled by the Cox-de Boor recursion."
  },
  {
   "property": "C105",
   "status": "partial",
   "theorems": [
    "Mass.Algo.Trig.triggers_roundtrip",
    "Mass.Algo.Trig.binary_triggers",
    "Mass.Algo.Trig.hdf5_triggers",
    "Mass.Algo.Trig.triggers_again",
    "Mass.Algo.Trig.off_delays_partial",
    "Mass.Algo.Trig.off_group",
    "Mass.Algo.Trig.calc_timing_fails",
    "Mass.Algo.Trig.off_divisions_fails",
    "Mass.Algo.Trig.off_key_fails",
    "Mass.Algo.Trig.off_empty_channel_fails"
   ],
   "note": "Reading is proved in full. Timing is right for OFF files with as many rows as subframes and not exactly one trigger (C30); calc_external_trigger_timing of a TESGroup always raises (calc_timing_fails), other numbers of subframes are ignored (off_divisions_fails, off_key_fails), one empty channel stops the group (off_empty_channel_fails). Comment lines are ASCII."
  },
  {
   "property": "C106",
   "status": "partial",
   "theorems": [
    "Mass.Stat.Neighbors.neighbors_list",
    "Mass.Stat.Neighbors.nearer_iff",
    "Mass.Stat.Neighbors.neighbor_numbers",
    "Mass.Stat.Neighbors.selected_neighbors",
    "Mass.Stat.Neighbors.list_kept",
    "Mass.Stat.Neighbors.list_absent",
    "Mass.Stat.Neighbors.gap_fails",
    "Mass.Stat.Neighbors.flagging_fails"
   ],
   "note": "The list is proved in full. n counts the distances of a full grid, not of existing channels (gap_fails), and the flags are never set (flagging_fails)."
  },
  {
   "property": "C107",
   "status": "partial",
   "theorems": [
    "Mass.Calc.linterp_partial",
    "Mass.Calc.linterp_accepts",
    "Mass.Calc.linterp_scale_fails"
   ],
   "note": "linterp_partial: exactly equal knots. Knots up to 1/1000 apart are accepted as equal, whatever their scale (linterp_scale_fails). The third derivative is the class's own (C39)."
  },
  {
   "property": "C108",
   "status": "partial",
   "theorems": [
    "Mass.Lin.SavGol.savgol_spec",
    "Mass.Lin.SavGol.savgol_errors",
    "Mass.Lin.SavGol.savgol_polynomial",
    "Mass.Lin.SavGol.savgol_sign_fails",
    "Mass.Lin.SavGol.savgol_factorial_fails",
    "Mass.Lin.SavGol.savgol_end_fails"
   ],
   "note": "savgol_spec characterises the output half a window from the ends: smoothing is as stated, derivatives of order d are (-1)^d / d! times the derivative of the best polynomial (savgol_sign_fails, savgol_factorial_fails). At the ends the padding is wrong for falling data (savgol_end_fails). The pseudo-inverse of the full-rank matrix is its formula."
  },
  {
   "property": "C109",
   "status": "partial",
   "theorems": [
    "Mass.Algo.FilterData.filter_ats",
    "Mass.Algo.FilterData.filter_ats_transform_partial",
    "Mass.Algo.FilterData.filter_noshift",
    "Mass.Algo.FilterData.filter_5lag_python",
    "Mass.Algo.FilterData.filter_5lag_partial",
    "Mass.Algo.FilterData.filter_kept",
    "Mass.Algo.FilterData.filter_refuses",
    "Mass.Algo.FilterData.filter_parts",
    "Mass.Algo.FilterData.late_trigger",
    "Mass.Algo.FilterData.value_scales",
    "Mass.Algo.FilterData.ats_transform_fails",
    "Mass.Algo.FilterData.cython_transform_fails",
    "Mass.Algo.FilterData.interrupted_fails"
   ],
   "note": "Transforms: as stated except with an arrival-time-safe filter one sample shorter than the records on files of several segments, which always raises (ats_transform_fails), and with a five-lag filter by default, where the transform is ignored (cython_transform_fails). Results of an interrupted run are taken for complete (interrupted_fails). Rounding to float32 left out."
  },
  {
   "property": "C11",
   "status": "partial",
   "theorems": [
    "Mass.Names.remove_unpaired_keeps_valid",
    "Mass.Names.remove_unpaired_exact_partial",
    "Mass.Names.remove_unpaired_repeats_fails",
    "Mass.Names.remove_unpaired_first_empty_fails"
   ],
   "note": "Exact result proved for lists without repeated channels, for every set iteration order; false with repeats or an empty first list."
  },
  {
   "property": "C110",
   "status": "partial",
   "theorems": [
    "Mass.Calc.TimeDrift.drift_entropy",
    "Mass.Calc.TimeDrift.drift_kept",
    "Mass.Calc.TimeDrift.drift_degrees",
    "Mass.Calc.TimeDrift.drift_pulses",
    "Mass.Calc.TimeDrift.drift_range",
    "Mass.Calc.TimeDrift.drift_mean",
    "Mass.Calc.TimeDrift.drift_succeeds",
    "Mass.Calc.TimeDrift.time_origin",
    "Mass.Calc.TimeDrift.method_stores",
    "Mass.Calc.TimeDrift.coefficients_fails",
    "Mass.Calc.TimeDrift.settings_fails"
   ],
   "note": "All as stated except: the coefficients stay those of a rejected correction (coefficients_fails; drift_kept shows when they agree), and the method ignores its three settings (settings_fails). Entropy estimate and minimizer are arbitrary functions; Legendre polynomials by Rodrigues' formula; the spline copy of the model, which is never returned, is left out."
  },
  {
   "property": "C111",
   "status": "partial",
   "theorems": [
    "Mass.Recipe.Cuts.setDefault_spec",
    "Mass.Recipe.Cuts.cutAdd_spec",
    "Mass.Recipe.Cuts.default_usable",
    "Mass.Recipe.Cuts.group_default_partial",
    "Mass.Recipe.Cuts.group_named",
    "Mass.Recipe.Cuts.load_saved_partial",
    "Mass.Recipe.Cuts.load_unknown",
    "Mass.Recipe.Cuts.cutAdd_fails",
    "Mass.Recipe.Cuts.group_set_default_fails",
    "Mass.Recipe.Cuts.marked_good_fails",
    "Mass.Recipe.Cuts.load_default_fails",
    "Mass.Recipe.Cuts.negated_fails"
   ],
   "note": "All as stated except: cutAdd that raises on the default has still added the recipe (cutAdd_fails), a group can never set the default (group_set_default_fails), defaults differ after a channel is marked good again (marked_good_fails; group_default_partial covers the histories through the group only), defaults are not saved and loading can leave a default that does not exist (load_default_fails), and negated cuts are refused by group fits (negated_fails)."
  },
  {
   "property": "C112",
   "status": "partial",
   "theorems": [
    "Mass.Calc.StdDevCut.judged_by_bin_partial",
    "Mass.Calc.StdDevCut.judged_by_last",
    "Mass.Calc.StdDevCut.low_rejected_partial",
    "Mass.Calc.StdDevCut.threshold_robust",
    "Mass.Calc.StdDevCut.half_below_partial",
    "Mass.Calc.StdDevCut.passes_mono",
    "Mass.Calc.StdDevCut.passes_scale",
    "Mass.Calc.StdDevCut.learn_ok",
    "Mass.Calc.StdDevCut.all_rejected_fails",
    "Mass.Calc.StdDevCut.upper_half_fails",
    "Mass.Calc.StdDevCut.single_fails",
    "Mass.Calc.StdDevCut.equal_fails",
    "Mass.Calc.StdDevCut.limit_fails"
   ],
   "note": "All as stated except: pulses in the upper half of a bin are judged by the next bin (upper_half_fails), sparse and empty bins are not left out (single_fails), equal residuals are all rejected (equal_fails), limits above half a bin (limit_fails), and with pulses below the bin size only, or fewer than five, every pulse is rejected (all_rejected_fails). Exact numbers."
  },
  {
   "property": "C113",
   "status": "partial",
   "theorems": [
    "Mass.Calc.Plan.rough_points_partial",
    "Mass.Calc.Plan.lineFor_spec",
    "Mass.Calc.Plan.plan_aligned",
    "Mass.Calc.Plan.unknown_line",
    "Mass.Calc.Plan.calibrate_exact_partial",
    "Mass.Calc.Plan.calibrate_points",
    "Mass.Calc.Plan.stuck_fails",
    "Mass.Calc.Plan.same_line_fails",
    "Mass.Calc.Plan.energy_ignored_fails",
    "Mass.Calc.Plan.other_name_fails",
    "Mass.Calc.Plan.no_points_fails"
   ],
   "note": "All as stated for points with energies more than 0.01 apart, different names and positions in the order of the energies, except: a point that does not fit the others stays in the plan and makes every later call fail (stuck_fails), the same line in two states counts once (same_line_fails), an energy given for a known line is ignored (energy_ignored_fails), other names are changed (other_name_fails), and a calibration without points is installed (no_points_fails). Fits and conversions are arbitrary functions, numbers exact."
  },
  {
   "property": "C114",
   "status": "partial",
   "theorems": [
    "Mass.Calc.Quality.bins_spec",
    "Mass.Calc.Quality.linefit_spec",
    "Mass.Calc.Quality.linefit_ok_partial",
    "Mass.Calc.Quality.check_spec_partial",
    "Mass.Calc.Quality.check_error",
    "Mass.Calc.Quality.both_tolerances",
    "Mass.Calc.Quality.check_fit",
    "Mass.Calc.Quality.check_no_errorbar",
    "Mass.Calc.Quality.drop_one_spec_partial",
    "Mass.Calc.Quality.group_results",
    "Mass.Calc.Quality.group_marks",
    "Mass.Calc.Quality.group_file_partial",
    "Mass.Calc.Quality.group_no_key_error",
    "Mass.Calc.Quality.other_attr_fails",
    "Mass.Calc.Quality.unused_arguments_fails",
    "Mass.Calc.Quality.cut_ignored_fails",
    "Mass.Calc.Quality.failed_fit_fails",
    "Mass.Calc.Quality.sigma_ignored_fails",
    "Mass.Calc.Quality.absolute_raises_fails",
    "Mass.Calc.Quality.no_success_fails",
    "Mass.Calc.Quality.no_errorbars_fails"
   ],
   "note": "All as stated except: attributes other than energies can never be fitted (other_attr_fails), require_errorbars and params_fixed do nothing (unused_arguments_fails), the check ignores the cut named (cut_ignored_fails) and fits that failed (failed_fit_fails), a threshold in sigmas alone is ignored (sigma_ignored_fails) and an absolute one alone raises (absolute_raises_fails), a group without successful fit raises (no_success_fails), a fit without error bars stops the writing of the file (no_errorbars_fails). Histograms and fits are arbitrary functions, numbers exact."
  },
  {
   "property": "C115",
   "status": "partial",
   "theorems": [
    "Mass.Calc.Align.peak_bin",
    "Mass.Calc.Align.partner_exists",
    "Mass.Calc.Align.partner_mono",
    "Mass.Calc.Align.outside_refused",
    "Mass.Calc.Align.gain_recovered_partial",
    "Mass.Calc.Align.cal_points_partial",
    "Mass.Calc.Align.above_refused",
    "Mass.Calc.Align.aligned_plan",
    "Mass.Calc.Align.curvature_spec",
    "Mass.Calc.Align.below_fails",
    "Mass.Calc.Align.same_partner_fails"
   ],
   "note": "All as stated except: a partner below the first bin is taken to be in a bin counted from the end (below_fails); partners can coincide, which gives two points at one position (same_partner_fails). The path is any list with the properties of a warping path; that equal histograms are matched bin by bin is an assumption; bins evenly spaced and wider than 0.01, numbers exact."
  },
  {
   "property": "C116",
   "status": "partial",
   "theorems": [
    "Mass.States.Export.alias_spec",
    "Mass.States.Export.labels_nodup_iff",
    "Mass.States.Export.absorb_nodup",
    "Mass.States.Export.hist_default",
    "Mass.States.Export.plot_default_partial",
    "Mass.States.Export.hists_export_partial",
    "Mass.States.Export.hists_export_only",
    "Mass.States.Export.export_counts",
    "Mass.States.Export.export_twice",
    "Mass.States.Export.group_export_partial",
    "Mass.States.Export.label_export_partial",
    "Mass.States.Export.merged_plot_fails",
    "Mass.States.Export.plot_no_states_fails",
    "Mass.States.Export.merged_export_fails",
    "Mass.States.Export.reserved_name_fails",
    "Mass.States.Export.no_channels_fails",
    "Mass.States.Export.no_states_fails",
    "Mass.States.Export.revisited_fails",
    "Mass.States.Export.revisited_empty_fails"
   ],
   "note": "All as stated except: two labels given one name stay two labels, so a default plot counts their pulses twice (merged_plot_fails) and exports end with an error (merged_export_fails; the conditions are necessary by hists_export_only); states named like a summary dataset cannot be exported (reserved_name_fails); no labels or no channels give errors (plot_no_states_fails, no_channels_fails, no_states_fails); a state visited twice cannot be exported with trigger times (revisited_fails). HDF5 is a list of datasets by path, where a name in use is refused; names contain no slash; cuts look at each pulse by itself; the histogram function is arbitrary."
  },
  {
   "property": "C117",
   "status": "partial",
   "theorems": [
    "Mass.Calc.Efficiency.film_thickness",
    "Mass.Calc.Efficiency.film_area",
    "Mass.Calc.Efficiency.film_refused",
    "Mass.Calc.Efficiency.film_complement",
    "Mass.Calc.Efficiency.thicker",
    "Mass.Calc.Efficiency.stack_product",
    "Mass.Calc.Efficiency.stack_nested",
    "Mass.Calc.Efficiency.empty_stack",
    "Mass.Calc.Efficiency.add_new_partial",
    "Mass.Calc.Efficiency.add_by_name",
    "Mass.Calc.Efficiency.efficiency_range",
    "Mass.Calc.Efficiency.oxide_film",
    "Mass.Calc.Efficiency.one_thickness_fails",
    "Mass.Calc.Efficiency.same_name_fails",
    "Mass.Calc.Efficiency.film_add_fails",
    "Mass.Calc.Efficiency.int_fill_fails",
    "Mass.Calc.Efficiency.polymer_fails"
   ],
   "note": "All as stated except: one thickness for several materials counts for the first only (one_thickness_fails); for films with polymer the thicknesses are assigned to the wrong elements and the last element is left out (polymer_fails); a component replaces one of the same name (same_name_fails) and does nothing when added to a film (film_add_fails); a fill fraction of type int is refused (int_fill_fails). Real numbers, nominal values only, one energy at a time; attenuation of xraydb is an arbitrary function proportional to the density; stacks do not contain themselves."
  },
  {
   "property": "C118",
   "status": "partial",
   "theorems": [
    "Mass.Stat.Savgol.smooth_poly_partial",
    "Mass.Stat.Savgol.smooth_rising",
    "Mass.Stat.Savgol.pseudo_exists",
    "Mass.Stat.Savgol.pinv_unique",
    "Mass.Stat.Savgol.savgol_refused",
    "Mass.Stat.Savgol.falling_fails",
    "Mass.Stat.Savgol.derivative_sign_fails",
    "Mass.Stat.Savgol.second_derivative_fails",
    "Mass.Stat.Savgol.short_fails",
    "Mass.Stat.Savgol.stepped_edges",
    "Mass.Stat.Savgol.stepped_area",
    "Mass.Stat.Savgol.stepped_centers",
    "Mass.Stat.Savgol.one_bin_fails",
    "Mass.Stat.Savgol.unequal_fails",
    "Mass.Stat.PoissonHist.band_spec",
    "Mass.Stat.PoissonHist.uneven_fails",
    "Mass.Stat.PoissonHist.poisson_even"
   ],
   "note": "Smoothing as stated, but a falling line is bent at its ends (falling_fails); derivative d comes out as (-1)^d / d! times the derivative (smooth_poly_partial, derivative_sign_fails, second_derivative_fails); signals shorter than half a window give an output of another length (short_fails); one bin given by its center is refused (one_bin_fails); with error bars, bins of unequal width are drawn with wrong edges (uneven_fails). The pseudoinverse is any function meeting the four conditions on the matrices used; exact numbers."
  },
  {
   "property": "C119",
   "status": "partial",
   "theorems": [
    "Mass.Calc.Auto.peaks_found",
    "Mass.Calc.Auto.mem_localMaxima",
    "Mass.Calc.Auto.sort_lines",
    "Mass.Calc.Auto.guess_spec",
    "Mass.Calc.Auto.guess_perm",
    "Mass.Calc.Auto.fit_all",
    "Mass.Calc.Auto.too_many_bins",
    "Mass.Calc.Auto.fit_lines",
    "Mass.Calc.Auto.calibrate_new",
    "Mass.Calc.Auto.calibrate_points",
    "Mass.Calc.Auto.calibrate_failed",
    "Mass.Calc.Auto.calibrate_found",
    "Mass.Calc.Auto.calibrate_found_only",
    "Mass.Calc.Auto.calibrate_order",
    "Mass.Calc.Auto.plateau_fails",
    "Mass.Calc.Auto.excl_fails",
    "Mass.Calc.Auto.found_fails",
    "Mass.Calc.Auto.bins_fails"
   ],
   "note": "All as stated except: peaks with two equal highest samples are missed (plateau_fails); excluded lines are ignored (excl_fails); bin sizes given one for each line stay in the order given (bins_fails); asking for a calibration that exists leaves the energies of whatever calibration was used last (found_fails). Points are exactly one for each line if names differ and energies are more than 0.01 eV apart. The smeared histogram, the fit of one line and the curves are arbitrary functions; the order of peaks of equal height is not that of numpy."
  },
  {
   "property": "C12",
   "status": "partial",
   "theorems": [
    "Mass.Names.sort_names_spec",
    "Mass.Names.sort_names_other",
    "Mass.Names.strLe_iff",
    "Mass.Names.sort_names_inclusion_fails"
   ],
   "note": "Proved without inclusion list; with one the call always raises."
  },
  {
   "property": "C120",
   "status": "partial",
   "theorems": [
    "Mass.Lin.Low.bandLimit_spectrum",
    "Mass.Lin.Low.bandLimit_sum",
    "Mass.Lin.Low.bandLimit_energy",
    "Mass.Lin.Low.bandLimit_hard",
    "Mass.Lin.Low.bandLimit_idempotent",
    "Mass.Lin.Low.bandLimit_nyquist",
    "Mass.Lin.Low.bandLimit_mean",
    "Mass.Lin.Low.compute5_plain",
    "Mass.Lin.Low.fivelag_lowpass_response",
    "Mass.Lin.Low.fivelag_lowpass_ok",
    "Mass.Lin.Low.ats_plain",
    "Mass.Lin.Low.ats_lowpass_dc",
    "Mass.Lin.Low.ats_lowpass_ok",
    "Mass.Lin.Low.normalize1_unit",
    "Mass.Lin.Low.whitenMatrix_exists",
    "Mass.Lin.Low.whitenMatrix_whiten_partial",
    "Mass.Lin.Low.three_db_fails",
    "Mass.Lin.Low.ats_lowpass_response_fails",
    "Mass.Lin.Low.ats_no_sample_time_fails",
    "Mass.Lin.Low.fourier_fails",
    "Mass.Lin.Low.fourier_assertion_fails",
    "Mass.Lin.Low.whitenMatrix_pure_AR_fails"
   ],
   "note": "Proved for the low-pass factor and the five-lag filters. False in the code: f_3db is the 6 dB point (three_db_fails); compute_ats does not normalise again, so a low-pass filtered one does not return the pulse height (ats_lowpass_response_fails), and without a sample time it raises ZeroDivisionError (ats_no_sample_time_fails); compute_fourier always raises (fourier_fails); the whitening matrix differs from whiten for models with one MA coefficient (whitenMatrix_pure_AR_fails). The sum is unchanged for fmax of 0 or more. A five-lag filter with all weights zero (NaN in numpy) is excluded by hypothesis. Transforms are exact; the predicted resolution is not modelled."
  },
  {
   "property": "C121",
   "status": "partial",
   "theorems": [
    "Mass.Lin.File.save_spec",
    "Mass.Lin.File.ats_reopen_partial",
    "Mass.Lin.File.five_reopen_partial",
    "Mass.Lin.File.five63_peakFree",
    "Mass.Lin.File.untyped_ats",
    "Mass.Lin.File.existing_kept",
    "Mass.Lin.File.five_failed",
    "Mass.Lin.File.ats_failed_partial",
    "Mass.Lin.File.interrupted",
    "Mass.Lin.File.five_cuts_fails",
    "Mass.Lin.File.five_peak_fails",
    "Mass.Lin.File.five_ignore_fails",
    "Mass.Lin.File.interrupted_open_fails",
    "Mass.Lin.File.skipped_fails",
    "Mass.Lin.File.reopened_model_fails",
    "Mass.Lin.File.nan_filter_fails"
   ],
   "note": "Proved: the weights, arrival-time weights, peak, variance, resolution and settings of arrival-time-safe filters; the weights and variance of five-lag filters without cut windows and without ignored pretrigger samples; the file after a failed computation; no wrong filter after an interruption. False in the code: a five-lag filter is computed again on opening, without its cut windows (five_cuts_fails), with another peak (five_peak_fails), with all pretrigger samples (five_ignore_fails); the pulse shape of an arrival-time-safe filter is not kept (reopened_model_fails); an interrupted save can make the channel impossible to open (interrupted_open_fails) or keep a filter from being computed without any message (skipped_fails); a NaN filter replaces the previous one in memory (nan_filter_fails). The filter calculations are arbitrary functions (the reopening theorem for five-lag filters assumes that their weights do not depend on the nominal peak and the noise spectrum, shown for the calculation of C63); single HDF5 calls are atomic."
  },
  {
   "property": "C122",
   "status": "partial",
   "theorems": [
    "Mass.States.Cat.register_tabled",
    "Mass.States.Cat.states_selected",
    "Mass.States.Cat.states_new_file_partial",
    "Mass.States.Cat.states_again",
    "Mass.States.Cat.grown_fails",
    "Mass.States.Cat.auto_exclude_fails",
    "Mass.States.Cat.alias_fails",
    "Mass.States.Cat.uncategorized_fails",
    "Mass.States.Cat.gap_fails"
   ],
   "note": "Proved: new HDF5 files, and files opened again, as long as the list of states is the one that was registered, no state is called 'uncategorized', and the cut bits in use were the lowest ones; for sorted times. False in the code: states added to the file after the first opening are selected as others (grown_fails, auto_exclude_fails), aliases confuse the states (alias_fails), so does a state called 'uncategorized' (uncategorized_fails), and so do gaps in the table of cut bits (gap_fails). Times are compared after rounding by a monotone function; labels are turned into strings by an arbitrary function that is one-to-one on them."
  },
  {
   "property": "C123",
   "status": "partial",
   "theorems": [
    "Mass.Calc.Chain.drift_done",
    "Mass.Calc.Chain.phase_done",
    "Mass.Calc.Chain.calibrate_done",
    "Mass.Calc.Chain.energy_again_partial",
    "Mass.Calc.Chain.chain",
    "Mass.Calc.Chain.unforced_kept",
    "Mass.Calc.Chain.stale_drift_fails",
    "Mass.Calc.Chain.stale_phase_fails",
    "Mass.Calc.Chain.other_quantity_fails",
    "Mass.Calc.Chain.calibrate_again_fails",
    "Mass.Calc.Chain.same_name_fails",
    "Mass.Calc.Chain.failed_phase_fails",
    "Mass.Calc.Chain.interrupted_drift_fails",
    "Mass.Calc.Chain.phase_corr_fails"
   ],
   "note": "Proved: what each call computes; the chain in a new file; that unforced calls never change existing values over any history and number of sessions; that a failed calibrate changes nothing; the energies in a later session (if a loaded calibration has the same curve, C44). False in the code: corrections are skipped without an error though the data below them are new (stale_drift_fails, stale_phase_fails) or another quantity was asked for (other_quantity_fails); calibrate does not convert if the calibration exists (calibrate_again_fails), and two quantities can share a name (same_name_fails); a phase correction that raises makes later calls do nothing (failed_phase_fails); an interrupted forced drift correction (interrupted_drift_fails); p_filt_phase_corr is not the corrected phase (phase_corr_fails). The learning functions are arbitrary; exact arithmetic between roundings to the stored type."
  },
  {
   "property": "C124",
   "status": "partial",
   "theorems": [
    "Mass.Calc.PhaseLearn.peaks_found",
    "Mass.Calc.PhaseLearn.learn_perm",
    "Mass.Calc.PhaseLearn.learn_curves",
    "Mass.Calc.PhaseLearn.learn_none",
    "Mass.Calc.PhaseLearn.nGroups_bounds",
    "Mass.Calc.PhaseLearn.window_mem",
    "Mass.Calc.PhaseLearn.window_disjoint",
    "Mass.Calc.PhaseLearn.knots_none",
    "Mass.Calc.PhaseLearn.groupOf_eq",
    "Mass.Calc.PhaseLearn.one_group",
    "Mass.Calc.PhaseLearn.learn_keeps_calibration_partial",
    "Mass.Calc.PhaseLearn.highest_dropped_fails",
    "Mass.Calc.PhaseLearn.forty_bins_fails",
    "Mass.Calc.PhaseLearn.no_peaks_fails",
    "Mass.Calc.PhaseLearn.same_phase_fails",
    "Mass.Calc.PhaseLearn.two_phases_fails",
    "Mass.Calc.PhaseLearn.calibration_changed_fails"
   ],
   "note": "Proved: peaks are increasing, have enough counts and are more than ten bins apart, none is missed except near one found; curves per peak, independent of the order given; groups by phase; the calibration is unchanged if converted before or in order. False in the code: the lowest candidates are taken first (highest_dropped_fails), ten bins rather than forty (forty_bins_fails), IndexError if there is none (no_peaks_fails), empty groups give NaN knots (same_phase_fails, two_phases_fails), and the array of the calibration is sorted in place, away from its energies (calibration_changed_fails). The wavelet transform, the percentiles and the minimization of the entropy are arbitrary functions."
  },
  {
   "property": "C125",
   "status": "partial",
   "theorems": [
    "Mass.Algo.TimeCorr.clusters_sorted",
    "Mass.Algo.TimeCorr.lags_spec",
    "Mass.Algo.TimeCorr.model_at_median",
    "Mass.Algo.TimeCorr.interpolates",
    "Mass.Algo.TimeCorr.extrapolation_limited",
    "Mass.Algo.TimeCorr.one_curve",
    "Mass.Algo.TimeCorr.lengths_refused",
    "Mass.Algo.TimeCorr.lengths_fails",
    "Mass.Algo.TimeCorr.one_cluster_fails",
    "Mass.Algo.TimeCorr.copy_fails",
    "Mass.Algo.TimeCorr.whole_numbers_fails"
   ],
   "note": "Proved: renumbering, the five lags for filters four samples shorter, interpolation and limited extrapolation. False in the code: other filter lengths (lengths_fails), one cluster (one_cluster_fails), copying (copy_fails), arrival times given as whole numbers (whole_numbers_fails). Clustering, polynomial fits and the splines are not modelled; exact arithmetic."
  },
  {
   "property": "C126",
   "status": "partial",
   "theorems": [
    "Mass.Stat.Smoother.nbins_spec",
    "Mass.Stat.Smoother.conv_fft",
    "Mass.Stat.Smoother.kern_spec",
    "Mass.Stat.Smoother.smooth_spec",
    "Mass.Stat.Smoother.contents_total",
    "Mass.Stat.Smoother.smooth_total",
    "Mass.Stat.Smoother.smooth_bounds",
    "Mass.Stat.Smoother.drift_entropy",
    "Mass.Stat.Smoother.drift_default",
    "Mass.Stat.Smoother.drift_perm",
    "Mass.Stat.Smoother.drift_shift",
    "Mass.Stat.Smoother.wraps_fails",
    "Mass.Stat.Smoother.thrown_out_fails"
   ],
   "note": "Proved, including the convolution theorem for the transforms used. False in the code: smoothing joins the two ends (wraps_fails), and the measured entropy falls when pulses are thrown out of the limits (thrown_out_fails). The minimizer is any function whose answer is no worse than the first starting point; medians and percentiles are arbitrary functions with the symmetry asked for. Exact arithmetic."
  },
  {
   "property": "C127",
   "status": "partial",
   "theorems": [
    "Mass.Lin.ChanNoise.white_spec",
    "Mass.Lin.ChanNoise.noise_kept",
    "Mass.Lin.ChanNoise.compute_spec",
    "Mass.Lin.ChanNoise.compute_same",
    "Mass.Lin.ChanNoise.compute_atomic",
    "Mass.Lin.ChanNoise.run_sized",
    "Mass.Lin.ChanNoise.check_spec",
    "Mass.Lin.ChanNoise.filter_scale",
    "Mass.Lin.ChanNoise.white_filter",
    "Mass.Lin.ChanNoise.zero_variance_fails",
    "Mass.Lin.ChanNoise.measured_ignored_fails",
    "Mass.Lin.ChanNoise.old_name_fails",
    "Mass.Lin.ChanNoise.no_step_fails",
    "Mass.Lin.ChanNoise.long_noise_fails",
    "Mass.Lin.ChanNoise.short_noise_fails"
   ],
   "note": "Proved for all histories. False in the code: variance zero is not remembered, measured noise is silently not used after white noise was assumed, compute_noise_spectra always raises, white noise has no frequency step, and noise records of another length than the pulse records give a cut-off spectrum or an error. What the noise file gives is any lists of the right lengths (computed as in C69 and C74). Exact arithmetic; filters without low-pass options."
  },
  {
   "property": "C128",
   "status": "partial",
   "theorems": [
    "Mass.Algo.RiseTime.rise_affine",
    "Mass.Algo.RiseTime.rise_spec",
    "Mass.Algo.RiseTime.rise_lower",
    "Mass.Algo.RiseTime.rel_bounds",
    "Mass.Algo.RiseTime.batch_independent",
    "Mass.Algo.RiseTime.rise_perm",
    "Mass.Algo.RiseTime.ramp_exact",
    "Mass.Algo.RiseTime.two_samples_fails",
    "Mass.Algo.RiseTime.one_sample_fails",
    "Mass.Algo.RiseTime.batch_fails",
    "Mass.Algo.RiseTime.marker_fails"
   ],
   "note": "Proved for pulses with at least two samples between 10% and 90% of the peak, in exact arithmetic. False in the code: with one such sample the rise time is zero; with none it is zero or one second, depending on the other pulses of the batch; the failure mark depends on the batch too, and constant records give NaN."
  },
  {
   "property": "C129",
   "status": "partial",
   "theorems": [
    "Mass.Line.Fit.guess_spec",
    "Mass.Line.Fit.pbin_spec",
    "Mass.Line.Fit.width_spec",
    "Mass.Line.Fit.background_spec",
    "Mass.Line.Fit.guess_affine",
    "Mass.Line.Fit.method_spec",
    "Mass.Line.Fit.weights_refused",
    "Mass.Line.Fit.validate_spec",
    "Mass.Line.Fit.fit_bins",
    "Mass.Line.Fit.fit_one_bin",
    "Mass.Line.Fit.bins_mono",
    "Mass.Line.Fit.same_prefix_fails",
    "Mass.Line.Fit.zero_width_fails",
    "Mass.Line.Fit.background_fails",
    "Mass.Line.Fit.refit_start_fails"
   ],
   "note": "Proved in exact arithmetic, for increasing bins, positive gains and any minimizer; the limits lmfit puts on parameters are not modelled. False in the code: a line plus a component that is no line, with the same prefix, always raises AttributeError after the fit; the guessed width is zero if one bin holds both quartiles; up to 20 bins the background is always 0.1; leastsq_refit without a set of parameters starts again from the beginning."
  },
  {
   "property": "C13",
   "status": "proved",
   "theorems": [
    "Mass.Ljh.header_scan",
    "Mass.Ljh.header_scan_only",
    "Mass.Ljh.header_scan_error"
   ],
   "note": ""
  },
  {
   "property": "C130",
   "status": "partial",
   "theorems": [
    "Mass.Line.Asd.parse_levelName",
    "Mass.Line.Asd.available_spec",
    "Mass.Line.Asd.wanted_iff",
    "Mass.Line.Asd.single_spec",
    "Mass.Line.Asd.lineName_inj",
    "Mass.Line.Asd.addLines_spec",
    "Mass.Line.Asd.addLines_max",
    "Mass.Line.Asd.addRow_spec",
    "Mass.Line.Asd.rows_spec",
    "Mass.Line.Asd.write_fails",
    "Mass.Line.Asd.blank_fails",
    "Mass.Line.Asd.negative_limit_fails",
    "Mass.Line.Asd.units_fails",
    "Mass.Line.Asd.limit_fails",
    "Mass.Line.Asd.nan_line_fails",
    "Mass.Line.Asd.again_fails"
   ],
   "note": "Proved for levels whose configuration and term are single words. False in the code: converting a database raises an exception for every table with a level, so nothing is written; levels with a blank in their configuration are never found by a search; a negative limit is no limit; unknown units give None or an empty dictionary; without a ground state a limit of n gives n + 1 lines; levels of unknown energy get a line too; adding lines a second time raises ValueError."
  },
  {
   "property": "C131",
   "status": "partial",
   "theorems": [
    "Mass.Line.Hci.composite_scale",
    "Mass.Line.Hci.composite_peak",
    "Mass.Line.Hci.merge_keeps",
    "Mass.Line.Hci.peak_free",
    "Mass.Line.Hci.doublet_prefix",
    "Mass.Line.Hci.hLike_spec",
    "Mass.Line.Hci.background_fails",
    "Mass.Line.Hci.circular_fails",
    "Mass.Line.Hci.parenthesis_fails",
    "Mass.Line.Hci.same_prefix_fails"
   ],
   "note": "Proved for components with different prefixes; that lmfit keeps the expressions of the parts of a sum is assumed. False in the code: a linear background for a composite model always raises AttributeError (the model does not exist); choosing another peak component in a composite of composites gives circular expressions; names with parentheses give no valid prefix, and names differing only in stars or dots the same one."
  },
  {
   "property": "C132",
   "status": "partial",
   "theorems": [
    "Mass.Algo.CountRate.hist_total",
    "Mass.Algo.CountRate.rate_spec",
    "Mass.Algo.CountRate.good_le",
    "Mass.Algo.CountRate.rate_shift",
    "Mass.Algo.CountRate.last_pulse_fails",
    "Mass.Algo.CountRate.short_run_fails",
    "Mass.Algo.CountRate.uneven_fails",
    "Mass.Algo.CountRate.order_fails"
   ],
   "note": "Proved in exact arithmetic for positive widths and edges that do not decrease. False in the code: the pulses after the last full edge are not counted, so that the last pulse never is and up to one bin of the run is left out; a run not longer than one bin raises IndexError; rates for uneven edges use the width of the first bin; pulses out of order are lost."
  },
  {
   "property": "C133",
   "status": "partial",
   "theorems": [
    "Mass.Cut.Smart.smart_run",
    "Mass.Cut.Smart.smart_done",
    "Mass.Cut.Smart.smart_keeps",
    "Mass.Cut.Smart.register_keeps_bad",
    "Mass.Cut.Smart.sanitize_spec",
    "Mass.Cut.Smart.sanitize_new",
    "Mass.Cut.Smart.summary_spec",
    "Mass.Cut.Smart.smart_force_fails",
    "Mass.Cut.Smart.smart_again_fails",
    "Mass.Cut.Smart.sanitize_again_fails",
    "Mass.Cut.Smart.sanitize_nan_fails",
    "Mass.Cut.Smart.summary_counts_fails"
   ],
   "note": "Proved for every reachable state of the cut fields of one channel and every fit. False in the code: computing the outliers anew never releases a pulse; cuts that found nothing are computed again without being asked; filtering anew leaves the old phase cuts; a phase that is not a number is kept; the list of counts per field prints the program text instead of the counts."
  },
  {
   "property": "C134",
   "status": "partial",
   "theorems": [
    "Mass.Stat.Masks.masks_spec",
    "Mass.Stat.Masks.masks_fail",
    "Mass.Stat.Masks.mask_gain",
    "Mass.Stat.Masks.average_spec",
    "Mass.Stat.Masks.average_refused",
    "Mass.Stat.Masks.masked_average",
    "Mass.Stat.Masks.average_stops_fails",
    "Mass.Stat.Masks.masks_short_fails"
   ],
   "note": "Proved in exact arithmetic for gains that are not zero. False in the code: a mask of the wrong length stops the loop over channels after some have changed; fewer gains than channels give fewer masks than channels, which the averages refuse."
  },
  {
   "property": "C135",
   "status": "partial",
   "theorems": [
    "Mass.Calc.Invert.brent_exists",
    "Mass.Calc.Invert.exact_inverse",
    "Mass.Calc.Invert.exact_sound",
    "Mass.Calc.Invert.short_spec",
    "Mass.Calc.Invert.short_inverse",
    "Mass.Calc.Invert.long_spec",
    "Mass.Calc.Invert.long_line",
    "Mass.Calc.Invert.long_fixed",
    "Mass.Calc.Invert.curve_continuous",
    "Mass.Calc.Invert.exact_at_points",
    "Mass.Calc.Invert.gain_top",
    "Mass.Calc.Invert.dedph_spec",
    "Mass.Calc.Invert.monotonic_spec",
    "Mass.Calc.Invert.monotonic_of_increasing",
    "Mass.Calc.Invert.monotonic_negative",
    "Mass.Calc.Invert.ismonotonic_fails",
    "Mass.Calc.Invert.new_fails",
    "Mass.Calc.Invert.slope_new_fails",
    "Mass.Calc.Invert.long_int_fails",
    "Mass.Calc.Invert.long_fails",
    "Mass.Calc.Invert.gain_top_fails"
   ],
   "note": "Proved in exact arithmetic, with the root finder as any function which finds zeros of continuous functions. False in the code: more than 1024 energies can give wrong pulse heights, and a TypeError for integers; a new calibration has no exact inverse and slope 0; the range of a gain curve can end below a calibration point; ismonotonic can be true for a curve which is not."
  },
  {
   "property": "C136",
   "status": "partial",
   "theorems": [
    "Mass.Stat.Approx.simpsonW_sum",
    "Mass.Stat.Approx.counts_total",
    "Mass.Stat.Approx.bin_spec",
    "Mass.Stat.Approx.approx_density",
    "Mass.Stat.Approx.approx_upper",
    "Mass.Stat.Approx.kl_nonneg",
    "Mass.Stat.Approx.approx_perm",
    "Mass.Stat.Approx.approx_affine",
    "Mass.Stat.Approx.mode_spec",
    "Mass.Stat.Approx.mode_refused",
    "Mass.Stat.Approx.kl_mixed_fails",
    "Mass.Stat.Approx.outlier_fails",
    "Mass.Stat.Approx.kernel_fails"
   ],
   "note": "Proved over the real numbers, with Simpson's rule as in scipy 1.11 and later, and the convolution exact. Not proved: how close the approximation is to the exact value. False in the code: an outlier 1e8 widths away gives OverflowError; the approximation takes the Laplace kernel for the second set, not the documented top-hat; the default divergence can mix both modes."
  },
  {
   "property": "C137",
   "status": "partial",
   "theorems": [
    "Mass.Group.Seg.open_spec",
    "Mass.Group.Seg.open_shape_partial",
    "Mass.Group.Seg.open_cover_partial",
    "Mass.Group.Seg.segment_of_sample",
    "Mass.Group.Seg.set_spec",
    "Mass.Group.Seg.trace_spec",
    "Mass.Group.Seg.flux_group",
    "Mass.Group.Seg.flux_idempotent",
    "Mass.Group.Seg.flux_twice_fails",
    "Mass.Group.Seg.set_count_fails",
    "Mass.Group.Seg.set_refused_fails",
    "Mass.Group.Seg.empty_first_fails",
    "Mass.Group.Seg.versions_fails",
    "Mass.Group.Seg.unknown_channel_fails"
   ],
   "note": "Proved with exact numbers. False in the code: after set_segment_size the number of segments is the number of pulses in each; a refused size leaves no segments; an empty first file switches the comparison of shapes off; mixed file versions break the segments; an unknown channel number reads another channel; a second flux correction loses the original values."
  },
  {
   "property": "C138",
   "status": "partial",
   "theorems": [
    "Mass.Stat.Windows.windows_ok",
    "Mass.Stat.Windows.windows_shape",
    "Mass.Stat.Windows.windows_energy",
    "Mass.Stat.Windows.two_samples_fails",
    "Mass.Stat.Windows.welch_one_fails",
    "Mass.Stat.Windows.voigt_bounds",
    "Mass.Stat.Windows.voigt_mono",
    "Mass.Stat.Windows.voigt_scale",
    "Mass.Stat.Windows.minimum_below"
   ],
   "note": "Proved over the real numbers. Not proved: the distance of the approximate Voigt width from the true one (its bounds are proved). False in the code: windows of two samples vanish (division by zero in the spectrum), and a Welch window of one sample is not a number."
  },
  {
   "property": "C139",
   "status": "partial",
   "theorems": [
    "Mass.States.Arr.rel_time",
    "Mass.States.Arr.array_states_partial",
    "Mass.States.Arr.nano_fails",
    "Mass.States.Arr.states_fails",
    "Mass.States.Arr.no_time_fails",
    "Mass.States.Arr.nano_field",
    "Mass.States.Arr.array_group",
    "Mass.States.Arr.same_number_fails"
   ],
   "note": "Times are exact. False in the code: times are cut to whole seconds before they are turned to nanoseconds, so records get the wrong state unless every state starts at a whole second (the case proved); channels with equal numbers replace each other; arrays without times have no states."
  },
  {
   "property": "C14",
   "status": "proved",
   "theorems": [
    "Mass.Ljh.records_roundtrip",
    "Mass.Ljh.records_crash",
    "Mass.Ljh.header_crash",
    "Mass.Ljh.version_spec"
   ],
   "note": ""
  },
  {
   "property": "C140",
   "status": "partial",
   "theorems": [
    "Mass.Group.Restore.generate_name",
    "Mass.Group.Restore.generate_fails",
    "Mass.Group.Restore.glob_pairs",
    "Mass.Group.Restore.max_chans_fails",
    "Mass.Group.Restore.open_new",
    "Mass.Group.Restore.restore_partial",
    "Mass.Group.Restore.no_noise_fails",
    "Mass.Group.Restore.order_fails",
    "Mass.Group.Restore.stale_fails",
    "Mass.Group.Restore.mismatch_fails",
    "Mass.Group.Restore.one_file_fails"
   ],
   "note": "Restoring is proved for a group opened once with summary files of its own. False in the code: summary files keep channels of earlier groups; lists in different orders leave wrong noise names in the summary files; channels come back in the order of their names; a directory named with _chan<digit> makes pulses and noise share a summary file; max_chans needs noise files."
  },
  {
   "property": "C141",
   "status": "partial",
   "theorems": [
    "Mass.Group.Vec.setup_ok",
    "Mass.Group.Vec.reopen",
    "Mass.Group.Vec.resize_partial",
    "Mass.Group.Vec.resize_fails",
    "Mass.Group.Vec.array_ok",
    "Mass.Group.Vec.off_style",
    "Mass.Group.Vec.spread_fails",
    "Mass.Group.Vec.copy_channel_fails",
    "Mass.Group.Vec.copy_spectrum_partial",
    "Mass.Group.Vec.copy_spectrum_fails",
    "Mass.Group.Vec.copy_spectrum_witness"
   ],
   "note": "Types of the vectors are not modelled. False in the code: resizing to fewer pulses always raises and leaves the channel inconsistent; channels and groups cannot be copied (AttributeError); a copy of a power spectrum shares its sum with the original, so adding to one spoils the other."
  },
  {
   "property": "C142",
   "status": "partial",
   "theorems": [
    "Mass.Line.Xray.columns",
    "Mass.Line.Xray.title_iff",
    "Mass.Line.Xray.load_partial",
    "Mass.Line.Xray.no_header_fails",
    "Mass.Line.Xray.getitem_partial",
    "Mass.Line.Xray.getitem_case",
    "Mass.Line.Xray.getitem_blanks",
    "Mass.Line.Xray.nickname_fails",
    "Mass.Line.Xray.nickname_witness_fails",
    "Mass.Line.Xray.byType_case",
    "Mass.Line.Xray.byType_nick",
    "Mass.Line.Xray.byType_greek",
    "Mass.Line.Xray.byType_lines",
    "Mass.Line.Xray.elements_nodup",
    "Mass.Line.Xray.ll_fails"
   ],
   "note": "Only ASCII letters change case; text to number conversion is an arbitrary partial function. False in the code: a file without a title line is read for ever; nicknames never work in look-ups (KeyError); the nickname Ll finds nothing."
  },
  {
   "property": "C143",
   "status": "partial",
   "theorems": [
    "Mass.Names.Scr.channels_partial",
    "Mass.Names.Scr.both_ok",
    "Mass.Names.Scr.here_fails",
    "Mass.Names.Scr.twice_fails",
    "Mass.Names.Scr.output_partial",
    "Mass.Names.Scr.output_fails",
    "Mass.Names.Scr.aux_fails",
    "Mass.Names.Scr.convert_partial",
    "Mass.Names.Scr.max_fails",
    "Mass.Names.Scr.missing_fails",
    "Mass.Names.Scr.state_ok",
    "Mass.Names.Scr.state_late_fails",
    "Mass.Names.Scr.none_fails",
    "Mass.Names.Scr.column_fails",
    "Mass.Names.Scr.projectors_partial",
    "Mass.Names.Scr.projectors_keep",
    "Mass.Names.Scr.projectors_lost_fails",
    "Mass.Names.Scr.weight_fails",
    "Mass.Names.Scr.ending_fails",
    "Mass.Names.Scr.negative_fails",
    "Mass.Names.Scr.modify_partial",
    "Mass.Names.Scr.modify_fails",
    "Mass.Names.Scr.modify_lost_fails"
   ],
   "note": "Files are names and contents; reading and converting records is C14's. False in the code: channels of a file in the current directory cannot be found and may be given twice; max_channels 0 converts all; a channel missing in one of several runs ends everything; the column number is lost; noise_weight_basis has no effect; noise files with another ending are looked for as .ljh; LJHModify always raises, having emptied its output; output_basename raises TypeError; timing files cannot be loaded."
  },
  {
   "property": "C144",
   "status": "partial",
   "theorems": [
    "Mass.Group.Master.chanOf_name",
    "Mass.Group.Master.jlName_chan",
    "Mass.Group.Master.master_partial",
    "Mass.Group.Master.reuse",
    "Mass.Group.Master.value_fails",
    "Mass.Group.Master.unclean_fails",
    "Mass.Group.Master.stale_fails",
    "Mass.Group.Master.partial_fails",
    "Mass.Group.Master.directory_fails"
   ],
   "note": "master_partial needs an h5py older than 3 and complete files. False in the code: with h5py 3 no master file can be made, and the remains are taken for a good one; files not cleanly ended are linked all the same and make the group unusable; a master file is used again for other files; a missing file leaves a partial master file; names with _chan in the directory."
  },
  {
   "property": "C145",
   "status": "partial",
   "theorems": [
    "Mass.Recipe.Drift.learn_partial",
    "Mass.Recipe.Drift.learn_name",
    "Mass.Recipe.Drift.drift_fit",
    "Mass.Recipe.Drift.saved",
    "Mass.Recipe.Drift.saved_two",
    "Mass.Recipe.Drift.saved_twice",
    "Mass.Recipe.Drift.read_version",
    "Mass.Recipe.Drift.read_missing",
    "Mass.Recipe.Drift.eq_laws",
    "Mass.Recipe.Drift.same_fails",
    "Mass.Recipe.Drift.nan_fails",
    "Mass.Recipe.Drift.broken_fails"
   ],
   "note": "learn_partial needs two different quantities: with the same one as indicator and uncorrected value the recipe is accepted and crafting raises (same_fails). A NaN number makes the correction read back unequal (nan_fails); saving is not all or nothing (broken_fails). The fits themselves are oracles."
  },
  {
   "property": "C146",
   "status": "partial",
   "theorems": [
    "Mass.Algo.Fake.sample_nearest",
    "Mass.Algo.Fake.sample_trunc",
    "Mass.Algo.Fake.high_fails",
    "Mass.Algo.Fake.noise_fails",
    "Mass.Algo.Fake.read_row",
    "Mass.Algo.Fake.copy_same",
    "Mass.Algo.Fake.times_fails",
    "Mass.Algo.Fake.virtual_fails",
    "Mass.Algo.Fake.counts_spec",
    "Mass.Algo.Fake.scales_spec",
    "Mass.Algo.Fake.equal_fails",
    "Mass.Algo.Fake.few_fails",
    "Mass.Algo.Fake.kludge_sum",
    "Mass.Algo.Fake.kludge_one",
    "Mass.Algo.Fake.times_sorted",
    "Mass.Algo.Fake.presamples_fails",
    "Mass.Algo.Fake.model_spec",
    "Mass.Algo.Fake.peak_fails"
   ],
   "note": "False in the code: a VirtualFile is refused by PulseRecords, NoiseRecords and TESGroup (TypeError), so fake data sets and groups can never be made; levels from 32768 up are read as negative; negative noise is not rounded to nearest; distributions without weights raise; default presamples may be fractional; the number of times is not checked. What holds is proved."
  },
  {
   "property": "C147",
   "status": "partial",
   "theorems": [
    "Mass.Group.Sums.summarize_spec",
    "Mass.Group.Sums.progress_spec",
    "Mass.Group.Sums.noise_spectra_partial",
    "Mass.Group.Sums.noise_spectra_fails",
    "Mass.Group.Sums.timestamp_offset_iff",
    "Mass.Group.Sums.report_line",
    "Mass.Group.Sums.report_fails",
    "Mass.Group.Sums.noise_only_files",
    "Mass.Group.Sums.noise_only_lists_fails",
    "Mass.Group.Sums.noise_only_max_fails",
    "Mass.Group.Sums.noise_attrs_partial",
    "Mass.Group.Sums.noise_attrs_fails",
    "Mass.Group.Sums.segments_spec",
    "Mass.Group.Sums.noise_marks_fails",
    "Mass.Group.Sums.use_records_partial",
    "Mass.Group.Sums.use_records_fails",
    "Mass.Group.Sums.seg_lengths",
    "Mass.Group.Sums.fancy_fails"
   ],
   "note": "False in the code: compute_noise_spectra stops at the first failing channel; a channel without good pulses ends the report; a noise-only group ignores never_use and use_only, cannot be made with max_chans, forgets bad marks when reopened, and with an empty first file accepts files that disagree; the documented form of use_records is a TypeError; compute_fancy_power_spectra raises for LJH files. What holds is proved."
  },
  {
   "property": "C148",
   "status": "partial",
   "theorems": [
    "Mass.Group.Plots.traces_spec",
    "Mass.Group.Plots.difference_spec",
    "Mass.Group.Plots.difference_fails",
    "Mass.Group.Plots.rebase_spec",
    "Mass.Group.Plots.quantity_spec",
    "Mass.Group.Plots.names_fails",
    "Mass.Group.Plots.scatter_spec",
    "Mass.Group.Plots.points_bound",
    "Mass.Group.Plots.ten_thousand_fails",
    "Mass.Group.Plots.group_downs_spec",
    "Mass.Group.Plots.group_downs_fails",
    "Mass.Group.Plots.chosen_spec",
    "Mass.Group.Plots.chosen_words",
    "Mass.Group.Plots.group_points_partial",
    "Mass.Group.Plots.group_all_fails",
    "Mass.Group.Plots.midnight_spec",
    "Mass.Group.Plots.multipage_spec",
    "Mass.Group.Plots.multipage_fails",
    "Mass.Group.Plots.summary_pages_fails",
    "Mass.Group.Plots.page_name_fails",
    "Mass.Group.Plots.noise_limits_partial",
    "Mass.Group.Plots.noise_limits_fails",
    "Mass.Group.Plots.y_label_fails",
    "Mass.Group.Plots.label_heights_spec",
    "Mass.Group.Plots.label_heights_fails"
   ],
   "note": "False in the code: differences are drawn summed over three samples; three documented names of quantities are refused; up to 19,999 points are drawn, and all channels are thinned like the first; a group plot of all pulses raises; plot_summary_pages and plot_histogram_pages always fail; the axes of a noise plot fit the last channel only and its label ignores sqrt_psd; labels in the second colour alone raise. What holds is proved; what matplotlib makes of it is not modelled."
  },
  {
   "property": "C149",
   "status": "partial",
   "theorems": [
    "Mass.Line.ByName.line_energies_spec",
    "Mass.Line.ByName.documented_names",
    "Mass.Line.ByName.usual_names",
    "Mass.Line.ByName.get_model_spec",
    "Mass.Line.ByName.hints_spec",
    "Mass.Line.ByName.report_digits",
    "Mass.Line.ByName.report_zero_fails",
    "Mass.Line.ByName.models_spec",
    "Mass.Line.ByName.he_complex_spec",
    "Mass.Line.ByName.unknown_line",
    "Mass.Line.ByName.models_background_fails"
   ],
   "note": "False in the code: a fitted value of exactly zero makes the report and the plot fail; with has_linear_background=True none of the ready-made models can be made. The rest is proved. The contents of the data files are not modelled: that their names are elements and transitions is a hypothesis (all transitions in the two files are among the eighteen). The rounding done by Python's format 'g' is assumed to be within half a unit of the last digit."
  },
  {
   "property": "C15",
   "status": "proved",
   "theorems": [
    "Mass.Ljh.segments_partition",
    "Mass.Ljh.segment_size_ok_iff"
   ],
   "note": ""
  },
  {
   "property": "C150",
   "status": "partial",
   "theorems": [
    "Mass.Calc.PhaseAlign.align_spec",
    "Mass.Calc.PhaseAlign.peak_moved",
    "Mass.Calc.PhaseAlign.nothing_to_align",
    "Mass.Calc.PhaseAlign.any_order",
    "Mass.Calc.PhaseAlign.align_normal",
    "Mass.Calc.PhaseAlign.offset",
    "Mass.Calc.PhaseAlign.bins_2015",
    "Mass.Calc.PhaseAlign.counts_total",
    "Mass.Calc.PhaseAlign.ridge_at",
    "Mass.Calc.PhaseAlign.ridge_points",
    "Mass.Calc.PhaseAlign.same_spectra_2015",
    "Mass.Calc.PhaseAlign.empty_bin_fails",
    "Mass.Calc.PhaseAlign.ridge_low_fails",
    "Mass.Calc.PhaseAlign.centre_mid"
   ],
   "note": "False in the code, by the older method: a phase bin without pulses of the peak puts the curve at zero, so that a pulse there is corrected to twice its height; a bin displaced by half the window raises. The entropy (C88) and Brent's method are arbitrary functions, so nothing is said about how good the displacements are; the parabola of the older method is an oracle."
  },
  {
   "property": "C151",
   "status": "partial",
   "theorems": [
    "Mass.Group.ModelFile.model_spec",
    "Mass.Group.ModelFile.model_made",
    "Mass.Group.ModelFile.lagged_spec",
    "Mass.Group.ModelFile.extra_fails",
    "Mass.Group.ModelFile.file_spec",
    "Mass.Group.ModelFile.keeps_existing",
    "Mass.Group.ModelFile.rethrow_raises",
    "Mass.Group.ModelFile.replaced_lost_fails",
    "Mass.Group.ModelFile.given_file_fails",
    "Mass.Group.ModelFile.given_new",
    "Mass.Group.ModelFile.twice_fails",
    "Mass.Group.ModelFile.name_spec",
    "Mass.Group.ModelFile.name_fails"
   ],
   "note": "False in the code: the extra components are found from the arrival-time-safe filter, whatever the 5-lag filter; replacing a file when no model can be made leaves an empty one; for a file handed over noise_weight_basis and _rethrow are ignored; writing twice into one file marks all channels bad; a directory with chan in its name is an error. What holds is proved. The averages, filters and the decomposition are oracles; a failure in the middle of writing one entry is not modelled."
  },
  {
   "property": "C152",
   "status": "partial",
   "theorems": [
    "Mass.Group.LineFits.arange_spec",
    "Mass.Group.LineFits.linefit_iff",
    "Mass.Group.LineFits.channel_fit",
    "Mass.Group.LineFits.default_range",
    "Mass.Group.LineFits.group_of_one",
    "Mass.Group.LineFits.group_counts",
    "Mass.Group.LineFits.attr_fails",
    "Mass.Group.LineFits.unused_fails",
    "Mass.Group.LineFits.label_fails",
    "Mass.Group.LineFits.save_spec",
    "Mass.Group.LineFits.text_exact",
    "Mass.Group.LineFits.summarize_fails",
    "Mass.Group.LineFits.stored_fails"
   ],
   "note": "False in the code: attributes other than energies are refused; guess_params and label do nothing; the label of the plot shows the argument binsize even if other bins are given; summarize_filters leaves out the nominal peak, so its numbers are not those of the filters, and never finds a filter in the file. The rest is proved; guess and fit of the model are arbitrary functions, exact numbers."
  },
  {
   "property": "C153",
   "status": "partial",
   "theorems": [
    "Mass.Off.Runs.files_spec",
    "Mass.Off.Runs.load_spec",
    "Mass.Off.Runs.load_distinct",
    "Mass.Off.Runs.five_spec",
    "Mass.Off.Runs.again_fails",
    "Mass.Off.Runs.group_five",
    "Mass.Off.Runs.missing_fails",
    "Mass.Off.Runs.inverted_fails",
    "Mass.Off.Runs.out_name",
    "Mass.Off.Runs.bracket_fails",
    "Mass.Off.Runs.copy_fails",
    "Mass.Off.Runs.blank_fails"
   ],
   "note": "False in the code: base names with a bracket find no file; other files that begin like those of the run are taken for channels, and of two files with one number only the last is kept; one good channel without model ends the call for the group after a part of it, and a second call is refused; heights from models of inverted data are negative; names of runs with a blank are cut. The rest is proved, in exact numbers; the directory is a list of names, names with a leading dot are not special."
  },
  {
   "property": "C154",
   "status": "partial",
   "theorems": [
    "Mass.Algo.Times.secs_spec",
    "Mass.Algo.Times.unixnano_spec",
    "Mass.Algo.Times.unixnano_fails",
    "Mass.Algo.Times.nano_eq",
    "Mass.Algo.Times.before_entry",
    "Mass.Algo.Times.states_spec",
    "Mass.Algo.Times.states_fails",
    "Mass.Algo.Times.usecSecs_spec",
    "Mass.Algo.Times.usecSecs_fails",
    "Mass.Algo.Times.timeDiff_spec",
    "Mass.Algo.Times.relTime_spec",
    "Mass.Algo.Times.relTime_ljh",
    "Mass.Algo.Times.store_spec",
    "Mass.Algo.Times.store_fails",
    "Mass.Fl.fl_err",
    "Mass.Fl.fl_mono",
    "Mass.Fl.fl_grid",
    "Mass.Fl.fl_integral",
    "Mass.Algo.Times.toDouble_fl"
   ],
   "note": "False in the code: the nanoseconds of an OFF file are not the record's microseconds times 1000, and cut off after the microsecond can be the one before; a record at the very time of an entry of the state file can be given the state before it; a record read from HDF5 microseconds has another time than from LJH; float32 cannot tell near values apart. The states are proved for records with no entry within 750 ns. Rounding is IEEE to nearest even with unbounded exponents (no overflow or subnormal numbers, which times do not reach)."
  },
  {
   "property": "C155",
   "status": "proved",
   "theorems": [
    "Mass.Lin.Ideal.average_ideal",
    "Mass.Lin.Ideal.signal_ideal",
    "Mass.Lin.Ideal.response_ideal",
    "Mass.Lin.Ideal.filtered_ideal",
    "Mass.Lin.Ideal.energy_ideal",
    "Mass.Lin.Ideal.off_exact",
    "Mass.Lin.Ideal.off_ideal"
   ],
   "note": "Exact arithmetic. The filter is assumed to have a non-zero weight (a shape to which no filter responds is excluded), and to be made at all (the noise matrix and the cut windows are accepted). Cython filtering of records of fewer than 8 samples is excluded (C109)."
  },
  {
   "property": "C156",
   "status": "partial",
   "theorems": [
    "Mass.Cut.Params.keys_fixed",
    "Mass.Cut.Params.types_kept",
    "Mass.Cut.Params.flag_kept",
    "Mass.Cut.Params.flag_frozen",
    "Mass.Cut.Params.set_spec",
    "Mass.Cut.Params.set_unknown",
    "Mass.Cut.Params.controls_spec",
    "Mass.Cut.Params.controls_unknown",
    "Mass.Cut.Params.dicts2ns_spec",
    "Mass.Cut.Params.ns2dicts_spec",
    "Mass.Cut.Params.namespace_roundtrip",
    "Mass.Cut.Params.dump_spec",
    "Mass.Cut.Params.flag_true_fails",
    "Mass.Cut.Params.flag_false_fails",
    "Mass.Cut.Params.type_list_fails",
    "Mass.Cut.Params.shared_name_fails",
    "Mass.Cut.Params.overwritten_variable_fails",
    "Mass.Cut.Params.usage_fails",
    "Mass.Cut.Params.property_reads",
    "Mass.Cut.Params.properties_no_meta_fails",
    "Mass.Cut.Params.blank_property_fails",
    "Mass.Cut.Params.property_shared_fails"
   ],
   "note": "False in the code: a value of another type or None ends the process (also a number for a number), a check of False makes a parameter that cannot be set, a list of types always ends the process, a name in two dictionaries raises KeyError on the way back from a namespace, a variable of the same name is lost, set() prints nothing. properties raises TypeError unless meta data are allowed, a property of a name with a blank raises KeyError, and of a name in two dictionaries it reads the last while set sets the first. Not modelled: dicts2namespace2, which builds code as text."
  },
  {
   "property": "C157",
   "status": "proved",
   "theorems": [
    "Mass.Ljh.Open.open_spec",
    "Mass.Ljh.Open.key_error_iff",
    "Mass.Ljh.Open.error_kinds"
   ],
   "note": "Header lines to dictionary is C14's; a data source that is not UTF-8 is not modelled."
  },
  {
   "property": "C158",
   "status": "partial",
   "theorems": [
    "Mass.Off.Write.header_lines",
    "Mass.Off.Write.header_content",
    "Mass.Off.Write.convert_eq",
    "Mass.Off.Write.convert_refuses",
    "Mass.Off.Write.loop_spec",
    "Mass.Off.Write.file_spec",
    "Mass.Off.Write.crash",
    "Mass.Off.Write.written_opens",
    "Mass.Off.Write.arrays_read",
    "Mass.Off.Write.fields_read",
    "Mass.Off.Write.old_version_fails",
    "Mass.Off.Write.float32_fails",
    "Mass.Off.Write.few_bases_fails"
   ],
   "note": "False in the code: another off_version raises ValueError and leaves a 0.3.0 file without records; float32 arrays are written under a float64 header; with fewer than three basis elements records are lost. That json.loads inverts json.dumps is assumed for the header at hand; the conversion of one record is an arbitrary function here (C21 has its formulas)."
  },
  {
   "property": "C159",
   "status": "partial",
   "theorems": [
    "Mass.Group.Pages.fmt_spec",
    "Mass.Group.Pages.combine_spec",
    "Mass.Group.Pages.one_file_spec",
    "Mass.Group.Pages.update_spec",
    "Mass.Group.Pages.time_left_spec",
    "Mass.Group.Pages.work_spec",
    "Mass.Group.Pages.summary_progress",
    "Mass.Group.Pages.group_progress_partial",
    "Mass.Group.Pages.stale_fails",
    "Mass.Group.Pages.thousand_fails",
    "Mass.Group.Pages.template_fails",
    "Mass.Group.Pages.group_progress_fails",
    "Mass.Group.Pages.filter_progress_fails"
   ],
   "note": "False in the code: pages of an earlier run are put in and removed, pages from 1000 on are left out, the templates of both callers fit no number (nothing is ever saved), a group whose last channel fails never finishes, filtering shows more than 100 %. Exact arithmetic for the fractions and times."
  },
  {
   "property": "C16",
   "status": "partial",
   "theorems": [
    "Mass.Ljh.truncate_n_partial",
    "Mass.Ljh.truncate_time_partial",
    "Mass.Ljh.truncate_too_many",
    "Mass.Ljh.truncate_refused",
    "Mass.Ljh.truncate_header_fails"
   ],
   "note": "Proved for headers without an indented end-of-header look-alike; with one the output header is cut short (truncate_header_fails)."
  },
  {
   "property": "C160",
   "status": "partial",
   "theorems": [
    "Mass.Algo.Prompt.usual_peak_spec",
    "Mass.Algo.Prompt.peak_position",
    "Mass.Algo.Prompt.usual_peak_perm",
    "Mass.Algo.Prompt.usual_peak_shape",
    "Mass.Algo.Prompt.prompt_shift",
    "Mass.Algo.Prompt.np_peak",
    "Mass.Algo.Prompt.prompt_bounds",
    "Mass.Algo.Prompt.prompt_partial",
    "Mass.Algo.Prompt.fast_fails",
    "Mass.Algo.Prompt.prompt_fails",
    "Mass.Algo.Prompt.below_fails"
   ],
   "note": "The position is proved in full. Promptness agrees only if the usual position is 14 or 15 samples after the trigger (prompt_partial); otherwise the two ways differ (prompt_fails), pulses peaking within three samples have none by numpy (fast_fails), and records below their pretrigger mean wrap around (below_fails). Exact arithmetic; cut_post at most the length of a record."
  },
  {
   "property": "C161",
   "status": "proved",
   "theorems": [
    "Mass.Calc.Evidence.like_evidence",
    "Mass.Calc.Evidence.best_sigmaf_spec",
    "Mass.Calc.Evidence.best_sigmaf_failed",
    "Mass.Calc.Evidence.like_line",
    "Mass.Calc.Evidence.like_origin",
    "Mass.Calc.Evidence.like_units_x",
    "Mass.Calc.Evidence.like_units_y",
    "Mass.Calc.Evidence.like_two"
   ],
   "note": "Real arithmetic; that scipy's search finds the smallest value when it reports success is an assumption (Finds); LAPACK's Cholesky and solve as documented. With negative abscissas construction may raise (C99)."
  },
  {
   "property": "C162",
   "status": "partial",
   "theorems": [
    "Mass.Lin.KinkFit.fit_best_partial",
    "Mass.Lin.KinkFit.fit_exact",
    "Mass.Lin.KinkFit.fit_bounds",
    "Mass.Lin.KinkFit.range_spec",
    "Mass.Lin.KinkFit.fit_unsorted_fails"
   ],
   "note": "For x in increasing order, if the bounded search finds the smallest value (an assumption). For other orders the value minimised is not the misfit (fit_unsorted_fails). Exact arithmetic."
  },
  {
   "property": "C163",
   "status": "proved",
   "theorems": [
    "Mass.Lin.Rsvd.svd_orthonormal",
    "Mass.Lin.Rsvd.svd_exact",
    "Mass.Lin.Rsvd.svd_best"
   ],
   "note": "Exact arithmetic; LAPACK's QR and SVD as documented; the random matrix is any matrix. Number of random vectors at most the number of rows."
  },
  {
   "property": "C164",
   "status": "partial",
   "theorems": [
    "Mass.Calc.EffUncert.first_order",
    "Mass.Calc.EffUncert.efficiency_std",
    "Mass.Calc.EffUncert.stack_relative",
    "Mass.Calc.EffUncert.film_std",
    "Mass.Calc.EffUncert.ensure_spec",
    "Mass.Calc.EffUncert.fraction_spec",
    "Mass.Calc.EffUncert.default_film",
    "Mass.Calc.EffUncert.mesh_film",
    "Mass.Calc.EffUncert.area_film",
    "Mass.Calc.EffUncert.nominal_film",
    "Mass.Calc.EffUncert.fill_default_fails",
    "Mass.Calc.EffUncert.oxide_exact_fails",
    "Mass.Calc.EffUncert.mixed_fails",
    "Mass.Calc.EffUncert.layer_fails"
   ],
   "note": "Real arithmetic; uncertainties' linear propagation as documented; cross-sections exact. False in the code: an aluminium film gets a fill fraction of 1 with 100 % uncertainty (fill_default_fails), its oxide is exact if the aluminium thickness is uncertain (oxide_exact_fails), lists mixing plain and uncertain numbers are refused (mixed_fails), the elements of one layer count as independent (layer_fails)."
  },
  {
   "property": "C165",
   "status": "partial",
   "theorems": [
    "Mass.Calc.CalPlot.plot_curve",
    "Mass.Calc.CalPlot.points_on_curve",
    "Mass.Calc.CalPlot.plot_range",
    "Mass.Calc.CalPlot.plot_refused",
    "Mass.Calc.CalPlot.band_spec",
    "Mass.Calc.CalPlot.bars_partial",
    "Mass.Calc.CalPlot.bars_horizontal",
    "Mass.Calc.CalPlot.slope_removed",
    "Mass.Calc.CalPlot.bars_linear_fails",
    "Mass.Calc.CalPlot.bars_power_fails",
    "Mass.Calc.CalPlot.log_gain_fails",
    "Mass.Calc.CalPlot.log_gain_label_fails",
    "Mass.Calc.CalPlot.one_point_fails"
   ],
   "note": "Real arithmetic, positive pulse heights and energies. Error bars are right for gain, inverse gain and energies per pulse height only (bars_partial, bars_linear_fails, bars_power_fails); log gains below one cannot be plotted (log_gain_fails) and are labelled with the wrong sign (log_gain_label_fails)."
  },
  {
   "property": "C166",
   "status": "partial",
   "theorems": [
    "Mass.Calc.LearnPlan.learn_plan",
    "Mass.Calc.LearnPlan.learn_unchanged",
    "Mass.Calc.LearnPlan.learn_order",
    "Mass.Calc.LearnPlan.learn_linear",
    "Mass.Calc.LearnPlan.energies_fails",
    "Mass.Calc.LearnPlan.lost_fails"
   ],
   "note": "Real arithmetic; the smeared histogram is an arbitrary function. False in the code: lines given as energies, which the search accepts, are refused by the plan (energies_fails); an earlier plan is lost when a point is refused (lost_fails)."
  },
  {
   "property": "C167",
   "status": "partial",
   "theorems": [
    "Mass.Group.ChanPlots.average_plot",
    "Mass.Group.ChanPlots.filters_plot",
    "Mass.Group.ChanPlots.noise_plot",
    "Mass.Group.ChanPlots.unknown_fails",
    "Mass.Group.ChanPlots.axis_fails",
    "Mass.Group.ChanPlots.legend_fails",
    "Mass.Group.ChanPlots.noise_fails"
   ],
   "note": "Figures as lists of curves and legends per axes. False in the code: unknown channel numbers give a KeyError (unknown_fails); axes that are not the current ones are ignored by two of the plots (axis_fails) and give an AttributeError with more than twelve channels (legend_fails); one channel without noise ends the plot of all (noise_fails)."
  },
  {
   "property": "C168",
   "status": "partial",
   "theorems": [
    "Mass.Calc.Diag.panels_apart",
    "Mass.Calc.Diag.side_minimal",
    "Mass.Calc.Diag.panel_spec",
    "Mass.Calc.Diag.diagnose_spec",
    "Mass.Calc.Diag.diagnose_refused",
    "Mass.Calc.Diag.labels_new",
    "Mass.Calc.Diag.energies_fails",
    "Mass.Calc.Diag.earlier_fails"
   ],
   "note": "Exact arithmetic; what is handed to matplotlib. False in the code: lines given by energies, which the calibration accepts, give an exception (energies_fails); with a calibration that had points before, names are at wrong points (earlier_fails)."
  },
  {
   "property": "C169",
   "status": "partial",
   "theorems": [
    "Mass.States.Scatter.scatter_states",
    "Mass.States.Scatter.every_pulse_once",
    "Mass.States.Scatter.compare_states",
    "Mass.States.Scatter.map_spec",
    "Mass.States.Scatter.compare_bad_fails",
    "Mass.States.Scatter.map_axis_fails",
    "Mass.States.Scatter.function_bad_fails"
   ],
   "note": "What is handed to matplotlib. False in the code: a comparison of drift corrections with bad pulses always raises (compare_bad_fails); axes given for a two-dimensional histogram are ignored (map_axis_fails); with a function as a cut bad pulses cannot be shown (function_bad_fails)."
  },
  {
   "property": "C17",
   "status": "partial",
   "theorems": [
    "Mass.Ljh.copy_partial",
    "Mass.Ljh.readRec_index",
    "Mass.Ljh.copy_refused",
    "Mass.Ljh.copy_presamples_fails",
    "Mass.Ljh.copy_same_file_fails"
   ],
   "note": "Records, order and sample count proved; the pretrigger count is always reported 3 too high and the subframe settings are lost; copying onto the same file destroys it."
  },
  {
   "property": "C170",
   "status": "partial",
   "theorems": [
    "Mass.Group.Progress.work_undisturbed",
    "Mass.Group.Progress.reports",
    "Mass.Group.Progress.estimate_steady",
    "Mass.Group.Progress.summary_reports",
    "Mass.Group.Progress.filter_over_fails",
    "Mass.Group.Progress.filter_early_fails",
    "Mass.Group.Progress.last_channel_fails",
    "Mass.Group.Progress.no_updater_fails"
   ],
   "note": "Numbers before rounding to what is printed. False in the code: filtering ends above 100% (filter_over_fails), and is said to be finished early and twice if the last segment has one pulse (filter_early_fails); a group whose last channel fails never finishes (last_channel_fails); a channel without group, or in a group from HDF5 files only, cannot be summarized or filtered for want of something to report to (no_updater_fails)."
  },
  {
   "property": "C171",
   "status": "partial",
   "theorems": [
    "Mass.Line.Figs.labels_spec",
    "Mass.Line.Figs.labels_plain",
    "Mass.Line.Figs.fit_labels_cal",
    "Mass.Line.Figs.states_shown",
    "Mass.Line.Figs.curves_by_state",
    "Mass.Line.Figs.curves_coadded",
    "Mass.Line.Figs.diagnose_panels",
    "Mass.Line.Figs.result_spec",
    "Mass.Line.Figs.label_height",
    "Mass.Line.Figs.log_heights",
    "Mass.Line.Figs.energy_units_fails",
    "Mass.Line.Figs.slice_label_fails",
    "Mass.Line.Figs.one_label_fails",
    "Mass.Line.Figs.tuple_fails",
    "Mass.Line.Figs.diagnose_empty_fails",
    "Mass.Line.Figs.result_axis_fails",
    "Mass.Line.Figs.label_misses_fails",
    "Mass.Line.Figs.label_axis_fails",
    "Mass.Line.Figs.log_outside_fails"
   ],
   "note": "What is handed to matplotlib; the format of numbers and the histograms are arbitrary functions. False in the code: energies are labelled arbs (energy_units_fails); fits of slices cannot be shown (slice_label_fails); one state is labelled letter by letter (one_label_fails); tuples of states are refused one by one (tuple_fails); no figure of a calibration without fits (diagnose_empty_fails); channel numbers are indices (result_axis_fails); labels miss narrow peaks (label_misses_fails) and go to the current axes (label_axis_fails), or outside on logarithmic scales (log_outside_fails)."
  },
  {
   "property": "C172",
   "status": "partial",
   "theorems": [
    "Mass.Calc.Instruments.lex_ht",
    "Mass.Calc.Instruments.ebit_spec",
    "Mass.Calc.Instruments.horton_spec",
    "Mass.Calc.Instruments.instrument_range",
    "Mass.Calc.Instruments.plot_spec",
    "Mass.Calc.Instruments.raven_fails",
    "Mass.Calc.Instruments.plot_axis_fails"
   ],
   "note": "Nominal values; attenuation proportional to density. False in the code: filters with polymer of the RAVEN instrument have oxide of the thickness of the polymer and lack an element of the polymer (raven_fails); energies in eV are shown as keV (plot_axis_fails)."
  },
  {
   "property": "C173",
   "status": "partial",
   "theorems": [
    "Mass.Stat.AutocorrPulses.autocorr_spec",
    "Mass.Stat.AutocorrPulses.array_after",
    "Mass.Stat.AutocorrPulses.baseline_irrelevant",
    "Mass.Stat.AutocorrPulses.again_same",
    "Mass.Stat.AutocorrPulses.scale_sq",
    "Mass.Stat.AutocorrPulses.order_irrelevant",
    "Mass.Stat.AutocorrPulses.parts_weighted",
    "Mass.Stat.AutocorrPulses.lag_zero_largest",
    "Mass.Stat.AutocorrPulses.weighted_sum_zero",
    "Mass.Stat.AutocorrPulses.integers_refused",
    "Mass.Stat.AutocorrPulses.nothing",
    "Mass.Stat.AutocorrPulses.array_changed_fails"
   ],
   "note": "Real arithmetic. False in the code: the means of records are removed in the caller's array (array_changed_fails)."
  },
  {
   "property": "C174",
   "status": "partial",
   "theorems": [
    "Mass.Line.LinePlot.plot_spec",
    "Mass.Line.LinePlot.plot_negative",
    "Mass.Line.LinePlot.plot_short",
    "Mass.Line.LinePlot.ylim_contains",
    "Mass.Line.LinePlot.default_window",
    "Mass.Line.LinePlot.window_share",
    "Mass.Line.LinePlot.like_reference",
    "Mass.Line.LinePlot.label_per_bin_fails"
   ],
   "note": "Real arithmetic; scipy's wofz as documented for ylim_contains. False in the code: the label says counts per bin, the curve is the density per eV (label_per_bin_fails). The share of the intensity in the window is proved for ideal resolution only."
  },
  {
   "property": "C175",
   "status": "proved",
   "theorems": [
    "Mass.Ljh.OffRecord.resid_spec",
    "Mass.Ljh.OffRecord.exact_pulse",
    "Mass.Ljh.OffRecord.mean_between",
    "Mass.Ljh.OffRecord.delta_of_ramp",
    "Mass.Ljh.OffRecord.fit_best",
    "Mass.Ljh.OffRecord.pulse_irrelevant",
    "Mass.Ljh.off_record_local"
   ],
   "note": "Rationals for floats; the fields hold 32-bit roundings of these values. np.polyfit as the solution of the normal equations."
  },
  {
   "property": "C176",
   "status": "partial",
   "theorems": [
    "Mass.Calc.Shapes.array_spec",
    "Mass.Calc.Shapes.scalar_spec",
    "Mass.Calc.Shapes.pieces",
    "Mass.Calc.Shapes.default_spec",
    "Mass.Calc.Shapes.energy2ph_spec",
    "Mass.Calc.Shapes.scalar_differs_fails",
    "Mass.Calc.Shapes.default_changes_fails",
    "Mass.Calc.Shapes.dimensions_fails"
   ],
   "note": "The curve is any function. False in the code: an energy that is not finite is given as it is for a scalar and as 0 in an array; a calibration without points sets such entries of the caller's array to 0 and refuses a list with one; arrays of two dimensions are refused by ph2energy."
  },
  {
   "property": "C177",
   "status": "partial",
   "theorems": [
    "Mass.Ljh.Merge.merge_spec_partial",
    "Mass.Ljh.Merge.merge_wrong_channel",
    "Mass.Ljh.Merge.merge_again",
    "Mass.Ljh.Merge.merge_frame",
    "Mass.Ljh.Merge.expand_spec",
    "Mass.Ljh.Merge.outPath_channum",
    "Mass.Ljh.Merge.main_spec_partial",
    "Mass.Ljh.Merge.main_no_match_fails",
    "Mass.Ljh.Merge.merge_again_fails",
    "Mass.Ljh.Merge.merge_lengths_fails",
    "Mass.Ljh.Merge.merge_old_version_fails",
    "Mass.Ljh.Merge.merge_incomplete_fails"
   ],
   "note": "Proved when the first file is of version 2.2 and ends with a whole record, and all records have the same length. False in the code: nothing of that is checked, and the records are misread; run again with --force and the same pattern, the output is merged too and every record is there twice; a pattern without a match ends in a TypeError."
  },
  {
   "property": "C178",
   "status": "partial",
   "theorems": [
    "Mass.Ljh.TruncScript.search_spec",
    "Mass.Ljh.TruncScript.outName_inj",
    "Mass.Ljh.TruncScript.loop_spec_partial",
    "Mass.Ljh.TruncScript.loop_frame",
    "Mass.Ljh.TruncScript.main_spec_partial",
    "Mass.Ljh.TruncScript.loop_short",
    "Mass.Ljh.TruncScript.short_channel_fails",
    "Mass.Ljh.TruncScript.wildcard_fails",
    "Mass.Ljh.TruncScript.directory_fails",
    "Mass.Ljh.TruncScript.no_match_fails"
   ],
   "note": "Proved when every file has enough records. False in the code: a channel with fewer ends the script with IndexError, and the channels after it are not truncated; a basename with wildcards or a directory named like a file makes outputs overwrite each other; no file found is a TypeError."
  },
  {
   "property": "C179",
   "status": "partial",
   "theorems": [
    "Mass.Lin.Lowpass.lowpass_spec_partial",
    "Mass.Lin.Lowpass.lowpass_idem",
    "Mass.Lin.Lowpass.lowpass_passes",
    "Mass.Lin.Lowpass.lowpass_linear",
    "Mass.Lin.Lowpass.lowpass_energy",
    "Mass.Lin.Lowpass.lowpass_odd_fails"
   ],
   "note": "Proved for an even number of samples. False in the code for every odd number: IndexError."
  },
  {
   "property": "C18",
   "status": "proved",
   "theorems": [
    "Mass.Ljh.invert_spec"
   ],
   "note": ""
  },
  {
   "property": "C180",
   "status": "partial",
   "theorems": [
    "Mass.Recipe.Attrs.attribute_is_recipe_partial",
    "Mass.Recipe.Attrs.attribute_after_add",
    "Mass.Recipe.Attrs.others_keep",
    "Mass.Recipe.Attrs.saved_is_loaded",
    "Mass.Recipe.Attrs.save_and_load_refuse",
    "Mass.Recipe.Attrs.loaded_recipe_fails",
    "Mass.Recipe.Attrs.method_name_fails",
    "Mass.Recipe.Attrs.hidden_attribute_fails",
    "Mass.Recipe.Attrs.hidden_file_fails",
    "Mass.Recipe.Attrs.overwrite_stops_fails"
   ],
   "note": "Proved for names that channels do not use themselves. False in the code for recipes loaded in a new process (no attribute), for names of methods, for names of attributes of channels (hidden in all channels; no channel can be opened any more), and for saving over a book when it does not finish (both lost)."
  },
  {
   "property": "C181",
   "status": "partial",
   "theorems": [
    "Mass.Algo.Resume.resumed_partial",
    "Mass.Algo.Resume.safe_steps",
    "Mass.Algo.Resume.safe_resumed",
    "Mass.Algo.Resume.forced_repairs",
    "Mass.Algo.Resume.summarize_complete",
    "Mass.Algo.Resume.marks",
    "Mass.Algo.Resume.phase_resumed",
    "Mass.Algo.Resume.phase_complete",
    "Mass.Algo.Resume.summarize_fails",
    "Mass.Algo.Resume.noise_fails",
    "Mass.Algo.Resume.white_fails",
    "Mass.Algo.Resume.filter_fails",
    "Mass.Algo.Resume.phase_same_session_fails",
    "Mass.Algo.Resume.phase_unopenable_fails",
    "Mass.Algo.Resume.phase_truncated_fails"
   ],
   "note": "Proved for interruptions between steps, anywhere in the average pulse, drift correction, phase_correct2014 and time drift correction, and in the other steps before they look done; and for repair by forceNew. False in the code for the summary, the noise, the filtering and phase_correct once they look done: the rest is never computed, and a half-stored phase corrector keeps the channel from opening or is loaded without its last corrections."
  },
  {
   "property": "C182",
   "status": "partial",
   "theorems": [
    "Mass.Cut.Stored.run_img",
    "Mass.Cut.Stored.history_img",
    "Mass.Cut.Stored.table_shows",
    "Mass.Cut.Stored.categories_shown",
    "Mass.Cut.Stored.long_name_fails",
    "Mass.Cut.Stored.exhausted_fails",
    "Mass.Cut.Stored.same_beginning_fails",
    "Mass.Cut.Stored.split_letter_fails",
    "Mass.Cut.Stored.long_category_fails",
    "Mass.Cut.Stored.empty_table_fails"
   ],
   "note": "Proved for all names of at most 64 bytes of UTF-8 that do not end in a NUL: every history behaves as with the names themselves, so C01 to C08 hold of the stored state. False in the code for longer names: they can be registered again and again until the bits run out, are not found, fall together, or make every question by name raise. The tables are proved where they are printed; they cannot be printed without categorical fields."
  },
  {
   "property": "C183",
   "status": "partial",
   "theorems": [
    "Mass.Ljh.Old.old_records",
    "Mass.Ljh.Old.old_crash",
    "Mass.Ljh.Old.old_in_order",
    "Mass.Ljh.Old.open_missing",
    "Mass.Ljh.Old.no_divisions_fails",
    "Mass.Ljh.Old.short_frames_fails"
   ],
   "note": "Proved for every file with a nonzero number of subframe divisions and a frame of at least 1 ns, in exact arithmetic (the code multiplies floats). False without: a header with 0 divisions is accepted and then no time can be read; frames of less than 1 ns are counted as none."
  },
  {
   "property": "C184",
   "status": "partial",
   "theorems": [
    "Mass.Calc.Agree.ks_spec",
    "Mass.Calc.Agree.ks_nan",
    "Mass.Calc.Agree.ks_symm",
    "Mass.Calc.Agree.hist_perm",
    "Mass.Calc.Agree.ks_extreme",
    "Mass.Calc.Agree.figure_spec",
    "Mass.Calc.Agree.cal_figure",
    "Mass.Calc.Agree.cal_figure_missing",
    "Mass.Calc.Agree.statistics_fails",
    "Mass.Calc.Agree.stale_fails",
    "Mass.Calc.Agree.mark_below_fails"
   ],
   "note": "The formula of the statistic is as stated, and the figures for bins of peaks within the range. False: the statistic (and the cross entropy) are never given, since they read an attribute nothing sets (statistics_fails); the figure of an earlier alignment shows units of the later one (stale_fails); a peak below the bins is marked at the far end (mark_below_fails). Numbers exact, values not NaN."
  },
  {
   "property": "C185",
   "status": "partial",
   "theorems": [
    "Mass.Line.Report.within_half",
    "Mass.Line.Report.no_more",
    "Mass.Line.Report.two_figures",
    "Mass.Line.Report.exact",
    "Mass.Line.Report.report_partial",
    "Mass.Line.Report.label_inj",
    "Mass.Line.Report.zero_fails"
   ],
   "note": "Proved for all results where no varied parameter with an uncertainty is exactly 0, and no uncertainty is 0. Otherwise there is no report and the figure ends with an error (zero_fails). The formats are modelled by the number they write, logarithms and values are exact; NaN and infinite values are left out."
  },
  {
   "property": "C186",
   "status": "partial",
   "theorems": [
    "Mass.Line.Builtin.loaded",
    "Mass.Line.Builtin.name_unique",
    "Mass.Line.Builtin.builtin_density",
    "Mass.Line.Builtin.nominal_partial",
    "Mass.Line.Builtin.pr_fails",
    "Mass.Line.Builtin.gd_fails",
    "Mass.Line.Builtin.al_fails",
    "Mass.Line.Builtin.plot_all_fails",
    "Mass.Line.Builtin.old_name_fails"
   ],
   "note": "The table (Verif/Line/Builtin.lean) is copied from the source by tools/gen_builtin.py, with exact decimals. Names and densities are proved for all lines. The nominal peak is proved for the lines without heights of Voigt profiles (three lines are such) except PrKAlpha, GdKBeta and AlKAlpha_metal_v1992, where it is false (pr_fails, gd_fails, al_fails). plot_all_spectra never draws (plot_all_fails)."
  },
  {
   "property": "C187",
   "status": "partial",
   "theorems": [
    "Mass.Stat.NoiseFile.ac_stored",
    "Mass.Stat.NoiseFile.separate_stored",
    "Mass.Stat.NoiseFile.again_same",
    "Mass.Stat.NoiseFile.sizes_kept",
    "Mass.Stat.NoiseFile.psd_stored",
    "Mass.Stat.NoiseFile.plot_spec",
    "Mass.Stat.NoiseFile.psd_plot_spec",
    "Mass.Stat.NoiseFile.default_fails",
    "Mass.Stat.NoiseFile.lags_fails",
    "Mass.Stat.NoiseFile.first_plot_fails",
    "Mass.Stat.NoiseFile.no_group_fails",
    "Mass.Stat.NoiseFile.resegment_fails"
   ],
   "note": "Proved for as many lags as samples in a record, for the spectrum of separate records of even length, and for the figures of what was computed. False for the default number of lags and any other number, for files without an HDF5 group (compute_noise_nlags never works), for other segment lengths, and for the first figure of the autocorrelation. That h5py refuses a dataset of shape (None,) is assumed; the kind of error plays no part."
  },
  {
   "property": "C188",
   "status": "partial",
   "theorems": [
    "Mass.Line.XrayData.parse_text",
    "Mass.Line.XrayData.loaded",
    "Mass.Line.XrayData.sensible",
    "Mass.Line.XrayData.builtin_near_partial",
    "Mass.Line.XrayData.isotope_fails",
    "Mass.Line.XrayData.two_energies_fails",
    "Mass.Line.XrayData.nb_fails"
   ],
   "note": "Proved: the reading, the sizes and the orders, and that the line shapes and energies of one name agree within 0.405 eV. False: that every row is found by a name (isotopes share one, the later replaces the earlier), that the energies of a name agree within the uncertainty (MnKBeta), and that each line shape has an energy (NbKBeta24). The rows are copied from the files by tools/gen_xray.py; float() is modelled for plain decimal numbers with exact values."
  },
  {
   "property": "C189",
   "status": "partial",
   "theorems": [
    "Mass.Line.Ions.ions_loaded",
    "Mass.Line.Ions.ions_density",
    "Mass.Line.Ions.h_like_partial",
    "Mass.Line.Ions.other_peak",
    "Mass.Line.Ions.series",
    "Mass.Line.Ions.names_apart",
    "Mass.Line.Ions.four_p_fails",
    "Mass.Line.Ions.oxygen_fails"
   ],
   "note": "False for one doublet, whose amplitudes are exchanged (O H-Like 4p), and for one transition of oxygen, which has two energies. The calls are copied from the file by tools/gen_ions.py, with exact numbers."
  },
  {
   "property": "C19",
   "status": "partial",
   "theorems": [
    "Mass.Off.layout_ok_iff",
    "Mass.Off.record_size",
    "Mass.Off.layout_tiles",
    "Mass.Off.layout_offsets",
    "Mass.Off.views_agree_partial",
    "Mass.Off.views_agree_fails"
   ],
   "note": "Gap-free layout and size proved for all versions and basis counts; the descriptive view exists only for 3 or more basis elements (views_agree_fails)."
  },
  {
   "property": "C190",
   "status": "partial",
   "theorems": [
    "Mass.Line.Target.listed",
    "Mass.Line.Target.interferences_partial",
    "Mass.Line.Target.no_line",
    "Mass.Line.Target.target_shares",
    "Mass.Line.Target.average_between",
    "Mass.Line.Target.sortQ_ok",
    "Mass.Line.Target.print_fails",
    "Mass.Line.Target.equal_fails",
    "Mass.Line.Target.between_fails",
    "Mass.Line.Target.both_fails"
   ],
   "note": "Proved for lines of different energies, pairs without a strong line between them, and different elements in the target. False: pairs of equal energy and pairs with another line between are not reported, the printing ignores the distance, and an element given twice loses a share. The rates come from the package fisx and are arbitrary in the model."
  },
  {
   "property": "C191",
   "status": "partial",
   "theorems": [
    "Mass.Line.XrayFig.keyed",
    "Mass.Line.XrayFig.uncertainties_partial",
    "Mass.Line.XrayFig.energies",
    "Mass.Line.XrayFig.ticks_ok",
    "Mass.Line.XrayFig.in_view",
    "Mass.Line.XrayFig.hidden_fails",
    "Mass.Line.XrayFig.title_fails",
    "Mass.Line.XrayFig.missing_fails",
    "Mass.Line.XrayFig.empty_fails"
   ],
   "note": "Proved: which line is drawn where, in both figures, for every data base that was read. False: lines above 30 keV or with more than 10 eV uncertainty are outside the axes, the Kbeta_3 lines have a title but no panel, the Lgamma_1 panel is titled as a K line, and five curves have no points. The drawing itself is not modelled."
  },
  {
   "property": "C192",
   "status": "partial",
   "theorems": [
    "Mass.Algo.ArrayRate.figure",
    "Mass.Algo.ArrayRate.figure_iff_partial",
    "Mass.Algo.ArrayRate.good_below",
    "Mass.Algo.ArrayRate.lost_fails",
    "Mass.Algo.ArrayRate.others_fails",
    "Mass.Algo.ArrayRate.short_fails"
   ],
   "note": "Proved: what each rate, sum and average is for the bins used, and exactly when there is a figure. False: the bins are those of the first good channel and end before its latest pulse, so pulses of other channels before and after are not counted, the latest pulse never is, and a short run of the first channel raises an IndexError for all."
  },
  {
   "property": "C193",
   "status": "partial",
   "theorems": [
    "Mass.Group.HdfFiles.kept_partial",
    "Mass.Group.HdfFiles.made",
    "Mass.Group.HdfFiles.again",
    "Mass.Group.HdfFiles.made_iff",
    "Mass.Group.HdfFiles.clobber_fails",
    "Mass.Group.HdfFiles.overwrite_fails"
   ],
   "note": "Proved for HDF5 files at any path and all other files except one at the path for the noise. False: a file there that is no HDF5 file (for example a data file given by mistake) is replaced by an empty one, and overwriting empties the file for the pulses even if the call then fails. h5py.File is modelled by what it does to files (modes a and w)."
  },
  {
   "property": "C194",
   "status": "partial",
   "theorems": [
    "Mass.Group.BinSize.channel_size",
    "Mass.Group.BinSize.group_size",
    "Mass.Group.BinSize.set_for_all_partial",
    "Mass.Group.BinSize.block_fails"
   ],
   "note": "Proved: which size is used after any history. False: setting the size of the group within a block that includes bad channels ends the inclusion."
  },
  {
   "property": "C195",
   "status": "partial",
   "theorems": [
    "Mass.Lin.ModelFig.curves_partial",
    "Mass.Lin.ModelFig.residual_spec",
    "Mass.Lin.ModelFig.wrong_spec",
    "Mass.Lin.ModelFig.inverted",
    "Mass.Lin.ModelFig.label_fails",
    "Mass.Lin.ModelFig.legend_fails"
   ],
   "note": "Proved for at least three components, in exact arithmetic. False: the first component from the 5-lag filters is labelled as an SVD component, and with fewer than ten pulses the legends have entries without a curve."
  },
  {
   "property": "C196",
   "status": "partial",
   "theorems": [
    "Mass.Names.HdfPrint.file_lines_partial",
    "Mass.Names.HdfPrint.file_order",
    "Mass.Names.HdfPrint.chosen_spec",
    "Mass.Names.HdfPrint.kept_iff",
    "Mass.Names.HdfPrint.put_none",
    "Mass.Names.HdfPrint.put_mem",
    "Mass.Names.HdfPrint.main_files",
    "Mass.Names.HdfPrint.main_stops",
    "Mass.Names.HdfPrint.contents_fails",
    "Mass.Names.HdfPrint.usage_fails",
    "Mass.Names.HdfPrint.scalar_fails",
    "Mass.Names.HdfPrint.empty_fails",
    "Mass.Names.HdfPrint.maxchan_fails"
   ],
   "note": "Proved for an h5py whose attributes have iteritems (that of Python 2), without scalar data sets. False: under Python 3 only the name of the first file is printed before an AttributeError; the documented call with a file name raises; scalar data sets raise; empty objects lose their names; maxchan holds for the first level only."
  },
  {
   "property": "C197",
   "status": "partial",
   "theorems": [
    "Mass.Stat.SpectraFig.curve_spec",
    "Mass.Stat.SpectraFig.covers",
    "Mass.Stat.SpectraFig.at_most_two",
    "Mass.Stat.SpectraFig.plot_spec",
    "Mass.Stat.SpectraFig.plot_scaled",
    "Mass.Stat.SpectraFig.overlap_fails",
    "Mass.Stat.SpectraFig.twice_fails",
    "Mass.Stat.SpectraFig.coarse_fails",
    "Mass.Stat.SpectraFig.label_fails"
   ],
   "note": "Proved in exact arithmetic: points, ranges, coverage, at most two curves for a frequency. False: neighbouring curves overlap, so frequencies are shown twice and from two and a half steps on; the names power and amplitude on the axis of a single spectrum are exchanged."
  },
  {
   "property": "C198",
   "status": "partial",
   "theorems": [
    "Mass.Ljh.Inverted.history_partial",
    "Mass.Ljh.Inverted.any_history_partial",
    "Mass.Ljh.Inverted.good_reads",
    "Mass.Ljh.Inverted.sets_good",
    "Mass.Ljh.Inverted.sets_get",
    "Mass.Ljh.Inverted.made_good",
    "Mass.Ljh.Inverted.seen_spec",
    "Mass.Ljh.Inverted.peak_trough",
    "Mass.Ljh.Inverted.copy_fails",
    "Mass.Ljh.Inverted.early_fails"
   ],
   "note": "Proved for channels of groups and any settings of any channels. False: a copy shares the file object, so setting the copy changes what the original gives while its own setting stays; a channel made inverted before it has its records gives raw data."
  },
  {
   "property": "C199",
   "status": "partial",
   "theorems": [
    "Mass.Names.Labels.chan_label",
    "Mass.Names.Labels.chan_says",
    "Mass.Names.Labels.chan_distinct_partial",
    "Mass.Names.Labels.group_label",
    "Mass.Names.Labels.off_label",
    "Mass.Names.Labels.off_again",
    "Mass.Names.Labels.folder_fails",
    "Mass.Names.Labels.off_reads_fails",
    "Mass.Names.Labels.isdir_fails"
   ],
   "note": "Proved for files named run_chan<n> with an extension, channel numbers below a million. False: files of the same name in different folders have the same label; reading the label of an OFF group sets its channum; a folder named like the file changes the label of a group."
  },
  {
   "property": "C20",
   "status": "proved",
   "theorems": [
    "Mass.Off.growing_file"
   ],
   "note": ""
  },
  {
   "property": "C200",
   "status": "partial",
   "theorems": [
    "Mass.Ljh.Polarity.one_reading",
    "Mass.Ljh.Polarity.kept",
    "Mass.Ljh.Polarity.fresh_partial",
    "Mass.Ljh.Polarity.run_inv",
    "Mass.Ljh.Polarity.pulse_kept",
    "Mass.Ljh.Polarity.pulse_new",
    "Mass.Ljh.Polarity.stale_fails"
   ],
   "note": "Proved that summaries come from one call and one polarity, and that those asked for with forceNew belong to the data as read now if the polarity was not set differently since. False: after a change of polarity summarize_data() keeps the summaries of the old one."
  },
  {
   "property": "C201",
   "status": "partial",
   "theorems": [
    "Mass.Lin.File.ask_cases",
    "Mass.Lin.File.asked_used",
    "Mass.Lin.File.fits_history",
    "Mass.Lin.File.unknown_kind",
    "Mass.Lin.File.other_kind_fails",
    "Mass.Lin.File.nan_used_fails",
    "Mass.Lin.File.filtered_history",
    "Mass.Lin.File.filtered_new",
    "Mass.Lin.File.filtered_stale_fails"
   ],
   "note": "Proved for filters without NaN. False: asking for the other kind without forceNew keeps the old kind in use without an exception; an arrival-time-safe filter with NaN replaces a five-lag one in memory and is then applied in the five-lag way; after a new filter filter_data() keeps the values of the old one unless forced."
  },
  {
   "property": "C202",
   "status": "partial",
   "theorems": [
    "Mass.Line.Registry.add_spec",
    "Mass.Line.Registry.history_partial",
    "Mass.Line.Registry.first_stays",
    "Mass.Line.Registry.fitter_model",
    "Mass.Line.Registry.fitter_lost_fails",
    "Mass.Line.Registry.same_name_fails",
    "Mass.Line.Registry.ambiguous_fails"
   ],
   "note": "Proved for names that do not end in Fitter. False: a line with such a name replaces the fitter of another one; different elements and types can give the same name; models of a line in different materials have the same name."
  },
  {
   "property": "C203",
   "status": "partial",
   "theorems": [
    "Mass.Line.Sums.build_spec",
    "Mass.Line.Sums.build_iff",
    "Mass.Line.Sums.likelihood_partial",
    "Mass.Line.Sums.order_fails"
   ],
   "note": "Composite models of lmfit are modelled after its documentation. Maximum likelihood is proved for expressions whose first model is of this package. False: with a model of lmfit itself first the fit is an ordinary one."
  },
  {
   "property": "C204",
   "status": "partial",
   "theorems": [
    "Mass.Stat.HistFig.drawn",
    "Mass.Stat.HistFig.returns_iff",
    "Mass.Stat.HistFig.kept",
    "Mass.Stat.HistFig.all_drawn",
    "Mass.Stat.HistFig.label_partial",
    "Mass.Stat.HistFig.linefit_label_partial",
    "Mass.Stat.HistFig.label_fails",
    "Mass.Stat.HistFig.unchanged_fails",
    "Mass.Stat.HistFig.linefit_label_fails"
   ],
   "note": "Printing with a fixed number of decimals and the marks of known lines are not modelled. False: the text gives the width of the first bin only; with one edge IndexError comes after an empty curve is drawn; a line fit with edges given writes the default width."
  },
  {
   "property": "C205",
   "status": "partial",
   "theorems": [
    "Mass.Algo.OffRecord.index_iff",
    "Mass.Algo.OffRecord.which",
    "Mass.Algo.OffRecord.times",
    "Mass.Algo.OffRecord.times_increase",
    "Mass.Algo.OffRecord.pulse",
    "Mass.Algo.OffRecord.projected",
    "Mass.Algo.OffRecord.curve_partial",
    "Mass.Algo.OffRecord.curve_fails"
   ],
   "note": "Exact arithmetic. False: times and pulse are equally many only for records as long as the basis, which nothing checks."
  },
  {
   "property": "C21",
   "status": "partial",
   "theorems": [
    "Mass.Ljh.off_covers_once",
    "Mass.Ljh.multi_off_covers_once",
    "Mass.Ljh.off_record_local",
    "Mass.Ljh.off_empty_file_fails"
   ],
   "note": "Proved for non-empty files; a file without records raises ZeroDivisionError."
  },
  {
   "property": "C22",
   "status": "partial",
   "theorems": [
    "Mass.States.batch_assigns_partial",
    "Mass.States.batch_bounds",
    "Mass.States.toDouble_mono",
    "Mass.States.toDouble_small",
    "Mass.States.batch_rounding_fails"
   ],
   "note": "Proved with all times rounded to float64, as the code does; at nanosecond precision it is false for present-day times (batch_rounding_fails)."
  },
  {
   "property": "C23",
   "status": "partial",
   "theorems": [
    "Mass.States.incremental_eq_batch_partial",
    "Mass.States.refresh_step",
    "Mass.States.incremental_repeat_fails",
    "Mass.States.incremental_return_fails",
    "Mass.States.incremental_excluded_fails",
    "Mass.States.incremental_late_label_fails",
    "Mass.States.incremental_late_pulse_fails",
    "Mass.States.refresh_unused_fails"
   ],
   "note": "False in six ways, each with a witness; proved for any number of refreshes in the circumstances named Calm."
  },
  {
   "property": "C24",
   "status": "proved",
   "theorems": [
    "Mass.States.parse_incremental",
    "Mass.States.parse_incremental_explicit",
    "Mass.States.parse_content",
    "Mass.States.parse_auto_fails",
    "Mass.States.parse_midline_fails"
   ],
   "note": "Also shown: the states in use with 'auto' exclusions depend on the schedule, and a read in mid-line corrupts the list."
  },
  {
   "property": "C25",
   "status": "partial",
   "theorems": [
    "Mass.Recipe.craft_meaning_partial",
    "Mass.Recipe.later_adds_harmless",
    "Mass.Recipe.craft_function_value",
    "Mass.Recipe.craft_function",
    "Mass.Recipe.repeated_ingredient_fails"
   ],
   "note": "Proved for recipes whose ingredient lists have no repeats; with a repeat the arguments are lost (repeated_ingredient_fails)."
  },
  {
   "property": "C26",
   "status": "proved",
   "theorems": [
    "Mass.Recipe.cut_bang_parity",
    "Mass.Recipe.bang_other_refused"
   ],
   "note": ""
  },
  {
   "property": "C27",
   "status": "proved",
   "theorems": [
    "Mass.Group.off_loop_isolates",
    "Mass.Group.off_loop_stops",
    "Mass.Group.core_loop_isolates",
    "Mass.Group.core_loop_stops"
   ],
   "note": ""
  },
  {
   "property": "C28",
   "status": "partial",
   "theorems": [
    "Mass.Group.include_bad_partial",
    "Mass.Group.include_bad_why_fails",
    "Mass.Group.include_bad_nested_fails",
    "Mass.Group.why_always_right"
   ],
   "note": "False for nested use or when the block marks channels; proved for plain blocks."
  },
  {
   "property": "C29",
   "status": "partial",
   "theorems": [
    "Mass.States.index_methods_agree",
    "Mass.States.passing_pointwise",
    "Mass.States.index_empty_fails",
    "Mass.States.index_reversed_fails"
   ],
   "note": "Proved for every non-empty list of slices with start <= stop; an empty list raises, and a reversed slice makes the two methods differ."
  },
  {
   "property": "C30",
   "status": "partial",
   "theorems": [
    "Mass.Algo.nearest_arrivals_partial",
    "Mass.Algo.mark_larger",
    "Mass.Algo.nearest_single_fails",
    "Mass.Algo.nearest_no_pulses_fails",
    "Mass.Algo.single_after",
    "Mass.Algo.python_arrivals_spec",
    "Mass.Algo.versions_agree_partial",
    "Mass.Algo.versions_tie_fails",
    "Mass.Algo.python_no_triggers_fails"
   ],
   "note": "Proved for every trigger count except one and at least one pulse; a single trigger gives wrong answers for pulses before it, the two versions differ on ties."
  },
  {
   "property": "C31",
   "status": "proved",
   "theorems": [
    "Mass.Algo.flux_whole_quanta",
    "Mass.Algo.flux_equal_mod",
    "Mass.Algo.flux_succeeds"
   ],
   "note": ""
  },
  {
   "property": "C32",
   "status": "partial",
   "theorems": [
    "Mass.Algo.stream_eq_lags",
    "Mass.Algo.direct_eq_lags",
    "Mass.Algo.direct_refuses",
    "Mass.Algo.stream_eq_direct",
    "Mass.Algo.coefs_eq_lags",
    "Mass.Algo.vertex_exact",
    "Mass.Algo.parabola_least_squares",
    "Mass.Algo.stream_short_fails"
   ],
   "note": "Exact arithmetic; the one-pass version reads out of bounds for records of fewer than 8 samples."
  },
  {
   "property": "C33",
   "status": "proved",
   "theorems": [
    "Mass.Stat.shorth_shortest",
    "Mass.Stat.shorth_normalized",
    "Mass.Stat.shorth_half_fails",
    "Mass.Stat.shorth_mean_ties_fails",
    "Mass.Stat.shorth_single_normalized_fails"
   ],
   "note": ""
  },
  {
   "property": "C34",
   "status": "partial",
   "theorems": [
    "Mass.Stat.high_median_never_high",
    "Mass.Stat.high_median_partial",
    "Mass.Stat.high_median_equal_partial",
    "Mass.Stat.high_median_fails"
   ],
   "note": "False from six values on (right_weight omits the pivot); proved for up to five values, for equal weights, and as a one-sided bound in general."
  },
  {
   "property": "C35",
   "status": "partial",
   "theorems": [
    "Mass.Stat.merge_partial",
    "Mass.Stat.merge_empty_first_values",
    "Mass.Stat.merge_empty_first_fails"
   ],
   "note": "Proved for a non-empty first list; with an empty first list all flags are wrong."
  },
  {
   "property": "C36",
   "status": "proved",
   "theorems": [
    "Mass.Lin.mult_solve",
    "Mass.Lin.solve_mult",
    "Mass.Lin.mult_spec",
    "Mass.Lin.solve_posdef",
    "Mass.Lin.solve_asymmetric",
    "Mass.Lin.toeplitz_one_fails",
    "Mass.Lin.mult_int_fails"
   ],
   "note": "Symmetric and general matrices, exact arithmetic; positive definite matrices never meet a zero divisor. Also shown: a 1x1 matrix is refused, mult truncates for integer vectors."
  },
  {
   "property": "C37",
   "status": "proved",
   "theorems": [
    "Mass.Lin.bracketR_spec",
    "Mass.Lin.bracketR_refuses",
    "Mass.Lin.bracketR_empty_fails"
   ],
   "note": ""
  },
  {
   "property": "C38",
   "status": "partial",
   "theorems": [
    "Mass.Lin.whiten_spec_partial",
    "Mass.Lin.whiten_inverse_partial",
    "Mass.Lin.whiten_delay_partial",
    "Mass.Lin.transpose_inverse",
    "Mass.Lin.applyWT_transpose_partial",
    "Mass.Lin.whiten_pure_AR_fails",
    "Mass.Lin.solveWT_int_fails"
   ],
   "note": "Proved for moving-average (and, for solveW, autoregressive) order at least 1; with order 0 the first element is divided twice. The transposed pair is proved for all orders."
  },
  {
   "property": "C39",
   "status": "partial",
   "theorems": [
    "Mass.Calc.spline_interpolates",
    "Mass.Calc.spline_smooth",
    "Mass.Calc.spline_smooth2",
    "Mass.Calc.spline_extrapolates",
    "Mass.Calc.spline_line",
    "Mass.Calc.spline_der3_fails"
   ],
   "note": "over exact real numbers: interpolation, der=1 and der=2 as true derivatives, straight lines outside; der=3 is wrong in the code (spline_der3_fails)"
  },
  {
   "property": "C40",
   "status": "partial",
   "theorems": [
    "Mass.Calc.Expr.derivative_partial",
    "Mass.Calc.Expr.simplify_partial",
    "Mass.Calc.Expr.simplify_fails",
    "Mass.Calc.Expr.number_operand_fails",
    "Mass.Calc.Expr.smul_fuel"
   ],
   "note": "true at every regular point of every tree over the reals; the claim fails for fractional powers of plain powers at negative points (simplify_fails) and for a bare number as right operand (number_operand_fails)"
  },
  {
   "property": "C41",
   "status": "partial",
   "theorems": [
    "Mass.Calc.Cal.table_aligned",
    "Mass.Calc.Cal.resolve_spec",
    "Mass.Calc.Cal.add_accepted",
    "Mass.Calc.Cal.names_step_partial",
    "Mass.Calc.Cal.names_partial",
    "Mass.Calc.Cal.names_fails"
   ],
   "note": "Alignment holds after every history. Names hold unless a point within the energy error of another name is added: it overwrites that point but keeps the old name (names_fails)."
  },
  {
   "property": "C42",
   "status": "partial",
   "theorems": [
    "Mass.Calc.Cal.remove_prefix",
    "Mass.Calc.Cal.remove_energy_partial",
    "Mass.Calc.Cal.remove_energy_fails"
   ],
   "note": "prefix removal proved in full; removal by energy fails on some tables (remove_energy_fails), proved otherwise"
  },
  {
   "property": "C43",
   "status": "partial",
   "theorems": [
    "Mass.Calc.Cal.rejected_partial",
    "Mass.Calc.Cal.no_overwrite",
    "Mass.Calc.Cal.rejected_fails"
   ],
   "note": "the point that makes the table non-monotone stays in it (rejected_fails); other refusals leave the table unchanged"
  },
  {
   "property": "C44",
   "status": "partial",
   "theorems": [
    "Mass.Calc.Cal.constructor_settings",
    "Mass.Calc.Cal.constructor_nonlinearity_fails",
    "Mass.Calc.Cal.nonlinearity_ignored_fails",
    "Mass.Calc.Cal.load_partial",
    "Mass.Calc.Cal.load_fails"
   ],
   "note": "the constructor ignores the nonlinearity for loglog curves; loading does not restore everything (load_fails)"
  },
  {
   "property": "C45",
   "status": "proved",
   "theorems": [
    "Mass.Calc.Fit.fit_ranges",
    "Mass.Calc.Fit.fit_ranges_refused",
    "Mass.Calc.Fit.fit_ranges_ph"
   ],
   "note": "exact arithmetic; unknown line names fail at once in the model; widths at least 0; the slopes returned beside the ranges are not modelled"
  },
  {
   "property": "C46",
   "status": "proved",
   "theorems": [
    "Mass.Calc.Corr.drift",
    "Mass.Calc.Corr.drift_removes",
    "Mass.Calc.Corr.phase_piecewise",
    "Mass.Calc.Corr.phase_nonpositive",
    "Mass.Calc.Corr.phase_zero",
    "Mass.Calc.Corr.phase_at_peak",
    "Mass.Calc.Corr.phase_continuous",
    "Mass.Calc.Corr.phase_list"
   ],
   "note": "exact arithmetic; the per-peak corrections are arbitrary functions, continuous where continuity is claimed"
  },
  {
   "property": "C47",
   "status": "partial",
   "theorems": [
    "Mass.Stat.Spectrum.add_long",
    "Mass.Stat.Spectrum.add_long_split",
    "Mass.Stat.Spectrum.overlap_offsets",
    "Mass.Stat.Spectrum.add_long_overlap_partial",
    "Mass.Stat.Spectrum.add_long_overlap_fails",
    "Mass.Stat.Spectrum.overlap_split_fails",
    "Mass.Stat.Spectrum.add_halves",
    "Mass.Stat.Spectrum.compute_spectrum_tail_fails"
   ],
   "note": "true without overlap, and with overlap for at least a full segment of data; shorter data raise ValueError, splitting overlapped data loses the segment across the cut, computeSpectrum never uses the last half segment"
  },
  {
   "property": "C48",
   "status": "partial",
   "theorems": [
    "Mass.Lin.PM.tsvd_dual",
    "Mass.Lin.PM.flip_dual",
    "Mass.Lin.PM.extend_dual",
    "Mass.Lin.PM.tsvd_degenerate_fails"
   ],
   "note": "true whenever the triangular factor of the residuals is invertible; residuals of lower rank than the number of components asked for break the duality (tsvd_degenerate_fails)"
  },
  {
   "property": "C49",
   "status": "partial",
   "theorems": [
    "Mass.Lin.PM.save_keeps_partial",
    "Mass.Lin.PM.save_inverted_twice_fails"
   ],
   "note": "true without save_inverted; an inverted save flips the signs of the model in memory as well, so a second save writes the opposite"
  },
  {
   "property": "C50",
   "status": "partial",
   "theorems": [
    "Mass.Lin.Kink.kink_coefficients",
    "Mass.Lin.Kink.kink_optimal_partial",
    "Mass.Lin.Kink.kink_defined",
    "Mass.Lin.Kink.kink_refused",
    "Mass.Lin.Kink.kink_unsorted_fails"
   ],
   "note": "coefficients are optimal for all data; the reported model and X2 belong to the data only if x is sorted (kink_unsorted_fails)"
  },
  {
   "property": "C51",
   "status": "partial",
   "theorems": [
    "Mass.Stat.Crosstalk.flags_partial",
    "Mass.Stat.Crosstalk.flags_closed_partial",
    "Mass.Stat.Crosstalk.flags_sound",
    "Mass.Stat.Crosstalk.flags_overlap_fails",
    "Mass.Stat.Crosstalk.flags_edge_fails",
    "Mass.Stat.Neighbors.flagging_fails"
   ],
   "note": "a flagged pulse always has a neighbour in its window; the converse holds when windows do not overlap (and, except for the last pulse, with the end of the window excluded); overlapping windows miss pulses (flags_overlap_fails). The list of neighbours is an input."
  },
  {
   "property": "C52",
   "status": "partial",
   "theorems": [
    "Mass.Stat.Crosstalk.veto_partial",
    "Mass.Stat.Crosstalk.veto_overflow_fails",
    "Mass.Stat.Crosstalk.veto_rounding_fails",
    "Mass.Stat.Crosstalk.veto_before_start_fails"
   ],
   "note": "true for times in whole ms within the table and fewer than 128 coincident hits; the 8-bit counter overflows, fractional times are truncated in the table and rounded in the query, times before the start read the end of the table"
  },
  {
   "property": "C53",
   "status": "partial",
   "theorems": [
    "Mass.Group.bookkeeping",
    "Mass.Group.legal_calls_succeed",
    "Mass.Group.n_good_partial",
    "Mass.Group.n_good_skipped_fails",
    "Mass.Group.unknown_channel_fails"
   ],
   "note": "Bookkeeping invariant proved for all call histories; n_good_channels is wrong after some histories (n_good_skipped_fails)."
  },
  {
   "property": "C54",
   "status": "proved",
   "theorems": [
    "Mass.Stat.Autocorr.padded_length",
    "Mass.Stat.Autocorr.padded_even"
   ],
   "note": "the power of two is exact in the model; the code finds it with a floating-point logarithm"
  },
  {
   "property": "C55",
   "status": "partial",
   "theorems": [
    "Mass.Algo.Summary.postpeak_partial",
    "Mass.Algo.Summary.peak_partial",
    "Mass.Algo.Summary.postpeak_short_fails",
    "Mass.Algo.Summary.peak_index_fails"
   ],
   "note": "the derivative holds for records with more than six samples from the usual peak on, otherwise LONG_MIN is stored; the peak index is the first greatest sample of the whole record, also if it is before the trigger"
  },
  {
   "property": "C56",
   "status": "partial",
   "theorems": [
    "Mass.Stat.FirstN.first_n_good",
    "Mass.Stat.FirstN.limit_mask_partial",
    "Mass.Stat.FirstN.auto_mask_partial",
    "Mass.Stat.FirstN.median_middle",
    "Mass.Stat.FirstN.auto_mask_fails"
   ],
   "note": "first_n_good_pulses in full; the mask limit of the automatic average for limits of at least 1: limit 0 still uses one pulse if the first pulse passes"
  },
  {
   "property": "C57",
   "status": "proved",
   "theorems": [
    "Mass.Stat.Hist.histogram_bins",
    "Mass.Stat.Hist.histogram_refused",
    "Mass.Stat.Hist.one_bin",
    "Mass.Stat.Hist.histogram_total",
    "Mass.Stat.Hist.channel_hist",
    "Mass.Stat.Hist.off_hist",
    "Mass.Stat.Hist.group_hist",
    "Mass.Stat.Hist.group_hist_same_number_fails"
   ],
   "note": "channels have distinct numbers; with equal numbers one of the two is lost (group_hist_same_number_fails)"
  },
  {
   "property": "C58",
   "status": "proved",
   "theorems": [
    "Mass.Ljh.frame_count_exact",
    "Mass.Ljh.frame_count_fails"
   ],
   "note": ""
  },
  {
   "property": "C59",
   "status": "partial",
   "theorems": [
    "Mass.Ljh.append_partial",
    "Mass.Ljh.readRec_index",
    "Mass.Ljh.append_after_crash_fails"
   ],
   "note": "Proved for a destination that ends on a record boundary and whose header line is complete; after a crash mid-record the appended records are misread."
  },
  {
   "property": "C60",
   "status": "partial",
   "theorems": [
    "Mass.Off.header_offset_partial",
    "Mass.Off.header_offset_fails"
   ],
   "note": "Proved for ASCII headers; with a multi-byte character in the header the records are read from the wrong place."
  },
  {
   "property": "C61",
   "status": "proved",
   "theorems": [
    "Mass.States.select_state",
    "Mass.States.select_states",
    "Mass.States.select_unknown"
   ],
   "note": ""
  },
  {
   "property": "C62",
   "status": "partial",
   "theorems": [
    "Mass.Algo.flux_no_jump_left_partial",
    "Mass.Algo.flux_small_jump_fails"
   ],
   "note": "Proved when the jump pattern is caught; false when the data span less than a quantum."
  },
  {
   "property": "C63",
   "status": "proved",
   "theorems": [
    "Mass.Lin.fivelag_shape",
    "Mass.Lin.normalize_refused",
    "Mass.Lin.fivelag_response",
    "Mass.Lin.fivelag_optimal",
    "Mass.Lin.fivelag_whitener_only_fails",
    "Mass.Lin.normalize_negative_fails"
   ],
   "note": "Without low-pass options, exact arithmetic. Also shown: a whitener alone does not suffice although documented; negative-going signals are not scaled to unit amplitude."
  },
  {
   "property": "C64",
   "status": "partial",
   "theorems": [
    "Mass.Lin.ats_response_partial",
    "Mass.Lin.normalize_factor",
    "Mass.Lin.ats_optimal_partial",
    "Mass.Lin.ats_white_optimal_partial",
    "Mass.Lin.ats_whitener_only_fails"
   ],
   "note": "Fails with a whitener and no autocorrelation (TypeError); responses and optimality proved for both paths otherwise, cut windows included (whitener: leading coefficients not zero, moving-average order at least one; autocorrelation: positive definite noise matrix)."
  },
  {
   "property": "C65",
   "status": "proved",
   "theorems": [
    "Mass.Calc.Cal.accepted_monotone",
    "Mass.Calc.Cal.consistent_accepted"
   ],
   "note": ""
  },
  {
   "property": "C66",
   "status": "partial",
   "theorems": [
    "Mass.Calc.Cal.curve_through_points",
    "Mass.Calc.Cal.linear0_origin",
    "Mass.Calc.Cal.inverse_at_points",
    "Mass.Calc.Cal.inverse_increasing",
    "Mass.Calc.Cal.one_point_gain",
    "Mass.Calc.Cal.one_point_loglog",
    "Mass.Calc.Cal.gain_monotone_fails"
   ],
   "note": "over the reals. Gain curves need the range check of the code to pass: for some monotone tables it raises ValueError (gain_monotone_fails). The approximating splines (approximate=True with 3 or more points) are not modelled."
  },
  {
   "property": "C67",
   "status": "partial",
   "theorems": [
    "Mass.Calc.Cal.empty_identity_partial",
    "Mass.Calc.Cal.empty_fails"
   ],
   "note": "true for every curve type but loglog, and for loglog with nonlinearity 1.15; for loglog with any other nonlinearity, the default among them, the first use raises ValueError"
  },
  {
   "property": "C68",
   "status": "proved",
   "theorems": [
    "Mass.Calc.Fit.assignment_best",
    "Mass.Calc.Fit.assignment_fails_only",
    "Mass.Calc.Fit.assignment_linear"
   ],
   "note": "misfits compared by their squares; equal peak positions (NaN in the code) are outside the claim"
  },
  {
   "property": "C69",
   "status": "partial",
   "theorems": [
    "Mass.Stat.Autocorr.cont_autocorr",
    "Mass.Stat.Autocorr.broken_autocorr_partial",
    "Mass.Stat.Autocorr.cont_lags_refused",
    "Mass.Stat.Autocorr.cont_one_lag_fails",
    "Mass.Stat.Autocorr.cont_range_fails",
    "Mass.Stat.Autocorr.cont_use_records_fails",
    "Mass.Stat.Autocorr.broken_none_fails"
   ],
   "note": "proved over the reals for as many lags as samples in a record (what compute_noise asks for), FFT included. data_samples selects records instead of samples, use_records is ignored, other numbers of lags are refused or (one lag) spread over all entries, and separate records none of which is quiet give NaN."
  },
  {
   "property": "C70",
   "status": "partial",
   "theorems": [
    "Mass.Calc.Corr.save_load_partial",
    "Mass.Calc.Corr.save_refused",
    "Mass.Calc.Corr.save_load_fails"
   ],
   "note": "overwriting a correction that has more levels leaves the surplus of the old one in place (save_load_fails)"
  },
  {
   "property": "C71",
   "status": "partial",
   "theorems": [
    "Mass.Stat.FirstN.average_pulse",
    "Mass.Stat.FirstN.average_pulse_kept",
    "Mass.Stat.FirstN.average_pretrigger_zero_fails"
   ],
   "note": "the documented zero pretrigger holds only on average"
  },
  {
   "property": "C72",
   "status": "partial",
   "theorems": [
    "Mass.Stat.Spectrum.rebin_partial",
    "Mass.Stat.Spectrum.rebin_fails"
   ],
   "note": "true exactly for nbins up to (m+1)/2; above that the last bin is NaN"
  },
  {
   "property": "C73",
   "status": "proved",
   "theorems": [
    "Mass.Stat.Spectrum.psd_normalised"
   ],
   "note": "real arithmetic, transform as numpy documents it"
  },
  {
   "property": "C74",
   "status": "partial",
   "theorems": [
    "Mass.Stat.Spectrum.noise_spectrum_partial",
    "Mass.Stat.Spectrum.noise_spectrum_odd_fails",
    "Mass.Stat.Spectrum.noise_resegment_fails"
   ],
   "note": "true for separate records of even length; odd lengths use no record at all, resegmenting fails unless the length divides the data"
  },
  {
   "property": "C75",
   "status": "partial",
   "theorems": [
    "Mass.Lin.PM.save_load_partial",
    "Mass.Lin.PM.save_load_memory",
    "Mass.Lin.PM.load_version",
    "Mass.Lin.PM.save_load_fails"
   ],
   "note": "True without save_inverted. An inverted save is loaded with the signs of all components but the first flipped (save_load_fails); it equals the model in memory after the save."
  },
  {
   "property": "C76",
   "status": "partial",
   "theorems": [
    "Mass.Lin.PM.labels_partial",
    "Mass.Lin.PM.labels_fails"
   ],
   "note": "one label per component, all different; when there are five-lag components the first of them is called an SVD component (labels_fails)"
  },
  {
   "property": "C77",
   "status": "proved",
   "theorems": [
    "Mass.Algo.Summary.statistics",
    "Mass.Algo.Summary.summary_ignore_fails"
   ],
   "note": "for fewer ignored than pretrigger samples (otherwise summary_ignore_fails), records of less than 65536 samples, exact arithmetic; rms values by their squares"
  },
  {
   "property": "C78",
   "status": "partial",
   "theorems": [
    "Mass.Algo.Summary.peak_partial",
    "Mass.Algo.Summary.summary_fails_only",
    "Mass.Algo.Summary.summary_zero_fails",
    "Mass.Algo.Summary.prompt_short_fails"
   ],
   "note": "a record whose greatest sample lies between the pretrigger mean and its rounded value raises ZeroDivisionError (and only such a record does); records ending before the prompt window divide by six all the same"
  },
  {
   "property": "C79",
   "status": "partial",
   "theorems": [
    "Mass.Algo.Summary.rise_spec",
    "Mass.Algo.Summary.rise_linear",
    "Mass.Algo.Summary.rise_positive_partial",
    "Mass.Algo.Summary.rise_negative_fails"
   ],
   "note": "positive only if the sample before the trigger does not exceed the one at the trigger"
  },
  {
   "property": "C80",
   "status": "partial",
   "theorems": [
    "Mass.Algo.Summary.summarize_all_partial",
    "Mass.Algo.Summary.summarize_many_fails",
    "Mass.Algo.Summary.summarize_same_fails"
   ],
   "note": "true below 65536 records per segment; beyond that an error, or one summary for all"
  },
  {
   "property": "C81",
   "status": "partial",
   "theorems": [
    "Mass.Algo.Summary.numpy_partial",
    "Mass.Algo.Summary.numpy_fails"
   ],
   "note": "agree on pretrigger mean and rms, shift flag and minimum; differ on the rest. Promptness is C160, the rise time of the numpy version C128."
  },
  {
   "property": "C82",
   "status": "partial",
   "theorems": [
    "Mass.Algo.Summary.versions_agree_partial",
    "Mass.Algo.Summary.summary_max_deriv",
    "Mass.Algo.Summary.kernel_length_fails",
    "Mass.Algo.Summary.short_record_fails"
   ],
   "note": "true for kernels of five coefficients and records of at least seven samples (five without spike rejection)"
  },
  {
   "property": "C83",
   "status": "proved",
   "theorems": [
    "Mass.States.read_states",
    "Mass.States.read_bad_line"
   ],
   "note": "ASCII text, times written as plain decimal numbers"
  },
  {
   "property": "C84",
   "status": "proved",
   "theorems": [
    "Mass.Off.open_iff",
    "Mass.Off.open_no_header",
    "Mass.Off.layout_offsets"
   ],
   "note": "json.loads is an input of the model"
  },
  {
   "property": "C85",
   "status": "partial",
   "theorems": [
    "Mass.Stat.qscale_partial",
    "Mass.Stat.pairDist_unique",
    "Mass.Stat.qscale_small",
    "Mass.Stat.qFactor_spec",
    "Mass.Stat.qscale_constant_fails",
    "Mass.Stat.qscale_column_fails",
    "Mass.Stat.qscale_wrong_fails",
    "Mass.Stat.qscale_single_fails"
   ],
   "note": "whatever is returned is right if no trial is made in the first column (there the column number minus one overflows: an error or a wrong distance), for up to 65537 data and without rounding to single precision; that the loop ends with a result is proved for up to five data only and false for constant data"
  },
  {
   "property": "C86",
   "status": "partial",
   "theorems": [
    "Mass.Stat.bisquare_equation",
    "Mass.Stat.bisquare_outliers",
    "Mass.Stat.huber_equation",
    "Mass.Stat.means_perm",
    "Mass.Stat.means_affine",
    "Mass.Stat.bisquare_far",
    "Mass.Stat.means_ties_fails",
    "Mass.Stat.huber_weight_fails"
   ],
   "note": "true of what is returned, except that the Huber mean does give weight to data beyond k, contrary to its description. With the default tolerance nothing is returned if more than half of the data are equal."
  },
  {
   "property": "C87",
   "status": "proved",
   "theorems": [
    "Mass.Stat.trimean_affine",
    "Mass.Stat.trimean_perm",
    "Mass.Stat.trimean_breakdown",
    "Mass.Stat.trimean_median",
    "Mass.Stat.mad_half",
    "Mass.Stat.mad_scale"
   ],
   "note": "exact arithmetic, percentiles as numpy documents them (linear interpolation)"
  },
  {
   "property": "C88",
   "status": "partial",
   "theorems": [
    "Mass.Stat.laplace_entropy_partial",
    "Mass.Stat.laplace_entropy_single",
    "Mass.Stat.laplace_entropy_gap_fails"
   ],
   "note": "exact mode only (for up to 200000 values by default), real arithmetic; with double precision two neighbouring values more than about 746 scales apart end in a division by zero"
  },
  {
   "property": "C89",
   "status": "proved",
   "theorems": [
    "Mass.Stat.cross_entropy_exact",
    "Mass.Stat.kl_divergence_exact",
    "Mass.Stat.kde_density",
    "Mass.Stat.topHat_pos"
   ],
   "note": "Real arithmetic. Exact mode is the default for up to 200000 values (Approx.mode_spec); for approximate mode see C136."
  },
  {
   "property": "C90",
   "status": "proved",
   "theorems": [
    "Mass.Line.line_density",
    "Mass.Line.addline_ok",
    "Mass.Line.quickLine_density"
   ],
   "note": "real arithmetic; scipy's wofz as documented (an integral); a component with neither width nor resolution has no density and is excluded. Registering lines by name is not modelled"
  },
  {
   "property": "C91",
   "status": "partial",
   "theorems": [
    "Mass.Line.choose_probability",
    "Mass.Line.draw_entry",
    "Mass.Line.rvs_ok",
    "Mass.Line.rvs_reproducible_fails"
   ],
   "note": "replacements of non-positive variates come from the module's generator, not from the one passed; termination of the replacements is not claimed"
  },
  {
   "property": "C92",
   "status": "proved",
   "theorems": [
    "Mass.Line.smear_tails",
    "Mass.Line.interp_point"
   ],
   "note": "real arithmetic, exact transforms as numpy documents them"
  },
  {
   "property": "C93",
   "status": "partial",
   "theorems": [
    "Mass.Line.model_clean",
    "Mass.Line.model_clean_units",
    "Mass.Line.model_tails_scale_fails",
    "Mass.Line.model_tails_units_fails"
   ],
   "note": "true without tails and for positive dph_de; a model that can have tails has dph_de squared times the counts, and tails dph_de times as long as said. The peak energy of the line is an input"
  },
  {
   "property": "C94",
   "status": "proved",
   "theorems": [
    "Mass.Line.residual_likelihood",
    "Mass.Line.residual_sign"
   ],
   "note": "real arithmetic, counts that the model gives a positive probability"
  },
  {
   "property": "C95",
   "status": "partial",
   "theorems": [
    "Mass.Calc.Cal.convert_current",
    "Mass.Calc.Cal.uncertainty_current",
    "Mass.Calc.Cal.uncertainty_stale_fails",
    "Mass.Calc.Cal.no_points_fails"
   ],
   "note": "true with points, and for uncertainties with at least three points; with fewer, ph2uncertainty gives a former curve's uncertainty or raises. Without points, conversions raise once a setting has been changed. Whether making a curve fails is any function of the data"
  },
  {
   "property": "C96",
   "status": "partial",
   "theorems": [
    "Mass.Calc.Cal.convert_keeps",
    "Mass.Calc.Cal.convert_changes_errors_fails"
   ],
   "note": "except that an approximating curve of three or more points replaces errors that are not positive for good"
  },
  {
   "property": "C97",
   "status": "partial",
   "theorems": [
    "Mass.Calc.Cal.drop_one",
    "Mass.Calc.Cal.drop_one_few_fails"
   ],
   "note": "with one point, and for three curve types with two, it raises instead"
  },
  {
   "property": "C98",
   "status": "partial",
   "theorems": [
    "Mass.Calc.Cal.on_curve",
    "Mass.Calc.Cal.point_error",
    "Mass.Calc.Cal.uncertainty_partial",
    "Mass.Calc.Cal.uncertainty_loglog_fails",
    "Mass.Calc.Cal.uncertainty_loggain_fails"
   ],
   "note": "true of the points' errors; the uncertainty at calibration points is right for linear, linear+0, gain and invgain curves and wrong for loglog and loggain. The fitted spline, its variance and the slope used for the errors are inputs; real arithmetic"
  },
  {
   "property": "C99",
   "status": "partial",
   "theorems": [
    "Mass.Calc.Gpr.gpr_best",
    "Mass.Calc.Gpr.gpr_line",
    "Mass.Calc.Gpr.variance_nonneg",
    "Mass.Calc.Gpr.gpr_covariance",
    "Mass.Calc.Gpr.covariance_symm",
    "Mass.Calc.Gpr.kernel_cov",
    "Mass.Calc.Gpr.gpr_works",
    "Mass.Calc.Gpr.variance_call",
    "Mass.Calc.Gpr.negative_abscissa_fails",
    "Mass.Calc.Gpr.variance_scalar_fails"
   ],
   "note": "true whenever the matrix has a Cholesky factor, as it always has if no abscissa is negative; with negative abscissas the constructor may raise instead, and variance of a single number raises. Real arithmetic; sigmaf and the combined errors are inputs, LAPACK's Cholesky and solve as documented"
  }
 ]
}
