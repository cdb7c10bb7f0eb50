# Formal model of usnistgov/mass: design

A Lean 4 model of the parts of `mass` (python/cython, read as text in `/repo`) whose behaviour users rely on, and
machine-checked proofs of the properties in `properties.jsonl`. This file is generated by `tools/gen_design.py` from
`tools/design_head.md`, `tools/how.py`, `tools/claims.py` and the comments in the Lean sources.

## Layout

* `lean/Verif/<Area>/…` – the model: total, computable functions (`Model.lean`, or the top of each file); each definition
  cites the file and lines it models and says what was simplified. Below it, the property theorems with an `example` beside each.
* Definitions marked `[specification]` are vocabulary in which theorems are stated; they do not model code.
* `MANIFEST.json` – property → theorem names and status (from `tools/claims.py`).
* `seeded/LOG.jsonl` – mutation experiments on the model (`seeded/mutate.py`).

## Conventions

* Python exceptions are values (`Except Exc α`, `Verif/Py.lean`); the state left behind by an exception is modelled where the
  code mutates before raising.
* numpy `uint32` cut masks are `BitVec 32`; `int8` / `uint16` counters wrap where the code's do; file contents are lists of bytes.
* Floating point is modelled by exact arithmetic (ℚ, ℝ, or any ordered field). Numeric theorems are about the algorithm,
  not about rounding, except where a rounding function is modelled explicitly (float64 time stamps, C22). NaN is modelled
  where the code's behaviour depends on it.
* Where the unchanged code violates a property, the negation is proved on a concrete witness (name ends in `_fails`), and the
  part that does hold is proved (suffix `_partial` if hypotheses were added). All are listed under "Disagreements".
* Status "partial" in the table means: the full English statement is false of the code or only part of it is proved; the
  note says which part.

## Properties

| id | title | status | modelled | proved by | where | theorems | note |
|---|---|---|---|---|---|---|---|
| C01 | Registered cut fields never share a bit | proved | cut-field tables and all four (un)register calls | invariant by induction over sequences of operations | Cut/Props.lean | `Cut.fields_own_disjoint_bits` |  |
| C02 | Cutting one field never disturbs another | proved | Cuts.cut/good/bad/category_codes/select_category on 32-bit masks | bitwise disjointness from C01's invariant | Cut/Props.lean | `Cut.cut_frame`, `Cut.cut_other_frame`, `Cut.cutInt_frame` |  |
| C03 | Boolean cuts accumulate and good is the complement of bad | proved | same | bit extensionality | Cut/Props.lean, Cut/PropsQuery.lean | `Cut.good_eq_not_bad`, `Cut.bad_ok_iff`, `Cut.bad_iff_exists`, `Cut.cut_bool_accumulates`, `Cut.good_bad_with_categories`, `Cut.cut_mask_columns` |  |
| C04 | clear_cut removes exactly the named cuts | proved | clear_cut | bit extensionality | Cut/Props.lean | `Cut.clear_cut_exact`, `Cut.clear_cut_all`, `Cut.clear_cut_unknown` |  |
| C05 | Categorical labels round-trip | partial | categorical encoding with scattered bits | injectivity of bit deposit | Cut/PropsCat.lean, Cut/PropsQuery.lean | `Cut.category_codes_injective`, `Cut.default_category_code`, `Cut.cut_categorical_roundtrip`, `Cut.cut_categorical_conflict`, `Cut.cut_categorical_unknown`, `Cut.cut_bools_category`, `Cut.select_several`, `Cut.cut_categorical_shadowed_fails` | Holds unless a boolean field has the same name as the categorical one; then it is false (cut_categorical_shadowed_fails). |
| C06 | A failed registration changes nothing | proved | register calls and running out of bits | counting free bits | Cut/PropsCat.lean | `Cut.failed_call_changes_nothing`, `Cut.register_boolean_succeeds_iff`, `Cut.register_boolean_effect`, `Cut.register_categorical_succeeds_iff`, `Cut.register_categorical_effect`, `Cut.categoryList_spec`, `Cut.register_duplicate_names_fails` | Also shown: a new name repeated in one call takes two bits. |
| C07 | A newly registered field starts with every pulse uncut | partial | histories with recycled bits | negation by witness; positive part when the bits were never set | Cut/PropsFresh.lean | `Cut.new_field_starts_good_partial`, `Cut.new_category_starts_default_partial`, `Cut.new_field_starts_good_fails`, `Cut.new_category_starts_default_fails` | False in general (bits of an unregistered field are recycled without clearing); proved for histories that unregister only unmarked fields. |
| C08 | cut_parameter cuts exactly the values outside the allowed range | partial | cut_parameter, all forms of limits | case analysis, induction on ranges | Cut/PropsFresh.lean | `Cut.cut_parameter_pair`, `Cut.cut_parameter_ranges_partial`, `Cut.cut_parameter_none_unknown`, `Cut.cut_parameter_open_range_fails` | Pair form proved in full; sequence form for ranges with at least one limit; a (None, None) range is mishandled. |
| C09 | Channel number and base name round-trip through file names | partial | regular-expression search for the last `_chan[0-9]+` | induction on strings | Names/Paths.lean, Names/Props.lean | `Names.basename_channum_roundtrip`, `Names.basename_no_channum`, `Names.channum_some`, `Names.basename_directory`, `Names.Paths.split_spec`, `Names.Paths.directory_error`, `Names.chan_names_roundtrip_partial`, `Names.chan_names_fails` | Round trip and converse proved; ljh_chan_names is wrong when the extension itself contains _chan<digit>. |
| C10 | The file reader and the filename parser agree on the channel number | partial | both file-name parsers | negation by witness; names with a single `_chan` | Names/Paths.lean, Names/Props.lean | `Names.file_channum_agrees_partial`, `Names.Paths.int_iff`, `Names.file_channum_agrees_fails` | Proved for names containing _chan once; false in general. |
| C11 | Pairing pulse and noise files leaves only valid channels | partial | remove_unpaired_channel_files | list reasoning | Names/Props.lean | `Names.remove_unpaired_keeps_valid`, `Names.remove_unpaired_exact_partial`, `Names.remove_unpaired_repeats_fails`, `Names.remove_unpaired_first_empty_fails` | Exact result proved for lists without repeated channels, for every set iteration order; false with repeats or an empty first list. |
| C12 | Sorting file names by channel is a stable permutation | partial | stable sort by two keys | permutation and sortedness | Names/Props.lean | `Names.sort_names_spec`, `Names.sort_names_other`, `Names.strLe_iff`, `Names.sort_names_inclusion_fails` | Proved without inclusion list; with one the call always raises. |
| C13 | LJH header scan finds the data offset and the last value of each key | proved | header scanner over bytes | induction over lines | Ljh/Header.lean | `Ljh.header_scan`, `Ljh.header_scan_only`, `Ljh.header_scan_error` |  |
| C14 | LJH records read back what was written | proved | encoding and decoding of records, truncated files | round trip | Ljh/Props.lean | `Ljh.records_roundtrip`, `Ljh.records_crash`, `Ljh.header_crash`, `Ljh.version_spec` |  |
| C15 | Segments partition the pulses | proved | set_segment_size arithmetic | arithmetic | Ljh/Props.lean | `Ljh.segments_partition`, `Ljh.segment_size_ok_iff` |  |
| C16 | ljh_truncate keeps exactly a prefix of the records | partial | ljh_truncate | list prefixes | Ljh/PropsModify.lean | `Ljh.truncate_n_partial`, `Ljh.truncate_time_partial`, `Ljh.truncate_too_many`, `Ljh.truncate_refused`, `Ljh.truncate_header_fails` | Proved for headers without an indented end-of-header look-alike; with one the output header is cut short (truncate_header_fails). |
| C17 | Copying traces preserves the data and the record description | partial | ljh_copy_traces and header writer | round trip through the parser | Ljh/Copy.lean, Ljh/PropsModify.lean | `Ljh.copy_partial`, `Ljh.readRec_index`, `Ljh.copy_refused`, `Ljh.copy_presamples_fails`, `Ljh.copy_same_file_fails` | Records, order and sample count proved; the pretrigger count is always reported 3 too high and the subframe settings are lost; copying onto the same file destroys it. |
| C18 | Inverting raw data is an involution that reverses order | proved | inversion on 16-bit words | bit vectors | Ljh/Props.lean | `Ljh.invert_spec` |  |
| C19 | OFF record layout is gap-free and both views agree | partial | recordDtype as list of (name, size) | induction on the number of components | Off/Open.lean, Off/Props.lean | `Off.layout_ok_iff`, `Off.record_size`, `Off.layout_tiles`, `Off.layout_offsets`, `Off.views_agree_partial`, `Off.views_agree_fails` | Gap-free layout and size proved for all versions and basis counts; the descriptive view exists only for 3 or more basis elements (views_agree_fails). |
| C20 | A growing OFF file never changes records already seen | proved | OffFile refresh over growing byte lists | invariant over appends and refreshes | Off/Props.lean | `Off.growing_file` |  |
| C21 | LJH to OFF conversion covers each record once, in order | partial | ljh_records_to_off segments | list chunking | Ljh/Props.lean | `Ljh.off_covers_once`, `Ljh.multi_off_covers_once`, `Ljh.off_record_local`, `Ljh.off_empty_file_fails` | Proved for non-empty files; a file without records raises ZeroDivisionError. |
| C22 | Each pulse belongs to the state in force at its time | partial | calcStatesDict in one batch, with float64 rounding of times | searchsorted specification | States/Props.lean | `States.batch_assigns_partial`, `States.batch_bounds`, `States.toDouble_mono`, `States.toDouble_small`, `States.batch_rounding_fails` | Proved with all times rounded to float64, as the code does; at nanosecond precision it is false for present-day times (batch_rounding_fails). |
| C23 | Refreshing states incrementally equals recomputing from scratch | partial | calcStatesDict incremental | induction over refreshes; negations by witness | States/Props.lean | `States.incremental_eq_batch_partial`, `States.refresh_step`, `States.incremental_repeat_fails`, `States.incremental_return_fails`, `States.incremental_excluded_fails`, `States.incremental_late_label_fails`, `States.incremental_late_pulse_fails`, `States.refresh_unused_fails` | False in six ways, each with a witness; proved for any number of refreshes in the circumstances named Calm. |
| C24 | Incremental parsing of a growing state file equals one full parse | proved | parse with remembered offset | induction over splits of the file | States/Props.lean | `States.parse_incremental`, `States.parse_incremental_explicit`, `States.parse_content`, `States.parse_auto_fails`, `States.parse_midline_fails` | Also shown: the states in use with 'auto' exclusions depend on the schedule, and a read in mid-line corrupts the list. |
| C25 | A recipe's value is a fixed function of the base data | partial | RecipeBook add and craft | induction over added recipes | Recipe/Props.lean | `Recipe.craft_meaning_partial`, `Recipe.later_adds_harmless`, `Recipe.craft_function_value`, `Recipe.craft_function`, `Recipe.repeated_ingredient_fails` | Proved for recipes whose ingredient lists have no repeats; with a repeat the arguments are lost (repeated_ingredient_fails). |
| C26 | Negated cut recipes invert per leading '!' | proved | _craftCut | case analysis | Recipe/Props.lean | `Recipe.cut_bang_parity`, `Recipe.bang_other_refused` |  |
| C27 | Group methods isolate failing channels | proved | loops over channels | induction on channels | Group/Props.lean | `Group.off_loop_isolates`, `Group.off_loop_stops`, `Group.core_loop_isolates`, `Group.core_loop_stops` |  |
| C28 | Inside 'with data.includeBad()' every channel is iterated | partial | includeBad flag machine | induction over nested blocks; negations | Group/Props.lean | `Group.include_bad_partial`, `Group.include_bad_why_fails`, `Group.include_bad_nested_fails`, `Group.why_always_right` | False for nested use or when the block marks channels; proved for plain blocks. |
| C29 | Indexing with a list of slices equals concatenating the pieces | partial | drop_first / select on both implementations | list equality | States/Select.lean | `States.index_methods_agree`, `States.passing_pointwise`, `States.index_empty_fails`, `States.index_reversed_fails` | Proved for every non-empty list of slices with start <= stop; an empty list raises, and a reversed slice makes the two methods differ. |
| C30 | External-trigger delays are the true nearest gaps | partial | nearest_arrivals, both versions | loop invariant | Algo/Arrivals.lean | `Algo.nearest_arrivals_partial`, `Algo.mark_larger`, `Algo.nearest_single_fails`, `Algo.nearest_no_pulses_fails`, `Algo.single_after`, `Algo.python_arrivals_spec`, `Algo.versions_agree_partial`, `Algo.versions_tie_fails`, `Algo.python_no_triggers_fails` | Proved for every trigger count except one and at least one pulse; a single trigger gives wrong answers for pulses before it, the two versions differ on ties. |
| C31 | Flux-jump correction moves values by whole flux quanta into one window | proved | flux-jump correction over ℚ | floor and round arithmetic | Algo/Flux.lean | `Algo.flux_whole_quanta`, `Algo.flux_equal_mod`, `Algo.flux_succeeds` |  |
| C32 | The streaming 5-lag filter equals direct correlation and the parabola formula is exact | partial | five-lag filter: streaming and parabola | algebra | Algo/FiveLag.lean | `Algo.stream_eq_lags`, `Algo.direct_eq_lags`, `Algo.direct_refuses`, `Algo.stream_eq_direct`, `Algo.coefs_eq_lags`, `Algo.vertex_exact`, `Algo.parabola_least_squares`, `Algo.stream_short_fails` | Exact arithmetic; the one-pass version reads out of bounds for records of fewer than 8 samples. |
| C33 | shorth_range is the shortest half | proved | shorth_range | optimality over all windows | Stat/Robust.lean | `Stat.shorth_shortest`, `Stat.shorth_normalized`, `Stat.shorth_half_fails`, `Stat.shorth_mean_ties_fails`, `Stat.shorth_single_normalized_fails` |  |
| C34 | The weighted high median splits the weight | partial | high_median | loop invariant; negation for weights | Stat/Robust.lean | `Stat.high_median_never_high`, `Stat.high_median_partial`, `Stat.high_median_equal_partial`, `Stat.high_median_fails` | False from six values on (right_weight omits the pivot); proved for up to five values, for equal weights, and as a one-sided bound in general. |
| C35 | Merging two sorted lists is a sorted merge that remembers provenance | partial | merge of sorted lists | induction | Stat/Merge.lean | `Stat.merge_partial`, `Stat.merge_empty_first_values`, `Stat.merge_empty_first_fails` | Proved for a non-empty first list; with an empty first list all flags are wrong. |
| C36 | The Toeplitz solver solves | proved | Levinson recursion over a field | induction on size | Lin/Toeplitz.lean | `Lin.mult_solve`, `Lin.solve_mult`, `Lin.mult_spec`, `Lin.solve_posdef`, `Lin.solve_asymmetric`, `Lin.toeplitz_one_fails`, `Lin.mult_int_fails` | Symmetric and general matrices, exact arithmetic; positive definite matrices never meet a zero divisor. Also shown: a 1x1 matrix is refused, mult truncates for integer vectors. |
| C37 | bracketR is the quadratic form of the Toeplitz matrix | proved | bracketR and multiplication by Toeplitz matrices | sums | Lin/Whiten.lean | `Lin.bracketR_spec`, `Lin.bracketR_refuses`, `Lin.bracketR_empty_fails` |  |
| C38 | Whitening and unwhitening are inverse | partial | ARMA whitener | triangular systems, induction | Lin/Whiten.lean | `Lin.whiten_spec_partial`, `Lin.whiten_inverse_partial`, `Lin.whiten_delay_partial`, `Lin.transpose_inverse`, `Lin.applyWT_transpose_partial`, `Lin.whiten_pure_AR_fails`, `Lin.solveWT_int_fails` | Proved for moving-average (and, for solveW, autoregressive) order at least 1; with order 0 the first element is divided twice. The transposed pair is proved for all orders. |
| C39 | The cubic spline interpolates, is smooth, and extrapolates linearly | partial | CubicSpline | tridiagonal sweep, algebra | Calc/Spline.lean, Calc/SplineDeriv.lean | `Calc.spline_interpolates`, `Calc.spline_smooth`, `Calc.spline_smooth2`, `Calc.spline_extrapolates`, `Calc.spline_line`, `Calc.spline_der3_fails` | over exact real numbers: interpolation, der=1 and der=2 as true derivatives, straight lines outside; der=3 is wrong in the code (spline_der3_fails) |
| C40 | Symbolic derivatives are true derivatives and simplification preserves values | partial | expression trees of functions | structural induction, `HasDerivAt` | Calc/Expr.lean, Calc/ExprDeriv.lean | `Calc.Expr.derivative_partial`, `Calc.Expr.simplify_partial`, `Calc.Expr.simplify_fails`, `Calc.Expr.number_operand_fails`, `Calc.Expr.smul_fuel` | true at every regular point of every tree over the reals; the claim fails for fractional powers of plain powers at negative points (simplify_fails) and for a bare number as right operand (number_operand_fails) |
| C41 | The calibration point table stays consistent | partial | calibration table | invariant over operations | Calc/Table.lean, Calc/TableThm.lean | `Calc.Cal.table_aligned`, `Calc.Cal.resolve_spec`, `Calc.Cal.add_accepted`, `Calc.Cal.names_step_partial`, `Calc.Cal.names_partial`, `Calc.Cal.names_fails` | Alignment holds after every history. Names hold unless a point within the energy error of another name is added: it overwrites that point but keeps the old name (names_fails). |
| C42 | Removing calibration points by energy removes exactly the matching ones | partial | calibration table | invariant over operations | Calc/TableThm.lean | `Calc.Cal.remove_prefix`, `Calc.Cal.remove_energy_partial`, `Calc.Cal.remove_energy_fails` | prefix removal proved in full; removal by energy fails on some tables (remove_energy_fails), proved otherwise |
| C43 | A rejected calibration point leaves the calibration unchanged | partial | calibration table | case analysis | Calc/TableThm.lean | `Calc.Cal.rejected_partial`, `Calc.Cal.no_overwrite`, `Calc.Cal.rejected_fails` | the point that makes the table non-monotone stays in it (rejected_fails); other refusals leave the table unchanged |
| C44 | Calibration settings given at construction take effect | partial | calibration table and HDF5 groups | round trip | Calc/Curve.lean, Calc/TableThm.lean | `Calc.Cal.constructor_settings`, `Calc.Cal.constructor_nonlinearity_fails`, `Calc.Cal.nonlinearity_ignored_fails`, `Calc.Cal.load_partial`, `Calc.Cal.load_fails` | the constructor ignores the nonlinearity for loglog curves; loading does not restore everything (load_fails) |
| C45 | Fit ranges contain their line and do not overlap | proved | build_fit_ranges | case analysis | Calc/FitRange.lean | `Calc.Fit.fit_ranges`, `Calc.Fit.fit_ranges_refused`, `Calc.Fit.fit_ranges_ph` | exact arithmetic; unknown line names fail at once in the model; widths at least 0; the slopes returned beside the ranges are not modelled |
| C46 | Phase and drift corrections fix the reference point | proved | drift and phase corrections over ℚ | algebra | Calc/Correct.lean | `Calc.Corr.drift`, `Calc.Corr.drift_removes`, `Calc.Corr.phase_piecewise`, `Calc.Corr.phase_nonpositive`, `Calc.Corr.phase_zero`, `Calc.Corr.phase_at_peak`, `Calc.Corr.phase_continuous`, `Calc.Corr.phase_list` | exact arithmetic; the per-peak corrections are arbitrary functions, continuous where continuity is claimed |
| C47 | Power-spectrum segmentation stays inside the data | partial | segments of a power spectrum | arithmetic on offsets | Stat/Spectrum.lean | `Stat.Spectrum.add_long`, `Stat.Spectrum.add_long_split`, `Stat.Spectrum.overlap_offsets`, `Stat.Spectrum.add_long_overlap_partial`, `Stat.Spectrum.add_long_overlap_fails`, `Stat.Spectrum.overlap_split_fails`, `Stat.Spectrum.add_halves`, `Stat.Spectrum.compute_spectrum_tail_fails` | true without overlap, and with overlap for at least a full segment of data; shorter data raise ValueError, splitting overlapped data loses the segment across the cut, computeSpectrum never uses the last half segment |
| C48 | Extending a pulse model keeps projectors dual to the basis | partial | PulseModel matrices | matrix algebra | Lin/PulseModel.lean | `Lin.PM.tsvd_dual`, `Lin.PM.flip_dual`, `Lin.PM.extend_dual`, `Lin.PM.tsvd_degenerate_fails` | true whenever the triangular factor of the residuals is invertible; residuals of lower rank than the number of components asked for break the duality (tsvd_degenerate_fails) |
| C49 | Saving a pulse model does not change it | partial | PulseModel saving with aliasing as state | state machine | Lin/PulseModel.lean | `Lin.PM.save_keeps_partial`, `Lin.PM.save_inverted_twice_fails` | true without save_inverted; an inverted save flips the signs of the model in memory as well, so a second save writes the opposite |
| C50 | The kink model is the least-squares optimum | partial | kink_model | normal equations give the optimum | Lin/Kink.lean | `Lin.Kink.kink_coefficients`, `Lin.Kink.kink_optimal_partial`, `Lin.Kink.kink_defined`, `Lin.Kink.kink_refused`, `Lin.Kink.kink_unsorted_fails` | coefficients are optimal for all data; the reported model and X2 belong to the data only if x is sorted (kink_unsorted_fails) |
| C51 | A pulse is flagged for crosstalk exactly when a neighbour fires inside its window | partial | flag_crosstalking_pulses (counting part) | interval counting | Stat/Crosstalk.lean, Stat/Neighbors.lean | `Stat.Crosstalk.flags_partial`, `Stat.Crosstalk.flags_closed_partial`, `Stat.Crosstalk.flags_sound`, `Stat.Crosstalk.flags_overlap_fails`, `Stat.Crosstalk.flags_edge_fails`, `Stat.Neighbors.flagging_fails` | a flagged pulse always has a neighbour in its window; the converse holds when windows do not overlap (and, except for the last pulse, with the end of the window excluded); overlapping windows miss pulses (flags_overlap_fails). The list of neighbours is an input. |
| C52 | Crosstalk veto counts hits in the window | partial | CrosstalkVeto | counting; 8-bit wrap witness | Stat/Crosstalk.lean | `Stat.Crosstalk.veto_partial`, `Stat.Crosstalk.veto_overflow_fails`, `Stat.Crosstalk.veto_rounding_fails`, `Stat.Crosstalk.veto_before_start_fails` | true for times in whole ms within the table and fewer than 128 coincident hits; the 8-bit counter overflows, fractional times are truncated in the table and rounded in the query, times before the start read the end of the table |
| C53 | Bad-channel bookkeeping is consistent | partial | TESGroup bad channels | invariant over operations | Group/Props.lean | `Group.bookkeeping`, `Group.legal_calls_succeed`, `Group.n_good_partial`, `Group.n_good_skipped_fails`, `Group.unknown_channel_fails` | Bookkeeping invariant proved for all call histories; n_good_channels is wrong after some histories (n_good_skipped_fails). |
| C54 | FFT padding is sufficient and modest | proved | padded length | powers of two | Stat/Autocorr.lean | `Stat.Autocorr.padded_length`, `Stat.Autocorr.padded_even` | the power of two is exact in the model; the code finds it with a floating-point logarithm |
| C55 | The max-derivative scan equals its specification | partial | pulse summary scans | loop invariants | Algo/Summary.lean, Algo/SummaryThm.lean | `Algo.Summary.postpeak_partial`, `Algo.Summary.peak_partial`, `Algo.Summary.postpeak_short_fails`, `Algo.Summary.peak_index_fails` | the derivative holds for records with more than six samples from the usual peak on, otherwise LONG_MIN is stored; the peak index is the first greatest sample of the whole record, also if it is before the trigger |
| C56 | First-n-good selection takes exactly the first n good pulses | partial | first_n_good_pulses, automatic average limits | lists | Stat/FirstN.lean, Stat/Median.lean | `Stat.FirstN.first_n_good`, `Stat.FirstN.limit_mask_partial`, `Stat.FirstN.auto_mask_partial`, `Stat.FirstN.median_middle`, `Stat.FirstN.auto_mask_fails` | first_n_good_pulses in full; the mask limit of the automatic average for limits of at least 1: limit 0 still uses one pulse if the first pulse passes |
| C57 | Group histograms add up | proved | histograms of channels and groups | counting | Stat/Hist.lean | `Stat.Hist.histogram_bins`, `Stat.Hist.histogram_refused`, `Stat.Hist.one_bin`, `Stat.Hist.histogram_total`, `Stat.Hist.channel_hist`, `Stat.Hist.off_hist`, `Stat.Hist.group_hist`, `Stat.Hist.group_hist_same_number_fails` | channels have distinct numbers; with equal numbers one of the two is lost (group_hist_same_number_fails) |
| C58 | LJH 2.1 time stamps recover the exact frame number | proved | time stamps of LJH 2.1 | arithmetic | Ljh/Props.lean | `Ljh.frame_count_exact`, `Ljh.frame_count_fails` |  |
| C59 | Appending traces keeps the old records and adds the new ones | partial | ljh_append_traces | file contents before and after | Ljh/PropsModify.lean | `Ljh.append_partial`, `Ljh.readRec_index`, `Ljh.append_after_crash_fails` | Proved for a destination that ends on a record boundary and whose header line is complete; after a crash mid-record the appended records are misread. |
| C60 | OFF records start right after the header | partial | OFF header length | bytes against characters | Off/Props.lean | `Off.header_offset_partial`, `Off.header_offset_fails` | Proved for ASCII headers; with a multi-byte character in the header the records are read from the wrong place. |
| C61 | Selecting a state returns exactly its pulses | proved | getStatesIndicies and reading by state | C22 and lists | States/Select.lean | `States.select_state`, `States.select_states`, `States.select_unknown` |  |
| C62 | Flux-jump correction leaves no residual jump | partial | flux-jump correction | arithmetic modulo the quantum | Algo/Flux.lean | `Algo.flux_no_jump_left_partial`, `Algo.flux_small_jump_fails` | Proved when the jump pattern is caught; false when the data span less than a quantum. |
| C63 | The 5-lag optimal filter ignores the baseline, measures the pulse height and is optimal | proved | 5-lag optimal filter | quadratic form, Cauchy-Schwarz over an ordered field | Lin/Filter.lean | `Lin.fivelag_shape`, `Lin.normalize_refused`, `Lin.fivelag_response`, `Lin.fivelag_optimal`, `Lin.fivelag_whitener_only_fails`, `Lin.normalize_negative_fails` | Without low-pass options, exact arithmetic. Also shown: a whitener alone does not suffice although documented; negative-going signals are not scaled to unit amplitude. |
| C64 | The arrival-time-safe filter separates height, arrival time and baseline and is optimal | partial | arrival-time-safe filter | constrained quadratic optimum | Lin/Ats.lean, Lin/Filter.lean | `Lin.ats_response_partial`, `Lin.normalize_factor`, `Lin.ats_optimal_partial`, `Lin.ats_white_optimal_partial`, `Lin.ats_whitener_only_fails` | Fails with a whitener and no autocorrelation (TypeError); responses and optimality proved for both paths otherwise, cut windows included (whitener: leading coefficients not zero, moving-average order at least one; autocorrelation: positive definite noise matrix). |
| C65 | Accepted calibration tables are monotone | proved | add_cal_point and checks | invariant | Calc/TableThm.lean | `Calc.Cal.accepted_monotone`, `Calc.Cal.consistent_accepted` |  |
| C66 | Calibration curves pass through the calibration points | partial | calibration curves | C39 with every curve type | Calc/Curve.lean | `Calc.Cal.curve_through_points`, `Calc.Cal.linear0_origin`, `Calc.Cal.inverse_at_points`, `Calc.Cal.inverse_increasing`, `Calc.Cal.one_point_gain`, `Calc.Cal.one_point_loglog`, `Calc.Cal.gain_monotone_fails` | over the reals. Gain curves need the range check of the code to pass: for some monotone tables it raises ValueError (gain_monotone_fails). The approximating splines (approximate=True with 3 or more points) are not modelled. |
| C67 | A calibration without points can be used | partial | empty calibration | case analysis | Calc/Curve.lean | `Calc.Cal.empty_identity_partial`, `Calc.Cal.empty_fails` | true for every curve type but loglog, and for loglog with nonlinearity 1.15; for loglog with any other nonlinearity, the default among them, the first use raises ValueError |
| C68 | Peaks are assigned to lines in the best way | proved | find_opt_assignment | optimality over all selections | Calc/FitRange.lean | `Calc.Fit.assignment_best`, `Calc.Fit.assignment_fails_only`, `Calc.Fit.assignment_linear` | misfits compared by their squares; equal peak positions (NaN in the code) are outside the claim |
| C69 | Noise autocorrelation is the average lagged product | partial | noise autocorrelation, FFT included | convolution theorem over ℝ/ℂ | Stat/Autocorr.lean | `Stat.Autocorr.cont_autocorr`, `Stat.Autocorr.broken_autocorr_partial`, `Stat.Autocorr.cont_lags_refused`, `Stat.Autocorr.cont_one_lag_fails`, `Stat.Autocorr.cont_range_fails`, `Stat.Autocorr.cont_use_records_fails`, `Stat.Autocorr.broken_none_fails` | proved over the reals for as many lags as samples in a record (what compute_noise asks for), FFT included. data_samples selects records instead of samples, use_records is ignored, other numbers of lags are refused or (one lag) spread over all entries, and separate records none of which is quiet give NaN. |
| C70 | Saved phase corrections load unchanged | partial | PhaseCorrector in HDF5 | round trip; negation | Calc/Correct.lean | `Calc.Corr.save_load_partial`, `Calc.Corr.save_refused`, `Calc.Corr.save_load_fails` | overwriting a correction that has more levels leaves the surplus of the old one in place (save_load_fails) |
| C71 | The average pulse is the mean of the chosen records | partial | average_pulse | sums | Stat/FirstN.lean | `Stat.FirstN.average_pulse`, `Stat.FirstN.average_pulse_kept`, `Stat.FirstN.average_pretrigger_zero_fails` | the documented zero pretrigger holds only on average |
| C72 | Rebinned spectra average neighbouring frequencies | partial | rebinned spectra | sums over bins | Stat/Spectrum.lean | `Stat.Spectrum.rebin_partial`, `Stat.Spectrum.rebin_fails` | true exactly for nbins up to (m+1)/2; above that the last bin is NaN |
| C73 | Power spectral densities integrate to the mean square | proved | normalisation of power spectra | Parseval | Stat/Spectrum.lean | `Stat.Spectrum.psd_normalised` | real arithmetic, transform as numpy documents it |
| C74 | Noise spectra use exactly the quiet records | partial | noise spectra of quiet records | list selection | Stat/Spectrum.lean | `Stat.Spectrum.noise_spectrum_partial`, `Stat.Spectrum.noise_spectrum_odd_fails`, `Stat.Spectrum.noise_resegment_fails` | true for separate records of even length; odd lengths use no record at all, resegmenting fails unless the length divides the data |
| C75 | Saved pulse models load unchanged | partial | PulseModel in HDF5 | round trip | Lin/PulseModel.lean | `Lin.PM.save_load_partial`, `Lin.PM.save_load_memory`, `Lin.PM.load_version`, `Lin.PM.save_load_fails` | True without save_inverted. An inverted save is loaded with the signs of all components but the first flipped (save_load_fails); it equals the model in memory after the save. |
| C76 | Pulse model labels name each component once | partial | PulseModel labels | lists | Lin/PulseModel.lean | `Lin.PM.labels_partial`, `Lin.PM.labels_fails` | one label per component, all different; when there are five-lag components the first of them is called an SVD component (labels_fails) |
| C77 | Pulse summaries are the statistics they are called | proved | summarize_data_cython | loop invariants | Algo/Summary.lean, Algo/SummaryThm.lean | `Algo.Summary.statistics`, `Algo.Summary.summary_ignore_fails` | for fewer ignored than pretrigger samples (otherwise summary_ignore_fails), records of less than 65536 samples, exact arithmetic; rms values by their squares |
| C78 | Peak value and promptness are relative to the pretrigger mean | partial | summarize_data_cython | loop invariants | Algo/Summary.lean, Algo/SummaryThm.lean | `Algo.Summary.peak_partial`, `Algo.Summary.summary_fails_only`, `Algo.Summary.summary_zero_fails`, `Algo.Summary.prompt_short_fails` | a record whose greatest sample lies between the pretrigger mean and its rounded value raises ZeroDivisionError (and only such a record does); records ending before the prompt window divide by six all the same |
| C79 | Rise times follow from the 10% and 90% crossings | partial | rise time in summarize_data_cython | crossings of thresholds | Algo/SummaryThm.lean | `Algo.Summary.rise_spec`, `Algo.Summary.rise_linear`, `Algo.Summary.rise_positive_partial`, `Algo.Summary.rise_negative_fails` | positive only if the sample before the trigger does not exceed the one at the trigger |
| C80 | Every record gets its own summary, whatever the segment size | partial | segment loop of summarize_data | chunking, 16-bit counter | Algo/SummaryFile.lean | `Algo.Summary.summarize_all_partial`, `Algo.Summary.summarize_many_fails`, `Algo.Summary.summarize_same_fails` | true below 65536 records per segment; beyond that an error, or one summary for all |
| C81 | Both ways to summarise give the same values | partial | cython and numpy summaries | equality of two functions | Algo/SummaryFile.lean | `Algo.Summary.numpy_partial`, `Algo.Summary.numpy_fails` | agree on pretrigger mean and rms, shift flag and minimum; differ on the rest. Promptness is C160, the rise time of the numpy version C128. |
| C82 | The fast and the plain maximum derivative agree | partial | compute_max_deriv, both versions | equality of two functions | Algo/SummaryFile.lean | `Algo.Summary.versions_agree_partial`, `Algo.Summary.summary_max_deriv`, `Algo.Summary.kernel_length_fails`, `Algo.Summary.short_record_fails` | true for kernels of five coefficients and records of at least seven samples (five without spike rejection) |
| C83 | A state file means what is written in it | proved | ExperimentStateFile.parse | rendering and parsing | States/Text.lean | `States.read_states`, `States.read_bad_line` | ASCII text, times written as plain decimal numbers |
| C84 | Which OFF files can be opened | proved | OffFile.__init__ | case analysis on header and length | Off/Open.lean | `Off.open_iff`, `Off.open_no_header`, `Off.layout_offsets` | json.loads is an input of the model |
| C85 | Qscale is the documented order statistic of the distances between data | partial | Qscale with its trial loop, column limits and bisection | invariant of the loop: the limits of all rows cut the matrix of distances monotonically | Stat/Qscale.lean | `Stat.qscale_partial`, `Stat.pairDist_unique`, `Stat.qscale_small`, `Stat.qFactor_spec`, `Stat.qscale_constant_fails`, `Stat.qscale_column_fails`, `Stat.qscale_wrong_fails`, `Stat.qscale_single_fails` | whatever is returned is right if no trial is made in the first column (there the column number minus one overflows: an error or a wrong distance), for up to 65537 data and without rounding to single precision; that the loop ends with a result is proved for up to five data only and false for constant data |
| C86 | Weighted means are what they claim to be | partial | bisquare_weighted_mean and huber_weighted_mean with all passes and defaults | invariants over passes; two runs compared step by step | Stat/Location.lean | `Stat.bisquare_equation`, `Stat.bisquare_outliers`, `Stat.huber_equation`, `Stat.means_perm`, `Stat.means_affine`, `Stat.bisquare_far`, `Stat.means_ties_fails`, `Stat.huber_weight_fails` | true of what is returned, except that the Huber mean does give weight to data beyond k, contrary to its description. With the default tolerance nothing is returned if more than half of the data are equal. |
| C87 | Trimean and median absolute deviation withstand bad data | proved | trimean, median_abs_dev and the percentiles they use | sorting commutes with monotone maps, counting below a sorted entry | Stat/Location.lean | `Stat.trimean_affine`, `Stat.trimean_perm`, `Stat.trimean_breakdown`, `Stat.trimean_median`, `Stat.mad_half`, `Stat.mad_scale` | exact arithmetic, percentiles as numpy documents them (linear interpolation) |
| C88 | laplace_entropy is the entropy of the kernel-density estimate | partial | laplace_entropy and its two passes over the sorted data | the passes are the sums of kernels to the left and right of a node; antiderivative on each gap and on both tails | Stat/Entropy.lean | `Stat.laplace_entropy_partial`, `Stat.laplace_entropy_single`, `Stat.laplace_entropy_gap_fails` | exact mode only (for up to 200000 values by default), real arithmetic; with double precision two neighbouring values more than about 746 scales apart end in a division by zero |
| C89 | Cross-entropy and divergence are the integrals they are documented to be | proved | laplace_cross_entropy_arrays with the merged nodes and the running count of top-hats | invariant of the loop: the count is the number of values within sqrt(6) on each gap; integral gap by gap | Stat/CrossEntropy.lean | `Stat.cross_entropy_exact`, `Stat.kl_divergence_exact`, `Stat.kde_density`, `Stat.topHat_pos` | Real arithmetic. Exact mode is the default for up to 200000 values (Approx.mode_spec); for approximate mode see C136. |
| C90 | A spectral line is a probability density | proved | SpectralLine.pdf and components, voigt, addline's intensities, quick_monochromatic_line | Voigt function as convolution (change of variables), convolution of densities | Line/Spectral.lean | `Line.line_density`, `Line.addline_ok`, `Line.quickLine_density` | real arithmetic; scipy's wofz as documented (an integral); a component with neither width nor resolution has no density and is excluded. Registering lines by name is not modelled |
| C91 | Random variates of a line follow the line | partial | SpectralLine.rvs with an arbitrary generator | choice of component as an interval of the uniform variate; recursion on the non-positive draws | Line/Spectral.lean | `Line.choose_probability`, `Line.draw_entry`, `Line.rvs_ok`, `Line.rvs_reproducible_fails` | replacements of non-positive variates come from the module's generator, not from the one passed; termination of the replacements is not claimed |
| C92 | Exponential tails are what they say | proved | _smear_exponential_tail with its padding, transforms and clipping | each wave of the band-limited function is smeared exactly by its factor; integrals of complex exponentials | Line/Tails.lean | `Line.smear_tails`, `Line.interp_point` | real arithmetic, exact transforms as numpy documents them |
| C93 | The parameters of a line model mean what they are called | partial | both model functions of GenericLineModel, _scale_add_bg | change of variables in the density | Line/Model.lean | `Line.model_clean`, `Line.model_clean_units`, `Line.model_tails_scale_fails`, `Line.model_tails_units_fails` | true without tails and for positive dph_de; a model that can have tails has dph_de squared times the counts, and tails dph_de times as long as said. The peak energy of the line is an input |
| C94 | A fit maximizes the likelihood | proved | _residual of MLEModel and CompositeMLEModel | log of a product, log x <= x - 1 | Line/Model.lean | `Line.residual_likelihood`, `Line.residual_sign` | real arithmetic, counts that the model gives a positive probability |
| C95 | Conversions use the calibration as it is now | partial | EnergyCalibration with points, settings, current curve and stale flag; all methods that change them | invariant over all reachable objects: if not stale, the curve is that of the points | Calc/Fresh.lean | `Calc.Cal.convert_current`, `Calc.Cal.uncertainty_current`, `Calc.Cal.uncertainty_stale_fails`, `Calc.Cal.no_points_fails` | true with points, and for uncertainties with at least three points; with fewer, ph2uncertainty gives a former curve's uncertainty or raises. Without points, conversions raise once a setting has been changed. Whether making a curve fails is any function of the data |
| C96 | Converting does not change the calibration | partial | _update_converters and the replacement of errors | permutation of the points; idempotence of the replacement | Calc/Fresh.lean | `Calc.Cal.convert_keeps`, `Calc.Cal.convert_changes_errors_fails` | except that an approximating curve of three or more points replaces errors that are not positive for good |
| C97 | Drop-one errors are those of calibrations without the point | partial | drop_one_errors, copy, _remove_cal_point_idx | by the outcome of a conversion (C95) | Calc/Fresh.lean | `Calc.Cal.drop_one`, `Calc.Cal.drop_one_few_fails` | with one point, and for three curve types with two, it raises instead |
| C98 | Errors of points and of the calibration are propagated | partial | _update_approximators: fitted quantities, their errors, cal_uncert and its spline | derivatives; the spline goes through the grid points | Calc/Uncert.lean | `Calc.Cal.on_curve`, `Calc.Cal.point_error`, `Calc.Cal.uncertainty_partial`, `Calc.Cal.uncertainty_loglog_fails`, `Calc.Cal.uncertainty_loggain_fails` | true of the points' errors; the uncertainty at calibration points is right for linear, linear+0, gain and invgain curves and wrong for loglog and loggain. The fitted spline, its variance and the slope used for the errors are inputs; real arithmetic |
| C99 | The smoothed curve is the best prediction and its variance is true | partial | GPRSpline: kernel, matrices, Cholesky factor, beta, values at the knots, the natural spline through them, variance and covariance | the equations of the best linear unbiased prediction; a natural spline is the only combination of truncated cubics through its knots; integrals of products of truncated lines | Calc/Gpr.lean, Calc/GprSmooth.lean | `Calc.Gpr.gpr_best`, `Calc.Gpr.gpr_line`, `Calc.Gpr.variance_nonneg`, `Calc.Gpr.gpr_covariance`, `Calc.Gpr.covariance_symm`, `Calc.Gpr.kernel_cov`, `Calc.Gpr.gpr_works`, `Calc.Gpr.variance_call`, `Calc.Gpr.negative_abscissa_fails`, `Calc.Gpr.variance_scalar_fails` | true whenever the matrix has a Cholesky factor, as it always has if no abscissa is negative; with negative abscissas the constructor may raise instead, and variance of a single number raises. Real arithmetic; sigmaf and the combined errors are inputs, LAPACK's Cholesky and solve as documented |
| C100 | No other curve that fits the data as well is smoother | proved | the same | integration by parts of the second derivative against any function's | Calc/GprSmooth.lean | `Calc.Gpr.gpr_smoothest`, `Calc.Gpr.gpr_penalty` | whenever construction succeeds (C99); real arithmetic; sigmaf and the combined errors are inputs |
| C101 | Applying cuts marks exactly the pulses outside the limits | partial | apply_cuts, AnalysisControl.set, standardControl on top of the model of the cut words | frame lemmas of cut_parameter along the list of cuts; good() characterised field by field | Cut/Apply.lean | `Cut.apply_cuts`, `Cut.apply_cuts_empty`, `Cut.median_spec`, `Cut.standard_control`, `Cut.first_pulse`, `Cut.apply_unregistered`, `Cut.apply_force_fails`, `Cut.apply_again_fails` | apply_cuts gives the state after the call for every reachable state. forceNew is ignored (apply_force_fails), and applying the same cuts again can cut more (apply_again_fails). Infinity is any number above the limits. |
| C102 | Automatic cuts follow the noise, are remembered and come back from the file | partial | auto_cuts with saving, loading, clearing; the numbers per noise record are inputs | by C101; medians under maps and permutations | Cut/AutoCuts.lean | `Cut.auto_cuts_partial`, `Cut.auto_skip`, `Cut.auto_after_clear`, `Cut.rms_limit`, `Cut.auto_deriv_fails`, `Cut.auto_no_noise_fails`, `Cut.auto_reload_fails`, `Cut.auto_model_fails`, `Cut.auto_clear_reopen_fails` | auto_cuts_partial: everything but the derivative limit, which is that of the last noise record only (auto_deriv_fails). Stored cuts lose lower limits and statistics, and clear_cuts leaves them in the file. |
| C103 | A smoothing spline is the least curved curve with the chi-squared asked for | partial | the curvature matrix, the linear system, the search for its parameter, scaling, evaluation with linear continuation; brentq by its specification | integration by parts against piecewise linear second derivatives; completing the square; continuity of the solution in the parameter | Calc/SmoothSpline.lean, Calc/Smoothing.lean | `Calc.SSpline.spline_result`, `Calc.SSpline.eval_ideal`, `Calc.SSpline.any_curve`, `Calc.SSpline.straight_data_fails`, `Calc.SSpline.flat_end_fails`, `Calc.Smooth.omega_integral`, `Calc.Smooth.smoothest`, `Calc.Smooth.smooth_result` | In real numbers, with brentq as a root finder that reports equal signs and finds a zero of a continuous function. Data on a line raise ValueError (straight_data_fails), and the derivative beyond a horizontal end is wrong (flat_end_fails). The quadratic fit that turns x errors into y errors is an input; der=3 is left out. |
| C104 | The natural B-spline basis spans the natural splines | partial | B-splines by the Cox-de Boor recursion on the padded knots; NaturalBsplineBasis; SmoothingSplineFunction, SmoothingSplineLog | derivative formula, matching of neighbouring pieces and local independence by induction on the degree | Calc/BSpline.lean, Calc/SmoothSpline.lean | `Calc.BSpline.basisCall_spec`, `Calc.BSpline.raw_cub`, `Calc.BSpline.raw_indep`, `Calc.BSpline.raw2_low`, `Calc.BSpline.raw2_high`, `Calc.BSpline.basis_natural`, `Calc.BSpline.basis_det`, `Calc.BSpline.expand_curve`, `Calc.SSpline.derivative_scaled`, `Calc.SSpline.derivative_fails`, `Calc.SSpline.three_knots_fails`, `Calc.SSpline.log_derivative_fails`, `Calc.SSpline.log_dx_fails` | For four or more knots the basis is as stated. With three it is not (three_knots_fails); derivative() works in the wrong coordinates (derivative_fails), the log version returns the exponential of the derivative and changes the caller's array. splev is modelled by the Cox-de Boor recursion. |
| C105 | External triggers and pulses are timed on one clock | partial | external_trigger_subframe_count, ..._as_seconds, the start of calc_external_trigger_timing; _calcExternalTriggerTiming and the group loop; the trigger file as bytes | round trip of 8-byte numbers, the regular expression as last occurrence; C30 for the delays, field arithmetic for the units | Algo/Trigger.lean | `Algo.Trig.triggers_roundtrip`, `Algo.Trig.binary_triggers`, `Algo.Trig.hdf5_triggers`, `Algo.Trig.triggers_again`, `Algo.Trig.off_delays_partial`, `Algo.Trig.off_group`, `Algo.Trig.calc_timing_fails`, `Algo.Trig.off_divisions_fails`, `Algo.Trig.off_key_fails`, `Algo.Trig.off_empty_channel_fails` | Reading is proved in full. Timing is right for OFF files with as many rows as subframes and not exactly one trigger (C30); calc_external_trigger_timing of a TESGroup always raises (calc_timing_fails), other numbers of subframes are ignored (off_divisions_fails, off_key_fails), one empty channel stops the group (off_empty_channel_fails). Comment lines are ASCII. |
| C106 | Neighbour lists name every channel at its distance, and crosstalk is looked for there | partial | set_nearest_neighbors_list with its stored list; the choice of neighbours in flag_crosstalking_pulses | the unique sorted distances are the ascending list of grid distances; position in it = number of lesser ones | Stat/Neighbors.lean | `Stat.Neighbors.neighbors_list`, `Stat.Neighbors.nearer_iff`, `Stat.Neighbors.neighbor_numbers`, `Stat.Neighbors.selected_neighbors`, `Stat.Neighbors.list_kept`, `Stat.Neighbors.list_absent`, `Stat.Neighbors.gap_fails`, `Stat.Neighbors.flagging_fails` | The list is proved in full. n counts the distances of a full grid, not of existing channels (gap_fails), and the flags are never set (flagging_fails). |
| C107 | A mixture of two splines is the mixture of their values | partial | LinterpCubicSpline: __init__, and __call__ inherited with the combined xstep | linearity of every branch of the evaluation | Calc/Linterp.lean | `Calc.linterp_partial`, `Calc.linterp_accepts`, `Calc.linterp_scale_fails` | linterp_partial: exactly equal knots. Knots up to 1/1000 apart are accepted as equal, whatever their scale (linterp_scale_fails). The third derivative is the class's own (C39). |
| C108 | Savitzky-Golay smoothing is the local least-squares polynomial | partial | savitzky_golay: matrix, pseudo-inverse, padding, convolution | normal equations and Pythagoras; powers at 2h+1 points are independent; mirror symmetry; Taylor coefficients | Lin/SavGol.lean | `Lin.SavGol.savgol_spec`, `Lin.SavGol.savgol_errors`, `Lin.SavGol.savgol_polynomial`, `Lin.SavGol.savgol_sign_fails`, `Lin.SavGol.savgol_factorial_fails`, `Lin.SavGol.savgol_end_fails` | savgol_spec characterises the output half a window from the ends: smoothing is as stated, derivatives of order d are (-1)^d / d! times the derivative of the best polynomial (savgol_sign_fails, savgol_factorial_fails). At the ends the padding is wrong for falling data (savgol_end_fails). The pseudo-inverse of the full-rank matrix is its formula. |
| C109 | Filtering a file gives every record its own filtered value, whatever the segments | partial | filter_data, _filter_data_nocython and the three segment functions, with numpy shapes and broadcasting, storing segment by segment | loop invariant over segments; C32 for the lagged sums; the refusals and the universal failure by computing the first segment | Algo/FilterData.lean | `Algo.FilterData.filter_ats`, `Algo.FilterData.filter_ats_transform_partial`, `Algo.FilterData.filter_noshift`, `Algo.FilterData.filter_5lag_python`, `Algo.FilterData.filter_5lag_partial`, `Algo.FilterData.filter_kept`, `Algo.FilterData.filter_refuses`, `Algo.FilterData.filter_parts`, `Algo.FilterData.late_trigger`, `Algo.FilterData.value_scales`, `Algo.FilterData.ats_transform_fails`, `Algo.FilterData.cython_transform_fails`, `Algo.FilterData.interrupted_fails` | Transforms: as stated except with an arrival-time-safe filter one sample shorter than the records on files of several segments, which always raises (ats_transform_fails), and with a five-lag filter by default, where the transform is ignored (cython_transform_fails). Results of an interrupted run are taken for complete (interrupted_fails). Rounding to float32 left out. |
| C110 | A correction for time drift never raises the entropy and leaves the average gain alone | partial | time_drift_correct (function and method): limits, normalization, degrees, downsampling, the loop over degrees, acceptance by entropy | invariants of the loop over degrees; Rodrigues' formula and the fundamental theorem for the mean; oracles universally quantified | Calc/TimeDrift.lean | `Calc.TimeDrift.drift_entropy`, `Calc.TimeDrift.drift_kept`, `Calc.TimeDrift.drift_degrees`, `Calc.TimeDrift.drift_pulses`, `Calc.TimeDrift.drift_range`, `Calc.TimeDrift.drift_mean`, `Calc.TimeDrift.drift_succeeds`, `Calc.TimeDrift.time_origin`, `Calc.TimeDrift.method_stores`, `Calc.TimeDrift.coefficients_fails`, `Calc.TimeDrift.settings_fails` | All as stated except: the coefficients stay those of a rejected correction (coefficients_fails; drift_kept shows when they agree), and the method ignores its three settings (settings_fails). Entropy estimate and minimizer are arbitrary functions; Legendre polynomials by Rodrigues' formula; the spline copy of the model, which is never returned, is left out. |
| C111 | Leaving out the cut name always selects an existing cut, the same for histograms and fits | partial | default cuts of channels and groups, adding through the group with channels marked bad, saving and loading recipe books, on the recipe book of C34 | invariant over histories; induction on the list of saved books | Recipe/Cuts.lean | `Recipe.Cuts.setDefault_spec`, `Recipe.Cuts.cutAdd_spec`, `Recipe.Cuts.default_usable`, `Recipe.Cuts.group_default_partial`, `Recipe.Cuts.group_named`, `Recipe.Cuts.load_saved_partial`, `Recipe.Cuts.load_unknown`, `Recipe.Cuts.cutAdd_fails`, `Recipe.Cuts.group_set_default_fails`, `Recipe.Cuts.marked_good_fails`, `Recipe.Cuts.load_default_fails`, `Recipe.Cuts.negated_fails` | All as stated except: cutAdd that raises on the default has still added the recipe (cutAdd_fails), a group can never set the default (group_set_default_fails), defaults differ after a channel is marked good again (marked_good_fails; group_default_partial covers the histories through the group only), defaults are not saved and loading can leave a default that does not exist (load_default_fails), and negated cuts are refused by group fits (negated_fails). |
| C112 | The learned cut on residuals rejects outliers of the own bin and cannot be moved by them | partial | learnResidualStdDevCut: bins, nodes, the step function of interp1d, the comparison; median_absolute_deviation | search in a sorted list of nodes; order statistics of the median from C87; a relation carried through the search for monotonicity and scaling | Calc/StdDevCut.lean | `Calc.StdDevCut.judged_by_bin_partial`, `Calc.StdDevCut.judged_by_last`, `Calc.StdDevCut.low_rejected_partial`, `Calc.StdDevCut.threshold_robust`, `Calc.StdDevCut.half_below_partial`, `Calc.StdDevCut.passes_mono`, `Calc.StdDevCut.passes_scale`, `Calc.StdDevCut.learn_ok`, `Calc.StdDevCut.all_rejected_fails`, `Calc.StdDevCut.upper_half_fails`, `Calc.StdDevCut.single_fails`, `Calc.StdDevCut.equal_fails`, `Calc.StdDevCut.limit_fails` | All as stated except: pulses in the upper half of a bin are judged by the next bin (upper_half_fails), sparse and empty bins are not left out (single_fails), equal residuals are all rejected (equal_fails), limits above half a bin (limit_fails), and with pulses below the bin size only, or fewer than five, every pulse is rejected (all_rejected_fails). Exact numbers. |
| C113 | A calibration plan becomes a calibration at the fitted positions of its lines | partial | CalibrationPlan, calibrationPlanInit, calibrationPlanAddPoint, calibrateFollowingPlan, on the table of calibration points of C41; fits and conversions as arbitrary functions | induction over calls, points and iterations; a point far from the others and in order with them is appended | Calc/Plan.lean | `Calc.Plan.rough_points_partial`, `Calc.Plan.lineFor_spec`, `Calc.Plan.plan_aligned`, `Calc.Plan.unknown_line`, `Calc.Plan.calibrate_exact_partial`, `Calc.Plan.calibrate_points`, `Calc.Plan.stuck_fails`, `Calc.Plan.same_line_fails`, `Calc.Plan.energy_ignored_fails`, `Calc.Plan.other_name_fails`, `Calc.Plan.no_points_fails` | All as stated for points with energies more than 0.01 apart, different names and positions in the order of the energies, except: a point that does not fit the others stays in the plan and makes every later call fail (stuck_fails), the same line in two states counts once (same_line_fails), an energy given for a known line is ignored (energy_ignored_fails), other names are changed (other_name_fails), and a calibration without points is installed (no_points_fails). Fits and conversions are arbitrary functions, numbers exact. |
| C114 | Quality checks mark exactly the channels that are out of tolerance | partial | linefit, qualityCheckLinefit with its call of linefit by position, qualityCheckDropOneErrors, the group's loop and qualityCheckLinefit; histogram and fit as arbitrary functions | case analysis; induction over channels; the greatest of a list by a fold | Calc/Quality.lean | `Calc.Quality.bins_spec`, `Calc.Quality.linefit_spec`, `Calc.Quality.linefit_ok_partial`, `Calc.Quality.check_spec_partial`, `Calc.Quality.check_error`, `Calc.Quality.both_tolerances`, `Calc.Quality.check_fit`, `Calc.Quality.check_no_errorbar`, `Calc.Quality.drop_one_spec_partial`, `Calc.Quality.group_results`, `Calc.Quality.group_marks`, `Calc.Quality.group_file_partial`, `Calc.Quality.group_no_key_error`, `Calc.Quality.other_attr_fails`, `Calc.Quality.unused_arguments_fails`, `Calc.Quality.cut_ignored_fails`, `Calc.Quality.failed_fit_fails`, `Calc.Quality.sigma_ignored_fails`, `Calc.Quality.absolute_raises_fails`, `Calc.Quality.no_success_fails`, `Calc.Quality.no_errorbars_fails` | All as stated except: attributes other than energies can never be fitted (other_attr_fails), require_errorbars and params_fixed do nothing (unused_arguments_fails), the check ignores the cut named (cut_ignored_fails) and fits that failed (failed_fit_fails), a threshold in sigmas alone is ignored (sigma_ignored_fails) and an absolute one alone raises (absolute_raises_fails), a group without successful fit raises (no_success_fails), a fit without error bars stops the writing of the file (no_errorbars_fails). Histograms and fits are arbitrary functions, numbers exact. |
| C115 | Aligning a channel finds the peaks of the reference channel in order and takes over its plan | partial | dtw_same_peaks, AlignBToA.__init__, getCalBtoA, testForGoodnessBasedOnCalCurvature, the plan in alignToReferenceChannel; histogram and warping path as arbitrary functions | a chain of steps visits every bin and is ordered in both components; monotony of truncation; points of C113; median of scaled values from C87 | Calc/Align.lean | `Calc.Align.peak_bin`, `Calc.Align.partner_exists`, `Calc.Align.partner_mono`, `Calc.Align.outside_refused`, `Calc.Align.gain_recovered_partial`, `Calc.Align.cal_points_partial`, `Calc.Align.above_refused`, `Calc.Align.aligned_plan`, `Calc.Align.curvature_spec`, `Calc.Align.below_fails`, `Calc.Align.same_partner_fails` | All as stated except: a partner below the first bin is taken to be in a bin counted from the end (below_fails); partners can coincide, which gives two points at one position (same_partner_fails). The path is any list with the properties of a warping path; that equal histograms are matched bin by bin is an assumption; bins evenly spaced and wider than 0.01, numbers exact. |
| C116 | What is exported to HDF5 for each state is exactly the pulses of that state, also under aliases | partial | aliasState, labels, getAttr, hist, plotHist, Channel.histsToHDF5, energyTimestampLabelToHDF5, ChannelGroup.hist and histsToHDF5; HDF5 file as a list of datasets | selection by state from C61; paths with different components are never prefixes of each other; induction over the assignments | States/Export.lean | `States.Export.alias_spec`, `States.Export.labels_nodup_iff`, `States.Export.absorb_nodup`, `States.Export.hist_default`, `States.Export.plot_default_partial`, `States.Export.hists_export_partial`, `States.Export.hists_export_only`, `States.Export.export_counts`, `States.Export.export_twice`, `States.Export.group_export_partial`, `States.Export.label_export_partial`, `States.Export.merged_plot_fails`, `States.Export.plot_no_states_fails`, `States.Export.merged_export_fails`, `States.Export.reserved_name_fails`, `States.Export.no_channels_fails`, `States.Export.no_states_fails`, `States.Export.revisited_fails`, `States.Export.revisited_empty_fails` | All as stated except: two labels given one name stay two labels, so a default plot counts their pulses twice (merged_plot_fails) and exports end with an error (merged_export_fails; the conditions are necessary by hists_export_only); states named like a summary dataset cannot be exported (reserved_name_fails); no labels or no channels give errors (plot_no_states_fails, no_channels_fails, no_states_fails); a state visited twice cannot be exported with trigger times (revisited_fails). HDF5 is a list of datasets by path, where a name in use is refused; names contain no slash; cuts look at each pulse by itself; the histogram function is arbitrary. |
| C117 | The efficiency of a stack of filters is the product of those of its films, each by the law of attenuation | partial | FilterStack.add and get_efficiency, Film, AlFilmWithOxide, AlFilmWithPolymer over the reals; xraydb as an arbitrary function | products of exponentials, induction over nested stacks, zip of lists of different lengths | Calc/Efficiency.lean | `Calc.Efficiency.film_thickness`, `Calc.Efficiency.film_area`, `Calc.Efficiency.film_refused`, `Calc.Efficiency.film_complement`, `Calc.Efficiency.thicker`, `Calc.Efficiency.stack_product`, `Calc.Efficiency.stack_nested`, `Calc.Efficiency.empty_stack`, `Calc.Efficiency.add_new_partial`, `Calc.Efficiency.add_by_name`, `Calc.Efficiency.efficiency_range`, `Calc.Efficiency.oxide_film`, `Calc.Efficiency.one_thickness_fails`, `Calc.Efficiency.same_name_fails`, `Calc.Efficiency.film_add_fails`, `Calc.Efficiency.int_fill_fails`, `Calc.Efficiency.polymer_fails` | All as stated except: one thickness for several materials counts for the first only (one_thickness_fails); for films with polymer the thicknesses are assigned to the wrong elements and the last element is left out (polymer_fails); a component replaces one of the same name (same_name_fails) and does nothing when added to a film (film_add_fails); a fill fraction of type int is refused (int_fill_fails). Real numbers, nominal values only, one energy at a time; attenuation of xraydb is an arbitrary function proportional to the density; stacks do not contain themselves. |
| C118 | Smoothing by local polynomials keeps polynomials, and a stepped histogram has the right area | partial | savitzky_golay with the pseudoinverse as an arbitrary function meeting its four defining conditions; the points of plot_as_stepped_hist | Taylor expansion of polynomials, moments of the weights from the left inverse, values of the padded signal; induction over the bins | Stat/PoissonHist.lean, Stat/Savgol.lean | `Stat.Savgol.smooth_poly_partial`, `Stat.Savgol.smooth_rising`, `Stat.Savgol.pseudo_exists`, `Stat.Savgol.pinv_unique`, `Stat.Savgol.savgol_refused`, `Stat.Savgol.falling_fails`, `Stat.Savgol.derivative_sign_fails`, `Stat.Savgol.second_derivative_fails`, `Stat.Savgol.short_fails`, `Stat.Savgol.stepped_edges`, `Stat.Savgol.stepped_area`, `Stat.Savgol.stepped_centers`, `Stat.Savgol.one_bin_fails`, `Stat.Savgol.unequal_fails`, `Stat.PoissonHist.band_spec`, `Stat.PoissonHist.uneven_fails`, `Stat.PoissonHist.poisson_even` | Smoothing as stated, but a falling line is bent at its ends (falling_fails); derivative d comes out as (-1)^d / d! times the derivative (smooth_poly_partial, derivative_sign_fails, second_derivative_fails); signals shorter than half a window give an output of another length (short_fails); one bin given by its center is refused (one_bin_fails); with error bars, bins of unequal width are drawn with wrong edges (uneven_fails). The pseudoinverse is any function meeting the four conditions on the matrices used; exact numbers. |
| C119 | Automatic calibration gives each line its own fit and leaves nothing half done | partial | find_local_maxima after smearing, line_names_and_energies, guess_fit_params, multifit, fit_lines, Channel.calibrate and convert_to_energy; smearing, single fits and curves as arbitrary functions; the table of C41 and the assignment of C68 | insertion sort is determined by distinct energies, induction over lines and over added points, case split over every failing step | Calc/Autocal.lean | `Calc.Auto.peaks_found`, `Calc.Auto.mem_localMaxima`, `Calc.Auto.sort_lines`, `Calc.Auto.guess_spec`, `Calc.Auto.guess_perm`, `Calc.Auto.fit_all`, `Calc.Auto.too_many_bins`, `Calc.Auto.fit_lines`, `Calc.Auto.calibrate_new`, `Calc.Auto.calibrate_points`, `Calc.Auto.calibrate_failed`, `Calc.Auto.calibrate_found`, `Calc.Auto.calibrate_found_only`, `Calc.Auto.calibrate_order`, `Calc.Auto.plateau_fails`, `Calc.Auto.excl_fails`, `Calc.Auto.found_fails`, `Calc.Auto.bins_fails` | All as stated except: peaks with two equal highest samples are missed (plateau_fails); excluded lines are ignored (excl_fails); bin sizes given one for each line stay in the order given (bins_fails); asking for a calibration that exists leaves the energies of whatever calibration was used last (found_fails). Points are exactly one for each line if names differ and energies are more than 0.01 eV apart. The smeared histogram, the fit of one line and the curves are arbitrary functions; the order of peaks of equal height is not that of numpy. |
| C120 | Low-pass filtered optimal filters keep their meaning | partial | band_limit on rfft/irfft as exact sums over real numbers, compute_5lag and compute_ats with low-pass options on top of C63 and C64, compute_fourier, _normalize_filter, ToeplitzWhitener.W | orthogonality of the waves gives the transform of the result; Parseval; lengths of slices and transforms for the Fourier filter; determinant of a triangular matrix | Lin/LowPass.lean | `Lin.Low.bandLimit_spectrum`, `Lin.Low.bandLimit_sum`, `Lin.Low.bandLimit_energy`, `Lin.Low.bandLimit_hard`, `Lin.Low.bandLimit_idempotent`, `Lin.Low.bandLimit_nyquist`, `Lin.Low.bandLimit_mean`, `Lin.Low.compute5_plain`, `Lin.Low.fivelag_lowpass_response`, `Lin.Low.fivelag_lowpass_ok`, `Lin.Low.ats_plain`, `Lin.Low.ats_lowpass_dc`, `Lin.Low.ats_lowpass_ok`, `Lin.Low.normalize1_unit`, `Lin.Low.whitenMatrix_exists`, `Lin.Low.whitenMatrix_whiten_partial`, `Lin.Low.three_db_fails`, `Lin.Low.ats_lowpass_response_fails`, `Lin.Low.ats_no_sample_time_fails`, `Lin.Low.fourier_fails`, `Lin.Low.fourier_assertion_fails`, `Lin.Low.whitenMatrix_pure_AR_fails` | Proved for the low-pass factor and the five-lag filters. False in the code: f_3db is the 6 dB point (three_db_fails); compute_ats does not normalise again, so a low-pass filtered one does not return the pulse height (ats_lowpass_response_fails), and without a sample time it raises ZeroDivisionError (ats_no_sample_time_fails); compute_fourier always raises (fourier_fails); the whitening matrix differs from whiten for models with one MA coefficient (whitenMatrix_pure_AR_fails). The sum is unchanged for fmax of 0 or more. A five-lag filter with all weights zero (NaN in numpy) is excluded by hypothesis. Transforms are exact; the predicted resolution is not modelled. |
| C121 | Optimal filters survive closing and reopening the file | partial | _filter_to_hdf5 as a list of statements acting on the group, __load_filters_from_hdf5 for versions 1 and 2, compute_5lag_filter, compute_ats_filter after its pulse model, the start of get_pulse_model | case analysis along the code with the filter calculations universally quantified; every prefix of the list of statements; concrete rational channels for the disagreements | Lin/FilterFile.lean | `Lin.File.save_spec`, `Lin.File.ats_reopen_partial`, `Lin.File.five_reopen_partial`, `Lin.File.five63_peakFree`, `Lin.File.untyped_ats`, `Lin.File.existing_kept`, `Lin.File.five_failed`, `Lin.File.ats_failed_partial`, `Lin.File.interrupted`, `Lin.File.five_cuts_fails`, `Lin.File.five_peak_fails`, `Lin.File.five_ignore_fails`, `Lin.File.interrupted_open_fails`, `Lin.File.skipped_fails`, `Lin.File.reopened_model_fails`, `Lin.File.nan_filter_fails` | Proved: the weights, arrival-time weights, peak, variance, resolution and settings of arrival-time-safe filters; the weights and variance of five-lag filters without cut windows and without ignored pretrigger samples; the file after a failed computation; no wrong filter after an interruption. False in the code: a five-lag filter is computed again on opening, without its cut windows (five_cuts_fails), with another peak (five_peak_fails), with all pretrigger samples (five_ignore_fails); the pulse shape of an arrival-time-safe filter is not kept (reopened_model_fails); an interrupted save can make the channel impossible to open (interrupted_open_fails) or keep a filter from being computed without any message (skipped_fails); a NaN filter replaces the previous one in memory (nan_filter_fails). The filter calculations are arbitrary functions (the reopening theorem for five-lag filters assumes that their weights do not depend on the nominal peak and the noise spectrum, shown for the calculation of C63); single HDF5 calls are atomic. |
| C122 | Experiment states as categories of pulses | partial | the registration of the states in the constructor of TESGroup and __parse_expt_states, on top of the models of the categorical cuts (C05) and of calcStatesDict (C22) | induction over the dictionary of states with the order of its keys; the allocation of adjacent bits gives consecutive codes; concrete state files for the disagreements | States/Categories.lean | `States.Cat.register_tabled`, `States.Cat.states_selected`, `States.Cat.states_new_file_partial`, `States.Cat.states_again`, `States.Cat.grown_fails`, `States.Cat.auto_exclude_fails`, `States.Cat.alias_fails`, `States.Cat.uncategorized_fails`, `States.Cat.gap_fails` | Proved: new HDF5 files, and files opened again, as long as the list of states is the one that was registered, no state is called 'uncategorized', and the cut bits in use were the lowest ones; for sorted times. False in the code: states added to the file after the first opening are selected as others (grown_fails, auto_exclude_fails), aliases confuse the states (alias_fails), so does a state called 'uncategorized' (uncategorized_fails), and so do gaps in the table of cut bits (gap_fails). Times are compared after rounding by a monotone function; labels are turned into strings by an arbitrary function that is one-to-one on them. |
| C123 | The corrected values of a channel belong together, in every session | partial | filter_data (its skipping), drift_correct, _apply_drift_correction, phase_correct, calibrate, convert_to_energy, and the loading of calibrations and phase correctors when a file is opened | case analysis of each call with the learning functions universally quantified; an invariant over all lists of calls; concrete channels for the disagreements | Calc/Chain.lean | `Calc.Chain.drift_done`, `Calc.Chain.phase_done`, `Calc.Chain.calibrate_done`, `Calc.Chain.energy_again_partial`, `Calc.Chain.chain`, `Calc.Chain.unforced_kept`, `Calc.Chain.stale_drift_fails`, `Calc.Chain.stale_phase_fails`, `Calc.Chain.other_quantity_fails`, `Calc.Chain.calibrate_again_fails`, `Calc.Chain.same_name_fails`, `Calc.Chain.failed_phase_fails`, `Calc.Chain.interrupted_drift_fails`, `Calc.Chain.phase_corr_fails` | Proved: what each call computes; the chain in a new file; that unforced calls never change existing values over any history and number of sessions; that a failed calibrate changes nothing; the energies in a later session (if a loaded calibration has the same curve, C44). False in the code: corrections are skipped without an error though the data below them are new (stale_drift_fails, stale_phase_fails) or another quantity was asked for (other_quantity_fails); calibrate does not convert if the calibration exists (calibrate_again_fails), and two quantities can share a name (same_name_fails); a phase correction that raises makes later calls do nothing (failed_phase_fails); an interrupted forced drift correction (interrupted_drift_fails); p_filt_phase_corr is not the corrected phase (phase_corr_fails). The learning functions are arbitrary; exact arithmetic between roundings to the stored type. |
| C124 | Learning a phase correction uses the right peaks and changes nothing else | partial | phase_correct, _find_peaks_heuristic, the windows, groups and knots of _phasecorr_find_alignment (2017 method), and learnPhaseCorrection's effect on the calibration object of C95 | an invariant of the loop over candidates; permutation invariance of sorting; counting edges below a phase; the reachability invariant of C95 | Calc/PhaseLearn.lean | `Calc.PhaseLearn.peaks_found`, `Calc.PhaseLearn.learn_perm`, `Calc.PhaseLearn.learn_curves`, `Calc.PhaseLearn.learn_none`, `Calc.PhaseLearn.nGroups_bounds`, `Calc.PhaseLearn.window_mem`, `Calc.PhaseLearn.window_disjoint`, `Calc.PhaseLearn.knots_none`, `Calc.PhaseLearn.groupOf_eq`, `Calc.PhaseLearn.one_group`, `Calc.PhaseLearn.learn_keeps_calibration_partial`, `Calc.PhaseLearn.highest_dropped_fails`, `Calc.PhaseLearn.forty_bins_fails`, `Calc.PhaseLearn.no_peaks_fails`, `Calc.PhaseLearn.same_phase_fails`, `Calc.PhaseLearn.two_phases_fails`, `Calc.PhaseLearn.calibration_changed_fails` | Proved: peaks are increasing, have enough counts and are more than ten bins apart, none is missed except near one found; curves per peak, independent of the order given; groups by phase; the calibration is unchanged if converted before or in order. False in the code: the lowest candidates are taken first (highest_dropped_fails), ten bins rather than forty (forty_bins_fails), IndexError if there is none (no_peaks_fails), empty groups give NaN knots (same_phase_fails, two_phases_fails), and the array of the calibration is sorted in place, away from its energies (calibration_changed_fails). The wavelet transform, the percentiles and the minimization of the entropy are arbitrary functions. |
| C125 | A correction by arrival time keeps the clusters and interpolates between them | partial | FilterTimeCorrection: _sort_labels, the lengths and lags of _filter_model, __call__ | permutations and their inverses for the renumbering; an invariant of the loop over intervals | Algo/TimeCorr.lean | `Algo.TimeCorr.clusters_sorted`, `Algo.TimeCorr.lags_spec`, `Algo.TimeCorr.model_at_median`, `Algo.TimeCorr.interpolates`, `Algo.TimeCorr.extrapolation_limited`, `Algo.TimeCorr.one_curve`, `Algo.TimeCorr.lengths_refused`, `Algo.TimeCorr.lengths_fails`, `Algo.TimeCorr.one_cluster_fails`, `Algo.TimeCorr.copy_fails`, `Algo.TimeCorr.whole_numbers_fails` | Proved: renumbering, the five lags for filters four samples shorter, interpolation and limited extrapolation. False in the code: other filter lengths (lengths_fails), one cluster (one_cluster_fails), copying (copy_fails), arrival times given as whole numbers (whole_numbers_fails). Clustering, polynomial fits and the splines are not modelled; exact arithmetic. |
| C126 | A smoothed histogram keeps its counts, and a drift correction lowers the entropy | partial | HistogramSmoother (number of bins, kernel, transforms, call), the entropy and drift_correct, over the real numbers | orthogonality of the roots of unity for the convolution theorem; counting for the totals; bounds on the kernel for the disagreement | Stat/Smoother.lean | `Stat.Smoother.nbins_spec`, `Stat.Smoother.conv_fft`, `Stat.Smoother.kern_spec`, `Stat.Smoother.smooth_spec`, `Stat.Smoother.contents_total`, `Stat.Smoother.smooth_total`, `Stat.Smoother.smooth_bounds`, `Stat.Smoother.drift_entropy`, `Stat.Smoother.drift_default`, `Stat.Smoother.drift_perm`, `Stat.Smoother.drift_shift`, `Stat.Smoother.wraps_fails`, `Stat.Smoother.thrown_out_fails` | Proved, including the convolution theorem for the transforms used. False in the code: smoothing joins the two ends (wraps_fails), and the measured entropy falls when pulses are thrown out of the limits (thrown_out_fails). The minimizer is any function whose answer is no worse than the first starting point; medians and percentiles are arbitrary functions with the symmetry asked for. Exact arithmetic. |
| C127 | The noise of a channel: kept once set, and its size does not matter for the filters | partial | assume_white_noise, compute_noise, compute_noise_spectra and the check of compute_5lag_filter on the noise datasets of a channel; compute_5lag as in C63 | case analysis and induction over the calls; uniqueness of the solution of a positive definite system for the scaling | Lin/ChanNoise.lean | `Lin.ChanNoise.white_spec`, `Lin.ChanNoise.noise_kept`, `Lin.ChanNoise.compute_spec`, `Lin.ChanNoise.compute_same`, `Lin.ChanNoise.compute_atomic`, `Lin.ChanNoise.run_sized`, `Lin.ChanNoise.check_spec`, `Lin.ChanNoise.filter_scale`, `Lin.ChanNoise.white_filter`, `Lin.ChanNoise.zero_variance_fails`, `Lin.ChanNoise.measured_ignored_fails`, `Lin.ChanNoise.old_name_fails`, `Lin.ChanNoise.no_step_fails`, `Lin.ChanNoise.long_noise_fails`, `Lin.ChanNoise.short_noise_fails` | Proved for all histories. False in the code: variance zero is not remembered, measured noise is silently not used after white noise was assumed, compute_noise_spectra always raises, white noise has no frequency step, and noise records of another length than the pulse records give a cut-off spectrum or an error. What the noise file gives is any lists of the right lengths (computed as in C69 and C74). Exact arithmetic; filters without low-pass options. |
| C128 | Rise times do not depend on the size or offset of a pulse, or on the other pulses | partial | estimateRiseTime for a batch of records, over an ordered field (NaN is none) | invariance of maximum, minimum, mean and first-index search under increasing affine maps; first-crossing arguments | Algo/RiseTime.lean | `Algo.RiseTime.rise_affine`, `Algo.RiseTime.rise_spec`, `Algo.RiseTime.rise_lower`, `Algo.RiseTime.rel_bounds`, `Algo.RiseTime.batch_independent`, `Algo.RiseTime.rise_perm`, `Algo.RiseTime.ramp_exact`, `Algo.RiseTime.two_samples_fails`, `Algo.RiseTime.one_sample_fails`, `Algo.RiseTime.batch_fails`, `Algo.RiseTime.marker_fails` | Proved for pulses with at least two samples between 10% and 90% of the peak, in exact arithmetic. False in the code: with one such sample the rise time is zero; with none it is zero or one second, depending on the other pulses of the batch; the failure mark depends on the batch too, and constant records give NaN. |
| C129 | A line fit starts from sensible values and is only returned if the bins are fine enough | partial | guess, fit, _fit and _validate_bins_per_fwhm with the minimizer as an arbitrary function | monotone cumulated counts and uniqueness of quantile bins; case analysis of the two-stage fit; equivalence of the check with bins * size <= width * gain | Line/Fit.lean | `Line.Fit.guess_spec`, `Line.Fit.pbin_spec`, `Line.Fit.width_spec`, `Line.Fit.background_spec`, `Line.Fit.guess_affine`, `Line.Fit.method_spec`, `Line.Fit.weights_refused`, `Line.Fit.validate_spec`, `Line.Fit.fit_bins`, `Line.Fit.fit_one_bin`, `Line.Fit.bins_mono`, `Line.Fit.same_prefix_fails`, `Line.Fit.zero_width_fails`, `Line.Fit.background_fails`, `Line.Fit.refit_start_fails` | Proved in exact arithmetic, for increasing bins, positive gains and any minimizer; the limits lmfit puts on parameters are not modelled. False in the code: a line plus a component that is no line, with the same prefix, always raises AttributeError after the fit; the guessed width is zero if one bin holds both quartiles; up to 20 bins the background is always 0.1; leastsq_refit without a set of parameters starts again from the beginning. |
| C130 | Lines of highly charged ions are the levels of the database, each under its own name | partial | getAvailableLevels, getSingleLevel, the added lines with the registry, and parseLine, with names as lists of characters | splitting of made-up names is inverse to making them; induction over levels with the count of accepted ones; injectivity of letters followed by digits followed by a blank; lookup after assignment in nested dictionaries | Line/Asd.lean | `Line.Asd.parse_levelName`, `Line.Asd.available_spec`, `Line.Asd.wanted_iff`, `Line.Asd.single_spec`, `Line.Asd.lineName_inj`, `Line.Asd.addLines_spec`, `Line.Asd.addLines_max`, `Line.Asd.addRow_spec`, `Line.Asd.rows_spec`, `Line.Asd.write_fails`, `Line.Asd.blank_fails`, `Line.Asd.negative_limit_fails`, `Line.Asd.units_fails`, `Line.Asd.limit_fails`, `Line.Asd.nan_line_fails`, `Line.Asd.again_fails` | Proved for levels whose configuration and term are single words. False in the code: converting a database raises an exception for every table with a level, so nothing is written; levels with a blank in their configuration are never found by a search; a negative limit is no limit; unknown units give None or an empty dictionary; without a ground state a limit of n gives n + 1 lines; levels of unknown energy get a line too; adding lines a second time raises ValueError. |
| C131 | Composite models of highly charged ions have one energy scale | partial | composite models as lists of components with expressions; prefixes by character replacement | lookup after the loop of assignments, with names told apart by prefix and last letter; any valuation obeying the expressions; replacement works word by word | Line/Hci.lean | `Line.Hci.composite_scale`, `Line.Hci.composite_peak`, `Line.Hci.merge_keeps`, `Line.Hci.peak_free`, `Line.Hci.doublet_prefix`, `Line.Hci.hLike_spec`, `Line.Hci.background_fails`, `Line.Hci.circular_fails`, `Line.Hci.parenthesis_fails`, `Line.Hci.same_prefix_fails` | Proved for components with different prefixes; that lmfit keeps the expressions of the parts of a sum is assumed. False in the code: a linear background for a composite model always raises AttributeError (the model does not exist); choosing another peak component in a composite of composites gives circular expressions; names with parentheses give no valid prefix, and names differing only in stars or dots the same one. |
| C132 | Count rates count every pulse in the bin of its time | partial | count_rate with np.arange and np.histogram | induction over edges: counts split at an edge; the ceiling that gives the number of edges; sublists count less | Algo/CountRate.lean | `Algo.CountRate.hist_total`, `Algo.CountRate.rate_spec`, `Algo.CountRate.good_le`, `Algo.CountRate.rate_shift`, `Algo.CountRate.last_pulse_fails`, `Algo.CountRate.short_run_fails`, `Algo.CountRate.uneven_fails`, `Algo.CountRate.order_fails` | Proved in exact arithmetic for positive widths and edges that do not decrease. False in the code: the pulses after the last full edge are not counted, so that the last pulse never is and up to one bin of the run is left out; a run not longer than one bin raises IndexError; rates for uneven edges use the width of the first bin; pulses out of order are lost. |
| C133 | Cuts of outliers and of filter phases only add pulses of their own field | partial | smart_cuts, sanitize_p_filt_phase and cut_summary on the model of the cut words | the accumulation and frame theorems of the cut words; slots left by registration; counting of and/or | Cut/Smart.lean | `Cut.Smart.smart_run`, `Cut.Smart.smart_done`, `Cut.Smart.smart_keeps`, `Cut.Smart.register_keeps_bad`, `Cut.Smart.sanitize_spec`, `Cut.Smart.sanitize_new`, `Cut.Smart.summary_spec`, `Cut.Smart.smart_force_fails`, `Cut.Smart.smart_again_fails`, `Cut.Smart.sanitize_again_fails`, `Cut.Smart.sanitize_nan_fails`, `Cut.Smart.summary_counts_fails` | Proved for every reachable state of the cut fields of one channel and every fit. False in the code: computing the outliers anew never releases a pulse; cuts that found nothing are computed again without being asked; filtering anew leaves the old phase cuts; a phase that is not a number is kept; the list of counts per field prints the program text instead of the counts. |
| C134 | Average pulses of all channels use the good pulses in the range given | partial | make_masks and the group's compute_average_pulse on top of the channel's average pulse | absolute values as intervals; induction over the channels | Stat/Masks.lean | `Stat.Masks.masks_spec`, `Stat.Masks.masks_fail`, `Stat.Masks.mask_gain`, `Stat.Masks.average_spec`, `Stat.Masks.average_refused`, `Stat.Masks.masked_average`, `Stat.Masks.average_stops_fails`, `Stat.Masks.masks_short_fails` | Proved in exact arithmetic for gains that are not zero. False in the code: a mask of the wrong length stops the loop over channels after some have changed; fewer gains than channels give fewer masks than channels, which the averages refuse. |
| C135 | The exact inverse of a calibration inverts it | partial | energy2ph_exact, energy2dedph, name2ph, ismonotonic and the largest pulse height searched, on top of the curves of C66; brentq as a specification which is shown to have instances | intermediate values; strict monotonicity; algebra of Newton's steps; evaluation by the kernel for ismonotonic | Calc/Invert.lean | `Calc.Invert.brent_exists`, `Calc.Invert.exact_inverse`, `Calc.Invert.exact_sound`, `Calc.Invert.short_spec`, `Calc.Invert.short_inverse`, `Calc.Invert.long_spec`, `Calc.Invert.long_line`, `Calc.Invert.long_fixed`, `Calc.Invert.curve_continuous`, `Calc.Invert.exact_at_points`, `Calc.Invert.gain_top`, `Calc.Invert.dedph_spec`, `Calc.Invert.monotonic_spec`, `Calc.Invert.monotonic_of_increasing`, `Calc.Invert.monotonic_negative`, `Calc.Invert.ismonotonic_fails`, `Calc.Invert.new_fails`, `Calc.Invert.slope_new_fails`, `Calc.Invert.long_int_fails`, `Calc.Invert.long_fails`, `Calc.Invert.gain_top_fails` | Proved in exact arithmetic, with the root finder as any function which finds zeros of continuous functions. False in the code: more than 1024 energies can give wrong pulse heights, and a TypeError for integers; a new calibration has no exact inverse and slope 0; the range of a gain curve can end below a calibration point; ismonotonic can be true for a curve which is not. |
| C136 | Entropies of large data sets are those of a smoothed histogram | partial | laplace_entropy_approx, laplace_cross_entropy_approx and the choice of mode of the entropy, cross-entropy and divergence: histogram, kernel, cut and normalisation as in the code, over the real numbers | sums over the histogram as sums over the data; Gibbs' inequality for positive weights; scaling of every step | Stat/EntropyApprox.lean | `Stat.Approx.simpsonW_sum`, `Stat.Approx.counts_total`, `Stat.Approx.bin_spec`, `Stat.Approx.approx_density`, `Stat.Approx.approx_upper`, `Stat.Approx.kl_nonneg`, `Stat.Approx.approx_perm`, `Stat.Approx.approx_affine`, `Stat.Approx.mode_spec`, `Stat.Approx.mode_refused`, `Stat.Approx.kl_mixed_fails`, `Stat.Approx.outlier_fails`, `Stat.Approx.kernel_fails` | Proved over the real numbers, with Simpson's rule as in scipy 1.11 and later, and the convolution exact. Not proved: how close the approximation is to the exact value. False in the code: an outlier 1e8 widths away gives OverflowError; the approximation takes the Laplace kernel for the second set, not the documented top-hat; the default divergence can mix both modes. |
| C137 | Segments, traces and flux corrections of a group | partial | the opening loop of TESGroup, set_segment_size, sample2segnum, segnum2sample_range, the choice of the data set by read_trace and plot_traces, and correct_flux_jumps of channel and group, on top of C31 and the segments of files | induction over the channels; integer division | Group/Segments.lean | `Group.Seg.open_spec`, `Group.Seg.open_shape_partial`, `Group.Seg.open_cover_partial`, `Group.Seg.segment_of_sample`, `Group.Seg.set_spec`, `Group.Seg.trace_spec`, `Group.Seg.flux_group`, `Group.Seg.flux_idempotent`, `Group.Seg.flux_twice_fails`, `Group.Seg.set_count_fails`, `Group.Seg.set_refused_fails`, `Group.Seg.empty_first_fails`, `Group.Seg.versions_fails`, `Group.Seg.unknown_channel_fails` | Proved with exact numbers. False in the code: after set_segment_size the number of segments is the number of pulses in each; a refused size leaves no segments; an empty first file switches the comparison of shapes off; mixed file versions break the segments; an unknown channel number reads another channel; a second flux correction loses the original values. |
| C138 | Windows and line widths | partial | the four window functions with numpy's definitions, voigt_approx_fwhm, minimum_fwhm and _gaussian_sigma, over the reals | trigonometric identities; inequalities between squares; the normalisation theorem of C73 | Stat/Windows.lean | `Stat.Windows.windows_ok`, `Stat.Windows.windows_shape`, `Stat.Windows.windows_energy`, `Stat.Windows.two_samples_fails`, `Stat.Windows.welch_one_fails`, `Stat.Windows.voigt_bounds`, `Stat.Windows.voigt_mono`, `Stat.Windows.voigt_scale`, `Stat.Windows.minimum_below` | Proved over the real numbers. Not proved: the distance of the approximate Voigt width from the true one (its bounds are proved). False in the code: windows of two samples vanish (division by zero in the spectrum), and a Welch window of one sample is not a number. |
| C139 | Times and states of channels made from arrays | partial | the default recipes of channels made from arrays with the recipe classes they use, unixnano as the states use it, and the group as a dictionary by number | the selection theorem of the states (C61) with the truncated times; truncation to seconds commutes with comparison against whole seconds; induction over the channels | States/Arrays.lean | `States.Arr.rel_time`, `States.Arr.array_states_partial`, `States.Arr.nano_fails`, `States.Arr.states_fails`, `States.Arr.no_time_fails`, `States.Arr.nano_field`, `States.Arr.array_group`, `States.Arr.same_number_fails` | Times are exact. False in the code: times are cut to whole seconds before they are turned to nanoseconds, so records get the wrong state unless every state starts at a whole second (the case proved); channels with equal numbers replace each other; arrays without times have no states. |
| C140 | Pairing of pulse and noise files, and restoring a group | partial | the choice of files in TESGroup.__init__ (with the name functions of C09-C12), the loop which opens them and writes the attributes of the HDF5 groups, _generate_hdf5_filename and RestoreTESGroup; file contents are an environment | strictly sorted lists with the same members are equal; explicit form of the HDF5 attributes by induction over the files; restoring and reopening computed from that form | Group/Restore.lean | `Group.Restore.generate_name`, `Group.Restore.generate_fails`, `Group.Restore.glob_pairs`, `Group.Restore.max_chans_fails`, `Group.Restore.open_new`, `Group.Restore.restore_partial`, `Group.Restore.no_noise_fails`, `Group.Restore.order_fails`, `Group.Restore.stale_fails`, `Group.Restore.mismatch_fails`, `Group.Restore.one_file_fails` | Restoring is proved for a group opened once with summary files of its own. False in the code: summary files keep channels of earlier groups; lists in different orders leave wrong noise names in the summary files; channels come back in the order of their names; a directory named with _chan<digit> makes pulses and noise share a summary file; max_chans needs noise files. |
| C141 | Per-pulse vectors, resizing, arrays and copies | partial | __setup_vectors, MicrocalDataSet.__init__ as far as the HDF5 group, resize, copy, _makeNumpyArray and toOffStyle, with h5py's require_dataset; PowerSpectrum objects with their array in a memory | induction over the fields; the array theorems of C139; explicit computation of the shared memory after an addition | Group/Vectors.lean | `Group.Vec.setup_ok`, `Group.Vec.reopen`, `Group.Vec.resize_partial`, `Group.Vec.resize_fails`, `Group.Vec.array_ok`, `Group.Vec.off_style`, `Group.Vec.spread_fails`, `Group.Vec.copy_channel_fails`, `Group.Vec.copy_spectrum_partial`, `Group.Vec.copy_spectrum_fails`, `Group.Vec.copy_spectrum_witness` | Types of the vectors are not modelled. False in the code: resizing to fewer pulses always raises and leaves the channel inconsistent; channels and groups cannot be copied (AttributeError); a copy of a power spectrum shares its sum with the original, so adding to one spoils the other. |
| C142 | Data base of x-ray lines | partial | NISTXrayDBFile and NISTXrayLine with the column layout, the loop looking for the title (with a number of rounds), the dictionary of lines, replacing, upper and lower case, splitting into words | induction over lines and files; the text in small letters has no capital letter while every nickname has one | Line/XrayDb.lean | `Line.Xray.columns`, `Line.Xray.title_iff`, `Line.Xray.load_partial`, `Line.Xray.no_header_fails`, `Line.Xray.getitem_partial`, `Line.Xray.getitem_case`, `Line.Xray.getitem_blanks`, `Line.Xray.nickname_fails`, `Line.Xray.nickname_witness_fails`, `Line.Xray.byType_case`, `Line.Xray.byType_nick`, `Line.Xray.byType_greek`, `Line.Xray.byType_lines`, `Line.Xray.elements_nodup`, `Line.Xray.ll_fails` | Only ASCII letters change case; text to number conversion is an arbitrary partial function. False in the code: a file without a title line is read for ever; nicknames never work in look-ups (KeyError); the nickname Ll finds nothing. |
| C143 | Scripts converting LJH files and making projectors | partial | ljh_get_channels(_both), output_basename, mass_folder, load_aux_file; the channel loop of ljh2off, its experiment state and readout header; main of the projectors script; LJHModify up to its exception; directories as listings, files as contents by name | induction over listings and channels; case analysis of the file system | Names/Scripts.lean | `Names.Scr.channels_partial`, `Names.Scr.both_ok`, `Names.Scr.here_fails`, `Names.Scr.twice_fails`, `Names.Scr.output_partial`, `Names.Scr.output_fails`, `Names.Scr.aux_fails`, `Names.Scr.convert_partial`, `Names.Scr.max_fails`, `Names.Scr.missing_fails`, `Names.Scr.state_ok`, `Names.Scr.state_late_fails`, `Names.Scr.none_fails`, `Names.Scr.column_fails`, `Names.Scr.projectors_partial`, `Names.Scr.projectors_keep`, `Names.Scr.projectors_lost_fails`, `Names.Scr.weight_fails`, `Names.Scr.ending_fails`, `Names.Scr.negative_fails`, `Names.Scr.modify_partial`, `Names.Scr.modify_fails`, `Names.Scr.modify_lost_fails` | Files are names and contents; reading and converting records is C14's. False in the code: channels of a file in the current directory cannot be found and may be given twice; max_channels 0 converts all; a channel missing in one of several runs ends everything; the column number is lost; noise_weight_basis has no effect; noise files with another ending are looked for as .ljh; LJHModify always raises, having emptied its output; output_basename raises TypeError; timing files cannot be loaded. |
| C144 | Groups from HDF5 files only | partial | the functions of channel_group_hdf5_only.py over a world of channel files (attributes, number of pulses, time stamps) and master files (attributes, links), with the exceptions h5py raises; the order in which links are listed is arbitrary | induction over the channels with the links made so far; the sort by channel; explicit worlds for the failures | Group/Master.lean | `Group.Master.chanOf_name`, `Group.Master.jlName_chan`, `Group.Master.master_partial`, `Group.Master.reuse`, `Group.Master.value_fails`, `Group.Master.unclean_fails`, `Group.Master.stale_fails`, `Group.Master.partial_fails`, `Group.Master.directory_fails` | master_partial needs an h5py older than 3 and complete files. False in the code: with h5py 3 no master file can be made, and the remains are taken for a good one; files not cleanly ended are linked all the same and make the group unusable; a master file is used again for other files; a missing file leaves a partial master file; names with _chan in the directory. |
| C145 | Learned corrections of OFF channels | partial | the three learn functions over the recipe book of C25, with the fit as arbitrary function; DriftCorrection with toHDF5, fromHDF5, == over a flat HDF5 group | denotation of recipes (C25); path injectivity; find in appended lists | Recipe/Drift.lean | `Recipe.Drift.learn_partial`, `Recipe.Drift.learn_name`, `Recipe.Drift.drift_fit`, `Recipe.Drift.saved`, `Recipe.Drift.saved_two`, `Recipe.Drift.saved_twice`, `Recipe.Drift.read_version`, `Recipe.Drift.read_missing`, `Recipe.Drift.eq_laws`, `Recipe.Drift.same_fails`, `Recipe.Drift.nan_fails`, `Recipe.Drift.broken_fails` | learn_partial needs two different quantities: with the same one as indicator and uncorrected value the recipe is accepted and crafting raises (same_fails). A NaN number makes the correction read back unequal (nan_fails); saving is not all or nothing (broken_fails). The fits themselves are oracles. |
| C146 | Data in memory and fake data | partial | VirtualFile, FakeDataGenerator (conversion to integers, shares, scale factors, smoothing, times, model pulse over the reals) and the first step of the classes that open a file; random draws and shuffles are arbitrary | floor and modular arithmetic; sums of floors; exponential inequalities | Algo/Fake.lean | `Algo.Fake.sample_nearest`, `Algo.Fake.sample_trunc`, `Algo.Fake.high_fails`, `Algo.Fake.noise_fails`, `Algo.Fake.read_row`, `Algo.Fake.copy_same`, `Algo.Fake.times_fails`, `Algo.Fake.virtual_fails`, `Algo.Fake.counts_spec`, `Algo.Fake.scales_spec`, `Algo.Fake.equal_fails`, `Algo.Fake.few_fails`, `Algo.Fake.kludge_sum`, `Algo.Fake.kludge_one`, `Algo.Fake.times_sorted`, `Algo.Fake.presamples_fails`, `Algo.Fake.model_spec`, `Algo.Fake.peak_fails` | False in the code: a VirtualFile is refused by PulseRecords, NoiseRecords and TESGroup (TypeError), so fake data sets and groups can never be made; levels from 32768 up are read as negative; negative noise is not rounded to nearest; distributions without weights raise; default presamples may be fractional; the number of times is not checked. What holds is proved. |
| C147 | Group-wide summaries, counts, reports and noise-only groups | partial | the loops of summarize_data, compute_noise_spectra and report, timestamp_offset, the choice of noise files and the checks of a noise-only group, use_records and the segment lengths; a channel's own method is an arbitrary function that may fail | induction over the channels with the books invariant of C28; sorted index lists; integer division | Group/Sums.lean | `Group.Sums.summarize_spec`, `Group.Sums.progress_spec`, `Group.Sums.noise_spectra_partial`, `Group.Sums.noise_spectra_fails`, `Group.Sums.timestamp_offset_iff`, `Group.Sums.report_line`, `Group.Sums.report_fails`, `Group.Sums.noise_only_files`, `Group.Sums.noise_only_lists_fails`, `Group.Sums.noise_only_max_fails`, `Group.Sums.noise_attrs_partial`, `Group.Sums.noise_attrs_fails`, `Group.Sums.segments_spec`, `Group.Sums.noise_marks_fails`, `Group.Sums.use_records_partial`, `Group.Sums.use_records_fails`, `Group.Sums.seg_lengths`, `Group.Sums.fancy_fails` | False in the code: compute_noise_spectra stops at the first failing channel; a channel without good pulses ends the report; a noise-only group ignores never_use and use_only, cannot be made with max_chans, forgets bad marks when reopened, and with an empty first file accepts files that disagree; the documented form of use_records is a TypeError; compute_fancy_power_spectra raises for LJH files. What holds is proved. |
| C148 | What the plots of channels and groups show | partial | the loops of plot_traces, both plot_summaries, plot_multipage, plot_noise and annotate_lines up to what is handed to matplotlib; the number of values a Python format string wants | induction over records, channels and pages; integer division; index arithmetic of np.roll | Group/Plots.lean | `Group.Plots.traces_spec`, `Group.Plots.difference_spec`, `Group.Plots.difference_fails`, `Group.Plots.rebase_spec`, `Group.Plots.quantity_spec`, `Group.Plots.names_fails`, `Group.Plots.scatter_spec`, `Group.Plots.points_bound`, `Group.Plots.ten_thousand_fails`, `Group.Plots.group_downs_spec`, `Group.Plots.group_downs_fails`, `Group.Plots.chosen_spec`, `Group.Plots.chosen_words`, `Group.Plots.group_points_partial`, `Group.Plots.group_all_fails`, `Group.Plots.midnight_spec`, `Group.Plots.multipage_spec`, `Group.Plots.multipage_fails`, `Group.Plots.summary_pages_fails`, `Group.Plots.page_name_fails`, `Group.Plots.noise_limits_partial`, `Group.Plots.noise_limits_fails`, `Group.Plots.y_label_fails`, `Group.Plots.label_heights_spec`, `Group.Plots.label_heights_fails` | False in the code: differences are drawn summed over three samples; three documented names of quantities are refused; up to 19,999 points are drawn, and all channels are thinned like the first; a group plot of all pulses raises; plot_summary_pages and plot_histogram_pages always fail; the axes of a noise plot fit the last channel only and its label ignores sqrt_psd; labels in the second colour alone raise. What holds is proved; what matplotlib makes of it is not modelled. |
| C149 | Lines and models by name | partial | LineEnergies over the model of the data base (C142); the choices of get_model; the parameter hints; the number of digits of the report over the reals; the He-like complexes and models() over the composite models of C131 | the symbol at the start of a key is unique and the names of transitions are disjoint (finite check over the two name tables), dictionary lemmas; ordered-field arithmetic; logarithms, floor and ceiling; induction over the stored models | Line/ByName.lean | `Line.ByName.line_energies_spec`, `Line.ByName.documented_names`, `Line.ByName.usual_names`, `Line.ByName.get_model_spec`, `Line.ByName.hints_spec`, `Line.ByName.report_digits`, `Line.ByName.report_zero_fails`, `Line.ByName.models_spec`, `Line.ByName.he_complex_spec`, `Line.ByName.unknown_line`, `Line.ByName.models_background_fails` | False in the code: a fitted value of exactly zero makes the report and the plot fail; with has_linear_background=True none of the ready-made models can be made. The rest is proved. The contents of the data files are not modelled: that their names are elements and transitions is a hypothesis (all transitions in the two files are among the eighteen). The rounding done by Python's format 'g' is assumed to be within half a unit of the last digit. |
| C150 | Aligning the pulse heights of a peak by phase | partial | _phasecorr_find_alignment, both methods, over the grouping of C124 and the cubic spline of C39: stages of searches, the mean, the correction between them, the curve; histograms, correlation, place of the largest value, ridge | the tridiagonal solution and the spline of displaced data are those of the data displaced; interpolation at strictly increasing medians; permutations of the pulses; telescoping sums over bin edges; the largest value of the correlation with a single bin | Calc/PhaseAlign.lean | `Calc.PhaseAlign.align_spec`, `Calc.PhaseAlign.peak_moved`, `Calc.PhaseAlign.nothing_to_align`, `Calc.PhaseAlign.any_order`, `Calc.PhaseAlign.align_normal`, `Calc.PhaseAlign.offset`, `Calc.PhaseAlign.bins_2015`, `Calc.PhaseAlign.counts_total`, `Calc.PhaseAlign.ridge_at`, `Calc.PhaseAlign.ridge_points`, `Calc.PhaseAlign.same_spectra_2015`, `Calc.PhaseAlign.empty_bin_fails`, `Calc.PhaseAlign.ridge_low_fails`, `Calc.PhaseAlign.centre_mid` | False in the code, by the older method: a phase bin without pulses of the peak puts the curve at zero, so that a pulse there is corrected to twice its height; a bin displaced by half the window raises. The entropy (C88) and Brent's method are arbitrary functions, so nothing is said about how good the displacements are; the parabola of the older method is an oracle. |
| C151 | Pulse models of a group and their file | partial | get_pulse_model, the construction of PulseModel, _pulse_model_to_hdf5 per channel and in the loop of C27, pulse_model_to_hdf5 for a new and a given file, str.split for the name | case analysis of the checks; lists extended at their end; the loop theorem of C27 with the entry of the channel as part of its state; induction over the name | Group/ModelFile.lean | `Group.ModelFile.model_spec`, `Group.ModelFile.model_made`, `Group.ModelFile.lagged_spec`, `Group.ModelFile.extra_fails`, `Group.ModelFile.file_spec`, `Group.ModelFile.keeps_existing`, `Group.ModelFile.rethrow_raises`, `Group.ModelFile.replaced_lost_fails`, `Group.ModelFile.given_file_fails`, `Group.ModelFile.given_new`, `Group.ModelFile.twice_fails`, `Group.ModelFile.name_spec`, `Group.ModelFile.name_fails` | False in the code: the extra components are found from the arrival-time-safe filter, whatever the 5-lag filter; replacing a file when no model can be made leaves an empty one; for a file handed over noise_weight_basis and _rethrow are ignored; writing twice into one file marks all channels bad; a directory with chan in its name is an error. What holds is proved. The averages, filters and the decomposition are oracles; a failure in the middle of writing one entry is not modelled. |
| C152 | Line fits of channels and groups, exported energies, reports on filters | partial | np.arange, the centers, linefit step by step on top of the histograms of C57, the loop of save_pulse_energies_ascii, printf's %.10e and float32 as specifications, summarize_filters and Filter.report over the reals | properties of the ceiling; case analysis of the steps; the theorems of C57; distance of float32 numbers against the error of eleven decimal digits; algebra of square roots | Group/LineFits.lean | `Group.LineFits.arange_spec`, `Group.LineFits.linefit_iff`, `Group.LineFits.channel_fit`, `Group.LineFits.default_range`, `Group.LineFits.group_of_one`, `Group.LineFits.group_counts`, `Group.LineFits.attr_fails`, `Group.LineFits.unused_fails`, `Group.LineFits.label_fails`, `Group.LineFits.save_spec`, `Group.LineFits.text_exact`, `Group.LineFits.summarize_fails`, `Group.LineFits.stored_fails` | False in the code: attributes other than energies are refused; guess_params and label do nothing; the label of the plot shows the argument binsize even if other bins are given; summarize_filters leaves out the nominal peak, so its numbers are not those of the filters, and never finds a filter in the file. The rest is proved; guess and fit of the model are arbitrary functions, exact numbers. |
| C153 | The OFF files of a run, their channels and five-lag values of OFF records | partial | glob patterns on names (star, question mark, brackets), getOffFileListFromOneFile on top of the sorting of C20, the dictionary of channels, the fit in the basis and the recipes by name, the loop over a group, the output name | induction over patterns and lists; the sums of C32 rearranged; the theorems on sorting; evaluation for the disagreements | Off/Runs.lean | `Off.Runs.files_spec`, `Off.Runs.load_spec`, `Off.Runs.load_distinct`, `Off.Runs.five_spec`, `Off.Runs.again_fails`, `Off.Runs.group_five`, `Off.Runs.missing_fails`, `Off.Runs.inverted_fails`, `Off.Runs.out_name`, `Off.Runs.bracket_fails`, `Off.Runs.copy_fails`, `Off.Runs.blank_fails` | False in the code: base names with a bracket find no file; other files that begin like those of the run are taken for channels, and of two files with one number only the last is kept; one good channel without model ends the call for the group after a part of it, and a second call is refused; heights from models of inverted data are negative; names of runs with a blank are cut. The rest is proved, in exact numbers; the directory is a list of names, names with a leading dot are not special. |
| C154 | Times and stored values in floating point | partial | rounding of rationals to p bits (floor, halves to even, power of two from the logarithm), the arithmetic of each time as a composition of roundings, the state dictionary of C22 on these times | error bound, monotonicity and exactness of rounding from the definition; linear arithmetic over rationals; the states by the theorem of C22 after showing that both roundings of whole numbers are one | Algo/Rounding.lean, Algo/Times.lean | `Algo.Times.secs_spec`, `Algo.Times.unixnano_spec`, `Algo.Times.unixnano_fails`, `Algo.Times.nano_eq`, `Algo.Times.before_entry`, `Algo.Times.states_spec`, `Algo.Times.states_fails`, `Algo.Times.usecSecs_spec`, `Algo.Times.usecSecs_fails`, `Algo.Times.timeDiff_spec`, `Algo.Times.relTime_spec`, `Algo.Times.relTime_ljh`, `Algo.Times.store_spec`, `Algo.Times.store_fails`, `Fl.fl_err`, `Fl.fl_mono`, `Fl.fl_grid`, `Fl.fl_integral`, `Algo.Times.toDouble_fl` | False in the code: the nanoseconds of an OFF file are not the record's microseconds times 1000, and cut off after the microsecond can be the one before; a record at the very time of an entry of the state file can be given the state before it; a record read from HDF5 microseconds has another time than from LJH; float32 cannot tell near values apart. The states are proved for records with no entry within 750 ns. Rounding is IEEE to nearest even with unbounded exponents (no overflow or subnormal numbers, which times do not reach). |
| C155 | Pulses of one shape, from records to energies | proved | the channel method compute_5lag_filter; everything else by the models of C71, C63, C109, C66, C21 and C153 | composition: the average of affine records, the normalised signal as the shape over its maximum, the response theorem of C63 for every record, equality of the parabola vertices, linearity of the projection | Lin/Ideal.lean | `Lin.Ideal.average_ideal`, `Lin.Ideal.signal_ideal`, `Lin.Ideal.response_ideal`, `Lin.Ideal.filtered_ideal`, `Lin.Ideal.energy_ideal`, `Lin.Ideal.off_exact`, `Lin.Ideal.off_ideal` | Exact arithmetic. The filter is assumed to have a non-zero weight (a shape to which no filter responds is excluded), and to be made at all (the noise matrix and the cut windows are accepted). Cython filtering of records of fewer than 8 samples is excluded (C109). |
| C156 | Dictionaries of parameters and the controls of the cuts | partial | dictionaries as association lists; set_in_dict, the loop over the dictionaries, the loop over the arguments with what stays set when it stops; namespaces; the constructor of AnalysisControl | induction over arguments and dictionaries; an invariant principle for histories of calls | Cut/ParamProps.lean, Cut/Params.lean | `Cut.Params.keys_fixed`, `Cut.Params.types_kept`, `Cut.Params.flag_kept`, `Cut.Params.flag_frozen`, `Cut.Params.set_spec`, `Cut.Params.set_unknown`, `Cut.Params.controls_spec`, `Cut.Params.controls_unknown`, `Cut.Params.dicts2ns_spec`, `Cut.Params.ns2dicts_spec`, `Cut.Params.namespace_roundtrip`, `Cut.Params.dump_spec`, `Cut.Params.flag_true_fails`, `Cut.Params.flag_false_fails`, `Cut.Params.type_list_fails`, `Cut.Params.shared_name_fails`, `Cut.Params.overwritten_variable_fails`, `Cut.Params.usage_fails`, `Cut.Params.property_reads`, `Cut.Params.properties_no_meta_fails`, `Cut.Params.blank_property_fails`, `Cut.Params.property_shared_fails` | False in the code: a value of another type or None ends the process (also a number for a number), a check of False makes a parameter that cannot be set, a list of types always ends the process, a name in two dictionaries raises KeyError on the way back from a namespace, a variable of the same name is lost, set() prints nothing. properties raises TypeError unless meta data are allowed, a property of a name with a blank raises KeyError, and of a name in two dictionaries it reads the last while set sets the first. Not modelled: dicts2namespace2, which builds code as text. |
| C157 | Which LJH files open, and with which attributes | proved | the chain of look-ups and conversions of _parse_header, in the order of the code, with the exception of each | relations that say what a header states, for keys with and without defaults and for keys found by their first letters; each step of the chain is equivalent to its relation | Ljh/Open.lean | `Ljh.Open.open_spec`, `Ljh.Open.key_error_iff`, `Ljh.Open.error_kinds` | Header lines to dictionary is C14's; a data source that is not UTF-8 is not modelled. |
| C158 | OFF files written from LJH files, at every point where writing may stop | partial | json.dumps line by line with ASCII escapes, the header dictionary, the loops over files and segments with what is on disk when they stop, the encoding of a record | every inner line is indented and printable; induction over the files; opening (C84) of every prefix; field positions of the layout | Off/Write.lean | `Off.Write.header_lines`, `Off.Write.header_content`, `Off.Write.convert_eq`, `Off.Write.convert_refuses`, `Off.Write.loop_spec`, `Off.Write.file_spec`, `Off.Write.crash`, `Off.Write.written_opens`, `Off.Write.arrays_read`, `Off.Write.fields_read`, `Off.Write.old_version_fails`, `Off.Write.float32_fails`, `Off.Write.few_bases_fails` | False in the code: another off_version raises ValueError and leaves a 0.3.0 file without records; float32 arrays are written under a float64 header; with fewer than three basis elements records are lost. That json.loads inverts json.dumps is assumed for the header at hand; the conversion of one record is an arbitrary function here (C21 has its formulas). |
| C159 | Pages of plots put into one file, and the progress shown by loops | partial | Python's % for one number, glob with three digits, sorting by code points, the files on disk; the generator as a tree of steps and exceptions, the updater's messages | three digits below 1000 sort as numbers; the sorted list of a sorted list is itself; induction over the generator | Group/Pages.lean | `Group.Pages.fmt_spec`, `Group.Pages.combine_spec`, `Group.Pages.one_file_spec`, `Group.Pages.update_spec`, `Group.Pages.time_left_spec`, `Group.Pages.work_spec`, `Group.Pages.summary_progress`, `Group.Pages.group_progress_partial`, `Group.Pages.stale_fails`, `Group.Pages.thousand_fails`, `Group.Pages.template_fails`, `Group.Pages.group_progress_fails`, `Group.Pages.filter_progress_fails` | False in the code: pages of an earlier run are put in and removed, pages from 1000 on are left out, the templates of both callers fit no number (nothing is ever saved), a group whose last channel fails never finishes, filtering shows more than 100 %. Exact arithmetic for the fractions and times. |
| C160 | The usual position of the peak, and promptness by both ways to summarise | partial | argmax, mode and the windows of the numpy summary, with NaN as none | argmax and mode by what characterises them (first greatest; most common, smallest); the six samples of one way are the window of the other | Algo/Prompt.lean | `Algo.Prompt.usual_peak_spec`, `Algo.Prompt.peak_position`, `Algo.Prompt.usual_peak_perm`, `Algo.Prompt.usual_peak_shape`, `Algo.Prompt.prompt_shift`, `Algo.Prompt.np_peak`, `Algo.Prompt.prompt_bounds`, `Algo.Prompt.prompt_partial`, `Algo.Prompt.fast_fails`, `Algo.Prompt.prompt_fails`, `Algo.Prompt.below_fails` | The position is proved in full. Promptness agrees only if the usual position is 14 or 15 samples after the trigger (prompt_partial); otherwise the two ways differ (prompt_fails), pulses peaking within three samples have none by numpy (fast_fails), and records below their pretrigger mean wrap around (below_fails). Exact arithmetic; cut_post at most the length of a record. |
| C161 | The sigmaf chosen for a smoothing spline makes the data most probable | proved | the constructor's matrices (C99), _marginal_like over the reals, minimize_scalar as a parameter | completing the square and Gaussian integrals; invariance by bordered determinants and uniqueness of the weights | Calc/Evidence.lean | `Calc.Evidence.like_evidence`, `Calc.Evidence.best_sigmaf_spec`, `Calc.Evidence.best_sigmaf_failed`, `Calc.Evidence.like_line`, `Calc.Evidence.like_origin`, `Calc.Evidence.like_units_x`, `Calc.Evidence.like_units_y`, `Calc.Evidence.like_two` | Real arithmetic; that scipy's search finds the smallest value when it reports success is an assumption (Finds); LAPACK's Cholesky and solve as documented. With negative abscissas construction may raise (C99). |
| C162 | The kink that is fitted is the best of all | partial | fit_kink_model on the model of kink_model (C50), the bounded search as a parameter | optimality of the search combined with that of the linear coefficients | Lin/KinkFit.lean | `Lin.KinkFit.fit_best_partial`, `Lin.KinkFit.fit_exact`, `Lin.KinkFit.fit_bounds`, `Lin.KinkFit.range_spec`, `Lin.KinkFit.fit_unsorted_fails` | For x in increasing order, if the bounded search finds the smallest value (an assumption). For other orders the value minimised is not the misfit (fit_unsorted_fails). Exact arithmetic. |
| C163 | Random singular value decompositions are decompositions | proved | power iteration, QR and SVD by what they promise | algebra of matrix products; Pythagoras for the best approximation | Lin/Rsvd.lean | `Lin.Rsvd.svd_orthonormal`, `Lin.Rsvd.svd_exact`, `Lin.Rsvd.svd_best` | Exact arithmetic; LAPACK's QR and SVD as documented; the random matrix is any matrix. Number of random vectors at most the number of rows. |
| C164 | Uncertainties of quantum efficiencies | partial | linear forms in named sources of uncertainty (uncertainties' AffineScalarFunc), films, stacks and their constructors | the linear form of an efficiency is its derivative along every source; sums over distinct sources | Calc/EffUncert.lean | `Calc.EffUncert.first_order`, `Calc.EffUncert.efficiency_std`, `Calc.EffUncert.stack_relative`, `Calc.EffUncert.film_std`, `Calc.EffUncert.ensure_spec`, `Calc.EffUncert.fraction_spec`, `Calc.EffUncert.default_film`, `Calc.EffUncert.mesh_film`, `Calc.EffUncert.area_film`, `Calc.EffUncert.nominal_film`, `Calc.EffUncert.fill_default_fails`, `Calc.EffUncert.oxide_exact_fails`, `Calc.EffUncert.mixed_fails`, `Calc.EffUncert.layer_fails` | Real arithmetic; uncertainties' linear propagation as documented; cross-sections exact. False in the code: an aluminium film gets a fill fraction of 1 with 100 % uncertainty (fill_default_fails), its oxide is exact if the aluminium thickness is uncertain (oxide_exact_fails), lists mixing plain and uncertain numbers are refused (mixed_fails), the elements of one layer count as independent (layer_fails). |
| C165 | Plots of calibrations show the calibration and its points | partial | the numbers handed to matplotlib: curve, band, points, bars, texts | branch by branch; derivatives for the error bars | Calc/CalPlot.lean | `Calc.CalPlot.plot_curve`, `Calc.CalPlot.points_on_curve`, `Calc.CalPlot.plot_range`, `Calc.CalPlot.plot_refused`, `Calc.CalPlot.band_spec`, `Calc.CalPlot.bars_partial`, `Calc.CalPlot.bars_horizontal`, `Calc.CalPlot.slope_removed`, `Calc.CalPlot.bars_linear_fails`, `Calc.CalPlot.bars_power_fails`, `Calc.CalPlot.log_gain_fails`, `Calc.CalPlot.log_gain_label_fails`, `Calc.CalPlot.one_point_fails` | Real arithmetic, positive pulse heights and energies. Error bars are right for gain, inverse gain and energies per pulse height only (bars_partial, bars_linear_fails, bars_power_fails); log gains below one cannot be plotted (log_gain_fails) and are labelled with the wrong sign (log_gain_label_fails). |
| C166 | Calibration plans from the strongest peaks | partial | the whole function on top of the models of find_local_maxima, find_opt_assignment (C68) and calibration plans (C113) | induction over the points added; the assignment's optimality | Calc/LearnPlan.lean | `Calc.LearnPlan.learn_plan`, `Calc.LearnPlan.learn_unchanged`, `Calc.LearnPlan.learn_order`, `Calc.LearnPlan.learn_linear`, `Calc.LearnPlan.energies_fails`, `Calc.LearnPlan.lost_fails` | Real arithmetic; the smeared histogram is an arbitrary function. False in the code: lines given as energies, which the search accepts, are refused by the plan (energies_fails); an earlier plan is lost when a point is refused (lost_fails). |
| C167 | Plots of average pulses, filters and noise of many channels | partial | figures with current axes, curves (axes, label, colour, data) and legends | induction over the channels | Group/ChanPlots.lean | `Group.ChanPlots.average_plot`, `Group.ChanPlots.filters_plot`, `Group.ChanPlots.noise_plot`, `Group.ChanPlots.unknown_fails`, `Group.ChanPlots.axis_fails`, `Group.ChanPlots.legend_fails`, `Group.ChanPlots.noise_fails` | Figures as lists of curves and legends per axes. False in the code: unknown channel numbers give a KeyError (unknown_fails); axes that are not the current ones are ignored by two of the plots (axis_fails) and give an AttributeError with more than twelve channels (legend_fails); one channel without noise ends the plot of all (noise_fails). |
| C168 | The figure of an automatic calibration | partial | the whole method: places, outlines, texts, curves; on top of the model of the automatic calibration (C119) | arithmetic of the layout; positions in repeated lists; the points of a new calibration by C119 | Calc/Diagnose.lean | `Calc.Diag.panels_apart`, `Calc.Diag.side_minimal`, `Calc.Diag.panel_spec`, `Calc.Diag.diagnose_spec`, `Calc.Diag.diagnose_refused`, `Calc.Diag.labels_new`, `Calc.Diag.energies_fails`, `Calc.Diag.earlier_fails` | Exact arithmetic; what is handed to matplotlib. False in the code: lines given by energies, which the calibration accepts, give an exception (energies_fails); with a calibration that had points before, names are at wrong points (earlier_fails). |
| C169 | Plots of one quantity against another by state | partial | the three plots with reading by state, crafting of cuts (with leading !) and np.histogram2d on edges | pulses of a state by the theorems on state selection (C22, C116); negated cuts by cases on the text; total of counts by one bin per value in both directions | States/Scatter.lean | `States.Scatter.scatter_states`, `States.Scatter.every_pulse_once`, `States.Scatter.compare_states`, `States.Scatter.map_spec`, `States.Scatter.compare_bad_fails`, `States.Scatter.map_axis_fails`, `States.Scatter.function_bad_fails` | What is handed to matplotlib. False in the code: a comparison of drift corrections with bad pulses always raises (compare_bad_fails); axes given for a two-dimensional histogram are ignored (map_axis_fails); with a function as a cut bad pulses cannot be shown (function_bad_fails). |
| C170 | Progress reports | partial | InlineUpdater with a clock as any sequence of readings, show_progress around work as its fractions and end, and the fractions of summaries and of filtering | induction on the fractions; order of the field for estimates; the group by the theorem on fractions of group summaries (C147) | Group/Progress.lean | `Group.Progress.work_undisturbed`, `Group.Progress.reports`, `Group.Progress.estimate_steady`, `Group.Progress.summary_reports`, `Group.Progress.filter_over_fails`, `Group.Progress.filter_early_fails`, `Group.Progress.last_channel_fails`, `Group.Progress.no_updater_fails` | Numbers before rounding to what is printed. False in the code: filtering ends above 100% (filter_over_fails), and is said to be finished early and twice if the last segment has one pulse (filter_early_fails); a group whose last channel fails never finishes (last_channel_fails); a channel without group, or in a group from HDF5 files only, cannot be summarized or filtered for want of something to report to (no_updater_fails). |
| C171 | Figures of fits and histograms of OFF channels | partial | labels of fits as texts, plotHist with an arbitrary histogram, numbers of panels, resultPlot over outcomes of fits, np.interp on a curve, heights on a logarithmic scale | case analysis; induction over states and channels; the integer square root; convexity of interpolation; monotonicity of log and exp | Line/FitFigs.lean | `Line.Figs.labels_spec`, `Line.Figs.labels_plain`, `Line.Figs.fit_labels_cal`, `Line.Figs.states_shown`, `Line.Figs.curves_by_state`, `Line.Figs.curves_coadded`, `Line.Figs.diagnose_panels`, `Line.Figs.result_spec`, `Line.Figs.label_height`, `Line.Figs.log_heights`, `Line.Figs.energy_units_fails`, `Line.Figs.slice_label_fails`, `Line.Figs.one_label_fails`, `Line.Figs.tuple_fails`, `Line.Figs.diagnose_empty_fails`, `Line.Figs.result_axis_fails`, `Line.Figs.label_misses_fails`, `Line.Figs.label_axis_fails`, `Line.Figs.log_outside_fails` | What is handed to matplotlib; the format of numbers and the histograms are arbitrary functions. False in the code: energies are labelled arbs (energy_units_fails); fits of slices cannot be shown (slice_label_fails); one state is labelled letter by letter (one_label_fails); tuples of states are refused one by one (tuple_fails); no figure of a calibration without fits (diagnose_empty_fails); channel numbers are indices (result_axis_fails); labels miss narrow peaks (label_misses_fails) and go to the current axes (label_axis_fails), or outside on logarithmic scales (log_outside_fails). |
| C172 | The ready-made models of instruments | partial | the three instruments and the window as stacks of the films of C117, with xraydb as arbitrary densities, compositions and coefficients; the plot as its curves | a stack built from parts with different names has the product of their efficiencies (induction); each part by the theorems of C117; signs of exponents for bounds | Calc/Instruments.lean | `Calc.Instruments.lex_ht`, `Calc.Instruments.ebit_spec`, `Calc.Instruments.horton_spec`, `Calc.Instruments.instrument_range`, `Calc.Instruments.plot_spec`, `Calc.Instruments.raven_fails`, `Calc.Instruments.plot_axis_fails` | Nominal values; attenuation proportional to density. False in the code: filters with polymer of the RAVEN instrument have oxide of the thickness of the polymer and lack an element of the polymer (raven_fails); energies in eV are shown as keV (plot_axis_fails). |
| C173 | The autocorrelation of an array of noise records | partial | the loop over columns with the array it writes into, np.correlate as the sum of products (shared with C69) | induction on the columns; Cauchy-Schwarz by sums of squares for the bound; the square of a sum by induction for the vanishing weighted sum | Stat/AutocorrPulses.lean | `Stat.AutocorrPulses.autocorr_spec`, `Stat.AutocorrPulses.array_after`, `Stat.AutocorrPulses.baseline_irrelevant`, `Stat.AutocorrPulses.again_same`, `Stat.AutocorrPulses.scale_sq`, `Stat.AutocorrPulses.order_irrelevant`, `Stat.AutocorrPulses.parts_weighted`, `Stat.AutocorrPulses.lag_zero_largest`, `Stat.AutocorrPulses.weighted_sum_zero`, `Stat.AutocorrPulses.integers_refused`, `Stat.AutocorrPulses.nothing`, `Stat.AutocorrPulses.array_changed_fails` | Real arithmetic. False in the code: the means of records are removed in the caller's array (array_changed_fails). |
| C174 | Figures of spectral lines | partial | plot with its curves, limits and label as a structure; energies by default as in the code | components and density from C90; the integral of a Lorentzian by arctan and arctan(1/6) ≤ 1/6; induction over components | Line/LinePlot.lean | `Line.LinePlot.plot_spec`, `Line.LinePlot.plot_negative`, `Line.LinePlot.plot_short`, `Line.LinePlot.ylim_contains`, `Line.LinePlot.default_window`, `Line.LinePlot.window_share`, `Line.LinePlot.like_reference`, `Line.LinePlot.label_per_bin_fails` | Real arithmetic; scipy's wofz as documented for ylim_contains. False in the code: the label says counts per bin, the curve is the density per eV (label_per_bin_fails). The share of the intensity in the window is proved for ideal resolution only. |
| C175 | What a converted record says of its pulse | proved | the matrix expressions of a segment and the fields of one of its records; the straight line by the normal equations | residuals orthogonal to constants and to the index; sums of squares | Ljh/OffRecord.lean, Ljh/Props.lean | `Ljh.OffRecord.resid_spec`, `Ljh.OffRecord.exact_pulse`, `Ljh.OffRecord.mean_between`, `Ljh.OffRecord.delta_of_ramp`, `Ljh.OffRecord.fit_best`, `Ljh.OffRecord.pulse_irrelevant`, `Ljh.off_record_local` | Rationals for floats; the fields hold 32-bit roundings of these values. np.polyfit as the solution of the normal equations. |
| C176 | Pulse heights one by one, in lists and in arrays | partial | numbers with NaN and infinite values, arguments of all shapes, whether the converter returns the caller's own object | case analysis on shapes, lists by map | Calc/Shapes.lean | `Calc.Shapes.array_spec`, `Calc.Shapes.scalar_spec`, `Calc.Shapes.pieces`, `Calc.Shapes.default_spec`, `Calc.Shapes.energy2ph_spec`, `Calc.Shapes.scalar_differs_fails`, `Calc.Shapes.default_changes_fails`, `Calc.Shapes.dimensions_fails` | The curve is any function. False in the code: an energy that is not finite is given as it is for a scalar and as 0 in an array; a calibration without points sets such entries of the caller's array to 0 and refuses a list with one; arrays of two dimensions are refused by ph2energy. |
| C177 | Merging the files of a channel from the command line | partial | the loop of the script over the model of files with links, glob as any function | induction over the files with the invariant that the output is whole and holds the records so far | Ljh/Merge.lean | `Ljh.Merge.merge_spec_partial`, `Ljh.Merge.merge_wrong_channel`, `Ljh.Merge.merge_again`, `Ljh.Merge.merge_frame`, `Ljh.Merge.expand_spec`, `Ljh.Merge.outPath_channum`, `Ljh.Merge.main_spec_partial`, `Ljh.Merge.main_no_match_fails`, `Ljh.Merge.merge_again_fails`, `Ljh.Merge.merge_lengths_fails`, `Ljh.Merge.merge_old_version_fails`, `Ljh.Merge.merge_incomplete_fails` | Proved when the first file is of version 2.2 and ends with a whole record, and all records have the same length. False in the code: nothing of that is checked, and the records are misread; run again with --force and the same pattern, the output is merged too and every record is there twice; a pattern without a match ends in a TypeError. |
| C178 | Truncating the files of all channels from the command line | partial | the search for the channel in a name, the loop over the files | induction over the files: each step changes the output only | Ljh/TruncScript.lean | `Ljh.TruncScript.search_spec`, `Ljh.TruncScript.outName_inj`, `Ljh.TruncScript.loop_spec_partial`, `Ljh.TruncScript.loop_frame`, `Ljh.TruncScript.main_spec_partial`, `Ljh.TruncScript.loop_short`, `Ljh.TruncScript.short_channel_fails`, `Ljh.TruncScript.wildcard_fails`, `Ljh.TruncScript.directory_fails`, `Ljh.TruncScript.no_match_fails` | Proved when every file has enough records. False in the code: a channel with fewer ends the script with IndexError, and the channels after it are not truncated; a basename with wildcards or a directory named like a file makes outputs overwrite each other; no file found is a TypeError. |
| C179 | Lowpass filtering of traces | partial | the transforms of numpy as sums over roots of unity, the list of frequencies entry by entry, the mask | orthogonality of the roots of unity, symmetry of the spectrum of real data, Parseval's identity | Lin/Lowpass.lean | `Lin.Lowpass.lowpass_spec_partial`, `Lin.Lowpass.lowpass_idem`, `Lin.Lowpass.lowpass_passes`, `Lin.Lowpass.lowpass_linear`, `Lin.Lowpass.lowpass_energy`, `Lin.Lowpass.lowpass_odd_fails` | Proved for an even number of samples. False in the code for every odd number: IndexError. |
| C180 | Recipes as attributes of channels, and recipe books in files | partial | the names that the classes and channels have, the properties added to the classes of a process, channels with their books, files, and steps of opening, adding, saving, loading and restarting; dill as something that finishes or does not | invariants over all sequences of steps; witnesses for the names that clash | Recipe/Attrs.lean | `Recipe.Attrs.attribute_is_recipe_partial`, `Recipe.Attrs.attribute_after_add`, `Recipe.Attrs.others_keep`, `Recipe.Attrs.saved_is_loaded`, `Recipe.Attrs.save_and_load_refuse`, `Recipe.Attrs.loaded_recipe_fails`, `Recipe.Attrs.method_name_fails`, `Recipe.Attrs.hidden_attribute_fails`, `Recipe.Attrs.hidden_file_fails`, `Recipe.Attrs.overwrite_stops_fails` | Proved for names that channels do not use themselves. False in the code for recipes loaded in a new process (no attribute), for names of methods, for names of attributes of channels (hidden in all channels; no channel can be opened any more), and for saving over a book when it does not finish (both lost). |
| C181 | Analyses that are interrupted and run again | partial | each step as a test whether it is done and a list of writes to the data sets of the channel; an interruption keeps a prefix of the writes; the computations are arbitrary functions of the data sets; the stored phase corrector entry by entry | a step that does not look done writes everything anew (writes commute and absorb), later steps do not touch what earlier ones read or write, induction on the attempts | Algo/Resume.lean | `Algo.Resume.resumed_partial`, `Algo.Resume.safe_steps`, `Algo.Resume.safe_resumed`, `Algo.Resume.forced_repairs`, `Algo.Resume.summarize_complete`, `Algo.Resume.marks`, `Algo.Resume.phase_resumed`, `Algo.Resume.phase_complete`, `Algo.Resume.summarize_fails`, `Algo.Resume.noise_fails`, `Algo.Resume.white_fails`, `Algo.Resume.filter_fails`, `Algo.Resume.phase_same_session_fails`, `Algo.Resume.phase_unopenable_fails`, `Algo.Resume.phase_truncated_fails` | Proved for interruptions between steps, anywhere in the average pulse, drift correction, phase_correct2014 and time drift correction, and in the other steps before they look done; and for repair by forceNew. False in the code for the summary, the noise, the filtering and phase_correct once they look done: the rest is never computed, and a half-stored phase corrector keeps the channel from opening or is loaded without its last corrections. |
| C182 | Names of cut fields as they are stored and shown | partial | the calls of the cut model once more on stored byte strings: UTF-8, cut off at 64 bytes, trailing NULs ignored in comparisons, decoding where the code decodes; the two tables line by line | a simulation: every call on the image of a state gives the image of the result, by the injectivity of UTF-8; the tables by counting characters; the long names by computing, and for all states by comparing lengths | Cut/Stored.lean | `Cut.Stored.run_img`, `Cut.Stored.history_img`, `Cut.Stored.table_shows`, `Cut.Stored.categories_shown`, `Cut.Stored.long_name_fails`, `Cut.Stored.exhausted_fails`, `Cut.Stored.same_beginning_fails`, `Cut.Stored.split_letter_fails`, `Cut.Stored.long_category_fails`, `Cut.Stored.empty_table_fails` | Proved for all names of at most 64 bytes of UTF-8 that do not end in a NUL: every history behaves as with the names themselves, so C01 to C08 hold of the stored state. False in the code for longer names: they can be registered again and again until the bits run out, are not found, fall together, or make every question by name raise. The tables are proved where they are printed; they cannot be printed without categorical fields. |
| C183 | Files of version 2.1 read back | partial | the record type, the time stamps and the properties computed of them, on the bytes of the file | encoding and decoding of little-endian words, a file cut anywhere is a whole number of records and a rest, floor division | Ljh/Old.lean | `Ljh.Old.old_records`, `Ljh.Old.old_crash`, `Ljh.Old.old_in_order`, `Ljh.Old.open_missing`, `Ljh.Old.no_divisions_fails`, `Ljh.Old.short_frames_fails` | Proved for every file with a nonzero number of subframe divisions and a frame of at least 1 ns, in exact arithmetic (the code multiplies floats). False without: a header with 0 divisions is accepted and then no time can be read; frames of less than 1 ns are counted as none. |
| C184 | Comparing an aligned channel with its reference | partial | the histograms, cumulative sums and marks of the figures | cumulative sums of a histogram count the values up to an edge; largest element of a list | Calc/Agree.lean | `Calc.Agree.ks_spec`, `Calc.Agree.ks_nan`, `Calc.Agree.ks_symm`, `Calc.Agree.hist_perm`, `Calc.Agree.ks_extreme`, `Calc.Agree.figure_spec`, `Calc.Agree.cal_figure`, `Calc.Agree.cal_figure_missing`, `Calc.Agree.statistics_fails`, `Calc.Agree.stale_fails`, `Calc.Agree.mark_below_fails` | The formula of the statistic is as stated, and the figures for bins of peaks within the range. False: the statistic (and the cross entropy) are never given, since they read an attribute nothing sets (statistics_fails); the figure of an earlier alignment shows units of the later one (stale_fails); a peak below the bins is marked at the far end (mark_below_fails). Numbers exact, values not NaN. |
| C185 | The parameters written on the figure of a fit | partial | the number of figures, the rounding of the formats and the lines of the report | powers of ten around a number (Int.log, Int.clog), rounding to a multiple of a unit; the sorted list is a permutation | Line/Report.lean | `Line.Report.within_half`, `Line.Report.no_more`, `Line.Report.two_figures`, `Line.Report.exact`, `Line.Report.report_partial`, `Line.Report.label_inj`, `Line.Report.zero_fails` | Proved for all results where no varied parameter with an uncertainty is exactly 0, and no uncertainty is 0. Otherwise there is no report and the figure ends with an error (zero_fails). The formats are modelled by the number they write, logarithms and values are exact; NaN and infinite values are left out. |
| C186 | The emission lines that come with the package | partial | all calls of addline as a table of exact numbers; the registration of names; the line of C90 made of each entry; plot_all_spectra | the conditions of C90 are evaluated by the kernel on the whole table, then C90 gives the density at every resolution; without resolution the density is a rational function, compared at the centers by the kernel | Line/BuiltinThm.lean | `Line.Builtin.loaded`, `Line.Builtin.name_unique`, `Line.Builtin.builtin_density`, `Line.Builtin.nominal_partial`, `Line.Builtin.pr_fails`, `Line.Builtin.gd_fails`, `Line.Builtin.al_fails`, `Line.Builtin.plot_all_fails`, `Line.Builtin.old_name_fails` | The table (Verif/Line/Builtin.lean) is copied from the source by tools/gen_builtin.py, with exact decimals. Names and densities are proved for all lines. The nominal peak is proved for the lines without heights of Voigt profiles (three lines are such) except PrKAlpha, GdKBeta and AlKAlpha_metal_v1992, where it is false (pr_fails, gd_fails, al_fails). plot_all_spectra never draws (plot_all_fails). |
| C187 | What a noise file keeps and shows | partial | the methods of NoiseRecords that compute, store and draw, as functions of the state of the HDF5 group, on top of the values of C69 and C74 | case analysis over the outcome of the computing and of each store; the lengths follow from the checks of h5py | Stat/NoiseFile.lean | `Stat.NoiseFile.ac_stored`, `Stat.NoiseFile.separate_stored`, `Stat.NoiseFile.again_same`, `Stat.NoiseFile.sizes_kept`, `Stat.NoiseFile.psd_stored`, `Stat.NoiseFile.plot_spec`, `Stat.NoiseFile.psd_plot_spec`, `Stat.NoiseFile.default_fails`, `Stat.NoiseFile.lags_fails`, `Stat.NoiseFile.first_plot_fails`, `Stat.NoiseFile.no_group_fails`, `Stat.NoiseFile.resegment_fails` | Proved for as many lags as samples in a record, for the spectrum of separate records of even length, and for the figures of what was computed. False for the default number of lags and any other number, for files without an HDF5 group (compute_noise_nlags never works), for other segment lengths, and for the first figure of the autocorrelation. That h5py refuses a dataset of shape (None,) is assumed; the kind of error plays no part. |
| C188 | The x-ray energies that come with the package are read completely and make sense | partial | the rows of the two data files as generated literals (tools/gen_xray.py), their texts by columns, the loading of C142 and the names of C149 applied to them | a lemma for all rows that fit their columns, and evaluation in the kernel over the whole table; then the theorems of C142 and C149 | Line/XrayFile.lean | `Line.XrayData.parse_text`, `Line.XrayData.loaded`, `Line.XrayData.sensible`, `Line.XrayData.builtin_near_partial`, `Line.XrayData.isotope_fails`, `Line.XrayData.two_energies_fails`, `Line.XrayData.nb_fails` | Proved: the reading, the sizes and the orders, and that the line shapes and energies of one name agree within 0.405 eV. False: that every row is found by a name (isotopes share one, the later replaces the earlier), that the energies of a name agree within the uncertainty (MnKBeta), and that each line shape has an energy (NbKBeta24). The rows are copied from the files by tools/gen_xray.py; float() is modelled for plain decimal numbers with exact values. |
| C189 | The lines of highly charged ions that are written down in the package | partial | the calls of the module as generated literals (tools/gen_ions.py) and the model of addline of C186 | evaluation in the kernel over the whole table, the theorems of C90 and C186 for the densities, and a general argument on names for all data bases of levels | Line/IonLines.lean | `Line.Ions.ions_loaded`, `Line.Ions.ions_density`, `Line.Ions.h_like_partial`, `Line.Ions.other_peak`, `Line.Ions.series`, `Line.Ions.names_apart`, `Line.Ions.four_p_fails`, `Line.Ions.oxygen_fails` | False for one doublet, whose amplitudes are exchanged (O H-Like 4p), and for one transition of oxygen, which has two energies. The calls are copied from the file by tools/gen_ions.py, with exact numbers. |
| C190 | Which lines of a fluorescence target interfere | partial | the lists of peaks, the search for neighbours, the target and the average as functions of the result of fisx, which is arbitrary; np.argsort as any sorting permutation | membership in filters and sorted lists; that some neighbours differ if the ends of a stretch do, by induction along the stretch | Line/Target.lean | `Line.Target.listed`, `Line.Target.interferences_partial`, `Line.Target.no_line`, `Line.Target.target_shares`, `Line.Target.average_between`, `Line.Target.sortQ_ok`, `Line.Target.print_fails`, `Line.Target.equal_fails`, `Line.Target.between_fails`, `Line.Target.both_fails` | Proved for lines of different energies, pairs without a strong line between them, and different elements in the target. False: pairs of equal energy and pairs with another line between are not reported, the printing ignores the distance, and an element given twice loses a share. The rates come from the package fisx and are arbitrary in the model. |
| C191 | What the figures of x-ray lines show | partial | the panels with their titles, labels and points and the curves with their atomic numbers and energies, on the model of the data base of C142 and the shipped data of C188 | invariant of the loop that puts each line into its panel; names determine element and transition by counting blanks; the shipped data by evaluation in the kernel | Line/XrayFig.lean | `Line.XrayFig.keyed`, `Line.XrayFig.uncertainties_partial`, `Line.XrayFig.energies`, `Line.XrayFig.ticks_ok`, `Line.XrayFig.in_view`, `Line.XrayFig.hidden_fails`, `Line.XrayFig.title_fails`, `Line.XrayFig.missing_fails`, `Line.XrayFig.empty_fails` | Proved: which line is drawn where, in both figures, for every data base that was read. False: lines above 30 keV or with more than 10 eV uncertainty are outside the axes, the Kbeta_3 lines have a title but no panel, the Lgamma_1 panel is titled as a K line, and five curves have no points. The drawing itself is not modelled. |
| C192 | Count rates of all channels together | partial | plot_count_rate on the model of count_rate of C132 for a list of channels: edges from the first channel, rows, sums over channels, averages; exact arithmetic | each row by the lemmas on histograms of C132; sums and averages by induction over the channels; when there are two edges by the ceiling in np.arange | Algo/ArrayRate.lean | `Algo.ArrayRate.figure`, `Algo.ArrayRate.figure_iff_partial`, `Algo.ArrayRate.good_below`, `Algo.ArrayRate.lost_fails`, `Algo.ArrayRate.others_fails`, `Algo.ArrayRate.short_fails` | Proved: what each rate, sum and average is for the bins used, and exactly when there is a figure. False: the bins are those of the first good channel and end before its latest pulse, so pulses of other channels before and after are not counted, the latest pulse never is, and a short run of the first channel raises an IndexError for all. |
| C193 | Making a group keeps the results on disk | partial | the disk as a function from paths to files, with open and locked paths; h5py.File in modes a and w; the two openings of TESGroup.__init__ with the second try after an OSError | case analysis of what each opening does, for any disk; composition of the two | Group/HdfFiles.lean | `Group.HdfFiles.kept_partial`, `Group.HdfFiles.made`, `Group.HdfFiles.again`, `Group.HdfFiles.made_iff`, `Group.HdfFiles.clobber_fails`, `Group.HdfFiles.overwrite_fails` | Proved for HDF5 files at any path and all other files except one at the path for the noise. False: a file there that is no HDF5 file (for example a data file given by mistake) is replaced by an empty one, and overwriting empties the file for the pulses even if the call then fails. h5py.File is modelled by what it does to files (modes a and w). |
| C194 | The default bin size of fits | partial | the defaults of a group and its channels, the marks and the flag for bad channels as a state; the calls as steps | invariant over histories: the state is the last size set | Group/BinSize.lean | `Group.BinSize.channel_size`, `Group.BinSize.group_size`, `Group.BinSize.set_for_all_partial`, `Group.BinSize.block_fails` | Proved: which size is used after any history. False: setting the size of the group within a block that includes bad channels ends the inclusion. |
| C195 | What the figures of a pulse model show | partial | plot as a function from the matrices of the model and the training pulses to the curves, labels and picture; the label of a curve is the one at its place in the legend; the value 1e-20 is any positive number | matrix identities from duality; signs of flipped components cancel in products; positions in reversed lists | Lin/ModelFig.lean | `Lin.ModelFig.curves_partial`, `Lin.ModelFig.residual_spec`, `Lin.ModelFig.wrong_spec`, `Lin.ModelFig.inverted`, `Lin.ModelFig.label_fails`, `Lin.ModelFig.legend_fails` | Proved for at least three components, in exact arithmetic. False: the first component from the 5-lag filters is labelled as an SVD component, and with fewer than ten pulses the legends have entries without a curve. |
| C196 | What hdf5print shows of a file | partial | a file as a tree of links, data sets and groups; printing as mutually recursive functions giving lines and perhaps an exception; whether attributes have iteritems is a parameter; texts of shapes, types and values are given | induction over trees and lists of children; membership of lines equivalent to a relation saying which objects are to be shown; order by an explicit choice of children | Names/HdfPrint.lean | `Names.HdfPrint.file_lines_partial`, `Names.HdfPrint.file_order`, `Names.HdfPrint.chosen_spec`, `Names.HdfPrint.kept_iff`, `Names.HdfPrint.put_none`, `Names.HdfPrint.put_mem`, `Names.HdfPrint.main_files`, `Names.HdfPrint.main_stops`, `Names.HdfPrint.contents_fails`, `Names.HdfPrint.usage_fails`, `Names.HdfPrint.scalar_fails`, `Names.HdfPrint.empty_fails`, `Names.HdfPrint.maxchan_fails` | Proved for an h5py whose attributes have iteritems (that of Python 2), without scalar data sets. False: under Python 3 only the name of the first file is printed before an AttributeError; the documented call with a file name raises; scalar data sets raise; empty objects lose their names; maxchan holds for the first level only. |
| C197 | What the figures of noise spectra from several segment lengths show | partial | a spectrum as half length, sample time and values; the loop over spectra with its starting frequency as a recursive function giving the points of each curve; the square root is a given function | induction over the list of spectra with the starting frequency general; the least curve whose upper end is above a frequency; ordered field arithmetic | Stat/SpectraFig.lean | `Stat.SpectraFig.curve_spec`, `Stat.SpectraFig.covers`, `Stat.SpectraFig.at_most_two`, `Stat.SpectraFig.plot_spec`, `Stat.SpectraFig.plot_scaled`, `Stat.SpectraFig.overlap_fails`, `Stat.SpectraFig.twice_fails`, `Stat.SpectraFig.coarse_fails`, `Stat.SpectraFig.label_fails` | Proved in exact arithmetic: points, ranges, coverage, at most two curves for a frequency. False: neighbouring curves overlap, so frequencies are shown twice and from two and a half steps on; the names power and amplitude on the axis of a single spectrum are exchanged. |
| C198 | Inverted data are read as the channel says, after any history | partial | file objects with a setting each, channels with their own setting and perhaps a file object; making groups, setting, copying and assigning records as functions on these; records as lists of 16-bit words | invariant: every channel agrees with its file object and no two share one, kept by setting and by making groups; the setting after a list of settings is the last one for the channel | Ljh/Inverted.lean | `Ljh.Inverted.history_partial`, `Ljh.Inverted.any_history_partial`, `Ljh.Inverted.good_reads`, `Ljh.Inverted.sets_good`, `Ljh.Inverted.sets_get`, `Ljh.Inverted.made_good`, `Ljh.Inverted.seen_spec`, `Ljh.Inverted.peak_trough`, `Ljh.Inverted.copy_fails`, `Ljh.Inverted.early_fails` | Proved for channels of groups and any settings of any channels. False: a copy shares the file object, so setting the copy changes what the original gives while its own setting stays; a channel made inverted before it has its records gives raw data. |
| C199 | Labels of channels and groups | partial | the three properties as functions on file names, with the file name functions of C09; what :g gives from a million on is any text | splitting at the last slash; the round trip of C09; decimal digits determine the number | Names/Labels.lean | `Names.Labels.chan_label`, `Names.Labels.chan_says`, `Names.Labels.chan_distinct_partial`, `Names.Labels.group_label`, `Names.Labels.off_label`, `Names.Labels.off_again`, `Names.Labels.folder_fails`, `Names.Labels.off_reads_fails`, `Names.Labels.isdir_fails` | Proved for files named run_chan<n> with an extension, channel numbers below a million. False: files of the same name in different folders have the same label; reading the label of an OFF group sets its channum; a folder named like the file changes the label of a group. |
| C200 | Kept results and the polarity of the data | partial | a channel as its polarity, its summaries and its average pulse, with any functions for what is computed from the records as read (C198) | induction on the history from its end; the last setting made | Ljh/Polarity.lean | `Ljh.Polarity.one_reading`, `Ljh.Polarity.kept`, `Ljh.Polarity.fresh_partial`, `Ljh.Polarity.run_inv`, `Ljh.Polarity.pulse_kept`, `Ljh.Polarity.pulse_new`, `Ljh.Polarity.stale_fails` | Proved that summaries come from one call and one polarity, and that those asked for with forceNew belong to the data as read now if the polarity was not set differently since. False: after a change of polarity summarize_data() keeps the summaries of the old one. |
| C201 | The filter asked for is the filter applied | partial | compute_filters for one channel on the model of C121; the start of filter_data up to the choice of the way of filtering; the loop over channels is that of C27 | cases of a call; induction on the history | Lin/FilterUse.lean | `Lin.File.ask_cases`, `Lin.File.asked_used`, `Lin.File.fits_history`, `Lin.File.unknown_kind`, `Lin.File.other_kind_fails`, `Lin.File.nan_used_fails`, `Lin.File.filtered_history`, `Lin.File.filtered_new`, `Lin.File.filtered_stale_fails` | Proved for filters without NaN. False: asking for the other kind without forceNew keeps the old kind in use without an exception; an arrival-time-safe filter with NaN replaces a five-lag one in memory and is then applied in the five-lag way; after a new filter filter_data() keeps the values of the old one unless forced. |
| C202 | Lines and fitters by name in the module | partial | the registration at the end of addline on dictionaries as functions of names; a function that makes a fitter as the line it is for | induction on the history from its end; lengths of names and cancelling the suffix | Line/Registry.lean | `Line.Registry.add_spec`, `Line.Registry.history_partial`, `Line.Registry.first_stays`, `Line.Registry.fitter_model`, `Line.Registry.fitter_lost_fails`, `Line.Registry.same_name_fails`, `Line.Registry.ambiguous_fails` | Proved for names that do not end in Fitter. False: a line with such a name replaces the fitter of another one; different elements and types can give the same name; models of a line in different materials have the same name. |
| C203 | Arithmetic with models | partial | models as trees with an operator at each node; evaluation, parameter names and the choice of the class as in lmfit | induction on the expression | Line/Sums.lean | `Line.Sums.build_spec`, `Line.Sums.build_iff`, `Line.Sums.likelihood_partial`, `Line.Sums.order_fails` | Composite models of lmfit are modelled after its documentation. Maximum likelihood is proved for expressions whose first model is of this package. False: with a model of lmfit itself first the fit is an ordinary one. |
| C204 | Figures of histograms | partial | an axis as its curves and texts, plot_hist on top of the histograms of C57, calls one after another | induction on the edges and on the sequence of calls | Stat/HistFig.lean | `Stat.HistFig.drawn`, `Stat.HistFig.returns_iff`, `Stat.HistFig.kept`, `Stat.HistFig.all_drawn`, `Stat.HistFig.label_partial`, `Stat.HistFig.linefit_label_partial`, `Stat.HistFig.label_fails`, `Stat.HistFig.unchanged_fails`, `Stat.HistFig.linefit_label_fails` | Printing with a fixed number of decimals and the marks of known lines are not modelled. False: the text gives the width of the first bin only; with one edge IndexError comes after an empty curve is drawn; a line fit with edges given writes the default width. |
| C205 | Records of OFF files as curves | partial | an opened file as its basis, projectors, frame period and records; recordXY and the functions under it | list arithmetic; exchange of two finite sums for the projection | Algo/OffRecord.lean | `Algo.OffRecord.index_iff`, `Algo.OffRecord.which`, `Algo.OffRecord.times`, `Algo.OffRecord.times_increase`, `Algo.OffRecord.pulse`, `Algo.OffRecord.projected`, `Algo.OffRecord.curve_partial`, `Algo.OffRecord.curve_fails` | Exact arithmetic. False: times and pulse are equally many only for records as long as the basis, which nothing checks. |

## Disagreements

Statements one would expect, refuted for the unchanged code by a concrete witness that the kernel checks. Each line gives the
theorem and its comment.

* `lost_fails` (Algo/ArrayRate.lean): Disagreement (C192): the figure does not count all pulses. The latest pulse of the first channel is in no bin, so that the average rate of that channel over the time of the bins is always less than all its pulses over that time.
* `others_fails` (Algo/ArrayRate.lean): Disagreement (C192): the bins are those of the first channel. Another channel's pulses before or after are not counted: of the seven pulses of the second channel of this example only one is.
* `short_fails` (Algo/ArrayRate.lean): Disagreement (C192): a first channel with a short run hides the others: there is an IndexError although the second channel has a long one.
* `nearest_single_fails` (Algo/Arrivals.lean): C30 is false with one trigger: the delay until a later trigger is reported as 0, and a trigger at the pulse's own time is not seen.
* `nearest_no_pulses_fails` (Algo/Arrivals.lean): With no pulses the function returns one array, not two.
* `versions_tie_fails` (Algo/Arrivals.lean): The two versions differ when a pulse coincides with a trigger.
* `python_no_triggers_fails` (Algo/Arrivals.lean): The binary-search version raises when there are no triggers.
* `last_pulse_fails` (Algo/CountRate.lean): Disagreement (C132): the last pulse is never counted (nor any other after the last edge): the rates add up to fewer than all pulses, and up to one whole bin of the run is left out.
* `short_run_fails` (Algo/CountRate.lean): Disagreement (C132): a run that is not longer than one bin raises an IndexError.
* `uneven_fails` (Algo/CountRate.lean): Disagreement (C132): with edges of different distances all rates and centres are made with the width of the first bin.
* `order_fails` (Algo/CountRate.lean): Disagreement (C132): pulses not in order of time: those before the first one in the file are not counted, and if the last one is the earliest there are no bins.
* `high_fails` (Algo/Fake.lean): Disagreement (C146): every level from 32768 to 65535, which a 16-bit unsigned record holds, is read as a negative number, 65536 too small.
* `noise_fails` (Algo/Fake.lean): Disagreement (C146): fake noise is rounded to the nearest integer only above zero. Every value above -3/2 and up to 1/2 becomes 0, and every value below -3/2 is rounded up, by one half to three halves: the mean of the noise is too large.
* `times_fails` (Algo/Fake.lean): Disagreement (C146): the number of times is not checked against the number of records.
* `virtual_fails` (Algo/Fake.lean): Disagreement (C146): the classes that take a file name or a VirtualFile raise TypeError for every VirtualFile, and so does a group with one: the channel number is looked for in the name first. generate_microcal_dataset and generate_tesgroup therefore always raise (with one channel or more).
* `equal_fails` (Algo/Fake.lean): Disagreement (C146): without weights the distributions are said to be weighted equally; it raises instead (and generate_microcal_dataset never gives weights).
* `few_fails` (Algo/Fake.lean): Disagreement (C146): with fewer distributions than weights the pulses of the missing ones get no scale factor, and making the records raises IndexError.
* `presamples_fails` (Algo/Fake.lean): Disagreement (C146): the default number of presamples is a whole number only if the number of samples is a multiple of four.
* `peak_fails` (Algo/Fake.lean): Disagreement (C146): with rise and fall times equal, or with no sample after the trigger, scaling to a peak divides by zero.
* `ats_transform_fails` (Algo/FilterData.lean): Disagreement (C109): a transform with an arrival-time-safe filter that needs shifting (one sample shorter than the records) raises on every file of more than one segment: the pretrigger means of one segment are subtracted from the records of the whole file.
* `cython_transform_fails` (Algo/FilterData.lean): Disagreement (C109): with a five-lag filter the transform is ignored, unless Python is asked for.
* `interrupted_fails` (Algo/FilterData.lean): Disagreement (C109): after filtering was stopped midway (an interrupt, a crash), a further call takes the results of the first segments for complete ones and leaves the values of the other records 0.
* `stream_short_fails` (Algo/FiveLag.lean): Records of fewer than 8 samples: the one-pass version reads outside its arrays while the direct version works.
* `flux_small_jump_fails` (Algo/Flux.lean): C62 without the condition on the span is false: a single jump that, because of noise, spans a little less than a quantum is not corrected.
* `curve_fails` (Algo/OffRecord.lean): Disagreement (C205): a record whose number of samples is not that of the basis has a curve with more or fewer times than values, which cannot be drawn; the file opens without complaint, since only the header's matrices are compared with each other (mass/off/off.py L136-200).
* `fast_fails` (Algo/Prompt.lean): Disagreement (C160): pulses that usually peak less than four samples after the trigger have no promptness at all by the numpy summary (NaN), whatever the record.
* `prompt_fails` (Algo/Prompt.lean): Disagreement (C160): the two ways give different promptnesses for the same record if the usual position of the peak is not 14 or 15 samples after the trigger.
* `below_fails` (Algo/Prompt.lean): Disagreement (C160): by the numpy summary a record that stays below its pretrigger mean has a small negative promptness, as if it had a peak of about 65,000; by the other way it is 0.
* `summarize_fails` (Algo/Resume.lean): Disagreement (C181): if the summary is interrupted after its first segment, further calls take it for done: all later pulses keep the values they had (zeros), and the experiment states are never set. For every file of more than one segment whose first pulse has a pretrigger mean other than 0.
* `noise_fails` (Algo/Resume.lean): Disagreement (C181): if the noise computation is interrupted after its first write, the autocorrelation is there and further calls take it for done: the power spectrum and its frequency step are never stored.
* `white_fails` (Algo/Resume.lean): Disagreement (C181): the same for an assumed white noise of variance other than 0.
* `filter_fails` (Algo/Resume.lean): Disagreement (C181): if filtering is interrupted between its two writes, there are pulse heights, further calls take it for done, and the phases are never stored.
* `phase_same_session_fails` (Algo/Resume.lean): Disagreement (C181): interrupted right after the corrector was found and called again in the same session, phase_correct takes itself for done: the corrected values are never computed.
* `phase_unopenable_fails` (Algo/Resume.lean): Disagreement (C181): interrupted while the corrector is being stored, before its version is there, the channel cannot be opened any more: KeyError, for every corrector.
* `phase_truncated_fails` (Algo/Resume.lean): Disagreement (C181): interrupted later, between two corrections, the channel opens with a corrector that has only the first `m` corrections, without an error, and phase_correct takes itself for done. The stored values are those of the complete corrector.
* `two_samples_fails` (Algo/RiseTime.lean): Disagreement (C128): the code means the second of the two samples to be at least one after the first, but a pulse with exactly one sample between 10% and 90% (two samples to rise, say) gets the rise time zero.
* `one_sample_fails` (Algo/RiseTime.lean): Disagreement (C128): for a pulse rising within one sample, the rise time is zero if no other pulse of the batch peaks later, and otherwise 1 (one second, whatever the sampling time): the batches into which a file is divided change the result. (The difference of two relative heights is compared to the sampling time in seconds.)
* `batch_fails` (Algo/RiseTime.lean): Disagreement (C128), the same on whole batches: a step pulse alone, and next to a pulse that peaks later.
* `marker_fails` (Algo/RiseTime.lean): Disagreement (C128): the value that marks a failure (-9.9 microseconds) is only given when all pulses of the batch peak before the trigger; next to a good pulse, a record that peaks before the trigger gets a positive rise time; and a record with constant values gets NaN.
* `summarize_many_fails` (Algo/SummaryFile.lean): Segments of 65536 or more records (possible with the default segment size for records of at most 120 samples) do not work. With 70000 records: error.
* `summarize_same_fails` (Algo/SummaryFile.lean): With 65537 records: all get the summary of the first.
* `kernel_length_fails` (Algo/SummaryFile.lean): Kernels of another length are accepted by the plain version only.
* `short_record_fails` (Algo/SummaryFile.lean): Records shorter than seven samples: the plain version raises, the fast one reads behind the record.
* `numpy_fails` (Algo/SummaryFile.lean): They do not agree on the peak index if the greatest sample is before the trigger, on the peak value (rounded or cut off pretrigger mean; modulo 65536 if no sample after the trigger is above the mean), or on pulse average and rms (with or without the sample before the trigger).
* `postpeak_short_fails` (Algo/SummaryThm.lean): If the record ends six samples after the usual peak the derivative is the least 64-bit number.
* `peak_index_fails` (Algo/SummaryThm.lean): The peak is looked for in the whole record, not only after the trigger: the peak index of this record is 1, before the trigger at 4.
* `summary_zero_fails` (Algo/SummaryThm.lean): A record whose greatest sample is above the pretrigger mean but not above its rounded value ends the whole analysis with ZeroDivisionError.
* `summary_ignore_fails` (Algo/SummaryThm.lean): If as many or more samples are to be ignored as there are before the trigger, there is no mean (or one of the wrong samples).
* `prompt_short_fails` (Algo/SummaryThm.lean): The promptness of a short record divides the sum of fewer samples by six.
* `rise_negative_fails` (Algo/SummaryThm.lean): Otherwise the rise time can be negative.
* `lengths_fails` (Algo/TimeCorr.lean): C125. Disagreement (C125): any filter shorter than the records by an even number of samples is to do, but all except four fail with ValueError.
* `one_cluster_fails` (Algo/TimeCorr.lean): C125. Disagreement (C125): a single cluster is provided for in applying the correction, but making one always fails with ZeroDivisionError, in choosing the colors of a plot.
* `copy_fails` (Algo/TimeCorr.lean): C125. Disagreement (C125): `copy` never works: it always raises TypeError, since one argument more is needed (nPresamples is not given).
* `whole_numbers_fails` (Algo/TimeCorr.lean): C125. Disagreement (C125): for arrival times given as whole numbers the correction is cut off to a whole number as well, but only if there are several clusters: 0 instead of 3/4.
* `unixnano_fails` (Algo/Times.lean): Disagreement (C154): the nanoseconds in an OFF file made from an LJH file are not the record's microseconds times 1000, and dividing them by 1000 can give the microsecond before.
* `states_fails` (Algo/Times.lean): Disagreement (C154): a record at the very microsecond of a state-file entry can be given the state before it, as its time is rounded down.
* `usecSecs_fails` (Algo/Times.lean): Disagreement (C154): the same record has one time when read from an LJH file and another when its microseconds are read from an HDF5 file.
* `store_fails` (Algo/Times.lean): Disagreement (C154): two pulses with different values can have the same stored value, and a whole number above 2^24 is not kept.
* `calc_timing_fails` (Algo/Trigger.lean): Disagreement (C105): `calc_external_trigger_timing` asks a data set for the triggers, and only the group has them. Whatever the data sets, the files and earlier calls, it raises AttributeError and no delays are computed.
* `off_divisions_fails` (Algo/Trigger.lean): Disagreement (C105): an LJH file of an Abaco source counts 64 subframes per frame; the OFF file made from it by `ljh2off` records only the number of rows (here 1), which is then taken for the number of subframes. A trigger half a frame before the record in frame 10 is not found: the record counts as before all triggers.
* `off_key_fails` (Algo/Trigger.lean): Disagreement (C105): a number of subframes in the header of an OFF file is looked up under a misspelt name: `SubframeDivisions` is ignored. Under the misspelt name it is used for the counts, but the seconds still follow the number of rows: here 32 subframes of half a frame are called 32 frames.
* `off_empty_channel_fails` (Algo/Trigger.lean): Disagreement (C105): a channel without records stops the timing of the whole group: the call raises, and the channels after it get no delays.
* `statistics_fails` (Calc/Agree.lean): Disagreement (C184): the two numbers are never given. Both methods read an attribute of the aligner that nothing sets, so for every aligner that was made, whatever its peaks and bins, and whatever the channels hold, `_ksStatistic` and `_laplaceEntropy` end with an error; with readable values and two edges it is AttributeError.
* `stale_fails` (Calc/Agree.lean): Disagreement (C184): after a second alignment the second figure of the first aligner, which can still be asked for, names its own reference channel on the axis, but shows the values in units of the other reference. Here all pulses fall into the marked bin by the first alignment, and out of it by the second.
* `mark_below_fails` (Calc/Agree.lean): Disagreement (C184): a peak that was found one bin below the first (see C115) is marked at the last bin.
* `below_fails` (Calc/Align.lean): Disagreement (C115): a peak of b below the first bin is not refused: its index is negative and counts from the end, so that the peak is put into the last bin. Here b has 0.8 of the gain of a: the peak at 1150 in a is at 920 in b, but the calibration has it at 1350.
* `same_partner_fails` (Calc/Align.lean): Disagreement (C115): two peaks of the reference can have the same partner; the calibration then has two points at one position.
* `plateau_fails` (Calc/Autocal.lean): Disagreement (C119): a peak whose two highest samples are equal is not found
* `excl_fails` (Calc/Autocal.lean): Disagreement (C119): lines to be kept out of the fit ranges can be given, but they are ignored
* `found_fails` (Calc/Autocal.lean): Disagreement (C119): after a calibration was found the energies may still be those of another: calibrating by a first attribute, converting by a second one and asking for the first again leaves the energies of the second
* `bins_fails` (Calc/Autocal.lean): Disagreement (C119): bin sizes given one for each line are not sorted along with the lines: here the line at 200 was to have bins of 5
* `bars_linear_fails` (Calc/CalPlot.lean): Disagreement (C165): in a plot of energies the vertical error bar of a point is not the uncertainty of its energy. A point whose energy is known exactly gets the relative uncertainty of the pulse height, which is already shown by the horizontal bar.
* `log_gain_fails` (Calc/CalPlot.lean): Disagreement (C165): for the logarithm of the gain the error bars are relative errors multiplied with the logarithm. With a gain below 1 (fewer pulse-height units than eV) they come out negative, and the plot fails with a ValueError.
* `log_gain_label_fails` (Calc/CalPlot.lean): Disagreement (C165): the axis of that plot is labelled log(eV/PH), but the logarithm of PH/eV is shown, which has the opposite sign.
* `bars_power_fails` (Calc/CalPlot.lean): Disagreement (C165): energies divided by another power of the pulse height than the first get error bars as if it were the first: for power `p` the pulse height counts with its relative uncertainty, not with `p` times it.
* `one_point_fails` (Calc/CalPlot.lean): Disagreement (C165): with a single calibration point nothing can be seen in a plot with the slope removed (0/0).
* `stale_drift_fails` (Calc/Chain.lean): C123. Disagreement (C123): after the data were filtered anew (with another filter, forceNew), `drift_correct` is skipped without an error and leaves the corrected values of the old filter.
* `stale_phase_fails` (Calc/Chain.lean): C123. Disagreement (C123): the same for `phase_correct` after a forced drift correction: the phase-corrected values remain those of the drift correction before.
* `other_quantity_fails` (Calc/Chain.lean): C123. Disagreement (C123): a drift correction of another quantity is skipped if there is one already: `p_filt_value_dc` is then not what was asked for.
* `calibrate_again_fails` (Calc/Chain.lean): C123. Disagreement (C123): `calibrate` for a calibration that exists does not convert: after calibrating by `p_filt_value_phc`, then by `p_filt_value_dc`, then by `p_filt_value_phc` again, the energies are those of `p_filt_value_dc`.
* `same_name_fails` (Calc/Chain.lean): C123. Disagreement (C123): calibrations of different quantities can have the same name: `p_filt_value` with the extension "_dc" and `p_filt_value_dc`. The second is then never made, for all data.
* `failed_phase_fails` (Calc/Chain.lean): C123. Disagreement (C123): the corrector is kept before it is applied. If applying it raises, the channel has a corrector, and later calls are skipped without an error though there are no corrected values.
* `interrupted_drift_fails` (Calc/Chain.lean): C123. Disagreement (C123): a forced drift correction that is interrupted between its two writes leaves in the file a slope and a median that do not belong to the corrected values.
* `phase_corr_fails` (Calc/Chain.lean): C123. Disagreement (C123): `p_filt_phase_corr` is not the phase that the correction uses. The curve that gives the typical phase at a pulse height is evaluated at the phase: a pulse with phase 1/5 and height 10, at which the typical phase is 1/10, is corrected as phase 1/10, but 1/500 is stored.
* `save_load_fails` (Calc/Correct.lean): C70 is false as stated: overwriting a saved correction of two levels by one of one level and loading gives two levels, the second one being the old one.
* `nonlinearity_ignored_fails` (Calc/Curve.lean): C44 is false as stated, seen by a user: a one-point loglog calibration constructed with nonlinearity N gives the energy at twice the pulse height as 2^1.15 times the point's energy, whatever N was.
* `empty_fails` (Calc/Curve.lean): C67 is false as stated: a new loglog calibration with any nonlinearity but 1.15 (the default is 1.1) raises ValueError at first use, because the largest pulse height of no points is asked for.
* `gain_monotone_fails` (Calc/Curve.lean): C66 is false as stated for "gain" curves: the calibration points (1, 1), (2, 1.05), (3, 3) are monotone, hence accepted, but the gain through them is negative at 0 and at 30, so using the calibration raises ValueError.
* `energies_fails` (Calc/Diagnose.lean): Disagreement (C168): lines may be given by their energies, for which the text of the large panel even has a form, but then there is no figure: a number has no `replace`, and no model's name contains "Gaussian" any more.
* `earlier_fails` (Calc/Diagnose.lean): Disagreement (C168): if the calibration had points before, names are at the wrong points: the lines fitted are matched with the first points of the calibration. Here a calibration with the point (50, 500) is extended by the line "A" at (80, 800), whose name then is at (50, 500).
* `fill_default_fails` (Calc/EffUncert.lean): Disagreement (C164): the fill fraction of an aluminium film with oxide (or polymer) is 1 by default, with an uncertainty of 100 %, whereas a film added to a stack without a fill fraction has the fill fraction 1 exactly. So the uncertainty of an aluminium film that covers everything is at least the part of the beam it stops, however well its thickness is known.
* `oxide_exact_fails` (Calc/EffUncert.lean): Disagreement (C164): if the thickness of the aluminium is given with an uncertainty, the oxide has none at all, although its thickness is a guess (3 nm for each surface) that is taken to be uncertain by 100 % otherwise.
* `mixed_fails` (Calc/EffUncert.lean): Disagreement (C164): of an array only the first number is looked at. A list of thicknesses that begins with a float and has a number with uncertainty further on is refused with a TypeError; in the other order it is accepted.
* `layer_fails` (Calc/EffUncert.lean): Disagreement (C164): the thickness of one layer of oxide is one number, but each element of the oxide has it with an error of its own. For an oxide of two elements the uncertainty of the film comes out smaller than that of a layer uncertain by 100 %. (Shown for an aluminium thickness of zero and without the uncertainty of the fill fraction.)
* `one_thickness_fails` (Calc/Efficiency.lean): Disagreement (C117): one thickness for a film of several materials is accepted, but only the first material counts. (One areal density is taken for each material.)
* `same_name_fails` (Calc/Efficiency.lean): Disagreement (C117): a component with the name of another one silently takes its place, so that adding the same foil twice is adding it once.
* `film_add_fails` (Calc/Efficiency.lean): Disagreement (C117): films are stacks, and components can be added to them, but this does not change their efficiency.
* `int_fill_fails` (Calc/Efficiency.lean): Disagreement (C117): a fill fraction of 1 or 0 written as an int is refused.
* `polymer_fails` (Calc/Efficiency.lean): Disagreement (C117): for an aluminium film with polymer, the thickness of the oxide is given once although the oxide has two elements. So the second element of the oxide is taken to be as thick as the polymer, and the last element of the polymer is left out.
* `simplify_fails` (Calc/ExprDeriv.lean): C40 is false as stated: (x**2)**0.5 is simplified to x, so that at x = -2 it is -2 where the expression written has the value 2.
* `number_operand_fails` (Calc/ExprDeriv.lean): C40 is false for `f + 2`, `f - 2`, `f * 2` with the number on the right: the bare number is stored as an operand and the result can be evaluated nowhere (calling it raises TypeError), while `2 + f` works.
* `drop_one_few_fails` (Calc/Fresh.lean): C97, refuted for one point and for two: with one point nothing is left to calibrate with (ValueError); with two points and a curve type that cannot be made from one point (linear, linear+0, loggain) it raises too.
* `uncertainty_stale_fails` (Calc/Fresh.lean): C95, refuted for uncertainties with fewer than three points: after points are removed from an approximating calibration of three, `ph2uncertainty` gives the uncertainty of the former curve; a calibration that never had three raises AttributeError instead.
* `convert_changes_errors_fails` (Calc/Fresh.lean): C96, refuted for approximating curves and errors that are not positive: converting once replaces such an error for good, so that a point added afterwards leads to another curve than if nothing had been converted before.
* `no_points_fails` (Calc/Fresh.lean): C95: printing an object without points raises, and so does converting after a setting was changed.
* `negative_abscissa_fails` (Calc/GprSmooth.lean): C99. Negative abscissas (logarithms of pulse heights below 1, say) are another matter: if sigmaf² |x|³ / 3 is at least the square of the error there, there is no Cholesky factor and the constructor raises LinAlgError, although the smoothed curve would be well defined.
* `variance_scalar_fails` (Calc/GprSmooth.lean): C99. One number raises TypeError, although the code has a branch to return its variance.
* `raven_fails` (Calc/Instruments.lean): Disagreement (C172): in the RAVEN instrument the two filters with polymer have no part of the last element of the polymer, and of the second element of the oxide as if it were 206.4 nm thick.
* `plot_axis_fails` (Calc/Instruments.lean): Disagreement (C172): the energies, given in eV, are shown on an axis in keV.
* `ismonotonic_fails` (Calc/Invert.lean): Disagreement (C135): `ismonotonic` can be true for a curve which is not monotonic: the "linear" curve through the points above falls between pulse heights 500.2 and 500.21, between two of the 1001 samples.
* `new_fails` (Calc/Invert.lean): Disagreement (C135): energy2ph_exact of a new calibration is an AttributeError, although energy2ph and ph2energy are the identity; of more than 1024 energies it gives NaN for all of them.
* `slope_new_fails` (Calc/Invert.lean): Disagreement (C135): the slope of a new calibration is given as 0 at every energy, although its curve is the identity, of slope 1.
* `long_int_fails` (Calc/Invert.lean): Disagreement (C135): energy2ph_exact of more than 1024 integers is a TypeError, for any calibration, although the same for up to 1024 works.
* `long_fails` (Calc/Invert.lean): Disagreement (C135): energy2ph_exact of more than 1024 energies starts Newton's method at the energies and stops after five steps. For the "invgain" curve through (1, 1000) and (2, 4000), which is 1000 p² and increasing, it gives more than 31 for each energy 1000, whose pulse height is 1.
* `gain_top_fails` (Calc/Invert.lean): Disagreement (C135): the range searched for a gain curve can end below its highest calibration point, as it is cut at 99% of the zero of the gain: for points (99, 99) and (100, 250) the exact inverse of the energy 250 is a ValueError.
* `energies_fails` (Calc/LearnPlan.lean): Disagreement (C166): lines may be given as energies where peaks are assigned to them, but then there is no plan: an exception is raised (and the plan there was is lost, `lost_fails`).
* `lost_fails` (Calc/LearnPlan.lean): Disagreement (C166): if the plan cannot be made in the end, the one there was is lost, and part of the new one is left: here for a line given by its energy.
* `linterp_scale_fails` (Calc/Linterp.lean): Disagreement (C107): knots up to 1/1000 apart count as the same, however small the scale of the data. With knots 0, 1/2000 and 0, 1/1000 the mixture has the knots of the first spline, and at 1/2000 its value is neither the mixture of the values there (here 1/4) nor the mixture of the ordinates (1/2): it jumps.
* `empty_bin_fails` (Calc/PhaseAlign.lean): Disagreement (C150): by the method of 2015 a phase bin without pulses of the peak puts the curve at zero there: a pulse at the peak with that phase is corrected to twice its height.
* `ridge_low_fails` (Calc/PhaseAlign.lean): Disagreement (C150): by the method of 2015 a phase bin whose pulses are nearly the half width of the window below those of the others makes learning the correction raise (TypeError).
* `highest_dropped_fails` (Calc/PhaseLearn.lean): C124. Disagreement (C124): a peak near a lower candidate is never found: the code is to take peaks from highest to lowest, but it takes the lowest first, so that the shoulder of the highest peak is taken for the peak. (The lowest candidate with enough counts is always taken.)
* `forty_bins_fails` (Calc/PhaseLearn.lean): C124. Disagreement (C124): peaks 20 bins apart are both kept, though peaks are to be at least 40 bins apart.
* `no_peaks_fails` (Calc/PhaseLearn.lean): C124. Disagreement (C124): if no candidate has enough counts, the ValueError "no peaks found" is never raised; looking for peaks fails with IndexError.
* `same_phase_fails` (Calc/PhaseLearn.lean): C124. Disagreement (C124): if the pulses of a peak all have the same phase, no pulse is in a group, and every knot of the correction is NaN.
* `two_phases_fails` (Calc/PhaseLearn.lean): C124. Disagreement (C124): if the phases of a peak lie at two values only (as arrival times in whole samples do), a group between them is empty and its knot is NaN.
* `calibration_changed_fails` (Calc/PhaseLearn.lean): C124. Disagreement (C124): learning a phase correction directly after planning the points of the rough calibration, the higher line first, gives its pulse heights to the wrong energies: the calibration of (1100, 6403 eV) and (1000, 5898 eV) becomes that of (1000, 6403 eV) and (1100, 5898 eV).
* `stuck_fails` (Calc/Plan.lean): Disagreement (C113): a point that does not fit the others raises, but stays in the plan: after that every further point raises, and so does calibrating.
* `same_line_fails` (Calc/Plan.lean): Disagreement (C113): the same line planned in two states counts once: the calibration has only the position of the later fit.
* `energy_ignored_fails` (Calc/Plan.lean): Disagreement (C113): an energy given for a known name is ignored.
* `other_name_fails` (Calc/Plan.lean): Disagreement (C113): a point planned with an energy, or by the name of a standard feature, gets another name in the calibration: it cannot be looked up by the name given.
* `no_points_fails` (Calc/Plan.lean): Disagreement (C113): if no fit succeeds, a calibration without any points is installed all the same.
* `other_attr_fails` (Calc/Quality.lean): Disagreement (C114): values of any other attribute can never be fitted, though bin edges are given as the documentation demands.
* `unused_arguments_fails` (Calc/Quality.lean): Disagreement (C114): `require_errorbars` and `params_fixed` have no effect: a fit without error bars is returned all the same.
* `cut_ignored_fails` (Calc/Quality.lean): Disagreement (C114): the cut named for the check, the guess and the values to hold are not used: the fit is made with the default cut. A cut named gives a plot instead.
* `failed_fit_fails` (Calc/Quality.lean): Disagreement (C114): a fit that did not succeed does not mark the channel bad unless a tolerance is exceeded.
* `sigma_ignored_fails` (Calc/Quality.lean): Disagreement (C114): a threshold in sigmas alone is ignored, whatever the errors.
* `absolute_raises_fails` (Calc/Quality.lean): Disagreement (C114): an absolute threshold alone raises a TypeError, whatever the errors; in a group this marks every channel bad.
* `no_success_fails` (Calc/Quality.lean): Disagreement (C114): if no fit succeeds, the check of a group raises instead of returning the results, because of the plot, and nothing is written to the file.
* `no_errorbars_fails` (Calc/Quality.lean): Disagreement (C114): one good channel whose fit has no error bars stops the writing: the later channels are missing in the file and the results are lost.
* `scalar_differs_fails` (Calc/Shapes.lean): Disagreement (C176): a pulse height whose energy is not a finite number gives that value alone and 0 in an array.
* `default_changes_fails` (Calc/Shapes.lean): Disagreement (C176): a calibration without points changes the caller's array: every entry that is no finite number becomes 0; a list with such an entry is refused with a TypeError.
* `dimensions_fails` (Calc/Shapes.lean): Disagreement (C176): arrays of two dimensions with two or more columns, and arrays of none, are refused by ph2energy whatever they hold; energy2ph takes them.
* `straight_data_fails` (Calc/SmoothSpline.lean): Disagreement (C103): "When a (weighted) least squares fit of a line to the data meets the maxchisq constraint, then the actual chi-squared will be less than maxchisq": instead there is no spline at all, the constructor raises ValueError. With the default maxchisq this happens whenever the points lie on a line within their errors.
* `flat_end_fails` (Calc/SmoothSpline.lean): Disagreement (C103): some data give a curve that is horizontal at the first point with a value other than 0. Below the first point it is continued as a constant, but `der=1` returns that constant over the scale of x instead of 0 there.
* `derivative_fails` (Calc/SmoothSpline.lean): Disagreement (C104): `SmoothingSplineFunction.derivative()`: it fits the already scaled abscissas again, so unless their root mean square is 1 there are data for which, above the last point, the result is the derivative times that scale.
* `three_knots_fails` (Calc/SmoothSpline.lean): Disagreement (C104): with three knots the second basis function is corrected at the first knot only, so it is not natural at the last one; and `expand_coeff` corrects it at both, so the curve with coefficients (0, b, 0) does not take the value that `values_matrix` (hence chi-squared) says it has at the last knot.
* `log_derivative_fails` (Calc/SmoothSpline.lean): Disagreement (C104): SmoothingSplineLog with `der=1` returns the exponential of the derivative in logarithmic coordinates, which is positive even where the curve falls.
* `log_dx_fails` (Calc/SmoothSpline.lean): Disagreement (C104): SmoothingSplineLog divides the caller's array of x errors by x in place. Made again from the same arrays, the spline has other errors.
* `spline_der3_fails` (Calc/SplineDeriv.lean): C39 is false for der=3: the value is multiplied by the interval's width instead of divided. On the data of y = x³ at 0, 2, 4 with exact end slopes the third derivative is 6 everywhere inside, but 24 is returned.
* `all_rejected_fails` (Calc/StdDevCut.lean): Disagreement (C112): if there are fewer than five pulses, or none has a filtValue above the bin size, then the learned cut rejects every pulse there can be.
* `upper_half_fails` (Calc/StdDevCut.lean): Disagreement (C112): a pulse in the upper half of a bin is judged by the next bin, not its own: here the next bin is empty, and pulses with quite ordinary residuals are rejected, while the same residuals pass in the lower half.
* `single_fails` (Calc/StdDevCut.lean): Disagreement (C112): a bin with a single pulse is not left out: the pulse is compared with itself and rejected.
* `equal_fails` (Calc/StdDevCut.lean): Disagreement (C112): if all residuals of a bin are equal, all its pulses are rejected.
* `limit_fails` (Calc/StdDevCut.lean): Disagreement (C112): a lower limit above the middle of the second bin is not respected.
* `names_fails` (Calc/TableThm.lean): C41 is false as stated: giving a point under a new name within the energy error of another point changes that other point; the new name is not in the table and the old name has the new point's pulse height.
* `remove_energy_fails` (Calc/TableThm.lean): C42 is false as stated: with two matching points the second removal uses the old index, so that of the points at 100, 101, 5000 the call remove_cal_point_energy(100, 5) leaves 101 and removes 5000; and when the last point matches it raises IndexError after having removed one.
* `rejected_fails` (Calc/TableThm.lean): C43 is false as stated: the point is stored before the check, so a refused point (here a larger pulse height with a smaller energy) stays in the table.
* `constructor_nonlinearity_fails` (Calc/TableThm.lean): C44 is false as stated: whatever nonlinearity the constructor is given, the calibration has 1.15.
* `load_fails` (Calc/TableThm.lean): C44 is false as stated: a table that the calibration itself accepted (a point with a small error added within a large error of an existing one) loses a point when saved, in sorted order, and loaded.
* `coefficients_fails` (Calc/TimeDrift.lean): Disagreement (C110): when the correction found is rejected because it raises the entropy, the returned coefficients are still those of the rejected correction: they are not the coefficients of the returned model.
* `settings_fails` (Calc/TimeDrift.lean): Disagreement (C110): the method takes `sec_per_degree`, `pulses_per_degree` and `max_degrees` but does not use them: the stored values are those for 2000, 2000 and 20. With 4001 pulses in 4000 seconds these allow two degrees although one was asked for as the maximum.
* `uncertainty_loglog_fails` (Calc/Uncert.lean): C98, refuted for loglog curves: the spline's value is taken at the pulse height instead of its logarithm, and not exponentiated. With E = PH² and unit variance the uncertainty at PH = 1 comes out as twice what it is.
* `uncertainty_loggain_fails` (Calc/Uncert.lean): C98, refuted for loggain curves: the uncertainty is multiplied with the slope of the spline. If the gain is constant, it is zero however large the variance, though the energy does depend on the gain.
* `apply_force_fails` (Cut/Apply.lean): Disagreement (C101): the docstring says that without `forceNew` nothing is recomputed when cuts exist already, and the log says the cuts are skipped; they are applied nevertheless.
* `apply_again_fails` (Cut/Apply.lean): Disagreement (C101): applying the same cuts again may cut more: the second time the median is that of the pulses that survived the first time.
* `auto_deriv_fails` (Cut/AutoCuts.lean): Disagreement (C102): the limit of the derivative is to be `nsigma_max_deriv` normalised median deviations above the median of the noise records; it is the maximum derivative of the last noise record, whatever the others are and whatever `nsigma_max_deriv` is (the computation stands after the loop, not in it).
* `auto_no_noise_fails` (Cut/AutoCuts.lean): Disagreement (C102): without noise records `auto_cuts` raises UnboundLocalError, after it has cleared the cuts.
* `auto_reload_fails` (Cut/AutoCuts.lean): Disagreement (C102): only the upper limits are stored, so that after reopening the file the saved cuts no longer ask for positive peak and rise times: applied to the same pulses they mark fewer.
* `auto_model_fails` (Cut/AutoCuts.lean): Disagreement (C102): the median and sigma the pulse model needs are not stored: after reopening the file, or without `auto_cuts`, making one ends in AttributeError (the message that tells to use auto_cuts cannot appear).
* `auto_clear_reopen_fails` (Cut/AutoCuts.lean): Disagreement (C102): `clear_cuts` does not remove the stored cuts: when the file is opened again `auto_cuts` believes that its cuts exist and leaves all pulses good.
* `properties_no_meta_fails` (Cut/ParamProps.lean): Disagreement (C156): properties cannot be made for an object without meta data (`user_prm` is None, which is what the constructor sets): TypeError, and no property is made.
* `blank_property_fails` (Cut/ParamProps.lean): Disagreement (C156): the property of a parameter whose name has a blank raises KeyError when it is read, unless the dictionary has a parameter with an underscore there.
* `property_shared_fails` (Cut/ParamProps.lean): Disagreement (C156): of a name in two dictionaries `set` sets the first, the property reads the last.
* `flag_true_fails` (Cut/Params.lean): Disagreement (C156): a parameter checked against its value (`True`) is documented to accept None and, if it is a number, any number; the check `isinstance(value, (type, None))` raises for both, and the process ends.
* `flag_false_fails` (Cut/Params.lean): Disagreement (C156): `False` is documented to check like `True`; such a parameter can never be set: NameError says that it is not registered, or with `user_prm` a second one of its name is made there.
* `type_list_fails` (Cut/Params.lean): Disagreement (C156): types given in a list, which the check allows, end the process whatever the value; with a tuple, None ends it, though the message says "or None".
* `shared_name_fails` (Cut/Params.lean): Disagreement (C156): a name in two dictionaries makes the update from a namespace raise KeyError after the dictionaries are updated and the variable is deleted.
* `overwritten_variable_fails` (Cut/Params.lean): Disagreement (C156): making variables and updating from them loses a variable that existed before under the name.
* `usage_fails` (Cut/Params.lean): Disagreement (C156): `set()` without arguments is to print the names that can be set, and prints nothing.
* `cut_categorical_shadowed_fails` (Cut/PropsCat.lean): Disagreement (C05): if a boolean field has the same name as the categorical field, the categorical assignment goes to the boolean field (with the codes misread as pulse indices) and the categories are not stored: here every pulse was assigned category "b" yet all read as the default "a".
* `register_duplicate_names_fails` (Cut/PropsCat.lean): Disagreement (C06): a new name repeated within one call consumes two bits (the "already exists" test is made once, before the loop), so after `register_boolean_cut_fields("a","a")` the same name sits in two slots.
* `new_field_starts_good_fails` (Cut/PropsFresh.lean): Disagreement (C07): unregistering a field leaves its bits set in the pulse words, and the next registration recycles the bit, so a brand-new field starts with the old field's bad pulses.
* `new_category_starts_default_fails` (Cut/PropsFresh.lean): The same for a categorical field: new pulses should read as the default category.
* `cut_parameter_open_range_fails` (Cut/PropsFresh.lean): Disagreement (C08): in a sequence, a range with both limits None reuses the previous range's test instead of allowing everything: value 5 lies in (None, None) but is marked bad.
* `smart_force_fails` (Cut/Smart.lean): Disagreement (C133): computing the cuts anew with a larger threshold should cut the pulses beyond the new threshold; pulses cut before stay cut.
* `smart_again_fails` (Cut/Smart.lean): Disagreement (C133): cuts already computed should not be computed again unless asked for; cuts that found no outlier are. Here the second call cuts a pulse that the first left.
* `sanitize_again_fails` (Cut/Smart.lean): Disagreement (C133): after filtering anew the cut should be about the new phases; a pulse cut for its old phase stays cut.
* `sanitize_nan_fails` (Cut/Smart.lean): Disagreement (C133): a pulse whose phase is not a number should be cut; it is kept.
* `summary_counts_fails` (Cut/Smart.lean): Disagreement (C133): the second table should give for each field the number of pulses it cuts; its text is the same for every state with as many fields.
* `long_name_fails` (Cut/Stored.lean): Disagreement (C182): a name of more than 64 bytes can be registered, but is not found afterwards: in every state, registering it (again) takes the next free bit, and cutting by it, asking for its pulses, clearing and unregistering it raise.
* `exhausted_fails` (Cut/Stored.lean): Disagreement (C182): so "registering a field that exists is silently ignored" does not hold for a long name: the sixteenth time, all 32 bits are used up and registering raises, also for any other field.
* `same_beginning_fails` (Cut/Stored.lean): Disagreement (C182): two names with the same first 64 bytes become two fields of the same name, of which cutting sees the first and asking sees both; the given names raise.
* `split_letter_fails` (Cut/Stored.lean): Disagreement (C182): if the 64 bytes end within a letter of two or more bytes, then afterwards asking for any field by name raises ValueError, on all channels of the group; asking for all fields at once still works.
* `long_category_fails` (Cut/Stored.lean): Disagreement (C182): a category with a long name is registered without an error, but pulses cannot be assigned to it or selected by it.
* `empty_table_fails` (Cut/Stored.lean): Disagreement (C182): without categorical fields (the only one there is from the start was unregistered) the tables of categorical fields and of categories cannot be shown: ValueError.
* `block_fails` (Group/BinSize.lean): Disagreement (C194): setting the size of the group within `with data.includeBad():` ends the inclusion of bad channels, before the block is left.
* `unknown_fails` (Group/ChanPlots.lean): Disagreement (C167): a number that is no channel number does not give a plot of all average pulses as documented, but a KeyError; and if no axes were given, the figure has been cleared by then.
* `axis_fails` (Group/ChanPlots.lean): Disagreement (C167): the axes given are not those drawn in. If others are the current ones, average pulses and filters appear there.
* `legend_fails` (Group/ChanPlots.lean): Disagreement (C167): with more than twelve channels and axes that are not the current ones and have no legend yet, all three plots end with an AttributeError if a legend is wanted (as it is by default).
* `noise_fails` (Group/ChanPlots.lean): Disagreement (C167): one channel without noise records ends the plot of all autocorrelations with an AttributeError, while channels without filters are passed over by the plot of filters.
* `clobber_fails` (Group/HdfFiles.lean): Disagreement (C193): a file that is not an HDF5 file (for example one of the data files, given as `hdf5_noisefilename` by mistake, or a damaged file that could be repaired) is replaced by an empty one if its path is that for the noise, without `overwrite_hdf5_file`. At the path for the pulses it is kept and an OSError raised.
* `overwrite_fails` (Group/HdfFiles.lean): Disagreement (C193): with `overwrite_hdf5_file` the results of the pulses are gone even if making the group fails because the file for the noise cannot be opened, and also if both paths are the same.
* `attr_fails` (Group/LineFits.lean): C152. Disagreement (C152): any attribute without "energy" in its name is refused with AssertionError, also with bin edges given, although the documentation offers p_filt_value.
* `unused_fails` (Group/LineFits.lean): C152. Disagreement (C152): guess_params and label, documented as passed on to the fit and the plot, change nothing.
* `label_fails` (Group/LineFits.lean): C152. Disagreement (C152): the plot of a fit with given bin edges is labelled with the argument binsize (1 by default), whatever the bins: here they are 5 wide.
* `summarize_fails` (Group/LineFits.lean): C152. Disagreement (C152): the resolving power reported by summarize_filters is that predicted by the filter divided by its nominal peak, and the resolution is that much larger: they agree only if the peak is 1.
* `stored_fails` (Group/LineFits.lean): C152. Disagreement (C152): without a filter in memory the one in the file is never found, whatever its kind and the name given, as it is saved under another name.
* `value_fails` (Group/Master.lean): Disagreement (C144): with h5py 3 (allowed by the package) no master file can be made: AttributeError. The file is left behind without its attributes; the next call takes it for a good one, and the group made from it is a KeyError.
* `unclean_fails` (Group/Master.lean): Disagreement (C144): a file which did not end cleanly is not left out though a clean end is required: it is linked all the same, but without its channel number, and the whole group cannot be opened (KeyError).
* `stale_fails` (Group/Master.lean): Disagreement (C144): a master file is used again though other files are asked for: after channel 2, asking for channels 2 and 10 gives channel 2 only.
* `partial_fails` (Group/Master.lean): Disagreement (C144): a missing file ends the making with an exception, but leaves a master file with the links made so far, which the next call takes for good: channels after the missing one are silently left out.
* `directory_fails` (Group/Master.lean): Disagreement (C144): in a directory whose name contains _chan the channel number is looked for at the first _chan: ValueError.
* `extra_fails` (Group/ModelFile.lean): Disagreement (C151): the extra components meant to represent the 5-lag filter are found from the arrival-time-safe filter: whatever the 5-lag filter, the components are the same.
* `replaced_lost_fails` (Group/ModelFile.lean): Disagreement (C151): replacing the model file when no model can be made (say because the noise weighting is switched off, which is not implemented) destroys it: an empty file takes its place, and every channel is bad.
* `given_file_fails` (Group/ModelFile.lean): Disagreement (C151): given an open file, neither noise_weight_basis=False nor _rethrow=True has any effect.
* `twice_fails` (Group/ModelFile.lean): Disagreement (C151): writing the models a second time into the same open file marks every channel bad.
* `name_fails` (Group/ModelFile.lean): Disagreement (C151): files in a directory with "chan" in its name cannot have a model file made (without naming it).
* `stale_fails` (Group/Pages.lean): Disagreement (C159): pages left by an earlier run with more channels are put into the common file too, after those of this run or among them, and then removed.
* `thousand_fails` (Group/Pages.lean): Disagreement (C159): the pages from the thousandth on are not put into the common file: their names have four digits.
* `template_fails` (Group/Pages.lean): Disagreement (C159): the template given by plot_histogram_pages and plot_summary_pages has `%%03d`, in which no number fits: the first page raises a TypeError and no file is ever saved.
* `group_progress_fails` (Group/Pages.lean): Disagreement (C159): if the summary of the last channel fails, the progress of the group's summary never reaches 1, and it is never said to be finished.
* `filter_progress_fails` (Group/Pages.lean): Disagreement (C159): the progress of filtering passes 1: in the end (n + 1)/n is shown as done, with a negative time left; and it can be said twice that it is finished.
* `difference_fails` (Group/Plots.lean): Disagreement (C148): "successive differences" of a record rising by 1 per sample are drawn as 3, and as 2 next to the ends.
* `names_fails` (Group/Plots.lean): Disagreement (C148): three of the documented names of quantities are refused.
* `ten_thousand_fails` (Group/Plots.lean): Disagreement (C148): the plot is not "downsampled to 10,000 total points": of any number of pulses from 10001 to 19999 all are drawn.
* `group_downs_fails` (Group/Plots.lean): Disagreement (C148): a busy channel after a quiet one is not thinned at all: any number of points is drawn.
* `group_all_fails` (Group/Plots.lean): Disagreement (C148): `plot_summaries` of a group cannot show all pulses: the documented `valid=None` is an UnboundLocalError, and 'all' is a ValueError for every channel with two or more points.
* `multipage_fails` (Group/Plots.lean): Disagreement (C148): with no good channel left, `plot_multipage` is an UnboundLocalError.
* `summary_pages_fails` (Group/Plots.lean): Disagreement (C148): `plot_summary_pages` always fails: the name of the common file is formatted twice, whatever the attributes and the suffix (without a percent sign).
* `page_name_fails` (Group/Plots.lean): Disagreement (C148): no page of `plot_histogram_pages` could be saved either: the doubled percent sign leaves no place for the page number.
* `noise_limits_fails` (Group/Plots.lean): Disagreement (C148): the limits are those of the last channel only: the spectrum of another one can lie wholly outside; and if the last channel cannot be plotted, "No datasets plotted successfully" is raised though others were.
* `y_label_fails` (Group/Plots.lean): Disagreement (C148): a plot of the square root of the spectrum is labelled as the power spectral density.
* `label_heights_fails` (Group/Plots.lean): Disagreement (C148): labels in the second colour only are an UnboundLocalError.
* `filter_over_fails` (Group/Progress.lean): Disagreement (C170): filtering ends with a report of more than 100%: the number of pulses done is taken one too large.
* `filter_early_fails` (Group/Progress.lean): Disagreement (C170): if the last segment has one pulse, filtering is said to be finished before it is filtered, and then once more.
* `last_channel_fails` (Group/Progress.lean): Disagreement (C170): a group whose last channel cannot be summarized never reports 100% or that it is finished.
* `no_updater_fails` (Group/Progress.lean): Disagreement (C170): a channel without a group, or in a group made from HDF5 files only, has nothing to report to, and for this reason alone cannot be summarized or filtered: the work is not begun.
* `n_good_skipped_fails` (Group/Props.lean): C53 is false for `n_good_channels` when a file has no pulses: the file is skipped but counted.
* `unknown_channel_fails` (Group/Props.lean): C53 is false when an unknown channel is marked bad: the call raises KeyError but the channel stays in the list of bad channels, and can not be removed by a call that succeeds.
* `include_bad_why_fails` (Group/Props.lean): C28 is false when `whyChanBad` is read inside the block: from then on only good channels are iterated.
* `include_bad_nested_fails` (Group/Props.lean): C28 is false for nested blocks: the end of the inner one ends both.
* `generate_fails` (Group/Restore.lean): Disagreement (C140): in a directory whose name has `_chan<digit>`, all data, pulses and noise alike, share one summary file outside that directory.
* `max_chans_fails` (Group/Restore.lean): Disagreement (C140): max_chans without noise files raises TypeError.
* `no_noise_fails` (Group/Restore.lean): Disagreement (C140): a group opened without noise files cannot be restored without naming a noise file.
* `order_fails` (Group/Restore.lean): Disagreement (C140): the channels are restored in the order of their names, 1, 11, 3, not of their numbers.
* `stale_fails` (Group/Restore.lean): Disagreement (C140): an HDF5 file used before keeps its channels: a group opened with channel 1 only is restored with channels 1 and 3.
* `mismatch_fails` (Group/Restore.lean): Disagreement (C140): lists of files in different orders: the channels are left out, but the HDF5 files now name the wrong noise files; a group restored from them, which was right before, has no channels.
* `one_file_fails` (Group/Restore.lean): Disagreement (C140): if pulses and noise share one HDF5 file (see `generate_fails`), the name of the pulse file is replaced by that of the noise file, and the noise is restored as pulses.
* `flux_twice_fails` (Group/Segments.lean): Disagreement (C137): the values "remembered just in case" are overwritten by a second call of correct_flux_jumps, which changes nothing else: after two calls, both copies are the corrected values and the original ones are lost.
* `set_count_fails` (Group/Segments.lean): Disagreement (C137): after set_segment_size the group's number of segments is its number of pulses for each segment. So its segments cover the data exactly if there are at most pulses_per_seg squared of them.
* `set_refused_fails` (Group/Segments.lean): Disagreement (C137): a segment size below the record length is refused with ValueError, but the group then has no segments at all, although the files and their segments are as before.
* `empty_first_fails` (Group/Segments.lean): Disagreement (C137): if the first file has no records, the next one is not compared with it, and files of different record length make one group.
* `versions_fails` (Group/Segments.lean): Disagreement (C137): files of versions 2.1 and 2.2 have records of different length (6 or 16 bytes more than the samples) but one shape, and the group takes the pulses for each segment of its first file: the sample 2000000 is then in segment 2 of a group with one segment; and a new segment size fails with AssertionError.
* `unknown_channel_fails` (Group/Segments.lean): Disagreement (C137): a channel number which is not in the group is no error for read_trace: it returns the record of the first data set (or the one numbered), of another channel.
* `noise_spectra_fails` (Group/Sums.lean): Disagreement (C147): `compute_noise_spectra` is documented as equivalent to `compute_noise`, but one channel without usable noise ends it with that exception: the later channels get no noise, and the failing one is not marked bad.
* `report_fails` (Group/Sums.lean): Disagreement (C147): a channel without good pulses (a dead channel, marked bad or not) ends the report of the whole group with an IndexError; the channels after it are not reported.
* `noise_only_lists_fails` (Group/Sums.lean): Disagreement (C147): the channel lists never_use and use_only have no effect in a noise-only group.
* `noise_only_max_fails` (Group/Sums.lean): Disagreement (C147): any max_chans (even one larger than the number of files) makes a noise-only group impossible: IndexError, or, if the name of the noise HDF5 file is given, a group without channels.
* `noise_attrs_fails` (Group/Sums.lean): Disagreement (C147): if the first file of a noise-only group is empty, a file with a different record length is accepted; and if all are empty, nothing is compared at all.
* `noise_marks_fails` (Group/Sums.lean): Disagreement (C147): reopening a noise-only group forgets which channels were marked bad, while the reasons stay in the HDF5 file; marking such a channel good then changes nothing there, and marking it bad again replaces the old reasons.
* `use_records_fails` (Group/Sums.lean): Disagreement (C147): the documented form of use_records, a sequence (first, end), is a TypeError; a number smaller than the records of one segment leaves no segment; a negative one a negative number of records.
* `fancy_fails` (Group/Sums.lean): Disagreement (C147): for noise read from LJH files `compute_fancy_power_spectra` raises an AttributeError: it looks at an array that only in-memory files have.
* `resize_fails` (Group/Vectors.lean): Disagreement (C141): resizing to fewer pulses raises an exception whatever the channel holds (TypeError: the data sets have another shape; AssertionError for 0 pulses), and leaves the number of pulses changed though no vector is.
* `spread_fails` (Group/Vectors.lean): Disagreement (C141): an attribute p_* with a single value is spread over all rows instead of being refused like any other vector of the wrong length.
* `copy_channel_fails` (Group/Vectors.lean): Disagreement (C141): no channel can be copied (AttributeError), and so no group with channels.
* `copy_spectrum_fails` (Group/Vectors.lean): Disagreement (C141): data added to a copy of a spectrum change the original: the power is added to its sum though its number of segments stays, so every frequency where the data have power becomes too high there.
* `ats_whitener_only_fails` (Lin/Ats.lean): With a whitener but no autocorrelation (allowed by the class description) the computation of the variance raises TypeError, after the filter itself was found.
* `zero_variance_fails` (Lin/ChanNoise.lean): Disagreement (C127): noise of variance zero is not remembered: it is replaced by the next call without forceNew.
* `measured_ignored_fails` (Lin/ChanNoise.lean): Disagreement (C127): after assume_white_noise, compute_noise returns without an error but the measured noise is not used (unless forceNew is given): the channel keeps the assumed noise.
* `old_name_fails` (Lin/ChanNoise.lean): Disagreement (C127): the replaced name compute_noise_spectra, described as equivalent to compute_noise, always raises a TypeError.
* `no_step_fails` (Lin/ChanNoise.lean): Disagreement (C127): assume_white_noise does not set the frequency step of the spectrum, so on a channel with only assumed noise the things that read it (plots of the spectrum, the pulse model) fail.
* `long_noise_fails` (Lin/ChanNoise.lean): Disagreement (C127): with noise records longer than the pulse records, the stored spectrum is the beginning of that of the noise file: its highest frequency is only n / N of the highest frequency there is (1 / (2 dt)), while filters take its values as reaching up to that.
* `short_noise_fails` (Lin/ChanNoise.lean): Disagreement (C127): with noise records shorter than the pulse records (more than one sample) the noise cannot be computed: a TypeError about shapes.
* `fivelag_whitener_only_fails` (Lin/Filter.lean): With a whitener but no autocorrelation (allowed by the class description) no five-lag filter can be made.
* `normalize_negative_fails` (Lin/Filter.lean): For a negative-going pulse the model signal is not scaled to unit amplitude: it is divided by its largest positive excursion.
* `five_cuts_fails` (Lin/FilterFile.lean): C121. Disagreement (C121): the cut windows of a five-lag filter are not stored: after opening the file again, the filter is computed again without them, so the samples that were to be given no weight have weight again.
* `five_peak_fails` (Lin/FilterFile.lean): C121. Disagreement (C121): the nominal peak of a five-lag filter changes when the file is opened again: above the pretrigger level when computed (8), the highest value itself afterwards (9).
* `five_ignore_fails` (Lin/FilterFile.lean): C121. Disagreement (C121): so do the weights, if some pretrigger samples are ignored (`pretrigger_ignore_samples` is not stored and is 0 in a new object).
* `interrupted_open_fails` (Lin/FilterFile.lean): C121. Disagreement (C121): if the saving of an arrival-time-safe filter is interrupted late (after the version was written, before `dt_values`), the channel cannot be opened any more: KeyError, for every filter and file.
* `skipped_fails` (Lin/FilterFile.lean): C121. Disagreement (C121): if it is interrupted earlier, after the group was created, the file opens without a filter, and the computation of a new one is then skipped as "already done": no filter, no error. The same holds for a file with filters of a version that is not supported.
* `reopened_model_fails` (Lin/FilterFile.lean): C121. Disagreement (C121): a pulse model (for the projectors) cannot be made with an arrival-time-safe filter read from the file: its pulse shape is not stored, and the attempt raises TypeError; with the filter just computed it works.
* `nan_filter_fails` (Lin/FilterFile.lean): C121. Disagreement (C121): if an arrival-time-safe filter comes out with NaN values, `compute_ats_filter` raises, but the channel keeps the bad filter in place of the previous one, which stays in the file.
* `other_kind_fails` (Lin/FilterUse.lean): Disagreement (C201): asking for the other kind of filter without `forceNew`, when a channel has a filter already, raises nothing and leaves the old kind in use.
* `nan_used_fails` (Lin/FilterUse.lean): Disagreement (C201): if an arrival-time-safe filter comes out with NaN in a channel with a five-lag filter, the call raises, and filtering then applies the weights with NaN in the five-lag way.
* `filtered_stale_fails` (Lin/FilterUse.lean): Disagreement (C201): after a new filter is computed, `filter_data()` without `forceNew` keeps the values of the old one.
* `kink_unsorted_fails` (Lin/Kink.lean): The same points in another order: the coefficients are right, the model values are out of order and X2 is not the misfit.
* `fit_unsorted_fails` (Lin/KinkFit.lean): Disagreement (C162): with the points in another order the value that is minimised is not the misfit. Here all points lie on a kinked line with the kink at 2, but the value there is greater than at 7/2, where the line misses the points.
* `three_db_fails` (Lin/LowPass.lean): C120. Disagreement (C120): `f_3db` is described as the 3 dB point of a one-pole low-pass filter, the frequency at which the power falls to one half. It is reduced to one quarter there (6 dB): the code multiplies the amplitude by 1/(1+(f/f_3db)^2), which is the factor for the power. For every record, at any frequency.
* `ats_lowpass_response_fails` (Lin/LowPass.lean): C120. Disagreement (C120): a low-pass filtered `compute_ats` filter no longer gives the pulse height: it is not normalised again. With `fmax` below the lowest non-zero frequency of the record, every weight is 0 for every signal and noise model, so all pulses get height 0; no error is raised.
* `ats_no_sample_time_fails` (Lin/LowPass.lean): C120. Disagreement (C120): a maker created without a sample time has `sample_time_sec = 0.0`, and `compute_ats` then only checks for None: with `fmax` or `f_3db` given it never returns a filter and raises ZeroDivisionError instead of the ValueError that `compute_5lag` raises.
* `fourier_fails` (Lin/LowPass.lean): C120. Disagreement (C120): `compute_fourier` never returns a filter. The signal is already cut by two samples on either side when the filter is normalised on it, and the normalisation demands a signal at least four samples longer than the filter: AssertionError, for every signal, noise spectrum and option.
* `fourier_assertion_fails` (Lin/LowPass.lean): C120. ... and with a consistent signal and spectrum the exception is AssertionError.
* `whitenMatrix_pure_AR_fails` (Lin/LowPass.lean): C120. Disagreement (C120): `W(len(v))` times v is not `whiten(v)` if the model has a single MA coefficient (other than 1): [2, 6] and [1, 6] for v = [4, 8].
* `lowpass_odd_fails` (Lin/Lowpass.lean): Disagreement (C179): with an odd number of samples the filter always raises IndexError, since one frequency too many is made up.
* `label_fails` (Lin/ModelFig.lean): Disagreement (C195): for a model with components from the 5-lag filters one curve has the wrong label: the first of these components is labelled as an SVD component.
* `legend_fails` (Lin/ModelFig.lean): Disagreement (C195): with fewer than ten training pulses the legends have entries without a curve.
* `tsvd_degenerate_fails` (Lin/PulseModel.lean): When the existing basis already describes the training pulses exactly, the sketch is zero, and qr of it (which then returns the first unit vectors) gives projectors that are not dual to the basis.
* `save_inverted_twice_fails` (Lin/PulseModel.lean): Saving with inversion flips the model in memory; saving again (elsewhere) writes the unflipped one.
* `save_load_fails` (Lin/PulseModel.lean): Disagreement (C75): a model saved inverted is not loaded as it was when it was saved; every projector but the first has the opposite sign. So it is for every model with a second projector that is not zero.
* `labels_fails` (Lin/PulseModel.lean): But the first of the components from the 5-lag filters is labelled as an SVD component.
* `savgol_sign_fails` (Lin/SavGol.lean): Disagreement (C108): first derivatives have the wrong sign. On the straight line 0, 1, 2 (slope 1) with window 3 and order 1 the derivative returned is -1.
* `savgol_factorial_fails` (Lin/SavGol.lean): Disagreement (C108): second derivatives are half of what they should be. On the squares 0, 1, 4, 9, 16 (second derivative 2) the value returned is 1.
* `savgol_end_fails` (Lin/SavGol.lean): Disagreement (C108): at the ends falling data are continued the wrong way. The straight line 0, -1, -2 is preceded by -1, and with window 3 and order 1 its first value becomes -2/3 instead of 0.
* `toeplitz_one_fails` (Lin/Toeplitz.lean): The class refuses a 1x1 matrix, although it is invertible.
* `mult_int_fails` (Lin/Toeplitz.lean): C36 is false for integer vectors: `mult` truncates the product.
* `bracketR_empty_fails` (Lin/Whiten.lean): For an empty q (whose quadratic form is 0) the function raises.
* `whiten_pure_AR_fails` (Lin/Whiten.lean): C38 is false for a purely autoregressive model (theta of length 1, not equal to 1): the first value is divided twice.
* `solveWT_int_fails` (Lin/Whiten.lean): C38 is false for integer vectors: `solveWT` truncates.
* `write_fails` (Line/Asd.lean): Disagreement (C130): the conversion of the database fails for every table with at least one level: the loop takes the values of the dictionary where it needs names and values. Nothing is written.
* `blank_fails` (Line/Asd.lean): Disagreement (C130): a level whose configuration or term contains a blank is never found by a search, whatever is asked for, though it can be asked for by name.
* `negative_limit_fails` (Line/Asd.lean): Disagreement (C130): a negative limit is no limit: all levels are given.
* `units_fails` (Line/Asd.lean): Disagreement (C130): for units that are not known a search gives nothing (None) if there are levels that fit, but an empty dictionary if there are none.
* `limit_fails` (Line/Asd.lean): Disagreement (C130): without a ground state among the levels that can be read, a limit of n gives n + 1 lines.
* `nan_line_fails` (Line/Asd.lean): Disagreement (C130): a level whose energy is not known (NaN) gets a line as well, at no energy.
* `again_fails` (Line/Asd.lean): Disagreement (C130): adding the lines of an element a second time (those of N, O, Ne and Ar are there from the start) raises a ValueError at the first line: also when a larger limit would add new ones.
* `pr_fails` (Line/BuiltinThm.lean): Disagreement (C186): the strong component of PrKAlpha is given a width of 1887 eV (the other has 19.08; a decimal point is missing). So the density at the nominal peak is less than a fiftieth of that at the weak component.
* `gd_fails` (Line/BuiltinThm.lean): Disagreement (C186): the strong component of GdKBeta is 1000 eV above the nominal peak (49696.9 for 48696.9). No component is within 4 widths of the nominal peak, and the density there is less than a hundredth of that at the strong component.
* `al_fails` (Line/BuiltinThm.lean): Disagreement (C186): the nominal peak of the old AlKAlpha (AlKAlpha_metal_v1992) is so far above its strong component that the density at the weaker component, 0.6 eV away, is higher.
* `plot_all_fails` (Line/BuiltinThm.lean): Disagreement (C186): the figures of all lines are never drawn: with the lines of the package, for every number of figures that asks for at least one, `plot_all_spectra` ends with TypeError, since it calls a line without an energy.
* `old_name_fails` (Line/BuiltinThm.lean): Disagreement (C186): the older line shapes are not under the names the source gives (mass.MgKAlpha_v1): there is no such line.
* `report_zero_fails` (Line/ByName.lean): Disagreement (C149): a fitted parameter that is exactly zero (a background at its bound, say) makes the report, and with it the plot of the fit, fail.
* `models_background_fails` (Line/ByName.lean): Disagreement (C149): with `has_linear_background=True` no ready-made model can be had, whatever lines are known.
* `same_prefix_fails` (Line/Fit.lean): Disagreement (C129): a line plus another component (a background, say) with the same prefix: the other component is taken for a line, since the parameters of the line have its prefix too, and every fit to a histogram raises an AttributeError when it is done.
* `zero_width_fails` (Line/Fit.lean): Disagreement (C129): a histogram in which one bin contains both quartiles (more than half of all counts, for instance a narrow line in coarse bins) gets the width zero as starting value.
* `background_fails` (Line/Fit.lean): Disagreement (C129): with at most 20 bins the guessed background is 0.1 per bin whatever the counts: also for a histogram of frequencies or with thousands of counts per bin (where the counts are then all attributed to the line).
* `refit_start_fails` (Line/Fit.lean): Disagreement (C129): "leastsq_refit" without a set of parameters (the values given one by one) starts the second fit again from the beginning, not from what the first one found.
* `energy_units_fails` (Line/FitFigs.lean): Disagreement (C171): a fit of the attribute `energy` itself is shown in arbitrary units instead of eV, on both axes.
* `slice_label_fails` (Line/FitFigs.lean): Disagreement (C171): a fit to records selected by a slice or indices instead of states cannot be shown without a label for the y axis, though the fit itself is possible.
* `one_label_fails` (Line/FitFigs.lean): Disagreement (C171): the label of the histogram of one state given by its name is not the name but its letters with commas between them, for every name of more than one letter.
* `tuple_fails` (Line/FitFigs.lean): Disagreement (C171): a tuple of states can be coadded but not shown state by state.
* `diagnose_empty_fails` (Line/FitFigs.lean): Disagreement (C171): a calibration without fits (an empty plan) cannot be shown: UnboundLocalError.
* `result_axis_fails` (Line/FitFigs.lean): Disagreement (C171): the axis called channel number shows 0, 1, 2, … instead of the numbers of the channels.
* `label_misses_fails` (Line/FitFigs.lean): Disagreement (C171): the height is not that of the local maximum: the ten places looked at leave out the energy itself, so the label of a peak of any height that is narrower than a fifth of deltaELocalMaximum stands at zero.
* `label_axis_fails` (Line/FitFigs.lean): Disagreement (C171): the label of a peak is drawn in the current axes, not in those given.
* `log_outside_fails` (Line/FitFigs.lean): Disagreement (C171): if the upper limit is below 1 (a logarithmic plot of a density) all labels stand above it, outside of the plot; and if the lower limit is above the first label, that one stands below it.
* `background_fails` (Line/Hci.lean): Disagreement (C131): no composite model can have a linear background: the model for it does not exist, and every request for one raises an AttributeError.
* `circular_fails` (Line/Hci.lean): Disagreement (C131): a composite of composites with another peak component: the positions of the two lines are then each expressed by the other, and neither is free.
* `parenthesis_fails` (Line/Hci.lean): Disagreement (C131): lines with parentheses in their configuration get a prefix that is not the beginning of a name of a parameter.
* `same_prefix_fails` (Line/Hci.lean): Disagreement (C131): names that differ only in stars and dots have the same prefix.
* `four_p_fails` (Line/IonLines.lean): Disagreement (C189): in "O H-Like 4p" the amplitudes are in the order of the line before, the energies are not: two thirds of the intensity are in the component of lower energy (816.951 eV). The nominal energy is worked out with the weights the other way round, and is not the mean of the line.
* `oxygen_fails` (Line/IonLines.lean): Disagreement (C189): the same transition of oxygen has two energies: 560.983 eV as a component of "O He-Like 1s2s+1s2p", 560.98386 eV as "O He-Like 1s2s 3S1". (For neon and argon they are the same.)
* `label_per_bin_fails` (Line/LinePlot.lean): Disagreement (C174): the label says that the ordinate is in counts per bin of the width it gives; the curve is the density per eV whatever the width of a bin: two choices of energies with bins of different width give the same ordinate at the same energy.
* `model_tails_scale_fails` (Line/Model.lean): C93. Asking for tails changes the total: with no events in the tails the model is `dph_de ^ 2` times the one without tails (the scale factor multiplies by `dph_de` where it should divide), so its integral is not the parameter `integral` unless `dph_de = 1`.
* `model_tails_units_fails` (Line/Model.lean): Disagreement (C93): the lengths of tails are said to be in units of energy, but are used as if they were in units of pulse height on an axis of energies: in another unit of pulse heights (`c` times as large numbers) the model has tails `c` times as long, and `c ^ 2` times the counts.
* `fitter_lost_fails` (Line/Registry.lean): Disagreement (C202): a line whose name ends in "Fitter" takes the place of the function that makes the fitter of the other line, without an exception.
* `same_name_fails` (Line/Registry.lean): Disagreement (C202): models of the same line in different materials have the same name, though the lines have different short names.
* `ambiguous_fails` (Line/Registry.lean): Disagreement (C202): different lines can have the same short name, so that the second cannot be added: element and type are written without a mark between them.
* `zero_fails` (Line/Report.lean): Disagreement (C185): if a varied parameter with an uncertainty is exactly 0 (say a background or a tail that the fit left at its limit of 0), or an uncertainty is 0, there is no report, and the figure ends with an error: the number of figures is the integer part of an infinite number.
* `rvs_reproducible_fails` (Line/Spectral.lean): C91. Variates are not reproducible from the generator that is passed: when a draw is not positive its replacement comes from the module's own generator (the recursive call does not pass `rng`), so two calls with the same generator state give different variates.
* `order_fails` (Line/Sums.lean): Disagreement (C203): a model of lmfit plus a line is not fitted by maximum likelihood, though the line plus the model of lmfit is, and both have the same values.
* `print_fails` (Line/Target.lean): Disagreement (C190): the distance given to `printinterferences` is not used: whatever it is, lines closer than 50 eV are printed (the script asks for 150).
* `equal_fails` (Line/Target.lean): Disagreement (C190): two lines of different elements with exactly the same energy, the worst of all interferences, are not reported: the names are kept by energy, and the second replaces the first.
* `between_fails` (Line/Target.lean): Disagreement (C190): of three lines within 20 eV only neighbours are reported: that the first and the last interfere is not.
* `both_fails` (Line/Target.lean): Disagreement (C190): an element asked for with both its K and its L lines has one share, not two: the shares add up to 1/2.
* `nickname_fails` (Line/XrayDb.lean): Disagreement (C142): the nicknames of lines (KA1, Kalpha1, LB3, …) are promised by `__getitem__` but never found, whatever is in the data base: unless a line has this very text as its transition the look-up is a KeyError. The name is put in small letters before it is looked up among nicknames which are in capital letters.
* `no_header_fails` (Line/XrayDb.lean): Disagreement (C142): a file without a line of column titles (an empty file, any other text) is never read to an end: the loop looking for the title goes on for ever after the end of the file.
* `nickname_witness_fails` (Line/XrayDb.lean): Disagreement (C142): `db["Mn KA1"]` is a KeyError though the line Mn KL3 is there and `get_lines_by_type("KA1")` finds it.
* `ll_fails` (Line/XrayDb.lean): Disagreement (C142): the nickname `Ll` never works: the name is put in capital letters, and only `Ll` is a nickname. With the line Cl L3M1 in the data base, asking for Ll gives nothing.
* `hidden_fails` (Line/XrayFig.lean): Disagreement (C191): not every line of the data base can be seen in the first figure: the limits of the axes are fixed at 30 keV and 10 eV. The Kα₁ line of uranium (98434 eV) is drawn, but outside its panel.
* `title_fails` (Line/XrayFig.lean): Disagreement (C191): the title of the panel for the Lγ₁ lines (L2N4) says that they are K lines.
* `missing_fails` (Line/XrayFig.lean): Disagreement (C191): there is a title for the Kβ₃ lines (KM2), but no panel: no such line is drawn, whatever the data base has.
* `empty_fails` (Line/XrayFig.lean): Disagreement (C191): the second figure has curves without a point: five of the eighteen curves (the M lines) are in the legend, but the data that come with the package have no such line.
* `isotope_fails` (Line/XrayFile.lean): Disagreement (C188): the name of a line leaves out the mass number of the isotope, and a later isotope replaces an earlier one. `STANDARD_FEATURES["UKAlpha"]` and `["UKAlpha1"]` are the energy of uranium 233 (98433.75 eV), not of uranium 238 (98431.58 eV, uncertainty 0.28), which no name finds.
* `two_energies_fails` (Line/XrayFile.lean): Disagreement (C188): one name has two energies. `get_model("MnKBeta")` gives the line shape with its peak at 6490.18 eV, `STANDARD_FEATURES["MnKBeta"]` is 6490.585 eV with an uncertainty of 0.014 eV: a calibration fitted to the shape and one made of the plain energies differ by 29 times the uncertainty. (For MnKAlpha they differ by less than the uncertainty.)
* `nb_fails` (Line/XrayFile.lean): Disagreement (C188): the name of the line NbKBeta24 is in no data base of this kind, whatever its files: `STANDARD_FEATURES["NbKBeta24"]` raises KeyError.
* `copy_presamples_fails` (Ljh/Copy.lean): C17 is false as stated: the copy reports 4 pretrigger samples where the source has 1, and copying the copy adds 3 more.
* `copy_same_file_fails` (Ljh/Copy.lean): C17: a copy onto itself with `overwrite` destroys the file (its records can no longer be read at the places where they were).
* `copy_fails` (Ljh/Inverted.lean): Disagreement (C198): a copy of a channel, said to be deep, has the same file object: setting the copy changes what is read from the original, whose own setting stays.
* `early_fails` (Ljh/Inverted.lean): Disagreement (C198): a channel made with `invert_data=True`, or set before it has records, gives raw data when records are assigned, though it says that they are inverted.
* `main_no_match_fails` (Ljh/Merge.lean): Disagreement (C177): a pattern that matches no file is expanded to None, so that the script ends with a TypeError instead of the assertion that files were found, also when other patterns do match.
* `merge_again_fails` (Ljh/Merge.lean): Disagreement (C177): the script run a second time with the same pattern and `--force`: the pattern now matches the merged file too, and every record is in the result twice.
* `merge_lengths_fails` (Ljh/Merge.lean): Disagreement (C177): files with records of different lengths are merged without complaint, and the records after the first file are misread.
* `merge_old_version_fails` (Ljh/Merge.lean): Disagreement (C177): a first file of an older version is copied as it is, and the records of the others are appended in the new format; they are misread.
* `merge_incomplete_fails` (Ljh/Merge.lean): Disagreement (C177): when the first file ends within a record, the records of the other files are misread.
* `no_divisions_fails` (Ljh/Old.lean): Disagreement (C183): a header with 0 subframe divisions is accepted, but then no record can be read with its time (ZeroDivisionError).
* `short_frames_fails` (Ljh/Old.lean): Disagreement (C183): a frame of less than 1 ns is taken for 0 ns; by NumPy a division by 0 is 0, so every record is in frame 4.
* `stale_fails` (Ljh/Polarity.lean): Disagreement (C200): if the polarity is changed, or the files are opened again with another polarity, then `summarize_data()` leaves the summaries of the old polarity in place, though they differ from those of the data as read now; only `forceNew` helps.
* `off_empty_file_fails` (Ljh/Props.lean): C21 is false for a file without any data bytes: the conversion divides by the size of the data.
* `frame_count_fails` (Ljh/Props.lean): C58 needs both conditions: with 3000 ns per frame two different frames get the same number, and with 4000.5 ns per frame (the code uses 4000) frame 100000 is reported as 100015.
* `truncate_header_fails` (Ljh/PropsModify.lean): C16 is false when an indented header line looks like the end marker: the key is written back without the indentation, so the copy's header ends there and the later entries and records are misread.
* `append_after_crash_fails` (Ljh/PropsModify.lean): C59 is false for a file left with an incomplete record by a crash: the appended record is read from the wrong offset.
* `short_channel_fails` (Ljh/TruncScript.lean): Disagreement (C178): to keep at most 2 records per channel where the first channel has only one: the script stops with IndexError, and the second channel is not truncated.
* `wildcard_fails` (Ljh/TruncScript.lean): Disagreement (C178): with a pattern that matches the files of two runs, the output of the second run replaces that of the first, in a file with the pattern itself in its name.
* `directory_fails` (Ljh/TruncScript.lean): Disagreement (C178): in a directory with a name like that of a file, all channels are written to the same output, one over the other.
* `no_match_fails` (Ljh/TruncScript.lean): Disagreement (C178): when no file matches, the script ends with a TypeError.
* `contents_fails` (Names/HdfPrint.lean): Disagreement (C196): under Python 3 the attributes of `h5py` have no `iteritems`: of any file that is not empty only its name is printed, and an `AttributeError` ends the command before any group, data set or attribute, and before any further file.
* `usage_fails` (Names/HdfPrint.lean): Disagreement (C196): the usage `printHDF5("filename.hdf5")` given in the file does not work: it prints nothing and raises an `AttributeError` for any file name.
* `scalar_fails` (Names/HdfPrint.lean): Disagreement (C196): even where attributes can be listed, a scalar data set ends the command with a `TypeError`, without any line for it.
* `empty_fails` (Names/HdfPrint.lean): Disagreement (C196): an empty group or data set is shown by a dash only, without its name and attributes; two that differ in both look the same.
* `maxchan_fails` (Names/HdfPrint.lean): Disagreement (C196): `maxchan` holds for the first level only: where the channels are inside a group of the file, what is printed does not depend on `maxchan`.
* `folder_fails` (Names/Labels.lean): Disagreement (C199): files of the same name in different folders have the same label.
* `off_reads_fails` (Names/Labels.lean): Disagreement (C199): reading the label of a group of OFF files gives the group a channel number, that of its first file.
* `isdir_fails` (Names/Labels.lean): Disagreement (C199): if the folder one works in has a folder named like the file of a channel, the label of the group is made from a file name with that name twice.
* `chan_names_fails` (Names/Props.lean): Disagreement (C09): when the extension itself looks like `_chan<digit>`, the generated name parses to the wrong channel (asked for channel 7, got 5).
* `file_channum_agrees_fails` (Names/Props.lean): Disagreement (C10): the reader takes the first "_chan" of the whole path, the parser the last: in a directory named after channel 1, the file of channel 3 is read as channel 1.
* `remove_unpaired_repeats_fails` (Names/Props.lean): Disagreement (C11): two files of an excluded channel – only one of them is removed.
* `remove_unpaired_first_empty_fails` (Names/Props.lean): Disagreement (C11): when the first list is empty the second is not filtered at all, although the documentation says the `never_use` list is then applied.
* `sort_names_inclusion_fails` (Names/Props.lean): Disagreement (C12): with any inclusion list and any non-empty input the call raises AttributeError instead of returning the included files.
* `here_fails` (Names/Scripts.lean): Disagreement (C143): for a file named without a directory (a file in the current directory) no channels can be found: the empty directory name cannot be listed.
* `twice_fails` (Names/Scripts.lean): Disagreement (C143): channels are given twice if there are two files of the channel, and files which are no LJH files count: x_chan1.ljh and x_chan1.off make channels [1, 1].
* `output_fails` (Names/Scripts.lean): Disagreement (C143): a missing directory is reported by `output_basename_from_ljh_fname` as a TypeError (a text is raised), not as the ValueError it is meant to be.
* `aux_fails` (Names/Scripts.lean): Disagreement (C143): no timing file can ever be loaded (`len(raw) / 2` is not an int).
* `max_fails` (Names/Scripts.lean): Disagreement (C143): asking for at most zero channels (or a negative number) converts all of them.
* `missing_fails` (Names/Scripts.lean): Disagreement (C143): converting several runs into one, a channel which has a file in one run but not in another ends everything with an error: the channels after it are not converted (while a channel without any file is passed over).
* `state_late_fails` (Names/Scripts.lean): Disagreement (C143): a missing experiment state is only noticed at the end: the exception comes when all OFF files have been written.
* `none_fails` (Names/Scripts.lean): Disagreement (C143): if no channel of the model file has an LJH file the conversion itself succeeds but the script ends with an IndexError.
* `column_fails` (Names/Scripts.lean): Disagreement (C143): the column number of the LJH header is lost: an OFF file says column 0 whatever the LJH file says (the row is right), since the header's value is kept under another name.
* `projectors_lost_fails` (Names/Scripts.lean): Disagreement (C143): replacing an output file loses it if making the projectors fails: the file is emptied before they are made.
* `weight_fails` (Names/Scripts.lean): Disagreement (C143): the option `noise_weight_basis` has no effect.
* `ending_fails` (Names/Scripts.lean): Disagreement (C143): noise files with another ending are found, but then looked for with the ending .ljh.
* `negative_fails` (Names/Scripts.lean): Disagreement (C143): a negative greatest number of channels takes all but the last ones.
* `modify_fails` (Names/Scripts.lean): Disagreement (C143): LJHModify never succeeds, whatever the files and the callback.
* `modify_lost_fails` (Names/Scripts.lean): Disagreement (C143): with `overwrite`, LJHModify destroys the old output: the file is left empty.
* `views_agree_fails` (Off/Props.lean): C19 is false below 3 basis elements: the record sizes differ, so records are read at the wrong places and the coefficients cannot be viewed.
* `header_offset_fails` (Off/Props.lean): C60 is false for non-ASCII headers: the offset is counted in characters, so the records are read from inside the header.
* `again_fails` (Off/Runs.lean): C153. Disagreement (C153): five-lag recipes cannot be made again: a channel that has them refuses, with another filter as well.
* `missing_fails` (Off/Runs.lean): C153. Disagreement (C153): one good channel without model ends the call with KeyError; the channels before it have their recipes, those after it have none.
* `inverted_fails` (Off/Runs.lean): C153. Disagreement (C153): for models saved from inverted data (C49) all pulse heights come out negative: with the basis saved and the same coefficients, the height is the negative of the right one, for every filter blind to constants and a basis whose first vector is constant.
* `bracket_fails` (Off/Runs.lean): C153. Disagreement (C153): a run whose name has a bracket cannot be opened by one of its files: no file is found, though it is there.
* `copy_fails` (Off/Runs.lean): C153. Disagreement (C153): other files that begin like the run are taken as its channels, and replace them: of a file and its backup copy only the copy is opened.
* `blank_fails` (Off/Runs.lean): C153. Disagreement (C153): runs whose names agree up to a blank get the same output file.
* `old_version_fails` (Off/Write.lean): Disagreement (C158): `multi_ljh2off` takes the version of the OFF file to write, but only 0.3.0 works: with 0.1.0 or 0.2.0 the first record raises ValueError (the layout has no field pretriggerDelta), and what is left on disk is a file of version 0.3.0 without records.
* `float32_fails` (Off/Write.lean): Disagreement (C158): the header always says that projectors and basis are float64, but they are written as they are; with float32 arrays the file is refused, or has fewer records than were written.
* `few_bases_fails` (Off/Write.lean): Disagreement (C158): with fewer than three basis elements the file has fewer records than were written (their size is read as that of three coefficients).
* `loaded_recipe_fails` (Recipe/Attrs.lean): Disagreement (C180): a recipe book that was saved and is loaded in a new process computes the recipe, but the recipe is not an attribute of the channel: `ds.energy` raises AttributeError, since only `add` creates properties.
* `method_name_fails` (Recipe/Attrs.lean): Disagreement (C180): a recipe with the name of a method or other property of channels is accepted, but `ds.name` is still the method.
* `hidden_attribute_fails` (Recipe/Attrs.lean): Disagreement (C180): a recipe with the name of an attribute of channels is accepted for one channel, and then hides that attribute in all channels of the process: another channel's `ds.verbose` raises, and no channel can be opened any more.
* `hidden_file_fails` (Recipe/Attrs.lean): Disagreement (C180): a recipe named `offFile` leaves no attribute of any channel readable: reading `ds.filtValue` does not return (RecursionError).
* `overwrite_stops_fails` (Recipe/Attrs.lean): Disagreement (C180): when a book is saved over an older one and that does not finish (an object that cannot be pickled, or a crash), the older one is lost too: for every book.
* `cutAdd_fails` (Recipe/Cuts.lean): Disagreement (C111): `cutAdd` with `setDefault` and a name that does not start with "cut" raises, but the recipe has been added: the same call with another function is refused because the name is taken.
* `group_set_default_fails` (Recipe/Cuts.lean): Disagreement (C111): `cutSetDefault` of a group always raises and sets nothing: it looks for the recipes of the group, which has none.
* `marked_good_fails` (Recipe/Cuts.lean): Disagreement (C111): after a channel that lacked the ingredients of a cut is marked good again, the histogram and the line fit of the group use different cuts of the other channel.
* `load_default_fails` (Recipe/Cuts.lean): Disagreement (C111): recipe books do not remember the default cut: after saving and loading into a new group, all pulses are used again. And a book without the present default may be loaded: then nothing can be read without naming a cut.
* `negated_fails` (Recipe/Cuts.lean): Disagreement (C111): a negated cut, which histograms accept and which can be evaluated, is refused by the line fit of a group.
* `same_fails` (Recipe/Drift.lean): Disagreement (C145): a correction learned with the same quantity as indicator and as uncorrected value is accepted, but crafting it raises TypeError: the function is called with one argument.
* `nan_fails` (Recipe/Drift.lean): Disagreement (C145): a correction whose slope is NaN, saved and read back, does not equal the one saved.
* `broken_fails` (Recipe/Drift.lean): Disagreement (C145): saving is not all or nothing. With a dataset "dc/slope" already there, saving under "dc" raises after three datasets were written; reading "dc" then raises, and so does every later attempt to save.
* `repeated_ingredient_fails` (Recipe/Props.lean): C25 is false when an ingredient is listed twice: the function is called with one argument instead of two.
* `cont_one_lag_fails` (Stat/Autocorr.lean): Asking for one lag of longer records fills every lag with the value of lag 0.
* `cont_use_records_fails` (Stat/Autocorr.lean): A file limited to its first fifteen records (use_records) still uses the later ones: the variance at lag 0 is not that of the first fifteen.
* `cont_range_fails` (Stat/Autocorr.lean): The sample range is used to select records: a range of samples that begins at or after sample nP (of ns * nP) selects nothing, whatever the data.
* `broken_none_fails` (Stat/Autocorr.lean): With separate records and no usable one, NaN is stored in every entry; the continuous version raises an exception.
* `array_changed_fails` (Stat/AutocorrPulses.lean): Disagreement (C173): the data given to the function are not left as they were: every record with a mean other than zero is changed in the caller's array.
* `flags_overlap_fails` (Stat/Crosstalk.lean): With overlapping windows pulses are missed: the neighbour's pulse at 0 lies in both windows, neither pulse is flagged.
* `flags_edge_fails` (Stat/Crosstalk.lean): A neighbour's pulse exactly at the end of the window counts only for the last pulse.
* `veto_overflow_fails` (Stat/Crosstalk.lean): 128 hits at the same time overflow the 8-bit counter: no veto.
* `veto_rounding_fails` (Stat/Crosstalk.lean): Times that are not whole ms are cut off in the table but rounded in the question: two simultaneous pulses do not veto their own time, and asking for the time of the last pulse is an IndexError.
* `veto_before_start_fails` (Stat/Crosstalk.lean): A time before the start of the data reads the table from its end.
* `laplace_entropy_gap_fails` (Stat/Entropy.lean): C88 fails for an `exp` which underflows: double precision `exp` gives 0 below -746, so two values more than 746 scales apart end in a division by zero instead of an entropy.
* `kl_mixed_fails` (Stat/EntropyApprox.lean): Disagreement (C136): the limit on the size is applied to each step of the divergence separately, so with at most 200000 values in the first set and more in both together it is the difference of an approximate cross-entropy (Laplace kernel for both, on a grid) and an exact entropy, two quantities of different definition.
* `outlier_fails` (Stat/EntropyApprox.lean): Disagreement (C136): one value far from the others, more than about 1e8 widths away, makes the approximation fail with an OverflowError, for any number of data, although the exact entropy exists (the limits of the histogram are the extreme values).
* `kernel_fails` (Stat/EntropyApprox.lean): Disagreement (C136): the approximation takes the Laplace kernel for the second data set too, instead of the top-hat with a floor that is documented and used by the exact mode. So the divergence of a set from itself is 0 in approximate mode, and not in exact mode.
* `auto_mask_fails` (Stat/FirstN.lean): C56 is false as stated for n = 0: if the first pulse passes, it is used although none should be.
* `average_pretrigger_zero_fails` (Stat/FirstN.lean): C71 is false as stated (documented "set the pretrigger period to strictly zero"): only the mean of the pretrigger samples is zero.
* `group_hist_same_number_fails` (Stat/Hist.lean): the group histogram needs distinct channel numbers: of two channels with one number only the last is counted
* `label_fails` (Stat/HistFig.lean): Disagreement (C204): with bins of different widths the text at the side of plot_hist's figure gives the width of the first bin for all: edges 0, 1, 11 are labelled "counts per 1.0 unit bin" though the second bin is 10 wide (mass/core/channel.py L2553-2554).
* `unchanged_fails` (Stat/HistFig.lean): Disagreement (C204): with a single edge plot_hist raises IndexError after it has drawn an empty curve and named the axis (mass/core/channel.py L2551-2553): an exception that leaves the figure changed.
* `linefit_label_fails` (Stat/HistFig.lean): Disagreement (C204): with bin edges given, the text at the side of linefit's figure gives the argument binsize (1 unless given), not the width of the bins: edges 0, 5, 10 are labelled "counts per 1.00 (eV) bin" (mass/core/channel.py L2586-2597).
* `means_ties_fails` (Stat/Location.lean): C86: with the default tolerance there is never a result (RuntimeError: too many iterations) if more than half of the data are equal, constant data among them: the tolerance is zero and no change is less than that
* `huber_weight_fails` (Stat/Location.lean): C86: the description says that the Huber mean gives no weight to data further than `k` from it; the value 1000 here shows otherwise
* `average_stops_fails` (Stat/Masks.lean): Disagreement (C134): a channel that fails should not affect the others; here the second channel's mask is too short, the first has its average, the third is never reached and none is marked bad.
* `masks_short_fails` (Stat/Masks.lean): Disagreement (C134): the channels with fewer gains than channels should be refused or done with gain 1; the masks come out too few, and the averages are refused.
* `merge_empty_first_fails` (Stat/Merge.lean): C35 is false for an empty first list: everything is flagged as coming from it.
* `gap_fails` (Stat/Neighbors.lean): Disagreement (C106): the n of a "n-th nearest neighbour" counts distances that a full grid would have, not channels that exist: of two channels at 0 and 5 each is the other's nearest neighbour, but is listed as the fifth, and no channel is listed as the first.
* `flagging_fails` (Stat/Neighbors.lean): Disagreement (C106, C51): `flag_crosstalking_pulses` never flags a pulse. The test whether any neighbour is in the group looks for the channel numbers in an array whose only element is the dictionary's keys object, and never finds one (and with h5py 3.0 or later the attribute `value` of a dataset is missing). Whatever the neighbours, the times and the options, the flags stay as they were: all false at first.
* `default_fails` (Stat/NoiseFile.lean): Disagreement (C187): without n_lags, as documented and by default, compute_autocorrelation always raises, for every file, state and limit; if the values could be computed they are kept nevertheless.
* `lags_fails` (Stat/NoiseFile.lean): Disagreement (C187): a number of lags other than the number of samples in a record is never possible (records of two or more samples), though fewer lags are an option of the method.
* `first_plot_fails` (Stat/NoiseFile.lean): Disagreement (C187): the figure of a file whose autocorrelation was not computed yet is never drawn: the computing it starts raises. If it was possible and gave anything but zeros, the next call draws.
* `no_group_fails` (Stat/NoiseFile.lean): Disagreement (C187): before a group of an HDF5 file is set nothing can be computed, though the source has a branch for it; this includes compute_noise_nlags, which never works.
* `resegment_fails` (Stat/NoiseFile.lean): Disagreement (C187): continuous noise cannot be cut into segments with another number of frequencies, which is the purpose of the option: the result does not fit the place for the spectrum.
* `uneven_fails` (Stat/PoissonHist.lean): Disagreement (C118): a histogram with error bars whose bin edges are not equally spaced is drawn with the wrong edges (all bins as wide as the distance of the first two centres); a single bin cannot be drawn.
* `qscale_constant_fails` (Stat/Qscale.lean): C85: constant data have no result (RuntimeError: too many distances tried), although all distances are 0
* `qscale_column_fails` (Stat/Qscale.lean): C85: data with all distances different have no result either if a trial is made in the first column
* `qscale_wrong_fails` (Stat/Qscale.lean): C85: after a trial in the first column a wrong distance can be returned (1; the right one is 0)
* `qscale_single_fails` (Stat/Qscale.lean): C85: the trial distance is kept in single precision, so the result need not be a distance between data at all: here 16777216 for 16777217
* `shorth_half_fails` (Stat/Robust.lean): The function's documentation says "at least half"; for an even number of values it uses one more.
* `shorth_mean_ties_fails` (Stat/Robust.lean): The documentation says the location is the mean of all samples in the interval; with ties it is not.
* `shorth_single_normalized_fails` (Stat/Robust.lean): The normalised range of a single value raises ZeroDivisionError.
* `high_median_fails` (Stat/Robust.lean): C34 is false in general: six values already in order; the values up to the reported one weigh 7 of 15.
* `falling_fails` (Stat/Savgol.lean): Disagreement (C118): a falling line is not preserved: the ends of it are padded as if it was rising, so they are bent
* `derivative_sign_fails` (Stat/Savgol.lean): Disagreement (C118): asking for the derivative of a rising line gives a negative number: the weights are not reversed before they are convolved with the signal
* `second_derivative_fails` (Stat/Savgol.lean): Disagreement (C118): the second derivative of `x²` is 2, but 1 is what the filter gives: the factor `d!` is missing
* `short_fails` (Stat/Savgol.lean): Disagreement (C118): the output is not as long as the signal if the signal is shorter than half a window
* `one_bin_fails` (Stat/Savgol.lean): Disagreement (C118): a histogram of one bin given by its center can not be drawn: the width is taken from the first two centers
* `unequal_fails` (Stat/Savgol.lean): Disagreement (C118): centers of unequal widths: the bins drawn are as wide as the first
* `wraps_fails` (Stat/Smoother.lean): C126. Disagreement (C126): the smoothing joins both ends of the histogram: a value at the upper limit counts in the lowest bin exactly as much as in the last bin but one.
* `thrown_out_fails` (Stat/Smoother.lean): C126. Disagreement (C126): the entropy is measured only of the pulses that stay within the limits and is not divided by their number, so the correction with the least entropy may be one that throws the pulses out: for two pulses within the limits there is a slope with no corrected height within them and with less entropy than without a correction.
* `overlap_fails` (Stat/SpectraFig.lean): Disagreement (C197): the ranges overlap: all frequencies from ten times the step of one spectrum to below ten times that of the next are shown by two curves.
* `twice_fails` (Stat/SpectraFig.lean): Disagreement (C197): with segments a quarter as long for the next spectrum, as they are chosen (C147), both curves have a point at the same frequency, each with its own value.
* `coarse_fails` (Stat/SpectraFig.lean): Disagreement (C197): a curve is shown from ten steps of the spectrum before it, which are only two and a half steps of its own: its third point is shown, where ten were meant.
* `label_fails` (Stat/SpectraFig.lean): Disagreement (C197): `PowerSpectrum.plot` exchanges the names: square roots, which are amplitudes, are called power spectral density, and powers are called amplitude spectral density.
* `add_long_overlap_fails` (Stat/Spectrum.lean): Data longer than half a segment but shorter than a segment are not ignored but raise ValueError.
* `overlap_split_fails` (Stat/Spectrum.lean): Splitting overlapping data at a segment boundary loses the segment across the boundary.
* `compute_spectrum_tail_fails` (Stat/Spectrum.lean): computeSpectrum with more than one segment never looks at the last half segment.
* `rebin_fails` (Stat/Spectrum.lean): With more bins, up to the permitted m, the last bin is always empty and NaN.
* `noise_spectrum_odd_fails` (Stat/Spectrum.lean): For records with an odd number of samples no record is ever used: the spectrum is NaN throughout.
* `noise_resegment_fails` (Stat/Spectrum.lean): Continuous noise cannot be resegmented unless the segment length divides the total number of samples: otherwise ValueError, although the remainder is meant to be dropped.
* `two_samples_fails` (Stat/Windows.lean): Disagreement (C138): the shortest spectrum (m = 1, two samples) divides by zero with a Bartlett, Hann or Welch window: all samples of these windows are ends, and 0.
* `welch_one_fails` (Stat/Windows.lean): Disagreement (C138): a Welch window of one sample is not a number, where the other windows are 1.
* `nano_fails` (States/Arrays.lean): Disagreement (C139): unixnano of a channel made from an array is the time cut to whole seconds, times 1e9: of two records less than a second apart it is often the same, and it is below the true time for every time that is not a whole second.
* `states_fails` (States/Arrays.lean): Disagreement (C139): so records get the wrong state: with state B from 10.5 s on, the record at 10.9 s counts as A, and nothing is in B.
* `no_time_fails` (States/Arrays.lean): Disagreement (C139): an array with neither p_timestamp nor unixnano makes a channel whose default cut keeps all records, but one without times: everything which uses states fails.
* `same_number_fails` (States/Arrays.lean): Disagreement (C139): of two channels with the same number only the later is kept, at the place of the earlier, without a message.
* `grown_fails` (States/Categories.lean): C122. Disagreement (C122): the categories are registered once per HDF5 file. If the state file has grown when the data are opened again, new states are given numbers that do not exist or belong to others: the pulse in state C is selected as state A, the one in B as uncategorized, and B and C cannot be selected.
* `auto_exclude_fails` (States/Categories.lean): C122. Disagreement (C122): the automatic exclusions make it worse: if at first there was only START (which is then not excluded), pulses in state A are later selected as START.
* `alias_fails` (States/Categories.lean): C122. Disagreement (C122): aliases (which can only be given after the group was opened) shift the numbers: with A and B merged to W, the pulse in C is selected as B, and W cannot be selected.
* `uncategorized_fails` (States/Categories.lean): C122. Disagreement (C122): a state that is called "uncategorized" is moved to the front of the categories, and the states after it are confused: the pulse in the state "uncategorized" is selected as B.
* `gap_fails` (States/Categories.lean): C122. Disagreement (C122): if cut fields were removed before the states were registered, their bits are not next to each other, and the plain numbers written by the summary are not the codes of the categories: B is selected as uncategorized and C as A.
* `merged_plot_fails` (States/Export.lean): Disagreement (C116): two labels given the same name, which `aliasState` offers, both stay in the list of labels, and a plot for which no states are asked counts their pulses twice: here pulses 3, 4 and 5 are in the merged state.
* `plot_no_states_fails` (States/Export.lean): Disagreement (C116): if every state is excluded, so that there are no labels, a plot for which no states are asked raises an IndexError instead of being empty.
* `merged_export_fails` (States/Export.lean): Disagreement (C116): with two labels given the same name, the export of the histograms ends with an error after the merged state has been written once: the summary of the channel is missing.
* `reserved_name_fails` (States/Export.lean): Disagreement (C116): a state may be called "counts", but then its histograms cannot be exported.
* `no_channels_fails` (States/Export.lean): Disagreement (C116): a group without a usable channel cannot be exported at all: the name of the cut is only set while looping over the channels.
* `no_states_fails` (States/Export.lean): Disagreement (C116): without any state label the export of energies and times, which has a branch for this case, uses the name of a state that was never set.
* `revisited_fails` (States/Export.lean): Disagreement (C116): if the channel has external trigger times, a state that was visited twice makes the export fail with an IndexError, after its energies and times have been written.
* `revisited_empty_fails` (States/Export.lean): Disagreement (C116): the same even if there are no pulses in the second visit.
* `batch_rounding_fails` (States/Props.lean): C22 as stated is false at nanosecond precision: state times are stored as float64, which at present-day values steps by 256 ns, so a pulse 100 ns before a state begins is put into it.
* `parse_auto_fails` (States/Props.lean): The states in use (not the labels read) do depend on the reading schedule with exclusions "auto": the exclusions are worked out from the labels seen at the first parse and then kept.
* `parse_midline_fails` (States/Props.lean): C24 is false when a read happens in the middle of a line: half the label is taken for a label and the rest of the line is an error.
* `incremental_repeat_fails` (States/Props.lean): C23 fails: the last state is a repeated one and a new state begins — AttributeError
* `incremental_return_fails` (States/Props.lean): C23 fails: the active state is a return to an earlier one — the wrong state grows
* `incremental_excluded_fails` (States/Props.lean): C23 fails: the active state is excluded — pulses that belong to no state are added to the last one
* `incremental_late_label_fails` (States/Props.lean): C23 fails: a label arrives late, after pulses of its state
* `incremental_late_pulse_fails` (States/Props.lean): C23 fails: pulses arrive late, after the label of the next state
* `refresh_unused_fails` (States/Props.lean): C23 fails: a channel whose dictionary was not used before the refresh gets the new states twice
* `compare_bad_fails` (States/Scatter.lean): Disagreement (C169): a comparison with and without drift correction that is to include bad pulses always fails: True is passed as the name of a cut.
* `map_axis_fails` (States/Scatter.lean): Disagreement (C169): axes given for a two-dimensional histogram are ignored: it is drawn in the current ones.
* `function_bad_fails` (States/Scatter.lean): Disagreement (C169): cuts may be functions, but then bad pulses cannot be shown: "!" and the name of the function is taken for the name of a recipe.
* `index_empty_fails` (States/Select.lean): An empty list of slices is refused by both, in different ways.
* `index_reversed_fails` (States/Select.lean): With a reversed slice (as an incremental refresh can produce, `refresh_unused_fails`) the two ways differ: one raises, the other ignores it.

## Trusted base

* Lean 4.33.0's kernel and the Mathlib modules imported (checked by the same kernel). No axioms are added; no `sorry`,
  `native_decide` or `bv_decide`. Literal examples and `_fails` witnesses use `decide +kernel`, which only trusts the kernel.
* The faithfulness of the hand-written model to the lines cited below, and python/numpy/h5py/scipy semantics as described in
  the comments. The code was read, not run.

Axioms each claimed theorem depends on:

* Quot.sound: `Names.Scr.modify_fails`
* none: `Algo.TimeCorr.copy_fails`, `Calc.Quality.group_results`, `Cut.Params.flag_false_fails`, `Cut.Params.overwritten_variable_fails`, `Cut.Params.shared_name_fails`, `Cut.auto_model_fails`, `Group.Sums.use_records_fails`, `Group.include_bad_nested_fails`, `Group.include_bad_why_fails`, `Group.n_good_skipped_fails`, `Lin.File.existing_kept`, `Lin.File.other_kind_fails`, `Lin.File.unknown_kind`, `Line.Figs.diagnose_empty_fails`, `Ljh.frame_count_fails`, `Ljh.off_empty_file_fails`, `Names.Scr.aux_fails`, `Names.Scr.column_fails`, `Names.Scr.modify_partial`, `Names.Scr.none_fails`, `Names.sort_names_inclusion_fails`, `Off.views_agree_fails`
* propext: `Algo.nearest_no_pulses_fails`, `Algo.versions_tie_fails`, `Calc.Corr.save_load_fails`, `Calc.Corr.save_refused`, `Calc.Quality.group_marks`, `Calc.Shapes.energy2ph_spec`, `Group.HdfFiles.overwrite_fails`, `Group.LineFits.save_spec`, `Group.ModelFile.extra_fails`, `Group.ModelFile.given_file_fails`, `Group.Plots.group_downs_spec`, `Group.Plots.multipage_fails`, `Group.Plots.scatter_spec`, `Group.Plots.y_label_fails`, `Group.Sums.noise_only_files`, `Group.Sums.noise_only_lists_fails`, `Group.Sums.noise_only_max_fails`, `Group.Vec.reopen`, `Group.Vec.resize_partial`, `Group.Vec.spread_fails`, `Group.unknown_channel_fails`, `Lin.File.ats_failed_partial`, `Lin.File.nan_filter_fails`, `Lin.File.save_spec`, `Line.Fit.refit_start_fails`, `Line.Registry.fitter_model`, `Line.Registry.same_name_fails`, `Names.HdfPrint.chosen_spec`, `Names.HdfPrint.contents_fails`, `Names.HdfPrint.empty_fails`, `Names.HdfPrint.main_files`, `Names.HdfPrint.main_stops`, `Names.HdfPrint.maxchan_fails`, `Names.HdfPrint.usage_fails`, `Names.Labels.off_again`, `Names.Scr.modify_lost_fails`, `Names.Scr.state_ok`, `Off.layout_ok_iff`, `Stat.merge_empty_first_fails`, `States.Export.plot_no_states_fails`, `States.index_empty_fails`, `States.index_reversed_fails`, `States.passing_pointwise`
* propext, Quot.sound: `Algo.CountRate.hist_total`, `Algo.Fake.copy_same`, `Algo.Fake.equal_fails`, `Algo.Fake.times_fails`, `Algo.Fake.virtual_fails`, `Algo.FilterData.filter_kept`, `Algo.OffRecord.times`, `Algo.OffRecord.which`, `Algo.Prompt.peak_position`, `Algo.Prompt.prompt_shift`, `Algo.Prompt.usual_peak_perm`, `Algo.Prompt.usual_peak_spec`, `Algo.Resume.filter_fails`, `Algo.Resume.marks`, `Algo.Resume.noise_fails`, `Algo.Resume.phase_resumed`, `Algo.Resume.phase_same_session_fails`, `Algo.Resume.phase_unopenable_fails`, `Algo.Resume.safe_steps`, `Algo.RiseTime.rise_perm`, `Algo.TimeCorr.lags_spec`, `Algo.TimeCorr.lengths_fails`, `Algo.TimeCorr.model_at_median`, `Algo.TimeCorr.one_cluster_fails`, `Algo.TimeCorr.one_curve`, `Algo.Trig.off_group`, `Algo.direct_refuses`, `Algo.mark_larger`, `Algo.nearest_arrivals_partial`, `Algo.nearest_single_fails`, `Algo.python_no_triggers_fails`, `Algo.single_after`, `Calc.Agree.cal_figure`, `Calc.Agree.cal_figure_missing`, `Calc.Agree.hist_perm`, `Calc.Align.above_refused`, `Calc.Cal.no_overwrite`, `Calc.Cal.resolve_spec`, `Calc.Chain.failed_phase_fails`, `Calc.Chain.phase_done`, `Calc.Corr.drift`, `Calc.Corr.phase_zero`, `Calc.Diag.energies_fails`, `Calc.PhaseLearn.forty_bins_fails`, `Calc.PhaseLearn.learn_none`, `Calc.Plan.energy_ignored_fails`, `Calc.Plan.lineFor_spec`, `Calc.Plan.no_points_fails`, `Calc.Plan.plan_aligned`, `Calc.Plan.stuck_fails`, `Calc.Plan.unknown_line`, `Calc.Quality.absolute_raises_fails`, `Calc.Quality.no_errorbars_fails`, `Calc.Quality.sigma_ignored_fails`, `Calc.Shapes.array_spec`, `Calc.Shapes.default_changes_fails`, `Calc.Shapes.default_spec`, `Calc.Shapes.dimensions_fails`, `Calc.Shapes.pieces`, `Calc.Shapes.scalar_differs_fails`, `Calc.Shapes.scalar_spec`, `Cut.Params.type_list_fails`, `Cut.Smart.summary_counts_fails`, `Cut.Stored.exhausted_fails`, `Cut.bad_ok_iff`, `Cut.clear_cut_unknown`, `Cut.cut_categorical_shadowed_fails`, `Cut.cut_parameter_open_range_fails`, `Cut.good_bad_with_categories`, `Cut.good_eq_not_bad`, `Cut.new_category_starts_default_fails`, `Cut.new_field_starts_good_fails`, `Cut.register_categorical_effect`, `Cut.register_duplicate_names_fails`, `Group.BinSize.block_fails`, `Group.BinSize.channel_size`, `Group.BinSize.group_size`, `Group.BinSize.set_for_all_partial`, `Group.HdfFiles.again`, `Group.HdfFiles.clobber_fails`, `Group.HdfFiles.kept_partial`, `Group.HdfFiles.made`, `Group.HdfFiles.made_iff`, `Group.Plots.difference_spec`, `Group.Plots.label_heights_fails`, `Group.Plots.multipage_spec`, `Group.Progress.no_updater_fails`, `Group.Restore.max_chans_fails`, `Group.Restore.open_new`, `Group.Seg.flux_group`, `Group.Seg.segment_of_sample`, `Group.Seg.unknown_channel_fails`, `Group.Seg.versions_fails`, `Group.Sums.fancy_fails`, `Group.Sums.noise_attrs_fails`, `Group.Sums.noise_spectra_fails`, `Group.Sums.noise_spectra_partial`, `Group.Vec.array_ok`, `Group.Vec.copy_channel_fails`, `Group.core_loop_stops`, `Group.include_bad_partial`, `Group.off_loop_isolates`, `Group.off_loop_stops`, `Group.why_always_right`, `Lin.ChanNoise.compute_same`, `Lin.ChanNoise.compute_spec`, `Lin.ChanNoise.no_step_fails`, `Lin.ChanNoise.noise_kept`, `Lin.ChanNoise.old_name_fails`, `Lin.ChanNoise.short_noise_fails`, `Lin.File.ask_cases`, `Lin.File.ats_reopen_partial`, `Lin.File.filtered_history`, `Lin.File.filtered_new`, `Lin.File.filtered_stale_fails`, `Lin.File.fits_history`, `Lin.File.five_reopen_partial`, `Lin.File.interrupted`, `Lin.File.interrupted_open_fails`, `Lin.File.skipped_fails`, `Lin.File.untyped_ats`, `Lin.KinkFit.fit_bounds`, `Lin.KinkFit.range_spec`, `Lin.PM.labels_fails`, `Lin.PM.load_version`, `Lin.PM.save_inverted_twice_fails`, `Lin.PM.save_keeps_partial`, `Lin.PM.save_load_memory`, `Lin.PM.save_load_partial`, `Lin.normalize_factor`, `Lin.normalize_refused`, `Line.Asd.addRow_spec`, `Line.Asd.available_spec`, `Line.Asd.negative_limit_fails`, `Line.Asd.rows_spec`, `Line.Asd.wanted_iff`, `Line.Asd.write_fails`, `Line.Figs.label_axis_fails`, `Line.Figs.result_axis_fails`, `Line.Figs.result_spec`, `Line.Fit.background_fails`, `Line.Fit.fit_one_bin`, `Line.Fit.method_spec`, `Line.Fit.same_prefix_fails`, `Line.Fit.weights_refused`, `Line.Hci.merge_keeps`, `Line.Registry.ambiguous_fails`, `Line.Sums.build_iff`, `Line.Sums.build_spec`, `Line.Sums.likelihood_partial`, `Line.Sums.order_fails`, `Ljh.Inverted.copy_fails`, `Ljh.Inverted.good_reads`, `Ljh.Inverted.made_good`, `Ljh.Inverted.sets_good`, `Ljh.Merge.expand_spec`, `Ljh.Polarity.one_reading`, `Ljh.Polarity.pulse_kept`, `Ljh.Polarity.pulse_new`, `Ljh.Polarity.run_inv`, `Ljh.version_spec`, `Names.HdfPrint.file_lines_partial`, `Names.HdfPrint.file_order`, `Names.HdfPrint.put_mem`, `Names.HdfPrint.put_none`, `Names.HdfPrint.scalar_fails`, `Names.Labels.chan_label`, `Names.Labels.chan_says`, `Names.Labels.folder_fails`, `Names.Paths.directory_error`, `Names.Paths.int_iff`, `Names.Paths.split_spec`, `Names.Scr.here_fails`, `Names.basename_no_channum`, `Names.channum_some`, `Names.remove_unpaired_keeps_valid`, `Names.sort_names_other`, `Names.sort_names_spec`, `Off.Runs.load_distinct`, `Off.Runs.load_spec`, `Off.Write.header_content`, `Off.record_size`, `Recipe.Cuts.group_named`, `Recipe.Cuts.load_unknown`, `Recipe.Drift.drift_fit`, `Recipe.Drift.eq_laws`, `Stat.FirstN.average_pulse_kept`, `Stat.HistFig.kept`, `Stat.HistFig.linefit_label_partial`, `Stat.Masks.average_refused`, `Stat.Masks.average_spec`, `Stat.Masks.masks_fail`, `Stat.Neighbors.gap_fails`, `Stat.Neighbors.list_absent`, `Stat.Neighbors.list_kept`, `Stat.Savgol.one_bin_fails`, `Stat.SpectraFig.label_fails`, `Stat.SpectraFig.plot_scaled`, `Stat.SpectraFig.plot_spec`, `Stat.bisquare_far`, `Stat.merge_empty_first_values`, `Stat.pairDist_unique`, `States.Arr.array_group`, `States.Export.hist_default`, `States.Export.labels_nodup_iff`, `States.index_methods_agree`, `States.select_unknown`, `States.toDouble_small`
* propext, Classical.choice, Quot.sound: all 1312 others

## Modelled code

Lines cited by definitions of the model (merged ranges):

* `mass/calibration/_highly_charged_ion_lines.py`: 10-842
* `mass/calibration/algorithms.py`: 23-34, 37-64, 67-111, 114-125, 128-162, 175-199, 205-230, 233-246, 278-306, 308-322, 336-407
* `mass/calibration/energy_calibration.py`: 15-51, 85-92, 94-123, 125-130, 134-174, 189-193, 195-204, 206-223, 241-245, 262-275, 280-293, 295-303, 305-308, 310-314, 316-321, 323-400, 415-420, 422-452, 454-608, 610-613, 631-724, 726-753, 755-771
* `mass/calibration/fluorescence_lines.py`: 38-64, 67-75, 77-79, 81-90, 92-100, 102-128, 130-137, 139-170, 176-180, 185-191, 193-194, 196-201, 204-231, 235-355, 357-358, 365-431, 434-442, 445-1505, 1508-1514
* `mass/calibration/hci_lines.py`: 53-115, 117-144, 148-170, 173-204
* `mass/calibration/hci_models.py`: 15-29, 32-72, 75-106, 109-135, 138-154, 157-222
* `mass/calibration/import_asd.py`: 22, 43-44, 61-86
* `mass/calibration/line_models.py`: 12-73, 76-84, 86, 92-114, 131-145, 166-186, 188-210, 216-228, 234-248, 257-277, 279-290, 301-314, 316-335, 341-358, 375-426
* `mass/calibration/nist_xray_database.py`: 27-36, 39, 41-74, 76-89, 92-108, 110-124, 126-146, 154-194, 197-206, 210-211
* `mass/core/analysis_algorithms.pyx`: 29-93, 97-216, 248-254, 258-260, 262-269, 293-337, 360-361, 421-425, 446-455, 508-510, 531-532, 534-536, 576-610, 637-656, 662-759, 762-779, 782-821, 853-887
* `mass/core/channel.py`: 52-86, 88-103, 128-134, 159-209, 216-224, 231, 233-242, 245-268, 270-344, 346-365, 370-403, 405-417, 446, 474-477, 487-492, 530-546, 578-582, 584-586, 588-664, 666-671, 673-798, 800-818, 860-861, 871-875, 877-884, 886-895, 898-984, 986-1069, 1071-1093, 1105-1118, 1122-1951, 1971-2035, 2058-2086, 2105-2134, 2137-2217, 2219-2226, 2228-2239, 2242-2264, 2281-2378, 2380-2535, 2537-2559, 2580-2703
* `mass/core/channel_group.py`: 33-42, 45-90, 128-209, 216-218, 222-241, 255-330, 332-371, 385-400, 412-429, 431-453, 455-461, 463-464, 466-471, 474-480, 482-489, 496-507, 509-512, 514-518, 521-546, 548-565, 567-616, 618-623, 625-647, 649-662, 688-694, 733-743, 745-750, 770, 774-818, 850-903, 905-929, 931-971, 973-1007, 1012-1021, 1024-1033, 1035-1074, 1076-1080, 1082-1089, 1125-1153, 1174-1178, 1180-1183, 1185-1210, 1246-1251, 1328, 1369, 1372-1385, 1433-1460, 1468-1472
* `mass/core/channel_group_hdf5_only.py`: 12-14, 17-51, 56-87, 91-98
* `mass/core/controller.py`: 15-52, 54-71
* `mass/core/cut.py`: 13-17, 21-30, 33-45, 52-67, 75-83, 85-473, 475-510, 512-539, 541-574, 576-585, 587-605, 607-619, 621-633
* `mass/core/cython_channel.pyx`: 95-217
* `mass/core/fake_data.py`: 39-42, 46-52, 66-79, 81-85, 100, 102-103, 105-107
* `mass/core/files.py`: 51, 83-111, 113-117, 119-123, 130-165, 181-305, 307-309, 318-332, 334-341, 354-359, 363-365, 376-404, 418-422, 425-427, 438-439, 442-485
* `mass/core/ljh2off.py`: 23-55, 57-59, 66-80, 83-126, 129-184, 187-194, 232-235
* `mass/core/ljh_modify.py`: 34-47, 104-110, 113-141, 144-161, 164-218
* `mass/core/ljh_util.py`: 20-30, 33-34, 37-63, 66-68, 71-74, 77-81, 84-93, 96-104, 107-156, 159-184, 187-202, 220-226
* `mass/core/optimal_filtering.py`: 70-98, 100-127, 129-146, 148-167, 170-183, 186-224, 229-263, 294-295, 352-360, 362-424, 426-507, 509-589, 591-610, 612-668, 670-689, 691-703, 706-722
* `mass/core/param_dict_base.py`: 58-62, 70-82, 90-94, 96-168, 170-180, 182-194, 204-215
* `mass/core/phase_correct.py`: 13-42, 44-54, 56-72, 83-142, 145-217, 219-252, 255-285, 288-328
* `mass/core/projectors_script.py`: 32-81, 84-129
* `mass/core/pulse_model.py`: 7-9, 16-51, 53-76, 78-100, 103-136, 138-145, 147-201
* `mass/core/utilities.py`: 137-157, 181-186, 190-194
* `mass/materials/efficiency_models.py`: 10-41, 43-52, 57-73, 83-126, 128-141, 157-188, 196-239, 247-271, 278-293, 296-320
* `mass/materials/uncertainties_helpers.py`: 10-27, 30-36, 131
* `mass/mathstat/derivative.py`: 34-35, 52-53, 60-61, 73-76, 87-292
* `mass/mathstat/entropy.pyx`: 41-74, 76-104, 107-163, 166-208, 211-321, 333-369
* `mass/mathstat/fitting.py`: 18-59, 62-108
* `mass/mathstat/interpolate.py`: 63-85, 87-133, 135-193, 213-230, 232-235, 269-278, 280-281, 283-294, 298, 302-305, 311-319, 321-338, 340-354, 356-368, 386-390, 396-405, 411-420, 422-426, 428-434, 466-472, 474-491, 494-513, 515-546, 548-553, 555-581, 594-597, 613-618, 620-621
* `mass/mathstat/power_spectrum.py`: 65-91, 93-143, 147-153, 157-172, 188-198, 200-213, 217-305
* `mass/mathstat/robust.pyx`: 39-75, 78-114, 118-128, 130-144, 147-214, 223-247, 251-319, 322-367, 370-492
* `mass/mathstat/special.py`: 25-72, 75-95
* `mass/mathstat/toeplitz.py`: 63-86, 88-102, 104-143, 145-166, 168-206
* `mass/mathstat/utilities.py`: 55-70, 87-90, 92-99, 103-197, 200-212
* `mass/nonstandard/targetspectra_fisx_example.py`: 18-36, 39-56, 59-61, 64-65, 97-100, 127-142, 145-149, 155
* `mass/off/channels.py`: 32-39, 47-64, 66-71, 75-936, 943-956, 967-991, 993-1014, 1016-1022, 1024-1033, 1035-1046, 1048-1060, 1064-1068, 1070-1073, 1075-1081, 1091-1095, 1098-1105, 1109, 1123-1148, 1150-1160, 1162-1171, 1173-1181, 1186-1190, 1192-1209, 1211-1320, 1322-1325, 1336-1360, 1362-1365, 1367-1399, 1401-1407, 1409-1414, 1416-1421, 1423-1427, 1434-1440, 1446-1535, 1539-1549
* `mass/off/experiment_state.py`: 8-31, 37-65, 67-79, 86-93, 95-168, 173-183, 185-187
* `mass/off/fivelag.py`: 6-18, 22-25, 28-31
* `mass/off/off.py`: 20-44, 47-58, 69-200
* `mass/off/recipe_classes.py`: 5-8, 11-16, 58-63
* `mass/off/util.py`: 29-39, 41-93, 103-138, 146-159, 162-184, 191-206, 243-259, 282-290, 312-314, 320-322, 347, 350-358, 362-373

## Not modelled

* Plotting, logging, progress bars and command-line entry points everywhere; `mass/nonstandard`.
* `mass/calibration`: line shapes (`line_models.py`, `fluorescence_lines.py`, `hci_*`), databases of lines, and the least-squares
  fits of `lmfit`; the smoothing splines of scipy (calibration curves use the interpolating spline modelled in C39, or an abstract
  curve that passes through the points).
* `mass/core`: `controller.py`, `fake_data.py`, `projectors_script.py`, entropy minimisation in drift and phase corrections (its
  result is an arbitrary input of the model), `MicrocalDataSet` caching in HDF5 apart from what C44, C49, C70 and C75 say.
* `mass/off/channels.py`: plots, fits and the entropy-based `learn…` functions; only what C25–C29, C53, C61 and C57 need is modelled.
* `mass/materials`, `mass/mathstat/special.py`, `mass/mathstat/fitting.py` except `kink_model`.
* Rounding of floating point (see Conventions), memory use, concurrency (the code has none apart from files that other programs append to,
  which C20 and C24 treat).
