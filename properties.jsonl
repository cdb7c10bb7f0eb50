{"id": "C01", "title": "Registered cut fields never share a bit", "statement": "After any sequence of registering and unregistering boolean and categorical cut fields on a TESGroup (successful or failing), every bit of the 32-bit cut word belongs to at most one registered field, and a bit is marked as used exactly when some registered field owns it.", "quantifier": "all finite sequences of (un)registration calls with any names, category lists and defaults, starting from a freshly initialised group", "why_tests_cant": "The bits handed out depend on the whole history of registrations and removals; tests exercise a handful of histories.", "anchors": ["mass/core/cut.py:CutFieldMixin.register_boolean_cut_fields", "mass/core/cut.py:CutFieldMixin.unregister_boolean_cut_fields", "mass/core/cut.py:CutFieldMixin.register_categorical_cut_field", "mass/core/cut.py:CutFieldMixin.unregister_categorical_cut_field"]}
{"id": "C02", "title": "Cutting one field never disturbs another", "statement": "Cuts.cut on field F changes no answer about any other field G: good(G)/bad(G) for boolean G and category_codes(G)/select_category(G=..) for categorical G are the same before and after, for every pulse.", "quantifier": "all reachable field tables, all pulse masks, all fields F != G, all mask arguments", "why_tests_cant": "Independence must hold for every combination of 32 bit positions, field kinds and prior mask contents.", "anchors": ["mass/core/cut.py:Cuts.cut", "mass/core/cut.py:Cuts.good", "mass/core/cut.py:Cuts.bad", "mass/core/cut.py:Cuts.category_codes", "mass/core/cut.py:Cuts.select_category"]}
{"id": "C03", "title": "Boolean cuts accumulate and good is the complement of bad", "statement": "After cut(F, m) on a boolean field, bad(F) is exactly (old bad(F) OR m) pulse by pulse; for any set of boolean field names, good(names) is the pointwise negation of bad(names), and bad(names) is the pointwise OR of bad(n) over the names.", "quantifier": "all reachable field tables, all pulse masks, all lists of registered names", "why_tests_cant": "Quantifies over every mask word and every combination of names.", "anchors": ["mass/core/cut.py:Cuts.cut", "mass/core/cut.py:Cuts.good", "mass/core/cut.py:Cuts.bad", "mass/core/cut.py:Cuts._boolean_fields_bit_mask"]}
{"id": "C04", "title": "clear_cut removes exactly the named cuts", "statement": "After clear_cut(names) every pulse is good for each named field, and every other boolean field and every categorical field reads exactly as before; clear_cut() with no names makes every pulse good for all boolean fields and leaves all categories alone.", "quantifier": "all reachable field tables, all pulse masks, all lists of names", "why_tests_cant": "Frame condition over all other fields and all mask contents.", "anchors": ["mass/core/cut.py:Cuts.clear_cut"]}
{"id": "C05", "title": "Categorical labels round-trip", "statement": "If each pulse is assigned one registered category of field F with cut_categorical, then select_category(F=c) returns exactly the pulses assigned to c, category_codes(F) returns the code listed for that category, distinct categories have distinct codes, pulses in no category read as the default category (code 0), and conflicting assignments are refused without changing anything.", "quantifier": "all reachable field tables (including fields whose bits are not contiguous), all category lists, all assignments", "why_tests_cant": "Categorical fields can own scattered bits after removals; encodings must be injective for every bit layout and number of categories.", "anchors": ["mass/core/cut.py:CutFieldMixin.register_categorical_cut_field", "mass/core/cut.py:Cuts.cut_categorical", "mass/core/cut.py:Cuts.select_category", "mass/core/cut.py:Cuts.category_codes"]}
{"id": "C06", "title": "A failed registration changes nothing", "statement": "When register_boolean_cut_fields, register_categorical_cut_field or either unregister call raises (out of bits, unknown name), the group's cut-field tables are exactly what they were before; registration of n new names succeeds if and only if enough free bits remain.", "quantifier": "all reachable field tables, all argument lists", "why_tests_cant": "Failure happens only at particular fill levels after particular histories.", "anchors": ["mass/core/cut.py:CutFieldMixin.register_boolean_cut_fields", "mass/core/cut.py:CutFieldMixin.register_categorical_cut_field"]}
{"id": "C07", "title": "A newly registered field starts with every pulse uncut", "statement": "Immediately after registering a new boolean field, every pulse is good for it, and after registering a new categorical field every pulse is in the default category - even if the bit previously belonged to an unregistered field.", "quantifier": "all histories of register/cut/clear/unregister/register", "why_tests_cant": "Only histories that recycle a bit can violate it.", "anchors": ["mass/core/cut.py:CutFieldMixin.unregister_boolean_cut_fields", "mass/core/cut.py:Cuts.cut"]}
{"id": "C08", "title": "cut_parameter cuts exactly the values outside the allowed range", "statement": "cut_parameter(data, (a,b), F) marks bad exactly the pulses with data <= a or data >= b (a missing limit never cuts; zero is a real limit), and with a list of ranges marks bad exactly the pulses lying in none of the closed ranges (or, with 'invert', in some of them). Pulses already bad stay bad.", "quantifier": "all data vectors, all limits including 0 and None, all lists of ranges, any position of 'invert'", "why_tests_cant": "The branches depend on truthiness of the limits and on the order of list elements; all inputs matter.", "anchors": ["mass/core/cut.py:Cuts.cut_parameter"]}
{"id": "C09", "title": "Channel number and base name round-trip through file names", "statement": "For every base name and channel number n, ljh_basename_channum(base + '_chan' + n + ext) returns (base, n) whenever ext contains no '_chan<digit>' and does not begin with a digit; ljh_chan_names regenerates a name that parses to the same base and each requested channel.", "quantifier": "all base-name strings (including ones that contain earlier '_chan<digits>' parts), all channel numbers, all extensions", "why_tests_cant": "Filename strings are unbounded; the last-match rule only shows on names with several candidates.", "anchors": ["mass/core/ljh_util.py:ljh_basename_channum", "mass/core/ljh_util.py:ljh_chan_names"]}
{"id": "C10", "title": "The file reader and the filename parser agree on the channel number", "statement": "LJHFile.open(f).channum equals ljh_channum(f) for every file name on which the former is defined.", "quantifier": "all file paths", "why_tests_cant": "Two independent parsers (first '_chan' vs last '_chan<digits>') on unbounded strings.", "anchors": ["mass/core/files.py:LJHFile.__init__", "mass/core/ljh_util.py:ljh_basename_channum"]}
{"id": "C11", "title": "Pairing pulse and noise files leaves only valid channels", "statement": "After remove_unpaired_channel_files(A, B, never_use, use_only), every file left in A or B has a channel number that occurs in both lists, is not in never_use, and is in use_only if given; no file with such a channel number is removed and order is preserved.", "quantifier": "all lists of file names, including repeated channels, all never_use/use_only lists", "why_tests_cant": "Depends on repeats and set relations over unbounded lists.", "anchors": ["mass/core/ljh_util.py:remove_unpaired_channel_files"]}
{"id": "C12", "title": "Sorting file names by channel is a stable permutation", "statement": "ljh_sort_filenames_numerically returns a permutation of its input ordered by channel number and, within a channel, by name; with an inclusion list it returns the same for the files whose channel is included.", "quantifier": "all non-empty lists of file names and inclusion lists", "why_tests_cant": "Universally quantified over lists.", "anchors": ["mass/core/ljh_util.py:ljh_sort_filenames_numerically"]}
{"id": "C13", "title": "LJH header scan finds the data offset and the last value of each key", "statement": "For any file that starts with at most 256 header lines before '#End of Header', read_ljh_header returns the byte offset just past that line, and for each key the value of its last 'key: value' line; without the end marker it always raises instead of returning.", "quantifier": "all byte strings", "why_tests_cant": "Input is an arbitrary byte stream.", "anchors": ["mass/core/files.py:read_ljh_header"]}
{"id": "C14", "title": "LJH records read back what was written", "statement": "If records (subframe count, microsecond time, samples) are appended to a version 2.2 file and the file is reopened, record i read back is exactly record i written, for every i, and the number of pulses equals the number of records; a file cut off at any byte (crash) reads as exactly the records completely written before the cut.", "quantifier": "all lists of records with int64 times and uint16 samples, all record lengths, all truncation points", "why_tests_cant": "Quantifies over all data and every possible crash offset.", "anchors": ["mass/core/files.py:LJHFile2_2", "mass/core/files.py:LJHFile._parse_header", "mass/core/ljh_modify.py:helper_write_pulse"]}
{"id": "C15", "title": "Segments partition the pulses", "statement": "For any file and any permitted segment size, iterating segnum in range(n_segments) with the slices [segnum*pulses_per_seg, min(end, nPulses)) visits every pulse number exactly once and in order.", "quantifier": "all file sizes (including empty and partial trailing records), all segment sizes", "why_tests_cant": "Boundary arithmetic must be right for all size combinations.", "anchors": ["mass/core/files.py:LJHFile.set_segment_size", "mass/core/channel.py:MicrocalDataSet.summarize_data", "mass/core/channel.py:MicrocalDataSet._filter_data_nocython"]}
{"id": "C16", "title": "ljh_truncate keeps exactly a prefix of the records", "statement": "ljh_truncate(in, out, n_pulses=n) with n <= nPulses writes exactly the first n records unchanged; with timestamp=t it writes exactly the records before the first record later than t; nothing is written to the input file, and the output header preserves every header key's value.", "quantifier": "all files, all n, all timestamps (including non-monotonic times)", "why_tests_cant": "All files and cut positions.", "anchors": ["mass/core/ljh_modify.py:ljh_truncate"]}
{"id": "C17", "title": "Copying traces preserves the data and the record description", "statement": "ljh_copy_traces(src, dest, pulses) produces a file whose i-th record equals record pulses[i] of src and whose number of samples and pretrigger samples, as seen by LJHFile.open, are the same as those of src.", "quantifier": "all source files and pulse lists", "why_tests_cant": "All files; requires write-then-read composition.", "anchors": ["mass/core/ljh_modify.py:ljh_copy_traces", "mass/core/files.py:make_ljh_header", "mass/core/files.py:LJHFile._parse_header"]}
{"id": "C18", "title": "Inverting raw data is an involution that reverses order", "statement": "With invert_data set every sample s reads as 65535 - s; doing it twice gives the original data and comparisons between samples are reversed.", "quantifier": "all 16-bit samples", "why_tests_cant": "Stated for all samples and all records.", "anchors": ["mass/core/files.py:LJHFile.alldata", "mass/core/files.py:LJHFile.__getitem__", "mass/core/ljh_modify.py:callback_invert"]}
{"id": "C19", "title": "OFF record layout is gap-free and both views agree", "statement": "For each supported OFF version and basis count the record's fields are contiguous and non-overlapping, the record size is the documented sum, and the dtype with descriptive coefficient names has the same size and the same byte range for every field as the plain dtype.", "quantifier": "all supported versions, all numbers of basis elements", "why_tests_cant": "Unbounded nBasis.", "anchors": ["mass/off/off.py:recordDtype"]}
{"id": "C20", "title": "A growing OFF file never changes records already seen", "statement": "If bytes are appended to an OFF file and the view is refreshed, nRecords never decreases, equals the number of complete records, and every record visible before reads the same after; a partial trailing record is never visible.", "quantifier": "all file contents, all append histories (schedules of writer and reader)", "why_tests_cant": "All interleavings of appends and refreshes.", "anchors": ["mass/off/off.py:OffFile._updateMmap"]}
{"id": "C21", "title": "LJH to OFF conversion covers each record once, in order", "statement": "Converting an LJH file to OFF emits exactly one OFF record per LJH record, in order, whatever the internal segment size, and the projections of each record depend only on that record.", "quantifier": "all record counts, all segment sizes", "why_tests_cant": "Segment-boundary arithmetic for all sizes.", "anchors": ["mass/core/ljh2off.py:ljh_records_to_off"]}
{"id": "C22", "title": "Each pulse belongs to the state in force at its time", "statement": "With non-decreasing label times and pulse times, the batch state dictionary assigns pulse i to label L exactly when the last state-file entry at or before pulse i's time has label L (and L is not excluded); the slices of different labels never overlap and are in bounds.", "quantifier": "all state files with non-decreasing times (including repeated labels), all non-decreasing pulse times, all exclusion lists", "why_tests_cant": "Order/tie structure between two unbounded sequences.", "anchors": ["mass/off/experiment_state.py:ExperimentStateFile.calcStatesDict"]}
{"id": "C23", "title": "Refreshing states incrementally equals recomputing from scratch", "statement": "Updating the state dictionary with newly arrived pulses and labels (calcStatesDict with statesDict and i0 arguments) yields the same assignment as computing it in one batch on all pulses and labels.", "quantifier": "all splits of all label/pulse histories", "why_tests_cant": "All histories and refresh schedules.", "anchors": ["mass/off/experiment_state.py:ExperimentStateFile.calcStatesDict", "mass/off/channels.py:ChannelGroup.refreshFromFiles"]}
{"id": "C24", "title": "Incremental parsing of a growing state file equals one full parse", "statement": "Parsing a state file repeatedly as complete lines are appended yields the same labels and times as parsing the final file once.", "quantifier": "all line sequences, all splits of the appends at line boundaries", "why_tests_cant": "All refresh schedules.", "anchors": ["mass/off/experiment_state.py:ExperimentStateFile.parse"]}
{"id": "C25", "title": "A recipe's value is a fixed function of the base data", "statement": "After any sequence of successful RecipeBook.add calls, craft(name, data) always terminates and returns the composition of functions that were bound when the recipe was added; adding or overwriting other recipes later never changes what an existing recipe returns.", "quantifier": "all sequences of add calls (including overwrites), all data", "why_tests_cant": "History dependent; termination for all books.", "anchors": ["mass/off/util.py:RecipeBook.add", "mass/off/util.py:RecipeBook.craft", "mass/off/util.py:Recipe.__call__"]}
{"id": "C26", "title": "Negated cut recipes invert per leading '!'", "statement": "craft('!'*k + cutname, data) equals craft(cutname) when k is even and its pointwise negation when k is odd.", "quantifier": "all k, all cut recipes, all data", "why_tests_cant": "Unbounded number of '!'.", "anchors": ["mass/off/util.py:RecipeBook._craftCut"]}
{"id": "C27", "title": "Group methods isolate failing channels", "statement": "Calling a looped method on a channel group runs it exactly once on every channel that was good at the start; a channel whose call raises is marked bad with a reason, the others' results are unaffected, previously bad channels are untouched; with rethrow the first failure stops the loop.", "quantifier": "all channel sets, all patterns of failures", "why_tests_cant": "All 2^n failure patterns.", "anchors": ["mass/off/util.py:add_group_loop", "mass/core/channel.py:_add_group_loop"]}
{"id": "C28", "title": "Inside 'with data.includeBad()' every channel is iterated", "statement": "Within a with data.includeBad() block, iteration/len/keys cover all channels including bad ones, whatever other group properties and methods are called inside the block; outside any block only good channels are iterated.", "quantifier": "all nestings of includeBad blocks and of calls that use it internally, all bad sets", "why_tests_cant": "Nesting depth and call sequences are unbounded.", "anchors": ["mass/off/channels.py:ChannelGroup.includeBad", "mass/off/channels.py:ChannelGroup.__enter__", "mass/off/channels.py:ChannelGroup.__exit__", "mass/off/channels.py:ChannelGroup.whyChanBad"]}
{"id": "C29", "title": "Indexing with a list of slices equals concatenating the pieces", "statement": "For any list of in-range slices, the preallocate-and-truncate method and the repeated-concatenation method return the same records: for each slice in order, the records in it that pass the cut.", "quantifier": "all record sequences, all lists of slices, all cuts", "why_tests_cant": "All lists and cuts.", "anchors": ["mass/off/channels.py:Channel._indexOffWithCuts", "mass/off/channels.py:ChannelFromNpArray._indexOffWithCuts"]}
{"id": "C30", "title": "External-trigger delays are the true nearest gaps", "statement": "nearest_arrivals(pulses, triggers) with sorted inputs returns for each pulse the time since the last trigger at or before it and the time until the first trigger after it (sentinel 'max' when none exists), the result of the fast merge scan being equal to the straightforward binary-search version.", "quantifier": "all sorted trigger lists of any length including 0 and 1, all sorted pulse lists", "why_tests_cant": "Tie and boundary patterns across unbounded lists.", "anchors": ["mass/core/analysis_algorithms.pyx:nearest_arrivals", "mass/core/analysis_algorithms.pyx:python_nearest_arrivals"]}
{"id": "C31", "title": "Flux-jump correction moves values by whole flux quanta into one window", "statement": "correct_flux_jumps returns values that differ from the originals by integer multiples of the flux quantum, all lying within one quantum-wide window of the reference, so two values equal modulo the quantum become equal and values already within the window are unchanged.", "quantifier": "all value vectors, all positive quanta, all masks", "why_tests_cant": "All real data.", "anchors": ["mass/core/analysis_algorithms.pyx:correct_flux_jumps"]}
{"id": "C32", "title": "The streaming 5-lag filter equals direct correlation and the parabola formula is exact", "statement": "filter_data_5lag (single pass) yields the same five lagged dot products as correlating the filter with the record at lags 0..4; whenever the five points lie on a parabola with nonzero curvature the reported value and phase are exactly its vertex; in general the coefficients are the least-squares quadratic.", "quantifier": "all records and filters of any length, all five-point sets", "why_tests_cant": "Universal algebraic identities.", "anchors": ["mass/core/analysis_algorithms.pyx:filter_data_5lag_cython", "mass/core/channel.py:MicrocalDataSet._filter_data_segment_5lag", "mass/off/fivelag.py:calc_5lag_fit_matrix"]}
{"id": "C33", "title": "shorth_range is the shortest half", "statement": "shorth_range(x) returns the minimum width over all closed intervals containing more than half of the data (and the reported interval attains it).", "quantifier": "all non-empty data sets", "why_tests_cant": "Optimality over all intervals.", "anchors": ["mass/mathstat/robust.pyx:shorth_range"]}
{"id": "C34", "title": "The weighted high median splits the weight", "statement": "high_median(x, w) returns the smallest data value such that the total weight of values at or below it exceeds half of the total weight.", "quantifier": "all data and non-negative weights with positive total", "why_tests_cant": "All weight vectors; the search path depends on all weights.", "anchors": ["mass/mathstat/robust.pyx:high_median", "mass/mathstat/robust.pyx:_high_median"]}
{"id": "C35", "title": "Merging two sorted lists is a sorted merge that remembers provenance", "statement": "The merge used for two-sample entropy returns a sorted permutation of both lists and a flag vector telling for each entry which list it came from; the subsequence flagged 'first' is exactly the first list.", "quantifier": "all pairs of sorted lists", "why_tests_cant": "All interleavings.", "anchors": ["mass/mathstat/entropy.pyx:_merge_orderedlists"]}
{"id": "C36", "title": "The Toeplitz solver solves", "statement": "For every symmetric Toeplitz matrix on which the recursion does not divide by zero, mult(solve(y)) = y in exact arithmetic, for every size n >= 2.", "quantifier": "all sizes, all matrices, all right-hand sides over a field", "why_tests_cant": "Unbounded dimension; correctness of a recursion.", "anchors": ["mass/mathstat/toeplitz.py:ToeplitzSolver"]}
{"id": "C37", "title": "bracketR is the quadratic form of the Toeplitz matrix", "statement": "bracketR(q, noise) = sum_ij q_i noise_|i-j| q_j, for every length from 1 on, and raises when noise is shorter than q.", "quantifier": "all vectors", "why_tests_cant": "Unbounded dimension.", "anchors": ["mass/core/optimal_filtering.py:bracketR"]}
{"id": "C38", "title": "Whitening and unwhitening are inverse", "statement": "ToeplitzWhitener.solveW(whiten(v)) = v and whiten(solveW(v)) = v, and whiten multiplies by MA^-1 AR, in exact arithmetic for any AR/MA coefficients with nonzero leading terms, any length and orders.", "quantifier": "all vectors, all coefficient lists", "why_tests_cant": "Unbounded length and order, index boundary cases.", "anchors": ["mass/core/optimal_filtering.py:ToeplitzWhitener"]}
{"id": "C39", "title": "The cubic spline interpolates, is smooth, and extrapolates linearly", "statement": "CubicSpline passes through every data point, agrees in value and slope from both sides at every knot, is linear beyond the end knots with continuous value and slope, and reproduces straight lines exactly; der=1,2,3 return the true derivatives.", "quantifier": "all strictly increasing knot sets with at least 2 points and all values over a field", "why_tests_cant": "All knot sets of any size.", "anchors": ["mass/mathstat/interpolate.py:CubicSpline"]}
{"id": "C40", "title": "Symbolic derivatives are true derivatives and simplification preserves values", "statement": "For every expression built from constants, powers, log, exp, sums, products and compositions, the derivative() method denotes the mathematical derivative wherever the expression is regular, and the automatic simplifications do not change values there.", "quantifier": "all expression trees", "why_tests_cant": "Unbounded expression depth.", "anchors": ["mass/mathstat/derivative.py:Function", "mass/mathstat/derivative.py:ExprMeta", "mass/mathstat/derivative.py:Composition", "mass/mathstat/derivative.py:Multiplication", "mass/mathstat/derivative.py:Summation"]}
{"id": "C41", "title": "The calibration point table stays consistent", "statement": "After any sequence of add_cal_point and remove_cal_point_* calls that succeed, the pulse heights, energies, errors and names have equal length and stay aligned; a name maps to the pulse height last given for it; re-adding a point by name or within e_error replaces rather than duplicates.", "quantifier": "all sequences of operations", "why_tests_cant": "History dependent.", "anchors": ["mass/calibration/energy_calibration.py:EnergyCalibration.add_cal_point", "mass/calibration/energy_calibration.py:EnergyCalibration.remove_cal_point_name", "mass/calibration/energy_calibration.py:EnergyCalibration._update_converters"]}
{"id": "C42", "title": "Removing calibration points by energy removes exactly the matching ones", "statement": "remove_cal_point_energy(E, de) removes exactly the points with |energy - E| < de and keeps all others; remove_cal_point_prefix(p) removes exactly the points whose name starts with p.", "quantifier": "all tables, all E, de, prefixes", "why_tests_cant": "Index shifting only shows with several matches.", "anchors": ["mass/calibration/energy_calibration.py:EnergyCalibration.remove_cal_point_energy", "mass/calibration/energy_calibration.py:EnergyCalibration.remove_cal_point_prefix"]}
{"id": "C43", "title": "A rejected calibration point leaves the calibration unchanged", "statement": "If add_cal_point raises because the new point would make the table non-monotonic, the calibration's points are exactly what they were.", "quantifier": "all tables and points", "why_tests_cant": "Failure atomicity over all states.", "anchors": ["mass/calibration/energy_calibration.py:EnergyCalibration.add_cal_point"]}
{"id": "C44", "title": "Calibration settings given at construction take effect", "statement": "EnergyCalibration(nonlinearity=p, curvetype=c, ...) behaves with that nonlinearity and curve type, and saving to HDF5 then loading restores the same points and settings.", "quantifier": "all constructor arguments and tables", "why_tests_cant": "All parameter values.", "anchors": ["mass/calibration/energy_calibration.py:EnergyCalibration.__init__", "mass/calibration/energy_calibration.py:EnergyCalibration.set_nonlinearity", "mass/calibration/energy_calibration.py:EnergyCalibration.load_from_hdf5"]}
{"id": "C45", "title": "Fit ranges contain their line and do not overlap", "statement": "build_fit_ranges gives for each line an interval that contains the line energy, is no wider than the requested width, and contains no other (included or excluded) line; intervals of different lines overlap at most at an end point.", "quantifier": "all sets of distinct line energies and all positive widths", "why_tests_cant": "All configurations of neighbours.", "anchors": ["mass/calibration/algorithms.py:build_fit_ranges"]}
{"id": "C46", "title": "Phase and drift corrections fix the reference point", "statement": "Drift correction leaves a pulse at the median indicator unchanged and is linear in pulse height; phase correction leaves pulses with zero phase correction unchanged, is continuous and piecewise linear in pulse height between calibration peaks, and leaves non-positive pulse heights unchanged.", "quantifier": "all data, slopes, peaks", "why_tests_cant": "Continuity and identities for all values.", "anchors": ["mass/off/channels.py:DriftCorrection.apply", "mass/core/phase_correct.py:_phase_corrected_filtvals", "mass/core/analysis_algorithms.pyx:drift_correct"]}
{"id": "C47", "title": "Power-spectrum segmentation stays inside the data", "statement": "addLongData on any data vector uses only complete segments inside the data, each of the right length, first starting at 0 (and, with overlap, last ending at the end), and the accumulated spectrum is independent of how the data were split into calls at segment boundaries.", "quantifier": "all data lengths and segment lengths", "why_tests_cant": "Boundary arithmetic with rounding for all sizes.", "anchors": ["mass/mathstat/power_spectrum.py:PowerSpectrum.addLongData", "mass/mathstat/power_spectrum.py:PowerSpectrumOverlap.addLongData"]}
{"id": "C48", "title": "Extending a pulse model keeps projectors dual to the basis", "statement": "If projectors*basis is the identity then after adding SVD components (from any orthonormal range Q of the residuals) the extended projectors and basis again multiply to the identity; flipping signs for inverted data preserves this.", "quantifier": "all dimensions, all training pulses", "why_tests_cant": "Matrix identity in all dimensions.", "anchors": ["mass/core/pulse_model.py:PulseModel._additional_projectors_tsvd", "mass/core/pulse_model.py:PulseModel.toHDF5"]}
{"id": "C49", "title": "Saving a pulse model does not change it", "statement": "PulseModel.toHDF5 may be called any number of times: each call writes the same content and the in-memory model is unchanged.", "quantifier": "all models, both settings of save_inverted, any number of saves", "why_tests_cant": "Only a second save shows the damage.", "anchors": ["mass/core/pulse_model.py:PulseModel.toHDF5"]}
{"id": "C50", "title": "The kink model is the least-squares optimum", "statement": "For a fixed kink k strictly inside the data and non-singular normal equations, kink_model returns the coefficients minimising the sum of squared residuals, and the reported X2 is that minimum.", "quantifier": "all data, all k", "why_tests_cant": "Optimality over all coefficients.", "anchors": ["mass/mathstat/fitting.py:kink_model"]}
{"id": "C51", "title": "A pulse is flagged for crosstalk exactly when a neighbour fires inside its window", "statement": "flag_crosstalking_pulses marks pulse i exactly when some neighbouring-channel pulse time lies in [t_i - prior, t_i + post].", "quantifier": "all sorted victim times, all neighbour times, all windows", "why_tests_cant": "Overlap patterns of windows are unbounded.", "anchors": ["mass/core/channel.py:MicrocalDataSet.flag_crosstalking_pulses"]}
{"id": "C52", "title": "Crosstalk veto counts hits in the window", "statement": "CrosstalkVeto.veto(t) is true exactly when more than one good pulse has its veto window covering the millisecond of t.", "quantifier": "all pulse times and windows, any number of hits", "why_tests_cant": "Counter width matters only beyond 127 coincident hits.", "anchors": ["mass/core/channel_group.py:CrosstalkVeto"]}
{"id": "C53", "title": "Bad-channel bookkeeping is consistent", "statement": "After any sequence of set_chan_bad / set_chan_good / set_all_chan_good, the good channels are exactly the data sets not marked bad, each bad channel's reasons are the comments given since it was last good, good and bad partition the data sets, and the counts reported agree.", "quantifier": "all call sequences", "why_tests_cant": "Histories.", "anchors": ["mass/core/channel_group.py:TESGroup.set_chan_bad", "mass/core/channel_group.py:TESGroup.set_chan_good", "mass/core/channel_group.py:TESGroup.good_channels", "mass/core/channel_group.py:TESGroup.n_good_channels"]}
{"id": "C54", "title": "FFT padding is sufficient and modest", "statement": "The padded length chosen for the autocorrelation FFT is at least n, less than twice n, and of the form (1, 3 or 5) times a power of two; the smallest such number.", "quantifier": "all n >= 1", "why_tests_cant": "Number-theoretic for all n.", "anchors": ["mass/core/channel.py:NoiseRecords._compute_continuous_autocorrelation"]}
{"id": "C55", "title": "The max-derivative scan equals its specification", "statement": "The post-peak derivative of summarize_data is the maximum over positions of min(d[k], d[k-2]) of the smoothed difference, and the peak index is the first position of the maximum sample after the trigger.", "quantifier": "all records", "why_tests_cant": "All records of any length.", "anchors": ["mass/core/cython_channel.pyx:summarize_data_cython"]}
{"id": "C56", "title": "First-n-good selection takes exactly the first n good pulses", "statement": "first_n_good_pulses(n) and avg_pulses_auto_masks(max_pulses_to_use=n) use exactly the first n pulses that pass (all of them if fewer).", "quantifier": "all cut masks, all n", "why_tests_cant": "All masks and n.", "anchors": ["mass/core/channel.py:MicrocalDataSet.first_n_good_pulses", "mass/core/channel.py:MicrocalDataSet.avg_pulses_auto_masks"]}
{"id": "C57", "title": "Group histograms add up", "statement": "The group histogram equals the sum over good channels of the channel histograms, every in-range good non-NaN value is counted in exactly one bin, and the total equals the number of such values.", "quantifier": "all bin edges (sorted), all values", "why_tests_cant": "All edges and values incl. ties at edges.", "anchors": ["mass/core/channel.py:MicrocalDataSet.hist", "mass/core/channel_group.py:TESGroup.hist", "mass/off/channels.py:ChannelGroup.hist"]}
{"id": "C58", "title": "LJH 2.1 time stamps recover the exact frame number", "statement": "For a version 2.1 file the frame number computed from a record's time stamp (microseconds plus 4-microsecond ticks) is exactly the frame in which the record was triggered, for every frame, when the frame period is a whole number of nanoseconds and at least 4000 ns; it is not exact for shorter periods.", "quantifier": "all frame numbers, all frame periods", "why_tests_cant": "All frames up to the 32-bit limits; off-by-one at period boundaries.", "anchors": ["mass/core/files.py:LJHFile2_1"]}
{"id": "C59", "title": "Appending traces keeps the old records and adds the new ones", "statement": "ljh_append_traces(src, dest, pulses) leaves dest with its old records unchanged followed by exactly records pulses[0], pulses[1], ... of src, also when src and dest are the same file.", "quantifier": "all source and destination files with the same record length, all pulse lists (including negative indices and repeats)", "why_tests_cant": "All files, including ones left with an incomplete record by a crash; write-then-read composition.", "anchors": ["mass/core/ljh_modify.py:ljh_append_traces", "mass/core/ljh_modify.py:helper_write_pulse"]}
{"id": "C60", "title": "OFF records start right after the header", "statement": "Opening an OFF file reads record 0 from the first byte after the JSON header, whatever the header contains.", "quantifier": "all header texts (including non-ASCII), all file contents", "why_tests_cant": "All headers; length in characters and length in bytes differ.", "anchors": ["mass/off/off.py:OffFile.__init__", "mass/off/off.py:readJsonString"]}
{"id": "C61", "title": "Selecting a state returns exactly its pulses", "statement": "Reading a channel's records for one state returns, in recording order and once each, exactly the records that pass the cut and whose state in force (last state-file entry at or before the record's time) is that state, also when the state occurs several times. Asking for several states gives the records of the first, then of the second, and so on; an unknown state is refused.", "quantifier": "all state files with non-decreasing times, all non-decreasing pulse times, all cuts that look at each record by itself, all aliases", "why_tests_cant": "All histories of states and pulses; composition of the state bookkeeping with slice-list indexing.", "anchors": ["mass/off/channels.py:Channel.getStatesIndicies", "mass/off/channels.py:Channel._indexOffWithCuts", "mass/off/experiment_state.py:ExperimentStateFile.calcStatesDict"]}
{"id": "C62", "title": "Flux-jump correction leaves no residual jump", "statement": "If, apart from whole flux quanta, the good values all lie in an interval shorter than a quarter quantum, then after correct_flux_jumps the good values lie within a quarter quantum of each other: no jump is left.", "quantifier": "all value lists, all masks, all positive quanta", "why_tests_cant": "All mixes of levels, boundary cases of half a quantum.", "anchors": ["mass/core/analysis_algorithms.pyx:correct_flux_jumps"]}
{"id": "C63", "title": "The 5-lag optimal filter ignores the baseline, measures the pulse height and is optimal", "statement": "compute_5lag gives weights that sum to zero, are zero in the cut windows, and have the length of a record less 4. Filtering a record made of any constant plus c times the model signal with these weights and the 5-lag method gives exactly c. When the noise matrix is positive definite, no other weights that ignore a constant and respond equally to the model signal have smaller output variance.", "quantifier": "all model signals, noise autocorrelations, cut windows, record contents (without low-pass options), over an ordered field", "why_tests_cant": "Optimality over all alternatives; unbounded dimension; composition of filter construction and filtering.", "anchors": ["mass/core/optimal_filtering.py:FilterMaker.compute_5lag", "mass/core/optimal_filtering.py:FilterMaker._normalize_5lag_filter", "mass/core/channel.py:MicrocalDataSet._filter_data_segment_5lag"]}
{"id": "C64", "title": "The arrival-time-safe filter separates height, arrival time and baseline and is optimal", "statement": "The three filters of compute_ats respond to a record b + c*signal + d*dt_model with exactly c, d and b, have zero weight in the cut windows, and the first has minimum variance among all weights with the same responses; a whitener or a noise autocorrelation may be given.", "quantifier": "all model signals, dt models, noise models and cut windows (without low-pass options), over an ordered field", "why_tests_cant": "Optimality over all alternatives; unbounded dimension; two computation paths.", "anchors": ["mass/core/optimal_filtering.py:FilterMaker.compute_ats", "mass/core/optimal_filtering.py:ToeplitzWhitener"]}
{"id": "C65", "title": "Accepted calibration tables are monotone", "statement": "After every add_cal_point that succeeds, no calibration point with a larger pulse height has a smaller energy; and if pulse heights and energies of all points are in the same strict order, the point is accepted.", "quantifier": "all tables, pulse heights, energies, errors and names", "why_tests_cant": "All histories of points.", "anchors": ["mass/calibration/energy_calibration.py:EnergyCalibration.add_cal_point"]}
{"id": "C66", "title": "Calibration curves pass through the calibration points", "statement": "An exact (not approximating) calibration of any curve type with two or more accepted points of distinct pulse height takes each point's pulse height to its energy, linear+0 also takes 0 to 0, and energy2ph takes the energies back to the pulse heights where the curve is strictly increasing. With one point, loglog gives a power law and gain and invgain a proportionality through the point.", "quantifier": "all sets of calibration points the curve type can handle (positive for logarithms, nonzero for quotients), all curve types, over the reals", "why_tests_cant": "All tables and curve types; real-valued functions.", "anchors": ["mass/calibration/energy_calibration.py:EnergyCalibration._update_exactcurves", "mass/calibration/energy_calibration.py:EnergyCalibration._update_converters", "mass/calibration/energy_calibration.py:EnergyCalibration.energy2ph"]}
{"id": "C67", "title": "A calibration without points can be used", "statement": "A newly made EnergyCalibration of any curve type and nonlinearity converts pulse heights to themselves until points are added.", "quantifier": "all curve types and nonlinearities", "why_tests_cant": "All parameter values; depends on whether the constructor marks the curve as out of date.", "anchors": ["mass/calibration/energy_calibration.py:EnergyCalibration.__init__", "mass/calibration/energy_calibration.py:EnergyCalibration.set_nonlinearity", "mass/calibration/energy_calibration.py:EnergyCalibration._update_converters"]}
{"id": "C68", "title": "Peaks are assigned to lines in the best way", "statement": "find_opt_assignment returns increasing peak positions, one per line, chosen among the first N peaks, with the least misfit of all such choices and a misfit within the tolerance, for the least N tried that allows it; it raises ValueError only if no permitted choice is within the tolerance. If some of the first peaks are in exactly linear relation to the energies an assignment is found.", "quantifier": "all lists of distinct peak positions and of distinct line energies, all nextra, nextramax, positive nincrement and non-negative tolerances", "why_tests_cant": "All inputs; optimality over all choices of peaks.", "anchors": ["mass/calibration/algorithms.py:find_opt_assignment"]}
{"id": "C69", "title": "Noise autocorrelation is the average lagged product", "statement": "compute_autocorrelation gives at each lag l the average, over the accepted pieces of noise with their means removed, of the sum of products of samples l apart divided by the number of such products, with no wrap-around from the transforms it uses; pieces with too large an excursion are left out; data_samples restricts it to the given range of samples.", "quantifier": "all noise data, record lengths, segment sizes, numbers of lags, excursion limits and sample ranges", "why_tests_cant": "All lengths; equality of an FFT computation with a direct sum over the reals.", "anchors": ["mass/core/channel.py:NoiseRecords._compute_continuous_autocorrelation", "mass/core/channel.py:NoiseRecords._compute_broken_autocorrelation", "mass/core/channel.py:NoiseRecords.compute_autocorrelation"]}
{"id": "C70", "title": "Saved phase corrections load unchanged", "statement": "Saving a phase correction to HDF5 and loading it gives the same correction, whatever was stored before when overwriting is requested; without overwriting, an existing one is refused and kept.", "quantifier": "all corrections, all prior contents", "why_tests_cant": "All histories of saves.", "anchors": ["mass/core/phase_correct.py:PhaseCorrector.toHDF5", "mass/core/phase_correct.py:PhaseCorrector.fromHDF5"]}
{"id": "C71", "title": "The average pulse is the mean of the chosen records", "statement": "compute_average_pulse stores, at every sample, the mean over the chosen records, less the mean of the used pretrigger samples if requested, so that the stored pulse averages to zero there and is zero before the pulse as documented; an existing non-zero average pulse is kept unless a new one is forced.", "quantifier": "all records, masks and pretrigger lengths with at least one chosen record", "why_tests_cant": "All data and masks.", "anchors": ["mass/core/channel.py:MicrocalDataSet.compute_average_pulse"]}
{"id": "C72", "title": "Rebinned spectra average neighbouring frequencies", "statement": "spectrum(nbins) for every permitted nbins returns nbins+1 numbers, each the mean of the estimates of one group of neighbouring frequencies; every frequency belongs to exactly one group.", "quantifier": "all spectra, all nbins up to the permitted m", "why_tests_cant": "Rounding arithmetic for all sizes; empty groups give NaN.", "anchors": ["mass/mathstat/power_spectrum.py:PowerSpectrum.spectrum"]}
{"id": "C73", "title": "Power spectral densities integrate to the mean square", "statement": "The spectrum computed from data, integrated over frequency with the first and last entries counted half, is the mean square of the windowed data relative to the window's mean square, averaged over segments.", "quantifier": "all data, window values, sample times and segment lengths, over the reals", "why_tests_cant": "Equality of sums of squared Fourier coefficients with sums of squares for all lengths and data.", "anchors": ["mass/mathstat/power_spectrum.py:PowerSpectrum.addDataSegment", "mass/mathstat/power_spectrum.py:PowerSpectrum.addLongData", "mass/mathstat/power_spectrum.py:PowerSpectrum.frequencies"]}
{"id": "C74", "title": "Noise spectra use exactly the quiet records", "statement": "The noise spectrum of a channel is accumulated from exactly the records (or, for continuous noise, the requested segments) whose excursion is below the limit, each with its mean removed; for continuous noise any segment length may be chosen and the incomplete segment at the end is dropped.", "quantifier": "all records, record lengths, segment lengths, windows and limits", "why_tests_cant": "All sizes, including odd lengths and lengths that do not divide the data.", "anchors": ["mass/core/channel.py:NoiseRecords.compute_power_spectrum_reshape"]}
{"id": "C75", "title": "Saved pulse models load unchanged", "statement": "PulseModel.fromHDF5 of what toHDF5 wrote gives a model with the same projectors, basis, signal-to-basis and noise data as the model in memory when it was saved.", "quantifier": "all models, both settings of save_inverted", "why_tests_cant": "All dimensions and contents; only inverted saves differ.", "anchors": ["mass/core/pulse_model.py:PulseModel.toHDF5", "mass/core/pulse_model.py:PulseModel.fromHDF5"]}
{"id": "C76", "title": "Pulse model labels name each component once", "statement": "labels() has one name per component of the model, all different, in the order of the basis: pulse mean, derivative, average pulse, five-lag components, SVD components.", "quantifier": "all numbers of components, with and without five-lag components", "why_tests_cant": "All numbers of components.", "anchors": ["mass/core/pulse_model.py:PulseModel.labels"]}
{"id": "C77", "title": "Pulse summaries are the statistics they are called", "statement": "After summarize_data: p_pretrig_mean and p_pretrig_rms are mean and standard deviation of the samples before the trigger less the ignored ones; p_pulse_average and p_pulse_rms are mean and root mean square, relative to that mean, of the samples from one before the trigger on; p_min_value is the least sample; p_shift1 says whether the sample before the trigger exceeds the mean by more than 4.3 standard deviations.", "quantifier": "all records of all lengths, trigger positions and numbers of ignored samples", "why_tests_cant": "One loop computes eleven quantities; all records matter.", "anchors": ["mass/core/cython_channel.pyx:summarize_data_cython", "mass/core/channel.py:MicrocalDataSet.summarize_data"]}
{"id": "C78", "title": "Peak value and promptness are relative to the pretrigger mean", "statement": "p_peak_value is the greatest sample less the rounded pretrigger mean, p_promptness the mean of six samples after the trigger less the pretrigger mean in units of the peak value, one sample earlier for shifted records; every record has both, and both are 0 if no sample exceeds the pretrigger mean.", "quantifier": "all records", "why_tests_cant": "Rounding in unsigned arithmetic for all records, including those without a pulse.", "anchors": ["mass/core/cython_channel.pyx:summarize_data_cython"]}
{"id": "C79", "title": "Rise times follow from the 10% and 90% crossings", "statement": "p_rise_time is the time between the first sample above 10% of the peak and the last before 90%, scaled to the full height; for a straight rising edge it is height over slope; it is always positive.", "quantifier": "all records with a pulse, all sample times", "why_tests_cant": "All shapes of rising edges.", "anchors": ["mass/core/cython_channel.pyx:summarize_data_cython"]}
{"id": "C80", "title": "Every record gets its own summary, whatever the segment size", "statement": "summarize_data works through the file in segments; the result is the summary of each record, independent of the segment size.", "quantifier": "all numbers of records, segment sizes and incomplete trailing bytes", "why_tests_cant": "Only segments above 65535 records show the limit of the counter.", "anchors": ["mass/core/channel.py:MicrocalDataSet.summarize_data", "mass/core/files.py:LJHFile.set_segment_size", "mass/core/cython_channel.pyx:summarize_data_cython"]}
{"id": "C81", "title": "Both ways to summarise give the same values", "statement": "summarize_data(use_cython=True) and summarize_data(use_cython=False) store the same pretrigger mean and rms, shift flag, minimum, peak index, peak value, pulse average and pulse rms.", "quantifier": "all records", "why_tests_cant": "Equality of two algorithms on all records.", "anchors": ["mass/core/cython_channel.pyx:summarize_data_cython", "mass/core/channel.py:MicrocalDataSet._summarize_data_segment"]}
{"id": "C82", "title": "The fast and the plain maximum derivative agree", "statement": "compute_max_deriv and python_compute_max_deriv return the same number for every record, kernel and setting of spike_reject, and the post-peak derivative of the summary is this number for the default kernel from the usual peak on.", "quantifier": "all records, kernels, with and without spike rejection", "why_tests_cant": "Equality of a sliding loop with a convolution for all records.", "anchors": ["mass/core/analysis_algorithms.pyx:compute_max_deriv", "mass/core/analysis_algorithms.pyx:python_compute_max_deriv", "mass/core/cython_channel.pyx:summarize_data_cython"]}
{"id": "C83", "title": "A state file means what is written in it", "statement": "Parsing an experiment state file gives exactly the times and labels of its lines in order; the states in use are the distinct labels in order of first appearance without the excluded ones. By default START, STOP, END and IGNORE are excluded, or only IGNORE if the file has no other labels. A line without exactly one comma is refused.", "quantifier": "all state files with any number of entries, all labels without commas or surrounding space, all exclusion lists", "why_tests_cant": "tests parse two sample files; they cannot cover every sequence of labels or every exclusion list", "anchors": ["mass/off/experiment_state.py:ExperimentStateFile.parse", "mass/off/experiment_state.py:ExperimentStateFile.applyExcludesToLabels"]}
{"id": "C84", "title": "Which OFF files can be opened", "statement": "An OFF file with an ASCII header opens exactly if its format is OFF, its version is one of the three known ones, projectors and basis have transposed shapes with one component per coefficient, and the file has room for them; every complete record after them is then available. A file without a line that is just a closing brace is refused.", "quantifier": "all header texts and contents, all file lengths", "why_tests_cant": "tests open valid files only; the acceptance condition ranges over all headers and truncations", "anchors": ["mass/off/off.py:OffFile.__init__", "mass/off/off.py:OffFile.validateHeader", "mass/off/off.py:OffFile._decodeModelInfo"]}
{"id": "C85", "title": "Qscale is the documented order statistic of the distances between data", "statement": "Qscale(x) returns the consistency factor for n = len(x) times the distance number h(h-1)/2 (h = n//2 + 1) in the sorted list of the distances between all pairs of data, whatever the order of the data and without ever sorting the distances.", "quantifier": "all data with two or more values, all orders, with and without ties", "why_tests_cant": "The loop narrows down a matrix of n(n-1)/2 distances; which columns are tried depends on every value, so samples settle nothing.", "anchors": ["mass/mathstat/robust.pyx:Qscale", "mass/mathstat/robust.pyx:_Qscale_subroutine", "mass/mathstat/robust.pyx:_choose_trial_val"]}
{"id": "C86", "title": "Weighted means are what they claim to be", "statement": "bisquare_weighted_mean and huber_weighted_mean, if they return, return a solution of their weighting equation up to the tolerance, between the least and greatest of the data that have weight; they do not depend on the order of the data and move with them under every change of units. Data further than k from every possible center have no influence on the bisquare mean. Data more than k away have no weight.", "quantifier": "all data, all k, centers and tolerances, all permutations, shifts and scale factors of either sign", "why_tests_cant": "The estimators iterate; equivariance and influence are statements about pairs of runs on all data sets.", "anchors": ["mass/mathstat/robust.pyx:bisquare_weighted_mean", "mass/mathstat/robust.pyx:huber_weighted_mean"]}
{"id": "C87", "title": "Trimean and median absolute deviation withstand bad data", "statement": "trimean(x) is (q1+q3)/4 + median/2; it does not depend on the order of data, moves with them under every change of units, and stays within any interval that no more than (n-1)//4 data lie below and no more than that above. At least half of the data lie within median_abs_dev of the median, at least half not closer; it scales with the data.", "quantifier": "all data sets with at least one value, all intervals, all changes of units", "why_tests_cant": "Breakdown is a statement about all possible bad data at once.", "anchors": ["mass/mathstat/robust.pyx:trimean", "mass/mathstat/robust.pyx:median_abs_dev"]}
{"id": "C88", "title": "laplace_entropy is the entropy of the kernel-density estimate", "statement": "In exact mode laplace_entropy(x, w) equals minus the integral over the whole line of p log p, where p is the average of the Laplace densities of scale w centred at the data. No data or a scale that is not positive is refused with a ValueError.", "quantifier": "all data sets of any size and order, with ties, and all scales", "why_tests_cant": "Tests compare a few data sets with numerical integration; the closed form with its passes over the sorted data has to be right for every spacing.", "anchors": ["mass/mathstat/entropy.pyx:laplace_entropy", "mass/mathstat/entropy.pyx:laplace_entropy_array"]}
{"id": "C89", "title": "Cross-entropy and divergence are the integrals they are documented to be", "statement": "In exact mode laplace_cross_entropy(x, y, w) equals minus the integral over the whole line of p log q, and laplace_KL_divergence the integral of p log(p/q), where p is the Laplace kernel-density estimate of x and q that of y by top-hats of half-width sqrt(6) w over a constant floor. An empty data set or a scale that is not positive is refused with a ValueError.", "quantifier": "all pairs of data sets of any sizes, orders and overlaps, with ties, and all scales", "why_tests_cant": "The loop tracks which top-hats are open while it walks two interleaved lists of nodes; the number of interleavings is unbounded.", "anchors": ["mass/mathstat/entropy.pyx:laplace_cross_entropy", "mass/mathstat/entropy.pyx:laplace_cross_entropy_arrays", "mass/mathstat/entropy.pyx:laplace_KL_divergence"]}
{"id": "C90", "title": "A spectral line is a probability density", "statement": "For every line and resolution pdf is nowhere negative and integrates to 1 over all energies: it is the sum of components, each its intensity times the convolution of its Lorentzian with the Gaussian of the resolution. A negative resolution is refused. Lines added with peak heights or integrals in any of the three conventions get intensities in proportion to what each amplitude stands for, summing to 1.", "quantifier": "all lines with any number of components of any widths and intensities, all resolutions, all three amplitude conventions", "why_tests_cant": "Tests evaluate a few lines on grids; the integral over the whole line and every combination of widths are not sampled.", "anchors": ["mass/calibration/fluorescence_lines.py:SpectralLine.pdf", "mass/calibration/fluorescence_lines.py:SpectralLine.components", "mass/calibration/fluorescence_lines.py:addline", "mass/calibration/fluorescence_lines.py:SpectralLine.quick_monochromatic_line", "mass/mathstat/special.py:voigt"]}
{"id": "C91", "title": "Random variates of a line follow the line", "statement": "rvs returns as many variates as asked for, all positive. Each is the energy of a component, chosen with the probability of its intensity, plus its half-width times a Cauchy variate plus the resolution times a normal variate. Given a generator, the variates depend on that generator alone.", "quantifier": "all lines, sizes and resolutions, all generators and states of generators", "why_tests_cant": "Tests draw samples; which component every possible uniform variate selects, and what happens after every non-positive draw, they cannot cover.", "anchors": ["mass/calibration/fluorescence_lines.py:SpectralLine.rvs"]}
{"id": "C92", "title": "Exponential tails are what they say", "statement": "Smearing a spectrum gives, on its grid, the given fractions of the spectrum unchanged, smeared with an exponential of length tau towards low energies and with one of length tau_hi towards high energies (of the band-limited function through the spectrum's values on a wider grid), never below 0. Fractions up to one in a million mean no tail. A grid of more than 100000 points is refused.", "quantifier": "all spectra, increasing grids, fractions, shares and tail lengths", "why_tests_cant": "The smearing is done by Fourier transform; sign or scale errors in one factor depend on all parameters.", "anchors": ["mass/calibration/line_models.py:_smear_exponential_tail"]}
{"id": "C93", "title": "The parameters of a line model mean what they are called", "statement": "The model of a line in a histogram is, in each bin, integral times bin width times a density of total 1 in pulse-height units (the line's density with peak_ph at the line's peak and dph_de pulse-height units per energy unit), plus a linear background cut off at 0; a quantum efficiency multiplies it at the energy of the bin. Negative values are refused. The same holds for a model that can have tails, if there are none. Another unit of pulse heights (bins, peak_ph and dph_de) changes no counts; lengths of tails are in units of energy.", "quantifier": "all lines, bins and parameters", "why_tests_cant": "Tests fit data with gain 1 or accept whatever scale results.", "anchors": ["mass/calibration/line_models.py:GenericLineModel.__init__", "mass/calibration/line_models.py:_scale_add_bg"]}
{"id": "C94", "title": "A fit maximizes the likelihood", "statement": "The sum of squares of the residuals of a model against counts is twice the logarithm of the ratio of the Poisson likelihoods of a perfect model and the model; so the smaller sum always belongs to the likelier model. A residual is negative exactly where the model is below the counts, and 0 exactly where they agree. Sums of models use the same residuals.", "quantifier": "all histograms of counts and all models that give them a chance", "why_tests_cant": "Equality with the likelihood ratio is a statement about all counts and all models.", "anchors": ["mass/calibration/line_models.py:MLEModel._residual", "mass/calibration/line_models.py:CompositeMLEModel._residual"]}
{"id": "C95", "title": "Conversions use the calibration as it is now", "statement": "After any calls on an EnergyCalibration (points added, replaced or removed, settings changed, conversions, printing, copying, in any order and also if some raise), a conversion uses the curve that belongs to the present points and settings, and the uncertainty asked for belongs to that curve; a copy gives the same conversions.", "quantifier": "all sequences of calls with all arguments, on objects with any settings", "why_tests_cant": "A cached curve is wrong only after particular histories; tests run a handful.", "anchors": ["mass/calibration/energy_calibration.py:EnergyCalibration.ph2energy", "mass/calibration/energy_calibration.py:EnergyCalibration._update_converters", "mass/calibration/energy_calibration.py:EnergyCalibration.set_curvetype", "mass/calibration/energy_calibration.py:EnergyCalibration.set_nonlinearity", "mass/calibration/energy_calibration.py:EnergyCalibration.set_use_approximation", "mass/calibration/energy_calibration.py:EnergyCalibration.set_GPR", "mass/calibration/energy_calibration.py:EnergyCalibration.copy", "mass/calibration/energy_calibration.py:EnergyCalibration.ph2uncertainty"]}
{"id": "C96", "title": "Converting does not change the calibration", "statement": "Converting a pulse height or energy leaves the calibration's settings, points and errors of points as they were given (up to order), so that it makes no difference for later changes.", "quantifier": "all calibrations with any points and settings", "why_tests_cant": "The change happens in place on first use, and only matters for points added later.", "anchors": ["mass/calibration/energy_calibration.py:EnergyCalibration.ph2energy", "mass/calibration/energy_calibration.py:EnergyCalibration._update_converters", "mass/calibration/energy_calibration.py:EnergyCalibration._update_approximators"]}
{"id": "C97", "title": "Drop-one errors are those of calibrations without the point", "statement": "drop_one_errors returns the energies of the points in increasing order, and with each the energy that a calibration of all other points with the same settings gives for the point, minus the point's energy. The calibration itself is not changed.", "quantifier": "all calibrations with at least one point, all curve types", "why_tests_cant": "Pairing of energies and errors must hold for every order of points and every curve.", "anchors": ["mass/calibration/energy_calibration.py:EnergyCalibration.drop_one_errors", "mass/calibration/energy_calibration.py:EnergyCalibration.copy"]}
{"id": "C98", "title": "Errors of points and of the calibration are propagated", "statement": "An approximating curve takes a point's errors in pulse height and energy as what they are to first order in the quantity that is fitted. The uncertainty of the calibration at a pulse height is the standard deviation of the fitted quantity there, times the derivative of energy with respect to it.", "quantifier": "all curve types, points with any positive pulse heights, energies and errors, all fitted curves", "why_tests_cant": "Tests only compare single numbers that were computed by the same formulas; the derivatives concern all values.", "anchors": ["mass/calibration/energy_calibration.py:EnergyCalibration._update_approximators", "mass/calibration/energy_calibration.py:EnergyCalibration.ph2uncertainty"]}
{"id": "C99", "title": "The smoothed curve is the best prediction and its variance is true", "statement": "For data with given errors and a given sigmaf, the value of a GPRSpline anywhere is the linear combination of the data that is right for straight lines and has the smallest mean squared error, if the function is a line plus sigmaf times twice integrated white noise. variance is that mean squared error; it is never negative and is the diagonal of covariance. Data on a line are reproduced. It works for all distinct abscissas and positive errors.", "quantifier": "all numbers of points from two, all abscissas, values, errors, sigmaf, and all points of evaluation", "why_tests_cant": "Optimality is over all linear combinations, and the prediction error is an integral; samples show neither.", "anchors": ["mass/mathstat/interpolate.py:GPRSpline.__init__", "mass/mathstat/interpolate.py:GPRSpline.variance", "mass/mathstat/interpolate.py:GPRSpline.covariance", "mass/mathstat/interpolate.py:k_spline", "mass/mathstat/interpolate.py:CubicSpline"]}
{"id": "C100", "title": "No other curve that fits the data as well is smoother", "statement": "A GPRSpline minimizes its curvature energy (the integral of the squared second derivative) among all twice continuously differentiable functions whose chi-squared is not larger; with the weight 1/sigmaf^2 it is the only function that minimizes chi-squared plus curvature energy.", "quantifier": "all data with at least two distinct abscissas, positive errors, every sigmaf other than 0, all functions", "why_tests_cant": "The minimum is over a space of functions.", "anchors": ["mass/mathstat/interpolate.py:GPRSpline", "mass/mathstat/interpolate.py:CubicSpline"]}
{"id": "C101", "title": "Applying cuts marks exactly the pulses outside the limits", "statement": "apply_cuts(controls, clear) marks a pulse bad for a quality measure exactly if it was bad for it before (and clear was not given) or its value (energy, pretrigger rms and mean, peak and rise time in ms, derivative after the peak, average, peak value, minimum above baseline, time stamp, time since the previous pulse, where the first pulse counts as infinitely late) is not within the limits; without controls the standard limits hold. The cut around the median of the pretrigger mean uses the median of exactly those pulses that pass every other cut. All other cuts and categories keep their values, and without forceNew existing cuts are left alone.", "quantifier": "every history of the cuts, every set of limits (pairs, lists of ranges, inverted), all data including NaN", "why_tests_cant": "the outcome depends on all earlier cut operations, on order statistics of the survivors and on NaNs; a test looks at a few files", "anchors": ["mass/core/channel.py:MicrocalDataSet.apply_cuts", "mass/core/controller.py:standardControl", "mass/core/param_dict_base.py:PrmDictBase.set", "mass/core/cut.py:Cuts.cut_parameter"]}
{"id": "C102", "title": "Automatic cuts follow the noise, are remembered and come back from the file", "statement": "auto_cuts marks the pulses whose peak time or rise time is not positive or too long, whose pretrigger rms is 8 (or the given number of) robust sigmas above that of the noise records, or whose derivative after the peak is as far above that of the noise records; nothing else. The rms limit is never negative, admits at least half of the noise records, scales with the gain and does not depend on the order of the records. A second call does nothing unless forced or the cuts were cleared. The limits saved in the file are those in use when it is opened again.", "quantifier": "all noise files, pulse data, settings and histories of calls, clearing and reopening", "why_tests_cant": "limits are order statistics of arbitrary noise files, and the state spans memory and file over several sessions", "anchors": ["mass/core/channel.py:MicrocalDataSet.auto_cuts", "mass/core/channel.py:MicrocalDataSet.clear_cuts", "mass/core/channel.py:MicrocalDataSet.__save_auto_cuts", "mass/core/channel.py:MicrocalDataSet.__load_auto_cuts"]}
{"id": "C103", "title": "A smoothing spline is the least curved curve with the chi-squared asked for", "statement": "SmoothingSpline(x, y, dy, dx, maxchisq) for four or more increasing points: the curve is twice continuously differentiable, straight beyond the first and last point, has exactly the chi-squared asked for (by default the number of points), and every other twice differentiable curve that fits the data as well has more curvature between the first and last point. If the data lie on a line within the chi-squared asked for, a curve with a smaller chi-squared results. Calling it with der=1 or 2 gives its derivatives.", "quantifier": "all data, errors and targets; all competing curves; all arguments", "why_tests_cant": "minimality is a statement about all competing curves", "anchors": ["mass/mathstat/interpolate.py:SmoothingSpline.smooth", "mass/mathstat/interpolate.py:SmoothingSpline._compute_Omega", "mass/mathstat/interpolate.py:SmoothingSpline.__eval"]}
{"id": "C104", "title": "The natural B-spline basis spans the natural splines", "statement": "The functions of NaturalBsplineBasis(knots) are cubic splines on the knots with vanishing second derivative at both ends; they take every set of values at the knots in exactly one combination; expand_coeff gives the coefficients of the same curve in plain B-splines. SmoothingSplineFunction.derivative() is the derivative of the spline, and SmoothingSplineLog(..., der=1) that of the log-log spline, which leaves its arguments alone.", "quantifier": "all increasing knots, coefficients and arguments", "why_tests_cant": "holds or fails for real functions on every set of knots; tests use a few evenly spaced ones", "anchors": ["mass/mathstat/interpolate.py:NaturalBsplineBasis", "mass/mathstat/interpolate.py:SmoothingSplineFunction.derivative", "mass/mathstat/interpolate.py:SmoothingSplineLog"]}
{"id": "C105", "title": "External triggers and pulses are timed on one clock", "statement": "The external triggers of a run are returned exactly as they were written to the trigger file (a trigger not completely written is left out), the HDF5 file taking precedence; the number of subframes per frame follows the comment line of the file, or else the data; times in seconds are counts times the length of a subframe; once read they stay the same. Timing pulses against the triggers gives every record of every good channel the true time in seconds since the last trigger at or before it, until the first one after it, and the lesser of both.", "quantifier": "all trigger files and comment lines, all frame counts, numbers of rows and subframes, groups of channels", "why_tests_cant": "the counts come from files of any content, and the error is one of units: test files have as many rows as subframes", "anchors": ["mass/core/channel_group.py:TESGroup.external_trigger_subframe_count", "mass/core/channel_group.py:TESGroup.external_trigger_subframe_as_seconds", "mass/core/channel_group.py:TESGroup.calc_external_trigger_timing", "mass/off/channels.py:Channel._calcExternalTriggerTiming", "mass/off/channels.py:ChannelGroup.calcExternalTriggerTiming", "mass/off/channels.py:Channel.subframeDivisions"]}
{"id": "C106", "title": "Neighbour lists name every channel at its distance, and crosstalk is looked for there", "statement": "From a map of channel positions, every channel gets one entry per channel of the map, with the squared distance and the number n of the distance: 0 at the same place, 1 for the nearest, a greater distance always having a greater n and equal distances the same n. No map in which the channel occurs makes it fail. A list that exists is kept unless renewal is asked for. Crosstalk flags are set from the pulses of the neighbours with the n asked for.", "quantifier": "all maps with any number of coordinates and channels, all channels, all stored lists", "why_tests_cant": "the numbering goes through all distances possible on a grid of any dimension", "anchors": ["mass/core/channel.py:MicrocalDataSet.set_nearest_neighbors_list", "mass/core/channel.py:MicrocalDataSet.flag_crosstalking_pulses"]}
{"id": "C107", "title": "A mixture of two splines is the mixture of their values", "statement": "LinterpCubicSpline(s1, s2, fraction) of two splines on the same knots has everywhere, also beyond the knots, the value and the derivatives fraction s1 + (1-fraction) s2. Splines with different knots are refused.", "quantifier": "all pairs of splines, all fractions, all arguments and derivative orders", "why_tests_cant": "equality at every real argument", "anchors": ["mass/mathstat/interpolate.py:LinterpCubicSpline", "mass/mathstat/interpolate.py:CubicSpline"]}
{"id": "C108", "title": "Savitzky-Golay smoothing is the local least-squares polynomial", "statement": "savitzky_golay returns one value per datum: the value (or the derivative asked for), at that datum, of the polynomial of the given order that fits the data in the window around it best in the sense of least squares. Data that lie on such a polynomial are returned unchanged. Even windows, and windows too small for the order, are refused.", "quantifier": "all data, odd window sizes, orders and derivative orders", "why_tests_cant": "a statement about a minimum over all polynomials, for every window", "anchors": ["mass/mathstat/utilities.py:savitzky_golay"]}
{"id": "C109", "title": "Filtering a file gives every record its own filtered value, whatever the segments", "statement": "filter_data stores for every pulse the value and phase that the filter gives for that pulse's record alone (after the transform, if one is given, of the record less its pretrigger mean): for arrival-time-safe filters the sum of filter times record, delayed one sample unless the pulse triggered late, with the ratio of the arrival-time sum to it as phase; for five-lag filters the vertex of the parabola through the five lagged sums. The division of the file into segments, and Cython or Python, make no difference. Existing results are kept unless forceNew; incomplete ones are completed. Filters that do not fit are refused.", "quantifier": "all files, segment sizes, filters, transforms, flags and earlier results, all points of interruption", "why_tests_cant": "every division of every file; every crash point", "anchors": ["mass/core/channel.py:MicrocalDataSet.filter_data", "mass/core/channel.py:MicrocalDataSet._filter_data_nocython", "mass/core/channel.py:MicrocalDataSet._filter_data_segment_ats", "mass/core/channel.py:MicrocalDataSet._filter_data_segment_ats_dont_shift1", "mass/core/channel.py:MicrocalDataSet._filter_data_segment_5lag"]}
{"id": "C110", "title": "A correction for time drift never raises the entropy and leaves the average gain alone", "statement": "time_drift_correct returns a polynomial in normalized time. On the pulses fitted the corrected values have at most the entropy of the uncorrected ones, whatever the minimizer does. The correction factor averages to exactly 1 over the range of times; it does not depend on the origin of time. The number of degrees respects max_degrees, sec_per_degree and pulses_per_degree, and downsampling leaves pulses_per_degree pulses per degree. The returned coefficients are those of the returned polynomial. The method of a data set stores value times correction factor for every pulse, with the settings it is given, and keeps earlier results unless forceNew.", "quantifier": "all times, values, limits, kernel widths and settings, all behaviours of the minimizer and the entropy estimate", "why_tests_cant": "all outcomes of a numerical minimization; an identity of integrals", "anchors": ["mass/core/channel.py:time_drift_correct", "mass/core/channel.py:MicrocalDataSet.time_drift_correct", "mass/off/channels.py:Channel.learnTimeDriftCorrection"]}
{"id": "C111", "title": "Leaving out the cut name always selects an existing cut, the same for histograms and fits", "statement": "A new OFF channel has the default cut cutNone. cutSetDefault accepts exactly existing recipes whose name starts with 'cut'; cutAdd with setDefault adds the recipe and makes it the default, or changes nothing; so after any history of additions and choices, failed ones included, leaving out the cut name evaluates an existing cut recipe. A group can set the default of all its channels; in a group, a histogram and a line fit without (or with the same) cut name use the same cut of every good channel. Recipe books saved by one group and loaded by another give every channel its recipes and its default cut back, and the default exists; a book of a channel that the group does not have is an error.", "quantifier": "all fields of a file, recipes and functions, all histories of calls on channels and groups, all sets of channels", "why_tests_cant": "the claim is about every history of calls, with failures of single channels in between", "anchors": ["mass/off/channels.py:Channel.cutAdd", "mass/off/channels.py:Channel.cutSetDefault", "mass/off/channels.py:Channel._handleDefaultCut", "mass/off/channels.py:ChannelGroup._handleDefaultCut", "mass/off/channels.py:ChannelGroup.cutSetDefault", "mass/off/channels.py:ChannelGroup.saveRecipeBooks", "mass/off/channels.py:ChannelGroup.loadRecipeBooks", "mass/off/channels.py:GroupLooper"]}
{"id": "C112", "title": "The learned cut on residuals rejects outliers of the own bin and cannot be moved by them", "statement": "learnResidualStdDevCut sorts pulses into bins of filtValue; a pulse above minFv passes exactly if its residual is below median plus n sigma of the pulses of its bin, with sigma from the median absolute deviation; a pulse at or below minFv never passes. Fewer than half of the pulses of a bin cannot move its threshold beyond what the others allow. At least half of the pulses of a bin are below its threshold; more sigmas keep more pulses; the unit of the residuals does not matter. Bins with too few pulses are left out. Any non-empty set of pulses gives a cut that some pulse can pass.", "quantifier": "all lists of pulses, numbers of sigmas, bin sizes, limits and pulses the cut is applied to", "why_tests_cant": "the claim is about all sets of pulses and outliers of any size", "anchors": ["mass/off/channels.py:Channel.learnResidualStdDevCut", "mass/off/util.py:median_absolute_deviation"]}
{"id": "C113", "title": "A calibration plan becomes a calibration at the fitted positions of its lines", "statement": "After any history of calibrationPlanAddPoint calls, failed ones included, the plan has one position, one line and one set of states per point, in the order of the calls. The rough calibration has exactly the points of the plan. A failed call leaves the plan as it was. A known line has its own energy, unless one is given; other names need an energy or a standard feature, and are found in the calibration under the name given. If every fit succeeds and finds the true position of its line, calibrateFollowingPlan gives the true positions with the energies of the lines and the propagated errors after any number of iterations, whatever the rough calibration. In all cases every point of the result comes from a successful fit with error bars in the last iteration, and the channel is marked bad exactly if some fit in some iteration failed or had no error bars. Without any such fit no calibration is installed.", "quantifier": "all plans, histories of calls, fit results, numbers of iterations and conversions of the intermediate calibrations", "why_tests_cant": "the claim is about all histories of calls and all outcomes of fits", "anchors": ["mass/off/channels.py:CalibrationPlan", "mass/off/channels.py:Channel.calibrationPlanAddPoint", "mass/off/channels.py:Channel.calibrateFollowingPlan"]}
{"id": "C114", "title": "Quality checks mark exactly the channels that are out of tolerance", "statement": "linefit uses the cut named or else the default cut, and by default bins of the size wanted from dlo below to dhi above the peak energy; any attribute can be fitted if bin edges are given. qualityCheckLinefit marks a channel bad exactly if the fit failed, its position is further from the peak energy than the one tolerance given, or its width is greater than allowed; both tolerances together are refused; the cut named is used. qualityCheckDropOneErrors marks a channel bad exactly if some error exceeds one of the thresholds given. A check never marks a bad channel good, and a check that raises does not mark the channel itself. For a group the results are those of the channels that were good and did not raise, a channel is good afterwards exactly if it was and its check neither raised nor marked it, and every channel gets an entry in the file: that it is bad, or the values and errors of its fit.", "quantifier": "all attributes, cuts, bins, fit results, errors, tolerances and thresholds, groups of channels", "why_tests_cant": "the claim is about all outcomes of fits and all combinations of arguments", "anchors": ["mass/off/channels.py:CorG.linefit", "mass/off/channels.py:Channel.qualityCheckLinefit", "mass/off/channels.py:Channel.qualityCheckDropOneErrors", "mass/off/channels.py:ChannelGroup.qualityCheckLinefit"]}
{"id": "C115", "title": "Aligning a channel finds the peaks of the reference channel in order and takes over its plan", "statement": "A peak of the reference channel inside of the bins is taken to be in the bin that contains it; peaks outside are refused. Whatever warping path is found between the histograms, every peak has a partner in the other channel, and the partners are in the order of the peaks. If the other channel has the same pulses with another gain and equal histograms are matched bin by bin, each peak is found at its place to within half a bin and the width of its bin. A partner outside of the bins is refused. If the partners increase the calibration of the channel has exactly the pairs of centers of bins as points. The channel takes over lines and states of the plan of the reference with converted positions; the reference channel keeps its own. The test of the calibration is passed exactly if every slope is within the fraction given of the median slope.", "quantifier": "all evenly spaced bins, lists of pulses, peaks, warping paths and plans", "why_tests_cant": "the claim is about all warping paths between all histograms", "anchors": ["mass/off/channels.py:dtw_same_peaks", "mass/off/channels.py:AlignBToA", "mass/off/channels.py:Channel.alignToReferenceChannel"]}
{"id": "C116", "title": "What is exported to HDF5 for each state is exactly the pulses of that state, also under aliases", "statement": "State labels can be given other names until the states are calculated, and exactly the labels named are changed. Two labels given one name are one state. A histogram without states counts all pulses that pass the cut, and a plot without states counts each pulse in a state that is not excluded once. Exporting histograms stores for each channel and state the counts of exactly the pulses of that state that pass the cut, for each channel the counts of all pulses, and for the group the sums over its channels; what was in the file stays. Exporting the same channel twice is refused and changes nothing. Exporting pulse lists stores for each state the energies, times and trigger times of exactly the pulses of that state that pass the cut, row by row.", "quantifier": "all state files, aliases, pulse times, cuts, attributes, channels and file contents", "why_tests_cant": "the claim is about all histories of states and all contents of the file", "anchors": ["mass/off/experiment_state.py:ExperimentStateFile.aliasState", "mass/off/experiment_state.py:ExperimentStateFile.labels", "mass/off/channels.py:Channel.histsToHDF5", "mass/off/channels.py:Channel.energyTimestampLabelToHDF5", "mass/off/channels.py:ChannelGroup.histsToHDF5", "mass/off/channels.py:CorG.plotHist"]}
{"id": "C117", "title": "The efficiency of a stack of filters is the product of those of its films, each by the law of attenuation", "statement": "A film attenuates the part of the beam that it covers exponentially with the sum over its materials of density, thickness and mass attenuation coefficient; if areal densities are given, the densities do not matter. Exactly one of areal density and thickness has to be given. What a film transmits and what it absorbs add up to one, and thicker films transmit less. The efficiency of a stack is the product of the efficiencies of its components in any order, stacks inside of stacks count as their components, adding a component multiplies the efficiency, and it is always between 0 and 1. Aluminium films with oxide or polymer attenuate by every element of each layer with the thickness of that layer.", "quantifier": "all materials, attenuation coefficients, thicknesses, densities, fill fractions, energies and nested stacks", "why_tests_cant": "the claim is about all stacks and all energies, and about real numbers", "anchors": ["mass/materials/efficiency_models.py:FilterStack", "mass/materials/efficiency_models.py:Film", "mass/materials/efficiency_models.py:AlFilmWithOxide", "mass/materials/efficiency_models.py:AlFilmWithPolymer", "mass/materials/uncertainties_helpers.py:ensure_uncertain"]}
{"id": "C118", "title": "Smoothing by local polynomials keeps polynomials, and a stepped histogram has the right area", "statement": "Smoothing a signal that is a polynomial of at most the order given returns the same signal wherever the window is inside of it, and asking for a derivative returns that derivative; a straight line is kept up to its ends. The output is as long as the signal. Even windows, windows too small for the order, derivatives above the order and empty signals are refused. The curve drawn for a histogram rises from 0 at the first edge, is level over each bin and returns to 0, and the area below it is the sum of contents times widths; edges and centers of equal bins give the same curve.", "quantifier": "all signals, window lengths, orders, derivatives, bin contents and bin edges", "why_tests_cant": "the claim is about all polynomials, windows and orders, over exact numbers", "anchors": ["mass/mathstat/utilities.py:savitzky_golay", "mass/mathstat/utilities.py:plot_as_stepped_hist"]}
{"id": "C119", "title": "Automatic calibration gives each line its own fit and leaves nothing half done", "statement": "The peaks of the smeared pulse height histogram are the samples above both neighbours, highest first. Lines are matched to peaks in order of energy, whatever order they are named in; every line is fitted once, to the good pulses, in the range, bin size and slope that belong to it. A new calibration has exactly one point for every line: the fitted peak, the energy of the line and its name, in the same order by pulse height and energy; it is stored and saved under its name, and all pulses get their energies by it. If any step fails the channel is as it was. A calibration that exists is returned as it is unless a new one is forced. Lines named as excluded stay out of the fit ranges.", "quantifier": "all channels, selections of pulses, lists of lines, smoothing results, fits, curves and parameters", "why_tests_cant": "the claim is about all lists of lines and about every place where a step may fail", "anchors": ["mass/core/channel.py:MicrocalDataSet.calibrate", "mass/core/channel.py:MicrocalDataSet.convert_to_energy", "mass/calibration/algorithms.py:find_local_maxima", "mass/calibration/algorithms.py:EnergyCalibrationAutocal", "mass/calibration/algorithms.py:multifit", "mass/calibration/algorithms.py:line_names_and_energies"]}
{"id": "C120", "title": "Low-pass filtered optimal filters keep their meaning", "statement": "The low-pass options of the optimal filters multiply every frequency component of the weights by a real factor that depends on the frequency alone: zero above fmax, 1/(1+(f/f_3db)^2) with f_3db; the sum of the weights is unchanged, the sum of their squares never grows, a limit at or above half the sampling rate changes nothing and a limit applied twice is applied once. With any such options a filter still ignores a constant level and returns c for c times the model pulse, and it can be computed whenever the plain one can. At f_3db the power is one half (3 dB). Given a noise spectrum, the Fourier-domain filter can be computed. The whitening matrix times a vector is the whitened vector.", "quantifier": "all record lengths, weights, sample times, fmax, f_3db, signal and noise models, numbers of cut samples, ARMA models", "why_tests_cant": "the claim is about all records and frequencies; it rests on identities between sums of waves, not on samples", "anchors": ["mass/core/optimal_filtering.py:band_limit", "mass/core/optimal_filtering.py:FilterMaker.compute_5lag", "mass/core/optimal_filtering.py:FilterMaker.compute_ats", "mass/core/optimal_filtering.py:FilterMaker.compute_fourier", "mass/core/optimal_filtering.py:ToeplitzWhitener.W"]}
{"id": "C121", "title": "Optimal filters survive closing and reopening the file", "statement": "A filter computed by compute_ats_filter or compute_5lag_filter is the one found when the same file is opened again: same weights, arrival-time weights, nominal peak, variance, resolution, low-pass settings and type, and it serves for the same later steps. A filter already in the file is only replaced when forceNew is given; without a usable filter in the file one is computed. A computation that raises leaves the channel and the file as they were. If saving is interrupted at any point, the file can still be opened, and it never yields a filter other than the new one.", "quantifier": "all filters, options, channels, noise models, average pulses and all points of interruption between two statements of the saving code", "why_tests_cant": "the claim is about all filters, all histories of one file across sessions, and all points of interruption", "anchors": ["mass/core/channel.py:MicrocalDataSet._filter_to_hdf5", "mass/core/channel.py:MicrocalDataSet.__load_filters_from_hdf5", "mass/core/channel.py:MicrocalDataSet.compute_5lag_filter", "mass/core/channel.py:MicrocalDataSet.compute_ats_filter", "mass/core/channel.py:MicrocalDataSet.get_pulse_model"]}
{"id": "C122", "title": "Experiment states as categories of pulses", "statement": "When a group is opened with a state file and its pulses are summarised, every pulse is in the category of the state in force at its time: selecting a state gives exactly the pulses at whose time the latest entry of the state file was that state, and 'uncategorized' exactly the pulses before the first entry or in an excluded state. This also holds after the data are opened again, after the state file has grown, after aliases were given, for every label, and whatever cut fields were registered or removed before.", "quantifier": "all state files, pulse times, labels, earlier states of the HDF5 file and histories of reopening", "why_tests_cant": "the claim is about all state files and the histories of two files (states and HDF5) across sessions; tests open one state file once", "anchors": ["mass/core/channel_group.py:TESGroup.__init__", "mass/core/channel.py:MicrocalDataSet.__parse_expt_states", "mass/core/cut.py:CutFieldMixin.register_categorical_cut_field", "mass/off/experiment_state.py:ExperimentStateFile.calcStatesDict"]}
{"id": "C123", "title": "The corrected values of a channel belong together, in every session", "statement": "After filter_data, drift_correct, phase_correct and calibrate, the drift-corrected values are the filtered ones times the stored gain, the phase-corrected values are the present drift-corrected ones by the present corrector, the energies are those by the calibration asked for, all of them for every pulse and learned from the good pulses only. Calls that are not forced never change results that exist, in this session or a later one; a call that returns without an error leaves values that belong to the present data and to the quantity asked for; a call that raises or is interrupted leaves the values before.", "quantifier": "all data, cuts, learned corrections and calibrations, all histories of calls and sessions", "why_tests_cant": "the claim is about all histories of calls over several sessions and about every learned correction", "anchors": ["mass/core/channel.py:MicrocalDataSet.filter_data", "mass/core/channel.py:MicrocalDataSet.drift_correct", "mass/core/channel.py:MicrocalDataSet._apply_drift_correction", "mass/core/channel.py:MicrocalDataSet.phase_correct", "mass/core/channel.py:MicrocalDataSet.calibrate", "mass/core/channel.py:MicrocalDataSet.convert_to_energy", "mass/core/channel.py:MicrocalDataSet.__load_cals_from_hdf5", "mass/core/channel.py:MicrocalDataSet.__load_corrections"]}
{"id": "C124", "title": "Learning a phase correction uses the right peaks and changes nothing else", "statement": "The peaks found in a spectrum are its highest ones, in increasing order, with enough counts and far enough apart, and an error says so if there are none. What is learned does not depend on the order in which peaks are given: one curve per peak in increasing order, each from the pulses in the window of its own peak, every such pulse in one of three to twelve groups by phase, each with a finite median. Learning the correction of an OFF channel does not change the calibration its peaks are taken from.", "quantifier": "all spectra, candidate peaks, sort orders, pulse heights, phases, peaks given, and all histories of the calibration", "why_tests_cant": "the claim ranges over all spectra and data and over all histories of the calibration object", "anchors": ["mass/core/phase_correct.py:phase_correct", "mass/core/phase_correct.py:_find_peaks_heuristic", "mass/core/phase_correct.py:_phasecorr_find_alignment", "mass/off/channels.py:CorG.learnPhaseCorrection", "mass/calibration/energy_calibration.py:EnergyCalibration._update_converters"]}
{"id": "C125", "title": "A correction by arrival time keeps the clusters and interpolates between them", "statement": "FilterTimeCorrection renumbers the given clusters of pulses in order of mean energy without mixing them; runs the model pulse of each through the filter at five lags, for every filter that is shorter than the records by an even number of samples and for any number of clusters; the correction at a cluster's mean energy is that cluster's curve, between two clusters it is interpolated linearly, and it is extrapolated by half an interval at most; a copy corrects as the original does.", "quantifier": "all labels, energies, sort orders, record and filter lengths, clusters, curves, arrival times and pulse sizes", "why_tests_cant": "the claim ranges over all labelings, lengths, numbers of clusters and real arguments", "anchors": ["mass/core/analysis_algorithms.pyx:FilterTimeCorrection"]}
{"id": "C126", "title": "A smoothed histogram keeps its counts, and a drift correction lowers the entropy", "statement": "A smoothed histogram is the histogram averaged over neighbouring bins with positive weights, equal to both sides, that add up to one: it has the same total, stays within the lowest and highest bin, and its bins are fine compared to the smoothing. The learned drift correction does not raise the entropy of the pulse heights, does not depend on the order of the pulses or on the zero of the indicator, and does not gain by losing pulses.", "quantifier": "all values, limits, smoothing widths, pulse heights and indicators, any minimizer no worse than its starting point", "why_tests_cant": "the claim is about real numbers and all data sets, with transforms and logarithms", "anchors": ["mass/core/analysis_algorithms.pyx:HistogramSmoother", "mass/core/analysis_algorithms.pyx:make_smooth_histogram", "mass/core/analysis_algorithms.pyx:drift_correct"]}
{"id": "C127", "title": "The noise of a channel: kept once set, and its size does not matter for the filters", "statement": "White noise has its variance at lag zero, no correlation at other lags, and a flat spectrum that integrates to the variance. Computing the noise stores the autocorrelation, spectrum and frequency step of the noise file, all of them or none. Noise once set is not changed by later calls without forceNew. Multiplying the noise by a positive number does not change the optimal filter, only its variance; the filter for white noise is the model signal with its mean subtracted.", "quantifier": "all record lengths, variances, noise files, sequences of calls, signals and positive definite autocorrelations", "why_tests_cant": "the claim ranges over all histories of calls and over all signals and autocorrelations", "anchors": ["mass/core/channel.py:assume_white_noise", "mass/core/channel.py:compute_noise", "mass/core/channel.py:compute_noise_spectra", "mass/core/channel.py:compute_5lag_filter", "mass/core/optimal_filtering.py:compute_5lag"]}
{"id": "C128", "title": "Rise times do not depend on the size or offset of a pulse, or on the other pulses", "statement": "The rise time of a pulse does not change when the pulse is scaled by a positive factor or a constant is added to it. It is the time between the first sample above 10% and the last one before the first above 90% of the peak, divided by the difference of their relative heights; a pulse that rises in a straight line has exactly the time of that line. It does not depend on which other pulses are in the same batch, nor on their order.", "quantifier": "all batches of records, sampling times and pretrigger lengths", "why_tests_cant": "the claim is about every batch a file can be divided into and every pulse shape", "anchors": ["mass/core/analysis_algorithms.pyx:estimateRiseTime", "mass/core/channel.py:summarize_data"]}
{"id": "C129", "title": "A line fit starts from sensible values and is only returned if the bins are fine enough", "statement": "The starting values guessed from any histogram put the peak at the fullest bin, with a positive background, a width that is not negative (0.7 times the distance of the quartiles) and an integral between zero and all counts, such that line and background together make up all counts; moving or stretching the bins moves or stretches the guess. A fit uses the method asked for (or least_squares), refuses weights, repeats a fit without uncertainties from where it ended when asked to, and is returned only if every line has at least the asked number of bins (three, if not said) in its width.", "quantifier": "all histograms, gains, models, minimizers, methods and bin sizes", "why_tests_cant": "the claim is about every histogram and every outcome of the minimizer", "anchors": ["mass/calibration/line_models.py:GenericLineModel.guess", "mass/calibration/line_models.py:MLEModel.fit", "mass/calibration/line_models.py:MLEModel._fit", "mass/calibration/line_models.py:LineModelResult._validate_bins_per_fwhm"]}
{"id": "C130", "title": "Lines of highly charged ions are the levels of the database, each under its own name", "statement": "A search of the level database gives exactly the levels with the configuration, term and J asked for, in the order of the file, in the units asked for, and the first n of them with a limit of n; asking for one level by name gives the same value as searching for it. The lines added for an element are one per excited level (the n lowest with a limit), at the energy of the level, and two lines have the same name only if they are the same level of the same ion. A row of the database sets the level it names and no other, and the converted database holds the last value of each level.", "quantifier": "all databases, elements, charge states, levels, limits, units and registered lines", "why_tests_cant": "the claim is about every content of a database and every name in it", "anchors": ["mass/calibration/hci_lines.py:NIST_ASD.getAvailableLevels", "mass/calibration/hci_lines.py:NIST_ASD.getSingleLevel", "mass/calibration/hci_lines.py:add_hci_line", "mass/calibration/hci_lines.py:add_H_like_lines_from_asd", "mass/calibration/hci_lines.py:add_He_like_lines_from_asd", "mass/calibration/import_asd.py:write_asd_pickle", "mass/calibration/import_asd.py:parseLine"]}
{"id": "C131", "title": "Composite models of highly charged ions have one energy scale", "statement": "In a composite model of lines all components have the same width and gain, and their distances are those of the energies of the lines, for all values of the free parameters: each position in the spectrum has the same energy in all components. The component asked for is the peak component, and its parameters stay free. In a doublet of a hydrogen-like ion the integral of the J=1/2 line is that of the J=3/2 line times the ratio, and the two lines have different parameters for every element and configuration. A linear background can be added to any composite model.", "quantifier": "all lists of models, energies, names, peak components and values of parameters", "why_tests_cant": "the claim is about every composition of models and every value of the parameters", "anchors": ["mass/calibration/hci_models.py:initialize_hci_line_model", "mass/calibration/hci_models.py:initialize_hci_composite_model", "mass/calibration/hci_models.py:initialize_HLike_2P_model", "mass/calibration/hci_models.py:add_bg_model"]}
{"id": "C132", "title": "Count rates count every pulse in the bin of its time", "statement": "The count rate in bins of a given width: bin k begins k widths after the first pulse used, its rate times its width is the number of pulses in it, and all bins together have every pulse between the first and the end of the last bin exactly once. All pulses are counted. The rate of good pulses is never more than that of all pulses with the same bins, and a constant added to all times moves the bins and leaves the rates.", "quantifier": "all lists of times and of good pulses, widths and edges", "why_tests_cant": "the claim is about every list of times and every width", "anchors": ["mass/core/channel.py:MicrocalDataSet.count_rate"]}
{"id": "C133", "title": "Cuts of outliers and of filter phases only add pulses of their own field", "statement": "Cutting outliers (\"smart cuts\") cuts exactly the pulses whose distance is above the threshold, in its own field only, and does nothing if some pulse is already cut and no new computation is asked for; after an error nothing has changed. Cutting by the filter phase cuts exactly the pulses beyond \u00b12 in its own field. No pulse becomes good by either, registering a field changes no other field, and the table of cuts has for each pair of fields the numbers of pulses cut by both and by either.", "quantifier": "all histories of cuts, all fits, data, thresholds and numbers of training pulses", "why_tests_cant": "the claim is about every history of the cut fields and every result of the fit", "anchors": ["mass/core/channel.py:MicrocalDataSet.smart_cuts", "mass/core/channel.py:MicrocalDataSet.cut_summary", "mass/core/channel_group.py:TESGroup.sanitize_p_filt_phase"]}
{"id": "C134", "title": "Average pulses of all channels use the good pulses in the range given", "statement": "Masks by pulse size have one entry per pulse, true exactly for good pulses whose quantity over the gain of the channel is in the closed range, in whichever order its limits are given; without a range the call fails; channels without pulses are marked bad. Averages with these masks succeed; each good channel has the average of the records in its mask, bad channels keep theirs, and a failing channel does not affect the others.", "quantifier": "all channels, quantities, ranges, gains and records", "why_tests_cant": "the claim is about every set of channels and every range", "anchors": ["mass/core/channel_group.py:TESGroup.make_masks", "mass/core/channel_group.py:TESGroup.compute_average_pulse", "mass/core/channel.py:MicrocalDataSet.compute_average_pulse"]}
{"id": "C135", "title": "The exact inverse of a calibration inverts it", "statement": "For a continuous strictly increasing calibration curve, energy2ph_exact of the energy of any pulse height from 1e-6 to the end of the range is that pulse height, for one energy and for arrays of any length; for every curve type it takes the energies of the calibration points back to their pulse heights. Any result is in the range and has the energy asked for; energies outside give ValueError. The slope at an energy is the derivative of the curve there. ismonotonic is true exactly for increasing curves.", "quantifier": "all calibration points, curve types, energies, lengths of arrays", "why_tests_cant": "the claim is about every curve and every energy, over the real numbers", "anchors": ["mass/calibration/energy_calibration.py:EnergyCalibration.energy2ph_exact", "mass/calibration/energy_calibration.py:EnergyCalibration.energy2dedph", "mass/calibration/energy_calibration.py:EnergyCalibration.ismonotonic", "mass/calibration/energy_calibration.py:EnergyCalibration.name2ph"]}
{"id": "C136", "title": "Entropies of large data sets are those of a smoothed histogram", "statement": "The entropy and cross-entropy in approximate mode are those of positive densities of integral 1 (Simpson's rule) on a grid of 20 steps for each width, covering the data and 5 widths at each end, proportional to the sum of the kernel over the binned data and bounded below. Each value is counted once. They do not depend on the order or the origin of the data, rise by log s for units s times smaller, and the entropy is at most the logarithm of the grid's length. The divergence is never negative if the second set lies in the range of the first, and 0 for equal sets. Up to 200000 values are treated exactly by default.", "quantifier": "all data sets, widths, modes", "why_tests_cant": "data sets of any size and any real values; the default mode changes only above 200000 values", "anchors": ["mass/mathstat/entropy.pyx:laplace_entropy", "mass/mathstat/entropy.pyx:laplace_entropy_approx", "mass/mathstat/entropy.pyx:laplace_cross_entropy", "mass/mathstat/entropy.pyx:laplace_cross_entropy_approx", "mass/mathstat/entropy.pyx:laplace_KL_divergence"]}
{"id": "C137", "title": "Segments, traces and flux corrections of a group", "statement": "A group which opens has all its files in order, of one shape, and its segments cover its data. Every sample number of the data lies in the range of its segment and no other. A new segment size gives the group and each good channel the number of pulses that fit, with segments which cover the data, and leaves bad channels alone; a refused one changes nothing. A channel number selects that channel's trace. Correcting flux jumps acts on each good channel alone, keeps its original values, makes exactly the failing channels bad, and done twice gives the same.", "quantifier": "all groups of files, sample numbers, segment sizes, channel numbers, pretrigger means and masks", "why_tests_cant": "group behaviour depends on the order and the sizes of all files and on which channels are bad", "anchors": ["mass/core/channel_group.py:TESGroup.set_segment_size", "mass/core/channel_group.py:TESGroup.sample2segnum", "mass/core/channel_group.py:TESGroup.segnum2sample_range", "mass/core/channel_group.py:TESGroup.read_trace", "mass/core/channel_group.py:TESGroup.plot_traces", "mass/core/channel_group.py:TESGroup.correct_flux_jumps", "mass/core/channel.py:MicrocalDataSet.correct_flux_jumps", "mass/core/channel.py:PulseRecords.set_segment_size"]}
{"id": "C138", "title": "Windows and line widths", "statement": "Bartlett, Hann, Hamming and Welch windows of every length are symmetric, have values from 0 to 1 and the shapes they are named for, and spectra made with them are normalised to the mean square of the windowed data. The approximate width of a Voigt profile is at least that of each part and of their sum in quadrature, at most their sum, grows with both, and scales with the unit. The minimum width of a line is not above the width of any component.", "quantifier": "all window lengths, data and widths", "why_tests_cant": "real-number inequalities for all lengths and widths", "anchors": ["mass/mathstat/power_spectrum.py:bartlett", "mass/mathstat/power_spectrum.py:welch", "mass/mathstat/power_spectrum.py:hann", "mass/mathstat/power_spectrum.py:hamming", "mass/mathstat/special.py:voigt_approx_fwhm", "mass/calibration/fluorescence_lines.py:SpectralLine.minimum_fwhm"]}
{"id": "C139", "title": "Times and states of channels made from arrays", "statement": "A channel made from a structured array has relative times which start at 0 and keep all differences, a default cut which keeps every record, and selecting an experiment state gives exactly the records taken while that state was in force. A group made from such channels has each channel under its number, in the order given.", "quantifier": "all arrays, times, state files, cuts and channel lists", "why_tests_cant": "ranges over all times within a second and all state boundaries", "anchors": ["mass/off/channels.py:ChannelFromNpArray", "mass/off/channels.py:ChannelGroupFromNpArrays", "mass/off/recipe_classes.py:ScalarMultAndTurnToInt64", "mass/off/recipe_classes.py:Subtract", "mass/off/recipe_classes.py:TruesOfSameSize"]}
{"id": "C140", "title": "Pairing of pulse and noise files, and restoring a group", "statement": "A group opened with patterns has every pulse file with the noise file of its own channel, for all allowed channels which have both. Restoring a group from its summary file gives the same pulse files, each with its own noise file, and changes nothing in the summary files.", "quantifier": "all file lists, channel numbers, selections and summary files", "why_tests_cant": "depends on the directory's order, on all file names and on what the summary files held before", "anchors": ["mass/core/channel_group.py:TESGroup.__init__", "mass/core/channel_group.py:RestoreTESGroup", "mass/core/channel_group.py:_generate_hdf5_filename", "mass/core/ljh_util.py:filename_glob_expand"]}
{"id": "C141", "title": "Per-pulse vectors, resizing, arrays and copies", "statement": "A channel's per-pulse vectors have a value for every pulse, keep what the file held and are zero where new. Resizing to fewer pulses shortens them. The array made of a channel has a row for every pulse and a column for every vector with its values. Copies of channels, groups and spectra are usable and independent of the original.", "quantifier": "all channels, summary files, lengths and data", "why_tests_cant": "holds for every state of the file; copies share memory", "anchors": ["mass/core/channel.py:MicrocalDataSet.resize", "mass/core/channel.py:MicrocalDataSet.copy", "mass/core/channel.py:MicrocalDataSet._makeNumpyArray", "mass/core/channel.py:MicrocalDataSet.toOffStyle", "mass/core/channel_group.py:TESGroup.copy", "mass/mathstat/power_spectrum.py:PowerSpectrum.copy"]}
{"id": "C142", "title": "Data base of x-ray lines", "statement": "Reading x-ray line files ends, and yields for every name the last readable line after the column titles, over all files. Looking a line up by element and transition or nickname finds it regardless of case. Asking for the lines of a type gives the line of each element which has one, by atomic number, and understands nicknames.", "quantifier": "all file contents, names and types", "why_tests_cant": "holds for every file, including those without title; one cannot test that a loop never ends", "anchors": ["mass/calibration/nist_xray_database.py:NISTXrayDBFile.__init__", "mass/calibration/nist_xray_database.py:NISTXrayDBFile.get_lines_by_type", "mass/calibration/nist_xray_database.py:NISTXrayDBFile.__getitem__", "mass/calibration/nist_xray_database.py:NISTXrayLine.__init__"]}
{"id": "C143", "title": "Scripts converting LJH files and making projectors", "statement": "Channels of a file are those of the files beside it with the same base name, in order, once each. Converting to OFF takes the first max_channels channels of the model file whose LJH files are there, names files by channel, copies the experiment state and writes the readout information of the LJH header. Making projectors pairs pulse and noise files of the same channel and keeps an existing output unless told otherwise. LJHModify writes the modified file.", "quantifier": "all directories, files, names, options", "why_tests_cant": "depends on every possible content of directories and on what is left after an error", "anchors": ["mass/core/ljh_util.py:ljh_get_channels", "mass/core/ljh_util.py:ljh_get_channels_both", "mass/core/ljh_util.py:output_basename_from_ljh_fname", "mass/core/ljh2off.py:multi_ljh2off_loop", "mass/core/ljh2off.py:ljh2off_loop", "mass/core/ljh2off.py:main", "mass/core/projectors_script.py:main", "mass/core/ljh_modify.py:LJHModify"]}
{"id": "C144", "title": "Groups from HDF5 files only", "statement": "Making a master file from the HDF5 files of the channels and opening it gives a group of exactly these channels by number, with their pulses and time stamps, leaving out files not cleanly ended. After a failure nothing is left that is later taken for a good master file.", "quantifier": "all files, channels, orders of links, versions of h5py allowed", "why_tests_cant": "depends on what an earlier, failed call left behind and on the library version", "anchors": ["mass/core/channel_group_hdf5_only.py:make_or_get_master_hdf5_from_julia_hdf5_file", "mass/core/channel_group_hdf5_only.py:TESGroupHDF5.__init__", "mass/core/channel_group_hdf5_only.py:TESGroupHDF5.fix_timestamps"]}
{"id": "C145", "title": "Learned corrections of OFF channels", "statement": "After a drift, phase or time correction is learned, the new quantity (by default the old name and DC, PC or TC) is the fitted function of the two quantities as they were defined then; every other quantity is unchanged; a name in use is refused unless overwriting is asked for, and a refusal changes nothing. A drift correction saved to HDF5 and read back is equal to the one saved; equal corrections have equal hashes; corrections under different names do not disturb each other.", "quantifier": "all recipe books made by any history, data, fits, names, HDF5 contents", "why_tests_cant": "depends on the whole history of recipes and on what the file held before", "anchors": ["mass/off/channels.py:DriftCorrection", "mass/off/channels.py:Channel.learnDriftCorrection", "mass/off/channels.py:Channel.learnPhaseCorrection", "mass/off/channels.py:Channel.learnTimeDriftCorrection"]}
{"id": "C146", "title": "Data in memory and fake data", "statement": "A record given as an array is read back as it was given; a copy reads the same. Fake records hold the model times the scale factor plus level and noise, rounded to the nearest integer; the pulses are shared among the distributions by their weights and sum to the number asked for, equally if no weights are given; the model pulse is zero before the trigger, positive after, with the peak asked for. The result can be analysed as a data set or a group.", "quantifier": "all arrays, numbers, weights, noise, pulse shapes", "why_tests_cant": "wrapping and rounding at every level, and every set of weights", "anchors": ["mass/core/files.py:VirtualFile", "mass/core/fake_data.py:FakeDataGenerator", "mass/core/channel.py:PulseRecords", "mass/core/channel.py:NoiseRecords"]}
{"id": "C147", "title": "Group-wide summaries, counts, reports and noise-only groups", "statement": "Summarizing a group runs every good channel once; a failing channel is marked bad with the reason and the rest go on; the progress shown increases and stays in (0, 1]. compute_noise_spectra is equivalent to compute_noise. The group has a timestamp offset exactly if its good channels agree. The report gives for each channel the pulses from the first to the last good one, their rate and the percentage good. A noise-only group obeys the channel lists and max_chans, checks that its files agree, and remembers bad channels. A noise file can be limited to some of its records.", "quantifier": "all groups, channels, failures, cut histories, file lists, files", "why_tests_cant": "which channels fail, in what order, and every combination of constructor arguments", "anchors": ["mass/core/channel_group.py:TESGroup.summarize_data", "mass/core/channel_group.py:TESGroup.compute_noise_spectra", "mass/core/channel_group.py:TESGroup.timestamp_offset", "mass/core/channel_group.py:TESGroup.report", "mass/core/channel_group.py:TESGroup._setup_per_channel_objects_noiseonly", "mass/core/channel.py:NoiseRecords"]}
{"id": "C148", "title": "What the plots of channels and groups show", "statement": "plot_traces draws exactly the records asked for (all, the valid ones, or the cut ones), in order, each with its own values, marking the cut ones; with difference=True it draws successive differences; with subtract_baseline the pretrigger samples average to zero. plot_summaries finds a quantity by its documented name, shows the cut, the uncut or all pulses with times and values of the same pulse, at most 10,000 points, times counted from the last midnight. Multi-page plots put every channel on exactly one place of one page. Noise plots show all spectra within their axes, with the right label. Labels of lines stand at different heights.", "quantifier": "all channels, groups, cut histories, selections, numbers of channels and pulses, page shapes, strings", "why_tests_cant": "every combination of selections, thinning and page shapes; plots are not compared in tests", "anchors": ["mass/core/channel.py:MicrocalDataSet.plot_traces", "mass/core/channel.py:MicrocalDataSet.plot_summaries", "mass/core/channel_group.py:TESGroup.plot_summaries", "mass/core/channel_group.py:TESGroup.plot_noise", "mass/core/channel_group.py:TESGroup.plot_summary_pages", "mass/core/channel_group.py:TESGroup.plot_histogram_pages", "mass/core/utilities.py:plot_multipage", "mass/core/utilities.py:annotate_lines", "mass/off/util.py:annotate_lines"]}
{"id": "C149", "title": "Lines and models by name", "statement": "The table of standard energies has every line of the x-ray data base under each of its names (MnKL3, MnKA1, MnKAlpha1, MnKA and MnKAlpha mean the same energy), and nothing else. get_model given such a name returns the line of known shape registered under it, or else a narrow line of that name at the energy of the data base; other texts are refused. Parameters of a line model start strictly inside their bounds. The report of a fit shows every value to within half of its error. The ready-made models of highly charged ions are thirty, each under its own name and made of the lines of that name; they are available, with or without a background, whenever those lines are known.", "quantifier": "all data bases whose names are an element and one of the eighteen transitions, all sets of registered lines, all texts, all positive energies, all values and errors, all tables of line energies and additional lines", "why_tests_cant": "names of different lines could meet in the one dictionary for any element; digits depend on real logarithms; tests look up a few names", "anchors": ["mass/calibration/energy_calibration.py:LineEnergies", "mass/calibration/algorithms.py:get_model", "mass/calibration/line_models.py:GenericLineModel._set_paramhints_prefix", "mass/calibration/line_models.py:LineModelResult._compact_fit_report", "mass/calibration/hci_models.py:initialize_HeLike_complex_model", "mass/calibration/hci_models.py:models"]}
{"id": "C150", "title": "Aligning the pulse heights of a peak by phase", "statement": "The curve learned for a peak says, at the median phase of each of the 3 to 12 groups of pulses, by how much the heights of that group are displaced: the two displacements found best for it, the first less the mean of all, the second after correcting the heights by the first. Between the groups the curve is the natural cubic spline. A pulse at the peak is corrected by the difference between the displacement at its phase and at the median phase. If no displacement is an improvement, or all groups want the same, no pulse is changed. The order of the pulses and a common offset of heights and peak do not matter. By the older method (2015), pulses are counted in ten equal phase bins and 200 height bins, each once; a narrow peak displaced by d bins is found d bins away; equal spectra mean no correction.", "quantifier": "all pulses (phases and heights), peaks and window widths, all entropy functions, all minimizers and percentiles, in exact arithmetic over any ordered field", "why_tests_cant": "the result is a chain of grouping, two searches and two splines on arbitrary data; tests check that a resolution improves for one simulated data set", "anchors": ["mass/core/phase_correct.py:_phasecorr_find_alignment", "mass/core/phase_correct.py:phase_correct"]}
{"id": "C151", "title": "Pulse models of a group and their file", "statement": "A pulse model has the number of components asked for; the first three projectors are the arrival-time-safe filters of constant, derivative and pulse, the first three basis vectors what they were made for; extra components come from the 5-lag filter; training pulses are the first good ones of the category. It is made whenever filter, automatic cuts and enough components are there. pulse_model_to_hdf5 writes one entry for each good channel whose model can be made and no other, marks the channels that fail, leaves the rest, raises only with _rethrow, never overwrites a file unless asked to, and does the same for a file that is handed over; what it replaces is lost only if there is something new.", "quantifier": "all groups, channels, filters and marks; all arguments; all averages, filters and decompositions; all file names and contents", "why_tests_cant": "depends on which channels fail, in which order, with which files present; tests write one file of one group", "anchors": ["mass/core/channel_group.py:TESGroup.pulse_model_to_hdf5", "mass/core/channel.py:MicrocalDataSet._pulse_model_to_hdf5", "mass/core/channel.py:MicrocalDataSet.get_pulse_model", "mass/core/pulse_model.py:PulseModel"]}
{"id": "C152", "title": "Line fits of channels and groups, exported energies, reports on filters", "statement": "linefit of a channel or group fits, bin by bin, the good pulses of the category strictly inside the range of times, from guessed parameters with only the energy scale held; without edges the bins have the width asked for and cover peak - dlo to peak + dhi up to less than one bin; a group of one channel fits as the channel, a larger one the sum; any attribute, starting values and labels given are used. save_pulse_energies_ascii writes the good energies of the good channels in order without loss of precision. summarize_filters reports the resolving power that the filters predict.", "quantifier": "all channels and groups, pulses, times, cuts, arguments and models; all float32 numbers; all filters", "why_tests_cant": "depends on every pulse, edge and number; the precision of a text format on every number; tests fit one line", "anchors": ["mass/core/channel.py:MicrocalDataSet.linefit", "mass/core/channel_group.py:TESGroup.linefit", "mass/core/channel_group.py:TESGroup.save_pulse_energies_ascii", "mass/core/channel_group.py:TESGroup.summarize_filters", "mass/core/optimal_filtering.py:Filter.report"]}
{"id": "C153", "title": "The OFF files of a run, their channels and five-lag values of OFF records", "statement": "Opening a run by one of its files finds exactly the files of that run, by channel number, or the first maxChans of them; each becomes one channel, in that order. The recipes of a five-lag filter give for every record the height and place of the parabola that the five-lag filter of data sets finds in the record modelled by its coefficients, of the sign of the pulses; a group gets them from a file of models, each channel those of its own number. Output files are named after the run.", "quantifier": "all names of files and directories, base names, numbers of channels, filters, bases, coefficients, groups and files of models", "why_tests_cant": "depends on every file name in a directory and on every basis and filter; tests open one directory", "anchors": ["mass/off/channels.py:getOffFileListFromOneFile", "mass/off/channels.py:ChannelGroup.loadChannels", "mass/off/channels.py:ChannelGroup.add5LagRecipes", "mass/off/channels.py:Channel.add5LagRecipes", "mass/off/channels.py:ChannelGroup.outputHDF5Filename", "mass/off/fivelag.py:filter_5lag_fit_in_basis", "mass/core/ljh_util.py:filename_glob_expand"]}
{"id": "C154", "title": "Times and stored values in floating point", "statement": "The time of a record in seconds is as near to the microseconds in the file as float64 allows: later records have later times, the microseconds can be recovered and differences are right to the nearest microsecond. The nanoseconds in an OFF file made from it round to the record's microsecond and keep the order; times since the first record are zero for it, keep the order and give back the nanoseconds, and agree between the two files to a microsecond. Every record is given the state of the last entry of the state file at or before its microsecond. Quantities stored in float32 keep their order, to a relative error of 2^-24.", "quantifier": "all times in microseconds up to the year 2033 (2041 for seconds), all state files, all values", "why_tests_cant": "rounding depends on every bit of every time; tests compare a few times with a tolerance", "anchors": ["mass/core/files.py:LJHFile2_2.datatimes_float", "mass/core/channel.py:MicrocalDataSet.__parse_expt_states", "mass/core/channel.py:MicrocalDataSet.apply_cuts", "mass/core/channel.py:MicrocalDataSet.__setup_vectors", "mass/core/ljh2off.py:ljh_records_to_off", "mass/core/channel_group_hdf5_only.py:TESGroupHDF5.fix_timestamps", "mass/off/recipe_classes.py:SubtractThenScale", "mass/off/channels.py:Channel._defineDefaultRecipesAndProperties"]}
{"id": "C155", "title": "Pulses of one shape, from records to energies", "statement": "If every record is a baseline plus a positive multiple of one pulse shape that is zero in the pretrigger samples used, then after the average pulse of any chosen pulses, the five-lag filter and filter_data, the filtered value of every record is the height of its own pulse above its own baseline, and all records have the same phase, whatever the segments, the cut windows, the noise and the mask. Calibrated on one line the energies are in proportion to the pulse sizes (or to their power, with the loglog curve). If the same records are written to an OFF file whose basis spans a constant and the shape, with dual projectors, the coefficients reproduce them with no residual, and the five-lag recipes with that filter give the same filtered values and phases as the LJH analysis.", "quantifier": "all pulse shapes, sizes, baselines, masks, noise autocorrelations, cut windows and segment sizes; all bases and dual projectors", "why_tests_cant": "a test runs the whole chain on one data file and compares with numbers from an earlier version", "anchors": ["mass/core/channel.py:MicrocalDataSet.compute_average_pulse", "mass/core/channel.py:MicrocalDataSet.compute_5lag_filter", "mass/core/optimal_filtering.py:FilterMaker.compute_5lag", "mass/core/channel.py:MicrocalDataSet.filter_data", "mass/calibration/energy_calibration.py:EnergyCalibration._update_exactcurves", "mass/core/ljh2off.py:ljh_records_to_off", "mass/off/channels.py:Channel.add5LagRecipes"]}
{"id": "C156", "title": "Dictionaries of parameters and the controls of the cuts", "statement": "set changes exactly the registered parameters named, to the values given, whatever their order; no history of calls, successful or not, adds or removes a registered name. A name not registered raises NameError, with the parameters before it set and none after it, or goes to user_prm if that exists. A parameter with a type check never gets a value of another type, in any history, and accepts None and, for numbers, other numbers. AnalysisControl gives each cut named the limits given and the others none. Variables made of the dictionaries and read back leave dictionaries and namespace as they were; changed variables change exactly the parameters of their names. dump_set shows every parameter once, in alphabetical order within its dictionary. A property made for a parameter reads its value at the time of reading.", "quantifier": "all dictionaries, values, types with any subtype relation, arguments and histories of calls", "why_tests_cant": "the class has no tests; a test would try a few names and types", "anchors": ["mass/core/param_dict_base.py:PrmDictBase.set", "mass/core/param_dict_base.py:PrmDictBase.set_in_dict", "mass/core/param_dict_base.py:PrmDictBase.dump_set", "mass/core/param_dict_base.py:PrmDictBase.usage_set", "mass/core/param_dict_base.py:PrmDictBase.dicts2namespace", "mass/core/param_dict_base.py:PrmDictBase.namespace2dicts", "mass/core/param_dict_base.py:PrmDictBase.properties", "mass/core/controller.py:AnalysisControl", "mass/core/controller.py:standardControl"]}
{"id": "C157", "title": "Which LJH files open, and with which attributes", "statement": "A file whose header was found opens exactly if the header has a readable version, Timebase, Total Samples and Presamples, the file name has a channel number, all optional entries that are there can be read, and one record fits into 16 MiB. Its attributes are then those of the header: the layout of the records by the version, three presamples more than stated unless DASTARD wrote it, subframe divisions and offset as stated, else 64 and 0 for an Abaco source, else number of rows (at least one) and row number. KeyError is raised exactly if a required entry is missing and everything read before it could be read; IndexError exactly if the name has no channel number; everything else that is wrong raises ValueError, except a ZeroDivisionError for a negative number of samples.", "quantifier": "all header dictionaries, file names, sizes of file, and text-to-float conversions", "why_tests_cant": "tests open a few valid files; which combinations of missing and malformed entries are accepted, and as what, is a statement about all headers", "anchors": ["mass/core/files.py:LJHFile.open", "mass/core/files.py:LJHFile._parse_header", "mass/core/files.py:LJHFile.source", "mass/core/files.py:LJHFile.set_segment_size"]}
{"id": "C158", "title": "OFF files written from LJH files, at every point where writing may stop", "statement": "The header written by ljh2off is ASCII whatever the names of the files, and ends with the first line that is a closing brace. A file written from several LJH files opens and has exactly one record for each of their records, in order; every field read by its name has the value written. If an LJH file cannot be opened or converted, the records of the files before it stay and nothing of it is written. A file cut after any number of bytes is refused while the projectors or basis are incomplete and otherwise shows exactly the complete records. The version, shape and type of the arrays asked for are those of the file.", "quantifier": "all file names, attributes, matrices, conversions of records, lists of LJH files with any of them unreadable, and all crash points", "why_tests_cant": "tests convert one or two files to the end and look at the last records; names, failures and crash points are unbounded", "anchors": ["mass/core/ljh2off.py:multi_ljh2off", "mass/core/ljh2off.py:off_header_dict_from_ljhfile", "mass/core/ljh2off.py:off_header_string_from_ljhfile", "mass/core/ljh2off.py:ljh_records_to_off", "mass/off/off.py:OffFile", "mass/off/off.py:readJsonString", "mass/off/off.py:recordDtype"]}
{"id": "C159", "title": "Pages of plots put into one file, and the progress shown by loops", "statement": "With one_file, the pages of a plot of many channels are put together in their order, all of them and nothing else, and removed only if that succeeded; other files are left alone. A method with a progress display does exactly the work it would do without, passes on the first exception, and shows nothing at log level WARNING or above; the fractions shown rise to 1, reached once; for work at a constant rate the time left that is shown is the time left.", "quantifier": "all numbers of channels, page shapes, file names, files on disk, generators, times and log levels", "why_tests_cant": "tests draw nothing and print to nowhere; the order of pages, files left by earlier runs, and every generator that raises anywhere cannot be enumerated", "anchors": ["mass/core/utilities.py:plot_multipage", "mass/core/utilities.py:show_progress", "mass/core/utilities.py:InlineUpdater", "mass/core/channel_group.py:plot_histogram_pages", "mass/core/channel_group.py:plot_summary_pages", "mass/core/channel_group.py:summarize_data", "mass/core/channel.py:summarize_data", "mass/core/channel.py:_filter_data_nocython"]}
{"id": "C160", "title": "The usual position of the peak, and promptness by both ways to summarise", "statement": "If not given, the position of the peak used for all records of a channel is the most common position of the greatest sample within the part of the record that is used: it does not depend on the order of the records, nor on gains and offsets, and is that of the pulse shape if more than half of the records have that shape. The promptness of a pulse is the same by both ways to summarise, between 0 and 1 for a rising pulse, and the same for a pulse that starts one sample early.", "quantifier": "all records, numbers of records, window settings, positions of trigger and peak", "why_tests_cant": "tests compare one pulse shape at one position; equality of two definitions for every record and every usual position is a universal statement", "anchors": ["mass/core/channel.py:MicrocalDataSet._compute_peak_samplenumber", "mass/core/channel.py:MicrocalDataSet._summarize_data_segment", "mass/core/cython_channel.pyx:summarize_data_cython"]}
{"id": "C161", "title": "The sigmaf chosen for a smoothing spline makes the data most probable", "statement": "If no sigmaf is given to GPRSpline, the one used is the number, not negative, for which the data are most probable when nothing is known about the line they follow: the probability density for a line plus sigmaf times twice integrated white noise plus the errors, added up over all lines. The likelihood that is maximised does not change when a line is added to the data or the origin of the abscissas is moved, and changes by a constant with other units, so the choice follows the units. For two points it does not depend on sigmaf. If the search fails, ValueError is raised.", "quantifier": "all numbers of points from two, all abscissas not negative and not all equal, all values, all errors not zero, all sigmaf, lines, origins and units", "why_tests_cant": "the likelihood is an integral over all lines, and invariance under every line, origin and unit is not visible from samples", "anchors": ["mass/mathstat/interpolate.py:GPRSpline.best_sigmaf", "mass/mathstat/interpolate.py:GPRSpline._marginal_like"]}
{"id": "C162", "title": "The kink that is fitted is the best of all", "statement": "fit_kink_model returns a kink between the bounds (between the smallest and the greatest x if no bounds are given) and slopes and height such that no other kinked line with its kink there has a smaller sum of squared differences; the model values and X2 returned belong to that line. Data on a kinked line are reproduced. Bounds outside of the data are refused.", "quantifier": "all data, bounds, and kinked lines", "why_tests_cant": "optimality is over a four-parameter family for every data set", "anchors": ["mass/mathstat/fitting.py:fit_kink_model", "mass/mathstat/fitting.py:kink_model"]}
{"id": "C163", "title": "Random singular value decompositions are decompositions", "statement": "find_svd_randomly returns orthonormal vectors on both sides. Their product with the singular values is the matrix itself whenever its rank is at most the number of random vectors and these do not miss a part of it, for any number of power iterations; otherwise it is the nearest matrix made of the columns found by find_range_randomly. A negative number of iterations is refused.", "quantifier": "all matrices, ranks, numbers of random vectors, random vectors, numbers of power iterations", "why_tests_cant": "the outcome depends on random numbers; tests see one draw", "anchors": ["mass/mathstat/utilities.py:find_svd_randomly", "mass/mathstat/utilities.py:find_range_randomly"]}
{"id": "C164", "title": "Uncertainties of quantum efficiencies", "statement": "Efficiencies calculated with uncertain thicknesses, densities and fill fractions carry the uncertainty of first-order propagation: sources of uncertainty that are named once and used in many places count together, independent ones add in quadrature. Efficiency of a stack of independent layers has the relative uncertainty that adds those of the layers in quadrature. A plain number is given the stated relative uncertainty (default 100 %), an uncertain one is taken as it is; films given as plain numbers have the default uncertainties of their kind, and the value in the middle is that without uncertainties.", "quantifier": "all stacks of layers, materials, energies, thicknesses, densities, fractions and uncertainties", "why_tests_cant": "first-order propagation is a statement on derivatives, for every stack and every correlation among layers", "anchors": ["mass/materials/efficiency_models.py:FilterStack.get_efficiency", "mass/materials/efficiency_models.py:Film.get_efficiency", "mass/materials/efficiency_models.py:Film", "mass/materials/efficiency_models.py:AlFilmWithOxide", "mass/materials/uncertainties_helpers.py:ensure_uncertain", "mass/materials/uncertainties_helpers.py:with_fractional_uncertainty"]}
{"id": "C165", "title": "Plots of calibrations show the calibration and its points", "statement": "EnergyCalibration.plot draws, for each of its kinds of axes, the curve of the calibration over the whole range asked for (by default from a thousandth of the largest pulse height to a tenth beyond it) and every calibration point with its name at its place, on the curve if the calibration passes through it. Error bars are the uncertainties of what is shown. With the slope removed the first and the last point are at one height. A calibration without points and unknown kinds are refused. The band of an approximating calibration is one uncertainty to both sides.", "quantifier": "all calibrations, kinds of axes, powers, ranges, positions in the curve and points", "why_tests_cant": "every point of a curve and every calibration; plots are rarely tested at all", "anchors": ["mass/calibration/energy_calibration.py:EnergyCalibration.plot"]}
{"id": "C166", "title": "Calibration plans from the strongest peaks", "statement": "learnCalibrationPlanFromEnergiesAndPeaks plans exactly the lines asked for, in order of energy, for the states asked for, at increasing positions chosen among the strongest peaks of the smeared histogram such that no other choice fits the energies better; the order in which lines are given does not matter. The rough calibration is that of the plan. If peaks in exactly linear relation to the energies are among the strongest, a plan is made that fits exactly as well. If it fails, an exception is raised and the channel is as it was.", "quantifier": "all histograms, line lists, states, accuracies and earlier plans", "why_tests_cant": "a search over all assignments, for every histogram and list of lines", "anchors": ["mass/off/channels.py:Channel.learnCalibrationPlanFromEnergiesAndPeaks", "mass/off/channels.py:Channel.calibrationPlanAddPoint", "mass/calibration/algorithms.py:find_opt_assignment", "mass/calibration/algorithms.py:find_local_maxima"]}
{"id": "C167", "title": "Plots of average pulses, filters and noise of many channels", "statement": "plot_average_pulses of a group draws one curve for each channel that is not bad, or for each that was asked for, in this order, over the time since the trigger in ms; plot_filters draws exactly the filters of the channels asked for that have one; plot_noise_autocorrelation their autocorrelations over the lag in ms, in the axes given. Colours of channels differ, curves are labelled with the numbers of their channels, and there is a legend if one is asked for.", "quantifier": "all groups, lists of channels, bad channels, axes, figures and what was drawn before", "why_tests_cant": "every group, every list of channels, every state of the figure; plots are rarely tested at all", "anchors": ["mass/core/channel_group.py:TESGroup.plot_average_pulses", "mass/core/channel_group.py:TESGroup.plot_filters", "mass/core/channel_group.py:TESGroup.plot_noise_autocorrelation", "mass/core/channel.py:NoiseRecords.plot_autocorrelation"]}
{"id": "C168", "title": "The figure of an automatic calibration", "statement": "The figure made by diagnose of an automatic calibration has one panel for each line, named after it, with the histogram that was fitted (each bin from its lower to its upper edge at the height of its counts), the fitted curve and the resolution. However many lines there are, panels are inside the figure and do not touch one another or the panel of the calibration. That panel shows the curve and all points of the calibration, with each name at the fitted position and the energy of its line. Nothing fitted yet: refused.", "quantifier": "all numbers of lines, histograms, fits, resolutions, calibrations", "why_tests_cant": "layout for every number of lines, histograms of every size; plots are rarely tested at all", "anchors": ["mass/calibration/algorithms.py:EnergyCalibrationAutocal.diagnose", "mass/calibration/algorithms.py:EnergyCalibrationAutocal.fit_lines"]}
{"id": "C169", "title": "Plots of one quantity against another by state", "statement": "plotAvsB shows, for every state asked for in that order, one set of points: the pulses recorded in that state that pass the cut, in order, each at its two quantities; with includeBad also a second set, marked and labelled as bad, of those that do not pass it. With the default states every pulse in a state that is not excluded is then shown exactly once. With a list of second quantities the same is done for each. plotCompareDriftCorrect shows each pulse before and after correction. In plotAvsB2d bin (i, j) counts the pulses that are in bin i of the first and bin j of the second quantity, and the counts add up to the pulses within the edges. Plots are made in the axes given; cuts may be names or functions.", "quantifier": "all records, state files, aliases, cuts that look at each record, attributes, lists of states, bin edges", "why_tests_cant": "all histories of states and cuts; plots are rarely tested at all", "anchors": ["mass/off/channels.py:Channel.plotAvsB", "mass/off/channels.py:Channel.plotAvsB2d", "mass/off/channels.py:Channel.plotCompareDriftCorrect", "mass/off/util.py:RecipeBook.craft"]}
{"id": "C170", "title": "Progress reports", "statement": "Reporting the progress of long work (summaries, filtering) changes nothing about the work: all of it is done and it ends as it would by itself, also if nothing can be reported. Nothing is printed at a log level of WARNING or above or while documentation is built. Otherwise each step prints its fraction, in order; fractions increase and the last is 100%. After a second of work the time left is estimated from the pace so far, which is exact for work at a steady pace. That the work is finished is said once, as the last thing.", "quantifier": "all clocks that do not go back, all numbers of pulses and segments, all works with or without an exception, all log levels", "why_tests_cant": "depends on the clock, the log level and where the work stops; tests run with progress switched off", "anchors": ["mass/core/utilities.py:InlineUpdater", "mass/core/utilities.py:show_progress", "mass/core/channel.py:MicrocalDataSet.updater", "mass/core/channel.py:MicrocalDataSet._filter_data_nocython", "mass/core/channel.py:MicrocalDataSet.summarize_data"]}
{"id": "C171", "title": "Figures of fits and histograms of OFF channels", "statement": "The figure of a fit names the channel, the line, the attribute, its unit (eV for energies), the bin size, the states and the cut, unless other labels are given. plotHist shows the coadded histogram of the states labelled with their names, or with coAddStates=False one histogram for each state with its name. diagnoseCalibration has a panel for each fit, for the calibration and for the histogram, all in different places. resultPlot shows position and resolution of every channel with their medians, against the channel number. labelPeak puts a name at the local maximum of the curve in the axes given; labels of lines stand inside the plot, also on a logarithmic scale.", "quantifier": "all channels, lines, states as a name, list or tuple, numbers of fits, curves, energies, limits of axes", "why_tests_cant": "the claim is about all figures; tests at most draw one and do not look at it", "anchors": ["mass/calibration/line_models.py:LineModelResult._handle_default_labels", "mass/off/channels.py:CorG.plotHist", "mass/off/channels.py:CorG.linefit", "mass/off/channels.py:Channel.diagnoseCalibration", "mass/off/channels.py:ChannelGroup.resultPlot", "mass/off/util.py:labelPeak", "mass/off/util.py:annotate_lines", "mass/off/util.py:iterstates"]}
{"id": "C172", "title": "The ready-made models of instruments", "statement": "Each of the ready-made filter stacks can be made, has the components it names, and its efficiency at every energy is the absorption in its absorber times the transmissions of its filters and windows, with the thicknesses, areal densities and fill fractions given; it is between 0 and the absorption of the absorber. A LEX-HT window transmits at least 81 percent of what its film transmits. plot_efficiency shows the total and each component in percent against the energy; the total is the product of the components.", "quantifier": "all energies, mass attenuation coefficients, standard densities and compositions of oxide and polymer, all stacks and lists of energies", "why_tests_cant": "tests compare efficiencies with numbers computed before at a few energies", "anchors": ["mass/materials/efficiency_models.py:get_filter_stacks_dict", "mass/materials/efficiency_models.py:LEX_HT", "mass/materials/efficiency_models.py:FilterStack.plot_efficiency"]}
{"id": "C173", "title": "The autocorrelation of an array of noise records", "statement": "autocorrelation_broken_from_pulses of an array of floats with one record per column returns, for each lag, the products of deviations from the mean of the record, averaged over pairs of samples and over records. Baselines and the order of records do not matter, a second call gives the same, other units give the square of the factor, parts of a measurement combine with their numbers of records as weights; the entry at lag 0 is not negative and bounds the others; the weighted sum over all lags vanishes. Arrays of integers are refused and left unchanged. The caller's data are left as they were.", "quantifier": "all arrays: numbers of samples and records, values, floating-point or integer type; all factors, baselines, orders and partitions of records", "why_tests_cant": "the test compares with white noise of one kind within a tolerance", "anchors": ["mass/mathstat/power_spectrum.py:autocorrelation_broken_from_pulses"]}
{"id": "C174", "title": "Figures of spectral lines", "statement": "plot of a spectral line shows its density at the energies given, and its components, which add up to it; the axis begins and ends with the energies, and with limits set shows every value of every curve. Without energies, 500 evenly spaced ones are shown which reach beyond every component by three times the broadest Lorentzian and twice the Gaussian width; of a line of Lorentzians at ideal resolution that is at least eight ninths of the intensity. A negative resolution or fewer than two energies are refused. plot_like_reference uses the resolution of the reference. The ordinate is in the unit its label says.", "quantifier": "all lines, resolutions and lists of energies, all choices of components and limits", "why_tests_cant": "tests call plot for existing lines and look at nothing in the figure", "anchors": ["mass/calibration/fluorescence_lines.py:SpectralLine.plot", "mass/calibration/fluorescence_lines.py:SpectralLine.plot_like_reference", "mass/calibration/fluorescence_lines.py:SpectralLine.components"]}
{"id": "C175", "title": "What a converted record says of its pulse", "statement": "A record written by ljh2off has as coefficients the projectors applied to the pulse; the square of residualStdDev is the mean square of the difference between modelled pulse and pulse less the square of its mean, zero exactly if that difference is the same for all samples; with projectors dual to the basis a combination of the basis is described exactly, and adding one changes the coefficients accordingly and leaves the deviation. pretriggerMean is the average of the samples before the trigger less the ignored ones, pretriggerDelta the rise over them of the straight line closest to them; both do not depend on the pulse, and the rise of a ramp is exact.", "quantifier": "all projectors, bases, records and numbers of samples before the trigger (at least one for the mean, two for the line)", "why_tests_cant": "tests convert one file and compare the coefficients with those of another implementation within tolerances", "anchors": ["mass/core/ljh2off.py:ljh_records_to_off", "mass/core/ljh2off.py:multi_ljh2off"]}
{"id": "C176", "title": "Pulse heights one by one, in lists and in arrays", "statement": "ph2energy of a list or an array is an array of the same shape whose entries are the energies of the single pulse heights, with 0 for those that are not finite numbers, so that all energies are finite; of a scalar it is a scalar, the same as in an array. Pieces converted separately and put together are the same as the whole. A calibration without points returns what it is given, with derivatives of 0. energy2ph keeps the shape. The caller's data are not changed.", "quantifier": "all pulse heights including NaN and infinite ones, all shapes, all curves, with and without points", "why_tests_cant": "tests convert a few positive pulse heights", "anchors": ["mass/calibration/energy_calibration.py:EnergyCalibration.ph2energy", "mass/calibration/energy_calibration.py:EnergyCalibration.energy2ph", "mass/calibration/energy_calibration.py:EnergyCalibration.__call__"]}
{"id": "C177", "title": "Merging the files of a channel from the command line", "statement": "bin/ljh_merge writes one file merged_chanN.ljh, next to the first file or in the directory given, with the header of the first file and the records of all files, pattern by pattern and in the order of their names, whatever order the names are found in; the channel number in its name is that of the files. A file of another channel stops it; so does an output that exists, unless --force is given. No other file changes, whether or not it succeeds; with --dry-run none does. Running it again gives the same file.", "quantifier": "all sets of files, of all versions, lengths, channels and contents; all lists of patterns and orders in which files are found", "why_tests_cant": "there is no test of the script; what a second run does depends on what the pattern matches then", "anchors": ["bin/ljh_merge:merge", "bin/ljh_merge:main", "mass/core/ljh_modify.py:ljh_append_traces", "mass/core/ljh_util.py:filename_glob_expand"]}
{"id": "C178", "title": "Truncating the files of all channels from the command line", "statement": "bin/ljh_truncate writes, for each file with the basename given, a file with the word given before the channel, with the first N records, or those up to a time; files of different channels go to different outputs; no other file changes, whether or not it succeeds. A channel with fewer records than N is kept whole.", "quantifier": "all sets of files, basenames, words and limits, existing outputs and links", "why_tests_cant": "there is no test of the script; the outcome depends on all names in the directory", "anchors": ["bin/ljh_truncate:main", "mass/core/ljh_modify.py:ljh_truncate"]}
{"id": "C179", "title": "Lowpass filtering of traces", "statement": "Filtering a trace with a cutoff keeps exactly its content at frequencies below the cutoff: the result is real and as long as the trace, its Fourier transform is that of the trace below the cutoff and zero from there on. So filtering is linear, filtering twice is filtering once, the sum of squares does not grow, the mean is kept if the cutoff is above zero, a cutoff above half the sampling rate changes nothing.", "quantifier": "all traces of all lengths, sampling rates and cutoffs", "why_tests_cant": "there is no test of the filter; the length of the trace decides", "anchors": ["mass/core/analysis_algorithms.pyx:filter_signal_lowpass", "mass/core/channel.py:MicrocalDataSet.plot_traces", "mass/core/channel_group.py:TESGroup.plot_average_pulses"]}
{"id": "C180", "title": "Recipes as attributes of channels, and recipe books in files", "statement": "Once a recipe is added, ds.name gives the values of the recipe for all records of the channel, whatever is added to, saved from or loaded into this and other channels; adding a recipe to one channel does not change what other channels give for the names they had. A book that was saved is loaded unchanged by any channel, also in another process; a file is overwritten only if asked for, and holds the old or the new book; a file that holds no book is refused.", "quantifier": "all histories of opening channels, adding recipes of any name, saving, loading and restarting, and every point where saving may stop", "why_tests_cant": "tests save and load in one process, with names that nothing else uses", "anchors": ["mass/off/util.py:RecipeBook.add", "mass/off/util.py:RecipeBook.to_file", "mass/off/util.py:RecipeBook.from_file", "mass/off/channels.py:Channel.getAttr", "mass/off/channels.py:ChannelGroup.loadRecipeBooks"]}
{"id": "C181", "title": "Analyses that are interrupted and run again", "statement": "If an analysis of a channel is interrupted (Ctrl-C, an exception, the end of the program) any number of times at any place and then run again from its beginning, without forceNew, in the same or a later session, it ends with the results of an analysis that was never interrupted. With forceNew=True a step makes its results anew wherever it was interrupted before.", "quantifier": "all data, all functions computing the results, any number of interruptions, each before any of the writes to the file", "why_tests_cant": "tests run each step once to its end; an interruption can come between any two of many writes, and every combination of them in several attempts", "anchors": ["mass/core/channel.py:MicrocalDataSet.summarize_data", "mass/core/channel.py:MicrocalDataSet.compute_noise", "mass/core/channel.py:MicrocalDataSet.assume_white_noise", "mass/core/channel.py:MicrocalDataSet.compute_average_pulse", "mass/core/channel.py:MicrocalDataSet.filter_data", "mass/core/channel.py:MicrocalDataSet.drift_correct", "mass/core/channel.py:MicrocalDataSet.phase_correct2014", "mass/core/channel.py:MicrocalDataSet.phase_correct", "mass/core/channel.py:MicrocalDataSet.time_drift_correct", "mass/core/phase_correct.py:PhaseCorrector.toHDF5"]}
{"id": "C182", "title": "Names of cut fields as they are stored and shown", "statement": "A name given to a cut field or a category when it is registered is the name it has afterwards: the field is found by it, registering it again changes nothing, different names are different fields, and asking for other fields is not affected. The tables shown for the fields and the categories list exactly the registered ones, with masks and codes.", "quantifier": "all names (any text, any length), all histories of calls on a new file", "why_tests_cant": "names are stored as 64 bytes of UTF-8 in the file; tests use short names of ASCII letters", "anchors": ["mass/core/cut.py:CutFieldMixin.cut_field_desc_init", "mass/core/cut.py:CutFieldMixin.register_boolean_cut_fields", "mass/core/cut.py:CutFieldMixin.register_categorical_cut_field", "mass/core/cut.py:CutFieldMixin.unregister_boolean_cut_fields", "mass/core/cut.py:CutFieldMixin.unregister_categorical_cut_field", "mass/core/cut.py:Cuts.cut", "mass/core/cut.py:Cuts.cut_categorical", "mass/core/cut.py:Cuts._boolean_fields_bit_mask", "mass/core/cut.py:Cuts.select_category", "mass/core/cut.py:CutDesc.__repr__", "mass/core/cut.py:CategoryList.__repr__"]}
{"id": "C183", "title": "Files of version 2.1 read back", "statement": "A file of version 2.1 (or older) whose records were written one by one opens with as many pulses as records were completed, wherever the writing stopped; every record is read with the samples that were written, with the subframe count of the frame of its time stamp plus the 3 frames of the trigger, and with the time of that subframe in microseconds, rounded to the nearest. Records in order of time have counts in order.", "quantifier": "all headers, all records, all time stamps, all places where the file may end", "why_tests_cant": "all samples, stamps and places of a cut cannot be tried; a test file is complete and of one frame time", "anchors": ["mass/core/files.py:LJHFile2_1", "mass/core/files.py:LJHFile.open", "mass/core/files.py:LJHFile.read_trace_with_timing"]}
{"id": "C184", "title": "Comparing an aligned channel with its reference", "statement": "The figures of an aligned channel show the histograms of both channels over the centers of the bins, and mark each peak on both curves, where it is in that channel; the second figure shows the channel in units of the reference channel it names. The statistic that compares the aligned channel with the reference is the largest difference, over all bins, between the shares of the two channels up to the end of the bin: between 0 and 1, the same whichever channel is the reference and whatever the order of the pulses, 0 exactly for equal shares in all bins, 1 exactly if an edge separates all values of the two.", "quantifier": "all values of both channels, all increasing bin edges, all bins of peaks, all histories of alignments", "why_tests_cant": "values and bins are unlimited; the only test draws the figures without looking at them, and never asks for the statistic", "anchors": ["mass/off/channels.py:AlignBToA.samePeaksPlot", "mass/off/channels.py:AlignBToA.samePeaksPlotWithAlignmentCal", "mass/off/channels.py:AlignBToA._ksStatistic", "mass/off/channels.py:AlignBToA._laplaceEntropy"]}
{"id": "C185", "title": "The parameters written on the figure of a fit", "statement": "The figure of a fit lists every parameter once, in order of their names, and the reduced chi-squared. A fitted value is written with so many figures that it is within half of its uncertainty, and without figures that are worth less than a hundredth of it; uncertainties, values without uncertainty and held values are written to within a twentieth, and it is said which parameters were held. This is so for every result of a fit.", "quantifier": "all values and uncertainties of all parameters, of any size and sign, any number of parameters", "why_tests_cant": "values and uncertainties of all sizes cannot be tried; the tests draw figures without looking at the text", "anchors": ["mass/calibration/line_models.py:LineModelResult._compact_fit_report", "mass/calibration/line_models.py:LineModelResult.plotm"]}
{"id": "C186", "title": "The emission lines that come with the package", "statement": "Loading the package registers all 72 emission lines, each under a name of its own. Each of them is a probability density at every energy resolution that is not negative, with the energies and widths of its table. The nominal peak energy of a line, which calibrations are anchored at, is at its peak: within half a width of a component, with a density higher than at the center of any component farther away.", "quantifier": "all lines of the package, all resolutions, all energies", "why_tests_cant": "the tests look at a few lines at a few energies; numbers of a table mistyped by a digit pass them", "anchors": ["mass/calibration/fluorescence_lines.py:addline", "mass/calibration/fluorescence_lines.py:SpectralLine", "mass/calibration/fluorescence_lines.py:plot_all_spectra", "mass/calibration/fluorescence_lines.py:lineshape_references"]}
{"id": "C187", "title": "What a noise file keeps and shows", "statement": "Computing the autocorrelation of a noise file keeps it in the HDF5 file as that of the noise and under the number of lags; computing the spectrum keeps it with its frequency step, one over the duration of a record. A computing that fails changes nothing, computing again changes nothing, and neither disturbs the other. This is possible for the default and for every number of lags that is allowed, with and without an HDF5 file. The figures show the values kept against lag and frequency, computing them first if needed.", "quantifier": "all noise files, separate or continuous records, all numbers of lags and segment lengths, all limits, any order of calls", "why_tests_cant": "the tests compute with one number of lags in one order; defaults, other numbers and repeated calls are not tried", "anchors": ["mass/core/channel.py:NoiseRecords.compute_autocorrelation", "mass/core/channel.py:NoiseRecords.compute_power_spectrum_reshape", "mass/core/channel.py:NoiseRecords.plot_autocorrelation", "mass/core/channel.py:NoiseRecords.plot_power_spectrum", "mass/core/channel.py:NoiseRecords.set_hdf5_group", "mass/core/channel.py:MicrocalDataSet.compute_noise_nlags"]}
{"id": "C188", "title": "The x-ray energies that come with the package are read completely and make sense", "statement": "Loading the two data files that come with the package gives one line for every row with a measured energy, under the name of its element and transition, with the energy and uncertainty of its row, and nothing else. Each line has a positive uncertainty below one per cent of its energy; the lines of one type, as listed, have strictly growing energies; within an element the energies follow the order of the levels. Each built-in line shape has an energy under the same name, equal within the uncertainty, and each row can be found by a name.", "quantifier": "all 1044 rows of both files, all elements, all types of lines and all names, all built-in line shapes", "why_tests_cant": "the tests look up a few lines; an energy misread because of a shifted column, or lost because of an equal name, shows in no other line", "anchors": ["mass/calibration/nist_xray_database.py:NISTXrayDBFile.__init__", "mass/calibration/nist_xray_database.py:NISTXrayLine.__init__", "mass/calibration/nist_xray_database.py:NISTXrayDBFile.get_lines_by_type", "mass/calibration/energy_calibration.py:LineEnergies", "mass/calibration/nist_xray_data.dat", "mass/calibration/low_z_xray_data.dat"]}
{"id": "C189", "title": "The lines of highly charged ions that are written down in the package", "statement": "The module with hard-coded lines of highly charged ions can be loaded beside all others: every reference is known, no name is taken, and no name meets one made from a data base of levels. Every line is a probability density at every resolution. The lines of hydrogen-like ions are doublets with two thirds of the intensity in the upper component and their weighted mean as nominal energy; the nominal energy of each other line is its strongest component. Energies grow along each series and with the nuclear charge, and a transition has the same energy alone and within a complex.", "quantifier": "all 53 calls of the module, all resolutions, all data bases of levels", "why_tests_cant": "the tests look for the name of one of the lines; an exchanged pair of amplitudes or a name in use shows only if that line is used", "anchors": ["mass/calibration/_highly_charged_ion_lines.py", "mass/calibration/fluorescence_lines.py:addline", "mass/calibration/fluorescence_lines.py:SpectralLine.shortname", "mass/calibration/hci_lines.py:add_hci_line"]}
{"id": "C190", "title": "Which lines of a fluorescence target interfere", "statement": "For the expected rates of a target: all peaks except escape peaks are used, under their own element and all together; each pair of lines of different elements that are both stronger than the given fraction of the strongest, and closer than the given distance, is reported with its names, energies and rates, and nothing else is; nothing is reported exactly if there is no such pair. Printing uses the distance given. The target has equal shares of its elements, adding up to one; the average energy shown is between the least and the greatest energy.", "quantifier": "all results of the fluorescence calculation, all fractions and distances, any order of equal energies, all lists of elements", "why_tests_cant": "there are no tests; lines of equal energy, lines between others and elements given twice appear in few targets", "anchors": ["mass/nonstandard/targetspectra_fisx_example.py:makexy_by_linetype", "mass/nonstandard/targetspectra_fisx_example.py:makexy_all", "mass/nonstandard/targetspectra_fisx_example.py:maketarget", "mass/nonstandard/targetspectra_fisx_example.py:findinterferences", "mass/nonstandard/targetspectra_fisx_example.py:printinterferences", "mass/nonstandard/targetspectra_fisx_example.py:plotfluo"]}
{"id": "C191", "title": "What the figures of x-ray lines show", "statement": "The figure of uncertainties has one panel for each of its transitions, titled with the usual name of the line; each line of the data base is drawn exactly once, in the panel of its transition, at its energy and uncertainty and with its name, within the axes. The figure of energies has one labelled curve per transition with one point for each element that has such a line, at the atomic number and the energy, in the order of the atomic numbers; its ticks show the symbols of the elements. Neither fails on a data base that was read.", "quantifier": "all data bases that can be read, all lines in them; what is within the axes for the data that come with the package", "why_tests_cant": "figures are not tested; the points are known only by evaluating the whole data base", "anchors": ["mass/calibration/nist_xray_database.py:plot_line_uncertainties", "mass/calibration/nist_xray_database.py:plot_line_energies"]}
{"id": "C192", "title": "Count rates of all channels together", "statement": "The figure of count rates has bins of the given width that cover the run; each good channel has the rates of all its pulses and of its good pulses, each the number of pulses in a bin over its width; the rate of the array is the number of pulses of all good channels in a bin over its width; the average of a channel is the number of its pulses over the time of the bins, shown at its channel number, and that of the good pulses is never more. There is a figure whenever there are pulses.", "quantifier": "all groups of channels with any pulse times and cuts, all widths", "why_tests_cant": "figures are not tested, and the sum over channels with different runs depends on every pulse time", "anchors": ["mass/core/channel_group.py:plot_count_rate", "mass/core/channel.py:count_rate"]}
{"id": "C193", "title": "Making a group keeps the results on disk", "statement": "Without overwrite_hdf5_file, making a group of channels loses nothing on disk, whether it succeeds or fails: every file keeps its contents, and only the two files for the results appear. If it succeeds, both files are HDF5 files open for writing, empty if they were missing or were to be overwritten, and nothing else has changed; making the group again changes nothing. With overwrite_hdf5_file the old results are lost only if the group is made.", "quantifier": "all contents of the disk (HDF5 files, other or damaged files, missing, locked or not permitted), all paths of the two files, equal ones included, with and without pulses or noise", "why_tests_cant": "damaged and locked files, and failures between the two files, are not in tests", "anchors": ["mass/core/channel_group.py:TESGroup.__init__"]}
{"id": "C194", "title": "The default bin size of fits", "statement": "A fit uses the bin size it is given; otherwise a channel uses the size set last for it or for its whole group, whichever came later, and the group the size set last for the group; 1 eV before any was set. Setting the size of the group reaches all channels, also those marked bad, and changes nothing else.", "quantifier": "all histories of setting sizes, marking channels and including bad channels, all groups", "why_tests_cant": "depends on the order of all earlier calls", "anchors": ["mass/off/channels.py:CorG.setDefaultBinsize", "mass/off/channels.py:CorG._handleDefaultBinsize", "mass/off/channels.py:ChannelGroup.setDefaultBinsize"]}
{"id": "C195", "title": "What the figures of a pulse model show", "statement": "The figures of a pulse model draw each projector and basis vector once with its own label, the first ten training pulses and what the model leaves of them, and the first pulse beside its model; each legend entry has its curve. What is left of a pulse has no component in the model and vanishes exactly for combinations of the basis; the picture of the errors is finite everywhere and dark exactly if projectors and basis are dual to within 1e-20. A model saved inverted and read back shows the same.", "quantifier": "all pulse models, numbers of components and training pulses", "why_tests_cant": "figures are not tested, and the claims about what is left hold for every pulse", "anchors": ["mass/core/pulse_model.py:PulseModel.plot"]}
{"id": "C196", "title": "What hdf5print shows of a file", "statement": "hdf5print with names of HDF5 files prints of each file its name, and below it every group and data set with its name, shape and type and every attribute with its value, in the order of the file and indented by depth; of the groups whose names begin with chan only the first maxchan of each level are shown, and links leading nowhere are dashes. printHDF5 with a file name does the same.", "quantifier": "all files: all trees of groups, data sets, links and attributes; all lists of files; both kinds of h5py", "why_tests_cant": "a script without tests; the claim is about trees of any depth", "anchors": ["bin/hdf5print:printHDF5"]}
{"id": "C197", "title": "What the figures of noise spectra from several segment lengths show", "statement": "The figure of the noise spectra from segments of several lengths has one curve for each length, with the values of that spectrum at its own frequencies; together the curves cover all frequencies, each frequency is shown by one curve, and each curve only from ten of its own frequency steps on. The figure of a single power spectrum shows all frequencies but zero, as power or as its square root, with the right name and unit on the axis.", "quantifier": "all lists of segment lengths, sample times and spectra; all scale factors", "why_tests_cant": "figures are not tested, and the ranges concern every frequency and every list of lengths", "anchors": ["mass/core/channel.py:NoiseRecords.compute_fancy_power_spectra", "mass/mathstat/power_spectrum.py:PowerSpectrum.plot"]}
{"id": "C198", "title": "Inverted data are read as the channel says, after any history", "statement": "What is read from a channel, all at once or by any key, is the raw data of its own file, each sample replaced by 65535 less it exactly if invert_data of the channel is True. invert_data is what was last set for that channel, or else what the group was made with; setting one channel changes no other, and a copy of a channel has a setting of its own.", "quantifier": "all files and records, all groups, all histories of settings, copies and assignments, all keys", "why_tests_cant": "tests set the flag once for one channel; the claim is about any order of settings on any number of channels", "anchors": ["mass/core/channel.py:MicrocalDataSet.invert_data", "mass/core/channel.py:MicrocalDataSet.copy", "mass/core/files.py:MicrocalFile.invert_data", "mass/core/files.py:LJHFile.alldata", "mass/core/files.py:LJHFile.__getitem__", "mass/core/channel_group.py:TESGroup.__init__"]}
{"id": "C199", "title": "Labels of channels and groups", "statement": "The short name of a channel begins with the name of its file and has its channel number in it; different channels have different short names. The short name of a group is the name of its run with the number of its good channels, the same for LJH and OFF files but for a comma. Reading a short name changes nothing.", "quantifier": "all folders, names of runs, channel numbers and extensions", "why_tests_cant": "tests look at one file name; the claim is about every name, and about any two", "anchors": ["mass/core/channel.py:MicrocalDataSet.shortname", "mass/core/channel_group.py:TESGroup.shortname", "mass/off/channels.py:ChannelGroup.shortName"]}
{"id": "C200", "title": "Kept results and the polarity of the data", "statement": "After any history of setting invert_data, opening the files again, summarizing and averaging, the summaries of a channel all come from one call and one polarity, never from a mixture; they are the summaries of the data as read now. Computing never changes how data are read. An average pulse is kept until asked for again.", "quantifier": "all raw records, all histories of settings, reopenings and calls with any arguments, all functions for the summaries", "why_tests_cant": "tests summarize once with one polarity; the claim is about every order of settings and calls", "anchors": ["mass/core/channel.py:MicrocalDataSet.summarize_data", "mass/core/channel.py:MicrocalDataSet.compute_average_pulse", "mass/core/channel.py:MicrocalDataSet.invert_data"]}
{"id": "C201", "title": "The filter asked for is the filter applied", "statement": "A filter is computed of the kind asked for by name, and filtering the data then uses its weights in the way of that kind, with or without the shift of one sample. After any history of calls of any kinds the way of filtering is the one the filter is for, and memory and file have the same filter. An unknown name raises and changes nothing. Filtered values all come from one call, with the filter the channel has.", "quantifier": "all channels, all filters, all histories of calls with any arguments", "why_tests_cant": "tests compute one kind of filter in a new channel; the claim is about every order of kinds, successes and failures", "anchors": ["mass/core/channel_group.py:TESGroup.compute_filters", "mass/core/channel.py:MicrocalDataSet.filter_data", "mass/core/channel.py:MicrocalDataSet.compute_ats_filter", "mass/core/channel.py:MicrocalDataSet.compute_5lag_filter"]}
{"id": "C202", "title": "Lines and fitters by name in the module", "statement": "After any history of adding lines, what the dictionaries of lines and the module give under a name is one and the same line: the first with that name, or the last that was allowed to replace it; and the variable with Fitter appended makes a fitter for that line. A name in use without permission to replace raises and changes nothing. The fitter of a line without a class of its own is its model. Different lines have different names.", "quantifier": "all lines and all histories of adding lines, with and without replacement", "why_tests_cant": "tests look up some of the lines that come with the package; the claim is about every order of additions and replacements", "anchors": ["mass/calibration/fluorescence_lines.py:addline", "mass/calibration/fluorescence_lines.py:make_line_fitter", "mass/calibration/fluorescence_lines.py:SpectralLine.model", "mass/calibration/fluorescence_lines.py:SpectralLine.shortname"]}
{"id": "C203", "title": "Arithmetic with models", "statement": "Adding, subtracting, multiplying and dividing models in any expression gives a model whose value in every bin is that of the arithmetic, whose parameters are those of all its models, and which depends on no others. It can be made exactly if no two of its models have a parameter in common; else an exception. It is fitted by maximum likelihood, in whatever order it is written.", "quantifier": "all expressions of any size, all models, all values of parameters and all bins", "why_tests_cant": "tests add two or three models; the claim is about every expression", "anchors": ["mass/calibration/line_models.py:MLEModel.__add__", "mass/calibration/line_models.py:MLEModel.__truediv__", "mass/calibration/line_models.py:CompositeMLEModel"]}
{"id": "C204", "title": "Figures of histograms", "statement": "Drawing a channel's histogram onto an axis adds one curve with a point per bin, at the middle of the bin and as high as the number of good pulses with a value in it, keeps every curve already there, and puts the channel's name and that of the values on the axis. The text at the side gives the width of the bins, also for the figure of a line fit. A call that raises leaves the axis as it was.", "quantifier": "all channels, all bin edges, all sequences of figures drawn onto one axis", "why_tests_cant": "tests draw one figure and do not look at it; the claim is about every set of edges and every sequence of calls", "anchors": ["mass/core/channel.py:MicrocalDataSet.plot_hist", "mass/core/channel.py:MicrocalDataSet.hist", "mass/core/channel.py:MicrocalDataSet.linefit"]}
{"id": "C205", "title": "Records of OFF files as curves", "statement": "For every record of an OFF file, counted from the start or the end, the file gives times and a pulse: one time for each sample, zero at the trigger, increasing by the frame period, and the sum of the basis times the record's coefficients, which the projectors turn into the coefficients again. Times and pulse are equally many. Other indices are refused.", "quantifier": "all files, all records, all indices", "why_tests_cant": "tests look at one record of one file; the claim is about every file and every length of record", "anchors": ["mass/off/off.py:OffFile.recordXY", "mass/off/off.py:OffFile.sampleTimes", "mass/off/off.py:OffFile.modeledPulse"]}
