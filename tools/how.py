how = {
"C01": ("cut-field tables and all four (un)register calls", "invariant by induction over sequences of operations"),
"C02": ("Cuts.cut/good/bad/category_codes/select_category on 32-bit masks", "bitwise disjointness from C01's invariant"),
"C03": ("same", "bit extensionality"),
"C04": ("clear_cut", "bit extensionality"),
"C05": ("categorical encoding with scattered bits", "injectivity of bit deposit"),
"C06": ("register calls and running out of bits", "counting free bits"),
"C07": ("histories with recycled bits", "negation by witness; positive part when the bits were never set"),
"C08": ("cut_parameter, all forms of limits", "case analysis, induction on ranges"),
"C09": ("regular-expression search for the last `_chan[0-9]+`", "induction on strings"),
"C10": ("both file-name parsers", "negation by witness; names with a single `_chan`"),
"C11": ("remove_unpaired_channel_files", "list reasoning"),
"C12": ("stable sort by two keys", "permutation and sortedness"),
"C13": ("header scanner over bytes", "induction over lines"),
"C14": ("encoding and decoding of records, truncated files", "round trip"),
"C15": ("set_segment_size arithmetic", "arithmetic"),
"C16": ("ljh_truncate", "list prefixes"),
"C17": ("ljh_copy_traces and header writer", "round trip through the parser"),
"C18": ("inversion on 16-bit words", "bit vectors"),
"C19": ("recordDtype as list of (name, size)", "induction on the number of components"),
"C20": ("OffFile refresh over growing byte lists", "invariant over appends and refreshes"),
"C21": ("ljh_records_to_off segments", "list chunking"),
"C22": ("calcStatesDict in one batch, with float64 rounding of times", "searchsorted specification"),
"C23": ("calcStatesDict incremental", "induction over refreshes; negations by witness"),
"C24": ("parse with remembered offset", "induction over splits of the file"),
"C25": ("RecipeBook add and craft", "induction over added recipes"),
"C26": ("_craftCut", "case analysis"),
"C27": ("loops over channels", "induction on channels"),
"C28": ("includeBad flag machine", "induction over nested blocks; negations"),
"C29": ("drop_first / select on both implementations", "list equality"),
"C30": ("nearest_arrivals, both versions", "loop invariant"),
"C31": ("flux-jump correction over ℚ", "floor and round arithmetic"),
"C32": ("five-lag filter: streaming and parabola", "algebra"),
"C33": ("shorth_range", "optimality over all windows"),
"C34": ("high_median", "loop invariant; negation for weights"),
"C35": ("merge of sorted lists", "induction"),
"C36": ("Levinson recursion over a field", "induction on size"),
"C37": ("bracketR and multiplication by Toeplitz matrices", "sums"),
"C38": ("ARMA whitener", "triangular systems, induction"),
"C39": ("CubicSpline", "tridiagonal sweep, algebra"),
"C40": ("expression trees of functions", "structural induction, `HasDerivAt`"),
"C41": ("calibration table", "invariant over operations"),
"C42": ("calibration table", "invariant over operations"),
"C43": ("calibration table", "case analysis"),
"C44": ("calibration table and HDF5 groups", "round trip"),
"C45": ("build_fit_ranges", "case analysis"),
"C46": ("drift and phase corrections over ℚ", "algebra"),
"C47": ("segments of a power spectrum", "arithmetic on offsets"),
"C48": ("PulseModel matrices", "matrix algebra"),
"C49": ("PulseModel saving with aliasing as state", "state machine"),
"C50": ("kink_model", "normal equations give the optimum"),
"C51": ("flag_crosstalking_pulses (counting part)", "interval counting"),
"C52": ("CrosstalkVeto", "counting; 8-bit wrap witness"),
"C53": ("TESGroup bad channels", "invariant over operations"),
"C54": ("padded length", "powers of two"),
"C55": ("pulse summary scans", "loop invariants"),
"C56": ("first_n_good_pulses, automatic average limits", "lists"),
"C57": ("histograms of channels and groups", "counting"),
"C58": ("time stamps of LJH 2.1", "arithmetic"),
"C59": ("ljh_append_traces", "file contents before and after"),
"C60": ("OFF header length", "bytes against characters"),
"C61": ("getStatesIndicies and reading by state", "C22 and lists"),
"C62": ("flux-jump correction", "arithmetic modulo the quantum"),
"C63": ("5-lag optimal filter", "quadratic form, Cauchy-Schwarz over an ordered field"),
"C64": ("arrival-time-safe filter", "constrained quadratic optimum"),
"C65": ("add_cal_point and checks", "invariant"),
"C66": ("calibration curves", "C39 with every curve type"),
"C67": ("empty calibration", "case analysis"),
"C68": ("find_opt_assignment", "optimality over all selections"),
"C69": ("noise autocorrelation, FFT included", "convolution theorem over ℝ/ℂ"),
"C70": ("PhaseCorrector in HDF5", "round trip; negation"),
"C71": ("average_pulse", "sums"),
"C72": ("rebinned spectra", "sums over bins"),
"C73": ("normalisation of power spectra", "Parseval"),
"C74": ("noise spectra of quiet records", "list selection"),
"C75": ("PulseModel in HDF5", "round trip"),
"C76": ("PulseModel labels", "lists"),
"C77": ("summarize_data_cython", "loop invariants"),
"C78": ("summarize_data_cython", "loop invariants"),
"C79": ("rise time in summarize_data_cython", "crossings of thresholds"),
"C80": ("segment loop of summarize_data", "chunking, 16-bit counter"),
"C81": ("cython and numpy summaries", "equality of two functions"),
"C82": ("compute_max_deriv, both versions", "equality of two functions"),
"C83": ("ExperimentStateFile.parse", "rendering and parsing"),
"C84": ("OffFile.__init__", "case analysis on header and length"),
"C85": ("Qscale with its trial loop, column limits and bisection", "invariant of the loop: the limits of all rows cut the matrix of distances monotonically"),
"C86": ("bisquare_weighted_mean and huber_weighted_mean with all passes and defaults", "invariants over passes; two runs compared step by step"),
"C87": ("trimean, median_abs_dev and the percentiles they use", "sorting commutes with monotone maps, counting below a sorted entry"),
"C88": ("laplace_entropy and its two passes over the sorted data", "the passes are the sums of kernels to the left and right of a node; antiderivative on each gap and on both tails"),
"C89": ("laplace_cross_entropy_arrays with the merged nodes and the running count of top-hats", "invariant of the loop: the count is the number of values within sqrt(6) on each gap; integral gap by gap"),
"C90": ("SpectralLine.pdf and components, voigt, addline's intensities, quick_monochromatic_line", "Voigt function as convolution (change of variables), convolution of densities"),
"C91": ("SpectralLine.rvs with an arbitrary generator", "choice of component as an interval of the uniform variate; recursion on the non-positive draws"),
"C92": ("_smear_exponential_tail with its padding, transforms and clipping", "each wave of the band-limited function is smeared exactly by its factor; integrals of complex exponentials"),
"C93": ("both model functions of GenericLineModel, _scale_add_bg", "change of variables in the density"),
"C94": ("_residual of MLEModel and CompositeMLEModel", "log of a product, log x <= x - 1"),
"C95": ("EnergyCalibration with points, settings, current curve and stale flag; all methods that change them", "invariant over all reachable objects: if not stale, the curve is that of the points"),
"C96": ("_update_converters and the replacement of errors", "permutation of the points; idempotence of the replacement"),
"C97": ("drop_one_errors, copy, _remove_cal_point_idx", "by the outcome of a conversion (C95)"),
"C98": ("_update_approximators: fitted quantities, their errors, cal_uncert and its spline", "derivatives; the spline goes through the grid points"),
"C99": ("GPRSpline: kernel, matrices, Cholesky factor, beta, values at the knots, the natural spline through them, variance and covariance", "the equations of the best linear unbiased prediction; a natural spline is the only combination of truncated cubics through its knots; integrals of products of truncated lines"),
"C100": ("the same", "integration by parts of the second derivative against any function's"),
"C101": ("apply_cuts, AnalysisControl.set, standardControl on top of the model of the cut words", "frame lemmas of cut_parameter along the list of cuts; good() characterised field by field"),
"C102": ("auto_cuts with saving, loading, clearing; the numbers per noise record are inputs", "by C101; medians under maps and permutations"),
"C103": ("the curvature matrix, the linear system, the search for its parameter, scaling, evaluation with linear continuation; brentq by its specification", "integration by parts against piecewise linear second derivatives; completing the square; continuity of the solution in the parameter"),
"C104": ("B-splines by the Cox-de Boor recursion on the padded knots; NaturalBsplineBasis; SmoothingSplineFunction, SmoothingSplineLog", "derivative formula, matching of neighbouring pieces and local independence by induction on the degree"),
"C105": ("external_trigger_subframe_count, ..._as_seconds, the start of calc_external_trigger_timing; _calcExternalTriggerTiming and the group loop; the trigger file as bytes", "round trip of 8-byte numbers, the regular expression as last occurrence; C30 for the delays, field arithmetic for the units"),
"C106": ("set_nearest_neighbors_list with its stored list; the choice of neighbours in flag_crosstalking_pulses", "the unique sorted distances are the ascending list of grid distances; position in it = number of lesser ones"),
"C107": ("LinterpCubicSpline: __init__, and __call__ inherited with the combined xstep", "linearity of every branch of the evaluation"),
"C108": ("savitzky_golay: matrix, pseudo-inverse, padding, convolution", "normal equations and Pythagoras; powers at 2h+1 points are independent; mirror symmetry; Taylor coefficients"),
"C109": ("filter_data, _filter_data_nocython and the three segment functions, with numpy shapes and broadcasting, storing segment by segment", "loop invariant over segments; C32 for the lagged sums; the refusals and the universal failure by computing the first segment"),
"C110": ("time_drift_correct (function and method): limits, normalization, degrees, downsampling, the loop over degrees, acceptance by entropy", "invariants of the loop over degrees; Rodrigues' formula and the fundamental theorem for the mean; oracles universally quantified"),
"C111": ("default cuts of channels and groups, adding through the group with channels marked bad, saving and loading recipe books, on the recipe book of C34", "invariant over histories; induction on the list of saved books"),
"C112": ("learnResidualStdDevCut: bins, nodes, the step function of interp1d, the comparison; median_absolute_deviation", "search in a sorted list of nodes; order statistics of the median from C87; a relation carried through the search for monotonicity and scaling"),
"C113": ("CalibrationPlan, calibrationPlanInit, calibrationPlanAddPoint, calibrateFollowingPlan, on the table of calibration points of C41; fits and conversions as arbitrary functions", "induction over calls, points and iterations; a point far from the others and in order with them is appended"),
"C114": ("linefit, qualityCheckLinefit with its call of linefit by position, qualityCheckDropOneErrors, the group's loop and qualityCheckLinefit; histogram and fit as arbitrary functions", "case analysis; induction over channels; the greatest of a list by a fold"),
"C115": ("dtw_same_peaks, AlignBToA.__init__, getCalBtoA, testForGoodnessBasedOnCalCurvature, the plan in alignToReferenceChannel; histogram and warping path as arbitrary functions", "a chain of steps visits every bin and is ordered in both components; monotony of truncation; points of C113; median of scaled values from C87"),
"C116": ("aliasState, labels, getAttr, hist, plotHist, Channel.histsToHDF5, energyTimestampLabelToHDF5, ChannelGroup.hist and histsToHDF5; HDF5 file as a list of datasets", "selection by state from C61; paths with different components are never prefixes of each other; induction over the assignments"),
"C117": ("FilterStack.add and get_efficiency, Film, AlFilmWithOxide, AlFilmWithPolymer over the reals; xraydb as an arbitrary function", "products of exponentials, induction over nested stacks, zip of lists of different lengths"),
"C118": ("savitzky_golay with the pseudoinverse as an arbitrary function meeting its four defining conditions; the points of plot_as_stepped_hist", "Taylor expansion of polynomials, moments of the weights from the left inverse, values of the padded signal; induction over the bins"),
"C119": ("find_local_maxima after smearing, line_names_and_energies, guess_fit_params, multifit, fit_lines, Channel.calibrate and convert_to_energy; smearing, single fits and curves as arbitrary functions; the table of C41 and the assignment of C68", "insertion sort is determined by distinct energies, induction over lines and over added points, case split over every failing step"),
"C120": ("band_limit on rfft/irfft as exact sums over real numbers, compute_5lag and compute_ats with low-pass options on top of C63 and C64, compute_fourier, _normalize_filter, ToeplitzWhitener.W", "orthogonality of the waves gives the transform of the result; Parseval; lengths of slices and transforms for the Fourier filter; determinant of a triangular matrix"),
"C121": ("_filter_to_hdf5 as a list of statements acting on the group, __load_filters_from_hdf5 for versions 1 and 2, compute_5lag_filter, compute_ats_filter after its pulse model, the start of get_pulse_model", "case analysis along the code with the filter calculations universally quantified; every prefix of the list of statements; concrete rational channels for the disagreements"),
"C122": ("the registration of the states in the constructor of TESGroup and __parse_expt_states, on top of the models of the categorical cuts (C05) and of calcStatesDict (C22)", "induction over the dictionary of states with the order of its keys; the allocation of adjacent bits gives consecutive codes; concrete state files for the disagreements"),
"C123": ("filter_data (its skipping), drift_correct, _apply_drift_correction, phase_correct, calibrate, convert_to_energy, and the loading of calibrations and phase correctors when a file is opened", "case analysis of each call with the learning functions universally quantified; an invariant over all lists of calls; concrete channels for the disagreements"),
"C124": ("phase_correct, _find_peaks_heuristic, the windows, groups and knots of _phasecorr_find_alignment (2017 method), and learnPhaseCorrection's effect on the calibration object of C95", "an invariant of the loop over candidates; permutation invariance of sorting; counting edges below a phase; the reachability invariant of C95"),
"C125": ("FilterTimeCorrection: _sort_labels, the lengths and lags of _filter_model, __call__", "permutations and their inverses for the renumbering; an invariant of the loop over intervals"),
"C126": ("HistogramSmoother (number of bins, kernel, transforms, call), the entropy and drift_correct, over the real numbers", "orthogonality of the roots of unity for the convolution theorem; counting for the totals; bounds on the kernel for the disagreement"),
"C127": ("assume_white_noise, compute_noise, compute_noise_spectra and the check of compute_5lag_filter on the noise datasets of a channel; compute_5lag as in C63", "case analysis and induction over the calls; uniqueness of the solution of a positive definite system for the scaling"),
"C128": ("estimateRiseTime for a batch of records, over an ordered field (NaN is none)", "invariance of maximum, minimum, mean and first-index search under increasing affine maps; first-crossing arguments"),
"C129": ("guess, fit, _fit and _validate_bins_per_fwhm with the minimizer as an arbitrary function", "monotone cumulated counts and uniqueness of quantile bins; case analysis of the two-stage fit; equivalence of the check with bins * size <= width * gain"),
"C130": ("getAvailableLevels, getSingleLevel, the added lines with the registry, and parseLine, with names as lists of characters", "splitting of made-up names is inverse to making them; induction over levels with the count of accepted ones; injectivity of letters followed by digits followed by a blank; lookup after assignment in nested dictionaries"),
"C131": ("composite models as lists of components with expressions; prefixes by character replacement", "lookup after the loop of assignments, with names told apart by prefix and last letter; any valuation obeying the expressions; replacement works word by word"),
"C132": ("count_rate with np.arange and np.histogram", "induction over edges: counts split at an edge; the ceiling that gives the number of edges; sublists count less"),
"C133": ("smart_cuts, sanitize_p_filt_phase and cut_summary on the model of the cut words", "the accumulation and frame theorems of the cut words; slots left by registration; counting of and/or"),
"C134": ("make_masks and the group's compute_average_pulse on top of the channel's average pulse", "absolute values as intervals; induction over the channels"),
"C135": ("energy2ph_exact, energy2dedph, name2ph, ismonotonic and the largest pulse height searched, on top of the curves of C66; brentq as a specification which is shown to have instances", "intermediate values; strict monotonicity; algebra of Newton's steps; evaluation by the kernel for ismonotonic"),
"C136": ("laplace_entropy_approx, laplace_cross_entropy_approx and the choice of mode of the entropy, cross-entropy and divergence: histogram, kernel, cut and normalisation as in the code, over the real numbers", "sums over the histogram as sums over the data; Gibbs' inequality for positive weights; scaling of every step"),
"C137": ("the opening loop of TESGroup, set_segment_size, sample2segnum, segnum2sample_range, the choice of the data set by read_trace and plot_traces, and correct_flux_jumps of channel and group, on top of C31 and the segments of files", "induction over the channels; integer division"),
"C138": ("the four window functions with numpy's definitions, voigt_approx_fwhm, minimum_fwhm and _gaussian_sigma, over the reals", "trigonometric identities; inequalities between squares; the normalisation theorem of C73"),
"C139": ("the default recipes of channels made from arrays with the recipe classes they use, unixnano as the states use it, and the group as a dictionary by number", "the selection theorem of the states (C61) with the truncated times; truncation to seconds commutes with comparison against whole seconds; induction over the channels"),
"C140": ("the choice of files in TESGroup.__init__ (with the name functions of C09-C12), the loop which opens them and writes the attributes of the HDF5 groups, _generate_hdf5_filename and RestoreTESGroup; file contents are an environment", "strictly sorted lists with the same members are equal; explicit form of the HDF5 attributes by induction over the files; restoring and reopening computed from that form"),
"C141": ("__setup_vectors, MicrocalDataSet.__init__ as far as the HDF5 group, resize, copy, _makeNumpyArray and toOffStyle, with h5py's require_dataset; PowerSpectrum objects with their array in a memory", "induction over the fields; the array theorems of C139; explicit computation of the shared memory after an addition"),
"C142": ("NISTXrayDBFile and NISTXrayLine with the column layout, the loop looking for the title (with a number of rounds), the dictionary of lines, replacing, upper and lower case, splitting into words", "induction over lines and files; the text in small letters has no capital letter while every nickname has one"),
"C143": ("ljh_get_channels(_both), output_basename, mass_folder, load_aux_file; the channel loop of ljh2off, its experiment state and readout header; main of the projectors script; LJHModify up to its exception; directories as listings, files as contents by name", "induction over listings and channels; case analysis of the file system"),
"C144": ("the functions of channel_group_hdf5_only.py over a world of channel files (attributes, number of pulses, time stamps) and master files (attributes, links), with the exceptions h5py raises; the order in which links are listed is arbitrary", "induction over the channels with the links made so far; the sort by channel; explicit worlds for the failures"),
"C145": ("the three learn functions over the recipe book of C25, with the fit as arbitrary function; DriftCorrection with toHDF5, fromHDF5, == over a flat HDF5 group", "denotation of recipes (C25); path injectivity; find in appended lists"),
"C146": ("VirtualFile, FakeDataGenerator (conversion to integers, shares, scale factors, smoothing, times, model pulse over the reals) and the first step of the classes that open a file; random draws and shuffles are arbitrary", "floor and modular arithmetic; sums of floors; exponential inequalities"),
"C147": ("the loops of summarize_data, compute_noise_spectra and report, timestamp_offset, the choice of noise files and the checks of a noise-only group, use_records and the segment lengths; a channel's own method is an arbitrary function that may fail", "induction over the channels with the books invariant of C28; sorted index lists; integer division"),
"C148": ("the loops of plot_traces, both plot_summaries, plot_multipage, plot_noise and annotate_lines up to what is handed to matplotlib; the number of values a Python format string wants", "induction over records, channels and pages; integer division; index arithmetic of np.roll"),
"C149": ("LineEnergies over the model of the data base (C142); the choices of get_model; the parameter hints; the number of digits of the report over the reals; the He-like complexes and models() over the composite models of C131", "the symbol at the start of a key is unique and the names of transitions are disjoint (finite check over the two name tables), dictionary lemmas; ordered-field arithmetic; logarithms, floor and ceiling; induction over the stored models"),
"C150": ("_phasecorr_find_alignment, both methods, over the grouping of C124 and the cubic spline of C39: stages of searches, the mean, the correction between them, the curve; histograms, correlation, place of the largest value, ridge", "the tridiagonal solution and the spline of displaced data are those of the data displaced; interpolation at strictly increasing medians; permutations of the pulses; telescoping sums over bin edges; the largest value of the correlation with a single bin"),
"C151": ("get_pulse_model, the construction of PulseModel, _pulse_model_to_hdf5 per channel and in the loop of C27, pulse_model_to_hdf5 for a new and a given file, str.split for the name", "case analysis of the checks; lists extended at their end; the loop theorem of C27 with the entry of the channel as part of its state; induction over the name"),
"C152": ("np.arange, the centers, linefit step by step on top of the histograms of C57, the loop of save_pulse_energies_ascii, printf's %.10e and float32 as specifications, summarize_filters and Filter.report over the reals", "properties of the ceiling; case analysis of the steps; the theorems of C57; distance of float32 numbers against the error of eleven decimal digits; algebra of square roots"),
"C153": ("glob patterns on names (star, question mark, brackets), getOffFileListFromOneFile on top of the sorting of C20, the dictionary of channels, the fit in the basis and the recipes by name, the loop over a group, the output name", "induction over patterns and lists; the sums of C32 rearranged; the theorems on sorting; evaluation for the disagreements"),
"C154": ("rounding of rationals to p bits (floor, halves to even, power of two from the logarithm), the arithmetic of each time as a composition of roundings, the state dictionary of C22 on these times", "error bound, monotonicity and exactness of rounding from the definition; linear arithmetic over rationals; the states by the theorem of C22 after showing that both roundings of whole numbers are one"),
"C155": ("the channel method compute_5lag_filter; everything else by the models of C71, C63, C109, C66, C21 and C153", "composition: the average of affine records, the normalised signal as the shape over its maximum, the response theorem of C63 for every record, equality of the parabola vertices, linearity of the projection"),
"C156": ("dictionaries as association lists; set_in_dict, the loop over the dictionaries, the loop over the arguments with what stays set when it stops; namespaces; the constructor of AnalysisControl", "induction over arguments and dictionaries; an invariant principle for histories of calls"),
"C157": ("the chain of look-ups and conversions of _parse_header, in the order of the code, with the exception of each", "relations that say what a header states, for keys with and without defaults and for keys found by their first letters; each step of the chain is equivalent to its relation"),
"C158": ("json.dumps line by line with ASCII escapes, the header dictionary, the loops over files and segments with what is on disk when they stop, the encoding of a record", "every inner line is indented and printable; induction over the files; opening (C84) of every prefix; field positions of the layout"),
"C159": ("Python's % for one number, glob with three digits, sorting by code points, the files on disk; the generator as a tree of steps and exceptions, the updater's messages", "three digits below 1000 sort as numbers; the sorted list of a sorted list is itself; induction over the generator"),
"C160": ("argmax, mode and the windows of the numpy summary, with NaN as none", "argmax and mode by what characterises them (first greatest; most common, smallest); the six samples of one way are the window of the other"),
"C161": ("the constructor's matrices (C99), _marginal_like over the reals, minimize_scalar as a parameter", "completing the square and Gaussian integrals; invariance by bordered determinants and uniqueness of the weights"),
"C162": ("fit_kink_model on the model of kink_model (C50), the bounded search as a parameter", "optimality of the search combined with that of the linear coefficients"),
"C163": ("power iteration, QR and SVD by what they promise", "algebra of matrix products; Pythagoras for the best approximation"),
"C164": ("linear forms in named sources of uncertainty (uncertainties' AffineScalarFunc), films, stacks and their constructors", "the linear form of an efficiency is its derivative along every source; sums over distinct sources"),
"C165": ("the numbers handed to matplotlib: curve, band, points, bars, texts", "branch by branch; derivatives for the error bars"),
"C166": ("the whole function on top of the models of find_local_maxima, find_opt_assignment (C68) and calibration plans (C113)", "induction over the points added; the assignment's optimality"),
"C167": ("figures with current axes, curves (axes, label, colour, data) and legends", "induction over the channels"),
"C168": ("the whole method: places, outlines, texts, curves; on top of the model of the automatic calibration (C119)", "arithmetic of the layout; positions in repeated lists; the points of a new calibration by C119"),
"C169": ("the three plots with reading by state, crafting of cuts (with leading !) and np.histogram2d on edges", "pulses of a state by the theorems on state selection (C22, C116); negated cuts by cases on the text; total of counts by one bin per value in both directions"),
"C170": ("InlineUpdater with a clock as any sequence of readings, show_progress around work as its fractions and end, and the fractions of summaries and of filtering", "induction on the fractions; order of the field for estimates; the group by the theorem on fractions of group summaries (C147)"),
"C171": ("labels of fits as texts, plotHist with an arbitrary histogram, numbers of panels, resultPlot over outcomes of fits, np.interp on a curve, heights on a logarithmic scale", "case analysis; induction over states and channels; the integer square root; convexity of interpolation; monotonicity of log and exp"),
"C172": ("the three instruments and the window as stacks of the films of C117, with xraydb as arbitrary densities, compositions and coefficients; the plot as its curves", "a stack built from parts with different names has the product of their efficiencies (induction); each part by the theorems of C117; signs of exponents for bounds"),
"C173": ("the loop over columns with the array it writes into, np.correlate as the sum of products (shared with C69)", "induction on the columns; Cauchy-Schwarz by sums of squares for the bound; the square of a sum by induction for the vanishing weighted sum"),
"C174": ("plot with its curves, limits and label as a structure; energies by default as in the code", "components and density from C90; the integral of a Lorentzian by arctan and arctan(1/6) ≤ 1/6; induction over components"),
"C175": ("the matrix expressions of a segment and the fields of one of its records; the straight line by the normal equations", "residuals orthogonal to constants and to the index; sums of squares"),
"C176": ("numbers with NaN and infinite values, arguments of all shapes, whether the converter returns the caller's own object", "case analysis on shapes, lists by map"),
"C177": ("the loop of the script over the model of files with links, glob as any function", "induction over the files with the invariant that the output is whole and holds the records so far"),
"C178": ("the search for the channel in a name, the loop over the files", "induction over the files: each step changes the output only"),
"C179": ("the transforms of numpy as sums over roots of unity, the list of frequencies entry by entry, the mask", "orthogonality of the roots of unity, symmetry of the spectrum of real data, Parseval's identity"),
"C180": ("the names that the classes and channels have, the properties added to the classes of a process, channels with their books, files, and steps of opening, adding, saving, loading and restarting; dill as something that finishes or does not", "invariants over all sequences of steps; witnesses for the names that clash"),
"C181": ("each step as a test whether it is done and a list of writes to the data sets of the channel; an interruption keeps a prefix of the writes; the computations are arbitrary functions of the data sets; the stored phase corrector entry by entry", "a step that does not look done writes everything anew (writes commute and absorb), later steps do not touch what earlier ones read or write, induction on the attempts"),
"C182": ("the calls of the cut model once more on stored byte strings: UTF-8, cut off at 64 bytes, trailing NULs ignored in comparisons, decoding where the code decodes; the two tables line by line", "a simulation: every call on the image of a state gives the image of the result, by the injectivity of UTF-8; the tables by counting characters; the long names by computing, and for all states by comparing lengths"),
"C183": ("the record type, the time stamps and the properties computed of them, on the bytes of the file", "encoding and decoding of little-endian words, a file cut anywhere is a whole number of records and a rest, floor division"),
"C184": ("the histograms, cumulative sums and marks of the figures", "cumulative sums of a histogram count the values up to an edge; largest element of a list"),
"C185": ("the number of figures, the rounding of the formats and the lines of the report", "powers of ten around a number (Int.log, Int.clog), rounding to a multiple of a unit; the sorted list is a permutation"),
"C186": ("all calls of addline as a table of exact numbers; the registration of names; the line of C90 made of each entry; plot_all_spectra", "the conditions of C90 are evaluated by the kernel on the whole table, then C90 gives the density at every resolution; without resolution the density is a rational function, compared at the centers by the kernel"),
"C187": ("the methods of NoiseRecords that compute, store and draw, as functions of the state of the HDF5 group, on top of the values of C69 and C74", "case analysis over the outcome of the computing and of each store; the lengths follow from the checks of h5py"),
"C188": ("the rows of the two data files as generated literals (tools/gen_xray.py), their texts by columns, the loading of C142 and the names of C149 applied to them", "a lemma for all rows that fit their columns, and evaluation in the kernel over the whole table; then the theorems of C142 and C149"),
"C189": ("the calls of the module as generated literals (tools/gen_ions.py) and the model of addline of C186", "evaluation in the kernel over the whole table, the theorems of C90 and C186 for the densities, and a general argument on names for all data bases of levels"),
"C190": ("the lists of peaks, the search for neighbours, the target and the average as functions of the result of fisx, which is arbitrary; np.argsort as any sorting permutation", "membership in filters and sorted lists; that some neighbours differ if the ends of a stretch do, by induction along the stretch"),
"C191": ("the panels with their titles, labels and points and the curves with their atomic numbers and energies, on the model of the data base of C142 and the shipped data of C188", "invariant of the loop that puts each line into its panel; names determine element and transition by counting blanks; the shipped data by evaluation in the kernel"),
"C192": ("plot_count_rate on the model of count_rate of C132 for a list of channels: edges from the first channel, rows, sums over channels, averages; exact arithmetic", "each row by the lemmas on histograms of C132; sums and averages by induction over the channels; when there are two edges by the ceiling in np.arange"),
"C193": ("the disk as a function from paths to files, with open and locked paths; h5py.File in modes a and w; the two openings of TESGroup.__init__ with the second try after an OSError", "case analysis of what each opening does, for any disk; composition of the two"),
"C194": ("the defaults of a group and its channels, the marks and the flag for bad channels as a state; the calls as steps", "invariant over histories: the state is the last size set"),
"C195": ("plot as a function from the matrices of the model and the training pulses to the curves, labels and picture; the label of a curve is the one at its place in the legend; the value 1e-20 is any positive number", "matrix identities from duality; signs of flipped components cancel in products; positions in reversed lists"),
"C196": ("a file as a tree of links, data sets and groups; printing as mutually recursive functions giving lines and perhaps an exception; whether attributes have iteritems is a parameter; texts of shapes, types and values are given", "induction over trees and lists of children; membership of lines equivalent to a relation saying which objects are to be shown; order by an explicit choice of children"),
"C197": ("a spectrum as half length, sample time and values; the loop over spectra with its starting frequency as a recursive function giving the points of each curve; the square root is a given function", "induction over the list of spectra with the starting frequency general; the least curve whose upper end is above a frequency; ordered field arithmetic"),
"C198": ("file objects with a setting each, channels with their own setting and perhaps a file object; making groups, setting, copying and assigning records as functions on these; records as lists of 16-bit words", "invariant: every channel agrees with its file object and no two share one, kept by setting and by making groups; the setting after a list of settings is the last one for the channel"),
"C199": ("the three properties as functions on file names, with the file name functions of C09; what :g gives from a million on is any text", "splitting at the last slash; the round trip of C09; decimal digits determine the number"),
"C200": ("a channel as its polarity, its summaries and its average pulse, with any functions for what is computed from the records as read (C198)", "induction on the history from its end; the last setting made"),
"C201": ("compute_filters for one channel on the model of C121; the start of filter_data up to the choice of the way of filtering; the loop over channels is that of C27", "cases of a call; induction on the history"),
"C202": ("the registration at the end of addline on dictionaries as functions of names; a function that makes a fitter as the line it is for", "induction on the history from its end; lengths of names and cancelling the suffix"),
"C203": ("models as trees with an operator at each node; evaluation, parameter names and the choice of the class as in lmfit", "induction on the expression"),
"C204": ("an axis as its curves and texts, plot_hist on top of the histograms of C57, calls one after another", "induction on the edges and on the sequence of calls"),
"C205": ("an opened file as its basis, projectors, frame period and records; recordXY and the functions under it", "list arithmetic; exchange of two finite sums for the projection"),
}
