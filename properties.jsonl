{"id": "C01", "title": "FFA output row s is a shifted stack of all input rows", "statement": "For any m x p input (m, p >= 1), row s of the FFA transform equals, element by element, the sum over all input rows i of row i rotated left by sigma(m,s,i) bins, where sigma depends only on m, s and i (never on the data), starts at 0 for the first row, ends at exactly s for the last row, and grows by 0 or 1 from each row to the next.", "quantifier": "every number of rows m >= 1, every number of columns p >= 1, every input array, every output row s < m and column", "why_tests_cant": "The transform is recursive with data-independent but m-dependent rounding; tests check a few small m against a reference implementation that has the same rounding, and cannot cover every m, p and every data set.", "anchors": ["riptide/cpp/transforms.hpp: merge, transform", "riptide/cpp/kernels.hpp: fused_rollback_add", "riptide/libffa.py: ffa2"]}
{"id": "C02", "title": "FFA shifts follow the ideal linear drift within a logarithmic number of bins", "statement": "For m >= 2 the shift applied to input row i in output row s differs from the ideal straight-line drift s*i/(m-1) by at most (ceil(log2 m) - 1)/2 bins.", "quantifier": "every m >= 2, every s < m, every i < m", "why_tests_cant": "The worst case deviation grows with the recursion depth; a test can only sample finitely many m.", "anchors": ["riptide/cpp/transforms.hpp: merge, transform"]}
{"id": "C03", "title": "FFA conserves flux and row 0 is the plain fold", "statement": "Every output row of the FFA transform has the same total as the whole input, and row 0 of the transform is exactly the column-wise sum of the input (the plain fold at the base period).", "quantifier": "every m, p >= 1 and every input", "why_tests_cant": "Universal over all inputs and shapes.", "anchors": ["riptide/cpp/transforms.hpp: transform", "riptide/libffa.py: ffa2, ffa1"]}
{"id": "C04", "title": "FFA is linear and commutes with phase rotation", "statement": "The FFA transform of a linear combination of inputs is the same linear combination of the transforms, and rotating every input row by the same number of bins rotates every output row by that number of bins.", "quantifier": "all shapes, all pairs of inputs, all scalars, all rotation amounts", "why_tests_cant": "Relational property between several runs for all inputs.", "anchors": ["riptide/cpp/transforms.hpp: transform", "riptide/libffa.py: ffa2"]}
{"id": "C05", "title": "FFA with shared scratch memory never reads stale data", "statement": "The in-place recursion, which alternates between the scratch buffer and the output buffer, writes every cell of the output exactly with the result of the transform whatever the scratch and output buffers initially held, does not write outside the rows*cols cells of either buffer, never modifies the input, and so can be called repeatedly on the same buffers (as the periodogram does).", "quantifier": "all rows, cols >= 1, all inputs, all initial contents of the two buffers, all memory outside the blocks", "why_tests_cant": "Tests run with freshly allocated (often zeroed) buffers; stale-data reads depend on buffer history.", "anchors": ["riptide/cpp/transforms.hpp: transform, merge", "riptide/cpp/block.hpp: head, tail, rowptr", "riptide/cpp/periodogram.hpp: periodogram"]}
{"id": "C06", "title": "Single-precision shift arithmetic never leaves the block", "statement": "With the head and tail indices computed in IEEE single precision (round to nearest even), for every merge step of a transform with at most 2^22 rows the head index is < number of head rows, the tail index is < number of tail rows, and head index + tail index <= s <= head index + tail index + 1, so no row outside the block is read; for some larger row counts this fails.", "quantifier": "every m with 3 <= m <= 2^22 (merge is only called for m >= 3) and every s < m, with and without fused multiply-add (and a counterexample at m = 2^24 + 1)", "why_tests_cant": "Rounding of (rows-1)/(m-1) and of the product depends on m and s; exhaustively testing 2^43 pairs is infeasible.", "anchors": ["riptide/cpp/transforms.hpp: merge"]}
{"id": "C07", "title": "FFA rounding error is bounded by the recursion depth", "statement": "If every addition has relative error at most u, each output sample differs from the exact shifted stack by at most ((1+u)^d - 1) times the sum of the absolute values of the samples that enter it, where d = ceil(log2 m).", "quantifier": "every shape, every input, every rounding behaviour with relative error <= u per addition", "why_tests_cant": "Quantifies over all data and all admissible rounding behaviours.", "anchors": ["riptide/cpp/transforms.hpp: transform", "riptide/cpp/kernels.hpp: add, fused_rollback_add"]}
{"id": "C08", "title": "Rotation kernels match numpy.roll", "statement": "rollback(x, shift)[i] = x[(i+shift) mod n] and fused_rollback_add(x, y, shift)[i] = x[i] + y[(i+shift) mod n] for every shift >= 0 (including shift >= n), with all memory accesses inside the arrays; the binding of the latter raises ValueError exactly when the sizes differ.", "quantifier": "all n >= 1, all shifts, all arrays", "why_tests_cant": "All sizes and shifts, including ones larger than the array.", "anchors": ["riptide/cpp/kernels.hpp: rollback, fused_rollback_add, add", "riptide/cpp/python_bindings.cpp: rollback, fused_rollback_add"]}
{"id": "C09", "title": "Circular prefix sum", "statement": "circular_prefix_sum over nsum elements returns at each position j < nsum the sum of x[0..j] with x repeated periodically.", "quantifier": "all array lengths >= 1, all nsum, all values", "why_tests_cant": "All sizes, all number of wraps (including exact multiples of the size).", "anchors": ["riptide/cpp/kernels.hpp: circular_prefix_sum, add_scalar"]}
{"id": "C10", "title": "The circular_prefix_sum binding allocates enough output", "statement": "Calling libcpp.circular_prefix_sum(x, nsum) never writes outside the array it returns and returns nsum elements.", "quantifier": "all arrays and all nsum", "why_tests_cant": "Out-of-bounds heap writes are silent; a test only sees a crash by luck. (The code allocates len(x) elements, so the property is false for nsum > len(x).)", "anchors": ["riptide/cpp/python_bindings.cpp: circular_prefix_sum", "riptide/cpp/kernels.hpp: circular_prefix_sum"]}
{"id": "C11", "title": "Boxcar S/N is the optimum matched filter over all pulse phases", "statement": "For a profile of n bins and trial width 0 < w < n, the reported S/N is the maximum over all n starting phases of the dot product of the profile with a circular boxcar of width w that has zero mean and unit square sum, divided by stdnoise.", "quantifier": "every n >= 2, every profile, every width in range, every stdnoise > 0", "why_tests_cant": "Universal over profiles, widths and phases.", "anchors": ["riptide/cpp/snr.hpp: snr1", "riptide/cpp/kernels.hpp: circular_prefix_sum, diff_max", "riptide/libffa.py: boxcar_snr"]}
{"id": "C12", "title": "Boxcar S/N invariances", "statement": "The S/N of a profile is unchanged by rotating the profile in phase and by adding a constant baseline; it scales with a positive gain applied to the profile and inversely with stdnoise; and scaling data and stdnoise together leaves it unchanged.", "quantifier": "all profiles, rotations, offsets, positive gains, widths", "why_tests_cant": "Relational over all pairs of inputs.", "anchors": ["riptide/cpp/snr.hpp: snr1", "riptide/libffa.py: boxcar_snr"]}
{"id": "C13", "title": "boxcar_snr validates its arguments and treats rows independently", "statement": "boxcar_snr / snr2 raises ValueError exactly when stdnoise is not > 0 or some width is 0 or >= number of bins; otherwise (with at least one width) its output has one row per input profile, and each entry depends only on that row and that width: it equals what the single-profile function gives for that width alone, whatever other widths and rows are present.", "quantifier": "all blocks, all width lists, all stdnoise", "why_tests_cant": "Independence from the other rows/widths is a property of all combinations.", "anchors": ["riptide/cpp/snr.hpp: check_stdnoise, check_trial_widths, snr1, snr2", "riptide/cpp/python_bindings.cpp: snr2", "riptide/libffa.py: boxcar_snr"]}
{"id": "C14", "title": "Downsampling integrates the data over consecutive windows of length f", "statement": "downsample(x, f) has floor(N/f) samples and sample k equals the integral of the piecewise-constant signal x over [k f, (k+1) f], i.e. the sum over all input samples i of x[i] times the length of the overlap of [i, i+1] with [k f, (k+1) f]; every index read is < N. It raises ValueError exactly when not 1 < f <= N.", "quantifier": "all N, all real f, all data", "why_tests_cant": "f is real-valued; edge cases (f integer, f dividing N, f = N) are a continuum.", "anchors": ["riptide/cpp/downsample.hpp: downsample, check_downsampling_factor, downsampled_size", "riptide/libffa.py: downsample"]}
{"id": "C15", "title": "Downsampling conserves what it covers", "statement": "The downsampled samples sum to the integral of the data over [0, floor(N/f) f]; a constant signal c becomes the constant c f; for an integer factor each output is the plain sum of f consecutive samples; downsampling is linear in the data.", "quantifier": "all N, f, data", "why_tests_cant": "Universal over real factors and data.", "anchors": ["riptide/cpp/downsample.hpp: downsample"]}
{"id": "C16", "title": "Noise variance after downsampling is what the search divides by", "statement": "For white unit-variance noise, the variance of a downsampled sample (the sum of its squared weights) equals the variance used to normalise the S/N, whenever all output samples have equal variance (integer factor f).", "quantifier": "every integer factor f >= 2 and every N >= f", "why_tests_cant": "A statistical normalisation error scales all S/N values by the same factor and cannot be seen without the closed form for all f. (The code returns (f-1)^2+1 instead of f, so this is false for f >= 3.)", "anchors": ["riptide/cpp/downsample.hpp: downsampled_variance", "riptide/cpp/periodogram.hpp: periodogram"]}
{"id": "C17", "title": "The periodogram fills its output arrays exactly", "statement": "The number of trials announced by the length computation, which sizes the output arrays, is exactly the number of (period, bins, S/N row) entries written by the search, for the same arguments.", "quantifier": "all valid arguments, all data lengths, all width lists", "why_tests_cant": "Mismatch would be a silent buffer overflow or uninitialised trailing values for some rare parameter combination.", "anchors": ["riptide/cpp/periodogram.hpp: periodogram_length, periodogram", "riptide/cpp/python_bindings.cpp: periodogram"]}
{"id": "C18", "title": "Trial periods are strictly increasing and inside the requested range", "statement": "The trial periods returned by a successful periodogram call are strictly increasing, all >= period_min and < period_max, and each trial's number of bins lies between bins_min and bins_max.", "quantifier": "all valid arguments and data lengths", "why_tests_cant": "Continuum of parameters; the monotonicity is across FFA blocks and across downsampling stages.", "anchors": ["riptide/cpp/periodogram.hpp: periodogram, ceilshift"]}
{"id": "C19", "title": "Trial period grid has no holes", "statement": "Within one fold at b bins and m >= 2 rows, consecutive trial periods correspond to a frequency step of exactly 1/(tau b^2 (m-1)), the first trial is period_min, and across folds and downsampling stages the grid has no holes: for every period P in [period_min, period_max) there is a trial with period P_j <= P whose frequency exceeds 1/P by less than one such step, as long as the data contain at least two periods of period_max.", "quantifier": "all valid arguments", "why_tests_cant": "Coverage of a continuum of periods for a continuum of parameters.", "anchors": ["riptide/cpp/periodogram.hpp: periodogram, ceilshift"]}
{"id": "C20", "title": "Periodogram scratch buffers are large enough", "statement": "In every iteration of the search the downsampled series and the rows*bins cells used by the FFA fit in buffers sized for the first downsampling stage, and no FFA is ever run with 0 rows.", "quantifier": "all valid arguments", "why_tests_cant": "Memory safety for a continuum of parameters.", "anchors": ["riptide/cpp/periodogram.hpp: periodogram"]}
{"id": "C21", "title": "Searching up to a very long period stops gracefully", "statement": "For any period_max > period_min (all other arguments valid) the search does not fail: it stops automatically once the longest period allowed by the data is reached, as the code comment promises.", "quantifier": "all period_max", "why_tests_cant": "Tests use moderate period_max. (False: downsample() throws once the factor exceeds the number of samples.)", "anchors": ["riptide/cpp/periodogram.hpp: periodogram_check_arguments, periodogram", "riptide/cpp/downsample.hpp: check_downsampling_factor"]}
{"id": "C22", "title": "Each trial period label matches the drift that was folded", "statement": "Output row s of the FFA at base period b with m rows is labelled with period P = b^2/(b - s/(m-1)); a signal of exactly that period drifts by exactly s*i/(m-1) bins over i rows, so the fold tracks it to within (ceil(log2 m)-1)/2 + s/(m-1) bins over the full data (the second term is the drift within one row).", "quantifier": "all m >= 2, b >= 2, s < m with s/(m-1) < b", "why_tests_cant": "Relation between the labels and the folding paths for all shapes.", "anchors": ["riptide/cpp/periodogram.hpp: periodogram", "riptide/cpp/transforms.hpp: transform", "riptide/libffa.py: ffafreq, ffaprd"]}
{"id": "C23", "title": "ffafreq and ffaprd", "statement": "ffafreq(N,p,dt) raises ValueError exactly for N <= 0, p <= 1, N < p or dt <= 0, and otherwise returns N//p strictly decreasing positive frequencies from 1/(p dt) to 1/(p dt) - 1/(p^2 dt); ffaprd returns their reciprocals, strictly increasing from p dt to p^2/(p-1) dt, and these agree with the periods of the periodogram.", "quantifier": "all integers N, p and positive dt", "why_tests_cant": "All sizes including the single-row special case.", "anchors": ["riptide/libffa.py: ffafreq, ffaprd", "riptide/cpp/periodogram.hpp: periodogram"]}
{"id": "C24", "title": "Width trials", "statement": "generate_width_trials terminates for every wtsp, starts at 1, is strictly increasing, obeys W(n+1) = max(floor(wtsp W(n)), W(n)+1), contains every element of that sequence not exceeding the largest allowed width max(1, floor(ducy_max nbins)), and if ducy_max < 1 and nbins >= 2 all widths are valid for boxcar_snr on any profile with at least nbins bins.", "quantifier": "all nbins, all ducy_max, all wtsp (including wtsp <= 1 and negative)", "why_tests_cant": "Termination and validity for all real parameters.", "anchors": ["riptide/ffautils.py: generate_width_trials", "riptide/search.py: ffa_search", "riptide/cpp/snr.hpp: check_trial_widths"]}
{"id": "C25", "title": "Running median is exact with edge padding", "statement": "running_median(x, w) raises ValueError exactly when w is even or w >= len(x); otherwise output i is the median (the middle order statistic) of the w values x[i-w/2..i+w/2], where indices beyond the ends are replaced by the first/last element.", "quantifier": "all arrays of a linear order, all odd w < N", "why_tests_cant": "A ring buffer plus quickselect over all histories of pushes.", "anchors": ["riptide/cpp/running_median.hpp: RunningMedian, running_median, nth_element, partition", "riptide/running_medians.py: running_median"]}
{"id": "C26", "title": "Quickselect returns the n-th order statistic", "statement": "nth_element returns the n-th smallest value of the data for any array (with duplicates, sorted, reversed), leaves the array a permutation of itself, terminates, and stays inside the array.", "quantifier": "all non-empty arrays, all n < size", "why_tests_cant": "All orderings of all sizes.", "anchors": ["riptide/cpp/running_median.hpp: nth_element, partition"]}
{"id": "C27", "title": "De-reddening succeeds whenever the window fits", "statement": "fast_running_median / deredden raises ValueError only if min_points is even or the median window does not fit in the data.", "quantifier": "all data lengths, windows and min_points", "why_tests_cant": "Parity and length interplay. (False: an even window not exceeding min_points is rejected although it fits, and windows that fit in the raw data may not fit after scrunching.)", "anchors": ["riptide/running_medians.py: fast_running_median, scrunch, running_median", "riptide/time_series.py: TimeSeries.deredden"]}
{"id": "C28", "title": "The approximate running median stays within the range of the data", "statement": "When fast_running_median succeeds it returns one value per sample, each between the minimum and maximum of the data; adding a constant to the data adds it to the output; a constant series is de-reddened to exactly zero.", "quantifier": "all data, window sizes and min_points for which the call succeeds", "why_tests_cant": "Composition of scrunching, exact median and interpolation for all inputs.", "anchors": ["riptide/running_medians.py: fast_running_median, scrunch", "riptide/time_series.py: TimeSeries.deredden"]}
{"id": "C29", "title": "cluster1d computes the friends-of-friends partition", "statement": "The clusters are non-empty and partition the indices of x; two points are in the same cluster exactly when they are connected by a chain of points with consecutive distances <= r. Holds for any order in which the sort leaves equal elements and for pre-sorted increasing or decreasing input.", "quantifier": "all arrays, all radii r >= 0, every sorting permutation", "why_tests_cant": "All data sets and all tie-breaking behaviours of an unstable sort.", "anchors": ["riptide/clustering.py: cluster1d"]}
{"id": "C30", "title": "Reported peaks are genuine", "statement": "Every peak returned by find_peaks exceeds smin and the dynamic threshold at its frequency, has the highest S/N among all significant points of its cluster in that width trial, carries the period, width, S/N of one periodogram entry with duty cycle = width/foldbins, and the list is sorted by decreasing S/N.", "quantifier": "all periodograms, all parameters, any fitted threshold", "why_tests_cant": "All periodograms.", "anchors": ["riptide/peak_detection.py: find_peaks, find_peaks_single"]}
{"id": "C31", "title": "No significant point is lost", "statement": "For each width trial, every periodogram point exceeding both thresholds belongs to exactly one cluster whose peak is returned with S/N at least as high, and lies within a chain of significant points spaced by no more than clrad/T from it; two peaks of the same width trial are always further apart than clrad/T.", "quantifier": "all periodograms and parameters", "why_tests_cant": "All periodograms.", "anchors": ["riptide/peak_detection.py: find_peaks_single", "riptide/clustering.py: cluster1d"]}
{"id": "C32", "title": "segment_stats never fails on a legal periodogram", "statement": "segment_stats succeeds on every non-empty periodogram and returns one control point per frequency segment of width segwidth/T.", "quantifier": "all frequency arrays", "why_tests_cant": "Edge cases in the number of trials vs segments. (False: a one-trial periodogram gives 0 segments, hence a division by zero; fewer trials than segments gives empty segments.)", "anchors": ["riptide/peak_detection.py: segment_stats"]}
{"id": "C33", "title": "DM selection covers the requested range", "statement": "select_dms returns, in increasing order, a subset of the available DMs inside [dm_start, dm_end] (strictly increasing if the available DMs are distinct), always including the smallest and the largest of them; between two consecutive selected DMs either the coverage intervals touch or no other available DM lies in between. It raises ValueError exactly if no trial is in range.", "quantifier": "all lists of DMs (any order, duplicates), all bounds, all band parameters with positive radii", "why_tests_cant": "Greedy algorithm over arbitrary spacings.", "anchors": ["riptide/pipeline/dmiter.py: select_dms"]}
{"id": "C34", "title": "DM selection is minimal", "statement": "No subset of the available DMs that starts at the smallest available DM, ends at the largest and satisfies the same covering condition has fewer elements than what select_dms returns.", "quantifier": "all lists of distinct DMs (DMIterator passes dictionary keys), all bands with 0 < fmin < fmax and nchans >= 1", "why_tests_cant": "Optimality over all subsets.", "anchors": ["riptide/pipeline/dmiter.py: select_dms"]}
{"id": "C35", "title": "File iteration visits each selected file once", "statement": "iterate_filenames(chunksize) yields the selected files in increasing DM order, each exactly once, in chunks of exactly chunksize except for a possibly shorter but non-empty last one.", "quantifier": "all numbers of files and all chunk sizes >= 1", "why_tests_cant": "All list lengths and chunk sizes.", "anchors": ["riptide/pipeline/dmiter.py: DMIterator.iterate_filenames"]}
{"id": "C36", "title": "Every candidate period is assigned the right search range", "statement": "For contiguous validated search ranges that the search itself accepts (period_min < period_max), get_search_range returns for any period in the global range the unique range with period_min <= period < period_max, the first range for shorter periods and the last for longer ones; in particular it never returns None.", "quantifier": "all validated lists of ranges and all periods", "why_tests_cant": "Interval logic over real bounds.", "anchors": ["riptide/pipeline/pipeline.py: Pipeline.get_search_range", "riptide/pipeline/config_validation.py: validate_ranges"]}
{"id": "C37", "title": "Validated ranges can always be folded", "statement": "If range validation accepts a configuration then every period inside a range can be folded with that range's candidate bins without a bin-width error.", "quantifier": "all configurations, periods and sampling times", "why_tests_cant": "Boundary inequality (>= vs >) over reals. (False at period_min = cand_bins * tsamp.)", "anchors": ["riptide/pipeline/config_validation.py: validate_range", "riptide/folding.py: fold"]}
{"id": "C38", "title": "fold returns the advertised shape and loses no flux", "statement": "fold(period, bins, subints) either raises ValueError in the documented cases or returns bins phase bins (and the requested number of sub-integrations as rows); summing the sub-integrations gives the same integrated profile whatever subints was requested.", "quantifier": "all series, periods, bins, subints", "why_tests_cant": "Continuum of factors.", "anchors": ["riptide/folding.py: fold, downsample_vertical"]}
{"id": "C39", "title": "Folding and non-inplace operations do not modify the input", "statement": "fold, normalise, deredden and downsample (inplace=False) leave the TimeSeries they are called on (data, tsamp, metadata) unchanged, although fold scales an array in place.", "quantifier": "all series and arguments, all aliasing situations", "why_tests_cant": "Aliasing between numpy views is not visible in values-only tests.", "anchors": ["riptide/folding.py: fold", "riptide/time_series.py: TimeSeries.normalise, deredden, downsample"]}
{"id": "C40", "title": "tobs metadata always equals the length of the data", "statement": "After any sequence of TimeSeries operations (normalise, deredden, downsample; in place or not) metadata['tobs'] equals nsamp*tsamp.", "quantifier": "all histories of operations on all series", "why_tests_cant": "Invariant over all operation histories. (False: in-place downsampling leaves tobs stale.)", "anchors": ["riptide/time_series.py: TimeSeries.__init__, downsample, normalise, deredden"]}
{"id": "C41", "title": "Normalisation gives zero mean and unit variance", "statement": "normalise returns data with mean 0 and variance 1 for any non-constant series, is idempotent, and is invariant under positive gain and offset of the input.", "quantifier": "all series", "why_tests_cant": "Universal over data.", "anchors": ["riptide/time_series.py: TimeSeries.normalise"]}
{"id": "C42", "title": "Harmonic test decision", "statement": "htest never divides by zero for positive periods; it reports a relation exactly when the phase distance, DM distance and S/N distance are all within their thresholds, with the fraction of denominator <= denom_max closest to the ratio of the faster to the slower frequency; identical-period pairs are tested as 1/1.", "quantifier": "all pairs of candidates", "why_tests_cant": "All pairs of real frequencies.", "anchors": ["riptide/pipeline/harmonic_testing.py: hdiag, htest"]}
{"id": "C43", "title": "Closest fraction is the best rational approximation", "statement": "The fraction used by htest is a best approximation: no fraction with denominator <= denom_max is closer to the frequency ratio (Python's Fraction.limit_denominator algorithm).", "quantifier": "all rationals and all denom_max >= 1", "why_tests_cant": "Continued fraction algorithm over all rationals.", "anchors": ["riptide/pipeline/harmonic_testing.py: hdiag"]}
{"id": "C44", "title": "Harmonic flagging is sound and complete", "statement": "After flagging, ranks are a bijection onto 0..n-1 in order of decreasing S/N; every flagged cluster points to a cluster that is itself not flagged, of lower rank, at least as bright and harmonically related to it (the brightest such); and no two unflagged clusters are related.", "quantifier": "all lists of clusters and every relation computed by htest", "why_tests_cant": "Order-dependent greedy marking over all cluster lists.", "anchors": ["riptide/pipeline/pipeline.py: Pipeline.flag_harmonics"]}
{"id": "C45", "title": "Candidate filters keep exactly what they promise", "statement": "apply_candidate_filters keeps precisely the clusters satisfying all enabled cuts, and if a cap nmax is set, nmax of them such that none of the dropped ones is brighter than a kept one.", "quantifier": "all cluster lists and all filter settings", "why_tests_cant": "All combinations of optional filters.", "anchors": ["riptide/pipeline/pipeline.py: Pipeline.apply_candidate_filters"]}
{"id": "C46", "title": "One failing candidate does not lose the others", "statement": "build_candidates produces, in order of decreasing S/N, a candidate for every filtered cluster whose construction succeeds, whatever subset of them fails; candidate file names are pairwise distinct.", "quantifier": "all filtered lists, all groupings by DM, every pattern of failures", "why_tests_cant": "All failure patterns.", "anchors": ["riptide/pipeline/pipeline.py: Pipeline.build_candidates, CandidateWriter"]}
{"id": "C47", "title": "Search result does not depend on scheduling", "statement": "The list of peaks obtained from the worker pool is the same for every number of processes, every chunking and every completion order of the workers, and equals the sequential result.", "quantifier": "all schedules, numbers of processes, file lists", "why_tests_cant": "Schedules are nondeterministic.", "anchors": ["riptide/pipeline/worker_pool.py: WorkerPool.process_fname_list", "riptide/pipeline/pipeline.py: Pipeline.search"]}
{"id": "C48", "title": "A crash while saving leaves a consistent prefix", "statement": "If saving stops at any point, the set of files present is a prefix-closed set of the products (peaks.csv before clusters.csv before candidates.csv before any candidate file); if no peaks were found nothing is written.", "quantifier": "every crash point and every schedule of the writer pool", "why_tests_cant": "All crash points.", "anchors": ["riptide/pipeline/pipeline.py: Pipeline.save_products"]}
{"id": "C49", "title": "JSON serialization round trip", "statement": "Saving and loading any supported object tree (numbers, strings, lists, dicts, numpy arrays, Metadata, TimeSeries, Periodogram, Candidate, PeakCluster...) gives back an equal tree, and the base64 array encoding decodes to the same bytes, shape and dtype.", "quantifier": "all supported object trees", "why_tests_cant": "Recursive structure. (False for dictionaries that contain the reserved type tag, and some container types come back as plain dict.)", "anchors": ["riptide/serialization.py: JSONEncoder, object_hook, to_json, from_json"]}
{"id": "C50", "title": "SIGPROC header parser", "statement": "For any list of known keys and values in range, encoding a header as SIGPROC does and parsing it returns the same keys and values, the recorded byte size is the exact offset of the data, and the parser terminates on every byte string.", "quantifier": "all headers and all byte strings", "why_tests_cant": "All byte strings.", "anchors": ["riptide/reading/sigproc.py: read_all_attributes, SigprocHeader"]}
{"id": "C51", "title": "SIGPROC sample count and dtype", "statement": "For an accepted time-series file the number of samples reported in the header object equals the number of samples loaded whenever nchans is not negative, and from_sigproc raises ValueError exactly for multi-channel data, unsupported nbits, or 8-bit data lacking a signedness key.", "quantifier": "all headers and file sizes", "why_tests_cant": "All headers.", "anchors": ["riptide/reading/sigproc.py: SigprocHeader", "riptide/metadata.py: Metadata.from_sigproc", "riptide/time_series.py: TimeSeries.from_sigproc"]}
{"id": "C52", "title": "SIGPROC coordinates", "statement": "The packed float coordinates hhmmss.s / ddmmss.s are decoded to hours/degrees, minutes and seconds exactly, including negative declinations between 0 and -1 degrees.", "quantifier": "all coordinates", "why_tests_cant": "Sign handling at zero degrees.", "anchors": ["riptide/reading/sigproc.py: parse_float_coord"]}
{"id": "C53", "title": "PRESTO .inf parser", "statement": "For every well-formed .inf file of the radio, X-ray/gamma families the parser recovers the values written, consuming data-break sections and unknown trailing lines; the data file name is the .inf path with its extension replaced.", "quantifier": "all field values", "why_tests_cant": "All files.", "anchors": ["riptide/reading/presto.py: PrestoInf"]}
{"id": "C54", "title": "Metadata is total on reserved keys and defensive", "statement": "Every Metadata object contains all reserved keys (None if absent) with validated types; invalid types or out-of-range values are rejected; constructing it never modifies the dictionary passed in.", "quantifier": "all dictionaries", "why_tests_cant": "All dictionaries.", "anchors": ["riptide/metadata.py: Metadata"]}
{"id": "C55", "title": "Pipeline configuration documented as valid is accepted", "statement": "Every configuration documented as valid in the example configuration file comments is accepted by the validator, and accepted configurations do not crash later on type errors.", "quantifier": "all configurations", "why_tests_cant": "All combinations of optional values. (False: subints: null is documented but rejected.)", "anchors": ["riptide/pipeline/config_validation.py", "riptide/pipeline/config/example.yaml"]}
{"id": "C56", "title": "rseek prints one peak per frequency cluster", "statement": "The table printed by the rseek app contains, for each cluster of peak frequencies, exactly the brightest peak of the cluster, sorted by decreasing S/N.", "quantifier": "all lists of peaks", "why_tests_cant": "All lists.", "anchors": ["riptide/apps/rseek.py"]}
{"id": "C57", "title": "fpmin caps the maximum searched period", "statement": "ffa_search(fpmin=k) never returns trial periods longer than data length / k, as documented.", "quantifier": "all series, all fpmin", "why_tests_cant": "Parameter relation over all inputs. (False: fpmin is ignored.)", "anchors": ["riptide/search.py: ffa_search"]}
{"id": "C58", "title": "Every periodogram S/N value is the matched-filter S/N of the labelled fold", "statement": "Entry (trial, width) of a successful periodogram is the matched-filter S/N (maximum over phases, zero-mean unit-norm circular boxcar) of the shifted stack of the downsampled data at that trial's bins and shift, divided by the noise level of that fold; the buffers shared between folds never leak data from one fold to another.", "quantifier": "all data, all valid arguments", "why_tests_cant": "End-to-end composition of all kernels for all inputs.", "anchors": ["riptide/cpp/periodogram.hpp: periodogram", "riptide/cpp/snr.hpp: snr2", "riptide/cpp/transforms.hpp: transform", "riptide/cpp/downsample.hpp: downsample"]}
{"id": "C59", "title": "A full search never feeds an invalid boxcar width to the S/N code", "statement": "For every accepted ffa_search call with ducy_max < 1, each width passed to the periodogram is >= 1 and smaller than the number of bins of every fold, so the boxcar normalisation never divides by zero or takes the root of a negative number.", "quantifier": "all accepted argument combinations", "why_tests_cant": "The C++ periodogram does not validate widths; needs reasoning over all parameters.", "anchors": ["riptide/search.py: ffa_search", "riptide/ffautils.py: generate_width_trials", "riptide/cpp/periodogram.hpp: periodogram", "riptide/cpp/snr.hpp: snr1"]}
{"id": "C60", "title": "DM iteration honours bounds, cap and the band of the files", "statement": "DMIterator selects only DMs of the given files that lie between dm_start and dm_end (by default the smallest and largest available DM) and not above the galactic cap, including the smallest and the largest of these. Band parameters inferred from PRESTO files hold for every file and do not depend on the sign of the channel width (fmax - fmin = nchan * |cbw|); inference fails if the files disagree or for SIGPROC files.", "quantifier": "all lists of files, bounds, caps and formats", "why_tests_cant": "Composition of default handling, dictionary keys and selection over all inputs.", "anchors": ["riptide/pipeline/dmiter.py: DMIterator, get_band_params, infer_band_params"]}
{"id": "C61", "title": "ffa_search does not depend on gain and baseline of the data", "statement": "For any series, multiplying the data by a positive constant and adding a constant leaves the outcome of ffa_search unchanged (unless already_normalised=True): the same exception, or the same searched data, trial periods, phase bins and S/N values.", "quantifier": "all series, gains > 0, offsets and search arguments", "why_tests_cant": "two runs with different inputs must be compared for all gains, offsets and both settings of the dereddening; a test samples a few", "anchors": ["riptide/search.py: ffa_search", "riptide/time_series.py: TimeSeries.deredden, normalise", "riptide/running_medians.py: fast_running_median"]}
{"id": "C62", "title": "ffa_search returns the series it searched, with consistent metadata", "statement": "The TimeSeries returned by ffa_search has the length and sampling time of the input, zero mean and unit variance (unless already_normalised or constant data), tobs equal to the data length in both its metadata and that of the Periodogram, and the Periodogram holds the result of the compiled search of exactly these data.", "quantifier": "all series and accepted search arguments", "why_tests_cant": "holds for all combinations of deredden and already_normalised and all data; involves quantities spread over three objects", "anchors": ["riptide/search.py: ffa_search", "riptide/periodogram.py: Periodogram.__init__"]}
{"id": "C63", "title": "The harmonic fraction respects denom_max", "statement": "The fraction p/q reported by the harmonic test is the ratio of the frequencies of the tested candidate and the fundamental up to the tolerance, and its denominator is at most denom_max, whichever of the two candidates is the faster. (False for a candidate slower than the fundamental: the numerator is bounded instead.)", "quantifier": "all pairs of candidates and all denom_max", "why_tests_cant": "needs the set of pairs whose ratio lies below 1/denom_max; no test uses one", "anchors": ["riptide/pipeline/harmonic_testing.py: hdiag, htest"]}
{"id": "C64", "title": "Pipeline clusters are the friends-of-friends groups of the peak frequencies", "statement": "The clusters formed by the pipeline partition the peaks: each peak found by the search is in exactly one cluster, no cluster is empty, peaks of one cluster are linked by a chain of peaks whose frequencies differ by at most radius / tmed, and peaks of different clusters differ by more than that, across all DM trials.", "quantifier": "all lists of peaks with positive periods, all radii and median lengths", "why_tests_cant": "relies on the order in which the search leaves the peaks (already_sorted=True is passed although frequencies are decreasing); must hold for every list", "anchors": ["riptide/pipeline/pipeline.py: Pipeline.cluster_peaks, Pipeline.search", "riptide/clustering.py: cluster1d"]}
{"id": "C65", "title": "The running median keeps monotone data and linear trends", "statement": "running_median of a non-decreasing or non-increasing series returns the series unchanged, edges included. fast_running_median of a straight line returns the straight line exactly at every sample between the centres of the first and the last scrunched block (everywhere when no scrunching is needed).", "quantifier": "all monotone series, all odd windows smaller than the data; all lines, windows and min_points that are accepted", "why_tests_cant": "the interplay of edge padding, block means and interpolation has to be right for every length, window and slope", "anchors": ["riptide/running_medians.py: running_median, fast_running_median", "riptide/cpp/running_median.hpp: running_median"]}
{"id": "C66", "title": "Dereddening subtracts the running median of the nearest whole window", "statement": "TimeSeries.deredden(width, minpts) returns data minus their running median over the whole number of samples nearest to width / tsamp (ties to even), sample by sample, keeping length and sampling time; inplace=True leaves the same data in the object as inplace=False returns. A linear drift is removed exactly, except within one block of the start and two of the end.", "quantifier": "all series, widths and minpts for which the call succeeds", "why_tests_cant": "relates a physical width to rounding, two code paths (in place or not) and an exact cancellation for all slopes", "anchors": ["riptide/time_series.py: TimeSeries.deredden", "riptide/running_medians.py: fast_running_median"]}
{"id": "C67", "title": "The cluster table has one row per cluster, ranked, with consistent harmonic relations", "statement": "The centre of a cluster is its brightest peak (the first of them in case of a tie; ValueError for an empty cluster). The table of clusters written by the pipeline has exactly one row per cluster, in decreasing order of S/N; row k has rank k, the number of peaks of its cluster and the values of its centre. fundamental_rank points to a row of a fundamental that is at least as bright, a fundamental points to itself with fraction 0/0, any other cluster carries the fraction in lowest terms that the harmonic test returned for this pair, and no two fundamentals are related according to the test.", "quantifier": "all lists of non-empty clusters and all harmonic tests", "why_tests_cant": "relates the rank assignment, the flagging loop and the sorting of the table for every set of clusters", "anchors": ["riptide/pipeline/pipeline.py: Pipeline.flag_harmonics, Pipeline.rank", "riptide/pipeline/peak_cluster.py: PeakCluster, clusters_to_dataframe"]}
{"id": "C68", "title": "Every detected peak is accounted for in the end products", "statement": "A complete run of the pipeline takes every peak returned by the workers, and no other, to exactly one cluster; each cluster either fails one of the configured filters (S/N, DM, harmonics of brighter clusters, maximum number: then only clusters at least as bright are kept), or yields exactly one candidate unless folding it raised an exception; candidates come in decreasing S/N. The result does not depend on the number of processes nor on the order in which the workers finish.", "quantifier": "all jobs whose files can be loaded and searched, all numbers of processes and schedules", "why_tests_cant": "end to end statement over search, clustering, harmonic flagging, filters and folding", "anchors": ["riptide/pipeline/pipeline.py: Pipeline.process"]}
{"id": "C69", "title": "A Pipeline object can be reused: the candidates of a run are those of its own input", "statement": "Calling Pipeline.process a second time on the same object gives the candidates that a new object would give.", "quantifier": "all pairs of jobs", "why_tests_cant": "no test calls process twice on one object", "anchors": ["riptide/pipeline/pipeline.py: Pipeline.process, Pipeline.build_candidates"]}
{"id": "C70", "title": "A cluster becomes a candidate whenever its period can be folded", "statement": "Candidate.from_pipeline_output succeeds exactly if the period of the cluster fits into the data and is longer than the requested number of bins times the sampling time, whatever number of sub-integrations (positive or None) is requested; otherwise it raises ValueError. The candidate has the parameters of the brightest peak, the metadata of the series and all the peaks of the cluster; it has the requested number of sub-integrations if so many periods are shorter than the data, otherwise as many as whole periods fit; its profile is the sum over all whole periods and does not depend on the number of sub-integrations. With validated ranges every cluster inside the searched period range can be folded.", "quantifier": "all series, clusters, numbers of bins and of sub-integrations", "why_tests_cant": "the fallback to subints=None has to agree exactly with the checks of fold for all combinations of period and length", "anchors": ["riptide/candidate.py: Candidate.from_pipeline_output, Candidate.profile", "riptide/folding.py: fold", "riptide/pipeline/pipeline.py: Pipeline.build_candidates"]}
{"id": "C71", "title": "Every candidate that is built can be plotted", "statement": "The figure of any candidate produced by from_pipeline_output can be made.", "quantifier": "all series, clusters, numbers of bins and of sub-integrations", "why_tests_cant": "needs the configurations (subints: 1, or a period longer than half of the data) for which fold returns an array with one dimension", "anchors": ["riptide/candidate.py: plot_subints, Candidate.from_pipeline_output", "riptide/folding.py: fold"]}
{"id": "C72", "title": "The DM curve of a candidate is the envelope of its peaks", "statement": "Candidate.dm_curve returns strictly increasing DMs, exactly those at which the cluster has a peak, each with the largest S/N of the peaks at that DM; the curve takes its maximum, the S/N of the candidate, at the DM of the candidate.", "quantifier": "all clusters", "why_tests_cant": "holds for every grouping of peaks, including ties and repeated DMs", "anchors": ["riptide/candidate.py: Candidate.dm_curve"]}
{"id": "C73", "title": "Preparing a file once for all search ranges does not change its peaks", "statement": "The peaks that a worker returns for a file are those that separate calls of ffa_search (with deredden=True and the configured window, on the file as loaded) and find_peaks give for the ranges one after the other, and it raises an exception exactly if one of these calls does. Gain and offset of the data in the file have no effect on the peaks.", "quantifier": "all series, all lists of ranges, all dereddening parameters", "why_tests_cant": "equivalence of two programs on all inputs", "anchors": ["riptide/pipeline/worker_pool.py: WorkerPool.process_fname", "riptide/search.py: ffa_search"]}
{"id": "C74", "title": "Peaks belong to the range that found them", "statement": "Every peak that a worker returns carries the DM of its file; its period is inside one of the configured ranges, with S/N above the threshold of that range, a width among the trial widths of that range and a duty cycle that is the width over an allowed number of bins. With contiguous ranges, the range that the pipeline picks later to fold a peak is the range in which it was found.", "quantifier": "all series, all lists of ranges", "why_tests_cant": "joins the period grid of the compiled search with the range lookup of the pipeline at the limits of the ranges", "anchors": ["riptide/pipeline/worker_pool.py: WorkerPool.process_fname", "riptide/pipeline/pipeline.py: Pipeline.get_search_range"]}
{"id": "C75", "title": "Memory safety of the compiled search whatever the rounding", "statement": "With every step of the plan of the search computed in rounded double precision (number of stages from log, downsampling factors from pow, sizes from floor, rows to evaluate from ceil), the search never reads or writes outside of its arrays, never converts an out-of-range double to size_t, and the arrays allocated from periodogram_length are filled exactly. This holds for any rounding that is monotone, exact on integers and accurate to one unit, any pow and log of moderate accuracy, with or without fused multiply-add, whatever the arithmetic of the samples; the number of samples and of bins must be at most 2^50 and period_max at most 2^62 samples, and a period_max of 2^66 samples is undefined behaviour.", "quantifier": "all data, all search parameters within the stated bounds, all double arithmetics with the stated accuracy", "why_tests_cant": "the effect of a rounding error in floor or ceil appears only for rare parameter values, and its result is a silent overrun of a buffer; setup.py warns that the two copies of the calculation must agree", "anchors": ["riptide/cpp/periodogram.hpp: periodogram_length, periodogram, ceilshift", "riptide/cpp/downsample.hpp: downsample, downsampled_size", "riptide/cpp/python_bindings.cpp: periodogram", "setup.py"]}
{"id": "C76", "title": "Trial periods increase also in double precision", "statement": "The trial periods returned by the compiled search, as computed in double precision, never decrease along the array and lie in the requested range.", "quantifier": "all data, all search parameters", "why_tests_cant": "a rounding error of one unit in ceilshift adds a trial at the end of one fold that coincides with the first trial of the next; which of the two is larger depends on the last bit", "anchors": ["riptide/cpp/periodogram.hpp: periodogram, ceilshift", "riptide/periodogram.py: Periodogram"]}
{"id": "C77", "title": "Range of the S/N of a search", "statement": "No S/N in the output of the compiled search is negative, and none exceeds sqrt(2 Q), where Q is the sum of the squares of the searched samples; for trials without downsampling the bound is sqrt(Q). Hence, if ffa_search normalises the data itself and they are not constant, all S/N are between 0 and sqrt(2 nsamp).", "quantifier": "all data, all search parameters, all trials and widths", "why_tests_cant": "a bound over all data; tests compare single values for given seeds", "anchors": ["riptide/cpp/periodogram.hpp: periodogram", "riptide/cpp/snr.hpp: snr1, snr2", "riptide/cpp/downsample.hpp: downsampled_variance", "riptide/search.py: ffa_search"]}
{"id": "C78", "title": "Coherent gain of folding", "statement": "If the searched data repeat with a period of b samples (bins_min <= b <= bins_max, period_min = bins_min * tsamp, at least two periods), then one trial has exactly this period, and each of its S/N is sqrt(m) times the S/N of one period, where m is the number of whole periods. In particular ffa_search (without dereddening) of any noise-free train of rectangular pulses, whatever the height, baseline and phase, whose width is a trial width, reports S/N sqrt(nsamp) at exactly the period of the train, and no trial without downsampling has more.", "quantifier": "all periodic data, all search parameters, all pulse shapes; all rectangular pulse trains", "why_tests_cant": "joins the period grid, the transform, the S/N normalisation and the normalisation of the data; existing tests search one synthetic pulsar and allow a tolerance", "anchors": ["riptide/cpp/periodogram.hpp: periodogram", "riptide/cpp/snr.hpp: snr1", "riptide/search.py: ffa_search", "riptide/time_series.py: TimeSeries.normalise"]}
{"id": "C79", "title": "Defaults of the rseek options can be given explicitly", "statement": "Giving an option of rseek explicitly, with the value shown as its default in the help, has the same effect as leaving it out.", "quantifier": "all options of the search, all other options, all input series", "why_tests_cant": "argparse converts texts but not default values, so that type and value of an option depend on whether it was given; tests use the defaults or other values, not both", "anchors": ["riptide/apps/rseek.py: get_parser, run_program", "riptide/running_medians.py: fast_running_median", "riptide/cpp/python_bindings.cpp: running_median"]}
{"id": "C80", "title": "Result of rseek", "statement": "rseek returns None exactly if no point (trial period, trial width) of the periodogram of the dereddened and normalised series exceeds the thresholds. Otherwise each row of the table is such a point, with its own period, width, duty cycle and S/N; the rows are ordered by decreasing S/N and differ by more than clrad / length in frequency; and no significant point is lost: a chain of significant points with steps of at most clrad / length leads from it to a row with at least its S/N.", "quantifier": "all input series and options for which the program succeeds, all sorting permutations of numpy.argsort, all threshold fits", "why_tests_cant": "a statement on all points of the periodogram through two stages of clustering with different keys", "anchors": ["riptide/apps/rseek.py: run_program", "riptide/search.py: ffa_search", "riptide/peak_detection.py: find_peaks", "riptide/clustering.py: cluster1d"]}
{"id": "C81", "title": "Frequency resolution, and peak detection on search output", "statement": "If the data contain two periods of period_max, every period of the range lies within 3 / (bins_min T) in frequency of a trial period at or below it, and so do neighbouring trials of each other (T: length of the data). Hence find_peaks with segwidth >= 3 / bins_min never fails on the output of such a search, except for ZeroDivisionError if there is a single trial, which needs a range narrower than 3 / (bins_min T) in frequency; and rseek succeeds on such a series if its running median does.", "quantifier": "all data, all search parameters", "why_tests_cant": "the spacing involves all stages of downsampling and all numbers of bins; sparse segments (C32) can only be excluded by a bound for all searches", "anchors": ["riptide/cpp/periodogram.hpp: periodogram", "riptide/peak_detection.py: segment_stats, find_peaks", "riptide/apps/rseek.py: run_program"]}
{"id": "C82", "title": "Generated test signals have the documented shape and amplitude", "statement": "generate_signal without noise returns nsamp samples whose squares add up to amplitude^2. For a positive amplitude all samples are positive, the largest possible value is taken exactly by the samples at a whole number of periods from phi0, and a sample is at least half of it exactly if its phase is within ducy / 2 of a whole number: ducy is the full width at half maximum in periods. The signal depends only on the distance to the next pulse. With noise of mean zero, the expected S/N of the filter with the exact shape of the signal is amplitude / stdnoise, its variance is one if the noise samples are uncorrelated and of standard deviation stdnoise, and no filter of unit norm gets more than the amplitude out of the noiseless signal.", "quantifier": "all numbers of samples, real periods, initial phases and amplitudes, duty cycles in (0, 1], all noise distributions", "why_tests_cant": "an identity of transcendental functions for all parameters and an expectation value; a test sees single samples up to rounding", "anchors": ["riptide/libffa.py: generate_signal"]}
{"id": "C83", "title": "TimeSeries.generate, and the S/N of a generated signal in a search", "statement": "For tsamp > 0 and length >= 0, TimeSeries.generate returns a new object and changes no other: it holds generate_signal for period / tsamp, its number of samples is the nearest integer to length / tsamp, tobs is the length of the data, and the metadata tell source name, shape, period, phase and duty cycle. Without noise, a search of this series as it is reports no S/N above sqrt(2) * amplitude, and none above the amplitude in trials without downsampling; if the period is a whole number of samples in the range of phase bins there is a trial at exactly the period of the signal, whose S/N are sqrt(m) times the boxcar S/N of one period, for m periods.", "quantifier": "all parameters of the signal and of the search with which the search succeeds", "why_tests_cant": "a bound over all trials of all searches of all signals", "anchors": ["riptide/time_series.py: TimeSeries.generate", "riptide/libffa.py: generate_signal", "riptide/search.py: ffa_search"]}
{"id": "C84", "title": "A file is searched successfully under every validated configuration that fits the data", "statement": "The worker that processes a file uses, for every search range of a validated configuration, exactly the arguments given there for ffa_search and find_peaks, and the documented default values for those left out; dereddening and normalisation are done once, before the search. If the search ranges fit the data (not finer than the sampling, increasing, at least two periods in the data, not narrower than the frequency resolution) and the running median window fits the data, the file is processed without error.", "quantifier": "all configurations accepted by the validation, without infinite numbers, all time series with a DM, all sequences of ranges", "why_tests_cant": "A test runs the pipeline with the configurations in the repository. It does not try the other values that the validation lets pass, such as rmed_minpts of 101.0 or 100, nor clrad: null.", "anchors": ["riptide/pipeline/worker_pool.py: WorkerPool.process_fname", "riptide/pipeline/config_validation.py: validate_pipeline_config", "riptide/running_medians.py: fast_running_median", "riptide/pipeline/pipeline.py: Pipeline.__init__"]}
{"id": "C85", "title": "Rounding error of the boxcar S/N", "statement": "In floating point, with every operation on the data rounded to single precision and the running sum kept in double precision, the boxcar S/N of a profile exist for all widths below the number of bins n and differ from the exact matched filter S/N by at most 18u/(1-18u) * 4 * sqrt(n / (w (n - w))) * sum|x| / stdnoise, where u is the unit roundoff of single precision; for IEEE arithmetic that is 2^-17 * sqrt(n / (w (n - w))) * sum|x| / stdnoise for up to 2^29 bins. The relative error does not grow with the number of bins.", "quantifier": "all profiles, numbers of bins n with n v <= u (v: unit roundoff of double), widths and noise levels; every arithmetic with relative errors at most u and v, products fused or not", "why_tests_cant": "a worst case over all roundings; tests compare with a tolerance for a few arrays", "anchors": ["riptide/cpp/snr.hpp: snr1", "riptide/cpp/kernels.hpp: circular_prefix_sum, diff_max"]}
{"id": "C86", "title": "Rounding error of the S/N of a search", "statement": "The S/N values of a search whose downsampling, folding, prefix sums, boxcar filters and normalisation are carried out in floating point differ from those of the search in exact arithmetic by at most K u/(1 - K u) * 4 * sqrt(b / (w (b - w))) * sum|data| / sqrt(m * variance), where K = 23 + ceil(f) + ceil(log2 m) for a trial with downsampling factor f, m rows and b bins. Every downsampled sample is within (ceil(f) + 2) u / (1 - (ceil(f) + 2) u) of the exact one, relative to the integral of the absolute value.", "quantifier": "all data and search parameters with which the search succeeds, bins_max * v <= u; every arithmetic with relative errors at most u and v, products fused or not", "why_tests_cant": "a worst case over all roundings, data and trials", "anchors": ["riptide/cpp/periodogram.hpp: periodogram", "riptide/cpp/downsample.hpp: downsample", "riptide/cpp/transforms.hpp: transform, merge", "riptide/cpp/snr.hpp: snr1, snr2"]}
{"id": "C87", "title": "A small change of the data changes the S/N of a search little", "statement": "Searches of two series of the same length with the same parameters have the same trials, and corresponding S/N values differ by at most sqrt(2) times the Euclidean distance of the two series.", "quantifier": "all pairs of series of equal length and all search parameters with which the search of one of them succeeds (widths from 1 to bins_min - 1)", "why_tests_cant": "A test can perturb some series; that no sample and no trial is amplified by more than the noise normalisation allows needs the coefficients of every trial.", "anchors": ["riptide/cpp/periodogram.hpp: periodogram", "riptide/cpp/snr.hpp: snr1, snr2", "riptide/cpp/transforms.hpp: transform", "riptide/cpp/downsample.hpp: downsample, downsampled_variance"]}
{"id": "C88", "title": "S/N values have the tails of unit noise, false alarms", "statement": "If independent noise with the tails of a normal distribution of at most unit standard deviation is added to the data, each S/N of the search is lower by t or more with probability at most exp(-t^2/4) and higher by t or more with probability at most b exp(-t^2/4), where b is the number of phase bins of the trial; for trials without downsampling the exponent is -t^2/2. In a search of noise alone, some S/N is t or more with probability at most (number of widths) * (sum of foldbins) * exp(-t^2/4).", "quantifier": "all data and search parameters with which the search succeeds (widths from 1 to bins_min - 1); all t >= 0; all independent sub-Gaussian noise, in particular standard normal noise", "why_tests_cant": "Probabilities of rare events cannot be sampled, and the bound is for every trial of every search.", "anchors": ["riptide/cpp/periodogram.hpp: periodogram", "riptide/cpp/snr.hpp: snr1, snr2", "riptide/cpp/downsample.hpp: downsampled_variance"]}
{"id": "C89", "title": "Detection of a pulse train in noise", "statement": "If the data repeat a rectangular pulse of wd samples and height amp with a period of b samples, plus independent noise of at most unit standard deviation, the search reports at period b * tsamp and boxcar width wd an S/N that is below A - t with probability at most exp(-t^2/2) and above A + t with probability at most b exp(-t^2/2), where A = amp * sqrt(m wd (b - wd) / b) and m is the number of whole periods.", "quantifier": "all b from bins_min to bins_max with b * tsamp < period_max and two whole periods of data, all pulse phases, heights >= 0 and baselines, all widths searched, period_min = bins_min * tsamp; all independent sub-Gaussian noise; all t >= 0", "why_tests_cant": "The statement is about the distribution of the output; a test sees single draws of the noise.", "anchors": ["riptide/cpp/periodogram.hpp: periodogram", "riptide/cpp/snr.hpp: snr1, snr2", "riptide/cpp/transforms.hpp: transform"]}
{"id": "C90", "title": "The profile of a candidate is normalised", "statement": "The profile of a candidate folded from a normalised time series has mean zero, and if the data are white noise of unit variance every phase bin has unit variance (candidate.py documents the profile as 'normalised such that the background noise standard deviation is 1, and the mean of the profile is zero').", "quantifier": "all series, clusters, numbers of bins and of sub-integrations; all uncorrelated noise with finite variance", "why_tests_cant": "The variance depends on how the bins are placed relative to the samples, for every ratio of period to sampling time.", "anchors": ["riptide/candidate.py: Candidate.profile, Candidate.from_pipeline_output", "riptide/folding.py: fold", "riptide/cpp/downsample.hpp: downsample"]}
{"id": "C91", "title": "The unit of time does not matter", "statement": "Multiplying the sampling time of a series, period_min, period_max and rmed_width by the same positive constant c leaves the outcome of ffa_search unchanged but for the trial periods, which come out multiplied by c: the same exception, or the same searched data, width trials, phase bins and S/N values. find_peaks with unchanged parameters then returns the same peaks in the same order, with periods multiplied and frequencies divided by c.", "quantifier": "all series, search arguments, c > 0; for the peaks all parameters with minseg > polydeg, any least-squares fit of the threshold and any comparison sort", "why_tests_cant": "A test compares two unit systems for some parameters; a quantity with a hidden dimension (a radius or segment width in Hz, a constant in seconds) shows only for particular data.", "anchors": ["riptide/search.py: ffa_search", "riptide/cpp/periodogram.hpp: periodogram", "riptide/peak_detection.py: find_peaks, segment_stats, fit_threshold", "riptide/clustering.py: cluster1d"]}
{"id": "C92", "title": "The dynamic threshold is relative to the S/N background", "statement": "With more control points than the degree of the polynomial the selection threshold of find_peaks is the same whatever algorithm computes the least-squares fit. It reproduces control points lying on a polynomial in log(f) of that degree, has the same mean over the control frequencies as the control values, and follows gain and offset: if all S/N are changed to a*S + b (a > 0), and smin with them, the same peaks are found. Where all S/N of a width trial are equal no peak is found, however high they are.", "quantifier": "all periodograms with increasing positive periods, all parameters with minseg > polydeg; the statement on flat S/N for at least minseg segments", "why_tests_cant": "Tests run one fit routine on a few periodograms; independence of the routine and equivariance are statements on all of them.", "anchors": ["riptide/peak_detection.py: fit_threshold, segment_stats, find_peaks_single, find_peaks"]}
{"id": "C93", "title": "Skipping DM trials loses no signals", "statement": "Let a signal with any dispersion measure be called seen in a trial if the broadening of its pulses over the band, because the DM of the trial is wrong, is not larger than the smallest width searched for or the smearing in one channel, whichever is larger. Every signal that is seen in one of the available trials between dm_start and dm_end is seen in one of the trials that select_dms returns. In particular, if neighbouring trials are not too far apart, all dispersion measures between the smallest and the largest trial are covered.", "quantifier": "all lists of DMs (any order, duplicates), all real dispersion measures of the signal, all bounds, widths and bands with 0 < fmin < fmax and nchans >= 1", "why_tests_cant": "tests compare selections for one list of DMs with expected numbers; the claim is about all dispersion measures between the trials, a continuum, also where the trials themselves leave gaps", "anchors": ["riptide/pipeline/dmiter.py: select_dms"]}
{"id": "C94", "title": "Preparation accepts exactly the observations that can be searched", "statement": "Pipeline.prepare succeeds with a validated configuration exactly if it has a search range, all files have the same coordinates, the band is known (from PRESTO files that agree, otherwise from the configuration), at least one file lies within the DM bounds and below the DM |sin b| cap, every range is coarse enough for the sampling time of every file (also of those that are not selected), and the ranges follow each other without gap. Then the selected files are files within the bounds, in increasing order of DM, including the extreme ones; a signal seen in any file within the bounds, at the width of the narrowest phase bin, is seen in a selected file; and no file fails in the search because its sampling is too coarse.", "quantifier": "all lists of files, all validated configurations without infinite numbers, all galactic latitudes including 0", "why_tests_cant": "tests run the pipeline on a few artificial files at one position; the conditions depend on all files and all ranges together", "anchors": ["riptide/pipeline/pipeline.py: Pipeline.prepare, Pipeline.wmin", "riptide/pipeline/dmiter.py: DMIterator, get_galactic_coordnates, DMIterator.tsamp_max", "riptide/pipeline/config_validation.py: validate_ranges"]}
{"id": "C95", "title": "Pulses of any period are detected", "statement": "Let the data be a constant plus pulses of any shapes and strengths that come with any period P in [period_min, period_max), not only whole numbers of samples, and last at most D. Then one trial has a period at most P and less than one frequency step from P, and for every searched boxcar width w of at least (D/P) b + 4 + (1 + m/2^22)(ceil(log2 m) - 1) of its b phase bins (2 in place of 4 without downsampling; m rows) its S/N is at least G sqrt((b - w)/(b w))/sqrt(m var), where G is the total of the pulses in all samples but those of the last period (and one downsampled sample) and m var the noise variance that the search assigns to the profile. Without downsampling this is (G/sqrt(N)) sqrt((1 - d)/d), d = w/b. In noise of at most unit standard deviation the S/N falls short of this by t or more with probability at most exp(-t^2/4), without downsampling exp(-t^2/2).", "quantifier": "all search parameters with two periods of period_max in the data and widths from 1 to bins_min - 1, all real periods P in the range, all pulse phases, shapes, strengths and baselines; all independent sub-Gaussian noise, all t >= 0", "why_tests_cant": "tests inject signals at a few periods; the claim is about a continuum of periods between the trials, where the stepwise shifts of the FFA, the distance to the trial and the downsampling all widen the pulse", "anchors": ["riptide/cpp/periodogram.hpp: periodogram, ceilshift", "riptide/cpp/transforms.hpp: transform", "riptide/cpp/snr.hpp: snr1, snr2", "riptide/cpp/downsample.hpp: downsample"]}
{"id": "C96", "title": "Dereddening is blind to narrow pulses", "statement": "If a series begins and ends inside an interval and fewer than half of any window of consecutive elements are outside, every value of running_median is inside the interval, however large the outliers are; the same holds for fast_running_median with the means of its blocks in place of the samples. Hence TimeSeries.deredden subtracts at each sample a value between the bounds of the off-pulse samples if pulses touch fewer than half of the blocks of each window and neither the first nor the last block; with a constant baseline it subtracts exactly that, and pulses of any strength and shape remain as they were. With outliers in two of three elements the bound fails.", "quantifier": "all series over ordered types (blocks: ordered fields), all windows, all heights, shapes and positions of outliers; for pulses all minimal spacings Q and maximal durations D", "why_tests_cant": "Tests deredden a few series with outliers of one size; the claim is that no size of outlier can matter, for every arrangement with fewer than half per window.", "anchors": ["riptide/running_medians.py: running_median, scrunch, fast_running_median", "riptide/cpp/running_median.hpp: running_median", "riptide/time_series.py: TimeSeries.deredden"]}
{"id": "C97", "title": "From samples to candidates: a strong narrow pulsar is reported", "statement": "Let a series be a baseline between lo and hi plus pulses of any period P in the searched range, lasting at most D, narrow in the sense that dereddening is blind to them, one of them higher than 2 (hi - lo). Then the search of the dereddened and normalised data has a period trial at most P and less than one frequency step away, and for every width trial w of at least (D/P) b + smearing bins the S/N is at least S = (L - sqrt(2 N) (hi - lo))/(R + hi - lo), where L is the bound for the pulses alone and R the root mean square of the pulses. If S exceeds smin and the dynamic threshold, rseek returns a table with a row of at least this S/N that is linked to the trial by significant trials with steps within the clustering radius; and the pipeline worker returns such a peak with the DM of the file.", "quantifier": "all series, all periods, phases, shapes and strengths of pulses, all baselines between the bounds, all options of rseek with an integer rmed_minpts, all configurations of search ranges; any comparison sort and any threshold fit", "why_tests_cant": "End-to-end tests inject one pulsar with one set of options; the claim covers all periods and signals through all stages (median, normalisation, downsampling, FFA, matched filter, clustering).", "anchors": ["riptide/apps/rseek.py: run_program", "riptide/pipeline/worker_pool.py: WorkerPool.process_fname", "riptide/search.py: ffa_search", "riptide/peak_detection.py: find_peaks", "riptide/time_series.py: TimeSeries.deredden, TimeSeries.normalise"]}
{"id": "C98", "title": "In-place operations have the effect of the copying ones", "statement": "normalise, deredden and downsample with inplace=True return None and leave the series with the data and sampling time that the call with inplace=False returns, raise the same exceptions, and change no other series, no metadata and (but for deredden, its own) no array.", "quantifier": "all series, all arguments, all heaps with shared arrays, arrays read-only or not", "why_tests_cant": "Tests call the in-place variants on a few fresh series; they never do so on a series loaded from JSON or one sharing its array.", "anchors": ["riptide/time_series.py: TimeSeries.normalise, deredden, downsample, copy", "riptide/serialization.py: object_hook"]}
{"id": "C99", "title": "A TimeSeries made with copy=True is independent of the array it was made from", "statement": "After from_numpy_array(a, tsamp, copy=True), or when the series is made from a list, an array of another type, a file or by copy(), no sequence of later operations on the series changes the array a (or the file data, or the original series), and no later write to a or operation on other series changes the series. With copy=False and a float32 array, writes are seen in the series, deredden in place changes a, and normalise / downsample in place detach the series from a.", "quantifier": "all heaps, all sequences of constructor calls, methods, folds and writes by the caller", "why_tests_cant": "The number of interleavings of operations on aliased objects is unbounded; the tests have one or two.", "anchors": ["riptide/time_series.py: TimeSeries.__init__, from_numpy_array, from_binary, from_npy_file, copy"]}
{"id": "C100", "title": "The pipeline loses no candidate: it fails only while preparing or searching", "statement": "Pipeline.process on files whose metadata match their data fails only if prepare fails or the search of one of the selected files fails. Otherwise the try/except around the candidates is never used: every cluster left by the filters has exactly one candidate, with the parameters of its brightest peak, all its peaks, and the profile of the file at the DM of this peak, dereddened and normalised as in the search, folded at the period into the numbers of bins and sub-integrations of the search range that contains it. (Periods must be longer than candidates.bins samples; equality is the case of C37.)", "quantifier": "all configurations that pass the validation, all files, all schedules of the process pool", "why_tests_cant": "A candidate that cannot be built is logged and skipped; tests with a handful of files do not see that one is missing.", "anchors": ["riptide/pipeline/pipeline.py: Pipeline.process, search, build_candidates", "riptide/pipeline/worker_pool.py: WorkerPool.process_fname", "riptide/candidate.py: Candidate.from_pipeline_output"]}
{"id": "C101", "title": "A peak, and a pulsar with narrow pulses, found in a file becomes a candidate", "statement": "Every peak found in the file of a selected DM is in a cluster whose centre is at least as bright and linked to it in frequency, and, unless the centre fails one of the cuts, is flagged as a harmonic while harmonics are removed, or the number of candidates is limited, in the list of peaks of a candidate that is at least as bright. In particular, narrow pulses with a period in one of the ranges whose S/N (as guaranteed by C97) exceeds the thresholds of the search and the minimum S/N of candidates yield a candidate with at least this S/N. No candidate fails one of the cuts; if their number is limited, a cluster that passes the cuts and has no candidate is no brighter than any candidate. The clustering radius refers to the median of the observation times.", "quantifier": "all configurations, all files and DM selections, all schedules, all pulse trains with a duration short against the running median window", "why_tests_cant": "Tests inject a single bright pulsar in a single file; they cannot cover periods, phases, duty cycles, DM selections and ranges.", "anchors": ["riptide/pipeline/pipeline.py: Pipeline.process", "riptide/pipeline/worker_pool.py: WorkerPool.process_fname", "riptide/peak_detection.py: find_peaks"]}
{"id": "C102", "title": "A validated configuration determines a whole run, including the harmonic flags", "statement": "Every argument of the stages of a run of the pipeline is the value of the entry of the validated configuration of that name: number of processes, band, DM limits, dereddening, search ranges with peaks and candidates, clustering radius, harmonic flagging and filters. If the configuration is accepted, has finite numbers, an integer rmed_minpts, no null clrad and no period_min of exactly candidates.bins samples, and the observing band has positive lower and larger upper end, then the run fails only if it cannot be prepared or a selected file cannot be searched, and no candidate is lost, as in C100. Each cluster marked as a harmonic has a parent which ranks higher and is not marked; the fraction with denominator at most denom_max closest to the ratio of their frequencies has distances in phase, DM and S/N within phase_distance_max, dm_distance_max and snr_distance_max, computed with the median observation time and the observing band, and is the stored fraction (or its inverse for the slower one); no two unmarked clusters have this relation. If the upper end of the band is not above the lower one, which nothing rejects before, the run ends with ValueError after the search as soon as two peaks are not linked.", "quantifier": "all configurations accepted by the validation with finite numbers, all files, all schedules, any conversion of the frequency ratio to a fraction that maps 1 to 1 and does not go below 1", "why_tests_cant": "A test runs a few configurations; a wrong key (e.g. the minimum of one section used for another one) or a swapped pair of thresholds only shows for data in which the difference matters.", "anchors": ["riptide/pipeline/pipeline.py: Pipeline.__init__, process, flag_harmonics", "riptide/pipeline/harmonic_testing.py: htest, hdiag", "riptide/pipeline/config_validation.py: validate_pipeline_config"]}
{"id": "C103", "title": "From the files on the disk to the candidates", "statement": "Pipeline.process reads the metadata of each file and later loads the time series of the selected ones again from the real path in the metadata: that series has the samples on the disk (for PRESTO, of the .dat file next to the real path of the .inf file), the DM and the sampling time for which the file was selected, and a duration that is that of its samples, so the assumptions of C100 and C102 on files hold for all files whose metadata load, have a DM, a positive sampling time and at least one sample, all samples finite. Hence a run on such files fails only if it cannot be prepared or a selected file cannot be searched, and each cluster passing the filters is folded from the samples of a file with the DM of its brightest peak. The DM, band and sampling time used are those written in a PRESTO radio header, or in a SIGPROC header. A list of files with an X-ray or gamma-ray .inf file always makes the pipeline fail, even if fmin, fmax and nchans are given, although the file itself can be loaded.", "quantifier": "all files, symbolic links, headers in PRESTO or SIGPROC layout with any values, all configurations, all schedules", "why_tests_cant": "Tests of the pipeline use a few generated PRESTO files in one directory; links, other headers, and disagreement between what is read at selection and at loading are not covered.", "anchors": ["riptide/pipeline/dmiter.py: DMIterator.__init__, infer_band_params, get_filename", "riptide/pipeline/worker_pool.py: WorkerPool.process_fname", "riptide/pipeline/pipeline.py: Pipeline.process, build_candidates", "riptide/metadata.py: Metadata.from_presto_inf, from_sigproc", "riptide/time_series.py: TimeSeries.from_presto_inf, from_sigproc"]}
{"id": "C104", "title": "The tables and files a run leaves in the output directory", "statement": "Pipeline.save_products: without peaks nothing is written. Otherwise peaks.csv, clusters.csv and candidates.csv can be read back as comma-separated tables: the columns have the documented names, there is exactly one line per peak, cluster or candidate, and each number is a decimal number with nine decimals within half a unit of the ninth decimal of the value (integers are exact), printed so that the order of two values is never reversed. clusters.csv numbers the clusters from zero by decreasing S/N, and each line names the number of the line of its fundamental, itself if it is no harmonic. The candidate in line r of candidates.csv is the one in candidate_{r:04d}.json and in the plot of that number, for every cluster that passes the filters after a run on files as in C103, and the printed S/N does not increase along the table. All these files have different names, so the result does not depend on the order in which the processes of the pool write; no other file is touched. Consequences: up to 10000 candidates the names sort like the ranks, beyond they do not; files of an earlier run into the same directory remain if the later run has fewer candidates, and all of them if it finds no peaks.", "quantifier": "all runs on files, all states of the pipeline with any peaks, clusters and candidates, all orders of writing, all earlier contents of the directory, all real values", "why_tests_cant": "tests look at one run into an empty directory with a handful of candidates; orders of the pool, leftovers of earlier runs and more than 10000 candidates are not tried", "anchors": ["riptide/pipeline/pipeline.py: CandidateWriter.__call__, Pipeline.save_products, process", "riptide/pipeline/peak_cluster.py: clusters_to_dataframe", "riptide/peak_detection.py: Peak.summary_dict"]}
{"id": "C105", "title": "A candidate that cannot be plotted does not prevent the others from being saved", "statement": "With plot_candidates set, if making the plot of a candidate raises an exception (a single sub-integration, no name of the source or no date in the metadata), Pipeline.save_products still writes the JSON file of every candidate and the plot of every candidate that can be plotted, as well as the tables. A candidate can be plotted exactly if its sub-integrations form an array with two dimensions and its metadata have a duration, coordinates, a valid date and a name. The call raises exactly if some candidate cannot be plotted.", "quantifier": "all lists of candidates, all numbers of processes, all sets of candidates that cannot be plotted, all schedules of the pool", "why_tests_cant": "the loss depends on which candidates fail, on the number of candidates and on the number of processes; tests use few candidates, and all of them can be plotted", "anchors": ["riptide/pipeline/pipeline.py: CandidateWriter.__call__, Pipeline.save_products", "riptide/candidate.py: Candidate.savefig, plot_candidate, plot_table"]}
{"id": "C106", "title": "rseek prints every significant signal of a file, to the stated precision", "statement": "rseek run on a PRESTO or SIGPROC file prints 'No peaks found above S/N = ...' exactly if no point of the periodogram of its samples is significant. Otherwise it prints a table whose lines, split at blanks, are the names of the columns and one line per row in the order of decreasing S/N; the words of a line are numbers that differ from period, frequency (half a unit of the ninth decimal), width (exact), duty cycle in percent, DM (second decimal) and S/N (first decimal) of a significant point by at most half a unit of the last decimal; the DM is 'None' if the file has none. Every significant point is linked to a row with at least its S/N. A file with narrow pulses of a searched period that are strong enough leads to such a line, with an S/N of at least the bound of C97.", "quantifier": "all contents of the header and the data file, all options, all layouts of the table with a blank between the cells", "why_tests_cant": "a test sees single files; it cannot show that the text of every table can be read back and that no significant signal of any file is left out", "anchors": ["riptide/apps/rseek.py: run_program", "riptide/time_series.py: TimeSeries.from_presto_inf, TimeSeries.from_sigproc", "riptide/peak_detection.py: find_peaks"]}
{"id": "C107", "title": "A pulsar at any DM between the trials of the files becomes a candidate", "statement": "Let a run of the pipeline on files succeed, and let a pulsar have a period inside a search range and any dispersion measure dm, not necessarily that of a file, such that at least one file within the DM limits shows it with no more broadening over the band than the narrowest phase bin of the configuration or the smearing in one channel. Then a file with this property is searched, whichever files the DM selection leaves out. If the samples of such files hold the pulses, narrow compared to the running median window and strong enough for an S/N of S above the thresholds, then a peak with S/N of at least S at the DM of that file is found, its cluster has at least this S/N, and unless a filter removes the cluster, a candidate with at least this S/N is in candidates.csv and in the JSON file with its number. If neighbouring files are not further apart in DM than what broadens a pulse by twice the narrowest phase bin, this holds for every dm between the smallest and the largest DM of the files within the limits.", "quantifier": "all files, all configurations, all observing bands, all dispersion measures and periods, all pulse shapes and baselines within limits, all schedules of the worker pool", "why_tests_cant": "The selection of DM trials, the search and the clustering are only tested separately, with one DM trial and an artificial signal exactly at it; no test has a signal between the trials", "anchors": ["riptide/pipeline/pipeline.py: Pipeline.process, Pipeline.prepare, Pipeline.search, Pipeline.save_products", "riptide/pipeline/dmiter.py: DMIterator, select_dms", "riptide/pipeline/worker_pool.py: WorkerPool.process_fname_list"]}
{"id": "C108", "title": "Saved text files round trip on every system, and cut files never load", "statement": "json.loads, as used by from_json, reads exactly the texts of the JSON grammar (RFC 8259) extended by NaN, Infinity and -Infinity, each as the one document that it stands for; any other text without escaped surrogates is refused with a ValueError. to_json, with any indent, writes such a text for every supported object, made of printable ASCII characters and line feeds only, whatever characters are in the strings. Hence save_json followed by load_json gives an object with the same content whatever the versions of riptide, the ends of lines and the ASCII-compatible locale encodings of the two systems. The loaded object saved again, by any version of riptide, gives the same bytes. A file of a string, list, dict, array or riptide object of which any number of bytes are missing at the end is not loaded as anything: load_json raises.", "quantifier": "all texts, all supported object trees, all strings of unicode characters, all indentations, all ASCII-compatible encodings, all conventions for the ends of lines, all points where a file may be cut", "why_tests_cant": "The tests save and load a few objects with ASCII strings on one system; no test reads a text that was not written by riptide, a truncated file, or a file from a system with another locale", "anchors": ["riptide/serialization.py: to_json, from_json, save_json, load_json"]}
{"id": "C109", "title": "Results depend on the samples, not on how the array is laid out in memory", "statement": "downsample, running_median, fast_running_median, ffa1, ffa2, boxcar_snr, the methods of TimeSeries and ffa_search accept numpy arrays of any type and memory layout (slices with a step, reversed arrays, transposed arrays, arrays stored by columns): the result is the same as for a contiguous copy of the array.", "quantifier": "all arrays with one or two dimensions, all strides (positive, negative, zero), all types, all arguments", "why_tests_cant": "Tests pass freshly created contiguous arrays; the C++ functions read the memory behind the array one cell after the other, and only a few of the python functions make a contiguous copy first", "anchors": ["riptide/libffa.py: ffa2, ffa1, boxcar_snr, downsample", "riptide/running_medians.py: running_median, fast_running_median", "riptide/time_series.py: TimeSeries", "riptide/folding.py: fold", "riptide/search.py: ffa_search", "riptide/cpp/python_bindings.cpp: assert_c_contiguous, ffa2, snr2, downsample, periodogram, running_median"]}
{"id": "C110", "title": "A number written in a configuration file is used with that value", "statement": "In a pipeline configuration file, a number in decimal notation (sign, digits, fraction and exponent) in any of the numeric entries is accepted whenever its value is in the documented range, and the pipeline made by Pipeline.from_yaml_config uses exactly this value, with the type that the entry should have.", "quantifier": "all configuration files, all numeric entries, all numbers in decimal notation", "why_tests_cant": "The type of a YAML scalar depends on details of its spelling (dot, sign of the exponent, zeros in front); the tests use two configuration files", "anchors": ["riptide/pipeline/pipeline.py: Pipeline.from_yaml_config", "riptide/pipeline/config_validation.py: PIPELINE_CONFIG_SCHEMA, SEARCH_RANGE_SCHEMA, validate_pipeline_config"]}
{"id": "C111", "title": "A configuration file that cannot be used is reported as InvalidPipelineConfig", "statement": "Pipeline.from_yaml_config makes a pipeline for every YAML file that describes a valid configuration, and raises InvalidPipelineConfig for every other YAML file.", "quantifier": "all trees of YAML nodes with scalars, sequences and mappings", "why_tests_cant": "The contents of the file are also converted to JSON for a log message before they are validated, which fails for some YAML objects; tests do not have them", "anchors": ["riptide/pipeline/pipeline.py: Pipeline.from_yaml_config", "riptide/pipeline/config_validation.py: validate_pipeline_config"]}
{"id": "C112", "title": "A sample that is not a finite number blanks the search, without an exception", "statement": "If one sample of a time series is NaN or infinite, ffa_search with its normalisation (with or without deredden) returns a periodogram in which every S/N is NaN, find_peaks makes no peak of it, and nothing else differs from a search of finite data of the same length: same exceptions, same trial periods and numbers of bins. Whatever values a periodogram has, find_peaks makes peaks only of S/N values that are not NaN and exceed the thresholds, and no such value within the clustering radius is higher. With already_normalised=True and no deredden, a NaN makes exactly those trials NaN that fold the sample, and the only samples that a trial does not fold are those of an incomplete last period. Every value of running_median is a sample of its window, and the median where the window has no NaN; a profile with a NaN has no other S/N than NaN, and every row of the FFA transform of data with a NaN has one.", "quantifier": "all data with samples that are finite, infinite or NaN, all arguments, any rounding (overflow included), any order of summation in numpy, any outcome of C++ comparisons with NaN", "why_tests_cant": "The tests have no NaN; whether a NaN spreads depends on paths through sums, comparisons and selections that -ffinite-math-only leaves open", "anchors": ["riptide/search.py: ffa_search", "riptide/time_series.py: TimeSeries.normalise, TimeSeries.deredden", "riptide/running_medians.py: running_median, fast_running_median", "riptide/cpp/periodogram.hpp: periodogram", "riptide/cpp/snr.hpp: snr1", "riptide/cpp/running_median.hpp: nth_element", "riptide/peak_detection.py: find_peaks"]}
{"id": "C113", "title": "Accuracy of the compiled search, with double and single precision together", "statement": "When the compiled search succeeds, every entry of its output belongs to a trial (downsampling factor f, n samples after downsampling, b bins, m = n // b rows, shift s) that the data allow, with f, n and s as the double precision bookkeeping of the code gives them: n is the number of windows of width f in the data, up to a relative 2^-53. The stored number of bins is b, the stored period is f tsamp b^2 / (b - s/(m - 1)) to a relative 2^-50, and the stored S/N for boxcar width w differs from the exact matched filter output of the exact profile (integrals of the data over the windows [k f, (k+1) f], folded) by at most K u / (1 - K u) * 10 * sqrt(b / (w (b - w))) * sum|data| / sqrt(m V), with K = 26 + ceil(f) + ceil(log2 m) and V the noise variance documented in downsample.hpp. The function downsample of the extension module raises ValueError exactly if not 1 < f <= size, otherwise it stays inside its arrays, returns at least one sample, and every sample is within (ceil(f) + 5) u / (1 - (ceil(f) + 5) u) of the integral over the window, relative to the integral of the absolute values plus half the absolute values of the samples that touch the window.", "quantifier": "all data up to 2^25 samples (downsample: no invalid access up to 2^50), all arguments with bins_max * v <= u, periods up to 2^62 samples; every double precision arithmetic with the IEEE error bounds, every single precision arithmetic with relative error at most u, products fused or not", "why_tests_cant": "A wrong error bound shows only for particular data, factors and machines; tests compare a few searches with a reference to a fixed tolerance.", "anchors": ["riptide/cpp/periodogram.hpp: periodogram", "riptide/cpp/downsample.hpp: downsample, downsampled_size, downsampled_variance", "riptide/cpp/snr.hpp: snr1, snr2", "riptide/cpp/transforms.hpp: transform", "riptide/cpp/python_bindings.cpp: downsample, periodogram"]}
{"id": "C114", "title": "The trial periods of the compiled search have no holes, in double precision", "statement": "With the bookkeeping of the periodogram function in double precision (downsampling factors, trial period ceiling, shifts), a search with 2 period_max <= size * tsamp succeeds, and for every period P with (1 + 2^-48) period_min <= P <= (1 - 2^-30) period_max its output has an entry whose trial (factor f, b bins, m rows, shift s) has a period not above P and a frequency that exceeds 1/P by at most (1 + 2^-20) / (f tsamp b^2 (m - 1)), one step of the trial frequencies of that fold. The stored period is the period of that trial to a relative 2^-50 and the stored number of bins is b.", "quantifier": "all data up to 2^25 samples, all arguments that pass the checks, all real periods P in the range; every double precision arithmetic with the IEEE error bounds", "why_tests_cant": "A hole in the grid of periods costs sensitivity at some periods only; where one stage of the plan hands over to the next is decided by roundings of logarithms, powers and ceilings, and a test would need a pulsar at exactly such a period", "anchors": ["riptide/cpp/periodogram.hpp: periodogram, periodogram_length, ceilshift", "riptide/cpp/python_bindings.cpp: periodogram"]}
{"id": "C115", "title": "Pulses of any period are found by the compiled search, in single and double precision and in noise", "statement": "Let the samples be a constant plus pulses that recur with any period P between (1 + 2^-48) period_min and (1 - 2^-30) period_max and last at most D, with 2 period_max <= size * tsamp. Then the output of the search, computed with double precision bookkeeping and single precision samples, has an entry whose trial reaches P within one frequency step, and whose S/N, for each boxcar width w of at least D/P b + 2 (4 if downsampled) + 2^-18 + (1 + m 2^-22)(ceil(log2 m) - 1) bins, is at least (G sqrt((b - w)/(b w)) - |constant| 2^-28 - e) / sqrt(m V), where G is the total of the pulses up to the last period, last downsampled sample and one more, V the documented noise variance and e the bound on rounding errors of C113. With independent noise of at most unit standard deviation added, the S/N is lower than this by x or more with probability at most exp(-x^2/4). A search of noise alone stores an S/N above x plus the bound on rounding errors with probability at most (number of widths) * (sum of the numbers of phase bins of all trials) * exp(-x^2/4).", "quantifier": "all pulse shapes, phases, periods and constants; all data up to 2^25 samples and all arguments with bins_max * v <= u; every arithmetic with the IEEE error bounds; all probability spaces with independent sub-Gaussian noise", "why_tests_cant": "This is the purpose of the program; a test can only try a few pulsars, and neither the worst phase, the worst period, nor the tails of the noise", "anchors": ["riptide/cpp/periodogram.hpp: periodogram", "riptide/cpp/downsample.hpp: downsample, downsampled_variance", "riptide/cpp/transforms.hpp: transform, merge", "riptide/cpp/snr.hpp: snr1, snr2", "riptide/cpp/python_bindings.cpp: periodogram"]}
{"id": "C116", "title": "The figures show the numbers of the candidate and of the periodogram", "statement": "Candidate.plot() draws the sub-integrations so that at each point of the panel (phase bin j from j - 1/2 to j + 1/2, up to one and a half periods; time from the start of the data) the value shown is that of the sub-integration that contains the time, in bin j modulo the number of bins. The table has the period in ms with 6 decimals, the DM with 2, the width in bins, the duty cycle in percent with 2, the S/N with 1 and the MJD with 6, each within half a unit of the last decimal, and the source name, coordinates and date of the metadata. The DM panel has the points of the DM curve, all of them inside its limits. The figure is drawn exactly if savefig() succeeds in C105. Periodogram.plot(iwidth) draws one point for each trial period, at that period, with the greatest S/N of any width or that of the width with the index iwidth (negative ones count from the end), all inside its limits, and a title that names the width; it raises IndexError for an index out of range and ValueError if there is nothing to draw.", "quantifier": "all candidates with metadata, all shapes of sub-integrations, all points of the panels, all real values; all periodograms and all integer indices", "why_tests_cant": "Tests at most check that a figure is made; an image that is off by half a bin, upside down in time, or a wrong unit or index is not seen by any assertion", "anchors": ["riptide/candidate.py: plot_candidate, plot_subints, plot_table, plot_dm_curve, TableEntry", "riptide/periodogram.py: Periodogram.plot"]}
{"id": "C117", "title": "The profile panel shows the profile minus its median and shades what is shown twice", "statement": "plot_profile(P) draws one and a half periods of the profile minus the median of the profile, and the part of the panel that repeats the first half period is shaded, no more and no less.", "quantifier": "all profiles with at least one bin", "why_tests_cant": "No test looks at the bars; the offset is small for long profiles with a narrow pulse", "anchors": ["riptide/candidate.py: plot_profile"]}
{"id": "C118", "title": "rffa reads and writes the files that it should, and a log file changes nothing else", "statement": "A run of rffa reads the configuration, the given files and the data files next to the headers among them; other files have no influence. It writes peaks.csv, clusters.csv, candidates.csv and candidate_*.json/png in the output directory and the log file, and leaves every other file as it was, however it ends. A wrong command line (no configuration, a directory that does not exist, an unknown log level, no files) ends it before anything is written. With a log file it ends as without one and leaves the same files apart from the log. In particular the configuration and the data are never altered.", "quantifier": "all contents of the disk, all command lines, all configurations, all orders in which the workers write, all texts that are logged", "why_tests_cant": "A test runs the program in a clean directory with options that are sensible; that the log file is opened before the configuration is read matters only when paths coincide", "anchors": ["riptide/pipeline/pipeline.py: get_parser, run_program, Pipeline.from_yaml_config, Pipeline.save_products"]}
{"id": "C119", "title": "Normalising and searching raw samples in floating point gives the S/N of the exactly normalised samples", "statement": "normalise() of float32 samples, with mean and variance in float64, gives c (z + o) to a relative error of 4 float32 roundings per sample, where z is the exactly normalised sample, c is within about two float32 roundings of 1, and o is about one float32 rounding of the mean in units of the standard deviation. Hence every S/N stored by a search of raw samples is that of the exact matched filter on the exactly normalised samples, up to 7 u sqrt(n), a relative error of about 2u, and the rounding errors of the compiled search; and pulses of any period in the searched range are found with the S/N of their strength in units of the standard deviation of all samples, less these errors.", "quantifier": "all data that are not constant and whose mean is not enormous in units of the standard deviation, all orders in which NumPy adds, both type promotions of NumPy (1 and 2), all arithmetics of the stated precision, all trials and widths", "why_tests_cant": "A test compares the mean and variance of a few normalised series with 0 and 1 to a tolerance; the error depends on the offset of the data, on the number of samples and on the order of summation", "anchors": ["riptide/time_series.py: TimeSeries.normalise, TimeSeries.__init__", "riptide/search.py: ffa_search", "riptide/cpp/periodogram.hpp: periodogram"]}
{"id": "C120", "title": "Searching raw samples with the default options in floating point gives the S/N of the exactly dereddened and normalised samples", "statement": "deredden() of float32 samples fails exactly when the exact running median does, and otherwise gives each exactly dereddened sample up to three float32 roundings of it and about 2 (f u + 14 v) times the largest sample, where f is the number of samples per block of the running median; without blocks, up to one rounding of the sample. Hence every S/N stored by ffa_search with its default options (deredden, normalise, compiled search) is that of the exact matched filter on the exactly dereddened and normalised samples, up to the errors of C119 and 2 sqrt(n) times that error of deredden() in units of the standard deviation. Pulses on a constant level that fill fewer than half of the blocks of every window of the running median leave the median at that level, so dereddening leaves just the pulses; and if they come with any period in the searched range they are found with the S/N of their strength, less these errors.", "quantifier": "all data, window widths and numbers of points for which the running median exists, unless the largest sample is enormous in units of the standard deviation of the dereddened samples; all orders in which NumPy adds, with or without fused multiply-add in np.interp, both type promotions of NumPy, all arithmetics of the stated precision, all trials and widths", "why_tests_cant": "The error depends on the largest sample, the block length and the order of summation; a test sees the errors of its own data on its own machine, and cannot tell a rounding error that grows with the offset of the data from one that does not", "anchors": ["riptide/running_medians.py: scrunch, fast_running_median", "riptide/time_series.py: TimeSeries.deredden, TimeSeries.normalise", "riptide/search.py: ffa_search", "riptide/cpp/running_median.hpp: running_median", "riptide/cpp/periodogram.hpp: periodogram"]}
{"id": "C121", "title": "Peak detection in double precision loses no significant point and reports pulses of any period", "statement": "In double precision, find_peaks() returns entries of the periodogram with their S/N unchanged, frequency accurate to one rounding, period to two. Each exceeds both thresholds and is the highest of the significant points that it is linked with, where links have at most a length between clrad / T and (1 + 2^-51) clrad / T; every significant point is linked to exactly one peak of its width trial that is at least as high; frequencies of two peaks of a width trial differ by more than clrad / T exactly. cluster1d() gives the friends-of-friends partition for such a radius. The table of rseek has one entry for each group of linked peaks, the highest. find_peaks() succeeds exactly when the number of segments, computed in double precision, is at least one and at most the number of trials. Consequently rseek with default options in floating point reports the pulses of C120 in its table with at least the S/N promised there, if this exceeds the thresholds.", "quantifier": "all periodograms, parameters and rounded values of the fitted threshold, all orders in which argsort leaves equal frequencies, all double precision arithmetics with monotone rounding; all data as in C120", "why_tests_cant": "Rounding of differences decides whether points just at the radius are linked; tests compare with results computed by the same roundings, or keep away from the limit", "anchors": ["riptide/clustering.py: cluster1d", "riptide/peak_detection.py: segment_stats, find_peaks_single, find_peaks", "riptide/apps/rseek.py: run_program", "riptide/periodogram.py: Periodogram.freqs", "riptide/search.py: ffa_search"]}
{"id": "C122", "title": "The clusters of the pipeline are right although rounding can disturb the order of the frequencies", "statement": "Pipeline.search() sorts the peaks by period, and cluster_peaks() takes the frequencies for sorted. Two frequencies can have the same period in double precision, so the frequencies need not be in order. Still, if the clustering radius r is at least 2^-51 of the largest frequency, every peak is in exactly one cluster, peaks of a cluster are linked by steps in frequency of at most (1 + 2^-51) r, and peaks of different clusters differ in frequency by more than r less 2^-50 of the largest frequency.", "quantifier": "all lists of peaks as find_peaks() makes them (period = 1 / frequency, rounded), in any order, all radii and observation lengths, all double precision arithmetics with monotone rounding", "why_tests_cant": "The order is disturbed only for pairs of neighbouring double precision numbers, which a test does not come upon", "anchors": ["riptide/pipeline/pipeline.py: Pipeline.search, Pipeline.cluster_peaks", "riptide/clustering.py: cluster1d"]}
{"id": "C123", "title": "Folding in floating point accepts the same calls and returns the same shape as in exact arithmetic", "statement": "TimeSeries.fold() in double and single precision succeeds whenever the period is at most the length of the data, the phase bins are longer than the sampling time and the requested number of sub-integrations s is at least 1 and at most the number m of full periods, and raises ValueError otherwise. The result has shape (bins,) for s = 1 or m = 1, else (s, bins), or (m, bins) if s is None. Candidate.from_pipeline_output() never fails for want of periods.", "quantifier": "all series of up to 2^50 samples, all sampling times, periods, numbers of bins and of sub-integrations, all double precision arithmetics with monotone rounding and relative error 2^-53", "why_tests_cant": "The numbers of rows are floors of rounded quotients; which pairs (m, s) go wrong, such as (9, 7), depends on the last bit of m / s, and a test suite tries a few round numbers", "anchors": ["riptide/folding.py: fold, downsample_vertical", "riptide/candidate.py: Candidate.from_pipeline_output", "riptide/time_series.py: TimeSeries.downsample, TimeSeries.length"]}
{"id": "C124", "title": "Folded data and candidate profiles are accurate in floating point", "statement": "Whenever fold() succeeds, the folded period differs from the requested one by a relative error of at most 2^-51, and the values are within rounding errors of the integrals of the data over the phase bins divided by the square root of the number of samples per bin: all periods within gamma_(f+11), the integrated profile within gamma_(f+m+11), and sub-integrations within gamma_(f+vf+16), relative to the same integrals of the absolute value (f samples per bin, m periods, vf periods per sub-integration, gamma_k = k u / (1 - k u)). The profile of a candidate with any number of sub-integrations of which none was lost is that of all full periods within 5/2 gamma_(f+m+17) + 2^-28. For samples of absolute value at most X the profile errs by at most 3 gamma X sqrt(m f).", "quantifier": "all series of up to 2^25 samples, all parameters, all orders of the summations, all arithmetics with unit roundoff u >= 2^-24 for samples and 2^-53 for times, scalars cast to single precision or not", "why_tests_cant": "Accuracy is a statement about all data and all orders of summation; a test compares a few arrays with a tolerance", "anchors": ["riptide/folding.py: fold, downsample_vertical", "riptide/candidate.py: Candidate.profile", "riptide/cpp/downsample.hpp: downsample"]}
{"id": "C125", "title": "The harmonic test in double precision decides as in exact arithmetic, up to rounding at the thresholds", "statement": "htest() computed in double precision never raises on candidates of positive frequency and duty cycle. The fraction it returns is the closest one to the rounded ratio of frequencies, and its three distances are those of exact arithmetic up to 4u relative plus 8u of the length of the observation in pulse widths (phase), 8u relative plus 3u of the delay of the sum of the inverse squares (DM), and u relative plus 8u of the expected S/N (u = 2^-53). If a fraction lies within 1/(2 denom_max^2) of the ratio, rounding included, and no distance is that close to its threshold, the result is exactly that of exact arithmetic. A candidate at (1 +- eps) p/q times the frequency of another is tested as its p/q-th harmonic if 4 (eps + u) max(p/q, q/p) denom_max^2 < 1.", "quantifier": "all pairs of candidates, observation lengths, bands, thresholds and denom_max >= 1, all double precision arithmetics with monotone rounding and relative error 2^-53, pow accurate to two units", "why_tests_cant": "The test compares rounded quantities with thresholds and searches the nearest fraction of a rounded quotient; that no pair far from the thresholds is decided differently is a statement about all floating point numbers", "anchors": ["riptide/pipeline/harmonic_testing.py: hdiag, htest"]}
{"id": "C126", "title": "The DM trials selected in double precision cover the range and are as few as possible, up to rounding", "statement": "select_dms() computed in double precision raises ValueError if and only if no trial is in range. The radii of coverage have a relative error of at most 72 u k, where k = nchans (fmax + fmin) / (fmax - fmin) and u = 2^-53. The selected DMs are trials in range, in order (strictly if the trials are distinct), from the lowest to the highest available one, and consecutive ones are neighbours or the exact gap between their coverage intervals is at most 74 u k times the sum of their radii plus u times the sum of their absolute values. Any other selection with the same ends, whose intervals overlap by that much (taken with the largest radius and the largest absolute value in range) wherever it skips a trial, has at least as many DMs. If no gap between two available trials is that close to zero, the selection is exactly that of exact arithmetic.", "quantifier": "all lists of trials, ranges, bands with 0 < fmin < fmax and k <= 2^40, at least one channel (two if fmax > 3 fmin), minimum widths >= 0, all double precision arithmetics with monotone rounding and relative error 2^-53, pow accurate to two units", "why_tests_cant": "The smearing of one channel is the difference of two nearly equal inverse squares, so its rounding error grows with the number of channels; whether it can leave a hole in the coverage is a question about all bands and lists of trials", "anchors": ["riptide/pipeline/dmiter.py: select_dms"]}
{"id": "C127", "title": "The width trials in double precision are the documented ones", "statement": "generate_width_trials(nbins, ducy_max, wtsp), computed in double precision, returns the documented sequence of widths, 1 and then max(floor(wtsp w), w + 1), up to max(1, floor(ducy_max nbins)), for the numbers that are written in a call or a configuration. The trials increase, and all are valid for profiles of nbins bins.", "quantifier": "all numbers of bins, duty cycles and spacings that are not negative, all double precision arithmetics with monotone rounding and relative error 2^-53", "why_tests_cant": "Whether a product of a decimal number and an integer is rounded across an integer depends on the numbers; tests use 0.2, 0.3 and 1.5, where it is not", "anchors": ["riptide/ffautils.py: generate_width_trials", "riptide/search.py: ffa_search"]}
{"id": "C128", "title": "The pipeline in floating point loses no peak and finds a pulsar", "statement": "rffa with all arithmetic rounded (single precision samples, double precision elsewhere): a run on files whose searches succeed ends without an error, for every number of processes and order of completion. Every peak of every file is in exactly one cluster; the centre of the cluster is at least as bright and linked to the peak in frequency by steps of at most (1 + 2^-51) radius / T. Each cluster has exactly one candidate, with the parameters of its centre, unless the centre fails a cut, or the cap is filled by clusters at least as bright, or the number of whole periods in the file is within rounding errors of an integer. If a file has pulses of a period in a search range, and the S/N that remains after smearing and all rounding errors exceeds the thresholds, there is a cluster whose centre has at least that S/N. The array of every candidate was folded from the dereddened and normalised samples of the file of its DM, at its period and with the bins of the range that contains the period, and its profile is within rounding errors of the fold in exact arithmetic.", "quantifier": "all files, configurations with contiguous ranges and bins of at least a sample, all roundings of relative error 2^-24 and 2^-53, all schedules of the pool", "why_tests_cant": "Rounding happens at each of thousands of steps, from the running median to the sort key of the clusters; a test can only follow one series of samples, and compares with tolerances that hide what is lost", "anchors": ["riptide/pipeline/pipeline.py: Pipeline.process", "riptide/pipeline/worker_pool.py: WorkerPool.process_fname", "riptide/search.py: ffa_search", "riptide/peak_detection.py: find_peaks"]}
{"id": "C129", "title": "find_peaks accepts every periodogram that the search makes", "statement": "For a range of periods that spans at least ten steps of 1 / (bins_min T) in frequency and segments at least 6 / bins_min wide (in units of 1 / T), ffa_search returns a periodogram, and find_peaks returns a list of peaks for it, whatever the samples: the number of segments is at least one and at most the number of trials, in double precision. Hence a worker of the pipeline processes a file of sufficient length without an error. A periodogram with a single trial makes find_peaks raise ZeroDivisionError.", "quantifier": "all samples, all ranges, numbers of bins, width trials, values of the fitted polynomial, and roundings of relative error 2^-53", "why_tests_cant": "The number of trials follows from a plan of downsampling factors, bins and shifts, and the number of segments from the frequencies of the first and last trial; whether one can exceed the other, or both differ from what is meant, for some of all ranges cannot be tried", "anchors": ["riptide/peak_detection.py: segment_stats", "riptide/peak_detection.py: find_peaks", "riptide/cpp/periodogram.hpp: periodogram", "riptide/pipeline/worker_pool.py: WorkerPool.process_fname"]}
{"id": "C130", "title": "Candidate files hold the candidates of the run", "statement": "save_json of a candidate followed by load_json gives a Candidate with the same numbers, bit for bit: params, every column of the table of peaks, the shape and all elements of subints, and the content of tsmeta, on every system and with every version of riptide; the loaded object bears the version that saved it, and saved again by any version it gives the same bytes. Hence, for every run of rffa that ends normally, the file candidate_NNNN.json in the output directory holds candidate number NNNN of the run: nothing beyond the rounding of the numbers to double and single precision is lost. The width of each of its peaks is one of the width trials of a search range of the configuration.", "quantifier": "all candidates with finite numbers, all shapes of subints, all savable metadata, all versions of riptide, all runs of rffa whose search ranges have ducy_max * bins_min < 2^53", "why_tests_cant": "Arrays go through their bytes, a base64 text, a JSON text, a text file with the ends of lines of the system, and back; a bit lost for one exponent, sign or shape, or two files swapped by the processes that write them, shows up in no test of a handful of candidates", "anchors": ["riptide/candidate.py: Candidate.to_dict, Candidate.from_dict", "riptide/serialization.py: save_json, load_json", "riptide/pipeline/pipeline.py: CandidateWriter, Pipeline.save_products"]}
{"id": "C131", "title": "The samples of a time series are the nearest single precision numbers", "statement": "TimeSeries.from_binary(fname, tsamp, dtype) makes a series with as many samples as there are complete numbers in the file, sample i being the single precision number nearest to number i (of two nearest ones the even one; infinite from halfway between the largest finite number and 2^128 on), whatever the type of the numbers: floats or integers of any size. from_npy_file does the same for files of np.save, and from_numpy_array for the array itself; a .npy file that lacks bytes is refused with ValueError, while an incomplete number at the end of a raw file is ignored. Numbers that single precision can hold, among them all integers up to 2^24 and so all of 8 and 16 bits, are kept exactly, and float32 files bit for bit, with NaN and infinities; the order of samples in size never changes, and the relative error is at most 2^-24 above the smallest normal number. Larger integers and doubles do change: 16777217 becomes 16777216, 2^128 infinite. from_presto_inf gives the samples of from_binary on the .dat file, from_sigproc those of from_binary on what follows the header, with the type the header tells. tobs is the number of samples times tsamp.", "quantifier": "all files and arrays, all numbers of the type, all types of floats and integers", "why_tests_cant": "Whether a sample is the nearest number depends on each of its bits: a conversion that truncates, rounds ties away from zero or wraps around passes every test on data of a few digits", "anchors": ["riptide/time_series.py: TimeSeries.__init__, from_numpy_array, from_binary, from_npy_file, from_presto_inf, from_sigproc", "riptide/reading/presto.py: PrestoInf.load_data"]}
{"id": "C132", "title": "Searches of finite data do not overflow", "statement": "If the samples are single precision numbers of absolute value at most 2^100, of which there are at most 2^25, and the data that are normalised (after deredden, if it is requested) are not constant, with two samples that differ by at least 2^-100, then every S/N value that ffa_search returns is a finite number: no sum, square, prefix sum or product in single or double precision with overflow and subnormal numbers becomes infinite or NaN, and no divisor is zero. The same holds for data that are already normalised, of absolute value at most 2^25. If the data that are normalised are constant, their standard deviation is exactly zero and every S/N value is NaN, without exception; this is so for all constant samples, with or without deredden. For files: numbers of any type of at most 2^100, two of them different, are searched without overflow; one number that is too large for float32 makes every S/N value NaN. With ducy_max of 1 or more a width can equal the number of bins of a fold: its baseline is divided by zero and that S/N value is NaN, whatever the data.", "quantifier": "all time series within these sizes, all arguments (with ducy_max < 1 for the claim that nothing overflows), at most 2^23 periods and at most 2^24 bins, any order of summation in NumPy, array operations in float32 or float64, fused or unfused products", "why_tests_cant": "Overflow in single precision depends on extreme values of samples in combination with lengths and orders of summation; tests use noise of unit variance", "anchors": ["riptide/time_series.py: TimeSeries.normalise, deredden", "riptide/search.py: ffa_search", "riptide/cpp/snr.hpp: snr1", "riptide/cpp/kernels.hpp: circular_prefix_sum, diff_max", "riptide/cpp/downsample.hpp: downsample", "riptide/cpp/transforms.hpp: transform", "riptide/cpp/periodogram.hpp: periodogram"]}
{"id": "C133", "title": "The work of a search does not grow with the longest period", "statement": "The FFA of m rows of p bins performs at least m floor(log2 m) p and at most m ceil(log2 m) p additions (for a power of two exactly m log2(m) p). All transforms of a search of a time series of length T together perform at most (bins_max + 1) * bins_min * (T / period_min) * ceil(log2 floor(T / period_min)) additions, and the search returns at most (bins_max + 1) * T / period_min trial periods, whatever period_max is. A search makes at least as many additions as the profiles of its trials have bins in total. benchmark_ffa2 does the work of its number of loops, inside its buffer, without reading a cell that was not written.", "quantifier": "all rows, columns and memory contents; all data, sampling times, period ranges, numbers of bins and width lists", "why_tests_cant": "Tests measure results on small inputs, not the growth of the number of operations or of the size of the output with the length of the data and the range of periods", "anchors": ["riptide/cpp/transforms.hpp: transform, merge", "riptide/cpp/kernels.hpp: add, fused_rollback_add", "riptide/cpp/periodogram.hpp: periodogram, periodogram_length"]}
{"id": "C134", "title": "A bad file does not spoil a run of the pipeline", "statement": "If a file of a run of rffa has a sample that is NaN or infinite, or if its samples are all equal, the worker that processes it finds no peak in any search range. A worker fails only if the fit of the dynamic threshold raises, or if every file with this number of samples makes it fail. Hence a run with such files ends with exactly the peaks, clusters, harmonic flags and candidates of the run without them (with the same median observing time), whatever the numbers of processes and the order in which the workers finish.", "quantifier": "all files, all positions and numbers of bad samples, all search ranges, any rounding (overflow included), any order of summation in NumPy, any outcome of C++ comparisons with NaN, all schedules of the pool", "why_tests_cant": "Tests of the pipeline use clean data; a NaN may be anywhere in any of hundreds of files and passes through a chain of stages with comparisons and sorts", "anchors": ["riptide/pipeline/worker_pool.py: WorkerPool.process_fname, process_fname_list", "riptide/pipeline/pipeline.py: Pipeline.process", "riptide/time_series.py: TimeSeries.deredden, TimeSeries.normalise", "riptide/peak_detection.py: find_peaks"]}
{"id": "C135", "title": "The order in which the input files are given does not matter", "statement": "If all input files can be read and no two have the same DM, rffa called with the same files in another order writes the same peaks, clusters and candidates to the same files and ends in the same way, exceptions included. If two files have the same DM, the one given last is searched and the other is ignored, so that then the order matters.", "quantifier": "all files and all orders, all configurations, all schedules of the pool", "why_tests_cant": "n files have n! orders; shells expand file patterns in an order that depends on the locale, and tests give the files in one order only", "anchors": ["riptide/pipeline/dmiter.py: DMIterator.__init__, get_filename, infer_band_params, get_galactic_coordnates, tobs_median, tsamp_max", "riptide/pipeline/pipeline.py: Pipeline.process, run_program"]}
{"id": "C136", "title": "The S/N of a trial period does not depend on the other trials of the search", "statement": "If a search up to some period_max succeeds, then a search of the same data with a smaller period_max (above period_min) succeeds, and its trial periods, numbers of bins and S/N values are the first entries of the longer search; all other entries of the longer search have periods of at least the smaller period_max. With another ducy_max or wtsp, the trial periods are the same, and so is the S/N of every trial period with a width that both searches have. In double precision, every trial of the shorter search is a trial of the longer one, in the same order, with the same period, number of bins and S/N values (when log orders the two ratios of periods correctly).", "quantifier": "all data, sampling times, ranges of periods and bins, all duty cycles and width spacings", "why_tests_cant": "A metamorphic property between pairs of calls; tests compare single searches with stored values", "anchors": ["riptide/cpp/periodogram.hpp: periodogram, periodogram_length, ceilshift", "riptide/cpp/snr.hpp: snr1, snr2", "riptide/search.py: ffa_search", "riptide/ffautils.py: generate_width_trials"]}
{"id": "C137", "title": "Files that are not selected do not matter", "statement": "Leaving out input files whose DM trials the pipeline does not select (out of the DM range, or not needed to cover it) changes nothing: the same DM trials are selected, and the run has the same peaks, clusters and candidates or raises the same exception. Of the files left out only the headers are read, so that it does not matter whether their data exist.", "quantifier": "all configurations and all sets of files with different DMs that can be prepared, state the same band (if in PRESTO format) and have the same length; any schedule of the workers", "why_tests_cant": "A metamorphic property between pairs of runs on different sets of files; the tests run the pipeline on one set of files at a time", "anchors": ["riptide/pipeline/dmiter.py: select_dms, DMIterator", "riptide/pipeline/pipeline.py: prepare, search, build_candidates, process"]}
{"id": "C138", "title": "A run of rffa is determined by its input files, and can be repeated or completed", "statement": "Two runs of rffa with the same arguments, configuration file and input files overwrite the same files in the output directory with the same content and end in the same way (up to which of several exceptions is raised), whatever else is on the disk and however the worker processes are scheduled. Hence a run can be repeated: the second run leaves every file as the first one left it, except for the log. And a run that was interrupted while saving can be done again: the files are then those of a complete run.", "quantifier": "all arguments, file systems and schedules, log file and products being none of the files that are read; files left by the interrupted run may be missing, complete or cut", "why_tests_cant": "Needs pairs of runs under all schedules and all states of the output directory; the tests run the pipeline once into an empty directory", "anchors": ["riptide/pipeline/pipeline.py: run_program, process, save_products, CandidateWriter", "riptide/pipeline/worker_pool.py: WorkerPool"]}
{"id": "C139", "title": "The number of processes does not matter", "statement": "If the configuration differs from another only in the value of processes, both being positive, then the pipeline ends with the same peaks, clusters and candidates, and a run of rffa that ends normally with one of them ends normally with the other and writes the same files with the same content.", "quantifier": "all configurations, input files, numbers of processes and schedules of the worker pool; log file and products being none of the files that are read", "why_tests_cant": "Would need pairs of runs with all numbers of processes and all schedules; the tests of the pipeline run it with two configurations", "anchors": ["riptide/pipeline/pipeline.py: search, save_products, run_program", "riptide/pipeline/worker_pool.py: WorkerPool.process_fname_list", "riptide/pipeline/config_validation.py: validate_pipeline_config"]}
{"id": "C140", "title": "The order of the entries of the configuration does not matter", "statement": "Two configuration files that differ only in the order of the entries of their mappings (the sections, and the entries of each section and of each search range) are both accepted or both rejected, give the same arguments, and hence the same run: the same peaks, clusters and candidates, or an exception in both cases, and the same files in the output directory.", "quantifier": "all YAML documents whose mappings have different keys, reordered at any depth; all input files, machines and schedules of the worker pool", "why_tests_cant": "The number of orders is exponential, and the validation library and the keyword arguments go through the entries in order; the tests have two configuration files, which are not compared with each other", "anchors": ["riptide/pipeline/config_validation.py: validate_pipeline_config, PIPELINE_CONFIG_SCHEMA, SEARCH_RANGE_SCHEMA", "riptide/pipeline/pipeline.py: from_yaml_config, prepare, run_program", "riptide/pipeline/worker_pool.py: WorkerPool.process_fname"]}
{"id": "C141", "title": "Names of search ranges, and entries given with their default value, do not matter", "statement": "Renaming search ranges, writing out fpmin, wtsp, ducy_max, smin, segwidth, nstd, minseg or clrad with the default value of ffa_search or find_peaks where they were left out, leaving them out where they had that value, and reordering the entries of a range change nothing: the configuration stays valid, the pipeline ends in the same state (if it ends normally with one of the configurations, then with the other too), and rffa writes the same files.", "quantifier": "all configurations, any number of such changes in any number of search ranges; all input files, machines and schedules of the worker pool", "why_tests_cant": "The default values are in the signatures of two other functions and the entries are validated and converted on the way there; the tests have two configuration files, which are not compared with each other", "anchors": ["riptide/pipeline/config_validation.py: SEARCH_RANGE_SCHEMA, validate_pipeline_config", "riptide/search.py: ffa_search", "riptide/peak_detection.py: find_peaks", "riptide/pipeline/worker_pool.py: WorkerPool.process_fname"]}
{"id": "C142", "title": "The candidate filters only select candidates", "statement": "Making the candidate filters stricter (raising dm_min or snr_min, setting them where they were None, switching remove_harmonics on, setting a max_number where there was none) keeps a run that ends normally one that ends normally, with the same peaks, clusters and harmonic flags. Its candidates are exactly those of the first run that pass the filters, with the same folded data, in order of decreasing S/N; with a max_number at most that many, and a candidate is only left out if max_number clusters were selected that are all at least as bright. Two runs that differ in the filters only give the same candidate for every cluster that both select. The same holds for rffa, which ends normally with the stricter filters too and writes the same peaks.csv and clusters.csv.", "quantifier": "all configurations, pairs of filters as described, input files and schedules of the worker pool for which the first run ends normally", "why_tests_cant": "A test would have to run the pipeline twice on the same data and compare all its products; the tests run it once per configuration and look at the brightest candidate", "anchors": ["riptide/pipeline/pipeline.py: Pipeline.apply_candidate_filters, Pipeline.build_candidates, Pipeline.process", "riptide/pipeline/config_validation.py: validate_pipeline_config"]}
{"id": "C143", "title": "Switching the plots of candidates off changes nothing else", "statement": "The entry plot_candidates does not affect the pipeline, which ends in the same state with either value. If a run of rffa with plots ends normally, then so does a run with plot_candidates: false on the same input files, and it writes the same tables and candidate files with the same content; the plots are the only files that it does not write, and it leaves existing ones as they were.", "quantifier": "all configurations, machines, input files and schedules of the worker pool for which the run with plots ends normally", "why_tests_cant": "The tests have one configuration with plots and one without, but these differ in other entries as well, and only the first candidate of each is looked at", "anchors": ["riptide/pipeline/pipeline.py: Pipeline.save_products, CandidateWriter.__call__, run_program", "riptide/pipeline/config_validation.py: validate_pipeline_config"]}
{"id": "C144", "title": "A larger clustering radius merges clusters and gives no new peaks", "statement": "For r <= r', every cluster of cluster1d with radius r is a run of consecutive elements of a cluster with radius r', and there are at least as many with r. Hence, if find_peaks succeeds, it also does with a larger clrad, and its peaks are then some of those found before; the table that rseek makes from given peaks with a larger clrad consists of rows of the former table; and the clusters of the pipeline with a larger clustering radius are unions of the former ones, with centres that are centres of former clusters, in the same order.", "quantifier": "all arrays, periodograms with T > 0, lists of peaks, radii r <= r', sorting permutations and threshold functions", "why_tests_cant": "No test compares the results of two radii, and ties between equal values of S/N decide which peak is kept", "anchors": ["riptide/clustering.py: cluster1d", "riptide/peak_detection.py: find_peaks, find_peaks_single", "riptide/apps/rseek.py: run_program", "riptide/pipeline/pipeline.py: Pipeline.cluster_peaks"]}
