{"id": "C01", "title": "RingBuffer exposes exactly the newest window of the stream", "statement": "After constructing a RingBuffer (with any or no initial data) and pushing any sequence of chunks, indexing the buffer shows exactly the last `shape[-1]` elements of the concatenation of the initial data and all pushed chunks, in order (or all of them while fewer have arrived).", "quantifier": "every capacity >= 1, every scaling factor between 1 and 2, every content of the uninitialised memory, every finite sequence of chunks of every length (including empty and longer than the capacity)", "why_tests_cant": "the internal view start, wrap-around copy and overfill branches depend on the whole push history; tests sample a handful of histories", "anchors": ["distancematrix/ringbuffer.py: RingBuffer.__init__, push, __getitem__"]}
{"id": "C02", "title": "RingBuffer.push reports exactly how many points left the window", "statement": "The value returned by push equals (points visible before) + (points pushed) - (points visible after); it is 0 exactly when nothing was dropped.", "quantifier": "every reachable buffer and every pushed chunk", "why_tests_cant": "depends on the fill level reached by an arbitrary history", "anchors": ["distancematrix/ringbuffer.py: RingBuffer.push"]}
{"id": "C03", "title": "Values written through the buffer slide along with the window", "statement": "Writing through `buffer[i] = v` or `buffer[a:b] = vs` changes exactly those positions of the window, and later pushes keep the written values as if they had been in the stream (no write is lost or resurrected when the internal memory is rewound).", "quantifier": "every interleaving of pushes and item/slice writes of any length", "why_tests_cant": "the loss would only appear at particular wrap-around points of long histories", "anchors": ["distancematrix/ringbuffer.py: RingBuffer.__setitem__, push"]}
{"id": "C04", "title": "RingBuffer.push accepts chunks of any length for any accepted scaling factor", "statement": "For every scaling factor >= 1 (the range the library's constructors accept), pushing a chunk of matching leading shape succeeds whatever its length.", "quantifier": "every scaling factor >= 1, capacity, history and chunk length", "why_tests_cant": "failures need a chunk length between the capacity and the spare memory, at a particular view position", "anchors": ["distancematrix/ringbuffer.py: RingBuffer.push", "distancematrix/generator/euclidean.py: Euclidean.__init__", "distancematrix/consumer/matrix_profile_lr.py: ShiftingMatrixProfileLR.__init__"]}
{"id": "C05", "title": "RingBuffer never reads or exposes uninitialised or out-of-range memory", "statement": "Every window a RingBuffer exposes lies inside the allocated memory and contains only pushed (or written) values, never uninitialised memory.", "quantifier": "every history, every content of uninitialised memory", "why_tests_cant": "np.empty content is arbitrary; a test cannot control it", "anchors": ["distancematrix/ringbuffer.py: RingBuffer.__init__, push"]}
{"id": "C06", "title": "diag_length / diag_indices enumerate exactly the requested diagonal", "statement": "diag_indices(h, w, d) lists, from top left to bottom right, exactly the cells (i, j) of an h x w matrix with j - i = d, and diag_length is their number (0 outside the matrix).", "quantifier": "all heights, widths and diagonal numbers (negative ones included)", "why_tests_cant": "infinitely many shapes", "anchors": ["distancematrix/util.py: diag_length, diag_indices, diag_indices_of"]}
{"id": "C07", "title": "The diagonals partition the matrix", "statement": "Each cell lies on exactly one diagonal in ]-h, w[, and the lengths of these diagonals add up to h*w; for the diagonals above the trivial-match band of an n x n self-join they add up to t(t+1)/2 with t = n - buffer - 1.", "quantifier": "all matrix shapes and all trivial match buffers", "why_tests_cant": "identity over all sizes", "anchors": ["distancematrix/util.py: diag_length", "distancematrix/calculator.py: AnytimeCalculator.__init__ (_diagonal_values_total)"]}
{"id": "C08", "title": "cut_indices_of enumerates exactly one anti-diagonal", "statement": "cut_indices_of(array, cut) lists, from bottom left to top right, exactly the cells (i, j) with i + j = cut, and is empty outside [0, h+w-2].", "quantifier": "all shapes and all cut numbers", "why_tests_cant": "infinitely many shapes", "anchors": ["distancematrix/util.py: cut_indices_of"]}
{"id": "C09", "title": "shortest_path_distances gives the cheapest path cost", "statement": "Entry (i, j) of shortest_path_distances(cost) is the minimum, over all paths from (0,0) to (i,j) using right/down/diagonal steps, of the summed cost.", "quantifier": "every cost matrix with at least one row and column, every entry", "why_tests_cant": "the number of paths is exponential", "anchors": ["distancematrix/util.py: shortest_path_distances"]}
{"id": "C10", "title": "shortest_path returns a valid and cheapest path", "statement": "shortest_path(cost) returns a list of indices starting at (0,0), ending at the bottom-right cell, moving one step right/down/diagonally each time, with summed cost equal to the minimum over all such paths; it always terminates.", "quantifier": "every finite cost matrix with at least one row and column", "why_tests_cant": "exponentially many paths, all shapes", "anchors": ["distancematrix/util.py: shortest_path"]}
{"id": "C11", "title": "sliding_window_view is faithful and memory safe", "statement": "The view produced for any N-dimensional array, window shape and step has shape (x.shape - shape)//step + 1, its element (i, j) equals x[i*step + j], every element addressed through the computed strides lies inside the array, and invalid shapes/steps raise instead of yielding a view.", "quantifier": "every number of dimensions, array shape, stride layout, window shape and step", "why_tests_cant": "as_strided reads arbitrary memory when the arithmetic is wrong; tests cannot see a silent out-of-bounds read", "anchors": ["distancematrix/util.py: sliding_window_view"]}
{"id": "C12", "title": "lowest_value_idxs yields separated indices from best to worst", "statement": "The indices produced are positions of finite values, pairwise more than exclude_distance apart, with non-decreasing values; invalid arguments raise.", "quantifier": "every 1-D array (NaN and infinities included) and every exclude_distance >= 0", "why_tests_cant": "greedy behaviour over all arrays, ties and exclusion overlaps", "anchors": ["distancematrix/insights.py: lowest_value_idxs"]}
{"id": "C13", "title": "lowest_value_idxs is exhaustive and terminates", "statement": "The generator stops, and every finite value of the array lies within exclude_distance of some produced index whose value is no larger.", "quantifier": "every 1-D non-empty array and exclude_distance", "why_tests_cant": "termination and coverage for all inputs", "anchors": ["distancematrix/insights.py: lowest_value_idxs"]}
{"id": "C14", "title": "highest_value_idxs mirrors lowest_value_idxs", "statement": "highest_value_idxs yields separated indices of finite values in non-increasing order, and every finite value is within exclude_distance of a produced index with no smaller value.", "quantifier": "every 1-D array and exclude_distance", "why_tests_cant": "all inputs", "anchors": ["distancematrix/insights.py: highest_value_idxs"]}
{"id": "C15", "title": "sliding_mean_std / sliding_mean_var compute each window's mean and deviation", "statement": "For a finite series of length n >= m > 0 the result has n-m+1 entries, entry i being the mean and the population standard deviation (variance) of series[i:i+m]; a non-positive m, a window longer than the series or a non-finite value raises.", "quantifier": "every series and window length", "why_tests_cant": "all lengths and values", "anchors": ["distancematrix/math_tricks.py: sliding_mean_std, sliding_mean_var"]}
{"id": "C16", "title": "StreamingStats stays consistent with its data window", "statement": "After any sequence of appends, `data` is the newest window of the stream and `mean`/`std` are exactly the sliding mean/standard deviation of `data`.", "quantifier": "every initial series, window length and sequence of appended chunks", "why_tests_cant": "depends on whole append history across three ring buffers", "anchors": ["distancematrix/math_tricks.py: StreamingStats.__init__, append, data, mean, std"]}
{"id": "C17", "title": "The SIGINT handler is always restored", "statement": "Whatever happens inside calculate_columns / calculate_diagonals (normal end, exception, any number of SIGINTs at any time, nested use), once it ends the process SIGINT handler is the one that was installed before, and a SIGINT inside never escapes but is remembered.", "quantifier": "every body outcome and every arrival pattern of signals", "why_tests_cant": "signal timing cannot be enumerated by tests", "anchors": ["distancematrix/interrupt_util.py: interrupt_catcher", "distancematrix/calculator.py: calculate_columns, calculate_diagonals"]}
{"id": "C18", "title": "An interrupted calculation can be resumed without loss or repetition", "statement": "Interrupting calculate_columns()/calculate_diagonals() at any point and calling it again delivers to every consumer exactly the same sequence of columns/diagonals as one uninterrupted call.", "quantifier": "every interruption point, every number of interruptions", "why_tests_cant": "all interruption schedules", "anchors": ["distancematrix/calculator.py: calculate_columns, calculate_diagonals", "distancematrix/interrupt_util.py: interrupt_catcher"]}
{"id": "C19", "title": "Relative and absolute positions are converted and clamped consistently", "statement": "A float in [0,1] is converted to ceil(ratio*full), an int is used as is, both clamped to [0, limit]; floats outside [0,1] and other types raise; the result is monotone in the argument and 1.0 means the full limit.", "quantifier": "all ratios, sizes and limits", "why_tests_cant": "all values", "anchors": ["distancematrix/calculator.py: _ratio_to_int"]}
{"id": "C20", "title": "A full diagonal calculation visits every distance exactly once", "statement": "calculate_diagonals() with the default argument never runs past its diagonal list, and delivers each cell of the distance matrix exactly once for a query/series join; for a self-join it delivers exactly the cells more than trivial_match_buffer away from the main diagonal, each exactly once.", "quantifier": "all matrix shapes, trivial match buffers and shuffles", "why_tests_cant": "needs the sum identity for every shape and every shuffle", "anchors": ["distancematrix/calculator.py: AnytimeCalculator.__init__, calculate_diagonals"]}
{"id": "C21", "title": "A partial diagonal calculation does the requested amount of work", "statement": "calculate_diagonals(partial) stops after at least the requested number of values and less than one diagonal more; values already calculated count; requesting less than was already calculated does nothing.", "quantifier": "all shapes, shuffles, requested amounts and earlier calls", "why_tests_cant": "all histories", "anchors": ["distancematrix/calculator.py: AnytimeCalculator.calculate_diagonals"]}
{"id": "C22", "title": "Anytime calculations compose", "statement": "Running calculate_diagonals with increasing amounts a then b gives every consumer exactly the same deliveries as calculate_diagonals(b) directly; same for calculate_columns(upto=a) followed by calculate_columns(upto=b).", "quantifier": "all sequences of requests", "why_tests_cant": "all histories", "anchors": ["distancematrix/calculator.py: AnytimeCalculator.calculate_diagonals, AbstractCalculator.calculate_columns"]}
{"id": "C23", "title": "calculate_columns delivers exactly the requested columns, masked around the diagonal", "statement": "calculate_columns(start, upto) delivers to every consumer, left to right and once each, exactly the columns in [start, upto) clamped to the available columns; the values are those of the consumer's own generators in the order it asked for them, except that in a self-join entries within trivial_match_buffer of the main diagonal are +inf.", "quantifier": "all starts/ends, consumers, generator lists, matrix sizes and trivial match buffers", "why_tests_cant": "all configurations", "anchors": ["distancematrix/calculator.py: AbstractCalculator.calculate_columns, add_consumer"]}
{"id": "C24", "title": "trivial_match_buffer is validated", "statement": "For a self-join a buffer outside [-1, number of subsequences[ is rejected at construction, None means m//2, and without self-join the buffer is ignored (-1).", "quantifier": "all m, sizes, buffers", "why_tests_cant": "all values", "anchors": ["distancematrix/calculator.py: AbstractCalculator.__init__"]}
{"id": "C25", "title": "Streaming shifts are accounted exactly, whatever the chunking", "statement": "The total shift announced to the consumers equals max(0, points streamed - window), however the points were split into append calls, and the number of available columns/rows equals the number of complete subsequences in the window.", "quantifier": "all windows, m and sequences of append calls", "why_tests_cant": "all chunkings", "anchors": ["distancematrix/calculator.py: StreamingCalculator.append_series, append_query, _max_column, _max_row"]}
{"id": "C26", "title": "Streaming continues at the right column", "statement": "After any sequence of append_series and calculate_columns() calls on a StreamingCalculator, each subsequence position of the stream that was inside the window at a calculate_columns() call has been calculated, and none is delivered twice (the resume position follows the data shift).", "quantifier": "all interleavings of appends (any chunk size) and calculations (complete, partial or interrupted)", "why_tests_cant": "all histories", "anchors": ["distancematrix/calculator.py: StreamingCalculator.append_series, calculate_columns"]}
{"id": "C27", "title": "Euclidean diagonals are the true distances", "statement": "calc_diagonal(d) of the Euclidean generator returns, for finite data, the Euclidean distance of each pair of length-m subsequences on diagonal d, for batch and streaming generators after any appends.", "quantifier": "all series, queries, m, diagonals and append histories", "why_tests_cant": "all inputs; cumulative-sum cancellation identity", "anchors": ["distancematrix/generator/euclidean.py: BoundStreamingEuclidean.calc_diagonal"]}
{"id": "C28", "title": "Euclidean columns are the true distances regardless of caching", "statement": "calc_column(c) of the Euclidean generator returns the Euclidean distance between series subsequence c and every query subsequence of the current windows (squared distances below 1e-15 being reported as 0), whatever columns were calculated and data appended before.", "quantifier": "all data, m, column orders and interleavings with appends", "why_tests_cant": "cache reuse (previous column, first row) depends on the whole history", "anchors": ["distancematrix/generator/euclidean.py: BoundStreamingEuclidean.calc_column, append_series, append_query, _euclidean_distance_squared"]}
{"id": "C29", "title": "Z-normalised distances equal their definition", "statement": "For subsequences with standard deviation above 1e-6 the z-normalised generator returns the Euclidean distance between the z-normalised subsequences (squared distances below 1e-12 reported as 0); if exactly one is flat it returns sqrt(m); if both are flat 0.", "quantifier": "all data, m, rows and columns", "why_tests_cant": "algebraic identity over all reals", "anchors": ["distancematrix/generator/znorm_euclidean.py: BoundZNormEuclidean.calc_diagonal, calc_column, calc_single"]}
{"id": "C30", "title": "Column, diagonal and single z-normalised calculations agree for any history", "statement": "For the same windows, calc_column(c)[r], calc_diagonal(c-r)[..] and calc_single(r,c) return the same distance, whatever was calculated or appended before.", "quantifier": "all data, m, noise levels and interleavings of appends and calculations", "why_tests_cant": "three code paths with caching, all histories", "anchors": ["distancematrix/generator/znorm_euclidean.py: BoundZNormEuclidean.calc_column, calc_diagonal, calc_single, append_series, append_query"]}
{"id": "C31", "title": "Cached subsequence statistics follow the stream", "statement": "After any successful appends the z-normalised generator's cached means, deviations and flatness flags are exactly those of the subsequences in the current window, one per subsequence.", "quantifier": "all append histories and chunkings", "why_tests_cant": "all chunkings around the m threshold and wrap-around", "anchors": ["distancematrix/generator/znorm_euclidean.py: BoundZNormEuclidean.append_series, append_query"]}
{"id": "C32", "title": "Self-join distances are symmetric", "statement": "In a self-join the distance at (i,j) equals the one at (j,i) for both generators, so the calculator may deliver the values of diagonal d also as diagonal -d, and the main diagonal is zero.", "quantifier": "all series and m", "why_tests_cant": "all inputs", "anchors": ["distancematrix/calculator.py: AnytimeCalculator.calculate_diagonals", "distancematrix/generator/euclidean.py", "distancematrix/generator/znorm_euclidean.py"]}
{"id": "C33", "title": "Noise elimination only lowers distances and stays well defined", "statement": "With noise_std > 0 each distance is at most the one without noise elimination, never negative and never NaN, and flat/flat pairs stay 0; with noise_std = 0 it changes nothing.", "quantifier": "all data, m, noise levels", "why_tests_cant": "all inputs", "anchors": ["distancematrix/generator/znorm_euclidean.py: calc_diagonal, calc_column, calc_single"]}
{"id": "C34", "title": "A rejected append leaves a z-normalised generator unchanged", "statement": "If append_series/append_query raises because of non-finite data, the generator still describes the data from before the call.", "quantifier": "all states and rejected chunks", "why_tests_cant": "all histories", "anchors": ["distancematrix/generator/znorm_euclidean.py: append_series, append_query", "distancematrix/math_tricks.py: sliding_mean_std"]}
{"id": "C35", "title": "Invalid points invalidate exactly the subsequences containing them", "statement": "The invalid-subsequence mask marks subsequence i exactly when some point of data[i:i+m] is invalid.", "quantifier": "all masks and m", "why_tests_cant": "all masks", "anchors": ["distancematrix/generator/filter_generator.py: _invalid_data_to_invalid_subseq, _correct_data_and_create_masks"]}
{"id": "C36", "title": "FilterGenerator yields infinity exactly for invalid subsequences and leaves the others untouched", "statement": "With a FilterGenerator every distance involving a subsequence with an invalid point is +inf, and every other distance equals the wrapped generator's true distance of the original (unmodified) data, for columns and diagonals.", "quantifier": "all data (NaN/inf included), m, rows, columns and diagonals", "why_tests_cant": "all inputs", "anchors": ["distancematrix/generator/filter_generator.py: BoundFilterGenerator.calc_diagonal, calc_column, FilterGenerator.prepare"]}
{"id": "C37", "title": "Streaming filtering equals batch filtering", "statement": "After any sequence of non-empty appends the streaming filter's mask marks exactly the subsequences of the current window that contain an invalid point, however the data was chunked.", "quantifier": "all chunkings, m, windows and pointwise validity functions", "why_tests_cant": "all chunkings around the m threshold and wrap-around", "anchors": ["distancematrix/generator/filter_generator.py: BoundStreamingFilterGenerator.append_series, append_query, calc_column"]}
{"id": "C38", "title": "Matrix profile from diagonals is order independent and exact", "statement": "After delivering any collection of diagonals in any order (repetitions allowed) MatrixProfileLR's left/right profile at column c is the minimum of the delivered values at rows <= c / > c (+inf if none), and the stored index is a delivered row attaining it (-1 if none below +inf).", "quantifier": "all matrices, all sequences of diagonals", "why_tests_cant": "all orders", "anchors": ["distancematrix/consumer/matrix_profile_lr.py: MatrixProfileLR.process_diagonal, _update_matrix_profile"]}
{"id": "C39", "title": "Matrix profile from columns equals matrix profile from diagonals", "statement": "After delivering every column, the left/right/merged profile values equal those obtained from delivering every diagonal, namely the column minima above/below the diagonal.", "quantifier": "all matrix shapes and NaN-free values, all delivery orders", "why_tests_cant": "all inputs", "anchors": ["distancematrix/consumer/matrix_profile_lr.py: MatrixProfileLR.process_column, matrix_profile"]}
{"id": "C40", "title": "The merged profile and index agree", "statement": "matrix_profile() is the smaller of left and right profile, profile_index() is the row where that value occurs, and delivering more diagonals never increases the profile (partial results are upper bounds).", "quantifier": "all histories", "why_tests_cant": "all histories", "anchors": ["distancematrix/consumer/matrix_profile_lr.py: MatrixProfileLR.matrix_profile, profile_index"]}
{"id": "C41", "title": "The shifting matrix profile remembers the best match over the whole stream", "statement": "Under any interleaving of column/diagonal deliveries and series/query shifts, ShiftingMatrixProfileLR's left (right) profile at a column equals the minimum over everything ever delivered for that stream position at stream rows on/above (below) the unshifted main diagonal (NaN in a diagonal is skipped; the left or right part of a column that contains a NaN is ignored as a whole), and the index is the stream row of a delivery attaining it; columns that scrolled in are +inf/-1.", "quantifier": "all histories of deliveries and shifts", "why_tests_cant": "all histories", "anchors": ["distancematrix/consumer/matrix_profile_lr.py: ShiftingMatrixProfileLR"]}
{"id": "C42", "title": "The reservoir matrix profile returns genuine ties", "statement": "For every outcome of the random generator MatrixProfileLRReservoir's profile equals MatrixProfileLR's, its index always points at a delivered row with the minimal value, and its match counter equals the number of delivered finite values equal to the minimum.", "quantifier": "all diagonals delivered in any order, all random outcomes", "why_tests_cant": "all random streams", "anchors": ["distancematrix/consumer/matrix_profile_lr.py: MatrixProfileLRReservoir"]}
{"id": "C43", "title": "Reservoir sampling is uniform over ties", "statement": "When a column contains several equal minimal values, each of their rows ends up in the profile index with equal probability, however the diagonals are ordered.", "quantifier": "all numbers of ties and all delivery orders", "why_tests_cant": "a statistical test cannot establish exact uniformity", "anchors": ["distancematrix/consumer/matrix_profile_lr.py: MatrixProfileLRReservoir._update_matrix_profile"]}
{"id": "C44", "title": "The DistanceMatrix consumer stores exactly what was delivered", "statement": "Under any interleaving of column/diagonal deliveries and shifts, each entry of the stored matrix is the last value delivered for that stream position since it entered the window, or NaN if none was delivered; a shift moves content by exactly the given amount (also when it exceeds the matrix). A number of generators other than one is refused with a RuntimeError.", "quantifier": "all histories", "why_tests_cant": "all histories", "anchors": ["distancematrix/consumer/distance_matrix.py: DistanceMatrix"]}
{"id": "C45", "title": "ThresholdCounter counts delivered values", "statement": "After delivering distinct diagonals in any order, counts[t, c] is the number of delivered values in column c that are <= threshold t; delivering all columns gives the same counts as delivering all diagonals.", "quantifier": "all matrices, thresholds, sets and orders of diagonals", "why_tests_cant": "all orders", "anchors": ["distancematrix/consumer/threshold_counter.py: ThresholdCounter"]}
{"id": "C46", "title": "A self-join counts each distance once", "statement": "Running an AnytimeCalculator self-join over all diagonals, every cell of the distance matrix is delivered to a consumer at most once (so ThresholdCounter and reservoir counters agree with the column calculation).", "quantifier": "all sizes and trivial match buffers (>= -1)", "why_tests_cant": "boundary value -1 of the buffer", "anchors": ["distancematrix/calculator.py: AnytimeCalculator.calculate_diagonals", "distancematrix/consumer/threshold_counter.py: ThresholdCounter.process_diagonal"]}
{"id": "C47", "title": "DistancedThresholdCounter counts a separated selection for every threshold", "statement": "For each threshold t the count of a delivered column is the size of the greedy best-first selection among the values <= t with at least `exclusion` values in between: the counted positions are pairwise more than `exclusion` apart, and every value <= t is within `exclusion` of a counted one that is no larger.", "quantifier": "all columns, thresholds and exclusions, any tie-breaking of the sort", "why_tests_cant": "all inputs", "anchors": ["distancematrix/consumer/threshold_counter.py: DistancedThresholdCounter.process_column"]}
{"id": "C48", "title": "RadiusProfile0 reports the k-th smallest distance", "statement": "values[i, c] is the k_i-th smallest value delivered for column c (k sorted, 0-based), NaN when the column has no more than k values.", "quantifier": "all columns and track indices", "why_tests_cant": "all inputs", "anchors": ["distancematrix/consumer/radius_profile.py: RadiusProfile0"]}
{"id": "C49", "title": "RadiusProfile reports the k-th best non-trivial match for every tracked k", "statement": "values[i, c] is the value of the k_i-th index produced by lowest_value_idxs on the column (NaN if there are fewer), for every entry of track_indices.", "quantifier": "all columns, exclusions and track index lists", "why_tests_cant": "all inputs", "anchors": ["distancematrix/consumer/radius_profile.py: RadiusProfile"]}
{"id": "C50", "title": "Context lookups return exactly the overlapping contexts", "statement": "series_contexts(start, stop) and query_contexts(start, stop) return exactly the non-empty contexts overlapping [start, stop), each once, whichever internal shortcut is used; invalid ranges are rejected.", "quantifier": "all context lists (nested, overlapping, unordered, empty) and query ranges", "why_tests_cant": "four code paths, all inputs", "anchors": ["distancematrix/consumer/contextmanager.py: GeneralStaticManager, _verify_ranges, _enumerate_flattened, _filter_empty"]}
{"id": "C51", "title": "The contextual matrix profile holds the minimum of every context rectangle", "statement": "After delivering any diagonals (or columns) in any order, entry (i,j) is the minimum of the delivered values whose row is in query context i and column in series context j (+inf if none), and the stored match indices locate it; delivering all columns or all diagonals gives the same matrix.", "quantifier": "all matrices, context definitions (overlapping, partly or fully outside the matrix) and delivery orders", "why_tests_cant": "all inputs", "anchors": ["distancematrix/consumer/contextual_matrix_profile.py: process_diagonal, process_column"]}
{"id": "C52", "title": "The contextual matrix profile shifts with the stream", "statement": "When contexts shift by k along the query (series) axis, row (column) i of the contextual matrix becomes the former row (column) i+k and the freed ones are +inf/-1, and later updates and shifts keep that content.", "quantifier": "all shift sequences and updates", "why_tests_cant": "all histories", "anchors": ["distancematrix/consumer/contextual_matrix_profile.py: shift_query, shift_series"]}
{"id": "C53", "title": "The multidimensional profile from columns picks the best dimensions", "statement": "After delivering columns, entry (k, c) is the minimum over delivered rows of the mean of the k+1 smallest channel distances, with index and dimensions that attain it, on either side of the diagonal, also under shifts.", "quantifier": "all channels, values, column orders and shifts, any tie-breaking of the sort", "why_tests_cant": "all inputs", "anchors": ["distancematrix/consumer/multidimensional_matrix_profile_lr.py: process_column, md_matrix_profile"]}
{"id": "C54", "title": "The multidimensional profile from diagonals equals the one from columns", "statement": "Delivering diagonals in any order yields, for each column, the minimum over delivered rows of the mean of the k+1 smallest channel distances with matching index and dimensions, for every matrix shape and under shifts.", "quantifier": "all shapes (query longer or shorter than series), values, orders and shifts", "why_tests_cant": "all inputs", "anchors": ["distancematrix/consumer/multidimensional_matrix_profile_lr.py: process_diagonal"]}
{"id": "C55", "title": "find_consensus_motif returns the optimum", "statement": "The result names a subsequence whose largest distance to its best matches in the other series equals the reported radius, and no subsequence of any series has a smaller radius.", "quantifier": "all collections of at least two series, any tie-breaking of the sort", "why_tests_cant": "pruning correctness for all inputs", "anchors": ["distancematrix/ostinato.py: find_consensus_motif"]}
{"id": "C56", "title": "find_consensus_motif_subset returns the k-of-n optimum", "statement": "The reported radius is the minimum over all subsequences of the (k-1)-th smallest best-match distance to the other series, attained by the reported subsequence.", "quantifier": "all collections and all 2 <= k <= n", "why_tests_cant": "all inputs", "anchors": ["distancematrix/ostinato.py: find_consensus_motif_subset"]}
{"id": "C57", "title": "OstinatoAnytime brackets the radius profile", "statement": "After any amount of calculation get_radii() is entrywise at least the true radius profile, never increases with more calculation, and equals it after calculate(1.0).", "quantifier": "all collections of series, fractions and call sequences", "why_tests_cant": "all histories", "anchors": ["distancematrix/ostinato.py: OstinatoAnytime, _MPReverse"]}
{"id": "C58", "title": "The VALMOD lower bound is a lower bound", "statement": "The bound base/std computed from correlation at length l never exceeds the z-normalised distance of the same pair at any longer length.", "quantifier": "all series, pairs, lengths", "why_tests_cant": "inequality over all reals", "anchors": ["distancematrix/valmod.py: _find_all_motifs_full_matrix_iteration, find_variable_length_motifs"]}
{"id": "C59", "title": "find_variable_length_motifs returns the best motif for every length", "statement": "For every length in the range the returned pair is a non-trivial pair with minimal z-normalised distance for that length.", "quantifier": "all series, length ranges and cache sizes", "why_tests_cant": "pruning correctness for all inputs", "anchors": ["distancematrix/valmod.py: find_variable_length_motifs"]}
{"id": "C60", "title": "End to end: the batch matrix profile is the brute-force one", "statement": "AnytimeCalculator with one generator and MatrixProfileLR, after a complete calculation by columns or by diagonals, yields the brute-force nearest-neighbour distance of each subsequence outside the trivial match band.", "quantifier": "all series, queries, m, trivial match buffers, shuffles", "why_tests_cant": "composition of all components for all inputs", "anchors": ["distancematrix/calculator.py", "distancematrix/generator/euclidean.py", "distancematrix/consumer/matrix_profile_lr.py"]}
{"id": "C61", "title": "End to end: the streaming distance matrix is the batch one", "statement": "A StreamingCalculator with the DistanceMatrix consumer, under any interleaving of appends and calculate_columns(), holds at every calculated position the distance of the corresponding subsequences of the current windows.", "quantifier": "all interleavings and chunkings", "why_tests_cant": "composition over all histories", "anchors": ["distancematrix/calculator.py", "distancematrix/generator/euclidean.py", "distancematrix/consumer/distance_matrix.py"]}
{"id": "C62", "title": "What streaming consumers receive", "statement": "A StreamingCalculator with any channels, any Euclidean and ZNormEuclidean generators and any consumers, under any sequence of append_series, append_query and (possibly interrupted) calculate_columns calls, calls every consumer exactly as follows: a shift of the series and/or query whenever an append moves the window, by the number of places it moves; and every column of the window not calculated before exactly once, in increasing order, with one row of distances per generator the consumer asked for (in that order), each the true distance of the subsequences of the current windows, +inf inside the trivial match band.", "quantifier": "all channels, generators, consumers, call sequences, chunkings and interrupts", "why_tests_cant": "composition over all histories and any number of parts", "anchors": ["distancematrix/calculator.py", "distancematrix/generator/euclidean.py", "distancematrix/generator/znorm_euclidean.py", "distancematrix/consumer/abstract_consumer.py"]}
{"id": "C63", "title": "End to end: the streaming left and right matrix profile", "statement": "A StreamingCalculator with any channels, Euclidean and ZNormEuclidean generators and any number of new ShiftingMatrixProfileLR consumers, under any sequence of append_series, append_query and (possibly interrupted) calculate_columns calls: at every place of the series window the left (right) profile holds the smallest distance to the subsequences of the query at or before (after) that position of the stream among all pairs calculated so far, also those whose row has left the query window, +inf counting inside the trivial match band, and the profile index is the first stream position of the query attaining it; +inf and -1 if there is none. matrix_profile() and profile_index() give the smaller of both.", "quantifier": "all channels, generators, call sequences, chunkings and interrupts", "why_tests_cant": "composition over all histories; stale rows and shifted indices only show after particular overflows", "anchors": ["distancematrix/calculator.py", "distancematrix/consumer/matrix_profile_lr.py", "distancematrix/generator/znorm_euclidean.py", "distancematrix/generator/euclidean.py"]}
{"id": "C64", "title": "Sliding minimum and maximum", "statement": "sliding_min(array, w) and sliding_max(array, w) with w >= 1 return one value per window of w consecutive values (none if the array is shorter than w): the smallest (largest) value of the window if all its values are finite, NaN otherwise. A negative w raises.", "quantifier": "all arrays of floats and window sizes", "why_tests_cant": "values and window sizes are unbounded; NaN and infinities at any position", "anchors": ["distancematrix/util.py: sliding_min, sliding_max"]}
{"id": "C65", "title": "Subsequences affected by invalid points", "statement": "For every dimension, _find_invalid_subseq_idxs returns exactly the indices, within the allowed range, of the subsequences of length m that contain an invalid point of that dimension.", "quantifier": "all sets of invalid points, dimensions, m and allowed ranges", "why_tests_cant": "the positions and ranges are unbounded", "anchors": ["distancematrix/calculator.py: _find_invalid_subseq_idxs"]}
{"id": "C66", "title": "What batch consumers receive", "statement": "An AnytimeCalculator with any channels, any Euclidean and ZNormEuclidean generators and any consumers, under any sequence of calculate_diagonals(partial) and calculate_columns(start, upto) calls, possibly interrupted, raises nothing and calls every consumer exactly as follows: each diagonal of the (shuffled) order not delivered before exactly once, up to the first one at which the requested number of distances is reached or the interrupt is noticed, in a self-join followed by its mirror image; each requested column up to the interrupt in increasing order; every call with one row of distances per generator the consumer asked for (in that order), each the true distance of the subsequences, in columns +inf inside the trivial match band.", "quantifier": "all channels, generators, consumers, call sequences, shuffles and interrupts", "why_tests_cant": "composition over all histories and any number of parts", "anchors": ["distancematrix/calculator.py", "distancematrix/generator/euclidean.py", "distancematrix/generator/znorm_euclidean.py", "distancematrix/consumer/abstract_consumer.py"]}
{"id": "C67", "title": "The matrix profile at any moment of a batch calculation", "statement": "MatrixProfileLR consumers of an AnytimeCalculator with any channels and generators: after any sequence of partial and interrupted calculate_diagonals and calculate_columns calls the left, right and merged profile and indices hold, for every subsequence of the series, the nearest subsequence of the query among exactly the pairs calculated so far; further calls never raise an entry; once all diagonals are calculated the profile is the brute-force one outside the trivial match band.", "quantifier": "all channels, generators, data, call sequences, shuffles and interrupts", "why_tests_cant": "all histories of partial calculations", "anchors": ["distancematrix/calculator.py", "distancematrix/consumer/matrix_profile_lr.py"]}
{"id": "C68", "title": "The distance matrix at any moment of a batch calculation", "statement": "DistanceMatrix consumers of an AnytimeCalculator with any channels and generators: after any sequence of partial and interrupted calculate_diagonals and calculate_columns calls no call has raised, and distance_matrix holds the true distances of exactly the pairs calculated so far, +inf inside the trivial match band of calculated columns, and NaN everywhere else.", "quantifier": "all channels, generators, data, call sequences, shuffles and interrupts", "why_tests_cant": "all histories of partial calculations", "anchors": ["distancematrix/calculator.py", "distancematrix/consumer/distance_matrix.py"]}
{"id": "C69", "title": "Threshold counts at any moment of a batch calculation", "statement": "ThresholdCounter consumers of an AnytimeCalculator: after any sequence of partial and interrupted calculate_diagonals calls (with a query, or a trivial match buffer of at least 0) bin_count of a column is the number of rows calculated so far with distance <= threshold; after calculate_columns calls it is the number of rows with (masked) distance <= threshold if the column was calculated and 0 otherwise. When columns and diagonals are mixed, a column call replaces the counts of its columns and a later diagonal adds its pairs again.", "quantifier": "all thresholds, channels, generators, data, call sequences, shuffles and interrupts", "why_tests_cant": "all histories of partial calculations; the double count needs a particular mix of calls", "anchors": ["distancematrix/calculator.py", "distancematrix/consumer/threshold_counter.py"]}
{"id": "C70", "title": "The contextual matrix profile at any moment of a batch calculation", "statement": "ContextualMatrixProfile consumers, each new and with its own GeneralStaticManager contexts, of an AnytimeCalculator with any channels and generators: after any sequence of partial and interrupted calculate_diagonals and calculate_columns calls no call has raised, and each cell of the contextual matrix holds the smallest distance over the pairs of its query context and series context calculated so far, together with the positions of a pair that attains it; +inf and -1 if there is none.", "quantifier": "all channels, generators, contexts, data, call sequences, shuffles and interrupts", "why_tests_cant": "all contexts (overlapping, empty, scattered ranges) against all histories of partial calculations", "anchors": ["distancematrix/calculator.py", "distancematrix/consumer/contextual_matrix_profile.py", "distancematrix/consumer/contextmanager.py"]}
{"id": "C71", "title": "The multidimensional matrix profile in whole batch and streaming calculations", "statement": "New MultidimensionalMatrixProfileLR consumers, each of any nonempty list of generators, of an AnytimeCalculator or a StreamingCalculator: after any sequence of (partial, interrupted) calculations and appends no call has raised (batch diagonals: if the query is not longer than the series), and row k of the left, right and merged profile holds, for every subsequence of the series window, the smallest mean of k+1 of the distances over all pairs calculated so far and all choices of k+1 generators, with the position in the query and the generators that attain it; +inf and -1 if there is no pair.", "quantifier": "all channels, generators, generator lists, data, call sequences, shuffles, chunkings and interrupts", "why_tests_cant": "all choices of channels against all histories of partial calculations and shifts", "anchors": ["distancematrix/calculator.py", "distancematrix/consumer/multidimensional_matrix_profile_lr.py"]}
{"id": "C72", "title": "DistancedThresholdCounter, RadiusProfile0 and RadiusProfile in a batch calculation of columns", "statement": "New DistancedThresholdCounter, RadiusProfile0 and RadiusProfile (pairwise different track indices) consumers of an AnytimeCalculator with any channels and generators, after any sequence of partial and interrupted calculate_columns calls: no call has raised; RadiusProfile0 shows the k-th smallest distances of exactly the calculated columns, RadiusProfile the k-th best non-overlapping matches, NaN elsewhere; the counts of DistancedThresholdCounter are the sizes of best-first selections of matches up to the threshold, added once for every time the column was calculated.", "quantifier": "all channels, generators, track indices, thresholds, exclusions, data, call sequences, interrupts, and all ways np.argsort may order ties", "why_tests_cant": "all data with ties against all histories of partial and repeated columns", "anchors": ["distancematrix/calculator.py", "distancematrix/consumer/threshold_counter.py", "distancematrix/consumer/radius_profile.py"]}
{"id": "C73", "title": "Range and invariance of z-normalised distances", "statement": "Every distance a ZNormEuclidean generator returns (diagonals, columns, single distances; any noise level) is a number between 0 and 2*sqrt(m). Without noise elimination, replacing the series by a*series+b and the query by c*query+d, with a and c of the same sign, does not change the distance of two subsequences whose standard deviations are above 1e-6 before and after.", "quantifier": "all data, m, noise levels, histories of appends and requests, a, b, c, d", "why_tests_cant": "inequality and invariance over all reals and histories", "anchors": ["distancematrix/generator/znorm_euclidean.py: BoundZNormEuclidean.calc_diagonal, calc_column, calc_single"]}
{"id": "C74", "title": "The smallest entry of a self-join matrix profile is the closest pair", "statement": "After all diagonals of a self-join are calculated by any sequence of partial and interrupted calculate_diagonals calls: wherever the merged matrix profile of a MatrixProfileLR consumer is smallest, that subsequence and the one its index points to are further apart than the trivial match buffer, no pair further apart than the buffer is closer, and the entry of the other subsequence shows the same distance.", "quantifier": "all channels, generators, data, buffers that leave a pair, shuffles, interrupts and partial amounts", "why_tests_cant": "all series against a brute-force search over all pairs", "anchors": ["distancematrix/calculator.py: AnytimeCalculator", "distancematrix/consumer/matrix_profile_lr.py: MatrixProfileLR.matrix_profile, profile_index"]}
{"id": "C75", "title": "What consumers receive, whatever the data", "statement": "For all finite data, also with subsequences at tiny Euclidean distances: no call of a batch or streaming calculation raises, and each consumer receives exactly the calls of C62 and C66 (same order, same diagonals, columns and shifts, same number of values). All values of diagonals and of z-normalised generators are the distances themselves. A value in a column of a Euclidean generator is NaN only if the squared distance is below 1e-15, and otherwise a number y with 0 <= y <= d and d^2 - y^2 < 1e-15 where d is the distance.", "quantifier": "all finite data, channels, generators, consumers, windows, buffers, shuffles, partial and interrupted calls", "why_tests_cant": "all data and call sequences; error bound over reals after any number of cache updates", "anchors": ["distancematrix/calculator.py: AnytimeCalculator, StreamingCalculator", "distancematrix/generator/euclidean.py: BoundStreamingEuclidean.calc_column", "distancematrix/generator/euclidean.py: _euclidean_distance_squared"]}
{"id": "C76", "title": "DistanceMatrix in whole calculations, whatever the data", "statement": "For all finite data, any channels, generators, trivial match buffers and partial or interrupted calls: DistanceMatrix consumers of an AnytimeCalculator hold for exactly the calculated pairs the distance (z-normalised generators) or a value as near to it as stated in C75 (Euclidean generators), +inf in the trivial match band of calculated columns, and NaN everywhere else; those of a StreamingCalculator hold the same for the pairs of the current windows. No call raises.", "quantifier": "all finite data, channels, generators, windows, buffers, shuffles, call sequences", "why_tests_cant": "all data and call sequences", "anchors": ["distancematrix/calculator.py: AnytimeCalculator, StreamingCalculator", "distancematrix/consumer/distance_matrix.py: DistanceMatrix"]}
{"id": "C77", "title": "StreamingStats does not depend on the number type of its starting data", "statement": "A StreamingStats that is started on an array of integers also keeps, after any sequence of appends, the newest window of the stream in `data`, and in `mean`/`std` the sliding mean and standard deviation of that window.", "quantifier": "every initial array of integers, window length and sequence of appended chunks of floats", "why_tests_cant": "tests start on float arrays; the conversion happens silently inside a ring buffer and depends on every appended value", "anchors": ["distancematrix/math_tricks.py: StreamingStats.__init__, append, data, mean, std", "distancematrix/ringbuffer.py: RingBuffer.__init__, push"]}
{"id": "C78", "title": "What consumers receive when generators are wrapped in filters", "statement": "A calculator whose generators may be wrapped in FilterGenerator, also on channels with NaN and infinite values, raises on no call, and the values its consumers receive are: +inf for every pair of subsequences of which one contains a point marked by the filter (and in the trivial match band), and for the other pairs the distance of the wrapped generator (for Euclidean columns up to the clamping error of 1e-15 in the square), with the cells, order and shifts of the same calculation without filters.", "quantifier": "every data, number of channels, mix of generators with and without filters (finite data for those without), pointwise filter that marks at least all non-finite points, consumers and sequence of partial and interrupted calculations, batch, and streaming with any non-empty appends", "why_tests_cant": "filters are tested alone on short literals; the interplay of masks, ring buffers, generator caches that skip masked columns, shifts and interrupted calculations has unboundedly many cases", "anchors": ["distancematrix/generator/filter_generator.py: FilterGenerator, BoundFilterGenerator, BoundStreamingFilterGenerator", "distancematrix/calculator.py: AnytimeCalculator, StreamingCalculator, AbstractCalculator.add_generator"]}
{"id": "C79", "title": "Matrix profiles of data with holes", "statement": "When generators are wrapped in FilterGenerator, a MatrixProfileLR of a batch calculation holds at any moment, for every subsequence of the series, the nearest subsequence of the query among the pairs calculated so far of which neither contains a point marked by the filter, and +inf if there is none; a ShiftingMatrixProfileLR of a streaming calculation holds the nearest neighbours among all pairs calculated so far, with pairs containing a marked point at distance +inf. No call raises.", "quantifier": "every data with NaN and infinities, channels, mix of generators with and without filters, pointwise filter marking at least all non-finite points, sequence of partial and interrupted calculations, batch and streaming", "why_tests_cant": "whether an unmarked pair is found depends on generator caches filled while comparing with the substitute values of marked points, for every data and order of calculation", "anchors": ["distancematrix/generator/filter_generator.py: FilterGenerator, BoundFilterGenerator, BoundStreamingFilterGenerator", "distancematrix/consumer/matrix_profile_lr.py: MatrixProfileLR, ShiftingMatrixProfileLR", "distancematrix/calculator.py: AnytimeCalculator, StreamingCalculator"]}
{"id": "C80", "title": "Distance matrices of data with holes", "statement": "When generators are wrapped in FilterGenerator, a DistanceMatrix of a batch or streaming calculation holds for exactly the pairs calculated so far (in the current windows) +inf if one of the subsequences contains a marked point, otherwise the distance (Euclidean columns: up to the clamping error of 1e-15 in the square), +inf in the trivial match band of calculated columns and NaN everywhere else. No call raises.", "quantifier": "every data with NaN and infinities, channels, mix of generators with and without filters, pointwise filter marking at least all non-finite points, sequence of partial and interrupted calculations, batch and streaming", "why_tests_cant": "the content depends on masks in ring buffers, skipped columns, shifts and interrupted calculations, for unboundedly many sequences of calls", "anchors": ["distancematrix/generator/filter_generator.py: FilterGenerator, BoundFilterGenerator, BoundStreamingFilterGenerator", "distancematrix/consumer/distance_matrix.py: DistanceMatrix", "distancematrix/calculator.py: AnytimeCalculator, StreamingCalculator"]}
{"id": "C81", "title": "Floating-point accuracy of Euclidean diagonals", "statement": "In IEEE double arithmetic (rounding to nearest, gradual underflow, no overflow) every value returned by calc_diagonal of a bound Euclidean generator is a non-negative number, never NaN, and its square differs from the exact squared distance of the pair by at most an explicit bound: a rounding error relative to the sum of squared differences along the diagonal up to the end of the pair, growing linearly with the position to first order; the distance itself is off by at most the root of that bound plus one rounding.", "quantifier": "all finite data that are floats, batch and streaming, all sequences of bind, append and calculation calls, all diagonals, every monotone symmetric rounding with bounded relative and absolute error (float64 shown to be one)", "why_tests_cant": "rounding errors accumulate along the running sums; a test sees the error of its own data, not the worst case", "anchors": ["distancematrix/generator/euclidean.py: BoundEuclidean, BoundStreamingEuclidean"]}
{"id": "C82", "title": "Floating-point accuracy of Euclidean columns", "statement": "In IEEE double arithmetic (no overflow) every value returned by calc_column of a bound Euclidean generator is a number whose square differs from the exact squared distance of the pair by at most an explicit bound that depends only on the largest absolute value, the subsequence length and the smaller of the row of the value and the number of columns calculated since binding (the cached column is shifted and updated in place, so errors accumulate down the rows but not over the life of a stream), whatever the order in which NumPy adds the terms of its dot products and whether it fuses multiplications and additions.", "quantifier": "all finite data that are floats, batch and streaming, all sequences of bind, append and calculation calls, all columns, all evaluation orders of dot products", "why_tests_cant": "the cached column drifts over unboundedly many updates and the evaluation order inside NumPy depends on the machine", "anchors": ["distancematrix/generator/euclidean.py: BoundEuclidean, BoundStreamingEuclidean"]}
{"id": "C83", "title": "Euclidean distances are correctly rounded in double arithmetic", "statement": "In IEEE double arithmetic the values returned by calc_column and calc_diagonal of a bound Euclidean generator are the correctly rounded Euclidean distances of the pairs; in particular they do not depend on points outside the two subsequences, on earlier calls or on the order of additions inside NumPy.", "quantifier": "all finite data that are floats, batch and streaming, all sequences of bind, append and calculation calls, all columns and diagonals, all evaluation orders of dot products", "why_tests_cant": "whether earlier points or calls spoil a value depends on magnitudes far apart in the data", "anchors": ["distancematrix/generator/euclidean.py: BoundEuclidean, BoundStreamingEuclidean"]}
{"id": "C84", "title": "Z-normalised distances in double arithmetic are numbers", "statement": "In IEEE double arithmetic (rounding to nearest, gradual underflow, no overflow) every value returned by calc_column and calc_diagonal of a bound z-normalised generator on finite data is a non-negative number, never NaN or infinite, and the calls do not raise, with or without noise elimination and whatever rounding errors mean, standard deviation and convolution have.", "quantifier": "all finite data, all noise levels, batch and streaming, all sequences of bind, append and calculation calls, all columns and diagonals, every rounding, every finite result of np.mean, np.std and scipy.signal.convolve", "why_tests_cant": "NaN would come from a quotient with a vanishing denominator or a root of a negative number, which only needs unlucky rounding", "anchors": ["distancematrix/generator/znorm_euclidean.py: BoundZNormEuclidean"]}
{"id": "C85", "title": "Floating-point accuracy of z-normalised distances", "statement": "In IEEE double arithmetic (no overflow), if the means, standard deviations and convolutions are computed with bounded errors, every value returned by calc_column and calc_diagonal of a bound z-normalised generator for two subsequences that are each clearly flat or clearly not flat (relative to the threshold 1e-6 and these errors) differs from the exact z-normalised (noise-eliminated) distance by at most an explicit bound that depends only on the largest absolute value, the smallest deviation, the subsequence length, the noise level and either the smaller of the row and the number of columns calculated so far or the position on the diagonal.", "quantifier": "all finite data up to a given size, all noise levels, batch and streaming, all sequences of bind, append and calculation calls, all columns and diagonals, every rounding, all implementations of mean, deviation and convolution within the given errors", "why_tests_cant": "errors accumulate over unboundedly many updates and are amplified by small deviations; a test sees the error of its own data", "anchors": ["distancematrix/generator/znorm_euclidean.py: BoundZNormEuclidean"]}
{"id": "C86", "title": "Range and identity of z-normalised distances in double arithmetic", "statement": "In IEEE double arithmetic the values returned by a bound z-normalised generator without noise elimination lie between 0 and 2 times the root of the subsequence length, and subsequences with equal values have distance 0.", "quantifier": "all finite data, batch and streaming, all sequences of bind, append and calculation calls, all columns and diagonals", "why_tests_cant": "the violation needs data far from zero compared to their deviation", "anchors": ["distancematrix/generator/znorm_euclidean.py: BoundZNormEuclidean"]}
{"id": "C87", "title": "Accuracy of means, deviations and direct convolutions in double arithmetic", "statement": "In IEEE double arithmetic (no overflow), whatever the order in which NumPy adds, the sliding means and standard deviations and the directly calculated sliding dot products used by the z-normalised generator are within explicit bounds of the exact ones that depend only on the subsequence length and the largest absolute value; hence calc_column and calc_diagonal of a bound z-normalised generator return values within an explicit bound of the exact distance for subsequences that are clearly flat or clearly not flat. For subsequences of length 100, values up to 10, deviations of at least 1 (or at most 1e-7), no noise and up to 10000 columns or rows the returned distances are wrong by at most 1/1000.", "quantifier": "all finite data up to a given size, all orders of summation, batch and streaming, all sequences of bind, append and calculation calls, all columns and diagonals, every rounding", "why_tests_cant": "the order of summation depends on memory layout and library version, and errors accumulate over unboundedly many updates; a test sees the error of its own data on its own machine", "anchors": ["distancematrix/math_tricks.py: sliding_mean_std", "distancematrix/generator/znorm_euclidean.py: BoundZNormEuclidean"]}
{"id": "C88", "title": "Floating-point accuracy of whole batch calculations", "statement": "In IEEE double arithmetic (no overflow), an AnytimeCalculator raises no exception and gives every consumer exactly the calls of the calculation without rounding, with values that differ by at most an explicit bound. Hence every entry of a MatrixProfileLR (left, right and merged) is within the bound of the distance to the subsequence named by its index, and no calculated pair is closer by more than the bound; a DistanceMatrix holds every calculated distance up to the bound; a ThresholdCounter holds the exact counts if no calculated distance is within the bound of a threshold. The bound depends on the length of the query but not on that of the series. For subsequences of length 100, queries of at most 10000 points, points of at most 10 in absolute value and deviations of at least 1 (or at most 1e-7) the bound is at most 1/200.", "quantifier": "all finite data within the bounds (z-normalised generators: subsequences clearly flat or clearly not flat; Euclidean generators when columns are calculated: no distance so small that rounding could make its square negative), any channels, generators and consumers, any sequence of partial or interrupted calculate_diagonals and calculate_columns calls, any shuffle, self-joins and queries, every rounding", "why_tests_cant": "rounding errors accumulate over the columns and diagonals calculated and a near-tie can change the index; a test compares with a tolerance on its own data only", "anchors": ["distancematrix/calculator.py: AnytimeCalculator", "distancematrix/consumer/matrix_profile_lr.py: MatrixProfileLR", "distancematrix/consumer/distance_matrix.py: DistanceMatrix", "distancematrix/consumer/threshold_counter.py: ThresholdCounter", "distancematrix/generator/euclidean.py: BoundEuclidean", "distancematrix/generator/znorm_euclidean.py: BoundZNormEuclidean"]}
{"id": "C89", "title": "Whole streaming calculations in floating point, for streams of any length", "statement": "A streaming calculator with Euclidean and z-normalised generators in floating point gives every consumer the calls it would give in exact arithmetic, with every distance within an explicit error of the exact one. The error depends on the length of the query window, the length of the subsequences and the largest point, not on how many points were streamed, how many columns were calculated or the length of the series window. As a result each entry of a DistanceMatrix is within that error of the exact distance between the subsequences now in the windows, and each entry of a ShiftingMatrixProfileLR is within that error of the distance to the subsequence its index names, with no calculated pair closer by more than the error. In float64 with subsequences of 100 points of size at most 10 and query windows of at most 10000 points the error is at most 1/200.", "quantifier": "all rounding functions with given relative and absolute errors, all streams, chunkings and numbers of columns, all summation orders of the numpy sums, data whose Euclidean distances are not below the error and whose deviations are clearly above or below the threshold", "why_tests_cant": "an error that grows slowly with the length of a stream is not seen in a short test", "anchors": ["distancematrix/calculator.py: StreamingCalculator", "distancematrix/generator/euclidean.py: BoundStreamingEuclidean", "distancematrix/generator/znorm_euclidean.py: BoundZNormEuclidean", "distancematrix/consumer/matrix_profile_lr.py: ShiftingMatrixProfileLR", "distancematrix/consumer/distance_matrix.py: DistanceMatrix"]}
{"id": "C90", "title": "Generators and consumers may be added at any time, consumers also again", "statement": "In a session with a calculator, add_generator, add_consumer (with a new consumer or one that was added before) and calculation calls may come in any order. No call raises, and every consumer ends up in the state that its own history leaves it in: initialise is called whenever it is added, with the number of generators it is added for, and from then on it receives exactly what is calculated by the generators it was last added for, whichever other generators and consumers there are and whenever they were added. In particular a MatrixProfileLR that is added late, or again for another generator, shows the nearest neighbours among the pairs calculated since it was last added. With a StreamingCalculator the same holds for append_series, append_query and calculate_columns, also for generators added after the first points, provided columns are calculated only once every generator has been given as many points as the calculator's windows hold.", "quantifier": "all sequences of add_generator, add_consumer and (partial, interrupted) calculation calls, all finite data (Euclidean generators when columns are calculated: no tiny non-zero distances), all generators, channels and consumers, all orders of the set of needed generators", "why_tests_cant": "the number of orders in which generators, consumers and calculations can be combined is unbounded; tests add everything first", "anchors": ["distancematrix/calculator.py: AbstractCalculator.add_consumer, calculate_columns", "distancematrix/calculator.py: AnytimeCalculator.add_generator, calculate_diagonals", "distancematrix/calculator.py: StreamingCalculator.add_generator, append_series, append_query", "distancematrix/consumer/matrix_profile_lr.py: MatrixProfileLR.initialise"]}
{"id": "C91", "title": "A rejected append leaves the calculator as it was", "statement": "When append_series or append_query of a StreamingCalculator raises, the calculator, its generators and its consumers are as before the call: the data can be corrected and appended again. (The code only guarantees this for arrays of a wrong shape and for append_query in a self-join. When a generator refuses the data, the generators added before it keep them while the number of points, the consumers and the generators after it do not see them.)", "quantifier": "all calculators after any session, all arrays, all generators and consumers, every exception they may raise", "why_tests_cant": "tests look at the exception, not at the state of every generator after it for all orders of generators and all data", "anchors": ["distancematrix/calculator.py: StreamingCalculator.append_series, append_query", "distancematrix/generator/znorm_euclidean.py: ZNormEuclidean.append_series"]}
{"id": "C92", "title": "MatrixProfileLRReservoir draws its indices uniformly in whole calculations", "statement": "After any sequence of calculate_diagonals and calculate_columns calls (partial, interrupted, in any order) on a calculator with a MatrixProfileLRReservoir consumer, whatever is drawn: no call raises; each entry of the left and right profile is the smallest distance calculated so far for its column and side, its index is a row with that distance, and each such row is drawn with the same probability, as is profile_index() over both sides; without any distance the index is -1 and the number of matches 0. (The code draws in proportion to how often a pair was delivered since its column was calculated: uniform if only diagonals or only columns are calculated, but with trivial_match_buffer=-1 the main diagonal counts twice, and diagonals after columns count again. A calculated column side that lies entirely in the trivial match band gets the index of a random trivial match instead of -1.)", "quantifier": "all series, queries, channels, generators, trivial match buffers, orders of diagonals, sequences of partial or interrupted calls, all draws", "why_tests_cant": "a test sees single draws for a fixed seed; the claim is about the distribution for all inputs and all orders of calls", "anchors": ["distancematrix/consumer/matrix_profile_lr.py: MatrixProfileLRReservoir", "distancematrix/calculator.py: AnytimeCalculator.calculate_diagonals, calculate_columns"]}
{"id": "C93", "title": "The contextual matrix profile in whole streaming calculations", "statement": "New ContextualMatrixProfile consumers of a StreamingCalculator with any channels and generators, each with a context manager that tells at every moment which positions of the window belong to which context of the streams: after any sequence of append_series, append_query and (possibly interrupted) calculate_columns calls no call has raised, and each entry of distance_matrix is the smallest distance among all pairs calculated so far, also those that have left the windows, of its query context and the series context that now has its number, with the stream positions of such a pair in match_index_query and match_index_series; +inf and -1 if there is none. (Proved for managers whose query contexts keep their numbers, in particular for contexts of any equal length on the series and for GeneralStaticManager until a point leaves a window. The code raises ValueError when a column is calculated before the query window reaches every query context, moves the rows of query contexts in the wrong direction, and GeneralStaticManager raises RuntimeError when a point leaves a window.)", "quantifier": "all context managers that follow their contexts, all channels, generators, windows, call sequences, chunkings and interrupts", "why_tests_cant": "all contexts against all histories of appends and calculations", "anchors": ["distancematrix/calculator.py: StreamingCalculator", "distancematrix/consumer/contextual_matrix_profile.py", "distancematrix/consumer/contextmanager.py"]}
{"id": "C94", "title": "Counts and k-th matches on data with holes", "statement": "New ThresholdCounter, RadiusProfile0, RadiusProfile and DistancedThresholdCounter consumers of an AnytimeCalculator with any channels and generators, with and without FilterGenerators: after any sequence of (partial, possibly interrupted) calculate_diagonals and calculate_columns calls (the last three consumers: calculate_columns only) no call has raised, and the counts, k-th smallest distances, k-th matches and counts of best-first selections are those of the pairs calculated so far, where a pair that contains a point marked by the filters is at distance +inf: it is in no count for a threshold that is a number, and is no match. (The code violates this for Euclidean generators when columns are calculated and a subsequence with 0 in place of the marked points is at a tiny distance to another. A threshold +inf also counts the marked pairs.)", "quantifier": "all channels, filters, data with NaN and infinities, generators, thresholds, track indices, call sequences, calculation orders and interrupts", "why_tests_cant": "all data with holes and all sequences of calls", "anchors": ["distancematrix/calculator.py: AnytimeCalculator", "distancematrix/consumer/threshold_counter.py", "distancematrix/consumer/radius_profile.py", "distancematrix/consumer/threshold_counter.py: DistancedThresholdCounter", "distancematrix/generator/filter_generator.py"]}
{"id": "C95", "title": "Contextual matrix profiles of data with holes", "statement": "New ContextualMatrixProfile consumers of an AnytimeCalculator or a StreamingCalculator with any channels and generators, with and without FilterGenerators: after any sequence of calls (as in C70 and C93) no call has raised, and each entry of distance_matrix is the smallest distance among all pairs calculated so far of its two contexts that contain no point marked by the filters, with the positions of such a pair in match_index_query and match_index_series; +inf and -1 if there is none. (Proved in streaming for managers whose query contexts keep their numbers, see C93. The code violates this for Euclidean generators when columns are calculated and a subsequence with 0 in place of the marked points is at a tiny distance to another.)", "quantifier": "all channels, filters, data with NaN and infinities, generators, contexts, call sequences, calculation orders, chunkings and interrupts", "why_tests_cant": "all data with holes, all contexts and all sequences of calls", "anchors": ["distancematrix/calculator.py: AnytimeCalculator", "distancematrix/calculator.py: StreamingCalculator", "distancematrix/consumer/contextual_matrix_profile.py", "distancematrix/generator/filter_generator.py"]}
{"id": "C96", "title": "Multidimensional matrix profiles of data with holes", "statement": "New MultidimensionalMatrixProfileLR consumers, each of any nonempty list of generators, of an AnytimeCalculator or a StreamingCalculator with any channels and generators, with and without FilterGenerators: after any sequence of (partial, interrupted) calculations and appends no call has raised (batch diagonals: if the query is not longer than the series), and row k of the left, right and merged profile holds, for every subsequence of the series window, the smallest mean of k+1 of the distances over all pairs calculated so far and all choices of k+1 generators none of which marks a point of the pair, with the position in the query and the generators that attain it; +inf and -1 if there is none. (The code violates this for Euclidean generators when columns are calculated and a subsequence with 0 in place of the marked points is at a tiny distance to another.)", "quantifier": "all channels, filters, data with NaN and infinities, generators, generator lists, call sequences, shuffles, chunkings and interrupts", "why_tests_cant": "all choices of channels and all data with holes against all histories", "anchors": ["distancematrix/calculator.py: AnytimeCalculator", "distancematrix/calculator.py: StreamingCalculator", "distancematrix/consumer/multidimensional_matrix_profile_lr.py", "distancematrix/generator/filter_generator.py"]}
{"id": "C97", "title": "Printing progress", "statement": "calculate_columns and calculate_diagonals with print_progress=True do the same as with print_progress=False: same effects, same exceptions, never a ZeroDivisionError. One line is printed per column or diagonal calculated. The percentages increase; every line but the last shows less than 100%, the last line of a call that is not interrupted shows 100% (or more), and then no time is left. The percentage of the total is 100 exactly when the whole distance matrix has been calculated. (The code violates the statement about the last line: calculate_columns shows n/(n+1) after the last of n columns, and time left; calculate_diagonals may show more than 100% and a negative time.)", "quantifier": "all calculators in all reachable states, generators, consumers, arguments, clocks and interrupts", "why_tests_cant": "all states and arguments; the tests never print progress", "anchors": ["distancematrix/calculator.py: AbstractCalculator.calculate_columns", "distancematrix/calculator.py: AnytimeCalculator.calculate_diagonals"]}
{"id": "C98", "title": "Profiles added to a running streaming calculation", "statement": "ShiftingMatrixProfileLR objects may be added to a StreamingCalculator at any time between calls of append_series, append_query and calculate_columns, and may be added again. No call raises. Each object then shows, for every position of the series window, the nearest subsequence of the query on the left and on the right among the pairs calculated since the object was last added, with indices that refer to positions in the complete query series. (The code violates the part about positions: they are counted from the beginning of what the windows held when the object was first added, and left and right are told apart by these positions.) In general, what a consumer is given from some time on depends only on the contents of the windows at that time and on which of their columns have been calculated.", "quantifier": "all sessions, generators, channels, window lengths, data, times of addition, interrupts", "why_tests_cant": "unbounded sessions; the tests add all consumers before the first append", "anchors": ["distancematrix/calculator.py: StreamingCalculator", "distancematrix/calculator.py: AbstractCalculator.add_consumer", "distancematrix/consumer/matrix_profile_lr.py: ShiftingMatrixProfileLR"]}
{"id": "C99", "title": "Contextual matrix profiles added to a running streaming calculation", "statement": "ContextualMatrixProfile objects may be added to a StreamingCalculator at any time between calls of append_series, append_query and calculate_columns, and may be added again. No call raises. Entry (i, j) of each object is then the smallest distance among the pairs calculated since the object was last added that lie in query context i and the series context that now has number j, with match indices that are the positions of such a pair in the complete series and query; +inf and -1 if there is no such pair. (The code violates the part about positions: contexts and positions are counted from the beginning of what the windows held when the object was first added.)", "quantifier": "all sessions, generators, channels, window lengths, data, times of addition, interrupts, streaming context managers whose query contexts keep their numbers", "why_tests_cant": "unbounded sessions; the tests feed one consumer object by hand and never initialise it twice", "anchors": ["distancematrix/calculator.py: StreamingCalculator", "distancematrix/calculator.py: AbstractCalculator.add_consumer", "distancematrix/consumer/contextual_matrix_profile.py: ContextualMatrixProfile"]}
{"id": "C100", "title": "Consumers without streaming support in a streaming calculation", "statement": "MatrixProfileLR, ThresholdCounter, DistancedThresholdCounter, RadiusProfile0 and RadiusProfile may be added to a StreamingCalculator. After any calls of append_series, append_query and calculate_columns no call has raised and each object shows, for every column, the left/right minima, counts, k-th smallest distances or selections of the distances that were calculated for that column, which are those of the rows that existed when the column was calculated; positions whose column was not calculated hold the initial value. A call that raises leaves the calculator as it was. (The code violates both as soon as a window moves: the call raises AttributeError after the generators have taken the points, and the columns that entered the window are skipped for ever.)", "quantifier": "all calculations, generators, channels, window lengths, data, interrupts, thresholds, tracked indices, earlier and later sessions", "why_tests_cant": "unbounded sessions; the tests only use these consumers in batch calculations, and never continue after an exception", "anchors": ["distancematrix/calculator.py: StreamingCalculator.append_series", "distancematrix/calculator.py: StreamingCalculator.append_query", "distancematrix/consumer/matrix_profile_lr.py: MatrixProfileLR", "distancematrix/consumer/threshold_counter.py: ThresholdCounter", "distancematrix/consumer/distanced_threshold_counter.py", "distancematrix/consumer/radius_profile.py: RadiusProfile0, RadiusProfile"]}
{"id": "C101", "title": "Multidimensional matrix profiles added to a running streaming calculation", "statement": "MultidimensionalMatrixProfileLR objects may be added to a StreamingCalculator at any time between calls of append_series, append_query and calculate_columns, and may be added again, for the same or other generators. No call raises. Row k of each object is then, for every subsequence in the series window, the smallest mean of k + 1 of the distances of its generators among the pairs calculated since it was last added, for earlier and for later positions in the query, with the position of such a pair in the complete query and the generators that attain it. (The code violates the part about positions: they are counted from the beginning of what the windows held when the object was first added, also in telling earlier from later.)", "quantifier": "all sessions, generators, channels, window lengths, data, times of addition, numbers of dimensions, interrupts, argsort implementations", "why_tests_cant": "unbounded sessions; the tests feed one consumer object by hand and never initialise it twice", "anchors": ["distancematrix/calculator.py: StreamingCalculator", "distancematrix/calculator.py: AbstractCalculator.add_consumer", "distancematrix/consumer/multidimensional_matrix_profile_lr.py: MultidimensionalMatrixProfileLR"]}
{"id": "C102", "title": "Generator ids of consumers", "statement": "add_consumer is given a list of integers that name generators of the calculator; with n generators, 0 to n - 1 name them in the order of add_generator and -n to -1 name the same generators in that order, as in Python. Every calculation delivers to the consumer the distances of those generators, in that order. An id that names no generator is rejected. (The code violates the last part: add_consumer accepts any integers, and calculate_columns and calculate_diagonals raise IndexError at the first column or diagonal; and a negative id names another generator after a later add_generator.)", "quantifier": "all calculators, generators, consumers, integers, calls of calculate_columns and calculate_diagonals, interrupts", "why_tests_cant": "the tests use ids 0 and 1 of generators that exist", "anchors": ["distancematrix/calculator.py: AbstractCalculator.add_consumer", "distancematrix/calculator.py: AbstractCalculator.calculate_columns", "distancematrix/calculator.py: AnytimeCalculator.calculate_diagonals"]}
{"id": "C103", "title": "Consumers do not influence each other", "statement": "A calculator may have several consumers, of the same class or of different classes. After any sequence of calls (add_generator and add_consumer first, then calculate_columns, calculate_diagonals, and for StreamingCalculator append_series and append_query), every consumer is in the state it would be in if it were the only consumer of a calculator with the same generators that goes through the same calls. The calls of the calculator with all of them succeed exactly if they do for each one alone.", "quantifier": "all classes of consumers (any initialise, process_column, process_diagonal, shift methods, also ones that raise), all numbers of consumers, generator ids, generators (for streaming: those of the repository, or any that accept points regardless of the columns they were asked for), series, calls, interrupts, orders of the diagonals", "why_tests_cant": "the tests combine few consumers, and never compare with each consumer alone; the consumers share the generators, the loop over needed generators and the list of distances", "anchors": ["distancematrix/calculator.py: AbstractCalculator.add_consumer", "distancematrix/calculator.py: AbstractCalculator.calculate_columns", "distancematrix/calculator.py: AnytimeCalculator.calculate_diagonals", "distancematrix/calculator.py: StreamingCalculator.append_series", "distancematrix/calculator.py: StreamingCalculator.append_query"]}
{"id": "C104", "title": "Swapping series and query", "statement": "The distance matrix of a complete calculation with series and query exchanged is the transposed matrix. Where the profile reports a match for a subsequence of the series, the profile of the exchanged calculation is at the matched subsequence at most as large, and the other way around; the smallest entries of both profiles are equal. In a self-join the profile is at the index reported for an entry at most as large as that entry. The counts of ThresholdCounter for a threshold add up to the same number in both calculations, if these are by diagonals. If the contexts of a ContextualMatrixProfile with static contexts are exchanged as well, its distance_matrix is transposed, and the match indices of an entry are, the other way round, the position of a pair with this distance in the contexts of the first calculation.", "quantifier": "all series, queries, channels, generators, orders of the diagonals, sequences of partial and interrupted calculations by which all diagonals are done", "why_tests_cant": "the tests compare with brute force on single random inputs and never run the exchanged calculation", "anchors": ["distancematrix/calculator.py: AnytimeCalculator.calculate_diagonals", "distancematrix/consumer/distance_matrix.py: DistanceMatrix", "distancematrix/consumer/matrix_profile_lr.py: MatrixProfileLR", "distancematrix/consumer/threshold_counter.py: ThresholdCounter", "distancematrix/consumer/contextual_matrix_profile.py: ContextualMatrixProfile"]}
{"id": "C105", "title": "How appended points are cut into calls", "statement": "Two clients of StreamingCalculators with the same windows, generators and consumers that append the same points before each calculate_columns get the same results, however they cut the points into append_series and append_query calls and in whatever order they make these: consumers receive the same columns at the same positions of the streams with the same distances, DistanceMatrix objects hold the same entries, ShiftingMatrixProfileLR objects the same profiles and indices. (The code violates this for Euclidean generators: append_series counts dropped points wrongly, so a column is calculated from the previous one for some ways of cutting only, and this gives NaN if a squared distance below 1e-15 was rounded to 0.)", "quantifier": "all windows, self-joins, channels, generators, consumers, points, cuts, interrupted calls, memory contents", "why_tests_cant": "the tests append points in a few fixed portions", "anchors": ["distancematrix/calculator.py: StreamingCalculator.append_series", "distancematrix/calculator.py: StreamingCalculator.append_query", "distancematrix/generator/euclidean.py: BoundStreamingEuclidean.append_series", "distancematrix/generator/znorm_euclidean.py: BoundZNormEuclidean.append_series"]}
{"id": "C106", "title": "A filter that marks nothing is transparent", "statement": "A FilterGenerator around any generator, given only points its filter does not mark, behaves like that generator: for every sequence of appends of at least one point and of requests inside the windows it returns the same distances and raises the same exceptions, and the wrapped generator receives the same calls. Hence wrapping any of the generators of a calculator in filters that mark none of its data changes nothing: the calculation ends with the same exception, or with every consumer in the same state. This holds in particular for both generators of the library with the default filter and finite data.", "quantifier": "all wrapped generators that return as many distances as the distance matrix has cells in the column or diagonal, pointwise filters, data, windows, scaling factors, sequences of calls, memory contents; batch and streaming calculators with any channels, consumers and interrupts", "why_tests_cant": "the tests wrap one mocked generator and compare a handful of columns and diagonals", "anchors": ["distancematrix/generator/filter_generator.py: FilterGenerator.prepare", "distancematrix/generator/filter_generator.py: FilterGenerator.prepare_streaming", "distancematrix/generator/filter_generator.py: BoundFilterGenerator.calc_column", "distancematrix/generator/filter_generator.py: BoundFilterGenerator.calc_diagonal", "distancematrix/generator/filter_generator.py: BoundStreamingFilterGenerator.append_series", "distancematrix/generator/filter_generator.py: BoundStreamingFilterGenerator.append_query", "distancematrix/calculator.py: AnytimeCalculator", "distancematrix/calculator.py: StreamingCalculator"]}
{"id": "C107", "title": "Results do not depend on the scale of the data", "statement": "Replace every point x of a channel by a*x+b in the series and by c*x+d in the query (the same map for both in a self-join). If a=c is 1 or -1 and b=d, a calculation with Euclidean generators on this channel gives the same results: every consumer ends in the same state after the same calls. For ZNormEuclidean generators this holds for a=1 and c=1, or a=-1 and c=-1, and any b and d; without noise elimination it holds for all a and c of the same sign if no subsequence has a standard deviation below 1e-6 before or afterwards. More generally two calculations that differ in their data only give the same results if all distances between subsequences are the same.", "quantifier": "all data, channels, generators, consumers of any class, batch and streaming calculations, sequences of calls with interrupts, memory contents", "why_tests_cant": "relation between pairs of whole calculations, over all reals and all maps", "anchors": ["distancematrix/calculator.py: AnytimeCalculator", "distancematrix/calculator.py: StreamingCalculator", "distancematrix/generator/euclidean.py: BoundStreamingEuclidean", "distancematrix/generator/znorm_euclidean.py: BoundZNormEuclidean"]}
{"id": "C108", "title": "The values of points marked by a filter do not matter", "statement": "Two calculations that differ only in the values of points marked by the filters of all FilterGenerators on the channel (for the default filter: NaN, inf and -inf exchanged at will) give exactly the same results: the same exceptions at the same calls, the same return values of calculate_columns/calculate_diagonals, and every consumer in the same state. This holds for any mixture of filtered and unfiltered generators as long as the data of the channels of unfiltered generators is the same, and without any assumption on arguments or consumers.", "quantifier": "all filters that judge points one by one, data, channels, generators, consumers of any class, batch and streaming calculations, sequences of calls with interrupts, memory contents", "why_tests_cant": "relation between pairs of whole calculations over all data, including calculations that fail", "anchors": ["distancematrix/generator/filter_generator.py: FilterGenerator", "distancematrix/generator/filter_generator.py: BoundStreamingFilterGenerator", "distancematrix/calculator.py: AnytimeCalculator", "distancematrix/calculator.py: StreamingCalculator"]}
{"id": "C109", "title": "Calculators know generators only by their answers", "statement": "If each generator of a calculator is replaced by one of any other class, bound to any other data of the same shape, that answers every calc_column and calc_diagonal for a column or diagonal of the distance matrix with the same values or the same exception, now and after the same number of further appends, then the calculation ends in the same way: with the same exception, or every consumer in the same state. In particular a generator may be replaced by a faster implementation of the same distance.", "quantifier": "all generator classes, data, channels, consumers of any class, batch and streaming calculations, sequences of calls with interrupts, also such that raise", "why_tests_cant": "over all implementations of the generator interface and pairs of whole calculations", "anchors": ["distancematrix/calculator.py: AbstractCalculator.calculate_columns", "distancematrix/calculator.py: AnytimeCalculator", "distancematrix/calculator.py: StreamingCalculator", "distancematrix/generator/abstract_generator.py: AbstractBoundStreamingGenerator"]}
{"id": "C110", "title": "Reading the data backwards", "statement": "If the series and the query (or the series of a self-join) are read backwards and all diagonals are calculated, the DistanceMatrix consumer ends with the same matrix turned by 180 degrees (in a self-join: outside the trivial match band), and matrix_profile() of MatrixProfileLR is the same profile read backwards. In a self-join with a non-negative trivial match buffer the left matrix profile and the right matrix profile are exchanged and read backwards. The reported indices, counted from the other end, belong to nearest subsequences in the original data. The counts of ThresholdCounter are the same counts read backwards, for calculations by diagonals (in a self-join with a non-negative trivial match buffer). The values of the merged profile of MultidimensionalMatrixProfileLR are, for every number of dimensions, the same values read backwards (in a join: if the query is not longer than the series).", "quantifier": "all data, subsequence lengths, channels, Euclidean and z-normalised generators, orders of the diagonals, sequences of calls with interrupts that calculate all diagonals, memory contents; for one channel also calculations by columns (z-normalised)", "why_tests_cant": "relation between pairs of whole calculations over all reals, lengths, orders and call sequences", "anchors": ["distancematrix/calculator.py: AnytimeCalculator", "distancematrix/consumer/matrix_profile_lr.py: MatrixProfileLR", "distancematrix/consumer/distance_matrix.py: DistanceMatrix", "distancematrix/consumer/threshold_counter.py: ThresholdCounter", "distancematrix/consumer/multidimensional_matrix_profile_lr.py: MultidimensionalMatrixProfileLR"]}
{"id": "C111", "title": "More data", "statement": "If points are added at the end of the series and (in a join) of the query, and all diagonals are calculated, the DistanceMatrix consumer ends with a matrix whose upper left corner is the matrix without these points (in a self-join: outside the trivial match band), and no entry of the matrix profile, the left matrix profile and the right matrix profile of MatrixProfileLR grows. In a self-join the left matrix profile only gets further entries. In a join to whose query nothing is added all three profiles only get further entries. The indices reported for entries that stay the same belong to nearest subsequences in the shorter data as well. No count of ThresholdCounter gets smaller or grows by more than the number of rows added, and in a join to whose query nothing is added the counts stay the same, for calculations by diagonals (in a self-join with a non-negative trivial match buffer). No entry of the distance_matrix of a ContextualMatrixProfile with the same static contexts grows, and entries whose contexts lie within the shorter data stay the same. No value of the left, right and merged profile of MultidimensionalMatrixProfileLR grows for any number of dimensions, and in a join to whose query nothing is added these values stay the same (in a join: if the query is not longer than the series in either calculation).", "quantifier": "all data, subsequence lengths, channels, Euclidean and z-normalised generators, orders of the diagonals, sequences of calls with interrupts that calculate all diagonals, memory contents", "why_tests_cant": "relation between pairs of whole calculations over all reals, lengths, orders and call sequences", "anchors": ["distancematrix/calculator.py: AnytimeCalculator", "distancematrix/consumer/matrix_profile_lr.py: MatrixProfileLR", "distancematrix/consumer/distance_matrix.py: DistanceMatrix", "distancematrix/consumer/threshold_counter.py: ThresholdCounter", "distancematrix/consumer/contextual_matrix_profile.py: ContextualMatrixProfile", "distancematrix/consumer/multidimensional_matrix_profile_lr.py: MultidimensionalMatrixProfileLR"]}
{"id": "C112", "title": "Consumers of different classes agree", "statement": "If the ShiftingMatrixProfileLR consumers of a streaming calculation, each bound to one generator, are replaced by MultidimensionalMatrixProfileLR consumers, then either both calculations raise the same exception, or the one row of the left, right and merged multidimensional profiles and indices equals the profiles and indices of the ShiftingMatrixProfileLR, and the reported dimension is 0 where there is an index and -1 where there is none. The same holds for AnytimeCalculator and Calculator when only columns are calculated. If only diagonals are calculated, the same holds for ShiftingMatrixProfileLR and MatrixProfileLR consumers: same exception, or same left and right profiles and indices.", "quantifier": "all generators (as far as the calculator knows them), data including NaN and infinities, subsequence lengths, windows, buffers, numbers of consumers, sequences of calls including those that raise or are interrupted, orders of the diagonals, memory contents", "why_tests_cant": "relation between pairs of whole calculations over all generators, values and call sequences, including those that fail", "anchors": ["distancematrix/consumer/multidimensional_matrix_profile_lr.py: MultidimensionalMatrixProfileLR", "distancematrix/consumer/matrix_profile_lr.py: ShiftingMatrixProfileLR, MatrixProfileLR", "distancematrix/calculator.py: StreamingCalculator, AnytimeCalculator"]}
{"id": "C113", "title": "The order of the generators of a multidimensional consumer does not matter", "statement": "If the generator ids with which MultidimensionalMatrixProfileLR consumers are added to an AnytimeCalculator, Calculator or StreamingCalculator are put in another order, then every sequence of calls (columns, diagonals, appended data) either raises the same exception as before, or leaves the same left, right and merged multidimensional profiles and profile indices. Only the reported dimensions depend on the order. This also holds if np.argsort puts equal numbers in a different order.", "quantifier": "all generators (as far as the calculator knows them), numbers of channels and consumers, id lists including repeated ids, data including NaN and infinities, subsequence lengths, windows, buffers, sequences of calls including those that raise or are interrupted, orders of the diagonals, memory contents", "why_tests_cant": "relation between pairs of whole calculations over all id orders, values and call sequences, including those that fail", "anchors": ["distancematrix/consumer/multidimensional_matrix_profile_lr.py: process_diagonal, process_column", "distancematrix/calculator.py: add_consumer, StreamingCalculator, AnytimeCalculator"]}
{"id": "C114", "title": "Threshold counters and radius profiles agree with each other", "statement": "(1) Two column calculations of an AnytimeCalculator, Calculator or StreamingCalculator that differ only in their consumers, RadiusProfile0 objects (non-empty, non-negative track indices) and ThresholdCounter objects, either both raise the same exception, or in every column the distance to match number k is at most a threshold exactly if the count for that threshold is larger than k. (2) DistancedThresholdCounter without exclusion zone and ThresholdCounter count the same if every column is given at most once and holds no NaN. (3) RadiusProfile without exclusion zone and different track indices has the value of RadiusProfile0 wherever that is finite and NaN elsewhere, if every column is given at most once and holds no -infinity.", "quantifier": "all generators, data, query, lists of consumers, thresholds, track indices and sequences of calculate_columns, append_series and append_query calls (1); all thresholds other than NaN, all track indices without repetition, all sequences of columns (2, 3)", "why_tests_cant": "each class is tested alone, on a handful of matrices; the relation between them involves all thresholds, ranks and call sequences, including repeated columns, infinities and failing calls", "anchors": ["distancematrix/consumer/radius_profile.py", "distancematrix/consumer/threshold_counter.py", "distancematrix/calculator.py"]}
{"id": "C115", "title": "Every threshold and every tracked match is calculated for itself", "statement": "Two calculations that differ only in the thresholds of their ThresholdCounter or DistancedThresholdCounter consumers, or only in the track indices of their RadiusProfile0 or RadiusProfile consumers, either raise the same exception, or have equal results for every threshold or track index that occurs in both. So thresholds and track indices may be added, left out, reordered, or spread over several consumers. (DistancedThresholdCounter: at least one threshold; radius profiles: valid track indices, for RadiusProfile none of them twice.)", "quantifier": "all generators, data, query, lists of consumers, pairs of threshold lists or track index lists, exclusion zones, and sequences of calculate_columns, calculate_diagonals, append_series and append_query calls", "why_tests_cant": "the tests use one list of thresholds or track indices per class; that the loops over the sorted lists, with their early returns, treat every entry as if it were alone is a statement about all pairs of lists", "anchors": ["distancematrix/consumer/threshold_counter.py: process_diagonal, process_column", "distancematrix/consumer/radius_profile.py: process_column"]}
{"id": "C116", "title": "Contextual matrix profiles of unions of contexts, and of single columns", "statement": "When two ContextualMatrixProfile consumers with different contexts are given the same whole diagonals and columns without NaN, nothing is raised, and if a query context and a series context of the first cover the same rows and columns as several query contexts and several series contexts of the second, the entry of the first distance_matrix is the smallest of the corresponding entries of the second. If a series context is a single column c, the entry for a query context of all rows, of the rows up to c, or of the rows after c equals the matrix profile, the left matrix profile, or the right matrix profile that MatrixProfileLR reports at c for the same calls.", "quantifier": "all pairs of static context managers with increasing ranges, matrix sizes, and sequences of process_diagonal and process_column calls in any order and with repetitions", "why_tests_cant": "tests compare one contextual profile with a brute force result for one choice of contexts; the relation between profiles of different contexts, and with the matrix profile, holds for all of them", "anchors": ["distancematrix/consumer/contextual_matrix_profile.py: ContextualMatrixProfile", "distancematrix/consumer/contextmanager.py: GeneralStaticManager", "distancematrix/consumer/matrix_profile_lr.py: MatrixProfileLR"]}
{"id": "C117", "title": "Consensus motifs of related collections, and of the different functions", "statement": "The radius reported by find_consensus_motif, by find_consensus_motif_subset (k 2 or 3), and by OstinatoAnytime.get_radii after calculate(1.0) does not depend on the order of the series. find_consensus_motif reports the smallest entry of the get_radii of a finished OstinatoAnytime, and no entry of an unfinished one is smaller. find_consensus_motif_subset with k=2 reports at most the radius for k=3, which is at most that of find_consensus_motif, with equality when k is the number of series. When series are left out, the radius of find_consensus_motif at most doubles (apart from 2e-6), and does not grow if the motif is in a series that stays.", "quantifier": "all collections of at least two finite series of length at least m, all m >= 3, all tie-breaking of argsort, all shuffles, all histories of interrupted calculations", "why_tests_cant": "tests compare the functions with a brute force search on a few collections; invariance under reordering, and the relation between nested collections, are statements about pairs of all collections and rest on the triangle inequality of the reported distances", "anchors": ["distancematrix/ostinato.py: find_consensus_motif, find_consensus_motif_subset, OstinatoAnytime"]}
{"id": "C118", "title": "Triangle inequality of distances and matrix profiles", "statement": "The distances that Euclidean generators give for three subsequences of three series satisfy the triangle inequality, and those that ZNormEuclidean generators without noise elimination give satisfy it up to 2e-6. The matrix profile of x against z is nowhere larger than that of x against y plus that of y against z at the match reported by the former, and two entries of matrix profiles against the same query differ by at most the distance of their subsequences (up to 2e-6 for z-normalised distances).", "quantifier": "all series and queries of finite values with at least one subsequence, all subsequence lengths, all accepted histories of calls of the generators, all shuffles, z-normalised: by columns or by diagonals, Euclidean: by diagonals", "why_tests_cant": "a relation between triples of calculations on all data; a test can only try some triples, and the violation by up to 2e-6 near the replacement of small distances by 0 is not found by random data", "anchors": ["distancematrix/generator/euclidean.py: calc_diagonal", "distancematrix/generator/znorm_euclidean.py: calc_diagonal, calc_column", "distancematrix/consumer/matrix_profile_lr.py: MatrixProfileLR"]}
{"id": "C119", "title": "Motifs of variable length are the lowest points of the matrix profiles", "statement": "When find_variable_length_motifs returns, the two positions it reports for a length have the same entry in the self-join matrix profile that a Calculator makes for that length with a trivial match buffer of half the smallest length, this entry is the smallest of that matrix profile, and where it reports nothing all entries are +inf. Two calls that return, with the same series, smallest length and noise, report for each common length pairs at the same distance, whatever the largest length and the number of stored correlations are and however ties are broken.", "quantifier": "all series of finite values, all smallest lengths from 2, all largest lengths within the series, all positive numbers of stored correlations (if fewer than the subsequences: no noise elimination and no nearly flat subsequence), all argsorts, all shuffles, by columns or by diagonals", "why_tests_cant": "relates two different algorithms on all data; pruning by lower bounds goes wrong only for particular data and particular numbers of stored correlations", "anchors": ["distancematrix/valmod.py: find_variable_length_motifs", "distancematrix/consumer/matrix_profile_lr.py: MatrixProfileLR", "distancematrix/generator/znorm_euclidean.py: ZNormEuclidean"]}
{"id": "C120", "title": "Motifs do not depend on the units of the series", "statement": "If each series of a collection is measured in another unit (a factor and an offset of its own, the factors all positive or all negative, no change of which subsequences count as flat), find_consensus_motif, find_consensus_motif_subset with k 2 or 3 and a completed OstinatoAnytime report the same radii, and the subsequence reported for the one collection has the reported radius in the other. If the series and the noise given to find_variable_length_motifs are measured in another unit, what it reports for each length is a motif of the original series at the same distance.", "quantifier": "all collections of at least two series of finite values, all subsequence lengths from 3 (anytime: from 1), all factors and offsets as above, all argsorts, shuffles and interruptions; variable length: all smallest lengths from 2, all numbers of stored correlations under the conditions of C59, calls that return", "why_tests_cant": "a relation between pairs of runs for all data and all units; a test can only try some factors", "anchors": ["distancematrix/ostinato.py: find_consensus_motif, find_consensus_motif_subset, OstinatoAnytime", "distancematrix/valmod.py: find_variable_length_motifs"]}
{"id": "C121", "title": "Consensus radii are maxima of matrix profile entries", "statement": "Let a Calculator make the z-normalised matrix profile of every series of a collection with every other series as query. The radius that find_consensus_motif reports is the largest of the entries for the reported subsequence in the profiles of its series, and every subsequence of every series has an entry at least as large. The get_radii of a completed OstinatoAnytime are the pointwise largest entries of the profiles of each series with the others. The radius that find_consensus_motif_subset reports for k = 2 is the smallest entry of all profiles of two different series, and it is an entry for the reported subsequence.", "quantifier": "all collections of at least two series of finite values, all subsequence lengths from 3 (anytime: from 1), all argsorts and shuffles, profiles by columns or by diagonals, all earlier and interrupted calculations of the OstinatoAnytime object", "why_tests_cant": "relates a pruned search to the exhaustive calculation on all data; whether the pruning drops the optimum depends on the order of the candidates, which a test can only sample", "anchors": ["distancematrix/ostinato.py: find_consensus_motif, find_consensus_motif_subset, OstinatoAnytime", "distancematrix/consumer/matrix_profile_lr.py: MatrixProfileLR", "distancematrix/calculator.py: AnytimeCalculator"]}
{"id": "C122", "title": "Motifs of series that run backwards", "statement": "If all series of a collection run backwards, find_consensus_motif reports the same radius, and what it reports has this radius in the original collection when its position is counted from the other end. What find_variable_length_motifs reports for a series that runs backwards is, counted from the other end, a motif of the series, at the distance of those reported for the series itself.", "quantifier": "all collections of at least two series of finite values, all lengths from 3, all argsorts; variable length: all series of finite values, all smallest lengths from 2, all noise levels and numbers of stored correlations under the conditions of C59, calls that return", "why_tests_cant": "a relation between pairs of calls for all data; the order in which candidates are visited differs completely between the two calls", "anchors": ["distancematrix/ostinato.py: find_consensus_motif", "distancematrix/valmod.py: find_variable_length_motifs"]}
{"id": "C123", "title": "Profiles and counts can be read off the distance matrix", "statement": "At any moment of a calculation with an AnytimeCalculator, each entry of matrix_profile(), of the left and of the right matrix profile of a MatrixProfileLR consumer is the smallest finite entry of the column of the matrix of a DistanceMatrix consumer of the same generator (left: of its rows up to the column, right: of its rows after it), +inf if there is no finite entry, and the reported index is the row of such an entry. If only diagonals were calculated, each count of a ThresholdCounter is the number of entries of that column that are at most the threshold, and it is positive exactly if the entry of the matrix profile is a distance that is at most the threshold. Each entry of the distance_matrix of a ContextualMatrixProfile with static contexts is the smallest finite entry in the rows of its query context and the columns of its series context, and the match indices are the position of such an entry; +inf and -1 if there is none.", "quantifier": "all data, subsequence lengths, channels, Euclidean and z-normalised generators, joins and self-joins (counts: with a non-negative trivial match buffer), thresholds, orders of the diagonals, sequences of partial and interrupted calls, memory contents", "why_tests_cant": "relation between three consumers at every moment of all calculations over all reals", "anchors": ["distancematrix/calculator.py: AnytimeCalculator", "distancematrix/consumer/matrix_profile_lr.py: MatrixProfileLR", "distancematrix/consumer/distance_matrix.py: DistanceMatrix", "distancematrix/consumer/threshold_counter.py: ThresholdCounter", "distancematrix/consumer/contextual_matrix_profile.py: ContextualMatrixProfile"]}
