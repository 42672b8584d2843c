{
 "claims": [
  {
   "property": "C01",
   "status": "proved",
   "theorems": [
    "Verif.C01_window",
    "Verif.C01_window_init",
    "Verif.C01_window_shape_of_data",
    "Verif.C01_init_guards"
   ],
   "note": ""
  },
  {
   "property": "C02",
   "status": "proved",
   "theorems": [
    "Verif.C02_push_return"
   ],
   "note": ""
  },
  {
   "property": "C03",
   "status": "proved",
   "theorems": [
    "Verif.C03_writes_slide"
   ],
   "note": ""
  },
  {
   "property": "C04",
   "status": "partial",
   "theorems": [
    "Verif.C04_push_total_partial",
    "Verif.C04_scaling_above_two_fails",
    "Verif.C04_push_fails_iff"
   ],
   "note": "False for scaling factors above 2 (C04_scaling_above_two_fails proves it for every such factor and window); exact failure condition in C04_push_fails_iff; proved for factors 1..2."
  },
  {
   "property": "C05",
   "status": "proved",
   "theorems": [
    "Verif.C05_no_uninitialised",
    "Verif.C05_values_from_client"
   ],
   "note": ""
  },
  {
   "property": "C06",
   "status": "proved",
   "theorems": [
    "Verif.C06_lengths",
    "Verif.C06_cells",
    "Verif.C06_order",
    "Verif.C06_diag_length_count",
    "Verif.C06_of_array"
   ],
   "note": ""
  },
  {
   "property": "C07",
   "status": "proved",
   "theorems": [
    "Verif.C07_unique_diagonal",
    "Verif.C07_sum_all",
    "Verif.C07_sum_self_join"
   ],
   "note": ""
  },
  {
   "property": "C08",
   "status": "proved",
   "theorems": [
    "Verif.C08_cells",
    "Verif.C08_order",
    "Verif.C08_lengths",
    "Verif.C08_of_array"
   ],
   "note": ""
  },
  {
   "property": "C09",
   "status": "proved",
   "theorems": [
    "Verif.C09_least_cost"
   ],
   "note": ""
  },
  {
   "property": "C10",
   "status": "proved",
   "theorems": [
    "Verif.C10_shortest_path",
    "Verif.C10_infinite_cost_raises"
   ],
   "note": ""
  },
  {
   "property": "C11",
   "status": "proved",
   "theorems": [
    "Verif.C11_faithful",
    "Verif.C11_guards",
    "Verif.C11_windows_1d"
   ],
   "note": ""
  },
  {
   "property": "C12",
   "status": "proved",
   "theorems": [
    "Verif.C12_separated_sorted",
    "Verif.C12_invalid_raises"
   ],
   "note": ""
  },
  {
   "property": "C13",
   "status": "proved",
   "theorems": [
    "Verif.C13_exhaustive"
   ],
   "note": ""
  },
  {
   "property": "C14",
   "status": "proved",
   "theorems": [
    "Verif.C14_highest"
   ],
   "note": ""
  },
  {
   "property": "C15",
   "status": "proved",
   "theorems": [
    "Verif.C15_sliding_mean_std",
    "Verif.C15_sliding_mean_var",
    "Verif.C15_guards"
   ],
   "note": ""
  },
  {
   "property": "C16",
   "status": "partial",
   "theorems": [
    "Verif.C16_streaming_stats_partial",
    "Verif.C16_rejected_append_desynchronises",
    "Verif.C16_init_guard"
   ],
   "note": "False: an append rejected for a non-finite value leaves the statistics out of step with the data (C16_rejected_append_desynchronises); proved for every history of accepted appends."
  },
  {
   "property": "C17",
   "status": "partial",
   "theorems": [
    "Verif.C17_handler_restored_partial",
    "Verif.C17_ending",
    "Verif.C17_never_escapes",
    "Verif.C17_remembered",
    "Verif.C17_foreign_handler_lost"
   ],
   "note": "False when a foreign (non-Python) handler is installed, which cannot be restored (C17_foreign_handler_lost); proved otherwise, for every program run inside."
  },
  {
   "property": "C18",
   "status": "proved",
   "theorems": [
    "Verif.C18_diagonals",
    "Verif.C18_columns"
   ],
   "note": ""
  },
  {
   "property": "C19",
   "status": "proved",
   "theorems": [
    "Verif.C19_ratio",
    "Verif.C19_int",
    "Verif.C19_guards",
    "Verif.C19_monotone",
    "Verif.C19_one"
   ],
   "note": ""
  },
  {
   "property": "C20",
   "status": "partial",
   "theorems": [
    "Verif.C20_init_valid",
    "Verif.C20_add_valid",
    "Verif.C20_full_run",
    "Verif.C20_cells_join",
    "Verif.C20_cells_self_join_partial",
    "Verif.C20_main_diagonal_twice"
   ],
   "note": "False for trivial_match_buffer=-1 self joins: the main diagonal is processed twice (C20_main_diagonal_twice); proved for joins and for every buffer >= 0."
  },
  {
   "property": "C21",
   "status": "proved",
   "theorems": [
    "Verif.C21_partial_amount"
   ],
   "note": ""
  },
  {
   "property": "C22",
   "status": "proved",
   "theorems": [
    "Verif.C22_diagonals",
    "Verif.C22_columns"
   ],
   "note": ""
  },
  {
   "property": "C23",
   "status": "proved",
   "theorems": [
    "Verif.C23_columns",
    "Verif.C23_mask"
   ],
   "note": ""
  },
  {
   "property": "C24",
   "status": "proved",
   "theorems": [
    "Verif.C24_trivial_match_buffer"
   ],
   "note": ""
  },
  {
   "property": "C25",
   "status": "proved",
   "theorems": [
    "Verif.C25_shift_accounting"
   ],
   "note": ""
  },
  {
   "property": "C26",
   "status": "proved",
   "theorems": [
    "Verif.C26_fresh",
    "Verif.C26_stream_positions"
   ],
   "note": ""
  },
  {
   "property": "C27",
   "status": "proved",
   "theorems": [
    "Verif.C27_diagonal"
   ],
   "note": ""
  },
  {
   "property": "C28",
   "status": "partial",
   "theorems": [
    "Verif.C28_column_partial",
    "Verif.C28_column_exact_partial",
    "Verif.C28_batch_any_order_partial",
    "Verif.C28_uncached_column",
    "Verif.C28_wrong_column_after_append",
    "Verif.C28_tiny_distance_gives_nan"
   ],
   "note": "False for tiny squared distances (C28_tiny_distance_gives_nan) and for a cached column outdated by an append (C28_wrong_column_after_append); proved for all other histories."
  },
  {
   "property": "C29",
   "status": "proved",
   "theorems": [
    "Verif.C29_diagonal",
    "Verif.C29_single",
    "Verif.C29_column"
   ],
   "note": ""
  },
  {
   "property": "C30",
   "status": "partial",
   "theorems": [
    "Verif.C30_paths_agree_partial",
    "Verif.C30_diagonal_single",
    "Verif.C30_batch_any_order",
    "Verif.C30_stale_column"
   ],
   "note": "False where a cached column is outdated by an append (C30_stale_column); proved for all other histories and for any order of batch columns."
  },
  {
   "property": "C31",
   "status": "proved",
   "theorems": [
    "Verif.C31_statistics"
   ],
   "note": ""
  },
  {
   "property": "C32",
   "status": "proved",
   "theorems": [
    "Verif.C32_euclidean_symmetric",
    "Verif.C32_euclidean_main_diagonal",
    "Verif.C32_znorm_symmetric",
    "Verif.C32_znorm_main_diagonal"
   ],
   "note": ""
  },
  {
   "property": "C33",
   "status": "proved",
   "theorems": [
    "Verif.C33_noise",
    "Verif.C33_noise_column"
   ],
   "note": ""
  },
  {
   "property": "C34",
   "status": "partial",
   "theorems": [
    "Verif.C34_rejected_append_changes_series",
    "Verif.C34_rejected_append_partial"
   ],
   "note": "False: a rejected append of a NaN changes the data window of the z-normalised generator (C34_rejected_append_changes_series); proved: the statistics, the other axis and (for append_series) the cached first row are unchanged."
  },
  {
   "property": "C35",
   "status": "proved",
   "theorems": [
    "Verif.C35_mask"
   ],
   "note": ""
  },
  {
   "property": "C36",
   "status": "partial",
   "theorems": [
    "Verif.C36_batch",
    "Verif.C36_streaming",
    "Verif.C36_znorm_batch",
    "Verif.C36_euclidean_batch_partial",
    "Verif.C36_euclidean_diagonals",
    "Verif.C36_znorm_streaming"
   ],
   "note": "Proved for z-normalised generators and Euclidean diagonals; Euclidean columns only without tiny distances (the C28 failure)."
  },
  {
   "property": "C37",
   "status": "proved",
   "theorems": [
    "Verif.C37_streaming_masks",
    "Verif.C37_append_accepted",
    "Verif.C37_empty_append"
   ],
   "note": ""
  },
  {
   "property": "C38",
   "status": "proved",
   "theorems": [
    "Verif.C38_diagonals",
    "Verif.C38_order_independent"
   ],
   "note": ""
  },
  {
   "property": "C39",
   "status": "proved",
   "theorems": [
    "Verif.C39_any_mix",
    "Verif.C39_complete",
    "Verif.C39_columns_eq_diagonals"
   ],
   "note": ""
  },
  {
   "property": "C40",
   "status": "proved",
   "theorems": [
    "Verif.C40_merged",
    "Verif.C40_monotone"
   ],
   "note": ""
  },
  {
   "property": "C41",
   "status": "proved",
   "theorems": [
    "Verif.C41_shifting_profile",
    "Verif.C41_clean_columns",
    "Verif.C41_nan_column"
   ],
   "note": ""
  },
  {
   "property": "C42",
   "status": "proved",
   "theorems": [
    "Verif.C42_every_outcome",
    "Verif.C42_same_profile",
    "Verif.C42_nan_column"
   ],
   "note": ""
  },
  {
   "property": "C43",
   "status": "proved",
   "theorems": [
    "Verif.C43_uniform",
    "Verif.C43_equally_likely",
    "Verif.C43_merged_uniform",
    "Verif.C43_column"
   ],
   "note": ""
  },
  {
   "property": "C44",
   "status": "proved",
   "theorems": [
    "Verif.C44_distance_matrix",
    "Verif.C44_one_generator",
    "Verif.C44_shift",
    "Verif.C44_complete"
   ],
   "note": ""
  },
  {
   "property": "C45",
   "status": "proved",
   "theorems": [
    "Verif.C45_any_history",
    "Verif.C45_diagonals",
    "Verif.C45_distinct_diagonals",
    "Verif.C45_columns_eq_diagonals"
   ],
   "note": ""
  },
  {
   "property": "C46",
   "status": "partial",
   "theorems": [
    "Verif.C46_self_join_once_partial",
    "Verif.C46_main_diagonal_counted_twice"
   ],
   "note": "False for trivial_match_buffer=-1 self joins: the main diagonal is delivered and counted twice (C46_main_diagonal_counted_twice); proved for every buffer >= 0."
  },
  {
   "property": "C47",
   "status": "partial",
   "theorems": [
    "Verif.C47_selection_partial",
    "Verif.C47_selection_unique",
    "Verif.C47_nan_counted",
    "Verif.C47_invalid"
   ],
   "note": "False for columns holding NaN, which are counted (C47_nan_counted); proved for NaN-free columns."
  },
  {
   "property": "C48",
   "status": "proved",
   "theorems": [
    "Verif.C48_kth_smallest",
    "Verif.C48_invalid"
   ],
   "note": ""
  },
  {
   "property": "C49",
   "status": "partial",
   "theorems": [
    "Verif.C49_kth_match_partial",
    "Verif.C49_repeated_track_index",
    "Verif.C49_invalid"
   ],
   "note": "False for repeated track indices (C49_repeated_track_index); proved for pairwise different ones."
  },
  {
   "property": "C50",
   "status": "partial",
   "theorems": [
    "Verif.C50_lookups_partial",
    "Verif.C50_invalid_ranges",
    "Verif.C50_no_contexts",
    "Verif.C50_empty_range"
   ],
   "note": "Exact for all non-empty lookup ranges and all definitions with at least one non-empty range per axis; false otherwise: IndexError without contexts (C50_no_contexts), an empty lookup range can return contexts (C50_empty_range). Invalid ranges rejected (C50_invalid_ranges)."
  },
  {
   "property": "C51",
   "status": "partial",
   "theorems": [
    "Verif.C51_any_history",
    "Verif.C51_static_partial",
    "Verif.C51_complete_partial",
    "Verif.C51_columns_eq_diagonals_partial",
    "Verif.C51_nan_hides_values"
   ],
   "note": "False with NaN: one NaN hides all values of that delivery inside the context rectangle (C51_nan_hides_values); exact semantics for every history in C51_any_history; proved for NaN-free deliveries."
  },
  {
   "property": "C52",
   "status": "partial",
   "theorems": [
    "Verif.C52_series_shift_partial",
    "Verif.C52_query_shift_actual",
    "Verif.C52_query_shift_partial",
    "Verif.C52_query_shift_wrong",
    "Verif.C52_query_shift_forgotten",
    "Verif.C52_query_shift_witness"
   ],
   "note": "Series axis proved. Query axis false: rows move in the wrong direction (C52_query_shift_actual/_wrong/_witness) and the shift is undone by the next series shift (C52_query_shift_forgotten)."
  },
  {
   "property": "C53",
   "status": "partial",
   "theorems": [
    "Verif.C53_columns_partial",
    "Verif.C53_smallest_channels",
    "Verif.C53_nan_hides_values"
   ],
   "note": "proved for any order of columns (any height, any channels, any tie-breaking of argsort) mixed with any shifts, left, right and merged profile, except columns with NaN; C53_nan_hides_values shows that the code fails there."
  },
  {
   "property": "C54",
   "status": "partial",
   "theorems": [
    "Verif.C54_diagonals_partial",
    "Verif.C54_same_as_columns_partial",
    "Verif.C54_long_query_raises",
    "Verif.C54_lag_raises",
    "Verif.C54_right_polluted",
    "Verif.C54_negative_wrong"
   ],
   "note": "proved for diagonals inside a square window with non-negative distances lying on the same side of the stream and window main diagonals, mixed with columns and shifts. The code fails otherwise: C54_long_query_raises, C54_lag_raises, C54_right_polluted, C54_negative_wrong."
  },
  {
   "property": "C55",
   "status": "proved",
   "theorems": [
    "Verif.C55_optimum",
    "Verif.C55_radius_exists",
    "Verif.C55_guards",
    "Verif.C55_nonfinite"
   ],
   "note": "All collections of at least two finite series, m >= 3, any tie-breaking of argsort, any np.empty contents. The call succeeds; the reported subsequence exists, its largest best-match z-normalised distance equals the reported radius, and no subsequence has a smaller one. Non-finite data and bad arguments raise."
  },
  {
   "property": "C56",
   "status": "partial",
   "theorems": [
    "Verif.C56_consulted",
    "Verif.C56_partial",
    "Verif.C56_repaired",
    "Verif.C56_radius_exists",
    "Verif.C56_guards",
    "Verif.C56_wrong",
    "Verif.C56_negation"
   ],
   "note": "proved for k = 2 and k = 3 (any number of series, any shuffle, any tie-breaking of argsort). For k >= 4 the code is wrong: `other_series_idx` ignores the loop variable j, so one series is consulted k - 2 times (C56_consulted states exactly what is computed for every k). C56_wrong / C56_negation give a concrete failure; C56_repaired proves that adding `+ j` makes the property true for every k."
  },
  {
   "property": "C57",
   "status": "proved",
   "theorems": [
    "Verif.C57_total",
    "Verif.C57_upper",
    "Verif.C57_monotone",
    "Verif.C57_exact",
    "Verif.C57_k_best",
    "Verif.C57_single"
   ],
   "note": "For 2 or more series; k_best None or 1..n-1 (C57_k_best: 0 acts as None, n and above raise IndexError; C57_single: one series raises). Fractions are floats in [0,1] or ints, calls may be interrupted anywhere. Real arithmetic."
  },
  {
   "property": "C58",
   "status": "proved",
   "theorems": [
    "Verif.C58_bound",
    "Verif.C58_code",
    "Verif.C58_reported"
   ],
   "note": "C58_bound: any two real sequences, any pair, any lengths l <= L, both subsequences non-constant at length l. C58_code: every entry of every list the full calculation makes (any series, cache size >= 1, any tie-breaking): the value base/std at a longer length is at most the exact z-normalised distance, or NaN when the row is constant at length l (then no correlation exists and the code ignores the value). C58_reported compares with the distance the generator reports (deviations up to 1e-6 count as flat, squared distances below 1e-12 as 0)."
  },
  {
   "property": "C59",
   "status": "partial",
   "theorems": [
    "Verif.C59_nearly_flat_wrong",
    "Verif.C59_partial",
    "Verif.C59_constant",
    "Verif.C59_single_length",
    "Verif.C59_repaired",
    "Verif.C59_pruned_fails",
    "Verif.C59_no_cache_fails",
    "Verif.C59_rejects",
    "Verif.C59_noise_wrong"
   ],
   "note": "False: all columns settled by the cache makes np.min of an empty list raise ValueError (C59_pruned_fails, series 0,1,0,1,0,1,0,1 with lengths 2..3 and cache 10); cache_size=0 raises IndexError (C59_no_cache_fails); with noise_std > 0 the lower bounds are not bounds of the corrected distance and a worse pair is returned (C59_noise_wrong, series 2,6,3,3,14,14,11,11 with noise_std=2, lengths 3..4 and cache 1), and the same happens with noise_std=0 if the data has subsequences that count as flat without being constant (C59_nearly_flat_wrong). Proved: whenever the call returns every answer is the minimal non-trivial pair (C59_partial), for finite data and cache sizes >= 1, if the cache has room for all subsequences (any noise_std) or noise_std = 0 and the nearly flat subsequences (deviation <= 1e-6) are constant, e.g. integer data (noNearlyFlat_int); it does return if a subsequence of the largest length is constant (C59_constant) or for a single length (C59_single_length); with the minimum guarded it always returns the right answers (C59_repaired)."
  },
  {
   "property": "C60",
   "status": "partial",
   "theorems": [
    "Verif.C60_znorm",
    "Verif.C60_euclidean_diagonals",
    "Verif.C60_euclidean_columns_partial",
    "Verif.C60_euclidean_columns_nan"
   ],
   "note": "proved in full for ZNormEuclidean (columns and diagonals) and for Euclidean by diagonals; Euclidean by columns only when no two different subsequences are at squared distance below 1e-15, since the cached column then gives NaN (C60_euclidean_columns_nan is the counterexample)."
  },
  {
   "property": "C61",
   "status": "partial",
   "theorems": [
    "Verif.C61_znorm",
    "Verif.C61_euclidean_partial",
    "Verif.C61_euclidean_nan"
   ],
   "note": "full for the z-normalised generator (any windows, any interleaving of append_series, append_query and calculate_columns(upto), calls not interrupted). For the Euclidean generator no two different subsequences may be at squared distance below 1e-15 when columns are calculated; C61_euclidean_nan shows that the property fails otherwise. Columns may only be asked for when the query holds at least one subsequence (or the series holds none): MSt.Valid. C76 states what holds without this restriction."
  },
  {
   "property": "C62",
   "status": "partial",
   "theorems": [
    "Verif.C62_stream_feed_partial",
    "Verif.C62_stream_feed_znorm",
    "Verif.C62_recorded_partial",
    "Verif.C62_euclidean_nan"
   ],
   "note": "full for z-normalised generators. For Euclidean generators no two different subsequences may be at squared distance below 1e-15 when columns are calculated (C62_euclidean_nan). Finite data, ring buffer scale factors between 1 and 2; columns may only be asked for when the query holds a subsequence (or the series holds none). C75 states what is received without this restriction."
  },
  {
   "property": "C63",
   "status": "partial",
   "theorems": [
    "Verif.C63_streaming_profile_partial",
    "Verif.C63_streaming_profile_znorm",
    "Verif.C63_euclidean_wrong",
    "Verif.C63_reused_wrong"
   ],
   "note": "full for z-normalised generators. For Euclidean generators no two different subsequences may be at squared distance below 1e-15 when columns are calculated (C63_euclidean_wrong: a neighbour at distance 0 is missed). Same conditions as C62."
  },
  {
   "property": "C64",
   "status": "proved",
   "theorems": [
    "Verif.C64_sliding_min",
    "Verif.C64_sliding_max",
    "Verif.C64_negative_window"
   ],
   "note": ""
  },
  {
   "property": "C65",
   "status": "partial",
   "theorems": [
    "Verif.C65_affected_reported_partial",
    "Verif.C65_reports_too_much"
   ],
   "note": "everything affected (below the exclusive upper end) is reported once, but the code passes one argument to range, so indices of unaffected subsequences are reported too (C65_reports_too_much, for every invalid point at p >= m). findInvalid_ok is the exact characterisation of the result."
  },
  {
   "property": "C66",
   "status": "partial",
   "theorems": [
    "Verif.C66_batch_feed_partial",
    "Verif.C66_batch_feed_znorm",
    "Verif.C66_batch_feed_diagonals",
    "Verif.C66_recorded_partial",
    "Verif.C66_calls",
    "Verif.C66_euclidean_nan"
   ],
   "note": "Euclidean generators: needs that no two different subsequences are at squared distance below 1e-15 whenever columns are calculated; else the code may deliver NaN (C66_euclidean_nan). Nothing needed for z-normalised generators or when only diagonals are calculated. C66_batch_feed_znorm and C66_batch_feed_diagonals are unconditional. C75 states what is received without this restriction."
  },
  {
   "property": "C67",
   "status": "partial",
   "theorems": [
    "Verif.C67_profile_partial",
    "Verif.C67_complete",
    "Verif.C67_monotone"
   ],
   "note": "Euclidean generators: needs that no two different subsequences are at squared distance below 1e-15 whenever columns are calculated; else the code may deliver NaN (C66_euclidean_nan). Nothing needed for z-normalised generators or when only diagonals are calculated. C67_complete and C67_monotone have no further hypothesis."
  },
  {
   "property": "C68",
   "status": "partial",
   "theorems": [
    "Verif.C68_distance_matrix_partial"
   ],
   "note": "Euclidean generators: needs that no two different subsequences are at squared distance below 1e-15 whenever columns are calculated; else the code may deliver NaN (C66_euclidean_nan). Nothing needed for z-normalised generators or when only diagonals are calculated. C76 states what holds without this restriction."
  },
  {
   "property": "C69",
   "status": "partial",
   "theorems": [
    "Verif.C69_counts_partial",
    "Verif.C69_diagonals",
    "Verif.C69_columns_partial",
    "Verif.C69_counted_twice"
   ],
   "note": "Euclidean generators: needs that no two different subsequences are at squared distance below 1e-15 whenever columns are calculated; else the code may deliver NaN (C66_euclidean_nan). Nothing needed for z-normalised generators or when only diagonals are calculated. The statement fails for columns calculated before diagonals (C69_counted_twice), so the general theorem gives the exact tally; C69_diagonals is unconditional."
  },
  {
   "property": "C70",
   "status": "partial",
   "theorems": [
    "Verif.C70_contextual_partial"
   ],
   "note": "Euclidean generators: needs that no two different subsequences are at squared distance below 1e-15 whenever columns are calculated; else the code may deliver NaN (C66_euclidean_nan). Nothing needed for z-normalised generators or when only diagonals are calculated."
  },
  {
   "property": "C71",
   "status": "partial",
   "theorems": [
    "Verif.C71_batch_partial",
    "Verif.C71_streaming_partial",
    "Verif.C71_long_query_raises",
    "Verif.C71_reused_raises"
   ],
   "note": "Euclidean generators: needs that no two different subsequences are at squared distance below 1e-15 whenever columns are calculated; else the code may deliver NaN (C66_euclidean_nan). Nothing needed for z-normalised generators or when only diagonals are calculated. Batch diagonals with a query longer than the series raise (C71_long_query_raises); a consumer used a second time may raise (C71_reused_raises)."
  },
  {
   "property": "C72",
   "status": "partial",
   "theorems": [
    "Verif.C72_kth_smallest_partial",
    "Verif.C72_kth_match_partial",
    "Verif.C72_selection_partial"
   ],
   "note": "Euclidean generators: needs that no two different subsequences are at squared distance below 1e-15 whenever columns are calculated; else the code may deliver NaN (C66_euclidean_nan). Nothing needed for z-normalised generators or when only diagonals are calculated. Repeated track indices are excluded for RadiusProfile (C49_repeated_track_index). The classes reject diagonals (C47_invalid, C48_invalid, C49_invalid)."
  },
  {
   "property": "C73",
   "status": "proved",
   "theorems": [
    "Verif.C73_range",
    "Verif.C73_range_column",
    "Verif.C73_affine",
    "Verif.C73_affine_column"
   ],
   "note": ""
  },
  {
   "property": "C74",
   "status": "proved",
   "theorems": [
    "Verif.C74_motif"
   ],
   "note": ""
  },
  {
   "property": "C75",
   "status": "proved",
   "theorems": [
    "Verif.C75_stream_feed",
    "Verif.C75_stream_recorded",
    "Verif.C75_batch_feed",
    "Verif.C75_batch_recorded"
   ],
   "note": ""
  },
  {
   "property": "C76",
   "status": "proved",
   "theorems": [
    "Verif.C76_batch",
    "Verif.C76_stream"
   ],
   "note": ""
  },
  {
   "property": "C77",
   "status": "partial",
   "theorems": [
    "Verif.C77_truncated",
    "Verif.C77_partial",
    "Verif.C77_wrong"
   ],
   "note": "False: values appended to an instance started on integers lose their fraction, and NaN is not rejected (C77_wrong, exact behaviour C77_truncated); proved for appended whole numbers."
  },
  {
   "property": "C78",
   "status": "proved",
   "theorems": [
    "Verif.C78_batch_feed",
    "Verif.C78_batch_recorded",
    "Verif.C78_stream_feed",
    "Verif.C78_stream_recorded"
   ],
   "note": ""
  },
  {
   "property": "C79",
   "status": "partial",
   "theorems": [
    "Verif.C79_batch_profile_partial",
    "Verif.C79_batch_profile_znorm",
    "Verif.C79_stream_profile_partial",
    "Verif.C79_stream_profile_znorm",
    "Verif.C79_hole_wrong"
   ],
   "note": "Euclidean generators: needs that in the data with 0 at the marked points no two different subsequences are at squared distance below 1e-15 whenever columns are calculated; else neighbours can be missed (C79_hole_wrong). Nothing needed for z-normalised generators or when only diagonals are calculated."
  },
  {
   "property": "C80",
   "status": "proved",
   "theorems": [
    "Verif.C80_batch_matrix",
    "Verif.C80_stream_matrix"
   ],
   "note": ""
  },
  {
   "property": "C81",
   "status": "proved",
   "theorems": [
    "Verif.C81_diagonal",
    "Verif.C81_distances"
   ],
   "note": ""
  },
  {
   "property": "C82",
   "status": "partial",
   "theorems": [
    "Verif.C82_column_partial",
    "Verif.C82_number_partial",
    "Verif.C82_nan_wrong"
   ],
   "note": "The error bound is proved; that every value is a number is false: a squared distance smaller than the bound may be returned as NaN (C82_nan_wrong, whole numbers of nine digits). NaN is shown to be possible only below the bound."
  },
  {
   "property": "C83",
   "status": "partial",
   "theorems": [
    "Verif.C83_column_partial",
    "Verif.C83_diagonal_partial",
    "Verif.C83_outlier_wrong"
   ],
   "note": "False: an outlier makes all later distances on its diagonal 0 (C83_outlier_wrong), and columns can be off or NaN (C82_nan_wrong). Proved for data with at most 24 binary digits after the point and 4 m L^2 4^t <= 2^53 (diagonals: length of the series window instead of m)."
  },
  {
   "property": "C84",
   "status": "proved",
   "theorems": [
    "Verif.C84_column",
    "Verif.C84_diagonal"
   ],
   "note": ""
  },
  {
   "property": "C85",
   "status": "proved",
   "theorems": [
    "Verif.C85_column",
    "Verif.C85_diagonal"
   ],
   "note": "Subsequences whose deviation is within the error of the threshold 1e-6 are excluded (either convention may be applied to them)."
  },
  {
   "property": "C86",
   "status": "partial",
   "theorems": [
    "Verif.C86_range_partial",
    "Verif.C86_range_wrong"
   ],
   "note": "False: in float64 two equal subsequences of whole numbers of nine digits get distance 2 instead of 0, and two of the same shape get a squared distance 132 although 8 is the maximum (C86_range_wrong). Proved: both hold up to the error bound of C85."
  },
  {
   "property": "C87",
   "status": "proved",
   "theorems": [
    "Verif.C87_statistics",
    "Verif.C87_convolve",
    "Verif.C87_column",
    "Verif.C87_diagonal",
    "Verif.C87_float64"
   ],
   "note": ""
  },
  {
   "property": "C88",
   "status": "proved",
   "theorems": [
    "Verif.C88_counts",
    "Verif.C88_matrix",
    "Verif.C88_float64",
    "Verif.C88_calls",
    "Verif.C88_profile"
   ],
   "note": ""
  },
  {
   "property": "C89",
   "status": "proved",
   "theorems": [
    "Verif.C89_calls",
    "Verif.C89_matrix",
    "Verif.C89_profile",
    "Verif.C89_float64"
   ],
   "note": ""
  },
  {
   "property": "C90",
   "status": "partial",
   "theorems": [
    "Verif.C90_session_partial",
    "Verif.C90_late_wrong",
    "Verif.C90_late_raises",
    "Verif.C90_session_znorm",
    "Verif.C90_recorded_partial",
    "Verif.C90_profile_partial",
    "Verif.C90_stream_session_partial",
    "Verif.C90_stream_recorded_partial"
   ],
   "note": "For Euclidean generators, when columns are calculated, data with different subsequences at squared distance below 1e-15 are excluded: there the code delivers NaN (C66_euclidean_nan, C62_euclidean_nan). For streaming, columns calculated before a generator that was added late has caught up are excluded: the code raises ValueError or silently delivers one distance as a whole column (C90_late_raises, C90_late_wrong)."
  },
  {
   "property": "C91",
   "status": "partial",
   "theorems": [
    "Verif.C91_shape",
    "Verif.C91_rejected_partial",
    "Verif.C91_rejected_query_partial",
    "Verif.C91_not_atomic"
   ],
   "note": "The code violates the property: when a generator refuses the data, the generators added before it keep them (C91_not_atomic). What is left unchanged by every rejected append is C91_rejected_partial and C91_rejected_query_partial; C91_shape is the case in which the whole state is unchanged."
  },
  {
   "property": "C92",
   "status": "partial",
   "theorems": [
    "Verif.C92_profile_partial",
    "Verif.C92_diagonals",
    "Verif.C92_columns_partial",
    "Verif.C92_band_index",
    "Verif.C92_not_uniform"
   ],
   "note": "The code violates the property: pairs delivered more than once have more weight (C92_not_uniform) and column sides in the trivial match band get an index (C92_band_index, for every self-join). C92_profile_partial gives the exact distribution for any sequence of calls; uniformity is proved for diagonals only (C92_diagonals, query or trivial_match_buffer >= 0) and columns only (C92_columns_partial). Euclidean generators: if columns are calculated, no two different subsequences at squared distance below 1e-15 (C66_euclidean_nan)."
  },
  {
   "property": "C93",
   "status": "partial",
   "theorems": [
    "Verif.C93_contextual_partial",
    "Verif.C93_chunks_partial",
    "Verif.C93_static_partial",
    "Verif.C93_static_raises",
    "Verif.C93_unfilled_raises",
    "Verif.C93_unfilled_witness",
    "Verif.C93_query_wrong"
   ],
   "note": "The code violates the property while the query window does not reach every query context (C93_unfilled_raises, C93_unfilled_witness: ValueError) and for query contexts that change their numbers (C93_query_wrong). Proved for all managers whose query contexts keep their numbers while the columns reach every query context (C93_contextual_partial), for contexts of equal length without further condition (C93_chunks_partial) and for GeneralStaticManager (C93_static_partial; C93_static_raises otherwise). Euclidean generators: no two different subsequences at squared distance below 1e-15 (C62_euclidean_nan)."
  },
  {
   "property": "C94",
   "status": "partial",
   "theorems": [
    "Verif.C94_counts_partial",
    "Verif.C94_diagonals",
    "Verif.C94_columns_partial",
    "Verif.C94_columns_znorm",
    "Verif.C94_counts_wrong",
    "Verif.C94_kth_smallest_partial",
    "Verif.C94_kth_match_partial",
    "Verif.C94_selection_partial"
   ],
   "note": "Euclidean generators: needs that in the data with 0 at the marked points no two different subsequences are at squared distance below 1e-15 whenever columns are calculated; the code violates the property otherwise (C94_counts_wrong). Nothing needed when only diagonals are calculated (C94_diagonals) or for z-normalised generators (C94_columns_znorm). RadiusProfile needs different track indices (C49)."
  },
  {
   "property": "C95",
   "status": "partial",
   "theorems": [
    "Verif.C95_batch_contextual_partial",
    "Verif.C95_batch_contextual_znorm",
    "Verif.C95_stream_contextual_partial",
    "Verif.C95_chunks_partial",
    "Verif.C95_contextual_wrong"
   ],
   "note": "As C93 for the managers (C95_stream_contextual_partial; contexts of equal length without further condition: C95_chunks_partial). Euclidean generators: needs that in the data with 0 at the marked points no two different subsequences are at squared distance below 1e-15 whenever columns are calculated; the code violates the property otherwise (C95_contextual_wrong). Nothing needed for z-normalised generators (C95_batch_contextual_znorm)."
  },
  {
   "property": "C96",
   "status": "partial",
   "theorems": [
    "Verif.C96_batch_partial",
    "Verif.C96_batch_znorm",
    "Verif.C96_streaming_partial",
    "Verif.C96_multi_wrong"
   ],
   "note": "Batch diagonals with a query longer than the series raise (C71_long_query_raises). Euclidean generators: needs that in the data with 0 at the marked points no two different subsequences are at squared distance below 1e-15 whenever columns are calculated; the code violates the property otherwise (C96_multi_wrong). Nothing needed for z-normalised generators (C96_batch_znorm)."
  },
  {
   "property": "C97",
   "status": "partial",
   "theorems": [
    "Verif.C97_columns_partial",
    "Verif.C97_columns_never_complete",
    "Verif.C97_diagonals",
    "Verif.C97_percentages",
    "Verif.C97_negative_time"
   ],
   "note": "Violated by the code for the last line: calculate_columns never shows 100% (C97_columns_never_complete), calculate_diagonals may show more than 100% and a negative time left (C97_negative_time). Everything else is proved (C97_columns_partial, C97_diagonals, C97_percentages)."
  },
  {
   "property": "C98",
   "status": "partial",
   "theorems": [
    "Verif.C98_windows",
    "Verif.C98_since",
    "Verif.C98_late_profile_partial",
    "Verif.C98_late_wrong"
   ],
   "note": "Violated by the code for the positions of late profiles: they are counted from what the windows held when the object was first added (C98_late_wrong). With positions counted from there everything is proved, with the restrictions of C90 (tiny Euclidean distances, generators that have not caught up)."
  },
  {
   "property": "C99",
   "status": "partial",
   "theorems": [
    "Verif.C99_late_contextual_partial",
    "Verif.C99_late_chunks_partial",
    "Verif.C99_late_wrong"
   ],
   "note": "Violated by the code for positions and contexts of late objects: they are counted from what the windows held when the object was first added (C99_late_wrong). With positions counted from there everything is proved for all managers that follow contexts of the streams (C99_late_contextual_partial) and, without conditions on the contexts, for contexts of equal length (C99_late_chunks_partial), with the restrictions of C90 and C93."
  },
  {
   "property": "C100",
   "status": "partial",
   "theorems": [
    "Verif.C100_matrix_profile_partial",
    "Verif.C100_counts_partial",
    "Verif.C100_kth_smallest_partial",
    "Verif.C100_kth_match_partial",
    "Verif.C100_selection_partial",
    "Verif.C100_raises",
    "Verif.C100_query_raises",
    "Verif.C100_skips_columns"
   ],
   "note": "Violated by the code once a window moves: append_series and append_query raise AttributeError for these consumers and are not atomic (C100_raises, C100_query_raises); the columns that entered the window are never calculated (C100_skips_columns). As long as no window moves, everything is proved for each of the five consumers, for data without NaN and any finite thresholds (C100_*_partial)."
  },
  {
   "property": "C101",
   "status": "partial",
   "theorems": [
    "Verif.C101_late_multi_partial",
    "Verif.C101_late_wrong"
   ],
   "note": "Violated by the code for positions of late objects: they are counted from what the windows held when the object was first added, which also decides left from right (C101_late_wrong). With positions counted from there everything is proved (C101_late_multi_partial), with the restrictions of C90; objects that come from another calculation are not covered (C71_reused_raises)."
  },
  {
   "property": "C102",
   "status": "partial",
   "theorems": [
    "Verif.C102_columns_partial",
    "Verif.C102_diagonals_partial",
    "Verif.C102_add",
    "Verif.C102_no_generator",
    "Verif.C102_no_generator_diagonals",
    "Verif.C102_negative_wrong"
   ],
   "note": "Violated by the code: ids of no generator are accepted and raise IndexError at the first column or diagonal calculated (C102_add, C102_no_generator, C102_no_generator_diagonals), and a negative id changes its generator with the next add_generator (C102_negative_wrong). With ids of generators, everything is as with the generators they stand for (C102_columns_partial, C102_diagonals_partial)."
  },
  {
   "property": "C103",
   "status": "proved",
   "theorems": [
    "Verif.C103_batch",
    "Verif.C103_stream",
    "Verif.C103_stream_repository"
   ],
   "note": "C103_batch holds for any generators, C103_stream for generators that accept points regardless of what they were asked for (Spec.Indifferent), which all generators of the repository do (C103_stream_repository)."
  },
  {
   "property": "C104",
   "status": "partial",
   "theorems": [
    "Verif.C104_contextual_partial",
    "Verif.C104_counts",
    "Verif.C104_transpose_partial",
    "Verif.C104_profiles_partial",
    "Verif.C104_closest_partial",
    "Verif.C104_self_join_partial"
   ],
   "note": "Everything is proved except for Euclidean generators in calculations that calculate columns of data with different subsequences at squared distance below 1e-15, where the code delivers NaN (C66_euclidean_nan)."
  },
  {
   "property": "C105",
   "status": "partial",
   "theorems": [
    "Verif.C105_deliveries_partial",
    "Verif.C105_deliveries_znorm",
    "Verif.C105_profiles_partial",
    "Verif.C105_matrix_partial",
    "Verif.C105_euclidean_differ"
   ],
   "note": "Violated by the code for Euclidean generators on data with different subsequences at squared distance below 1e-15 (C105_euclidean_differ). Otherwise proved, for z-normalised distances without any condition (C105_deliveries_znorm); C105_deliveries_partial covers all classes of consumers by what they receive."
  },
  {
   "property": "C106",
   "status": "proved",
   "theorems": [
    "Verif.C106_calculator_batch",
    "Verif.C106_calculator_repository",
    "Verif.C106_calculator_stream",
    "Verif.C106_calculator_repository_stream",
    "Verif.C106_streaming",
    "Verif.C106_batch",
    "Verif.C106_repository_streaming",
    "Verif.C106_repository_batch"
   ],
   "note": ""
  },
  {
   "property": "C107",
   "status": "partial",
   "theorems": [
    "Verif.C107_batch_distances_partial",
    "Verif.C107_stream_distances_partial",
    "Verif.C107_batch_partial",
    "Verif.C107_stream_partial",
    "Verif.C107_batch_znorm",
    "Verif.C107_stream_znorm",
    "Verif.C107_batch_euclidean",
    "Verif.C107_stream_euclidean"
   ],
   "note": "Proved for z-normalised generators and any data (C107_batch_znorm, C107_stream_znorm) and for Euclidean generators and any finite data, also calculations that raise (C107_batch_euclidean, C107_stream_euclidean). For calculators with generators of both classes C107_batch_partial and C107_stream_partial assume, when columns are calculated, that no two different subsequences of a Euclidean generator are at squared distance below 1e-15 (the code delivers NaN for those, C62, C66)."
  },
  {
   "property": "C108",
   "status": "proved",
   "theorems": [
    "Verif.C108_batch",
    "Verif.C108_stream"
   ],
   "note": ""
  },
  {
   "property": "C109",
   "status": "proved",
   "theorems": [
    "Verif.C109_batch",
    "Verif.C109_stream"
   ],
   "note": ""
  },
  {
   "property": "C110",
   "status": "partial",
   "theorems": [
    "Verif.C110_counts",
    "Verif.C110_multidimensional_partial",
    "Verif.C110_matrix_partial",
    "Verif.C110_profiles_partial",
    "Verif.C110_znorm",
    "Verif.C110_euclidean"
   ],
   "note": "Everything is proved except for Euclidean generators in calculations that calculate columns of data with different subsequences at squared distance below 1e-15, where the code delivers NaN (C66_euclidean_nan)."
  },
  {
   "property": "C111",
   "status": "partial",
   "theorems": [
    "Verif.C111_contextual_partial",
    "Verif.C111_counts",
    "Verif.C111_multidimensional_partial",
    "Verif.C111_matrix_partial",
    "Verif.C111_profiles_partial"
   ],
   "note": "Everything is proved except for Euclidean generators in calculations that calculate columns of data with different subsequences at squared distance below 1e-15, where the code delivers NaN (C66_euclidean_nan)."
  },
  {
   "property": "C112",
   "status": "proved",
   "theorems": [
    "Verif.C112_one_channel_stream",
    "Verif.C112_one_channel_batch",
    "Verif.C112_diagonals",
    "Verif.C112_columns_differ"
   ],
   "note": ""
  },
  {
   "property": "C113",
   "status": "proved",
   "theorems": [
    "Verif.C113_batch",
    "Verif.C113_stream"
   ],
   "note": ""
  },
  {
   "property": "C114",
   "status": "proved",
   "theorems": [
    "Verif.C114_counts",
    "Verif.C114_radius",
    "Verif.C114_duality",
    "Verif.C114_duality_stream"
   ],
   "note": ""
  },
  {
   "property": "C115",
   "status": "proved",
   "theorems": [
    "Verif.C115_thresholds_batch",
    "Verif.C115_thresholds_stream",
    "Verif.C115_distanced_batch",
    "Verif.C115_distanced_stream",
    "Verif.C115_radius0_batch",
    "Verif.C115_radius0_stream",
    "Verif.C115_radius_batch",
    "Verif.C115_radius_stream"
   ],
   "note": ""
  },
  {
   "property": "C116",
   "status": "proved",
   "theorems": [
    "Verif.C116_union",
    "Verif.C116_matrix_profile"
   ],
   "note": ""
  },
  {
   "property": "C117",
   "status": "proved",
   "theorems": [
    "Verif.C117_order",
    "Verif.C117_order_subset",
    "Verif.C117_order_anytime",
    "Verif.C117_anytime",
    "Verif.C117_subset",
    "Verif.C117_subset_pair",
    "Verif.C117_fewer_series"
   ],
   "note": ""
  },
  {
   "property": "C118",
   "status": "proved",
   "theorems": [
    "Verif.C118_euclidean",
    "Verif.C118_znorm",
    "Verif.C118_chain_znorm",
    "Verif.C118_chain_euclidean",
    "Verif.C118_lipschitz_znorm",
    "Verif.C118_lipschitz_euclidean"
   ],
   "note": ""
  },
  {
   "property": "C119",
   "status": "proved",
   "theorems": [
    "Verif.C119_profile",
    "Verif.C119_parameters"
   ],
   "note": ""
  },
  {
   "property": "C120",
   "status": "proved",
   "theorems": [
    "Verif.C120_consensus",
    "Verif.C120_consensus_subset",
    "Verif.C120_anytime",
    "Verif.C120_lengths"
   ],
   "note": ""
  },
  {
   "property": "C121",
   "status": "proved",
   "theorems": [
    "Verif.C121_consensus",
    "Verif.C121_anytime",
    "Verif.C121_pair"
   ],
   "note": ""
  },
  {
   "property": "C122",
   "status": "proved",
   "theorems": [
    "Verif.C122_consensus",
    "Verif.C122_lengths"
   ],
   "note": ""
  },
  {
   "property": "C123",
   "status": "partial",
   "theorems": [
    "Verif.C123_profile_partial",
    "Verif.C123_counts",
    "Verif.C123_contextual_partial"
   ],
   "note": ""
  }
 ]
}