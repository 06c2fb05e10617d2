{
 "claims": [
  {
   "property": "C01",
   "status": "proved",
   "theorems": [
    "Verif.C01_bitmap_exact"
   ],
   "note": ""
  },
  {
   "property": "C02",
   "status": "proved",
   "theorems": [
    "Verif.C02_dac_roundtrip"
   ],
   "note": ""
  },
  {
   "property": "C03",
   "status": "proved",
   "theorems": [
    "Verif.C03_zigzag"
   ],
   "note": ""
  },
  {
   "property": "C04",
   "status": "proved",
   "theorems": [
    "Verif.C04_snapshot_get"
   ],
   "note": ""
  },
  {
   "property": "C05",
   "status": "proved",
   "theorems": [
    "Verif.C05_snapshot_window"
   ],
   "note": ""
  },
  {
   "property": "C06",
   "status": "proved",
   "theorems": [
    "Verif.C06_snapshot_search"
   ],
   "note": ""
  },
  {
   "property": "C07",
   "status": "partial",
   "theorems": [
    "Verif.C07_log_get_partial",
    "Verif.C07_log_get_k2",
    "Verif.C07_exact",
    "Verif.C07_odd_wrong",
    "Verif.C07_overflow_wrong"
   ],
   "note": "All rasters that are not split by overflow (no aligned square in which the wrapped differences are all the same has cells where the difference overflows beside cells where it does not), which for even arities is exactly when reads are right (C07_exact); every even arity, and every odd arity whose nodemap lengths are not multiples of 32. False for the remaining odd-arity case: Verif.C10_odd_arity_panics is a concrete panic. The statement without these conditions is refuted: C07_odd_wrong, C07_overflow_wrong."
  },
  {
   "property": "C08",
   "status": "partial",
   "theorems": [
    "Verif.C08_log_window_partial",
    "Verif.C08_odd_wrong",
    "Verif.C08_overflow_wrong"
   ],
   "note": "Same restriction as C07. Refuted without it: C08_odd_wrong, C08_overflow_wrong."
  },
  {
   "property": "C09",
   "status": "partial",
   "theorems": [
    "Verif.C09_log_search_partial",
    "Verif.C09_unsafe_wrong",
    "Verif.C09_witnesses",
    "Verif.C09_consistent"
   ],
   "note": "False of the code in general. SearchSafe characterises exactly the raster pairs for which searches are right: the partial theorem proves correctness under it, C09_unsafe_wrong proves a wrong answer exists for every pair violating it (values within 2^61), C09_witnesses gives concrete ones. Whatever the rasters are, a search returns and gives the cells of the window that are in one set of cells, the same for all windows (C09_consistent)."
  },
  {
   "property": "C10",
   "status": "partial",
   "theorems": [
    "Verif.C10_reads_total_partial",
    "Verif.C10_single_cell_panics",
    "Verif.C10_odd_arity_panics"
   ],
   "note": "False of the code: every query of a 1x1 raster panics, and log reads of odd arity can panic; proved for all other shapes and all numbers, searches of logs also for odd arities."
  },
  {
   "property": "C11",
   "status": "proved",
   "theorems": [
    "Verif.C11_find_block",
    "Verif.C11_find_block_loaded",
    "Verif.C11_past_end"
   ],
   "note": "Any list of blocks; a chunk read from any bytes has the index of its blocks. C11_past_end shows the bound is exact."
  },
  {
   "property": "C12",
   "status": "partial",
   "theorems": [
    "Verif.C12_chunk_get_partial",
    "Verif.C12_exact",
    "Verif.C12_odd_wrong",
    "Verif.C12_overflow_wrong",
    "Verif.C12_single_cell_wrong"
   ],
   "note": "Every series that is not split by overflow (C07), which for even arities is exactly when reads are right (C12_exact), whatever blocks the builder forms; restrictions inherited from C07/C10 (1x1 shapes, some odd arities), where the claim is false. Refuted without them: C12_odd_wrong, C12_overflow_wrong, C12_single_cell_wrong."
  },
  {
   "property": "C13",
   "status": "partial",
   "theorems": [
    "Verif.C13_chunk_cell_partial",
    "Verif.C13_chunk_window_partial",
    "Verif.C13_odd_cell_wrong",
    "Verif.C13_odd_window_wrong",
    "Verif.C12_overflow_wrong"
   ],
   "note": "Same restriction as C12. Refuted without it: C13_odd_cell_wrong, C13_odd_window_wrong, C12_overflow_wrong."
  },
  {
   "property": "C14",
   "status": "partial",
   "theorems": [
    "Verif.C14_chunk_search_partial",
    "Verif.C14_unsafe_wrong",
    "Verif.C14_witness",
    "Verif.C10_chunk_search_total"
   ],
   "note": "False of the code in general (see C09): right when the pairs stored as logs are SearchSafe, provably wrong for some interval otherwise. Covers the lazy iterator and swapped bounds. Whatever the series is, searches return, and what they find fits together (C10_chunk_search_total)."
  },
  {
   "property": "C15",
   "status": "proved",
   "theorems": [
    "Verif.C15_block_limits"
   ],
   "note": ""
  },
  {
   "property": "C16",
   "status": "proved",
   "theorems": [
    "Verif.C16_bitmap",
    "Verif.C16_dac",
    "Verif.C16_snapshot",
    "Verif.C16_log",
    "Verif.C16_block",
    "Verif.C16_chunk",
    "Verif.C16_arity_limit"
   ],
   "note": "All built structures whose dimensions fit the fields of the format (FormatOk: arity below 256, complete tree below 2^32 nodes, fewer than 2^32 instants, fractional bits below 256)."
  },
  {
   "property": "C17",
   "status": "proved",
   "theorems": [
    "Verif.C17_sizes"
   ],
   "note": ""
  },
  {
   "property": "C18",
   "status": "partial",
   "theorems": [
    "Verif.C18_bitmap",
    "Verif.C18_chunk_partial",
    "Verif.C18_tree_partial",
    "Verif.C18_cut_accepted",
    "Verif.C18_snapshot_wrong",
    "Verif.C18_witness"
   ],
   "note": "False of the code: the last level of the last container is read with take().read_to_end(), so cuts inside it are accepted (C18_cut_accepted, C18_snapshot_wrong, C18_witness). All earlier cuts are proved to be errors, and all cuts of bit maps."
  },
  {
   "property": "C19",
   "status": "proved",
   "theorems": [
    "Verif.C19_integers",
    "Verif.C19_big_endian",
    "Verif.C19_strings",
    "Verif.C19_long_strings",
    "Verif.C19_cids"
   ],
   "note": "unsigned_varint and cid are modelled from their documentation."
  },
  {
   "property": "C20",
   "status": "proved",
   "theorems": [
    "Verif.C20_encoding_tags",
    "Verif.C20_distinct",
    "Verif.C20_chunk_rejected"
   ],
   "note": "Rejection is a panic, not an error value."
  },
  {
   "property": "C21",
   "status": "proved",
   "theorems": [
    "Verif.C21_partition"
   ],
   "note": "Any window, any grid with a positive side of its squares."
  },
  {
   "property": "C22",
   "status": "partial",
   "theorems": [
    "Verif.C22_superchunk_get_partial",
    "Verif.C22_float_get_partial",
    "Verif.C22_float_exact_partial",
    "Verif.C22_float_near_partial",
    "Verif.C22_type",
    "Verif.C22_odd_wrong",
    "Verif.C22_overflow_wrong"
   ],
   "note": "Integer and float buffers, even arity, any accepted levels, any store that holds what was saved without identifier collisions. Floats: exact without rounding, within half a unit with rounding, under the conditions C39-C41 and C27 need. Missing: odd arities (C07 is false for them). Refuted for them and for squares split by overflow: C22_odd_wrong, C22_overflow_wrong."
  },
  {
   "property": "C23",
   "status": "partial",
   "theorems": [
    "Verif.C23_superchunk_cell_partial",
    "Verif.C23_superchunk_window_partial",
    "Verif.C23_float_cell_partial",
    "Verif.C23_float_window_partial",
    "Verif.C22_odd_wrong",
    "Verif.C22_overflow_wrong"
   ],
   "note": "As C22, for every order in which the parts complete. Refuted without the conditions: C22_odd_wrong, C22_overflow_wrong."
  },
  {
   "property": "C24",
   "status": "partial",
   "theorems": [
    "Verif.C24_superchunk_search_partial",
    "Verif.C24_witness"
   ],
   "note": "Right when the squares of the grids are safe for log searches (GridSafe), for every order of completion. False in general: C24_witness."
  },
  {
   "property": "C25",
   "status": "partial",
   "theorems": [
    "Verif.C25_get_reports",
    "Verif.C25_cell_reports",
    "Verif.C25_span_reports",
    "Verif.C25_span_search_reports",
    "Verif.C25_superchunk_search_reports",
    "Verif.C25_window_never_reports",
    "Verif.C25_window_silent"
   ],
   "note": "Cell reads, span reads and searches report; window reads of superchunks never do (C25_window_never_reports, C25_window_silent): the claim is false of the code there."
  },
  {
   "property": "C26",
   "status": "partial",
   "theorems": [
    "Verif.C26_accepts_iff",
    "Verif.C26_float_accepts_iff",
    "Verif.C26_two_levels_partial",
    "Verif.C26_full_squares_partial",
    "Verif.C26_wrong"
   ],
   "note": "Exact condition for the builder to succeed on integers and floats (C26_accepts_iff, C26_float_accepts_iff); holds for up to two levels and for full squares; false in general (C26_wrong: 24 rows and columns, levels 1, 2, 2)."
  },
  {
   "property": "C27",
   "status": "partial",
   "theorems": [
    "Verif.C27_elision_partial",
    "Verif.C27_float_elision_partial",
    "Verif.C27_nan_wrong"
   ],
   "note": "Integers, and floats where no elided square mixes NaN with numbers. False for floats with leading NaNs: C27_nan_wrong."
  },
  {
   "property": "C28",
   "status": "partial",
   "theorems": [
    "Verif.C28_round_trip_partial",
    "Verif.C28_links_partial",
    "Verif.C28_stored_partial",
    "Verif.C28_built",
    "Verif.C28_float_built",
    "Verif.C28_any_built",
    "Verif.C28_limits",
    "Verif.C28_links_limits",
    "Verif.C28_span_limits",
    "Verif.C28_large_wrong"
   ],
   "note": "For all structures whose numbers fit the format, in particular all that the builder makes, from any numbers (C28_any_built). False for every other structure: C28_limits and its companions show that reading back what was written, whatever follows it, is equivalent to fitting the format."
  },
  {
   "property": "C29",
   "status": "proved",
   "theorems": [
    "Verif.C29_span_get",
    "Verif.C29_span_reads",
    "Verif.C29_span_search"
   ],
   "note": "Any tree of spans; searches for trees whose chunks are searched rightly."
  },
  {
   "property": "C30",
   "status": "proved",
   "theorems": [
    "Verif.C30_append",
    "Verif.C30_update",
    "Verif.C30_rejects_open",
    "Verif.C30_rejects_shape"
   ],
   "note": "Any span that holds a series (of any element type) and any structure that holds one."
  },
  {
   "property": "C31",
   "status": "partial",
   "theorems": [
    "Verif.C31_history_partial",
    "Verif.C31_append_succeeds_partial",
    "Verif.C31_unknown_name",
    "Verif.C31_float_history_partial",
    "Verif.C31_float_exact_partial",
    "Verif.C31_float_near_partial",
    "Verif.C31_float_append_succeeds_partial",
    "Verif.C31_i64_partial",
    "Verif.C31_types_wrong",
    "Verif.C31_overflow_wrong"
   ],
   "note": "Every history of operations on a data set (appends to this and other variables, new variables, commits, loads, failed operations), every chunk size >= 1 and span size >= 2, every order in which the reads of the tail complete. Integers: the arrays of a variable all of 32 or all of 64 bits; no square of a chunk is split by overflow (C07_exact). Floats: arrays of the type of the variable; exact without rounding, within half a unit with rounding however often a chunk is stored again, under the conditions of C22. Both: rasters the superchunk builder accepts (C26)."
  },
  {
   "property": "C32",
   "status": "proved",
   "theorems": [
    "Verif.C32_bytes",
    "Verif.C32_loaded",
    "Verif.C32_get",
    "Verif.C32_reads",
    "Verif.C32_contents_partial",
    "Verif.C32_float_contents_partial"
   ],
   "note": "Assuming no two different objects have the same identifier. C32_contents_partial and C32_float_contents_partial say what the old contents are."
  },
  {
   "property": "C33",
   "status": "partial",
   "theorems": [
    "Verif.C33_versions_partial",
    "Verif.C33_last_commit_partial",
    "Verif.C33_wrong",
    "Verif.C33_python_partial"
   ],
   "note": "Exactly the commits after which the data set was loaded again. False for other commits (C33_wrong): commit does not tell the data set its identifier, so going on with it drops the commit from the chain. The same in Python, with strings (C33_python_partial)."
  },
  {
   "property": "C34",
   "status": "proved",
   "theorems": [
    "Verif.C34_round_trip",
    "Verif.C34_limits",
    "Verif.C34_beyond"
   ],
   "note": "Every data set within the limits of the format (names below 256 bytes, fewer than 256 variables, 32-bit sizes); C34_limits: exactly these. C34_beyond: for any other, commit succeeds and what is loaded is not what was committed."
  },
  {
   "property": "C35",
   "status": "proved",
   "theorems": [
    "Verif.Cache.C35",
    "Verif.Cache.C35_links"
   ],
   "note": "Every sequence of gets by one task, every limit and sizes; loads may fail."
  },
  {
   "property": "C36",
   "status": "proved",
   "theorems": [
    "Verif.Cache.C36_honest",
    "Verif.Cache.C36_order",
    "Verif.Cache.C36_step",
    "Verif.Cache.C36_origin"
   ],
   "note": "Every sequence of gets by one task."
  },
  {
   "property": "C37",
   "status": "partial",
   "theorems": [
    "Verif.Cache.C37_one_at_a_time",
    "Verif.Cache.C37_answers",
    "Verif.Cache.C37_all_get_it",
    "Verif.Cache.C37_list_partial",
    "Verif.Cache.C37_call_partial",
    "Verif.Cache.C37_once_partial",
    "Verif.Cache.C37_wrong"
   ],
   "note": "Any number of tasks, every interleaving of the sections that hold a lock: no two loads of a key at a time, all answers right. That nothing is loaded twice and that the recency list stays intact is false (C37_wrong: a task that misses and is overtaken before it asks for the loader), and proved for schedules where that cannot happen, such as those of one thread."
  },
  {
   "property": "C38",
   "status": "proved",
   "theorems": [
    "Verif.Cache.C38_woken",
    "Verif.Cache.C38_not_forgotten",
    "Verif.Cache.C38_bounded",
    "Verif.Cache.C38_all_come_back",
    "Verif.Cache.C38_one_thread",
    "Verif.Cache.C38_wrong",
    "Verif.Cache.C38_after_panic"
   ],
   "note": "Any number of tasks and every interleaving in which no task is dropped. C38_wrong shows what dropped tasks and panics in load do (waiters panic or hang). C38_after_panic: after a panic in load every later get of the key hangs, also without concurrency."
  },
  {
   "property": "C39",
   "status": "partial",
   "theorems": [
    "Verif.C39_exact_partial",
    "Verif.C39_nan",
    "Verif.C39_turned_into_nan",
    "Verif.C39_minus_half",
    "Verif.C39_62_bits_wrong"
   ],
   "note": "proved for all values needing at most b bits, b<=61, both signs; false for b>=62 and for values strictly between -1 and -1/2 units (stored as NaN), exactly characterised"
  },
  {
   "property": "C40",
   "status": "partial",
   "theorems": [
    "Verif.C40_rounding_partial",
    "Verif.C40_inexact_rejected_partial",
    "Verif.C40_negative_accepted",
    "Verif.C40_decoded_nearest",
    "Verif.C40_append_exact"
   ],
   "note": "error bound proved for every stored number of both signs; rejection of inexact values proved for positive values and proved false for negative ones; decoding any stored integer gives the nearest float, ties to even; appends to variables without rounding accept only numbers of at most 61 fractional bits"
  },
  {
   "property": "C41",
   "status": "partial",
   "theorems": [
    "Verif.C41_suggestion_partial",
    "Verif.C41_negative_wrong",
    "Verif.C41_witness",
    "Verif.C41_infinite"
   ],
   "note": "proved for data without large negative values, float log2 a parameter assumed not to underestimate; false for data whose negative values outgrow the maximum"
  },
  {
   "property": "C42",
   "status": "partial",
   "theorems": [
    "Verif.C42_get",
    "Verif.C42_get_release",
    "Verif.C42_get_rejects",
    "Verif.C42_slice_partial",
    "Verif.C42_slice_release_partial",
    "Verif.C42_slice_rejects",
    "Verif.C42_slice_backwards_partial",
    "Verif.C42_wrong",
    "Verif.C42_time",
    "Verif.C42_time_slice"
   ],
   "note": "Integer and time ranges of every width, in both build profiles. Slices need the element after the last one to fit (C42_wrong), and a backwards slice is answered in release builds. FloatRange is C48."
  },
  {
   "property": "C43",
   "status": "proved",
   "theorems": [
    "Verif.C43_rect_iter",
    "Verif.C43_zero_width_diverges"
   ],
   "note": ""
  },
  {
   "property": "C44",
   "status": "partial",
   "theorems": [
    "Verif.C44_get_rejects",
    "Verif.C44_cell_rejects",
    "Verif.C44_window_rejects",
    "Verif.C44_search_rejects_partial",
    "Verif.C44_answered",
    "Verif.C44_search_floats",
    "Verif.C44_search_wrong"
   ],
   "note": "All four types of arrays, every structure, store and query. Searches only with bounds made by Cube::new: C44_search_wrong has a hit below the last row for bounds whose public fields were set by hand."
  },
  {
   "property": "C45",
   "status": "partial",
   "theorems": [
    "Verif.C45_listing",
    "Verif.C45_types",
    "Verif.C45_missing",
    "Verif.C45_gone",
    "Verif.C45_reads_partial",
    "Verif.C45_history",
    "Verif.C45_dataset",
    "Verif.C45_local_wrong",
    "Verif.C45_names_wrong"
   ],
   "note": "Listings of every object in every store show exactly the identifiers stored in it, whatever else is missing (C45_missing); reads of a data set depend only on what is reachable through listings, provided that superchunks keep only chunks inside themselves (C45_local_wrong has a superchunk that keeps a span, the builder makes none). After any history of any variable, whatever failed, nothing reachable is missing (C45_history), nor from a data set with all its variables and earlier versions after a commit, and nothing else is needed to read it (C45_dataset)."
  },
  {
   "property": "C46",
   "status": "proved",
   "theorems": [
    "Verif.C46_i32",
    "Verif.C46_i32_partial"
   ],
   "note": "Every history in which anything may fail, all 32-bit data: all reads of data_i32 (get, cell, window) return the arrays that were accepted. Settings within the limits of the format, chunk size >= 1, span size >= 2; no two objects with the same identifier. C46_i32_partial is about searches as well, which need what C09 and C24 need."
  },
  {
   "property": "C47",
   "status": "proved",
   "theorems": [
    "Verif.C47_identifier",
    "Verif.C47_distinct",
    "Verif.C47_others",
    "Verif.C47_undisturbed",
    "Verif.C47_again",
    "Verif.C47_reload"
   ],
   "note": "All objects and all sequences of saved objects. That nothing stored is disturbed needs that different bytes get different identifiers (NoCollision)."
  },
  {
   "property": "C48",
   "status": "partial",
   "theorems": [
    "Verif.C48_get",
    "Verif.C48_get_rejects",
    "Verif.C48_get_exact_partial",
    "Verif.C48_slice_partial",
    "Verif.C48_slice_rejects",
    "Verif.C48_slice_near_partial",
    "Verif.C48_length_wrong",
    "Verif.C48_latitudes_wrong",
    "Verif.C48_elements_wrong",
    "Verif.C48_empty_wrong",
    "Verif.C48_zero_wrong"
   ],
   "note": "get within rounding error for every range, and rejection, are proved. What is said about slices is proved for ranges on a binary grid and false for others: a slice may have one element too many (start 1, step 0.1; also the latitudes of the project's own example, era5_land_precip), other elements than get, or none; with a bound on the size of the numbers a slice has at most one element too many and all elements are near. Floats without limits on exponents."
  },
  {
   "property": "C49",
   "status": "partial",
   "theorems": [
    "Verif.C49_variable_partial",
    "Verif.C49_history_partial",
    "Verif.C49_too_many",
    "Verif.C49_out_of_bounds",
    "Verif.C49_coordinate_partial",
    "Verif.C49_float_partial",
    "Verif.C49_time",
    "Verif.C49_len",
    "Verif.C49_coordinate_rejects",
    "Verif.C49_step_wrong",
    "Verif.C49_reversed_wrong",
    "Verif.C49_negative_wrong",
    "Verif.C49_clamp_wrong",
    "Verif.C49_empty_wrong"
   ],
   "note": "Every variable whose array reads right (in particular after every history of C31) and every tuple of up to three ints and slices that are within bounds, without a step and not empty: result as NumPy's, of all shapes. False outside of that: steps are ignored, reversed slices give data, negative indices and slices that reach too far are rejected, slices that end at 0 panic. Integer and time coordinates likewise, and coordinates of floats on a binary grid (others: C48)."
  },
  {
   "property": "C50",
   "status": "proved",
   "theorems": [
    "Verif.C50_transparent",
    "Verif.C50_content",
    "Verif.C50_tasks",
    "Verif.C50_links"
   ],
   "note": "Every sequence of saves and reads, every cache size: the replies are those without a cache, up to a read that hangs, which needs an earlier panic on an unreadable object. Stores that lose objects: whatever is read is what is stored under the identifier. Concurrent reads in every interleaving without dropped tasks. Assumes that different bytes get different identifiers."
  },
  {
   "property": "C51",
   "status": "partial",
   "theorems": [
    "Verif.C51_store",
    "Verif.C51_hash",
    "Verif.C51_resolver",
    "Verif.C51_absent_wrong",
    "Verif.C51_unreachable_wrong"
   ],
   "note": "For every server that keeps what it is given: every object, however it is split into writes. False for identifiers that lead nowhere (load never answers None, the error message is parsed as an object and reading panics) and for servers that cannot be reached (panics). HTTP and JSON are not modelled."
  },
  {
   "property": "C52",
   "status": "partial",
   "theorems": [
    "Verif.C52_partial",
    "Verif.C52_struct",
    "Verif.C52_dataset",
    "Verif.C52_most",
    "Verif.C52_cache",
    "Verif.C52_wrong"
   ],
   "note": "True of all links and spans; false of every chunk, superchunk and data set (C52_wrong), for which the exact difference is proved, as well as a bound on the bytes of what the cache holds."
  },
  {
   "property": "C53",
   "status": "partial",
   "theorems": [
    "Verif.C53_add",
    "Verif.C53_add_empty",
    "Verif.C53_append",
    "Verif.C53_coordinate",
    "Verif.C53_history",
    "Verif.C53_lookup",
    "Verif.C53_duplicate_wrong"
   ],
   "note": "All histories, including failing operations. False for a name already in use: add_variable accepts it and the new variable can never be reached (C53_duplicate_wrong); a lookup gives the first that was declared."
  },
  {
   "property": "C54",
   "status": "partial",
   "theorems": [
    "Verif.C54_type",
    "Verif.C54_python",
    "Verif.C54_unsupported",
    "Verif.C54_coordinate",
    "Verif.C54_time_wrong"
   ],
   "note": "All histories, from Rust and from Python. False for the type Time (datetime64 in Python): such variables are accepted, can be appended to, and can never be read (C54_time_wrong)."
  },
  {
   "property": "C55",
   "status": "partial",
   "theorems": [
    "Verif.C55_partial",
    "Verif.C55_wrong"
   ],
   "note": "All data sets and names. False for variables with the name of a coordinate or of something the class defines (C55_wrong): the attribute is the other thing."
  },
  {
   "property": "C56",
   "status": "proved",
   "theorems": [
    "Verif.C56_shape",
    "Verif.C56_refused",
    "Verif.C56_open"
   ],
   "note": "All histories, including failing operations, and every append after them. The refusal is a panic in the code. Assumes that different bytes get different identifiers."
  },
  {
   "property": "C57",
   "status": "partial",
   "theorems": [
    "Verif.C57_works",
    "Verif.C57_two_levels",
    "Verif.C57_chunk_size_wrong",
    "Verif.C57_levels_wrong",
    "Verif.C57_span_size_wrong",
    "Verif.C31_float_append_succeeds_partial",
    "Verif.C57_float_wrong"
   ],
   "note": "False of the code for a chunk size of 0 and for levels that do not fit the shape (no append ever succeeds) and for a span size below 2 (after any history at most one chunk is held), although add_variable accepts them. For other settings appends of integers succeed after any history, whatever was appended before (C57_works), if the builder accepts the levels for all integers, which holds for one or two levels that add up (C57_two_levels). Floats are accepted within the conditions of C31 (C31_float_append_succeeds_partial); without rounding, an array that is accepted on its own may be refused when it shares a chunk with what is there already (C57_float_wrong)."
  },
  {
   "property": "C58",
   "status": "partial",
   "theorems": [
    "Verif.C58_seconds",
    "Verif.C58_fits",
    "Verif.C58_instants_partial",
    "Verif.C58_fraction_wrong",
    "Verif.C58_short_step_wrong",
    "Verif.C58_start_wrong",
    "Verif.C58_rejected"
   ],
   "note": "Every start and step of whole seconds, in the units from weeks to microseconds (starts also in years and months). False for fractions of seconds, which are dropped silently (a step below a second gives an axis of equal instants), and for nanoseconds and finer units, steps in months and years, and NaT, for which no axis is made. What NumPy does is stated in Model/PyTime.lean."
  },
  {
   "property": "C59",
   "status": "partial",
   "theorems": [
    "Verif.C59_int_partial",
    "Verif.C59_float_partial",
    "Verif.C59_rounded_wrong"
   ],
   "note": "Integers of one width, and floats that are stored exactly: all pairs of histories within the conditions of C31. False for floats that are rounded (C59_rounded_wrong): the number of bits of a chunk is chosen after a part of it was read back rounded, so it depends on how the series was split into appends."
  },
  {
   "property": "C60",
   "status": "proved",
   "theorems": [
    "Verif.C60_any",
    "Verif.C60_int_partial",
    "Verif.C60_float_partial"
   ],
   "note": "C60_any: all variables at once, arrays of all types with all values, operations that fail. Assumed are the limits of the format (settings that can work, fewer than 2^32 instants, fewer than 256 variables) and that no two objects have the same identifier. The two others are earlier versions for one variable."
  },
  {
   "property": "C61",
   "status": "partial",
   "theorems": [
    "Verif.C61_get",
    "Verif.C61_cell",
    "Verif.C61_search",
    "Verif.C61_window",
    "Verif.C61_i64_partial",
    "Verif.C61_i32_partial",
    "Verif.C61_float_partial",
    "Verif.C61_append_wrong"
   ],
   "note": "Cell reads and searches: all structures, stores and sets of missing objects. Windows: every cell that is written is right, those that are not stay zero (C25 says that nothing is reported); for histories within the conditions of C31. False for appends (C61_append_wrong): the tail is read back as a window, so what could not be loaded for a moment is stored as zeros and stays lost."
  },
  {
   "property": "C62",
   "status": "proved",
   "theorems": [
    "Verif.C62_any",
    "Verif.C62_ends",
    "Verif.C62_int_partial",
    "Verif.C62_float_partial"
   ],
   "note": "Every operation ends, in all executions; the others are arbitrary. C62_any: arrays of all types with all values, from data sets with any history within the limits of the format, if no two objects have the same identifier. The two partial theorems add what the version holds, within the conditions of C31."
  },
  {
   "property": "C63",
   "status": "partial",
   "theorems": [
    "Verif.C63_any",
    "Verif.C63_int_partial",
    "Verif.C63_float_partial",
    "Verif.C62_ends"
   ],
   "note": "All points of failure, but for loads that fail unnoticed while the tail of the variable is read back: those can lose data (C61_append_wrong). Otherwise in full (C63_any): arrays of all types with all values, from data sets with any history within the limits of the format, if no two objects have the same identifier."
  },
  {
   "property": "C64",
   "status": "partial",
   "theorems": [
    "Verif.C64_instants",
    "Verif.C64_int_partial",
    "Verif.C64_float_partial",
    "Verif.C64_shape"
   ],
   "note": "No assumption that any append succeeds: arrays may have any shape, the builder may refuse them. The number of instants and that arrays of other shapes fail in full (C64_instants, C64_shape). Partial: the arrays that were accepted are within the conditions of C31 other than that the builder accepts them (IntBase, FltBase), and no two objects have the same identifier."
  },
  {
   "property": "C65",
   "status": "partial",
   "theorems": [
    "Verif.C65_struct_partial",
    "Verif.C65_links_partial",
    "Verif.C65_dataset_partial",
    "Verif.C65_identifier_partial",
    "Verif.C65_distinct_partial",
    "Verif.C65_trailing_wrong",
    "Verif.C65_flag_wrong"
   ],
   "note": "All bytes, whoever has written them. False of the code in two ways, otherwise proved: bytes after the end of an object are never looked at, and in data sets a flag other than 0 and 1 is taken for 0."
  },
  {
   "property": "C66",
   "status": "partial",
   "theorems": [
    "Verif.C66_ends",
    "Verif.C66_links_partial",
    "Verif.C66_magic_panics",
    "Verif.C66_kind_panics",
    "Verif.C66_tag_panics"
   ],
   "note": "Loading ends for all bytes, and bytes with the header of a list of links are never a panic. False of the code otherwise: bytes that do not begin as an object, unknown tags and identifiers of objects of another kind panic."
  },
  {
   "property": "C67",
   "status": "partial",
   "theorems": [
    "Verif.C67_container",
    "Verif.C67_bitmap",
    "Verif.C67_snapshot",
    "Verif.C67_log",
    "Verif.C67_snapshot_uniform",
    "Verif.C67_log_uniform",
    "Verif.C67_most",
    "Verif.C67_snapshot_bytes",
    "Verif.C67_log_bytes",
    "Verif.C67_uniform_bytes",
    "Verif.C67_shift_wrong"
   ],
   "note": "Exact numbers of stored values and bits, for all rasters. False of the code in one way: a square that differs from the snapshot by one amount is divided all the same if it reaches over the edge of the raster. Bytes: exact, as a function of the values of the raster, for containers, snapshots and logs."
  },
  {
   "property": "C68",
   "status": "proved",
   "theorems": [
    "Verif.C68_choice",
    "Verif.C68_bytes",
    "Verif.C68_never_worse",
    "Verif.C68_static"
   ],
   "note": "All series of integers (floats are stored as integers). Sizes are numbers of bytes that are written; C68_bytes: exactly how many, as a function of the values."
  },
  {
   "property": "C69",
   "status": "partial",
   "theorems": [
    "Verif.C69_superchunk",
    "Verif.C69_float_partial"
   ],
   "note": "Integers in full; floats under the conditions of FltInput (false otherwise, C27)."
  },
  {
   "property": "C70",
   "status": "partial",
   "theorems": [
    "Verif.Example.C70_i32",
    "Verif.Example.C70_i64_partial",
    "Verif.Example.C70_float_partial",
    "Verif.Example.C70_copy_i32_partial",
    "Verif.Example.C70_copy_i64_partial",
    "Verif.Example.C70_copy_float_partial",
    "Verif.Example.C70_add_i32_partial",
    "Verif.Example.C70_add_i64_partial",
    "Verif.Example.C70_add_float_partial",
    "Verif.Example.C70_progress_i32_partial",
    "Verif.Example.C70_progress_i64_partial",
    "Verif.Example.C70_progress_float_partial",
    "Verif.Example.C70_cpc",
    "Verif.Example.C70_era5",
    "Verif.Example.C70_lost",
    "Verif.Example.C70_limit_wrong",
    "Verif.Example.C70_head_wrong"
   ],
   "note": "All sequences of commands and points of failure, for 32-bit integers without conditions, for 64-bit integers and floats within the conditions of C31 (what the encoder does not lose, C10 and C27); a copy that is broken off has published all chunks but the last ones that are less than commit_every (C70_progress); the levels of the two data sets of the program are accepted for all data (C70_cpc, C70_era5). False of the code in two ways: a process that is killed while the head file is written leaves an empty one, and then no command works again and the head is lost (C70_lost, C70_head_wrong); a limit is rounded up to whole chunks (C70_limit_wrong). xarray, NumPy and dclimate are not modelled: a source is an array."
  },
  {
   "property": "C71",
   "status": "partial",
   "theorems": [
    "Verif.Example.C71_list",
    "Verif.Example.C71_lines",
    "Verif.Example.C71_fails",
    "Verif.Example.C71_runs",
    "Verif.Example.C71_shared_wrong",
    "Verif.Example.C71_start_wrong",
    "Verif.Example.C71_slash_wrong"
   ],
   "note": "Listing in full, for all stores, and after any runs with any numbers. Bytes: the exact number is proved, which counts an object once for every way to it (C71_shared_wrong: more bytes than the store has) and does not count the object itself (C71_start_wrong: none for a subchunk). False of names with a slash (C71_slash_wrong)."
  },
  {
   "property": "C72",
   "status": "proved",
   "theorems": [
    "Verif.Example.C72_cells",
    "Verif.Example.C72_all",
    "Verif.Example.C72_start",
    "Verif.Example.C72_start_wrong"
   ],
   "note": "All cells and days. A file whose first time is not at midnight is taken for the day silently (C72_start_wrong). flip and roll of NumPy are modelled from their documentation."
  },
  {
   "property": "C73",
   "status": "proved",
   "theorems": [
    "Verif.C73_reads",
    "Verif.C73_cpc",
    "Verif.C73_era5"
   ],
   "note": "All histories, any numbers, any failures; all four reads. Hypotheses: the settings are within the limits of the format, no two objects have the same identifier. Windows and searches of at least one row and column. Time ranges that are the wrong way round are covered for cell and window, not for search."
  },
  {
   "property": "C74",
   "status": "proved",
   "theorems": [
    "Verif.C74_one_array"
   ],
   "note": "All histories, any numbers of any type, any failures. Hypotheses: the settings are within the limits of the format, no two objects have the same identifier. Which cells a search gives is C14 and C24."
  },
  {
   "property": "C75",
   "status": "proved",
   "theorems": [
    "Verif.C75_int",
    "Verif.C75_float",
    "Verif.C75_empty_wrong"
   ],
   "note": "All histories, any numbers of any type, any failures. Hypotheses: the settings are within the limits of the format, no two objects have the same identifier. A chunk counts as intact if all arrays appended within it are of 32 bits, or all are of 64 bits and split no square by overflow; for floats, what C64 asks for is asked for the chunk alone. Within a chunk damage does spread: C75_empty_wrong."
  },
  {
   "property": "C76",
   "status": "partial",
   "theorems": [
    "Verif.Example.C76_exact",
    "Verif.Example.C76_i32",
    "Verif.Example.C76_i64_partial",
    "Verif.Example.C76_float_partial",
    "Verif.Example.C76_missing_wrong"
   ],
   "note": "If all objects can be loaded: exactly what verify answers, for every data set that reads right (C76_exact), in particular after any runs of the program, for 32-bit integers without conditions, for others within the conditions of C70. If some cannot be loaded: a run that finds nothing can only be wrong about cells that are zero in the source; false for those (C76_missing_wrong), because windows leave zeros where objects are missing (C25)."
  },
  {
   "property": "C77",
   "status": "proved",
   "theorems": [
    "Verif.C77_views",
    "Verif.C77_views1",
    "Verif.C77_window_writes_once",
    "Verif.C77_cell_writes_once",
    "Verif.C77_window_views",
    "Verif.C77_cell_views",
    "Verif.C77_build_views",
    "Verif.C77_build_slices",
    "Verif.C77_window",
    "Verif.C77_cell"
   ],
   "note": "All structures, stores and windows, without conditions on the data. C77_window and C77_cell: reading on views, with slices and writes that are checked, is the same as what the other theorems are about. What ndarray does inside a view is not modelled; nor is which references Rust's rules allow while others are not used."
  },
  {
   "property": "C78",
   "status": "proved",
   "theorems": [
    "Verif.C78_any",
    "Verif.C78_commit",
    "Verif.C78_int_partial",
    "Verif.C78_float_partial"
   ],
   "note": "C78_any and C78_commit: arrays of all types with all values, from data sets with any history within the limits of the format, if no two objects have the same identifier. An object that is needed twice is loaded once. Reads whose loads fail are C61. The two partial theorems add what is read, within the conditions of C31."
  },
  {
   "property": "C79",
   "status": "partial",
   "theorems": [
    "Verif.C79_full_chunks",
    "Verif.C79_int_partial",
    "Verif.C79_float_partial",
    "Verif.C79_tail_wrong"
   ],
   "note": "C79_full_chunks has no condition on the arrays, only the limits of the format and that no two objects have the same identifier. For the chunk that is not full the property is false of the code in general (C79_tail_wrong: a variable that rounds loses bits of what it held when a huge number is appended to the same chunk; see also C75_empty_wrong); it holds if nothing overflows (C79_int_partial) and if the number of bits stays the same (C79_float_partial)."
  },
  {
   "property": "C80",
   "status": "partial",
   "theorems": [
    "Verif.C80_levels",
    "Verif.C80_empty",
    "Verif.C80_binary_partial",
    "Verif.C80_binary_wrong",
    "Verif.C80_refused_wrong",
    "Verif.C80_clogOk",
    "Verif.C80_settings",
    "Verif.C80_log2",
    "Verif.C80_suggestion"
   ],
   "note": "All arities: never too small, and at most one too large, only for powers of the arity. Arity two, which datasets use: right for all lengths below 2^32 but 2^29 and 2^31, for which it is one too large (C80_binary_wrong), so the right levels are refused (C80_refused_wrong). The logarithm to base two: in full. C80_clogOk, C80_settings, C80_log2 and C80_suggestion are what the other theorems assume of the logarithms, for arrays with sides below 2^29."
  },
  {
   "property": "C81",
   "status": "partial",
   "theorems": [
    "Verif.C81_retrieve",
    "Verif.C81_reads",
    "Verif.C81_missing",
    "Verif.C81_append",
    "Verif.C81_shared_partial",
    "Verif.C81_shared_wrong",
    "Verif.C81_ipfs_wrong",
    "Verif.C81_ls_wrong"
   ],
   "note": "Proved for reads and appends that go to the store themselves. False of the code when two tasks need the same absent object at the same time: the one that waits gets Error::Load (OSError) and not NotFound (C81_shared_wrong; C81_shared_partial says what holds); of the IPFS mapper, which never says that an object is absent (C81_ipfs_wrong); and of ls and du of the example program, which say of an object with a wrong identifier in it that it is not found (C81_ls_wrong)."
  },
  {
   "property": "C82",
   "status": "proved",
   "theorems": [
    "Verif.C82_append",
    "Verif.C82_other",
    "Verif.C82_cpc"
   ],
   "note": "All histories, arrays of all types with all values, any earlier failures; appends that succeed. Hypotheses: the settings are within the limits of the format, no two objects have the same identifier. Objects that are saved more than once are counted each time. Spec.parts is a bound for the parts of one superchunk that depends on the levels alone."
  },
  {
   "property": "C83",
   "status": "partial",
   "theorems": [
    "Verif.C83_elements_partial",
    "Verif.C83_int_wrong",
    "Verif.C83_float_wrong",
    "Verif.C83_time",
    "Verif.C83_variable_partial",
    "Verif.C83_variable_wrong",
    "Verif.C83_variable_late",
    "Verif.C83_slice",
    "Verif.C83_scalar",
    "Verif.C83_load",
    "Verif.C83_shape"
   ],
   "note": "False of the code: the loop over a coordinate of numbers gives all elements and then raises PanicException, and so does `in` for what is not there (C83_int_wrong, C83_float_wrong); the loop over a variable never ends and reads nothing (C83_variable_wrong), the slices past the end panic when they are used (C83_variable_late). What holds: the elements that are given are right and in order (C83_elements_partial, C83_variable_partial, the latter where the variable reads right), time (C83_time, builds without overflow checks) and what has been read of a variable (C83_slice, C83_scalar); what cannot be loaded is raised (C83_load, C83_shape)."
  },
  {
   "property": "C84",
   "status": "proved",
   "theorems": [
    "Verif.C84_append",
    "Verif.C84_other",
    "Verif.C84_cpc"
   ],
   "note": "All histories, arrays of all types with all values and shapes, any earlier failures; appends that succeed. Hypotheses: the settings are within the limits of the format, no two objects have the same identifier, and the order in which the window read of the last chunk makes its calls depends on nothing but what orders are possible (Fill.Fair; the order is left open by the model). Spans that the append saves and then loads again are among the objects counted."
  },
  {
   "property": "C85",
   "status": "partial",
   "theorems": [
    "Verif.C85_build_same",
    "Verif.C85_reads_same",
    "Verif.C85_reads_right",
    "Verif.C85_build_middle",
    "Verif.C85_wide_panics",
    "Verif.C85_wrap_panics",
    "Verif.C85_search_same_partial",
    "Verif.C85_search_exact",
    "Verif.C85_search_third",
    "Verif.C85_any",
    "Verif.C85_any_panics",
    "Verif.C85_search_panics"
   ],
   "note": "Of any chunk, also one that was built without checks, a read gives the same or panics (C85_any). Builds and reads in full, for rasters with two cells on the longer side (C10). False of searches: where a constant raster is stored as a log, the search adds its difference from the largest number of the snapshot to the smallest, which may overflow although every number stored and every difference of cells fits (C85_search_panics). C85_search_same_partial says when it does not, C85_search_exact that this condition is exact, C85_search_third that numbers below a third of the range are enough. Of chunks; superchunks and what is above do no arithmetic on the numbers themselves but to find their extremes."
  },
  {
   "property": "C86",
   "status": "proved",
   "theorems": [
    "Verif.C86_places",
    "Verif.C86_cell",
    "Verif.C86_logarithmic"
   ],
   "note": "All series, without conditions on the values. A place is an entry of an index, a word of a bit map, a byte of a list of integers, or a number of the header; C86_places: there is nothing else in a chunk. The bound, 228 for a level of the tree, is not sharp: it counts what is looked at twice, and all eight bytes of every number."
  },
  {
   "property": "C87",
   "status": "proved",
   "theorems": [
    "Verif.C87_snapshot",
    "Verif.C87_log",
    "Verif.C87_chunk",
    "Verif.C87_few_above",
    "Verif.C87_few_below",
    "Verif.C87_few_outside",
    "Verif.C87_few_window",
    "Verif.C87_output",
    "Verif.C87_snapshot_wrong"
   ],
   "note": "Snapshots without conditions on the values; logs where no difference overflows and searches are right (SearchSafe, C09). Of a snapshot the parts of a mixed square count as well, because the test of a part takes the least value of the whole (C87_snapshot_wrong: the search looks into a square all of whose values are in the range). The constants are not sharp."
  },
  {
   "property": "C88",
   "status": "proved",
   "theorems": [
    "Verif.C88_series",
    "Verif.C88_window",
    "Verif.C88_logarithmic"
   ],
   "note": "Without conditions on the values; the places are those of C86, which are all there is in a chunk."
  },
  {
   "property": "C89",
   "status": "partial",
   "theorems": [
    "Verif.C89_snapshot_partial",
    "Verif.C89_log_partial",
    "Verif.C89_snapshot_model_partial",
    "Verif.C89_log_model_partial",
    "Verif.C89_depth_partial",
    "Verif.C89_forever_wrong",
    "Verif.C89_undetermined_wrong"
   ],
   "note": "Proved for all objects in which k is not 1, as in everything that the library writes. For k = 1 it is wrong of the code: 64 bytes load without complaint and a read of a cell inside of the shape never ends (F56). Without the limit of the models on the depth of the recursion; with it the models give the same."
  },
  {
   "property": "C90",
   "status": "partial",
   "theorems": [
    "Verif.C90_same",
    "Verif.C90_exact",
    "Verif.C90_exact_written",
    "Verif.C90_partial",
    "Verif.C90_written_partial",
    "Verif.C90_each_partial",
    "Verif.C90_chunk_wrong",
    "Verif.C90_links_wrong",
    "Verif.C90_wrong"
   ],
   "note": "For objects that load what is asked for is exactly the lengths of their vectors and names (C90_exact). The bound is proved for all objects that load, and so for all that the library writes. For objects that do not load it is wrong of the code: 14 bytes that end after the number of blocks of a chunk ask for any number below 2^32 of blocks and of places of the index, 11 bytes of links for as many identifiers; no single request is for more. Places are elements; how many bytes an element takes in memory is not modelled."
  },
  {
   "property": "C91",
   "status": "partial",
   "theorems": [
    "Verif.C91_cut_partial",
    "Verif.C91_written_partial",
    "Verif.C91_store_partial",
    "Verif.C91_search_wrong"
   ],
   "note": "Loading in full: all objects, all other bytes that do not panic, all cuts, all stores. False of the code for what is done with an object that was cut in its last container, which loads (C18): a search in it may panic (C91_search_wrong)."
  },
  {
   "property": "C92",
   "status": "partial",
   "theorems": [
    "Verif.C92_snapshot",
    "Verif.C92_cell",
    "Verif.C92_log_partial",
    "Verif.C92_window_partial",
    "Verif.C92_built",
    "Verif.C92_log_wrong"
   ],
   "note": "In full for snapshots, for series of cells and for what the library builds with an even arity, whatever the numbers. For windows of any chunk that loads: a window that can be read holds what the cells give and each of them can be read. The other direction is false of the code for logs that the library has not written (C92_log_wrong)."
  },
  {
   "property": "C93",
   "status": "proved",
   "theorems": [
    "Verif.C93_snapshot",
    "Verif.C93_log",
    "Verif.C93_chunk",
    "Verif.C93_array"
   ],
   "note": "For all objects, built or not, all stores, all orders of the tasks, runs that fail included. Windows must not be empty and their sides in order, as Cube::new puts them (C44_search_wrong shows a search that goes beyond the raster otherwise)."
  },
  {
   "property": "C94",
   "status": "partial",
   "theorems": [
    "Verif.C94_cell",
    "Verif.C94_array_cell",
    "Verif.C94_chunk",
    "Verif.C94_window_partial",
    "Verif.C94_window_wrong"
   ],
   "note": "Series and windows of chunks: all objects, built or not, all stores, all orders of the tasks. Windows of any structure: if the objects that it refers to can be loaded, or panic (Spec.Whole). Without this it is false of the code (C94_window_wrong, F9)."
  },
  {
   "property": "C95",
   "status": "proved",
   "theorems": [
    "Verif.C95_cell",
    "Verif.C95_cell_iff",
    "Verif.C95_window",
    "Verif.C95_array_cell",
    "Verif.C95_array_window"
   ],
   "note": "For all stores, built or not, all structures loaded from them, all orders of the tasks, runs that fail included. Windows must not be empty and their sides in order, as Cube::new puts them. That a cell of a window may keep its zero is part of the statement (see C94_window_wrong, F9)."
  },
  {
   "property": "C96",
   "status": "partial",
   "theorems": [
    "Verif.C96_search",
    "Verif.C96_cell",
    "Verif.C96_window_partial",
    "Verif.C96_window_plain_partial",
    "Verif.C96_built",
    "Verif.C96_window_wrong",
    "Verif.C96_error_wrong"
   ],
   "note": "Searches and series: all structures, built or not, all stores, all orders of the tasks. Windows: if the objects that the structure refers to can be loaded, or panic (Spec.Whole), or else if no superchunk leads to a span (Spec.Plain), whatever is missing; so for all variables of data sets with any history (C96_built). Without either it is false of the code (C96_window_wrong, F60); which of several errors is given depends on the order (C96_error_wrong)."
  },
  {
   "property": "C97",
   "status": "partial",
   "theorems": [
    "Verif.C97_window_partial",
    "Verif.C97_built",
    "Verif.C97_window_wrong"
   ],
   "note": "All stores and all structures loaded from them in which no superchunk leads to a span (Spec.Plain), whatever is missing; so all variables of data sets with any history, in any part of their store (C97_built). Of other structures it is false of the code (C97_window_wrong, F60). Windows must not be empty and their sides in order, as Cube::new puts them."
  },
  {
   "property": "C98",
   "status": "partial",
   "theorems": [
    "Verif.C98_int32",
    "Verif.C98_int64",
    "Verif.C98_float64",
    "Verif.C98_made",
    "Verif.C98_refused",
    "Verif.C98_stored_partial",
    "Verif.C98_steps_wrong"
   ],
   "note": "All names, arguments and types; which arguments make a coordinate, and what it is, is an equivalence for integers. That the elements come back after a commit is proved for data sets within the limits of C34, so for less than 2^32 elements, and for elements of integers whose products and sums fit the type (see C42); for more it is false of the code (C98_steps_wrong, F61). Floats: the bits of start and step are kept (elements: C48); conversion of ints to floats and to 32 bits is a parameter."
  },
  {
   "property": "C99",
   "status": "proved",
   "theorems": [
    "Verif.C99_round_trip",
    "Verif.C99_path",
    "Verif.C99_injective",
    "Verif.C99_commit",
    "Verif.C99_prev",
    "Verif.C99_refused"
   ],
   "note": "All valid identifiers; text in base 58 (version 0) and base 32 (version 1), modelled from the documentation of the crates cid and multibase. What multibase does with other encodings is a parameter that the theorems hold for every value of. Data sets as in C34 (within the limits of the format, no collision of the hash among the objects of the store). Paths: what is before /ipfs/ has no slash."
  },
  {
   "property": "C100",
   "status": "partial",
   "theorems": [
    "Verif.C100_same",
    "Verif.C100_partial",
    "Verif.C100_items",
    "Verif.C100_wrong"
   ],
   "note": "All histories. Partial because it is false of the code for data sets whose shape is not the lengths of their coordinates, which are made without an error (C100_wrong, F62). Elements of coordinates: integers of both widths whose elements fit their type (C42); for floats lengths only (elements: C48)."
  },
  {
   "property": "C101",
   "status": "partial",
   "theorems": [
    "Verif.C101_i32_partial",
    "Verif.C101_i64_partial",
    "Verif.C101_float_partial",
    "Verif.C101_copy",
    "Verif.C101_stays",
    "Verif.C101_meanwhile"
   ],
   "note": "End to end, for all sessions: any operations before and after the variable is added, other variables included. What is seen are the arrays whose appends succeeded, one after the other. 32-bit integers: any values. 64-bit integers and floats: under the assumptions of C64 on the arrays that were accepted. Partial because plain indices are assumed, outside of which it is false of the code (C49), and because of the limits of C31 and C39; datetime64 variables have no data in Python (C54). What is seen stays seen after any later operations of anybody (C101_stays), and while they run (C101_meanwhile), and is seen in every store with what listings lead to from the string (C101_copy)."
  }
 ]
}
