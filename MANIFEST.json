{
 "claims": [
  {
   "property": "C01",
   "status": "partial",
   "theorems": [
    "Feat.C01_archive_bounds_partial",
    "Feat.C01_huge_advance_escapes"
   ],
   "note": "Full claim is false: update_buffer_ptr does not guard pointer overflow (C01_huge_advance_escapes). Proved for all histories whose advances do not reach the end of the address space (always so for the 32-bit advances the library issues on a 64-bit platform)."
  },
  {
   "property": "C02",
   "status": "proved",
   "theorems": [
    "Feat.C02_mode_discipline"
   ],
   "note": ""
  },
  {
   "property": "C03",
   "status": "proved",
   "theorems": [
    "Feat.C03_endianness_scalar",
    "Feat.C03_endianness_all"
   ],
   "note": ""
  },
  {
   "property": "C04",
   "status": "proved",
   "theorems": [
    "Feat.C04_round_trip"
   ],
   "note": "All nestings via the type universe Ty."
  },
  {
   "property": "C05",
   "status": "proved",
   "theorems": [
    "Feat.C05_truncation"
   ],
   "note": ""
  },
  {
   "property": "C06",
   "status": "proved",
   "theorems": [
    "Feat.C06_time_point",
    "Feat.C06_duration"
   ],
   "note": ""
  },
  {
   "property": "C07",
   "status": "proved",
   "theorems": [
    "Feat.C07_foreign_version"
   ],
   "note": "All transformer classes of the library except the standard scaler, which has no version field."
  },
  {
   "property": "C08",
   "status": "partial",
   "theorems": [
    "Feat.C08_reload_partial",
    "Feat.C08_float_min_max"
   ],
   "note": "Full claim is false for floating point min-max scalers (C08_float_min_max: min + (max - min) rounds). Proved for every other transformer class, with lag/lead offsets below 2^31 and imputer frequencies in whole microseconds."
  },
  {
   "property": "C09",
   "status": "proved",
   "theorems": [
    "Feat.C09_life_cycle",
    "Feat.C09_hook_answers"
   ],
   "note": ""
  },
  {
   "property": "C10",
   "status": "proved",
   "theorems": [
    "Feat.C10_at_most_one",
    "Feat.C10_only_completed"
   ],
   "note": ""
  },
  {
   "property": "C11",
   "status": "proved",
   "theorems": [
    "Feat.C11_append_only",
    "Feat.C11_lookup",
    "Feat.C11_rejections"
   ],
   "note": ""
  },
  {
   "property": "C12",
   "status": "partial",
   "theorems": [
    "Feat.C12_published",
    "Feat.C12_split_independence",
    "Feat.C12_cap",
    "Feat.C12_existing_annotation_partial",
    "Feat.C12_second_annotation"
   ],
   "note": "Split independence and cap are proved in full. \"Adds no second annotation\" is false for the mode, index map and global minimum frequency estimators, which are constructed with requiresTraining = false (C12_second_annotation); it is proved for all others."
  },
  {
   "property": "C13",
   "status": "partial",
   "theorems": [
    "Feat.C13_sequential_partial",
    "Feat.C13_order",
    "Feat.C13_nested_pipeline",
    "Feat.C13_stateful_stage"
   ],
   "note": "Full claim is false when a stage itself asks for several passes (C13_nested_pipeline) and when a transformer with state precedes a stage that stops before the end of the data (C13_stateful_stage). Proved: with stages that need one pass and, before the last stage, transformers without state, the standard loop ends and is equal to training the stages one after another on the whole transformed data, exceptions included; and, for arbitrary stages, transformers and call sequences, that no stage begins before all earlier ones are completed."
  },
  {
   "property": "C14",
   "status": "proved",
   "theorems": [
    "Feat.C14_composition"
   ],
   "note": ""
  },
  {
   "property": "C15",
   "status": "proved",
   "theorems": [
    "Feat.C15_pipeline",
    "Feat.library_roundTrips"
   ],
   "note": ""
  },
  {
   "property": "C16",
   "status": "proved",
   "theorems": [
    "Feat.C16_rows",
    "Feat.C16_flush"
   ],
   "note": ""
  },
  {
   "property": "C17",
   "status": "partial",
   "theorems": [
    "Feat.C17_filtered_training_partial",
    "Feat.C17_several_passes"
   ],
   "note": "Full claim is false for estimators that need several passes, because the filter does not forward on_data_completed (C17_several_passes). Proved, exceptions included, for every estimator with the default on_data_completed."
  },
  {
   "property": "C18",
   "status": "proved",
   "theorems": [
    "Feat.C18_counts",
    "Feat.C18_order_independence"
   ],
   "note": "Counts are 32-bit: stated for fewer than 2^32 items (with more the C++ counter wraps)."
  },
  {
   "property": "C19",
   "status": "partial",
   "theorems": [
    "Feat.C19_index_map",
    "Feat.C19_bijection",
    "Feat.C19_distinct_partial",
    "Feat.C19_collision"
   ],
   "note": "Proved in full without pre-existing labels. With arbitrary pre-existing labels distinctness is false (C19_collision) and proved under the assumption that their indexes are distinct and smaller than their number."
  },
  {
   "property": "C20",
   "status": "partial",
   "theorems": [
    "Feat.C20_label_encoder",
    "Feat.C20_one_hot",
    "Feat.C20_numericalize",
    "Feat.C20_given_labels_partial",
    "Feat.C20_given_labels_out_of_range"
   ],
   "note": "Proved end to end (pipeline training included) for encoders without given labels, and for given labels with distinct indexes below their number; false for arbitrary given labels."
  },
  {
   "property": "C21",
   "status": "proved",
   "theorems": [
    "Feat.C21_mode"
   ],
   "note": ""
  },
  {
   "property": "C22",
   "status": "proved",
   "theorems": [
    "Feat.C22_median",
    "Feat.C22_unique"
   ],
   "note": "Any totally ordered value type; the mean of the two middle values is a parameter."
  },
  {
   "property": "C23",
   "status": "partial",
   "theorems": [
    "Feat.C23_integers_partial",
    "Feat.C23_exact",
    "Feat.C23_uint64"
   ],
   "note": "False for uint64_t values of 2^63 or more, where the overflow check itself overflows (C23_uint64). Proved for all other integer inputs with an exact criterion for the overflow exception, and for floating point in exact arithmetic (with rounding: C71)."
  },
  {
   "property": "C24",
   "status": "partial",
   "theorems": [
    "Feat.C24_min_max_partial",
    "Feat.C24_infinity"
   ],
   "note": "False for infinite floating point values (C24_infinity); proved for all values between the numeric limits."
  },
  {
   "property": "C25",
   "status": "partial",
   "theorems": [
    "Feat.C25_frequency_partial",
    "Feat.C25_long_gap",
    "Feat.C25_time_series_partial"
   ],
   "note": "False for gaps of 2^63-1 ticks or more (C25_long_gap); proved for data spanning less. The time series estimator publishes the longest duration instead of throwing when no grain has two rows."
  },
  {
   "property": "C26",
   "status": "partial",
   "theorems": [
    "Feat.C26_integers_partial",
    "Feat.C26_exact",
    "Feat.C26_int8",
    "Feat.C26_int32"
   ],
   "note": "Proved for exact real inputs and for integer widths where the differences do not overflow; C26_int8/C26_int32 give the counterexamples (wrap-around after promotion back to the input width, resp. undefined behaviour). Floating point rounding: see C68."
  },
  {
   "property": "C27",
   "status": "partial",
   "theorems": [
    "Feat.C27_maxAbs_integers_partial",
    "Feat.C27_maxAbs_exact",
    "Feat.C27_int32_min",
    "Feat.C27_quantile_range",
    "Feat.C27_robust_integers_partial",
    "Feat.C27_robust_exact",
    "Feat.C27_robust_int32",
    "Feat.C27_robust_no_values",
    "Feat.C27_standard_integers_partial",
    "Feat.C27_standard_exact"
   ],
   "note": "False at the minimum of a signed width and when differences overflow (C27_int32_min, C27_robust_int32); robust scaling without any value throws. Proved elsewhere, in exact arithmetic (with rounding: max-abs C69, standard C72)."
  },
  {
   "property": "C28",
   "status": "partial",
   "theorems": [
    "Feat.C28_l1",
    "Feat.C28_l2",
    "Feat.C28_max",
    "Feat.C28_max_integers_partial",
    "Feat.C28_int8",
    "Feat.C28_null_row"
   ],
   "note": "False for the most negative narrow integer (C28_int8); training on a row of nulls throws (C28_null_row). Proved elsewhere, in exact arithmetic; see the Normalizes specification (with rounding: C70)."
  },
  {
   "property": "C29",
   "status": "proved",
   "theorems": [
    "Feat.C29_circular_buffer",
    "Feat.C29_iterators",
    "Feat.C29_zero_capacity"
   ],
   "note": ""
  },
  {
   "property": "C30",
   "status": "proved",
   "theorems": [
    "Feat.C30_lag_lead",
    "Feat.C30_rejects"
   ],
   "note": "Horizons below 2^31 and offsets between -2^31 and 2^31-1 (larger ones need more than 2^31 buffered rows)."
  },
  {
   "property": "C31",
   "status": "partial",
   "theorems": [
    "Feat.C31_min",
    "Feat.C31_max_partial",
    "Feat.C31_max_negative",
    "Feat.C31_mean_exact",
    "Feat.C31_mean_integers_partial",
    "Feat.C31_mean_int8",
    "Feat.C31_large_window"
   ],
   "note": "False for the maximum of non-positive floating point values (C31_max_negative), for integer means whose sum leaves the value type (C31_mean_int8) and when horizon + window size overflows 32 bits (C31_large_window). Proved otherwise."
  },
  {
   "property": "C32",
   "status": "proved",
   "theorems": [
    "Feat.C32_forward_fill",
    "Feat.C32_throw_changes_nothing",
    "Feat.C32_unique"
   ],
   "note": "A null input is none; see DESIGN.md for native nullable floats."
  },
  {
   "property": "C33",
   "status": "partial",
   "theorems": [
    "Feat.C33_backward_fill_partial",
    "Feat.C33_overflow"
   ],
   "note": "Proved for series with fewer than 2^32-1 nulls in a row. With 2^32-1 nulls followed by a value the property is false of the code (32-bit counter wraps): C33_overflow."
  },
  {
   "property": "C34",
   "status": "proved",
   "theorems": [
    "Feat.C34_replaces",
    "Feat.C34_missing_dummies",
    "Feat.C34_imputation_marker",
    "Feat.C34_mean",
    "Feat.C34_mean_integers_partial",
    "Feat.C34_min_max",
    "Feat.C34_min_max_integers_partial",
    "Feat.C34_median",
    "Feat.C34_mode"
   ],
   "note": "End to end from training through execution. Floats with exact arithmetic (with rounding: C71); integer statistics exclude uint64 values above 2^63-1 (undefined behaviour, C23_uint64)."
  },
  {
   "property": "C35",
   "status": "partial",
   "theorems": [
    "Feat.C36_forward",
    "Feat.C36_backward",
    "Feat.C36_median",
    "Feat.mem_gridTimes",
    "Feat.gridTimes_sorted",
    "Feat.C35_out_of_order",
    "Feat.C35_frequency_zero_false"
   ],
   "note": "For every chronological series (any number of keys, interleaved) and every positive frequency: per key the output has exactly the flags, times and keys of `expand` (original rows in order, one flagged row at each grid time strictly before the next original), by the `Filled` conclusion of the three strategy theorems. Missing from \"all frequencies\": the constructor accepts a frequency of 0, with which a gap is never filled (C35_frequency_zero_false). Hypotheses of GoodSeries: 64-bit time points, generated rows fit in memory, equal row widths per key."
  },
  {
   "property": "C36",
   "status": "proved",
   "theorems": [
    "Feat.C36_forward",
    "Feat.C36_backward",
    "Feat.C36_median",
    "Feat.C36_median_unknown",
    "Feat.C36_interpolate",
    "Feat.LatestValue.self",
    "Feat.NextValue.self"
   ],
   "note": "Per key and column, forward fill = latest value, back fill = next value, also through flush; non-null cells kept; median strategy replaces nulls of floating point columns by the trained value; a key without trained values is refused unless suppressed; interpolate always throws."
  },
  {
   "property": "C37",
   "status": "proved",
   "theorems": [
    "Feat.C37_other_grains",
    "Feat.C37_execute",
    "Feat.C37_flush",
    "Feat.C37_run",
    "Feat.C37_train",
    "Feat.C37_train_throws",
    "Feat.C37_alone_throws",
    "Feat.C37_create"
   ],
   "note": "Any per-grain transformer and estimator, any interleaving and batching, the cap on training rows included; the annotations of the grains are collected into one. Assumption of the code itself: begin_training and fit of a grain do not change annotations."
  },
  {
   "property": "C38",
   "status": "partial",
   "theorems": [
    "Feat.C38_reload_partial",
    "Feat.C38_one_cycle",
    "Feat.C38_lost_after_two_cycles",
    "Feat.C38_new_grains_not_saved"
   ],
   "note": "Proved without a function for new grains, and for one cycle with it. False in general with it: C38_lost_after_two_cycles shows that every such transformer loses all grains at the second save (GrainFeaturizerImpl.h 637 has the test the wrong way round), and C38_one_cycle that loading does not consume the template, so anything archived behind it is misread."
  },
  {
   "property": "C39",
   "status": "partial",
   "theorems": [
    "Feat.C39_exact",
    "Feat.C39_short_grain_dropper_partial",
    "Feat.C39_order",
    "Feat.C39_constructor",
    "Feat.C39_wraps_false"
   ],
   "note": "Exact: a grain is kept iff its number of training rows modulo 2^32 reaches the threshold (C39_exact); so the property holds for grains with fewer than 2^32 rows and is false beyond (C39_wraps_false). Independent of row order and of the iteration order of the hash map."
  },
  {
   "property": "C40",
   "status": "partial",
   "theorems": [
    "Feat.C40_pivot_partial",
    "Feat.C40_mismatch",
    "Feat.C40_mismatch_accepted"
   ],
   "note": "Full for matrices with equal column counts. \"Differing column counts throw\" is false when every column already has a null before the mismatching matrix is met (C40_mismatch_accepted); C40_mismatch says exactly when it throws."
  },
  {
   "property": "C41",
   "status": "proved",
   "theorems": [
    "Feat.C41_split",
    "Feat.C41_words",
    "Feat.C41_trim"
   ],
   "note": ""
  },
  {
   "property": "C42",
   "status": "proved",
   "theorems": [
    "Feat.C42_word_ngrams",
    "Feat.mem_windows"
   ],
   "note": ""
  },
  {
   "property": "C43",
   "status": "partial",
   "theorems": [
    "Feat.C43_exact",
    "Feat.C43_char_ngrams_partial",
    "Feat.C43_longer_never",
    "Feat.C43_within_bounds",
    "Feat.C43_no_separator_undefined",
    "Feat.C43_padding"
   ],
   "note": "Only substrings of the smallest requested length are ever yielded (a break after the first one): C43_exact, C43_longer_never; hence the property holds exactly when the two bounds agree."
  },
  {
   "property": "C44",
   "status": "proved",
   "theorems": [
    "Feat.C44_document_statistics",
    "Feat.C44_deterministic",
    "Feat.C44_rejected"
   ],
   "note": "For fewer than 2^32 documents (32-bit counters) and a top-k limit below 2^31 (it is cast to int); floats are a parameter; the floats of the machine meet the assumption on it (C93_floats)."
  },
  {
   "property": "C45",
   "status": "partial",
   "theorems": [
    "Feat.C45_exact",
    "Feat.C45_count_vectorizer_partial",
    "Feat.C45_trained",
    "Feat.C45_small_counts",
    "Feat.C45_rounding",
    "Feat.C45_large_count",
    "Feat.FloatTfidf.C45_bits"
   ],
   "note": "Exact behaviour in C45_exact and, with training, C45_trained. The property holds when a token is in the vocabulary and counts are at most 2^24; otherwise execute throws (no token in the vocabulary, or two tokens with the same user-supplied index), and counts above 2^24 are rounded to float (C45_large_count). The theorems are about natural numbers with an explicit rounding; C45_bits shows that the double and float arithmetic on bits gives the same."
  },
  {
   "property": "C46",
   "status": "partial",
   "theorems": [
    "Feat.C46_sparse_partial",
    "Feat.C46_single",
    "Feat.C46_index_out_of_range"
   ],
   "note": "Index in range is false for the general sparse vector (C46_index_out_of_range); proved for single-value vectors; everything else proved with exact acceptance conditions."
  },
  {
   "property": "C47",
   "status": "partial",
   "theorems": [
    "Feat.C47_hash_partial",
    "Feat.C47_long_input"
   ],
   "note": "Inputs of 2^31 bytes or more make the hash read out of bounds (C47_long_input)."
  },
  {
   "property": "C48",
   "status": "partial",
   "theorems": [
    "Feat.C48_booleans",
    "Feat.C48_round_trip",
    "Feat.C48_signed",
    "Feat.C48_unsigned_partial",
    "Feat.C48_no_numeral",
    "Feat.C48_wraps"
   ],
   "note": "Round trips and signed types in full. For unsigned types the rejection is false for numerals with a minus sign: \"-1\" becomes 2^64-1 as uint64 and \"-18446744073709551615\" becomes 1 as uint8 (C48_wraps), because std::stoul negates modulo 2^64."
  },
  {
   "property": "C49",
   "status": "partial",
   "theorems": [
    "Feat.C49_decomposition_partial",
    "Feat.C49_early_fractions",
    "Feat.C49_false",
    "Feat.fromDays_isCalendar",
    "Feat.IsCalendar.unique"
   ],
   "note": "True for instants from 1970 on and for earlier ones on a whole second. False otherwise (C49_false): to_time_t truncates toward zero, so such an instant is described as the end of its second, possibly the next day (C49_early_fractions gives the exact behaviour). gmtime_r enters by its contract."
  },
  {
   "property": "C50",
   "status": "partial",
   "theorems": [
    "Feat.C50_holiday_partial",
    "Feat.C50_early_next_day",
    "Feat.C50_false"
   ],
   "note": "True for instants from 1970 on and for earlier midnights; all other instants before 1970 get the holiday of the following day (C50_early_next_day, C50_false). The double quotient enters by its rounding error."
  },
  {
   "property": "C51",
   "status": "proved",
   "theorems": [
    "Feat.PTable.C51_live",
    "Feat.PTable.C51_rejects",
    "Feat.PTable.C51_add"
   ],
   "note": "Operations are atomic (mutex); the generator is arbitrary within 1..2^64-1; Add may stay in its loop while all drawn numbers are in use."
  },
  {
   "property": "C52",
   "status": "partial",
   "theorems": [
    "Feat.CApi.C52_partial",
    "Feat.CApi.C52_no_error_out",
    "Feat.CApi.C52_error_handles",
    "Feat.CApi.C52_null_errors",
    "Feat.CApi.C52_claim_false",
    "Feat.CApi.C52_wrong_kind",
    "Feat.CApi.C52_null_handle_out",
    "Feat.CApi.C52_error_functions_escape"
   ],
   "note": "Proved for handles that are not live or of the kind the function expects, for featurizers without undefined behaviour of their own. False in general (C52_claim_false): a live handle of another kind and a null out-parameter of CreateEstimator are undefined behaviour; GetErrorInfoString and DestroyErrorInfo let invalid_argument escape for a handle that is not live."
  },
  {
   "property": "C53",
   "status": "proved",
   "theorems": [
    "Feat.C53_position",
    "Feat.C53_commit"
   ],
   "note": "Advances bounded as in C01."
  },
  {
   "property": "C54",
   "status": "partial",
   "theorems": [
    "Feat.C54_same_terms",
    "Feat.C54_training_documents",
    "Feat.C54_case_sensitive_regex"
   ],
   "note": "True for every analyzer and n-gram range and for regular expressions that ignore case; false for case-sensitive regular expressions with lowercase set (C54_case_sensitive_regex): training lowers the tokens, execution lowers the document before it is parsed."
  },
  {
   "property": "C55",
   "status": "partial",
   "theorems": [
    "Feat.C55_tfidf",
    "Feat.C55_trained"
   ],
   "note": "In exact real arithmetic (with rounding: C83); at least one token in the vocabulary (otherwise execute throws, included in the theorem), distinct indexes, fewer than 2^32-1 documents (1 + total is a 32-bit sum)."
  },
  {
   "property": "C56",
   "status": "partial",
   "theorems": [
    "Feat.C56_round_trip",
    "Feat.C56_numbers",
    "Feat.C56_strings",
    "Feat.C56_other_strings",
    "Feat.StringFeaturizers.C56_not_nullable",
    "Feat.StringFeaturizers.C56_float",
    "Feat.StringFeaturizers.C56_double",
    "Feat.StringFeaturizers.C56_dates"
   ],
   "note": "True for booleans and all integer types, and for strings other than \"NULL\" (and other than the empty string when empty strings stand for null); false for those strings (C56_strings). Floating point numbers and dates stay null or non-null, but the text keeps six decimals or whole seconds: C56_float and C56_double say exactly which numbers come back, C56_dates that the beginning of the second comes back (instants from 1677-09-22 on)."
  },
  {
   "property": "C57",
   "status": "partial",
   "theorems": [
    "Feat.C57_false",
    "Feat.C57_numbering_partial"
   ],
   "note": "False: the code passes on tm_wday (0 is Sunday) and tm_yday (January 1 is 0); C57_numbering_partial says what is reported."
  },
  {
   "property": "C58",
   "status": "partial",
   "theorems": [
    "Feat.C58_isoWeek_partial",
    "Feat.C58_false",
    "Feat.IsIsoWeek.unique"
   ],
   "note": "True for instants from 1970 on and earlier ones on a whole second; the others are described as the end of their second (C49_early_fractions), which can lie in the next week (C58_false)."
  },
  {
   "property": "C59",
   "status": "proved",
   "theorems": [
    "Feat.C59_country",
    "Feat.C59_supported",
    "Feat.C59_empty"
   ],
   "note": "The order of readdir is arbitrary; isspace and tolower in the \"C\" locale."
  },
  {
   "property": "C60",
   "status": "proved",
   "theorems": [
    "Feat.CApi.C60_call",
    "Feat.CApi.C60_history"
   ],
   "note": "The allocator and the generator are arbitrary per call (Luck); memory exhaustion and the returned buffers are not modelled; CreateEstimator with a null out-parameter is excluded (see C52)."
  },
  {
   "property": "C61",
   "status": "partial",
   "theorems": [
    "Feat.CApi.C61_owned",
    "Feat.CApi.C61_no_leaks_partial",
    "Feat.CApi.C61_leak"
   ],
   "note": "Ownership holds always; absence of leaks holds for featurizers whose begin_training does not throw, and fails otherwise (C61_leak): the estimator object is not released when begin_training throws."
  },
  {
   "property": "C62",
   "status": "partial",
   "theorems": [
    "Feat.Destroy.C62_at_most_once_partial",
    "Feat.Destroy.C62_exactly_once_partial",
    "Feat.Destroy.C62_others_partial",
    "Feat.Destroy.C62_claim_false"
   ],
   "note": "Proved as long as no number is drawn for a new handle that was a handle before. False without this (C62_claim_false): lookup and removal are separate critical sections, so a handle reused in between leads to a double delete."
  },
  {
   "property": "C63",
   "status": "proved",
   "theorems": [
    "Feat.C63_training",
    "Feat.C63_constructor",
    "Feat.C63_frequency_pos",
    "Feat.C63_imputes",
    "Feat.C63_not_a_number",
    "Feat.C63_median_false",
    "Feat.C63_mean"
   ],
   "note": "Exact arithmetic over an arbitrary field; conversions between texts and numbers are parameters. Hypotheses of ReadableRows: a type for every column, equally wide rows per key (anything else is out-of-range access in the code), times less than the longest duration apart. C63_median_false records that the published value is the mean and not the median its name promises."
  },
  {
   "property": "C64",
   "status": "proved",
   "theorems": [
    "Feat.C64_characters",
    "Feat.C64_cleaning",
    "Feat.C64_words",
    "Feat.C64_single_words",
    "Feat.C64_regex",
    "Feat.C64_word_ngrams",
    "Feat.C64_char_ngrams",
    "Feat.C64_charwb_ngrams",
    "Feat.C64_failed_document"
   ],
   "note": "isspace, ispunct and tolower in the \"C\" locale, and false/identity on bytes above 127 as in the usual implementations. The statements on word and within-word n-grams are for documents whose only white space is the blank, as the property says; the regular expression engine is a parameter."
  },
  {
   "property": "C65",
   "status": "partial",
   "theorems": [
    "Feat.DateText.C65_extended_partial",
    "Feat.DateText.C65_basic_partial",
    "Feat.DateText.C65_rejects",
    "Feat.DateText.C65_west_minutes",
    "Feat.DateText.C65_basic_west",
    "Feat.DateText.C65_false",
    "Feat.DateText.C65_written",
    "Feat.DateText.C65_round_trip",
    "Feat.DateText.C65_round_trip_nanoseconds",
    "Feat.DateText.C65_out_of_range",
    "Feat.DateText.C65_trailing",
    "Feat.DateText.C65_errors",
    "Feat.DateText.C65_parameter",
    "Feat.DateText.C65_no_zone",
    "Feat.DateText.C65_accepts",
    "Feat.DateText.C65_accepted",
    "Feat.DateText.C65_excess_utc",
    "Feat.DateText.C65_excess_odd",
    "Feat.DateText.C65_excess_two",
    "Feat.DateText.C65_excess_four"
   ],
   "note": "The full claim is refuted (C65_false): in the basic format zones to the west are always rejected (C65_basic_west), and -00:mm is read as +00:mm (C65_west_minutes). With more decimals than the clock has, texts with Z are rejected, and in texts with a zone the excess decimals are taken for the zone, which is then ignored (C65_excess_*). Texts with Z are characterised completely (C65_accepts, C65_accepted). Also shown: instants beyond the clock are undefined behaviour instead of an error (C65_out_of_range, needs local midnight in range as well), anything after Z is ignored (C65_trailing), a text without zone is rejected (C65_no_zone), texts of two characters throw out_of_range (C65_errors). Seconds go through exact arithmetic instead of long double."
  },
  {
   "property": "C66",
   "status": "partial",
   "theorems": [
    "Feat.RowCodec.C66_read",
    "Feat.RowCodec.C66_truncated",
    "Feat.RowCodec.C66_written",
    "Feat.RowCodec.C66_history_partial",
    "Feat.RowCodec.C66_written_floats",
    "Feat.RowCodec.C66_history_floats_partial",
    "Feat.RowCodec.C66_duration",
    "Feat.RowCodec.C66_false",
    "Feat.RowCodec.C66_unsupported",
    "Feat.RowCodec.C66_nan",
    "Feat.RowCodec.C66_flush_false",
    "Feat.RowCodec.C66_save",
    "Feat.RowCodec.C66_destroy",
    "Feat.RowCodec.C66_destroy_refused"
   ],
   "note": "Reading, truncation, saving and releasing are proved for all rows. The history theorem needs values that can be read from their texts (integers, strings, booleans, times from 1677-09-22 on; with C67 all floating point numbers, C66_history_floats_partial, where a number loses what is beyond its sixth decimal, C66_written_floats) and a frequency of whole seconds; without this the claim is refuted: durations are read but never written (C66_duration, C66_false), valid types such as Float16 are never read (C66_unsupported), and Flush gives nothing (C66_flush_false: the call is commented out in the source)."
  },
  {
   "property": "C67",
   "status": "partial",
   "theorems": [
    "Feat.FloatText.C67_text",
    "Feat.FloatText.C67_text_denotes",
    "Feat.FloatText.C67_read",
    "Feat.FloatText.C67_rejects",
    "Feat.FloatText.C67_words",
    "Feat.FloatText.C67_infinity",
    "Feat.FloatText.C67_nan",
    "Feat.FloatText.C67_exact_iff",
    "Feat.FloatText.C67_millionths",
    "Feat.FloatText.C67_large",
    "Feat.FloatText.C67_stable",
    "Feat.FloatText.C67_monotone",
    "Feat.FloatText.C67_small",
    "Feat.FloatText.C67_texts",
    "Feat.FloatText.C67_read_any",
    "Feat.FloatText.C67_kinds",
    "Feat.FloatText.C67_denotes_unique",
    "Feat.FloatText.C67_numeral_denotes",
    "Feat.FloatText.C67_false"
   ],
   "note": "The claim that every finite number comes back is refuted (C67_false); C67_exact_iff says exactly which ones do, and C67_small which ones become zero. All the rest is proved for every number and text, decimal or hexadecimal: C67_kinds, C67_rejects, C67_words and C67_read_any cover all texts by the grammar of the C standard (longest beginning that is a number, Spec/FloatGrammar). Texts that merely begin with inf or nan are numbers (C67_words)."
  },
  {
   "property": "C68",
   "status": "partial",
   "theorems": [
    "Feat.FloatScalers.C68_double_partial",
    "Feat.FloatScalers.C68_double_overflow_refuted",
    "Feat.FloatScalers.C68_integers_partial",
    "Feat.FloatScalers.C68_integers_refuted",
    "Feat.FloatScalers.C68_float_partial",
    "Feat.FloatScalers.C68_float_unit_refuted",
    "Feat.FloatScalers.C68_float_overflow_refuted",
    "Feat.FloatScalers.C68_reload_refuted",
    "Feat.FloatScalers.C68_reload_exact",
    "Feat.FloatArith.add_rounded",
    "Feat.FloatArith.sub_rounded",
    "Feat.FloatArith.mul_rounded",
    "Feat.FloatArith.div_rounded",
    "Feat.FloatArith.cast_rounded",
    "Feat.FloatArith.ofInt_rounded"
   ],
   "note": "Arithmetic is IEEE 754 on bit patterns; the …_rounded theorems say that each operation of the model yields the correctly rounded number. Proved for double columns whose spread does not overflow (range, order, both ends exact, error at most 2^-51) and for integers up to 2^53 (results are the nearest doubles). Refuted: a spread that overflows gives 0 and NaN (double, for all such columns) or 0 (float); floats may give 1 + 2^-24 because the span is rounded to float (C68_float_partial bounds this by 2^-23); int64 columns beyond 2^53 may give 2; a saved and loaded double scaler may differ (C68_reload_refuted; C68_reload_exact says when it is the same). Columns with infinities are excluded."
  },
  {
   "property": "C69",
   "status": "partial",
   "theorems": [
    "Feat.FloatScalers.C69_floating",
    "Feat.FloatScalers.C69_integers_partial"
   ],
   "note": "Float and double columns: everything is proved for every column and input. Integer columns: proved for all columns without the smallest int32 or int64, for which training is undefined behaviour (C27_int32_min shows it); the quotient is the nearest number if the extreme is exactly representable in the result type (magnitude at most 2^53, 2^24 for float), else it is at most two units in the last place of the quotient away, besides the range, sign, order and extremes."
  },
  {
   "property": "C70",
   "status": "partial",
   "theorems": [
    "Feat.FloatNorms.C70_l1_partial",
    "Feat.FloatNorms.C70_l2_partial",
    "Feat.FloatNorms.C70_max_double",
    "Feat.FloatNorms.C70_max_float",
    "Feat.FloatNorms.C70_l1_refuted",
    "Feat.FloatNorms.C70_l2_refuted",
    "Feat.FloatNorms.C70_order_refuted",
    "Feat.FloatNorms.C70_overflow_refuted",
    "Feat.FloatNorms.C70_after_exception_refuted",
    "Feat.FloatNorms.C70_l1_infinite",
    "Feat.FloatNorms.C70_l2_infinite",
    "Feat.FloatNorms.C70_l1",
    "Feat.FloatNorms.C70_l2",
    "Feat.FloatNorms.C70_max_integers",
    "Feat.FloatNorms.C70_max_large_refuted",
    "Feat.FloatNorms.C70_max_int8_refuted"
   ],
   "note": "Max norm of float and double: all proved. L1 and L2: false in general, training throws when an element is too small to change the running sum (C70_l1_refuted: 2^65 and 1; C70_l2_refuted: 2^33 and 1), depending on the order (C70_order_refuted); an L1 norm beyond the doubles gives zeros (C70_overflow_refuted); a refused row leaves its sum behind (C70_after_exception_refuted). Rows with an infinity are refused by L1 and L2 (C70_l1_infinite, C70_l2_infinite). Proved for all rows in which no nonzero element is negligible beside the sum (2^-61), or whose terms are naturals with a sum up to 2^64; nearness needs a norm from 2^-1000 to 2^1023. For all other rows C70_l1 and C70_l2 say that training throws runtime_error or everything is as claimed. Max norm of integers: C70_max_integers, except that an element beyond 2^53 of the largest size need not become 1 (C70_max_large_refuted) and that the smallest int8_t and int16_t are taken for huge numbers (C70_max_int8_refuted; int32_t, int64_t: undefined behaviour, C28)."
  },
  {
   "property": "C71",
   "status": "partial",
   "theorems": [
    "Feat.FloatStats.C71_double_partial",
    "Feat.FloatStats.C71_float_partial",
    "Feat.FloatStats.C71_integers_partial",
    "Feat.FloatStats.C71_extreme_partial",
    "Feat.FloatStats.C71_impute",
    "Feat.FloatStats.C71_impute_integers",
    "Feat.FloatStats.C71_infinite",
    "Feat.FloatStats.C71_average_refuted",
    "Feat.FloatStats.C71_absorbed_refuted"
   ],
   "note": "False in general: a column of 4096 times 2^53 - 1 is refused because the computed average exceeds the maximum (C71_average_refuted), and a value too small to change the running sum makes training throw (C71_absorbed_refuted: 2^65 and 1), also for the minimum and maximum imputers. Proved: whenever training succeeds (up to 2^60 values) the mean is between the extremes and near the exact mean; it succeeds for up to 2^11 doubles or 2^40 floats none of which is negligible; for integers exactly when no partial sum leaves int64_t. Missing: when longer columns are accepted; integers above 2^63-1 (C23_uint64)."
  },
  {
   "property": "C72",
   "status": "partial",
   "theorems": [
    "Feat.FloatStats.C72_float_partial",
    "Feat.FloatStats.C72_integers_partial",
    "Feat.FloatStats.C72_infinite",
    "Feat.FloatStats.C72_refuted"
   ],
   "note": "False in general: the column 0.1, 2.7, 1.4 is refused with runtime_error, because the computed average misses 1.4 by one unit in the last place and the square of that is too small to change the running sum (C72_refuted). Proved for numbers up to 2^1020 (integers up to 2^53) and up to 2^60 values: whenever training succeeds, all of the rest (the scale is near the standard deviation if that is at least 2^-1000); and training succeeds if no value is negligible beside the sum of the values and no distance from the mean beside the others (Apart), for up to 2^11 doubles or 2^40 floats. Missing: larger numbers, and when other columns are accepted."
  },
  {
   "property": "C73",
   "status": "partial",
   "theorems": [
    "Feat.CBuffers.C73_values",
    "Feat.CBuffers.C73_nullables",
    "Feat.CBuffers.C73_strings",
    "Feat.CBuffers.C73_string",
    "Feat.CBuffers.C73_nullable_strings",
    "Feat.CBuffers.C73_keys",
    "Feat.CBuffers.C73_keyed",
    "Feat.CBuffers.C73_matrix",
    "Feat.CBuffers.C73_matrices",
    "Feat.CBuffers.C73_rows_exact",
    "Feat.CBuffers.C73_rows_partial",
    "Feat.CBuffers.C73_rows_short_refuted",
    "Feat.CBuffers.C73_matrix_lists_partial",
    "Feat.CBuffers.C73_refused"
   ],
   "note": "Proved for all kinds of arrays except rows and lists of matrices. For these it is false: FitBuffer of the normalizers and of the forecasting pivot take the number of rows also as the length of every row, so rows that are shorter are read out of bounds (C73_rows_short_refuted) and longer ones are cut off (C73_rows_exact says what is read for every length); it holds for as many rows as columns (C73_rows_partial, C73_matrix_lists_partial)."
  },
  {
   "property": "C74",
   "status": "partial",
   "theorems": [
    "Feat.CBuffers.C74_history",
    "Feat.CBuffers.C74_string",
    "Feat.CBuffers.C74_message",
    "Feat.CBuffers.C74_items",
    "Feat.CBuffers.C74_strings",
    "Feat.CBuffers.C74_rows",
    "Feat.CBuffers.C74_matrix_partial",
    "Feat.CBuffers.C74_sparse_partial",
    "Feat.CBuffers.C74_keyed_partial",
    "Feat.CBuffers.C74_labels",
    "Feat.CBuffers.C74_countries",
    "Feat.CBuffers.C74_saved",
    "Feat.CBuffers.C74_read_back",
    "Feat.CBuffers.C74_empty_matrix_refuted",
    "Feat.CBuffers.C74_empty_sparse_refuted",
    "Feat.CBuffers.C74_refused_leak_refuted"
   ],
   "note": "Proved for every history, allocator and value (C74_history over all eleven kinds of results), except: destroying a matrix or a sparse vector without elements is refused, so that it leaks (C74_empty_matrix_refuted, C74_empty_sparse_refuted); keys must be nonempty lists; and when an allocation is refused, lists of strings, lists of vectors, keyed results and dates leave buffers behind (C74_refused_leak_refuted), while the other kinds do not (second halves of C74_string, C74_message, C74_items, C74_saved, C74_matrix_partial, C74_sparse_partial, C74_countries). A caller reading a string as a C string gets it up to its first zero byte (C74_read_back)."
  },
  {
   "property": "C75",
   "status": "partial",
   "theorems": [
    "Feat.FloatMedian.C75_float",
    "Feat.FloatMedian.C75_double_partial",
    "Feat.FloatMedian.C75_integers",
    "Feat.FloatMedian.C75_impute",
    "Feat.FloatMedian.C75_impute_integers",
    "Feat.FloatMedian.C75_bool",
    "Feat.FloatMedian.C75_overflow_refuted"
   ],
   "note": "Proved in full for float, integer and bool columns (integers above 2^53 as the nearest doubles). False for double columns with values above half of the largest double: when the sum of the two middle values overflows the imputed median is infinite, even if both are the same number (C75_overflow_refuted); C75_double_partial proves the property in all other cases and says exactly when the median is infinite."
  },
  {
   "property": "C76",
   "status": "partial",
   "theorems": [
    "Feat.FloatMedian.C76_arguments",
    "Feat.FloatMedian.C76_float_partial",
    "Feat.FloatMedian.C76_default",
    "Feat.FloatMedian.C76_integers_partial",
    "Feat.FloatMedian.C76_infinite",
    "Feat.FloatMedian.C76_overflow_refuted",
    "Feat.FloatMedian.C76_range_refuted"
   ],
   "note": "False in general: when max - min overflows the scale is infinite and every number becomes 0 (C76_overflow_refuted); for int32_t and int64_t such a range is undefined behaviour (C76_range_refuted); and training is refused for the same columns as in C71, since it computes the mean too, although that is not used. Proved for values up to half of the largest number: whenever training succeeds, all of the rest; training succeeds under the conditions of C71 (no negligible value, up to 2^11 doubles or 2^40 floats), and for integers exactly if the running sums fit int64_t. Missing: int64_t and uint64_t beyond 2^53."
  },
  {
   "property": "C77",
   "status": "partial",
   "theorems": [
    "Feat.MatrixProjections.C77_history",
    "Feat.MatrixProjections.C77_training",
    "Feat.MatrixProjections.C77_accepts",
    "Feat.MatrixProjections.C77_isometry",
    "Feat.MatrixProjections.C77_correlated"
   ],
   "note": "Exact real arithmetic; the Eigen solver is a parameter with its documented contract. The claim that transformed training data are uncorrelated is false: the code multiplies by the transpose of the eigenvector matrix (C77_correlated gives data for which every conforming solver leads to correlated columns, although the product with the matrix itself is uncorrelated)."
  },
  {
   "property": "C78",
   "status": "partial",
   "theorems": [
    "Feat.MatrixProjections.C78_history",
    "Feat.MatrixProjections.C78_training",
    "Feat.MatrixProjections.C78_accepts",
    "Feat.MatrixProjections.C78_signs",
    "Feat.MatrixProjections.C78_sign_independent",
    "Feat.MatrixProjections.C78_decomposition",
    "Feat.MatrixProjections.C78_full_rank",
    "Feat.MatrixProjections.C78_transformed",
    "Feat.MatrixProjections.C78_single_row",
    "Feat.MatrixProjections.C78_row_dependent",
    "Feat.MatrixProjections.C78_small_matrices"
   ],
   "note": "Exact real arithmetic; the Eigen solver is a parameter with its documented contract, the random numbers are arbitrary. Two claims are false: a matrix of small numbers trains the zero transformer whatever the random numbers (C78_small_matrices: the absolute threshold 1E-4), and the sign of a row of results depends on the other rows (C78_row_dependent, C78_single_row)."
  },
  {
   "property": "C79",
   "status": "proved",
   "theorems": [
    "Feat.Callbacks.C79_seen",
    "Feat.Callbacks.C79_stateless",
    "Feat.Callbacks.C79_forward_fill",
    "Feat.Callbacks.C79_backward_fill",
    "Feat.Callbacks.C79_lag_lead",
    "Feat.Callbacks.C79_rolling",
    "Feat.Callbacks.C79_normalize",
    "Feat.Callbacks.C79_imputer",
    "Feat.Callbacks.C79_pivot",
    "Feat.Callbacks.C79_grain",
    "Feat.Callbacks.C79_filter",
    "Feat.Callbacks.C79_pipeline"
   ],
   "note": "C79_seen for any call of the form \"change state, invoke the callback, ...\"; the other theorems tie each transformer's call by call model to its model in the other properties. Not modelled: callbacks that call the transformer again."
  },
  {
   "property": "C80",
   "status": "proved",
   "theorems": [
    "Feat.Callbacks.C80_resumable",
    "Feat.Callbacks.C80_attempts",
    "Feat.Callbacks.C80_stateless",
    "Feat.Callbacks.C80_forward_fill",
    "Feat.Callbacks.C80_backward_fill_flush",
    "Feat.Callbacks.C80_filter",
    "Feat.Callbacks.C80_grain",
    "Feat.Callbacks.C80_grain_flush",
    "Feat.Callbacks.C80_pipe",
    "Feat.Callbacks.C80_pipe_flush",
    "Feat.Callbacks.C80_pipeline",
    "Feat.Callbacks.C80_forward_fill_flushed",
    "Feat.Callbacks.C80_stateless_flushed",
    "Feat.Callbacks.C80_backward_fill_flushed",
    "Feat.Callbacks.C80_backward_fill_execute",
    "Feat.Callbacks.C80_backward_fill_not_repeatable",
    "Feat.Callbacks.C80_lag_lead_not_repeatable",
    "Feat.Callbacks.C80_lag_lead_flush",
    "Feat.Callbacks.C80_rolling_not_repeatable",
    "Feat.Callbacks.C80_normalize_not_repeatable",
    "Feat.Callbacks.C80_imputer_not_repeatable",
    "Feat.Callbacks.C80_pivot_not_repeatable",
    "Feat.Callbacks.C80_mixed_pipeline"
   ],
   "note": "The negative half by concrete transformers and callbacks."
  },
  {
   "property": "C81",
   "status": "proved",
   "theorems": [
    "Feat.Callbacks.C81_stateless",
    "Feat.Callbacks.C81_lag_lead",
    "Feat.Callbacks.C81_rolling",
    "Feat.Callbacks.C81_normalize",
    "Feat.Callbacks.C81_imputer",
    "Feat.Callbacks.C81_pivot",
    "Feat.Callbacks.C81_filter",
    "Feat.Callbacks.C81_grain",
    "Feat.Callbacks.C81_pipe",
    "Feat.Callbacks.C81_forward_fill_not_skippable",
    "Feat.Callbacks.C81_backward_fill_not_skippable",
    "Feat.Callbacks.C80_lag_lead_flush",
    "Feat.Callbacks.C80_mixed_pipeline"
   ],
   "note": "The negative half by concrete transformers and callbacks."
  },
  {
   "property": "C82",
   "status": "partial",
   "theorems": [
    "Feat.FloatWindows.C82_min_exact",
    "Feat.FloatWindows.C82_max_exact",
    "Feat.FloatWindows.C82_min",
    "Feat.FloatWindows.C82_max_partial",
    "Feat.FloatWindows.C82_max_refuted",
    "Feat.FloatWindows.C82_min_refuted",
    "Feat.FloatWindows.C82_mean_partial",
    "Feat.FloatWindows.C82_mean_exact",
    "Feat.FloatWindows.C82_mean_nan",
    "Feat.FloatWindows.C82_mean_below",
    "Feat.FloatWindows.C82_mean_overflow",
    "Feat.FloatWindows.C82_rolling_min",
    "Feat.FloatWindows.C82_rolling_max_partial",
    "Feat.FloatWindows.C82_rolling_mean_partial"
   ],
   "note": "The maximum is false for windows of numbers below the smallest positive normal number (C82_max_refuted); the sum may overflow although the mean is representable (C82_mean_overflow); the mean may leave the range of the window (C82_mean_below). The mean is proved for windows whose sum of magnitudes is below half of the range and with at most 2^22 (float) or 2^51 (double) values."
  },
  {
   "property": "C83",
   "status": "partial",
   "theorems": [
    "Feat.FloatTfidf.C83_tfidf_partial",
    "Feat.FloatTfidf.C83_trained_partial",
    "Feat.FloatTfidf.C83_l1_refuted",
    "Feat.FloatTfidf.log_exists"
   ],
   "note": "std::log of the C library is a parameter assumed accurate to one unit in the last place (log_exists: such a function exists). Documents with more than 2^20 different terms of the vocabulary are not covered; with L1 normalisation the claim is false of the code from 2^25 terms on (C83_l1_refuted: the float sum stops at 2^24)."
  },
  {
   "property": "C84",
   "status": "partial",
   "theorems": [
    "Feat.C84_states",
    "Feat.C84_training",
    "Feat.C84_existing_refuted",
    "Feat.C84_count_vectorizer",
    "Feat.C84_second_vectorizer_refuted",
    "Feat.C84_compare"
   ],
   "note": "False of the code in two respects: on a column that already has document statistics the standard loop always throws (C84_existing_refuted, C84_second_vectorizer_refuted: begin_training succeeds, every fit throws; only begin, complete, create works), and comparing trained transformers throws bad_cast (C84_compare). Everything else proved; the vocabulary given by the user and regexes that depend on the case are excluded from C84_count_vectorizer as in C45."
  },
  {
   "property": "C85",
   "status": "proved",
   "theorems": [
    "Feat.C85_sample_add",
    "Feat.C08_reload_partial"
   ],
   "note": "Saving and loading: sampleAdd is one of the classes of C08_reload_partial."
  },
  {
   "property": "C86",
   "status": "partial",
   "theorems": [
    "Feat.C86_functions",
    "Feat.C86_forward_fill",
    "Feat.C86_rolling",
    "Feat.C86_normalize",
    "Feat.C86_any",
    "Feat.C86_pivot",
    "Feat.C86_pivot_refuted"
   ],
   "note": "False for the forecasting pivot, which has the function but yields one row per complete column: without assert it reads unwritten memory (no row) or loses all rows but the last (C86_pivot says exactly what happens, C86_pivot_refuted; C86_any says it for an arbitrary transformer). Proved for every other transformer class that has the function."
  },
  {
   "property": "C87",
   "status": "proved",
   "theorems": [
    "Feat.C87_no_callback"
   ],
   "note": ""
  },
  {
   "property": "C88",
   "status": "proved",
   "theorems": [
    "Feat.C88_rows",
    "Feat.C88_after_filter"
   ],
   "note": ""
  },
  {
   "property": "C89",
   "status": "partial",
   "theorems": [
    "Feat.ContainerText.C89_formats",
    "Feat.ContainerText.C89_tuples",
    "Feat.ContainerText.C89_identifies",
    "Feat.ContainerText.C89_float_vectors",
    "Feat.ContainerText.C89_not_read",
    "Feat.ContainerText.C89_refuted",
    "Feat.ContainerText.C89_strings"
   ],
   "note": "Formats and reading for all types. Different values have different texts: proved for every nested type of integers, booleans, optional values, vectors, arrays, maps, sets and tuples; refuted for vectors of strings and of floating point numbers (for these: same text exactly if the elements have the same texts) and for matrices."
  },
  {
   "property": "C90",
   "status": "partial",
   "theorems": [
    "Feat.CApi.C90_pending",
    "Feat.CApi.C90_never_trained",
    "Feat.CApi.C90_reports"
   ],
   "note": "The property is false of the code: training is never begun (begin_training is not called and the C interface has no function for it). Proved instead, for every history: every training call on such a handle fails with a runtime_error and leaves the estimator unchanged, while IsTrainingComplete reports true."
  },
  {
   "property": "C91",
   "status": "partial",
   "theorems": [
    "Feat.TfidfCodes.C91_known",
    "Feat.TfidfCodes.C91_options",
    "Feat.TfidfCodes.C91_unknown",
    "Feat.TfidfCodes.C91_other_options",
    "Feat.TfidfCodes.C91_refuted"
   ],
   "note": "Known numbers select the norms, bits beyond the flags have no effect: proved. That unknown numbers for the norm are rejected is false of the code: they are accepted, and every value of every vector is then +infinity (proved, for all documents with a known term). Asserts are taken as disabled for the analyzer."
  },
  {
   "property": "C92",
   "status": "partial",
   "theorems": [
    "Feat.FloatCategories.C92_label_encoder",
    "Feat.FloatCategories.C92_one_hot",
    "Feat.FloatCategories.C92_numericalize",
    "Feat.FloatCategories.C92_mode",
    "Feat.FloatCategories.C92_nan_undefined",
    "Feat.FloatCategories.C92_nan_category"
   ],
   "note": "Proved for training data without NaN (encoders; NaN at execution is then missing), and for all data (mode imputer). False of the code for NaN in the training data of an encoder: with two different numbers beside it, std::sort is called with a relation that is no strict weak order, which is undefined behaviour (C92_nan_undefined, all data); with one, NaN becomes a category with a code and a column of its own (C92_nan_category, for NaNs with the same bits). NaNs with different bits in hash tables: found or not, arbitrarily (Probe)."
  },
  {
   "property": "C93",
   "status": "partial",
   "theorems": [
    "Feat.FloatDocs.C93_floats",
    "Feat.FloatDocs.C93_accepted",
    "Feat.FloatDocs.C93_bounds_partial",
    "Feat.FloatDocs.C93_fractions",
    "Feat.FloatDocs.C93_training",
    "Feat.FloatDocs.C93_large_refuted"
   ],
   "note": "Exact when the number of documents times the denominator of each bound is below 2^23 (C93_fractions, C93_training). For up to 2^24 documents and any bounds, a term within the bounds is never dropped, and a kept one is within them up to one part in 2^24 (C93_bounds_partial). With more documents a term within the bounds can be dropped (C93_large_refuted). NaN is accepted as a bound and is none."
  },
  {
   "property": "C94",
   "status": "partial",
   "theorems": [
    "Feat.DataDirectory.C94_call",
    "Feat.DataDirectory.C94_history_partial",
    "Feat.DataDirectory.C94_exhausted",
    "Feat.DataDirectory.C94_repeat_refuted",
    "Feat.DataDirectory.C94_afterwards_refuted",
    "Feat.DataDirectory.C94_place",
    "Feat.DataDirectory.C94_root_refuted"
   ],
   "note": "Histories of calls answer as they should while the streams open before and the calls that found a country are together fewer than the limit (C94_history_partial). Each call that finds its country leaves one directory stream open (DateTimeFeaturizer.cpp 186-187 returns without closedir), so the property is false: the answers change when the limit is reached (C94_repeat_refuted), and from then on no country is found and no country transformer can be made (C94_exhausted, C94_afterwards_refuted). The data root \"/\" is never accepted (C94_root_refuted)."
  },
  {
   "property": "C95",
   "status": "partial",
   "theorems": [
    "Feat.DataDirectory.C95_reload",
    "Feat.DataDirectory.C95_same_partial",
    "Feat.DataDirectory.C95_default",
    "Feat.DataDirectory.C95_default_refuted"
   ],
   "note": "Holds when the data root of the saved transformer is given again on loading (C95_same_partial). The archive holds the country only, so loading without a data root reads the tables beside the executable (C95_default): it can throw, or give a transformer with other holidays (C95_default_refuted)."
  },
  {
   "property": "C96",
   "status": "partial",
   "theorems": [
    "Feat.FloatTimeSeries.C96_training_partial",
    "Feat.FloatTimeSeries.C96_average",
    "Feat.FloatTimeSeries.C96_text",
    "Feat.FloatTimeSeries.C96_nan",
    "Feat.FloatTimeSeries.C96_small_refuted",
    "Feat.FloatTimeSeries.C96_overflow_refuted"
   ],
   "note": "From texts to texts, on bit patterns of double: within half a millionth plus (n+2)/2^52 of the mean magnitude plus 3/2^1075 of the mean (the code takes the mean, not the median: C63_median_false), when four times the sum of the magnitudes is below the overflow threshold and there are at most 2^51 rows. Outside that it is false: sums overflow to \"inf\" although the mean is finite (C96_overflow_refuted), small means become \"0.000000\" (C96_small_refuted), one text \"nan\" makes the value \"NaN\" (C96_nan)."
  },
  {
   "property": "C97",
   "status": "partial",
   "theorems": [
    "Feat.FloatScalers.C97_reload_partial",
    "Feat.FloatScalers.C97_infinite",
    "Feat.FloatScalers.C97_largest_refuted"
   ],
   "note": "On bit patterns of float and double: loading succeeds and the results differ by at most 8 rounding units (2^-50 for double, 2^-21 for float) when the greatest value and the spread are below half of the overflow threshold (C97_reload_partial); a spread that overflows is restored as it is (C97_infinite). False near the greatest double: there minimum + span can overflow, and the loaded scaler gives 0 for everything (C97_largest_refuted). Equality of the results fails (C68_reload_refuted) unless the spread is representable (C68_reload_exact)."
  },
  {
   "property": "C98",
   "status": "partial",
   "theorems": [
    "Feat.C98_global_partial",
    "Feat.C98_missing",
    "Feat.C37_alone_throws"
   ],
   "note": "For times spanning less than 2^63-1 ticks (C25_long_gap is the exception) and a column on which none of the estimators was used before: exact result or runtime_error, for every interleaving, batching and cap. Without the grained annotation the global estimator throws and changes nothing (C98_missing)."
  },
  {
   "property": "C99",
   "status": "partial",
   "theorems": [
    "Feat.RowCodec.C99_calls",
    "Feat.RowCodec.C99_refused",
    "Feat.RowCodec.C99_complete",
    "Feat.RowCodec.C99_flag_omitted",
    "Feat.RowCodec.C99_bad_rows",
    "Feat.RowCodec.C99_trained",
    "Feat.RowCodec.C99_end_to_end_partial"
   ],
   "note": "Training is covered for all column types. From training to answers: with the median strategy and columns of type float for at most 2^25 training rows (a replacement value is the text of a double; the answer holds the float it is read as); rows given to Transform hold no durations and no times before 1677-09-22 (C66 shows why)."
  },
  {
   "property": "C100",
   "status": "partial",
   "theorems": [
    "Feat.C100_load",
    "Feat.C100_trailing",
    "Feat.C100_time_series",
    "Feat.C100_float_min_max",
    "Feat.C100_pipeline",
    "Feat.C100_grains",
    "Feat.C100_checked",
    "Feat.C100_first_entry",
    "Feat.C100_safe",
    "Feat.C100_reload_partial",
    "Feat.C100_time_series_reload",
    "Feat.C100_undefined_refuted",
    "Feat.C100_lag_lead_refuted"
   ],
   "note": "The behaviour on every byte sequence is proved (C100_load, C100_time_series, C100_pipeline); the promise that it is a transformer or an exception is false of the code for classes with a bool, a matrix, a duration, lag/lead offsets or signed 32/64-bit ranges, and C100_undefined_refuted gives the bytes; it is proved for the others (C100_safe). Reloading fails for lag/lead operators with offsets of 32 bits or more (C100_lag_lead_refuted). Floating point min-max scalers load as described (C100_float_min_max) but need not reload unchanged (C97). Running out of memory for declared sizes is not modelled."
  },
  {
   "property": "C101",
   "status": "partial",
   "theorems": [
    "Feat.C101_lag_lead",
    "Feat.C101_rolling",
    "Feat.FloatWindows.C101_rolling_min",
    "Feat.FloatWindows.C101_rolling_max_partial",
    "Feat.FloatWindows.C101_rolling_mean_partial",
    "Feat.C101_codes",
    "Feat.C101_lag_lead_args",
    "Feat.C101_rolling_args",
    "Feat.C101_training",
    "Feat.C101_rolling_args_refuted",
    "Feat.C101_one_series",
    "Feat.C101_pipeline_training",
    "Feat.C101_pipeline_exec",
    "Feat.C101_pipeline_flush",
    "Feat.C101_pipeline_rows",
    "Feat.Lives.unique"
   ],
   "note": "Proved for horizon plus window below 2^32 and offsets of 32 bits; with a sum of exactly 2^32 the estimator accepts and trains but every row throws (C101_rolling_args_refuted). Maxima of numbers below the smallest normal number are wrong (C82_max_refuted); means need sums in the lower half of the range. Any calculation number but 1 acts as the maximum (C101_codes). The two-stage pipeline around the rolling windows: C101_pipeline_training, C101_pipeline_rows."
  },
  {
   "property": "C102",
   "status": "proved",
   "theorems": [
    "Feat.C102_total",
    "Feat.C102_one_hot",
    "Feat.C102_hash_one_hot",
    "Feat.C102_min_max",
    "Feat.C102_standard",
    "Feat.C102_normalizer",
    "Feat.C102_projection",
    "Feat.C102_lag_lead",
    "Feat.C102_rolling",
    "Feat.C102_strings",
    "Feat.C102_tfidf",
    "Feat.C102_time_series",
    "Feat.C102_date_time",
    "Feat.isNegative_lt"
   ],
   "note": "Negative is the comparison with zero of IEEE doubles, so that a NaN is accepted; integer min-max scalers whose distance does not fit the type and offsets of -2^63 are undefined behaviour (C100_undefined_refuted) and excluded; min-max scalers of floats are in C97."
  },
  {
   "property": "C103",
   "status": "proved",
   "theorems": [
    "Feat.CApi.C103_round_trip",
    "Feat.CApi.C103_any_bytes",
    "Feat.CApi.C103_no_bytes",
    "Feat.CApi.C103_same_answers"
   ],
   "note": "For every transformer with the RoundTrips property (all of the library by C08/C15, with the exceptions named there) and every class with a format (C100); bytes whose reading is undefined behaviour are the crashed case. Refusal of memory is not modelled here."
  },
  {
   "property": "C104",
   "status": "proved",
   "theorems": [
    "Feat.CApi.C104_transformer",
    "Feat.CApi.C104_estimator",
    "Feat.CApi.C104_created",
    "Feat.CApi.C104_made",
    "Feat.CApi.C104_life",
    "Feat.CApi.C104_series",
    "Feat.CApi.C104_backward_fill",
    "Feat.CApi.C104_sights",
    "Feat.CApi.C104_standard",
    "Feat.CApi.C104_pipeline",
    "Feat.CApi.C104_label_encoder"
   ],
   "note": "Calls are served one after the other (threads: C51, C62); histories in which a call does not come back (wrong kind of handle, undefined behaviour of the featurizer) end there. Backward fill for series with fewer than 2^32-1 nulls in a row (C33)."
  },
  {
   "property": "C105",
   "status": "proved",
   "theorems": [
    "Feat.CApi.C105_deployed",
    "Feat.CApi.C105_label_encoder",
    "Feat.CApi.C105_deployment",
    "Feat.CApi.C105_succeeds",
    "Feat.CApi.C105_max_abs",
    "Feat.CApi.C105_max_abs_integers",
    "Feat.CApi.C105_cat_imputer",
    "Feat.CApi.C105_standard_scaler",
    "Feat.CApi.C105_one_hot",
    "Feat.CApi.C105_numericalize",
    "Feat.CApi.C105_median_float",
    "Feat.CApi.C105_median_double",
    "Feat.CApi.C105_median_integers",
    "Feat.CApi.C105_mean",
    "Feat.CApi.C105_mean_integers",
    "Feat.CApi.C105_robust",
    "Feat.CApi.C105_robust_integers",
    "Feat.CApi.C105_reread",
    "Feat.CApi.C105_min_max_double",
    "Feat.CApi.C105_min_max_float",
    "Feat.CApi.C105_min_max_integers",
    "Feat.CApi.C105_min_max_double_close",
    "Feat.CApi.C105_min_max_float_close",
    "Feat.CApi.C105_min_max_refuted",
    "Feat.CApi.C105_any",
    "Feat.CApi.C105_inference",
    "Feat.CApi.C105_inference_function",
    "Feat.CApi.C105_null_indicators",
    "Feat.CApi.C105_hash_one_hot_partial",
    "Feat.CApi.C105_forward_fill",
    "Feat.CApi.C105_to_text",
    "Feat.CApi.C105_from_text",
    "Feat.CApi.C105_there_and_back"
   ],
   "note": "Pipelines with one transforming element behind training-only ones, as all pipelines of the library that learn. Where the state of the transformer does not round-trip (C06, C100 list these), the second process answers as what the archive is read as (C105_reread); for the min-max scaler of float and double that is the same function if the spread of the training values is a number of the type, else possibly another one (C105_min_max_refuted), which is still near exact scaling (C105_min_max_double_close). Label encoder: fewer than 2^32-1 training rows, values that fit the archive format. Max-abs scaler, standard scaler, categorical imputer, one-hot encoder, numericalize, mean and median imputer, robust scaler, min-max scaler: what the second process answers is what C69, C72, C34, C20, C71, C75, C76, C68 and C97 say of the training data. Any featurizer that is no pipeline: C105_any; without training: null indicators, hash encoder (values below 2^31 bytes on little-endian machines, hence _partial) and forward fill, which remembers nothing of the first process."
  },
  {
   "property": "C106",
   "status": "proved",
   "theorems": [
    "Feat.CApi.C106_progress",
    "Feat.CApi.C106_luck",
    "Feat.CApi.C106_trains",
    "Feat.CApi.C106_saves",
    "Feat.CApi.C106_deploys",
    "Feat.CApi.C106_max_abs",
    "Feat.CApi.C106_cat_imputer",
    "Feat.CApi.C106_standard_scaler",
    "Feat.CApi.C106_label_encoder",
    "Feat.CApi.C106_one_hot",
    "Feat.CApi.C106_numericalize",
    "Feat.CApi.C106_median_float",
    "Feat.CApi.C106_median_double",
    "Feat.CApi.C106_median_integers",
    "Feat.CApi.C106_mean",
    "Feat.CApi.C106_mean_integers",
    "Feat.CApi.C106_robust",
    "Feat.CApi.C106_robust_integers",
    "Feat.CApi.C106_deploys_reread",
    "Feat.CApi.C106_min_max",
    "Feat.CApi.C106_min_max_integers",
    "Feat.CApi.C106_min_max_close",
    "Feat.CApi.C106_asks",
    "Feat.CApi.C106_any",
    "Feat.CApi.C106_inference_function",
    "Feat.CApi.C106_forward_fill",
    "Feat.CApi.C106_null_indicators",
    "Feat.CApi.C106_hash_one_hot_partial",
    "Feat.CApi.C106_to_text",
    "Feat.CApi.C106_from_text"
   ],
   "note": "C106_progress is the property for training, with any interleaving; C106_luck shows that free handles and addresses exist as long as fewer than 2^64 - 1 handles were given out; C106_saves is about pipelines of one transformer whose state can be archived. Featurizers that are no pipelines and transformers that remember what they were asked: C106_any; the hash encoder for values below 2^31 bytes on little-endian machines (_partial)."
  }
 ]
}